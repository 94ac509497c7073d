import Verif.Props.Grid

/-!
# Polygon.Verify on a grid: C114
-/
set_option linter.unusedSectionVars false

namespace GoGeo
open GoFloat FloatVal Spec

section
variable {F K : Type} [GoFloat F] [Field K] [LinearOrder K] [IsStrictOrderedRing K] [FloatVal F K]
include K

theorem fanArea_int {B k : ℕ} (hk : k ≤ 500) {ps : List (Point F)} {c : List (K × K)} (hc : GridAll B k ps (c ++ c.take 1))
    (hn : c.length * 2 ^ (2 * B + 1) ≤ 2 ^ 53) (o : K × K) : ∃ T : ℤ, fanArea o c = (T : K) / 2 ^ (k + k + 1) := by
  have hl : (sides c).length = c.length := by simp [sides]
  obtain ⟨T, t1, t2, t3⟩ := areaFold_grid hk (cyc_rel hc) (s := lit 0) (S := 0) (j := 0) (by rw [hl]; simpa using hn) (by simpa using val_lit0) (by simp)
  have hS : ((sides c).map fun e => cross e.1 e.2).sum = 2 * fanArea o c := by
    have e1 : ((sides c).map fun e => cross e.1 e.2).sum = cycSum cross c := by
      unfold sides cycSum
      rw [List.zip_eq_zipWith, List.map_zipWith]
    rw [e1, ← cross_fan o]
    unfold fanArea
    rw [cycSum_congr (f := fun p q => turn o p q / 2) (g := fun p q => (1 / 2) * turn o p q) (by intros; ring), cycSum_mul]
    ring
  rw [hS, Int.cast_zero, zero_div, zero_add] at t2
  refine ⟨T, ?_⟩
  rw [pow_succ, ← div_div, t2]
  ring

/-- a multiple of 2^-41 is below the float64 nearest to 1e-10 exactly if it is below 1e-10 -/
theorem lt_tenth10 {f : F} {n : ℕ} (hf : val f = .fin ((n : K) / 2 ^ 41)) : lt f (dec 1 10) = decide ((n : K) / 2 ^ 41 < 1 / 10 ^ 10) := by
  rw [val_lt, hf, val_dec]
  have r1 := rnd_mono (F := F) (.fin ((439 : ℕ) / 2 ^ 42 : K)) (.fin (((1 : ℕ) : K) / 10 ^ 10)) (by simp only [XR.le, decide_eq_true_eq]; norm_num)
  have r2 := rnd_mono (F := F) (.fin (((1 : ℕ) : K) / 10 ^ 10)) (.fin ((220 : ℕ) / 2 ^ 41 : K)) (by simp only [XR.le, decide_eq_true_eq]; norm_num)
  rw [rnd_frac (F := F) (K := K) 439 42 (by norm_num) (by norm_num)] at r1
  rw [rnd_frac (F := F) (K := K) 220 41 (by norm_num) (by norm_num)] at r2
  by_cases h : n ≤ 219
  · have hn : (n : K) ≤ 219 := by exact_mod_cast h
    have a : (n : K) / 2 ^ 41 < (439 : ℕ) / 2 ^ 42 := by
      rw [div_lt_div_iff₀ (by positivity) (by positivity)]
      push_cast
      norm_num
      linarith
    have b : (n : K) / 2 ^ 41 < 1 / 10 ^ 10 := by
      rw [div_lt_div_iff₀ (by positivity) (by positivity)]
      norm_num
      linarith
    rw [decide_eq_true b]
    revert r1
    generalize FloatVal.rnd F (.fin (((1 : ℕ) : K) / 10 ^ 10)) = r
    intro r1
    cases r <;> simp only [XR.le, XR.lt, decide_eq_true_eq] at r1 ⊢
    all_goals first | exact lt_of_lt_of_le a r1 | simp at r1
  · have hn : (220 : K) ≤ n := by exact_mod_cast (by omega : 220 ≤ n)
    have a : ((220 : ℕ) : K) / 2 ^ 41 ≤ n / 2 ^ 41 := by
      push_cast
      exact div_le_div_of_nonneg_right hn (by positivity)
    have b : ¬ (n : K) / 2 ^ 41 < 1 / 10 ^ 10 := by
      rw [not_lt, div_le_div_iff₀ (by positivity) (by positivity)]
      norm_num
      linarith
    rw [decide_eq_false b]
    revert r2
    generalize FloatVal.rnd F (.fin (((1 : ℕ) : K) / 10 ^ 10)) = r
    intro r2
    cases r <;> simp only [XR.le, XR.lt, decide_eq_true_eq, decide_eq_false_iff_not, not_lt] at r2 ⊢
    all_goals first | exact r2.trans a | simp at r2

/-- **C114 (Verify).** For a closed ring of `n` corners whose coordinates are multiples of `1 / 2^k`, `k ≤ 20`, with numerators up to `2^B`, `B ≤ 24`, and
`n · 2^(2B+1) ≤ 2^53`, `Polygon.Verify` in float64 accepts exactly the polygons that it accepts in exact arithmetic (C71). -/
theorem C114_verify {B k : ℕ} (hB : B ≤ 24) (hk : k ≤ 20) {ps : List (Point F)} {c : List (K × K)} (hc : GridAll B k ps (c ++ c.take 1))
    (hn : c.length * 2 ^ (2 * B + 1) ≤ 2 ^ 53) (holes : List (List (Point F))) :
    PolyVerify (ps :: holes) = none ↔
    3 ≤ c.length ∧ (∀ v ∈ c, |v.1| ≤ 90 ∧ |v.2| ≤ 180) ∧ 1 / 10 ^ 10 ≤ |fanArea (0, 0) c| ∧
    ¬ ∃ (i j : Nat) (e d : (K × K) × (K × K)), i < j ∧ j + 1 < c.length ∧ (sides c)[i]? = some e ∧ (sides c)[j]? = some d ∧
        ProperCross e.1 e.2 d.1 d.2 := by
  unfold PolyVerify
  have hr : GetExteriorRing (ps :: holes) = ps := rfl
  simp only [hr]
  have hlen := hc.length_eq
  rcases c with _ | ⟨a, l⟩
  · rw [if_pos (by simp at hlen; simp [hlen])]
    simp
  have hlen' : ps.length = (a :: l).length + 1 := by rw [hlen]; simp
  have e1 : (ps.length : Int) - 1 < 3 ↔ ¬ 3 ≤ (a :: l).length := by
    rw [hlen']
    push_cast
    omega
  have hd : List.Forall₂ (fun p x => At p x ∧ OnGrid B k x) ps.dropLast (a :: l) := by
    have := forall₂_dropLast hc
    rwa [show (a :: l) ++ (a :: l).take 1 = (a :: l) ++ [a] from rfl, List.dropLast_concat] at this
  have e2 : ps.dropLast.any verifyOut = true ↔ ¬ ∀ v ∈ a :: l, |v.1| ≤ 90 ∧ |v.2| ≤ 180 := by
    have key : ∀ {p : Point F} {v : K × K}, At p v → (verifyOut p = true ↔ ¬ (|v.1| ≤ 90 ∧ |v.2| ≤ 180)) := by
      intro p v hp
      have v90 : val (lit 90 : F) = .fin (90 : K) := by simpa using fval_nat (F := F) (K := K) 90 (by norm_num)
      have v180 : val (lit 180 : F) = .fin (180 : K) := by simpa using fval_nat (F := F) (K := K) 180 (by norm_num)
      have vl : ∀ a b : F, lt a b = XR.lt (val a) (val b) := val_lt
      simp only [verifyOut, GoFloat.gt, vl, val_neg, v90, v180, hp.1, hp.2, XR.neg, XR.lt, Bool.or_eq_true, decide_eq_true_eq, abs_le]
      constructor
      · rintro (((h | h) | h) | h) ⟨⟨h1, h2⟩, h3, h4⟩ <;> linarith
      · intro h
        by_contra hn
        simp only [not_or, not_lt] at hn
        exact h ⟨⟨hn.1.1.2, hn.1.1.1⟩, hn.2, hn.1.2⟩
    generalize a :: l = m at hd
    generalize ps.dropLast = qs at hd
    induction hd with
    | nil => simp
    | cons h _ ih =>
      rw [List.any_cons, Bool.or_eq_true, List.forall_mem_cons, not_and_or]
      exact or_congr (key h.1) ih
  have e3 : GoFloat.lt (GetArea (.polygon (ps :: holes))) (GoFloat.dec 1 10) = true ↔ ¬ 1 / 10 ^ 10 ≤ |fanArea (0, 0) (a :: l)| := by
    obtain ⟨T, hT⟩ := fanArea_int (by omega) hc hn (0, 0)
    have e : |fanArea (0, 0) (a :: l)| = ((T.natAbs * 2 ^ (40 - (k + k)) : ℕ) : K) / 2 ^ 41 := by
      rw [hT, abs_div, abs_of_pos (show (0 : K) < 2 ^ (k + k + 1) by positivity)]
      have : (2 : K) ^ 41 = 2 ^ (k + k + 1) * 2 ^ (40 - (k + k)) := by rw [← pow_add]; congr 1; omega
      rw [this]
      push_cast
      rw [mul_div_mul_right _ _ (by positivity), Nat.cast_natAbs, Int.cast_abs]
    have hv := C114_area (by omega) hc hn (0, 0) holes
    rw [e] at hv ⊢
    rw [lt_tenth10 hv]
    simp
  have e4 := C114_selfIntersect (k := k) (by omega) (hc.imp fun p x h => ⟨h.1, by
    obtain ⟨m, n, h1, h2, e⟩ := h.2
    exact ⟨m, n, h1.trans (pow_le_pow_right₀ (by norm_num) hB), h2.trans (pow_le_pow_right₀ (by norm_num) hB), e⟩⟩) holes
  split_ifs with h1 h2 h3 h4
  · simp only [reduceCtorEq, false_iff]; exact fun h => e1.1 h1 h.1
  · simp only [reduceCtorEq, false_iff]; exact fun h => e2.1 h2 h.2.1
  · simp only [reduceCtorEq, false_iff]; exact fun h => e3.1 h3 h.2.2.1
  · simp only [reduceCtorEq, false_iff]; exact fun h => h.2.2.2 (e4.1 h4)
  · simp only [true_iff]
    exact ⟨not_not.1 fun h => h1 (e1.2 h), not_not.1 fun h => h2 (e2.2 h), not_not.1 fun h => h3 (e3.2 h), fun h => h4 (e4.2 h)⟩

end

/-- C114_verify accepts a triangle and rejects a ring with a crossing -/
example : PolyVerify [[fpt 0 0, fpt 3 0, fpt 0 1, fpt 0 0]] = none := by
  have h1 := fpt_grid [(0, 0), (3, 0), (0, 1), (0, 0)] 24 (by norm_num) (by decide)
  refine (C114_verify (c := [((0 : ℚ), (0 : ℚ)), (3, 0), (0, 1)]) (B := 24) (k := 0) (by norm_num) (by norm_num) (by simpa using h1) (by norm_num) []).2
    ⟨by simp, by simp; norm_num, ?_, ?_⟩
  · have e : fanArea (0 : ℚ × ℚ) [(0, 0), (3, 0), (0, 1)] = 3 / 2 := by simp [fanArea, cycSum, turn]
    erw [e]
    norm_num
  · rintro ⟨i, j, e, d, hij, hj, he, hd, -, x, ⟨⟨t, t1, t2, t3⟩, ⟨u, u1, u2, u3⟩⟩, -⟩
    simp only [List.length_cons, List.length_nil] at hj
    obtain rfl : i = 0 := by omega
    obtain rfl : j = 1 := by omega
    simp [sides] at he hd
    subst he hd
    rw [t3] at u3
    have := congrArg Prod.snd u3
    simp [along] at this
    linarith

example : PolyVerify [[fpt 0 0, fpt 4 4, fpt 4 0, fpt 0 3, fpt 0 0]] ≠ none := by
  have h1 := fpt_grid [(0, 0), (4, 4), (4, 0), (0, 3), (0, 0)] 24 (by norm_num) (by decide)
  intro h
  have := ((C114_verify (c := [((0 : ℚ), (0 : ℚ)), (4, 4), (4, 0), (0, 3)]) (B := 24) (k := 0) (by norm_num) (by norm_num) (by simpa using h1) (by norm_num) []).1 h).2.2.2
  refine this ⟨0, 2, _, _, by norm_num, by simp, rfl, rfl, by unfold Parallel; norm_num, (12 / 7, 12 / 7), ⟨⟨3 / 7, ?_⟩, ⟨4 / 7, ?_⟩⟩, ?_⟩
  · norm_num [along]
  · norm_num [along]
  · rintro x ⟨⟨t, -, -, rfl⟩, ⟨u, -, -, hu⟩⟩
    have a := congrArg Prod.fst hu
    have b := congrArg Prod.snd hu
    simp [along] at a b
    have : t = 3 / 7 := by linarith
    subst this
    norm_num [along]

end GoGeo
