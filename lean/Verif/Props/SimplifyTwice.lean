import Verif.Props.SimplifyAgain

/-!
# Simplifying in two steps: C148

`Splits line t srid s e ks`: processing the pair `(s, e)` with the threshold `t` keeps exactly the positions `ks` between them.
-/

set_option linter.unusedSectionVars false

namespace GoGeo
open GoFloat Spec

section
variable {F : Type} [GoMath F] [FloatOrd F]

theorem splits_unique {line : List (Point F)} {t : F} {srid : Int} {s e : Nat} {ks ks' : List Nat} (h : Splits line t srid s e ks) (h' : Splits line t srid s e ks') :
    ks = ks' := by
  induction h generalizing ks' with
  | stop h1 h2 =>
    cases h' with
    | stop _ _ => rfl
    | split g1 g2 _ _ _ _ => rw [h1] at g1; cases g1; rw [h2] at g2; cases g2
  | split h1 h2 _ _ _ _ ih1 ih2 =>
    cases h' with
    | stop g1 g2 => rw [h1] at g1; cases g1; rw [h2] at g2; cases g2
    | split g1 g2 _ _ g3 g4 =>
      rw [h1] at g1; cases g1
      rw [ih1 g3, ih2 g4]

/-- on the line of the points kept with a threshold, a larger threshold makes the splits it makes on the line itself -/
theorem splits_sub (line r : List (Point F)) (t t' : F) (srid : Int) (hth : gt (lit 0) t = false) (hth' : gt (lit 0) t' = false)
    (hle : ∀ M : F, gt M t' = true → gt M t = true) (K : List Nat)
    (hK : K.map (line[·]?) = r.map some) (hinc : K.Pairwise (· < ·)) {s e : Nat} {ks : List Nat} (hs : Splits line t srid s e ks) :
    ∀ l₁ l₂, K = l₁ ++ (s :: ks ++ e :: l₂) → ∀ ks', Splits line t' srid s e ks' →
      ∃ js, Splits r t' srid l₁.length (l₁.length + ks.length + 1) js ∧ js.map (K.getD · 0) = ks' := by
  have hlen : K.length = r.length := by
    have := congrArg List.length hK
    simpa only [List.length_map] using this
  have hval : ∀ i ∈ K, i < line.length := by
    intro i hi
    have : line[i]? ∈ r.map some := by rw [← hK]; exact List.mem_map.2 ⟨i, hi, rfl⟩
    obtain ⟨x, _, hx⟩ := List.mem_map.1 this
    exact (List.getElem?_eq_some_iff.1 hx.symm).1
  have hmono : ∀ i j, i < j → j < K.length → K.getD i 0 < K.getD j 0 := by
    intro i j hij hj
    have := List.pairwise_iff_getElem.1 hinc i j (by omega) hj hij
    simpa [List.getD_eq_getElem?_getD, show i < K.length by omega, hj] using this
  induction hs with
  | @stop s e M k h1 h2 =>
    intro l₁ l₂ hk ks' hs'
    have hb : between l₁.length (l₁.length + ([] : List Nat).length + 1) = [] := by simp [between]
    have hm : dpMax r srid l₁.length (l₁.length + ([] : List Nat).length + 1) = .ok (lit 0, 0) := by
      unfold dpMax; rw [hb]; rfl
    cases hs' with
    | stop _ _ => exact ⟨[], .stop hm hth', rfl⟩
    | split g1 g2 _ _ _ _ =>
      rw [h1] at g1; cases g1
      rw [hle M g2] at h2; cases h2
  | @split s e M k ks₁ ks₂ h1 h2 hsk hke _ _ ih1 ih2 =>
    intro l₁ l₂ hk ks' hs'
    have kA : K = l₁ ++ (s :: ks₁ ++ k :: (ks₂ ++ e :: l₂)) := by rw [hk]; simp
    have kB : K = (l₁ ++ s :: ks₁) ++ (k :: ks₂ ++ e :: l₂) := by rw [hk]; simp
    have hKl : K.length = l₁.length + ks₁.length + ks₂.length + 3 + l₂.length := by rw [hk]; simp; omega
    have ga : K.getD l₁.length 0 = s := by rw [hk]; simp [List.getD_eq_getElem?_getD]
    have gc : K.getD (l₁.length + ks₁.length + 1) 0 = k := by
      rw [kB, List.getD_eq_getElem?_getD, List.getElem?_append_right (by simp; omega)]
      simp [show l₁.length + ks₁.length + 1 - (l₁.length + (ks₁.length + 1)) = 0 by omega]
    have gb : K.getD (l₁.length + (ks₁ ++ k :: ks₂).length + 1) 0 = e := by
      have kC : K = (l₁ ++ s :: ks₁ ++ k :: ks₂) ++ e :: l₂ := by rw [hk]; simp
      rw [kC, List.getD_eq_getElem?_getD, List.getElem?_append_right (by simp; omega)]
      simp only [List.length_append, List.length_cons]
      rw [show l₁.length + (ks₁.length + (ks₂.length + 1)) + 1 - (l₁.length + (ks₁.length + 1) + (ks₂.length + 1)) = 0 by omega]
      rfl
    have hsl : s < line.length := hval s (by rw [hk]; simp)
    have hel : e < line.length := hval e (by rw [hk]; simp)
    obtain ⟨m1, m2, m3, m4⟩ := dpMax_first line t srid hth s e hsl hel M k h1 h2
    have hch : ∀ i, i < K.length → chord r srid l₁.length (l₁.length + (ks₁ ++ k :: ks₂).length + 1) i = chord line srid s e (K.getD i 0) := by
      intro i hi
      rw [chord_sub line r srid K hK _ _ _ (by omega) (by simp only [List.length_append, List.length_cons]; omega) hi, ga, gb]
    have hc := hch (l₁.length + ks₁.length + 1) (by omega)
    rw [gc, ← m1] at hc
    have hmax : dpMax r srid l₁.length (l₁.length + (ks₁ ++ k :: ks₂).length + 1) = .ok (M, l₁.length + ks₁.length + 1) := by
      rw [← hc]
      have hL : (ks₁ ++ k :: ks₂).length = ks₁.length + (ks₂.length + 1) := by simp
      apply dpMax_of_first
      · omega
      · omega
      · omega
      · omega
      · rw [hc]; exact m2
      · intro i hi1 hi2
        rw [hc, hch i (by omega)]
        apply m3
        · rw [← ga]; exact hmono _ _ hi1 (by omega)
        · rw [← gb]; exact hmono _ _ hi2 (by omega)
      · intro i hi1 hi2
        rw [hc, hch i (by omega)]
        apply m4
        · rw [← ga]; exact hmono _ _ hi1 (by omega)
        · rw [← gb]; exact hmono _ _ (by omega) (by omega)
        · rw [← gc]; exact hmono _ _ hi2 (by omega)
    cases hs' with
    | stop g1 g2 =>
      rw [h1] at g1; cases g1
      exact ⟨[], .stop hmax g2, rfl⟩
    | split g1 g2 _ _ g3 g4 =>
      rw [h1] at g1; cases g1
      obtain ⟨j1, a1, b1⟩ := ih1 l₁ (ks₂ ++ e :: l₂) kA _ g3
      obtain ⟨j2, a2, b2⟩ := ih2 (l₁ ++ s :: ks₁) l₂ kB _ g4
      have e1 : (l₁ ++ s :: ks₁).length = l₁.length + ks₁.length + 1 := by simp; omega
      have e2 : l₁.length + (ks₁ ++ k :: ks₂).length + 1 = (l₁ ++ s :: ks₁).length + ks₂.length + 1 := by simp; omega
      refine ⟨j1 ++ (l₁.length + ks₁.length + 1) :: j2, .split hmax g2 (by omega) (by simp) a1 ?_, ?_⟩
      · rw [e2, ← e1]; exact a2
      · rw [List.map_append, List.map_cons, b1, b2, gc]

/-- **C148.** Simplifying with a threshold and then with one that is not smaller gives the same line as simplifying with the second threshold at once.  In particular the coarser
line is a subsequence of the finer one. -/
theorem C148_twice (srt : GoSort) (hsrt : SortOk srt) (grow : Nat → Nat → Nat) (m : Mem (Point F)) (line : Slice) (hv : m.Valid line) (t t' : F)
    (srid : Int) (ht : lt t (lit 0) = false) (htt : le t t' = true) (hlen : 2 ≤ (m.read line).length) :
    ∃ n, ∀ fuel, n ≤ fuel → ∃ m₁ l₁ m₂ l₂ m₃ l₃, DouglasPeuckerSimplify srt grow fuel m line t srid = .ok (m₁, l₁) ∧
      DouglasPeuckerSimplify srt grow fuel m₁ l₁ t' srid = .ok (m₂, l₂) ∧ DouglasPeuckerSimplify srt grow fuel m line t' srid = .ok (m₃, l₃) ∧
      m₂.read l₂ = m₃.read l₃ ∧ (m₃.read l₃).Sublist (m₁.read l₁) := by
  have hle : ∀ M : F, gt M t' = true → gt M t = true := fun M h => lt_of_le_of_lt' htt h
  have ht' : gt (lit 0) t' = false := by
    by_contra hn
    rw [Bool.not_eq_false] at hn
    have : lt t (lit 0) = true := lt_of_le_of_lt' htt hn
    rw [ht] at this; cases this
  obtain ⟨n, h⟩ := dp_run srt hsrt grow m line hv t srid ht hlen (fun _ _ => True) (fun _ _ _ _ _ _ _ _ => ⟨trivial, trivial⟩) trivial
  obtain ⟨m₁, l₁, K, a1, a2, a3, a4, a5, a6, -, -, ks, a9, a10⟩ := h n le_rfl
  have hl : (m₁.read l₁).length = ks.length + 2 := by
    have := congrArg List.length a6
    simp only [List.length_map, a9, List.length_append, List.length_cons, List.length_nil] at this
    omega
  obtain ⟨n', h'⟩ := dp_run srt hsrt grow m₁ l₁ a2 t' srid ht' (by omega) (fun _ _ => True) (fun _ _ _ _ _ _ _ _ => ⟨trivial, trivial⟩) trivial
  obtain ⟨m₂, l₂, K₂, b1, b2, b3, b4, b5, b6, -, -, ks₂, b9, b10⟩ := h' n' le_rfl
  obtain ⟨n'', h''⟩ := dp_run srt hsrt grow m line hv t' srid ht' hlen (fun _ _ => True) (fun _ _ _ _ _ _ _ _ => ⟨trivial, trivial⟩) trivial
  obtain ⟨m₃, l₃, K₃, c1, c2, c3, c4, c5, c6, -, -, ks₃, c9, c10⟩ := h'' n'' le_rfl
  obtain ⟨n4, h4⟩ := C46_simplify srt hsrt grow m₁ l₁ a2 t' srid ht' (by omega)
  obtain ⟨m₄, l₄, d1, -, d3, -⟩ := h4 (max n4 n') (le_max_left _ _)
  have hsame := simplify_mono srt grow m₁ l₁ t' srid (le_max_right n4 n') _ b1
  rw [d1] at hsame
  cases hsame
  obtain ⟨js, e1, e2⟩ := splits_sub (m.read line) (m₁.read l₁) t t' srid ht ht' hle K a6 a3 a10 [] [] (by rw [a9]; simp) ks₃ c10
  have hjs : js = ks₂ := by
    apply splits_unique e1
    rw [show ([] : List Nat).length + ks.length + 1 = (m₁.read l₁).length - 1 by rw [hl]; simp]
    exact b10
  subst hjs
  have hread : m₂.read l₂ = m₃.read l₃ := by
    have hinj : Function.Injective (List.map (some : Point F → Option (Point F))) := List.map_injective_iff.2 (Option.some_injective _)
    apply hinj
    rw [← b6, ← c6, b9, c9, ← e2]
    have hget : ∀ i, i < K.length → (m₁.read l₁)[i]? = (m.read line)[K.getD i 0]? := by
      intro i hi
      have := congrArg (·[i]?) a6
      simp only [List.getElem?_map, List.getElem?_eq_getElem hi, Option.map_some] at this
      rw [List.getD_eq_getElem?_getD, List.getElem?_eq_getElem hi, Option.getD_some]
      cases hx : (m₁.read l₁)[i]? with
      | none => rw [hx] at this; simp at this
      | some x => rw [hx] at this; simpa using this.symm
    have hKl : K.length = ks.length + 2 := by rw [a9]; simp
    have hK0 : K.getD 0 0 = 0 := by rw [a9]; simp
    have hKe : K.getD (ks.length + 1) 0 = (m.read line).length - 1 := by
      rw [a9, List.getD_eq_getElem?_getD, List.getElem?_append_right (by simp)]; simp
    have hjl : ∀ j ∈ js, j < K.length := by
      intro j hj
      rw [b9, List.cons_append, List.pairwise_cons, List.pairwise_append] at b3
      have := b3.2.2.2 j hj _ (List.mem_singleton.2 rfl)
      omega
    simp only [List.map_append, List.map_cons, List.map_nil, List.cons_append, List.map_map]
    congr 1
    · rw [hget 0 (by omega), hK0]
    congr 1
    · apply List.map_congr_left
      intro j hj
      exact hget j (hjl j hj)
    · rw [hl, show ks.length + 2 - 1 = ks.length + 1 by omega, hget _ (by omega), hKe]
  refine ⟨max n (max n' n''), fun fuel hf => ⟨m₁, l₁, m₂, l₂, m₃, l₃, simplify_mono srt grow m line t srid (by omega) _ a1,
    simplify_mono srt grow m₁ l₁ t' srid (by omega) _ b1, simplify_mono srt grow m line t' srid (by omega) _ c1, hread, ?_⟩⟩
  rw [← hread]
  exact simplifies_sublist d3

end

/-- **C148 (float64).** -/
theorem C148_float64 (srt : GoSort) (hsrt : SortOk srt) (grow : Nat → Nat → Nat) (m : Mem (Point Float)) (line : Slice) (hv : m.Valid line) (t t' : Float)
    (srid : Int) (ht : 0 ≤ t) (htt : t ≤ t') (hlen : 2 ≤ (m.read line).length) :
    ∃ n, ∀ fuel, n ≤ fuel → ∃ m₁ l₁ m₂ l₂ m₃ l₃, DouglasPeuckerSimplify srt grow fuel m line t srid = .ok (m₁, l₁) ∧
      DouglasPeuckerSimplify srt grow fuel m₁ l₁ t' srid = .ok (m₂, l₂) ∧ DouglasPeuckerSimplify srt grow fuel m line t' srid = .ok (m₃, l₃) ∧
      m₂.read l₂ = m₃.read l₃ ∧ (m₃.read l₃).Sublist (m₁.read l₁) :=
  have hle : le (lit 0 : Float) t = true := ht
  C148_twice srt hsrt grow m line hv t t' srid ((lt_false_iff (FloatOrd.le_right _ _ hle) (FloatOrd.le_left _ _ hle)).2 hle) htt hlen

/-- non-vacuity: three lines of detail of one line -/
example : (DouglasPeuckerSimplify (F := Float) insSort (fun _ _ => 0) 10 ⟨[[⟨0,0⟩, ⟨1,2⟩, ⟨2,8⟩, ⟨3,7⟩, ⟨4,0⟩]]⟩ ⟨0,0,5,5⟩ 0.25 0).map (fun r => r.1.read r.2) =
      .ok [⟨0,0⟩, ⟨1,2⟩, ⟨2,8⟩, ⟨3,7⟩, ⟨4,0⟩] ∧
    (DouglasPeuckerSimplify (F := Float) insSort (fun _ _ => 0) 10 ⟨[[⟨0,0⟩, ⟨1,2⟩, ⟨2,8⟩, ⟨3,7⟩, ⟨4,0⟩]]⟩ ⟨0,0,5,5⟩ 0.6 0).map (fun r => r.1.read r.2) =
      .ok [⟨0,0⟩, ⟨2,8⟩, ⟨3,7⟩, ⟨4,0⟩] ∧
    (DouglasPeuckerSimplify (F := Float) insSort (fun _ _ => 0) 10 ⟨[[⟨0,0⟩, ⟨1,2⟩, ⟨2,8⟩, ⟨3,7⟩, ⟨4,0⟩]]⟩ ⟨0,0,5,5⟩ 2 0).map (fun r => r.1.read r.2) =
      .ok [⟨0,0⟩, ⟨2,8⟩, ⟨4,0⟩] := by decide +kernel

end GoGeo
