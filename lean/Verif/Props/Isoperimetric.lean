import Verif.Props.StableArea
import Mathlib.Analysis.SpecialFunctions.Integrals.Basic
import Mathlib.Analysis.Calculus.Deriv.MeanValue

/-!
# The isoperimetric inequality for the area and the length of a ring: C158

Schmidt's argument: the ring is compared, side by side, with the circle in the strip between its leftmost and its rightmost corner.
-/

namespace GoGeo.Region
open GoFloat FloatVal Spec MeasureTheory

/-- the area under the circle of radius `r` from 0 to `x` -/
noncomputable def cap (r x : ℝ) : ℝ := ∫ t in (0 : ℝ)..x, √(r ^ 2 - t ^ 2)

theorem cap_deriv (r x : ℝ) : HasDerivAt (cap r) (√(r ^ 2 - x ^ 2)) x := by
  have hc : Continuous fun t : ℝ => √(r ^ 2 - t ^ 2) := by fun_prop
  exact (hc.integral_hasStrictDerivAt 0 x).hasDerivAt

theorem cap_full {r : ℝ} (h : 0 ≤ r) : cap r r - cap r (-r) = Real.pi * r ^ 2 / 2 := by
  have hc : Continuous fun t : ℝ => √(r ^ 2 - t ^ 2) := by fun_prop
  unfold cap
  rw [intervalIntegral.integral_interval_sub_left (hc.intervalIntegrable _ _) (hc.intervalIntegrable _ _)]
  have e := intervalIntegral.smul_integral_comp_mul_left (a := (-1 : ℝ)) (b := 1) (fun t : ℝ => √(r ^ 2 - t ^ 2)) r
  rw [mul_neg, mul_one] at e
  rw [← e]
  have : (fun x : ℝ => √(r ^ 2 - (r * x) ^ 2)) = fun x => r * √(1 - x ^ 2) := by
    funext x
    rw [show r ^ 2 - (r * x) ^ 2 = r ^ 2 * (1 - x ^ 2) by ring, Real.sqrt_mul (sq_nonneg r), Real.sqrt_sq h]
  rw [this, intervalIntegral.integral_const_mul, integral_sqrt_one_sub_sq, smul_eq_mul]
  ring

theorem cap_side {r m τ σ : ℝ} {p q : ℝ × ℝ} (h : 0 ≤ r) (hp : |p.1 - m| ≤ r) (hq : |q.1 - m| ≤ r) (hτ : τ ^ 2 = 1) (hσ : σ ^ 2 = 1) :
    τ * (((p.1 + q.1) / 2 - m) * (q.2 - p.2)) + σ * (cap r (q.1 - m) - cap r (p.1 - m)) ≤ r * eucl p q := by
  let f : ℝ → ℝ := fun t => τ * (((p.1 - m) * t + (q.1 - p.1) * (t ^ 2 / 2)) * (q.2 - p.2)) + σ * cap r (p.1 - m + (q.1 - p.1) * t)
  let f' : ℝ → ℝ := fun t => τ * (((p.1 - m) + (q.1 - p.1) * t) * (q.2 - p.2)) + σ * (√(r ^ 2 - (p.1 - m + (q.1 - p.1) * t) ^ 2) * (q.1 - p.1))
  have hd : ∀ t, HasDerivAt f (f' t) t := by
    intro t
    have i : HasDerivAt (fun t : ℝ => t) 1 t := hasDerivAt_id t
    have lin : HasDerivAt (fun t : ℝ => p.1 - m + (q.1 - p.1) * t) (q.1 - p.1) t := by
      simpa using (i.const_mul (q.1 - p.1)).const_add (p.1 - m)
    have g := ((cap_deriv r (p.1 - m + (q.1 - p.1) * t)).comp t lin).const_mul σ
    have sq : HasDerivAt (fun t : ℝ => t ^ 2 / 2) t t := by
      have := (i.pow 2).div_const 2
      exact this.congr_deriv (by norm_num)
    have k := ((((i.const_mul (p.1 - m)).add (sq.const_mul (q.1 - p.1))).mul_const (q.2 - p.2)).const_mul τ).add g
    exact k.congr_deriv (by show _ = τ * _ + σ * _; ring)
  obtain ⟨t, ht, e⟩ := exists_hasDerivAt_eq_slope f f' (zero_lt_one (α := ℝ)) (fun t _ => (hd t).continuousAt.continuousWithinAt) (fun t _ => hd t)
  have hx : |p.1 - m + (q.1 - p.1) * t| ≤ r := by
    rw [abs_le] at *
    constructor <;> nlinarith [ht.1, ht.2, hp.1, hp.2, hq.1, hq.2]
  have h0 : 0 ≤ r ^ 2 - (p.1 - m + (q.1 - p.1) * t) ^ 2 := by
    have := sq_le_sq' (abs_le.1 hx).1 (abs_le.1 hx).2
    linarith
  have hs := Real.sq_sqrt h0
  have fe : f 1 - f 0 = τ * (((p.1 + q.1) / 2 - m) * (q.2 - p.2)) + σ * (cap r (q.1 - m) - cap r (p.1 - m)) := by
    show (τ * (((p.1 - m) * 1 + (q.1 - p.1) * (1 ^ 2 / 2)) * (q.2 - p.2)) + σ * cap r (p.1 - m + (q.1 - p.1) * 1)) -
      (τ * (((p.1 - m) * 0 + (q.1 - p.1) * (0 ^ 2 / 2)) * (q.2 - p.2)) + σ * cap r (p.1 - m + (q.1 - p.1) * 0)) = _
    rw [show p.1 - m + (q.1 - p.1) * 1 = q.1 - m by ring, show p.1 - m + (q.1 - p.1) * 0 = p.1 - m by ring]
    ring
  rw [fe, sub_zero, div_one] at e
  rw [← e]
  have hr : r * eucl p q = √(r ^ 2 * ((p.1 - q.1) ^ 2 + (p.2 - q.2) ^ 2)) := by
    unfold eucl
    rw [Real.sqrt_mul (sq_nonneg r), Real.sqrt_sq h]
  rw [hr]
  apply Real.le_sqrt_of_sq_le
  show (τ * (((p.1 - m) + (q.1 - p.1) * t) * (q.2 - p.2)) + σ * (√(r ^ 2 - (p.1 - m + (q.1 - p.1) * t) ^ 2) * (q.1 - p.1))) ^ 2 ≤ _
  generalize √(r ^ 2 - (p.1 - m + (q.1 - p.1) * t) ^ 2) = s at *
  generalize p.1 - m + (q.1 - p.1) * t = x at *
  have hr2 : r ^ 2 = s ^ 2 + x ^ 2 := by linarith
  rw [hr2]
  have key : (s ^ 2 + x ^ 2) * ((p.1 - q.1) ^ 2 + (p.2 - q.2) ^ 2) - (τ * (x * (q.2 - p.2)) + σ * (s * (q.1 - p.1))) ^ 2 =
      (τ * (s * (q.2 - p.2)) - σ * (x * (q.1 - p.1))) ^ 2 := by
    linear_combination (- x ^ 2 * (q.2 - p.2) ^ 2 - s ^ 2 * (q.2 - p.2) ^ 2) * hτ + (- s ^ 2 * (q.1 - p.1) ^ 2 - x ^ 2 * (q.1 - p.1) ^ 2) * hσ
  nlinarith [sq_nonneg (τ * (s * (q.2 - p.2)) - σ * (x * (q.1 - p.1)))]

theorem segments_tel {α : Type} (g : α → ℝ) : ∀ (l : List α) (a b : α), ((segments (a :: l ++ [b])).map fun e => g e.2 - g e.1).sum = g b - g a
  | [], a, b => by simp [segments]
  | x :: l, a, b => by
    have := segments_tel g l x b
    have e : segments (a :: x :: l ++ [b]) = (a, x) :: segments (x :: l ++ [b]) := by simp [segments]
    rw [e, List.map_cons, List.sum_cons, this]
    ring

theorem segments_split {α : Type} (b : α) (y : List α) : ∀ x : List α, segments (x ++ b :: y) = segments (x ++ [b]) ++ segments (b :: y)
  | [] => by simp [segments]
  | [a] => by simp [segments]
  | a :: a' :: x => by
    have := segments_split b y (a' :: x)
    simp only [segments, List.cons_append, List.tail_cons, List.zip_cons_cons] at this ⊢
    rw [this]

theorem sides_segments {α : Type} (a : α) (l : List α) : sides (a :: l) = segments (a :: l ++ [a]) := by
  have := List.zip_append (l₁ := a :: l) (r₁ := [a]) (l₂ := l ++ [a]) (r₂ := []) (by simp)
  simpa [sides, segments] using this.symm

theorem sides_split {α : Type} (a b : α) (u w : List α) : sides (a :: u ++ b :: w) = segments (a :: u ++ [b]) ++ segments (b :: w ++ [a]) := by
  rw [List.cons_append, sides_segments, ← List.cons_append, List.append_assoc]
  exact segments_split b (w ++ [a]) (a :: u)

theorem schmidt {r m τ : ℝ} {a b : ℝ × ℝ} {u w : List (ℝ × ℝ)} (h : 0 ≤ r) (hτ : τ ^ 2 = 1) (ha : a.1 = m - r) (hb : b.1 = m + r)
    (hr : ∀ x ∈ a :: u ++ b :: w, |x.1 - m| ≤ r) : τ * fanArea (0, 0) (a :: u ++ b :: w) + Real.pi * r ^ 2 ≤ r * around (a :: u ++ b :: w) := by
  have part : ∀ (σ : ℝ) (_ : σ ^ 2 = 1) (es : List ((ℝ × ℝ) × (ℝ × ℝ))), (∀ e ∈ es, |e.1.1 - m| ≤ r ∧ |e.2.1 - m| ≤ r) →
      τ * (es.map fun e => turn (0, 0) e.1 e.2 / 2).sum + τ * (es.map fun e => (e.2.1 / 2 - m) * e.2.2 - (e.1.1 / 2 - m) * e.1.2).sum
        + σ * (es.map fun e => cap r (e.2.1 - m) - cap r (e.1.1 - m)).sum ≤ r * (es.map fun e => eucl e.1 e.2).sum := by
    intro σ hσ es hes
    induction es with
    | nil => simp
    | cons e es ih =>
      have ih' := ih fun e he => hes e (by simp [he])
      obtain ⟨h1, h2⟩ := hes e (by simp)
      have k := cap_side h h1 h2 hτ hσ
      simp only [List.map_cons, List.sum_cons]
      have e0 : τ * (((e.1.1 + e.2.1) / 2 - m) * (e.2.2 - e.1.2)) = τ * (turn (0, 0) e.1 e.2 / 2) + τ * ((e.2.1 / 2 - m) * e.2.2 - (e.1.1 / 2 - m) * e.1.2) := by
        unfold turn; ring
      rw [e0] at k
      linarith
  have mem : ∀ {x y : ℝ × ℝ} {l : List (ℝ × ℝ)} {e}, e ∈ segments (x :: l ++ [y]) → (e.1 ∈ x :: l ++ [y]) ∧ e.2 ∈ x :: l ++ [y] := by
    intro x y l e he
    unfold segments at he
    exact ⟨(List.of_mem_zip he).1, List.mem_of_mem_tail (List.of_mem_zip he).2⟩
  have r1 : ∀ x ∈ a :: u ++ [b], |x.1 - m| ≤ r := by
    intro x hx
    apply hr
    simp only [List.cons_append, List.mem_cons, List.mem_append, List.not_mem_nil, or_false] at hx ⊢
    tauto
  have r2 : ∀ x ∈ b :: w ++ [a], |x.1 - m| ≤ r := by
    intro x hx
    apply hr
    simp only [List.cons_append, List.mem_cons, List.mem_append, List.not_mem_nil, or_false] at hx ⊢
    tauto
  have p1 := part 1 (by norm_num) (segments (a :: u ++ [b])) fun e he => ⟨r1 _ (mem he).1, r1 _ (mem he).2⟩
  have p2 := part (-1) (by norm_num) (segments (b :: w ++ [a])) fun e he => ⟨r2 _ (mem he).1, r2 _ (mem he).2⟩
  rw [segments_tel (fun x : ℝ × ℝ => (x.1 / 2 - m) * x.2), segments_tel (fun x : ℝ × ℝ => cap r (x.1 - m))] at p1 p2
  unfold fanArea around
  rw [cycSum_sides, sides_split, List.map_append, List.map_append, List.sum_append, List.sum_append]
  have full := cap_full h
  have ea : a.1 - m = -r := by linarith
  have eb : b.1 - m = r := by linarith
  rw [ea, eb] at p1 p2
  linarith

theorem isoperimetric (c : List (ℝ × ℝ)) : 4 * Real.pi * |fanArea (0, 0) c| ≤ around c ^ 2 := by
  by_cases hc : c = []
  · subst hc; simp [fanArea, cycSum, around, sides]
  have fin : {x | x ∈ c}.Finite := List.finite_toSet c
  have hne : {x | x ∈ c}.Nonempty := by obtain ⟨y, hy⟩ := List.exists_mem_of_ne_nil c hc; exact ⟨y, hy⟩
  obtain ⟨a, ha, hmin⟩ := fin.exists_minimalFor (fun x => x.1) _ hne
  obtain ⟨b, hb, hmax⟩ := fin.exists_maximalFor (fun x => x.1) _ hne
  have hlo : ∀ y ∈ c, a.1 ≤ y.1 := fun y hy => by
    rcases le_total a.1 y.1 with g | g
    · exact g
    · exact hmin hy g
  have hhi : ∀ y ∈ c, y.1 ≤ b.1 := fun y hy => by
    rcases le_total b.1 y.1 with g | g
    · exact hmax hy g
    · exact g
  obtain ⟨k, hk, rfl⟩ := List.mem_iff_getElem.1 ha
  have hR : c.rotate k = c[k] :: (c.drop (k + 1) ++ c.take k) := by
    rw [List.rotate_eq_drop_append_take hk.le, List.drop_eq_getElem_cons hk, List.cons_append]
  have hA : fanArea (0, 0) (c.rotate k) = fanArea (0, 0) c := by
    unfold fanArea
    rw [cycSum_sides, cycSum_sides, ((sides_rotate_perm c k).map _).sum_eq]
  have hL : around (c.rotate k) = around c := by
    unfold around
    rw [((sides_rotate_perm c k).map _).sum_eq]
  have hmem : ∀ x, x ∈ c.rotate k ↔ x ∈ c := fun x => List.mem_rotate
  rw [← hA, ← hL]
  generalize c[k] = a at *
  generalize c.drop (k + 1) ++ c.take k = l at *
  rw [hR] at hmem ⊢
  have hb' := (hmem b).2 hb
  have done : ∀ τ : ℝ, τ ^ 2 = 1 → 4 * Real.pi * (τ * fanArea (0, 0) (a :: l)) ≤ around (a :: l) ^ 2 := by
    intro τ hτ
    by_cases hab : a.1 = b.1
    · have hx : ∀ x ∈ a :: l, x.1 = a.1 := fun x hx => le_antisymm (hab ▸ hhi x ((hmem x).1 hx)) (hlo x ((hmem x).1 hx))
      have h0 : fanArea (0, 0) (a :: l) = 0 := by
        unfold fanArea
        rw [cycSum_sides]
        have e : (sides (a :: l)).map (fun e => turn (0, 0) e.1 e.2 / 2) = (sides (a :: l)).map fun e => a.1 / 2 * e.2.2 - a.1 / 2 * e.1.2 := by
          apply List.map_congr_left
          intro e he
          have h1 := hx _ (sides_mem_left he)
          have h2 := hx _ (sides_mem_right he)
          unfold turn
          rw [h1, h2]
          ring
        rw [e, tel_any (a :: l) fun x => a.1 / 2 * x.2]
      rw [h0]
      simp only [mul_zero]
      positivity
    · have hbl : b ∈ l := by
        rcases List.mem_cons.1 hb' with rfl | h
        · exact absurd rfl hab
        · exact h
      obtain ⟨u, w, rfl⟩ := List.append_of_mem hbl
      have hle := hlo b hb
      have key := schmidt (r := (b.1 - a.1) / 2) (m := (a.1 + b.1) / 2) (a := a) (b := b) (u := u) (w := w) (by linarith) hτ (by ring) (by ring) (by
        intro x hx
        have h1 := hlo x ((hmem x).1 hx)
        have h2 := hhi x ((hmem x).1 hx)
        rw [abs_le]
        constructor <;> linarith)
      rw [List.cons_append] at key
      generalize fanArea (0, 0) (a :: (u ++ b :: w)) = A at *
      generalize around (a :: (u ++ b :: w)) = L at *
      generalize (b.1 - a.1) / 2 = r at *
      have hpi := Real.pi_pos
      have : 4 * Real.pi * (τ * A) ≤ 4 * Real.pi * (r * L - Real.pi * r ^ 2) := mul_le_mul_of_nonneg_left (by linarith) (by positivity)
      nlinarith [sq_nonneg (L - 2 * Real.pi * r)]
  have d1 := done 1 (by norm_num)
  have d2 := done (-1) (by norm_num)
  rcases abs_cases (fanArea (0, 0) (a :: l)) with ⟨e, -⟩ | ⟨e, -⟩ <;> rw [e] <;> linarith

/-- **C158 (exact arithmetic).** Four pi times the area of a polygon is at most the square of the length of its exterior ring. -/
theorem C158_exact (c : List (ℝ × ℝ)) (hne : c ≠ []) (holes : List (List (Point (XR ℝ)))) :
    ∃ A L, GetArea (.polygon (ring c :: holes)) = .fin A ∧ LineLength (ring c) = .fin L ∧ 4 * Real.pi * A ≤ L ^ 2 :=
  ⟨_, _, (C32_area_fan (0, 0) c holes).1, ring_length c hne, isoperimetric c⟩

/-- **C158 (float64).** The same for the area and the length as computed, up to rounding. -/
theorem C158_float {M : ℚ} {ps : List (Point Float)} {c : List (ℚ × ℚ)} (hc : AtAll M ps (c ++ c.take 1))
    (h1 : 1 ≤ M) (h2 : M ≤ 2 ^ 100) (hne : c ≠ []) (hn : c.length < 2 ^ 20) (holes : List (List (Point Float))) :
    ∃ a d : ℚ, val (GetArea (.polygon (ps :: holes))) = .fin a ∧ val (LineLength ps) = .fin d ∧
      4 * Real.pi * (a - c.length * (c.length + 5) * (M * M) / 2 ^ 53) ≤ (d + c.length * (4 * c.length + 50) * M / 2 ^ 53) ^ 2 := by
  obtain ⟨a, ha, ea⟩ := C102_area (K := ℚ) hc h1 h2 hn.le (0, 0) holes
  have seg : (c ++ c.take 1).length = c.length + 1 ∧ (segments (c ++ c.take 1)).length = c.length := by
    obtain ⟨x, l, rfl⟩ := List.exists_cons_of_ne_nil hne
    simp [segments]
  obtain ⟨d, hd, ed⟩ := C103_length hc h1 h2 (by omega)
  rw [← around_real hne, seg.2] at ed
  have ea1 : |((a : ℝ) - |((fanArea (0, 0) c : ℚ) : ℝ)|)| ≤ c.length * (c.length + 5) * (M * M) / 2 ^ 53 := by exact_mod_cast ea
  have key := isoperimetric (c.map real)
  have e0 : ((0 : ℝ), (0 : ℝ)) = real (0, 0) := by simp [real]
  rw [e0, fanArea_real] at key
  have h0 : 0 ≤ around (c.map real) := by
    unfold around
    apply List.sum_nonneg
    intro x hx
    obtain ⟨e, -, rfl⟩ := List.mem_map.1 hx
    exact Real.sqrt_nonneg _
  refine ⟨a, d, ha, hd, ?_⟩
  generalize (c.length * (c.length + 5) * (M * M) / 2 ^ 53 : ℝ) = E at *
  generalize (c.length * (4 * c.length + 50) * M / 2 ^ 53 : ℝ) = G at *
  calc 4 * Real.pi * (a - E) ≤ 4 * Real.pi * |((fanArea (0, 0) c : ℚ) : ℝ)| := by
        apply mul_le_mul_of_nonneg_left _ (by have := Real.pi_pos; positivity)
        linarith [(abs_le.1 ea1).2]
    _ ≤ around (c.map real) ^ 2 := key
    _ ≤ (d + G) ^ 2 := pow_le_pow_left₀ h0 (by linarith [(abs_le.1 ed).1]) 2

/-- non-vacuity in float64: a square of side 10 -/
example : ∃ a d : ℚ, val (GetArea (.polygon [[fpt 0 0, fpt 10 0, fpt 10 10, fpt 0 10, fpt 0 0]])) = .fin a ∧
    val (LineLength [fpt 0 0, fpt 10 0, fpt 10 10, fpt 0 10, fpt 0 0]) = .fin d ∧
    4 * Real.pi * (a - 4 * (4 + 5) * (16 * 16) / 2 ^ 53) ≤ (d + 4 * (4 * 4 + 50) * 16 / 2 ^ 53) ^ 2 := by
  obtain ⟨a, d, e1, e2, e3⟩ := C158_float (M := 16) (c := [(0, 0), (10, 0), (10, 10), (0, 10)])
    (by simpa using fpt_all 16 (by norm_num) [(0, 0), (10, 0), (10, 10), (0, 10), (0, 0)] (by decide)) (by norm_num) (by norm_num) (by simp) (by simp) []
  exact ⟨a, d, e1, e2, by simpa using e3⟩

end GoGeo.Region
