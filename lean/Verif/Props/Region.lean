import Verif.Util.Triangle
import Verif.Geo.Convex
import Verif.Props.Measure
import Mathlib.MeasureTheory.Integral.Average
import Mathlib.Algebra.Order.BigOperators.Group.List

/-!
# C134: the area and the centroid of a convex polygon are those of the region it bounds

`volume` is Lebesgue measure on the plane, `∫ p in S, f p` the Lebesgue integral. The corners are
real numbers and the arithmetic exact (`XR ℝ`).
-/

namespace GoGeo.Region
open MeasureTheory Set Spec

theorem sides_cons (a : ℝ × ℝ) (l : List (ℝ × ℝ)) : sides (a :: l) = (a :: l).zip (l ++ [a]) := by
  simp [sides]

/-- the sides met after `u` when the ring is walked to its end and back to `a` -/
theorem sides_walk (a u : ℝ × ℝ) (l : List (ℝ × ℝ)) (f : ℝ × ℝ → ℝ × ℝ → ℝ) (h0 : ∀ u, f u a = 0) :
    (List.zipWith f (u :: l) (l ++ [a])).sum = ((segments (u :: l)).map fun e => f e.1 e.2).sum := by
  induction l generalizing u with
  | nil => simp [segments, h0]
  | cons v l ih => simp [segments] at ih ⊢; rw [ih]

theorem walk_sub (a u : ℝ × ℝ) (l : List (ℝ × ℝ)) : ∀ e ∈ segments (u :: l), e ∈ (u :: l).zip (l ++ [a]) := by
  induction l generalizing u with
  | nil => simp [segments]
  | cons v l ih =>
    intro e he
    simp only [segments, List.tail_cons, List.zip_cons_cons, List.mem_cons, List.cons_append] at he ih ⊢
    rcases he with h | h
    · exact Or.inl h
    · exact Or.inr (ih v e h)

/-- seen from `a`, the corners of `l` appear in counter-clockwise order -/
def Fan (a : ℝ × ℝ) (l : List (ℝ × ℝ)) : Prop := l.Pairwise fun u v => 0 ≤ turn a u v

theorem cross_trans (a s u v w : ℝ × ℝ) :
    turn a u w * turn a s v = turn a u v * turn a s w + turn a v w * turn a s u := by unfold turn; ring

theorem fan_of_chain (a s : ℝ × ℝ) (l : List (ℝ × ℝ)) (hs : ∀ v ∈ l, 0 < turn a s v)
    (hl : ∀ e ∈ segments l, 0 < turn a e.1 e.2) : l.Pairwise fun u v => 0 < turn a u v := by
  induction l with
  | nil => exact List.Pairwise.nil
  | cons u l ih =>
    have hf := ih (fun v hv => hs v (by simp [hv])) (fun e he => hl e (by
      cases l with
      | nil => simp [segments] at he
      | cons v l => simp [segments] at he ⊢; exact Or.inr he))
    refine List.Pairwise.cons ?_ hf
    cases l with
    | nil => simp
    | cons v l =>
      have h1 : 0 < turn a u v := hl (u, v) (by simp [segments])
      intro w hw
      rcases List.mem_cons.1 hw with rfl | hw'
      · exact h1
      · have h2 : 0 < turn a v w := (List.pairwise_cons.1 hf).1 w hw'
        have h3 := cross_trans a s u v w
        have sv := hs v (by simp)
        have sw := hs w (by simp [hw'])
        have su := hs u (by simp)
        have : 0 < turn a u w * turn a s v := by rw [h3]; positivity
        exact (pos_iff_pos_of_mul_pos this).2 sv

/-- the triangles of the fan -/
def fan (a : ℝ × ℝ) (l : List (ℝ × ℝ)) : Set (ℝ × ℝ) := {p | ∃ e ∈ segments l, p ∈ tri a e.1 e.2}

theorem segments_cons (u v : ℝ × ℝ) (l : List (ℝ × ℝ)) : segments (u :: v :: l) = (u, v) :: segments (v :: l) := by simp [segments]

theorem fan_cons (a u v : ℝ × ℝ) (l : List (ℝ × ℝ)) : fan a (u :: v :: l) = tri a u v ∪ fan a (v :: l) := by
  ext p; simp [fan, segments_cons]

theorem segments_mem {l : List (ℝ × ℝ)} {e} (h : e ∈ segments l) : e.1 ∈ l ∧ e.2 ∈ l := by
  obtain ⟨h1, h2⟩ := List.of_mem_zip (a := e.1) (b := e.2) h
  exact ⟨h1, List.mem_of_mem_tail h2⟩

theorem fan_chain {a : ℝ × ℝ} {l : List (ℝ × ℝ)} {R : ℝ → Prop} (h : l.Pairwise fun u v => R (turn a u v)) : ∀ e ∈ segments l, R (turn a e.1 e.2) := by
  induction l with
  | nil => simp [segments]
  | cons u l ih =>
    cases l with
    | nil => simp [segments]
    | cons v l =>
      intro e he
      rw [segments_cons] at he
      rcases List.mem_cons.1 he with rfl | he
      · exact (List.pairwise_cons.1 h).1 v (by simp)
      · exact ih (List.pairwise_cons.1 h).2 e he

/-- a point of a triangle, seen from any side -/
theorem turn_tri (a b c x y p : ℝ × ℝ) : turn a b c * turn x y p = turn b c p * turn x y a + turn c a p * turn x y b + turn a b p * turn x y c := by
  unfold turn; ring

theorem fan_disj {a u v : ℝ × ℝ} {l : List (ℝ × ℝ)} (h : Fan a (u :: v :: l)) : Disjoint (tri a u v) (fan a (v :: l)) := by
  rw [Set.disjoint_left]
  rintro p ⟨_, _, h3⟩ ⟨e, he, h4⟩
  have hv : turn a v p < 0 := by
    have : turn a v p = -turn v a p := by unfold turn; ring
    linarith
  obtain ⟨m1, m2⟩ := segments_mem he
  have hp := (List.pairwise_cons.1 h).2
  have pos : ∀ w ∈ v :: l, 0 ≤ turn a v w := by
    intro w hw
    rcases List.mem_cons.1 hw with rfl | hw
    · rw [turn_self_right]
    · exact (List.pairwise_cons.1 hp).1 w hw
  have he' : 0 < turn a e.1 e.2 := tri_pos h4
  have := turn_tri a e.1 e.2 a v p
  rw [turn_self_left] at this
  have q1 := mul_nonneg h4.2.2.le (pos _ m1)
  have q2 := mul_nonneg h4.1.le (pos _ m2)
  nlinarith [mul_neg_of_pos_of_neg he' hv]

theorem fan_meas (a : ℝ × ℝ) (l : List (ℝ × ℝ)) : MeasurableSet (fan a l) := by
  induction l with
  | nil => simp [fan, segments]
  | cons u l ih =>
    cases l with
    | nil => simp [fan, segments]
    | cons v l => rw [fan_cons]; exact (tri_open _ _ _).measurableSet.union ih

theorem fan_int {a : ℝ × ℝ} {l : List (ℝ × ℝ)} (h : Fan a l) {f : ℝ × ℝ → ℝ} (hf : Continuous f) : IntegrableOn f (fan a l) := by
  induction l with
  | nil => simp [fan, segments]
  | cons u l ih =>
    cases l with
    | nil => simp [fan, segments]
    | cons v l =>
      rw [fan_cons]
      exact (tri_int ((List.pairwise_cons.1 h).1 v (by simp)) hf).union (ih (List.pairwise_cons.1 h).2)

theorem fan_affine {a : ℝ × ℝ} {l : List (ℝ × ℝ)} (h : Fan a l) (α β γ : ℝ) :
    ∫ p in fan a l, (α + β * p.1 + γ * p.2) =
      ((segments l).map fun e => turn a e.1 e.2 / 2 * (α + β * ((a.1 + e.1.1 + e.2.1) / 3) + γ * ((a.2 + e.1.2 + e.2.2) / 3))).sum := by
  induction l with
  | nil => simp [fan, segments]
  | cons u l ih =>
    cases l with
    | nil => simp [fan, segments]
    | cons v l =>
      have huv := (List.pairwise_cons.1 h).1 v (by simp)
      rw [fan_cons, setIntegral_union (fan_disj h) (fan_meas _ _) (tri_int huv (by fun_prop)) (fan_int (List.pairwise_cons.1 h).2 (by fun_prop)),
        ih (List.pairwise_cons.1 h).2, tri_affine huv, segments_cons]
      simp

/-- what is known of a strictly convex ring, walked from its first corner -/
theorem convex_fan {a b : ℝ × ℝ} {l : List (ℝ × ℝ)} (hc : StrictlyConvex (a :: b :: l)) : (b :: l).Pairwise fun u v => 0 < turn a u v := by
  obtain ⟨h3, hn, hp⟩ := hc
  have hs : sides (a :: b :: l) = (a, b) :: (b :: l).zip (l ++ [a]) := by rw [sides_cons]; simp
  have nab : a ∉ b :: l := (List.nodup_cons.1 hn).1
  have hb : ∀ v ∈ l, 0 < turn a b v := by
    intro v hv
    refine hp (a, b) (by simp [hs]) v (by simp [hv]) ?_ ?_
    · rintro rfl; exact nab (by simp [hv])
    · rintro rfl; exact (List.nodup_cons.1 (List.nodup_cons.1 hn).2).1 hv
  have hch : ∀ e ∈ segments (b :: l), 0 < turn a e.1 e.2 := by
    intro e he
    have m := segments_mem he
    have : turn a e.1 e.2 = turn e.1 e.2 a := by unfold turn; ring
    rw [this]
    refine hp e (by rw [hs]; exact List.mem_cons_of_mem _ (walk_sub a b l e he)) a (by simp) ?_ ?_
    · intro h; exact nab (h ▸ m.1)
    · intro h; exact nab (h ▸ m.2)
  refine List.Pairwise.cons hb (fan_of_chain a b l hb ?_)
  intro e he
  apply hch
  cases l with
  | nil => simp [segments] at he
  | cons v l => rw [segments_cons]; exact List.mem_cons_of_mem _ he

theorem walk_cover (a u p : ℝ × ℝ) (l : List (ℝ × ℝ)) (h : ∀ e ∈ (u :: l).zip (l ++ [a]), 0 < turn e.1 e.2 p)
    (h0 : 0 < turn a u p) (hne : ∀ v ∈ l, turn a v p ≠ 0) : p ∈ fan a (u :: l) := by
  induction l generalizing u with
  | nil =>
    have h1 := h (u, a) (by simp)
    have : turn u a p = -turn a u p := by unfold turn; ring
    simp only at h1
    linarith
  | cons v l ih =>
    rw [fan_cons]
    rcases lt_or_gt_of_ne (hne v (by simp)) with h1 | h1
    · refine Or.inl ⟨h0, h (u, v) (by simp), ?_⟩
      have : turn v a p = -turn a v p := by unfold turn; ring
      linarith
    · exact Or.inr (ih v (fun e he => h e (by simp at he ⊢; exact Or.inr he)) h1 fun w hw => hne w (by simp [hw]))

theorem fan_sub {c : List (ℝ × ℝ)} (hc : StrictlyConvex c) {x y z : ℝ × ℝ} (hx : x ∈ c) (hy : y ∈ c) (hz : z ∈ c) {p}
    (hp : p ∈ tri x y z) : InsideConvex c p := by
  have hpos := tri_pos hp
  intro e he
  obtain ⟨h1, h2, h3⟩ := hp
  have k := turn_tri x y z e.1 e.2 p
  have kx := convex_nonneg hc he hx
  have ky := convex_nonneg hc he hy
  have kz := convex_nonneg hc he hz
  have some : 0 < turn e.1 e.2 x ∨ 0 < turn e.1 e.2 y ∨ 0 < turn e.1 e.2 z := by
    have ex : ∀ w ∈ c, turn e.1 e.2 w = 0 → w = e.1 ∨ w = e.2 := by
      intro w hw h0
      by_contra hcon
      push Not at hcon
      exact absurd h0 (hc.2.2 e he w hw hcon.1 hcon.2).ne'
    by_contra hcon
    push Not at hcon
    have zx := ex x hx (le_antisymm hcon.1 kx)
    have zy := ex y hy (le_antisymm hcon.2.1 ky)
    have zz := ex z hz (le_antisymm hcon.2.2 kz)
    rcases zx with rfl | rfl <;> rcases zy with rfl | rfl <;> rcases zz with rfl | rfl <;> simp [turn] at hpos
    all_goals nlinarith
  have : 0 < turn x y z * turn e.1 e.2 p := by
    rw [k]
    have n1 := mul_nonneg h2.le kx
    have n2 := mul_nonneg h3.le ky
    have n3 := mul_nonneg h1.le kz
    rcases some with s | s | s
    · have := mul_pos h2 s; linarith
    · have := mul_pos h3 s; linarith
    · have := mul_pos h1 s; linarith
  exact (pos_iff_pos_of_mul_pos this).1 hpos

theorem inside_ae {a b : ℝ × ℝ} {l : List (ℝ × ℝ)} (hc : StrictlyConvex (a :: b :: l)) :
    ({p | InsideConvex (a :: b :: l) p} : Set (ℝ × ℝ)) =ᵐ[volume] fan a (b :: l) := by
  have hs : sides (a :: b :: l) = (a, b) :: (b :: l).zip (l ++ [a]) := by rw [sides_cons]; simp
  have nab : a ∉ b :: l := (List.nodup_cons.1 hc.2.1).1
  have hnull : ∀ᵐ p ∂(volume : Measure (ℝ × ℝ)), ∀ v ∈ l, turn a v p ≠ 0 := by
    have : ∀ m : List (ℝ × ℝ), a ∉ m → ∀ᵐ p ∂(volume : Measure (ℝ × ℝ)), ∀ v ∈ m, turn a v p ≠ 0 := by
      intro m hm
      induction m with
      | nil => simp
      | cons v m ih =>
        have h1 : ∀ᵐ p ∂(volume : Measure (ℝ × ℝ)), turn a v p ≠ 0 := by
          rw [ae_iff]
          simpa using line_null (a := a) (b := v) (fun h => hm (by simp [h]))
        filter_upwards [h1, ih (fun h => hm (by simp [h]))] with p hp1 hp2
        intro w hw
        rcases List.mem_cons.1 hw with rfl | hw
        · exact hp1
        · exact hp2 w hw
    exact this l (fun h => nab (by simp [h]))
  filter_upwards [hnull] with p hp
  apply propext
  constructor
  · intro hin
    exact walk_cover a b p l (fun e he => hin e (by rw [hs]; exact List.mem_cons_of_mem _ he)) (hin (a, b) (by simp [hs])) hp
  · rintro ⟨e, he, hpe⟩
    have m := segments_mem he
    exact fan_sub hc (by simp) (List.mem_cons_of_mem _ m.1) (List.mem_cons_of_mem _ m.2) hpe

/-- the integral of an affine function over the fan of a ring -/
theorem fan_sum {a b : ℝ × ℝ} {l : List (ℝ × ℝ)} (hf : Fan a (b :: l)) : 0 ≤ fanArea a (a :: b :: l) ∧ ∀ α β γ : ℝ,
    ∫ p in fan a (b :: l), (α + β * p.1 + γ * p.2) =
      α * fanArea a (a :: b :: l) + β * fanMomentX a (a :: b :: l) + γ * fanMomentY a (a :: b :: l) := by
  have t0 : ∀ u : ℝ × ℝ, turn a u a = 0 := fun u => turn_self_left a u
  have t1 : ∀ u : ℝ × ℝ, turn a a u = 0 := by intro u; unfold turn; ring
  have hcyc : ∀ f : ℝ × ℝ → ℝ × ℝ → ℝ, (∀ u, f u a = 0) → (∀ u, f a u = 0) →
      cycSum f (a :: b :: l) = ((segments (b :: l)).map fun e => f e.1 e.2).sum := by
    intro f h0 h1
    rw [← sides_walk a b l f h0]
    simp [cycSum, h1]
  unfold fanArea fanMomentX fanMomentY
  rw [hcyc _ (by simp [t0]) (by simp [t1]), hcyc _ (by simp [t0]) (by simp [t1]), hcyc _ (by simp [t0]) (by simp [t1])]
  constructor
  · refine List.sum_nonneg ?_
    intro x hx
    obtain ⟨e, he, rfl⟩ := List.mem_map.1 hx
    have := fan_chain (R := fun x => 0 ≤ x) hf e he
    positivity
  · intro α β γ
    rw [fan_affine hf]
    generalize segments (b :: l) = m
    induction m with
    | nil => simp
    | cons e m ih => simp only [List.map_cons, List.sum_cons, ih]; ring

theorem inside_affine {c : List (ℝ × ℝ)} (hc : StrictlyConvex c) : ∃ o, 0 < fanArea o c ∧ ∀ α β γ : ℝ,
    IntegrableOn (fun p : ℝ × ℝ => α + β * p.1 + γ * p.2) {p | InsideConvex c p} ∧
    ∫ p in {p | InsideConvex c p}, (α + β * p.1 + γ * p.2) = α * fanArea o c + β * fanMomentX o c + γ * fanMomentY o c := by
  match c, hc with
  | [], hc => exact absurd hc.1 (by simp)
  | [_], hc => exact absurd hc.1 (by simp)
  | [_, _], hc => exact absurd hc.1 (by simp)
  | a :: b :: v :: l, hc =>
    have hf : Fan a (b :: v :: l) := (convex_fan hc).imp fun h => h.le
    obtain ⟨h1, h2⟩ := fan_sum hf
    refine ⟨a, ?_, fun α β γ => ⟨(fan_int hf (by fun_prop)).congr_set_ae (inside_ae hc), ?_⟩⟩
    · refine lt_of_le_of_ne h1 fun h0 => ?_
      have hsub : tri a b v ⊆ fan a (b :: v :: l) := by rw [fan_cons]; exact subset_union_left
      have hv : (0 : ℝ) < turn a b v := (List.pairwise_cons.1 (convex_fan hc)).1 v (by simp)
      have e1 := h2 1 0 0
      have e2 := tri_affine hv.le 1 0 0
      simp only [one_mul, zero_mul, add_zero, ← h0, mul_one] at e1 e2
      have := setIntegral_mono_set (fan_int hf (f := fun _ => (1 : ℝ)) continuous_const) (Filter.Eventually.of_forall fun _ => zero_le_one) hsub.eventuallyLE
      rw [e1, e2] at this
      linarith
    · rw [setIntegral_congr_set (inside_ae hc), h2]

theorem inside_area {c : List (ℝ × ℝ)} (hc : StrictlyConvex c) : ∃ o, 0 < fanArea o c ∧
    volume {p | InsideConvex c p} = ENNReal.ofReal (fanArea o c) ∧
    ∫ p in {p | InsideConvex c p}, p.1 = fanMomentX o c ∧ ∫ p in {p | InsideConvex c p}, p.2 = fanMomentY o c := by
  obtain ⟨o, hpos, h⟩ := inside_affine hc
  have h1 := h 1 0 0
  have h2 := (h 0 1 0).2
  have h3 := (h 0 0 1).2
  simp only [zero_mul, one_mul, add_zero, zero_add] at h1 h2 h3
  refine ⟨o, hpos, ?_, h2, h3⟩
  have hfin : volume {p | InsideConvex c p} ≠ ⊤ := by
    have := h1.1
    rw [integrableOn_const_iff] at this
    rcases this with h0 | h0
    · simp at h0
    · exact h0.ne
  rw [← h1.2, setIntegral_const, smul_eq_mul, mul_one, Measure.real, ENNReal.ofReal_toReal hfin]

/-- GetArea of a convex polygon is the Lebesgue measure of the region it bounds, whichever way round
its ring is written -/
theorem C134_area (c : List (ℝ × ℝ)) (hc : StrictlyConvex c) (holes : List (List (Point (XR ℝ)))) : ∃ A : ℝ, 0 < A ∧
    volume {p | InsideConvex c p} = ENNReal.ofReal A ∧
    GetArea (.polygon (ring c :: holes)) = .fin A ∧ GetArea (.polygon ((ring c).reverse :: holes)) = .fin A := by
  obtain ⟨o, hpos, hv, _⟩ := inside_area hc
  have h := (C32_area_fan o c holes).1
  rw [abs_of_pos hpos] at h
  exact ⟨_, hpos, hv, h, (C31_area_reverse c holes).trans h⟩

/-- Centroid of a convex polygon is the centre of mass of the region it bounds: the mean of `x` and of
`y` over the region -/
theorem C134_centroid (c : List (ℝ × ℝ)) (hc : StrictlyConvex c) (holes : List (List (Point (XR ℝ)))) :
    Centroid (.polygon (ring c :: holes)) = .ok (pt (⨍ p in {p | InsideConvex c p}, p.1, ⨍ p in {p | InsideConvex c p}, p.2)) := by
  obtain ⟨o, hpos, hv, hx, hy⟩ := inside_area hc
  rw [C34_centroid_fan o c holes hpos.ne', setAverage_eq, setAverage_eq, hx, hy, Measure.real, hv, ENNReal.toReal_ofReal hpos.le]
  simp only [smul_eq_mul, div_eq_inv_mul]

/-- non-vacuity: a square is convex, so its area is the measure of its inside -/
example : StrictlyConvex ([(0, 0), (2, 0), (2, 2), (0, 2)] : List (ℝ × ℝ)) := by
  refine ⟨by simp, by simp, ?_⟩
  intro e he v hv h1 h2
  simp [sides] at he hv
  rcases he with rfl | rfl | rfl | rfl <;> rcases hv with rfl | rfl | rfl | rfl <;> simp at h1 h2 <;> norm_num [turn]

end GoGeo.Region
