import Verif.Props.HullRegion

/-!
# C137: where centroids are
-/

namespace GoGeo.Region
open MeasureTheory Set Spec

theorem turn_affine (a b p : ℝ × ℝ) : turn a b p = (a.1 * b.2 - a.2 * b.1) + (a.2 - b.2) * p.1 + (b.1 - a.1) * p.2 := by
  unfold turn; ring

/-- **C137 (convex polygons).** The centroid of a strictly convex polygon is strictly inside it. -/
theorem C137_convex (c : List (ℝ × ℝ)) (hc : StrictlyConvex c) (holes : List (List (Point (XR ℝ)))) :
    ∃ g, Centroid (.polygon (ring c :: holes)) = .ok (pt g) ∧ InsideConvex c g := by
  obtain ⟨o, hpos, h⟩ := inside_affine hc
  refine ⟨_, C34_centroid_fan o c holes hpos.ne', fun e he => ?_⟩
  obtain ⟨hi, he'⟩ := h (e.1.1 * e.2.2 - e.1.2 * e.2.1) (e.1.2 - e.2.2) (e.2.1 - e.1.1)
  simp only [← turn_affine e.1 e.2] at hi he'
  have hS : MeasurableSet {p | InsideConvex c p} := by
    have : {p | InsideConvex c p} = ⋂ e ∈ {e | e ∈ sides c}, {p | 0 < turn e.1 e.2 p} := by
      ext p; simp [InsideConvex]
    rw [this]
    refine MeasurableSet.biInter (List.finite_toSet _).countable fun e _ => ?_
    exact (isOpen_lt continuous_const (turn_cont e.1 e.2)).measurableSet
  have hnn : 0 ≤ᵐ[volume.restrict {p | InsideConvex c p}] fun p => turn e.1 e.2 p := by
    filter_upwards [ae_restrict_mem hS] with p hp
    exact (hp e he).le
  have hgt : 0 < ∫ p in {p | InsideConvex c p}, turn e.1 e.2 p := by
    rw [setIntegral_pos_iff_support_of_nonneg_ae hnn hi]
    have : {p | InsideConvex c p} ⊆ Function.support (fun p => turn e.1 e.2 p) ∩ {p | InsideConvex c p} :=
      fun p hp => ⟨(hp e he).ne', hp⟩
    refine lt_of_lt_of_le ?_ (measure_mono this)
    obtain ⟨o', hp', hv, _⟩ := inside_area hc
    rw [hv]
    exact ENNReal.ofReal_pos.2 hp'
  rw [he'] at hgt
  rw [turn_affine e.1 e.2]
  have key : (e.1.1 * e.2.2 - e.1.2 * e.2.1 + (e.1.2 - e.2.2) * (fanMomentX o c / fanArea o c) + (e.2.1 - e.1.1) * (fanMomentY o c / fanArea o c)) * fanArea o c =
      (e.1.1 * e.2.2 - e.1.2 * e.2.1) * fanArea o c + (e.1.2 - e.2.2) * fanMomentX o c + (e.2.1 - e.1.1) * fanMomentY o c := by
    field_simp
  rw [← key] at hgt
  exact (pos_iff_pos_of_mul_pos hgt).2 hpos

/-- **C137 (other rings).** The centroid of a ring that has an area and goes round all points off it in the same direction is on the left
of every line that has all corners on its left. -/
theorem C137_left (c : List (ℝ × ℝ)) (h : (∀ z, ¬ OnRing c z → 0 ≤ winding c z) ∨ (∀ z, ¬ OnRing c z → winding c z ≤ 0)) (holes : List (List (Point (XR ℝ))))
    (h0 : GetArea (.polygon (ring c :: holes)) ≠ .fin 0) :
    ∃ g, Centroid (.polygon (ring c :: holes)) = .ok (pt g) ∧ ∀ a b : ℝ × ℝ, (∀ v ∈ c, 0 ≤ turn a b v) → 0 ≤ turn a b g := by
  have hA : fanArea 0 c ≠ 0 := by
    intro e
    apply h0
    rw [(C32_area_fan 0 c holes).1, e, abs_zero]
  refine ⟨_, C34_centroid_fan 0 c holes hA, fun a b hab => ?_⟩
  have hI := (winding_affine 0 c (f := fun p => turn a b p) _ _ _ (by funext p; exact turn_affine a b p)).2
  have h1 := (winding_affine 0 c (f := fun _ => 1) 1 0 0 (by funext p; simp)).2
  simp only [one_mul, zero_mul, add_zero] at h1
  have hin : ∀ᵐ z ∂(volume : Measure (ℝ × ℝ)), winding c z ≠ 0 → 0 ≤ turn a b z := by
    filter_upwards [winding_hull c] with z hz hw
    exact convexHull_min (s := {x | x ∈ c}) (t := {p | 0 ≤ turn a b p}) (fun x hx => hab x hx) (halfplane_convex a b) (hz hw)
  have key : turn a b (fanMomentX 0 c / fanArea 0 c, fanMomentY 0 c / fanArea 0 c) * fanArea 0 c = ∫ z, turn a b z * winding c z := by
    rw [hI, turn_affine]
    field_simp
  rcases h with h | h
  · have s1 : 0 ≤ ∫ z, turn a b z * (winding c z : ℝ) := by
      refine integral_nonneg_of_ae ?_
      filter_upwards [hin, ring_null c] with z hz ho
      rcases eq_or_ne (winding c z) 0 with e | e
      · simp [e]
      · exact mul_nonneg (hz e) (by exact_mod_cast h z ho)
    have s2 : 0 ≤ fanArea 0 c := by
      rw [← h1]
      refine integral_nonneg_of_ae ?_
      filter_upwards [ring_null c] with z ho
      show (0 : ℝ) ≤ (winding c z : ℝ)
      exact_mod_cast h z ho
    have s3 := lt_of_le_of_ne s2 hA.symm
    rw [← key] at s1
    exact nonneg_of_mul_nonneg_left s1 s3
  · have s1 : ∫ z, turn a b z * (winding c z : ℝ) ≤ 0 := by
      refine integral_nonpos_of_ae ?_
      filter_upwards [hin, ring_null c] with z hz ho
      rcases eq_or_ne (winding c z) 0 with e | e
      · simp [e]
      · exact mul_nonpos_of_nonneg_of_nonpos (hz e) (by exact_mod_cast h z ho)
    have s2 : fanArea 0 c ≤ 0 := by
      rw [← h1]
      refine integral_nonpos_of_ae ?_
      filter_upwards [ring_null c] with z ho
      show (winding c z : ℝ) ≤ (0 : ℝ)
      exact_mod_cast h z ho
    have s3 := lt_of_le_of_ne s2 hA
    rw [← key] at s1
    by_contra hn
    have := mul_pos_of_neg_of_neg (not_le.1 hn) s3
    linarith

/-- non-vacuity: the L-shaped ring has an area and goes round no point clockwise -/
example : (∀ z, ¬ OnRing ell z → 0 ≤ winding ell z) ∧ GetArea (.polygon [ring ell]) ≠ .fin 0 := by
  constructor
  · intro z _
    rcases ell_winding z with h | h <;> rw [h] <;> decide
  · rw [(C32_area_fan 0 ell []).1]
    norm_num [fanArea, cycSum, turn, ell]

end GoGeo.Region
