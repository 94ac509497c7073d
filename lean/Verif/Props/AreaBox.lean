import Verif.Props.SimpleRegion
import Verif.Props.HullRegion
import Verif.Props.Box

/-!
# C143: a simple polygon and its bounding box
-/

namespace GoGeo.Region
open MeasureTheory Set Spec Real

/-- the box over exact corners -/
theorem calBox_fin (l : List (ℝ × ℝ)) : ∀ b : Box (XR ℝ), (∃ m n M N : ℝ, b = ⟨.fin m, .fin n, .fin M, .fin N⟩) →
    ∃ m n M N : ℝ, (l.map pt).foldl calBoxStep b = ⟨.fin m, .fin n, .fin M, .fin N⟩ := by
  induction l with
  | nil => exact fun b h => h
  | cons a l ih =>
    rintro b ⟨m, n, M, N, rfl⟩
    rw [List.map_cons, List.foldl_cons]
    apply ih
    have pick : ∀ (p : Bool) (x y : ℝ), ∃ z : ℝ, (if p then XR.fin x else XR.fin y) = .fin z := by
      intro p x y; cases p <;> simp
    obtain ⟨m', h1⟩ := pick (GoFloat.gt (XR.fin m) (pt a).X) a.1 m
    obtain ⟨n', h2⟩ := pick (GoFloat.gt (XR.fin n) (pt a).Y) a.2 n
    obtain ⟨M', h3⟩ := pick (GoFloat.lt (XR.fin M) (pt a).X) a.1 M
    obtain ⟨N', h4⟩ := pick (GoFloat.lt (XR.fin N) (pt a).Y) a.2 N
    refine ⟨m', n', M', N', ?_⟩
    unfold calBoxStep
    rw [← h1, ← h2, ← h3, ← h4]
    rfl

theorem box_fin (c : List (ℝ × ℝ)) (holes : List (List (Point (XR ℝ)))) : ∃ m n M N : ℝ,
    BoundingBox (.polygon (ring c :: holes)) = ⟨.fin m, .fin n, .fin M, .fin N⟩ ∧ ∀ v ∈ c, m ≤ v.1 ∧ v.1 ≤ M ∧ n ≤ v.2 ∧ v.2 ≤ N := by
  obtain ⟨m, n, M, N, h⟩ := calBox_fin (c ++ c.take 1) ⟨INF, INF, -INF, -INF⟩ ⟨2 ^ 31, 2 ^ 31, -2 ^ 31, -2 ^ 31, by
    simp only [INF, XR.fin_lit, XR.fin_neg]; norm_num⟩
  refine ⟨m, n, M, N, h, fun v hv => ?_⟩
  have hc := C19_boundingBox_covers_exterior (ring c) holes (pt v) (by unfold ring; exact List.mem_map_of_mem (List.mem_append_left _ hv))
  have hb : BoundingBox (.polygon (ring c :: holes)) = ⟨.fin m, .fin n, .fin M, .fin N⟩ := h
  rw [hb] at hc
  have num : ∀ x : ℝ, IsNum (XR.fin x) := fun x => by simp [IsNum, GoFloat.isNaN, XR.isNaN]
  obtain ⟨a, b⟩ := hc.1 (num _)
  obtain ⟨a', b'⟩ := hc.2 (num _)
  simp [Le, pt, GoFloat.le, XR.le] at a b a' b'
  exact ⟨a, b, a', b'⟩

/-- **C143 (area).** The area of a simple polygon is at most the size of its bounding box. -/
theorem C143_area (c : List (ℝ × ℝ)) (hc : SimpleRing c) (holes : List (List (Point (XR ℝ)))) :
    ∃ A S, GetArea (.polygon (ring c :: holes)) = .fin A ∧ (BoundingBox (.polygon (ring c :: holes))).Size = .fin S ∧ A ≤ S := by
  obtain ⟨A, hA, h1, h2⟩ := C140_area c hc holes
  obtain ⟨m, n, M, N, hb, hv⟩ := box_fin c holes
  refine ⟨A, (M - m) * (N - n), h2.1, by simp only [hb, Box.Size, XR.fin_sub, XR.fin_mul], ?_⟩
  obtain ⟨v, hvc⟩ := List.exists_mem_of_length_pos (by have := hc.1; omega : 0 < c.length)
  have hS : 0 ≤ (M - m) * (N - n) := by
    obtain ⟨a, b, a', b'⟩ := hv v hvc
    exact mul_nonneg (by linarith) (by linarith)
  rw [← ENNReal.ofReal_le_ofReal_iff hS, ← h1]
  calc volume {z | EvenOdd c z} ≤ volume (Icc m M ×ˢ Icc n N) := by
        refine measure_mono_ae ?_
        filter_upwards [winding_hull c] with z hz hE
        have hin : z ∈ convexHull ℝ {x | x ∈ c} := by
          refine hz fun h0 => ?_
          have : EvenOdd c z := hE
          rw [evenOdd_iff, h0] at this
          simp at this
        refine convexHull_min (fun x hx => ?_) ((convex_Icc m M).prod (convex_Icc n N)) hin
        obtain ⟨a, b, a', b'⟩ := hv x hx
        exact ⟨⟨a, b⟩, a', b'⟩
    _ = ENNReal.ofReal ((M - m) * (N - n)) := by
        obtain ⟨a, b, a', b'⟩ := hv v hvc
        rw [Measure.volume_eq_prod, Measure.prod_prod, Real.volume_Icc, Real.volume_Icc, ← ENNReal.ofReal_mul (by linarith)]

/-- **C143 (centroid).** The centroid of a simple polygon lies in its bounding box. -/
theorem C143_centroid (c : List (ℝ × ℝ)) (hc : SimpleRing c) (holes : List (List (Point (XR ℝ)))) :
    ∃ g, Centroid (.polygon (ring c :: holes)) = .ok g ∧ IsPointInBox (BoundingBox (.polygon (ring c :: holes))) g = true := by
  obtain ⟨g, h, hl⟩ := C140_left c hc holes
  obtain ⟨m, n, M, N, hb, hv⟩ := box_fin c holes
  refine ⟨pt g, h, ?_⟩
  have a := hl (m, 1) (m, 0) fun v hv' => by have := (hv v hv').1; simp only [turn]; linarith
  have b := hl (M, 0) (M, 1) fun v hv' => by have := (hv v hv').2.1; simp only [turn]; linarith
  have a' := hl (0, n) (1, n) fun v hv' => by have := (hv v hv').2.2.1; simp only [turn]; linarith
  have b' := hl (1, N) (0, N) fun v hv' => by have := (hv v hv').2.2.2; simp only [turn]; linarith
  simp only [turn] at a b a' b'
  have ea : m ≤ g.1 := by linarith
  have eb : g.1 ≤ M := by linarith
  have ec : n ≤ g.2 := by linarith
  have ed : g.2 ≤ N := by linarith
  rw [hb]
  simp [IsPointInBox, pt, GoFloat.le, GoFloat.lt, GoFloat.ge, GoFloat.gt, XR.le, XR.lt, ea, eb, ec, ed]

/-- non-vacuity: a dart -/
example : SimpleRing dart := dart_simple

end GoGeo.Region
