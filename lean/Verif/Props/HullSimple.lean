import Verif.Props.SimpleRegion
import Verif.Props.HullRegion
import Verif.Props.Buffer

/-!
# C142: hulls and buffers are simple polygons
-/

namespace GoGeo.Region
open MeasureTheory Set Spec Real

theorem ring_inj {r r' : List (ℝ × ℝ)} (h : ring r = ring r') : r = r' := by
  have hp : Function.Injective (pt : ℝ × ℝ → Point (XR ℝ)) := by
    intro a b hab
    simp only [pt, Point.mk.injEq, XR.fin.injEq] at hab
    exact Prod.ext hab.1 hab.2
  have hd : r ++ r.take 1 = r' ++ r'.take 1 := by
    unfold ring at h
    exact List.map_injective_iff.2 hp h
  match r, r', hd with
  | [], [], _ => rfl
  | [], _ :: _, hd => simp at hd
  | _ :: _, [], hd => simp at hd
  | a :: r, b :: r', hd =>
    simp only [List.cons_append, List.take_succ_cons, List.take_zero, List.cons.injEq] at hd
    obtain ⟨rfl, hd⟩ := hd
    rw [List.append_cancel_right hd]

theorem hull_strict {pts v : List (ℝ × ℝ)} (h : HullOf pts v)
    (hg : ∀ a ∈ pts, ∀ b ∈ pts, ∀ x ∈ pts, turn a b x = 0 → a = b ∨ x = a ∨ x = b) : StrictlyConvex v := by
  refine ⟨h.three, h.distinct, fun e he x hx h1 h2 => lt_of_le_of_ne (h.left e he x (h.corners x hx)) fun h0 => ?_⟩
  rcases hg e.1 (h.corners _ (side_fst_mem he)) e.2 (h.corners _ (sides_mem_right he)) x (h.corners x hx) h0.symm with a | a | a
  · exact side_ne h.distinct (by have := h.three; omega) he a
  · exact h1 a
  · exact h2 a

/-- off the ring, what a strictly convex hull shuts in is the convex hull -/
theorem hull_inside {pts v : List (ℝ × ℝ)} (h : HullOf pts v) (hc : StrictlyConvex v) (z : ℝ × ℝ) (hz : ¬ OnRing v z) :
    EvenOdd v z ↔ z ∈ convexHull ℝ {x | x ∈ pts} := by
  obtain ⟨hs, hE⟩ := C140_convex v hc
  have hin : ∀ z, InsideConvex v z → ¬ OnRing v z := by
    rintro z hz ⟨e, he, hon⟩
    exact (hz e he).ne' (seg_turn hon)
  obtain ⟨y, oy, ey⟩ := (C140_parts v hs).1
  have iy := (hE y oy).1 ey
  constructor
  · intro hz'
    by_contra hn
    have hclosed : IsClosed (convexHull ℝ {x | x ∈ pts}) := (List.finite_toSet pts).isClosed_convexHull ℝ
    have hopen : IsOpen ({x | ¬ OnRing v x} ∩ winding v ⁻¹' {winding v z}) := (winding_cont v).isOpen_inter_preimage (off_open v) (isOpen_discrete _)
    have hU : IsOpen (({x | ¬ OnRing v x} ∩ winding v ⁻¹' {winding v z}) ∩ (convexHull ℝ {x | x ∈ pts})ᶜ) := hopen.inter hclosed.isOpen_compl
    have hpos := hU.measure_pos (μ := volume) ⟨z, ⟨hz, rfl⟩, hn⟩
    refine hpos.ne' ?_
    have hw0 : winding v z ≠ 0 := by
      rintro h0
      rw [evenOdd_iff, h0] at hz'
      simp at hz'
    refine measure_mono_null ?_ (ae_iff.1 (winding_hull v))
    rintro x ⟨⟨-, hx⟩, hx'⟩ hh
    exact hx' (convexHull_mono (fun a ha => h.corners a ha) (hh (by rw [show winding v x = winding v z from hx]; exact hw0)))
  · intro hz'
    by_contra hn
    have hopen : IsOpen ({x | ¬ OnRing v x} ∩ winding v ⁻¹' {winding v z}) := (winding_cont v).isOpen_inter_preimage (off_open v) (isOpen_discrete _)
    have hcn : Continuous fun s : ℝ => (z.1 + s * (y.1 - z.1), z.2 + s * (y.2 - z.2)) := by fun_prop
    have hnb := hcn.continuousAt.preimage_mem_nhds (x := 0) (hopen.mem_nhds (by simpa using hz))
    obtain ⟨η, hη, hsub⟩ := Metric.mem_nhds_iff.1 hnb
    set s := min (η / 2) (1 / 2) with hsd
    have s0 : 0 < s := by positivity
    have s1 : s ≤ 1 / 2 := min_le_right _ _
    obtain ⟨o, w⟩ := hsub (show s ∈ Metric.ball (0 : ℝ) η by
      rw [Metric.mem_ball, Real.dist_eq, sub_zero, abs_of_pos s0]; linarith [min_le_left (η / 2) (1 / 2 : ℝ)])
    have hI : InsideConvex v (z.1 + s * (y.1 - z.1), z.2 + s * (y.2 - z.2)) := by
      intro e he
      have h1 : z ∈ {p | 0 ≤ turn e.1 e.2 p} := convexHull_min (fun x hx => h.left e he x hx) (halfplane_convex e.1 e.2) hz'
      have h1' : 0 ≤ turn e.1 e.2 z := h1
      have h2 := iy e he
      have e1 : turn e.1 e.2 (z.1 + s * (y.1 - z.1), z.2 + s * (y.2 - z.2)) = (1 - s) * turn e.1 e.2 z + s * turn e.1 e.2 y := by
        simp only [turn]; ring
      rw [e1]
      exact add_pos_of_nonneg_of_pos (mul_nonneg (by linarith) h1') (mul_pos s0 h2)
    have := (hE _ o).2 hI
    rw [evenOdd_iff, show winding v _ = winding v z from w, ← evenOdd_iff] at this
    exact hn this

/-- **C142 (hull).** For points of which no three are in line and no two are within 1e-6 of each other in both coordinates, ConvexHull
returns a simple, strictly convex, counter-clockwise polygon, and off its ring a point is inside the polygon exactly when it is in the least
convex set that contains the points. -/
theorem C142_hull (sortPts : List (Point (XR ℝ)) → List (Point (XR ℝ))) (hs : HullSort sortPts) (pts : List (ℝ × ℝ))
    (hd : pts.Pairwise fun a b => ¬ Close a b) (h3 : 3 ≤ pts.length)
    (hg : ∀ a ∈ pts, ∀ b ∈ pts, ∀ x ∈ pts, turn a b x = 0 → a = b ∨ x = a ∨ x = b) :
    ∃ after v, ConvexHull sortPts (pts.map pt) = .ok (after, some (ring v)) ∧ StrictlyConvex v ∧ SimpleRing v ∧
      SelfIntersect [ring v] = false ∧ IsCCW [ring v] = true ∧
      ∀ z, ¬ OnRing v z → (EvenOdd v z ↔ z ∈ convexHull ℝ {x | x ∈ pts}) := by
  obtain ⟨after, v, h, hv⟩ := C48_hull_apart sortPts hs pts hd h3
  have hc := hull_strict hv hg
  have hS := (C140_convex v hc).1
  refine ⟨after, v, h, hc, hS, (C140_verify v hS []).1, ?_, hull_inside hv hc⟩
  obtain ⟨o, hpos, -⟩ := inside_area hc
  exact (C32_area_fan o v []).2.2 hpos

/-- **C142 (hull of a simple polygon).** The hull of the corners of a simple polygon has at least its area. -/
theorem C142_hull_le (sortPts : List (Point (XR ℝ)) → List (Point (XR ℝ))) (hs : HullSort sortPts) (c : List (ℝ × ℝ)) (hc : SimpleRing c)
    (hd : c.Pairwise fun a b => ¬ Close a b) :
    ∃ after r A B, ConvexHull sortPts (c.map pt) = .ok (after, some r) ∧ GetArea (.polygon [ring c]) = .fin A ∧
      GetArea (.polygon [r]) = .fin B ∧ A ≤ B :=
  C136_polygon_le sortPts hs c (simple_winding hc) hd hc.1

/-- **C142 (buffer).** Point.Buffer of a width `w > 0` is a simple polygon; off its ring, what is inside it is within `w` of the point, and what is
within `w cos 7.5°` of the point is inside it. -/
theorem C142_buffer (c : ℝ × ℝ) (w : ℝ) (hw : 0 < w) (fuel : ℕ) (hf : 26 ≤ fuel) : ∃ r : List (ℝ × ℝ),
    pointBuffer (F := XR ℝ) fuel (pt c) (.fin w) = .ok (some (ring r)) ∧ SimpleRing r ∧ SelfIntersect [ring r] = false ∧
    ∀ z, ¬ OnRing r z → (EvenOdd r z → eucl z c < w) ∧ (eucl z c < w * cos (π / 24) → EvenOdd r z) := by
  obtain ⟨r, h1, h2, h3⟩ := C139_region c w hw fuel hf
  obtain ⟨r', g1, hc, -⟩ := C139_area c w hw fuel hf
  have hr : r = r' := by
    rw [h1] at g1
    have e : ring r = ring r' := by simpa using g1
    exact ring_inj e
  subst hr
  obtain ⟨hS, hE⟩ := C140_convex r hc
  exact ⟨r, h1, hS, (C140_verify r hS []).1, fun z hz => ⟨fun h => h2 z ((hE z hz).1 h), fun h => (hE z hz).2 (h3 z h)⟩⟩

/-- non-vacuity: three corners and a point in between -/
example : ∃ after v, ConvexHull goSort12 ([((0 : ℝ), (0 : ℝ)), (1, 1), (3, 0), (0, 4)].map pt) = .ok (after, some (ring v)) ∧ StrictlyConvex v ∧ SimpleRing v ∧
    SelfIntersect [ring v] = false ∧ IsCCW [ring v] = true ∧
    ∀ z, ¬ OnRing v z → (EvenOdd v z ↔ z ∈ convexHull ℝ {x | x ∈ [((0 : ℝ), (0 : ℝ)), (1, 1), (3, 0), (0, 4)]}) :=
  C142_hull goSort12 goSort12_hullSort _ (by unfold Close; norm_num [abs_lt]) (by simp) (by simp [turn]; norm_num)

end GoGeo.Region
