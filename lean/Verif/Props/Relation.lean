import Verif.Geo.SegmentLemmas
import Verif.Props.Measure
import Verif.Go.F64

/-!
# Properties of spatial relations: C35 – C41, C67 – C71
-/
set_option linter.unusedSectionVars false

namespace GoGeo
open GoFloat Spec

section
variable {K : Type} [Field K] [LinearOrder K] [IsStrictOrderedRing K]

/-! ## C35 -/

/-- **C35 is false.** `IsPointOnSegment` denies that (1,1) is on the segment (0,0)–(2,2), even that (2,2)
is, and claims that (0,0) is on the segment (1,1)–(2,2).  (float64) -/
theorem C35_onSegment_false :
    IsPointOnSegment (F := Float) ⟨0, 0⟩ ⟨2, 2⟩ ⟨1, 1⟩ = false ∧
    IsPointOnSegment (F := Float) ⟨0, 0⟩ ⟨2, 2⟩ ⟨2, 2⟩ = false ∧
    IsPointOnSegment (F := Float) ⟨1, 1⟩ ⟨2, 2⟩ ⟨0, 0⟩ = true := by decide +kernel

/-- **C35 (what holds).** In exact arithmetic `IsPointOnSegment` is true exactly for the origin, and
exactly when the *line* through the two points contains it. -/
theorem C35_onSegment_exact (a b p : K × K) :
    IsPointOnSegment (pt a) (pt b) (pt p) = true ↔ p = (0, 0) ∧ turn a b p = 0 := isPointOnSegment_fin a b p

/-- **C35 (partial).** For the origin and segments that do not leave it outside on their own line, the
answer is right.  Missing: every other point, and the origin beyond the ends. -/
theorem C35_onSegment_partial (a b : K × K) (h : turn a b (0, 0) = 0 → OnSeg a b (0, 0)) :
    IsPointOnSegment (pt a) (pt b) (pt (0, 0)) = true ↔ OnSeg a b (0, 0) := by
  rw [isPointOnSegment_fin]
  constructor
  · rintro ⟨_, h2⟩; exact h h2
  · rintro ⟨t, _, _, ht⟩
    refine ⟨rfl, ?_⟩
    rw [ht, turn_along, turn_self_left, turn_self_right]; ring

/-- C35 on a concrete segment through the origin. -/
example : IsPointOnSegment (pt ((-1 : ℚ), (-2 : ℚ))) (pt (1, 2)) (pt (0, 0)) = true := by decide +kernel

/-! ## C36 -/

/-- **C36 (start vertex).** For every arithmetic (float64 included) the answer does not depend on the corner the closed ring starts at. -/
theorem C36_inPolygon_rotate {F : Type} [GoFloat F] (p : Point F) (c : List (Point F)) (k : ℕ) (holes : List (List (Point F))) :
    IsPointInPolygon p ((c.rotate k ++ (c.rotate k).take 1) :: holes) = IsPointInPolygon p ((c ++ c.take 1) :: holes) := by
  unfold IsPointInPolygon
  show inPolyLoop p false (edges (c.rotate k ++ (c.rotate k).take 1)) = inPolyLoop p false (edges (c ++ c.take 1))
  rw [inPolyLoop_eq, inPolyLoop_eq, edges_closed, edges_closed]
  have hp := sides_rotate_perm c k
  rw [hp.countP_eq]
  have : (sides (c.rotate k)).any (fun e => IsPointOnSegment e.1 e.2 p) = (sides c).any (fun e => IsPointOnSegment e.1 e.2 p) := by
    rw [Bool.eq_iff_iff, List.any_eq_true, List.any_eq_true]
    exact ⟨fun ⟨e, h1, h2⟩ => ⟨e, hp.mem_iff.1 h1, h2⟩, fun ⟨e, h1, h2⟩ => ⟨e, hp.mem_iff.2 h1, h2⟩⟩
  rw [this]

theorem crossesRay_swap (p a b : K × K) : crossesRay (pt p) (pt b) (pt a) = crossesRay (pt p) (pt a) (pt b) := by
  rw [Bool.eq_iff_iff, crossesRay_fin, crossesRay_fin]
  constructor
  · rintro ⟨h1, h2⟩
    have hne : a.2 - b.2 ≠ 0 := by rcases h1 with h | h <;> intro e <;> linarith
    have hne' : b.2 - a.2 ≠ 0 := by rcases h1 with h | h <;> intro e <;> linarith
    refine ⟨h1.symm.imp And.symm And.symm, ?_⟩
    have : xAt p.2 b a = xAt p.2 a b := by
      unfold xAt
      rw [← sub_eq_zero]
      have : (p.2 - b.2) * (b.1 - a.1) / (b.2 - a.2) = (p.2 - b.2) * (a.1 - b.1) / (a.2 - b.2) := by
        rw [div_eq_div_iff hne' hne]; ring
      rw [this]; field_simp; ring
    rwa [← this]
  · rintro ⟨h1, h2⟩
    have hne : a.2 - b.2 ≠ 0 := by rcases h1 with h | h <;> intro e <;> linarith
    have hne' : b.2 - a.2 ≠ 0 := by rcases h1 with h | h <;> intro e <;> linarith
    refine ⟨h1.symm.imp And.symm And.symm, ?_⟩
    have : xAt p.2 b a = xAt p.2 a b := by
      unfold xAt
      rw [← sub_eq_zero]
      have : (p.2 - b.2) * (b.1 - a.1) / (b.2 - a.2) = (p.2 - b.2) * (a.1 - b.1) / (a.2 - b.2) := by
        rw [div_eq_div_iff hne' hne]; ring
      rw [this]; field_simp; ring
    rwa [this]

/-- **C36 (orientation).** In exact arithmetic the answer is the same for a ring and its reversal. -/
theorem C36_inPolygon_reverse (p : K × K) (c : List (K × K)) (holes : List (List (Point (XR K)))) :
    IsPointInPolygon (pt p) ((ring c).reverse :: holes) = IsPointInPolygon (pt p) (ring c :: holes) := by
  unfold IsPointInPolygon
  show inPolyLoop _ false (edges (ring c).reverse) = inPolyLoop _ false (edges (ring c))
  have he : edges (ring c) = (sides c).map (Prod.map pt pt) := by
    unfold ring; rw [edges_map, edges_closed]
  rw [edges_reverse, he, inPolyLoop_eq, inPolyLoop_eq, List.any_reverse, List.countP_reverse, List.any_map, List.any_map,
    List.countP_map, List.countP_map, List.countP_map, List.any_map]
  congr 1
  · congr 1
    congr 1
    funext e
    simp only [Function.comp, Prod.map, Prod.swap]
    rw [Bool.eq_iff_iff, isPointOnSegment_fin, isPointOnSegment_fin]
    refine and_congr_right fun _ => ?_
    have : turn e.2 e.1 p = -turn e.1 e.2 p := by unfold turn; ring
    rw [this, neg_eq_zero]
  · have : List.countP (((fun e => crossesRay (pt p) e.1 e.2) ∘ Prod.swap) ∘ Prod.map pt pt) (sides c) =
        List.countP ((fun e => crossesRay (pt p) e.1 e.2) ∘ Prod.map pt pt) (sides c) := by
      congr 1
      funext e
      simp only [Function.comp, Prod.map, Prod.swap]
      rw [crossesRay_swap]
    rw [this]

/-- C36 on a concrete ring and point: the answer is CONTAIN for the triangle, its reversal and a rotation. -/
example : IsPointInPolygon (pt ((1 : ℚ), (1 : ℚ))) [ring [(0, 0), (4, 0), (0, 4)]] = .contain ∧
    IsPointInPolygon (pt ((1 : ℚ), (1 : ℚ))) [(ring [(0, 0), (4, 0), (0, 4)]).reverse] = .contain ∧
    IsPointInPolygon (F := Float) ⟨1, 1⟩ [[⟨4, 0⟩, ⟨0, 4⟩, ⟨0, 0⟩, ⟨4, 0⟩]] = .contain := by decide +kernel

/-! ## C37 -/

/-- **C37 is false.** The triangle (0,0.000001), (10,0.0000009), (5,-5) lies in the box [0,10]×[-5,0.000001].
The point (50,0), forty units to the right of the box, is reported CONTAIN.  (float64) -/
theorem C37_outside_box_false :
    IsPointInPolygon (F := Float) ⟨50, 0⟩ [[⟨0, 0.000001⟩, ⟨10, 0.0000009⟩, ⟨5, -5⟩, ⟨0, 0.000001⟩]] = .contain ∧
    IsPointInBox (BoundingBox (F := Float) (.polygon [[⟨0, 0.000001⟩, ⟨10, 0.0000009⟩, ⟨5, -5⟩, ⟨0, 0.000001⟩]])) ⟨50, 0⟩ = false := by
  decide +kernel

/-- **C37 (vertically outside).** A point other than the origin that is above every corner, or more than
1e-6 below every corner, is DISJOINT. -/
theorem C37_outside_y (p : K × K) (c : List (K × K)) (holes : List (List (Point (XR K)))) (h0 : p ≠ (0, 0))
    (h : (∀ v ∈ c, v.2 < p.2) ∨ (∀ v ∈ c, p.2 + eps < v.2)) :
    IsPointInPolygon (pt p) (ring c :: holes) = .disjoint := by
  rw [inPoly_ring, if_neg (fun h => h0 h.1)]
  have : hits p c = 0 := by
    unfold hits
    rw [List.countP_eq_zero]
    intro e he hc
    rw [crossesRay_fin] at hc
    have ep := eps_pos (K := K)
    rcases h with h | h
    · have h1 := h _ (sides_mem_left he)
      have h2 := h _ (sides_mem_right he)
      rcases hc.1 with h | h <;> linarith
    · have h1 := h _ (sides_mem_left he)
      have h2 := h _ (sides_mem_right he)
      rcases hc.1 with h | h <;> linarith
  rw [this]; rfl

/-- **C37 (partial).** A point other than the origin outside the box of the corners (to the left and below
by more than 1e-6) is DISJOINT, if no corner lies above it by less than 1e-6.  Missing: that last
hypothesis, which `C37_outside_box_false` shows to be needed. -/
theorem C37_outside_box_partial (p : K × K) (c : List (K × K)) (holes : List (List (Point (XR K)))) (h0 : p ≠ (0, 0))
    (hy : ClearY c p)
    (h : (∀ v ∈ c, v.1 < p.1) ∨ (∀ v ∈ c, p.1 + eps < v.1) ∨ (∀ v ∈ c, v.2 < p.2) ∨ (∀ v ∈ c, p.2 + eps < v.2)) :
    IsPointInPolygon (pt p) (ring c :: holes) = .disjoint := by
  have ep := eps_pos (K := K)
  rcases h with h | h | h
  · rw [inPoly_ring, if_neg (fun h => h0 h.1)]
    have : hits p c = 0 := by
      unfold hits
      rw [List.countP_eq_zero]
      intro e he hc
      rw [crossesRay_clear hy he, Bool.and_eq_true, Bool.or_eq_true, up_iff, down_iff] at hc
      obtain ⟨hs, hr⟩ := hc
      obtain ⟨t, t0, t1, ht⟩ := xAt_onSeg hs
      have e1 := congrArg Prod.fst ht
      simp only [along] at e1
      simp only [rightOf, decide_eq_true_eq] at hr
      have m1 := mul_nonneg (sub_nonneg.2 t1) (sub_nonneg.2 (h _ (sides_mem_left he)).le)
      have m2 := mul_nonneg t0 (sub_nonneg.2 (h _ (sides_mem_right he)).le)
      nlinarith
    rw [this]; rfl
  · rw [inPoly_ring, if_neg (fun h => h0 h.1)]
    have hr : ∀ e ∈ sides c, (up p e = true ∨ down p e = true) → rightOf p e = true := by
      intro e he hs
      rw [up_iff, down_iff] at hs
      obtain ⟨t, t0, t1, ht⟩ := xAt_onSeg hs
      have e1 := congrArg Prod.fst ht
      simp only [along] at e1
      simp only [rightOf, decide_eq_true_eq]
      have m1 := mul_nonneg (sub_nonneg.2 t1) (sub_nonneg.2 (h _ (sides_mem_left he)).le)
      have m2 := mul_nonneg t0 (sub_nonneg.2 (h _ (sides_mem_right he)).le)
      nlinarith
    have hU : (sides c).countP (fun e => up p e && rightOf p e) = (sides c).countP (up p) := by
      apply List.countP_congr
      intro e he
      rw [Bool.and_eq_true]
      exact ⟨And.left, fun h => ⟨h, hr e he (Or.inl h)⟩⟩
    have hD : (sides c).countP (fun e => down p e && rightOf p e) = (sides c).countP (down p) := by
      apply List.countP_congr
      intro e he
      rw [Bool.and_eq_true]
      exact ⟨And.left, fun h => ⟨h, hr e he (Or.inr h)⟩⟩
    have hE : (sides c).countP (up p) = (sides c).countP (down p) := up_eq_down (abv p) c
    rw [hits_clear hy, hU, hD, hE, if_neg (by omega)]
  · exact C37_outside_y p c holes h0 h

/-- C37 on a concrete L-shaped ring and a point to its left. -/
example : (∀ v ∈ [((0 : ℚ), (0 : ℚ)), (2, 0), (2, 1), (1, 1), (1, 2), (0, 2)], ((-3 : ℚ), (1 : ℚ)).1 + eps < v.1) ∧
    ClearY [((0 : ℚ), (0 : ℚ)), (2, 0), (2, 1), (1, 1), (1, 2), (0, 2)] (-3, 1) ∧
    IsPointInPolygon (pt ((-3 : ℚ), (1 : ℚ))) [ring [((0 : ℚ), (0 : ℚ)), (2, 0), (2, 1), (1, 1), (1, 2), (0, 2)]] = .disjoint := by
  refine ⟨by decide +kernel, ?_, by decide +kernel⟩
  unfold ClearY; decide +kernel

/-! ## C38 -/

/-- **C38 is false.** The counter-clockwise triangle (5,-5), (10,0.0000009), (0,0.000001) is strictly convex,
(50,0) is forty units away from it, and the answer is CONTAIN. -/
theorem C38_convex_false :
    let c : List (ℚ × ℚ) := [(5, -5), (10, 9/10000000), (0, 1/1000000)]
    StrictlyConvex c ∧ OutsideConvex c (50, 0) ∧ (∀ v ∈ c, v.1 + 40 ≤ 50) ∧
    IsPointInPolygon (pt ((50 : ℚ), (0 : ℚ))) [ring c] = .contain := by
  unfold StrictlyConvex OutsideConvex
  decide +kernel

/-- **C38 (partial).** For a strictly convex counter-clockwise ring with any number of corners, a point
strictly inside is CONTAIN and a point strictly outside is DISJOINT, when the point is not the origin,
is at least 1e-6 from the boundary horizontally, and no corner lies above it by less than 1e-6.
Missing: that last hypothesis (needed, see `C38_convex_false`), and the origin on a line of a side. -/
theorem C38_convex_partial (c : List (K × K)) (hc : StrictlyConvex c) (p : K × K) (hx : ClearX c p) (hy : ClearY c p)
    (h0 : p ≠ (0, 0)) (holes : List (List (Point (XR K)))) :
    (InsideConvex c p → IsPointInPolygon (pt p) (ring c :: holes) = .contain) ∧
    (OutsideConvex c p → IsPointInPolygon (pt p) (ring c :: holes) = .disjoint) := by
  rw [inPoly_ring, if_neg (fun h => h0 h.1)]
  constructor
  · intro hp
    rw [hits_inside hc hp hx hy]; rfl
  · intro hp
    rw [hits_outside hc hp hx hy]; rfl

/-- **C38 (rectangles).** For every axis-parallel rectangle and every point other than the origin the
answer is CONTAIN exactly on the rectangle shifted down and left by 1e-6, otherwise DISJOINT. -/
theorem C38_rectangle (x0 x1 y0 y1 : K) (hxx : x0 < x1) (hyy : y0 < y1) (p : K × K) (h0 : p ≠ (0, 0))
    (holes : List (List (Point (XR K)))) :
    IsPointInPolygon (pt p) (ring [(x0, y0), (x1, y0), (x1, y1), (x0, y1)] :: holes) =
      if x0 - eps < p.1 ∧ p.1 ≤ x1 - eps ∧ y0 - eps < p.2 ∧ p.2 ≤ y1 - eps then .contain else .disjoint := by
  rw [inPoly_ring, if_neg (fun h => h0 h.1)]
  have hs : sides [(x0, y0), (x1, y0), (x1, y1), (x0, y1)] =
    [((x0, y0), (x1, y0)), ((x1, y0), (x1, y1)), ((x1, y1), (x0, y1)), ((x0, y1), (x0, y0))] := rfl
  have e1 : crossesRay (pt p) (pt (x0, y0)) (pt (x1, y0)) = false := by
    rw [Bool.eq_false_iff, ne_eq, crossesRay_fin]
    rintro ⟨h | h, _⟩ <;> (simp only at h; linarith)
  have e3 : crossesRay (pt p) (pt (x1, y1)) (pt (x0, y1)) = false := by
    rw [Bool.eq_false_iff, ne_eq, crossesRay_fin]
    rintro ⟨h | h, _⟩ <;> (simp only at h; linarith)
  have e2 : crossesRay (pt p) (pt (x1, y0)) (pt (x1, y1)) = decide ((y0 - eps < p.2 ∧ p.2 ≤ y1 - eps) ∧ p.1 ≤ x1 - eps) := by
    rw [Bool.eq_iff_iff, crossesRay_fin]
    simp only [xAt, sub_self, mul_zero, zero_div, add_zero, decide_eq_true_eq]
    constructor
    · rintro ⟨h | h, h'⟩
      · linarith
      · exact ⟨⟨by linarith, by linarith⟩, by linarith⟩
    · rintro ⟨h, h'⟩
      exact ⟨Or.inr ⟨by linarith, by linarith⟩, by linarith⟩
  have e4 : crossesRay (pt p) (pt (x0, y1)) (pt (x0, y0)) = decide ((y0 - eps < p.2 ∧ p.2 ≤ y1 - eps) ∧ p.1 ≤ x0 - eps) := by
    rw [Bool.eq_iff_iff, crossesRay_fin]
    simp only [xAt, sub_self, mul_zero, zero_div, add_zero, decide_eq_true_eq]
    constructor
    · rintro ⟨h | h, h'⟩
      · exact ⟨⟨by linarith, by linarith⟩, by linarith⟩
      · linarith
    · rintro ⟨h, h'⟩
      exact ⟨Or.inl ⟨by linarith, by linarith⟩, by linarith⟩
  unfold hits
  rw [hs]
  simp only [List.countP_cons, List.countP_nil, e1, e2, e3, e4]
  by_cases hy : y0 - eps < p.2 ∧ p.2 ≤ y1 - eps
  · by_cases ha : p.1 ≤ x0 - eps
    · have hb : p.1 ≤ x1 - eps := by linarith
      simp [hy, ha, hb, not_lt.2 ha]
    · by_cases hb : p.1 ≤ x1 - eps
      · simp [hy, ha, hb, not_le.1 ha]
      · simp [hy, ha, hb]
  · have : ¬ (x0 - eps < p.1 ∧ p.1 ≤ x1 - eps ∧ y0 - eps < p.2 ∧ p.2 ≤ y1 - eps) := fun h => hy h.2.2
    rw [if_neg this]; simp [hy]

/-- C38 on a concrete convex pentagon, one point inside and one outside. -/
example : let c : List (ℚ × ℚ) := [(0, 0), (4, 0), (5, 3), (2, 5), (-1, 3)]
    StrictlyConvex c ∧ InsideConvex c (2, 2) ∧ ClearY c (2, 2) ∧ OutsideConvex c (5, 1) ∧ ClearY c (5, 1) ∧
    IsPointInPolygon (pt ((2 : ℚ), (2 : ℚ))) [ring c] = .contain ∧ IsPointInPolygon (pt ((5 : ℚ), (1 : ℚ))) [ring c] = .disjoint := by
  unfold StrictlyConvex InsideConvex OutsideConvex ClearY
  decide +kernel

/-- The margin hypothesis of C38 on a concrete triangle and its point (1,1). -/
example : ClearX [((0 : ℚ), (0 : ℚ)), (4, 0), (0, 4)] (1, 1) := by
  have hs : sides [((0 : ℚ), (0 : ℚ)), (4, 0), (0, 4)] = [((0, 0), (4, 0)), ((4, 0), (0, 4)), ((0, 4), (0, 0))] := rfl
  intro e he q hq h
  rw [hs] at he
  obtain ⟨t, t0, t1, rfl⟩ := hq
  simp only [List.mem_cons, List.not_mem_nil, or_false] at he
  rcases he with rfl | rfl | rfl
  · simp [along] at h
  · have ht : t = 1/4 := by simp only [along] at h; linarith
    simp only [along, ht, eps]; norm_num
  · simp only [along, eps]; norm_num

/-! ## C39 -/

/-- **C39.** `SegmentRelation` is INTERSECT exactly when the segments are not parallel and have exactly
one common point interior to both. -/
theorem C39_intersect_iff (a b c d : K × K) :
    SegmentRelation (seg a b) (seg c d) = .intersect ↔ ProperCross a b c d := segRel_intersect a b c d

/-- **C39 (symmetry).** The verdict INTERSECT does not depend on the order or the direction of the segments. -/
theorem C39_intersect_symm (a b c d : K × K) :
    (SegmentRelation (seg a b) (seg c d) = .intersect ↔ SegmentRelation (seg c d) (seg a b) = .intersect) ∧
    (SegmentRelation (seg a b) (seg c d) = .intersect ↔ SegmentRelation (seg b a) (seg c d) = .intersect) ∧
    (SegmentRelation (seg a b) (seg c d) = .intersect ↔ SegmentRelation (seg a b) (seg d c) = .intersect) := by
  simp only [segRel_intersect]
  refine ⟨properCross_symm .., properCross_rev .., ?_⟩
  rw [properCross_symm, properCross_rev, properCross_symm]

/-- C39 on a concrete crossing. -/
example : SegmentRelation (seg ((0 : ℚ), (0 : ℚ)) (4, 4)) (seg (0, 3) (3, 0)) = .intersect ∧
    SegmentRelation (F := Float) ⟨⟨0, 0⟩, ⟨4, 4⟩⟩ ⟨⟨0, 3⟩, ⟨3, 0⟩⟩ = .intersect := by decide +kernel

/-! ## C67: the whole verdict -/

/-- **C67 is false for degenerate segments.** A point and a segment that misses it: TOUCH one way round, DISJOINT the other. -/
theorem C67_symm_false :
    SegmentRelation (F := Float) ⟨⟨5, 5⟩, ⟨5, 5⟩⟩ ⟨⟨0, 0⟩, ⟨1, 0⟩⟩ = .touch ∧
    SegmentRelation (F := Float) ⟨⟨0, 0⟩, ⟨1, 0⟩⟩ ⟨⟨5, 5⟩, ⟨5, 5⟩⟩ = .disjoint := by decide +kernel

theorem seg_parallel_swap {a b c d : K × K} (hab : a ≠ b) (hcd : c ≠ d) (hD : segD a b c d = 0) :
    segN2 a b c = 0 ↔ segN2 c d a = 0 := by
  unfold segD at hD
  unfold segN2
  constructor
  · intro h
    by_contra hne
    apply hab
    have h1 : (b.1 - a.1) * ((a.1 - c.1) * (d.2 - c.2) - (a.2 - c.2) * (d.1 - c.1)) = 0 := by
      linear_combination (a.1 - c.1) * hD - (d.1 - c.1) * h
    have h2 : (b.2 - a.2) * ((a.1 - c.1) * (d.2 - c.2) - (a.2 - c.2) * (d.1 - c.1)) = 0 := by
      linear_combination (a.2 - c.2) * hD - (d.2 - c.2) * h
    refine Prod.ext ?_ ?_
    · have := (mul_eq_zero.1 h1).resolve_right hne; linear_combination -this
    · have := (mul_eq_zero.1 h2).resolve_right hne; linear_combination -this
  · intro h
    by_contra hne
    apply hcd
    have h1 : (d.1 - c.1) * ((c.1 - a.1) * (b.2 - a.2) - (c.2 - a.2) * (b.1 - a.1)) = 0 := by
      linear_combination -(c.1 - a.1) * hD - (b.1 - a.1) * h
    have h2 : (d.2 - c.2) * ((c.1 - a.1) * (b.2 - a.2) - (c.2 - a.2) * (b.1 - a.1)) = 0 := by
      linear_combination -(c.2 - a.2) * hD - (b.2 - a.2) * h
    refine Prod.ext ?_ ?_
    · have := (mul_eq_zero.1 h1).resolve_right hne; linear_combination -this
    · have := (mul_eq_zero.1 h2).resolve_right hne; linear_combination -this

/-- **C67 (order, partial).** For segments with distinct end points the verdict is the same in both orders.
Missing: degenerate segments (false, see `C67_symm_false`). -/
theorem C67_symm_partial (a b c d : K × K) (hab : a ≠ b) (hcd : c ≠ d) :
    SegmentRelation (seg a b) (seg c d) = SegmentRelation (seg c d) (seg a b) := by
  rw [segRel_fin, segRel_fin]
  have hD : segD c d a b = -segD a b c d := by unfold segD; ring
  have h1 : segN1 c a b = -segN2 a b c := by unfold segN1 segN2; ring
  have h2 : segN2 c d a = -segN1 a c d := by unfold segN1 segN2; ring
  by_cases h : segD a b c d = 0
  · have h' : segD c d a b = 0 := by rw [hD, h, neg_zero]
    rw [if_pos h, if_pos h']
    have := seg_parallel_swap hab hcd h
    by_cases hn : segN2 a b c = 0
    · rw [if_pos hn, if_pos (this.1 hn)]
    · rw [if_neg hn, if_neg (fun h => hn (this.2 h))]
  · have h' : segD c d a b ≠ 0 := by rw [hD]; simpa using h
    rw [if_neg h, if_neg h', h1, h2, hD, neg_div_neg_eq, neg_div_neg_eq]
    congr 1
    · rw [eq_iff_iff]; constructor <;> rintro ⟨a, b, c, d⟩ <;> exact ⟨c, d, a, b⟩
    · congr 1; rw [eq_iff_iff]; exact and_comm

/-- **C67 (direction).** The verdict does not depend on the direction of the segments. -/
theorem C67_direction (a b c d : K × K) :
    SegmentRelation (seg b a) (seg c d) = SegmentRelation (seg a b) (seg c d) := by
  rw [segRel_fin, segRel_fin]
  have hD : segD b a c d = -segD a b c d := by unfold segD; ring
  have h1 : segN1 b c d = segN1 a c d - segD a b c d := by unfold segN1 segD; ring
  have h2 : segN2 b a c = -segN2 a b c := by unfold segN2; ring
  by_cases h : segD a b c d = 0
  · rw [if_pos h, if_pos (by rw [hD, h, neg_zero]), h2]
    simp
  · have hq : (segN1 a c d - segD a b c d) / -segD a b c d = 1 - segN1 a c d / segD a b c d := by field_simp; ring
    rw [if_neg h, if_neg (by rw [hD]; simpa using h), h1, h2, hD, neg_div_neg_eq, hq]
    have e1 : ∀ x : K, (0 < 1 - x ↔ x < 1) := fun x => by constructor <;> intro h <;> linarith
    have e2 : ∀ x : K, (1 - x < 1 ↔ 0 < x) := fun x => by constructor <;> intro h <;> linarith
    have e3 : ∀ x : K, (1 - x = 0 ↔ x = 1) := fun x => by constructor <;> intro h <;> linarith
    have e4 : ∀ x : K, (1 - x = 1 ↔ x = 0) := fun x => by constructor <;> intro h <;> linarith
    simp only [e1, e2, e3, e4]
    congr 1
    · rw [eq_iff_iff]; constructor <;> rintro ⟨a, b, c⟩ <;> exact ⟨b, a, c⟩
    · congr 1; rw [eq_iff_iff, or_comm]

/-- C67 on a concrete pair sharing an end point. -/
example : SegmentRelation (seg ((0 : ℚ), (0 : ℚ)) (4, 4)) (seg (4, 4) (7, 0)) = .touch ∧
    SegmentRelation (seg (4, 4) (7, 0)) (seg ((0 : ℚ), (0 : ℚ)) (4, 4)) = .touch ∧ ((0 : ℚ), (0 : ℚ)) ≠ (4, 4) ∧ ((4 : ℚ), (4 : ℚ)) ≠ (7, 0) := by decide +kernel

/-! ## C40 -/

/-- **C40 is false.** A T-junction is DISJOINT although (1,0) is common; two far-apart segments of one line are TOUCH.  (float64) -/
theorem C40_disjoint_false :
    SegmentRelation (F := Float) ⟨⟨0, 0⟩, ⟨2, 0⟩⟩ ⟨⟨1, 0⟩, ⟨1, 1⟩⟩ = .disjoint ∧
    SegmentRelation (F := Float) ⟨⟨0, 0⟩, ⟨1, 0⟩⟩ ⟨⟨5, 0⟩, ⟨6, 0⟩⟩ = .touch := by decide +kernel

/-- **C40 (partial).** For segments not on one line, neither of which ends inside the other, DISJOINT says
exactly that the closed segments have no common point.  Missing: collinear segments and T-junctions. -/
theorem C40_disjoint_partial (a b c d : K × K) (hcol : ¬ (turn a b c = 0 ∧ turn a b d = 0))
    (h1 : ¬ InSeg c d a) (h2 : ¬ InSeg c d b) (h3 : ¬ InSeg a b c) (h4 : ¬ InSeg a b d) :
    SegmentRelation (seg a b) (seg c d) = .disjoint ↔ ¬ ∃ x, OnSeg a b x ∧ OnSeg c d x := by
  rw [segRel_fin]
  by_cases h : segD a b c d = 0
  · have hN : segN2 a b c ≠ 0 := by
      intro hn
      apply hcol
      have e1 : turn a b c = -segN2 a b c := by unfold turn segN2; ring
      have e2 : turn a b d = turn a b c + segD a b c d := by unfold turn segD; ring
      rw [e2, e1, hn, h]; simp
    rw [if_pos h, if_neg hN]
    refine iff_of_true rfl ?_
    rintro ⟨x, ⟨t, _, _, rfl⟩, ⟨u, _, _, hu⟩⟩
    apply hN
    have e1 := congrArg Prod.fst hu
    have e2 := congrArg Prod.snd hu
    simp only [along] at e1 e2
    unfold segD at h
    unfold segN2
    linear_combination (b.1 - a.1) * e2 - (b.2 - a.2) * e1 + u * h
  · rw [if_neg h]
    obtain ⟨T, hT⟩ : ∃ T, T = segN1 a c d / segD a b c d := ⟨_, rfl⟩
    obtain ⟨U, hU⟩ : ∃ U, U = segN2 a b c / segD a b c d := ⟨_, rfl⟩
    have hmeet : along a b T = along c d U := (meet h T U).2 ⟨hT, hU⟩
    have huniq : ∀ t u, along a b t = along c d u → t = T ∧ u = U := fun t u e => by
      obtain ⟨x, y⟩ := (meet h t u).1 e
      exact ⟨x.trans hT.symm, y.trans hU.symm⟩
    rw [← hT, ← hU]
    have a0 : along a b 0 = a := by unfold along; simp
    have a1 : along a b 1 = b := by unfold along; simp
    have c0 : along c d 0 = c := by unfold along; simp
    have c1 : along c d 1 = d := by unfold along; simp
    constructor
    · intro hd
      rintro ⟨x, ⟨t, t0, t1, rfl⟩, ⟨u, u0, u1, hu⟩⟩
      obtain ⟨rfl, rfl⟩ := huniq t u hu
      by_cases hi : 0 < t ∧ t < 1 ∧ 0 < u ∧ u < 1
      · rw [if_pos hi] at hd; simp at hd
      · rw [if_neg hi] at hd
        by_cases ht : t = 0 ∨ t = 1
        · by_cases hu' : u = 0 ∨ u = 1
          · rw [if_pos ⟨ht, hu'⟩] at hd; simp at hd
          · push Not at hu'
            have hin : InSeg c d (along a b t) := ⟨u, lt_of_le_of_ne u0 hu'.1.symm, lt_of_le_of_ne u1 hu'.2, hu⟩
            rcases ht with rfl | rfl
            · rw [a0] at hin; exact h1 hin
            · rw [a1] at hin; exact h2 hin
        · push Not at ht
          have ht' : 0 < t ∧ t < 1 := ⟨lt_of_le_of_ne t0 ht.1.symm, lt_of_le_of_ne t1 ht.2⟩
          have hin : InSeg a b (along c d u) := ⟨t, ht'.1, ht'.2, hu.symm⟩
          by_cases hu0 : u = 0
          · rw [hu0, c0] at hin; exact h3 hin
          · by_cases hu1 : u = 1
            · rw [hu1, c1] at hin; exact h4 hin
            · exact hi ⟨ht'.1, ht'.2, lt_of_le_of_ne u0 (Ne.symm hu0), lt_of_le_of_ne u1 hu1⟩
    · intro hno
      have hno' : ¬ (0 ≤ T ∧ T ≤ 1 ∧ 0 ≤ U ∧ U ≤ 1) := fun ⟨q1, q2, q3, q4⟩ =>
        hno ⟨along a b T, ⟨T, q1, q2, rfl⟩, ⟨U, q3, q4, hmeet⟩⟩
      rw [if_neg (fun ⟨q1, q2, q3, q4⟩ => hno' ⟨q1.le, q2.le, q3.le, q4.le⟩), if_neg]
      rintro ⟨q1, q2⟩
      apply hno'
      refine ⟨?_, ?_, ?_, ?_⟩
      · rcases q1 with h | h <;> rw [h]; exact zero_le_one
      · rcases q1 with h | h <;> rw [h]; exact zero_le_one
      · rcases q2 with h | h <;> rw [h]; exact zero_le_one
      · rcases q2 with h | h <;> rw [h]; exact zero_le_one

/-- **C40 (TOUCH, exactly).** For all segments, TOUCH says that they are parallel with the start of the second on the line of the first,
or that they are not parallel and have an end point in common.  With C39 this settles the verdict for all pairs: what is neither INTERSECT nor TOUCH is DISJOINT. -/
theorem C40_touch_exact (a b c d : K × K) :
    (SegmentRelation (seg a b) (seg c d) = .touch ↔
      (Parallel a b c d ∧ turn a b c = 0) ∨ (¬ Parallel a b c d ∧ (a = c ∨ a = d ∨ b = c ∨ b = d))) ∧
    (SegmentRelation (seg a b) (seg c d) = .intersect ∨ SegmentRelation (seg a b) (seg c d) = .touch ∨
      SegmentRelation (seg a b) (seg c d) = .disjoint) := by
  rw [segRel_fin]
  have hp : Parallel a b c d ↔ segD a b c d = 0 := by unfold Parallel segD; exact sub_eq_zero.symm
  have ht : turn a b c = 0 ↔ segN2 a b c = 0 := by
    have : turn a b c = -segN2 a b c := by unfold turn segN2; ring
    rw [this, neg_eq_zero]
  rw [hp, ht]
  refine ⟨?_, by split_ifs <;> simp⟩
  by_cases h : segD a b c d = 0
  · rw [if_pos h]
    by_cases hn : segN2 a b c = 0 <;> simp [h, hn]
  · rw [if_neg h]
    have q : ∀ t u, (segN1 a c d / segD a b c d = t ∧ segN2 a b c / segD a b c d = u) ↔ along a b t = along c d u := by
      intro t u
      rw [meet h]
      constructor <;> rintro ⟨x, y⟩ <;> exact ⟨x.symm, y.symm⟩
    have a0 : along a b 0 = a := by unfold along; simp
    have a1 : along a b 1 = b := by unfold along; simp
    have c0 : along c d 0 = c := by unfold along; simp
    have c1 : along c d 1 = d := by unfold along; simp
    have q00 := q 0 0
    have q01 := q 0 1
    have q10 := q 1 0
    have q11 := q 1 1
    rw [a0, c0] at q00
    rw [a0, c1] at q01
    rw [a1, c0] at q10
    rw [a1, c1] at q11
    rw [← q00, ← q01, ← q10, ← q11]
    generalize segN1 a c d / segD a b c d = T
    generalize segN2 a b c / segD a b c d = U
    split_ifs with h1 h2
    · simp only [reduceCtorEq, h, false_and, not_false_eq_true, true_and, false_or, false_iff]
      rintro (⟨e, -⟩ | ⟨e, -⟩ | ⟨e, -⟩ | ⟨e, -⟩)
      · exact h1.1.ne' e
      · exact h1.1.ne' e
      · exact h1.2.1.ne e
      · exact h1.2.1.ne e
    · simp only [h, false_and, not_false_eq_true, true_and, false_or, true_iff]
      rcases h2 with ⟨x | x, y | y⟩
      exacts [.inl ⟨x, y⟩, .inr (.inl ⟨x, y⟩), .inr (.inr (.inl ⟨x, y⟩)), .inr (.inr (.inr ⟨x, y⟩))]
    · simp only [reduceCtorEq, h, false_and, not_false_eq_true, true_and, false_or, false_iff]
      rintro (⟨x, y⟩ | ⟨x, y⟩ | ⟨x, y⟩ | ⟨x, y⟩)
      exacts [h2 ⟨.inl x, .inl y⟩, h2 ⟨.inl x, .inr y⟩, h2 ⟨.inr x, .inl y⟩, h2 ⟨.inr x, .inr y⟩]

/-- The hypotheses of C40 are met by two segments meeting nowhere … -/
example : ¬ (turn ((0 : ℚ), (0 : ℚ)) (1, 0) (3, 1) = 0 ∧ turn ((0 : ℚ), (0 : ℚ)) (1, 0) (4, 3) = 0) ∧
    SegmentRelation (seg ((0 : ℚ), (0 : ℚ)) (1, 0)) (seg (3, 1) (4, 3)) = .disjoint := by decide +kernel

/-! ## C41 -/

theorem selfIntersectLoop_iff {F : Type} [GoFloat F] (es : List (Point F × Point F)) : selfIntersectLoop es = true ↔
    ∃ (i j : Nat) (e d : Point F × Point F), i < j ∧ es[i]? = some e ∧ es[j]? = some d ∧
      SegmentRelation ⟨e.1, e.2⟩ ⟨d.1, d.2⟩ = .intersect := by
  induction es with
  | nil => simp [selfIntersectLoop]
  | cons x es ih =>
    rw [selfIntersectLoop, Bool.or_eq_true, ih, List.any_eq_true]
    constructor
    · rintro (⟨d, hd, h⟩ | ⟨i, j, e, d, h1, h2, h3, h4⟩)
      · obtain ⟨j, hj⟩ := List.mem_iff_getElem?.1 hd
        exact ⟨0, j + 1, x, d, by omega, by simp, by simpa using hj, by simpa using h⟩
      · exact ⟨i + 1, j + 1, e, d, by omega, by simpa using h2, by simpa using h3, h4⟩
    · rintro ⟨i, j, e, d, h1, h2, h3, h4⟩
      obtain ⟨j, rfl⟩ : ∃ k, j = k + 1 := ⟨j - 1, by omega⟩
      rw [List.getElem?_cons_succ] at h3
      cases i with
      | zero =>
        left
        have : x = e := by simpa using h2
        subst this
        exact ⟨d, List.mem_of_getElem? h3, by simpa using h4⟩
      | succ i => right; exact ⟨i, j, e, d, by omega, by simpa using h2, h3, h4⟩

/-- **C41 is false.** A bow-tie is reported from one start vertex and missed from another: the last edge is
never compared.  (float64) -/
theorem C41_selfIntersect_false :
    SelfIntersect (F := Float) [[⟨0, 0⟩, ⟨2, 2⟩, ⟨2, 0⟩, ⟨0, 2⟩, ⟨0, 0⟩]] = true ∧
    SelfIntersect (F := Float) [[⟨2, 2⟩, ⟨2, 0⟩, ⟨0, 2⟩, ⟨0, 0⟩, ⟨2, 2⟩]] = false ∧
    SegmentRelation (F := Float) ⟨⟨2, 0⟩, ⟨0, 2⟩⟩ ⟨⟨0, 0⟩, ⟨2, 2⟩⟩ = .intersect := by decide +kernel

/-- **C41 (partial).** `SelfIntersect` is true exactly when two sides of the closed ring, neither of them
the last, cross properly.  In particular it reports no crossing that is not there.
Missing: crossings with the last side, which the code never compares. -/
theorem C41_selfIntersect_partial (c : List (K × K)) (holes : List (List (Point (XR K)))) :
    SelfIntersect (ring c :: holes) = true ↔
      ∃ (i j : Nat) (e d : (K × K) × (K × K)), i < j ∧ j + 1 < c.length ∧ (sides c)[i]? = some e ∧ (sides c)[j]? = some d ∧
        ProperCross e.1 e.2 d.1 d.2 := by
  unfold SelfIntersect
  have : edges (GetExteriorRing (ring c :: holes)) = (sides c).map (Prod.map pt pt) := by
    show edges (ring c) = _
    unfold ring; rw [edges_map, edges_closed]
  have hl : (sides c).length = c.length := by unfold sides; simp
  rw [this, selfIntersectLoop_iff, ← List.map_dropLast]
  constructor
  · rintro ⟨i, j, e, d, h1, h2, h3, h4⟩
    rw [List.getElem?_map, Option.map_eq_some_iff] at h2 h3
    obtain ⟨e', he, rfl⟩ := h2
    obtain ⟨d', hd, rfl⟩ := h3
    have hj : j < (sides c).dropLast.length := by
      by_contra hn
      rw [List.getElem?_eq_none (by omega)] at hd; simp at hd
    rw [List.length_dropLast, hl] at hj
    rw [List.getElem?_dropLast, if_pos (by rw [hl]; omega)] at he hd
    exact ⟨i, j, e', d', h1, by omega, he, hd, (segRel_intersect _ _ _ _).1 h4⟩
  · rintro ⟨i, j, e, d, h1, h2, h3, h4, h5⟩
    refine ⟨i, j, Prod.map pt pt e, Prod.map pt pt d, h1, ?_, ?_, (segRel_intersect _ _ _ _).2 h5⟩
    · rw [List.getElem?_map, List.getElem?_dropLast, if_pos (by rw [hl]; omega), h3]; rfl
    · rw [List.getElem?_map, List.getElem?_dropLast, if_pos (by rw [hl]; omega), h4]; rfl

/-- C41 on a concrete ring: the bow-tie's sides 0 and 2 of 4 cross properly. -/
example : SelfIntersect [ring [((0 : ℚ), (0 : ℚ)), (2, 2), (2, 0), (0, 2)]] = true ∧
    (sides [((0 : ℚ), (0 : ℚ)), (2, 2), (2, 0), (0, 2)])[2]? = some ((2, 0), (0, 2)) := by decide +kernel

/-! ## C68: LineRelation -/

/-- **C68 is false.** Lines that form a T share a point and are DISJOINT; lines on one straight line far
apart are INTERSECT.  (float64) -/
theorem C68_lineRelation_false :
    LineRelation (F := Float) [⟨0, 0⟩, ⟨2, 0⟩] [⟨1, 0⟩, ⟨1, 1⟩] = .disjoint ∧
    LineRelation (F := Float) [⟨0, 0⟩, ⟨1, 0⟩] [⟨5, 0⟩, ⟨6, 0⟩] = .intersect := by decide +kernel

theorem lineRelation_iff {F : Type} [GoFloat F] (l m : List (Point F)) : LineRelation l m = .intersect ↔
    ∃ e ∈ edges l, ∃ d ∈ edges m, SegmentRelation ⟨e.1, e.2⟩ ⟨d.1, d.2⟩ ≠ .disjoint := by
  unfold LineRelation
  simp only [List.any_eq_true, bne_iff_ne, ne_eq]
  split
  · rename_i h; simpa using h
  · rename_i h
    simp only [reduceCtorEq, false_iff]
    exact h

/-- **C68 (partial).** If some segment of one line properly crosses a segment of the other, the answer is
INTERSECT; if no two segments lie on one line and the lines have no common point, it is DISJOINT.
Missing: T-junctions and collinear segments. -/
theorem C68_lineRelation_partial (l m : List (K × K)) :
    ((∃ e ∈ segments l, ∃ d ∈ segments m, ProperCross e.1 e.2 d.1 d.2) → LineRelation (l.map pt) (m.map pt) = .intersect) ∧
    ((∀ e ∈ segments l, ∀ d ∈ segments m, ¬ (turn e.1 e.2 d.1 = 0 ∧ turn e.1 e.2 d.2 = 0) ∧ ¬ ∃ x, OnSeg e.1 e.2 x ∧ OnSeg d.1 d.2 x) →
      LineRelation (l.map pt) (m.map pt) = .disjoint) := by
  simp only [segments_eq]
  constructor
  · rintro ⟨e, he, d, hd, h⟩
    rw [lineRelation_iff, edges_map, edges_map]
    refine ⟨_, List.mem_map_of_mem he, _, List.mem_map_of_mem hd, ?_⟩
    have := (segRel_intersect e.1 e.2 d.1 d.2).2 h
    show SegmentRelation (seg e.1 e.2) (seg d.1 d.2) ≠ _
    rw [this]; simp
  · intro h
    have hn : ¬ LineRelation (l.map pt) (m.map pt) = .intersect := by
      rw [lineRelation_iff, edges_map, edges_map]
      rintro ⟨e, he, d, hd, hr⟩
      obtain ⟨e, he', rfl⟩ := List.mem_map.1 he
      obtain ⟨d, hd', rfl⟩ := List.mem_map.1 hd
      obtain ⟨hc, hx⟩ := h e he' d hd'
      apply hr
      show SegmentRelation (seg e.1 e.2) (seg d.1 d.2) = _
      have key : ∀ a b x : K × K, InSeg a b x → OnSeg a b x := fun a b x ⟨t, a0, a1, h⟩ => ⟨t, a0.le, a1.le, h⟩
      have e0 : ∀ a b : K × K, OnSeg a b a := fun a b => ⟨0, le_rfl, zero_le_one, by simp [along]⟩
      have e1 : ∀ a b : K × K, OnSeg a b b := fun a b => ⟨1, zero_le_one, le_rfl, by simp [along]⟩
      exact (C40_disjoint_partial _ _ _ _ hc (fun i => hx ⟨_, e0 _ _, key _ _ _ i⟩) (fun i => hx ⟨_, e1 _ _, key _ _ _ i⟩)
        (fun i => hx ⟨_, key _ _ _ i, e0 _ _⟩) (fun i => hx ⟨_, key _ _ _ i, e1 _ _⟩)).2 hx
    unfold LineRelation at hn ⊢
    split at hn
    · exact absurd rfl hn
    · rename_i h; rw [if_neg h]

/-- **C68 (exactly).** For all lines, INTERSECT says that some segment of one and some segment of the other cross properly, or are parallel with the
second starting on the line of the first, or are not parallel and have an end point in common; otherwise the answer is DISJOINT. -/
theorem C68_lineRelation_exact (l m : List (K × K)) :
    (LineRelation (l.map pt) (m.map pt) = .intersect ↔ ∃ e ∈ segments l, ∃ d ∈ segments m,
      ProperCross e.1 e.2 d.1 d.2 ∨ (Parallel e.1 e.2 d.1 d.2 ∧ turn e.1 e.2 d.1 = 0) ∨
        (¬ Parallel e.1 e.2 d.1 d.2 ∧ (e.1 = d.1 ∨ e.1 = d.2 ∨ e.2 = d.1 ∨ e.2 = d.2))) ∧
    (LineRelation (l.map pt) (m.map pt) ≠ .intersect → LineRelation (l.map pt) (m.map pt) = .disjoint) := by
  simp only [segments_eq]
  have key : ∀ a b c d : K × K, SegmentRelation ⟨pt a, pt b⟩ ⟨pt c, pt d⟩ ≠ .disjoint ↔
      ProperCross a b c d ∨ (Parallel a b c d ∧ turn a b c = 0) ∨ (¬ Parallel a b c d ∧ (a = c ∨ a = d ∨ b = c ∨ b = d)) := by
    intro a b c d
    obtain ⟨h1, h2⟩ := C40_touch_exact a b c d
    rw [← h1, ← C39_intersect_iff]
    show SegmentRelation (seg a b) (seg c d) ≠ _ ↔ _
    rcases h2 with h | h | h <;> rw [h] <;> simp
  constructor
  · rw [lineRelation_iff, edges_map, edges_map]
    simp only [List.mem_map, exists_exists_and_eq_and, Prod.map_fst, Prod.map_snd, key]
  · unfold LineRelation
    split
    · intro h; exact absurd rfl h
    · intro _; rfl

/-- C68 on concrete lines. -/
example : LineRelation ([((0 : ℚ), (0 : ℚ)), (2, 0), (2, 5)].map pt) ([((1 : ℚ), (1 : ℚ)), (3, 2)].map pt) = .intersect ∧
    LineRelation ([((0 : ℚ), (0 : ℚ)), (2, 0), (2, 5)].map pt) ([((3 : ℚ), (1 : ℚ)), (5, 2)].map pt) = .disjoint := by decide +kernel

/-! ## C69, C70: PolyRelation -/

theorem segPolyLoop_none {F : Type} [GoFloat F] (s : LineSegment F) (b : Bool) (es : List (Point F × Point F)) :
    segPolyLoop s b es = none ↔ ∃ e ∈ es, SegmentRelation ⟨e.1, e.2⟩ s = .intersect := by
  induction es generalizing b with
  | nil => simp [segPolyLoop]
  | cons x es ih =>
    obtain ⟨a, c⟩ := x
    rw [segPolyLoop]
    cases h : SegmentRelation ⟨a, c⟩ s <;> simp [ih, h]

theorem segPoly_intersect {F : Type} [GoFloat F] (s : LineSegment F) (poly : List (List (Point F))) :
    SegPolyRelation s poly = .intersect ↔
      ∃ e ∈ (edges (GetExteriorRing poly)).dropLast, SegmentRelation ⟨e.1, e.2⟩ s = .intersect := by
  rw [← segPolyLoop_none s false]
  unfold SegPolyRelation
  cases h : segPolyLoop s false (edges (GetExteriorRing poly)).dropLast with
  | none => simp
  | some b =>
    simp only [reduceCtorEq, iff_false]
    split_ifs <;> simp

theorem linePolyLoop_intersect {F : Type} [GoFloat F] (poly : List (List (Point F))) (cur : Rela) (hc : cur ≠ .intersect)
    (es : List (Point F × Point F)) :
    linePolyLoop poly cur es = .intersect ↔ ∃ e ∈ es, SegPolyRelation ⟨e.1, e.2⟩ poly = .intersect := by
  induction es generalizing cur with
  | nil => simpa [linePolyLoop] using hc
  | cons x es ih =>
    obtain ⟨a, c⟩ := x
    rw [linePolyLoop]
    by_cases h : SegPolyRelation ⟨a, c⟩ poly = .intersect
    · simp [h]
    · simp only [beq_iff_eq, h, if_false]
      rw [ih]
      · simp [h]
      · split <;> assumption

/-- **C69 is false.** Two quadrilaterals whose boundaries cross — on the last edge of each — are not reported INTERSECT.  (float64) -/
theorem C69_polyRelation_false :
    PolyRelation (F := Float) [[⟨0, 0⟩, ⟨-5, 0⟩, ⟨-5, 4⟩, ⟨0, 4⟩, ⟨0, 0⟩]] [[⟨1, 2⟩, ⟨1, 3⟩, ⟨-1, 3⟩, ⟨-1, 2⟩, ⟨1, 2⟩]] ≠ .intersect ∧
    SegmentRelation (F := Float) ⟨⟨0, 4⟩, ⟨0, 0⟩⟩ ⟨⟨-1, 2⟩, ⟨1, 2⟩⟩ = .intersect := by decide +kernel

/-- **C69 (partial).** `PolyRelation` is INTERSECT exactly when a side of the first ring and a side of the
second, neither the last of its ring, cross properly.  Missing: the last sides. -/
theorem C69_polyRelation_partial (c d : List (K × K)) (h1 h2 : List (List (Point (XR K)))) :
    PolyRelation (ring c :: h1) (ring d :: h2) = .intersect ↔
      ∃ e ∈ (sides c).dropLast, ∃ f ∈ (sides d).dropLast, ProperCross e.1 e.2 f.1 f.2 := by
  unfold PolyRelation LinearPolyRelation
  rw [linePolyLoop_intersect _ _ (by simp)]
  have hE : ∀ (c : List (K × K)) h, edges (GetExteriorRing (ring c :: h)) = (sides c).map (Prod.map pt pt) := by
    intro c h
    show edges (ring c) = _
    unfold ring; rw [edges_map, edges_closed]
  rw [hE, ← List.map_dropLast]
  constructor
  · rintro ⟨e, he, h⟩
    obtain ⟨e, he', rfl⟩ := List.mem_map.1 he
    rw [segPoly_intersect, hE, ← List.map_dropLast] at h
    obtain ⟨f, hf, h⟩ := h
    obtain ⟨f, hf', rfl⟩ := List.mem_map.1 hf
    exact ⟨e, he', f, hf', (properCross_symm _ _ _ _).1 ((segRel_intersect f.1 f.2 e.1 e.2).1 h)⟩
  · rintro ⟨e, he, f, hf, h⟩
    refine ⟨_, List.mem_map_of_mem he, ?_⟩
    rw [segPoly_intersect, hE, ← List.map_dropLast]
    exact ⟨_, List.mem_map_of_mem hf, (segRel_intersect f.1 f.2 e.1 e.2).2 ((properCross_symm _ _ _ _).1 h)⟩

/-- C69 on two concrete overlapping squares. -/
example : PolyRelation [ring [((0 : ℚ), (0 : ℚ)), (2, 0), (2, 2), (0, 2)]] [ring [((1 : ℚ), (1 : ℚ)), (3, 1), (3, 3), (1, 3)]] = .intersect := by
  decide +kernel

/-- **C70 is false.** Two unit squares four units apart, with edges on common lines, are not DISJOINT.  (float64) -/
theorem C70_polyRelation_false :
    PolyRelation (F := Float) [[⟨0, 0⟩, ⟨1, 0⟩, ⟨1, 1⟩, ⟨0, 1⟩, ⟨0, 0⟩]] [[⟨5, 0⟩, ⟨6, 0⟩, ⟨6, 1⟩, ⟨5, 1⟩, ⟨5, 0⟩]] = .touch := by
  decide +kernel

theorem properCross_common {a b c d : K × K} (h : ProperCross a b c d) : ∃ x, OnSeg a b x ∧ OnSeg c d x := by
  obtain ⟨_, x, ⟨⟨t, a0, a1, h1⟩, ⟨u, b0, b1, h2⟩⟩, _⟩ := h
  exact ⟨x, ⟨t, a0.le, a1.le, h1⟩, ⟨u, b0.le, b1.le, h2⟩⟩

/-- **C70 (partial).** Polygons on the two sides of a line `a·x + b·y = k` are never INTERSECT (with
`(a,b) = (1,0)` and so on this covers disjoint bounding boxes).  Missing: that they are DISJOINT. -/
theorem C70_polyRelation_partial (a b k : K) (c d : List (K × K)) (h1 h2 : List (List (Point (XR K))))
    (hc : ∀ v ∈ c, a * v.1 + b * v.2 < k) (hd : ∀ v ∈ d, k ≤ a * v.1 + b * v.2) :
    PolyRelation (ring c :: h1) (ring d :: h2) ≠ .intersect := by
  rw [ne_eq, C69_polyRelation_partial]
  rintro ⟨e, he, f, hf, h⟩
  have he := List.dropLast_subset _ he
  have hf := List.dropLast_subset _ hf
  obtain ⟨x, ⟨t, t0, t1, rfl⟩, ⟨u, u0, u1, hu⟩⟩ := properCross_common h
  have m1 := hc _ (sides_mem_left he)
  have m2 := hc _ (sides_mem_right he)
  have m3 := hd _ (sides_mem_left hf)
  have m4 := hd _ (sides_mem_right hf)
  have e1 := congrArg Prod.fst hu
  have e2 := congrArg Prod.snd hu
  simp only [along] at e1 e2
  have n3 := mul_nonneg (sub_nonneg.2 u1) (sub_nonneg.2 m3)
  have n4 := mul_nonneg u0 (sub_nonneg.2 m4)
  have n1 := mul_nonneg (sub_nonneg.2 t1) (sub_nonneg.2 m1.le)
  have n2 := mul_nonneg t0 (sub_nonneg.2 m2.le)
  have hz : (1 - t) * (k - (a * e.1.1 + b * e.1.2)) + t * (k - (a * e.2.1 + b * e.2.2)) +
      ((1 - u) * (a * f.1.1 + b * f.1.2 - k) + u * (a * f.2.1 + b * f.2.2 - k)) = 0 := by
    linear_combination -a * e1 - b * e2
  have z1 : (1 - t) * (k - (a * e.1.1 + b * e.1.2)) = 0 := by linarith
  have z2 : t * (k - (a * e.2.1 + b * e.2.2)) = 0 := by linarith
  have y1 := (mul_eq_zero.1 z1).resolve_right (by linarith)
  have y2 := (mul_eq_zero.1 z2).resolve_right (by linarith)
  linarith

/-- C70's hypotheses on the squares of the counterexample: separated by `x = 3`. -/
example : (∀ v ∈ [((0 : ℚ), (0 : ℚ)), (1, 0), (1, 1), (0, 1)], 1 * v.1 + 0 * v.2 < 3) ∧
    (∀ v ∈ [((5 : ℚ), (0 : ℚ)), (6, 0), (6, 1), (5, 1)], 3 ≤ 1 * v.1 + 0 * v.2) := by decide +kernel

/-! ## C71: Verify -/

/-- **C71 is false.** A one-degree square at longitude 120, latitude 30 is rejected for its coordinates, and one
at "latitude" 150 (as Y) is accepted.  (float64) -/
theorem C71_verify_false :
    PolyVerify (F := Float) [[⟨120, 30⟩, ⟨121, 30⟩, ⟨121, 31⟩, ⟨120, 31⟩, ⟨120, 30⟩]] = some "lnglat invaild, lat[-90,90] lng[-180,180]" ∧
    PolyVerify (F := Float) [[⟨30, 150⟩, ⟨31, 150⟩, ⟨31, 151⟩, ⟨30, 151⟩, ⟨30, 150⟩]] = none := by decide +kernel

/-- **C71 (partial).** Exactly which polygons are accepted: those with at least three corners, every corner with |x| ≤ 90 and |y| ≤ 180,
area at least 1e-10, and no two sides other than the last crossing properly.
Missing: the documented ranges (longitude first), and crossings with the last side. -/
theorem C71_verify_partial (c : List (K × K)) (holes : List (List (Point (XR K)))) :
    PolyVerify (ring c :: holes) = none ↔
    3 ≤ c.length ∧ (∀ v ∈ c, |v.1| ≤ 90 ∧ |v.2| ≤ 180) ∧ 1 / 10 ^ 10 ≤ |fanArea (0, 0) c| ∧
    ¬ ∃ (i j : Nat) (e d : (K × K) × (K × K)), i < j ∧ j + 1 < c.length ∧ (sides c)[i]? = some e ∧ (sides c)[j]? = some d ∧
        ProperCross e.1 e.2 d.1 d.2 := by
  unfold PolyVerify
  have hr : GetExteriorRing (ring c :: holes) = ring c := rfl
  simp only [hr]
  rcases c with _ | ⟨a, l⟩
  · rw [if_pos (by simp [ring])]
    simp
  have hd : (ring (a :: l)).dropLast = (a :: l).map pt := by
    show (((a :: l) ++ [a]).map pt).dropLast = _
    rw [List.map_append, List.map_singleton, List.dropLast_concat]
  have e1 : ((ring (a :: l)).length : Int) - 1 < 3 ↔ ¬ 3 ≤ (a :: l).length := by
    have : (ring (a :: l)).length = (a :: l).length + 1 := by simp [ring]
    rw [this]
    push_cast
    omega
  have e2 : (ring (a :: l)).dropLast.any verifyOut = true ↔ ¬ ∀ v ∈ a :: l, |v.1| ≤ 90 ∧ |v.2| ≤ 180 := by
    have key : ∀ v : K × K, verifyOut (pt v) = true ↔ ¬ (|v.1| ≤ 90 ∧ |v.2| ≤ 180) := by
      intro v
      simp only [verifyOut, pt, GoFloat.gt, XR.fin_lit, XR.fin_neg, XR.fin_lt, Bool.or_eq_true, decide_eq_true_eq, abs_le]
      push_cast
      constructor
      · rintro (((h | h) | h) | h) ⟨⟨h1, h2⟩, h3, h4⟩ <;> linarith
      · intro h
        by_contra hn
        simp only [not_or, not_lt] at hn
        exact h ⟨⟨hn.1.1.2, hn.1.1.1⟩, hn.2, hn.1.2⟩
    rw [hd, List.any_map, List.any_eq_true]
    simp only [Function.comp, key]
    push Not
    rfl
  have e3 : GoFloat.lt (GetArea (.polygon (ring (a :: l) :: holes))) (GoFloat.dec 1 10) = true ↔ ¬ 1 / 10 ^ 10 ≤ |fanArea (0, 0) (a :: l)| := by
    rw [(C32_area_fan (0, 0) _ _).1, XR.fin_dec, XR.fin_lt]
    simp
  have e4 := C41_selfIntersect_partial (a :: l) holes
  split_ifs with h1 h2 h3 h4
  · simp only [reduceCtorEq, false_iff]; exact fun h => e1.1 h1 h.1
  · simp only [reduceCtorEq, false_iff]; exact fun h => e2.1 h2 h.2.1
  · simp only [reduceCtorEq, false_iff]; exact fun h => e3.1 h3 h.2.2.1
  · simp only [reduceCtorEq, false_iff]; exact fun h => h.2.2.2 (e4.1 h4)
  · simp only [true_iff]
    exact ⟨not_not.1 fun h => h1 (e1.2 h), not_not.1 fun h => h2 (e2.2 h), not_not.1 fun h => h3 (e3.2 h), fun h => h4 (e4.2 h)⟩

/-- C71 on a concrete polygon that is accepted. -/
example : PolyVerify [ring [((0 : ℚ), (0 : ℚ)), (4, 0), (5, 3), (2, 5), (-1, 3)]] = none := by decide +kernel

end
end GoGeo
