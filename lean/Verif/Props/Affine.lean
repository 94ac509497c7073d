import Verif.Spec.Affine
import Verif.Geo.SegmentLemmas
import Verif.Props.Measure
import Verif.Props.HullOrder

/-!
# Changing the frame: C150 and C151, relations, areas, centroids and hulls

Exact arithmetic.
-/

set_option linter.unusedSectionVars false

namespace GoGeo
open GoFloat Spec

section
variable {K : Type} [Field K] [LinearOrder K] [IsStrictOrderedRing K]

theorem segD_aff (T : Aff K) (a b c d : K × K) : segD (T.at a) (T.at b) (T.at c) (T.at d) = T.det * segD a b c d := by
  unfold segD Aff.at Aff.det; ring
theorem segN1_aff (T : Aff K) (a c d : K × K) : segN1 (T.at a) (T.at c) (T.at d) = T.det * segN1 a c d := by
  unfold segN1 Aff.at Aff.det; ring
theorem segN2_aff (T : Aff K) (a b c : K × K) : segN2 (T.at a) (T.at b) (T.at c) = T.det * segN2 a b c := by
  unfold segN2 Aff.at Aff.det; ring
theorem turn_aff (T : Aff K) (a b c : K × K) : turn (T.at a) (T.at b) (T.at c) = T.det * turn a b c := by
  unfold turn Aff.at Aff.det; ring

/-- **C150, segments.** `SegmentRelation` gives the same verdict in every frame: it is not changed by an affine map of the plane that is not degenerate. -/
theorem C150_segments (T : Aff K) (h : T.det ≠ 0) (a b c d : K × K) :
    SegmentRelation ⟨pt (T.at a), pt (T.at b)⟩ ⟨pt (T.at c), pt (T.at d)⟩ = SegmentRelation ⟨pt a, pt b⟩ ⟨pt c, pt d⟩ := by
  have e := segRel_fin (T.at a) (T.at b) (T.at c) (T.at d)
  rw [segD_aff, segN1_aff, segN2_aff, mul_div_mul_left _ _ h, mul_div_mul_left _ _ h] at e
  simp only [mul_eq_zero, h, false_or] at e
  exact e.trans (segRel_fin a b c d).symm

theorem any_edges_aff (T : Aff K) (l : List (K × K)) (f g : Point (XR K) × Point (XR K) → Bool)
    (h : ∀ a b, f (pt (T.at a), pt (T.at b)) = g (pt a, pt b)) : (edges ((l.map T.at).map pt)).any f = (edges (l.map pt)).any g := by
  rw [List.map_map, edges_map, edges_map, List.any_map, List.any_map]
  congr 1
  funext e
  exact h e.1 e.2

/-- **C150, lines.** So does `LineRelation`. -/
theorem C150_lines (T : Aff K) (h : T.det ≠ 0) (l m : List (K × K)) :
    LineRelation ((l.map T.at).map pt) ((m.map T.at).map pt) = LineRelation (l.map pt) (m.map pt) := by
  unfold LineRelation
  congr 1
  apply congrArg (· = true)
  refine any_edges_aff T l _ _ fun a b => ?_
  refine any_edges_aff T m _ _ fun c d => ?_
  rw [C150_segments T h]

theorem selfLoop_aff (T : Aff K) (h : T.det ≠ 0) (es : List ((K × K) × (K × K))) :
    selfIntersectLoop (es.map fun e => (pt (T.at e.1), pt (T.at e.2))) = selfIntersectLoop (es.map fun e => (pt e.1, pt e.2)) := by
  induction es with
  | nil => rfl
  | cons e es ih =>
    rw [List.map_cons, List.map_cons, selfIntersectLoop, selfIntersectLoop, ih, List.any_map, List.any_map]
    congr 2
    funext d
    simp only [Function.comp, C150_segments T h]

/-- **C150, polygons.** And `SelfIntersect`. -/
theorem C150_self (T : Aff K) (h : T.det ≠ 0) (poly : List (List (K × K))) :
    SelfIntersect (poly.map fun r => (r.map T.at).map pt) = SelfIntersect (poly.map fun r => r.map pt) := by
  unfold SelfIntersect
  cases poly with
  | nil => rfl
  | cons r poly =>
    have := selfLoop_aff T h (edges r).dropLast
    simp only [List.map_cons, GetExteriorRing, List.map_map, edges_map, ← List.map_dropLast]
    exact this

theorem fanArea_aff (T : Aff K) (o : K × K) (c : List (K × K)) : fanArea (T.at o) (c.map T.at) = T.det * fanArea o c := by
  unfold fanArea
  rw [cycSum_map, ← cycSum_mul]
  refine cycSum_congr ?_ c
  intro p q
  rw [turn_aff]; ring

theorem fanMomentX_aff (T : Aff K) (o : K × K) (c : List (K × K)) :
    fanMomentX (T.at o) (c.map T.at) = T.det * (T.a * fanMomentX o c + T.b * fanMomentY o c + T.e * fanArea o c) := by
  unfold fanMomentX fanMomentY fanArea
  rw [cycSum_map, ← cycSum_mul, ← cycSum_mul, ← cycSum_mul, ← cycSum_add, ← cycSum_add, ← cycSum_mul]
  refine cycSum_congr ?_ c
  intro p q
  rw [turn_aff]; unfold Aff.at; field_simp; ring

theorem fanMomentY_aff (T : Aff K) (o : K × K) (c : List (K × K)) :
    fanMomentY (T.at o) (c.map T.at) = T.det * (T.c * fanMomentX o c + T.d * fanMomentY o c + T.f * fanArea o c) := by
  unfold fanMomentX fanMomentY fanArea
  rw [cycSum_map, ← cycSum_mul, ← cycSum_mul, ← cycSum_mul, ← cycSum_add, ← cycSum_add, ← cycSum_mul]
  refine cycSum_congr ?_ c
  intro p q
  rw [turn_aff]; unfold Aff.at; field_simp; ring

/-- **C150, areas.** An affine map multiplies `GetArea` by the absolute value of its determinant, whatever the ring. -/
theorem C150_area (T : Aff K) (c : List (K × K)) (holes holes' : List (List (Point (XR K)))) :
    ∃ A : K, GetArea (.polygon (ring c :: holes)) = .fin A ∧ GetArea (.polygon (ring (c.map T.at) :: holes')) = .fin (|T.det| * A) := by
  refine ⟨_, (C32_area_fan (0, 0) c holes).1, ?_⟩
  rw [(C32_area_fan (T.at (0, 0)) (c.map T.at) holes').1, fanArea_aff, abs_mul]

/-- **C150, orientation.** `IsCCW` is kept by a positive determinant, and reversed by a negative one unless the area is zero. -/
theorem C150_ccw (T : Aff K) (c : List (K × K)) (holes holes' : List (List (Point (XR K)))) :
    (0 < T.det → IsCCW (ring (c.map T.at) :: holes') = IsCCW (ring c :: holes)) ∧
    (T.det < 0 → GetArea (.polygon (ring c :: holes)) ≠ .fin 0 → IsCCW (ring (c.map T.at) :: holes') = !IsCCW (ring c :: holes)) := by
  have h1 := (C32_area_fan (0, 0) c holes)
  have h2 := (C32_area_fan (T.at (0, 0)) (c.map T.at) holes').2
  rw [fanArea_aff] at h2
  constructor
  · intro hd
    rw [Bool.eq_iff_iff, h2, h1.2, mul_pos_iff_of_pos_left hd]
  · intro hd ha
    have h0 : fanArea (0, 0) c ≠ 0 := by
      intro e
      apply ha
      rw [h1.1, e, abs_zero]
    rw [Bool.eq_iff_iff, h2, Bool.not_eq_true', ← Bool.not_eq_true, h1.2]
    constructor
    · intro h hn
      have := mul_neg_of_neg_of_pos hd hn
      linarith
    · intro h
      exact mul_pos_of_neg_of_neg hd (lt_of_le_of_ne (not_lt.1 h) h0)

/-- **C150, centroids.** The centroid of a ring with an area moves with the ring under every affine map that is not degenerate. -/
theorem C150_centroid (T : Aff K) (h : T.det ≠ 0) (c : List (K × K)) (holes holes' : List (List (Point (XR K)))) (ha : GetArea (.polygon (ring c :: holes)) ≠ .fin 0) :
    ∃ g : K × K, Centroid (.polygon (ring c :: holes)) = .ok (pt g) ∧ Centroid (.polygon (ring (c.map T.at) :: holes')) = .ok (pt (T.at g)) := by
  have h0 : fanArea (0, 0) c ≠ 0 := by
    intro e
    apply ha
    rw [(C32_area_fan (0, 0) c holes).1, e, abs_zero]
  refine ⟨_, C34_centroid_fan (0, 0) c holes h0, ?_⟩
  rw [C34_centroid_fan (T.at (0, 0)) (c.map T.at) holes' (by rw [fanArea_aff]; exact mul_ne_zero h h0), fanMomentX_aff, fanMomentY_aff, fanArea_aff,
    mul_div_mul_left _ _ h, mul_div_mul_left _ _ h]
  congr 2
  unfold Aff.at
  ext <;> simp only <;> field_simp

/-! ### translations -/

theorem shift_at (v x : K × K) : (Aff.shift v).at x = (x.1 + v.1, x.2 + v.2) := by
  unfold Aff.shift Aff.at; simp

theorem shift_det (v : K × K) : (Aff.shift v : Aff K).det = 1 := by unfold Aff.shift Aff.det; simp

theorem crossesRay_shift (v p a b : K × K) :
    crossesRay (pt ((Aff.shift v).at p)) (pt ((Aff.shift v).at a)) (pt ((Aff.shift v).at b)) = crossesRay (pt p) (pt a) (pt b) := by
  rw [Bool.eq_iff_iff, crossesRay_fin, crossesRay_fin, shift_at, shift_at, shift_at]
  have e : xAt (p.2 + v.2) (a.1 + v.1, a.2 + v.2) (b.1 + v.1, b.2 + v.2) = xAt p.2 a b + v.1 := by
    unfold xAt
    rw [add_sub_add_right_eq_sub, add_sub_add_right_eq_sub, add_sub_add_right_eq_sub]
    ring
  simp only [e, add_sub_add_right_eq_sub]
  constructor
  · rintro ⟨h, h'⟩; exact ⟨h, by linarith⟩
  · rintro ⟨h, h'⟩; exact ⟨h, by linarith⟩

theorem onSegment_off {p : K × K} (hp : p ≠ (0, 0)) (a b : K × K) : IsPointOnSegment (pt a) (pt b) (pt p) = false := by
  rw [← Bool.not_eq_true, isPointOnSegment_fin]
  exact fun h => hp h.1

/-- **C151 (partial), translation of a point and a polygon.** `IsPointInPolygon` gives the same verdict after a translation if the point is not the origin, neither before
nor after it. -/
theorem C151_inside_partial (v p : K × K) (poly : List (List (K × K))) (hp : p ≠ (0, 0)) (hp' : (Aff.shift v).at p ≠ (0, 0)) :
    IsPointInPolygon (pt ((Aff.shift v).at p)) (poly.map fun r => (r.map (Aff.shift v).at).map pt) = IsPointInPolygon (pt p) (poly.map fun r => r.map pt) := by
  have key : ∀ (es : List ((K × K) × (K × K))) (isIn : Bool), inPolyLoop (pt ((Aff.shift v).at p)) isIn (es.map fun e => (pt ((Aff.shift v).at e.1), pt ((Aff.shift v).at e.2))) =
      inPolyLoop (pt p) isIn (es.map fun e => (pt e.1, pt e.2)) := by
    intro es
    induction es with
    | nil => intro isIn; rfl
    | cons e es ih =>
      intro isIn
      rw [List.map_cons, List.map_cons, inPolyLoop, inPolyLoop, onSegment_off hp, onSegment_off hp', crossesRay_shift]
      exact ih _
  unfold IsPointInPolygon
  cases poly with
  | nil => rfl
  | cons r poly =>
    simp only [List.map_cons, GetExteriorRing, List.map_map, edges_map]
    exact key (edges r) false

/-- **C151 is false for `IsPointInPolygon` at the origin**: on the boundary of a triangle the origin is reported as touching, and after a translation of both by
(0, 5) as inside. -/
theorem C151_inside_false :
    IsPointInPolygon (pt ((0 : ℚ), 0)) [ring [(-1, 0), (1, 0), (0, 1)]] = .touch ∧
    IsPointInPolygon (pt ((Aff.shift (0, 5)).at ((0 : ℚ), 0))) [ring ([(-1, 0), (1, 0), (0, 1)].map (Aff.shift (0, 5)).at)] ≠ .touch := by
  constructor
  · decide +kernel
  · decide +kernel

theorem segPolyLoop_shift (v s e : K × K) (es : List ((K × K) × (K × K))) : ∀ onB,
    segPolyLoop ⟨pt ((Aff.shift v).at s), pt ((Aff.shift v).at e)⟩ onB (es.map fun e => (pt ((Aff.shift v).at e.1), pt ((Aff.shift v).at e.2))) =
      segPolyLoop ⟨pt s, pt e⟩ onB (es.map fun e => (pt e.1, pt e.2)) := by
  induction es with
  | nil => intro onB; rfl
  | cons d es ih =>
    intro onB
    rw [List.map_cons, List.map_cons, segPolyLoop, segPolyLoop, C150_segments _ (by rw [shift_det]; exact one_ne_zero)]
    split <;> first | rfl | exact ih _

/-- **C151 (partial), translation of a segment and a polygon.** The same for `SegPolyRelation`, if neither end is the origin before or after. -/
theorem C151_segPoly_partial (v s e : K × K) (poly : List (List (K × K))) (hs : s ≠ (0, 0)) (hs' : (Aff.shift v).at s ≠ (0, 0)) (he : e ≠ (0, 0))
    (he' : (Aff.shift v).at e ≠ (0, 0)) :
    SegPolyRelation ⟨pt ((Aff.shift v).at s), pt ((Aff.shift v).at e)⟩ (poly.map fun r => (r.map (Aff.shift v).at).map pt) =
      SegPolyRelation ⟨pt s, pt e⟩ (poly.map fun r => r.map pt) := by
  unfold SegPolyRelation
  simp only [C151_inside_partial v s poly hs hs', C151_inside_partial v e poly he he']
  have : segPolyLoop ⟨pt ((Aff.shift v).at s), pt ((Aff.shift v).at e)⟩ false (edges (GetExteriorRing (poly.map fun r => (r.map (Aff.shift v).at).map pt))).dropLast =
      segPolyLoop ⟨pt s, pt e⟩ false (edges (GetExteriorRing (poly.map fun r => r.map pt))).dropLast := by
    cases poly with
    | nil => rfl
    | cons r poly =>
      simp only [List.map_cons, GetExteriorRing, List.map_map, edges_map, ← List.map_dropLast]
      exact segPolyLoop_shift v s e _ false
  rw [this]

theorem linePolyLoop_shift (v : K × K) (poly : List (List (K × K))) (es : List ((K × K) × (K × K)))
    (h : ∀ e ∈ es, ∀ x ∈ [e.1, e.2], x ≠ (0, 0) ∧ (Aff.shift v).at x ≠ (0, 0)) : ∀ cur,
    linePolyLoop (poly.map fun r => (r.map (Aff.shift v).at).map pt) cur (es.map fun e => (pt ((Aff.shift v).at e.1), pt ((Aff.shift v).at e.2))) =
      linePolyLoop (poly.map fun r => r.map pt) cur (es.map fun e => (pt e.1, pt e.2)) := by
  induction es with
  | nil => intro cur; rfl
  | cons d es ih =>
    intro cur
    have h1 := h d (by simp) d.1 (by simp)
    have h2 := h d (by simp) d.2 (by simp)
    rw [List.map_cons, List.map_cons, linePolyLoop, linePolyLoop]
    simp only [C151_segPoly_partial v d.1 d.2 poly h1.1 h1.2 h2.1 h2.2]
    rw [ih (fun e he => h e (by simp [he]))]

theorem edge_ends {l : List (K × K)} {e : (K × K) × (K × K)} (h : e ∈ edges l) : e.1 ∈ l ∧ e.2 ∈ l := by
  induction l with
  | nil => simp [edges] at h
  | cons a l ih =>
    cases l with
    | nil => simp [edges] at h
    | cons b l =>
      rw [edges, List.mem_cons] at h
      rcases h with rfl | h
      · simp
      · exact ⟨List.mem_cons_of_mem _ (ih h).1, List.mem_cons_of_mem _ (ih h).2⟩

/-- **C151 (partial), translation of a line and a polygon.** The same for `LinePolyRelation` and `PolyRelation`, if no corner of the first is the origin before or
after. -/
theorem C151_linePoly_partial (v : K × K) (line : List (K × K)) (poly : List (List (K × K))) (h : ∀ x ∈ line, x ≠ (0, 0) ∧ (Aff.shift v).at x ≠ (0, 0)) :
    LinePolyRelation ((line.map (Aff.shift v).at).map pt) (poly.map fun r => (r.map (Aff.shift v).at).map pt) = LinePolyRelation (line.map pt) (poly.map fun r => r.map pt) ∧
    ∀ holes holes', PolyRelation ((line.map (Aff.shift v).at).map pt :: holes') (poly.map fun r => (r.map (Aff.shift v).at).map pt) =
      PolyRelation (line.map pt :: holes) (poly.map fun r => r.map pt) := by
  have hm : ∀ e ∈ edges line, ∀ x ∈ [e.1, e.2], x ≠ (0, 0) ∧ (Aff.shift v).at x ≠ (0, 0) := by
    intro e he x hx
    simp only [List.mem_cons, List.not_mem_nil, or_false] at hx
    rcases hx with rfl | rfl
    · exact h _ (edge_ends he).1
    · exact h _ (edge_ends he).2
  constructor
  · unfold LinePolyRelation
    rw [List.map_map, edges_map, edges_map]
    exact linePolyLoop_shift v poly _ hm _
  · intro holes holes'
    unfold PolyRelation LinearPolyRelation
    simp only [GetExteriorRing]
    rw [List.map_map, edges_map, edges_map, ← List.map_dropLast, ← List.map_dropLast]
    exact linePolyLoop_shift v poly _ (fun e he => hm e (List.dropLast_subset _ he)) _

/-! ### the hull of translated points -/

theorem scan_shift (v : K × K) : ∀ (fuel : Nat) (st rest : List (K × K)), ∃ res : Go (List (K × K)),
    hullScan fuel (st.map pt) (rest.map pt) = res.map (List.map pt) ∧
    hullScan fuel ((st.map (Aff.shift v).at).map pt) ((rest.map (Aff.shift v).at).map pt) = res.map (List.map fun x => pt ((Aff.shift v).at x)) := by
  intro fuel
  induction fuel with
  | zero =>
    intro st rest
    cases rest with
    | nil => exact ⟨.ok st, by simp [hullScan, Except.map], by simp [hullScan, Except.map]⟩
    | cons x rest => exact ⟨.error .fuel, by simp [hullScan, Except.map], by simp [hullScan, Except.map]⟩
  | succ fuel ih =>
    intro st rest
    cases rest with
    | nil => exact ⟨.ok st, by simp [hullScan, Except.map], by simp [hullScan, Except.map]⟩
    | cons x rest =>
      rcases st with _ | ⟨b, _ | ⟨a, st⟩⟩
      · exact ⟨.error .index, by simp [hullScan, Except.map], by simp [hullScan, Except.map]⟩
      · exact ⟨.error .index, by simp [hullScan, Except.map], by simp [hullScan, Except.map]⟩
      · have e : isLeft (pt ((Aff.shift v).at a)) (pt ((Aff.shift v).at b)) (pt ((Aff.shift v).at x)) = isLeft (pt a) (pt b) (pt x) := by
          rw [Bool.eq_iff_iff, isLeft_fin, isLeft_fin, turn_aff, shift_det, one_mul]
        simp only [List.map_cons, hullScan, e]
        cases isLeft (pt a) (pt b) (pt x)
        · simpa using ih (a :: st) (x :: rest)
        · simpa using ih (x :: b :: a :: st) rest

theorem close_shift (v : K × K) (l : List (K × K)) : ∃ res : Option (List (K × K)), closeRing (l.map pt) = res.map (List.map pt) ∧
    closeRing ((l.map (Aff.shift v).at).map pt) = res.map (List.map fun x => pt ((Aff.shift v).at x)) := by
  rcases l with _ | ⟨a, _ | ⟨b, l⟩⟩
  · exact ⟨none, rfl, rfl⟩
  · exact ⟨none, rfl, rfl⟩
  · have hl : ((pt b :: l.map pt).getLast (by simp)) = pt ((b :: l).getLast (by simp)) := by
      have : pt b :: l.map pt = (b :: l).map pt := rfl
      simp only [this, List.getLast_map]
    have hl' : ((pt ((Aff.shift v).at b) :: (l.map (Aff.shift v).at).map pt).getLast (by simp)) = pt ((Aff.shift v).at ((b :: l).getLast (by simp))) := by
      have : pt ((Aff.shift v).at b) :: (l.map (Aff.shift v).at).map pt = (b :: l).map fun x => pt ((Aff.shift v).at x) := by simp
      simp only [this, List.getLast_map]
    have e : ∀ x y : K × K, (pt ((Aff.shift v).at x)).Equal (pt ((Aff.shift v).at y)) = (pt x).Equal (pt y) := by
      intro x y
      rw [Bool.eq_iff_iff, equal_pt, equal_pt, shift_at, shift_at]
      unfold Close
      simp
    simp only [List.map_cons, closeRing]
    rw [hl, hl', e]
    by_cases hc : (pt a).Equal (pt ((b :: l).getLast (by simp))) = true
    · rw [if_pos hc, if_pos hc]
      exact ⟨some (a :: b :: l), by simp, by simp⟩
    · rw [if_neg hc, if_neg hc]
      exact ⟨some (a :: b :: l ++ [a]), by simp, by simp⟩

/-- **C150, translated hulls.** The hull of translated points is the translated hull, corner by corner, for any two correct sorts. -/
theorem C150_hull (s s' : List (Point (XR K)) → List (Point (XR K))) (hs : HullSort s) (hs' : HullSort s') (v : K × K) (pts : List (K × K)) :
    ∃ res : Go (Option (List (K × K))), (ConvexHull s (pts.map pt)).map Prod.snd = res.map (Option.map (List.map pt)) ∧
      (ConvexHull s' ((pts.map (Aff.shift v).at).map pt)).map Prod.snd = res.map (Option.map (List.map fun x => pt ((Aff.shift v).at x))) := by
  unfold ConvexHull
  simp only [List.length_map]
  by_cases h3 : pts.length < 3
  · rw [if_pos h3, if_pos h3]; exact ⟨.ok none, rfl, rfl⟩
  rw [if_neg h3, if_neg h3]
  have hne : pts ≠ [] := by rintro rfl; simp at h3
  obtain ⟨o, q, e, hq, ho, hA, hp⟩ := hull_sorted s hs pts hne
  obtain ⟨o', q', e', hq', ho', hA', hp'⟩ := hull_sorted s' hs' (pts.map (Aff.shift v).at) (by simpa using hne)
  have hoo : o' = (Aff.shift v).at o := by
    refine above_antisymm (hA' _ (List.mem_map_of_mem ho)) ?_
    obtain ⟨x, hx, rfl⟩ := List.mem_map.1 ho'
    have := hA x hx
    rw [shift_at, shift_at]
    unfold Above at this ⊢
    simpa using this
  subst hoo
  have hqq : q' = q.map (Aff.shift v).at := by
    refine List.Perm.eq_of_pairwise (fun a b _ _ => bef_antisymm) hp' ?_ (hq'.trans (hq.map _).symm)
    rw [List.pairwise_map]
    refine hp.imp ?_
    rintro a b (h | ⟨t, h0, h1, h2⟩)
    · left; rw [turn_aff, shift_det, one_mul]; exact h
    · right
      refine ⟨t, h0, h1, ?_⟩
      rw [h2, shift_at, shift_at, shift_at]
      unfold along
      ext <;> simp only <;> ring
  rw [e, e', hqq]
  rcases q with _ | ⟨a, _ | ⟨b, rest⟩⟩
  · exact ⟨.error .index, rfl, rfl⟩
  · exact ⟨.error .index, rfl, rfl⟩
  · obtain ⟨res, r1, r2⟩ := scan_shift v (2 * (a :: b :: rest).length) [b, a] rest
    simp only [List.map_cons, List.map_nil, List.length_cons, List.length_map] at r1 r2 ⊢
    rw [r1, r2]
    cases res with
    | error x => exact ⟨.error x, rfl, rfl⟩
    | ok st =>
      simp only [Except.map, bind_ok', List.length_map]
      by_cases hl : st.length < 3
      · rw [if_pos hl, if_pos hl]; exact ⟨.ok none, rfl, rfl⟩
      · rw [if_neg hl, if_neg hl]
        obtain ⟨cr, c1, c2⟩ := close_shift v st.reverse
        rw [← List.map_reverse, ← List.map_reverse, c1]
        rw [List.map_map] at c2
        have c2' : closeRing (st.reverse.map fun x => pt ((Aff.shift v).at x)) = cr.map (List.map fun x => pt ((Aff.shift v).at x)) := c2
        rw [c2']
        cases cr with
        | none => exact ⟨.error .nilDeref, rfl, rfl⟩
        | some r => exact ⟨.ok (some r), rfl, rfl⟩

/-- the hypotheses can be met: a shear that is no rigid motion, on a triangle with an area and two crossing segments -/
example : SegmentRelation ⟨pt ((⟨2, 1, 0, 3, 1, 0⟩ : Aff ℚ).at (0, 0)), pt ((⟨2, 1, 0, 3, 1, 0⟩ : Aff ℚ).at (2, 2))⟩
    ⟨pt ((⟨2, 1, 0, 3, 1, 0⟩ : Aff ℚ).at (0, 2)), pt ((⟨2, 1, 0, 3, 1, 0⟩ : Aff ℚ).at (2, 0))⟩ = SegmentRelation ⟨pt ((0 : ℚ), 0), pt (2, 2)⟩ ⟨pt (0, 2), pt (2, 0)⟩ ∧
    SegmentRelation ⟨pt ((0 : ℚ), 0), pt (2, 2)⟩ ⟨pt (0, 2), pt (2, 0)⟩ = .intersect :=
  ⟨C150_segments _ (by unfold Aff.det; norm_num) _ _ _ _, by decide +kernel⟩

/-- a point inside a triangle, moved with it -/
example : IsPointInPolygon (pt ((Aff.shift (7, -3)).at ((1 : ℚ), 1))) ([[(0, 0), (4, 0), (0, 4), (0, 0)]].map fun r => (r.map (Aff.shift (7, -3)).at).map pt) =
    IsPointInPolygon (pt ((1 : ℚ), 1)) ([[(0, 0), (4, 0), (0, 4), (0, 0)]].map fun r => r.map pt) ∧
    IsPointInPolygon (pt ((1 : ℚ), 1)) ([[(0, 0), (4, 0), (0, 4), (0, 0)]].map fun r => r.map pt) = .contain :=
  ⟨C151_inside_partial _ _ _ (by decide) (by decide +kernel), by decide +kernel⟩

end
end GoGeo
