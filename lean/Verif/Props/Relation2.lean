import Verif.Props.Relation

/-!
# Properties of SegPolyRelation, LinePolyRelation and PolyRelation: C92, and C70 continued

`ring c` is the closed ring with corners `c`; `Fair d p` collects what C38 asks of a query point.
-/
set_option linter.unusedSectionVars false

namespace GoGeo
open GoFloat Spec

variable {K : Type} [Field K] [LinearOrder K] [IsStrictOrderedRing K]

/-- a query point for which C38 applies: not the origin, 1e-6 clear of the boundary of `d` -/
def Fair (d : List (K × K)) (p : K × K) : Prop := ClearX d p ∧ ClearY d p ∧ p ≠ (0, 0)

theorem turn_D (a b c d : K × K) : segD a b c d = turn a b d - turn a b c := by unfold segD turn; ring

theorem turn_N2 (a b c : K × K) : segN2 a b c = -turn a b c := by unfold segN2 turn; ring

/-- a segment strictly on one side of the line `ab` -/
theorem segRel_side {a b c d : K × K} (h : 0 < turn a b c ∧ 0 < turn a b d ∨ turn a b c < 0 ∧ turn a b d < 0) :
    SegmentRelation (seg a b) (seg c d) = .disjoint := by
  rw [segRel_fin]
  by_cases hD : segD a b c d = 0
  · rw [if_pos hD, if_neg]
    rw [turn_N2]; rcases h with h | h <;> [have := h.1.ne'; have := h.1.ne] <;> simpa using this
  rw [if_neg hD]
  have key : segN2 a b c / segD a b c d < 0 ∨ 1 < segN2 a b c / segD a b c d := by
    rcases lt_or_gt_of_ne hD with g | g
    · rw [div_lt_iff_of_neg g, lt_div_iff_of_neg g]
      rw [turn_N2, turn_D] at *
      rcases h with h | h
      · right; linarith [h.2]
      · left; linarith [h.1]
    · rw [div_lt_iff₀ g, lt_div_iff₀ g]
      rw [turn_N2, turn_D] at *
      rcases h with h | h
      · left; linarith [h.1]
      · right; linarith [h.2]
  rw [if_neg (by rintro ⟨-, -, h3, h4⟩; rcases key with k | k <;> linarith),
    if_neg (by rintro ⟨-, h3 | h3⟩ <;> rcases key with k | k <;> linarith)]

/-- segments without a common point and not on one line -/
theorem segRel_apart {a b c d : K × K} (hc : ¬ (turn a b c = 0 ∧ turn a b d = 0)) (hx : ¬ ∃ x, OnSeg a b x ∧ OnSeg c d x) :
    SegmentRelation (seg a b) (seg c d) = .disjoint := by
  have key : ∀ a b x : K × K, InSeg a b x → OnSeg a b x := fun a b x ⟨t, a0, a1, h⟩ => ⟨t, a0.le, a1.le, h⟩
  have e0 : ∀ a b : K × K, OnSeg a b a := fun a b => ⟨0, le_rfl, zero_le_one, by simp [along]⟩
  have e1 : ∀ a b : K × K, OnSeg a b b := fun a b => ⟨1, zero_le_one, le_rfl, by simp [along]⟩
  exact (C40_disjoint_partial _ _ _ _ hc (fun i => hx ⟨_, e0 _ _, key _ _ _ i⟩) (fun i => hx ⟨_, e1 _ _, key _ _ _ i⟩)
    (fun i => hx ⟨_, key _ _ _ i, e0 _ _⟩) (fun i => hx ⟨_, key _ _ _ i, e1 _ _⟩)).2 hx

/-- segments on the two sides of the line `a·x + b·y = k` have no common point -/
theorem no_common {a b k : K} {p q u v : K × K} (h1 : a * p.1 + b * p.2 < k) (h2 : a * q.1 + b * q.2 < k)
    (h3 : k ≤ a * u.1 + b * u.2) (h4 : k ≤ a * v.1 + b * v.2) : ¬ ∃ x, OnSeg p q x ∧ OnSeg u v x := by
  rintro ⟨x, ⟨t, t0, t1, rfl⟩, ⟨s, s0, s1, hs⟩⟩
  have e1 := congrArg Prod.fst hs
  have e2 := congrArg Prod.snd hs
  simp only [along] at e1 e2
  have n1 := mul_nonneg (sub_nonneg.2 s1) (sub_nonneg.2 h3)
  have n2 := mul_nonneg s0 (sub_nonneg.2 h4)
  have n3 := mul_nonneg (sub_nonneg.2 t1) (sub_nonneg.2 h1.le)
  have n4 := mul_nonneg t0 (sub_nonneg.2 h2.le)
  have hz : (1 - t) * (k - (a * p.1 + b * p.2)) + t * (k - (a * q.1 + b * q.2)) +
      ((1 - s) * (a * u.1 + b * u.2 - k) + s * (a * v.1 + b * v.2 - k)) = 0 := by
    linear_combination -a * e1 - b * e2
  have z1 : (1 - t) * (k - (a * p.1 + b * p.2)) = 0 := by linarith
  have z2 : t * (k - (a * q.1 + b * q.2)) = 0 := by linarith
  have y1 := (mul_eq_zero.1 z1).resolve_right (by linarith)
  have y2 := (mul_eq_zero.1 z2).resolve_right (by linarith)
  linarith

theorem segPolyLoop_clear {F : Type} [GoFloat F] (s : LineSegment F) (b : Bool) (es : List (Point F × Point F))
    (h : ∀ e ∈ es, SegmentRelation ⟨e.1, e.2⟩ s = .disjoint) : segPolyLoop s b es = some b := by
  induction es generalizing b with
  | nil => rfl
  | cons x es ih =>
    obtain ⟨u, v⟩ := x
    rw [segPolyLoop, h (u, v) (by simp)]
    exact ih _ (fun e he => h e (by simp [he]))

theorem edges_ring (c : List (K × K)) (h : List (List (Point (XR K)))) :
    edges (GetExteriorRing (ring c :: h)) = (sides c).map (Prod.map pt pt) := by
  show edges (ring c) = _
  unfold ring; rw [edges_map, edges_closed]

/-- the loop over the sides finds nothing -/
theorem loop_ring {p q : K × K} {d : List (K × K)} (holes : List (List (Point (XR K))))
    (h : ∀ e ∈ (sides d).dropLast, SegmentRelation (seg e.1 e.2) (seg p q) = .disjoint) :
    segPolyLoop (seg p q) false (edges (GetExteriorRing (ring d :: holes))).dropLast = some false := by
  apply segPolyLoop_clear
  intro e he
  rw [edges_ring, ← List.map_dropLast] at he
  obtain ⟨e, he', rfl⟩ := List.mem_map.1 he
  clear he; rename' he' => he
  exact h e he

theorem linePolyLoop_const {F : Type} [GoFloat F] (poly : List (List (Point F))) (r cur : Rela) (hr : r = .contain ∨ r = .disjoint)
    (es : List (Point F × Point F)) (hc : cur = r ∨ cur = .unknown ∧ es ≠ [])
    (h : ∀ e ∈ es, SegPolyRelation ⟨e.1, e.2⟩ poly = r) : linePolyLoop poly cur es = r := by
  induction es generalizing cur with
  | nil => rcases hc with h | h; exacts [h, absurd rfl h.2]
  | cons x es ih =>
    obtain ⟨u, v⟩ := x
    rw [linePolyLoop, h (u, v) (by simp)]
    rw [if_neg (by rcases hr with rfl | rfl <;> simp)]
    refine ih _ (Or.inl ?_) (fun e he => h e (by simp [he]))
    rcases hc with rfl | ⟨rfl, -⟩
    · simp
    · simp

theorem sides_dropLast_ne {c : List (K × K)} (h : 2 ≤ c.length) : (sides c).dropLast ≠ [] := by
  intro e
  have := congrArg List.length e
  simp [sides] at this
  omega

/-! ## C92: segments, lines and polygons against a convex polygon -/

/-- **C92 (inside).** A segment with both ends strictly inside a strictly convex polygon is CONTAIN. -/
theorem C92_segment_inside (d : List (K × K)) (hd : StrictlyConvex d) (p q : K × K) (fp : Fair d p) (fq : Fair d q)
    (hp : InsideConvex d p) (hq : InsideConvex d q) (holes : List (List (Point (XR K)))) :
    SegPolyRelation (seg p q) (ring d :: holes) = .contain := by
  unfold SegPolyRelation
  rw [loop_ring holes (fun e he => segRel_side (Or.inl ⟨hp e (List.dropLast_subset _ he), hq e (List.dropLast_subset _ he)⟩))]
  have h1 := (C38_convex_partial d hd p fp.1 fp.2.1 fp.2.2 holes).1 hp
  have h2 := (C38_convex_partial d hd q fq.1 fq.2.1 fq.2.2 holes).1 hq
  simp [seg, h1, h2]

/-- **C92 (across).** A segment with one end strictly inside and the other strictly outside a strictly convex polygon is INTERSECT
or — when it leaves through the last side or through a corner — UNKNOWN, whichever end is which. -/
theorem C92_segment_across (d : List (K × K)) (hd : StrictlyConvex d) (p q : K × K) (fp : Fair d p) (fq : Fair d q)
    (hp : InsideConvex d p) (hq : OutsideConvex d q) (holes : List (List (Point (XR K)))) :
    (SegPolyRelation (seg p q) (ring d :: holes) = .intersect ∨ SegPolyRelation (seg p q) (ring d :: holes) = .unknown) ∧
    (SegPolyRelation (seg q p) (ring d :: holes) = .intersect ∨ SegPolyRelation (seg q p) (ring d :: holes) = .unknown) := by
  have h1 := (C38_convex_partial d hd p fp.1 fp.2.1 fp.2.2 holes).1 hp
  have h2 := (C38_convex_partial d hd q fq.1 fq.2.1 fq.2.2 holes).2 hq
  constructor
  · unfold SegPolyRelation
    cases segPolyLoop (seg p q) false (edges (GetExteriorRing (ring d :: holes))).dropLast with
    | none => exact Or.inl rfl
    | some b => right; cases b <;> simp [seg, h1, h2]
  · unfold SegPolyRelation
    cases segPolyLoop (seg q p) false (edges (GetExteriorRing (ring d :: holes))).dropLast with
    | none => exact Or.inl rfl
    | some b => right; cases b <;> simp [seg, h1, h2]

/-- **C92 (outside).** A segment strictly beyond one side of a strictly convex polygon, and not on the line of any side, is DISJOINT. -/
theorem C92_segment_outside (d : List (K × K)) (hd : StrictlyConvex d) (p q : K × K) (fp : Fair d p) (fq : Fair d q)
    (e : (K × K) × (K × K)) (he : e ∈ sides d) (hp : turn e.1 e.2 p < 0) (hq : turn e.1 e.2 q < 0)
    (hn : ∀ f ∈ sides d, ¬ (turn f.1 f.2 p = 0 ∧ turn f.1 f.2 q = 0)) (holes : List (List (Point (XR K)))) :
    SegPolyRelation (seg p q) (ring d :: holes) = .disjoint := by
  have hpos : ∀ v ∈ d, 0 ≤ turn e.1 e.2 v := by
    intro v hv
    by_cases h1 : v = e.1
    · subst h1; unfold turn; apply le_of_eq; ring
    by_cases h2 : v = e.2
    · subst h2; unfold turn; apply le_of_eq; ring
    exact (hd.2.2 e he v hv h1 h2).le
  unfold SegPolyRelation
  rw [loop_ring holes]
  · have h1 := (C38_convex_partial d hd p fp.1 fp.2.1 fp.2.2 holes).2 ⟨e, he, hp⟩
    have h2 := (C38_convex_partial d hd q fq.1 fq.2.1 fq.2.2 holes).2 ⟨e, he, hq⟩
    simp [seg, h1, h2]
  · intro f hf
    have hf := List.dropLast_subset _ hf
    refine segRel_apart (hn f hf) ?_
    have l1 := hpos _ (sides_mem_left hf)
    have l2 := hpos _ (sides_mem_right hf)
    rintro ⟨x, hx, hy⟩
    refine no_common (a := -(e.2.2 - e.1.2)) (b := e.2.1 - e.1.1) (k := (e.2.1 - e.1.1) * e.1.2 - (e.2.2 - e.1.2) * e.1.1)
      (p := p) (q := q) (u := f.1) (v := f.2) ?_ ?_ ?_ ?_ ⟨x, hy, hx⟩
    · unfold turn at hp; linarith
    · unfold turn at hq; linarith
    · unfold turn at l1; linarith
    · unfold turn at l2; linarith

/-- **C92 (lines).** A line of two or more points, all strictly inside a strictly convex polygon, is CONTAIN. -/
theorem C92_line_inside (d : List (K × K)) (hd : StrictlyConvex d) (l : List (K × K)) (hl : 2 ≤ l.length)
    (h : ∀ p ∈ l, Fair d p ∧ InsideConvex d p) (holes : List (List (Point (XR K)))) :
    LinePolyRelation (l.map pt) (ring d :: holes) = .contain := by
  unfold LinePolyRelation
  rw [edges_map]
  refine linePolyLoop_const _ _ _ (Or.inl rfl) _ (Or.inr ⟨rfl, ?_⟩) ?_
  · match l, hl with
    | a :: b :: r, _ => simp [edges]
  · intro e he
    obtain ⟨e, he', rfl⟩ := List.mem_map.1 he
    clear he; rename' he' => he
    have m1 : e.1 ∈ l ∧ e.2 ∈ l := by
      clear h hl
      induction l with
      | nil => simp [edges] at he
      | cons a l ih =>
        match l with
        | [] => simp [edges] at he
        | b :: r =>
          rw [edges] at he
          rcases List.mem_cons.1 he with rfl | he
          · simp
          · obtain ⟨i1, i2⟩ := ih he; exact ⟨List.mem_cons_of_mem _ i1, List.mem_cons_of_mem _ i2⟩
    exact C92_segment_inside d hd _ _ (h _ m1.1).1 (h _ m1.2).1 (h _ m1.1).2 (h _ m1.2).2 holes

/-- **C92 (polygons).** A polygon all of whose corners are strictly inside a strictly convex polygon is CONTAIN. -/
theorem C92_polygon_inside (d : List (K × K)) (hd : StrictlyConvex d) (c : List (K × K)) (hc : 2 ≤ c.length)
    (h : ∀ p ∈ c, Fair d p ∧ InsideConvex d p) (h1 h2 : List (List (Point (XR K)))) :
    PolyRelation (ring c :: h1) (ring d :: h2) = .contain := by
  unfold PolyRelation LinearPolyRelation
  rw [edges_ring, ← List.map_dropLast]
  refine linePolyLoop_const _ _ _ (Or.inl rfl) _ (Or.inr ⟨rfl, by rw [ne_eq, List.map_eq_nil_iff]; exact sides_dropLast_ne hc⟩) ?_
  intro e he
  obtain ⟨e, he', rfl⟩ := List.mem_map.1 he
  clear he; rename' he' => he
  have he := List.dropLast_subset _ he
  have m1 := h _ (sides_mem_left he)
  have m2 := h _ (sides_mem_right he)
  exact C92_segment_inside d hd _ _ m1.1 m2.1 m1.2 m2.2 h2

/-- the square of the examples: corners (1,1), (5,1), (5,5), (1,5) -/
def demoSquare : List (ℚ × ℚ) := [(1, 1), (5, 1), (5, 5), (1, 5)]

/-- C92 on the square: it is strictly convex, and (2,2), (3,4), (9,2) satisfy the hypotheses. -/
example : StrictlyConvex demoSquare ∧ (∀ p ∈ [((2 : ℚ), (2 : ℚ)), (3, 4), (3, 2)], InsideConvex demoSquare p) ∧
    OutsideConvex demoSquare (9, 2) ∧ (∀ p ∈ [((2 : ℚ), (2 : ℚ)), (3, 4), (3, 2), (9, 2)], ClearY demoSquare p ∧ p ≠ (0, 0)) := by
  unfold StrictlyConvex InsideConvex OutsideConvex ClearY demoSquare
  decide +kernel

example : ClearX demoSquare (2, 2) ∧ ClearX demoSquare (9, 2) := by
  refine ⟨?_, ?_⟩ <;>
  · intro e he q ⟨t, t0, t1, hq⟩ h
    have he' : e = ((1, 1), (5, 1)) ∨ e = ((5, 1), (5, 5)) ∨ e = ((5, 5), (1, 5)) ∨ e = ((1, 5), (1, 1)) := by
      simpa [sides, demoSquare] using he
    have h1 := congrArg Prod.fst hq
    have h2 := congrArg Prod.snd hq
    rcases he' with rfl | rfl | rfl | rfl <;> simp only [along] at h1 h2 <;> unfold eps <;> rw [le_abs] <;> norm_num at * <;>
      first
      | (left; linarith)
      | (right; linarith)

example : SegPolyRelation (seg ((2 : ℚ), (2 : ℚ)) (3, 4)) [ring demoSquare] = .contain ∧
    SegPolyRelation (seg ((2 : ℚ), (2 : ℚ)) (9, 2)) [ring demoSquare] = .intersect ∧
    SegPolyRelation (seg ((2 : ℚ), (2 : ℚ)) (-9, 2)) [ring demoSquare] = .unknown ∧
    SegPolyRelation (seg ((9 : ℚ), (2 : ℚ)) (10, 3)) [ring demoSquare] = .disjoint ∧
    PolyRelation [ring [((2 : ℚ), (2 : ℚ)), (3, 4), (3, 2)]] [ring demoSquare] = .contain := by decide +kernel

/-! ## C70 continued: separated polygons are DISJOINT -/

/-- **C70 (apart), partial.** Polygons — convex or not — separated by a vertical or horizontal line (by 1e-6 where the
first lies left of or below the second) are DISJOINT, when the corners of the first are fair query points and no side of the
one is on the line of a side of the other.  Missing: sides on a common line, where the answer is TOUCH (`C70_polyRelation_false`). -/
theorem C70_apart_partial (c d : List (K × K)) (hc : 2 ≤ c.length) (h0 : ∀ v ∈ c, v ≠ (0, 0) ∧ ClearY d v)
    (h : (∀ v ∈ c, ∀ w ∈ d, w.1 < v.1) ∨ (∀ v ∈ c, ∀ w ∈ d, v.1 + eps < w.1) ∨
      (∀ v ∈ c, ∀ w ∈ d, w.2 < v.2) ∨ (∀ v ∈ c, ∀ w ∈ d, v.2 + eps < w.2))
    (hn : ∀ e ∈ sides c, ∀ f ∈ sides d, ¬ (turn f.1 f.2 e.1 = 0 ∧ turn f.1 f.2 e.2 = 0)) (h1 h2 : List (List (Point (XR K)))) :
    PolyRelation (ring c :: h1) (ring d :: h2) = .disjoint := by
  have ep := eps_pos (K := K)
  have out : ∀ v ∈ c, IsPointInPolygon (pt v) (ring d :: h2) = .disjoint := by
    intro v hv
    refine C37_outside_box_partial v d h2 (h0 v hv).1 (h0 v hv).2 ?_
    rcases h with h | h | h | h
    · exact Or.inl (h v hv)
    · exact Or.inr (Or.inl (h v hv))
    · exact Or.inr (Or.inr (Or.inl (h v hv)))
    · exact Or.inr (Or.inr (Or.inr (h v hv)))
  unfold PolyRelation LinearPolyRelation
  rw [edges_ring, ← List.map_dropLast]
  refine linePolyLoop_const _ _ _ (Or.inr rfl) _ (Or.inr ⟨rfl, by rw [ne_eq, List.map_eq_nil_iff]; exact sides_dropLast_ne hc⟩) ?_
  intro e he
  obtain ⟨e, he', rfl⟩ := List.mem_map.1 he
  clear he; rename' he' => he
  have he := List.dropLast_subset _ he
  have m1 := sides_mem_left he
  have m2 := sides_mem_right he
  show SegPolyRelation (seg e.1 e.2) _ = _
  unfold SegPolyRelation
  rw [loop_ring h2]
  · simp [seg, out _ m1, out _ m2]
  · intro f hf
    have hf := List.dropLast_subset _ hf
    refine segRel_apart (hn e he f hf) ?_
    have k1 := sides_mem_left hf
    have k2 := sides_mem_right hf
    rcases h with h | h | h | h
    · have a1 := h _ m1 _ k1; have a2 := h _ m1 _ k2; have a3 := h _ m2 _ k1; have a4 := h _ m2 _ k2
      exact no_common (a := 1) (b := 0) (k := min e.1.1 e.2.1) (by simp [lt_min_iff]; exact ⟨a1, a3⟩) (by simp [lt_min_iff]; exact ⟨a2, a4⟩)
        (by simp) (by simp)
    · have a1 := h _ m1 _ k1; have a2 := h _ m1 _ k2; have a3 := h _ m2 _ k1; have a4 := h _ m2 _ k2
      rintro ⟨x, hx, hy⟩
      exact no_common (a := 1) (b := 0) (k := min f.1.1 f.2.1) (by simp [lt_min_iff]; constructor <;> linarith) (by simp [lt_min_iff]; constructor <;> linarith)
        (by simp) (by simp) ⟨x, hy, hx⟩
    · have a1 := h _ m1 _ k1; have a2 := h _ m1 _ k2; have a3 := h _ m2 _ k1; have a4 := h _ m2 _ k2
      exact no_common (a := 0) (b := 1) (k := min e.1.2 e.2.2) (by simp [lt_min_iff]; exact ⟨a1, a3⟩) (by simp [lt_min_iff]; exact ⟨a2, a4⟩)
        (by simp) (by simp)
    · have a1 := h _ m1 _ k1; have a2 := h _ m1 _ k2; have a3 := h _ m2 _ k1; have a4 := h _ m2 _ k2
      rintro ⟨x, hx, hy⟩
      exact no_common (a := 0) (b := 1) (k := min f.1.2 f.2.2) (by simp [lt_min_iff]; constructor <;> linarith) (by simp [lt_min_iff]; constructor <;> linarith)
        (by simp) (by simp) ⟨x, hy, hx⟩

/-- C70 (apart) on a triangle far to the left of the square. -/
example : PolyRelation [ring [((-9 : ℚ), (2 : ℚ)), (-7, 3), (-8, 6)]] [ring demoSquare] = .disjoint := by
  refine C70_apart_partial _ _ (by decide) ?_ (Or.inr (Or.inl ?_)) ?_ [] [] <;> unfold demoSquare
  · unfold ClearY; decide +kernel
  · decide +kernel
  · decide +kernel

end GoGeo
