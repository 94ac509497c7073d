import Verif.Geo.BoxLemmas
import Verif.Go.F64

/-!
# Properties of boxes: C19, C20, C21, C22
-/
set_option linter.unusedSectionVars false

namespace GoGeo
open GoFloat Spec
variable {F : Type} [GoFloat F] [FloatOrd F]

/-- **C19 (never NaN).** The bounding box of any geometry, also with NaN coordinates, has no NaN. -/
theorem C19_boundingBox_num (g : Geometry F) : NumBox (BoundingBox g) := by
  cases g <;> first | exact calBox_num _ | exact zero_num

/-- **C19.** Every numeric (non-NaN) vertex coordinate of a point, multipoint, line, multiline or
multipolygon lies within the bounding box — whatever its magnitude, infinities included, and whatever
other coordinates are NaN. -/
theorem C19_boundingBox_covers (g : Geometry F) (hg : ∀ rs, g ≠ .polygon rs) (p : Point F)
    (hp : p ∈ vertices g) :
    (IsNum p.X → Le (BoundingBox g).MinX p.X ∧ Le p.X (BoundingBox g).MaxX) ∧
    (IsNum p.Y → Le (BoundingBox g).MinY p.Y ∧ Le p.Y (BoundingBox g).MaxY) := by
  have key : ∀ l : List (Point F), p ∈ l → Covers (calBox l) p :=
    fun l h => (foldl_calBox l _ start_num).2.2 p h
  cases g with
  | polygon rs => exact absurd rfl (hg rs)
  | point q => exact ⟨(key _ hp).1, (key _ hp).2⟩
  | multiPoint _ => exact ⟨(key _ hp).1, (key _ hp).2⟩
  | lineString _ => exact ⟨(key _ hp).1, (key _ hp).2⟩
  | multiLineString _ => exact ⟨(key _ hp).1, (key _ hp).2⟩
  | multiPolygon _ => exact ⟨(key _ hp).1, (key _ hp).2⟩
  | _ => simp [vertices] at hp

/-- **C19 for polygons**: the exterior ring is covered. -/
theorem C19_boundingBox_covers_exterior (ext : List (Point F)) (holes : List (List (Point F)))
    (p : Point F) (hp : p ∈ ext) :
    (IsNum p.X → Le (BoundingBox (.polygon (ext :: holes))).MinX p.X ∧
      Le p.X (BoundingBox (.polygon (ext :: holes))).MaxX) ∧
    (IsNum p.Y → Le (BoundingBox (.polygon (ext :: holes))).MinY p.Y ∧
      Le p.Y (BoundingBox (.polygon (ext :: holes))).MaxY) := by
  have := (foldl_calBox ext _ start_num).2.2 p hp
  exact ⟨this.1, this.2⟩

/-- C19 is about real data: a line with an infinite and a huge coordinate and a NaN. -/
example : (⟨1e300, inf⟩ : Point Float) ∈ vertices (.lineString [⟨nan, 3⟩, ⟨1e300, inf⟩]) ∧
    IsNum (1e300 : Float) ∧ IsNum (inf : Float) := by
  refine ⟨by simp [vertices], ?_, ?_⟩ <;> (unfold IsNum; decide +kernel)

/-! ## C20 -/

/-- **C20.** With at least one vertex and coordinates within ±2^31, each side of the bounding box is
attained by a vertex. -/
theorem C20_boundingBox_attained (g : Geometry F) (hne : boxedVertices g ≠ [])
    (hb : ∀ p ∈ boxedVertices g, Bounded31 p.X ∧ Bounded31 p.Y) :
    (∃ p ∈ boxedVertices g, Same (BoundingBox g).MinX p.X) ∧
    (∃ p ∈ boxedVertices g, Same (BoundingBox g).MinY p.Y) ∧
    (∃ p ∈ boxedVertices g, Same (BoundingBox g).MaxX p.X) ∧
    (∃ p ∈ boxedVertices g, Same (BoundingBox g).MaxY p.Y) := by
  rw [BoundingBox_eq g hne]; exact calBox_tight _ hne hb

/-- **C20.** Hence it is the least box containing the vertices: it lies inside every box that
contains them, and it contains them itself. -/
theorem C20_boundingBox_least (g : Geometry F) (hne : boxedVertices g ≠ [])
    (hb : ∀ p ∈ boxedVertices g, Bounded31 p.X ∧ Bounded31 p.Y) :
    (∀ p ∈ boxedVertices g, InBox p (BoundingBox g)) ∧
    ∀ c : Box F, (∀ p ∈ boxedVertices g, InBox p c) → Inside (BoundingBox g) c := by
  constructor
  · intro p hp
    rw [BoundingBox_eq g hne]
    have := (foldl_calBox _ _ (start_num (F := F))).2.2 p hp
    have hx := this.x (hb p hp).1.2.left
    have hy := this.y (hb p hp).2.2.left
    exact ⟨hx.1, hx.2, hy.1, hy.2⟩
  · intro c hc
    obtain ⟨⟨p1, h1, e1⟩, ⟨p2, h2, e2⟩, ⟨p3, h3, e3⟩, ⟨p4, h4, e4⟩⟩ := C20_boundingBox_attained g hne hb
    exact ⟨(hc p1 h1).minX.trans e1.2, (hc p2 h2).minY.trans e2.2, e3.1.trans (hc p3 h3).maxX,
      e4.1.trans (hc p4 h4).maxY⟩

/-- C20's bound is needed: beyond 2^31 the box of a single point is not that point. -/
theorem C20_bound_needed :
    ¬ Same (BoundingBox (.point (⟨4294967296, 0⟩ : Point Float))).MinX 4294967296 := by
  unfold Same Le; decide +kernel

example : boxedVertices (.lineString [(⟨1, 2⟩ : Point Float), ⟨3, -4⟩]) ≠ [] ∧
    ∀ p ∈ boxedVertices (.lineString [(⟨1, 2⟩ : Point Float), ⟨3, -4⟩]), Bounded31 p.X ∧ Bounded31 p.Y := by
  refine ⟨by simp [boxedVertices, vertices], ?_⟩
  simp only [boxedVertices, vertices, List.mem_cons, List.not_mem_nil, or_false, forall_eq_or_imp, forall_eq,
    Bounded31, Le]
  decide +kernel

/-! ## C21 -/

/-- **C21 is false**: the box of a pointer is the zero box, not the box of the geometry it points to. -/
theorem C21_pointer_false :
    BoundingBox (.ptr 0 (.point (⟨1, 2⟩ : Point Float))) ≠ BoundingBox (.point (⟨1, 2⟩ : Point Float)) := by
  decide +kernel

/-- **C21 is false**: the box of a 3-D point does not contain its X/Y coordinates. -/
theorem C21_z_false :
    ¬ Le (5 : Float) (BoundingBox (.pointZ (⟨5, 5, 0⟩ : PointZ Float))).MaxX := by
  unfold Le; decide +kernel

/-- **C21 is false**: a hole sticking out of the exterior ring is not covered. -/
theorem C21_hole_false :
    ∃ p ∈ vertices (.polygon [[(⟨0, 0⟩ : Point Float), ⟨1, 0⟩, ⟨0, 1⟩, ⟨0, 0⟩], [⟨9, 9⟩, ⟨9, 8⟩, ⟨8, 8⟩, ⟨9, 9⟩]]),
      ¬ InBox p (BoundingBox (.polygon [[(⟨0, 0⟩ : Point Float), ⟨1, 0⟩, ⟨0, 1⟩, ⟨0, 0⟩],
        [⟨9, 9⟩, ⟨9, 8⟩, ⟨8, 8⟩, ⟨9, 9⟩]])) := by
  refine ⟨⟨9, 9⟩, by simp [vertices], fun h => ?_⟩
  have := h.maxX
  revert this
  unfold Le; decide +kernel

/-- **C21 (what holds)**: pointers, Z geometries, collections and nil all get the zero box; holes that
lie inside the exterior ring's box are covered with it.  Missing: the full statement is false. -/
theorem C21_partial (g : Geometry F) (a : Nat) :
    BoundingBox (.ptr a g) = Box.zero ∧
    (∀ p, BoundingBox (.pointZ p : Geometry F) = Box.zero) ∧
    (∀ p, BoundingBox (.lineStringZ p : Geometry F) = Box.zero) ∧
    (∀ p, BoundingBox (.polygonZ p : Geometry F) = Box.zero) ∧
    (∀ gs, BoundingBox (.collection gs : Geometry F) = Box.zero) ∧
    (∀ ext holes, (BoundingBox (.polygon (ext :: holes) : Geometry F)) = BoundingBox (.lineString ext)) :=
  ⟨rfl, fun _ => rfl, fun _ => rfl, fun _ => rfl, fun _ => rfl, fun _ _ => rfl⟩

/-! ## C22 -/

/-- **C22 (Contain).** On NaN-free boxes `Contain` says exactly that the sides of the second box are
within those of the first; so it is reflexive and transitive. -/
theorem C22_contain (a b c : Box F) (ha : NumBox a) (hb : NumBox b) (hc : NumBox c) :
    (a.Contain b = true ↔ Inside b a) ∧ a.Contain a = true ∧
    (a.Contain b = true → b.Contain c = true → a.Contain c = true) :=
  ⟨contain_iff ha hb, (contain_iff ha ha).2 (Inside.refl ha), fun h h' =>
    (contain_iff ha hc).2 (((contain_iff hb hc).1 h').trans ((contain_iff ha hb).1 h))⟩

/-- **C22 (points).** For a proper inner box, `Contain` is inclusion of point sets. -/
theorem C22_contain_points (a b : Box F) (ha : NumBox a) (hb : NumBox b) (pb : ProperBox b) :
    a.Contain b = true ↔ ∀ p, InBox p b → InBox p a := by
  rw [contain_iff ha hb]
  constructor
  · intro h p hp
    exact ⟨h.minX.trans hp.minX, hp.maxX.trans h.maxX, h.minY.trans hp.minY, hp.maxY.trans h.maxY⟩
  · intro h
    have h1 := h ⟨b.MinX, b.MinY⟩ ⟨Le.refl hb.1, pb.x, Le.refl hb.2, pb.y⟩
    have h2 := h ⟨b.MaxX, b.MaxY⟩ ⟨pb.x, Le.refl hb.3, pb.y, Le.refl hb.4⟩
    exact ⟨h1.minX, h1.minY, h2.maxX, h2.maxY⟩

/-- **C22 (Union).** `Union` is the least upper bound for `Contain`. -/
theorem C22_union_lub (a b c : Box F) (ha : NumBox a) (hb : NumBox b) (hc : NumBox c) :
    (a.Union b).Contain a = true ∧ (a.Union b).Contain b = true ∧
    (c.Contain a = true → c.Contain b = true → c.Contain (a.Union b) = true) :=
  ⟨(contain_iff (union_num ha hb) ha).2 (union_left ha hb),
   (contain_iff (union_num ha hb) hb).2 (union_right ha hb),
   fun h h' => (contain_iff hc (union_num ha hb)).2
     (union_least ((contain_iff hc ha).1 h) ((contain_iff hc hb).1 h'))⟩

omit [FloatOrd F] in
/-- **C22 (Intersect, symmetric)** for all boxes, also with NaN. -/
theorem C22_intersect_symm (a b : Box F) : a.Intersect b = b.Intersect a := by
  unfold Box.Intersect gt
  cases lt a.MaxX b.MinX <;> cases lt b.MaxX a.MinX <;> cases lt b.MaxY a.MinY <;>
    cases lt a.MaxY b.MinY <;> rfl

/-- **C22 (Intersect, monotone)**: enlarging a box keeps intersections, for every query box `q`,
also with NaN sides. -/
theorem C22_intersect_mono (a b q : Box F) (hab : Inside a b) (h : a.Intersect q = true) :
    b.Intersect q = true := by
  unfold Box.Intersect at h ⊢
  split at h
  · cases h
  · rename_i h1
    simp only [Bool.or_eq_true, not_or, Bool.not_eq_true] at h1
    have e1 : lt b.MaxX q.MinX = false := by
      cases e : lt b.MaxX q.MinX
      · rfl
      · rw [lt_of_le_of_lt' hab.maxX e] at h1; simp at h1
    have e2 : lt q.MaxX b.MinX = false := by
      cases e : lt q.MaxX b.MinX
      · rfl
      · have := lt_of_lt_of_le' e hab.minX
        simp [gt, this] at h1
    have e3 : lt q.MaxY b.MinY = false := by
      cases e : lt q.MaxY b.MinY
      · rfl
      · have := lt_of_lt_of_le' e hab.minY
        simp [gt, this] at h1
    have e4 : lt b.MaxY q.MinY = false := by
      cases e : lt b.MaxY q.MinY
      · rfl
      · have := lt_of_le_of_lt' hab.maxY e
        simp [this] at h1
    simp [gt, e1, e2, e3, e4]

/-- **C22 (Intersect, meaning)**: two proper boxes intersect iff they share a point. -/
theorem C22_intersect_points (a b : Box F) (pa : ProperBox a) (pb : ProperBox b) :
    a.Intersect b = true ↔ ∃ p, InBox p a ∧ InBox p b := by
  rw [intersect_iff ⟨pa.x.left, pa.y.left, pa.x.right, pa.y.right⟩ ⟨pb.x.left, pb.y.left, pb.x.right, pb.y.right⟩]
  constructor
  · rintro ⟨h1, h2, h3, h4⟩
    obtain ⟨x, x1, x2, x3, x4⟩ := exists_between pa.x pb.x h2 h1
    obtain ⟨y, y1, y2, y3, y4⟩ := exists_between pa.y pb.y h3 h4
    exact ⟨⟨x, y⟩, ⟨x1, x2, y1, y2⟩, ⟨x3, x4, y3, y4⟩⟩
  · rintro ⟨p, ha, hb⟩
    exact ⟨hb.minX.trans ha.maxX, ha.minX.trans hb.maxX, ha.minY.trans hb.maxY, hb.minY.trans ha.maxY⟩

/-- **C22 (BoxUnion).** `BoxUnion` of a non-empty list contains each box and lies inside every box
that contains them all. -/
theorem C22_boxUnion (l : List (Box F)) (hne : l ≠ []) (hl : ∀ x ∈ l, NumBox x) :
    (∀ x ∈ l, Inside x (BoxUnion l)) ∧ ∀ c, (∀ x ∈ l, Inside x c) → Inside (BoxUnion l) c :=
  (boxUnion_spec l hne hl).2

/-- **C22 (order).** `BoxUnion` does not depend on the order (nor on repetitions). -/
theorem C22_boxUnion_order (l l' : List (Box F)) (hne : l ≠ []) (hl : ∀ x ∈ l, NumBox x)
    (h : ∀ x, x ∈ l ↔ x ∈ l') : SameBox (BoxUnion l) (BoxUnion l') := by
  have hne' : l' ≠ [] := by
    obtain ⟨x, hx⟩ := List.exists_mem_of_ne_nil l hne
    exact List.ne_nil_of_mem ((h x).1 hx)
  have hl' : ∀ x ∈ l', NumBox x := fun x hx => hl x ((h x).2 hx)
  obtain ⟨_, a2, a3⟩ := boxUnion_spec l hne hl
  obtain ⟨_, b2, b3⟩ := boxUnion_spec l' hne' hl'
  exact ⟨a3 _ (fun x hx => b2 x ((h x).1 hx)), b3 _ (fun x hx => a2 x ((h x).2 hx))⟩

/-- The hypotheses of C22 are met by ordinary float64 boxes, and the conclusions are not trivial:
these two boxes intersect, neither contains the other. -/
example : (⟨0, 0, 2, 2⟩ : Box Float).Intersect ⟨1, 1, 3, 3⟩ = true ∧
    (⟨0, 0, 2, 2⟩ : Box Float).Contain ⟨1, 1, 3, 3⟩ = false ∧
    (⟨0, 0, 2, 2⟩ : Box Float).Union ⟨1, 1, 3, 3⟩ = ⟨0, 0, 3, 3⟩ ∧
    NumBox (⟨0, 0, 2, 2⟩ : Box Float) ∧ ProperBox (⟨0, 0, 2, 2⟩ : Box Float) := by
  refine ⟨by decide +kernel, by decide +kernel, by decide +kernel, ⟨?_, ?_, ?_, ?_⟩, ⟨?_, ?_⟩⟩ <;>
    (first | unfold IsNum | unfold Le) <;> decide +kernel

end GoGeo
