import Verif.Props.Contained
import Verif.Props.ContainOrder
import Verif.Props.Lookup
import Verif.Props.HistoryFree

/-!
# C169: a search with the box of a polygon finds every polygon round it and in it

Looking up a polygon's box in the index and asking `PolyRelation` for what is found misses no stored polygon that contains the polygon or is contained in it.
-/

namespace GoGeo.Region

open Set Spec FloatVal Rtree

section

variable {B k : ℕ} {ps qs : List (Point Float)} {c d : List (ℚ × ℚ)}

theorem ring_proper (hp : GridRing B k ps c) (h₁ : List (List (Point Float))) : ProperBox (BoundingBox (.polygon (ps :: h₁))) := by
  obtain ⟨x, hx⟩ : ∃ x, x ∈ c := List.exists_mem_of_length_pos (by have := hp.simple.1; simp at this; omega)
  obtain ⟨p, hm, ⟨ax, ay⟩, -⟩ := forall₂_left (R := fun a b => At b a ∧ OnGrid B k a) hp.grid.flip (List.mem_append_left _ hx)
  have cov := C19_boundingBox_covers_exterior ps h₁ p hm
  have h1 := cov.1 (by unfold IsNum; rw [val_isNaN, ax]; rfl)
  have h2 := cov.2 (by unfold IsNum; rw [val_isNaN, ay]; rfl)
  exact ⟨h1.1.trans h1.2, h2.1.trans h2.2⟩

theorem meets_contained {a b : Box Float} (ha : NumBox a) (hb : NumBox b) (pb : ProperBox b) (h : a.Contain b = true) : a.Intersect b = true ∧ b.Intersect a = true := by
  have hi := (C22_contain a b a ha hb ha).1.1 h
  have pa : ProperBox a := ⟨hi.minX.trans (pb.x.trans hi.maxX), hi.minY.trans (pb.y.trans hi.maxY)⟩
  have : a.Intersect b = true := (C22_intersect_points a b pa pb).2
    ⟨⟨b.MinX, b.MinY⟩, ⟨hi.minX, pb.x.trans hi.maxX, hi.minY, pb.y.trans hi.maxY⟩, ⟨Le.refl hb.1, pb.x, Le.refl hb.2, pb.y⟩⟩
  exact ⟨this, by rw [C22_intersect_symm]; exact this⟩

theorem box_meets (hB : B + k ≤ 17) (hp : GridRing B k ps c) (hq : GridRing B k qs d) (hm : Meetless c d) (hs : Skew c d) (h₁ h₂ : List (List (Point Float)))
    (h : PolyRelation (ps :: h₁) (qs :: h₂) = .contain) :
    (BoundingBox (.polygon (ps :: h₁))).Intersect (BoundingBox (.polygon (qs :: h₂))) = true ∧
    (BoundingBox (.polygon (qs :: h₂))).Intersect (BoundingBox (.polygon (ps :: h₁))) = true := by
  have hc := C166_contain hB hp.grid hq.grid hp.simple hq.simple hp.origin hm (fun e he f hf => (hs e he f hf).1) h₁ h₂ h
  exact (meets_contained (C19_boundingBox_num _) (C19_boundingBox_num _) (ring_proper hp h₁) hc).symm

theorem meets_related (hB : B + k ≤ 17) (hp : GridRing B k ps c) (hq : GridRing B k qs d) (hm : Meetless c d) (hk : Skew c d) (h₁ h₂ : List (List (Point Float)))
    {o : Spatial Float} (hg : o.Geom = .polygon (qs :: h₂))
    (hr : PolyRelation (ps :: h₁) (qs :: h₂) = .contain ∨ PolyRelation (qs :: h₂) (ps :: h₁) = .contain) : Meets (BoundingBox (.polygon (ps :: h₁))) o = true := by
  unfold Meets
  rw [hg]
  rcases hr with hr | hr
  · exact (box_meets hB hp hq hm hk h₁ h₂ hr).2
  · exact (box_meets hB hq hp hm.symm hk.symm h₂ h₁ hr).1

/-- **C169.** After any history, searching with the bounding box of a polygon returns a polygon that `PolyRelation` says it is contained in, or says is contained in it, exactly
when that polygon is stored. -/
theorem C169_search (grow : Nat → Nat) (min max : Int) (hmax : 2 ≤ max) (s : RState Float) (hs : Reached grow min max s) (hB : B + k ≤ 17) (hp : GridRing B k ps c)
    (h₁ : List (List (Point Float))) :
    ∃ res, SearchIntersect s (some (BoundingBox (.polygon (ps :: h₁)))) = .ok res ∧
      ∀ (o : Spatial Float) (qs : List (Point Float)) (h₂ : List (List (Point Float))) (d : List (ℚ × ℚ)), o.Geom = .polygon (qs :: h₂) →
        GridRing B k qs d → Meetless c d → Skew c d →
        (PolyRelation (ps :: h₁) (qs :: h₂) = .contain ∨ PolyRelation (qs :: h₂) (ps :: h₁) = .contain) → (o ∈ res ↔ StoredIn s o) := by
  refine ⟨_, C02_search_exact grow min max hmax s hs _, ?_⟩
  intro o qs h₂ d hg hq hm hk hr
  rw [List.mem_filter, C02_contents_stored grow min max hmax s hs o]
  exact and_iff_left (meets_related hB hp hq hm hk h₁ h₂ hg hr)

/-- **C169 (bulk loading).** The same for a tree built from many objects at once. -/
theorem C169_bulk (lib : Math64) (hl : Math64Ok lib) (grow : Nat → Nat) (min max : Int) (hmax : 2 ≤ max) (objs : List (Spatial Float)) (hn : max < objs.length)
    (hN : objs.length ≤ 2 ^ 40) (hB : B + k ≤ 17) (hp : GridRing B k ps c) (h₁ : List (List (Point Float))) :
    ∃ s : RState Float, NewMinMaxTree64 lib goSort grow min max objs = .ok s ∧ ∃ res, SearchIntersect s (some (BoundingBox (.polygon (ps :: h₁)))) = .ok res ∧
      ∀ (o : Spatial Float) (qs : List (Point Float)) (h₂ : List (List (Point Float))) (d : List (ℚ × ℚ)), o.Geom = .polygon (qs :: h₂) →
        GridRing B k qs d → Meetless c d → Skew c d →
        (PolyRelation (ps :: h₁) (qs :: h₂) = .contain ∨ PolyRelation (qs :: h₂) (ps :: h₁) = .contain) → (o ∈ res ↔ o ∈ objs) := by
  obtain ⟨s, h1, -, -, -, -, h⟩ := C12_float64 lib hl grow min max hmax objs hn hN
  obtain ⟨res, h2, hperm⟩ := h (BoundingBox (.polygon (ps :: h₁)))
  refine ⟨s, h1, res, h2, ?_⟩
  intro o qs h₂ d hg hq hm hk hr
  rw [hperm.mem_iff, List.mem_filter]
  exact and_iff_left (meets_related hB hp hq hm hk h₁ h₂ hg hr)

end

section

variable {B k : ℕ} {ls qs : List (Point Float)} {l d : List (ℚ × ℚ)}

/-- points on the grid have their box in that of a ring when they are in the hull of its corners -/
theorem grid_box (hl : GridAll B k ls l) (hq : GridRing B k qs d) (h : ∀ x ∈ l, real x ∈ convexHull ℝ {y | y ∈ d.map real}) : (calBox qs).Contain (calBox ls) = true := by
  refine box_between qs ls (fun p hp => ?_) fun q hq' => ?_
  · obtain ⟨y, -, ⟨ax, ay⟩, -⟩ := forall₂_left hq.grid hp
    exact ⟨by unfold IsNum; rw [val_isNaN, ax]; rfl, by unfold IsNum; rw [val_isNaN, ay]; rfl⟩
  · obtain ⟨x, hx, ⟨ax, ay⟩, -⟩ := forall₂_left hl hq'
    have key : ∀ y ∈ d.map real, ∃ p ∈ qs, ∃ y' : ℚ × ℚ, At p y' ∧ real y' = y := by
      intro y hy
      obtain ⟨y', hy', rfl⟩ := List.mem_map.1 hy
      obtain ⟨p, hp, ha, -⟩ := forall₂_left (R := fun a b => At b a ∧ OnGrid B k a) hq.grid.flip (List.mem_append_left _ hy')
      exact ⟨p, hp, y', ha, rfl⟩
    obtain ⟨⟨y1, m1, l1⟩, ⟨y2, m2, l2⟩, ⟨y3, m3, l3⟩, ⟨y4, m4, l4⟩⟩ := between (h x hx)
    obtain ⟨p1, n1, z1, a1, rfl⟩ := key y1 m1
    obtain ⟨p2, n2, z2, a2, rfl⟩ := key y2 m2
    obtain ⟨p3, n3, z3, a3, rfl⟩ := key y3 m3
    obtain ⟨p4, n4, z4, a4, rfl⟩ := key y4 m4
    simp only [real] at l1 l2 l3 l4
    refine ⟨⟨p1, n1, ?_⟩, ⟨p2, n2, ?_⟩, ⟨p3, n3, ?_⟩, ⟨p4, n4, ?_⟩⟩ <;> unfold Spec.Le <;> rw [val_le]
    · rw [a1.1, ax]; exact decide_eq_true (by exact_mod_cast l1)
    · rw [a2.1, ax]; exact decide_eq_true (by exact_mod_cast l2)
    · rw [a3.2, ay]; exact decide_eq_true (by exact_mod_cast l3)
    · rw [a4.2, ay]; exact decide_eq_true (by exact_mod_cast l4)

/-- each point of a line of at least two points is an end of a segment -/
theorem mem_segments_of {α : Type} : ∀ {l : List α} {x : α}, 2 ≤ l.length → x ∈ l → ∃ e ∈ segments l, x = e.1 ∨ x = e.2
  | [a, b], x, _, hx => ⟨(a, b), by simp [segments], by simpa using hx⟩
  | a :: b :: c :: l, x, _, hx => by
    rcases List.mem_cons.1 hx with rfl | hx
    · exact ⟨(x, b), by simp [segments], .inl rfl⟩
    · obtain ⟨e, he, h⟩ := mem_segments_of (l := b :: c :: l) (by simp) hx
      exact ⟨e, by simp only [segments] at he ⊢; simp at he ⊢; tauto, h⟩

/-- **C169 (lines, boxes).** A line that is said to be in a polygon it does not touch has its box in the box of the polygon. -/
theorem C169_lineBox (hB : B + k ≤ 17) (hl : GridAll B k ls l) (h2 : 2 ≤ l.length) (hq : GridRing B k qs d) (l0 : ∀ v ∈ l, v ≠ (0, 0))
    (hoff : ∀ e ∈ segments l, ∀ z, OnSeg (real e.1) (real e.2) z → ¬ OnRing (d.map real) z)
    (hn : ∀ e ∈ segments l, ∀ f ∈ sides d, ¬ (turn f.1 f.2 e.1 = 0 ∧ turn f.1 f.2 e.2 = 0)) (holes : List (List (Point Float)))
    (h : LinePolyRelation ls (qs :: holes) = .contain) : (BoundingBox (.polygon (qs :: holes))).Contain (BoundingBox (.lineString ls)) = true := by
  rcases C141_line hB hl h2 hq.grid hq.simple l0 hoff hn holes with ⟨-, hz⟩ | ⟨hd, -⟩
  · refine grid_box hl hq fun x hx => interior_hull hq.simple ?_
    obtain ⟨e, he, hx'⟩ := mem_segments_of h2 hx
    have ho : OnSeg (real e.1) (real e.2) (real x) := by
      rcases hx' with rfl | rfl
      · exact (end_on _ _).1
      · exact (end_on _ _).2
    exact ⟨hoff e he _ ho, hz e he _ ho⟩
  · rw [hd] at h; cases h

theorem meets_line (hB : B + k ≤ 17) (hl : GridAll B k ls l) (h2 : 2 ≤ l.length) (hq : GridRing B k qs d) (l0 : ∀ v ∈ l, v ≠ (0, 0))
    (hoff : ∀ e ∈ segments l, ∀ z, OnSeg (real e.1) (real e.2) z → ¬ OnRing (d.map real) z)
    (hn : ∀ e ∈ segments l, ∀ f ∈ sides d, ¬ (turn f.1 f.2 e.1 = 0 ∧ turn f.1 f.2 e.2 = 0)) (holes : List (List (Point Float)))
    (h : LinePolyRelation ls (qs :: holes) = .contain) : (BoundingBox (.polygon (qs :: holes))).Intersect (BoundingBox (.lineString ls)) = true ∧
      (BoundingBox (.lineString ls)).Intersect (BoundingBox (.polygon (qs :: holes))) = true := by
  refine meets_contained (C19_boundingBox_num _) (C19_boundingBox_num _) ?_ (C169_lineBox hB hl h2 hq l0 hoff hn holes h)
  obtain ⟨x, hx⟩ : ∃ x, x ∈ l := List.exists_mem_of_length_pos (by omega)
  obtain ⟨p, hm, ⟨ax, ay⟩, -⟩ := forall₂_left (R := fun a b => At b a ∧ OnGrid B k a) hl.flip hx
  have cov := C19_boundingBox_covers (.lineString ls) (by simp) p hm
  have h1 := cov.1 (by unfold IsNum; rw [val_isNaN, ax]; rfl)
  have h2 := cov.2 (by unfold IsNum; rw [val_isNaN, ay]; rfl)
  exact ⟨h1.1.trans h1.2, h2.1.trans h2.2⟩

/-- **C169 (lines).** Searching with the box of a line returns a polygon the line is said to be in exactly when it is stored, and searching with the box of a polygon returns a line
said to be in it exactly when it is stored. -/
theorem C169_line (grow : Nat → Nat) (min max : Int) (hmax : 2 ≤ max) (s : RState Float) (hs : Reached grow min max s) (hB : B + k ≤ 17)
    (hl : GridAll B k ls l) (h2 : 2 ≤ l.length) (hq : GridRing B k qs d) (l0 : ∀ v ∈ l, v ≠ (0, 0))
    (hoff : ∀ e ∈ segments l, ∀ z, OnSeg (real e.1) (real e.2) z → ¬ OnRing (d.map real) z)
    (hn : ∀ e ∈ segments l, ∀ f ∈ sides d, ¬ (turn f.1 f.2 e.1 = 0 ∧ turn f.1 f.2 e.2 = 0)) (holes : List (List (Point Float)))
    (h : LinePolyRelation ls (qs :: holes) = .contain) :
    (∃ res, SearchIntersect s (some (BoundingBox (.lineString ls))) = .ok res ∧ ∀ o : Spatial Float, o.Geom = .polygon (qs :: holes) → (o ∈ res ↔ StoredIn s o)) ∧
    (∃ res, SearchIntersect s (some (BoundingBox (.polygon (qs :: holes)))) = .ok res ∧ ∀ o : Spatial Float, o.Geom = .lineString ls → (o ∈ res ↔ StoredIn s o)) := by
  obtain ⟨m1, m2⟩ := meets_line hB hl h2 hq l0 hoff hn holes h
  refine ⟨⟨_, C02_search_exact grow min max hmax s hs _, fun o ho => ?_⟩, ⟨_, C02_search_exact grow min max hmax s hs _, fun o ho => ?_⟩⟩ <;>
    rw [List.mem_filter, C02_contents_stored grow min max hmax s hs o] <;> refine and_iff_left ?_ <;> unfold Meets <;> rw [ho]
  · exact m1
  · exact m2

end

/-- a tree with a triangle in it -/
def exSearch : Go (RState Float) :=
  insertAll (fun _ => 8) (NewEmptyTree 2 10) [⟨"b", .nil, .polygon [[fpt 3 2, fpt 10 4, fpt 5 9, fpt 3 2]]⟩, ⟨"d", .nil, .point (fpt 70 70)⟩]

/-- the hypotheses of C169 are met: the smaller triangle `ta` finds the stored triangle `tb` round it -/
example (s : RState Float) (h : exSearch = .ok s) :
    ∃ res, SearchIntersect s (some (BoundingBox (.polygon [[fpt 4 4, fpt 6 5, fpt 5 6, fpt 4 4]]))) = .ok res ∧
      (⟨"b", .nil, .polygon [[fpt 3 2, fpt 10 4, fpt 5 9, fpt 3 2]]⟩ : Spatial Float) ∈ res := by
  obtain ⟨hr, hperm⟩ := insertAll_reached _ 2 10 (by norm_num) _ s h
  have hst := (C02_contents_stored _ 2 10 (by norm_num) s hr _).2 (hperm.mem_iff.2 List.mem_cons_self)
  obtain ⟨res, h1, h2⟩ := C169_search _ 2 10 (by norm_num) s hr (B := 17) (k := 0) (by norm_num) ta_ring []
  exact ⟨res, h1, (h2 _ _ [] tb rfl tb_ring meetless_ab (by unfold Skew; decide +kernel) (.inl (by decide +kernel))).2 hst⟩

/-- a line in `tc` has its box in that of `tc` -/
example : (BoundingBox (F := Float) (.polygon [[fpt 1 1, fpt 30 3, fpt 2 25, fpt 1 1]])).Contain (BoundingBox (.lineString [fpt 5 5, fpt 6 4, fpt 7 5])) = true := by
  have h := fpt_grid [(5, 5), (6, 4), (7, 5)] 17 (by norm_num) (by decide)
  refine C169_lineBox (B := 17) (k := 0) (l := [(5, 5), (6, 4), (7, 5)]) (by norm_num) (by simpa using h) (by simp) tc_ring (by simp) ?_ (by decide +kernel) [] (by decide +kernel)
  rintro e he z ⟨s, s0, s1, rfl⟩ ⟨f, hf, t, t0, t1, ht⟩
  simp only [tc, segments, List.tail_cons, List.map_cons, List.map_nil, sides, List.rotate_cons_succ, List.rotate_zero, List.cons_append, List.nil_append, List.zip_cons_cons, List.zip_nil_right,
    List.mem_cons, List.not_mem_nil, or_false] at he hf
  rcases he with rfl | rfl <;> rcases hf with rfl | rfl | rfl <;>
    simp only [along, real, Prod.mk.injEq] at ht <;> obtain ⟨h1, h2⟩ := ht <;> (try norm_num at h1 h2) <;> (try linarith)

example : (match exSearch with
    | .ok s => (match SearchIntersect s (some (BoundingBox (.polygon [[fpt 4 4, fpt 6 5, fpt 5 6, fpt 4 4]]))) with | .ok [o] => o.ID == "b" | _ => false)
    | .error _ => false) = true := by
  decide +kernel

end GoGeo.Region
