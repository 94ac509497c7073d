import Verif.Props.AreaMeasure
import Verif.Props.Lookup
import Verif.Props.HistoryFree
import Verif.Props.ContainOrder
import Verif.Props.BufferBox

/-!
# C172: looking up the district of a point

Polygons that tile a region are stored in the index, with other objects that are not polygons.  A search with the box of a point, followed by `IsPointInPolygon`, finds exactly one of them
for a point inside the region that is on none of their boundaries, and none for a point outside.
-/

namespace GoGeo.Spec

/-- the caller's test: the object is a polygon for which `IsPointInPolygon` says that it contains the point -/
def Answers (p : Point Float) (o : Spatial Float) : Bool :=
  match o.Geom with
  | .polygon rings => decide (IsPointInPolygon p rings = .contain)
  | _ => false

/-- the object is a polygon with the corners `c` on the grid as its outer ring, which is simple -/
def District (B k : ℕ) (o : Spatial Float) (c : List (ℚ × ℚ)) : Prop :=
  ∃ ps holes, o.Geom = .polygon (ps :: holes) ∧ GridAll B k ps (c ++ c.take 1) ∧ SimpleRing (c.map real)

end GoGeo.Spec

namespace GoGeo.Region

open Set Spec FloatVal Rtree

section

variable {B k : ℕ} {p : Point Float} {x : ℚ × ℚ}

theorem answers_iff (hB : B + k ≤ 17) (hp : At p x) (gx : OnGrid B k x) (h0 : x ≠ (0, 0)) {o : Spatial Float} {c : List (ℚ × ℚ)} (ho : District B k o c)
    (hoff : ¬ OnRing (c.map real) (real x)) : Answers p o = true ↔ real x ∈ Interior (c.map real) := by
  obtain ⟨ps, holes, hg, hc, hs⟩ := ho
  unfold Answers
  rw [hg]
  simp only [decide_eq_true_eq]
  rw [(C140_inside_grid hB hp gx hc hs hoff h0 holes).1]
  exact ⟨fun h => ⟨hoff, h⟩, fun h => h.2⟩

theorem answers_meets (hp : At p x) {o : Spatial Float} {c : List (ℚ × ℚ)} (ho : District B k o c) (h : real x ∈ Interior (c.map real)) : Meets (BoundingBox (.point p)) o = true := by
  obtain ⟨ps, holes, hg, hc, hs⟩ := ho
  refine meets_of_place (z := x) ?_ (C120_box (.point p) x hp)
  rw [hg]
  exact ⟨ps, holes, rfl, Or.inr ⟨c, hc.imp fun _ _ h => h.1, (evenOdd_real c x).1 ((interior_iff hs _).1 h).2⟩⟩

theorem answers_none (hB : B + k ≤ 17) (hp : At p x) (gx : OnGrid B k x) (h0 : x ≠ (0, 0)) {ds : List (Spatial Float)} {cs : List (List (ℚ × ℚ))}
    (hd : List.Forall₂ (District B k) ds cs) (hoff : ∀ c ∈ cs, ¬ OnRing (c.map real) (real x)) (hn : ∀ c ∈ cs, real x ∉ Interior (c.map real)) : ds.filter (Answers p) = [] := by
  rw [List.filter_eq_nil_iff]
  intro o ho ha
  obtain ⟨c, hc, h⟩ := forall₂_left hd ho
  exact hn c hc ((answers_iff hB hp gx h0 h (hoff c hc)).1 ha)

theorem answers_one (hB : B + k ≤ 17) (hp : At p x) (gx : OnGrid B k x) (h0 : x ≠ (0, 0)) {ds : List (Spatial Float)} {cs : List (List (ℚ × ℚ))}
    (hd : List.Forall₂ (District B k) ds cs) (hoff : ∀ c ∈ cs, ¬ OnRing (c.map real) (real x)) (ha : Apart (cs.map (List.map real))) (he : ∃ c ∈ cs, real x ∈ Interior (c.map real)) :
    ∃ o ∈ ds, ∃ c ∈ cs, District B k o c ∧ real x ∈ Interior (c.map real) ∧ ds.filter (Answers p) = [o] := by
  induction hd with
  | nil => obtain ⟨c, hc, -⟩ := he; cases hc
  | @cons o c ds cs h hd ih =>
    have ha' : (∀ b ∈ cs.map (List.map real), Disjoint (Interior (c.map real)) (Interior b)) ∧ Apart (cs.map (List.map real)) := List.pairwise_cons.1 ha
    have hoff' : ∀ c ∈ cs, ¬ OnRing (c.map real) (real x) := fun c hc => hoff c (List.mem_cons_of_mem _ hc)
    by_cases hi : real x ∈ Interior (c.map real)
    · refine ⟨o, List.mem_cons_self, c, List.mem_cons_self, h, hi, ?_⟩
      rw [List.filter_cons_of_pos ((answers_iff hB hp gx h0 h (hoff c List.mem_cons_self)).2 hi),
        answers_none hB hp gx h0 hd hoff' fun b hb hin => Set.disjoint_left.1 (ha'.1 _ (List.mem_map_of_mem hb)) hi hin]
    · obtain ⟨b, hb, hin⟩ := he
      have hb' : b ∈ cs := (List.mem_cons.1 hb).resolve_left fun e => hi (e ▸ hin)
      obtain ⟨o', h1, c', h2, h3, h4, h5⟩ := ih hoff' ha'.2 ⟨b, hb', hin⟩
      refine ⟨o', List.mem_cons_of_mem _ h1, c', List.mem_cons_of_mem _ h2, h3, h4, ?_⟩
      rw [List.filter_cons_of_neg (fun ht => hi ((answers_iff hB hp gx h0 h (hoff c List.mem_cons_self)).1 ht)), h5]

/-- what the search leaves out does not answer -/
theorem answers_found (hB : B + k ≤ 17) (hp : At p x) (gx : OnGrid B k x) (h0 : x ≠ (0, 0)) {ds others objs res : List (Spatial Float)} {cs : List (List (ℚ × ℚ))}
    (hd : List.Forall₂ (District B k) ds cs) (hoff : ∀ c ∈ cs, ¬ OnRing (c.map real) (real x)) (hoth : ∀ o ∈ others, ∀ rings, o.Geom ≠ .polygon rings)
    (hobjs : objs.Perm (ds ++ others)) (hres : res.Perm (objs.filter (Meets (BoundingBox (.point p))))) : (res.filter (Answers p)).Perm (ds.filter (Answers p)) := by
  have e : others.filter (Answers p) = [] := by
    rw [List.filter_eq_nil_iff]
    intro o ho h
    unfold Answers at h
    split at h
    · exact hoth o ho _ ‹_›
    · cases h
  have h1 : (objs.filter (Meets (BoundingBox (.point p)))).filter (Answers p) = objs.filter (Answers p) := by
    rw [List.filter_filter]
    refine List.filter_congr fun o ho => ?_
    rcases List.mem_append.1 (hobjs.mem_iff.1 ho) with hm | hm
    · obtain ⟨c, hc, h⟩ := forall₂_left hd hm
      by_cases ha : Answers p o = true
      · rw [ha, answers_meets hp h ((answers_iff hB hp gx h0 h (hoff c hc)).1 ha)]; rfl
      · rw [Bool.not_eq_true] at ha
        rw [ha]; rfl
    · have : Answers p o = false := by
        rw [List.filter_eq_nil_iff] at e
        simpa using e o hm
      rw [this]; rfl
  refine (hres.filter _).trans ?_
  rw [h1]
  refine (hobjs.filter _).trans ?_
  rw [List.filter_append, e, List.append_nil]

variable {ds others : List (Spatial Float)} {cs : List (List (ℚ × ℚ))} {d : List (ℝ × ℝ)}

theorem district_result (hB : B + k ≤ 17) (hp : At p x) (gx : OnGrid B k x) (h0 : x ≠ (0, 0)) (hd : List.Forall₂ (District B k) ds cs)
    (ht : Tiles (cs.map (List.map real)) d) (hoff : ∀ c ∈ cs, ¬ OnRing (c.map real) (real x)) {res : List (Spatial Float)}
    (h : (res.filter (Answers p)).Perm (ds.filter (Answers p))) :
    (real x ∈ Interior d → ∃ o ∈ ds, ∃ c ∈ cs, District B k o c ∧ real x ∈ Interior (c.map real) ∧ res.filter (Answers p) = [o]) ∧
    (real x ∉ Interior d → res.filter (Answers p) = []) := by
  constructor
  · intro hx
    obtain ⟨c', hc', hin⟩ := ht.2.2 _ hx (by
      intro c' hc'
      obtain ⟨c, hc, rfl⟩ := List.mem_map.1 hc'
      exact hoff c hc)
    obtain ⟨c, hc, rfl⟩ := List.mem_map.1 hc'
    obtain ⟨o, h1, c', h2, h3, h4, h5⟩ := answers_one hB hp gx h0 hd hoff ht.2.1 ⟨c, hc, hin⟩
    rw [h5] at h
    exact ⟨o, h1, c', h2, h3, h4, List.perm_singleton.1 h⟩
  · intro hx
    rw [answers_none hB hp gx h0 hd hoff fun c hc hin => hx (ht.1 _ (List.mem_map_of_mem hc) hin)] at h
    exact List.perm_nil.1 h

/-- **C172.** When the stored objects are polygons that tile the region of the ring `d`, and others that are not polygons: for a point inside the region and on none of the boundaries, of
what the search with its box returns exactly one object is said to contain it, the polygon it is in; for a point outside the region none is. -/
theorem C172_lookup (grow : Nat → Nat) (min max : Int) (hmax : 2 ≤ max) (s : RState Float) (hs : Reached grow min max s) (hst : (contents s).Perm (ds ++ others))
    (hB : B + k ≤ 17) (hd : List.Forall₂ (District B k) ds cs) (hoth : ∀ o ∈ others, ∀ rings, o.Geom ≠ .polygon rings) (ht : Tiles (cs.map (List.map real)) d)
    (hp : At p x) (gx : OnGrid B k x) (h0 : x ≠ (0, 0)) (hoff : ∀ c ∈ cs, ¬ OnRing (c.map real) (real x)) :
    ∃ res, SearchIntersect s (some (BoundingBox (.point p))) = .ok res ∧
      (real x ∈ Interior d → ∃ o ∈ ds, ∃ c ∈ cs, District B k o c ∧ real x ∈ Interior (c.map real) ∧ res.filter (Answers p) = [o]) ∧
      (real x ∉ Interior d → res.filter (Answers p) = []) :=
  ⟨_, C02_search_exact grow min max hmax s hs _, district_result hB hp gx h0 hd ht hoff (answers_found hB hp gx h0 hd hoff hoth hst (List.Perm.refl _))⟩

/-- **C172 (bulk loading).** The same for a tree built at once. -/
theorem C172_bulk (lib : Math64) (hl : Math64Ok lib) (grow : Nat → Nat) (min max : Int) (hmax : 2 ≤ max) (objs : List (Spatial Float)) (hn : max < objs.length)
    (hN : objs.length ≤ 2 ^ 40) (hst : objs.Perm (ds ++ others)) (hB : B + k ≤ 17) (hd : List.Forall₂ (District B k) ds cs)
    (hoth : ∀ o ∈ others, ∀ rings, o.Geom ≠ .polygon rings) (ht : Tiles (cs.map (List.map real)) d) :
    ∃ s : RState Float, NewMinMaxTree64 lib goSort grow min max objs = .ok s ∧
      ∀ (p : Point Float) (x : ℚ × ℚ), At p x → OnGrid B k x → x ≠ (0, 0) → (∀ c ∈ cs, ¬ OnRing (c.map real) (real x)) →
        ∃ res, SearchIntersect s (some (BoundingBox (.point p))) = .ok res ∧
          (real x ∈ Interior d → ∃ o ∈ ds, ∃ c ∈ cs, District B k o c ∧ real x ∈ Interior (c.map real) ∧ res.filter (Answers p) = [o]) ∧
          (real x ∉ Interior d → res.filter (Answers p) = []) := by
  obtain ⟨s, h1, -, -, -, -, h⟩ := C12_float64 lib hl grow min max hmax objs hn hN
  refine ⟨s, h1, fun p x hp gx h0 hoff => ?_⟩
  obtain ⟨res, h2, hperm⟩ := h (BoundingBox (.point p))
  exact ⟨res, h2, district_result hB hp gx h0 hd ht hoff (answers_found hB hp gx h0 hd hoff hoth hst hperm)⟩

end

/-! a square cut into two triangles along a diagonal, and a point object -/

def square : List (ℝ × ℝ) := [(1, 1), (9, 1), (9, 9), (1, 9)]
def lower : List (ℚ × ℚ) := [(1, 1), (9, 1), (9, 9)]
def upper : List (ℚ × ℚ) := [(9, 9), (1, 9), (1, 1)]

theorem square_convex : StrictlyConvex square := by
  refine ⟨by decide, by norm_num [square], ?_⟩
  intro e he v hv
  simp only [square, sides, List.rotate_cons_succ, List.rotate_zero, List.cons_append, List.nil_append, List.zip_cons_cons, List.zip_nil_right, List.mem_cons,
    List.not_mem_nil, or_false] at he hv
  rcases he with rfl | rfl | rfl | rfl <;> rcases hv with rfl | rfl | rfl | rfl <;> norm_num [turn]

theorem square_diagonal : Diagonal square (1, 1) (9, 9) := by
  rintro z ⟨t, t0, t1, rfl⟩
  have : along ((1 : ℝ), (1 : ℝ)) (9, 9) t ∈ Interior square := by
    rw [interior_convex square_convex]
    intro e he
    simp only [square, sides, List.rotate_cons_succ, List.rotate_zero, List.cons_append, List.nil_append, List.zip_cons_cons, List.zip_nil_right, List.mem_cons,
      List.not_mem_nil, or_false] at he
    rcases he with rfl | rfl | rfl | rfl <;> simp only [turn, along] <;> nlinarith
  exact this

theorem square_tiles : Tiles ([lower, upper].map (List.map real)) square := by
  have h := C165_cut (1, 1) (9, 9) [(9, 1)] [(1, 9)] (C140_convex _ square_convex).1 square_diagonal
  have e : [lower, upper].map (List.map real) = [(1, 1) :: [(9, 1)] ++ [(9, 9)], (9, 9) :: [(1, 9)] ++ [(1, 1)]] := by simp [lower, upper, real]
  rw [e]
  exact h

def exDistricts : List (Spatial Float) :=
  [⟨"lower", .nil, .polygon [[fpt 1 1, fpt 9 1, fpt 9 9, fpt 1 1]]⟩, ⟨"upper", .nil, .polygon [[fpt 9 9, fpt 1 9, fpt 1 1, fpt 9 9]]⟩]

theorem exDistricts_ok : List.Forall₂ (District 17 0) exDistricts [lower, upper] :=
  .cons ⟨_, _, rfl, by simpa [lower] using fpt_grid [(1, 1), (9, 1), (9, 9), (1, 1)] 17 (by norm_num) (by decide), tri_simple (by norm_num [turn])⟩
    (.cons ⟨_, _, rfl, by simpa [upper] using fpt_grid [(9, 9), (1, 9), (1, 1), (9, 9)] 17 (by norm_num) (by decide), tri_simple (by norm_num [turn])⟩ .nil)

/-- the hypotheses of C172 are met for the point (5, 3) in a tree with the two triangles and a point, and it is in the square -/
example (s : RState Float) (h : insertAll (fun _ => 8) (NewEmptyTree 2 10) (exDistricts ++ [⟨"c", .nil, .point (fpt 70 70)⟩]) = .ok s) :
    ∃ res, SearchIntersect s (some (BoundingBox (.point (fpt 5 3)))) = .ok res ∧ ∃ o ∈ exDistricts, res.filter (Answers (fpt 5 3)) = [o] := by
  obtain ⟨hr, hperm⟩ := insertAll_reached _ 2 10 (by norm_num) _ s h
  have g := fpt_grid [(5, 3)] 17 (by norm_num) (by decide)
  simp [GridAll] at g
  obtain ⟨res, h1, h2, -⟩ := C172_lookup (x := (5, 3)) (p := fpt 5 3) _ 2 10 (by norm_num) s hr hperm (B := 17) (k := 0) (by norm_num) exDistricts_ok
    (by simp) square_tiles g.1 g.2 (by norm_num) (by
      intro c hc
      simp only [List.mem_cons, List.not_mem_nil, or_false] at hc
      rintro ⟨e, he, t, t0, t1, ht⟩
      rcases hc with rfl | rfl <;>
        simp only [lower, upper, List.map_cons, List.map_nil, sides, List.rotate_cons_succ, List.rotate_zero, List.cons_append, List.nil_append, List.zip_cons_cons, List.zip_nil_right,
          List.mem_cons, List.not_mem_nil, or_false] at he <;>
        rcases he with rfl | rfl | rfl <;> simp only [along, real, Prod.mk.injEq] at ht <;> obtain ⟨h1, h2⟩ := ht <;> (try norm_num at h1) <;> (try norm_num at h2) <;> (try linarith))
  obtain ⟨o, ho, -, -, -, -, h3⟩ := h2 (by
    rw [interior_convex square_convex]
    intro e he
    simp only [square, sides, List.rotate_cons_succ, List.rotate_zero, List.cons_append, List.nil_append, List.zip_cons_cons, List.zip_nil_right, List.mem_cons,
      List.not_mem_nil, or_false] at he
    rcases he with rfl | rfl | rfl | rfl <;> norm_num [turn, real])
  exact ⟨res, h1, o, ho, h3⟩

end GoGeo.Region
