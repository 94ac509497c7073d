import Verif.Rtree.Shape
import Verif.Go.F64

/-!
# C01, C03, C09, C10, C16, C18: trees built by `Insert`

`F` is any correctly rounded arithmetic; the instance of interest is `Float` (binary64).
`grow` is the growth policy of `append`.
-/

set_option linter.unusedSectionVars false

namespace GoGeo
open GoFloat Spec
variable {F : Type} [GoFloat F]

/-! ## C16 -/

/-- **C16.** A condition only filters the result of the search, in any memory and tree (and in case of
a panic, both panic).  The model's searches return no new state: they change nothing. -/
theorem C16_condition_filters (s : RState F) (q : Option (Box F)) (c : Spatial F → Bool) :
    SearchIntersectWithCond s q (some c) = (SearchIntersect s q).map (fun l => l.filter c) := by
  exact searchNode_filter s.h q c _ (some s.t.root) []

section
variable [FloatOrd F]

/-! ## C01 -/

/-- **C01**, for any coordinates: if the insertions did not panic, a search returns exactly the inserted
objects whose box meets the query box. -/
theorem C01_search_exact_any (grow : Nat → Nat) (min max : Int) (hmax : 2 ≤ max) (objs : List (Spatial F))
    (s : RState F) (hs : insertAll grow (NewEmptyTree min max) objs = .ok s) (q : Box F) :
    ∃ res, SearchIntersect s (some q) = .ok res ∧ res.Perm (objs.filter (Meets q)) := by
  obtain ⟨K, X, ti, hp, -⟩ := insertAll_spec (lo := 1) (hi := max.toNat) (r := 2) grow objs
    (TInv.empty (min := min) (max := max) (le_refl 2)
      ⟨by omega, by simp [NewEmptyTree]; omega, Or.inl (le_refl 1)⟩) hs
  refine ⟨_, SearchIntersect_spec ti (some q) none, ?_⟩
  have h1 : X.objs.Perm objs := by simpa [objs_eq] using hp
  have h2 : (hit (some q) none : Spatial F → Bool) = Meets q := by
    funext o; simp [hit, Meets, Box.IntersectPtr]
  rw [h2]
  exact h1.filter _

/-- a search with a nil box finds nothing (rtree.go:100-103 via box.go:101) -/
theorem C01_search_nil_box (grow : Nat → Nat) (min max : Int) (hmax : 2 ≤ max) (objs : List (Spatial F))
    (s : RState F) (hs : insertAll grow (NewEmptyTree min max) objs = .ok s) :
    SearchIntersect s none = .ok [] := by
  obtain ⟨K, X, ti, hp, -⟩ := insertAll_spec (lo := 1) (hi := max.toNat) (r := 2) grow objs
    (TInv.empty (min := min) (max := max) (le_refl 2)
      ⟨by omega, by simp [NewEmptyTree]; omega, Or.inl (le_refl 1)⟩) hs
  unfold SearchIntersect
  rw [SearchIntersect_spec ti none none]
  congr 1
  rw [List.filter_eq_nil_iff]
  intro o _
  simp [hit, Box.IntersectPtr]

/-! ## C03 (insertions; deletions in `Props/RtreeDelete`) -/

/-- **C03**, insertions: `Size` is the number of inserted objects. -/
theorem C03_size_insert (grow : Nat → Nat) (min max : Int) (hmax : 2 ≤ max) (objs : List (Spatial F))
    (s : RState F) (hs : insertAll grow (NewEmptyTree min max) objs = .ok s) :
    Size s = objs.length := by
  obtain ⟨K, X, ti, -, hz, -⟩ := insertAll_spec (lo := 1) (hi := max.toNat) (r := 2) grow objs
    (TInv.empty (min := min) (max := max) (le_refl 2)
      ⟨by omega, by simp [NewEmptyTree]; omega, Or.inl (le_refl 1)⟩) hs
  unfold Size
  rw [hz]; simp [NewEmptyTree]

/-! ## C09 -/

/-- **C09.** Every tree built by insertions is balanced, its nodes are filled between `min` and `max`,
its parent links are right and its boxes are exact. -/
theorem C09_balanced (grow : Nat → Nat) (min max : Int) (hp : ParamsOk min max) (objs : List (Spatial F))
    (s : RState F) (hs : insertAll grow (NewEmptyTree min max) objs = .ok s) :
    Balanced s ∧ s.t.MinChildren = min ∧ s.t.MaxChildren = max ∧
      ∀ o, StoredIn s o ↔ o ∈ objs := by
  have h1 := hp.pos
  have h2 := hp.half
  obtain ⟨K, X, ti, hperm, -, hm⟩ := insertAll_spec (lo := min.toNat) (hi := max.toNat) (r := 2) grow objs
    (TInv.empty (min := min) (max := max) (le_refl 2)
      ⟨by omega, by simp [NewEmptyTree]; omega, Or.inr ⟨by simp [NewEmptyTree]; omega, by omega⟩⟩) hs
  have hm' : s.t.MinChildren = min := by rw [hm]; rfl
  refine ⟨balanced_of ti (by rw [hm']; omega), hm', ?_, ?_⟩
  · have := ti.lo.2.1; omega
  · intro o
    rw [stored_iff ti, hperm.mem_iff]
    simp [objs_eq]

/-! ## C18 -/

theorem allBoxes_of {q : Bool} {lo hi r : Nat} {s : RState F} {K : Nat} {X : Item F (K + 1)}
    (ti : TInv q lo hi r s X) :
    ∃ ns : List Nat, ns.Nodup ∧ (∀ n, n ∈ ns ↔ ∃ d, NodeAt s (d + 1) n) ∧
      GetAllBoundingBoxes s = .ok (ns.map (nodeBox s)) ∧
      ∀ o ∈ X.objs, ∀ d : Nat, 1 ≤ d → (d : Int) < Depth s →
        ∃ n ∈ ns, NodeAt s d n ∧ Inside (BoundingBox o.Geom) (nodeBox s n) := by
  have hids := X.sub_ids
  have hnd := hids.nodup_iff.2 ti.nd
  rw [List.nodup_cons] at hnd
  have hroot : NodeAt s 0 X.id := by rw [ti.root]; exact NodeAt.root
  have hmem : ∀ n, n ∈ X.sub.map (·.2) ↔ n ∈ idsL X.es := by
    intro n
    have h1 := hids.mem_iff (a := n)
    rw [ids_eq, List.mem_cons, List.mem_cons] at h1
    have h2 : X.id ∉ idsL X.es := by have := ti.nd; rw [ids_eq, List.nodup_cons] at this; exact this.1
    constructor
    · intro h
      rcases h1.1 (Or.inr h) with rfl | h'
      · exact absurd h hnd.1
      · exact h'
    · intro h
      rcases h1.2 (Or.inr h) with rfl | h'
      · exact absurd h h2
      · exact h'
  have hiff : ∀ n, n ∈ X.sub.map (·.2) ↔ ∃ d, NodeAt s (d + 1) n := by
    intro n
    rw [hmem]
    constructor
    · intro h
      obtain ⟨k, hk, hk0⟩ := ghost_node X ti.rep hroot n (by rw [ids_eq]; exact List.mem_cons_of_mem _ h)
      have := hk0 h
      refine ⟨k - 1, ?_⟩
      have e : k - 1 + 1 = 0 + k := by omega
      rw [e]; exact hk
    · rintro ⟨d, hd⟩
      obtain ⟨j, y, -, hy, -, -, -, -, -, -, h9, -⟩ := node_ghost ti hd
      exact h9 (by omega) n (by rw [ids_eq, hy]; exact List.mem_cons_self)
  refine ⟨X.sub.map (·.2), hnd.2, hiff, ?_, ?_⟩
  · have hlen : X.ids.length ≤ s.h.nodes.length := length_le_of_nodup ti.nd ti.rep.valid
    unfold GetAllBoundingBoxes
    rw [← ti.root, getAllBoxes_spec _ X (by omega) ti.rep, sub_box X ti.rep ti.good]
  · intro o ho' d hd1 hd2
    have hdep : Depth s = (K : Int) + 1 := ti.height
    obtain ⟨n, hn, hin⟩ := (ghost_obj X ti.rep ti.good hroot ho').2 d (by omega) (by omega)
    refine ⟨n, (hiff n).2 ⟨d - 1, ?_⟩, hn, hin⟩
    have e : d - 1 + 1 = d := by omega
    rw [e]; exact hn

/-- **C18.** `GetAllBoundingBoxes` lists the box of each non-root node once; at each level below the
root one of them covers each stored object. -/
theorem C18_all_boxes (grow : Nat → Nat) (min max : Int) (hmax : 2 ≤ max) (objs : List (Spatial F))
    (s : RState F) (hs : insertAll grow (NewEmptyTree min max) objs = .ok s) :
    ∃ ns : List Nat, ns.Nodup ∧ (∀ n, n ∈ ns ↔ ∃ d, NodeAt s (d + 1) n) ∧
      GetAllBoundingBoxes s = .ok (ns.map (nodeBox s)) ∧
      ∀ o ∈ objs, ∀ d : Nat, 1 ≤ d → (d : Int) < Depth s →
        ∃ n ∈ ns, NodeAt s d n ∧ Inside (BoundingBox o.Geom) (nodeBox s n) := by
  obtain ⟨K, X, ti, hperm, -, hm⟩ := insertAll_spec (lo := 1) (hi := max.toNat) (r := 2) grow objs
    (TInv.empty (min := min) (max := max) (le_refl 2)
      ⟨by omega, by simp [NewEmptyTree]; omega, Or.inl (le_refl 1)⟩) hs
  obtain ⟨ns, h1, h2, h3, h4⟩ := allBoxes_of ti
  exact ⟨ns, h1, h2, h3, fun o ho => h4 o (hperm.mem_iff.2 (by simp [ho]))⟩

end

section
variable {K : Type} [Field K] [LinearOrder K] [IsStrictOrderedRing K] [FloatVal F K]
include K

/-! ## C10 -/

/-- **C10.** With coordinates of magnitude at most `2^500`, insertion never panics. -/
theorem C10_insert_total (grow : Nat → Nat) (min max : Int) (hmax : 2 ≤ max) (objs : List (Spatial F))
    (hc : ∀ o ∈ objs, CoordsOk o.Geom) :
    ∃ s, insertAll grow (NewEmptyTree min max) objs = .ok s :=
  insertAll_total (lo := 1) (hi := max.toNat) (r := 2) (le_refl 1) (by omega) grow objs
    (TInv.empty (min := min) (max := max) (le_refl 2)
      ⟨by omega, by simp [NewEmptyTree]; omega, Or.inl (le_refl 1)⟩) (by simp [objs_eq]) hc

/-- **C01.** After any insertions with coordinates of magnitude at most `2^500`, a search returns
exactly the inserted objects whose box meets the query box. -/
theorem C01_search_exact (grow : Nat → Nat) (min max : Int) (hmax : 2 ≤ max) (objs : List (Spatial F))
    (hc : ∀ o ∈ objs, CoordsOk o.Geom) :
    ∃ s, insertAll grow (NewEmptyTree min max) objs = .ok s ∧ ∀ q, ∃ res,
      SearchIntersect s (some q) = .ok res ∧ res.Perm (objs.filter (Meets q)) := by
  obtain ⟨s, hs⟩ := C10_insert_total grow min max hmax objs hc
  exact ⟨s, hs, C01_search_exact_any grow min max hmax objs s hs⟩

end

/-! ## concrete instances -/

/-- nine points and an empty, a NaN and a three-dimensional geometry -/
def sampleObjs : List (Spatial Float) :=
  [⟨"a", .nil, .point ⟨0, 0⟩⟩, ⟨"b", .nil, .point ⟨1, 7⟩⟩, ⟨"c", .nil, .point ⟨2, 1⟩⟩,
   ⟨"d", .nil, .lineString [⟨3, 3⟩, ⟨5, 4⟩]⟩, ⟨"e", .nil, .point ⟨9, 9⟩⟩, ⟨"f", .nil, .point ⟨8, 2⟩⟩,
   ⟨"a", .nil, .point ⟨0, 0⟩⟩, ⟨"g", .nil, .lineString []⟩, ⟨"h", .nil, .point ⟨nan, 6⟩⟩,
   ⟨"i", .nil, .pointZ ⟨4, 4, 4⟩⟩]

/-- the hypotheses of C01/C10 hold of `sampleObjs` and the tree built has depth 3 -/
example : (∀ o ∈ sampleObjs, CoordsOk o.Geom) ∧
    (insertAll id (NewEmptyTree 1 3) sampleObjs).map (fun s => (Depth s, Size s)) = .ok (3, 10) := by
  constructor
  · have : ∀ o ∈ sampleObjs, ∀ p ∈ vertices o.Geom,
        ((isNaN p.X || (le (-lit (2 ^ 500)) p.X && le p.X (lit (2 ^ 500)))) &&
         (isNaN p.Y || (le (-lit (2 ^ 500)) p.Y && le p.Y (lit (2 ^ 500))))) = true := by decide +kernel
    intro o ho p hp
    have h := this o ho p hp
    simp only [Bool.and_eq_true, Bool.or_eq_true] at h
    refine ⟨fun hn => ?_, fun hn => ?_⟩
    · rcases h.1 with h1 | h1
      · rw [hn] at h1; cases h1
      · exact h1
    · rcases h.2 with h1 | h1
      · rw [hn] at h1; cases h1
      · exact h1
  · decide +kernel

/-- a search on it -/
example : ((insertAll id (NewEmptyTree 1 3) sampleObjs).bind fun s =>
    (SearchIntersect s (some ⟨0, 0, 3, 3⟩)).map (fun l => l.map (·.ID))) = .ok ["a", "a", "i", "c", "d"] := by
  decide +kernel

example : ParamsOk 1 3 := ⟨by omega, by omega⟩

end GoGeo
