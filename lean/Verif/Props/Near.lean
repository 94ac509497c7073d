import Verif.Rtree.NearBuf
import Verif.Rtree.Near2
import Verif.Spec.Near
import Verif.Go.F64
import Verif.Props.RtreeDelete

/-!
# C07, C08: nearest neighbours
-/

set_option linter.unusedSectionVars false

namespace GoGeo
open GoFloat Spec
variable {F : Type} [GoFloat F]

/-- **C07 (buffers).** The same with the four arrays of `NearestNeighbors` as they are in memory, where all levels of the recursion write to one
pair of buffers while the loops of the levels above still read from it, and `insertNearest` moves elements within an array. -/
theorem C07_buffers (srt : GoSort) (hsrt : SortOk srt) (s : RState F) (k : Int) (p : Point F) :
    NearestNeighborsBuf srt s k p = NearestNeighbors srt s k p := nearestNeighbors_buf hsrt s k p

section
variable {K : Type} [Field K] [LinearOrder K] [IsStrictOrderedRing K] [V : FloatVal F K]
include K V

theorem Sound.nearest {q : Bool} {lo hi : Nat} {s : RState F} (hs : Sound q lo hi s) {srt : GoSort}
    (hsrt : SortOk srt) (k : Nat) (hk : 1 ≤ k) (p : Point F) :
    ∃ res rest, NearestNeighbors srt s k p = .ok res ∧ KSorted k p (contents s) res rest ∧
      ((∀ o ∈ contents s, ProperGeom o.Geom) → ∀ o ∈ rest, ∀ r ∈ res, Le (objDist p r) (objDist p o)) := by
  obtain ⟨⟨K', X, ti⟩, -⟩ := id hs
  have hlen : X.ids.length ≤ s.h.nodes.length := length_le_of_nodup ti.nd ti.rep.valid
  have hmax : (0 : Int) ≤ s.t.MaxChildren := by rw [← ti.lo.2.1]; omega
  have hbuf : (0 : Int) ≤ s.t.MaxChildren * Depth s := Int.mul_nonneg hmax (by rw [Depth, ti.height]; omega)
  unfold NearestNeighbors
  simp only
  rw [if_neg (by omega), if_neg (by omega)]
  obtain ⟨L', h1, h2⟩ := nearestNode_spec (K := K) (c := ∀ o ∈ contents s, ProperGeom o.Geom) hsrt (h := s.h) hk p
    (s.h.nodes.length + 1) X (s.t.MaxChildren * Depth s) (by omega) ti.rep ti.good ti.fill ti.cnt.1
    (by rw [Depth, ti.height, ti.lo.2.1]) (fun hc o ho => hc o (by rw [contents_eq ti]; exact ho)) [] []
    (Best.nil (K := K))
  rw [ti.root] at h1
  have h1 : nearestNode srt s.h (k : Int) p (s.h.nodes.length + 1) (s.t.MaxChildren * Depth s) (some s.t.root) [] [] =
      .ok (L'.map (·.2), L'.map (·.1)) := h1
  rw [h1]
  simp only [bind, Except.bind]
  obtain ⟨R, hp, hR, hle⟩ := h2.rest
  rw [List.nil_append, ← contents_eq ti] at hp
  have hval : ∀ x ∈ L' ++ R, x.1 = objDist p x.2 := by
    intro x hx
    obtain ⟨o, -, rfl⟩ := List.mem_map.1 (hp.mem_iff.2 hx)
    rfl
  refine ⟨_, R.map (·.2), rfl, ⟨?_, ?_, ?_⟩, ?_⟩
  · have := hp.map (·.2)
    rw [List.map_map, List.map_append] at this
    simpa [Function.comp_def] using this
  · rw [List.length_map]
    have h3 := hp.length_eq
    rw [List.length_map, List.length_append] at h3
    by_cases hRn : R = []
    · have := h2.len; rw [hRn] at h3; simp at h3; omega
    · have := hR hRn; omega
  · rw [List.pairwise_map]
    refine h2.sorted.imp_of_mem ?_
    intro a b ha hb hab
    rw [← hval a (by simp [ha]), ← hval b (by simp [hb])]
    exact hab
  · intro hc o ho r hr
    obtain ⟨y, hy, rfl⟩ := List.mem_map.1 ho
    obtain ⟨x, hx, rfl⟩ := List.mem_map.1 hr
    have := hle hc x hx y hy
    rwa [← hval x (by simp [hx]), ← hval y (by simp [hy])]

/-- **C07.** On every tree reached by any history of calls, for `k ≥ 1` and any correct sort,
`NearestNeighbors` returns the `k` nearest objects in order, when every stored object has a bounding
box that is not inverted. -/
theorem C07_nearest (srt : GoSort) (hsrt : SortOk srt) (grow : Nat → Nat) (min max : Int) (hmax : 2 ≤ max)
    (s : RState F) (hs : Reached grow min max s) (hp : ∀ o ∈ contents s, ProperGeom o.Geom)
    (k : Nat) (hk : 1 ≤ k) (p : Point F) :
    ∃ res, NearestNeighbors srt s k p = .ok res ∧ KNearest k p (contents s) res := by
  obtain ⟨res, rest, h1, h2, h3⟩ := (hs.sound hmax).nearest (K := K) hsrt k hk p
  exact ⟨res, h1, ⟨rest, h2, h3 hp⟩⟩

/-- **C07**, without the condition on the boxes: the answer still consists of `min k size` stored
objects in non-decreasing order of distance (but a closer one with an inverted box may be missed). -/
theorem C07_nearest_sorted (srt : GoSort) (hsrt : SortOk srt) (grow : Nat → Nat) (min max : Int) (hmax : 2 ≤ max)
    (s : RState F) (hs : Reached grow min max s) (k : Nat) (hk : 1 ≤ k) (p : Point F) :
    ∃ res rest, NearestNeighbors srt s k p = .ok res ∧ KSorted k p (contents s) res rest := by
  obtain ⟨res, rest, h1, h2, -⟩ := (hs.sound hmax).nearest (K := K) hsrt k hk p
  exact ⟨res, rest, h1, h2⟩

/-- C07 for the arrays of `NearestNeighbors` as they are in memory -/
theorem C07_nearest_memory (srt : GoSort) (hsrt : SortOk srt) (grow : Nat → Nat) (min max : Int) (hmax : 2 ≤ max)
    (s : RState F) (hs : Reached grow min max s) (hp : ∀ o ∈ contents s, ProperGeom o.Geom)
    (k : Nat) (hk : 1 ≤ k) (p : Point F) :
    ∃ res, NearestNeighborsBuf srt s k p = .ok res ∧ KNearest k p (contents s) res := by
  rw [nearestNeighbors_buf hsrt]
  exact C07_nearest (K := K) srt hsrt grow min max hmax s hs hp k hk p

/-- **C08**, partial: no panic for `k ≥ 1`.  Missing: `k = 0` on deeper trees and negative `k`, which
do panic. -/
theorem C08_nearest_partial (srt : GoSort) (hsrt : SortOk srt) (grow : Nat → Nat) (min max : Int) (hmax : 2 ≤ max)
    (s : RState F) (hs : Reached grow min max s) (k : Int) (hk : 1 ≤ k) (p : Point F) :
    ∃ res, NearestNeighbors srt s k p = .ok res := by
  obtain ⟨n, rfl⟩ : ∃ n : Nat, k = n := ⟨k.toNat, by omega⟩
  obtain ⟨res, rest, h1, -⟩ := C07_nearest_sorted (K := K) srt hsrt grow min max hmax s hs n (by omega) p
  exact ⟨res, h1⟩

end

section
variable [FloatOrd F]

theorem nearestLeaf_zero (p : Point F) (es : List (Entry F)) : nearestLeaf 0 p es [] [] = .ok ([], []) := by
  induction es with
  | nil => rfl
  | cons e es ih =>
    have : insertNearest (0 : Int) [] [] (minDist p e.bb) e.obj = .ok ([], []) := by
      simp [insertNearest, searchFloat64s, goSearch, skipNotFarther, bind, Except.bind]
    rw [nearestLeaf, this]
    exact ih

/-- **C08**: exactly when it panics for `k ≤ 0`. -/
theorem C08_nonpositive (srt : GoSort) (grow : Nat → Nat) (min max : Int) (hmax : 2 ≤ max)
    (s : RState F) (hs : Reached grow min max s) (p : Point F) :
    (∀ k, k < 0 → NearestNeighbors srt s k p = .error .makeNeg) ∧
    (Depth s = 1 → NearestNeighbors srt s 0 p = .ok []) ∧
    (2 ≤ Depth s → NearestNeighbors srt s 0 p = .error .index) := by
  obtain ⟨⟨K', X, ti⟩, -⟩ := hs.sound hmax
  have hMax : (0 : Int) ≤ s.t.MaxChildren := by rw [← ti.lo.2.1]; omega
  have hbuf : (0 : Int) ≤ s.t.MaxChildren * Depth s := Int.mul_nonneg hMax (by rw [Depth, ti.height]; omega)
  obtain ⟨⟨par, hv⟩, -⟩ := id ti.rep
  rw [ti.root] at hv
  refine ⟨?_, ?_, ?_⟩
  · intro k hk
    unfold NearestNeighbors
    simp only
    rw [if_neg (by omega), if_pos hk]
  · intro hd
    rw [Depth, ti.height] at hd
    have hK : K' = 0 := by omega
    subst hK
    unfold NearestNeighbors
    simp only
    rw [if_neg (by omega), if_neg (by omega), nearestNode, Heap.deref_some hv]
    simp only [bind, Except.bind, beq_self_eq_true, if_true, nearestLeaf_zero]
  · intro hd
    have hd' := hd
    rw [Depth, ti.height] at hd
    obtain ⟨j, rfl⟩ : ∃ j, K' = j + 1 := ⟨K' - 1, by omega⟩
    unfold NearestNeighbors
    simp only
    rw [if_neg (by omega), if_neg (by omega), nearestNode, Heap.deref_some hv]
    have hb0 : ((j + 1 == 0)) = false := by simp
    have hroom : ¬ (s.t.MaxChildren * Depth s < ((X.es.map Item.entry).length : Int)) := by
      rw [List.length_map]
      have h1 : (X.es.length : Int) ≤ s.t.MaxChildren := by rw [← ti.lo.2.1]; exact_mod_cast ti.cnt.1
      have : s.t.MaxChildren * 1 ≤ s.t.MaxChildren * Depth s := Int.mul_le_mul_of_nonneg_left (by omega) hMax
      omega
    simp only [bind, Except.bind, hb0, Bool.false_eq_true, if_false]
    rw [if_neg hroom]
    rfl

end

/-- over exact arithmetic `minDist` is the smallest squared distance to a point of the box -/
theorem C07_minDist_exact {K : Type} [Field K] [LinearOrder K] [IsStrictOrderedRing K] (x y a b c d : K)
    (hx : a ≤ c) (hy : b ≤ d) :
    ∃ m : K, minDist (⟨.fin x, .fin y⟩ : Point (XR K)) ⟨.fin a, .fin b, .fin c, .fin d⟩ = .fin m ∧
      (∀ u v, a ≤ u → u ≤ c → b ≤ v → v ≤ d → m ≤ (x - u) ^ 2 + (y - v) ^ 2) ∧
      ∃ u v, a ≤ u ∧ u ≤ c ∧ b ≤ v ∧ v ≤ d ∧ m = (x - u) ^ 2 + (y - v) ^ 2 := by
  have axis : ∀ x a c : K, a ≤ c → ∃ u m, axisDist (XR.fin x) (.fin a) (.fin c) = .fin m ∧ a ≤ u ∧ u ≤ c ∧
      m = (x - u) ^ 2 ∧ ∀ w, a ≤ w → w ≤ c → m ≤ (x - w) ^ 2 := by
    intro x a c h
    unfold axisDist
    by_cases h1 : x < a
    · refine ⟨a, (x - a) * (x - a), ?_, le_refl _, h, by ring, ?_⟩
      · have : lt (XR.fin x) (XR.fin a) = true := by simp [lt, XR.lt, h1]
        rw [this]
        show XR.fin ((x + -a) * (x + -a)) = _
        rw [sub_eq_add_neg]
      · intro w hw _; nlinarith
    · have e1 : lt (XR.fin x) (XR.fin a) = false := by simp [lt, XR.lt]; exact le_of_not_gt h1
      rw [e1]
      by_cases h2 : c < x
      · refine ⟨c, (x - c) * (x - c), ?_, h, le_refl _, by ring, ?_⟩
        · have : gt (XR.fin x) (XR.fin c) = true := by simp [gt, lt, XR.lt, h2]
          rw [this]
          show XR.fin ((x + -c) * (x + -c)) = _
          rw [sub_eq_add_neg]
        · intro w _ hw; nlinarith
      · have e2 : gt (XR.fin x) (XR.fin c) = false := by simp [gt, lt, XR.lt]; exact le_of_not_gt h2
        rw [e2]
        refine ⟨x, 0, ?_, le_of_not_gt h1, le_of_not_gt h2, by ring, fun w _ _ => by positivity⟩
        show XR.fin (((0 : ℕ) : K) / 10 ^ 0) = XR.fin 0
        simp
  obtain ⟨u, m, e1, a1, a2, a3, a4⟩ := axis x a c hx
  obtain ⟨v, n, f1, b1, b2, b3, b4⟩ := axis y b d hy
  refine ⟨m + n, ?_, ?_, u, v, a1, a2, b1, b2, by rw [a3, b3]⟩
  · rw [minDist_eq]
    simp only [e1, f1]
    show XR.fin ((((0 : ℕ) : K) / 10 ^ 0 + m) + n) = _
    simp
  · intro u v h1 h2 h3 h4
    have := a4 u h1 h2
    have := b4 v h3 h4
    linarith

/-- a sort meeting the contract exists; five objects in a tree of three levels, all proper -/
example : SortOk insSort := insSort_ok

/-- the history used in the examples below -/
def nearOps : List (Op Float) :=
  [.insert ⟨"a", .nil, .point ⟨0, 0⟩⟩, .insert ⟨"b", .nil, .point ⟨1, 7⟩⟩, .insert ⟨"c", .nil, .point ⟨2, 1⟩⟩,
   .insert ⟨"d", .nil, .lineString [⟨3, 3⟩, ⟨5, 4⟩]⟩, .insert ⟨"e", .nil, .point ⟨9, 9⟩⟩]

example : (runAll id nearOps (NewEmptyTree 1 2)).map (fun r => (Depth r.1, (contents r.1).length,
    (contents r.1).all (fun o => le (BoundingBox o.Geom).MinX (BoundingBox o.Geom).MaxX &&
      le (BoundingBox o.Geom).MinY (BoundingBox o.Geom).MaxY),
    (NearestNeighbors insSort r.1 3 ⟨4, 4⟩).map (·.map (·.ID)))) = .ok (3, 5, true, .ok ["d", "c", "b"]) := by
  decide +kernel

/-- **C08** is false: `NearestNeighbors(0, p)` panics on a tree of depth three. -/
theorem C08_nearest_false : ∃ s : RState Float, Reached id 1 2 s ∧
    NearestNeighbors insSort s 0 ⟨4, 4⟩ = .error .index := by
  have h : (runAll id nearOps (NewEmptyTree 1 2)).map (fun r => Depth r.1) = .ok 3 := by decide +kernel
  obtain ⟨⟨s, bs⟩, h1, h2⟩ := ok_of_map h
  have hr : Reached id 1 2 s := ⟨_, bs, h1⟩
  exact ⟨s, hr, (C08_nonpositive insSort id 1 2 (by omega) s hr ⟨4, 4⟩).2.2 (by simp only at h2; omega)⟩

/-- five points and an empty line -/
def invertedOps : List (Op Float) :=
  [.insert ⟨"a", .nil, .point ⟨0, 0⟩⟩, .insert ⟨"b", .nil, .point ⟨1, 1⟩⟩,
   .insert ⟨"c", .nil, .point ⟨2147483600, 2147483600⟩⟩, .insert ⟨"d", .nil, .point ⟨2147483590, 2147483590⟩⟩,
   .insert ⟨"f", .nil, .point ⟨10, 10⟩⟩, .insert ⟨"e", .nil, .lineString []⟩]

/-- the condition of `C07_nearest` is needed: the box of an empty line is inverted, `minDist` gives it
a small distance from `p`, but the subtree holding it is pruned -/
theorem C07_inverted_missed : ∃ (s : RState Float) (p : Point Float) (res : List (Spatial Float)),
    Reached id 1 2 s ∧ NearestNeighbors insSort s 1 p = .ok res ∧ ¬ KNearest 1 p (contents s) res := by
  let p : Point Float := ⟨2147483640, 2147483640⟩
  have h : (runAll id invertedOps (NewEmptyTree 1 2)).map (fun r =>
      ((contents r.1).any (fun o => o.ID == "e"),
       (contents r.1).all (fun o => o.ID != "e" || lt (objDist p o) 200),
       (NearestNeighbors insSort r.1 1 p).map (fun res => (res.length, res.all (fun o => o.ID != "e" && lt 200 (objDist p o)))))) =
      .ok (true, true, .ok (1, true)) := by decide +kernel
  obtain ⟨⟨s, bs⟩, h1, h2⟩ := ok_of_map h
  simp only [Prod.mk.injEq] at h2
  obtain ⟨ha, hb, hc⟩ := h2
  obtain ⟨res, hres, hc⟩ := ok_of_map hc
  simp only [Prod.mk.injEq, List.all_eq_true, Bool.and_eq_true] at hc
  refine ⟨s, p, res, ⟨_, bs, h1⟩, hres, ?_⟩
  rintro ⟨rest, hk, hbest⟩
  obtain ⟨e, he, hid⟩ := List.any_eq_true.1 ha
  obtain ⟨r, hr⟩ := List.length_eq_one_iff.1 hc.1
  have hr' : r ∈ res := by rw [hr]; simp
  have hrest : e ∈ rest := by
    rcases List.mem_append.1 (hk.perm.mem_iff.1 he) with hm | hm
    · have := (hc.2 e hm).1
      rw [bne_iff_ne] at this
      exact absurd (by simpa using hid) this
    · exact hm
  have h3 : lt (objDist p e) 200 = true := by
    have := List.all_eq_true.1 hb e he
    simp only [Bool.or_eq_true, bne_iff_ne] at this
    rcases this with h | h
    · exact absurd (by simpa using hid) h
    · exact h
  have h4 := (hc.2 r hr').2
  have h5 : lt (objDist p r) (objDist p r) = true :=
    lt_of_le_of_lt' (hbest e hrest r hr') (lt_of_lt_of_le' h3 (le_of_lt' h4))
  rw [lt_irrefl'] at h5
  cases h5

end GoGeo
