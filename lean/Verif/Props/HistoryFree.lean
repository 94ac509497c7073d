import Verif.Props.Near

/-!
# C155: answers depend on the stored objects alone, not on how they came into the tree
-/

set_option linter.unusedSectionVars false

namespace GoGeo
open GoFloat Spec
variable {F : Type} [GoFloat F] [FloatOrd F]

section rank
variable {α : Type} (key : α → F)

/-- how many of the objects are strictly closer -/
def rank (S : List α) (o : α) : Nat := S.countP fun x => lt (key x) (key o)

theorem rank_mono (S : List α) {a b : α} (h : Le (key a) (key b)) : rank key S a ≤ rank key S b :=
  List.countP_mono_left fun _ _ hx => lt_of_lt_of_le' hx h

theorem rank_lt {S : List α} {a b : α} (ha : a ∈ S) (h : lt (key a) (key b) = true) : rank key S a < rank key S b := by
  have hle : ∀ T : List α, T.countP (fun x => lt (key x) (key a)) ≤ T.countP fun x => lt (key x) (key b) :=
    fun T => List.countP_mono_left fun _ _ hx => lt_of_lt_of_le' hx (le_of_lt' h)
  unfold rank
  obtain ⟨s, t, rfl⟩ := List.append_of_mem ha
  rw [List.countP_append, List.countP_append, List.countP_cons, List.countP_cons, h, lt_irrefl']
  have := hle s
  have := hle t
  simp only [Bool.false_eq_true, if_false, if_true]
  omega

/-- the positions of `k` nearest objects in order: the same for every way to choose them -/
theorem rank_best {S res rest : List α} {k : Nat} (hp : S.Perm (res ++ rest)) (hc : res.length = min k S.length)
    (hs : res.Pairwise fun a b => Le (key a) (key b)) (hb : ∀ o ∈ rest, ∀ r ∈ res, Le (key r) (key o)) :
    res.map (rank key S) = ((S.map (rank key S)).mergeSort (· ≤ ·)).take k := by
  have tr : ∀ a b c : Nat, decide (a ≤ b) = true → decide (b ≤ c) = true → decide (a ≤ c) = true := by simp; omega
  have tot : ∀ a b : Nat, (decide (a ≤ b) || decide (b ≤ a)) = true := by simp; omega
  have e : (S.map (rank key S)).mergeSort (· ≤ ·) = res.map (rank key S) ++ (rest.map (rank key S)).mergeSort (· ≤ ·) := by
    apply List.Perm.eq_of_pairwise (le := fun a b : Nat => a ≤ b) (fun a b _ _ h1 h2 => le_antisymm h1 h2)
    · simpa using List.pairwise_mergeSort tr tot (S.map (rank key S))
    · rw [List.pairwise_append]
      refine ⟨?_, ?_, ?_⟩
      · rw [List.pairwise_map]; exact hs.imp fun h => rank_mono key S h
      · simpa using List.pairwise_mergeSort tr tot (rest.map (rank key S))
      · intro a ha b hb'
        rw [(List.mergeSort_perm _ _).mem_iff] at hb'
        obtain ⟨r, hr, rfl⟩ := List.mem_map.1 ha
        obtain ⟨o, ho, rfl⟩ := List.mem_map.1 hb'
        exact rank_mono key S (hb o ho r hr)
    · refine (List.mergeSort_perm _ _).trans ((hp.map _).trans ?_)
      rw [List.map_append]
      exact List.Perm.append_left _ (List.mergeSort_perm _ _).symm
  have hl := hp.length_eq
  rw [List.length_append] at hl
  rw [e, List.take_append, List.length_map]
  by_cases hk : k ≤ S.length
  · rw [hc, Nat.min_eq_left hk, Nat.sub_self, List.take_zero, List.append_nil, List.take_of_length_le (by rw [List.length_map]; omega)]
  · have : rest = [] := List.eq_nil_of_length_eq_zero (by omega)
    subst this
    rw [List.take_of_length_le (by rw [List.length_map]; omega)]
    simp

theorem same_of_rank {S : List α} {a b : α} (ha : a ∈ S) (hb : b ∈ S) (na : isNaN (key a) = false) (nb : isNaN (key b) = false)
    (h : rank key S a = rank key S b) : Same (key a) (key b) := by
  constructor
  · by_contra hn
    have : le (key a) (key b) = false := by simpa [Le] using hn
    have := rank_lt key hb (lt_iff'.2 ⟨nb, na, this⟩)
    omega
  · by_contra hn
    have : le (key b) (key a) = false := by simpa [Le] using hn
    have := rank_lt key ha (lt_iff'.2 ⟨na, nb, this⟩)
    omega

end rank

/-- two answers to the same question, pointwise equally far -/
theorem kNearest_same {k k' : Nat} {p : Point F} {S S' res res' : List (Spatial F)} (hn : ∀ o ∈ S, isNaN (objDist p o) = false) (hS : S.Perm S') (hk : k ≤ k')
    (h : KNearest k p S res) (h' : KNearest k' p S' res') : List.Forall₂ (fun r r' => Same (objDist p r) (objDist p r')) res (res'.take k) := by
  obtain ⟨rest, ⟨p1, c1, s1⟩, b1⟩ := h.best
  obtain ⟨rest', ⟨p2, c2, s2⟩, b2⟩ := h'.best
  have e1 := rank_best (objDist p) p1 c1 s1 b1
  have e2 := rank_best (objDist p) (hS.trans p2) (by rw [c2, hS.length_eq]) s2 b2
  have e3 : res.map (rank (objDist p) S) = (res'.take k).map (rank (objDist p) S) := by
    rw [e1, List.map_take, e2, List.take_take, Nat.min_eq_left hk]
  have m1 : ∀ r ∈ res, r ∈ S := fun r hr => p1.mem_iff.2 (List.mem_append_left _ hr)
  have m2 : ∀ r ∈ res'.take k, r ∈ S := fun r hr => hS.mem_iff.2 (p2.mem_iff.2 (List.mem_append_left _ (List.mem_of_mem_take hr)))
  generalize res'.take k = l' at e3 m2
  clear e1 e2 p1 c1 s1 b1 p2 c2 s2 b2 h h'
  induction res generalizing l' with
  | nil => cases l' with
    | nil => exact .nil
    | cons _ _ => cases e3
  | cons a l ih => cases l' with
    | nil => cases e3
    | cons b l' =>
      simp only [List.map_cons, List.cons.injEq] at e3
      exact .cons (same_of_rank _ (m1 a List.mem_cons_self) (m2 b List.mem_cons_self) (hn a (m1 a List.mem_cons_self)) (hn b (m2 b List.mem_cons_self)) e3.1)
        (ih (fun r hr => m1 r (List.mem_cons_of_mem _ hr)) l' e3.2 fun r hr => m2 r (List.mem_cons_of_mem _ hr))

/-- **C155, window search.** Two trees that hold the same objects, whatever the calls and the parameters that led to them, give the same answer to every window
search, up to order, and have the same size. -/
theorem C155_search (grow grow' : Nat → Nat) (min max min' max' : Int) (hmax : 2 ≤ max) (hmax' : 2 ≤ max') (s s' : RState F) (hs : Reached grow min max s)
    (hs' : Reached grow' min' max' s') (hc : (contents s).Perm (contents s')) :
    Size s = Size s' ∧ ∀ q, ∃ res res', SearchIntersect s (some q) = .ok res ∧ SearchIntersect s' (some q) = .ok res' ∧ res.Perm res' := by
  refine ⟨?_, fun q => ⟨_, _, C02_search_exact grow min max hmax s hs q, C02_search_exact grow' min' max' hmax' s' hs' q, hc.filter _⟩⟩
  rw [C03_size grow min max hmax s hs, C03_size grow' min' max' hmax' s' hs', hc.length_eq]

/-- a run of insertions is a history, and what it stores are the inserted objects -/
theorem insertAll_reached (grow : Nat → Nat) (min max : Int) (hmax : 2 ≤ max) (objs : List (Spatial F)) (s : RState F)
    (h : insertAll grow (NewEmptyTree min max) objs = .ok s) : Reached grow min max s ∧ (contents s).Perm objs := by
  have key : ∀ (objs : List (Spatial F)) (s₀ s : RState F), insertAll grow s₀ objs = .ok s → Reached grow min max s₀ →
      (∃ bs, runAll grow (objs.map Op.insert) s₀ = .ok (s, bs)) ∧ (contents s).Perm (objs ++ contents s₀) := by
    intro objs
    induction objs with
    | nil => intro s₀ s h _; cases h; exact ⟨⟨[], rfl⟩, List.Perm.refl _⟩
    | cons o objs ih =>
      intro s₀ s h hr
      unfold insertAll at h
      rw [List.foldlM_cons] at h
      cases hi : Insert grow s₀ o with
      | error e => rw [hi] at h; cases h
      | ok s₁ =>
        rw [hi] at h
        have hrun : (Op.insert o).run grow s₀ = .ok (s₁, true) := by simp only [Op.run]; rw [hi]; rfl
        obtain ⟨hr₁, hst⟩ := (C02_step grow min max hmax).2 s₀ s₁ (.insert o) true hr hrun
        obtain ⟨⟨bs, hb⟩, hp⟩ := ih s₁ s h hr₁
        refine ⟨⟨true :: bs, ?_⟩, hp.trans ?_⟩
        · rw [List.map_cons, runAll, hrun]
          show (runAll grow (objs.map Op.insert) s₁ >>= _) = _
          rw [hb]; rfl
        · exact (List.Perm.append_left _ hst).trans List.perm_middle
  obtain ⟨⟨bs, hb⟩, hp⟩ := key objs _ s h ⟨[], [], rfl⟩
  rw [(C02_step grow min max hmax).1, List.append_nil] at hp
  exact ⟨⟨_, bs, hb⟩, hp⟩

section
variable {K : Type} [Field K] [LinearOrder K] [IsStrictOrderedRing K] [V : FloatVal F K]
include K V

/-- **C155, order of insertion.** Inserting the same objects in another order, into a tree with other parameters, succeeds as well and changes no answer of a window
search but for the order. -/
theorem C155_order (grow grow' : Nat → Nat) (min max min' max' : Int) (hmax : 2 ≤ max) (hmax' : 2 ≤ max') (objs objs' : List (Spatial F)) (hp : objs.Perm objs')
    (hc : ∀ o ∈ objs, CoordsOk o.Geom) :
    ∃ s s', insertAll grow (NewEmptyTree min max) objs = .ok s ∧ insertAll grow' (NewEmptyTree min' max') objs' = .ok s' ∧
      Reached grow min max s ∧ Reached grow' min' max' s' ∧ (contents s).Perm (contents s') ∧ Size s = Size s' ∧
      ∀ q, ∃ res res', SearchIntersect s (some q) = .ok res ∧ SearchIntersect s' (some q) = .ok res' ∧ res.Perm res' := by
  obtain ⟨s, h, -⟩ := C01_search_exact (K := K) grow min max hmax objs hc
  obtain ⟨s', h', -⟩ := C01_search_exact (K := K) grow' min' max' hmax' objs' fun o ho => hc o (hp.mem_iff.2 ho)
  obtain ⟨r, c⟩ := insertAll_reached grow min max hmax objs s h
  obtain ⟨r', c'⟩ := insertAll_reached grow' min' max' hmax' objs' s' h'
  have hcc := c.trans (hp.trans c'.symm)
  obtain ⟨h1, h2⟩ := C155_search grow grow' min max min' max' hmax hmax' s s' r r' hcc
  exact ⟨s, s', h, h', r, r', hcc, h1, h2⟩

/-- **C155, nearest neighbours.** The objects returned by the two trees are pairwise equally far from the point, and asking for fewer objects gives as near objects
as the first ones among more (`k ≤ k'`). -/
theorem C155_nearest (srt srt' : GoSort) (hsrt : SortOk srt) (hsrt' : SortOk srt') (grow grow' : Nat → Nat) (min max min' max' : Int) (hmax : 2 ≤ max) (hmax' : 2 ≤ max')
    (s s' : RState F) (hs : Reached grow min max s) (hs' : Reached grow' min' max' s') (hc : (contents s).Perm (contents s'))
    (hp : ∀ o ∈ contents s, ProperGeom o.Geom) (k k' : Nat) (hk : 1 ≤ k) (hkk : k ≤ k') (p : Point F) :
    ∃ res res', NearestNeighbors srt s k p = .ok res ∧ NearestNeighbors srt' s' k' p = .ok res' ∧
      List.Forall₂ (fun r r' => Same (objDist p r) (objDist p r')) res (res'.take k) := by
  obtain ⟨res, h1, h2⟩ := C07_nearest (K := K) srt hsrt grow min max hmax s hs hp k hk p
  obtain ⟨res', h1', h2'⟩ := C07_nearest (K := K) srt' hsrt' grow' min' max' hmax' s' hs' (fun o ho => hp o (hc.mem_iff.2 ho)) k' (by omega) p
  exact ⟨res, res', h1, h1', kNearest_same (fun o _ => minDist_num (K := K) p _) hc hkk h2 h2'⟩

/-- **C155, no ties.** If no two of the stored objects are equally far from the point, the two trees return the very same list, and the answer for fewer objects is
the beginning of the answer for more. -/
theorem C155_noTies (srt srt' : GoSort) (hsrt : SortOk srt) (hsrt' : SortOk srt') (grow grow' : Nat → Nat) (min max min' max' : Int) (hmax : 2 ≤ max) (hmax' : 2 ≤ max')
    (s s' : RState F) (hs : Reached grow min max s) (hs' : Reached grow' min' max' s') (hc : (contents s).Perm (contents s'))
    (hp : ∀ o ∈ contents s, ProperGeom o.Geom) (k k' : Nat) (hk : 1 ≤ k) (hkk : k ≤ k') (p : Point F)
    (ht : ∀ a ∈ contents s, ∀ b ∈ contents s, Same (objDist p a) (objDist p b) → a = b) :
    ∃ res', NearestNeighbors srt' s' k' p = .ok res' ∧ NearestNeighbors srt s k p = .ok (res'.take k) := by
  obtain ⟨res, h1, ⟨rest, ⟨p1, -, -⟩, -⟩⟩ := C07_nearest (K := K) srt hsrt grow min max hmax s hs hp k hk p
  obtain ⟨res', h1', ⟨rest', ⟨p2, -, -⟩, -⟩⟩ := C07_nearest (K := K) srt' hsrt' grow' min' max' hmax' s' hs' (fun o ho => hp o (hc.mem_iff.2 ho)) k' (by omega) p
  obtain ⟨r, r', g1, g2, g3⟩ := C155_nearest (K := K) srt srt' hsrt hsrt' grow grow' min max min' max' hmax hmax' s s' hs hs' hc hp k k' hk hkk p
  rw [h1] at g1; cases g1
  rw [h1'] at g2; cases g2
  refine ⟨res', h1', ?_⟩
  rw [h1]
  congr 1
  have m1 : ∀ r ∈ res, r ∈ contents s := fun r hr => p1.mem_iff.2 (List.mem_append_left _ hr)
  have m2 : ∀ r ∈ res'.take k, r ∈ contents s := fun r hr => hc.mem_iff.2 (p2.mem_iff.2 (List.mem_append_left _ (List.mem_of_mem_take hr)))
  generalize res'.take k = l' at g3 m2
  clear h1 p1 h1' p2
  induction g3 with
  | nil => rfl
  | cons h _ ih =>
    rw [ht _ (m1 _ List.mem_cons_self) _ (m2 _ List.mem_cons_self) h, ih (fun r hr => m1 r (List.mem_cons_of_mem _ hr)) fun r hr => m2 r (List.mem_cons_of_mem _ hr)]

end

/-- three points, of which two are equally far from the origin -/
def tieObjs : List (Spatial Float) := [⟨"a", .nil, .point ⟨3, 4⟩⟩, ⟨"b", .nil, .point ⟨4, 3⟩⟩, ⟨"c", .nil, .point ⟨9, 9⟩⟩]

/-- **C155 with ties**: which of two equally far objects is returned does depend on the order of insertion. -/
theorem C155_ties : ∃ s s' : RState Float, insertAll id (NewEmptyTree 1 2) tieObjs = .ok s ∧ insertAll id (NewEmptyTree 1 2) tieObjs.reverse = .ok s' ∧
    (NearestNeighbors insSort s 1 ⟨0, 0⟩).map (·.map (·.ID)) = .ok ["a"] ∧ (NearestNeighbors insSort s' 1 ⟨0, 0⟩).map (·.map (·.ID)) = .ok ["b"] := by
  have h : (insertAll id (NewEmptyTree 1 2) tieObjs >>= fun s => NearestNeighbors insSort s 1 ⟨0, 0⟩).map (·.map (·.ID)) = .ok ["a"] := by decide +kernel
  have h' : (insertAll id (NewEmptyTree 1 2) tieObjs.reverse >>= fun s => NearestNeighbors insSort s 1 ⟨0, 0⟩).map (·.map (·.ID)) = .ok ["b"] := by decide +kernel
  cases e : insertAll id (NewEmptyTree 1 2) tieObjs with
  | error x => rw [e] at h; cases h
  | ok s =>
    cases e' : insertAll id (NewEmptyTree 1 2) tieObjs.reverse with
    | error x => rw [e'] at h'; cases h'
    | ok s' =>
      rw [e] at h; rw [e'] at h'
      exact ⟨s, s', rfl, rfl, h, h'⟩

/-- non-vacuity: from `(0, 1)` no two of the points are equally far, and all boxes are proper -/
example : (∀ o ∈ tieObjs, ProperGeom o.Geom ∧ CoordsOk o.Geom) ∧
    ∀ a ∈ tieObjs, ∀ b ∈ tieObjs, Same (objDist ⟨0, 1⟩ a) (objDist ⟨0, 1⟩ b) → a = b := by
  have hb : ∀ o ∈ tieObjs, (le (BoundingBox o.Geom).MinX (BoundingBox o.Geom).MaxX = true ∧ le (BoundingBox o.Geom).MinY (BoundingBox o.Geom).MaxY = true) ∧
      ∀ p ∈ vertices o.Geom, ((isNaN p.X = false → le (-lit (2 ^ 500)) p.X = true ∧ le p.X (lit (2 ^ 500)) = true) ∧
        (isNaN p.Y = false → le (-lit (2 ^ 500)) p.Y = true ∧ le p.Y (lit (2 ^ 500)) = true)) := by decide +kernel
  refine ⟨fun o ho => ⟨⟨(hb o ho).1.1, (hb o ho).1.2⟩, (hb o ho).2⟩, ?_⟩
  have ht : ∀ i j : Fin tieObjs.length, le (objDist ⟨0, 1⟩ (tieObjs[i])) (objDist ⟨0, 1⟩ (tieObjs[j])) = true →
      le (objDist ⟨0, 1⟩ (tieObjs[j])) (objDist ⟨0, 1⟩ (tieObjs[i])) = true → i = j := by decide +kernel
  intro a ha b hb h
  obtain ⟨i, hi, rfl⟩ := List.getElem_of_mem ha
  obtain ⟨j, hj, rfl⟩ := List.getElem_of_mem hb
  have e := ht ⟨i, hi⟩ ⟨j, hj⟩ h.1 h.2
  cases e
  rfl

end GoGeo
