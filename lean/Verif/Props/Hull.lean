import Verif.Geo.HullLemmas
import Verif.Geo.MeasureLemmas
import Verif.Go.QuickSort
import Verif.Props.Measure

/-!
# Convex hulls (C48, C49, C74)

Exact arithmetic: coordinates in an ordered field.  `Less` of the sorted slice refers to the current `p[0]`; the theorems hold for every
sort meeting `HullSort`, in particular (`goSort12_hullSort`) for what Go 1.15's `sort.Sort` does to at most 12 points.
-/

set_option linter.unusedSectionVars false

namespace GoGeo
open GoFloat Spec

section
variable {K : Type} [Field K] [LinearOrder K] [IsStrictOrderedRing K]

theorem goSort12_hullSort {F : Type} [GoFloat F] : HullSort (F := F) goSort12 := fun o l h w => goSort12_sorts o l h w

theorem insertionSort_hullSort {F : Type} [GoFloat F] : HullSort (F := F) insertionSort := fun o l h w => insertionSort_sorts o l h w

/-- a sort that compares with the first element it was given -/
theorem fixed_hullSort {F : Type} [GoFloat F] (srt : GoSort) (h : SortOk srt) :
    HullSort (F := F) fun l => match l with | [] => [] | o :: l => srt _ (hullLess o) (o :: l) := fun _ _ _ w => ⟨h.perm _ _ _, h.sorted _ _ _ w⟩

/-- within a millionth of each other in both coordinates -/
def Close (a b : K × K) : Prop := |a.1 - b.1| < 1 / 10 ^ 6 ∧ |a.2 - b.2| < 1 / 10 ^ 6

theorem equal_pt (a b : K × K) : (pt a).Equal (pt b) = true ↔ Close a b := by
  unfold Point.Equal COORDPRESION pt Close
  simp only [XR.fin_sub, XR.fin_abs, XR.fin_dec, XR.fin_lt, Bool.and_eq_true, decide_eq_true_eq, Nat.cast_one]

/-- the ring made of the corners `v`: closed with the first corner, unless first and last are taken for equal -/
theorem closeRing_open (v : List (K × K)) (h3 : 2 ≤ v.length) :
    closeRing (v.map pt) = some (ring v) ∨ (closeRing (v.map pt) = some (v.map pt) ∧ ∃ a b, v.head? = some a ∧ v.getLast? = some b ∧ Close a b) := by
  rcases v with _ | ⟨a, _ | ⟨b, v⟩⟩
  · simp at h3
  · simp at h3
  · simp only [List.map_cons, closeRing, ring]
    have hl : ((pt b :: v.map pt).getLast (by simp)) = pt ((b :: v).getLast (by simp)) := by
      have : pt b :: v.map pt = (b :: v).map pt := rfl
      simp only [this, List.getLast_map]
    rw [hl]
    by_cases h : (pt a).Equal (pt ((b :: v).getLast (by simp))) = true
    · right
      rw [if_pos h]
      exact ⟨rfl, a, (b :: v).getLast (by simp), rfl, by rw [List.getLast?_eq_some_getLast (by simp)]; simp, (equal_pt _ _).1 h⟩
    · left
      rw [if_neg h]; simp

/-- **C48.** For at least three points, all different, and every sort meeting the contract, `ConvexHull` returns the ring through
the corners of the convex hull: corners taken from the points, every point on or to the left of every side.  The ring is closed with its
first corner, unless the last corner is within a millionth of the first. -/
theorem C48_hull (sortPts : List (Point (XR K)) → List (Point (XR K))) (hs : HullSort sortPts) (pts : List (K × K)) (hd : pts.Nodup) (h3 : 3 ≤ pts.length) :
    ∃ after r v, ConvexHull sortPts (pts.map pt) = .ok (after, some r) ∧ HullOf pts v ∧
      (r = ring v ∨ (r = v.map pt ∧ ∃ a b, v.head? = some a ∧ v.getLast? = some b ∧ Close a b)) := by
  have hne : pts ≠ [] := by rintro rfl; simp at h3
  obtain ⟨o, l, hF, hperm, hA⟩ := FindLowestPoint_fin pts hne
  unfold ConvexHull
  rw [if_neg (by simpa using h3), hF]
  have hA' : ∀ x ∈ o :: l, Above o x := fun x hx => hA x (hperm.mem_iff.1 hx)
  have w : WeakOrder (hullLess (pt o)) (pt o :: l.map pt) := weakOrder_hull o (o :: l) hA'
  obtain ⟨p1, p2⟩ := hs (pt o) (l.map pt) (headLeast_fin o l) w
  obtain ⟨q, hq, hqp⟩ := unmap_pt (p := o :: l) p1
  rw [hq] at p2 ⊢
  have hmem : ∀ x ∈ q, x ∈ pts := fun x hx => hperm.mem_iff.1 (hqp.mem_iff.1 hx)
  have hqd : q.Nodup := (hqp.trans hperm).nodup_iff.2 hd
  have hsorted : q.Pairwise (Bef o) := by
    rw [List.pairwise_map] at p2
    refine List.Pairwise.imp_of_mem ?_ p2
    intro a b ha hb h
    exact (hullLess_bef (hA a (hmem a ha)) (hA b (hmem b hb))).1 h
  have hR : q.Pairwise (BefNe o) := by
    have : q.Pairwise fun a b => Bef o a b ∧ a ≠ b := List.pairwise_and_iff.2 ⟨hsorted, hqd⟩
    exact this
  have hlen : 3 ≤ q.length := by rw [(hqp.trans hperm).length_eq]; exact h3
  obtain ⟨a, b, rest, rfl⟩ : ∃ a b rest, q = a :: b :: rest := by
    rcases q with _ | ⟨a, _ | ⟨b, rest⟩⟩
    · simp at hlen
    · simp at hlen
    · exact ⟨a, b, rest, rfl⟩
  have hao : a = o := by
    have : o ∈ a :: b :: rest := hqp.mem_iff.2 (by simp)
    rcases List.mem_cons.1 this with h | h
    · exact h.symm
    · rcases (List.pairwise_cons.1 hsorted).1 o h with g | ⟨t, _, _, g⟩
      · exfalso
        have : turn o a o = 0 := by unfold turn; ring
        linarith
      · rw [g]; unfold along; ext <;> simp
  subst hao
  have hrest : rest ≠ [] := by rintro rfl; simp at hlen
  simp only [List.map_cons]
  obtain ⟨st, e, l3, hlast, tri, hpw, hsub, htight⟩ := hullScan_spec a pts rest (2 * (pt a :: pt b :: rest.map pt).length) [b, a] (by simp; omega) (by simp) (Or.inr hrest) rfl
    (by simpa using hR) (by
      intro i j k x y z hij hjk hx _ _
      obtain ⟨hk, _⟩ := List.getElem?_eq_some_iff.1 hx
      simp at hk; omega)
    (by intro x hx; apply hmem; simp at hx ⊢; tauto)
    (by
      intro u v huv x hx
      apply huv
      have := hqp.mem_iff.2 (hperm.mem_iff.2 hx)
      simp at this ⊢; tauto)
  have e' : hullScan (2 * (pt a :: pt b :: rest.map pt).length) [pt b, pt a] (rest.map pt) = .ok (st.map pt) := e
  rw [e', bind_ok', if_neg (by simpa using l3)]
  have hnd : st.reverse.Nodup := by
    refine List.Pairwise.imp ?_ hpw
    intro x y h; exact h.2
  have hull : HullOf pts st.reverse := by
    refine ⟨?_, hnd, by simpa using l3, ?_, ?_, turns_tri st tri⟩
    · intro x hx; exact hsub x (by simpa using hx)
    · intro e he x hx
      exact htight e.1 e.2 (sides_tri st tri e he) x hx
    · intro u v huv x hx
      exact htight u v (fun y hy => huv y (by simpa using hy)) x hx
  rw [← List.map_reverse]
  rcases closeRing_open st.reverse (by simp; omega) with h | ⟨h, hc⟩
  · rw [h]; exact ⟨_, _, st.reverse, rfl, hull, Or.inl rfl⟩
  · rw [h]; exact ⟨_, _, st.reverse, rfl, hull, Or.inr ⟨rfl, hc⟩⟩

/-- **C48 for points that are not close to each other:** a closed ring -/
theorem C48_hull_apart (sortPts : List (Point (XR K)) → List (Point (XR K))) (hs : HullSort sortPts) (pts : List (K × K))
    (hd : pts.Pairwise fun a b => ¬ Close a b) (h3 : 3 ≤ pts.length) :
    ∃ after v, ConvexHull sortPts (pts.map pt) = .ok (after, some (ring v)) ∧ HullOf pts v := by
  have hcs : ∀ a b : K × K, Close a b → Close b a := by
    intro a b h
    unfold Close at *
    rw [abs_sub_comm b.1, abs_sub_comm b.2]; exact h
  have hcr : ∀ a : K × K, Close a a := by
    intro a; unfold Close; simp
  have hnd : pts.Nodup := by
    refine List.Pairwise.imp ?_ hd
    rintro a b h rfl; exact h (hcr a)
  obtain ⟨after, r, v, h1, h2, h3 | ⟨h3, a, b, ha, hb, hc⟩⟩ := C48_hull sortPts hs pts hnd h3
  · subst h3; exact ⟨after, v, h1, h2⟩
  · exfalso
    have hab : a ≠ b := by
      rintro rfl
      have hn := h2.distinct
      have hl := h2.three
      rcases v with _ | ⟨c, _ | ⟨d, v⟩⟩
      · simp at hl
      · simp at hl
      · have : c = a := by simpa using ha
        subst this
        rw [List.getLast?_cons_cons] at hb
        exact (List.nodup_cons.1 hn).1 (List.mem_of_getLast? hb)
    have ma := h2.corners a (List.mem_of_head? ha)
    have mb := h2.corners b (List.mem_of_getLast? hb)
    haveI : Std.Symm fun a b : K × K => ¬ Close a b := ⟨fun _ _ h h' => h (hcs _ _ h')⟩
    exact hd.forall ma mb hab hc

/-- **C48, fewer than three points:** nil, and the points stay. -/
theorem C48_few {F : Type} [GoFloat F] (sortPts : List (Point F) → List (Point F)) (pts : List (Point F)) (h : pts.length < 3) :
    ConvexHull sortPts pts = .ok (pts, none) := by
  unfold ConvexHull
  rw [if_pos h]

end

/-- the hypotheses of `C48_hull` are met: five points, one of them inside, and the sort of Go 1.15 -/
example : ∃ after v, ConvexHull goSort12 (([(0, 0), (1, 1), (2, 0), (2, 2), (0, 2)] : List (ℚ × ℚ)).map pt) = .ok (after, some (ring v)) ∧
    HullOf [(0, 0), (1, 1), (2, 0), (2, 2), (0, 2)] v := C48_hull_apart goSort12 goSort12_hullSort _ (by unfold Close; norm_num [abs_lt]) (by decide)

/-! ### where it fails -/

/-- **C74 is false (repeated points).** The closed ring (1,1), (1,4), (0,0), (4,1), (1,1): the result has the dent (1,1) of the ring.  (float64) -/
theorem C74_duplicate_false :
    (ConvexHull (F := Float) goSort12 [⟨1,1⟩, ⟨1,4⟩, ⟨0,0⟩, ⟨4,1⟩, ⟨1,1⟩]).map (·.2) = .ok (some [⟨0,0⟩, ⟨4,1⟩, ⟨1,1⟩, ⟨1,1⟩, ⟨1,4⟩, ⟨0,0⟩]) := by decide +kernel

/-- **C74 is false (13 points or more).** Go 1.15's `sort.Sort` moves `p[0]`, to which `Less` refers: for these 13 points, all different,
the result is a ring through (2,5), which is inside the hull of the others.  (float64) -/
theorem C74_many_false :
    (ConvexHull (F := Float) (Sort115.sort liveLess)
      [⟨0,0⟩,⟨5,1⟩,⟨8,3⟩,⟨9,6⟩,⟨8,9⟩,⟨5,11⟩,⟨2,5⟩,⟨0,12⟩,⟨-5,11⟩,⟨-8,9⟩,⟨-9,6⟩,⟨-8,3⟩,⟨-5,1⟩]).map (·.2) =
    .ok (some [⟨2,5⟩,⟨5,1⟩,⟨8,3⟩,⟨9,6⟩,⟨8,9⟩,⟨5,11⟩,⟨0,12⟩,⟨-5,11⟩,⟨-8,9⟩,⟨-9,6⟩,⟨-8,3⟩,⟨-5,1⟩,⟨0,0⟩,⟨2,5⟩]) := by decide +kernel

/-- **C74 is false (NaN).** A point with a NaN coordinate can make the scan run out of its stack: index out of range.  (float64) -/
theorem C74_nan_false :
    ConvexHull (F := Float) goSort12 [⟨0,0⟩, ⟨1,0⟩, ⟨0.0/0.0,1⟩] = .error .index := by decide +kernel

/-! ### the caller's slice -/

section
variable {F : Type} [GoFloat F]

/-- **C49 is false.** The caller's points (5,5), (0,0), (1,0) are (0,0), (1,0), (5,5) … reordered after the call.  (float64) -/
theorem C49_alias_false :
    (ConvexHullSlice (F := Float) goSort12 ⟨[[⟨5,5⟩, ⟨0,0⟩, ⟨1,0⟩]]⟩ ⟨0,0,3,3⟩).map (fun r => r.1.read ⟨0,0,3,3⟩) = .ok [⟨1,0⟩, ⟨5,5⟩, ⟨0,0⟩] := by decide +kernel

/-- the result of `ConvexHull` on the caller's points is a permutation, if the sort only swaps -/
theorem hull_after (sortPts : List (Point F) → List (Point F)) (hp : ∀ l, (sortPts l).Perm l) (pts after : List (Point F)) (r : Option (List (Point F)))
    (h : ConvexHull sortPts pts = .ok (after, r)) : after.Perm pts := by
  unfold ConvexHull at h
  by_cases hl : pts.length < 3
  · rw [if_pos hl] at h; cases h; exact List.Perm.refl _
  · rw [if_neg hl] at h
    have hne : pts ≠ [] := by rintro rfl; simp at hl
    have hperm := (hp (FindLowestPoint pts)).trans (FindLowestPoint_perm pts hne)
    generalize sortPts (FindLowestPoint pts) = q at h hperm
    rcases q with _ | ⟨a, _ | ⟨b, rest⟩⟩
    · cases h
    · cases h
    · simp only at h
      cases hsc : hullScan (2 * (a :: b :: rest).length) [b, a] rest with
      | error e => rw [hsc] at h; cases h
      | ok st =>
        rw [hsc, bind_ok'] at h
        by_cases h3 : st.length < 3
        · rw [if_pos h3] at h; cases h; exact hperm
        · rw [if_neg h3] at h
          cases hc : closeRing st.reverse with
          | none => rw [hc] at h; cases h
          | some r' => rw [hc] at h; cases h; exact hperm

/-- **C49, what holds.** `ConvexHull(pts...)` permutes the points of the caller's slice and changes nothing else: slices that share no
element with it stay as they are. -/
theorem C49_permutes_partial (sortPts : List (Point F) → List (Point F)) (hp : ∀ l, (sortPts l).Perm l) (m : Mem (Point F)) (pts : Slice) (hv : m.Valid pts)
    (m' : Mem (Point F)) (r : Option (List (Point F))) (h : ConvexHullSlice sortPts m pts = .ok (m', r)) :
    m'.Valid pts ∧ (m'.read pts).Perm (m.read pts) ∧
    (∀ t, m.Valid t → (t.arr ≠ pts.arr ∨ t.off + t.len ≤ pts.off ∨ pts.off + pts.len ≤ t.off) → m'.Valid t ∧ m'.read t = m.read t) := by
  unfold ConvexHullSlice at h
  cases hc : ConvexHull sortPts (m.read pts) with
  | error e => rw [hc] at h; cases h
  | ok q =>
    obtain ⟨after, r'⟩ := q
    rw [hc, bind_ok'] at h
    cases h
    have hperm := hull_after sortPts hp _ _ _ hc
    have hl : after.length = pts.len := by rw [hperm.length_eq, hv.length]
    by_cases h0 : pts.cap = 0
    · have hlen0 : pts.len = 0 := by have := hv.len; omega
      have : after = [] := List.length_eq_zero_iff.1 (by omega)
      subst this
      have hpoke : m.poke pts 0 [] = m := by
        unfold Mem.poke
        have : (fun a : List (Point F) => a.take (pts.off + 0) ++ [] ++ a.drop (pts.off + 0 + ([] : List (Point F)).length)) = id := by
          funext a; simp
        rw [this]
        have : m.arrs.modify pts.arr id = m.arrs := by
          apply List.ext_getElem?
          intro i
          rw [List.getElem?_modify]; split <;> simp
        rw [this]
      rw [hpoke]
      exact ⟨hv, List.Perm.refl _, fun t ht _ => ⟨ht, rfl⟩⟩
    · have hlt := hv.lt (by omega)
      have hb : pts.off + 0 + after.length ≤ (m.arr pts.arr).length := by
        have := hv.len; have := hv.cap; omega
      refine ⟨hv.poke 0 after hlt hb, ?_, ?_⟩
      · have : (m.poke pts 0 after).read pts = after := by
          apply List.ext_getElem?
          intro i
          rw [Mem.read_getElem?]
          split
          · rename_i hi
            rw [Mem.arr_poke_getElem? m pts 0 after hlt hb, if_pos ⟨rfl, by omega, by omega⟩]
            congr 1; omega
          · rename_i hi
            rw [List.getElem?_eq_none (by omega)]
        rw [this]; exact hperm
      · intro t ht hd
        refine ⟨ht.poke 0 after hlt hb, Mem.read_poke_other m pts t 0 after hlt hb ?_⟩
        rcases hd with h | h | h
        · exact Or.inl h
        · right; left; omega
        · right; right; omega

theorem swapAt_perm' (p : List (Point F)) (i j : Nat) (hi : i < p.length) (hj : j < p.length) : (swapAt p i j).Perm p := swapAt_perm p i j hi hj

/-- Go's insertion sort only swaps, whatever the `Less` -/
theorem insertionSort_perm (l : List (Point F)) : (insertionSort l).Perm l := by
  have inner : ∀ (j : Nat) (p : List (Point F)), j < p.length → (insInner j p).Perm p := by
    intro j
    induction j with
    | zero => intro p _; exact List.Perm.refl _
    | succ j ih =>
      intro p hj
      rw [insInner]
      split
      · exact (ih _ (by rw [swapAt_length]; omega)).trans (swapAt_perm p _ _ hj (by omega))
      · exact List.Perm.refl _
  have outer : ∀ (I : List Nat) (p : List (Point F)), p.Perm l → (∀ i ∈ I, i < l.length) → (I.foldl (fun p i => insInner i p) p).Perm l := by
    intro I
    induction I with
    | nil => intro p hp _; exact hp
    | cons i I ih =>
      intro p hp hI
      rw [List.foldl_cons]
      exact ih _ ((inner i p (by rw [hp.length_eq]; exact hI i (by simp))).trans hp) fun i hi => hI i (by simp [hi])
  apply outer _ l (List.Perm.refl _)
  intro i hi
  rw [List.mem_range'_1] at hi
  omega

end

/-- the hypotheses of `C49_permutes_partial` are met by a call that reorders -/
example : ∃ m' r, ConvexHullSlice (F := Float) insertionSort ⟨[[⟨5,5⟩, ⟨0,0⟩, ⟨1,0⟩]]⟩ ⟨0,0,3,3⟩ = .ok (m', r) ∧ m'.read ⟨0,0,3,3⟩ ≠ [⟨5,5⟩, ⟨0,0⟩, ⟨1,0⟩] ∧
    (m'.read ⟨0,0,3,3⟩).Perm [⟨5,5⟩, ⟨0,0⟩, ⟨1,0⟩] := by
  refine ⟨⟨[[⟨1,0⟩, ⟨5,5⟩, ⟨0,0⟩]]⟩, some [⟨1,0⟩, ⟨5,5⟩, ⟨0,0⟩, ⟨1,0⟩], by decide +kernel, by decide +kernel, ?_⟩
  exact (C49_permutes_partial insertionSort insertionSort_perm ⟨[[⟨5,5⟩, ⟨0,0⟩, ⟨1,0⟩]]⟩ ⟨0,0,3,3⟩ ⟨by decide, by decide⟩ _
    (some [⟨1,0⟩, ⟨5,5⟩, ⟨0,0⟩, ⟨1,0⟩]) (by decide +kernel)).2.1

end GoGeo
