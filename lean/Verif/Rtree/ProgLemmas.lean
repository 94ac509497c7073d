import Verif.Rtree.Prog

/-!
# The queries as sequences of accesses: without interruption they are the queries of the model
-/

set_option linter.unusedSectionVars false

namespace GoGeo
open GoFloat Prog

section
variable {F : Type} [GoFloat F] {σ : Type}

theorem readElem_run {s : Shared F σ} (hb : s.1.h.Bnd) {n : Nat} {nd : Node} (hn : s.1.h.nodes[n]? = some nd) {i : Nat} (hi : i < nd.entries.len) :
    ∃ e, (s.1.h.slice nd.entries).drop i = e :: (s.1.h.slice nd.entries).drop (i + 1) ∧ (readElem nd.entries i : Prog (Shared F σ) _).run s = (.ok e, s) := by
  have hl := hb.len hn
  have hi' : i < (s.1.h.slice nd.entries).length := by omega
  refine ⟨(s.1.h.slice nd.entries)[i], List.drop_eq_getElem_cons hi', ?_⟩
  have e := Heap.slice_getElem? s.1.h nd.entries i
  rw [if_pos hi, List.getElem?_eq_getElem hi'] at e
  simp only [readElem, Prog.read, Prog.run, id, ← e]

theorem readLeaf_run {s : Shared F σ} {n : Nat} {nd : Node} (hn : s.1.h.nodes[n]? = some nd) :
    (readLeaf n : Prog (Shared F σ) _).run s = (.ok nd.leaf, s) := by
  simp only [readLeaf, Prog.read, Prog.run, id, hn]

theorem readHdr_run {s : Shared F σ} {n : Nat} {nd : Node} (hn : s.1.h.nodes[n]? = some nd) :
    (readHdr n : Prog (Shared F σ) _).run s = (.ok nd.entries, s) := by
  simp only [readHdr, Prog.read, Prog.run, id, hn]

/-- go on after a step that succeeds and changes nothing -/
theorem run_ok {S α β : Type} {p : Prog S α} {f : α → Prog S β} {s : S} {a : α} (h : p.run s = (.ok a, s)) : (p.bind f).run s = (f a).run s := by
  rw [run_bind, h]

theorem searchLoop_run {s : Shared F σ} (hb : s.1.h.Bnd) {n : Nat} {nd : Node} (hn : s.1.h.nodes[n]? = some nd) (bb : Option (Box F))
    (cond : Option (Spatial F → Bool)) {rec : Option Nat → List (Spatial F) → Go (List (Spatial F))}
    {rec' : Option Nat → List (Spatial F) → Prog (Shared F σ) (List (Spatial F))} (hrec : ∀ c res, (rec' c res).run s = (rec c res, s)) (rem : Nat) :
    ∀ i res, rem + i = nd.entries.len →
    (searchLoopP bb (cond.map fun c o => pure (c o)) rec' n nd.entries rem i res).run s =
      (searchLoop bb cond rec nd.leaf ((s.1.h.slice nd.entries).drop i) res, s) := by
  induction rem with
  | zero =>
    intro i res hi
    rw [List.drop_of_length_le (by rw [hb.len hn]; omega)]
    rfl
  | succ rem ih =>
    intro i res hi
    obtain ⟨e, e1, e2⟩ := readElem_run hb hn (i := i) (by omega)
    rw [e1, searchLoopP, run_ok e2, searchLoop.eq_def]
    simp only
    split
    · exact ih _ _ (by omega)
    · rw [run_ok (readLeaf_run hn)]
      split
      · exact run_bind_eq (hrec _ _) fun a _ => ih _ _ (by omega)
      · cases cond with
        | none => exact ih _ _ (by omega)
        | some c =>
          simp only [Option.map]
          show (searchLoopP bb _ rec' n nd.entries rem (i + 1) _).run s = _
          rw [show (some fun o => pure (c o) : Option (Spatial F → Prog (Shared F σ) Bool)) = (some c).map fun c o => pure (c o) from rfl, ih _ _ (by omega)]
          cases c e.obj <;> rfl

theorem addr_none {s : Shared F σ} {α : Type} (f : Nat → Prog (Shared F σ) α) : ((addr none).bind f).run s = (.error .nilDeref, s) := rfl

theorem searchNode_run {s : Shared F σ} (hb : s.1.h.Bnd) (bb : Option (Box F)) (cond : Option (Spatial F → Bool)) (fuel : Nat) :
    ∀ n res, (searchNodeP bb (cond.map fun c o => pure (c o)) fuel n res).run s = (searchNode s.1.h bb cond fuel n res, s) := by
  induction fuel with
  | zero => intros; rfl
  | succ fuel ih =>
    intro n res
    cases n with
    | none => rfl
    | some n =>
      rw [searchNodeP, searchNode]
      show ((readHdr n).bind _).run s = _
      cases hn : s.1.h.nodes[n]? with
      | none =>
        rw [run_bind]
        simp only [readHdr, Prog.read, Prog.run, id, hn, Heap.deref, Heap.view, Option.map]
        rfl
      | some nd =>
        rw [run_ok (readHdr_run hn), searchLoop_run hb hn bb cond ih nd.entries.len 0 res (by omega)]
        simp only [Heap.deref, Heap.view, hn, Option.map, List.drop_zero]
        rfl

theorem SearchIntersectWithCond_run {s : Shared F σ} (hb : s.1.h.Bnd) (bb : Option (Box F)) (cond : Option (Spatial F → Bool)) :
    (SearchIntersectWithCondP bb (cond.map fun c o => pure (c o))).run s = (SearchIntersectWithCond s.1 bb cond, s) := searchNode_run hb bb cond _ _ _

theorem readAll_run {s : Shared F σ} (hb : s.1.h.Bnd) {n : Nat} {nd : Node} (hn : s.1.h.nodes[n]? = some nd) (rem : Nat) :
    ∀ i, rem + i = nd.entries.len → (readAll nd.entries rem i : Prog (Shared F σ) _).run s = (.ok ((s.1.h.slice nd.entries).drop i), s) := by
  induction rem with
  | zero =>
    intro i hi
    rw [List.drop_of_length_le (by rw [hb.len hn]; omega)]
    rfl
  | succ rem ih =>
    intro i hi
    obtain ⟨e, e1, e2⟩ := readElem_run hb hn (i := i) (by omega)
    rw [readAll, run_ok e2, run_ok (ih (i + 1) (by omega)), e1]
    rfl

theorem SearchBySpatialID_run {s : Shared F σ} (hb : s.1.h.Bnd) (id : String) :
    (SearchBySpatialIDP id).run s = (SearchBySpatialID s.1 id, s) := by
  unfold SearchBySpatialIDP SearchBySpatialID
  show ((readHdr s.1.t.root).bind _).run s = _
  cases hn : s.1.h.nodes[s.1.t.root]? with
  | none =>
    rw [run_bind]
    simp only [readHdr, Prog.read, Prog.run, _root_.id, hn, Heap.deref, Heap.view, Option.map]
    rfl
  | some nd =>
    rw [run_ok (readHdr_run hn), run_ok (readAll_run hb hn nd.entries.len 0 (by omega))]
    have := SearchIntersectWithCond_run hb (some (computeBoundingBox ((s.1.h.slice nd.entries).drop 0))) (some fun o : Spatial F => id == o.ID)
    rw [show (some fun o => pure (id == o.ID) : Option (Spatial F → Prog (Shared F σ) Bool)) = (some fun o : Spatial F => id == o.ID).map fun c o => pure (c o) from rfl, this]
    simp only [Heap.deref, Heap.view, hn, Option.map, List.drop_zero]
    rfl

theorem getAllBoxesLoop_run {s : Shared F σ} (hb : s.1.h.Bnd) {n : Nat} {nd : Node} (hn : s.1.h.nodes[n]? = some nd)
    {rec : Nat → Go (List (Box F))} {rec' : Nat → Prog (Shared F σ) (List (Box F))} (hrec : ∀ c, (rec' c).run s = (rec c, s)) (rem : Nat) :
    ∀ i acc, rem + i = nd.entries.len →
    (getAllBoxesLoopP rec' nd.entries rem i acc).run s = (getAllBoxesLoop rec ((s.1.h.slice nd.entries).drop i) acc, s) := by
  induction rem with
  | zero =>
    intro i acc hi
    rw [List.drop_of_length_le (by rw [hb.len hn]; omega)]
    rfl
  | succ rem ih =>
    intro i acc hi
    obtain ⟨e, e1, e2⟩ := readElem_run hb hn (i := i) (by omega)
    rw [e1, getAllBoxesLoopP, run_ok e2, getAllBoxesLoop]
    cases e.child with
    | none => rfl
    | some c => exact run_bind_eq (hrec c) fun a _ => ih _ _ (by omega)

theorem getAllBoxes_run {s : Shared F σ} (hb : s.1.h.Bnd) (fuel : Nat) :
    ∀ n, (getAllBoxesP fuel n).run s = (getAllBoxes s.1.h fuel n, s) := by
  induction fuel with
  | zero => intros; rfl
  | succ fuel ih =>
    intro n
    rw [getAllBoxesP, getAllBoxes]
    cases hn : s.1.h.nodes[n]? with
    | none =>
      rw [run_bind]
      simp only [readLeaf, Prog.read, Prog.run, id, hn, Heap.deref, Heap.view, Option.map]
      rfl
    | some nd =>
      rw [run_ok (readLeaf_run hn)]
      simp only [Heap.deref, Heap.view, hn, Option.map]
      show _ = (if nd.leaf = true then Except.ok [] else getAllBoxesLoop (getAllBoxes s.1.h fuel) (s.1.h.slice nd.entries) [], s)
      cases nd.leaf with
      | true => rfl
      | false =>
        simp only [Bool.false_eq_true, if_false]
        rw [run_ok (readHdr_run hn), getAllBoxesLoop_run hb hn ih nd.entries.len 0 [] (by omega), List.drop_zero]

theorem GetAllBoundingBoxes_run {s : Shared F σ} (hb : s.1.h.Bnd) : (GetAllBoundingBoxesP).run s = (GetAllBoundingBoxes s.1, s) :=
  getAllBoxes_run hb _ _

theorem nearestLeaf_run {s : Shared F σ} (hb : s.1.h.Bnd) {n : Nat} {nd : Node} (hn : s.1.h.nodes[n]? = some nd) (k : Int) (p : Point F) (rem : Nat) :
    ∀ i dists nearest, rem + i = nd.entries.len →
    (nearestLeafP k p nd.entries rem i dists nearest : Prog (Shared F σ) _).run s = (nearestLeaf k p ((s.1.h.slice nd.entries).drop i) dists nearest, s) := by
  induction rem with
  | zero =>
    intro i dists nearest hi
    rw [List.drop_of_length_le (by rw [hb.len hn]; omega)]
    rfl
  | succ rem ih =>
    intro i dists nearest hi
    obtain ⟨e, e1, e2⟩ := readElem_run hb hn (i := i) (by omega)
    rw [e1, nearestLeafP, run_ok e2, nearestLeaf]
    exact run_bind_eq rfl fun a _ => ih _ _ _ (by omega)

theorem nearestNode_run {s : Shared F σ} (hb : s.1.h.Bnd) (srt : GoSort) (k : Int) (p : Point F) (fuel : Nat) :
    ∀ avail n dists nearest, (nearestNodeP srt k p fuel avail n dists nearest).run s = (nearestNode srt s.1.h k p fuel avail n dists nearest, s) := by
  induction fuel with
  | zero => intros; rfl
  | succ fuel ih =>
    intro avail n dists nearest
    cases n with
    | none => rfl
    | some n =>
      rw [nearestNodeP, nearestNode]
      show ((readLeaf n).bind _).run s = _
      cases hn : s.1.h.nodes[n]? with
      | none =>
        rw [run_bind]
        simp only [readLeaf, Prog.read, Prog.run, id, hn, Heap.deref, Heap.view, Option.map]
        rfl
      | some nd =>
        have hl := hb.len hn
        rw [run_ok (readLeaf_run hn), run_ok (readHdr_run hn)]
        simp only [Heap.deref, Heap.view, hn, Option.map]
        show _ = (if nd.leaf = true then nearestLeaf k p (s.1.h.slice nd.entries) dists nearest
          else if avail < (s.1.h.slice nd.entries).length then Except.error .slice
          else pruneBranches k dists (srt (F × Entry F) (fun a b => lt a.1 b.1) ((s.1.h.slice nd.entries).map fun e => (minDist p e.bb, e))) >>= fun br =>
            nearestBranches (nearestNode srt s.1.h k p fuel (avail - (s.1.h.slice nd.entries).length)) br dists nearest, s)
        cases nd.leaf with
        | true =>
          simp only [if_true]
          rw [nearestLeaf_run hb hn k p nd.entries.len 0 _ _ (by omega), List.drop_zero]
        | false =>
          simp only [Bool.false_eq_true, if_false, hl]
          split
          · rfl
          · rename_i hav
            rw [run_ok (readAll_run hb hn nd.entries.len 0 (by omega)), List.drop_zero]
            refine run_bind_eq (s := s) rfl fun br hbr => ?_
            clear hbr
            generalize dists = ds
            generalize nearest = ns
            induction br generalizing ds ns with
            | nil => rfl
            | cons b bs ihb =>
              rw [nearestBranchesP, run_ok (readHdr_run hn), if_neg hav, nearestBranches]
              exact run_bind_eq (ih _ _ _ _) fun a _ => ihb _ _

theorem NearestNeighbors_run {s : Shared F σ} (hb : s.1.h.Bnd) (srt : GoSort) (k : Int) (p : Point F) :
    (NearestNeighborsP srt k p).run s = (NearestNeighbors srt s.1 k p, s) := by
  unfold NearestNeighborsP NearestNeighbors Depth
  show (if s.1.t.MaxChildren * s.1.t.height < 0 then _ else _ : Prog (Shared F σ) _).run s = _
  simp only
  split
  · rfl
  · split
    · rfl
    · exact run_bind_eq (nearestNode_run hb srt k p _ _ _ _ _) fun a _ => rfl

/-! ## The queries only read -/

theorem searchLoopP_ro (bb : Option (Box F)) {cond : Option (Spatial F → Prog (Shared F σ) Bool)} (hc : ∀ c ∈ cond, ∀ o, (c o).ReadOnly)
    {rec : Option Nat → List (Spatial F) → Prog (Shared F σ) (List (Spatial F))} (hrec : ∀ c res, (rec c res).ReadOnly) (n : Nat) (sl : Slice) (rem : Nat) :
    ∀ i res, (searchLoopP bb cond rec n sl rem i res).ReadOnly := by
  induction rem with
  | zero => intros; trivial
  | succ rem ih =>
    intro i res
    rw [searchLoopP]
    refine (ReadOnly.read _).bind fun e => ?_
    split
    · exact ih _ _
    · refine (ReadOnly.read _).bind fun leaf => ?_
      split
      · exact (hrec _ _).bind fun _ => ih _ _
      · cases cond with
        | none => exact ih _ _
        | some c => exact (hc c rfl _).bind fun _ => ih _ _

theorem searchNodeP_ro (bb : Option (Box F)) {cond : Option (Spatial F → Prog (Shared F σ) Bool)} (hc : ∀ c ∈ cond, ∀ o, (c o).ReadOnly) (fuel : Nat) :
    ∀ n res, (searchNodeP bb cond fuel n res).ReadOnly := by
  induction fuel with
  | zero => intros; trivial
  | succ fuel ih =>
    intro n res
    refine ReadOnly.bind trivial fun n => (ReadOnly.read _).bind fun sl => ?_
    exact searchLoopP_ro bb hc ih n sl _ _ _

theorem SearchIntersectWithCondP_ro (bb : Option (Box F)) {cond : Option (Spatial F → Prog (Shared F σ) Bool)} (hc : ∀ c ∈ cond, ∀ o, (c o).ReadOnly) :
    (SearchIntersectWithCondP bb cond).ReadOnly :=
  (ReadOnly.read _).bind fun _ => (ReadOnly.read _).bind fun _ => searchNodeP_ro bb hc _ _ _

theorem readAll_ro (sl : Slice) (rem : Nat) : ∀ i, (readAll sl rem i : Prog (Shared F σ) _).ReadOnly := by
  induction rem with
  | zero => intros; trivial
  | succ rem ih => intro i; exact (ReadOnly.read _).bind fun e => (ih _).bind fun _ => trivial

theorem SearchBySpatialIDP_ro (id : String) : (SearchBySpatialIDP id : Prog (Shared F σ) _).ReadOnly :=
  (ReadOnly.read _).bind fun _ => (ReadOnly.read _).bind fun _ => (readAll_ro _ _ _).bind fun _ =>
  SearchIntersectWithCondP_ro _ fun c hc o => by cases hc; trivial

theorem getAllBoxesLoopP_ro {rec : Nat → Prog (Shared F σ) (List (Box F))} (hrec : ∀ c, (rec c).ReadOnly) (sl : Slice) (rem : Nat) :
    ∀ i acc, (getAllBoxesLoopP rec sl rem i acc).ReadOnly := by
  induction rem with
  | zero => intros; trivial
  | succ rem ih =>
    intro i acc
    rw [getAllBoxesLoopP]
    refine (ReadOnly.read _).bind fun e => ?_
    cases e.child with
    | none => trivial
    | some c => exact (hrec c).bind fun _ => ih _ _

theorem getAllBoxesP_ro (fuel : Nat) : ∀ n, (getAllBoxesP fuel n : Prog (Shared F σ) _).ReadOnly := by
  induction fuel with
  | zero => intros; trivial
  | succ fuel ih =>
    intro n
    rw [getAllBoxesP]
    refine (ReadOnly.read _).bind fun leaf => ?_
    split
    · trivial
    · exact (ReadOnly.read _).bind fun sl => getAllBoxesLoopP_ro ih _ _ _ _

theorem nearestLeafP_ro (k : Int) (p : Point F) (sl : Slice) (rem : Nat) : ∀ i d n, (nearestLeafP k p sl rem i d n : Prog (Shared F σ) _).ReadOnly := by
  induction rem with
  | zero => intros; trivial
  | succ rem ih => intro i d n; exact (ReadOnly.read _).bind fun e => ReadOnly.bind trivial fun _ => ih _ _ _

theorem nearestNodeP_ro (srt : GoSort) (k : Int) (p : Point F) (fuel : Nat) :
    ∀ avail n d m, (nearestNodeP srt k p fuel avail n d m : Prog (Shared F σ) _).ReadOnly := by
  induction fuel with
  | zero => intros; trivial
  | succ fuel ih =>
    intro avail n d m
    rw [nearestNodeP]
    refine ReadOnly.bind trivial fun n => (ReadOnly.read _).bind fun leaf => (ReadOnly.read _).bind fun sl => ?_
    split
    · exact nearestLeafP_ro _ _ _ _ _ _ _
    · split
      · trivial
      · refine (readAll_ro _ _ _).bind fun es => ReadOnly.bind trivial fun br => ?_
        generalize d = ds
        generalize m = ms
        induction br generalizing ds ms with
        | nil => trivial
        | cons b bs ihb =>
          rw [nearestBranchesP]
          refine (ReadOnly.read _).bind fun sl => ?_
          split
          · trivial
          · exact (ih _ _ _ _).bind fun _ => ihb _ _

theorem NearestNeighborsP_ro (srt : GoSort) (k : Int) (p : Point F) : (NearestNeighborsP srt k p : Prog (Shared F σ) _).ReadOnly := by
  refine (ReadOnly.read _).bind fun _ => (ReadOnly.read _).bind fun _ => (ReadOnly.read _).bind fun _ => ?_
  split
  · trivial
  · split
    · trivial
    · exact (ReadOnly.read _).bind fun _ => (nearestNodeP_ro _ _ _ _ _ _ _ _).bind fun _ => trivial

end
end GoGeo
