import Verif.Rtree.Near
import Verif.Rtree.HeapLemmas

/-!
# rtree.go: the queries as sequences of single accesses to memory

A query running in a goroutine is a `Prog`: it accesses the shared memory once per step, so that other goroutines, or a condition that the query calls,
may do something between any two of its accesses. What is local to a call (the results so far, the scratch arrays) is not shared and is kept by
value, as in `Verif.Rtree.Model` and `Verif.Rtree.Near`.
-/

set_option linter.unusedSectionVars false

namespace GoGeo
open GoFloat

/-- a goroutine that shares memory of type `S`: finished (normally or by a panic), or about to make one step, which sees the memory `s`, leaves `upd s`
and goes on as `k s` -/
inductive Prog (S : Type) (α : Type) where
  | done (r : Go α)
  | step (upd : S → S) (k : S → Prog S α)

namespace Prog
variable {S α β : Type}

/-- run to the end without interruption -/
def run : Prog S α → S → Go α × S
  | done r, s => (r, s)
  | step u k, s => (k s).run (u s)

/-- go on with `f` after `p` -/
def bind : Prog S α → (α → Prog S β) → Prog S β
  | done (.ok a), f => f a
  | done (.error e), _ => done (.error e)
  | step u k, f => step u fun s => (k s).bind f

instance : Monad (Prog S) where
  pure a := done (.ok a)
  bind := bind

/-- read the memory once -/
def read (g : S → Go α) : Prog S α := step id fun s => done (g s)

/-- a panic or a result computed without looking at the shared memory -/
abbrev lift (r : Go α) : Prog S α := done r

/-- no step writes -/
def ReadOnly : Prog S α → Prop
  | done _ => True
  | step u k => (∀ s, u s = s) ∧ ∀ s, (k s).ReadOnly

end Prog

section
variable {F : Type} [GoFloat F] {σ : Type}

/-- the shared memory: the tree, and whatever else (`σ`) the user's functions share -/
abbrev Shared (F σ : Type) := RState F × σ

/-- read `n.leaf` -/
def readLeaf (n : Nat) : Prog (Shared F σ) Bool :=
  .read fun s => match s.1.h.nodes[n]? with | some nd => .ok nd.leaf | none => .error .nilDeref

/-- read the slice header `n.entries` -/
def readHdr (n : Nat) : Prog (Shared F σ) Slice :=
  .read fun s => match s.1.h.nodes[n]? with | some nd => .ok nd.entries | none => .error .nilDeref

/-- read element `i` of a slice of entries -/
def readElem (sl : Slice) (i : Nat) : Prog (Shared F σ) (Entry F) :=
  .read fun s => match (s.1.h.arrs.getD sl.arr [])[sl.off + i]? with | some e => .ok e | none => .error .index

/-- dereference a node pointer held in a local variable -/
def addr (n : Option Nat) : Prog (Shared F σ) Nat := .lift (match n with | some i => .ok i | none => .error .nilDeref)

/-- the loop of `searchIntersectWithCond` (rtree.go:681-697) over the slice `sl` that `n.entries` was when the loop began: `rem` entries are left,
the next is the `i`th; `n.leaf` is read for each. The condition may make steps of its own. -/
def searchLoopP (bb : Option (Box F)) (cond : Option (Spatial F → Prog (Shared F σ) Bool))
    (rec : Option Nat → List (Spatial F) → Prog (Shared F σ) (List (Spatial F))) (n : Nat) (sl : Slice) :
    Nat → Nat → List (Spatial F) → Prog (Shared F σ) (List (Spatial F))
  | 0, _, results => pure results
  | rem + 1, i, results =>
    (readElem sl i).bind fun e =>
    if !(Box.IntersectPtr (some e.bb) bb) then searchLoopP bb cond rec n sl rem (i + 1) results
    else (readLeaf n).bind fun leaf =>
      if !leaf then (rec e.child results).bind fun results => searchLoopP bb cond rec n sl rem (i + 1) results
      else
        match cond with
        | some c => (c e.obj).bind fun b => searchLoopP bb cond rec n sl rem (i + 1) (if b then results ++ [e.obj] else results)
        | none => searchLoopP bb cond rec n sl rem (i + 1) (results ++ [e.obj])

/-- `searchIntersectWithCond` (rtree.go:680-699) -/
def searchNodeP (bb : Option (Box F)) (cond : Option (Spatial F → Prog (Shared F σ) Bool)) :
    Nat → Option Nat → List (Spatial F) → Prog (Shared F σ) (List (Spatial F))
  | 0, _, _ => .lift (.error .fuel)
  | fuel + 1, n, results =>
    (addr n).bind fun n => (readHdr n).bind fun sl => searchLoopP bb cond (searchNodeP bb cond fuel) n sl sl.len 0 results

/-- the fuel of the recursions of the model, one more than the number of nodes at the start -/
def readFuel : Prog (Shared F σ) Nat := .read fun s => .ok (s.1.h.nodes.length + 1)

/-- read `tree.root` -/
def readRoot : Prog (Shared F σ) Nat := .read fun s => .ok s.1.t.root

/-- `SearchIntersectWithCond` (rtree.go:676-678) -/
def SearchIntersectWithCondP (bb : Option (Box F)) (cond : Option (Spatial F → Prog (Shared F σ) Bool)) : Prog (Shared F σ) (List (Spatial F)) :=
  readFuel.bind fun fuel => readRoot.bind fun r => searchNodeP bb cond fuel (some r) []

/-- the entries of a slice, read one after another -/
def readAll (sl : Slice) : Nat → Nat → Prog (Shared F σ) (List (Entry F))
  | 0, _ => pure []
  | rem + 1, i => (readElem sl i).bind fun e => (readAll sl rem (i + 1)).bind fun es => pure (e :: es)

/-- `SearchBySpatialID` (rtree.go:701-707) with `computeBoundingBox` (rtree.go:373-380) -/
def SearchBySpatialIDP (id : String) : Prog (Shared F σ) (List (Spatial F)) :=
  readRoot.bind fun r => (readHdr r).bind fun sl => (readAll sl sl.len 0).bind fun es =>
  SearchIntersectWithCondP (some (computeBoundingBox es)) (some fun o => pure (id == o.ID))

/-- the loop of `getAllBoundingBoxes` (rtree.go:436-442) -/
def getAllBoxesLoopP (rec : Nat → Prog (Shared F σ) (List (Box F))) (sl : Slice) : Nat → Nat → List (Box F) → Prog (Shared F σ) (List (Box F))
  | 0, _, acc => pure acc
  | rem + 1, i, acc =>
    (readElem sl i).bind fun e =>
    match e.child with
    | none => pure acc
    | some c => (rec c).bind fun sub => getAllBoxesLoopP rec sl rem (i + 1) (acc ++ (sub ++ [e.bb]))

/-- `getAllBoundingBoxes` of a node (rtree.go:431-444) -/
def getAllBoxesP : Nat → Nat → Prog (Shared F σ) (List (Box F))
  | 0, _ => .lift (.error .fuel)
  | fuel + 1, n => (readLeaf n).bind fun leaf =>
    if leaf then pure [] else (readHdr n).bind fun sl => getAllBoxesLoopP (getAllBoxesP fuel) sl sl.len 0 []

/-- `GetAllBoundingBoxes` (rtree.go:711-717) -/
def GetAllBoundingBoxesP : Prog (Shared F σ) (List (Box F)) := readFuel.bind fun fuel => readRoot.bind fun r => getAllBoxesP fuel r

/-- the loop over the entries of a leaf (rtree.go:835-841) -/
def nearestLeafP (k : Int) (p : Point F) (sl : Slice) : Nat → Nat → List F → List (Spatial F) → Prog (Shared F σ) (List (Spatial F) × List F)
  | 0, _, dists, nearest => pure (nearest, dists)
  | rem + 1, i, dists, nearest =>
    (readElem sl i).bind fun e => (Prog.lift (insertNearest k dists nearest (minDist p e.bb) e.obj)).bind fun r => nearestLeafP k p sl rem (i + 1) r.1 r.2

/-- the loop over the branches (rtree.go:848-853): `n.entries` is read again for each -/
def nearestBranchesP (n : Nat) (avail : Int) (rec : Int → Option Nat → List F → List (Spatial F) → Prog (Shared F σ) (List (Spatial F) × List F)) :
    List (F × Entry F) → List F → List (Spatial F) → Prog (Shared F σ) (List (Spatial F) × List F)
  | [], dists, nearest => pure (nearest, dists)
  | b :: bs, dists, nearest =>
    (readHdr n).bind fun sl =>
    if avail < sl.len then .lift (.error .slice)
    else (rec (avail - sl.len) b.2.child dists nearest).bind fun r => nearestBranchesP n avail rec bs r.2 r.1

/-- the pruning of the branches (rtree.go:845-847), on local variables -/
def pruneBranches (k : Int) (dists : List F) (branches : List (F × Entry F)) : Go (List (F × Entry F)) :=
  if k ≤ dists.length then
    match dists.getLast? with
    | none => .error .index
    | some d => .ok (pruneEntriesMinDist d branches)
  else .ok branches

/-- `nearestNeighbors` (rtree.go:832-856) -/
def nearestNodeP (srt : GoSort) (k : Int) (p : Point F) :
    Nat → Int → Option Nat → List F → List (Spatial F) → Prog (Shared F σ) (List (Spatial F) × List F)
  | 0, _, _, _, _ => .lift (.error .fuel)
  | fuel + 1, avail, n, dists, nearest =>
    (addr n).bind fun n => (readLeaf n).bind fun leaf => (readHdr n).bind fun sl =>
    if leaf then nearestLeafP k p sl sl.len 0 dists nearest
    else if avail < sl.len then .lift (.error .slice)
    else (readAll sl sl.len 0).bind fun es =>
      (Prog.lift (pruneBranches k dists (srt (F × Entry F) (fun a b => lt a.1 b.1) (es.map fun e => (minDist p e.bb, e))))).bind fun branches =>
      nearestBranchesP n avail (nearestNodeP srt k p fuel) branches dists nearest

/-- `NearestNeighbors` (rtree.go:790-801) -/
def NearestNeighborsP (srt : GoSort) (k : Int) (p : Point F) : Prog (Shared F σ) (List (Spatial F)) :=
  readFuel.bind fun fuel =>
  (Prog.read fun s => .ok s.1.t.MaxChildren).bind fun max =>
  (Prog.read fun s => .ok s.1.t.height).bind fun height =>
  if max * height < 0 then .lift (.error .makeNeg)
  else if k < 0 then .lift (.error .makeNeg)
  else readRoot.bind fun r => (nearestNodeP srt k p fuel (max * height) (some r) [] []).bind fun r => pure r.1

/-! ## Without interruption the steps give what the functions of the model give -/

namespace Prog
variable {S α β : Type}

theorem run_bind (p : Prog S α) (f : α → Prog S β) (s : S) :
    (p.bind f).run s = match p.run s with | (.ok a, s') => (f a).run s' | (.error e, s') => (.error e, s') := by
  induction p generalizing s with
  | done r => cases r <;> rfl
  | step u k ih => exact ih s (u s)

theorem run_bind_eq {p : Prog S α} {f : α → Prog S β} {s : S} {x : Go α} (h : p.run s = (x, s)) {g : α → Go β}
    (hf : ∀ a, x = .ok a → (f a).run s = (g a, s)) : (p.bind f).run s = (x >>= g, s) := by
  rw [run_bind, h]
  cases x with
  | error => rfl
  | ok a => exact hf a rfl

theorem ReadOnly.bind {p : Prog S α} {f : α → Prog S β} (hp : p.ReadOnly) (hf : ∀ a, (f a).ReadOnly) : (p.bind f).ReadOnly := by
  induction p with
  | done r => cases r with
    | error => trivial
    | ok a => exact hf a
  | step u k ih => exact ⟨hp.1, fun s => ih s (hp.2 s)⟩

theorem ReadOnly.read (g : S → Go α) : (Prog.read g).ReadOnly := ⟨fun _ => rfl, fun _ => trivial⟩

theorem ReadOnly.run {p : Prog S α} (h : p.ReadOnly) (s : S) : (p.run s).2 = s := by
  induction p generalizing s with
  | done r => rfl
  | step u k ih =>
    have := ih s (h.2 s) (u s)
    rw [h.1] at this
    rw [Prog.run, h.1]
    exact this

end Prog
end
end GoGeo
