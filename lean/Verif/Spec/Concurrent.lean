import Verif.Rtree.Prog
import Verif.Spec.RtreeOps

/-!
# Specification vocabulary: goroutines, schedules, and conditions with effects
-/

namespace GoGeo.Spec
open GoGeo

/-- goroutine `i` makes one step, if it has not finished -/
def stepOf {S α : Type} (c : S × List (Prog S α)) (i : Nat) : S × List (Prog S α) :=
  match c.2[i]? with
  | some (.step u k) => (u c.1, c.2.set i (k c.1))
  | _ => c

/-- the goroutines make steps in the order that the schedule says -/
def exec {S α : Type} (sched : List Nat) (c : S × List (Prog S α)) : S × List (Prog S α) := sched.foldl stepOf c

section
variable {F : Type} [GoFloat F]

/-- a call of one of the methods of a tree that answer questions -/
inductive Query (F : Type) where
  | search (bb : Option (Box F))
  | searchCond (bb : Option (Box F)) (cond : Spatial F → Bool)
  | byID (id : String)
  | nearest (k : Int) (p : Point F)
  | boxes
  | size
  | depth

/-- what such a call returns -/
inductive Answer (F : Type) where
  | objects (l : List (Spatial F))
  | boxes (l : List (Box F))
  | number (n : Int)

/-- the answer of a call that nothing interrupts -/
def Query.ask (srt : GoSort) (s : RState F) : Query F → Go (Answer F)
  | search bb => (SearchIntersect s bb).map .objects
  | searchCond bb c => (SearchIntersectWithCond s bb (some c)).map .objects
  | byID id => (SearchBySpatialID s id).map .objects
  | nearest k p => (NearestNeighbors srt s k p).map .objects
  | boxes => (GetAllBoundingBoxes s).map .boxes
  | size => .ok (.number (Size s))
  | depth => .ok (.number (Depth s))

/-- the call as a goroutine -/
def Query.prog {σ : Type} (srt : GoSort) : Query F → Prog (Shared F σ) (Answer F)
  | search bb => (SearchIntersectWithCondP bb none).bind fun l => .done (.ok (.objects l))
  | searchCond bb c => (SearchIntersectWithCondP bb (some fun o => .done (.ok (c o)))).bind fun l => .done (.ok (.objects l))
  | byID id => (SearchBySpatialIDP id).bind fun l => .done (.ok (.objects l))
  | nearest k p => (NearestNeighborsP srt k p).bind fun l => .done (.ok (.objects l))
  | boxes => GetAllBoundingBoxesP.bind fun l => .done (.ok (.boxes l))
  | size => .read fun s => .ok (.number (Size s.1))
  | depth => .read fun s => .ok (.number (Depth s.1))

/-- a call of `Insert` that happens in one step, as under a lock which the queries do not take -/
def insertNow {σ : Type} (grow : Nat → Nat) (o : Spatial F) : Prog (Shared F σ) (Answer F) :=
  .step (fun s => match Insert grow s.1 o with | .ok t => (t, s.2) | .error _ => s) fun s => .done ((Insert grow s.1 o).map fun _ => .number 0)

/-- the condition is called on every object of the list, in order, until it panics; the objects for which it says yes are kept -/
def callEach {S : Type} (cond : Spatial F → Prog S Bool) : List (Spatial F) → Prog S (List (Spatial F))
  | [] => .done (.ok [])
  | o :: os => (cond o).bind fun b => (callEach cond os).bind fun r => .done (.ok (if b then o :: r else r))

/-- a condition that deletes the object it is asked about and says yes -/
def deleteIt {σ : Type} (grow : Nat → Nat) (o : Spatial F) : Prog (Shared F σ) Bool :=
  .step (fun s => match Delete grow s.1 o with | .ok t => (t.1, s.2) | .error _ => s) fun _ => .done (.ok true)

end
end GoGeo.Spec
