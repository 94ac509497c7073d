import Verif.Geo.Distance
import Verif.Go.Sort

/-!
# simplify.go

`fuel` bounds the number of iterations of the `for` loop; running out of it is `Panic.fuel`.
-/

namespace GoGeo
open GoFloat GoSqrt GoMath

section
variable {F : Type} [GoMath F]

/-- `line[i]` -/
def idx {α : Type} (line : List α) (i : Nat) : Go α :=
  match line[i]? with
  | some x => .ok x
  | none => .error .index

/-- one round of the search for the farthest point (simplify.go:32-36) -/
def dpMaxStep (line : List (Point F)) (srid : Int) (start «end» : Nat) (best : F × Nat) (i : Nat) : Go (F × Nat) := do
  let p ← idx line i
  let a ← idx line start
  let b ← idx line «end»
  let dist := (PointToSegmentDistance p a b srid).1
  return if gt dist best.1 then (dist, i) else best

/-- the indices `start+1 … end-1` -/
def between (start «end» : Nat) : List Nat := List.range' (start + 1) («end» - (start + 1))

/-- the farthest point and its distance (simplify.go:29-37) -/
def dpMax (line : List (Point F)) (srid : Int) (start «end» : Nat) : Go (F × Nat) :=
  (between start «end»).foldlM (dpMaxStep line srid start «end») (lit 0, 0)

/-- the loop of `dpWorker` (simplify.go:24-46).  The stack of numbers always has even length; it is a list of pairs
`(start, end)`, top first. -/
def dpLoop (line : List (Point F)) (threshold : F) (srid : Int) : Nat → List (Nat × Nat) → List Nat → Go (List Nat)
  | _, [], delIndexs => .ok delIndexs
  | 0, _ :: _, _ => .error .fuel
  | fuel + 1, (start, «end») :: stack, delIndexs => do
    let (maxDist, maxIndex) ← dpMax line srid start «end»
    if gt maxDist threshold then dpLoop line threshold srid fuel ((maxIndex, «end») :: (start, maxIndex) :: stack) delIndexs
    else dpLoop line threshold srid fuel stack (delIndexs ++ between start «end»)

/-- `dpWorker` (simplify.go:20-48).  For an empty line the code starts with `end = -1`, the model with `end = 0`: neither
has indices between. -/
def dpWorker (fuel : Nat) (line : List (Point F)) (threshold : F) (srid : Int) : Go (List Nat) :=
  dpLoop line threshold srid fuel [(0, line.length - 1)] []

/-- the deletion loop (simplify.go:14-16) -/
def delLoop {α : Type} [Inhabited α] (grow : Nat → Nat → Nat) (m : Mem α) (line : Slice) : List Nat → Go (Mem α × Slice)
  | [] => .ok (m, line)
  | v :: vs => do
    let head ← Mem.sub line 0 v
    let tail ← Mem.sub line ((v : Int) + 1) line.len
    let (m, line) := m.append grow head (m.read tail)
    delLoop grow m line vs

/-- `DouglasPeuckerSimplify` (simplify.go:8-18); `sort.Sort(sort.Reverse(sort.IntSlice(…)))` is `srt` with the
reversed order of numbers -/
def DouglasPeuckerSimplify (srt : GoSort) (grow : Nat → Nat → Nat) (fuel : Nat) (m : Mem (Point F)) (line : Slice) (threshold : F) (srid : Int) :
    Go (Mem (Point F) × Slice) := do
  let delIndexs ← dpWorker fuel (m.read line) threshold srid
  delLoop grow m line (srt Nat (fun a b => decide (b < a)) delIndexs)

end
end GoGeo
