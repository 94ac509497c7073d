import Verif.Go.Slice
import Verif.Go.Math
import Verif.Geo.Box

/-!
# lineString.go, linearRing.go, lineStringZ.go, linearRingZ.go, the multi-part constructors, srid.go

A line is a slice header over a memory of backing arrays; a method with a pointer receiver returns the
new memory and the new header.  `grow` is the unspecified growth policy of `append`.  Receivers are
non-nil.  An error result is `some message`.
-/

namespace GoGeo
open GoFloat

/-- a nil-able Go error -/
abbrev GoError := Option String

section
variable {α : Type} [Inhabited α] (grow : Nat → Nat → Nat)

/-- the loop `for _, v := range args { out = append(out, v) }` from a nil slice, shared by
`NewLineString` (lineString.go:14-21), `NewLinearRing` (linearRing.go:5-9), `NewLineStringZ`
(lineStringZ.go:5-12), `NewLinearRingZ` (linearRingZ.go:5-9), `NewPolygon` (polygon.go:7-14),
`NewPolygonZ` (polygonZ.go:5-12), `NewMultiPoint` (multipoint.go:6-12), `NewMultiPointZ`
(multipointZ.go:5-11), `NewMultiLineString` (multilinestring.go:11-17), `NewMultiLineStringZ`
(multiLineStringZ.go:5-11), `NewMultiPolygon` (multipolygon.go:5-11), `NewMultiPolygonZ`
(multipolygonZ.go:5-11) -/
def copyLoop (m : Mem α) (s : Slice) : List α → Mem α × Slice
  | [] => (m, s)
  | v :: vs => let r := m.append grow s [v]; copyLoop r.1 r.2 vs

/-- `NewLineString` (lineString.go:14-21): the pointer to a new variable is not modelled, only the slice
in it; also `NewLineStringZ` and the multi-part constructors, see `copyLoop` -/
def NewLineString (m : Mem α) (points : List α) : Mem α × Slice := copyLoop grow m Slice.nil points

/-- `LineString.Verify` (lineString.go:27-37) -/
def LineVerify (line : Slice) : GoError :=
  if line.len = 0 then some "line has no point"
  else if line.len = 1 then some "line has only one point"
  else none

/-- `GetFirstPoint` (lineString.go:40-45): nil or the address (array, index) of the first point -/
def GetFirstPoint (line : Slice) : Option (Nat × Nat) :=
  if line.len < 2 then none else some (line.arr, line.off)

/-- `GetEndPoint` (lineString.go:48-53) -/
def GetEndPoint (line : Slice) : Option (Nat × Nat) :=
  if line.len < 2 then none else some (line.arr, line.off + (line.len - 1))

/-- `GetPoint` (lineString.go:56-61) -/
def GetPoint (line : Slice) (index : Int) : Go (Option (Nat × Nat)) :=
  if index > (line.len : Int) - 1 then .ok none
  else if index < 0 then .error .index
  else .ok (some (line.arr, line.off + index.toNat))

/-- `Append` (lineString.go:63-66, lineStringZ.go:34-37, multipoint.go:14-16, multipointZ.go:13-15) -/
def LineAppend (m : Mem α) (line : Slice) (point : α) : Mem α × Slice := m.append grow line [point]

/-- `SetPoint` (lineString.go:69-78) -/
def SetPoint (m : Mem α) (line : Slice) (position : Int) (point : α) : Go (Mem α × Slice × GoError) :=
  if (line.len : Int) < position then .ok (m, line, some "line has no such position")
  else do
    let (m, line) := if (line.len : Int) = position then LineAppend grow m line point else (m, line)
    let m ← m.set line position point
    return (m, line, none)

/-- `InsertPoint` (lineString.go:81-91) -/
def InsertPoint (m : Mem α) (line : Slice) (position : Int) (point : α) : Go (Mem α × Slice × GoError) :=
  if (line.len : Int) < position then .ok (m, line, some "line has no such position")
  else do
    let (m, line) := if (line.len : Int) = position then LineAppend grow m line point else (m, line)
    let head ← Mem.sub line 0 (position + 1)
    let tail ← Mem.sub line position line.len
    let (m, line) := m.append grow head (m.read tail)
    let m ← m.set line position point
    return (m, line, none)

/-- `DelPoint` (lineString.go:94-100) -/
def DelPoint (m : Mem α) (line : Slice) (position : Int) : Go (Mem α × Slice × GoError) :=
  if (line.len : Int) ≤ position then .ok (m, line, some "line has no such position")
  else do
    let head ← Mem.sub line 0 position
    let tail ← Mem.sub line (position + 1) line.len
    let (m, line) := m.append grow head (m.read tail)
    return (m, line, none)

/-- `Reverse` (lineString.go:120-126, lineStringZ.go:49-55), `mid - i` iterations to go -/
def reverseLoop (line : Slice) : Nat → Nat → Mem α → Go (Mem α)
  | 0, _, m => .ok m
  | n + 1, i, m => do
    let a ← m.get line ((line.len : Int) - 1 - i)
    let b ← m.get line i
    let m ← m.set line i a
    let m ← m.set line ((line.len : Int) - 1 - i) b
    reverseLoop line n (i + 1) m

/-- `Reverse` (lineString.go:120-126, lineStringZ.go:49-55) -/
def LineReverse (m : Mem α) (line : Slice) : Go (Mem α) := reverseLoop line (line.len / 2) 0 m

/-- `SplitByIndex` (lineString.go:137-141) -/
def SplitByIndex (line : Slice) (index : Int) : Go (Slice × Slice) := do
  let line1 ← Mem.sub line 0 (index + 1)
  let line2 ← Mem.sub line index line.len
  return (line1, line2)

/-- `NewRingFromLine` (linearRing.go:14-29) for a point equality `eq`; `none` is the nil ring -/
def NewRingFromLine (eq : α → α → Bool) (m : Mem α) (line : Slice) : Go (Mem α × Option Slice) :=
  if LineVerify line ≠ none then .ok (m, none)
  else do
    let firstPoint ← m.get line 0
    let endPoint ← m.get line ((line.len : Int) - 1)
    if eq firstPoint endPoint then return (m, some line)
    else
      let (m, line) := m.append grow line [firstPoint]
      return (m, some line)

/-- `NewRingFromLineZ` (linearRingZ.go:14-25): no length check -/
def NewRingFromLineZ (eq : α → α → Bool) (m : Mem α) (line : Slice) : Go (Mem α × Option Slice) := do
  let firstPoint ← m.get line 0
  let endPoint ← m.get line ((line.len : Int) - 1)
  if eq firstPoint endPoint then return (m, some line)
  else
    let (m, line) := m.append grow line [firstPoint]
    return (m, some line)

/-- `NewLinearRing` (linearRing.go:5-12) -/
def NewLinearRing (eq : α → α → Bool) (m : Mem α) (points : List α) : Go (Mem α × Option Slice) :=
  let r := copyLoop grow m Slice.nil points
  NewRingFromLine grow eq r.1 r.2

/-- `NewLinearRingZ` (linearRingZ.go:5-12) -/
def NewLinearRingZ (eq : α → α → Bool) (m : Mem α) (points : List α) : Go (Mem α × Option Slice) :=
  let r := copyLoop grow m Slice.nil points
  NewRingFromLineZ grow eq r.1 r.2

/-- `*r` of a possibly nil ring -/
def derefRing (r : Mem α × Option Slice) : Go (Mem α × Slice) :=
  match r.2 with
  | none => .error .nilDeref
  | some s => .ok (r.1, s)

/-- `LineString.ToRing` (lineString.go:128-130) -/
def ToRing (eq : α → α → Bool) (m : Mem α) (line : Slice) : Go (Mem α × Slice) := do
  derefRing (← NewRingFromLine grow eq m line)

/-- `LineStringZ.ToRing` (lineStringZ.go:57-59) -/
def ToRingZ (eq : α → α → Bool) (m : Mem α) (line : Slice) : Go (Mem α × Slice) := do
  derefRing (← NewRingFromLineZ grow eq m line)

/-- `NewPolygonFromPois` (polygon.go:16-19): the one ring of the new polygon -/
def NewPolygonFromPois (eq : α → α → Bool) (m : Mem α) (pts : List α) : Go (Mem α × Slice) := do
  derefRing (← NewLinearRing grow eq m pts)

/-- `NewPolygonZFromPois` (polygonZ.go:14-17): the one ring of the new polygon -/
def NewPolygonZFromPois (eq : α → α → Bool) (m : Mem α) (pts : List α) : Go (Mem α × Slice) := do
  derefRing (← NewLinearRingZ grow eq m pts)

/-- `LineString.Equal` / `LineStringZ.Equal` (lineString.go:111-118, lineStringZ.go:40-47) on the points of the two lines -/
def LineEqual (eq : α → α → Bool) : List α → List α → Go Bool
  | [], _ => .ok true
  | _ :: _, [] => .error .index
  | a :: as, b :: bs => if eq a b then LineEqual eq as bs else .ok false

end

section
variable {F : Type} [GoFloat F]

/-- the zero point: what Go fills spare capacity with -/
instance : Inhabited (Point F) := ⟨⟨lit 0, lit 0⟩⟩
instance : Inhabited (PointZ F) := ⟨⟨lit 0, lit 0, lit 0⟩⟩

/-- `PointZ.Equal` (pointZ.go:34-36) -/
def PointZ.Equal (p1 p2 : PointZ F) : Bool :=
  lt (abs (p1.X - p2.X)) COORDPRESION && lt (abs (p1.Y - p2.Y)) COORDPRESION && lt (abs (p1.Z - p2.Z)) COORDPRESION

end

section
variable {F : Type} [GoSqrt F]

/-- `EuclideanDis` (point.go:34-36), `Point.Distance` (point.go:30-32) -/
def EuclideanDis (p1 p2 : Point F) : F :=
  GoSqrt.sqrt ((p1.X - p2.X) * (p1.X - p2.X) + (p1.Y - p2.Y) * (p1.Y - p2.Y))

/-- `EuclideanDisZ` (pointZ.go:29-31): the second point is not used -/
def EuclideanDisZ (p1 _p2 : PointZ F) : F :=
  GoSqrt.sqrt (p1.X * p1.X + p1.Y * p1.Y + p1.Z * p1.Z)

/-- the loop of `Length`: `dis += line[i].Distance(line[i+1])` -/
def lengthLoop (dis : F) : List (Point F) → F
  | p :: q :: rest => lengthLoop (dis + EuclideanDis p q) (q :: rest)
  | _ => dis

/-- `LineString.Length` (lineString.go:102-108), `LinearRing.length` (linearRing.go:35-41) -/
def LineLength (line : List (Point F)) : F := lengthLoop (lit 0) line

end

/-! ### srid.go -/

/-- `SridMap` (srid.go:3): nil, or the entries stored so far; keys are addresses of geometry variables -/
abbrev SridMap := Option (List (Nat × UInt64))

/-- `SetSrid` (polygon.go:21-23, multipoint.go:18-20, multilinestring.go:19-21, multiLineStringZ.go:13-15,
multipolygon.go:13-15): the receiver is a copy, so its address `next` is new; a nil map panics -/
def SetSrid (sm : SridMap) (next : Nat) (srid : UInt64) : Go (SridMap × Nat) :=
  match sm with
  | none => .error .nilMap
  | some es => .ok (some ((next, srid) :: es), next + 1)

/-- `SridMap[key]`: zero when absent -/
def sridOf (sm : SridMap) (key : Nat) : UInt64 :=
  match sm with
  | none => 0
  | some es => (es.lookup key).getD 0

end GoGeo
