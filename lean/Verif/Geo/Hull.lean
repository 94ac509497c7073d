import Verif.Geo.Measure
import Verif.Go.Slice
import Verif.Geo.Line
import Verif.Go.Sort

/-!
# convexhull.go

`sort.Sort(&points)` calls `Less` and `Swap` on the slice itself, and `Less` looks at the *current* `p[0]`.  The effect of
the sort on the points is a parameter `sortPts`; the theorems assume of it what `HullSort` says.  `insertionSort` below is
the sort Go's library uses for at most 12 elements, with the live `Less`.
-/

namespace GoGeo
open GoFloat

section
variable {F : Type} [GoFloat F]

/-- `Area2` (convexhull.go:84-86) -/
def Area2 (a b c : Point F) : F := (b.X - a.X) * (c.Y - a.Y) - (c.X - a.X) * (b.Y - a.Y)

/-- `isLeft` (convexhull.go:80-82) -/
def isLeft (p0 p1 p2 : Point F) : Bool := ge (Area2 p0 p1 p2) (lit 0)

/-- `hullPts.Less` (convexhull.go:20-37) for the points `p[0]`, `p[i]`, `p[j]` -/
def hullLess (p0 pi pj : Point F) : Bool :=
  let area := Area2 p0 pi pj
  if eq area (lit 0) then
    let x := abs (pi.X - p0.X) - abs (pj.X - p0.X)
    let y := abs (pi.Y - p0.Y) - abs (pj.Y - p0.Y)
    if lt x (lit 0) || lt y (lit 0) then true else false
  else gt area (lit 0)

/-- `hullPts.Swap` (convexhull.go:16-18) -/
def swapAt (p : List (Point F)) (i j : Nat) : List (Point F) := (p.set i (p.getD j default)).set j (p.getD i default)

/-- the index found by `FindLowestPoint` (convexhull.go:40-46) -/
def lowestIdx (p : List (Point F)) : Nat :=
  (List.range' 1 (p.length - 1)).foldl (fun m i =>
    let pi := p.getD i default
    let pm := p.getD m default
    if lt pi.Y pm.Y || (eq pi.Y pm.Y && gt pi.X pm.X) then i else m) 0

/-- `FindLowestPoint` (convexhull.go:39-48) on a non-empty slice -/
def FindLowestPoint (p : List (Point F)) : List (Point F) := swapAt p 0 (lowestIdx p)

/-- the scan (convexhull.go:61-75); the stack top first.  At most `2 * len(points)` iterations are needed. -/
def hullScan : Nat → List (Point F) → List (Point F) → Go (List (Point F))
  | _, stack, [] => .ok stack
  | 0, _, _ :: _ => .error .fuel
  | fuel + 1, p2 :: p1 :: stack, pi :: rest =>
    if isLeft p1 p2 pi then hullScan fuel (pi :: p2 :: p1 :: stack) rest
    else hullScan fuel (p1 :: stack) (pi :: rest)
  | _ + 1, _, _ :: _ => .error .index

/-- `ConvexHull` (convexhull.go:50-78): the points of the caller's slice after the call, and the exterior ring of the result (or nil) -/
def ConvexHull (sortPts : List (Point F) → List (Point F)) (pts : List (Point F)) : Go (List (Point F) × Option (List (Point F))) :=
  if pts.length < 3 then .ok (pts, none)
  else
    let points := sortPts (FindLowestPoint pts)
    match points with
    | a :: b :: rest => do
      let stack ← hullScan (2 * points.length) [b, a] rest
      if stack.length < 3 then return (points, none)
      else match closeRing stack.reverse with
        | none => .error .nilDeref
        | some r => return (points, some r)
    | _ => .error .index

/-- `ConvexHull(pts...)` on a slice of the caller (convexhull.go:50-78, Go's rule for `...`): the parameter is the caller's slice -/
def ConvexHullSlice (sortPts : List (Point F) → List (Point F)) (m : Mem (Point F)) (pts : Slice) :
    Go (Mem (Point F) × Option (List (Point F))) := do
  let r ← ConvexHull sortPts (m.read pts)
  return (m.poke pts 0 r.1, r.2)

/-- `Less(i, j)` of the slice `p` (convexhull.go:20-37) -/
def liveLess (p : List (Point F)) (i j : Nat) : Bool := hullLess (p.getD 0 default) (p.getD i default) (p.getD j default)

/-- inner loop of Go's `insertionSort` (package sort): `for j := i; j > 0 && Less(j, j-1); j-- { Swap(j, j-1) }` -/
def insInner : Nat → List (Point F) → List (Point F)
  | 0, p => p
  | j + 1, p => if liveLess p (j + 1) j then insInner j (swapAt p (j + 1) j) else p

/-- `insertionSort` (package sort), with the live `Less` of `hullPts` -/
def insertionSort (p : List (Point F)) : List (Point F) := (List.range' 1 (p.length - 1)).foldl (fun p i => insInner i p) p

/-- the pass `for i := 6; i < n; i++ { if Less(i, i-6) { Swap(i, i-6) } }` before the insertion sort in `quickSort` (package sort up
to Go 1.18; go.mod names Go 1.15) -/
def shellPass (p : List (Point F)) : List (Point F) :=
  (List.range' 6 (p.length - 6)).foldl (fun p i => if liveLess p i (i - 6) then swapAt p i (i - 6) else p) p

/-- what `sort.Sort(&points)` does to at most 12 points in Go 1.15 (package sort, `quickSort`) -/
def goSort12 (p : List (Point F)) : List (Point F) := insertionSort (shellPass p)

/-- nothing is less than `p[0]` for the `Less` of `hullPts` (true of all finite points) -/
def HeadLeast (o : Point F) (l : List (Point F)) : Prop := ∀ x ∈ l, hullLess o x o = false

/-- what is assumed of `sort.Sort(&points)`: on a slice whose `Less`, for the head it has at the start, is a strict weak order with the
head least, it arrives at a permutation that is sorted for that `Less` -/
def HullSort (sortPts : List (Point F) → List (Point F)) : Prop :=
  ∀ (o : Point F) (l : List (Point F)), HeadLeast o l → WeakOrder (hullLess o) (o :: l) →
    (sortPts (o :: l)).Perm (o :: l) ∧ (sortPts (o :: l)).Pairwise fun a b => hullLess o b a = false

end
end GoGeo
