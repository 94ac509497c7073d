import Verif.Rtree.Model
import Verif.Go.Sort

/-!
# rtree.go: nearest neighbours

The two buffers of `NearestNeighbors` are only used as scratch space for the sorted branches: each
level of the recursion uses the part after the entries of its ancestors.  They are modelled by the
number of elements still available.  `dists` and `nearest` are threaded through the recursion and kept
by value.
-/

namespace GoGeo
open GoFloat
variable {F : Type} [GoFloat F]

/-- `minDist` (rtree.go:766-787) -/
def minDist (p : Point F) (r : Box F) : F :=
  let sum : F := lit 0
  let sum :=
    if lt p.X r.MinX then
      let d := p.X - r.MinX
      sum + d * d
    else if gt p.X r.MaxX then
      let d := p.X - r.MaxX
      sum + d * d
    else sum + lit 0
  if lt p.Y r.MinY then
    let d := p.Y - r.MinY
    sum + d * d
  else if gt p.Y r.MaxY then
    let d := p.Y - r.MaxY
    sum + d * d
  else sum + lit 0

/-- the loop of Go's `sort.Search`, on the interval `[i, j)` -/
def goSearch (f : Nat → Go Bool) : Nat → Nat → Nat → Go Nat
  | 0, _, _ => .error .fuel
  | fuel + 1, i, j =>
    if i < j then do
      let h := (i + j) / 2
      if !(← f h) then goSearch f fuel (h + 1) j else goSearch f fuel i h
    else .ok i

/-- read an element of a slice -/
def goGet {α : Type} (l : List α) (i : Nat) : Go α :=
  match l[i]? with
  | some a => .ok a
  | none => .error .index

/-- `sort.SearchFloat64s(a, x)`: `sort.Search(len(a), func(i) { return a[i] >= x })` -/
def searchFloat64s (a : List F) (x : F) : Go Nat :=
  goSearch (fun i => do .ok (ge (← goGet a i) x)) (a.length + 1) 0 a.length

/-- `for i < len(nearest) && dist >= dists[i] { i++ }` (rtree.go:806-808), `n = len(nearest)` -/
def skipNotFarther (dists : List F) (dist : F) (n : Nat) : Nat → Nat → Go Nat
  | 0, _ => .error .fuel
  | fuel + 1, i =>
    if i < n then do
      if ge dist (← goGet dists i) then skipNotFarther dists dist n fuel (i + 1) else .ok i
    else .ok i

/-- shift the elements from `i` on by one place, dropping the last, and write `x` at `i`
(rtree.go:819-822 and 824-827) -/
def shiftIn {α : Type} (l : List α) (i : Nat) (x : α) : Go (List α) :=
  if i < l.length then .ok (l.take i ++ x :: (l.take (l.length - 1)).drop i) else .error .slice

/-- `insertNearest` (rtree.go:804-830); the third result is always false -/
def insertNearest (k : Int) (dists : List F) (nearest : List (Spatial F)) (dist : F) (obj : Spatial F) :
    Go (List F × List (Spatial F)) := do
  let i ← searchFloat64s dists dist
  let i ← skipNotFarther dists dist nearest.length (nearest.length + 1) i
  if k ≤ i then .ok (dists, nearest)
  else
    let (dists, nearest) :=
      if (nearest.length : Int) < k then (dists ++ [lit 0], nearest ++ [Spatial.zero]) else (dists, nearest)
    let dists ← shiftIn dists i dist
    let nearest ← shiftIn nearest i obj
    .ok (dists, nearest)

/-- the loop over the entries of a leaf (rtree.go:835-841) -/
def nearestLeaf (k : Int) (p : Point F) : List (Entry F) → List F → List (Spatial F) → Go (List (Spatial F) × List F)
  | [], dists, nearest => .ok (nearest, dists)
  | e :: es, dists, nearest => do
    let (dists, nearest) ← insertNearest k dists nearest (minDist p e.bb) e.obj
    nearestLeaf k p es dists nearest

/-- `pruneEntriesMinDist` (rtree.go:756-764); every branch is kept with its distance -/
def pruneEntriesMinDist (d : F) (branches : List (F × Entry F)) : List (F × Entry F) :=
  branches.takeWhile fun b => !(gt b.1 d)

/-- the loop over the branches (rtree.go:848-853); `rec` is the recursive call -/
def nearestBranches (rec : Option Nat → List F → List (Spatial F) → Go (List (Spatial F) × List F)) :
    List (F × Entry F) → List F → List (Spatial F) → Go (List (Spatial F) × List F)
  | [], dists, nearest => .ok (nearest, dists)
  | b :: bs, dists, nearest => do
    let (nearest, dists) ← rec b.2.child dists nearest
    nearestBranches rec bs dists nearest

/-- `nearestNeighbors` (rtree.go:832-856) with `sortPreallocEntries` (rtree.go:743-754); `avail` is
the number of elements left in the buffers `b` and `bd` -/
def nearestNode (srt : GoSort) (h : Heap F) (k : Int) (p : Point F) :
    Nat → Int → Option Nat → List F → List (Spatial F) → Go (List (Spatial F) × List F)
  | 0, _, _, _, _ => .error .fuel
  | fuel + 1, avail, n, dists, nearest => do
    let (_, v) ← h.deref n
    if v.leaf then nearestLeaf k p v.entries dists nearest
    else if avail < v.entries.length then .error .slice
    else do
      let branches := srt (F × Entry F) (fun a b => lt a.1 b.1) (v.entries.map fun e => (minDist p e.bb, e))
      let branches ← (if k ≤ dists.length then
          match dists.getLast? with
          | none => .error .index
          | some d => .ok (pruneEntriesMinDist d branches)
        else .ok branches : Go (List (F × Entry F)))
      nearestBranches (nearestNode srt h k p fuel (avail - v.entries.length)) branches dists nearest

/-- `NearestNeighbors` (rtree.go:790-801) -/
def NearestNeighbors (srt : GoSort) (s : RState F) (k : Int) (p : Point F) : Go (List (Spatial F)) := do
  let maxBufSize := s.t.MaxChildren * Depth s
  if maxBufSize < 0 then .error .makeNeg
  else if k < 0 then .error .makeNeg
  else do
    let (objs, _) ← nearestNode srt s.h k p (s.h.nodes.length + 1) maxBufSize (some s.t.root) [] []
    .ok objs

end GoGeo
