import Verif.Rtree.Heap

/-!
# rtree.go, function by function

Pointer recursion takes fuel (`Panic.fuel` when it runs out; the theorems show it does not).  `grow`
is Go's slice growth policy, left open.
-/

namespace GoGeo
open GoFloat
variable {F : Type} [GoFloat F]

/-- `Rtree` (rtree.go:10-16) -/
structure Rtree where
  MinChildren : Int
  MaxChildren : Int
  root : Nat
  size : Int
  height : Int
deriving DecidableEq, Repr

/-- memory plus the tree header -/
structure RState (F : Type) where
  h : Heap F
  t : Rtree

/-- `NewMinMaxTree(min, max)` without objects (rtree.go:60-70) -/
def NewEmptyTree (min max : Int) : RState F :=
  let (h, r) := (⟨[], []⟩ : Heap F).alloc none true 1 []
  ⟨h, ⟨min, max, r, 0, 1⟩⟩

/-- `Size` (rtree.go:84-86) -/
def Size (s : RState F) : Int := s.t.size

/-- `Depth` (rtree.go:89-91) -/
def Depth (s : RState F) : Int := s.t.height

/-- `computeBoundingBox` (rtree.go:373-380) of a node with the given entries -/
def computeBoundingBox (es : List (Entry F)) : Box F := BoxUnion (es.map (·.bb))

/-! ## insertion -/

/-- loop of `chooseNode` (rtree.go:316-325); `chosen = none` is the zero entry, whose `bb` is nil -/
def chooseLoop (e : Entry F) : List (Entry F) → F → Option (Entry F) → Go (Option (Entry F))
  | [], _, chosen => .ok chosen
  | en :: es, diff, chosen =>
    let bb := en.bb.Union e.bb
    let d := bb.Size - en.bb.Size
    if lt d diff then chooseLoop e es d (some en)
    else if eq d diff then
      match chosen with
      | none => .error .nilDeref
      | some c =>
        if lt en.bb.Size c.bb.Size then chooseLoop e es d (some en) else chooseLoop e es diff chosen
    else chooseLoop e es diff chosen

/-- `chooseNode` (rtree.go:310-328) -/
def chooseNode (h : Heap F) (e : Entry F) (level : Int) : Nat → Option Nat → Go Nat
  | 0, _ => .error .fuel
  | fuel + 1, n => do
    let (id, v) ← h.deref n
    if v.leaf || v.level == level then .ok id
    else
      let chosen ← chooseLoop e v.entries maxFloat64 none
      chooseNode h e level fuel (chosen.bind (·.child))

/-- `getEntry` (rtree.go:361-370): index of the first entry of the parent pointing to `n` -/
def getEntry (n : Nat) (parentEntries : List (Entry F)) : Option Nat :=
  parentEntries.findIdx? fun e => e.child == some n

/-- inner loop of `pickSeeds` (rtree.go:493-499) over `entries[i+1:]`, at index `j` -/
def pickSeedsInner (e1 : Entry F) (i : Nat) :
    List (Entry F) → Nat → F × Nat × Nat → F × Nat × Nat
  | [], _, acc => acc
  | e2 :: es, j, (mx, l, r) =>
    let d := (e1.bb.Union e2.bb).Size - e1.bb.Size - e2.bb.Size
    pickSeedsInner e1 i es (j + 1) (if gt d mx then (d, i, j + i + 1) else (mx, l, r))

/-- outer loop of `pickSeeds` (rtree.go:492-500) -/
def pickSeedsOuter : List (Entry F) → Nat → F × Nat × Nat → F × Nat × Nat
  | [], _, acc => acc
  | e1 :: es, i, acc => pickSeedsOuter es (i + 1) (pickSeedsInner e1 i es 0 acc)

/-- `pickSeeds` (rtree.go:489-502) -/
def pickSeeds (es : List (Entry F)) : Nat × Nat :=
  (pickSeedsOuter es 0 (-(lit 1), 0, 1)).2

/-- loop of `pickNext` (rtree.go:509-517) -/
def pickNextLoop (leftBB rightBB : Box F) : List (Entry F) → Nat → F × Nat → F × Nat
  | [], _, acc => acc
  | e :: es, i, (mx, next) =>
    let d1 := (leftBB.Union e.bb).Size - leftBB.Size
    let d2 := (rightBB.Union e.bb).Size - rightBB.Size
    let d := abs (d1 - d2)
    pickNextLoop leftBB rightBB es (i + 1) (if gt d mx then (d, i) else (mx, next))

/-- `pickNext` (rtree.go:505-519) -/
def pickNext (left right : List (Entry F)) (entries : List (Entry F)) : Nat :=
  (pickNextLoop (computeBoundingBox left) (computeBoundingBox right) entries 0 (-(lit 1), 0)).2

/-- `assign` (rtree.go:446-451) -/
def assign (grow : Nat → Nat) (h : Heap F) (e : Entry F) (group : Nat) : Heap F :=
  (h.setChildParent e group).append grow group e

/-- the decision of `assignGroup` (rtree.go:454-486): true = left -/
def assignGroupLeft (e : Entry F) (left right : List (Entry F)) : Bool :=
  let leftBB := computeBoundingBox left
  let rightBB := computeBoundingBox right
  let leftDiff := (leftBB.Union e.bb).Size - leftBB.Size
  let rightDiff := (rightBB.Union e.bb).Size - rightBB.Size
  let diff := leftDiff - rightDiff
  if lt diff (lit 0) then true
  else if gt diff (lit 0) then false
  else
    let diff := leftBB.Size - rightBB.Size
    if lt diff (lit 0) then true
    else if gt diff (lit 0) then false
    else left.length ≤ right.length

/-- loop of `split` (rtree.go:412-425).  `remaining` is the start of `old`, the slice the node had; shortening it in place
(rtree.go:424) overwrites elements of `old`, which another node may still use. -/
def splitLoop (grow : Nat → Nat) (left right : Nat) (minGroupSize : Int) (old : Slice) :
    Nat → Heap F → List (Entry F) → Go (Heap F)
  | 0, h, _ => .ok h
  | fuel + 1, h, remaining =>
    if remaining.length = 0 then .ok h
    else do
      let (_, lv) ← h.deref (some left)
      let (_, rv) ← h.deref (some right)
      let next := pickNext lv.entries rv.entries remaining
      match remaining[next]? with
      | none => .error .index
      | some e =>
        let toLeft :=
          if (remaining.length : Int) + lv.entries.length ≤ minGroupSize then true
          else if (remaining.length : Int) + rv.entries.length ≤ minGroupSize then false
          else assignGroupLeft e lv.entries rv.entries
        let h := assign grow h e (if toLeft then left else right)
        let remaining := remaining.take next ++ remaining.drop (next + 1)
        splitLoop grow left right minGroupSize old fuel (h.blit old remaining) remaining

/-- `split` (rtree.go:384-428): `n` is reused as the left node; returns the right node.  The two `append`s that build
`remaining` (rtree.go:390-391) write to the array of `n.entries`. -/
def split (grow : Nat → Nat) (h : Heap F) (n : Nat) (minGroupSize : Int) : Go (Heap F × Nat) := do
  let (_, v) ← h.deref (some n)
  let (l, r) := pickSeeds v.entries
  match v.entries[l]?, v.entries[r]? with
  | some leftSeed, some rightSeed =>
    let old := h.sliceOf n
    let remaining := v.entries.take l ++ (v.entries.drop (l + 1)).take (r - (l + 1)) ++ v.entries.drop (r + 1)
    let h := h.blit old remaining
    let h := h.setEntries n [leftSeed]
    let (h, right) := h.alloc v.parent v.leaf v.level [rightSeed]
    let h := h.setChildParent rightSeed right
    let h := h.setChildParent leftSeed n
    let h ← splitLoop grow n right minGroupSize old remaining.length h remaining
    .ok (h, right)
  | _, _ => .error .index

/-- `adjustTree` (rtree.go:331-358); `nn = none` is nil -/
def adjustTree (grow : Nat → Nat) (t : Rtree) : Nat → Heap F → Option Nat → Option Nat →
    Go (Heap F × Option Nat × Option Nat)
  | 0, _, _, _ => .error .fuel
  | fuel + 1, h, n, nn =>
    if n = some t.root then .ok (h, n, nn)
    else do
      let (ni, v) ← h.deref n
      let (pi, p) ← h.deref v.parent
      match getEntry ni p.entries with
      | none => .error .nilDeref
      | some i =>
        let h := h.setBB pi i (computeBoundingBox v.entries)
        match nn with
        | none => adjustTree grow t fuel h (some pi) none
        | some nni => do
          let (_, nv) ← h.deref (some nni)
          let h := h.append grow pi ⟨computeBoundingBox nv.entries, some nni, Spatial.zero⟩
          let (_, p) ← h.deref (some pi)
          if (p.entries.length : Int) > t.MaxChildren then
            let (h, r) ← split grow h pi t.MinChildren
            adjustTree grow t fuel h (some pi) (some r)
          else adjustTree grow t fuel h (some pi) none

/-- the end of `insert` (rtree.go:292-306): when the root was split, a new root above both halves -/
def growRoot (t : Rtree) (h : Heap F) (root splitRoot : Option Nat) : Go (RState F) :=
  match splitRoot with
  | none => .ok ⟨h, t⟩
  | some sr => do
    let (oldRoot, ov) ← h.deref root
    let (_, sv) ← h.deref (some sr)
    let height := t.height + 1
    let (h, newRoot) := h.alloc none false height
      [⟨computeBoundingBox ov.entries, some oldRoot, Spatial.zero⟩,
       ⟨computeBoundingBox sv.entries, some sr, Spatial.zero⟩]
    let h := h.setParent oldRoot (some newRoot)
    let h := h.setParent sr (some newRoot)
    .ok ⟨h, { t with root := newRoot, height := height }⟩

/-- `insert` (rtree.go:278-307) -/
def insert (grow : Nat → Nat) (s : RState F) (e : Entry F) (level : Int) : Go (RState F) := do
  let leaf ← chooseNode s.h e level (s.h.nodes.length + 1) (some s.t.root)
  let h := s.h.append grow leaf e
  let h := h.setChildParent e leaf
  let (_, lv) ← h.deref (some leaf)
  let (h, sp) ← (if (lv.entries.length : Int) > s.t.MaxChildren then do
      let (h, r) ← split grow h leaf s.t.MinChildren
      .ok (h, some r)
    else .ok (h, none) : Go (Heap F × Option Nat))
  let (h, root, splitRoot) ← adjustTree grow s.t (h.nodes.length + 1) h (some leaf) sp
  growRoot s.t h root splitRoot

/-- `Insert` (rtree.go:264-268) -/
def Insert (grow : Nat → Nat) (s : RState F) (obj : Spatial F) : Go (RState F) := do
  let s ← insert grow s ⟨BoundingBox obj.Geom, none, obj⟩ 1
  .ok ⟨s.h, { s.t with size := s.t.size + 1 }⟩

/-! ## deletion -/

/-- `Condition func(object ...Spatial) bool` (rtree.go:522) called with two objects.  It may panic
(`==` on uncomparable dynamic types).  Simplification: it is a pure function. -/
abbrev Cond2 (F : Type) := Spatial F → Spatial F → Go Bool

/-- does some entry satisfy `cmp` (rtree.go:624-628)? -/
def anyMatch (cmp : Cond2 F) (obj : Spatial F) : List (Entry F) → Go Bool
  | [] => .ok false
  | e :: es => do
    if ← cmp e.obj obj then .ok true else anyMatch cmp obj es

/-- loop of `findLeaf` (rtree.go:617-630); `rec` is the recursive call -/
def findLeafLoop (h : Heap F) (obj : Spatial F) (cmp : Cond2 F) (rec : Option Nat → Go (Option Nat)) :
    List (Entry F) → Go (Option Nat)
  | [] => .ok none
  | e :: es =>
    if e.bb.Contain (BoundingBox obj.Geom) then do
      match ← rec e.child with
      | none => findLeafLoop h obj cmp rec es
      | some leaf => do
        let (_, lv) ← h.deref (some leaf)
        if ← anyMatch cmp obj lv.entries then .ok (some leaf)
        else findLeafLoop h obj cmp rec es
    else findLeafLoop h obj cmp rec es

/-- `findLeaf` (rtree.go:612-632) -/
def findLeaf (h : Heap F) (obj : Spatial F) (cmp : Cond2 F) : Nat → Option Nat → Go (Option Nat)
  | 0, _ => .error .fuel
  | fuel + 1, n => do
    let (id, v) ← h.deref n
    if v.leaf then .ok (some id) else findLeafLoop h obj cmp (findLeaf h obj cmp fuel) v.entries

/-- loop of `condenseTree` (rtree.go:638-661); `deleted` in order.  The new `entries` slice of the
parent is a new array (its spare capacity is not observable). -/
def condenseLoop (t : Rtree) : Nat → Heap F → Option Nat → List Nat → Go (Heap F × List Nat)
  | 0, _, _, _ => .error .fuel
  | fuel + 1, h, n, deleted =>
    if n = some t.root then .ok (h, deleted)
    else do
      let (ni, v) ← h.deref n
      let (pi, p) ← h.deref v.parent
      if (v.entries.length : Int) < t.MinChildren then
        let entries := p.entries.filter fun e => e.child != some ni
        if p.entries.length = entries.length then .error .explicit
        else
          let h := h.setEntries pi entries
          let deleted := if v.entries.length > 0 then deleted ++ [ni] else deleted
          condenseLoop t fuel h (some pi) deleted
      else
        match getEntry ni p.entries with
        | none => .error .nilDeref
        | some i => condenseLoop t fuel (h.setBB pi i (computeBoundingBox v.entries)) (some pi) deleted

/-- re-insertion loop of `condenseTree` (rtree.go:663-667) -/
def reinsert (grow : Nat → Nat) : List Nat → RState F → Go (RState F)
  | [], s => .ok s
  | n :: ns, s => do
    let (_, v) ← s.h.deref (some n)
    let s ← insert grow s ⟨computeBoundingBox v.entries, some n, Spatial.zero⟩ (v.level + 1)
    reinsert grow ns s

/-- `condenseTree` (rtree.go:635-668) -/
def condenseTree (grow : Nat → Nat) (s : RState F) (n : Nat) : Go (RState F) := do
  let (h, deleted) ← condenseLoop s.t (s.h.nodes.length + 1) s.h (some n) []
  reinsert grow deleted ⟨h, s.t⟩

/-- last index whose entry satisfies `cond` (rtree.go:587-592), starting at index `i` -/
def lastMatch (cond : Cond2 F) (obj : Spatial F) : List (Entry F) → Nat → Option Nat → Go (Option Nat)
  | [], _, ind => .ok ind
  | e :: es, i, ind => do
    if ← cond e.obj obj then lastMatch cond obj es (i + 1) (some i)
    else lastMatch cond obj es (i + 1) ind

/-- `DeleteWithComparator` (rtree.go:581-609) -/
def DeleteWithComparator (grow : Nat → Nat) (s : RState F) (obj : Spatial F) (cond : Cond2 F) :
    Go (RState F × Bool) := do
  match ← findLeaf s.h obj cond (s.h.nodes.length + 1) (some s.t.root) with
  | none => .ok (s, false)
  | some n => do
    let (_, v) ← s.h.deref (some n)
    match ← lastMatch cond obj v.entries 0 none with
    | none => .ok (s, false)
    | some ind => do
      let h := s.h.removeAt n ind
      let s ← condenseTree grow ⟨h, s.t⟩ n
      let t := { s.t with size := s.t.size - 1 }
      let (_, rv) ← s.h.deref (some t.root)
      let root ← (if !rv.leaf && rv.entries.length == 1 then
          match rv.entries with
          | e :: _ => match e.child with
            | some c => .ok c
            | none => .error .nilDeref
          | [] => .error .index
        else .ok t.root : Go Nat)
      let (_, rv) ← s.h.deref (some root)
      .ok (⟨s.h, { t with root := root, height := rv.level }⟩, true)

/-- `==` on the interface values `Properties` -/
def PropVal.goEq : PropVal → PropVal → Go Bool
  | .nil, .nil => .ok true
  | .comparable a x, .comparable b y => .ok (a == b && x == y)
  | .uncomparable a _, .uncomparable b _ => if a = b then .error .uncomparable else .ok false
  | _, _ => .ok false

/-- `==` on the interface values `Geom`: different dynamic types are unequal; pointers compare by
address; points field by field; slice types panic. -/
def Geometry.goEq : Geometry F → Geometry F → Go Bool
  | .nil, .nil => .ok true
  | .point p, .point q => .ok (eq p.X q.X && eq p.Y q.Y)
  | .pointZ p, .pointZ q => .ok (eq p.X q.X && eq p.Y q.Y && eq p.Z q.Z)
  | .ptr a _, .ptr b _ => .ok (a == b)
  | .multiPoint _, .multiPoint _ => .error .uncomparable
  | .lineString _, .lineString _ => .error .uncomparable
  | .multiLineString _, .multiLineString _ => .error .uncomparable
  | .polygon _, .polygon _ => .error .uncomparable
  | .multiPolygon _, .multiPolygon _ => .error .uncomparable
  | .multiPointZ _, .multiPointZ _ => .error .uncomparable
  | .lineStringZ _, .lineStringZ _ => .error .uncomparable
  | .multiLineStringZ _, .multiLineStringZ _ => .error .uncomparable
  | .polygonZ _, .polygonZ _ => .error .uncomparable
  | .multiPolygonZ _, .multiPolygonZ _ => .error .uncomparable
  | .collection _, .collection _ => .error .uncomparable
  | _, _ => .ok false

/-- `object[0] == object[1]` on `Spatial` values (rtree.go:533): fields in order, stopping at the
first difference -/
def Spatial.goEq (a b : Spatial F) : Go Bool :=
  if a.ID ≠ b.ID then .ok false
  else do
    if ← a.Properties.goEq b.Properties then a.Geom.goEq b.Geom else .ok false

/-- `Delete` (rtree.go:528-536) -/
def Delete (grow : Nat → Nat) (s : RState F) (obj : Spatial F) : Go (RState F × Bool) :=
  DeleteWithComparator grow s obj Spatial.goEq

/-! ## searching -/

/-- loop of `searchIntersectWithCond` (rtree.go:681-697); `rec` is the recursive call.
`cond = none` is a nil condition.  Simplification: conditions are pure and do not panic. -/
def searchLoop (bb : Option (Box F)) (cond : Option (Spatial F → Bool))
    (rec : Option Nat → List (Spatial F) → Go (List (Spatial F)))
    (leaf : Bool) : List (Entry F) → List (Spatial F) → Go (List (Spatial F))
  | [], results => .ok results
  | e :: es, results =>
    if !(Box.IntersectPtr (some e.bb) bb) then searchLoop bb cond rec leaf es results
    else if !leaf then do
      let results ← rec e.child results
      searchLoop bb cond rec leaf es results
    else
      match cond with
      | some c =>
        if c e.obj then searchLoop bb cond rec leaf es (results ++ [e.obj])
        else searchLoop bb cond rec leaf es results
      | none => searchLoop bb cond rec leaf es (results ++ [e.obj])

/-- `searchIntersectWithCond` (rtree.go:680-699) -/
def searchNode (h : Heap F) (bb : Option (Box F)) (cond : Option (Spatial F → Bool)) :
    Nat → Option Nat → List (Spatial F) → Go (List (Spatial F))
  | 0, _, _ => .error .fuel
  | fuel + 1, n, results => do
    let (_, v) ← h.deref n
    searchLoop bb cond (searchNode h bb cond fuel) v.leaf v.entries results

/-- `SearchIntersectWithCond` (rtree.go:676-678) -/
def SearchIntersectWithCond (s : RState F) (bb : Option (Box F)) (cond : Option (Spatial F → Bool)) :
    Go (List (Spatial F)) :=
  searchNode s.h bb cond (s.h.nodes.length + 1) (some s.t.root) []

/-- `SearchIntersect` (rtree.go:672-674) -/
def SearchIntersect (s : RState F) (bb : Option (Box F)) : Go (List (Spatial F)) :=
  SearchIntersectWithCond s bb none

/-- `SearchBySpatialID` (rtree.go:701-707) -/
def SearchBySpatialID (s : RState F) (id : String) : Go (List (Spatial F)) := do
  let (_, v) ← s.h.deref (some s.t.root)
  SearchIntersectWithCond s (some (computeBoundingBox v.entries)) (some fun o => id == o.ID)

/-- the condition of `DeleteBySpatialID` (rtree.go:539-544) -/
def sameID : Cond2 F := fun a b => .ok (a.ID == b.ID)

/-- loop of `DeleteBySpatialID` (rtree.go:549-551) -/
def deleteEach (grow : Nat → Nat) : List (Spatial F) → RState F → Go (RState F)
  | [], s => .ok s
  | sp :: sps, s => do
    let (s, _) ← DeleteWithComparator grow s sp sameID
    deleteEach grow sps s

/-- `DeleteBySpatialID` (rtree.go:538-553) -/
def DeleteBySpatialID (grow : Nat → Nat) (s : RState F) (id : String) : Go (RState F × Bool) := do
  let sps ← SearchBySpatialID s id
  if sps.length = 0 then .ok (s, false)
  else do
    let s ← deleteEach grow sps s
    .ok (s, true)

/-- `UpsertBySpatialID` (rtree.go:859-864) -/
def UpsertBySpatialID (grow : Nat → Nat) : List (Spatial F) → RState F → Go (RState F)
  | [], s => .ok s
  | o :: os, s => do
    let (s, _) ← DeleteBySpatialID grow s o.ID
    let s ← Insert grow s o
    UpsertBySpatialID grow os s

/-- loop of `getAllBoundingBoxes` (rtree.go:436-442); `rec` is the recursive call -/
def getAllBoxesLoop (rec : Nat → Go (List (Box F))) : List (Entry F) → List (Box F) → Go (List (Box F))
  | [], acc => .ok acc
  | e :: es, acc =>
    match e.child with
    | none => .ok acc
    | some c => do
      let sub ← rec c
      getAllBoxesLoop rec es (acc ++ (sub ++ [e.bb]))

/-- `getAllBoundingBoxes` of a node (rtree.go:431-444) -/
def getAllBoxes (h : Heap F) : Nat → Nat → Go (List (Box F))
  | 0, _ => .error .fuel
  | fuel + 1, n => do
    let (_, v) ← h.deref (some n)
    if v.leaf then .ok [] else getAllBoxesLoop (getAllBoxes h fuel) v.entries []

/-- `GetAllBoundingBoxes` (rtree.go:711-717) -/
def GetAllBoundingBoxes (s : RState F) : Go (List (Box F)) :=
  getAllBoxes s.h (s.h.nodes.length + 1) s.t.root

end GoGeo
