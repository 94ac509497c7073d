import Verif.Geo.Box

/-!
# The memory of an R-tree: nodes and the backing arrays of their `entries` slices

Node pointers are indices into `Heap.nodes`; `entries` slices are `(array, offset, len, cap)` over
`Heap.arrs`, so that two nodes may share a backing array (as the leaves of a bulk-loaded tree do).
-/

namespace GoGeo
variable {F : Type} [GoFloat F]

/-- `Properties interface{}` of a `Spatial` (rtree.go:259): nil, a value of a comparable dynamic type,
or a value of an uncomparable dynamic type (map, slice, func).  Only what `==` observes is kept. -/
inductive PropVal where
  | nil
  | comparable (type value : Nat)
  | uncomparable (type value : Nat)
deriving DecidableEq, Repr

/-- `Spatial` (rtree.go:257-261) -/
structure Spatial (F : Type) where
  ID : String
  Properties : PropVal
  Geom : Geometry F

/-- the zero value `Spatial{}` -/
def Spatial.zero : Spatial F := ⟨"", .nil, .nil⟩

/-- `entry` (rtree.go:243-247).  `bb` is a non-nil pointer to a box that is never written through, so
the box itself is kept. -/
structure Entry (F : Type) where
  bb : Box F
  child : Option Nat
  obj : Spatial F

/-- filler for unused capacity (never read by the code) -/
def Entry.zero : Entry F := ⟨Box.zero, none, Spatial.zero⟩

/-- a slice header -/
structure Slice where
  arr : Nat
  off : Nat
  len : Nat
  cap : Nat
deriving DecidableEq, Repr

/-- `node` (rtree.go:231-236) -/
structure Node where
  parent : Option Nat
  leaf : Bool
  entries : Slice
  level : Int
deriving DecidableEq, Repr

/-- all nodes and all backing arrays -/
structure Heap (F : Type) where
  nodes : List Node
  arrs : List (List (Entry F))

/-- what reading a node gives -/
structure NodeV (F : Type) where
  parent : Option Nat
  leaf : Bool
  level : Int
  entries : List (Entry F)

namespace Heap

/-- the elements of a slice -/
def slice (h : Heap F) (s : Slice) : List (Entry F) :=
  ((h.arrs.getD s.arr []).drop s.off).take s.len

/-- read a node -/
def view (h : Heap F) (n : Nat) : Option (NodeV F) :=
  h.nodes[n]?.map fun nd => ⟨nd.parent, nd.leaf, nd.level, h.slice nd.entries⟩

/-- dereference a node pointer -/
def deref (h : Heap F) (n : Option Nat) : Go (Nat × NodeV F) :=
  match n with
  | none => .error .nilDeref
  | some i =>
    match h.view i with
    | none => .error .nilDeref
    | some v => .ok (i, v)

/-- `n.entries = append(n.entries, e)`: in place when there is capacity, otherwise into a new array
with `grow len` spare elements (Go's growth policy is left open). -/
def append (grow : Nat → Nat) (h : Heap F) (n : Nat) (e : Entry F) : Heap F :=
  match h.nodes[n]? with
  | none => h
  | some nd =>
    let s := nd.entries
    if s.len < s.cap then
      { nodes := h.nodes.set n { nd with entries := { s with len := s.len + 1 } }
        arrs := h.arrs.modify s.arr fun a => a.set (s.off + s.len) e }
    else
      { nodes := h.nodes.set n { nd with entries := ⟨h.arrs.length, 0, s.len + 1, s.len + 1 + grow s.len⟩ }
        arrs := h.arrs ++ [h.slice s ++ [e] ++ List.replicate (grow s.len) Entry.zero] }

/-- `n.entries = append(n.entries[:i], n.entries[i+1:]...)`: shifts in place -/
def removeAt (h : Heap F) (n i : Nat) : Heap F :=
  match h.nodes[n]? with
  | none => h
  | some nd =>
    let s := nd.entries
    { nodes := h.nodes.set n { nd with entries := { s with len := s.len - 1 } }
      arrs := h.arrs.modify s.arr fun a =>
        a.take (s.off + i) ++ (a.drop (s.off + i + 1)).take (s.len - i - 1) ++ a.drop (s.off + s.len - 1) }

/-- `n.entries = []entry{...}` (a new array holding exactly `es`) -/
def setEntries (h : Heap F) (n : Nat) (es : List (Entry F)) : Heap F :=
  match h.nodes[n]? with
  | none => h
  | some nd =>
    { nodes := h.nodes.set n { nd with entries := ⟨h.arrs.length, 0, es.length, es.length⟩ }
      arrs := h.arrs ++ [es] }

/-- the slice header `n.entries` -/
def sliceOf (h : Heap F) (n : Nat) : Slice := (h.nodes[n]?.map (·.entries)).getD ⟨0, 0, 0, 0⟩

/-- overwrite the first elements of the slice `s` with `es`, in place -/
def blit (h : Heap F) (s : Slice) (es : List (Entry F)) : Heap F :=
  { h with arrs := h.arrs.modify s.arr fun a => a.take s.off ++ es ++ a.drop (s.off + es.length) }

/-- `n.entries[i].bb = b` -/
def setBB (h : Heap F) (n i : Nat) (b : Box F) : Heap F :=
  match h.nodes[n]? with
  | none => h
  | some nd =>
    { nodes := h.nodes
      arrs := h.arrs.modify nd.entries.arr fun a => a.modify (nd.entries.off + i) fun e => { e with bb := b } }

/-- `n.parent = p` -/
def setParent (h : Heap F) (n : Nat) (p : Option Nat) : Heap F :=
  { h with nodes := h.nodes.modify n fun nd => { nd with parent := p } }

/-- `&node{parent, leaf, level, entries: []entry{...}}`; returns the new node's address -/
def alloc (h : Heap F) (parent : Option Nat) (leaf : Bool) (level : Int) (es : List (Entry F)) :
    Heap F × Nat :=
  ({ nodes := h.nodes ++ [⟨parent, leaf, ⟨h.arrs.length, 0, es.length, es.length⟩, level⟩]
     arrs := h.arrs ++ [es] }, h.nodes.length)

/-- `e.child.parent = p` when `e.child != nil` -/
def setChildParent (h : Heap F) (e : Entry F) (p : Nat) : Heap F :=
  match e.child with
  | none => h
  | some c => h.setParent c (some p)

end Heap

end GoGeo
