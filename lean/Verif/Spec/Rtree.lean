import Verif.Spec.Box
import Verif.Rtree.Model

/-!
# Specification vocabulary for the R-tree

Histories of calls, what may be stored, and the shape of a tree described by walking the child
pointers in memory.
-/

namespace GoGeo.Spec
open GoFloat
variable {F : Type} [GoFloat F]

/-- magnitude at most `2^500` -/
def Bounded500 (x : F) : Prop := Le (-lit (2 ^ 500)) x ∧ Le x (lit (2 ^ 500))

/-- every coordinate of the geometry is NaN or of magnitude at most `2^500` -/
def CoordsOk (g : Geometry F) : Prop :=
  ∀ p ∈ vertices g, (IsNum p.X → Bounded500 p.X) ∧ (IsNum p.Y → Bounded500 p.Y)

/-- the tree parameters: at least one child and at most half of the maximum -/
structure ParamsOk (min max : Int) : Prop where
  pos : 1 ≤ min
  half : 2 * min ≤ max

/-- `Insert` of each object in turn -/
def insertAll (grow : Nat → Nat) (s : RState F) (objs : List (Spatial F)) : Go (RState F) :=
  objs.foldlM (fun s o => Insert grow s o) s

/-- the object's bounding box meets the query box -/
def Meets (q : Box F) (o : Spatial F) : Bool := (BoundingBox o.Geom).Intersect q

/-- node `n` is reached from the root by following `d` child pointers -/
inductive NodeAt (s : RState F) : Nat → Nat → Prop
  | root : NodeAt s 0 s.t.root
  | child {d n c : Nat} {v : NodeV F} {e : Entry F} : NodeAt s d n → s.h.view n = some v → e ∈ v.entries →
      e.child = some c → NodeAt s (d + 1) c

/-- object `o` is stored in the tree: it is held by an entry of a leaf that can be reached -/
def StoredIn (s : RState F) (o : Spatial F) : Prop :=
  ∃ d n v e, NodeAt s d n ∧ s.h.view n = some v ∧ v.leaf = true ∧ e ∈ v.entries ∧ e.obj = o

/-- the union of the boxes of the entries of node `n` -/
def nodeBox (s : RState F) (n : Nat) : Box F :=
  match s.h.view n with
  | some v => BoxUnion (v.entries.map (·.bb))
  | none => Box.zero

/-- the shape of an R-tree, described by walking its child pointers -/
structure Shaped (s : RState F) : Prop where
  /-- no dangling pointer -/
  valid : ∀ d n, NodeAt s d n → ∃ v, s.h.view n = some v
  /-- exactly the nodes at the depth of the tree are leaves -/
  leaves : ∀ d n v, NodeAt s d n → s.h.view n = some v → (v.leaf = true ↔ (d : Int) + 1 = Depth s)
  level : ∀ d n v, NodeAt s d n → s.h.view n = some v → (d : Int) + v.level = Depth s
  max : ∀ d n v, NodeAt s d n → s.h.view n = some v → (v.entries.length : Int) ≤ s.t.MaxChildren
  /-- a leaf entry holds an object with its bounding box -/
  objects : ∀ d n v e, NodeAt s d n → s.h.view n = some v → v.leaf = true → e ∈ v.entries →
    e.child = none ∧ e.bb = BoundingBox e.obj.Geom
  /-- an inner entry holds a node with the union of its boxes; the node points back -/
  children : ∀ d n v e, NodeAt s d n → s.h.view n = some v → v.leaf = false → e ∈ v.entries →
    ∃ c cv, e.child = some c ∧ s.h.view c = some cv ∧ cv.parent = some n ∧
      e.bb = BoxUnion (cv.entries.map (·.bb))
  /-- no two entries of a node share a child -/
  distinct : ∀ d n v, NodeAt s d n → s.h.view n = some v → (v.entries.filterMap (·.child)).Nodup

/-- a tree of that shape whose nodes hold at least the minimum number of entries (the root two) -/
structure Balanced (s : RState F) : Prop extends Shaped s where
  min : ∀ d n v, NodeAt s (d + 1) n → s.h.view n = some v → s.t.MinChildren ≤ v.entries.length
  root : ∀ v, s.h.view s.t.root = some v → v.leaf = false → 2 ≤ v.entries.length

end GoGeo.Spec
