import Verif.Spec.Rtree

/-!
# Specification vocabulary for mixed histories of an R-tree

`contents` reads the stored objects off the tree in memory; `Step` says what each call does to that
collection (with multiplicity).
-/

namespace GoGeo.Spec
open GoFloat
variable {F : Type} [GoFloat F]

/-- the objects held by the leaves below node `n`, found by following child pointers -/
def leafObjs (h : Heap F) : Nat → Option Nat → List (Spatial F)
  | 0, _ => []
  | _ + 1, none => []
  | fuel + 1, some n =>
    match h.view n with
    | none => []
    | some v => if v.leaf then v.entries.map (·.obj) else v.entries.flatMap fun e => leafObjs h fuel e.child

/-- the objects stored in the tree -/
def contents (s : RState F) : List (Spatial F) := leafObjs s.h (s.h.nodes.length + 1) (some s.t.root)

/-- a call that changes the tree -/
inductive Op (F : Type)
  | insert (o : Spatial F)
  | delete (obj : Spatial F)
  | deleteWith (obj : Spatial F) (cmp : Cond2 F)
  | deleteID (id : String)
  | upsert (objs : List (Spatial F))

/-- perform the call; `Insert` and `UpsertBySpatialID` return no value (`true` here) -/
def Op.run (grow : Nat → Nat) : Op F → RState F → Go (RState F × Bool)
  | .insert o, s => (Insert grow s o).map fun s => (s, true)
  | .delete obj, s => Delete grow s obj
  | .deleteWith obj cmp, s => DeleteWithComparator grow s obj cmp
  | .deleteID id, s => DeleteBySpatialID grow s id
  | .upsert objs, s => (UpsertBySpatialID grow objs s).map fun s => (s, true)

/-- perform the calls in order, collecting the returned values -/
def runAll (grow : Nat → Nat) : List (Op F) → RState F → Go (RState F × List Bool)
  | [], s => .ok (s, [])
  | op :: ops, s => do
    let (s, b) ← op.run grow s
    let (s, bs) ← runAll grow ops s
    .ok (s, b :: bs)

/-- the same object, as a user who deletes it understands it: the same id, the same properties, and
the same geometry, that is the same pointer, or points whose coordinates are the same numbers -/
def SameObject (a b : Spatial F) : Prop :=
  a.ID = b.ID ∧ a.Properties = b.Properties ∧
  match a.Geom, b.Geom with
  | .point p, .point q => Same p.X q.X ∧ Same p.Y q.Y
  | .pointZ p, .pointZ q => Same p.X q.X ∧ Same p.Y q.Y ∧ Same p.Z q.Z
  | .ptr m _, .ptr n _ => m = n
  | .nil, .nil => True
  | _, _ => False

/-- deleting an object: `b` tells whether one object that is the same was taken out -/
def DelSame (obj : Spatial F) (l l' : List (Spatial F)) (b : Bool) : Prop :=
  (b = false ∧ l' = l) ∨ (b = true ∧ ∃ o, SameObject o obj ∧ l.Perm (o :: l'))

/-- deleting with a comparator: `b` tells whether one matching object was taken out -/
def DelOne (cmp : Cond2 F) (obj : Spatial F) (l l' : List (Spatial F)) (b : Bool) : Prop :=
  (b = false ∧ l' = l) ∨ (b = true ∧ ∃ o, cmp o obj = .ok true ∧ l.Perm (o :: l'))

/-- deleting by id: only objects with that id are taken out; `b` tells whether any was -/
def DelID (id : String) (l l' : List (Spatial F)) (b : Bool) : Prop :=
  ∃ gone : List (Spatial F), (∀ o ∈ gone, o.ID = id) ∧ l.Perm (gone ++ l') ∧ (b = true ↔ gone ≠ [])

/-- upserting: for each object in turn, delete by its id, then insert it -/
def Upserted : List (Spatial F) → List (Spatial F) → List (Spatial F) → Prop
  | [], l, l' => l' = l
  | o :: os, l, l' => ∃ m n b, DelID o.ID l m b ∧ n.Perm (o :: m) ∧ Upserted os n l'

/-- what a call does to the stored objects -/
def Step : Op F → List (Spatial F) → List (Spatial F) → Bool → Prop
  | .insert o, l, l', _ => l'.Perm (o :: l)
  | .delete obj, l, l', b => DelSame obj l l' b
  | .deleteWith obj cmp, l, l', b => DelOne cmp obj l l' b
  | .deleteID id, l, l', b => DelID id l l' b
  | .upsert objs, l, l', _ => Upserted objs l l'

/-- a tree obtained from an empty one by calls that did not panic -/
def Reached (grow : Nat → Nat) (min max : Int) (s : RState F) : Prop :=
  ∃ (ops : List (Op F)) (bs : List Bool), runAll grow ops (NewEmptyTree min max) = .ok (s, bs)

/-- the geometry's bounding box is not inverted (it is, for instance, when there is no vertex) -/
def ProperGeom (g : Geometry F) : Prop := ProperBox (BoundingBox g)

/-- the stored objects after an upsert, as an association list -/
def upsertList (l : List (Spatial F)) (o : Spatial F) : List (Spatial F) :=
  o :: l.filter (fun x => x.ID ≠ o.ID)

/-- insertions minus successful deletions -/
def netCount : List (Op F) → List Bool → Int
  | .insert _ :: ops, _ :: bs => netCount ops bs + 1
  | .delete _ :: ops, b :: bs => netCount ops bs - (if b then 1 else 0)
  | .deleteWith _ _ :: ops, b :: bs => netCount ops bs - (if b then 1 else 0)
  | _, _ => 0

/-- an `Insert`, `Delete` or `DeleteWithComparator` -/
def Op.single : Op F → Prop
  | .insert _ | .delete _ | .deleteWith _ _ => True
  | _ => False

/-- geometries and properties that Go can compare, with coordinates equal to themselves -/
def Comparable (o : Spatial F) : Prop :=
  (match o.Geom with
    | .point p => IsNum p.X ∧ IsNum p.Y
    | .pointZ p => IsNum p.X ∧ IsNum p.Y ∧ IsNum p.Z
    | .ptr _ _ => True
    | .nil => True
    | _ => False) ∧
  (match o.Properties with
    | .nil => True
    | .comparable _ _ => True
    | .uncomparable _ _ => False)

/-- the root is a leaf or has at least `r` children -/
def RootAtLeast (r : Nat) (s : RState F) : Prop :=
  ∀ v, s.h.view s.t.root = some v → v.leaf = false → r ≤ v.entries.length

/-- some deletion of the history is called on a tree of more than two levels -/
def DeepDelete (grow : Nat → Nat) : List (Op F) → RState F → Prop
  | [], _ => False
  | op :: ops, s => ((∀ o, op ≠ .insert o) ∧ 2 < Depth s) ∨ ∃ s' b, op.run grow s = .ok (s', b) ∧ DeepDelete grow ops s'

/-- some insertion of the history is called on a tree that has been emptied and is still more than one level deep -/
def EmptiedInsert (grow : Nat → Nat) : List (Op F) → RState F → Prop
  | [], _ => False
  | op :: ops, s => ((∃ o, op = .insert o) ∧ Size s = 0 ∧ 1 < Depth s) ∨
      ∃ s' b, op.run grow s = .ok (s', b) ∧ EmptiedInsert grow ops s'

/-- the calls allowed in `C11_history_partial`: insertions of objects with coordinates of magnitude at
most `2^500`, deletions of comparable objects, deletions with comparators that do not panic -/
def Op.tame : Op F → Prop
  | .insert o => CoordsOk o.Geom
  | .delete obj => Comparable obj
  | .deleteWith obj cmp => ∀ o, ∃ b, cmp o obj = .ok b
  | _ => False

end GoGeo.Spec
