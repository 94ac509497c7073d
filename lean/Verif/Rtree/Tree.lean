import Verif.Rtree.HeapLemmas
import Verif.Rtree.Model
import Mathlib.Data.List.Nodup
import Mathlib.Data.List.Perm.Basic
import Mathlib.Data.List.Perm.Subperm

/-!
# Ghost trees

`Item F 0` is a stored object; `Item F (j+1)` is a tree node at level `j+1` (leaves are level 1), with
its address and its entries.  `Ctx F j` is the rest of a tree around a node of level `j+1`.
These are proof devices; no property is stated with them.
-/

namespace GoGeo
variable {F : Type}

/-- an object (level 0) or a node (level `j+1`) -/
def Item (F : Type) : Nat → Type
  | 0 => Spatial F
  | j + 1 => Nat × List (Box F × Item F j)

namespace Item

def mk {j : Nat} (id : Nat) (es : List (Box F × Item F j)) : Item F (j + 1) := (id, es)
def id {j : Nat} (x : Item F (j + 1)) : Nat := Prod.fst (α := Nat) (β := List (Box F × Item F j)) x
def es {j : Nat} (x : Item F (j + 1)) : List (Box F × Item F j) :=
  Prod.snd (α := Nat) (β := List (Box F × Item F j)) x

@[simp] theorem mk_id {j : Nat} (i : Nat) (es : List (Box F × Item F j)) : (mk i es).id = i := rfl
@[simp] theorem mk_es {j : Nat} (i : Nat) (es : List (Box F × Item F j)) : (mk i es).es = es := rfl
theorem eta {j : Nat} (x : Item F (j + 1)) : x = mk x.id x.es := rfl

def child : {j : Nat} → Item F j → Option Nat
  | 0, _ => none
  | _ + 1, x => some x.id

def obj : {j : Nat} → Item F j → Spatial F
  | 0, o => o
  | _ + 1, _ => Spatial.zero

/-- the entry holding an item -/
def entry {j : Nat} (p : Box F × Item F j) : Entry F := ⟨p.1, p.2.child, p.2.obj⟩

def objs : {j : Nat} → Item F j → List (Spatial F)
  | 0, o => [o]
  | _ + 1, x => x.es.flatMap fun p => p.2.objs

def ids : {j : Nat} → Item F j → List Nat
  | 0, _ => []
  | _ + 1, x => x.id :: x.es.flatMap fun p => p.2.ids

variable [GoFloat F]

def box : {j : Nat} → Item F j → Box F
  | 0, o => BoundingBox (Spatial.Geom (F := F) o)
  | _ + 1, x => BoxUnion (x.es.map (·.1))

/-- every entry's box is the box of its item -/
def Good : {j : Nat} → Item F j → Prop
  | 0, _ => True
  | _ + 1, x => ∀ p ∈ x.es, p.1 = p.2.box ∧ p.2.Good

omit [GoFloat F] in
/-- the node's parent pointer -/
def Par (h : Heap F) (q : Option Nat) : {j : Nat} → Item F j → Prop
  | 0, _ => True
  | _ + 1, x => ∃ v, h.view x.id = some v ∧ v.parent = q

/-- the item is laid out in memory (its own parent pointer is not constrained) -/
def Rep (h : Heap F) : {j : Nat} → Item F j → Prop
  | 0, _ => True
  | j + 1, x => (∃ par, h.view x.id = some ⟨par, j == 0, (j : Int) + 1, x.es.map entry⟩) ∧
      ∀ p ∈ x.es, p.2.Rep h ∧ p.2.Par h (some x.id)

/-- the number of entries of a node is in range -/
def Cnt (lo hi : Nat) : {j : Nat} → Item F j → Prop
  | 0, _ => True
  | _ + 1, x => lo ≤ x.es.length ∧ x.es.length ≤ hi

/-- all nodes strictly below have a number of entries in range -/
def Fill (lo hi : Nat) : {j : Nat} → Item F j → Prop
  | 0, _ => True
  | _ + 1, x => ∀ p ∈ x.es, p.2.Cnt lo hi ∧ p.2.Fill lo hi

/-! ### unfolding lemmas -/

@[simp] theorem objs_zero (o : Item F 0) : o.objs = [o] := rfl
theorem objs_succ {j : Nat} (x : Item F (j + 1)) : x.objs = x.es.flatMap fun p => p.2.objs := rfl
@[simp] theorem ids_zero (o : Item F 0) : o.ids = [] := rfl
theorem ids_succ {j : Nat} (x : Item F (j + 1)) :
    x.ids = x.id :: x.es.flatMap fun p => p.2.ids := rfl
@[simp] theorem child_zero (o : Item F 0) : o.child = none := rfl
@[simp] theorem child_succ {j : Nat} (x : Item F (j + 1)) : x.child = some x.id := rfl
@[simp] theorem entry_bb {j : Nat} (p : Box F × Item F j) : (entry p).bb = p.1 := rfl
@[simp] theorem entry_child {j : Nat} (p : Box F × Item F j) : (entry p).child = p.2.child := rfl
theorem entry_succ {j : Nat} (p : Box F × Item F (j + 1)) :
    entry p = ⟨p.1, some p.2.id, Spatial.zero⟩ := rfl
theorem entry_zero (p : Box F × Item F 0) : entry p = ⟨p.1, none, p.2⟩ := rfl

theorem child_mem_ids {j : Nat} {x : Item F j} {c : Nat} (h : x.child = some c) : c ∈ x.ids := by
  cases j with
  | zero => simp at h
  | succ j => simp at h; simp [h, ids_succ]

theorem computeBoundingBox_es {j : Nat} (x : Item F (j + 1)) :
    computeBoundingBox (x.es.map entry) = x.box := by
  unfold computeBoundingBox box
  rw [List.map_map]
  rfl

/-- views agree up to parent pointers -/
def SameNode (a b : Option (NodeV F)) : Prop :=
  a.map (fun v => (v.leaf, v.level, v.entries)) = b.map (fun v => (v.leaf, v.level, v.entries))

/-- `Rep` only looks at the item's own nodes, and not at its own parent pointer -/
theorem Rep.congr' {h h' : Heap F} {j : Nat} {x : Item F j} (hx : x.Rep h)
    (own : ∀ c, x.child = some c → SameNode (h'.view c) (h.view c))
    (e : ∀ n ∈ x.ids, x.child ≠ some n → h'.view n = h.view n)
    (hnd : x.ids.Nodup) : x.Rep h' := by
  induction j generalizing h h' with
  | zero => trivial
  | succ j ih =>
    obtain ⟨⟨par, hv⟩, hc⟩ := hx
    simp only [ids_succ, List.nodup_cons] at hnd
    refine ⟨?_, ?_⟩
    · have := own x.id rfl
      rw [hv] at this
      unfold SameNode at this
      cases hw : h'.view x.id with
      | none => rw [hw] at this; simp at this
      | some w =>
        rw [hw] at this
        simp only [Option.map_some, Option.some.injEq, Prod.mk.injEq] at this
        obtain ⟨a, b, c⟩ := this
        exact ⟨w.parent, by rw [← a, ← b, ← c]⟩
    · intro p hp
      have hsub : ∀ n ∈ p.2.ids, n ∈ x.es.flatMap fun p => p.2.ids := fun n hn =>
        List.mem_flatMap.2 ⟨p, hp, hn⟩
      have hne : ∀ n ∈ p.2.ids, h'.view n = h.view n := by
        intro n hn
        apply e n (by simp only [ids_succ]; exact List.mem_cons_of_mem _ (hsub n hn))
        intro heq
        simp only [child_succ, Option.some.injEq] at heq
        exact hnd.1 (heq ▸ hsub n hn)
      have hpn : p.2.ids.Nodup := by
        have := hnd.2
        exact (List.nodup_flatMap.1 this).1 p hp
      refine ⟨ih (hc p hp).1 (fun c hc' => ?_) (fun n hn _ => hne n hn) hpn, ?_⟩
      · rw [hne c (child_mem_ids hc')]; rfl
      · have := (hc p hp).2
        cases j with
        | zero => trivial
        | succ j =>
          obtain ⟨v, hv, hpar⟩ := this
          exact ⟨v, by rw [hne _ (by simp [ids_succ])]; exact hv, hpar⟩

theorem Rep.congr {h h' : Heap F} {j : Nat} {x : Item F j} (hx : x.Rep h)
    (e : ∀ n ∈ x.ids, h'.view n = h.view n) : x.Rep h' := by
  induction j generalizing h h' with
  | zero => trivial
  | succ j ih =>
    obtain ⟨⟨par, hv⟩, hc⟩ := hx
    refine ⟨⟨par, by rw [e _ (by simp [ids_succ])]; exact hv⟩, ?_⟩
    intro p hp
    have hne : ∀ n ∈ p.2.ids, h'.view n = h.view n := fun n hn =>
      e n (by simp only [ids_succ]; exact List.mem_cons_of_mem _ (List.mem_flatMap.2 ⟨p, hp, hn⟩))
    refine ⟨ih (hc p hp).1 hne, ?_⟩
    have := (hc p hp).2
    cases j with
    | zero => trivial
    | succ j =>
      obtain ⟨v, hv, hpar⟩ := this
      exact ⟨v, by rw [hne _ (by simp [ids_succ])]; exact hv, hpar⟩

theorem Par.congr {h h' : Heap F} {q : Option Nat} {j : Nat} {x : Item F j} (hx : x.Par h q)
    (e : ∀ c, x.child = some c → h'.view c = h.view c) : x.Par h' q := by
  cases j with
  | zero => trivial
  | succ j =>
    obtain ⟨v, hv, hp⟩ := hx
    exact ⟨v, by rw [e _ rfl]; exact hv, hp⟩

theorem Rep.valid {h : Heap F} {j : Nat} {x : Item F j} (hx : x.Rep h) :
    ∀ n ∈ x.ids, n < h.nodes.length := by
  induction j with
  | zero => simp
  | succ j ih =>
    obtain ⟨⟨par, hv⟩, hc⟩ := hx
    intro n hn
    simp only [ids_succ, List.mem_cons, List.mem_flatMap] at hn
    rcases hn with rfl | ⟨p, hp, hn⟩
    · exact Heap.view_lt hv
    · exact ih (hc p hp).1 n hn

end Item

/-! ## contexts -/

/-- the surroundings of a node of level `j+1`: `frame id pre b post up` says that the node hangs in
node `id` (level `j+2`) between the entries `pre` and `post`, with recorded box `b` -/
inductive Ctx (F : Type) : Nat → Type
  | top {j : Nat} : Ctx F j
  | frame {j : Nat} (id : Nat) (pre : List (Box F × Item F (j + 1))) (b : Box F)
      (post : List (Box F × Item F (j + 1))) (up : Ctx F (j + 1)) : Ctx F j

namespace Ctx

def objs : {j : Nat} → Ctx F j → List (Spatial F)
  | _, top => []
  | _, frame _ pre _ post up => (pre ++ post).flatMap (fun p => p.2.objs) ++ up.objs

def ids : {j : Nat} → Ctx F j → List Nat
  | _, top => []
  | _, frame id pre _ post up => id :: (pre ++ post).flatMap (fun p => p.2.ids) ++ up.ids

/-- level of the root minus one -/
def rootLevel : {j : Nat} → Ctx F j → Nat
  | j, top => j
  | _, frame _ _ _ _ up => up.rootLevel

def depth : {j : Nat} → Ctx F j → Nat
  | _, top => 0
  | _, frame _ _ _ _ up => up.depth + 1

def isTop : {j : Nat} → Ctx F j → Prop
  | _, top => True
  | _, frame _ _ _ _ _ => False

/-- the address of the parent -/
def parent : {j : Nat} → Ctx F j → Option Nat
  | _, top => none
  | _, frame id _ _ _ _ => some id

variable [GoFloat F]

def Good : {j : Nat} → Ctx F j → Prop
  | _, top => True
  | _, frame _ pre _ post up => (∀ p ∈ pre ++ post, p.1 = p.2.box ∧ p.2.Good) ∧ up.Good

/-- the context of the node at address `x` is laid out in memory -/
def Rep (h : Heap F) (root : Nat) : {j : Nat} → Ctx F j → Nat → Prop
  | _, top, x => x = root
  | j, frame id pre b post up, x => x ≠ root ∧
      (∃ par, h.view id = some ⟨par, false, (j : Int) + 2,
        pre.map Item.entry ++ ⟨b, some x, Spatial.zero⟩ :: post.map Item.entry⟩) ∧
      (∀ p ∈ pre ++ post, p.2.Rep h ∧ p.2.Par h (some id)) ∧
      (∃ v, h.view x = some v ∧ v.parent = some id) ∧
      up.Rep h root id

/-- entry counts: siblings are in range, inner frames have `lo..hi` entries, the root `r..hi` -/
def Fill (lo hi r : Nat) : {j : Nat} → Ctx F j → Prop
  | _, top => True
  | _, frame _ pre _ post up => (∀ p ∈ pre ++ post, p.2.Cnt lo hi ∧ p.2.Fill lo hi) ∧
      (up.isTop → r ≤ pre.length + 1 + post.length) ∧ (¬ up.isTop → lo ≤ pre.length + 1 + post.length) ∧
      pre.length + 1 + post.length ≤ hi ∧ up.Fill lo hi r

theorem Rep.congr {h h' : Heap F} {root j : Nat} {c : Ctx F j} {x : Nat} (hc : c.Rep h root x)
    (e : ∀ n ∈ c.ids, h'.view n = h.view n)
    (ex : ∀ v, h.view x = some v → ∃ v', h'.view x = some v' ∧ v'.parent = v.parent) :
    c.Rep h' root x := by
  induction c generalizing x with
  | top => exact hc
  | @frame j id pre b post up ih =>
    obtain ⟨h0, ⟨par, hv⟩, hs, ⟨v, hvx, hvp⟩, hup⟩ := hc
    have eid : h'.view id = h.view id := e id (by simp [ids])
    have es : ∀ p ∈ pre ++ post, ∀ n ∈ p.2.ids, h'.view n = h.view n := fun p hp n hn =>
      e n (by
        simp only [ids, List.cons_append, List.mem_cons, List.mem_append, List.mem_flatMap]
        exact Or.inr (Or.inl ⟨p, by simpa using hp, hn⟩))
    refine ⟨h0, ⟨par, by rw [eid]; exact hv⟩, ?_, ?_, ?_⟩
    · intro p hp
      refine ⟨(hs p hp).1.congr (es p hp), (hs p hp).2.congr ?_⟩
      intro c hc
      exact es p hp c (Item.child_mem_ids hc)
    · obtain ⟨v', h1, h2⟩ := ex v hvx
      exact ⟨v', h1, by rw [h2]; exact hvp⟩
    · exact ih hup (fun n hn => e n (by simp [ids, hn])) (fun v hv => ⟨v, by rw [eid]; exact hv, rfl⟩)

theorem Rep.valid {h : Heap F} {root j : Nat} {c : Ctx F j} {x : Nat} (hc : c.Rep h root x) :
    ∀ n ∈ c.ids, n < h.nodes.length := by
  induction c generalizing x with
  | top => simp [ids]
  | @frame j id pre b post up ih =>
    obtain ⟨h0, ⟨par, hv⟩, hs, ⟨v, hvx, hvp⟩, hup⟩ := hc
    intro n hn
    simp only [ids, List.cons_append, List.mem_cons, List.mem_append, List.mem_flatMap] at hn
    rcases hn with rfl | ⟨p, hp, hn⟩ | hn
    · exact Heap.view_lt hv
    · exact (hs p (by simpa using hp)).1.valid n hn
    · exact ih hup n hn

theorem depth_le_ids {j : Nat} (c : Ctx F j) : c.depth ≤ c.ids.length := by
  induction c with
  | top => simp [depth]
  | frame id pre b post up ih => simp [depth, ids]; omega

/-- the root is the hole or one of the context's nodes -/
theorem Rep.root_mem {h : Heap F} {root j : Nat} {c : Ctx F j} {x : Nat} (hc : c.Rep h root x) :
    root = x ∨ root ∈ c.ids := by
  induction c generalizing x with
  | top => exact Or.inl hc.symm
  | @frame j id pre b post up ih =>
    obtain ⟨h0, ⟨par, hv⟩, hs, ⟨v, hvx, hvp⟩, hup⟩ := hc
    rcases ih hup with h1 | h1
    · right; simp [ids, h1]
    · right; simp [ids, h1]

end Ctx

theorem length_le_of_nodup {l : List Nat} {n : Nat} (hl : l.Nodup) (h : ∀ x ∈ l, x < n) :
    l.length ≤ n := by
  have : l ⊆ List.range n := fun x hx => List.mem_range.2 (h x hx)
  have := (hl.subperm this).length_le
  simpa using this

end GoGeo
