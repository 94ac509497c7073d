import Verif.Rtree.Insert2

/-!
# Inserting into a tree whose leaves share a backing array

After bulk loading, the leaves are sub-slices of one array, and `append` to a leaf overwrites the first element of the next
one.  Such a memory `h` is compared with an ideal memory `k` in which every node has its own array: they agree on all nodes
except on the contents of some leaves (the *dirty* ones, `D`), which the code does not read while it inserts elsewhere.
These are proof devices; no property is stated with them.
-/

set_option linter.unusedSectionVars false

namespace GoGeo
open GoFloat
variable {F : Type} [GoFloat F]

namespace Heap

/-! ### bounds, without separation -/

theorem node_setParent {h : Heap F} {n : Nat} {p : Option Nat} {m : Nat} {nd : Node}
    (hm : (h.setParent n p).nodes[m]? = some nd) :
    ∃ nd' : Node, h.nodes[m]? = some nd' ∧ nd'.entries = nd.entries ∧ nd'.leaf = nd.leaf := by
  unfold Heap.setParent at hm
  simp only [List.getElem?_modify] at hm
  cases hx : h.nodes[m]? with
  | none => rw [hx] at hm; simp at hm
  | some x =>
    rw [hx] at hm
    refine ⟨x, rfl, ?_⟩
    simp only [Option.map_eq_map, Option.map_some, Option.some.injEq] at hm
    subst hm
    split_ifs <;> simp

theorem node_append {h : Heap F} {grow : Nat → Nat} {n : Nat} {e : Entry F} {m : Nat} {md : Node}
    (hm : (h.append grow n e).nodes[m]? = some md) :
    (m ≠ n ∧ h.nodes[m]? = some md) ∨
    (m = n ∧ ∃ nd, h.nodes[n]? = some nd ∧
      ((nd.entries.len < nd.entries.cap ∧ md = { nd with entries := { nd.entries with len := nd.entries.len + 1 } }) ∨
       (¬ nd.entries.len < nd.entries.cap ∧
        md = { nd with entries := ⟨h.arrs.length, 0, nd.entries.len + 1, nd.entries.len + 1 + grow nd.entries.len⟩ }))) := by
  unfold Heap.append at hm
  cases hn : h.nodes[n]? with
  | none =>
    rw [hn] at hm
    left
    refine ⟨?_, hm⟩
    rintro rfl
    rw [hn] at hm; cases hm
  | some nd =>
    rw [hn] at hm
    dsimp only at hm
    split_ifs at hm with hc
    · simp only [List.getElem?_set] at hm
      split_ifs at hm with h1 h2
      · right; exact ⟨h1.symm, nd, rfl, Or.inl ⟨hc, by simpa using hm.symm⟩⟩
      · left; exact ⟨fun e => h1 e.symm, hm⟩
    · simp only [List.getElem?_set] at hm
      split_ifs at hm with h1 h2
      · right; exact ⟨h1.symm, nd, rfl, Or.inr ⟨hc, by simpa using hm.symm⟩⟩
      · left; exact ⟨fun e => h1 e.symm, hm⟩

theorem node_alloc {h : Heap F} {p : Option Nat} {l : Bool} {lv : Int} {es : List (Entry F)} {m : Nat} {md : Node}
    (hm : (h.alloc p l lv es).1.nodes[m]? = some md) :
    (m = h.nodes.length ∧ md = ⟨p, l, ⟨h.arrs.length, 0, es.length, es.length⟩, lv⟩) ∨
    (m < h.nodes.length ∧ h.nodes[m]? = some md) := by
  unfold Heap.alloc at hm
  dsimp only at hm
  have hlt := (List.getElem?_eq_some_iff.1 hm).1
  simp at hlt
  rcases lt_or_eq_of_le (Nat.lt_succ_iff.1 hlt) with h2 | h2
  · right; rw [List.getElem?_append_left h2] at hm; exact ⟨h2, hm⟩
  · left; subst h2; simp at hm; exact ⟨rfl, hm.symm⟩

theorem node_setEntries {h : Heap F} {n : Nat} {es : List (Entry F)} {m : Nat} {md : Node}
    (hm : (h.setEntries n es).nodes[m]? = some md) :
    (m ≠ n ∧ h.nodes[m]? = some md) ∨
    (m = n ∧ ∃ nd, h.nodes[n]? = some nd ∧ md = { nd with entries := ⟨h.arrs.length, 0, es.length, es.length⟩ }) := by
  unfold Heap.setEntries at hm
  cases hn : h.nodes[n]? with
  | none =>
    rw [hn] at hm
    left
    refine ⟨?_, hm⟩
    rintro rfl
    rw [hn] at hm; cases hm
  | some nd =>
    rw [hn] at hm
    simp only [List.getElem?_set] at hm
    split_ifs at hm with h1 h2
    · right; exact ⟨h1.symm, nd, rfl, by simpa using hm.symm⟩
    · left; exact ⟨fun e => h1 e.symm, hm⟩

theorem Bnd.setParent {h : Heap F} (hb : h.Bnd) (n : Nat) (p : Option Nat) : (h.setParent n p).Bnd := by
  constructor
  intro m nd hm
  obtain ⟨nd', h1, h2, -⟩ := node_setParent hm
  rw [← h2]; exact hb.bnd h1

theorem Bnd.setChildParent {h : Heap F} (hb : h.Bnd) (e : Entry F) (p : Nat) : (h.setChildParent e p).Bnd := by
  unfold Heap.setChildParent
  split
  · exact hb
  · exact hb.setParent _ _

/-- same nodes, and arrays of at least the same lengths -/
theorem Bnd.of_arrs {h : Heap F} (hb : h.Bnd) {arrs : List (List (Entry F))}
    (ha : ∀ (i : Nat) (a : List (Entry F)), h.arrs[i]? = some a → ∃ a', arrs[i]? = some a' ∧ a.length ≤ a'.length) : Bnd (⟨h.nodes, arrs⟩ : Heap F) := by
  constructor
  intro m nd hm
  obtain ⟨a, h1, h2, h3⟩ := hb.bnd hm
  obtain ⟨a', h4, h5⟩ := ha _ _ h1
  exact ⟨a', h4, by omega, h3⟩

theorem Bnd.setBB {h : Heap F} (hb : h.Bnd) (n i : Nat) (b : Box F) : (h.setBB n i b).Bnd := by
  cases hn : h.nodes[n]? with
  | none => unfold Heap.setBB; rw [hn]; exact hb
  | some nd =>
    rw [setBB_eq hn]
    apply hb.of_arrs
    intro i a ha
    simp only [List.getElem?_modify, ha, Option.map_eq_map, Option.map_some, Option.some.injEq, exists_eq_left']
    split_ifs <;> simp

theorem Bnd.append {h : Heap F} (hb : h.Bnd) (grow : Nat → Nat) (n : Nat) (e : Entry F) : (h.append grow n e).Bnd := by
  have key : ∀ (i : Nat) (a : List (Entry F)), h.arrs[i]? = some a → ∃ a', (h.append grow n e).arrs[i]? = some a' ∧ a.length = a'.length := by
    intro i a ha
    unfold Heap.append
    split
    · exact ⟨a, ha, rfl⟩
    · dsimp only
      split_ifs
      · simp only [List.getElem?_modify, ha, Option.map_eq_map, Option.map_some, Option.some.injEq, exists_eq_left']
        split_ifs <;> simp
      · refine ⟨a, ?_, rfl⟩
        rw [List.getElem?_append_left (List.getElem?_eq_some_iff.1 ha).1]; exact ha
  constructor
  intro m md hm
  rcases node_append hm with ⟨h1, h2⟩ | ⟨rfl, nd, h1, ⟨h2, rfl⟩ | ⟨h2, rfl⟩⟩
  · obtain ⟨a, h3, h4, h5⟩ := hb.bnd h2
    obtain ⟨a', h6, h7⟩ := key _ _ h3
    exact ⟨a', h6, by omega, h5⟩
  · obtain ⟨a, h3, h4, h5⟩ := hb.bnd h1
    obtain ⟨a', h6, h7⟩ := key _ _ h3
    exact ⟨a', h6, by dsimp only; omega, h2⟩
  · refine ⟨h.slice nd.entries ++ [e] ++ List.replicate (grow nd.entries.len) Entry.zero, ?_, ?_, ?_⟩
    · unfold Heap.append
      rw [h1]; dsimp only; rw [if_neg h2]; simp
    · simp [hb.len h1]; omega
    · simp

theorem Bnd.alloc {h : Heap F} (hb : h.Bnd) (p : Option Nat) (l : Bool) (lv : Int) (es : List (Entry F)) :
    (h.alloc p l lv es).1.Bnd := by
  constructor
  intro m md hm
  rcases node_alloc hm with ⟨rfl, rfl⟩ | ⟨h1, h2⟩
  · exact ⟨es, by simp [Heap.alloc], by simp, le_rfl⟩
  · obtain ⟨a, h3, h4⟩ := hb.bnd h2
    refine ⟨a, ?_, h4⟩
    unfold Heap.alloc
    rw [List.getElem?_append_left (hb.arr_lt h2)]; exact h3

theorem Bnd.setEntries {h : Heap F} (hb : h.Bnd) (n : Nat) (es : List (Entry F)) : (h.setEntries n es).Bnd := by
  have key : ∀ (i : Nat) (a : List (Entry F)), h.arrs[i]? = some a → (h.setEntries n es).arrs[i]? = some a := by
    intro i a ha
    unfold Heap.setEntries
    split
    · exact ha
    · rw [List.getElem?_append_left (List.getElem?_eq_some_iff.1 ha).1]; exact ha
  constructor
  intro m md hm
  rcases node_setEntries hm with ⟨h1, h2⟩ | ⟨rfl, nd, h1, rfl⟩
  · obtain ⟨a, h3, h4⟩ := hb.bnd h2
    exact ⟨a, key _ _ h3, h4⟩
  · refine ⟨es, ?_, by simp, le_rfl⟩
    unfold Heap.setEntries
    rw [h1]; simp

theorem blit_length {h : Heap F} {s : Slice} {es : List (Entry F)} {i : Nat} {a : List (Entry F)} (ha : h.arrs[i]? = some a)
    (hs : ∀ a : List (Entry F), h.arrs[s.arr]? = some a → s.off + es.length ≤ a.length) :
    ∃ a', (h.blit s es).arrs[i]? = some a' ∧ a'.length = a.length := by
  unfold Heap.blit
  simp only [List.getElem?_modify, ha, Option.map_eq_map, Option.map_some, Option.some.injEq, exists_eq_left']
  split_ifs with h1
  · subst h1
    have := hs a ha
    simp; omega
  · rfl

theorem Bnd.blit {h : Heap F} (hb : h.Bnd) {s : Slice} {es : List (Entry F)}
    (hs : ∀ a : List (Entry F), h.arrs[s.arr]? = some a → s.off + es.length ≤ a.length) : (h.blit s es).Bnd := by
  apply hb.of_arrs
  intro i a ha
  obtain ⟨a', h1, h2⟩ := blit_length ha hs
  exact ⟨a', h1, by omega⟩

/-! ### privacy -/

/-- the index of the array of a node -/
def addr (h : Heap F) (n : Nat) : Option Nat := h.nodes[n]?.map fun nd => nd.entries.arr

theorem addr_some {h : Heap F} {n a : Nat} : h.addr n = some a ↔ ∃ nd, h.nodes[n]? = some nd ∧ nd.entries.arr = a := by
  unfold addr; cases h.nodes[n]? <;> simp

theorem Bnd.addr_lt {h : Heap F} (hb : h.Bnd) {n a : Nat} (ha : h.addr n = some a) : a < h.arrs.length := by
  obtain ⟨nd, h1, rfl⟩ := addr_some.1 ha
  exact hb.arr_lt h1

theorem priv_iff {h : Heap F} {n : Nat} : h.Priv n ↔ ∀ m a, n ≠ m → h.addr n = some a → h.addr m ≠ some a := by
  constructor
  · intro hp m a hne h1 h2
    obtain ⟨x, h3, h4⟩ := addr_some.1 h1
    obtain ⟨y, h5, h6⟩ := addr_some.1 h2
    exact hp hne h3 h5 (by rw [h4, h6])
  · intro hp m a b hne h1 h2 h3
    exact hp m a.entries.arr hne (addr_some.2 ⟨a, h1, rfl⟩) (addr_some.2 ⟨b, h2, h3.symm⟩)

/-- only node `x` may have moved, to a new array -/
def Mv (h h' : Heap F) (x : Nat) : Prop :=
  (∀ m, m ≠ x → h'.addr m = h.addr m) ∧ (h'.addr x = h.addr x ∨ ∃ a, h'.addr x = some a ∧ h.arrs.length ≤ a)

theorem Mv.of_eq {h h' : Heap F} (e : ∀ m, h'.addr m = h.addr m) (x : Nat) : Mv h h' x := ⟨fun m _ => e m, Or.inl (e x)⟩

theorem Priv.mv {h h' : Heap F} (hb : h.Bnd) {x : Nat} (mv : Mv h h' x) {n : Nat} (hp : h.Priv n) : h'.Priv n := by
  rw [priv_iff] at hp ⊢
  intro m a hne h1 h2
  by_cases hx : n = x
  · subst hx
    rcases mv.2 with h3 | ⟨b, h3, h4⟩
    · rw [h3] at h1; rw [mv.1 m (Ne.symm hne)] at h2; exact hp m a hne h1 h2
    · rw [h3] at h1; cases h1
      rw [mv.1 m (Ne.symm hne)] at h2
      have := hb.addr_lt h2; omega
  · rw [mv.1 n hx] at h1
    by_cases hm : m = x
    · subst hm
      rcases mv.2 with h3 | ⟨b, h3, h4⟩
      · rw [h3] at h2; exact hp m a hne h1 h2
      · rw [h3] at h2; cases h2
        have := hb.addr_lt h1; omega
    · rw [mv.1 m hm] at h2; exact hp m a hne h1 h2

theorem Priv.mv_new {h h' : Heap F} (hb : h.Bnd) {x : Nat} (mv : Mv h h' x) {a : Nat} (ha : h'.addr x = some a)
    (hl : h.arrs.length ≤ a) : h'.Priv x := by
  rw [priv_iff]
  intro m b hne h1 h2
  rw [ha] at h1; cases h1
  rw [mv.1 m (Ne.symm hne)] at h2
  have := hb.addr_lt h2; omega

theorem addr_setParent (h : Heap F) (c : Nat) (p : Option Nat) (m : Nat) : (h.setParent c p).addr m = h.addr m := by
  unfold addr setParent
  simp only [List.getElem?_modify]
  cases h.nodes[m]? with
  | none => rfl
  | some nd => simp only [Option.map_eq_map, Option.map_some]; split_ifs <;> rfl

theorem addr_setChildParent (h : Heap F) (e : Entry F) (p : Nat) (m : Nat) : (h.setChildParent e p).addr m = h.addr m := by
  unfold setChildParent
  split
  · rfl
  · exact addr_setParent _ _ _ _

theorem addr_blit (h : Heap F) (s : Slice) (es : List (Entry F)) (m : Nat) : (h.blit s es).addr m = h.addr m := rfl

theorem addr_setBB (h : Heap F) (n i : Nat) (b : Box F) (m : Nat) : (h.setBB n i b).addr m = h.addr m := by
  unfold setBB addr; split <;> rfl

theorem mv_append (h : Heap F) (grow : Nat → Nat) (n : Nat) (e : Entry F) : Mv h (h.append grow n e) n := by
  unfold Heap.append
  cases hn : h.nodes[n]? with
  | none => exact Mv.of_eq (fun m => rfl) n
  | some nd =>
    dsimp only
    have hlt := (List.getElem?_eq_some_iff.1 hn).1
    split_ifs
    · refine Mv.of_eq (fun m => ?_) n
      unfold addr
      simp only [List.getElem?_set]
      split_ifs with h1
      · subst h1; simp [hn]
      · rfl
    · refine ⟨fun m hm => ?_, Or.inr ⟨h.arrs.length, ?_, le_rfl⟩⟩
      · unfold addr
        simp only [List.getElem?_set]
        rw [if_neg (fun e => hm e.symm)]
      · unfold addr
        simp [hlt]

theorem mv_alloc (h : Heap F) (p : Option Nat) (l : Bool) (lv : Int) (es : List (Entry F)) :
    Mv h (h.alloc p l lv es).1 h.nodes.length ∧ (h.alloc p l lv es).1.addr h.nodes.length = some h.arrs.length := by
  have h1 : (h.alloc p l lv es).1.addr h.nodes.length = some h.arrs.length := by
    unfold addr Heap.alloc; simp
  refine ⟨⟨fun m hm => ?_, Or.inr ⟨_, h1, le_rfl⟩⟩, h1⟩
  unfold addr Heap.alloc
  dsimp only
  rcases lt_or_gt_of_ne hm with h2 | h2
  · rw [List.getElem?_append_left h2]
  · rw [List.getElem?_eq_none (by simp; omega), List.getElem?_eq_none (by omega)]

theorem mv_setEntries {h : Heap F} {n : Nat} {v : NodeV F} (hv : h.view n = some v) (es : List (Entry F)) :
    Mv h (h.setEntries n es) n ∧ (h.setEntries n es).addr n = some h.arrs.length := by
  obtain ⟨nd, hn, rfl⟩ := view_some.1 hv
  have hlt := (List.getElem?_eq_some_iff.1 hn).1
  have h1 : (h.setEntries n es).addr n = some h.arrs.length := by
    rw [setEntries_eq hn]
    unfold addr fresh; simp [hlt]
  refine ⟨⟨fun m hm => ?_, Or.inr ⟨_, h1, le_rfl⟩⟩, h1⟩
  rw [setEntries_eq hn]
  unfold addr fresh
  simp only [List.getElem?_set]
  rw [if_neg (fun e => hm e.symm)]

/-- a private node's entry can be overwritten without touching others -/
theorem view_setBB_priv {h : Heap F} (ok : h.Bnd) {n : Nat} (pr : h.Priv n) {v : NodeV F} (hv : h.view n = some v)
    {i : Nat} (hi : i < v.entries.length) (b : Box F) (m : Nat) :
    (h.setBB n i b).view m =
      if m = n then some { v with entries := v.entries.modify i fun e => { e with bb := b } }
      else h.view m := by
  obtain ⟨nd, hn, rfl⟩ := view_some.1 hv
  obtain ⟨a, ha, h1, h2⟩ := ok.bnd hn
  have hl : i < nd.entries.len := by simpa [ok.len hn] using hi
  rw [setBB_eq hn]
  split_ifs with hm
  · subst hm
    unfold view
    simp only [hn, Option.map_some, Option.some.injEq, NodeV.mk.injEq, true_and]
    apply List.ext_getElem?
    intro j
    rw [slice_getElem?, List.getElem?_modify, slice_getElem?]
    rw [arrs_modify_getD _ _ _ _ _ ha, if_pos rfl]
    have : h.arrs.getD nd.entries.arr [] = a := by simp [List.getD, ha]
    rw [this]
    rw [List.getElem?_modify]
    by_cases hij : i = j
    · subst hij; simp [hl]
    · have : ¬ (nd.entries.off + i = nd.entries.off + j) := by omega
      simp [hij]
  · unfold view
    cases hm' : h.nodes[m]? with
    | none => rfl
    | some md =>
      simp only [Option.map_some, Option.some.injEq, NodeV.mk.injEq, true_and]
      apply slice_congr
      intro j hj1 hj2
      rw [arrs_modify_getD _ _ _ _ _ ha, if_neg]
      exact fun he => pr (fun e => hm e.symm) hn hm' he.symm

end Heap

/-! ## the simulation -/

/-- `h` and `k` agree, except on the contents of the leaves in `D`, which are related by `Q` -/
structure Sim (D : Nat → Prop) (Q : Nat → List (Entry F) → List (Entry F) → Prop) (h k : Heap F) : Prop where
  len : h.nodes.length = k.nodes.length
  hb : h.Bnd
  hp : ∀ {n v}, h.view n = some v → v.leaf = false → h.Priv n
  ki : k.Inv true
  dlt : ∀ {n}, D n → n < h.nodes.length
  clean : ∀ {n}, ¬ D n → h.view n = k.view n
  dirty : ∀ {n}, D n → ∃ v w, k.view n = some v ∧ h.view n = some w ∧ w.parent = v.parent ∧ w.leaf = true ∧
    v.leaf = true ∧ w.level = v.level ∧ w.entries.length = v.entries.length ∧ Q n w.entries v.entries

namespace Sim
variable {D : Nat → Prop} {Q : Nat → List (Entry F) → List (Entry F) → Prop} {h k : Heap F}

theorem kpriv (s : Sim D Q h k) {n : Nat} {v : NodeV F} (hv : k.view n = some v) : k.Priv n :=
  s.ki.priv_of_view hv (Or.inr rfl)

theorem setParent (s : Sim D Q h k) (c : Nat) (p : Option Nat) : Sim D Q (h.setParent c p) (k.setParent c p) where
  len := by rw [Heap.length_setParent, Heap.length_setParent, s.len]
  hb := s.hb.setParent _ _
  hp := by
    intro n v hv hl
    refine Heap.Priv.mv s.hb (Heap.Mv.of_eq (Heap.addr_setParent h c p) 0) ?_
    rw [Heap.view_setParent] at hv
    split_ifs at hv with h1
    · subst h1
      cases hw : h.view n with
      | none => rw [hw] at hv; cases hv
      | some w => rw [hw] at hv; cases hv; exact s.hp hw hl
    · exact s.hp hv hl
  ki := s.ki.setParent _ _
  dlt := by intro n hn; rw [Heap.length_setParent]; exact s.dlt hn
  clean := by
    intro n hn
    rw [Heap.view_setParent, Heap.view_setParent]
    split_ifs with h1
    · subst h1; rw [s.clean hn]
    · exact s.clean hn
  dirty := by
    intro n hn
    obtain ⟨v, w, h1, h2, h3, h4, h5, h6, h7, h8⟩ := s.dirty hn
    rw [Heap.view_setParent, Heap.view_setParent]
    split_ifs with h0
    · subst h0
      rw [h1, h2]
      exact ⟨_, _, rfl, rfl, rfl, h4, h5, h6, h7, h8⟩
    · exact ⟨v, w, h1, h2, h3, h4, h5, h6, h7, h8⟩

theorem setChildParent (s : Sim D Q h k) (e : Entry F) (p : Nat) :
    Sim D Q (h.setChildParent e p) (k.setChildParent e p) := by
  unfold Heap.setChildParent
  split
  · exact s
  · exact s.setParent _ _

/-- changing the view of one clean node in the same way -/
theorem upd (s : Sim D Q h k) {h' k' : Heap F} {n : Nat} (hn : ¬ D n) {v v' : NodeV F}
    (hv : k.view n = some v) (hl : v'.leaf = v.leaf)
    (hl1 : h'.nodes.length = h.nodes.length) (hl2 : k'.nodes.length = k.nodes.length)
    (hb : h'.Bnd) (ki : k'.Inv true) (mv : Heap.Mv h h' n)
    (e1 : ∀ m, h'.view m = if m = n then some v' else h.view m)
    (e2 : ∀ m, k'.view m = if m = n then some v' else k.view m) : Sim D Q h' k' where
  len := by rw [hl1, hl2, s.len]
  hb := hb
  hp := by
    intro m w hw hwl
    refine Heap.Priv.mv s.hb mv ?_
    rw [e1] at hw
    split_ifs at hw with h0
    · cases hw
      subst h0
      exact s.hp (by rw [s.clean hn]; exact hv) (by rw [← hl]; exact hwl)
    · exact s.hp hw hwl
  ki := ki
  dlt := by intro m hm; rw [hl1]; exact s.dlt hm
  clean := by intro m hm; rw [e1, e2]; split_ifs; exacts [rfl, s.clean hm]
  dirty := by
    intro m hm
    have h0 : m ≠ n := by rintro rfl; exact hn hm
    rw [e1, e2, if_neg h0, if_neg h0]
    exact s.dirty hm

theorem append (s : Sim D Q h k) (grow : Nat → Nat) {n : Nat} (hn : ¬ D n) (pr : h.Priv n) (e : Entry F) :
    Sim D Q (h.append grow n e) (k.append grow n e) := by
  cases hv : k.view n with
  | none =>
    have h1 : h.view n = none := by rw [s.clean hn]; exact hv
    have e1 : h.append grow n e = h := by
      unfold Heap.append; unfold Heap.view at h1; cases hx : h.nodes[n]? <;> rw [hx] at h1 <;> first | rfl | cases h1
    have e2 : k.append grow n e = k := by
      unfold Heap.append; unfold Heap.view at hv; cases hx : k.nodes[n]? <;> rw [hx] at hv <;> first | rfl | cases hv
    rw [e1, e2]; exact s
  | some v =>
    have h1 : h.view n = some v := by rw [s.clean hn]; exact hv
    exact s.upd (v' := { v with entries := v.entries ++ [e] }) hn hv rfl (Heap.length_append _ _ _ _) (Heap.length_append _ _ _ _)
      (s.hb.append _ _ _) (s.ki.append (s.kpriv hv) _ _) (Heap.mv_append _ _ _ _)
      (Heap.view_append s.hb pr h1 grow e) (Heap.view_append s.ki.toOk.toBnd (s.kpriv hv) hv grow e)

theorem setBB (s : Sim D Q h k) {n : Nat} (hn : ¬ D n) (pr : h.Priv n) {v : NodeV F} (hv : k.view n = some v) {i : Nat}
    (hi : i < v.entries.length) (b : Box F) : Sim D Q (h.setBB n i b) (k.setBB n i b) :=
  s.upd (v' := { v with entries := v.entries.modify i fun e => { e with bb := b } }) hn hv rfl (Heap.length_setBB _ _ _ _)
    (Heap.length_setBB _ _ _ _) (s.hb.setBB _ _ _) (s.ki.setBB _ _ _) (Heap.Mv.of_eq (Heap.addr_setBB h n i b) n)
    (Heap.view_setBB_priv s.hb pr (by rw [s.clean hn]; exact hv) hi b) (Heap.view_setBB s.ki.toOk hv hi b)

theorem setEntries (s : Sim D Q h k) {n : Nat} (hn : ¬ D n) {v : NodeV F} (hv : k.view n = some v) (es : List (Entry F)) :
    Sim D Q (h.setEntries n es) (k.setEntries n es) :=
  have hv' : h.view n = some v := by rw [s.clean hn]; exact hv
  s.upd (v' := { v with entries := es }) hn hv rfl (Heap.length_setEntries _ _ _) (Heap.length_setEntries _ _ _)
    (s.hb.setEntries _ _) (s.ki.setEntries _ _) (Heap.mv_setEntries hv' es).1
    (Heap.view_setEntries s.hb hv' es) (Heap.view_setEntries s.ki.toOk.toBnd hv es)

theorem alloc (s : Sim D Q h k) (p : Option Nat) (l : Bool) (lv : Int) (es : List (Entry F)) :
    Sim D Q (h.alloc p l lv es).1 (k.alloc p l lv es).1 where
  len := by rw [Heap.length_alloc, Heap.length_alloc, s.len]
  hb := s.hb.alloc _ _ _ _
  hp := by
    intro n v hv hl
    obtain ⟨mv, mv'⟩ := Heap.mv_alloc h p l lv es
    rw [Heap.view_alloc s.hb] at hv
    by_cases h0 : n = h.nodes.length
    · subst h0
      exact Heap.Priv.mv_new s.hb mv mv' le_rfl
    · rw [if_neg h0] at hv
      exact Heap.Priv.mv s.hb mv (s.hp hv hl)
  ki := s.ki.alloc _ _ _ _
  dlt := by intro n hn; rw [Heap.length_alloc]; have := s.dlt hn; omega
  clean := by
    intro n hn
    rw [Heap.view_alloc s.hb, Heap.view_alloc s.ki.toOk.toBnd, s.len]
    split_ifs; exacts [rfl, s.clean hn]
  dirty := by
    intro n hn
    have h0 : n ≠ h.nodes.length := Nat.ne_of_lt (s.dlt hn)
    rw [Heap.view_alloc s.hb, Heap.view_alloc s.ki.toOk.toBnd, if_neg h0, if_neg (by rw [← s.len]; exact h0)]
    exact s.dirty hn

end Sim

/-- writing `rem` over the start of `old` only reaches dirty leaves, and keeps their contents in order -/
structure OldOk (D : Nat → Prop) (Q : Nat → List (Entry F) → List (Entry F) → Prop) (h : Heap F) (old : Slice)
    (rem : List (Entry F)) : Prop where
  lt : old.arr < h.arrs.length
  bnd : ∀ {a}, h.arrs[old.arr]? = some a → old.off + rem.length ≤ a.length
  shr : ∀ {n nd}, h.nodes[n]? = some nd → nd.entries.arr = old.arr → D n ∧
    ((nd.entries.off + nd.entries.len ≤ old.off ∨ old.off + rem.length ≤ nd.entries.off) ∨
     ∀ es es' vs, Q n es vs → es'.length = es.length → (∀ e ∈ es', e ∈ es ∨ e ∈ rem) → Q n es' vs)

namespace OldOk
variable {D : Nat → Prop} {Q : Nat → List (Entry F) → List (Entry F) → Prop} {h : Heap F} {old : Slice} {rem : List (Entry F)}

theorem shrink (o : OldOk D Q h old rem) {rem' : List (Entry F)} (hl : rem'.length ≤ rem.length) (hs : ∀ e ∈ rem', e ∈ rem) :
    OldOk D Q h old rem' where
  lt := o.lt
  bnd := by intro a ha; have := o.bnd ha; omega
  shr := by
    intro n nd hn ha
    obtain ⟨h1, h2⟩ := o.shr hn ha
    refine ⟨h1, ?_⟩
    rcases h2 with (h2 | h2) | h2
    · exact Or.inl (Or.inl h2)
    · exact Or.inl (Or.inr (by omega))
    · exact Or.inr fun es es' vs q e m => h2 es es' vs q e fun x hx => (m x hx).imp id (hs x)

theorem setParent (o : OldOk D Q h old rem) (c : Nat) (p : Option Nat) : OldOk D Q (h.setParent c p) old rem where
  lt := o.lt
  bnd := o.bnd
  shr := by
    intro n nd hn ha
    obtain ⟨nd', h1, h2, -⟩ := Heap.node_setParent hn
    rw [← h2] at ha ⊢
    exact o.shr h1 ha

theorem setChildParent (o : OldOk D Q h old rem) (e : Entry F) (p : Nat) : OldOk D Q (h.setChildParent e p) old rem := by
  unfold Heap.setChildParent
  split
  · exact o
  · exact o.setParent _ _

theorem blit (o : OldOk D Q h old rem) : OldOk D Q (h.blit old rem) old rem where
  lt := by simpa [Heap.blit] using o.lt
  bnd := by
    intro a ha
    obtain ⟨b, hb⟩ : ∃ b, h.arrs[old.arr]? = some b := ⟨_, List.getElem?_eq_getElem o.lt⟩
    obtain ⟨a', h1, h2⟩ := Heap.blit_length (s := old) (es := rem) hb fun a ha => o.bnd ha
    rw [h1] at ha; cases ha
    have := o.bnd hb
    omega
  shr := o.shr

theorem append (o : OldOk D Q h old rem) (grow : Nat → Nat) {n : Nat} (hn : ¬ D n) (e : Entry F) :
    OldOk D Q (h.append grow n e) old rem where
  lt := by
    have := o.lt
    unfold Heap.append
    split
    · exact this
    · dsimp only; split_ifs
      · simpa using this
      · simp; omega
  bnd := by
    intro a ha
    refine o.bnd ?_
    rw [← ha]
    unfold Heap.append
    split
    · rfl
    · rename_i nd hnd
      dsimp only
      split_ifs
      · have h0 : nd.entries.arr ≠ old.arr := fun h1 => hn (o.shr hnd h1).1
        simp [h0]
      · rw [List.getElem?_append_left o.lt]
  shr := by
    intro m md hm ha
    rcases Heap.node_append hm with ⟨h1, h2⟩ | ⟨rfl, nd, h1, ⟨h2, rfl⟩ | ⟨h2, rfl⟩⟩
    · exact o.shr h2 ha
    · exact absurd (o.shr h1 ha).1 hn
    · have := o.lt; simp only at ha; omega

theorem alloc (o : OldOk D Q h old rem) (p : Option Nat) (l : Bool) (lv : Int) (es : List (Entry F)) :
    OldOk D Q (h.alloc p l lv es).1 old rem where
  lt := by have := o.lt; simp [Heap.alloc]; omega
  bnd := by
    intro a ha
    refine o.bnd ?_
    rw [← ha]
    unfold Heap.alloc
    rw [List.getElem?_append_left o.lt]
  shr := by
    intro m md hm ha
    rcases Heap.node_alloc hm with ⟨rfl, rfl⟩ | ⟨h1, h2⟩
    · have := o.lt; simp only at ha; omega
    · exact o.shr h2 ha

end OldOk

/-- one element of a slice after a `blit` -/
theorem blit_getElem? {a es : List (Entry F)} {off i : Nat} (hl : off + es.length ≤ a.length) :
    (a.take off ++ es ++ a.drop (off + es.length))[i]? =
      if i < off then a[i]? else if i < off + es.length then es[i - off]? else a[i]? := by
  rw [List.append_assoc, List.getElem?_append, List.getElem?_append]
  simp only [List.length_take]
  have hm : min off a.length = off := by omega
  rw [hm]
  split_ifs with h1 h2 h3 h4
  · rw [List.getElem?_take, if_pos h1]
  · rfl
  · omega
  · omega
  · rw [List.getElem?_drop]; congr 1; omega

theorem slice_blit {h : Heap F} {old s : Slice} {es : List (Entry F)}
    (hb : ∀ a : List (Entry F), h.arrs[old.arr]? = some a → old.off + es.length ≤ a.length) {x : List (Entry F)}
    (hx : h.arrs[s.arr]? = some x) (hs : s.off + s.len ≤ x.length) :
    ((h.blit old es).slice s).length = (h.slice s).length ∧ (∀ e ∈ (h.blit old es).slice s, e ∈ h.slice s ∨ e ∈ es) ∧
    (s.arr ≠ old.arr ∨ s.off + s.len ≤ old.off ∨ old.off + es.length ≤ s.off → (h.blit old es).slice s = h.slice s) := by
  obtain ⟨y, hy, hyl⟩ := Heap.blit_length (s := old) (es := es) hx hb
  refine ⟨?_, ?_, ?_⟩
  · rw [Heap.slice_length s hy (by omega), Heap.slice_length s hx hs]
  · intro e he
    obtain ⟨i, hi⟩ := List.mem_iff_getElem?.1 he
    rw [Heap.slice_getElem?] at hi
    split_ifs at hi with hil
    by_cases ha : s.arr = old.arr
    · have hyx : y = x.take old.off ++ es ++ x.drop (old.off + es.length) := by
        have : (h.blit old es).arrs[s.arr]? = some (x.take old.off ++ es ++ x.drop (old.off + es.length)) := by
          unfold Heap.blit
          rw [ha] at hx ⊢
          simp [hx]
        rw [this] at hy; exact (Option.some.inj hy).symm
      have hD : (h.blit old es).arrs.getD s.arr [] = y := by simp [List.getD, hy]
      rw [hD, hyx, blit_getElem? (hb x (by rw [← ha]; exact hx))] at hi
      have hmem : x[s.off + i]? = some e → e ∈ h.slice s := by
        intro h0
        apply List.mem_iff_getElem?.2
        refine ⟨i, ?_⟩
        rw [Heap.slice_getElem?, if_pos hil]
        simp [List.getD, hx, h0]
      split_ifs at hi
      · exact Or.inl (hmem hi)
      · exact Or.inr (List.mem_iff_getElem?.2 ⟨_, hi⟩)
      · exact Or.inl (hmem hi)
    · left
      apply List.mem_iff_getElem?.2
      refine ⟨i, ?_⟩
      rw [Heap.slice_getElem?, if_pos hil]
      simp only [List.getD] at hi ⊢
      rw [← Heap.blit_arrs es (s := old) ha]
      exact hi
  · intro hd
    apply Heap.slice_congr
    intro i h1 h2
    by_cases ha : s.arr = old.arr
    · have hD : (h.blit old es).arrs.getD s.arr [] = x.take old.off ++ es ++ x.drop (old.off + es.length) := by
        unfold Heap.blit
        rw [ha] at hx ⊢
        simp [List.getD, hx]
      have hD' : h.arrs.getD s.arr [] = x := by simp [List.getD, hx]
      rw [hD, hD', blit_getElem? (hb x (by rw [← ha]; exact hx))]
      rcases hd with hd | hd | hd
      · exact absurd ha hd
      · rw [if_pos (by omega)]
      · rw [if_neg (by omega), if_neg (by omega)]
    · simp only [List.getD, Heap.blit_arrs es (s := old) ha]

theorem Sim.blit {D : Nat → Prop} {Q : Nat → List (Entry F) → List (Entry F) → Prop} {h k : Heap F} (s : Sim D Q h k)
    {oh ok : Slice} {rem : List (Entry F)} (o : OldOk D Q h oh rem) (hu : k.Unused ok.arr) (rem' : List (Entry F)) :
    Sim D Q (h.blit oh rem) (k.blit ok rem') where
  len := s.len
  hb := s.hb.blit fun a ha => o.bnd ha
  hp := by
    intro n v hv hl
    refine Heap.Priv.mv s.hb (Heap.Mv.of_eq (Heap.addr_blit h oh rem) 0) ?_
    obtain ⟨nd, hn, rfl⟩ := Heap.view_some.1 hv
    have hn' : h.nodes[n]? = some nd := hn
    have hv' : h.view n = some ⟨nd.parent, nd.leaf, nd.level, h.slice nd.entries⟩ := Heap.view_some.2 ⟨nd, hn', rfl⟩
    have hl' : nd.leaf = false := hl
    exact @Sim.hp _ D Q h k s n _ hv' hl'
  ki := s.ki.blit hu _
  dlt := s.dlt
  clean := by
    intro n hn
    rw [Heap.view_blit hu, ← s.clean hn]
    unfold Heap.view
    have e0 : (h.blit oh rem).nodes = h.nodes := rfl
    rw [e0]
    cases hx : h.nodes[n]? with
    | none => rfl
    | some nd =>
      obtain ⟨x, h1, h2, h3⟩ := s.hb.bnd hx
      simp only [Option.map_some]
      rw [(slice_blit (fun a ha => o.bnd ha) h1 (by omega)).2.2 (Or.inl fun h4 => hn (o.shr hx h4).1)]
  dirty := by
    intro n hn
    obtain ⟨v, w, h1, h2, h3, h4, h5, h6, h7, h8⟩ := s.dirty hn
    rw [Heap.view_blit hu]
    obtain ⟨nd, hnd, rfl⟩ := Heap.view_some.1 h2
    obtain ⟨x, g1, g2, g3⟩ := s.hb.bnd hnd
    obtain ⟨b1, b2, b3⟩ := slice_blit (old := oh) (es := rem) (fun a ha => o.bnd ha) g1 (s := nd.entries) (by omega)
    refine ⟨v, ⟨nd.parent, nd.leaf, nd.level, (h.blit oh rem).slice nd.entries⟩, h1, Heap.view_some.2 ⟨nd, hnd, rfl⟩, h3, h4, h5,
      h6, by rw [b1]; exact h7, ?_⟩
    by_cases ha : nd.entries.arr = oh.arr
    · rcases (o.shr hnd ha).2 with h0 | h0
      · rw [b3 (Or.inr h0)]; exact h8
      · exact h0 _ _ _ h8 b1 b2
    · rw [b3 (Or.inl ha)]; exact h8

end GoGeo
