import Verif.Rtree.Heap
import Mathlib.Tactic.SplitIfs
import Mathlib.Tactic.ByContra
import Mathlib.Data.List.Basic

/-!
# What the heap operations do, seen through `view`

`Heap.Ok`: slices are in bounds and the elements of different nodes do not overlap.
`Heap.Priv`: a node does not share its backing array.
-/

namespace GoGeo
variable {F : Type} [GoFloat F]

namespace Heap

/-- slices in bounds -/
structure Bnd (h : Heap F) : Prop where
  bnd : ∀ {n : Nat} {nd : Node}, h.nodes[n]? = some nd →
    ∃ a, h.arrs[nd.entries.arr]? = some a ∧ nd.entries.off + nd.entries.cap ≤ a.length ∧
      nd.entries.len ≤ nd.entries.cap

/-- slices in bounds and pairwise disjoint -/
structure Ok (h : Heap F) : Prop where
  bnd : ∀ {n : Nat} {nd : Node}, h.nodes[n]? = some nd →
    ∃ a, h.arrs[nd.entries.arr]? = some a ∧ nd.entries.off + nd.entries.cap ≤ a.length ∧
      nd.entries.len ≤ nd.entries.cap
  sep : ∀ {n m : Nat} {a b : Node}, n ≠ m → h.nodes[n]? = some a → h.nodes[m]? = some b →
    a.entries.arr = b.entries.arr →
    a.entries.off + a.entries.len ≤ b.entries.off ∨ b.entries.off + b.entries.len ≤ a.entries.off

/-- node `n` is the only user of its backing array -/
def Priv (h : Heap F) (n : Nat) : Prop :=
  ∀ {m : Nat} {a b : Node}, n ≠ m → h.nodes[n]? = some a → h.nodes[m]? = some b →
    a.entries.arr ≠ b.entries.arr

/-- `Ok`, and inner nodes (all nodes when `q`) are private -/
structure Inv (q : Bool) (h : Heap F) : Prop extends Ok h where
  priv : ∀ {n : Nat} {nd : Node}, h.nodes[n]? = some nd → (nd.leaf = false ∨ q = true) → h.Priv n

theorem slice_getElem? (h : Heap F) (s : Slice) (i : Nat) :
    (h.slice s)[i]? = if i < s.len then (h.arrs.getD s.arr [])[s.off + i]? else none := by
  unfold slice
  rw [List.getElem?_take]
  split_ifs
  · rw [List.getElem?_drop]
  · rfl

theorem slice_length {h : Heap F} (s : Slice) {a : List (Entry F)} (ha : h.arrs[s.arr]? = some a)
    (hl : s.off + s.len ≤ a.length) : (h.slice s).length = s.len := by
  unfold slice
  have : h.arrs.getD s.arr [] = a := by simp [List.getD, ha]
  rw [this]; simp; omega

theorem view_some {h : Heap F} {n : Nat} {v : NodeV F} :
    h.view n = some v ↔ ∃ nd, h.nodes[n]? = some nd ∧
      v = ⟨nd.parent, nd.leaf, nd.level, h.slice nd.entries⟩ := by
  unfold view
  cases h.nodes[n]? <;> simp [eq_comm]

theorem Ok.toBnd {h : Heap F} (ok : h.Ok) : h.Bnd := ⟨fun hn => ok.bnd hn⟩

theorem Bnd.len {h : Heap F} (ok : h.Bnd) {n : Nat} {nd : Node} (hn : h.nodes[n]? = some nd) :
    (h.slice nd.entries).length = nd.entries.len := by
  obtain ⟨a, ha, h1, h2⟩ := ok.bnd hn
  exact slice_length _ ha (by omega)

theorem Bnd.arr_lt {h : Heap F} (ok : h.Bnd) {n : Nat} {nd : Node} (hn : h.nodes[n]? = some nd) :
    nd.entries.arr < h.arrs.length := by
  obtain ⟨a, ha, -⟩ := ok.bnd hn
  exact (List.getElem?_eq_some_iff.1 ha).1

theorem Ok.len {h : Heap F} (ok : h.Ok) {n : Nat} {nd : Node} (hn : h.nodes[n]? = some nd) :
    (h.slice nd.entries).length = nd.entries.len := by
  obtain ⟨a, ha, h1, h2⟩ := ok.bnd hn
  exact slice_length _ ha (by omega)

theorem slice_congr {h h' : Heap F} (s : Slice)
    (e : ∀ i, s.off ≤ i → i < s.off + s.len →
      (h'.arrs.getD s.arr [])[i]? = (h.arrs.getD s.arr [])[i]?) : h'.slice s = h.slice s := by
  apply List.ext_getElem?
  intro i
  rw [slice_getElem?, slice_getElem?]
  split_ifs with hi
  · exact e _ (by omega) (by omega)
  · rfl

theorem view_lt {h : Heap F} {n : Nat} {v : NodeV F} (hv : h.view n = some v) : n < h.nodes.length := by
  obtain ⟨nd, hn, -⟩ := view_some.1 hv
  exact (List.getElem?_eq_some_iff.1 hn).1

theorem deref_some {h : Heap F} {n : Nat} {v : NodeV F} (hv : h.view n = some v) :
    h.deref (some n) = .ok (n, v) := by
  simp [deref, hv]

theorem deref_ok {h : Heap F} {n : Option Nat} {r : Nat × NodeV F} (hr : h.deref n = .ok r) :
    n = some r.1 ∧ h.view r.1 = some r.2 := by
  unfold deref at hr
  split at hr
  · cases hr
  · split at hr
    · cases hr
    · cases hr; exact ⟨rfl, by assumption⟩

/-! ### setParent -/

theorem view_setParent (h : Heap F) (n : Nat) (p : Option Nat) (m : Nat) :
    (h.setParent n p).view m =
      if m = n then (h.view n).map (fun v => { v with parent := p }) else h.view m := by
  unfold view setParent
  simp only [List.getElem?_modify]
  split_ifs with h1 h2 h2
  · subst h1; cases h.nodes[n]? <;> simp [slice]
  · exact absurd h1.symm h2
  · exact absurd h2.symm h1
  · simp [slice]

theorem Inv.setParent {q : Bool} {h : Heap F} (hi : h.Inv q) (n : Nat) (p : Option Nat) :
    (h.setParent n p).Inv q := by
  have key : ∀ (m : Nat) (nd : Node), (h.setParent n p).nodes[m]? = some nd →
      ∃ nd' : Node, h.nodes[m]? = some nd' ∧ nd'.entries = nd.entries ∧ nd'.leaf = nd.leaf := by
    intro m nd hm
    unfold Heap.setParent at hm
    simp only [List.getElem?_modify] at hm
    cases hx : h.nodes[m]? with
    | none => rw [hx] at hm; simp at hm
    | some x =>
      rw [hx] at hm
      refine ⟨x, rfl, ?_⟩
      simp only [Option.map_eq_map, Option.map_some, Option.some.injEq] at hm
      subst hm
      split_ifs <;> simp
  refine ⟨⟨?_, ?_⟩, ?_⟩
  · intro m nd hm
    obtain ⟨nd', h1, h2, -⟩ := key m nd hm
    rw [← h2]; exact hi.bnd h1
  · intro m k a b hmk ha hb hab
    obtain ⟨a', ha', h2, -⟩ := key m a ha
    obtain ⟨b', hb', h3, -⟩ := key k b hb
    rw [← h2, ← h3] at hab ⊢; exact hi.sep hmk ha' hb' hab
  · intro m nd hm hq k a b hmk ha hb
    obtain ⟨nd', h1, -, h2⟩ := key m nd hm
    obtain ⟨a', ha', h4, -⟩ := key m a ha
    obtain ⟨b', hb', h3, -⟩ := key k b hb
    rw [← h4, ← h3]; exact hi.priv h1 (by rw [h2]; exact hq) hmk ha' hb'

theorem length_setParent (h : Heap F) (n : Nat) (p : Option Nat) :
    (h.setParent n p).nodes.length = h.nodes.length := by
  simp [setParent]

/-! ### setBB -/

theorem arrs_modify_getD (l : List (List (Entry F))) (a b : Nat) (f : List (Entry F) → List (Entry F))
    (x : List (Entry F)) (hx : l[a]? = some x) :
    (l.modify a f).getD b [] = if b = a then f x else l.getD b [] := by
  simp only [List.getD, List.getElem?_modify]
  split_ifs with h1 h2 h2
  · subst h1; simp [hx]
  · exact absurd h1.symm h2
  · exact absurd h2.symm h1
  · simp

theorem setBB_eq {h : Heap F} {n : Nat} {nd : Node} (hn : h.nodes[n]? = some nd) (i : Nat) (b : Box F) :
    h.setBB n i b = { nodes := h.nodes
                      arrs := h.arrs.modify nd.entries.arr fun a =>
                        a.modify (nd.entries.off + i) fun e => { e with bb := b } } := by
  unfold setBB; rw [hn]

theorem length_setBB (h : Heap F) (n i : Nat) (b : Box F) :
    (h.setBB n i b).nodes.length = h.nodes.length := by
  unfold setBB; split <;> rfl

theorem view_setBB {h : Heap F} (ok : h.Ok) {n : Nat} {v : NodeV F} (hv : h.view n = some v)
    {i : Nat} (hi : i < v.entries.length) (b : Box F) (m : Nat) :
    (h.setBB n i b).view m =
      if m = n then some { v with entries := v.entries.modify i fun e => { e with bb := b } }
      else h.view m := by
  obtain ⟨nd, hn, rfl⟩ := view_some.1 hv
  obtain ⟨a, ha, h1, h2⟩ := ok.bnd hn
  have hl : i < nd.entries.len := by simpa [ok.len hn] using hi
  rw [setBB_eq hn]
  split_ifs with hm
  · subst hm
    unfold view
    simp only [hn, Option.map_some, Option.some.injEq, NodeV.mk.injEq, true_and]
    apply List.ext_getElem?
    intro j
    rw [slice_getElem?, List.getElem?_modify, slice_getElem?]
    rw [arrs_modify_getD _ _ _ _ _ ha, if_pos rfl]
    have : h.arrs.getD nd.entries.arr [] = a := by simp [List.getD, ha]
    rw [this]
    rw [List.getElem?_modify]
    by_cases hij : i = j
    · subst hij; simp [hl]
    · have : ¬ (nd.entries.off + i = nd.entries.off + j) := by omega
      simp [hij]
  · unfold view
    cases hm' : h.nodes[m]? with
    | none => rfl
    | some md =>
      simp only [Option.map_some, Option.some.injEq, NodeV.mk.injEq, true_and]
      apply slice_congr
      intro j hj1 hj2
      rw [arrs_modify_getD _ _ _ _ _ ha]
      split_ifs with he
      · rw [List.getElem?_modify]
        have : h.arrs.getD md.entries.arr [] = a := by rw [he]; simp [List.getD, ha]
        rw [this]
        have := ok.sep (fun e => hm e.symm) hn hm' he.symm
        split_ifs with h3
        · omega
        · simp
      · rfl

theorem Inv.setBB {q : Bool} {h : Heap F} (hi : h.Inv q) (n i : Nat) (b : Box F) :
    (h.setBB n i b).Inv q := by
  cases hn : h.nodes[n]? with
  | none => unfold Heap.setBB; rw [hn]; exact hi
  | some nd =>
    rw [setBB_eq hn]
    refine ⟨⟨?_, fun hmk ha hb hab => hi.sep hmk ha hb hab⟩, ?_⟩
    · intro m md hm
      obtain ⟨a, ha, h1⟩ := hi.bnd hm
      simp only [List.getElem?_modify, ha]
      refine ⟨_, rfl, ?_⟩
      dsimp only [id_def]
      split_ifs
      · rw [List.length_modify]; exact h1
      · exact h1
    · exact fun hm hq => hi.priv hm hq

/-! ### operations giving a node a fresh array -/

/-- slices are not affected by appending a new array -/
theorem slice_append_arr {h : Heap F} {s : Slice} {a : List (Entry F)} (ha : h.arrs[s.arr]? = some a)
    (nodes : List Node) (x : List (Entry F)) :
    Heap.slice ⟨nodes, h.arrs ++ [x]⟩ s = h.slice s := by
  have hlt := (List.getElem?_eq_some_iff.1 ha).1
  unfold slice
  simp only [List.getD]
  rw [List.getElem?_append_left hlt]

theorem slice_new (arrs : List (List (Entry F))) (nodes : List Node) (x : List (Entry F)) (len cap : Nat) :
    Heap.slice ⟨nodes, arrs ++ [x]⟩ ⟨arrs.length, 0, len, cap⟩ = x.take len := by
  unfold slice
  simp [List.getD]

/-- replacing a node's slice by a fresh array -/
def fresh (h : Heap F) (n : Nat) (nd : Node) (x : List (Entry F)) (len : Nat) : Heap F :=
  { nodes := h.nodes.set n { nd with entries := ⟨h.arrs.length, 0, len, x.length⟩ }
    arrs := h.arrs ++ [x] }

theorem view_fresh {h : Heap F} (ok : h.Bnd) {n : Nat} {nd : Node} (hn : h.nodes[n]? = some nd)
    (x : List (Entry F)) (len : Nat) (m : Nat) :
    (h.fresh n nd x len).view m =
      if m = n then some ⟨nd.parent, nd.leaf, nd.level, x.take len⟩ else h.view m := by
  have hlt := (List.getElem?_eq_some_iff.1 hn).1
  unfold view fresh
  simp only [List.getElem?_set]
  split_ifs with h1 h2 h2
  · simp [slice_new]
  · exact absurd h1.symm h2
  · exact absurd h2.symm h1
  · cases hm : h.nodes[m]? with
    | none => rfl
    | some md =>
      obtain ⟨a, ha, -⟩ := ok.bnd hm
      simp [slice_append_arr ha]

theorem fresh_node {h : Heap F} {n : Nat} {nd : Node} {x : List (Entry F)} {len m : Nat} {md : Node}
    (hm : (h.fresh n nd x len).nodes[m]? = some md) :
    (m = n ∧ md = { nd with entries := ⟨h.arrs.length, 0, len, x.length⟩ }) ∨
    (m ≠ n ∧ h.nodes[m]? = some md) := by
  unfold fresh at hm
  simp only [List.getElem?_set] at hm
  split_ifs at hm with h1 h2
  · left; exact ⟨h1.symm, (by simpa using hm.symm)⟩
  · right; exact ⟨fun e => h1 e.symm, hm⟩

theorem Ok.arr_lt {h : Heap F} (ok : h.Ok) {n : Nat} {nd : Node} (hn : h.nodes[n]? = some nd) :
    nd.entries.arr < h.arrs.length := by
  obtain ⟨a, ha, -⟩ := ok.bnd hn
  exact (List.getElem?_eq_some_iff.1 ha).1

theorem Inv.fresh {q : Bool} {h : Heap F} (hi : h.Inv q) {n : Nat} {nd : Node}
    (hn : h.nodes[n]? = some nd) (x : List (Entry F)) (len : Nat) (hlen : len ≤ x.length) :
    (h.fresh n nd x len).Inv q := by
  refine ⟨⟨?_, ?_⟩, ?_⟩
  · intro m md hm
    rcases fresh_node hm with ⟨rfl, rfl⟩ | ⟨hne, hm'⟩
    · refine ⟨x, ?_, ?_, hlen⟩
      · simp [Heap.fresh]
      · simp
    · obtain ⟨a, ha, h1⟩ := hi.bnd hm'
      refine ⟨a, ?_, h1⟩
      unfold Heap.fresh
      rw [List.getElem?_append_left (hi.arr_lt hm')]; exact ha
  · intro m k a b hmk ha hb hab
    rcases fresh_node ha with ⟨rfl, rfl⟩ | ⟨h1, ha'⟩ <;> rcases fresh_node hb with ⟨h2, rfl⟩ | ⟨h2, hb'⟩
    · exact absurd h2.symm hmk
    · have := hi.arr_lt hb'; simp at hab; omega
    · have := hi.arr_lt ha'; simp at hab; omega
    · exact hi.sep hmk ha' hb' hab
  · intro m md hm hq k a b hmk ha hb
    rcases fresh_node ha with ⟨rfl, rfl⟩ | ⟨h1, ha'⟩ <;> rcases fresh_node hb with ⟨h2, rfl⟩ | ⟨h2, hb'⟩
    · exact absurd h2.symm hmk
    · have := hi.arr_lt hb'; simp; omega
    · have := hi.arr_lt ha'; simp; omega
    · rcases fresh_node hm with ⟨rfl, rfl⟩ | ⟨-, hm'⟩
      · exact absurd rfl h1
      · exact hi.priv hm' hq hmk ha' hb'

theorem setEntries_eq {h : Heap F} {n : Nat} {nd : Node} (hn : h.nodes[n]? = some nd)
    (es : List (Entry F)) : h.setEntries n es = h.fresh n nd es es.length := by
  unfold setEntries fresh; rw [hn]

theorem view_setEntries {h : Heap F} (ok : h.Bnd) {n : Nat} {v : NodeV F} (hv : h.view n = some v)
    (es : List (Entry F)) (m : Nat) :
    (h.setEntries n es).view m = if m = n then some { v with entries := es } else h.view m := by
  obtain ⟨nd, hn, rfl⟩ := view_some.1 hv
  rw [setEntries_eq hn, view_fresh ok hn]
  simp

theorem Inv.setEntries {q : Bool} {h : Heap F} (hi : h.Inv q) (n : Nat) (es : List (Entry F)) :
    (h.setEntries n es).Inv q := by
  cases hn : h.nodes[n]? with
  | none => unfold Heap.setEntries; rw [hn]; exact hi
  | some nd => rw [setEntries_eq hn]; exact hi.fresh hn _ _ le_rfl

theorem length_setEntries (h : Heap F) (n : Nat) (es : List (Entry F)) :
    (h.setEntries n es).nodes.length = h.nodes.length := by
  unfold setEntries; split <;> simp

/-! ### append -/

theorem view_append {h : Heap F} (ok : h.Bnd) {n : Nat} (pr : h.Priv n) {v : NodeV F}
    (hv : h.view n = some v) (grow : Nat → Nat) (e : Entry F) (m : Nat) :
    (h.append grow n e).view m =
      if m = n then some { v with entries := v.entries ++ [e] } else h.view m := by
  obtain ⟨nd, hn, rfl⟩ := view_some.1 hv
  obtain ⟨a, ha, h1, h2⟩ := ok.bnd hn
  have hnlt := (List.getElem?_eq_some_iff.1 hn).1
  have hD : h.arrs.getD nd.entries.arr [] = a := by simp [List.getD, ha]
  unfold append
  rw [hn]
  dsimp only
  by_cases hc : nd.entries.len < nd.entries.cap
  · rw [if_pos hc]
    unfold view
    simp only [List.getElem?_set]
    split_ifs with h3 h4 h4
    · simp only [Option.map_some, Option.some.injEq, NodeV.mk.injEq, true_and]
      apply List.ext_getElem?
      intro j
      rw [slice_getElem?]
      simp only [arrs_modify_getD _ _ _ _ _ ha, if_true]
      rw [List.getElem?_append, ok.len hn, slice_getElem?, hD, List.getElem?_set]
      split_ifs with h5 h6 h7 h7 h8 <;> first | omega | rfl | skip
      · obtain rfl : j = nd.entries.len := by omega
        simp
      · symm
        apply List.getElem?_eq_none
        simp; omega
    · exact absurd h3.symm h4
    · exact absurd h4.symm h3
    · cases hm : h.nodes[m]? with
      | none => rfl
      | some md =>
        simp only [Option.map_some, Option.some.injEq, NodeV.mk.injEq, true_and]
        apply slice_congr
        intro j _ _
        rw [arrs_modify_getD _ _ _ _ _ ha, if_neg]
        exact fun he => pr h3 hn hm he.symm
  · rw [if_neg hc]
    have := view_fresh ok hn (h.slice nd.entries ++ [e] ++ List.replicate (grow nd.entries.len) Entry.zero)
      (nd.entries.len + 1) m
    unfold fresh at this
    simp only [List.length_append, List.length_replicate, List.length_cons, List.length_nil, ok.len hn] at this
    rw [zero_add] at this
    rw [this]
    congr 3
    rw [List.take_append_of_le_length (by simp [ok.len hn])]
    simp [ok.len hn, List.take_append]
    rw [List.take_of_length_le (by rw [ok.len hn]; omega)]

theorem Inv.append {q : Bool} {h : Heap F} (hi : h.Inv q) {n : Nat} (pr : h.Priv n)
    (grow : Nat → Nat) (e : Entry F) : (h.append grow n e).Inv q := by
  unfold Heap.append
  cases hn : h.nodes[n]? with
  | none => exact hi
  | some nd =>
    obtain ⟨x, hx, h1, h2⟩ := hi.bnd hn
    dsimp only
    by_cases hc : nd.entries.len < nd.entries.cap
    · rw [if_pos hc]
      have key : ∀ {m : Nat} {md : Node},
          (h.nodes.set n { nd with entries := { nd.entries with len := nd.entries.len + 1 } })[m]? = some md →
          (m = n ∧ md = { nd with entries := { nd.entries with len := nd.entries.len + 1 } }) ∨
          (m ≠ n ∧ h.nodes[m]? = some md) := by
        intro m md hm
        simp only [List.getElem?_set] at hm
        split_ifs at hm with h1 h2
        · left; exact ⟨h1.symm, (by simpa using hm.symm)⟩
        · right; exact ⟨fun e => h1 e.symm, hm⟩
      refine ⟨⟨?_, ?_⟩, ?_⟩
      · intro m md hm
        rcases key hm with ⟨rfl, rfl⟩ | ⟨hne, hm'⟩
        · refine ⟨x.set (nd.entries.off + nd.entries.len) e, ?_, ?_, by dsimp only; omega⟩
          · simp [hx]
          · simpa using h1
        · obtain ⟨a, ha, h3⟩ := hi.bnd hm'
          refine ⟨a, ?_, h3⟩
          simp only [List.getElem?_modify, ha]
          have := pr (fun e => hne e.symm) hn hm'
          simp [this]
      · intro m k a b hmk ha hb hab
        rcases key ha with ⟨rfl, rfl⟩ | ⟨h1, ha'⟩ <;> rcases key hb with ⟨h2, rfl⟩ | ⟨h2, hb'⟩
        · exact absurd h2.symm hmk
        · have := pr hmk hn hb'
          exact absurd hab this
        · subst h2
          have := pr (fun e => h1 e.symm) hn ha'
          exact absurd hab.symm this
        · exact hi.sep hmk ha' hb' hab
      · intro m md hm hq k a b hmk ha hb
        rcases key ha with ⟨rfl, rfl⟩ | ⟨h1, ha'⟩ <;> rcases key hb with ⟨h2, rfl⟩ | ⟨h2, hb'⟩
        · exact absurd h2.symm hmk
        · have := pr hmk hn hb'
          exact this
        · subst h2
          have := pr (fun e => h1 e.symm) hn ha'
          exact fun hab => this hab.symm
        · rcases key hm with ⟨rfl, rfl⟩ | ⟨-, hm'⟩
          · exact absurd rfl h1
          · exact hi.priv hm' hq hmk ha' hb'
    · rw [if_neg hc]
      have := hi.fresh hn (h.slice nd.entries ++ [e] ++ List.replicate (grow nd.entries.len) Entry.zero)
        (nd.entries.len + 1) (by simp [hi.len hn])
      unfold Heap.fresh at this
      simp only [List.length_append, List.length_replicate, List.length_cons, List.length_nil, hi.len hn] at this
      rw [zero_add] at this
      exact this

theorem length_append (h : Heap F) (grow : Nat → Nat) (n : Nat) (e : Entry F) :
    (h.append grow n e).nodes.length = h.nodes.length := by
  unfold append; split
  · rfl
  · dsimp only; split_ifs <;> simp

/-! ### removeAt -/

theorem view_removeAt {h : Heap F} (ok : h.Ok) {n : Nat} {v : NodeV F} (hv : h.view n = some v)
    {i : Nat} (hi : i < v.entries.length) (m : Nat) :
    (h.removeAt n i).view m =
      if m = n then some { v with entries := v.entries.eraseIdx i } else h.view m := by
  obtain ⟨nd, hn, rfl⟩ := view_some.1 hv
  obtain ⟨a, ha, h1, h2⟩ := ok.bnd hn
  have hl : i < nd.entries.len := by simpa [ok.len hn] using hi
  have hnlt := (List.getElem?_eq_some_iff.1 hn).1
  have hD : h.arrs.getD nd.entries.arr [] = a := by simp [List.getD, ha]
  unfold removeAt
  rw [hn]
  dsimp only
  have new : ∀ j, (a.take (nd.entries.off + i) ++
        (a.drop (nd.entries.off + i + 1)).take (nd.entries.len - i - 1) ++
        a.drop (nd.entries.off + nd.entries.len - 1))[j]? =
      if j < nd.entries.off + i then a[j]?
      else if j < nd.entries.off + nd.entries.len - 1 then a[j + 1]? else a[j]? := by
    intro j
    have l1 : (a.take (nd.entries.off + i)).length = nd.entries.off + i := by simp; omega
    have l2 : ((a.drop (nd.entries.off + i + 1)).take (nd.entries.len - i - 1)).length
        = nd.entries.len - i - 1 := by simp; omega
    rw [List.getElem?_append, List.getElem?_append, List.length_append, l1, l2]
    split_ifs with c1 c2 c3 c4 c5 <;> first | omega | skip
    · rw [List.getElem?_take, if_pos c2]
    · rw [List.getElem?_take, if_pos (by omega), List.getElem?_drop]
      congr 1; omega
    · rw [List.getElem?_drop]; congr 1; omega
  unfold view
  simp only [List.getElem?_set]
  split_ifs with h3 h4 h4
  · simp only [Option.map_some, Option.some.injEq, NodeV.mk.injEq, true_and]
    apply List.ext_getElem?
    intro j
    rw [slice_getElem?]
    simp only [arrs_modify_getD _ _ _ _ _ ha, if_true]
    rw [List.getElem?_eraseIdx, slice_getElem?, slice_getElem?, hD, new]
    split_ifs <;> first | omega | rfl
  · exact absurd h3.symm h4
  · exact absurd h4.symm h3
  · cases hm : h.nodes[m]? with
    | none => rfl
    | some md =>
      simp only [Option.map_some, Option.some.injEq, NodeV.mk.injEq, true_and]
      apply slice_congr
      intro j hj1 hj2
      rw [arrs_modify_getD _ _ _ _ _ ha]
      split_ifs with he
      · have := ok.sep h3 hn hm he.symm
        rw [he, hD, new]
        split_ifs <;> first | omega | rfl
      · rfl

theorem Inv.removeAt {q : Bool} {h : Heap F} (hi : h.Inv q) {n : Nat} {v : NodeV F}
    (hv : h.view n = some v) {i : Nat} (hl : i < v.entries.length) : (h.removeAt n i).Inv q := by
  obtain ⟨nd, hn, rfl⟩ := view_some.1 hv
  have hil : i < nd.entries.len := by simpa [hi.len hn] using hl
  unfold Heap.removeAt
  rw [hn]
  dsimp only
  obtain ⟨x, hx, h1, h2⟩ := hi.bnd hn
  have key : ∀ {m : Nat} {md : Node},
      (h.nodes.set n { nd with entries := { nd.entries with len := nd.entries.len - 1 } })[m]? = some md →
      (m = n ∧ md = { nd with entries := { nd.entries with len := nd.entries.len - 1 } }) ∨
      (m ≠ n ∧ h.nodes[m]? = some md) := by
    intro m md hm
    simp only [List.getElem?_set] at hm
    split_ifs at hm with h1 h2
    · left; exact ⟨h1.symm, (by simpa using hm.symm)⟩
    · right; exact ⟨fun e => h1 e.symm, hm⟩
  have bnd : ∀ (s : Slice) (a : List (Entry F)), h.arrs[s.arr]? = some a → s.off + s.cap ≤ a.length →
      ∃ a', (h.arrs.modify nd.entries.arr fun a =>
        a.take (nd.entries.off + i) ++ (a.drop (nd.entries.off + i + 1)).take (nd.entries.len - i - 1) ++
          a.drop (nd.entries.off + nd.entries.len - 1))[s.arr]? = some a' ∧ s.off + s.cap ≤ a'.length := by
    intro s a ha hs
    simp only [List.getElem?_modify, ha]
    refine ⟨_, rfl, ?_⟩
    dsimp only [id_def]
    split_ifs with he
    · rw [he, ha] at hx
      cases hx
      simp; omega
    · exact hs
  refine ⟨⟨?_, ?_⟩, ?_⟩
  · intro m md hm
    rcases key hm with ⟨rfl, rfl⟩ | ⟨hne, hm'⟩
    · obtain ⟨a', e1, e2⟩ := bnd nd.entries x hx h1
      exact ⟨a', e1, e2, by dsimp only; omega⟩
    · obtain ⟨a, ha, h3, h4⟩ := hi.bnd hm'
      obtain ⟨a', e1, e2⟩ := bnd md.entries a ha h3
      exact ⟨a', e1, e2, h4⟩
  · intro m k a b hmk ha hb hab
    rcases key ha with ⟨rfl, rfl⟩ | ⟨h1, ha'⟩ <;> rcases key hb with ⟨h2, rfl⟩ | ⟨h2, hb'⟩
    · exact absurd h2.symm hmk
    · have := hi.sep hmk hn hb' hab; dsimp only; omega
    · subst h2; have := hi.sep hmk ha' hn hab; dsimp only; omega
    · exact hi.sep hmk ha' hb' hab
  · intro m md hm hq k a b hmk ha hb
    have hmd : ∃ md', h.nodes[m]? = some md' ∧ md'.leaf = md.leaf := by
      rcases key hm with ⟨rfl, rfl⟩ | ⟨-, hm'⟩
      · exact ⟨nd, hn, rfl⟩
      · exact ⟨md, hm', rfl⟩
    obtain ⟨md', hm', hl⟩ := hmd
    have pr : h.Priv m := hi.priv hm' (by rw [hl]; exact hq)
    rcases key ha with ⟨rfl, rfl⟩ | ⟨h1, ha'⟩ <;> rcases key hb with ⟨h2, rfl⟩ | ⟨h2, hb'⟩
    · exact absurd h2.symm hmk
    · have := pr hmk hn hb'
      exact this
    · subst h2
      have := pr hmk ha' hn
      exact this
    · exact pr hmk ha' hb'

theorem length_removeAt (h : Heap F) (n i : Nat) :
    (h.removeAt n i).nodes.length = h.nodes.length := by
  unfold removeAt; split <;> simp

/-! ### alloc -/

theorem alloc_id (h : Heap F) (p : Option Nat) (l : Bool) (lv : Int) (es : List (Entry F)) :
    (h.alloc p l lv es).2 = h.nodes.length := rfl

theorem view_alloc {h : Heap F} (ok : h.Bnd) (p : Option Nat) (l : Bool) (lv : Int) (es : List (Entry F))
    (m : Nat) :
    (h.alloc p l lv es).1.view m =
      if m = h.nodes.length then some ⟨p, l, lv, es⟩ else h.view m := by
  unfold alloc view
  dsimp only
  split_ifs with h1
  · subst h1
    simp [slice_new]
  · rcases lt_or_gt_of_ne h1 with h2 | h2
    · rw [List.getElem?_append_left h2]
      cases hm : h.nodes[m]? with
      | none => rfl
      | some md =>
        obtain ⟨a, ha, -⟩ := ok.bnd hm
        simp [slice_append_arr ha]
    · rw [List.getElem?_eq_none (by simp; omega), List.getElem?_eq_none (by omega)]
      rfl

theorem Inv.alloc {q : Bool} {h : Heap F} (hi : h.Inv q) (p : Option Nat) (l : Bool) (lv : Int)
    (es : List (Entry F)) : (h.alloc p l lv es).1.Inv q := by
  have key : ∀ {m : Nat} {md : Node}, (h.alloc p l lv es).1.nodes[m]? = some md →
      (m = h.nodes.length ∧ md = ⟨p, l, ⟨h.arrs.length, 0, es.length, es.length⟩, lv⟩) ∨
      (m < h.nodes.length ∧ h.nodes[m]? = some md) := by
    intro m md hm
    unfold Heap.alloc at hm
    dsimp only at hm
    have hlt := (List.getElem?_eq_some_iff.1 hm).1
    simp at hlt
    rcases lt_or_eq_of_le (Nat.lt_succ_iff.1 hlt) with h2 | h2
    · right; rw [List.getElem?_append_left h2] at hm; exact ⟨h2, hm⟩
    · left; subst h2; simp at hm; exact ⟨rfl, hm.symm⟩
  refine ⟨⟨?_, ?_⟩, ?_⟩
  · intro m md hm
    rcases key hm with ⟨rfl, rfl⟩ | ⟨hne, hm'⟩
    · exact ⟨es, by simp [Heap.alloc], by simp, le_rfl⟩
    · obtain ⟨a, ha, h1⟩ := hi.bnd hm'
      refine ⟨a, ?_, h1⟩
      unfold Heap.alloc
      rw [List.getElem?_append_left (hi.arr_lt hm')]; exact ha
  · intro m k a b hmk ha hb hab
    rcases key ha with ⟨rfl, rfl⟩ | ⟨h1, ha'⟩ <;> rcases key hb with ⟨h2, rfl⟩ | ⟨h2, hb'⟩
    · exact absurd h2.symm hmk
    · have := hi.arr_lt hb'; simp at hab; omega
    · have := hi.arr_lt ha'; simp at hab; omega
    · exact hi.sep hmk ha' hb' hab
  · intro m md hm hq k a b hmk ha hb
    rcases key ha with ⟨rfl, rfl⟩ | ⟨h1, ha'⟩ <;> rcases key hb with ⟨h2, rfl⟩ | ⟨h2, hb'⟩
    · exact absurd h2.symm hmk
    · have := hi.arr_lt hb'; simp; omega
    · have := hi.arr_lt ha'; simp; omega
    · rcases key hm with ⟨rfl, rfl⟩ | ⟨-, hm'⟩
      · omega
      · exact hi.priv hm' hq hmk ha' hb'

theorem length_alloc (h : Heap F) (p : Option Nat) (l : Bool) (lv : Int) (es : List (Entry F)) :
    (h.alloc p l lv es).1.nodes.length = h.nodes.length + 1 := by
  simp [alloc]

/-! ### setChildParent -/

theorem view_setChildParent (h : Heap F) (e : Entry F) (p : Nat) (m : Nat) :
    (h.setChildParent e p).view m =
      if e.child = some m then (h.view m).map (fun v => { v with parent := some p }) else h.view m := by
  unfold setChildParent
  split
  · rename_i h1; simp [h1]
  · rename_i c h1
    rw [view_setParent, h1]
    split_ifs with h2 h3 h3
    · subst h2; rfl
    · exact absurd (by rw [h2]) h3
    · exact absurd (Option.some.inj h3).symm h2
    · rfl

theorem Inv.setChildParent {q : Bool} {h : Heap F} (hi : h.Inv q) (e : Entry F) (p : Nat) :
    (h.setChildParent e p).Inv q := by
  unfold Heap.setChildParent
  split
  · exact hi
  · exact hi.setParent _ _

theorem length_setChildParent (h : Heap F) (e : Entry F) (p : Nat) :
    (h.setChildParent e p).nodes.length = h.nodes.length := by
  unfold setChildParent
  split
  · rfl
  · exact length_setParent _ _ _

/-- privacy of a node, read off its view -/
theorem Inv.priv_of_view {q : Bool} {h : Heap F} (hi : h.Inv q) {n : Nat} {v : NodeV F}
    (hv : h.view n = some v) (hq : v.leaf = false ∨ q = true) : h.Priv n := by
  obtain ⟨nd, hn, rfl⟩ := view_some.1 hv
  exact hi.priv hn hq

/-! ### blit: writing to an array that no node uses any more -/

/-- no node uses array `a` -/
def Unused (h : Heap F) (a : Nat) : Prop :=
  a < h.arrs.length ∧ ∀ {m : Nat} {nd : Node}, h.nodes[m]? = some nd → nd.entries.arr ≠ a

theorem blit_arrs {h : Heap F} {s : Slice} (es : List (Entry F)) {b : Nat} (hb : b ≠ s.arr) :
    (h.blit s es).arrs[b]? = h.arrs[b]? := by
  unfold blit
  simp only [List.getElem?_modify]
  have hb' : s.arr ≠ b := fun e => hb e.symm
  simp [hb']

theorem view_blit {h : Heap F} {s : Slice} (hu : h.Unused s.arr) (es : List (Entry F)) (m : Nat) :
    (h.blit s es).view m = h.view m := by
  unfold view
  have e0 : (h.blit s es).nodes = h.nodes := rfl
  rw [e0]
  cases hn : h.nodes[m]? with
  | none => rfl
  | some nd =>
    simp only [Option.map_some]
    have : (h.blit s es).slice nd.entries = h.slice nd.entries := by
      apply slice_congr
      intro i _ _
      simp only [List.getD, blit_arrs es (hu.2 hn)]
    rw [this]

theorem Inv.blit {q : Bool} {h : Heap F} (hi : h.Inv q) {s : Slice} (hu : h.Unused s.arr) (es : List (Entry F)) :
    (h.blit s es).Inv q := by
  refine ⟨⟨fun {n nd} hn => ?_, fun {n m a b} => hi.sep⟩, fun {n nd} hn hq => hi.priv hn hq⟩
  obtain ⟨a, ha, h1, h2⟩ := hi.bnd hn
  exact ⟨a, by rw [blit_arrs es (hu.2 hn)]; exact ha, h1, h2⟩

theorem length_blit (h : Heap F) (s : Slice) (es : List (Entry F)) : (h.blit s es).nodes.length = h.nodes.length := rfl

theorem Unused.blit {h : Heap F} {a : Nat} (hu : h.Unused a) (s : Slice) (es : List (Entry F)) : (h.blit s es).Unused a :=
  ⟨by simpa [Heap.blit] using hu.1, hu.2⟩

theorem Unused.setParent {h : Heap F} {a : Nat} (hu : h.Unused a) (n : Nat) (p : Option Nat) : (h.setParent n p).Unused a := by
  refine ⟨hu.1, fun {m nd} hm => ?_⟩
  unfold Heap.setParent at hm
  simp only [List.getElem?_modify] at hm
  cases hx : h.nodes[m]? with
  | none => rw [hx] at hm; simp at hm
  | some x =>
    rw [hx] at hm
    simp only [Option.map_eq_map, Option.map_some, Option.some.injEq] at hm
    have := hu.2 hx
    subst hm
    split_ifs <;> exact this

theorem Unused.setChildParent {h : Heap F} {a : Nat} (hu : h.Unused a) (e : Entry F) (p : Nat) : (h.setChildParent e p).Unused a := by
  unfold Heap.setChildParent
  split
  · exact hu
  · exact hu.setParent _ _

theorem Unused.alloc {h : Heap F} {a : Nat} (hu : h.Unused a) (p : Option Nat) (l : Bool) (lv : Int) (es : List (Entry F)) :
    (h.alloc p l lv es).1.Unused a := by
  refine ⟨by simp only [Heap.alloc, List.length_append]; exact Nat.lt_add_right _ hu.1, fun {m nd} hm => ?_⟩
  simp only [Heap.alloc, List.getElem?_append] at hm
  split_ifs at hm with h1
  · exact hu.2 hm
  · rw [List.getElem?_singleton] at hm
    split_ifs at hm
    simp only [Option.some.injEq] at hm
    subst hm
    exact (Nat.ne_of_lt hu.1).symm

theorem Unused.append {h : Heap F} {a : Nat} (hu : h.Unused a) (grow : Nat → Nat) (n : Nat) (e : Entry F) :
    (h.append grow n e).Unused a := by
  unfold Heap.append
  split
  · exact hu
  · rename_i nd hn
    dsimp only
    split_ifs with hc
    · refine ⟨by simpa using hu.1, fun {m nd'} hm => ?_⟩
      simp only [List.getElem?_set] at hm
      split_ifs at hm with h1 h2
      · simp only [Option.some.injEq] at hm
        subst hm
        exact (hu.2 hn : nd.entries.arr ≠ a)
      · exact hu.2 hm
    · refine ⟨by simp only [List.length_append]; exact Nat.lt_add_right _ hu.1, fun {m nd'} hm => ?_⟩
      simp only [List.getElem?_set] at hm
      split_ifs at hm with h1 h2
      · simp only [Option.some.injEq] at hm
        subst hm
        exact (Nat.ne_of_lt hu.1).symm
      · exact hu.2 hm

/-- a node with an array of its own leaves it unused when it gets new entries -/
theorem Priv.unused {h : Heap F} (ok : h.Ok) {n : Nat} (pr : h.Priv n) {nd : Node} (hn : h.nodes[n]? = some nd) (es : List (Entry F)) :
    (h.setEntries n es).Unused nd.entries.arr := by
  have hlt := ok.arr_lt hn
  unfold Heap.setEntries
  rw [hn]
  refine ⟨by simp only [List.length_append]; exact Nat.lt_add_right _ hlt, fun {m nd'} hm => ?_⟩
  simp only [List.getElem?_set] at hm
  split_ifs at hm with h1 h2
  · simp only [Option.some.injEq] at hm
    subst hm
    exact (Nat.ne_of_lt hlt).symm
  · exact (pr h1 hn hm).symm

theorem blit_setEntries {h : Heap F} (n : Nat) {s : Slice} (hs : s.arr < h.arrs.length) (es fs : List (Entry F)) :
    (h.blit s fs).setEntries n es = (h.setEntries n es).blit s fs := by
  unfold Heap.setEntries Heap.blit
  cases hn : h.nodes[n]? with
  | none => rfl
  | some nd =>
    simp only [List.length_modify]
    congr 1
    apply List.ext_getElem?
    intro i
    simp only [List.getElem?_append, List.getElem?_modify, List.length_modify]
    by_cases h1 : i < h.arrs.length
    · simp [h1]
    · have h2 : s.arr ≠ i := by omega
      simp [h1, h2]

end Heap
end GoGeo
