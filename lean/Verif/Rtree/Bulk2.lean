import Verif.Rtree.Bulk
import Verif.Rtree.Ops
import Mathlib.Tactic.Ring
import Mathlib.Tactic.Linarith

/-!
# Bulk loading: what happens in memory

`Grown h0 h a lo hi cur`: from `h0` to `h` only new nodes were made, array `a` changed only in `[lo, hi)`
and the new nodes that use it lie in `[lo, cur)`.
-/

namespace GoGeo
open GoFloat
variable {F : Type} [GoFloat F]

namespace Heap

def arrOf (h : Heap F) (a : Nat) : List (Entry F) := h.arrs.getD a []

/-- the elements `[o, o+l)` of array `a` -/
def rng (h : Heap F) (a o l : Nat) : List (Entry F) := ((h.arrOf a).drop o).take l

theorem slice_eq_rng (h : Heap F) (s : Slice) : h.slice s = h.rng s.arr s.off s.len := rfl

theorem rng_add (h : Heap F) (a o l l' : Nat) : h.rng a o (l + l') = h.rng a o l ++ h.rng a (o + l) l' := by
  unfold rng
  rw [List.take_add, List.drop_drop]

theorem rng_getElem? (h : Heap F) (a o l i : Nat) :
    (h.rng a o l)[i]? = if i < l then (h.arrOf a)[o + i]? else none := by
  unfold rng
  rw [List.getElem?_take]
  split_ifs
  · rw [List.getElem?_drop]
  · rfl

theorem rng_congr {h h' : Heap F} {a o l : Nat}
    (e : ∀ i, o ≤ i → i < o + l → (h'.arrOf a)[i]? = (h.arrOf a)[i]?) : h'.rng a o l = h.rng a o l := by
  apply List.ext_getElem?
  intro i
  rw [rng_getElem?, rng_getElem?]
  split_ifs with hi
  · exact e _ (by omega) (by omega)
  · rfl

/-- no node uses `[lo, hi)` of array `a`, and only leaves use the array -/
def Free (h : Heap F) (a lo hi : Nat) : Prop :=
  ∀ (i : Nat) (nd : Node), h.nodes[i]? = some nd → nd.entries.arr = a →
    nd.leaf = true ∧ (nd.entries.off + nd.entries.len ≤ lo ∨ hi ≤ nd.entries.off)

theorem Free.mono {h : Heap F} {a lo hi lo' hi' : Nat} (fr : h.Free a lo hi) (h1 : lo ≤ lo') (h2 : hi' ≤ hi) :
    h.Free a lo' hi' := by
  intro i nd hn ha
  obtain ⟨h3, h4⟩ := fr i nd hn ha
  exact ⟨h3, by omega⟩

structure Grown (h0 h : Heap F) (a lo hi cur : Nat) : Prop where
  inv : h.Inv false
  nl : h0.nodes.length ≤ h.nodes.length
  al : h0.arrs.length ≤ h.arrs.length
  nodes : ∀ i < h0.nodes.length, h.nodes[i]? = h0.nodes[i]?
  newn : ∀ (i : Nat) (nd : Node), h0.nodes.length ≤ i → h.nodes[i]? = some nd →
    (nd.entries.arr = a ∧ nd.leaf = true ∧ lo ≤ nd.entries.off ∧ nd.entries.off + nd.entries.len ≤ cur) ∨
      h0.arrs.length ≤ nd.entries.arr
  arrs : ∀ j < h0.arrs.length, j ≠ a → h.arrs[j]? = h0.arrs[j]?
  arrL : (h.arrOf a).length = (h0.arrOf a).length
  arrA : ∀ j, (j < lo ∨ hi ≤ j) → (h.arrOf a)[j]? = (h0.arrOf a)[j]?

theorem Grown.refl {h : Heap F} (hi' : h.Inv false) (a lo hi cur : Nat) : Grown h h a lo hi cur :=
  ⟨hi', le_rfl, le_rfl, fun _ _ => rfl,
    fun i nd h1 h2 => absurd (List.getElem?_eq_some_iff.1 h2).1 (by omega), fun _ _ _ => rfl, rfl, fun _ _ => rfl⟩

theorem Grown.trans {h0 h1 h2 : Heap F} {a lo hi cur lo' hi' cur' : Nat} (g : Grown h0 h1 a lo hi cur)
    (g' : Grown h1 h2 a lo' hi' cur') (hl : lo ≤ lo') (hh : hi' ≤ hi) (hc : cur ≤ cur') :
    Grown h0 h2 a lo hi cur' := by
  have nl := g.nl; have nl' := g'.nl; have al := g.al; have al' := g'.al
  refine ⟨g'.inv, by omega, by omega, fun i hi1 => ?_, fun i nd hi1 hn => ?_, fun j hj hja => ?_, ?_, fun j hj => ?_⟩
  · rw [g'.nodes i (by omega), g.nodes i hi1]
  · by_cases hi2 : i < h1.nodes.length
    · rw [g'.nodes i hi2] at hn
      rcases g.newn i nd hi1 hn with ⟨e1, e2, e3, e4⟩ | e
      · exact Or.inl ⟨e1, e2, e3, by omega⟩
      · exact Or.inr e
    · rcases g'.newn i nd (by omega) hn with ⟨e1, e2, e3, e4⟩ | e
      · exact Or.inl ⟨e1, e2, by omega, e4⟩
      · exact Or.inr (by omega)
  · rw [g'.arrs j (by omega) hja, g.arrs j hj hja]
  · rw [g'.arrL, g.arrL]
  · rw [g'.arrA j (by omega), g.arrA j (by omega)]

theorem arrOf_of_ne {h0 h : Heap F} {j : Nat} (e : h.arrs[j]? = h0.arrs[j]?) : h.arrOf j = h0.arrOf j := by
  unfold arrOf; simp only [List.getD, e]

/-- nodes that were there keep their contents -/
theorem Grown.view {h0 h : Heap F} {a lo hi cur : Nat} (g : Grown h0 h a lo hi cur) (ok : h0.Ok)
    (fr : h0.Free a lo hi) (i : Nat) (hi' : i < h0.nodes.length) : h.view i = h0.view i := by
  unfold Heap.view
  rw [g.nodes i hi']
  cases hn : h0.nodes[i]? with
  | none => rfl
  | some nd =>
    simp only [Option.map_some, Option.some.injEq, NodeV.mk.injEq, true_and]
    apply slice_congr
    intro j hj1 hj2
    by_cases ha : nd.entries.arr = a
    · obtain ⟨-, hd⟩ := fr i nd hn ha
      rw [ha]
      exact g.arrA j (by omega)
    · have := arrOf_of_ne (g.arrs _ (ok.arr_lt hn) ha)
      unfold arrOf at this
      rw [this]

theorem Grown.free {h0 h : Heap F} {a lo hi cur lo' hi' : Nat} (g : Grown h0 h a lo hi cur)
    (fr : h0.Free a lo hi) (ha : a < h0.arrs.length) (h0l : lo ≤ lo') (h1 : cur ≤ lo') (h2 : hi' ≤ hi) : h.Free a lo' hi' := by
  intro i nd hn he
  by_cases hi1 : i < h0.nodes.length
  · rw [g.nodes i hi1] at hn
    obtain ⟨e1, e2⟩ := fr i nd hn he
    exact ⟨e1, by omega⟩
  · rcases g.newn i nd (by omega) hn with ⟨e1, e2, e3, e4⟩ | e
    · exact ⟨e2, by omega⟩
    · omega

/-! ### setSlice -/

theorem arrOf_setSlice {h : Heap F} {s : Slice} (es : List (Entry F)) (ha : s.arr < h.arrs.length) (b : Nat) :
    (h.setSlice s es).arrOf b = if b = s.arr then
      (h.arrOf s.arr).take s.off ++ es ++ (h.arrOf s.arr).drop (s.off + s.len) else h.arrOf b := by
  unfold setSlice arrOf
  dsimp only
  rw [arrs_modify_getD _ _ _ _ h.arrs[s.arr] (List.getElem?_eq_getElem ha)]
  split_ifs
  · simp [List.getD, List.getElem?_eq_getElem ha]
  · rfl

theorem grown_setSlice {h : Heap F} (hi : h.Inv false) {s : Slice} {es : List (Entry F)} (ha : s.arr < h.arrs.length)
    (hb : s.off + s.len ≤ (h.arrOf s.arr).length) (hl : es.length = s.len) (cur : Nat) :
    Grown h (h.setSlice s es) s.arr s.off (s.off + s.len) cur ∧ (h.setSlice s es).rng s.arr s.off s.len = es := by
  have e := arrOf_setSlice es ha s.arr
  rw [if_pos rfl] at e
  have lt : ((h.arrOf s.arr).take s.off).length = s.off := by rw [List.length_take]; omega
  have hL : ((h.setSlice s es).arrOf s.arr).length = (h.arrOf s.arr).length := by
    rw [e]; simp only [List.length_append, lt, hl, List.length_drop]; omega
  have hx : ∀ j, j ≠ s.arr → (h.setSlice s es).arrs[j]? = h.arrs[j]? := by
    intro j hj
    unfold setSlice
    simp only [List.getElem?_modify, if_neg (Ne.symm hj)]
    cases h.arrs[j]? <;> rfl
  refine ⟨⟨⟨⟨?_, fun hmk ha hb hab => hi.sep hmk ha hb hab⟩, fun hm hq => hi.priv hm hq⟩, le_rfl, ?_, fun _ _ => rfl,
      fun i nd h1 h2 => absurd (List.getElem?_eq_some_iff.1 h2).1 ?_, fun j _ hj => hx j hj, hL, fun j hj => ?_⟩, ?_⟩
  · intro m md hm
    obtain ⟨a, ha1, h1, h2⟩ := hi.bnd hm
    by_cases hma : md.entries.arr = s.arr
    · have hlt := hi.arr_lt hm
      have hlt' : md.entries.arr < (h.setSlice s es).arrs.length := by unfold setSlice; simpa using hlt
      refine ⟨_, List.getElem?_eq_getElem hlt', ?_, h2⟩
      have e1 : (h.setSlice s es).arrs[md.entries.arr] = (h.setSlice s es).arrOf s.arr := by
        rw [← hma]
        unfold arrOf
        simp only [List.getD, List.getElem?_eq_getElem hlt', Option.getD_some]
      have e2 : h.arrOf s.arr = a := by rw [← hma]; unfold arrOf; simp only [List.getD, ha1, Option.getD_some]
      rw [e1, hL, e2]; exact h1
    · exact ⟨a, by rw [hx _ hma]; exact ha1, h1, h2⟩
  · unfold setSlice; simp
  · unfold setSlice at *; dsimp only at *; omega
  · rw [e]
    rcases hj with hj | hj
    · rw [List.append_assoc, List.getElem?_append_left (by omega), List.getElem?_take, if_pos hj]
    · rw [List.getElem?_append_right (by simp only [List.length_append, lt, hl]; omega), List.getElem?_drop]
      congr 1
      simp only [List.length_append, lt, hl]; omega
  · unfold rng
    rw [e, List.append_assoc, List.drop_append_of_le_length (by omega), List.drop_eq_nil_of_le (by omega)]
    rw [List.nil_append, List.take_append_of_le_length (by omega), List.take_of_length_le (by omega)]

/-! ### allocations -/

theorem alloc_node {nodes : List Node} {x : Node} {m : Nat} {md : Node} (hm : (nodes ++ [x])[m]? = some md) :
    (m = nodes.length ∧ md = x) ∨ (m < nodes.length ∧ nodes[m]? = some md) := by
  have hlt := (List.getElem?_eq_some_iff.1 hm).1
  simp at hlt
  rcases lt_or_eq_of_le (Nat.lt_succ_iff.1 hlt) with h2 | h2
  · right; rw [List.getElem?_append_left h2] at hm; exact ⟨h2, hm⟩
  · left; subst h2; simp at hm; exact ⟨rfl, hm.symm⟩

/-- a node with a new array -/
theorem grown_new {h : Heap F} (hi : h.Inv false) (leaf : Bool) (lv : Int) (x : List (Entry F)) (len : Nat)
    (hl : len ≤ x.length) {a : Nat} (ha : a < h.arrs.length) (lo hi' cur : Nat) :
    Grown h ⟨h.nodes ++ [⟨none, leaf, ⟨h.arrs.length, 0, len, x.length⟩, lv⟩], h.arrs ++ [x]⟩ a lo hi' cur ∧
    Heap.view ⟨h.nodes ++ [⟨none, leaf, ⟨h.arrs.length, 0, len, x.length⟩, lv⟩], h.arrs ++ [x]⟩ h.nodes.length =
      some ⟨none, leaf, lv, x.take len⟩ := by
  have hA : ∀ j, j < h.arrs.length → (h.arrs ++ [x])[j]? = h.arrs[j]? := fun j hj => List.getElem?_append_left hj
  refine ⟨⟨⟨⟨?_, ?_⟩, ?_⟩, by simp, by simp, fun i hi1 => List.getElem?_append_left hi1, ?_, fun j hj _ => hA j hj, ?_, ?_⟩, ?_⟩
  · intro m md hm
    rcases alloc_node hm with ⟨rfl, rfl⟩ | ⟨-, hm'⟩
    · exact ⟨x, by simp, by simp, hl⟩
    · obtain ⟨b, hb, h1⟩ := hi.bnd hm'
      exact ⟨b, by rw [hA _ (hi.arr_lt hm')]; exact hb, h1⟩
  · intro m k p q hmk hp hq hab
    rcases alloc_node hp with ⟨rfl, rfl⟩ | ⟨h1, hp'⟩ <;> rcases alloc_node hq with ⟨h2, rfl⟩ | ⟨h2, hq'⟩
    · exact absurd h2.symm hmk
    · have := hi.arr_lt hq'; simp at hab; omega
    · have := hi.arr_lt hp'; simp at hab; omega
    · exact hi.sep hmk hp' hq' hab
  · intro m md hm hq' k p q hmk hp hq
    rcases alloc_node hp with ⟨rfl, rfl⟩ | ⟨h1, hp'⟩ <;> rcases alloc_node hq with ⟨h2, rfl⟩ | ⟨h2, hq''⟩
    · exact absurd h2.symm hmk
    · have := hi.arr_lt hq''; simp; omega
    · have := hi.arr_lt hp'; simp; omega
    · rcases alloc_node hm with ⟨rfl, rfl⟩ | ⟨-, hm'⟩
      · omega
      · exact hi.priv hm' hq' hmk hp' hq''
  · intro i nd h1 hn
    rcases alloc_node hn with ⟨rfl, rfl⟩ | ⟨h2, -⟩
    · right; simp
    · omega
  · unfold arrOf; simp only [List.getD, hA a ha]
  · intro j _
    unfold arrOf; simp only [List.getD, hA a ha]
  · unfold view
    simp [slice_new]

/-- a leaf that uses a free part of an array -/
theorem grown_allocSlice {h : Heap F} (hi : h.Inv false) {s : Slice} (ha : s.arr < h.arrs.length)
    (hb : s.off + s.cap ≤ (h.arrOf s.arr).length) (hl : s.len ≤ s.cap) (fr : h.Free s.arr s.off (s.off + s.len))
    (lv : Int) :
    Grown h (h.allocSlice true lv s).1 s.arr s.off (s.off + s.len) (s.off + s.len) ∧
    (h.allocSlice true lv s).1.view h.nodes.length = some ⟨none, true, lv, h.slice s⟩ := by
  unfold allocSlice
  refine ⟨⟨⟨⟨?_, ?_⟩, ?_⟩, by simp, le_rfl, fun i hi1 => List.getElem?_append_left hi1, ?_, fun _ _ _ => rfl, rfl,
    fun _ _ => rfl⟩, ?_⟩
  · intro m md hm
    rcases alloc_node hm with ⟨rfl, rfl⟩ | ⟨-, hm'⟩
    · refine ⟨h.arrs[s.arr], List.getElem?_eq_getElem ha, ?_, hl⟩
      have : h.arrs[s.arr] = h.arrOf s.arr := by
        unfold arrOf; simp only [List.getD, List.getElem?_eq_getElem ha, Option.getD_some]
      rw [this]; exact hb
    · exact hi.bnd hm'
  · intro m k p q hmk hp hq hab
    rcases alloc_node hp with ⟨rfl, rfl⟩ | ⟨h1, hp'⟩ <;> rcases alloc_node hq with ⟨h2, rfl⟩ | ⟨h2, hq'⟩
    · exact absurd h2.symm hmk
    · have := (fr _ _ hq' hab.symm).2; dsimp only at *; omega
    · have := (fr _ _ hp' hab).2; dsimp only at *; omega
    · exact hi.sep hmk hp' hq' hab
  · intro m md hm hq' k p q hmk hp hq
    rcases alloc_node hm with ⟨rfl, rfl⟩ | ⟨hm1, hm'⟩
    · rcases hq' with hq' | hq' <;> cases hq'
    · rcases alloc_node hp with ⟨rfl, rfl⟩ | ⟨h1, hp'⟩
      · omega
      · rcases alloc_node hq with ⟨h2, rfl⟩ | ⟨h2, hq''⟩
        · intro hab
          have := (fr _ _ hp' hab).1
          rw [hm'] at hp'; cases hp'
          rw [this] at hq'; rcases hq' with hq' | hq' <;> cases hq'
        · exact hi.priv hm' hq' hmk hp' hq''
  · intro i nd h1 hn
    rcases alloc_node hn with ⟨rfl, rfl⟩ | ⟨h2, -⟩
    · left; exact ⟨rfl, rfl, le_rfl, le_rfl⟩
    · omega
  · unfold view
    simp [slice]

/-- changing the parent of a new node -/
theorem Grown.setParent {h0 h : Heap F} {a lo hi cur : Nat} (g : Grown h0 h a lo hi cur) {n : Nat}
    (hn : h0.nodes.length ≤ n) (p : Option Nat) : Grown h0 (h.setParent n p) a lo hi cur := by
  have nl := g.nl
  refine ⟨g.inv.setParent n p, by rw [length_setParent]; exact nl, g.al, fun i hi1 => ?_, fun i nd h1 h2 => ?_, g.arrs, g.arrL, g.arrA⟩
  · unfold Heap.setParent
    have hne : n ≠ i := by omega
    simp only [List.getElem?_modify, if_neg hne, g.nodes i hi1]
    cases h0.nodes[i]? <;> rfl
  · unfold Heap.setParent at h2
    simp only [List.getElem?_modify] at h2
    cases hx : h.nodes[i]? with
    | none => rw [hx] at h2; simp at h2
    | some x =>
      rw [hx] at h2
      simp only [Option.map_eq_map, Option.map_some, Option.some.injEq] at h2
      have := g.newn i x h1 hx
      subst h2
      split_ifs <;> simpa using this

/-- appending to a new inner node -/
theorem Grown.append {h0 h : Heap F} {a lo hi cur : Nat} (g : Grown h0 h a lo hi cur) {n : Nat}
    (hn : h0.nodes.length ≤ n) {v : NodeV F} (hv : h.view n = some v) (hlf : v.leaf = false)
    (ha : a < h0.arrs.length) (grow : Nat → Nat) (e : Entry F) : Grown h0 (h.append grow n e) a lo hi cur := by
  have nl := g.nl
  have al := g.al
  have pr : h.Priv n := g.inv.priv_of_view hv (Or.inl hlf)
  obtain ⟨nd, hnd, rfl⟩ := view_some.1 hv
  have harr : h0.arrs.length ≤ nd.entries.arr := by
    rcases g.newn n nd hn hnd with ⟨-, e2, -⟩ | e
    · dsimp only at hlf; rw [hlf] at e2; cases e2
    · exact e
  refine ⟨g.inv.append pr grow e, by rw [length_append]; exact nl, ?_, fun i hi1 => ?_, fun i md h1 h2 => ?_, fun j hj hja => ?_, ?_, fun j hj => ?_⟩
  all_goals (unfold Heap.append at *; simp only [hnd] at *)
  · split_ifs <;> simp <;> omega
  · split_ifs <;> simp only [] <;> rw [List.getElem?_set_ne (by omega)] <;> exact g.nodes i hi1
  · have : i ≠ n ∧ h.nodes[i]? = some md ∨ (md.leaf = false ∧ (md.entries.arr = nd.entries.arr ∨ md.entries.arr = h.arrs.length)) := by
      split_ifs at h2 <;> simp only [List.getElem?_set] at h2 <;> split_ifs at h2 with c1 c2 <;>
        first
        | (left; exact ⟨fun e => c1 e.symm, h2⟩)
        | (right; simp only [Option.some.injEq] at h2; subst h2; exact ⟨hlf, by simp⟩)
    rcases this with ⟨-, h3⟩ | ⟨-, h3 | h3⟩
    · exact g.newn i md h1 h3
    · right; omega
    · right; omega
  · split_ifs
    · have hne : nd.entries.arr ≠ j := by omega
      simp only [List.getElem?_modify, if_neg hne, g.arrs j hj hja]
      cases h0.arrs[j]? <;> rfl
    · simp only []
      rw [List.getElem?_append_left (by omega), g.arrs j hj hja]
  · rw [← g.arrL]
    split_ifs
    · have hne : nd.entries.arr ≠ a := by omega
      unfold arrOf; simp only [List.getD, List.getElem?_modify, if_neg hne]
      cases h.arrs[a]? <;> rfl
    · unfold arrOf; simp only [List.getD]; rw [List.getElem?_append_left (by omega)]
  · rw [← g.arrA j hj]
    split_ifs
    · have hne : nd.entries.arr ≠ a := by omega
      unfold arrOf; simp only [List.getD, List.getElem?_modify, if_neg hne]
      cases h.arrs[a]? <;> rfl
    · unfold arrOf; simp only [List.getD]; rw [List.getElem?_append_left (by omega)]

end Heap

/-! ### walkPartitions -/

/-- consecutive parts of `[o, e)` of array `a`, of `k` elements each except the last -/
def Consec (a k top e : Nat) : List Slice → Nat → Prop
  | [], o => o = e
  | p :: ps, o => p.arr = a ∧ p.off = o ∧ 1 ≤ p.len ∧ p.len ≤ k ∧ p.len ≤ p.cap ∧ p.off + p.cap ≤ top ∧
      (ps ≠ [] → p.len = k) ∧ Consec a k top e ps (o + p.len)

theorem Consec.le {a k top e : Nat} : ∀ {ps : List Slice} {o : Nat}, Consec a k top e ps o → o ≤ e := by
  intro ps
  induction ps with
  | nil => intro o h; exact Nat.le_of_eq h
  | cons p ps ih =>
    rintro o ⟨_, _, _, _, _, _, _, h⟩
    have := ih h; omega

theorem Consec.count {a k top e : Nat} : ∀ {ps : List Slice} {o : Nat}, Consec a k top e ps o → ps ≠ [] →
    (ps.length - 1) * k < e - o ∧ e - o ≤ ps.length * k := by
  intro ps
  induction ps with
  | nil => intro _ _ hne; exact absurd rfl hne
  | cons p ps ih =>
    rintro o ⟨_, _, h1, h2, _, _, h3, h⟩ -
    cases ps with
    | nil =>
      have : o + p.len = e := h
      simp; omega
    | cons q ps =>
      have hp := h3 (by simp)
      obtain ⟨e1, e2⟩ := ih h (by simp)
      have hle := h.le
      have l1 : (p :: q :: ps).length - 1 = (q :: ps).length := by simp
      have l2 : (p :: q :: ps).length = (q :: ps).length + 1 := by simp
      have m1 : (q :: ps).length * k = ((q :: ps).length - 1) * k + k := by rw [← Nat.succ_mul]; congr 1
      have m2 : (p :: q :: ps).length * k = (q :: ps).length * k + k := by rw [l2, Nat.succ_mul]
      rw [l1]
      constructor <;> omega

theorem walkLoop_consec {k : Nat} {s : Slice} (hk : 1 ≤ k) (hl : s.len ≤ s.cap) : ∀ (n pos : Nat),
    n * k + pos < s.len → s.len ≤ (n + 1) * k + pos →
    Consec s.arr k (s.off + s.cap) (s.off + s.len) (walkLoop k s n pos) (s.off + pos)
  | 0, pos, h1, h2 => by
    unfold walkLoop Slice.sub
    refine ⟨rfl, rfl, ?_, ?_, ?_, ?_, fun h => absurd rfl h, ?_⟩ <;> try (dsimp only; omega)
    show s.off + pos + (s.len - pos) = _; omega
  | n + 1, pos, h1, h2 => by
    unfold walkLoop
    have e1 : (n + 1) * k = n * k + k := Nat.succ_mul _ _
    have e2 : (n + 1 + 1) * k = (n + 1) * k + k := Nat.succ_mul _ _
    refine ⟨rfl, rfl, hk, le_rfl, ?_, ?_, fun _ => rfl, ?_⟩
    · show k ≤ s.cap - pos; omega
    · show s.off + pos + (s.cap - pos) ≤ _; omega
    · have := walkLoop_consec hk hl n (pos + k) (by omega) (by omega)
      rw [← Nat.add_assoc] at this
      exact this

theorem walkPartitions_spec {k : Nat} {s : Slice} (hk : 1 ≤ k) (hl : s.len ≤ s.cap) (h1 : 1 ≤ s.len) :
    ∃ ps, walkPartitions k s = .ok ps ∧ ps ≠ [] ∧ Consec s.arr k (s.off + s.cap) (s.off + s.len) ps s.off := by
  unfold walkPartitions
  rw [if_neg (by omega)]
  have hd := Nat.div_add_mod (s.len + k - 1) k
  have hm := Nat.mod_lt (s.len + k - 1) hk
  have hn : 1 ≤ (s.len + k - 1) / k := (Nat.one_le_div_iff hk).2 (by omega)
  dsimp only
  rw [if_neg (by omega)]
  generalize hN : (s.len + k - 1) / k = N at *
  obtain ⟨n, rfl⟩ : ∃ n, N = n + 1 := ⟨N - 1, by omega⟩
  have e1 : k * (n + 1) = n * k + k := by ring
  have e2 : (n + 1) * k = n * k + k := Nat.succ_mul _ _
  refine ⟨_, rfl, ?_, ?_⟩
  · rw [Nat.add_sub_cancel]; cases n <;> simp [walkLoop]
  · have := walkLoop_consec (k := k) (s := s) hk hl n 0 (by omega) (by omega)
    simpa using this

end GoGeo
