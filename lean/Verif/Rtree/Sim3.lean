import Verif.Rtree.Sim2
import Verif.Rtree.Ops

/-!
# Insertions into a tree whose leaves share memory

The memory of such a tree is compared with an ideal one (`Sim`): inner nodes agree, leaves agree in
length, and the entries found in a leaf are entries of objects that were handed to the tree.
-/

set_option linter.unusedSectionVars false

namespace GoGeo
open GoFloat Spec
variable {F : Type} [GoFloat F] {D : Nat → Prop} {Q : Nat → List (Entry F) → List (Entry F) → Prop}

/-- a leaf -/
def Lf (k : Heap F) (n : Nat) : Prop := ∃ v, k.view n = some v ∧ v.leaf = true

theorem chooseNode_sim {h k : Heap F} (s : Sim D Q h k) (e : Entry F) (lvl : Int) (fuel : Nat) :
    ∀ n, chooseNode h e lvl fuel n = chooseNode k e lvl fuel n := by
  induction fuel with
  | zero => intro n; rfl
  | succ fuel ih =>
    intro n
    rw [chooseNode, chooseNode]
    cases n with
    | none => rfl
    | some n =>
      by_cases hd : D n
      · obtain ⟨v, w, h1, h2, -, h4, h5, -⟩ := s.dirty hd
        rw [Heap.deref_some h1, Heap.deref_some h2]
        simp only [bind, Except.bind, h4, h5, Bool.true_or, if_true]
      · rw [s.deref hd]
        simp only [ih]

theorem item_up {k : Heap F} {j : Nat} (x : Item F (j + 1)) (hx : x.Rep k) :
    ∀ n ∈ x.ids, n ≠ x.id → ∃ p ∈ x.ids, (∃ v, k.view n = some v ∧ v.parent = some p) ∧ IsInner k p := by
  induction j with
  | zero =>
    intro n hn hne
    have h0 : idsL x.es = [] := by unfold idsL; rw [List.flatMap_eq_nil_iff]; intro p _; rfl
    rw [ids_eq, h0, List.mem_singleton] at hn
    exact absurd hn hne
  | succ j ih =>
    intro n hn hne
    obtain ⟨⟨par, hv⟩, hch⟩ := id hx
    rw [ids_eq, List.mem_cons] at hn
    rcases hn with hn | hn
    · exact absurd hn hne
    · obtain ⟨p, hp, hpn⟩ := mem_idsL.1 hn
      by_cases h1 : n = p.2.id
      · subst h1
        refine ⟨x.id, by rw [ids_eq]; simp, (hch p hp).2, par, ?_⟩
        rw [pl_view hv]; rfl
      · obtain ⟨q, hq, h2, h3⟩ := ih p.2 (hch p hp).1 n hpn h1
        exact ⟨q, by rw [ids_eq]; exact List.mem_cons_of_mem _ (mem_idsL.2 ⟨p, hp, hq⟩), h2, h3⟩

theorem rep_up {k : Heap F} {j : Nat} {x : Item F (j + 1)} (hx : x.Rep k) : Up (fun n => n ∈ x.ids) x.id k := by
  intro n par l h1 h2 h3
  obtain ⟨p, hp, ⟨v, hv, hvp⟩, hi⟩ := item_up x hx n h1 h2
  rw [pl_view hv] at h3
  cases h3
  exact ⟨p, hvp, hp, hi⟩

/-! ## appending to a leaf that shares its array -/

theorem view_append_self {h : Heap F} (hb : h.Bnd) {n : Nat} {v : NodeV F} (hv : h.view n = some v) (grow : Nat → Nat) (e : Entry F) :
    (h.append grow n e).view n = some { v with entries := v.entries ++ [e] } := by
  obtain ⟨nd, hn, rfl⟩ := Heap.view_some.1 hv
  have hnlt := (List.getElem?_eq_some_iff.1 hn).1
  -- the same node alone in memory
  let h0 : Heap F := ⟨(List.replicate n ⟨none, false, ⟨h.arrs.length, 0, 0, 0⟩, 0⟩ ++ [nd]), h.arrs ++ [[]]⟩
  have hl : (List.replicate n (⟨none, false, ⟨h.arrs.length, 0, 0, 0⟩, 0⟩ : Node)).length = n := by simp
  have h0n : h0.nodes[n]? = some nd := by
    show (_ ++ [nd])[n]? = _
    rw [List.getElem?_append_right (by rw [hl]), hl]; simp
  have h0m : ∀ m md, h0.nodes[m]? = some md → m ≠ n → md = ⟨none, false, ⟨h.arrs.length, 0, 0, 0⟩, 0⟩ := by
    intro m md hm hne
    have h1 := (List.getElem?_eq_some_iff.1 hm).1
    have h2 : m < n := by
      have : h0.nodes.length = n + 1 := by show (_ ++ [nd]).length = _; simp
      omega
    have hm' : (List.replicate n (⟨none, false, ⟨h.arrs.length, 0, 0, 0⟩, 0⟩ : Node) ++ [nd])[m]? = some md := hm
    rw [List.getElem?_append_left (by rw [hl]; exact h2), List.getElem?_replicate, if_pos h2] at hm'
    exact (Option.some.inj hm').symm
  have harr : ∀ i < h.arrs.length, h0.arrs[i]? = h.arrs[i]? := fun i hi => List.getElem?_append_left hi
  have hb0 : h0.Bnd := by
    constructor
    intro m md hm
    by_cases hne : m = n
    · subst hne
      rw [h0n] at hm; cases hm
      obtain ⟨a, h1, h2⟩ := hb.bnd hn
      exact ⟨a, by rw [harr _ (hb.arr_lt hn)]; exact h1, h2⟩
    · rw [h0m m md hm hne]
      refine ⟨[], ?_, by simp, by simp⟩
      show (h.arrs ++ [[]])[h.arrs.length]? = _
      simp
  have pr0 : h0.Priv n := by
    intro m a b hne h1 h2 h3
    rw [h0n] at h1; cases h1
    rw [h0m m b h2 hne.symm] at h3
    have := hb.arr_lt hn
    simp only at h3; omega
  have hsl : h0.slice nd.entries = h.slice nd.entries := by
    unfold Heap.slice
    simp only [List.getD, harr _ (hb.arr_lt hn)]
  have hv0 : h0.view n = some ⟨nd.parent, nd.leaf, nd.level, h.slice nd.entries⟩ :=
    Heap.view_some.2 ⟨nd, h0n, by rw [hsl]⟩
  have key := Heap.view_append hb0 pr0 hv0 grow e n
  rw [if_pos rfl] at key
  rw [← key]
  unfold Heap.append
  rw [hn, h0n]
  dsimp only
  have hlt0 : n < h0.nodes.length := (List.getElem?_eq_some_iff.1 h0n).1
  split_ifs with hc
  · unfold Heap.view
    simp only [List.getElem?_set_self hnlt, List.getElem?_set_self hlt0, Option.map_some, Option.some.injEq, NodeV.mk.injEq, true_and]
    unfold Heap.slice
    simp only [List.getD, List.getElem?_modify, harr _ (hb.arr_lt hn)]
  · unfold Heap.view
    simp only [List.getElem?_set_self hnlt, List.getElem?_set_self hlt0, Option.map_some, Option.some.injEq, NodeV.mk.injEq, true_and]
    unfold Heap.slice at hsl ⊢
    simp only [List.getD, List.getElem?_append_right (le_refl _), Nat.sub_self, List.getElem?_cons_zero, Option.getD_some] at hsl ⊢
    rw [hsl]

theorem view_append_other {h : Heap F} (hb : h.Bnd) {n m : Nat} (hne : m ≠ n) {w : NodeV F} (hw : h.view m = some w)
    (grow : Nat → Nat) (e : Entry F) : ∃ es, (h.append grow n e).view m = some { w with entries := es } ∧
      es.length = w.entries.length ∧ (∀ x ∈ es, x ∈ w.entries ∨ x = e) ∧
      ((∀ nd md, h.nodes[n]? = some nd → h.nodes[m]? = some md → md.entries.arr = nd.entries.arr →
        nd.entries.len < nd.entries.cap → nd.entries.off + nd.entries.len < md.entries.off ∨
          md.entries.off + md.entries.len ≤ nd.entries.off + nd.entries.len) → es = w.entries) := by
  obtain ⟨md, hm, rfl⟩ := Heap.view_some.1 hw
  unfold Heap.append
  cases hn : h.nodes[n]? with
  | none => exact ⟨_, hw, rfl, fun x hx => Or.inl hx, fun _ => rfl⟩
  | some nd =>
    dsimp only
    obtain ⟨x, g1, g2, g3⟩ := hb.bnd hm
    split_ifs with hc
    · refine ⟨_, Heap.view_some.2 ⟨md, ?_, rfl⟩, ?_, ?_, ?_⟩
      · simp only [List.getElem?_set, if_neg (Ne.symm hne)]; exact hm
      · obtain ⟨y, hy, hyl⟩ : ∃ y, (h.arrs.modify nd.entries.arr fun a => a.set (nd.entries.off + nd.entries.len) e)[md.entries.arr]? = some y ∧
            y.length = x.length := by
          rw [List.getElem?_modify, g1]
          split_ifs <;> simp
        exact (Heap.slice_length (h := ⟨_, _⟩) md.entries hy (by omega)).trans (Heap.slice_length _ g1 (by omega)).symm
      · intro z hz
        obtain ⟨i, hi⟩ := List.mem_iff_getElem?.1 hz
        rw [Heap.slice_getElem?] at hi
        split_ifs at hi with hil
        simp only [List.getD, List.getElem?_modify, g1] at hi
        have old : x[md.entries.off + i]? = some z → z ∈ h.slice md.entries := by
          intro h0
          refine List.mem_iff_getElem?.2 ⟨i, ?_⟩
          rw [Heap.slice_getElem?, if_pos hil]
          simp [List.getD, g1, h0]
        split_ifs at hi with ha
        · simp only [Option.map_eq_map, Option.map_some, Option.getD_some, List.getElem?_set] at hi
          split_ifs at hi
          · exact Or.inr (Option.some.inj hi).symm
          · exact Or.inl (old hi)
        · simp only [Option.map_eq_map, Option.map_some, Option.getD_some] at hi
          exact Or.inl (old hi)
      · intro hd
        have hd := hd nd md rfl hm
        apply Heap.slice_congr
        intro i h1 h2
        simp only [List.getD, List.getElem?_modify, g1]
        split_ifs with ha
        · simp only [Option.map_eq_map, Option.map_some, Option.getD_some, List.getElem?_set]
          rw [if_neg]
          have := hd ha.symm hc
          omega
        · rfl
    · have hsl : Heap.slice (⟨h.nodes.set n { nd with entries := ⟨h.arrs.length, 0, nd.entries.len + 1, nd.entries.len + 1 + grow nd.entries.len⟩ },
          h.arrs ++ [h.slice nd.entries ++ [e] ++ List.replicate (grow nd.entries.len) Entry.zero]⟩ : Heap F) md.entries = h.slice md.entries := by
        unfold Heap.slice
        simp only [List.getD]
        rw [List.getElem?_append_left (hb.arr_lt hm)]
      refine ⟨_, Heap.view_some.2 ⟨md, ?_, rfl⟩, by rw [hsl], fun x hx => Or.inl (by rw [hsl] at hx; exact hx), fun _ => hsl⟩
      simp only [List.getElem?_set, if_neg (Ne.symm hne)]; exact hm

theorem Sim.append_leaf {h k : Heap F} (s : Sim D Q h k) (grow : Nat → Nat) {n : Nat} (hn : ¬ D n) {v : NodeV F} (hv : k.view n = some v)
    (hD : ∀ m, m ≠ n → Lf k m → D m) (e : Entry F)
    (hQ : ∀ m xs xs' vs, D m → Q m xs vs → xs'.length = xs.length → (∀ x ∈ xs', x ∈ xs ∨ x ∈ v.entries ++ [e]) → Q m xs' vs) :
    Sim D Q (h.append grow n e) (k.append grow n e) ∧ Shares D Q (h.append grow n e) n (v.entries ++ [e]) := by
  have hvh : h.view n = some v := by rw [s.clean hn]; exact hv
  have e2 := Heap.view_append s.ki.toOk.toBnd (s.kpriv hv) hv grow e
  -- nodes other than leaves do not share
  have inner : ∀ {m w}, m ≠ n → ¬ D m → h.view m = some w → (h.append grow n e).view m = some w := by
    intro m w hne hm hw
    have hwl : w.leaf = false := by
      cases hl : w.leaf with
      | false => rfl
      | true => exact absurd (hD m hne ⟨w, by rw [← s.clean hm]; exact hw, hl⟩) hm
    have pr : h.Priv m := s.hp hw hwl
    obtain ⟨es, h1, -, -, h4⟩ := view_append_other s.hb hne hw grow e
    have h5 : es = w.entries := h4 fun nd md g1 g2 g3 _ => absurd g3 (pr hne g2 g1)
    rw [h1, h5]
  refine ⟨⟨?_, s.hb.append _ _ _, ?_, s.ki.append (s.kpriv hv) _ _, ?_, ?_, ?_⟩, ?_⟩
  · rw [Heap.length_append, Heap.length_append, s.len]
  · intro m w hw hwl
    refine Heap.Priv.mv s.hb (Heap.mv_append h grow n e) ?_
    by_cases hne : m = n
    · subst hne
      rw [view_append_self s.hb hvh] at hw
      cases hw
      exact s.hp hvh hwl
    · cases hx : h.view m with
      | none =>
        unfold Heap.view at hw hx
        cases hy : (h.append grow n e).nodes[m]? with
        | none => rw [hy] at hw; cases hw
        | some md =>
          rcases Heap.node_append hy with ⟨-, h2⟩ | ⟨h2, -⟩
          · rw [h2] at hx; cases hx
          · exact absurd h2 hne
      | some x =>
        obtain ⟨es, h1, -⟩ := view_append_other s.hb hne hx grow e
        rw [h1] at hw; cases hw
        exact s.hp hx hwl
  · intro m hm; rw [Heap.length_append]; exact s.dlt hm
  · intro m hm
    rw [e2]
    split_ifs with h0
    · subst h0; exact view_append_self s.hb hvh grow e
    · cases hx : h.view m with
      | none =>
        rw [← s.clean hm, hx]
        unfold Heap.view at hx ⊢
        cases hy : (h.append grow n e).nodes[m]? with
        | none => rfl
        | some md =>
          rcases Heap.node_append hy with ⟨-, h2⟩ | ⟨h2, -⟩
          · rw [h2] at hx; cases hx
          · exact absurd h2 h0
      | some x => rw [← s.clean hm, hx]; exact inner h0 hm hx
  · intro m hm
    have hne : m ≠ n := by rintro rfl; exact hn hm
    obtain ⟨v', w, h1, h2, h3, h4, h5, h6, h7, h8⟩ := s.dirty hm
    obtain ⟨es, g1, g2, g3, -⟩ := view_append_other s.hb hne h2 grow e
    rw [e2, if_neg hne, g1]
    exact ⟨v', _, h1, rfl, h3, h4, h5, h6, g2.trans h7, hQ m _ _ _ hm h8 g2 fun x hx => (g3 x hx).imp id fun h => by simp [h]⟩
  · intro nd hnd m md hne hmd harr
    rcases Heap.node_append hnd with ⟨h1, -⟩ | ⟨-, nd0, h1, h2⟩
    · exact absurd rfl h1
    rcases Heap.node_append hmd with ⟨-, g1⟩ | ⟨g1, -⟩
    swap
    · exact absurd g1 hne
    rcases h2 with ⟨h2, rfl⟩ | ⟨h2, rfl⟩
    · have hm : D m := by
        by_contra hm
        have hvm : h.view m = some ⟨md.parent, md.leaf, md.level, h.slice md.entries⟩ := Heap.view_some.2 ⟨md, g1, rfl⟩
        cases hl : md.leaf with
        | true => exact hm (hD m hne ⟨_, by rw [← s.clean hm]; exact hvm, hl⟩)
        | false =>
          have pr : h.Priv m := s.hp hvm hl
          exact pr hne g1 h1 harr
      exact ⟨hm, Or.inr fun xs xs' vs q1 q2 q3 => hQ m xs xs' vs hm q1 q2 q3⟩
    · have := s.hb.arr_lt g1
      simp only at harr; omega

/-! ## weakening -/

theorem Sim.widen {h k : Heap F} (s : Sim D Q h k) {D' : Nat → Prop} {Q' : Nat → List (Entry F) → List (Entry F) → Prop}
    (h1 : ∀ n, D n → D' n) (h2 : ∀ n, D' n → Lf k n)
    (h3 : ∀ n v w, D n → k.view n = some v → h.view n = some w → Q n w.entries v.entries → Q' n w.entries v.entries)
    (h4 : ∀ n v, D' n → ¬ D n → k.view n = some v → Q' n v.entries v.entries) : Sim D' Q' h k where
  len := s.len
  hb := s.hb
  hp := s.hp
  ki := s.ki
  dlt := by
    intro n hn
    obtain ⟨v, hv, -⟩ := h2 n hn
    rw [s.len]; exact Heap.view_lt hv
  clean := fun hn => s.clean fun h0 => hn (h1 _ h0)
  dirty := by
    intro n hn
    by_cases hd : D n
    · obtain ⟨v, w, g1, g2, g3, g4, g5, g6, g7, g8⟩ := s.dirty hd
      exact ⟨v, w, g1, g2, g3, g4, g5, g6, g7, h3 n v w hd g1 g2 g8⟩
    · obtain ⟨v, hv, hl⟩ := h2 n hn
      exact ⟨v, v, hv, by rw [s.clean hd]; exact hv, rfl, hl, hl, rfl, rfl, h4 n v hn hd hv⟩

/-! ## the contents of leaves -/

/-- the objects found in node `n` if it is a leaf -/
def lcont (k : Heap F) (n : Nat) : List (Spatial F) :=
  match k.view n with
  | none => []
  | some v => if v.leaf then v.entries.map (·.obj) else []

theorem lcont_of {k : Heap F} {n : Nat} {v : NodeV F} (hv : k.view n = some v) :
    lcont k n = if v.leaf then v.entries.map (·.obj) else [] := by
  unfold lcont; rw [hv]

theorem Item.objs_lcont {k : Heap F} {j : Nat} (x : Item F (j + 1)) (hx : x.Rep k) : x.objs = x.ids.flatMap (lcont k) := by
  induction j with
  | zero =>
    have h0 : idsL x.es = [] := by unfold idsL; rw [List.flatMap_eq_nil_iff]; intro p _; rfl
    obtain ⟨⟨par, hv⟩, -⟩ := _root_.id hx
    rw [ids_eq, h0, List.flatMap_cons, List.flatMap_nil, List.append_nil, lcont_of hv, objs_eq]
    simp only [beq_self_eq_true, if_true, List.map_map]
    unfold objsL
    rw [← List.flatMap_singleton' (List.map _ x.es), List.flatMap_map]
    rfl
  | succ j ih =>
    obtain ⟨⟨par, hv⟩, hch⟩ := _root_.id hx
    have hb : ((j + 1 == 0)) = false := by simp
    rw [ids_eq, List.flatMap_cons, lcont_of hv, hb, objs_eq]
    simp only [Bool.false_eq_true, if_false, List.nil_append]
    unfold objsL idsL
    rw [List.flatMap_assoc]
    have : ∀ l : List (Box F × Item F (j + 1)), (∀ p ∈ l, p ∈ x.es) →
        (l.flatMap fun p => p.2.objs) = l.flatMap fun p => p.2.ids.flatMap (lcont k) := by
      intro l hl
      induction l with
      | nil => rfl
      | cons p l ihl =>
        rw [List.flatMap_cons, List.flatMap_cons, ihl fun p' hp' => hl p' (by simp [hp']), ih p.2 (hch p (hl p (by simp))).1]
    exact this x.es fun p hp => hp

theorem objsL_lcont {k : Heap F} {j : Nat} (l : List (Box F × Item F (j + 1))) (hl : ∀ p ∈ l, p.2.Rep k) :
    objsL l = (idsL l).flatMap (lcont k) := by
  induction l with
  | nil => rfl
  | cons p l ih =>
    rw [objsL_cons, idsL_cons, List.flatMap_append, ← ih fun p' hp' => hl p' (by simp [hp']), p.2.objs_lcont (hl p (by simp))]

theorem Ctx.objs_lcont {k : Heap F} {root j : Nat} (c : Ctx F j) {x : Nat} (hc : c.Rep k root x) : c.objs = c.ids.flatMap (lcont k) := by
  induction c generalizing x with
  | top => rfl
  | @frame j id pre b post up ih =>
    obtain ⟨h0, ⟨par, hv⟩, hs, -, hup⟩ := hc
    have e1 : (Ctx.frame id pre b post up).ids = id :: (idsL (pre ++ post)) ++ up.ids := rfl
    have e2 : (Ctx.frame id pre b post up).objs = objsL (pre ++ post) ++ up.objs := rfl
    rw [e1, e2, List.flatMap_append, List.flatMap_cons, lcont_of hv, ih hup, objsL_lcont _ fun p hp => (hs p hp).1]
    simp

end GoGeo
