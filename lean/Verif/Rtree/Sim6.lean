import Verif.Rtree.Sim5

/-!
# One insertion into a bulk-loaded tree, exactly

The leaves of a bulk-loaded tree are disjoint pieces of one array, so appending to one of them overwrites at most one entry of
one other leaf, and it does so with the new entry.
-/

set_option linter.unusedSectionVars false

namespace GoGeo
open GoFloat Spec
variable {F : Type} [GoFloat F]

/-- appending to `n` writes into the slice of `m` -/
def Hits (h : Heap F) (n m : Nat) : Prop :=
  ∃ nd md, h.nodes[n]? = some nd ∧ h.nodes[m]? = some md ∧ md.entries.arr = nd.entries.arr ∧ nd.entries.len < nd.entries.cap ∧
    md.entries.off ≤ nd.entries.off + nd.entries.len ∧ nd.entries.off + nd.entries.len < md.entries.off + md.entries.len

theorem Hits.unique {h : Heap F} (ok : h.Ok) {n m m' : Nat} (h1 : Hits h n m) (h2 : Hits h n m') : m = m' := by
  obtain ⟨nd, md, a1, a2, a3, a4, a5, a6⟩ := h1
  obtain ⟨nd', md', b1, b2, b3, b4, b5, b6⟩ := h2
  rw [a1] at b1; cases b1
  by_contra hne
  have := ok.sep hne a2 b2 (a3.trans b3.symm)
  omega

theorem perm_set {α : Type} (l : List α) (i : Nat) (hi : i < l.length) (e : α) :
    ∃ lost rest, l.Perm (lost :: rest) ∧ (l.set i e).Perm (e :: rest) := by
  refine ⟨l[i], l.eraseIdx i, (List.getElem_cons_eraseIdx_perm hi).symm, ?_⟩
  have hi' : i < (l.set i e).length := by simpa using hi
  have := (List.getElem_cons_eraseIdx_perm hi').symm
  rwa [List.eraseIdx_set_eq, List.getElem_set_self] at this

theorem lcont_append_other {h : Heap F} (hb : h.Bnd) {n m : Nat} (hne : m ≠ n) (grow : Nat → Nat) (e : Entry F) :
    ((¬ Hits h n m) → lcont (h.append grow n e) m = lcont h m) ∧
    (lcont (h.append grow n e) m = lcont h m ∨
      ∃ lost rest, (lcont h m).Perm (lost :: rest) ∧ (lcont (h.append grow n e) m).Perm (e.obj :: rest)) := by
  cases hw : h.view m with
  | none =>
    have hx : (h.append grow n e).view m = none := by
      unfold Heap.view at hw ⊢
      cases hy : (h.append grow n e).nodes[m]? with
      | none => rfl
      | some md =>
        rcases Heap.node_append hy with ⟨-, h2⟩ | ⟨h2, -⟩
        · rw [h2] at hw; cases hw
        · exact absurd h2 hne
    have : lcont (h.append grow n e) m = lcont h m := by unfold lcont; rw [hw, hx]
    exact ⟨fun _ => this, Or.inl this⟩
  | some w =>
    obtain ⟨es, h1, h2, h3, h4⟩ := view_append_other hb hne hw grow e
    by_cases hh : Hits h n m
    · refine ⟨fun h0 => absurd hh h0, ?_⟩
      obtain ⟨nd, md, a1, a2, a3, a4, a5, a6⟩ := hh
      obtain ⟨md', b1, b2⟩ := Heap.view_some.1 hw
      rw [a2] at b1; cases b1
      rw [lcont_of h1, lcont_of hw]
      cases hl : w.leaf with
      | false => left; simp
      | true =>
        right
        simp only [if_true]
        obtain ⟨x, g1, g2, g3⟩ := hb.bnd a2
        have hlen : (h.slice md.entries).length = md.entries.len := Heap.slice_length _ g1 (by omega)
        have hes : es = w.entries.set (nd.entries.off + nd.entries.len - md.entries.off) e := by
          have hv : (h.append grow n e).view m = some ⟨md.parent, md.leaf, md.level, (h.append grow n e).slice md.entries⟩ := by
            refine Heap.view_some.2 ⟨md, ?_, rfl⟩
            unfold Heap.append
            rw [a1]
            dsimp only
            rw [if_pos a4]
            simp only [List.getElem?_set, if_neg (Ne.symm hne)]; exact a2
          rw [h1] at hv
          have hv' : es = (h.append grow n e).slice md.entries := by
            have := congrArg NodeV.entries (Option.some.inj hv)
            exact this
          rw [hv', b2]
          apply List.ext_getElem?
          intro i
          rw [Heap.slice_getElem?, List.getElem?_set, hlen]
          simp only [Heap.slice_getElem?]
          unfold Heap.append
          rw [a1]
          dsimp only
          rw [if_pos a4]
          simp only [List.getD, List.getElem?_modify, a3, if_true]
          rw [a3] at g1
          simp only [g1, Option.map_eq_map, Option.map_some, Option.getD_some, List.getElem?_set]
          by_cases hi : i < md.entries.len
          · simp only [hi, if_true]
            by_cases he : nd.entries.off + nd.entries.len = md.entries.off + i
            · rw [if_pos he, if_pos (by omega), if_pos (by omega), if_pos (by omega)]
            · rw [if_neg he, if_neg (by omega)]
          · simp only [hi, if_false]
            rw [if_neg (by omega)]
        rw [hes, List.map_set]
        apply perm_set
        rw [List.length_map, b2, hlen]
        omega
    · have hes : es = w.entries := by
        apply h4
        intro nd md g1 g2 g3 g4
        by_contra h0
        rw [not_or] at h0
        exact hh ⟨nd, md, g1, g2, g3, g4, by omega, by omega⟩
      have : lcont (h.append grow n e) m = lcont h m := by
        rw [lcont_of h1, lcont_of hw, hes]
      exact ⟨fun _ => this, Or.inl this⟩

/-- at most one leaf changes -/
theorem flatMap_append_leaf {h : Heap F} (ok : h.Ok) {n : Nat} (grow : Nat → Nat) (e : Entry F) (A : List Nat) (hA : A.Nodup) (hn : n ∉ A) :
    A.flatMap (lcont (h.append grow n e)) = A.flatMap (lcont h) ∨
      ∃ lost rest, (A.flatMap (lcont h)).Perm (lost :: rest) ∧ (A.flatMap (lcont (h.append grow n e))).Perm (e.obj :: rest) := by
  induction A with
  | nil => left; rfl
  | cons m A ih =>
    rw [List.nodup_cons] at hA
    rw [List.mem_cons, not_or] at hn
    have hm : m ≠ n := fun h0 => hn.1 h0.symm
    have key := lcont_append_other ok.toBnd hm grow e
    simp only [List.flatMap_cons]
    by_cases hh : Hits h n m
    · have hrest : A.flatMap (lcont (h.append grow n e)) = A.flatMap (lcont h) := by
        have : ∀ l : List Nat, (∀ a ∈ l, a ∈ A) → l.flatMap (lcont (h.append grow n e)) = l.flatMap (lcont h) := by
          intro l hl
          induction l with
          | nil => rfl
          | cons a l ihl =>
            have ha := hl a (by simp)
            have han : a ≠ n := by rintro rfl; exact hn.2 ha
            rw [List.flatMap_cons, List.flatMap_cons, ihl fun b hb => hl b (by simp [hb]),
              (lcont_append_other ok.toBnd han grow e).1 fun h0 => hA.1 (Hits.unique ok hh h0 ▸ ha)]
        exact this A fun a ha => ha
      rw [hrest]
      rcases key.2 with h1 | ⟨lost, rest, h1, h2⟩
      · left; rw [h1]
      · exact Or.inr ⟨lost, rest ++ A.flatMap (lcont h), h1.append_right _, h2.append_right _⟩
    · rw [key.1 hh]
      rcases ih hA.2 hn.2 with h1 | ⟨lost, rest, h1, h2⟩
      · left; rw [h1]
      · exact Or.inr ⟨lost, lcont h m ++ rest, (h1.append_left _).trans List.perm_middle,
          (h2.append_left _).trans List.perm_middle⟩

theorem mem_lcont_append {h : Heap F} (hb : h.Bnd) {n m : Nat} (hne : m ≠ n) (grow : Nat → Nat) (e : Entry F) {x : Spatial F}
    (hx : x ∈ lcont (h.append grow n e) m) : x = e.obj ∨ x ∈ lcont h m := by
  rcases (lcont_append_other hb hne grow e).2 with h1 | ⟨lost, rest, h1, h2⟩
  · right; rw [← h1]; exact hx
  · rcases List.mem_cons.1 (h2.mem_iff.1 hx) with h3 | h3
    · exact Or.inl h3
    · exact Or.inr (h1.mem_iff.2 (List.mem_cons_of_mem _ h3))

set_option maxHeartbeats 1000000 in
/-- an insertion into a tree whose leaves are disjoint pieces of arrays -/
theorem TInv.insert_shared {q : Bool} {lo hi r : Nat} (grow : Nat → Nat) {s : RState F} {K : Nat} {X : Item F (K + 1)}
    (ti : TInv q lo hi r s X) (o : Spatial F) {s' : RState F}
    (hins : GoGeo.insert grow s (⟨BoundingBox o.Geom, none, o⟩ : Entry F) 1 = .ok s') :
    ∃ (k' : Heap F) (K' : Nat) (X' : Item F (K' + 1)), DInv lo hi r (fun x => x = o ∨ x ∈ X.objs) s' k' X' ∧ s'.t.size = s.t.size ∧
      ((contents s').Perm (o :: X.objs) ∨
        ∃ lost rest, X.objs.Perm (lost :: rest) ∧ (contents s').Perm (o :: o :: rest)) ∧
      ∀ x ∈ contents s', ∃ n ∈ X'.ids, x ∈ lcont s'.h n ∧ x ∈ lcont k' n := by
  classical
  set e : Entry F := ⟨BoundingBox o.Geom, none, o⟩ with he
  set h := s.h with hh
  have ok : h.Ok := ti.inv.toOk
  have hb : h.Bnd := ok.toBnd
  set k := privatize h with hkdef
  have hkv : ∀ n, k.view n = h.view n := view_privatize h
  have ki : k.Inv true := privatize_inv hb
  have klen : h.nodes.length = k.nodes.length := by rw [hkdef]; unfold privatize; simp
  -- the leaf chosen
  cases hc : chooseNode h e 1 (h.nodes.length + 1) (some s.t.root) with
  | error x => rw [insert_eq, ← hh, hc] at hins; cases hins
  | ok l =>
  have hc' : chooseNode h e ((0 : Nat) + 1 : Int) (h.nodes.length + 1) (some X.id) = .ok l := by
    rw [ti.root]; simpa using hc
  obtain ⟨y, c, y1, y2, y3, y4, y5, y6, y7, y8, y9, y10, y11⟩ := chooseNode_spec (lo := lo) (hi := hi) (r := r)
    (root := s.t.root) e 0 _ K X Ctx.top l (Nat.zero_le _) hc' ti.rep ti.root (by rw [Ctx.ids, List.append_nil]; exact ti.nd) ti.good
    trivial ti.fill trivial ⟨fun h => absurd trivial h, fun _ => ti.cnt⟩
  simp only [Ctx.ids, Ctx.objs, List.append_nil, Ctx.rootLevel] at y4 y5 y11
  subst y1
  obtain ⟨⟨par, hvy⟩, -⟩ := id y2
  have hyX : y.id ∈ X.ids := y4.mem_iff.1 (by rw [ids_eq]; simp)
  have hyids : y.ids = [y.id] := by
    have h0 : idsL y.es = [] := by unfold idsL; rw [List.flatMap_eq_nil_iff]; intro p _; rfl
    rw [ids_eq, h0]
  have hnd : (y.ids ++ c.ids).Nodup := y4.nodup_iff.2 ti.nd
  have hync : y.id ∉ c.ids := by rw [hyids] at hnd; simpa using (List.nodup_cons.1 hnd).1
  have yrep : y.Rep k := y2.congr fun n _ => hkv n
  have crep : c.Rep k s.t.root y.id := y3.congr (fun n _ => hkv n) (fun v hv => ⟨v, by rw [hkv]; exact hv, rfl⟩)
  have tik : TInv true lo hi r ⟨k, s.t⟩ X :=
    ⟨ki, ti.root, ti.rep.congr fun n _ => hkv n, ti.nd, ti.good, ti.fill, ti.cnt, ti.height, ti.lo, ti.r2⟩
  obtain ⟨s2, K', X', i1, i2, -, i4, i5, i6, i7, i8, i9, -, i11⟩ := insertAt_spec (q := true) (lo := lo) (hi := hi) (r := r) grow ⟨k, s.t⟩
    (K := K) y c X.ids X.objs ki yrep crep y4 y5 y6 y7 y8 y9 y10 y11 ti.height ti.lo ti.r2
    (o : Item F 0) trivial trivial trivial trivial (by show (X.ids ++ []).Nodup; rw [List.append_nil]; exact ti.nd) (Or.inr rfl)
  obtain ⟨k2, t2⟩ := s2
  have i1' : insertAt grow ⟨k, s.t⟩ e y.id = .ok ⟨k2, t2⟩ := i1
  have i4' : X'.objs.Perm (o :: X.objs) := i4
  -- the simulation
  let D : Nat → Prop := fun n => Lf h n ∧ n ≠ y.id
  have hyD : ¬ D y.id := fun h => h.2 rfl
  have s0 : Sim D (fun _ _ _ => True) h k := by
    refine ⟨klen, hb, fun h1 h2 => ti.inv.priv_of_view h1 (Or.inl h2), ki, ?_, fun _ => (hkv _).symm, ?_⟩
    · rintro n ⟨⟨v, h1, -⟩, -⟩; exact Heap.view_lt h1
    · rintro n ⟨⟨v, h1, h2⟩, -⟩
      exact ⟨v, v, by rw [hkv]; exact h1, h1, rfl, h2, h2, rfl, rfl, trivial⟩
  have hvk : k.view y.id = some ⟨par, true, (0 : Nat) + 1, y.es.map Item.entry⟩ := by rw [hkv]; exact hvy
  obtain ⟨s1, -⟩ := s0.append_leaf grow hyD hvk
    (fun m hm ⟨x, hx, hxl⟩ => ⟨⟨x, by rw [← hkv]; exact hx, hxl⟩, hm⟩) e (fun _ _ _ _ _ _ _ _ => trivial)
  set h1 := h.append grow y.id e with hh1
  let Q : Nat → List (Entry F) → List (Entry F) → Prop := fun n w v =>
    (∃ w1, h1.view n = some w1 ∧ w = w1.entries) ∧ (∃ v0, h.view n = some v0 ∧ v = v0.entries)
  have kva : ∀ m, m ≠ y.id → (k.append grow y.id e).view m = h.view m := by
    intro m hm
    rw [Heap.view_append ki.toOk.toBnd (ki.priv_of_view hvk (Or.inr rfl)) hvk, if_neg hm, hkv]
  have s2 : Sim D Q h1 (k.append grow y.id e) := by
    refine ⟨s1.len, s1.hb, s1.hp, s1.ki, s1.dlt, s1.clean, ?_⟩
    intro n hn
    obtain ⟨v, w, f1, f2, f3, f4, f5, f6, f7, -⟩ := s1.dirty hn
    refine ⟨v, w, f1, f2, f3, f4, f5, f6, f7, ⟨w, f2, rfl⟩, v, ?_, rfl⟩
    rw [← kva n hn.2]; exact f1
  have hva : (k.append grow y.id e).view y.id = some ⟨par, true, (0 : Nat) + 1, y.es.map Item.entry ++ [e]⟩ := by
    rw [Heap.view_append ki.toOk.toBnd (ki.priv_of_view hvk (Or.inr rfl)) hvk, if_pos rfl]
  have sh : Shares D Q h1 y.id (y.es.map Item.entry ++ [e]) := by
    intro nd hnd m md hne hmd harr
    rcases Heap.node_append hnd with ⟨h0, -⟩ | ⟨-, nd0, g1, g2⟩
    · exact absurd rfl h0
    rcases Heap.node_append hmd with ⟨-, g3⟩ | ⟨g3, -⟩
    swap
    · exact absurd g3 hne
    rcases g2 with ⟨g2, rfl⟩ | ⟨g2, rfl⟩
    · have harr' : md.entries.arr = nd0.entries.arr := harr
      refine ⟨⟨?_, hne⟩, Or.inl ?_⟩
      · have hvm : h.view m = some ⟨md.parent, md.leaf, md.level, h.slice md.entries⟩ := Heap.view_some.2 ⟨md, g3, rfl⟩
        cases hl : md.leaf with
        | true => exact ⟨_, hvm, hl⟩
        | false =>
          have pr : h.Priv m := ti.inv.priv_of_view hvm (Or.inl hl)
          exact absurd harr' (pr hne g3 g1)
      · have := ok.sep hne g3 g1 harr'
        dsimp only
        omega
    · have := hb.arr_lt g3
      simp only at harr; omega
  have up : Up (fun n => n ∈ X.ids) s.t.root (k.append grow y.id e) := by
    have := rep_up tik.rep
    rw [ti.root] at this
    exact this.of_pl fun m => by rw [pl_append]
  have hmax : 1 ≤ s.t.MaxChildren := by
    have h1 := ti.lo.1
    have h2 : (hi : Int) = s.t.MaxChildren := ti.lo.2.1
    omega
  obtain ⟨h2, j1, j2⟩ := insertTail_sim grow s.t hmax s2 hyD hva
    (fun x hx => by
      rcases List.mem_append.1 hx with h0 | h0
      · obtain ⟨p, -, rfl⟩ := List.mem_map.1 h0; rfl
      · rw [List.mem_singleton.1 h0])
    sh up hyX (k' := k2) (t' := t2) i1'
  have hins' : GoGeo.insert grow s e 1 = .ok ⟨h2, t2⟩ := by
    rw [insert_eq, ← hh, hc]
    exact j1
  rw [hins'] at hins
  cases hins
  -- what is in the leaves
  have hXids : ∀ n ∈ X.ids, n ∈ X'.ids := fun n hn => i11 n (List.mem_append_left _ hn)
  have live : ∀ n, D n → n ∈ X'.ids → n ∈ X.ids := by
    intro n hn hn'
    rcases i8 n hn' with h0 | h0
    · rcases List.mem_append.1 h0 with h0 | h0
      · exact h0
      · cases h0
    · have h3 := s0.dlt hn
      rw [s0.len] at h3
      have h0' : k.nodes.length ≤ n := h0
      omega
  have hdl : ∀ n, D n → lcont h2 n = lcont h1 n ∧ lcont k2 n = lcont h n := by
    intro n hn
    obtain ⟨v', w', f1, f2, f3, f4, f5, f6, f7, ⟨w1, q1, q2⟩, v0, q3, q4⟩ := j2.dirty hn
    obtain ⟨v1, r1, r2⟩ := hn.1
    rw [r1] at q3; cases q3
    obtain ⟨w2, z1, z2⟩ : ∃ w2, h1.view n = some w2 ∧ w2.leaf = true := by
      obtain ⟨v'', w'', -, g2, -, g4, -⟩ := s2.dirty hn
      exact ⟨w'', g2, g4⟩
    rw [z1] at q1; cases q1
    rw [lcont_of f2, lcont_of z1, lcont_of f1, lcont_of r1, f4, z2, f5, r2, q2, q4]
    exact ⟨rfl, rfl⟩
  have hcl : ∀ n, ¬ D n → lcont h2 n = lcont k2 n := by
    intro n hn
    unfold lcont
    rw [j2.clean hn]
  set A := X'.ids.filter fun n => decide (D n) with hA
  set B := X'.ids.filter fun n => !decide (D n) with hB
  have hAD : ∀ n ∈ A, D n := fun n hn => of_decide_eq_true (List.mem_filter.1 hn).2
  have hAc : ∀ n, n ∈ A ↔ n ∈ c.ids.filter fun n => decide (D n) := by
    intro n
    rw [hA, List.mem_filter, List.mem_filter]
    refine and_congr_left fun h1 => ?_
    have h1 : D n := of_decide_eq_true h1
    constructor
    · intro h0
      have h3 := y4.mem_iff.2 (live n h1 h0)
      rcases List.mem_append.1 h3 with h4 | h4
      · rw [hyids] at h4; exact absurd (List.mem_singleton.1 h4) h1.2
      · exact h4
    · intro h0
      exact hXids n (y4.mem_iff.1 (List.mem_append_right _ h0))
  have hAnd : A.Nodup := List.Nodup.filter _ i2.nd
  have hcnd : c.ids.Nodup := (List.nodup_append.1 hnd).2.1
  have hAp : A.Perm (c.ids.filter fun n => decide (D n)) :=
    (List.perm_ext_iff_of_nodup hAnd (List.Nodup.filter _ hcnd)).2 hAc
  have fm : ∀ (l : List Nat) (f g : Nat → List (Spatial F)), (∀ n ∈ l, f n = g n) → l.flatMap f = l.flatMap g := by
    intro l f g hfg
    induction l with
    | nil => rfl
    | cons a l ih => rw [List.flatMap_cons, List.flatMap_cons, hfg a (by simp), ih fun n hn => hfg n (by simp [hn])]
  have pc : c.objs.Perm (A.flatMap (lcont h)) := by
    rw [c.objs_lcont y3]
    refine (flatMap_filter_perm (fun n => decide (D n)) _ _).trans ?_
    have : (c.ids.filter fun n => !decide (D n)).flatMap (lcont h) = [] := by
      rw [List.flatMap_eq_nil_iff]
      intro n hn
      obtain ⟨m1, m2⟩ := List.mem_filter.1 hn
      have m3 : ¬ D n := by simpa using m2
      cases hv : h.view n with
      | none => unfold lcont; rw [hv]
      | some v =>
        rw [lcont_of hv]
        cases hl : v.leaf with
        | false => rfl
        | true => exact absurd ⟨⟨v, hv, hl⟩, by rintro rfl; exact hync m1⟩ m3
    rw [this, List.append_nil]
    exact hAp.symm.flatMap_right _
  have pB : (B.flatMap (lcont k2)).Perm (o :: y.objs) := by
    have p1 : X'.objs.Perm (A.flatMap (lcont k2) ++ B.flatMap (lcont k2)) := by
      rw [X'.objs_lcont i2.rep]; exact flatMap_filter_perm _ _ _
    rw [fm A _ _ fun n hn => (hdl n (hAD n hn)).2] at p1
    have p2 : (A.flatMap (lcont h) ++ B.flatMap (lcont k2)).Perm (A.flatMap (lcont h) ++ (o :: y.objs)) := by
      refine p1.symm.trans (i4'.trans ?_)
      refine ((y5.symm.trans (pc.append_left _)).cons o).trans ?_
      refine List.Perm.trans ?_ List.perm_middle.symm
      exact List.perm_append_comm.cons o
    exact (List.perm_append_left_iff _).1 p2
  -- the invariant
  have hP' : ∀ x ∈ X'.objs, x = o ∨ x ∈ X.objs := fun x hx => List.mem_cons.1 (i4'.mem_iff.1 hx)
  have dsim : Sim (Lf k2) (fun n w _ => n ∈ X'.ids → ∀ e ∈ w, OkE (fun x => x = o ∨ x ∈ X.objs) e) h2 k2 := by
    refine j2.widen ?_ (fun n h => h) ?_ ?_
    · intro n hn
      obtain ⟨v', w', f1, f2, f3, f4, f5, -⟩ := j2.dirty hn
      exact ⟨v', f1, f5⟩
    · rintro n v' w' hn _ _ ⟨⟨w1, q1, q2⟩, -⟩ hn' x hx
      obtain ⟨v1, r1, r2⟩ := hn.1
      obtain ⟨es, z1, -, z3, -⟩ := view_append_other hb hn.2 r1 grow e
      rw [← hh1, q1] at z1
      rw [q2, Option.some.inj z1] at hx
      rcases z3 x hx with h0 | rfl
      · exact X.leaf_entries ti.rep ti.good (fun o' ho' => Or.inr ho') n (live n hn hn') v1 r1 r2 x h0
      · exact ⟨rfl, rfl, Or.inl rfl⟩
    · rintro n v' ⟨v'', hv'', hl⟩ _ hv' hn x hx
      rw [hv'] at hv''; cases hv''
      exact X'.leaf_entries i2.rep i2.good hP' n hn v' hv' hl x hx
  have d : DInv lo hi r (fun x => x = o ∨ x ∈ X.objs) ⟨h2, t2⟩ k2 X' := ⟨i2, dsim, hP'⟩
  have pcont : (contents ⟨h2, t2⟩).Perm (A.flatMap (lcont h1) ++ (o :: y.objs)) := by
    rw [d.contents_eq]
    refine (flatMap_filter_perm (fun n => decide (D n)) _ _).trans ?_
    show (A.flatMap (lcont h2) ++ B.flatMap (lcont h2)).Perm _
    rw [fm A _ _ fun n hn => (hdl n (hAD n hn)).1,
      fm B _ _ fun n hn => hcl n (by simpa using (List.mem_filter.1 hn).2)]
    exact pB.append_left _
  have pX : X.objs.Perm (A.flatMap (lcont h) ++ y.objs) :=
    y5.symm.trans ((pc.append_left _).trans List.perm_append_comm)
  refine ⟨k2, K', X', d, i5, ?_, ?_⟩
  · rcases flatMap_append_leaf ok grow e A hAnd (fun h0 => (hAD _ h0).2 rfl) with h0 | ⟨lost, rest, r1, r2⟩
    · left
      rw [← hh1] at h0
      rw [h0] at pcont
      exact pcont.trans (List.perm_middle.trans (pX.symm.cons o))
    · right
      refine ⟨lost, rest ++ y.objs, pX.trans (r1.append_right _), ?_⟩
      exact pcont.trans (((r2.append_right _)).trans (List.perm_middle.cons o))
  · intro x hx
    rcases List.mem_append.1 (pcont.mem_iff.1 hx) with h0 | h0
    · obtain ⟨n, hn, hxn⟩ := List.mem_flatMap.1 h0
      rcases mem_lcont_append hb (hAD n hn).2 grow e hxn with h3 | h3
      · have h3 : x = o := h3
        rw [h3]
        have : o ∈ B.flatMap (lcont k2) := pB.mem_iff.2 (by simp)
        obtain ⟨m, hm, hmo⟩ := List.mem_flatMap.1 this
        obtain ⟨m1, m2⟩ := List.mem_filter.1 hm
        exact ⟨m, m1, by show _ ∈ lcont h2 m; rw [hcl m (by simpa using m2)]; exact hmo, hmo⟩
      · refine ⟨n, (List.mem_filter.1 hn).1, ?_, ?_⟩
        · show _ ∈ lcont h2 n; rw [(hdl n (hAD n hn)).1]; exact hxn
        · rw [(hdl n (hAD n hn)).2]; exact h3
    · obtain ⟨m, hm, hmo⟩ := List.mem_flatMap.1 (pB.mem_iff.2 h0)
      obtain ⟨m1, m2⟩ := List.mem_filter.1 hm
      exact ⟨m, m1, by show _ ∈ lcont h2 m; rw [hcl m (by simpa using m2)]; exact hmo, hmo⟩

end GoGeo
