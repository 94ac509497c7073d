import Verif.Rtree.Sim3

/-!
# Insertions into a tree whose leaves share memory: the invariant
-/

set_option linter.unusedSectionVars false

namespace GoGeo
open GoFloat Spec
variable {F : Type} [GoFloat F]

/-- the entry of a stored object -/
def OkE (P : Spatial F → Prop) (e : Entry F) : Prop := e.child = none ∧ e.bb = BoundingBox e.obj.Geom ∧ P e.obj

/-- the memory of `s` is that of the ghost tree `X` (laid out in the ideal memory `k`) up to the entries of the
leaves; these are entries of objects with property `P` -/
structure DInv (lo hi r : Nat) (P : Spatial F → Prop) (s : RState F) (k : Heap F) {K : Nat} (X : Item F (K + 1)) : Prop where
  ti : TInv true lo hi r ⟨k, s.t⟩ X
  sim : Sim (Lf k) (fun n w _ => n ∈ X.ids → ∀ e ∈ w, OkE P e) s.h k
  objs : ∀ o ∈ X.objs, P o

/-- entries of a leaf of a ghost tree -/
theorem Item.leaf_entries {P : Spatial F → Prop} {k : Heap F} {j : Nat} (x : Item F (j + 1)) (hx : x.Rep k) (gx : x.Good)
    (hP : ∀ o ∈ x.objs, P o) : ∀ n ∈ x.ids, ∀ v, k.view n = some v → v.leaf = true → ∀ e ∈ v.entries, OkE P e := by
  induction j with
  | zero =>
    intro n hn v hv hl e he
    have h0 : idsL x.es = [] := by unfold idsL; rw [List.flatMap_eq_nil_iff]; intro p _; rfl
    rw [ids_eq, h0, List.mem_singleton] at hn
    subst hn
    obtain ⟨⟨par, hv'⟩, -⟩ := _root_.id hx
    rw [hv] at hv'; cases hv'
    obtain ⟨p, hp, rfl⟩ := List.mem_map.1 he
    exact ⟨rfl, (gx p hp).1, hP _ (by rw [objs_eq]; exact List.mem_flatMap.2 ⟨p, hp, List.mem_singleton.2 rfl⟩)⟩
  | succ j ih =>
    intro n hn v hv hl e he
    obtain ⟨⟨par, hv'⟩, hch⟩ := _root_.id hx
    rw [ids_eq, List.mem_cons] at hn
    rcases hn with rfl | hn
    · rw [hv] at hv'; cases hv'
      cases hl
    · obtain ⟨p, hp, hpn⟩ := mem_idsL.1 hn
      exact ih p.2 (hch p hp).1 (gx p hp).2
        (fun o ho => hP o (by rw [objs_eq]; exact List.mem_flatMap.2 ⟨p, hp, ho⟩)) n hpn v hv hl e he

/-- the ghost of a leaf entry -/
def leafItem (e : Entry F) : Box F × Item F 0 := (e.bb, e.obj)

theorem entry_of_OkE {P : Spatial F → Prop} {e : Entry F} (h : OkE P e) : Item.entry (leafItem e) = e := by
  obtain ⟨bb, ch, ob⟩ := e
  have h1 : ch = none := h.1
  subst h1
  rfl

theorem flatMap_filter_perm {α β : Type} (p : α → Bool) (f : α → List β) (l : List α) :
    (l.flatMap f).Perm ((l.filter p).flatMap f ++ (l.filter fun a => !p a).flatMap f) := by
  rw [← List.flatMap_append]
  exact (List.filter_append_perm p l).symm.flatMap_right f

set_option maxHeartbeats 1000000 in
theorem DInv.step {lo hi r : Nat} {P : Spatial F → Prop} (grow : Nat → Nat) {s : RState F} {k : Heap F} {K : Nat}
    {X : Item F (K + 1)} (d : DInv lo hi r P s k X) (o : Spatial F) (ho : P o) {l : Nat}
    (hc : chooseNode s.h (⟨BoundingBox o.Geom, none, o⟩ : Entry F) 1 (s.h.nodes.length + 1) (some s.t.root) = .ok l) :
    ∃ (s' : RState F) (k' : Heap F) (K' : Nat) (X' : Item F (K' + 1)),
      insert grow s (⟨BoundingBox o.Geom, none, o⟩ : Entry F) 1 = .ok s' ∧ DInv lo hi r P s' k' X' ∧ s'.t.size = s.t.size ∧
      s'.t.MinChildren = s.t.MinChildren ∧ X'.objs.length = X.objs.length + 1 ∧
      ∃ n ∈ X'.ids, lcont s'.h n = lcont k' n ∧ o ∈ lcont k' n := by
  obtain ⟨ti, sim, hP⟩ := d
  set e : Entry F := ⟨BoundingBox o.Geom, none, o⟩ with he
  have hck : chooseNode k e ((0 : Nat) + 1 : Int) (k.nodes.length + 1) (some X.id) = .ok l := by
    rw [ti.root, ← chooseNode_sim sim, ← sim.len]
    simpa using hc
  obtain ⟨y, c, y1, y2, y3, y4, y5, y6, y7, y8, y9, y10, y11⟩ := chooseNode_spec (lo := lo) (hi := hi) (r := r)
    (root := s.t.root) e 0 _ K X Ctx.top l (Nat.zero_le _) hck ti.rep ti.root (by rw [Ctx.ids, List.append_nil]; exact ti.nd) ti.good
    trivial ti.fill trivial ⟨fun h => absurd trivial h, fun _ => ti.cnt⟩
  simp only [Ctx.ids, Ctx.objs, List.append_nil, Ctx.rootLevel] at y4 y5 y11
  subst y1
  obtain ⟨⟨par, hvy⟩, -⟩ := id y2
  have hyX : y.id ∈ X.ids := y4.mem_iff.1 (by rw [ids_eq]; simp)
  obtain ⟨v, w, g1, g2, g3, g4, g5, g6, g7, g8⟩ := sim.dirty (n := y.id) ⟨_, hvy, rfl⟩
  rw [hvy] at g1; cases g1
  simp only [List.length_map] at g3 g6 g7
  have hw : ∀ x ∈ w.entries, OkE P x := g8 hyX
  -- the chosen leaf with its actual entries
  set k1 := k.setEntries y.id w.entries with hk1
  have kv1 : ∀ m, k1.view m = if m = y.id then some ⟨par, true, (0 : Nat) + 1, w.entries⟩ else k.view m := by
    intro m; rw [hk1, Heap.view_setEntries ti.inv.toOk.toBnd hvy]; rfl
  have ki1 : k1.Inv true := ti.inv.setEntries _ _
  set yy : Item F 1 := Item.mk y.id (w.entries.map leafItem) with hyy
  have hyye : yy.es.map Item.entry = w.entries := by
    rw [hyy, Item.mk_es, List.map_map]
    conv_rhs => rw [← List.map_id w.entries]
    exact List.map_congr_left fun x hx => entry_of_OkE (hw x hx)
  have hyylen : yy.es.length = y.es.length := by rw [hyy, Item.mk_es, List.length_map, g7]
  have hyyids : yy.ids = y.ids := by
    have h0 : ∀ z : Item F 1, idsL z.es = [] := fun z => by unfold idsL; rw [List.flatMap_eq_nil_iff]; intro p _; rfl
    rw [ids_eq, ids_eq, h0, h0]; rfl
  have hyyobj : yy.objs = w.entries.map (·.obj) := by
    rw [objs_eq, hyy, Item.mk_es]; unfold objsL
    rw [List.flatMap_map, ← List.flatMap_singleton' (List.map _ w.entries), List.flatMap_map]
    rfl
  have hnd : (y.ids ++ c.ids).Nodup := y4.nodup_iff.2 ti.nd
  have hyids : y.ids = [y.id] := by
    have h0 : idsL y.es = [] := by unfold idsL; rw [List.flatMap_eq_nil_iff]; intro p _; rfl
    rw [ids_eq, h0]
  have hync : y.id ∉ c.ids := by rw [hyids] at hnd; simpa using (List.nodup_cons.1 hnd).1
  have yrep : yy.Rep k1 := by
    refine ⟨⟨par, ?_⟩, fun p _ => ⟨trivial, trivial⟩⟩
    rw [hyye]
    show k1.view y.id = _
    rw [kv1, if_pos rfl]; rfl
  have crep : c.Rep k1 s.t.root yy.id := y3.congr
    (fun n hn => by rw [kv1, if_neg (by rintro rfl; exact hync hn)])
    (fun v hv => by
      rw [hvy] at hv; cases hv
      exact ⟨_, (kv1 _).trans (if_pos rfl), rfl⟩)
  obtain ⟨s2, K', X', i1, i2, -, i4, i5, i6, i7, i8, i9, -, -⟩ := insertAt_spec (q := true) (lo := lo) (hi := hi) (r := r) grow ⟨k1, s.t⟩
    (K := K) yy c X.ids (yy.objs ++ c.objs) ki1 yrep crep (by rw [hyyids]; exact y4) (List.Perm.refl _)
    (by
      intro p hp
      rw [hyy, Item.mk_es] at hp
      obtain ⟨x, hx, rfl⟩ := List.mem_map.1 hp
      exact ⟨(hw x hx).2.1, trivial⟩) y7 (fun p _ => ⟨trivial, trivial⟩) y9
    ⟨fun h => by
        have := y10.1 h
        exact ⟨by rw [hyylen]; exact this.1, by rw [hyylen]; exact this.2⟩,
      fun h => by
        have := y10.2 h
        exact ⟨by rw [hyylen]; exact this.1, fun h0 => by rw [hyylen]; exact this.2 h0⟩⟩ y11 ti.height ti.lo ti.r2
    (o : Item F 0) trivial trivial trivial trivial (by show (X.ids ++ []).Nodup; rw [List.append_nil]; exact ti.nd) (Or.inr rfl)
  obtain ⟨k2, t2⟩ := s2
  have i1' : insertAt grow ⟨k1, s.t⟩ e y.id = .ok ⟨k2, t2⟩ := i1
  have lenk1 : k1.nodes.length = k.nodes.length := Heap.length_setEntries _ _ _
  -- the simulation
  let D1 : Nat → Prop := fun n => Lf k n ∧ n ≠ y.id
  let Q1 : Nat → List (Entry F) → List (Entry F) → Prop := fun n w v =>
    (n ∈ X.ids → ∀ e ∈ w, OkE P e) ∧ ∃ kv, k1.view n = some kv ∧ kv.entries = v
  have hyD : ¬ D1 y.id := fun h => h.2 rfl
  have s1 : Sim D1 Q1 s.h k1 := by
    refine ⟨by rw [lenk1]; exact sim.len, sim.hb, sim.hp, ki1, fun hn => sim.dlt hn.1, ?_, ?_⟩
    · intro n hn
      rw [kv1]
      split_ifs with h0
      · subst h0
        rw [g2]
        obtain ⟨a, b, cc, dd⟩ := w
        simp only at g3 g4 g6 ⊢
        subst g3 g4 g6
        rfl
      · exact sim.clean fun h1 => hn ⟨h1, h0⟩
    · intro n hn
      obtain ⟨v', w', f1, f2, f3, f4, f5, f6, f7, f8⟩ := sim.dirty hn.1
      refine ⟨v', w', by rw [kv1, if_neg hn.2]; exact f1, f2, f3, f4, f5, f6, f7, f8, v', by rw [kv1, if_neg hn.2]; exact f1, rfl⟩
  have hv1 : k1.view y.id = some ⟨par, true, (0 : Nat) + 1, w.entries⟩ := by rw [kv1, if_pos rfl]
  obtain ⟨s3, sh⟩ := s1.append_leaf grow hyD hv1
    (fun m hm ⟨x, hx, hxl⟩ => ⟨⟨x, by rw [kv1, if_neg hm] at hx; exact hx, hxl⟩, hm⟩) e
    (fun m xs xs' vs _ q _ hmem => ⟨fun hm x hx => by
      rcases hmem x hx with h0 | h0
      · exact q.1 hm x h0
      · rcases List.mem_append.1 h0 with h0 | h0
        · exact hw x h0
        · rw [List.mem_singleton.1 h0]; exact ⟨rfl, rfl, ho⟩, q.2⟩)
  have hva : (k1.append grow y.id e).view y.id = some ⟨par, true, (0 : Nat) + 1, w.entries ++ [e]⟩ := by
    rw [Heap.view_append ki1.toOk.toBnd (ki1.priv_of_view hv1 (Or.inr rfl)) hv1, if_pos rfl]
  have up : Up (fun n => n ∈ X.ids) s.t.root (k1.append grow y.id e) := by
    have := rep_up ti.rep
    rw [ti.root] at this
    exact this.of_pl fun m => by rw [pl_append, hk1, pl_setEntries]
  have hmax : 1 ≤ s.t.MaxChildren := by
    have h1 := ti.lo.1
    have h2 : (hi : Int) = s.t.MaxChildren := ti.lo.2.1
    omega
  obtain ⟨h2, j1, j2⟩ := insertTail_sim grow s.t hmax s3 hyD hva
    (fun x hx => by
      rcases List.mem_append.1 hx with h0 | h0
      · exact (hw x h0).1
      · rw [List.mem_singleton.1 h0])
    sh up hyX (k' := k2) (t' := t2) i1'
  have hins : insert grow s e 1 = .ok ⟨h2, t2⟩ := by
    rw [insert_eq, hc]
    exact j1
  have i4' : X'.objs.Perm (o :: (yy.objs ++ c.objs)) := i4
  have hPc : ∀ x ∈ c.objs, P x := fun x hx => hP x (y5.mem_iff.1 (List.mem_append_right _ hx))
  have hPyy : ∀ x ∈ yy.objs, P x := by
    intro x hx
    rw [hyyobj] at hx
    obtain ⟨z, hz, rfl⟩ := List.mem_map.1 hx
    exact (hw z hz).2.2
  have hP' : ∀ x ∈ X'.objs, P x := by
    intro x hx
    rcases List.mem_cons.1 (i4'.mem_iff.1 hx) with rfl | hx
    · exact ho
    · rcases List.mem_append.1 hx with hx | hx
      · exact hPyy x hx
      · exact hPc x hx
  have live : ∀ n, D1 n → n ∈ X'.ids → n ∈ X.ids := by
    intro n hn hn'
    rcases i8 n hn' with h0 | h0
    · rcases List.mem_append.1 h0 with h0 | h0
      · exact h0
      · cases h0
    · have h3 := s1.dlt hn
      rw [s1.len] at h3
      have h0' : k1.nodes.length ≤ n := h0
      omega
  have dsim : Sim (Lf k2) (fun n w _ => n ∈ X'.ids → ∀ e ∈ w, OkE P e) h2 k2 := by
    refine j2.widen ?_ (fun n h => h) ?_ ?_
    · intro n hn
      obtain ⟨v', w', f1, f2, f3, f4, f5, -⟩ := j2.dirty hn
      exact ⟨v', f1, f5⟩
    · intro n v' w' hn _ _ q hn' x hx
      exact q.1 (live n hn hn') x hx
    · rintro n v' ⟨v'', hv'', hl⟩ _ hv' hn x hx
      rw [hv'] at hv''; cases hv''
      exact X'.leaf_entries i2.rep i2.good hP' n hn v' hv' hl x hx
  refine ⟨⟨h2, t2⟩, k2, K', X', hins, ⟨i2, dsim, hP'⟩, i5, i6, ?_, ?_⟩
  · rw [i4'.length_eq, List.length_cons, List.length_append, hyyobj, List.length_map, g7, ← y5.length_eq, List.length_append]
    congr 2
    rw [y.objs_lcont y2, hyids, List.flatMap_cons, List.flatMap_nil, List.append_nil, lcont_of hvy]
    simp
  · -- the new object is in a leaf that is as in the ideal memory
    classical
    set A := X'.ids.filter fun n => decide (D1 n) with hA
    set B := X'.ids.filter fun n => !decide (D1 n) with hB
    have hAc : A ⊆ c.ids := by
      intro n hn
      obtain ⟨h0, h1⟩ := List.mem_filter.1 hn
      have h1 : D1 n := of_decide_eq_true h1
      have h3 := y4.mem_iff.2 (live n h1 h0)
      rcases List.mem_append.1 h3 with h4 | h4
      · rw [hyids] at h4; exact absurd (List.mem_singleton.1 h4) h1.2
      · exact h4
    have hAnd : A.Nodup := List.Nodup.filter _ i2.nd
    obtain ⟨R, hR⟩ : ∃ R, c.ids.Perm (A ++ R) := ⟨_, (List.subperm_append_diff_self_of_count_le
      (fun n hn => (hAnd.subperm hAc).count_le n)).symm⟩
    have hAeq : A.flatMap (lcont k2) = A.flatMap (lcont k1) := by
      have : ∀ l : List Nat, (∀ n ∈ l, n ∈ A) → l.flatMap (lcont k2) = l.flatMap (lcont k1) := by
        intro l hl
        induction l with
        | nil => rfl
        | cons n l ih =>
          rw [List.flatMap_cons, List.flatMap_cons, ih fun m hm => hl m (by simp [hm])]
          have h1 : D1 n := of_decide_eq_true (List.mem_filter.1 (hl n (by simp))).2
          obtain ⟨v', w', f1, f2, f3, f4, f5, f6, f7, f8, kv, f9, f10⟩ := j2.dirty h1
          obtain ⟨v0, f11, f12⟩ := h1.1
          have f13 : k1.view n = some v0 := by rw [kv1, if_neg h1.2]; exact f11
          rw [f13] at f9; cases f9
          rw [lcont_of f1, lcont_of f13, f5, f12, f10]
      exact this A fun n hn => hn
    have p1 : X'.objs.Perm (A.flatMap (lcont k2) ++ B.flatMap (lcont k2)) := by
      rw [X'.objs_lcont i2.rep]; exact flatMap_filter_perm _ _ _
    have p2 : c.objs.Perm (A.flatMap (lcont k1) ++ R.flatMap (lcont k1)) := by
      rw [c.objs_lcont crep, ← List.flatMap_append]; exact hR.flatMap_right _
    rw [hAeq] at p1
    have p3 : (A.flatMap (lcont k1) ++ B.flatMap (lcont k2)).Perm
        (A.flatMap (lcont k1) ++ (o :: (yy.objs ++ R.flatMap (lcont k1)))) := by
      refine p1.symm.trans (i4'.trans ?_)
      refine ((p2.append_left yy.objs).cons o).trans ?_
      rw [← List.append_assoc]
      refine List.Perm.trans ?_ List.perm_middle.symm
      refine List.Perm.cons o ?_
      rw [← List.append_assoc]
      exact List.perm_append_comm.append_right _
    have p4 := (List.perm_append_left_iff _).1 p3
    have hoB : o ∈ B.flatMap (lcont k2) := p4.mem_iff.2 (by simp)
    obtain ⟨n, hn, hno⟩ := List.mem_flatMap.1 hoB
    obtain ⟨hn1, hn2⟩ := List.mem_filter.1 hn
    have hn3 : ¬ D1 n := by simpa using hn2
    refine ⟨n, hn1, ?_, hno⟩
    unfold lcont
    rw [j2.clean hn3]

end GoGeo
