import Verif.Rtree.Insert

/-!
# `chooseNode` and `insert`
-/

set_option linter.unusedSectionVars false

namespace GoGeo
open GoFloat
variable {F : Type} [GoFloat F]

theorem chooseLoop_mem (e : Entry F) (es : List (Entry F)) (diff : F) (ch : Option (Entry F))
    (en : Entry F) (h : chooseLoop e es diff ch = .ok (some en)) : en ∈ es ∨ ch = some en := by
  induction es generalizing diff ch with
  | nil => simp only [chooseLoop, Except.ok.injEq] at h; exact Or.inr h
  | cons a es ih =>
    unfold chooseLoop at h
    dsimp only at h
    have step : ∀ d, chooseLoop e es d (some a) = .ok (some en) → en ∈ a :: es ∨ ch = some en := by
      intro d hd
      rcases ih _ _ hd with h1 | h1
      · exact Or.inl (List.mem_cons_of_mem _ h1)
      · cases h1; exact Or.inl List.mem_cons_self
    have keep : ∀ d, chooseLoop e es d ch = .ok (some en) → en ∈ a :: es ∨ ch = some en := by
      intro d hd
      rcases ih _ _ hd with h1 | h1
      · exact Or.inl (List.mem_cons_of_mem _ h1)
      · exact Or.inr h1
    split at h
    · exact step _ h
    · split at h
      · split at h
        · cases h
        · split at h
          · exact step _ h
          · exact keep _ h
      · exact keep _ h

/-- node counts: the root, or a node inside the tree -/
def CntAt (lo hi r : Nat) {j : Nat} (x : Item F (j + 1)) (c : Ctx F j) : Prop :=
  (¬ c.isTop → x.Cnt lo hi) ∧ (c.isTop → RootCnt hi r x)

/-- `chooseNode` walks down to a node of the requested level -/
theorem chooseNode_spec {h : Heap F} {root lo hi r : Nat} (e : Entry F) (i : Nat) (fuel : Nat) :
    ∀ (j : Nat) (x : Item F (j + 1)) (c : Ctx F j) (res : Nat), i ≤ j →
    chooseNode h e ((i : Int) + 1) fuel (some x.id) = .ok res →
    x.Rep h → c.Rep h root x.id → (x.ids ++ c.ids).Nodup → x.Good → c.Good →
    x.Fill lo hi → c.Fill lo hi r → CntAt lo hi r x c →
    ∃ (y : Item F (i + 1)) (c' : Ctx F i), y.id = res ∧ y.Rep h ∧ c'.Rep h root y.id ∧
      (y.ids ++ c'.ids).Perm (x.ids ++ c.ids) ∧ (y.objs ++ c'.objs).Perm (x.objs ++ c.objs) ∧
      y.Good ∧ c'.Good ∧ y.Fill lo hi ∧ c'.Fill lo hi r ∧ CntAt lo hi r y c' ∧
      c'.rootLevel = c.rootLevel := by
  induction fuel with
  | zero => intro j x c res _ h0; simp [chooseNode] at h0
  | succ fuel ih =>
    intro j x c res hij h0 hx hc hnd gx gc fx fc cnt
    obtain ⟨⟨par, hv⟩, hch⟩ := id hx
    rw [chooseNode, Heap.deref_some hv] at h0
    simp only [bind, Except.bind] at h0
    by_cases hji : i = j
    · subst hji
      simp only [beq_self_eq_true, Bool.or_true, if_true] at h0
      cases h0
      exact ⟨x, c, rfl, hx, hc, List.Perm.refl _, List.Perm.refl _, gx, gc, fx, fc, cnt, rfl⟩
    · obtain ⟨k, rfl⟩ : ∃ k, j = k + 1 := ⟨j - 1, by omega⟩
      have hcond : (((k + 1 == 0) || ((((k + 1 : Nat) : Int) + 1) == (i : Int) + 1)) = true) = False := by
        simp only [Bool.or_eq_true, beq_iff_eq, eq_iff_iff, iff_false, not_or]
        omega
      rw [if_neg (by rw [hcond]; trivial)] at h0
      cases hcl : chooseLoop e (x.es.map Item.entry) maxFloat64 none with
      | error er => rw [hcl] at h0; simp at h0
      | ok ch =>
        rw [hcl] at h0
        simp only at h0
        cases ch with
        | none =>
          cases fuel with
          | zero => simp [chooseNode] at h0
          | succ f => simp [chooseNode, Heap.deref, bind, Except.bind] at h0
        | some en =>
          rcases chooseLoop_mem _ _ _ _ _ hcl with hm | hm
          swap
          · cases hm
          obtain ⟨p, hp, rfl⟩ := List.mem_map.1 hm
          obtain ⟨pre, post, hes⟩ := List.append_of_mem hp
          have h0' : chooseNode h e ((i : Int) + 1) fuel (some p.2.id) = .ok res := h0
          have hpm : ∀ p' ∈ pre ++ post, p' ∈ x.es := by
            intro p' hp'
            rw [hes]
            rcases List.mem_append.1 hp' with h1 | h1
            · exact List.mem_append_left _ h1
            · exact List.mem_append_right _ (List.mem_cons_of_mem _ h1)
          have pids : (p.2.ids ++ (Ctx.frame x.id pre p.1 post c).ids).Perm (x.ids ++ c.ids) := by
            have e1 : (Ctx.frame x.id pre p.1 post c).ids = (x.id :: (idsL pre ++ idsL post)) ++ c.ids := by
              simp [Ctx.ids, idsL]
            rw [e1, ← List.append_assoc, ids_eq x, hes, idsL_append, idsL_cons]
            refine List.Perm.append_right _ ?_
            refine List.perm_middle.trans (List.Perm.cons _ ?_)
            rw [← List.append_assoc, ← List.append_assoc]
            exact List.Perm.append_right _ List.perm_append_comm
          have pobjs : (p.2.objs ++ (Ctx.frame x.id pre p.1 post c).objs).Perm (x.objs ++ c.objs) := by
            have e1 : (Ctx.frame x.id pre p.1 post c).objs = (objsL pre ++ objsL post) ++ c.objs := by
              simp [Ctx.objs, objsL]
            rw [e1, ← List.append_assoc, objs_eq x, hes, objsL_append, objsL_cons]
            refine List.Perm.append_right _ ?_
            rw [← List.append_assoc, ← List.append_assoc]
            exact List.Perm.append_right _ List.perm_append_comm
          have hlen : x.es.length = pre.length + 1 + post.length := by rw [hes]; simp; omega
          obtain ⟨y, c', y1, y2, y3, y4, y5, y6, y7, y8, y9, y10, y11⟩ :=
            ih k p.2 (Ctx.frame x.id pre p.1 post c) res (by omega) h0' (hch p hp).1
              ⟨by
                intro hr
                have h1 : p.2.id ∈ p.2.ids := by rw [ids_eq]; simp
                have hnd' := pids.nodup_iff.2 hnd
                rcases hc.root_mem with h2 | h2
                · exact (List.nodup_append.1 hnd').2.2 _ h1 x.id (by simp [Ctx.ids]) (by rw [hr, h2])
                · exact (List.nodup_append.1 hnd').2.2 _ h1 root (by simp [Ctx.ids, h2]) hr,
                ⟨par, by
                  rw [hv, hes]
                  simp only [List.map_append, List.map_cons, Item.entry_succ, Option.some.injEq,
                    NodeV.mk.injEq, true_and, and_true]
                  refine ⟨rfl, ?_⟩
                  push_cast; omega⟩,
                fun p' hp' => hch p' (hpm p' hp'), (hch p hp).2, hc⟩
              (pids.nodup_iff.2 hnd) (gx p hp).2 ⟨fun p' hp' => gx p' (hpm p' hp'), gc⟩ (fx p hp).2
              ⟨fun p' hp' => fx p' (hpm p' hp'),
                fun ht => by have := (cnt.2 ht).2 (by omega); omega,
                fun ht => by have := (cnt.1 ht).1; omega,
                by
                  by_cases ht : c.isTop
                  · have := (cnt.2 ht).1; omega
                  · have := (cnt.1 ht).2; omega, fc⟩
              ⟨fun _ => (fx p hp).1, fun ht => absurd ht (by simp [Ctx.isTop])⟩
          exact ⟨y, c', y1, y2, y3, y4.trans pids, y5.trans pobjs, y6, y7, y8, y9, y10, y11⟩

/-- the tree header and the memory describe the ghost tree `X` -/
structure TInv (q : Bool) (lo hi r : Nat) (s : RState F) {K : Nat} (X : Item F (K + 1)) : Prop where
  inv : s.h.Inv q
  root : X.id = s.t.root
  rep : X.Rep s.h
  nd : X.ids.Nodup
  good : X.Good
  fill : X.Fill lo hi
  cnt : RootCnt hi r X
  height : s.t.height = (K : Int) + 1
  lo : LoOk lo hi s.t
  r2 : r ≤ 2

/-- `insert` (rtree.go:280-307) once the node has been chosen -/
def insertAt (grow : Nat → Nat) (s : RState F) (e : Entry F) (leaf : Nat) : Go (RState F) := do
  let h := s.h.append grow leaf e
  let h := h.setChildParent e leaf
  let (_, lv) ← h.deref (some leaf)
  let (h, sp) ← (if (lv.entries.length : Int) > s.t.MaxChildren then do
      let (h, r) ← split grow h leaf s.t.MinChildren
      .ok (h, some r)
    else .ok (h, none) : Go (Heap F × Option Nat))
  let (h, root, splitRoot) ← adjustTree grow s.t (h.nodes.length + 1) h (some leaf) sp
  growRoot s.t h root splitRoot

theorem insert_eq (grow : Nat → Nat) (s : RState F) (e : Entry F) (level : Int) :
    insert grow s e level =
      (chooseNode s.h e level (s.h.nodes.length + 1) (some s.t.root)).bind (insertAt grow s e) := rfl

set_option maxHeartbeats 1000000 in
/-- `insert` of an item (an object, or a node being re-inserted) at a chosen node -/
theorem insertAt_spec {q : Bool} {lo hi r : Nat} (grow : Nat → Nat) (s : RState F) {K i : Nat}
    (y : Item F (i + 1)) (c : Ctx F i) (I : List Nat) (O : List (Spatial F))
    (tinv : s.h.Inv q) (y2 : y.Rep s.h) (y3 : c.Rep s.h s.t.root y.id) (y4 : (y.ids ++ c.ids).Perm I)
    (y5 : (y.objs ++ c.objs).Perm O) (y6 : y.Good) (y7 : c.Good) (y8 : y.Fill lo hi) (y9 : c.Fill lo hi r)
    (y10 : CntAt lo hi r y c) (y11 : c.rootLevel = K) (theight : s.t.height = (K : Int) + 1)
    (hlo : LoOk lo hi s.t) (tr2 : r ≤ 2) (z : Item F i)
    (hz : z.Rep s.h) (gz : z.Good) (fz : z.Fill lo hi) (cz : z.Cnt lo hi)
    (hnd : (I ++ z.ids).Nodup) (hq : i ≠ 0 ∨ q = true) :
    ∃ (s' : RState F) (K' : Nat) (X' : Item F (K' + 1)),
      insertAt grow s (Item.entry (z.box, z)) y.id = .ok s' ∧ TInv q lo hi r s' X' ∧ K ≤ K' ∧
      X'.objs.Perm (z.objs ++ O) ∧ s'.t.size = s.t.size ∧
      s'.t.MinChildren = s.t.MinChildren ∧
      s.h.nodes.length ≤ s'.h.nodes.length ∧
      (∀ n ∈ X'.ids, n ∈ I ++ z.ids ∨ s.h.nodes.length ≤ n) ∧
      (∀ m < s.h.nodes.length, m ∉ I ++ z.ids → s'.h.view m = s.h.view m) ∧
      (K < K' → 2 ≤ X'.es.length) ∧
      (∀ n ∈ I ++ z.ids, n ∈ X'.ids) := by
  -- ids
  have hperm0 : (y.ids ++ c.ids ++ z.ids).Perm (I ++ z.ids) := y4.append_right _
  have hnd0 : (y.ids ++ c.ids ++ z.ids).Nodup := hperm0.nodup_iff.2 hnd
  have hyz : ∀ n ∈ y.ids, n ∉ z.ids := fun n h1 h2 =>
    (List.nodup_append.1 hnd0).2.2 n (List.mem_append_left _ h1) n h2 rfl
  have hcz : ∀ n ∈ c.ids, n ∉ z.ids := fun n h1 h2 =>
    (List.nodup_append.1 hnd0).2.2 n (List.mem_append_right _ h1) n h2 rfl
  have hyc : ∀ n ∈ y.ids, n ∉ c.ids := fun n h1 h2 =>
    (List.nodup_append.1 (List.nodup_append.1 hnd0).1).2.2 n h1 n h2 rfl
  have hyid : y.id ∈ y.ids := by rw [ids_eq]; simp
  have hyes : y.id ∉ idsL y.es := by
    have := (List.nodup_append.1 (List.nodup_append.1 hnd0).1).1
    rw [ids_eq, List.nodup_cons] at this; exact this.1
  have hznd : z.ids.Nodup := (List.nodup_append.1 hnd0).2.1
  obtain ⟨⟨par, hvy⟩, hych⟩ := id y2
  have pr : s.h.Priv y.id := tinv.priv_of_view hvy (by rcases hq with h | h <;> simp [h])
  set e : Entry F := Item.entry (z.box, z) with he
  have hec : e.child = z.child := rfl
  set h1 := s.h.append grow y.id e with hh1
  have hinv1 : h1.Inv q := tinv.append pr grow e
  have hv1 := Heap.view_append tinv.toOk.toBnd pr hvy grow e
  set h2 := h1.setChildParent e y.id with hh2
  have hinv2 : h2.Inv q := hinv1.setChildParent e y.id
  have hlen2 : h2.nodes.length = s.h.nodes.length := by
    rw [hh2, Heap.length_setChildParent, hh1, Heap.length_append]
  set x' : Item F (i + 1) := Item.mk y.id (y.es ++ [(z.box, z)]) with hx'
  have hzy : z.child ≠ some y.id := fun h0 => hyz _ hyid (Item.child_mem_ids h0)
  have hv2 : ∀ m, h2.view m = if m = y.id then some ⟨par, i == 0, (i : Int) + 1, x'.es.map Item.entry⟩
      else if z.child = some m then reparent y.id (s.h.view m) else s.h.view m := by
    intro m
    rw [hh2, Heap.view_setChildParent, hec, hh1, hv1]
    by_cases h0 : m = y.id
    · subst h0
      rw [if_neg hzy, if_pos rfl, if_pos rfl]
      simp [hx', he]
    · rw [if_neg h0, if_neg h0]; rfl
  have hvy2 := hv2 y.id
  rw [if_pos rfl] at hvy2
  have hoth : ∀ m, m ≠ y.id → m ∉ z.ids → h2.view m = s.h.view m := by
    intro m m1 m2
    rw [hv2, if_neg m1, if_neg (fun h0 => m2 (Item.child_mem_ids h0))]
  have hxrep : x'.Rep h2 := by
    refine ⟨⟨par, hvy2⟩, ?_⟩
    intro p hp
    rcases List.mem_append.1 hp with hp | hp
    · have hni : ∀ n ∈ p.2.ids, n ≠ y.id ∧ n ∉ z.ids := by
        intro n hn
        have h1 : n ∈ idsL y.es := mem_idsL.2 ⟨p, hp, hn⟩
        refine ⟨by rintro rfl; exact hyes h1, hyz n (by rw [ids_eq]; exact List.mem_cons_of_mem _ h1)⟩
      exact ⟨(hych p hp).1.congr fun n hn => hoth n (hni n hn).1 (hni n hn).2,
        (hych p hp).2.congr fun n hn =>
          hoth n (hni n (Item.child_mem_ids hn)).1 (hni n (Item.child_mem_ids hn)).2⟩
    · rw [List.mem_singleton.1 hp]
      have hzn : ∀ n ∈ z.ids, n ≠ y.id := by rintro n hn rfl; exact hyz _ hyid hn
      refine ⟨hz.congr' ?_ ?_ hznd, ?_⟩
      · intro n hn
        rw [hv2, if_neg (hzn n (Item.child_mem_ids hn)), if_pos hn]
        exact SameNode_reparent _ _
      · intro n hn hn'
        rw [hv2, if_neg (hzn n hn), if_neg hn']
      · cases i with
        | zero => trivial
        | succ i =>
          obtain ⟨⟨pz, hpz⟩, -⟩ := hz
          refine ⟨⟨some y.id, i == 0, (i : Int) + 1, z.es.map Item.entry⟩, ?_, rfl⟩
          rw [hv2, if_neg (hzn _ (by rw [ids_eq]; simp)), if_pos (by rfl)]
          show reparent y.id (s.h.view z.id) = _
          rw [hpz]; rfl
  have hcrep : c.Rep h2 s.t.root y.id := y3.congr
    (fun n hn => hoth n (by rintro rfl; exact hyc _ hyid hn) (hcz n hn))
    (fun v hv => by
      rw [hvy] at hv; cases hv
      exact ⟨_, hvy2, rfl⟩)
  have pxids : (x'.ids ++ c.ids).Perm (I ++ z.ids) := by
    refine List.Perm.trans ?_ hperm0
    have e1 : x'.ids = y.ids ++ z.ids := by
      rw [ids_eq, hx', Item.mk_id, Item.mk_es, idsL_append, ids_eq y]; simp
    rw [e1, List.append_assoc, List.append_assoc]
    exact List.Perm.append_left _ List.perm_append_comm
  have pxobjs : (x'.objs ++ c.objs).Perm (z.objs ++ O) := by
    have e1 : x'.objs = y.objs ++ z.objs := by
      rw [objs_eq, hx', Item.mk_es, objsL_append, objs_eq y]; simp
    rw [e1, List.append_assoc]
    refine List.Perm.trans ?_ (y5.append_left z.objs)
    rw [← List.append_assoc, ← List.append_assoc]
    exact List.Perm.append_right _ List.perm_append_comm
  have hxnd : (x'.ids ++ c.ids).Nodup := pxids.nodup_iff.2 hnd
  have goodx : ∀ p ∈ x'.es, p.1 = p.2.box ∧ p.2.Good := by
    intro p hp
    rcases List.mem_append.1 hp with hp | hp
    · exact y6 p hp
    · rw [List.mem_singleton.1 hp]; exact ⟨rfl, gz⟩
  have fillx : ∀ p ∈ x'.es, p.2.Cnt lo hi ∧ p.2.Fill lo hi := by
    intro p hp
    rcases List.mem_append.1 hp with hp | hp
    · exact y8 p hp
    · rw [List.mem_singleton.1 hp]; exact ⟨cz, fz⟩
  have hxlen : x'.es.length = y.es.length + 1 := by simp [hx']
  have hylen : y.es.length ≤ hi := by
    by_cases ht : c.isTop
    · exact (y10.2 ht).1
    · exact (y10.1 ht).2
  obtain ⟨hhi2, hmax, hlo'⟩ := id hlo
  -- after the possible split
  have hsplit : ∃ (h3 : Heap F) (x3 : Item F (i + 1)) (y3 : Option (Item F (i + 1))),
      (if (x'.es.length : Int) > s.t.MaxChildren then
        (split grow h2 y.id s.t.MinChildren).bind fun a => .ok (a.1, some a.2)
       else .ok (h2, none)) = .ok (h3, y3.map Item.id) ∧
      x3.id = y.id ∧ h3.Inv q ∧ s.h.nodes.length ≤ h3.nodes.length ∧ x3.Rep h3 ∧ c.Rep h3 s.t.root y.id ∧
      (∀ w ∈ y3, w.Rep h3) ∧ (¬ c.isTop → ∀ w ∈ y3, w.Par h3 c.parent) ∧
      (x3.ids ++ oids y3 ++ c.ids).Nodup ∧ x3.Good ∧ (∀ w ∈ y3, w.Good) ∧ x3.Fill lo hi ∧
      (∀ w ∈ y3, w.Fill lo hi) ∧
      (¬ c.isTop ∨ y3.isSome → x3.Cnt lo hi ∧ ∀ w ∈ y3, w.Cnt lo hi) ∧
      (c.isTop → y3 = none → RootCnt hi r x3) ∧
      (∀ n ∈ x3.ids ++ oids y3 ++ c.ids, n ∈ I ++ z.ids ∨ s.h.nodes.length ≤ n) ∧
      (∀ m < s.h.nodes.length, m ∉ I ++ z.ids →
        h3.view m = s.h.view m ∧ m ∉ x3.ids ++ oids y3 ++ c.ids) ∧
      (x3.objs ++ oobjs y3 ++ c.objs).Perm (z.objs ++ O) ∧
      (∀ n ∈ I ++ z.ids, n ∈ x3.ids ++ oids y3 ++ c.ids) := by
    have hframe2 : ∀ m, m ∉ I ++ z.ids → h2.view m = s.h.view m := by
      intro m hm
      apply hoth m
      · rintro rfl
        exact hm (hperm0.mem_iff.1 (by simp [hyid]))
      · exact fun h0 => hm (List.mem_append_right _ h0)
    by_cases hover : (x'.es.length : Int) > s.t.MaxChildren
    · obtain ⟨h3, les, res, s1, s2, s3, s4, s5, s6, s7, s8, ⟨w1, s9, s9'⟩, ⟨w2, s10, s10'⟩, s11, s12⟩ :=
        splitItem_spec grow hinv2 x' hxrep (List.nodup_append.1 hxnd).1 hvy2 hq s.t.MinChildren (by omega)
      have s1' : split grow h2 y.id s.t.MinChildren = .ok (h3, h2.nodes.length) := s1
      set R := h2.nodes.length with hR
      have hval' : ∀ n ∈ x'.ids ++ c.ids, n < R := by
        intro n hn
        rcases List.mem_append.1 hn with h0 | h0
        · exact hxrep.valid n h0
        · exact hcrep.valid n h0
      have hlr : (idsL les ++ idsL res).Perm (idsL x'.es) := by
        rw [← idsL_append]; exact idsL_perm s4
      have px : (y.id :: (idsL les ++ idsL res)).Perm x'.ids := hlr.cons y.id
      have pp : ((Item.mk y.id les).ids ++ oids (some (Item.mk R res)) ++ c.ids).Perm
          (R :: (x'.ids ++ c.ids)) := by
        show ((y.id :: idsL les) ++ (R :: idsL res) ++ c.ids).Perm _
        have : ((y.id :: idsL les) ++ (R :: idsL res)).Perm (R :: (y.id :: (idsL les ++ idsL res))) :=
          List.perm_middle.trans (List.Perm.refl _)
        exact (this.append_right c.ids).trans ((px.append_right _).cons R)
      have lesx : ∀ p ∈ les, p ∈ x'.es := fun p hp => s4.mem_iff.1 (List.mem_append_left _ hp)
      have resx : ∀ p ∈ res, p ∈ x'.es := fun p hp => s4.mem_iff.1 (List.mem_append_right _ hp)
      have hlen : les.length + res.length = x'.es.length := by
        have := s4.length_eq; simpa using this
      have hl0 : 0 < les.length := List.length_pos_iff.2 s5
      have hr0 : 0 < res.length := List.length_pos_iff.2 s6
      have hmin : lo ≤ les.length ∧ lo ≤ res.length := by
        rcases hlo' with h0 | ⟨h0, h1'⟩
        · omega
        · by_cases hl1 : 1 ≤ s.t.MinChildren
          · have := s12 hl1 (by omega); omega
          · omega
      refine ⟨h3, Item.mk y.id les, some (Item.mk R res), ?_, rfl, s2, by omega, s7, ?_, ?_, ?_, ?_, ?_, ?_, ?_,
        ?_, ?_, ?_, ?_, ?_, ?_, fun n hn => pp.mem_iff.2 (List.mem_cons_of_mem _ (pxids.mem_iff.2 hn))⟩
      · rw [if_pos hover, s1']; rfl
      · exact hcrep.congr (fun n hn => s11 n (Nat.ne_of_lt (hcrep.valid n hn)) (fun h0 =>
            (List.nodup_append.1 hxnd).2.2 n h0 n hn rfl))
          (fun v hv => by
            rw [hvy2] at hv; cases hv
            exact ⟨w1, s9, s9'⟩)
      · rintro w ⟨⟩; exact s8
      · rintro ht w ⟨⟩
        refine ⟨w2, s10, ?_⟩
        rw [s10']
        cases c with
        | top => exact absurd trivial ht
        | frame uid upre ub upost uup =>
          obtain ⟨-, -, -, ⟨vv, hvv, hvvp⟩, -⟩ := hcrep
          rw [hvy2] at hvv
          cases hvv
          exact hvvp
      · rw [pp.nodup_iff, List.nodup_cons]
        exact ⟨fun h0 => Nat.lt_irrefl R (hval' R h0), hxnd⟩
      · exact fun p hp => goodx p (lesx p hp)
      · rintro w ⟨⟩; exact fun p hp => goodx p (resx p hp)
      · exact fun p hp => fillx p (lesx p hp)
      · rintro w ⟨⟩; exact fun p hp => fillx p (resx p hp)
      · intro _
        refine ⟨⟨hmin.1, ?_⟩, ?_⟩
        · simp only [Item.mk_es]; omega
        · rintro w ⟨⟩
          refine ⟨hmin.2, ?_⟩
          simp only [Item.mk_es]; omega
      · intro _ h0; exact absurd h0 (by simp)
      · intro n hn
        rcases List.mem_cons.1 (pp.mem_iff.1 hn) with h1' | h1'
        · right; omega
        · exact Or.inl (pxids.mem_iff.1 h1')
      · intro m hm hm'
        have hmx : m ∉ x'.ids ++ c.ids := fun h0 => hm' (pxids.mem_iff.1 h0)
        have hmR : m ≠ R := by omega
        refine ⟨?_, ?_⟩
        · rw [s11 m hmR (fun h0 => hmx (List.mem_append_left _ h0)), hframe2 m hm']
        · intro h0
          rcases List.mem_cons.1 (pp.mem_iff.1 h0) with h1' | h1'
          · exact hmR h1'
          · exact hmx h1'
      · refine List.Perm.trans ?_ pxobjs
        refine List.Perm.append_right _ ?_
        show (objsL les ++ objsL res).Perm (objsL x'.es)
        rw [← objsL_append]; exact objsL_perm s4
    · refine ⟨h2, x', none, ?_, rfl, hinv2, by omega, hxrep, hcrep, by simp, by simp, by simpa [oids] using hxnd,
        goodx, by simp, fillx, by simp, ?_, ?_, ?_, ?_, ?_,
        fun n hn => by have := pxids.mem_iff.2 hn; simpa [oids] using this⟩
      · rw [if_neg hover]; rfl
      · intro h0
        simp only [Option.isSome_none, Bool.false_eq_true, or_false] at h0
        refine ⟨?_, by simp⟩
        have := (y10.1 h0).1
        refine ⟨?_, ?_⟩ <;> omega
      · intro h0 _
        have := (y10.2 h0).2
        refine ⟨by omega, fun hi0 => ?_⟩
        have := this hi0; omega
      · intro n hn
        exact Or.inl (pxids.mem_iff.1 (by simpa [oids] using hn))
      · intro m hm hm'
        refine ⟨hframe2 m hm', ?_⟩
        intro h0
        exact hm' (pxids.mem_iff.1 (by simpa [oids] using h0))
      · simpa [oobjs] using pxobjs
  obtain ⟨h3, x3, y3o, t1, t2, t3, t4, t5, t6, t7, t8, t9, t10, t11, t12, t13, t14, t15, t16, t17, t18, t19⟩ := hsplit
  have hdepth : c.depth < h3.nodes.length + 1 := by
    have h1 := c.depth_le_ids
    have h2 := length_le_of_nodup (List.nodup_append.1 t9).2.1 (fun n hn => t6.valid n hn)
    omega
  obtain ⟨h4, XX, YY, a1, a2⟩ := adjustTree_spec grow s.t lo hi r hlo c (h3.nodes.length + 1) h3 x3 y3o hdepth
    t3 t5 (by rw [t2]; exact t6) t7 t8 t9 t10 t11 y7 t12 t13 y9 t14 t15
  rw [t2] at a1
  -- unfold insert
  have hins : insertAt grow s e y.id =
      growRoot s.t h4 (some s.t.root) (YY.map Item.id) := by
    unfold insertAt
    simp only [bind, Except.bind]
    rw [← hh1, ← hh2, Heap.deref_some hvy2]
    simp only [List.length_map]
    have t1' := t1
    simp only [Except.bind] at t1'
    rw [t1']
    simp only
    rw [a1]
  have hsub : ∀ n ∈ XX.ids ++ oids YY, n ∈ I ++ z.ids ∨ s.h.nodes.length ≤ n := by
    intro n hn
    rcases a2.sub n hn with h0 | h0
    · exact t16 n h0
    · right; omega
  have hfr : ∀ m < s.h.nodes.length, m ∉ I ++ z.ids → h4.view m = s.h.view m := by
    intro m hm hm'
    rw [a2.frame m (by omega) (t17 m hm hm').2, (t17 m hm hm').1]
  have hsup : ∀ n ∈ I ++ z.ids, n ∈ XX.ids ++ oids YY := fun n hn => a2.sup n (t19 n hn)
  rw [hins]
  cases YY with
  | none =>
    refine ⟨⟨h4, s.t⟩, c.rootLevel, XX, rfl, ?_, by rw [y11], ?_, rfl, rfl, le_trans t4 a2.len, ?_, hfr,
      fun h0 => absurd h0 (by rw [y11]; exact Nat.lt_irrefl _),
      fun n hn => by simpa [oids] using hsup n hn⟩
    · refine ⟨a2.inv, a2.root, a2.rep, ?_, a2.good, a2.fill, a2.cnt rfl, by rw [y11]; exact theight, hlo, tr2⟩
      have := a2.nd
      simpa [oids] using this
    · have := a2.objs
      simp only [oobjs, Option.elim, List.append_nil] at this
      exact this.trans t18
    · intro n hn
      exact hsub n (List.mem_append_left _ hn)
  | some Y =>
    simp only [growRoot, Option.map_some, bind, Except.bind]
    obtain ⟨⟨p1, v1⟩, k1⟩ := id a2.rep
    obtain ⟨⟨p2, v2⟩, k2⟩ := id (a2.repY Y rfl)
    have and1 : (XX.ids ++ Y.ids).Nodup := a2.nd
    rw [a2.root] at v1
    rw [Heap.deref_some v1]
    simp only
    rw [Heap.deref_some v2]
    simp only [Item.computeBoundingBox_es]
    set N := h4.nodes.length with hN
    set h5 := (h4.alloc none false (s.t.height + 1)
      [⟨XX.box, some s.t.root, Spatial.zero⟩, ⟨Y.box, some Y.id, Spatial.zero⟩]).1 with hh5
    have hal : (h4.alloc none false (s.t.height + 1)
      [⟨XX.box, some s.t.root, Spatial.zero⟩, ⟨Y.box, some Y.id, Spatial.zero⟩]) = (h5, N) := rfl
    rw [hal]
    simp only
    have hrx : s.t.root = XX.id := a2.root.symm
    have hne : XX.id ≠ Y.id := by
      intro h0
      exact (List.nodup_append.1 and1).2.2 XX.id (by rw [ids_eq]; simp) XX.id (by rw [ids_eq, h0]; simp) rfl
    have hXlt : ∀ n ∈ XX.ids, n < N := a2.rep.valid
    have hYlt : ∀ n ∈ Y.ids, n < N := (a2.repY Y rfl).valid
    have hinv5 : h5.Inv q := a2.inv.alloc _ _ _ _
    set h6 := (h5.setParent s.t.root (some N)).setParent Y.id (some N) with hh6
    have hv6 : ∀ m, h6.view m = if m = N then
        some ⟨none, false, s.t.height + 1, [⟨XX.box, some s.t.root, Spatial.zero⟩, ⟨Y.box, some Y.id, Spatial.zero⟩]⟩
        else if m = XX.id ∨ m = Y.id then reparent N (h4.view m) else h4.view m := by
      intro m
      have hYN : Y.id ≠ N := Nat.ne_of_lt (hYlt _ (by rw [ids_eq]; simp))
      have hXN : XX.id ≠ N := Nat.ne_of_lt (hXlt _ (by rw [ids_eq]; simp))
      have hv5 := Heap.view_alloc a2.inv.toOk.toBnd none false (s.t.height + 1)
        [⟨XX.box, some s.t.root, Spatial.zero⟩, ⟨Y.box, some Y.id, Spatial.zero⟩]
      rw [hh6, Heap.view_setParent, Heap.view_setParent, Heap.view_setParent, hrx, if_neg (Ne.symm hne)]
      rw [← hh5] at hv5
      by_cases hm1 : m = Y.id
      · subst hm1
        rw [if_pos rfl, if_neg hYN, if_pos (Or.inr rfl), hv5, if_neg hYN]; rfl
      · rw [if_neg hm1]
        by_cases hm2 : m = XX.id
        · subst hm2
          rw [if_pos rfl, if_neg hXN, if_pos (Or.inl rfl), hv5, if_neg hXN]; rfl
        · rw [if_neg hm2, hv5]
          by_cases hm3 : m = N
          · rw [if_pos hm3, if_pos hm3, hrx]
          · rw [if_neg hm3, if_neg hm3, if_neg (by rintro (h0 | h0); exacts [hm2 h0, hm1 h0])]
    have repX : ∀ (W : Item F (c.rootLevel + 1)), W = XX ∨ W = Y → W.Rep h6 ∧ W.Par h6 (some N) := by
      intro W hW
      have hWr : W.Rep h4 := by
        rcases hW with rfl | rfl
        · exact a2.rep
        · exact a2.repY _ rfl
      have hWnd : W.ids.Nodup := by
        rcases hW with rfl | rfl
        · exact (List.nodup_append.1 and1).1
        · exact (List.nodup_append.1 and1).2.1
      have hWid : W.id = XX.id ∨ W.id = Y.id := by rcases hW with rfl | rfl <;> simp
      have hWlt : ∀ n ∈ W.ids, n ≠ N := by
        intro n hn
        rcases hW with rfl | rfl
        · exact Nat.ne_of_lt (hXlt n hn)
        · exact Nat.ne_of_lt (hYlt n hn)
      have hWin : ∀ n ∈ W.ids, n ≠ W.id → ¬ (n = XX.id ∨ n = Y.id) := by
        rintro n hn hnW (rfl | rfl)
        · rcases hW with rfl | rfl
          · exact hnW rfl
          · exact (List.nodup_append.1 and1).2.2 XX.id (by rw [ids_eq]; simp) XX.id hn rfl
        · rcases hW with rfl | rfl
          · exact (List.nodup_append.1 and1).2.2 _ hn _ (by rw [ids_eq]; simp) rfl
          · exact hnW rfl
      have hWm : W.id ∈ W.ids := by rw [ids_eq]; simp
      refine ⟨hWr.congr' ?_ ?_ hWnd, ?_⟩
      · intro n hn
        cases hn
        rw [hv6, if_neg (hWlt _ hWm), if_pos hWid]
        exact SameNode_reparent _ _
      · intro n hn hn'
        rw [hv6, if_neg (hWlt n hn), if_neg (hWin n hn (fun h0 => hn' (by rw [h0]; rfl)))]
      · obtain ⟨⟨pw, hpw⟩, -⟩ := hWr
        refine ⟨{ (⟨pw, c.rootLevel == 0, (c.rootLevel : Int) + 1, W.es.map Item.entry⟩ : NodeV F) with
          parent := some N }, ?_, rfl⟩
        rw [hv6, if_neg (hWlt _ hWm), if_pos hWid, hpw]; rfl
    refine ⟨⟨h6, { s.t with root := N, height := s.t.height + 1 }⟩, c.rootLevel + 1,
      Item.mk N [(XX.box, XX), (Y.box, Y)], rfl, ?_, by omega, ?_, rfl, rfl, ?_, ?_, ?_, fun _ => le_refl 2, fun n hn => by
        rw [ids_eq, Item.mk_id, Item.mk_es, idsL_cons, idsL_cons, idsL_nil, List.append_nil]
        exact List.mem_cons_of_mem _ (hsup n hn)⟩
    · refine ⟨(hinv5.setParent _ _).setParent _ _, rfl, ?_, ?_, ?_, ?_, ?_, ?_, hlo, tr2⟩
      · refine ⟨⟨none, ?_⟩, ?_⟩
        · simp only [Item.mk_id, Item.mk_es]
          rw [hv6, if_pos rfl, theight, ← y11, hrx]
          simp only [Option.some.injEq, NodeV.mk.injEq, true_and]
          refine ⟨rfl, by push_cast; rfl, rfl⟩
        · intro p hp
          simp only [Item.mk_es, List.mem_cons, List.not_mem_nil, or_false] at hp
          rcases hp with rfl | rfl
          · exact repX XX (Or.inl rfl)
          · exact repX Y (Or.inr rfl)
      · rw [ids_eq, Item.mk_id, Item.mk_es, idsL_cons, idsL_cons, idsL_nil, List.append_nil, List.nodup_cons]
        refine ⟨?_, and1⟩
        intro h0
        rcases List.mem_append.1 h0 with h0 | h0
        · exact Nat.lt_irrefl _ (hXlt _ h0)
        · exact Nat.lt_irrefl _ (hYlt _ h0)
      · intro p hp
        simp only [Item.mk_es, List.mem_cons, List.not_mem_nil, or_false] at hp
        rcases hp with rfl | rfl
        · exact ⟨rfl, a2.good⟩
        · exact ⟨rfl, a2.goodY _ rfl⟩
      · intro p hp
        simp only [Item.mk_es, List.mem_cons, List.not_mem_nil, or_false] at hp
        rcases hp with rfl | rfl
        · exact ⟨(a2.cntY Y rfl).1, a2.fill⟩
        · exact ⟨(a2.cntY _ rfl).2, a2.fillY _ rfl⟩
      · exact ⟨by simpa using hhi2, fun _ => by simpa using tr2⟩
      · show s.t.height + 1 = _
        rw [theight, y11]; push_cast; rfl
    · rw [objs_eq, Item.mk_es, objsL_cons, objsL_cons, objsL_nil, List.append_nil]
      exact a2.objs.trans t18
    · have : h6.nodes.length = N + 1 := by
        rw [hh6, Heap.length_setParent, Heap.length_setParent, hh5, Heap.length_alloc]
      have h1 := a2.len
      show s.h.nodes.length ≤ h6.nodes.length
      omega
    · intro n hn
      rw [ids_eq, Item.mk_id, Item.mk_es, idsL_cons, idsL_cons, idsL_nil, List.append_nil] at hn
      rcases List.mem_cons.1 hn with rfl | hn
      · right; exact le_trans t4 a2.len
      · exact hsub n hn
    · intro m hm hm'
      have hmN : m ≠ N := by have := a2.len; omega
      have hmo : ¬ (m = XX.id ∨ m = Y.id) := by
        intro h0
        have : m ∈ XX.ids ++ oids (some Y) := by
          rcases h0 with rfl | rfl
          · exact List.mem_append_left _ (by rw [ids_eq]; simp)
          · refine List.mem_append_right _ ?_
            show _ ∈ Y.ids
            rw [ids_eq]; simp
        rcases hsub m this with h1 | h1
        · exact hm' h1
        · omega
      show h6.view m = _
      rw [hv6, if_neg hmN, if_neg hmo, hfr m hm hm']

set_option maxHeartbeats 1000000 in
/-- `insert` of an item (an object, or a node being re-inserted) -/
theorem insert_spec {q : Bool} {lo hi r : Nat} (grow : Nat → Nat) (s : RState F) {K : Nat}
    (X : Item F (K + 1)) (ti : TInv q lo hi r s X) {i : Nat} (hiK : i ≤ K) (z : Item F i)
    (hz : z.Rep s.h) (gz : z.Good) (fz : z.Fill lo hi) (cz : z.Cnt lo hi)
    (hnd : (X.ids ++ z.ids).Nodup) (hq : i ≠ 0 ∨ q = true) {res : Nat}
    (hch : chooseNode s.h (Item.entry (z.box, z)) ((i : Int) + 1) (s.h.nodes.length + 1) (some s.t.root)
      = .ok res) :
    ∃ (s' : RState F) (K' : Nat) (X' : Item F (K' + 1)),
      insert grow s (Item.entry (z.box, z)) ((i : Int) + 1) = .ok s' ∧ TInv q lo hi r s' X' ∧ K ≤ K' ∧
      X'.objs.Perm (z.objs ++ X.objs) ∧ s'.t.size = s.t.size ∧
      s'.t.MinChildren = s.t.MinChildren ∧
      s.h.nodes.length ≤ s'.h.nodes.length ∧
      (∀ n ∈ X'.ids, n ∈ X.ids ++ z.ids ∨ s.h.nodes.length ≤ n) ∧
      (∀ m < s.h.nodes.length, m ∉ X.ids ++ z.ids → s'.h.view m = s.h.view m) ∧
      (K < K' → 2 ≤ X'.es.length) := by
  have hroot := ti.root
  rw [← hroot] at hch
  obtain ⟨y, c, y1, y2, y3, y4, y5, y6, y7, y8, y9, y10, y11⟩ :=
    chooseNode_spec (root := s.t.root) (lo := lo) (hi := hi) (r := r) _ i _ K X Ctx.top res hiK hch ti.rep
      (show X.id = s.t.root from hroot) (by simpa [Ctx.ids] using ti.nd) ti.good trivial ti.fill trivial
      ⟨fun h0 => absurd trivial h0, fun _ => ti.cnt⟩
  simp only [Ctx.ids, Ctx.objs, List.append_nil, Ctx.rootLevel] at y4 y5 y11
  subst y1
  rw [insert_eq, ← hroot, hch]
  obtain ⟨s', K', X', i1, i2, i3, i4, i5, i6, i7, i8, i9, i10, -⟩ := insertAt_spec grow s y c X.ids X.objs ti.inv y2 y3 y4
    y5 y6 y7 y8 y9 y10 y11 ti.height ti.lo ti.r2 z hz gz fz cz hnd hq
  exact ⟨s', K', X', i1, i2, i3, i4, i5, i6, i7, i8, i9, i10⟩

end GoGeo
