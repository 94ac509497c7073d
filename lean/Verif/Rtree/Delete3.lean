import Verif.Rtree.Delete2

/-!
# `DeleteWithComparator`
-/

set_option linter.unusedSectionVars false

namespace GoGeo
open GoFloat Spec
variable {F : Type} [GoFloat F]

/-- the part of `DeleteWithComparator` after `condenseTree` -/
def finishDelete (s : RState F) : Go (RState F × Bool) := do
  let (_, rv) ← s.h.deref (some s.t.root)
  let root ← (if !rv.leaf && rv.entries.length == 1 then
      match rv.entries with
      | e :: _ => match e.child with
        | some c => .ok c
        | none => .error .nilDeref
      | [] => .error .index
    else .ok s.t.root : Go Nat)
  let (_, rv) ← s.h.deref (some root)
  .ok (⟨s.h, { s.t with size := s.t.size - 1, root := root, height := rv.level }⟩, true)

theorem DeleteWithComparator_eq (grow : Nat → Nat) (s : RState F) (obj : Spatial F) (cond : Cond2 F) :
    DeleteWithComparator grow s obj cond =
      (findLeaf s.h obj cond (s.h.nodes.length + 1) (some s.t.root)).bind fun r =>
        match r with
        | none => .ok (s, false)
        | some n => (s.h.deref (some n)).bind fun v => (lastMatch cond obj v.2.entries 0 none).bind fun k =>
          match k with
          | none => .ok (s, false)
          | some ind => (condenseTree grow ⟨s.h.removeAt n ind, s.t⟩ n).bind finishDelete := rfl

theorem finishDelete_spec {q : Bool} {lo hi r : Nat} (hr : r ≤ lo) {s : RState F} {K : Nat} {X : Item F (K + 1)}
    (ti : TInv q lo hi r s X) :
    ∃ (s' : RState F) (K' : Nat) (X' : Item F (K' + 1)), finishDelete s = .ok (s', true) ∧
      TInv q lo hi r s' X' ∧ X'.objs = X.objs ∧ s'.t.size = s.t.size - 1 ∧
      s'.t.MinChildren = s.t.MinChildren ∧ K' ≤ K ∧
      (K' = K → K ≠ 0 → X'.es.length ≠ 1) ∧ (K' ≠ K → X.es.length = 1 ∧ K' + 1 = K) := by
  obtain ⟨⟨par, hv⟩, hch⟩ := id ti.rep
  rw [ti.root] at hv
  unfold finishDelete
  rw [Heap.deref_some hv]
  by_cases hc : K ≠ 0 ∧ X.es.length = 1
  · obtain ⟨hK, hlen⟩ := hc
    obtain ⟨k, rfl⟩ : ∃ k, K = k + 1 := ⟨K - 1, by omega⟩
    obtain ⟨p, hes⟩ := List.length_eq_one_iff.1 hlen
    have hp : p ∈ X.es := by rw [hes]; simp
    obtain ⟨⟨par', hv'⟩, -⟩ := id (hch p hp).1
    simp only [bind, Except.bind, hes, List.map_cons, List.map_nil, List.length_singleton]
    have hb : ((k + 1 == 0)) = false := by simp
    simp only [hb, Bool.not_false, beq_self_eq_true, Bool.and_self, if_true, Item.entry_child, Item.child_succ]
    rw [Heap.deref_some hv']
    have gp := ti.good p hp
    have fp := ti.fill p hp
    refine ⟨_, k, p.2, rfl, ⟨ti.inv, rfl, (hch p hp).1, ?_, gp.2, fp.2, ?_, rfl, ti.lo, ti.r2⟩, ?_, rfl, rfl,
      by omega, by omega, fun _ => ⟨by simp, rfl⟩⟩
    · have h0 := ti.nd
      rw [ids_eq, List.nodup_cons] at h0
      exact idsL_nodup_of_mem h0.2 hp
    · obtain ⟨h1, h2⟩ := fp.1
      exact ⟨h2, fun _ => by omega⟩
    · rw [objs_eq X, hes]; simp [objsL]
  · have hcond : (!(K == 0) && (X.es.map Item.entry).length == 1) = false := by
      rw [List.length_map]
      by_cases hK : K = 0
      · simp [hK]
      · have : X.es.length ≠ 1 := fun h => hc ⟨hK, h⟩
        simp [this]
    simp only [bind, Except.bind]
    rw [if_neg (by rw [hcond]; simp)]
    simp only
    rw [Heap.deref_some hv]
    exact ⟨_, K, X, rfl, ⟨ti.inv, ti.root, ti.rep, ti.nd, ti.good, ti.fill, ti.cnt, rfl, ti.lo, ti.r2⟩, rfl, rfl,
      rfl, le_refl _, fun _ hK h1 => hc ⟨hK, h1⟩,
      fun h0 => absurd rfl h0⟩

/-- removing entry `k` of a leaf and condensing, before the re-insertions -/
theorem condense_leaf {q : Bool} {lo hi r r' : Nat} (hlo : lo ≤ 1) (hr' : r' + 1 ≤ r ∨ r' = 0) (hr2 : r' ≤ 2)
    {s : RState F} {K : Nat} {X : Item F (K + 1)} (ti : TInv q lo hi r s X)
    (hlm : (lo : Int) ≤ s.t.MinChildren ∨ lo = 0)
    {y : Item F 1} {c : Ctx F 0} (f : Focus s.h s.t.root lo hi r y c)
    (pid : (y.ids ++ c.ids).Perm X.ids) (pob : (y.objs ++ c.objs).Perm X.objs) (hcK : c.rootLevel = K)
    {k : Nat} {p : Box F × Item F 0} (hk : y.es[k]? = some p) :
    ∃ (h' : Heap F) (X1 : Item F (K + 1)) (orph : List (Orphan F)),
      condenseLoop s.t ((s.h.removeAt y.id k).nodes.length + 1) (s.h.removeAt y.id k) (some y.id) []
        = .ok (h', orph.map fun o => o.2.id) ∧
      TInv q lo hi r' ⟨h', s.t⟩ X1 ∧ (∀ o ∈ orph, OrphOk lo hi h' K o) ∧ (X1.ids ++ orIds orph).Nodup ∧
      X.objs.Perm ((p.2 : Spatial F) :: (X1.objs ++ orObjs orph)) := by
  subst hcK
  obtain ⟨⟨par, hv⟩, hch⟩ := id f.rep
  have hkl : k < y.es.length := (List.getElem?_eq_some_iff.1 hk).1
  have hkl' : k < (y.es.map Item.entry).length := by rw [List.length_map]; exact hkl
  set h1 := s.h.removeAt y.id k with hh1
  have hinv1 : h1.Inv q := ti.inv.removeAt hv hkl'
  have hv1 := Heap.view_removeAt ti.inv.toOk hv hkl'
  rw [← hh1] at hv1
  have hlen1 : h1.nodes.length = s.h.nodes.length := Heap.length_removeAt _ _ _
  set w : Item F 1 := Item.mk y.id (y.es.eraseIdx k) with hw
  have hoth : ∀ m, m ≠ y.id → h1.view m = s.h.view m := fun m hm => by rw [hv1, if_neg hm]
  have hmem : ∀ p ∈ y.es.eraseIdx k, p ∈ y.es := fun p hp => List.mem_of_mem_eraseIdx hp
  have hwrep : w.Rep h1 := by
    refine ⟨⟨par, ?_⟩, fun p hp => ⟨trivial, trivial⟩⟩
    show h1.view y.id = _
    rw [hv1, if_pos rfl]
    have : (y.es.map (Item.entry (F := F))).eraseIdx k = (y.es.eraseIdx k).map Item.entry :=
      List.eraseIdx_map _ _ _
    rw [this]
    rfl
  have idsl0 : ∀ l : List (Box F × Item F 0), idsL l = [] := by
    intro l; unfold idsL; rw [List.flatMap_eq_nil_iff]; intro p _; rfl
  have wids : w.ids = y.ids := by rw [ids_eq, ids_eq, idsl0, idsl0]; rfl
  have hnd := f.nd
  have hyc : y.id ∉ c.ids := fun h0 =>
    (List.nodup_append.1 hnd).2.2 y.id (by rw [ids_eq]; simp) y.id h0 rfl
  have hcrep : c.Rep h1 s.t.root w.id := f.crep.congr (fun n hn => hoth n (by rintro rfl; exact hyc hn))
    (fun v hv' => by
      have hv'' : s.h.view y.id = some v := hv'
      rw [hv] at hv''
      cases hv''
      exact ⟨_, (hv1 _).trans (if_pos rfl), rfl⟩)
  have wlen : w.es.length = y.es.length - 1 := by
    rw [hw, Item.mk_es, List.length_eraseIdx, if_pos hkl]
  have ycnt : y.es.length ≤ hi := by
    by_cases ht : c.isTop
    · exact (f.cnt.2 ht).1
    · exact (f.cnt.1 ht).2
  have wobjs : y.objs.Perm ((p.2 : Spatial F) :: w.objs) := by
    rw [objs_eq, objs_eq, hw, Item.mk_es]
    obtain ⟨hlt, he⟩ := List.getElem?_eq_some_iff.1 hk
    have e1 : y.es.Perm (y.es[k] :: y.es.eraseIdx k) := (List.getElem_cons_eraseIdx_perm hlt).symm
    rw [he] at e1
    have e2 : (objsL y.es).Perm (objsL (p :: y.es.eraseIdx k)) := by
      unfold objsL
      exact List.Perm.flatMap_right _ e1
    refine e2.trans ?_
    rw [objsL_cons]
    exact List.Perm.refl _
  have hdep : c.depth < h1.nodes.length + 1 := by
    have h2 := c.depth_le_ids
    have h3 : (y.ids ++ c.ids).length ≤ s.h.nodes.length :=
      length_le_of_nodup hnd (fun n hn => ti.rep.valid n (pid.mem_iff.1 hn))
    rw [List.length_append] at h3
    omega
  obtain ⟨h', X1, orph, e1, P, T1, T2⟩ := condenseLoop_spec s.t lo hi r hlo hlm c (h1.nodes.length + 1) h1 w []
    hdep hinv1 hwrep hcrep (by rw [wids]; exact hnd) (fun p hp => f.good p (hmem p hp)) f.cgood
    (fun p hp => f.fill p (hmem p hp)) f.cfill (by omega)
  refine ⟨h', X1, orph, e1, ⟨P.inv, P.root, P.rep, (List.nodup_append.1 P.nd).1, P.good, P.fill,
    ⟨P.cnt, ?_⟩, ti.height, ti.lo, hr2⟩, P.orph, P.nd, ?_⟩
  · intro hK
    have ht : ¬ c.isTop := by
      intro ht
      apply hK
      cases c with
      | top => rfl
      | frame => exact ht.elim
    have := T2 ht
    omega
  · refine pob.symm.trans ?_
    refine (wobjs.append_right _).trans ?_
    exact List.Perm.cons _ P.objs.symm

/-- the effect of a deletion that does not panic -/
theorem Delete_spec [FloatOrd F] {q : Bool} {lo hi r r' : Nat} (hlo : lo ≤ 1) (hr' : r' + 1 ≤ r ∨ r' = 0)
    (hrl : r' ≤ lo) (grow : Nat → Nat) {s : RState F} {K : Nat} {X : Item F (K + 1)} (ti : TInv q lo hi r s X)
    (hlm : (lo : Int) ≤ s.t.MinChildren ∨ lo = 0) (obj : Spatial F) (cmp : Cond2 F) {s' : RState F} {b : Bool}
    (h : DeleteWithComparator grow s obj cmp = .ok (s', b)) :
    (b = false → s' = s ∧ ∀ o ∈ X.objs, ¬ Findable obj cmp o) ∧
    (b = true → ∃ (K' : Nat) (X' : Item F (K' + 1)) (o : Spatial F), TInv q lo hi r' s' X' ∧
      cmp o obj = .ok true ∧ X.objs.Perm (o :: X'.objs) ∧ s'.t.size = s.t.size - 1 ∧
      s'.t.MinChildren = s.t.MinChildren ∧
      (K ≤ 1 → r' = 1 → TInv q lo hi 2 s' X')) := by
  rw [DeleteWithComparator_eq] at h
  cases hfl : findLeaf s.h obj cmp (s.h.nodes.length + 1) (some s.t.root) with
  | error e => rw [hfl] at h; cases h
  | ok res =>
    rw [hfl] at h
    simp only [Except.bind] at h
    have hroot := ti.root
    rw [← hroot] at hfl
    obtain ⟨F1, F2⟩ := findLeaf_spec (root := s.t.root) (lo := lo) (hi := hi) (r := r) obj cmp _ K X Ctx.top res
      ⟨ti.rep, hroot, by simpa [Ctx.ids] using ti.nd, ti.good, trivial, ti.fill, trivial,
        ⟨fun h0 => absurd trivial h0, fun _ => ti.cnt⟩⟩ hfl
    cases res with
    | none =>
      cases h
      refine ⟨fun _ => ⟨rfl, fun o ho hf => ?_⟩, fun h0 => by cases h0⟩
      obtain ⟨n, hn, -⟩ := F2 ⟨o, ho, hf⟩
      cases hn
    | some n =>
      obtain ⟨⟨y, c, y1, y2, y3, y4, y5⟩, -⟩ := F1 n rfl
      subst y1
      simp only [Ctx.ids, Ctx.objs, List.append_nil, Ctx.rootLevel] at y3 y4 y5
      obtain ⟨⟨par, hv⟩, hch⟩ := id y2.rep
      simp only at h
      rw [Heap.deref_some hv] at h
      simp only at h
      cases hlm' : lastMatch cmp obj (y.es.map Item.entry) 0 none with
      | error e => rw [hlm'] at h; cases h
      | ok kk =>
        rw [hlm'] at h
        simp only at h
        rcases lastMatch_spec _ _ _ _ hlm' with ⟨rfl, hall⟩ | ⟨k, e, rfl, hk, hcm⟩
        · cases h
          refine ⟨fun _ => ⟨rfl, fun o ho hf => ?_⟩, fun h0 => by cases h0⟩
          obtain ⟨n, hn, v, e, hv', he, hm⟩ := F2 ⟨o, ho, hf⟩
          cases hn
          rw [hv] at hv'; cases hv'
          rw [hall e he] at hm
          cases hm
        · rw [Nat.zero_add] at h
          simp only at h
          rw [List.getElem?_map, Option.map_eq_some_iff] at hk
          obtain ⟨p, hk, rfl⟩ := hk
          obtain ⟨h', X1, orph, c1, c2, c3, c4, c5⟩ := condense_leaf hlo hr' (by omega : r' ≤ 2) ti hlm y2 y3 y4 y5 hk
          have hct : condenseTree grow ⟨s.h.removeAt y.id k, s.t⟩ y.id =
              reinsert grow (orph.map fun o => o.2.id) ⟨h', s.t⟩ := by
            unfold condenseTree
            simp only [c1, bind, Except.bind]
          rw [hct] at h
          cases hre : reinsert grow (orph.map fun o => o.2.id) ⟨h', s.t⟩ with
          | error e => rw [hre] at h; cases h
          | ok s2 =>
            rw [hre] at h
            obtain ⟨K2, X2, t2, k2, p2, z2, m2, l2⟩ := reinsert_spec grow orph _ _ K X1 s2 c2 c3 c4 hre
            obtain ⟨s3, K3, X3, g1, g2, g3, g4, g5, g6, g7, g8⟩ := finishDelete_spec hrl t2
            simp only at h
            rw [g1] at h
            cases h
            refine ⟨(fun h0 => nomatch h0), fun _ => ⟨K3, X3, p.2, g2, hcm, ?_, ?_, ?_, ?_⟩⟩
            rotate_left 3
            · intro hK1 hr1
              refine ⟨g2.inv, g2.root, g2.rep, g2.nd, g2.good, g2.fill, ⟨g2.cnt.1, fun h0 => ?_⟩, g2.height, g2.lo,
                le_refl 2⟩
              have h1 := g2.cnt.2 h0
              by_cases hKK : K3 = K2
              · have := g7 hKK (by omega)
                omega
              · obtain ⟨u1, u2⟩ := g8 hKK
                by_cases hlt : K < K2
                · have := l2 hlt
                  omega
                · omega
            · rw [g3]
              exact c5.trans (List.Perm.cons _ p2.symm)
            · rw [g4, z2]
            · rw [g5, m2]

/-! ## totality -/

section
variable {V : Type} [Field V] [LinearOrder V] [IsStrictOrderedRing V] [FloatVal F V]
include V

theorem reinsert_total {q : Bool} {lo hi : Nat} (hl1 : 1 ≤ lo) (grow : Nat → Nat) (orph : List (Orphan F)) :
    ∀ (r : Nat) (s : RState F) (K : Nat) (X : Item F (K + 1)), 1 ≤ r → TInv q lo hi r s X →
    (∀ o ∈ orph, OrphOk lo hi s.h K o) → (X.ids ++ orIds orph).Nodup →
    (∀ o ∈ X.objs, CoordsOk o.Geom) → (∀ o ∈ orObjs orph, CoordsOk o.Geom) →
    ∃ s', reinsert grow (orph.map fun o => o.2.id) s = .ok s' := by
  induction orph with
  | nil => intro r s K X _ _ _ _ _ _; exact ⟨s, rfl⟩
  | cons o orph ih =>
    intro r s K X hr1 ti hor hnd hX hO
    obtain ⟨i, z⟩ := o
    have oz := hor ⟨i, z⟩ (by simp)
    rw [List.map_cons, reinsert]
    obtain ⟨⟨par, hv⟩, -⟩ := id oz.rep
    rw [Heap.deref_some hv]
    simp only [bind, Except.bind, Item.computeBoundingBox_es]
    have eI : orIds (⟨i, z⟩ :: orph : List (Orphan F)) = z.ids ++ orIds orph := by simp [orIds]
    have eO : orObjs (⟨i, z⟩ :: orph : List (Orphan F)) = z.objs ++ orObjs orph := by simp [orObjs]
    rw [eI] at hnd
    rw [eO] at hO
    have hlen : X.ids.length ≤ s.h.nodes.length := length_le_of_nodup ti.nd ti.rep.valid
    have hzb : BBox z.box := (Item.box_bounded z oz.good (fun o ho => hO o (List.mem_append_left _ ho)))
    obtain ⟨res, hc⟩ := chooseNode_total hl1 (⟨z.box, some z.id, Spatial.zero⟩ : Entry F) hzb
      ((i : Int) + 1 + 1) (s.h.nodes.length + 1) K X (by omega) ti.rep ti.good ti.fill
      (fun hj h0 => by have := ti.cnt.2 (by omega); rw [h0] at this; simp at this; omega) hX
    rw [ti.root] at hc
    have hnd1 : (X.ids ++ z.ids).Nodup := by
      rw [← List.append_assoc] at hnd; exact (List.nodup_append.1 hnd).1
    have hlv : (((i + 1 : Nat) : Int) + 1) = (i : Int) + 1 + 1 := by push_cast; rfl
    obtain ⟨s1, K1, X1, g1, g2, g3, g4, g5, g6, g7, g8, g9, g10⟩ := insert_spec grow s X ti (i := i + 1)
      oz.lvl z oz.rep oz.good oz.fill oz.cnt hnd1 (Or.inl (by omega)) (by rw [hlv]; exact hc)
    rw [hlv] at g1
    have g1' : insert grow s ⟨z.box, some z.id, Spatial.zero⟩ ((i : Int) + 1 + 1) = .ok s1 := g1
    rw [g1']
    simp only
    have hdis : ∀ n ∈ orIds orph, n ∉ X.ids ++ z.ids := by
      intro n h1 h2
      rw [← List.append_assoc] at hnd
      exact (List.nodup_append.1 hnd).2.2 n h2 n h1 rfl
    have hval : ∀ n ∈ orIds orph, n < s.h.nodes.length := by
      intro n hn
      obtain ⟨o', ho', hn'⟩ := List.mem_flatMap.1 hn
      exact (hor o' (by simp [ho'])).rep.valid n hn'
    refine ih r s1 K1 X1 hr1 g2 ?_ ?_ ?_ (fun o ho => hO o (List.mem_append_right _ ho))
    · intro o' ho'
      have h0 := hor o' (by simp [ho'])
      refine ⟨h0.rep.congr fun n hn => ?_, h0.good, h0.fill, h0.cnt, le_trans h0.lvl g3⟩
      have hn' : n ∈ orIds orph := List.mem_flatMap.2 ⟨o', ho', hn⟩
      exact g9 n (hval n hn') (hdis n hn')
    · rw [List.nodup_append]
      refine ⟨g2.nd, ?_, ?_⟩
      · rw [← List.append_assoc] at hnd; exact (List.nodup_append.1 hnd).2.1
      · rintro a ha b hb rfl
        rcases g8 a ha with h0 | h0
        · exact hdis a hb h0
        · have := hval a hb; omega
    · intro o ho
      rcases List.mem_append.1 (g4.mem_iff.1 ho) with h0 | h0
      · exact hO o (List.mem_append_left _ h0)
      · exact hX o h0

/-- a deletion completes when the root is a leaf or has two children -/
theorem Delete_total {q : Bool} {hi : Nat} (grow : Nat → Nat) {s : RState F} {K : Nat} {X : Item F (K + 1)}
    (ti : TInv q 1 hi 2 s X) (hlm : 1 ≤ s.t.MinChildren) (hX : ∀ o ∈ X.objs, CoordsOk o.Geom)
    (obj : Spatial F) (cmp : Cond2 F) (hcm : ∀ o ∈ X.objs, ∃ b, cmp o obj = .ok b) :
    ∃ s' b, DeleteWithComparator grow s obj cmp = .ok (s', b) := by
  rw [DeleteWithComparator_eq]
  have hlen : X.ids.length ≤ s.h.nodes.length := length_le_of_nodup ti.nd ti.rep.valid
  obtain ⟨res, hfl, -⟩ := findLeaf_total obj cmp (s.h.nodes.length + 1) K X (by omega) ti.rep hcm
  have hroot := ti.root
  obtain ⟨F1, F2⟩ := findLeaf_spec (root := s.t.root) (lo := 1) (hi := hi) (r := 2) obj cmp _ K X Ctx.top res
    ⟨ti.rep, hroot, by simpa [Ctx.ids] using ti.nd, ti.good, trivial, ti.fill, trivial,
      ⟨fun h0 => absurd trivial h0, fun _ => ti.cnt⟩⟩ hfl
  rw [hroot] at hfl
  rw [hfl]
  simp only [Except.bind]
  cases res with
  | none => exact ⟨_, _, rfl⟩
  | some n =>
    obtain ⟨⟨y, c, y1, y2, y3, y4, y5⟩, -⟩ := F1 n rfl
    subst y1
    simp only [Ctx.ids, Ctx.objs, List.append_nil, Ctx.rootLevel] at y3 y4 y5
    obtain ⟨⟨par, hv⟩, hch⟩ := id y2.rep
    simp only
    rw [Heap.deref_some hv]
    simp only
    obtain ⟨kk, hlm'⟩ := lastMatch_total (obj := obj) (cmp := cmp) (y.es.map Item.entry) (by
      intro e he
      obtain ⟨p, hp, rfl⟩ := List.mem_map.1 he
      refine hcm _ (y4.mem_iff.1 (List.mem_append_left _ ?_))
      rw [objs_eq]
      exact List.mem_flatMap.2 ⟨p, hp, List.mem_singleton.2 rfl⟩) 0 none
    rw [hlm']
    simp only
    rcases lastMatch_spec _ _ _ _ hlm' with ⟨rfl, hall⟩ | ⟨k, e, rfl, hk, hcm'⟩
    · exact ⟨_, _, rfl⟩
    · rw [Nat.zero_add]
      simp only
      rw [List.getElem?_map, Option.map_eq_some_iff] at hk
      obtain ⟨p, hk, rfl⟩ := hk
      obtain ⟨h', X1, orph, c1, c2, c3, c4, c5⟩ := condense_leaf (r' := 1) (le_refl 1) (Or.inl (le_refl 2))
        (by omega) ti (Or.inl hlm) y2 y3 y4 y5 hk
      have hct : condenseTree grow ⟨s.h.removeAt y.id k, s.t⟩ y.id =
          reinsert grow (orph.map fun o => o.2.id) ⟨h', s.t⟩ := by
        unfold condenseTree
        simp only [c1, bind, Except.bind]
      rw [hct]
      have hob : ∀ o ∈ X1.objs ++ orObjs orph, CoordsOk o.Geom :=
        fun o ho => hX o (c5.mem_iff.2 (List.mem_cons_of_mem _ ho))
      obtain ⟨s2, hre⟩ := reinsert_total (le_refl 1) grow orph 1 _ K X1 (le_refl 1) c2 c3 c4
        (fun o ho => hob o (List.mem_append_left _ ho)) (fun o ho => hob o (List.mem_append_right _ ho))
      rw [hre]
      simp only
      obtain ⟨K2, X2, t2, -⟩ := reinsert_spec grow orph _ _ K X1 s2 c2 c3 c4 hre
      obtain ⟨s3, K3, X3, g1, -⟩ := finishDelete_spec (le_refl 1) t2
      exact ⟨_, _, g1⟩

end

end GoGeo
