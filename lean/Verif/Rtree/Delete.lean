import Verif.Rtree.Shape

/-!
# Deletion
-/

set_option linter.unusedSectionVars false

namespace GoGeo
open GoFloat Spec
variable {F : Type} [GoFloat F]

/-- a node cut out of the tree -/
abbrev Orphan (F : Type) := Σ i : Nat, Item F (i + 1)

def orIds (l : List (Orphan F)) : List Nat := l.flatMap fun o => o.2.ids
def orObjs (l : List (Orphan F)) : List (Spatial F) := l.flatMap fun o => o.2.objs

structure OrphOk (lo hi : Nat) (h : Heap F) (K : Nat) (o : Orphan F) : Prop where
  rep : o.2.Rep h
  good : o.2.Good
  fill : o.2.Fill lo hi
  cnt : o.2.Cnt lo hi
  lvl : o.1 + 1 ≤ K

structure CondPost (q : Bool) (lo hi : Nat) (h h' : Heap F) (root : Nat) {K : Nat} (X : Item F (K + 1))
    (orph : List (Orphan F)) (oldIds : List Nat) (oldObjs : List (Spatial F)) : Prop where
  inv : h'.Inv q
  len : h'.nodes.length = h.nodes.length
  root : X.id = root
  rep : X.Rep h'
  nd : (X.ids ++ orIds orph).Nodup
  sub : ∀ n ∈ X.ids ++ orIds orph, n ∈ oldIds
  frame : ∀ m, m ∉ oldIds → h'.view m = h.view m
  good : X.Good
  objs : (X.objs ++ orObjs orph).Perm oldObjs
  fill : X.Fill lo hi
  cnt : X.es.length ≤ hi
  orph : ∀ o ∈ orph, OrphOk lo hi h' K o

theorem orIds_append (a b : List (Orphan F)) : orIds (a ++ b) = orIds a ++ orIds b := by simp [orIds]
theorem orObjs_append (a b : List (Orphan F)) : orObjs (a ++ b) = orObjs a ++ orObjs b := by simp [orObjs]

theorem Ctx.level_le {j : Nat} (c : Ctx F j) : j ≤ c.rootLevel := by
  induction c with
  | top => exact le_refl _
  | frame id pre b post up ih => simp only [Ctx.rootLevel]; omega

theorem filter_hole {pre post : List (Entry F)} {e : Entry F} {n : Nat}
    (h1 : ∀ a ∈ pre, a.child ≠ some n) (h2 : e.child = some n) (h3 : ∀ a ∈ post, a.child ≠ some n) :
    (pre ++ e :: post).filter (fun e => e.child != some n) = pre ++ post := by
  rw [List.filter_append, List.filter_cons]
  have e1 : pre.filter (fun e => e.child != some n) = pre := List.filter_eq_self.2 (by simpa using h1)
  have e2 : post.filter (fun e => e.child != some n) = post := List.filter_eq_self.2 (by simpa using h3)
  rw [e1, e2]
  simp [h2]

theorem modify_hole {α : Type} (pre post : List α) (e : α) (f : α → α) :
    (pre ++ e :: post).modify pre.length f = pre ++ f e :: post := by
  induction pre with
  | nil => simp
  | cons a pre ih => simpa using ih

set_option maxHeartbeats 1000000 in
theorem condenseLoop_spec {q : Bool} (t : Rtree) (lo hi r : Nat) (hlo : lo ≤ 1)
    (hlm : (lo : Int) ≤ t.MinChildren ∨ lo = 0) {j : Nat} (c : Ctx F j) :
    ∀ (fuel : Nat) (h : Heap F) (x : Item F (j + 1)) (del : List Nat),
    c.depth < fuel → h.Inv q → x.Rep h → c.Rep h t.root x.id → (x.ids ++ c.ids).Nodup →
    x.Good → c.Good → x.Fill lo hi → c.Fill lo hi r → x.es.length ≤ hi →
    ∃ (h' : Heap F) (X : Item F (c.rootLevel + 1)) (orph : List (Orphan F)),
      condenseLoop t fuel h (some x.id) del = .ok (h', del ++ orph.map fun o => o.2.id) ∧
      CondPost q lo hi h h' t.root X orph (x.ids ++ c.ids) (x.objs ++ c.objs) ∧
      (c.isTop → X.es.length = x.es.length) ∧ (¬ c.isTop → r ≤ X.es.length + 1) := by
  induction c with
  | top =>
    intro fuel h x del hf hinv hx hc hnd gx gc fx fc cnt
    obtain ⟨fuel, rfl⟩ : ∃ f, fuel = f + 1 := ⟨fuel - 1, by omega⟩
    have hroot : x.id = t.root := hc
    refine ⟨h, x, [], ?_, ?_, fun _ => rfl, fun h0 => absurd trivial h0⟩
    · unfold condenseLoop
      rw [if_pos (by rw [hroot])]
      simp
    · refine ⟨hinv, rfl, hroot, hx, ?_, ?_, fun _ _ => rfl, gx, ?_, fx, cnt, ?_⟩
      · exact hnd
      · intro n hn; exact hn
      · exact List.Perm.refl _
      · intro o ho; cases ho
  | @frame j id pre b post up ih =>
    intro fuel h x del hf hinv hx hc hnd gx gc fx fc cnt
    obtain ⟨fuel, rfl⟩ : ∃ f, fuel = f + 1 := ⟨fuel - 1, by omega⟩
    obtain ⟨hne, ⟨par, hvid⟩, hs, ⟨vx, hvx, hvxp⟩, hup⟩ := hc
    obtain ⟨⟨parx, hvx'⟩, hxc⟩ := _root_.id hx
    rw [hvx'] at hvx
    cases hvx
    simp only at hvxp
    subst hvxp
    have eids : (Ctx.frame id pre b post up).ids = id :: (idsL pre ++ idsL post) ++ up.ids := by
      simp [Ctx.ids, idsL]
    have eobjs : (Ctx.frame id pre b post up).objs = (objsL pre ++ objsL post) ++ up.objs := by
      simp [Ctx.objs, objsL]
    rw [eids] at hnd
    have D : id ∉ x.ids ∧ id ∉ idsL pre ∧ id ∉ idsL post ∧
        id ∉ up.ids ∧ (x.ids ++ (idsL pre ++ idsL post)).Nodup ∧
        (∀ n ∈ up.ids, n ∉ x.ids ∧ n ∉ idsL pre ∧ n ∉ idsL post) ∧ up.ids.Nodup := by
      simp only [List.nodup_append, List.nodup_cons, List.mem_append, List.mem_cons, List.cons_append,
        not_or] at hnd ⊢
      grind
    obtain ⟨D2, D4, D5, D6, D7, D8, D9⟩ := D
    have hxid : x.id ∈ x.ids := by rw [ids_eq]; simp
    have hsib : ∀ a ∈ (pre ++ post).map (Item.entry (F := F)), a.child ≠ some x.id := by
      intro a ha hh
      have : x.id ∈ idsL (pre ++ post) := kids_sub (mem_kids.2 ⟨a, ha, hh⟩)
      rw [idsL_append] at this
      exact (List.nodup_append.1 D7).2.2 x.id hxid x.id this rfl
    have hpre : ∀ a ∈ pre.map (Item.entry (F := F)), a.child ≠ some x.id :=
      fun a ha => hsib a (by rw [List.map_append]; exact List.mem_append_left _ ha)
    have hpost : ∀ a ∈ post.map (Item.entry (F := F)), a.child ≠ some x.id :=
      fun a ha => hsib a (by rw [List.map_append]; exact List.mem_append_right _ ha)
    have hfil := filter_hole (e := (⟨b, some x.id, Spatial.zero⟩ : Entry F)) hpre rfl hpost
    have hfr := fc.2.2.2.1
    by_cases hunder : (x.es.length : Int) < t.MinChildren
    · -- the node is cut out
      set h1 := h.setEntries id ((pre ++ post).map Item.entry) with hh1
      have hinv1 : h1.Inv q := hinv.setEntries _ _
      have hlen1 : h1.nodes.length = h.nodes.length := Heap.length_setEntries _ _ _
      have hv1 := Heap.view_setEntries hinv.toOk.toBnd hvid ((pre ++ post).map Item.entry)
      rw [← hh1] at hv1
      set w : Item F (j + 2) := Item.mk id (pre ++ post) with hw
      have hoth : ∀ m, m ≠ id → h1.view m = h.view m := fun m hm => by rw [hv1, if_neg hm]
      have hwrep : w.Rep h1 := by
        refine ⟨⟨par, ?_⟩, ?_⟩
        · show h1.view id = _
          rw [hv1, if_pos rfl]
          have lv : (((j + 1 : Nat) : Int) + 1) = (j : Int) + 2 := by push_cast; omega
          rw [lv]
          rfl
        · intro p hp
          have hpid : ∀ n ∈ p.2.ids, n ≠ id := by
            rintro n hn rfl
            have : n ∈ idsL (pre ++ post) := mem_idsL.2 ⟨p, hp, hn⟩
            rw [idsL_append, List.mem_append] at this
            rcases this with h0 | h0
            · exact D4 h0
            · exact D5 h0
          exact ⟨(hs p hp).1.congr fun n hn => hoth n (hpid n hn),
            (hs p hp).2.congr fun n hn => hoth n (hpid n (Item.child_mem_ids hn))⟩
      have hxrep1 : x.Rep h1 := hx.congr fun n hn => hoth n (by rintro rfl; exact D2 hn)
      have huprep : up.Rep h1 t.root w.id := hup.congr
        (fun n hn => hoth n (by rintro rfl; exact D6 hn))
        (fun v hv => by
          rw [hvid] at hv; cases hv
          exact ⟨_, (hv1 id).trans (if_pos rfl), rfl⟩)
      have wids : w.ids = id :: (idsL pre ++ idsL post) := by rw [ids_eq, hw, Item.mk_id, Item.mk_es, idsL_append]
      have wobjs : w.objs = objsL pre ++ objsL post := by rw [objs_eq, hw, Item.mk_es, objsL_append]
      have hwnd : (w.ids ++ up.ids).Nodup := by
        rw [wids]
        exact (List.nodup_append.1 hnd).2.1
      obtain ⟨h', X, orph, e1, P, T1, T2⟩ := ih fuel h1 w (if x.es.length > 0 then del ++ [x.id] else del)
        (by simp only [Ctx.depth] at hf; omega) hinv1 hwrep huprep hwnd gc.1 gc.2 fc.1 fc.2.2.2.2
        (by rw [hw, Item.mk_es, List.length_append]; omega)
      have hstep : condenseLoop t (fuel + 1) h (some x.id) del =
          condenseLoop t fuel h1 (some w.id) (if x.es.length > 0 then del ++ [x.id] else del) := by
        rw [condenseLoop, if_neg (by simpa using hne), Heap.deref_some hvx']
        simp only [bind, Except.bind]
        rw [Heap.deref_some hvid]
        simp only [List.length_map]
        rw [if_pos hunder, hfil]
        rw [if_neg (by simp)]
        rw [hh1, List.map_append]
        rfl
      have hsubw : ∀ n ∈ w.ids ++ up.ids, n ∉ x.ids := by
        intro n hn hx'
        rw [wids] at hn
        exact (List.nodup_append.1 hnd).2.2 n hx' n hn rfl
      have hxrep' : x.Rep h' := hxrep1.congr fun n hn => P.frame n (fun h0 => hsubw n h0 hn)
      refine ⟨h', X, (if x.es.length > 0 then [⟨j, x⟩] else []) ++ orph, ?_, ?_, (fun h0 => absurd h0 (by simp [Ctx.isTop])), fun _ => ?_⟩
      rotate_left 2
      · by_cases ht : up.isTop
        · have h1 := T1 ht
          have h2 := fc.2.1 ht
          have h3 : w.es.length = pre.length + post.length := List.length_append
          have h4 : X.es.length = pre.length + post.length := h1.trans h3
          show r ≤ X.es.length + 1
          omega
        · exact T2 ht
      · rw [hstep, e1]
        split <;> simp
      · have hxobj0 : ¬ x.es.length > 0 → x.objs = [] := by
          intro h0
          have : x.es = [] := List.eq_nil_of_length_eq_zero (by omega)
          rw [objs_eq, this]; rfl
        refine ⟨P.inv, by rw [P.len, hlen1], P.root, P.rep, ?_, ?_, ?_, P.good, ?_, P.fill, P.cnt, ?_⟩
        · rw [orIds_append]
          split
          · have e2 : orIds ([⟨j, x⟩] : List (Orphan F)) = x.ids := by simp [orIds]
            rw [e2]
            have : (X.ids ++ (x.ids ++ orIds orph)).Perm (x.ids ++ (X.ids ++ orIds orph)) := by
              rw [← List.append_assoc, ← List.append_assoc]
              exact List.Perm.append_right _ List.perm_append_comm
            refine this.nodup_iff.2 (List.nodup_append.2 ?_)
            refine ⟨(List.nodup_append.1 hnd).1, P.nd, ?_⟩
            rintro a ha b' hb' rfl
            exact hsubw a (P.sub a hb') ha
          · exact P.nd
        · intro n hn
          rw [eids]
          have hcase : n ∈ x.ids ∨ n ∈ X.ids ++ orIds orph := by
            rw [orIds_append] at hn
            rcases List.mem_append.1 hn with h0 | h0
            · exact Or.inr (List.mem_append_left _ h0)
            · rcases List.mem_append.1 h0 with h0 | h0
              · split at h0
                · left; simpa [orIds] using h0
                · simp [orIds] at h0
              · exact Or.inr (List.mem_append_right _ h0)
          rcases hcase with h0 | h0
          · exact List.mem_append_left _ h0
          · have := P.sub n h0
            rw [wids] at this
            exact List.mem_append_right _ this
        · intro m hm
          rw [eids] at hm
          have hm1 : m ∉ w.ids ++ up.ids := by
            rw [wids]; exact fun h0 => hm (List.mem_append_right _ h0)
          rw [P.frame m hm1, hoth m (by rintro rfl; exact hm (by simp))]
        · rw [eobjs, orObjs_append]
          have hp := P.objs
          rw [wobjs] at hp
          split
          · have e2 : orObjs ([⟨j, x⟩] : List (Orphan F)) = x.objs := by simp [orObjs]
            rw [e2]
            have : (X.objs ++ (x.objs ++ orObjs orph)).Perm (x.objs ++ (X.objs ++ orObjs orph)) := by
              rw [← List.append_assoc, ← List.append_assoc]
              exact List.Perm.append_right _ List.perm_append_comm
            exact this.trans (hp.append_left _)
          · rename_i h0
            rw [hxobj0 h0]
            exact hp
        · intro o ho
          rcases List.mem_append.1 ho with h0 | h0
          · split at h0
            · rename_i hpos
              rw [List.mem_singleton.1 h0]
              refine ⟨hxrep', gx, fx, ⟨show lo ≤ x.es.length by omega, cnt⟩, ?_⟩
              have := up.level_le
              simp only [Ctx.rootLevel]; exact this
            · cases h0
          · exact P.orph o h0
    · -- the node stays; its box is refreshed
      set h1 := h.setBB id pre.length x.box with hh1
      have hinv1 : h1.Inv q := hinv.setBB _ _ _
      have hlen1 : h1.nodes.length = h.nodes.length := Heap.length_setBB _ _ _ _
      have hv1 : ∀ m, h1.view m = if m = id then
          some ⟨par, false, (j : Int) + 2, (pre ++ (x.box, x) :: post).map Item.entry⟩ else h.view m := by
        intro m
        rw [hh1, Heap.view_setBB hinv.toOk hvid (by simp)]
        congr 3
        simp only [List.map_append, List.map_cons]
        have := modify_hole (List.map (Item.entry (F := F)) pre) (List.map Item.entry post)
          (⟨b, some x.id, Spatial.zero⟩ : Entry F) (fun e => { e with bb := x.box })
        rw [List.length_map] at this
        exact this
      set w : Item F (j + 2) := Item.mk id (pre ++ (x.box, x) :: post) with hw
      have hoth : ∀ m, m ≠ id → h1.view m = h.view m := fun m hm => by rw [hv1, if_neg hm]
      have hwrep : w.Rep h1 := by
        refine ⟨⟨par, ?_⟩, ?_⟩
        · show h1.view id = _
          rw [hv1, if_pos rfl]
          have lv : (((j + 1 : Nat) : Int) + 1) = (j : Int) + 2 := by push_cast; omega
          rw [lv]
          rfl
        · intro p hp
          have hp0 : p ∈ pre ++ (x.box, x) :: post := hp
          clear hp
          rcases List.mem_append.1 hp0 with hp | hp
          rotate_left
          · rcases List.mem_cons.1 hp with rfl | hp
            · refine ⟨hx.congr fun n hn => hoth n (by rintro rfl; exact D2 hn), ?_⟩
              refine ⟨⟨some id, j == 0, (j : Int) + 1, x.es.map Item.entry⟩, ?_, rfl⟩
              show h1.view x.id = _
              rw [hoth _ (by rintro h0; exact D2 (h0 ▸ hxid))]
              exact hvx'
            · have hpid : ∀ n ∈ p.2.ids, n ≠ id := by
                rintro n hn rfl
                exact D5 (mem_idsL.2 ⟨p, hp, hn⟩)
              have hs' := hs p (List.mem_append_right _ hp)
              exact ⟨hs'.1.congr fun n hn => hoth n (hpid n hn),
                hs'.2.congr fun n hn => hoth n (hpid n (Item.child_mem_ids hn))⟩
          · have hpid : ∀ n ∈ p.2.ids, n ≠ id := by
              rintro n hn rfl
              exact D4 (mem_idsL.2 ⟨p, hp, hn⟩)
            have hs' := hs p (List.mem_append_left _ hp)
            exact ⟨hs'.1.congr fun n hn => hoth n (hpid n hn),
              hs'.2.congr fun n hn => hoth n (hpid n (Item.child_mem_ids hn))⟩
      have huprep : up.Rep h1 t.root w.id := hup.congr
        (fun n hn => hoth n (by rintro rfl; exact D6 hn))
        (fun v hv => by
          rw [hvid] at hv; cases hv
          exact ⟨_, (hv1 id).trans (if_pos rfl), rfl⟩)
      have wids : w.ids.Perm (x.ids ++ (id :: (idsL pre ++ idsL post))) := by
        rw [ids_eq, hw, Item.mk_id, Item.mk_es, idsL_append, idsL_cons]
        refine List.Perm.trans (List.Perm.cons _ ?_) List.perm_middle.symm
        rw [← List.append_assoc, ← List.append_assoc]
        exact List.Perm.append_right _ List.perm_append_comm
      have wobjs : w.objs.Perm (x.objs ++ (objsL pre ++ objsL post)) := by
        rw [objs_eq, hw, Item.mk_es, objsL_append, objsL_cons]
        rw [← List.append_assoc, ← List.append_assoc]
        exact List.Perm.append_right _ List.perm_append_comm
      have wall : (w.ids ++ up.ids).Perm (x.ids ++ (Ctx.frame id pre b post up).ids) := by
        rw [eids]
        refine (wids.append_right _).trans ?_
        rw [List.append_assoc]
      have hwnd : (w.ids ++ up.ids).Nodup := by
        rw [wall.nodup_iff, eids]; exact hnd
      have hmem : ∀ p ∈ pre ++ (x.box, x) :: post, p = (x.box, x) ∨ p ∈ pre ++ post := by
        intro p hp
        simp only [List.mem_append, List.mem_cons] at hp ⊢
        rcases hp with h0 | h0 | h0
        · exact Or.inr (Or.inl h0)
        · exact Or.inl h0
        · exact Or.inr (Or.inr h0)
      obtain ⟨h', X, orph, e1, P, T1, T2⟩ := ih fuel h1 w del
        (by simp only [Ctx.depth] at hf; omega) hinv1 hwrep huprep hwnd
        (by
          intro p hp
          rcases hmem p hp with rfl | h0
          · exact ⟨rfl, gx⟩
          · exact gc.1 p h0) gc.2
        (by
          intro p hp
          rcases hmem p hp with rfl | h0
          · exact ⟨⟨show lo ≤ x.es.length by omega, cnt⟩, fx⟩
          · exact fc.1 p h0) fc.2.2.2.2
        (by rw [hw, Item.mk_es, List.length_append, List.length_cons]; omega)
      have hstep : condenseLoop t (fuel + 1) h (some x.id) del = condenseLoop t fuel h1 (some w.id) del := by
        rw [condenseLoop, if_neg (by simpa using hne), Heap.deref_some hvx']
        simp only [bind, Except.bind]
        rw [Heap.deref_some hvid]
        simp only [List.length_map]
        rw [if_neg hunder]
        have : getEntry x.id (List.map Item.entry pre ++ (⟨b, some x.id, Spatial.zero⟩ : Entry F) ::
            List.map Item.entry post) = some (List.map (Item.entry (F := F)) pre).length := findIdx?_hole hpre rfl
        rw [this]
        simp only [List.length_map, Item.computeBoundingBox_es]
        rfl
      refine ⟨h', X, orph, ?_, ?_, (fun h0 => absurd h0 (by simp [Ctx.isTop])), fun _ => ?_⟩
      rotate_left 2
      · by_cases ht : up.isTop
        · have h1 := T1 ht
          have h2 := fc.2.1 ht
          have h3 : w.es.length = pre.length + (post.length + 1) := by
            rw [hw, Item.mk_es, List.length_append, List.length_cons]
          have h4 : X.es.length = pre.length + (post.length + 1) := h1.trans h3
          show r ≤ X.es.length + 1
          omega
        · exact T2 ht
      · rw [hstep, e1]
      · refine ⟨P.inv, by rw [P.len, hlen1], P.root, P.rep, P.nd, ?_, ?_, P.good, ?_, P.fill, P.cnt, P.orph⟩
        · intro n hn
          exact wall.mem_iff.1 (P.sub n hn)
        · intro m hm
          rw [P.frame m (fun h0 => hm (wall.mem_iff.1 h0)), hoth m (by rintro rfl; exact hm (by simp [eids]))]
        · refine P.objs.trans ?_
          rw [eobjs, ← List.append_assoc]
          exact wobjs.append_right _

end GoGeo
