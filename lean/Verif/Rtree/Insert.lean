import Verif.Rtree.Split
import Mathlib.Data.List.Pairwise

/-!
# What `adjustTree` and `insert` do
-/

set_option linter.unusedSectionVars false

namespace GoGeo
open GoFloat
variable {F : Type} [GoFloat F]

theorem perm_map_lift {α β : Type} (f : α → β) {l m : List β} (h : l.Perm m) :
    ∀ es : List α, m = es.map f → ∃ es' : List α, l = es'.map f ∧ es'.Perm es := by
  induction h with
  | nil => intro es he; exact ⟨es, he, List.Perm.refl _⟩
  | cons x _ ih =>
    intro es he
    cases es with
    | nil => simp at he
    | cons a es =>
      simp at he
      obtain ⟨es', h1, h2⟩ := ih es he.2
      exact ⟨a :: es', by simp [he.1, h1], h2.cons a⟩
  | swap x y l =>
    intro es he
    match es, he with
    | a :: b :: es, he =>
      simp at he
      exact ⟨b :: a :: es, by simp [he], List.Perm.swap _ _ _⟩
  | trans _ _ ih1 ih2 =>
    intro es he
    obtain ⟨es2, h1, h2⟩ := ih2 es he
    obtain ⟨es1, h3, h4⟩ := ih1 es2 h1
    exact ⟨es1, h3, h4.trans h2⟩

theorem perm_map_lift_append {α β : Type} (f : α → β) {l r : List β} {es : List α}
    (h : (l ++ r).Perm (es.map f)) :
    ∃ les res : List α, l = les.map f ∧ r = res.map f ∧ (les ++ res).Perm es := by
  obtain ⟨es', h1, h2⟩ := perm_map_lift f h es rfl
  obtain ⟨a, b, h3, h4, h5⟩ := List.map_eq_append_iff.1 h1.symm
  exact ⟨a, b, h4.symm, h5.symm, h3 ▸ h2⟩

/-- ids of the items of an entry list -/
def idsL {j : Nat} (es : List (Box F × Item F j)) : List Nat := es.flatMap fun p => p.2.ids

/-- objects of the items of an entry list -/
def objsL {j : Nat} (es : List (Box F × Item F j)) : List (Spatial F) := es.flatMap fun p => p.2.objs

omit [GoFloat F] in
@[simp] theorem idsL_append {j : Nat} (a b : List (Box F × Item F j)) : idsL (a ++ b) = idsL a ++ idsL b := by
  simp [idsL]
omit [GoFloat F] in
@[simp] theorem idsL_cons {j : Nat} (a : Box F × Item F j) (b : List (Box F × Item F j)) :
    idsL (a :: b) = a.2.ids ++ idsL b := by simp [idsL]
omit [GoFloat F] in
@[simp] theorem idsL_nil {j : Nat} : idsL ([] : List (Box F × Item F j)) = [] := rfl
omit [GoFloat F] in
@[simp] theorem objsL_append {j : Nat} (a b : List (Box F × Item F j)) : objsL (a ++ b) = objsL a ++ objsL b := by
  simp [objsL]
omit [GoFloat F] in
@[simp] theorem objsL_cons {j : Nat} (a : Box F × Item F j) (b : List (Box F × Item F j)) :
    objsL (a :: b) = a.2.objs ++ objsL b := by simp [objsL]
omit [GoFloat F] in
@[simp] theorem objsL_nil {j : Nat} : objsL ([] : List (Box F × Item F j)) = [] := rfl

omit [GoFloat F] in
theorem idsL_perm {j : Nat} {a b : List (Box F × Item F j)} (h : a.Perm b) : (idsL a).Perm (idsL b) :=
  h.flatMap_right _
omit [GoFloat F] in
theorem objsL_perm {j : Nat} {a b : List (Box F × Item F j)} (h : a.Perm b) : (objsL a).Perm (objsL b) :=
  h.flatMap_right _

omit [GoFloat F] in
theorem mem_idsL {j : Nat} {es : List (Box F × Item F j)} {n : Nat} :
    n ∈ idsL es ↔ ∃ p ∈ es, n ∈ p.2.ids := by simp [idsL]

theorem ids_eq {j : Nat} (x : Item F (j + 1)) : x.ids = x.id :: idsL x.es := rfl
theorem objs_eq {j : Nat} (x : Item F (j + 1)) : x.objs = objsL x.es := rfl

theorem kids_sublist {j : Nat} (es : List (Box F × Item F j)) :
    (kids (es.map Item.entry)).Sublist (idsL es) := by
  induction es with
  | nil => simp [kids]
  | cons p es ih =>
    unfold kids at ih ⊢
    rw [List.map_cons, idsL_cons]
    cases j with
    | zero => rw [List.filterMap_cons_none (by rfl)]; simpa using ih
    | succ j =>
      rw [List.filterMap_cons_some (b := p.2.id) (by rfl), ids_eq, List.cons_append]
      exact List.Sublist.cons_cons _ (ih.trans (List.sublist_append_right _ _))

theorem kids_sub {j : Nat} {es : List (Box F × Item F j)} {n : Nat} (h : n ∈ kids (es.map Item.entry)) :
    n ∈ idsL es := (kids_sublist es).subset h

theorem child_mem_kids {j : Nat} {es : List (Box F × Item F j)} {p : Box F × Item F j} (hp : p ∈ es)
    {c : Nat} (hc : p.2.child = some c) : c ∈ kids (es.map Item.entry) :=
  mem_kids.2 ⟨Item.entry p, List.mem_map_of_mem hp, hc⟩

omit [GoFloat F] in
/-- in a list without shared ids, an inner id of one item is not the id of any item -/
theorem not_kid {j : Nat} {es : List (Box F × Item F j)} (hnd : (idsL es).Nodup)
    {p : Box F × Item F j} (hp : p ∈ es) {n : Nat} (hn : n ∈ p.2.ids) (hc : p.2.child ≠ some n) :
    n ∉ kids (es.map Item.entry) := by
  intro hk
  obtain ⟨e, he, hec⟩ := mem_kids.1 hk
  obtain ⟨p', hp', rfl⟩ := List.mem_map.1 he
  have hne : p ≠ p' := by rintro rfl; exact hc hec
  have hpw := (List.nodup_flatMap.1 hnd).2
  have : ∀ a ∈ es, ∀ b ∈ es, a ≠ b → List.Disjoint a.2.ids b.2.ids := by
    intro a ha b hb hab
    have : Std.Symm (Function.onFun List.Disjoint fun p : Box F × Item F j => p.2.ids) :=
      ⟨fun _ _ h _ ha hb => h hb ha⟩
    exact hpw.forall ha hb hab
  have hcm : n ∈ p'.2.ids := by
    cases j with
    | zero => exact absurd hec (by simp [Item.entry, Item.child])
    | succ j =>
      have : p'.2.id = n := Option.some.inj hec
      show n ∈ p'.2.id :: _
      simp [this]
  exact this p hp p' hp' hne hn hcm

/-- `split`, for a node of the ghost tree -/
theorem splitItem_spec {q : Bool} (grow : Nat → Nat) {h : Heap F} (hi : h.Inv q) {j : Nat}
    (x : Item F (j + 1)) (hx : x.Rep h) (hnd : x.ids.Nodup) {v : NodeV F} (hv : h.view x.id = some v)
    (hq : j ≠ 0 ∨ q = true) (mg : Int) (h2 : 2 ≤ x.es.length) :
    ∃ h' les res, split grow h x.id mg = .ok (h', h.nodes.length) ∧ h'.Inv q ∧
      h'.nodes.length = h.nodes.length + 1 ∧ (les ++ res).Perm x.es ∧ les ≠ [] ∧ res ≠ [] ∧
      (Item.mk x.id les).Rep h' ∧ (Item.mk h.nodes.length res).Rep h' ∧
      (∃ v', h'.view x.id = some v' ∧ v'.parent = v.parent) ∧
      (∃ v', h'.view h.nodes.length = some v' ∧ v'.parent = v.parent) ∧
      (∀ m, m ≠ h.nodes.length → m ∉ x.ids → h'.view m = h.view m) ∧
      (1 ≤ mg → 2 * mg ≤ (x.es.length : Int) → mg ≤ (les.length : Int) ∧ mg ≤ (res.length : Int)) := by
  obtain ⟨⟨par, hv'⟩, hc⟩ := hx
  rw [hv'] at hv
  cases hv
  rw [ids_eq, List.nodup_cons] at hnd
  have hval : ∀ n ∈ x.ids, n < h.nodes.length := Item.Rep.valid ⟨⟨par, hv'⟩, hc⟩
  obtain ⟨h', L, R, e1, e2, e3, e4, e5, e6, e7, e8, e9, e10, e11, e12⟩ :=
    split_spec grow hi hv' (by rcases hq with h | h <;> simp [h]) mg (by simpa using h2)
      ((kids_sublist x.es).nodup hnd.2) (fun hh => hnd.1 (kids_sub hh))
      (fun c hc => hval c (by rw [ids_eq]; exact List.mem_cons_of_mem _ (kids_sub hc)))
  obtain ⟨les, res, rfl, rfl, hp⟩ := perm_map_lift_append _ e4
  have hmem : ∀ p, p ∈ les ∨ p ∈ res → p ∈ x.es := fun p hp' =>
    hp.mem_iff.1 (List.mem_append.2 hp')
  have hother : ∀ p ∈ x.es, ∀ n ∈ p.2.ids, p.2.child ≠ some n → h'.view n = h.view n := by
    intro p hp n hn hcn
    have hin : n ∈ idsL x.es := mem_idsL.2 ⟨p, hp, hn⟩
    refine e11 n ?_ ?_ (not_kid hnd.2 hp hn hcn)
    · rintro rfl; exact hnd.1 hin
    · exact Nat.ne_of_lt (hval n (by rw [ids_eq]; exact List.mem_cons_of_mem _ hin))
  have hpnd : ∀ p ∈ x.es, p.2.ids.Nodup := fun p hp => (List.nodup_flatMap.1 hnd.2).1 p hp
  refine ⟨h', les, res, e1, e2, e3, hp, by simpa using e5, by simpa using e6, ?_, ?_, ⟨_, e7, rfl⟩,
    ⟨_, e8, rfl⟩, ?_, ?_⟩
  · refine ⟨⟨par, e7⟩, ?_⟩
    intro p hp'
    have hpx := hmem p (Or.inl hp')
    refine ⟨(hc p hpx).1.congr' ?_ (hother p hpx) (hpnd p hpx), ?_⟩
    · intro c hcc
      rw [e9 c (child_mem_kids hp' hcc)]; exact SameNode_reparent _ _
    · cases j with
      | zero => trivial
      | succ j =>
        obtain ⟨w, hw, -⟩ := (hc p hpx).2
        refine ⟨{ w with parent := some x.id }, ?_, rfl⟩
        rw [e9 p.2.id (child_mem_kids hp' rfl), hw]; rfl
  · refine ⟨⟨par, e8⟩, ?_⟩
    intro p hp'
    have hpx := hmem p (Or.inr hp')
    refine ⟨(hc p hpx).1.congr' ?_ (hother p hpx) (hpnd p hpx), ?_⟩
    · intro c hcc
      rw [e10 c (child_mem_kids hp' hcc)]; exact SameNode_reparent _ _
    · cases j with
      | zero => trivial
      | succ j =>
        obtain ⟨w, hw, -⟩ := (hc p hpx).2
        refine ⟨{ w with parent := some h.nodes.length }, ?_, rfl⟩
        rw [e10 p.2.id (child_mem_kids hp' rfl), hw]; rfl
  · intro m m1 m2
    rw [ids_eq, List.mem_cons, not_or] at m2
    exact e11 m m2.1 m1 (fun hk => m2.2 (kids_sub hk))
  · intro g1 g2
    have := e12 g1 (by simpa using g2)
    simpa using this

/-! ## adjustTree -/

/-- entry count of the root -/
def RootCnt (hi r : Nat) {j : Nat} (x : Item F (j + 1)) : Prop :=
  x.es.length ≤ hi ∧ (j ≠ 0 → r ≤ x.es.length)

def oids {j : Nat} (y : Option (Item F (j + 1))) : List Nat := y.elim [] Item.ids
def oobjs {j : Nat} (y : Option (Item F (j + 1))) : List (Spatial F) := y.elim [] Item.objs

/-- result of adjusting: the root, and possibly its new sibling -/
structure AdjPost (q : Bool) (lo hi r : Nat) (h h' : Heap F) (root : Nat) {K : Nat} (X : Item F (K + 1))
    (Y : Option (Item F (K + 1))) (oldIds : List Nat) (oldObjs : List (Spatial F)) : Prop where
  inv : h'.Inv q
  len : h.nodes.length ≤ h'.nodes.length
  root : X.id = root
  rep : X.Rep h'
  repY : ∀ y ∈ Y, y.Rep h'
  nd : (X.ids ++ oids Y).Nodup
  sub : ∀ n ∈ X.ids ++ oids Y, n ∈ oldIds ∨ h.nodes.length ≤ n
  frame : ∀ m < h.nodes.length, m ∉ oldIds → h'.view m = h.view m
  good : X.Good
  goodY : ∀ y ∈ Y, y.Good
  objs : (X.objs ++ oobjs Y).Perm oldObjs
  fill : X.Fill lo hi
  fillY : ∀ y ∈ Y, y.Fill lo hi
  cnt : Y = none → RootCnt hi r X
  cntY : ∀ y ∈ Y, X.Cnt lo hi ∧ y.Cnt lo hi
  sup : ∀ n ∈ oldIds, n ∈ X.ids ++ oids Y

/-- the minimum group size gives at least `lo` entries on both sides -/
def LoOk (lo hi : Nat) (t : Rtree) : Prop :=
  2 ≤ hi ∧ (hi : Int) = t.MaxChildren ∧ (lo ≤ 1 ∨ ((lo : Int) = t.MinChildren ∧ 2 * lo ≤ hi + 1))

theorem findIdx?_hole {pre post : List (Entry F)} {e : Entry F} {n : Nat}
    (h1 : ∀ a ∈ pre, a.child ≠ some n) (h2 : e.child = some n) :
    getEntry n (pre ++ e :: post) = some pre.length := by
  unfold getEntry
  rw [List.findIdx?_append]
  have : List.findIdx? (fun e => e.child == some n) pre = none := by
    rw [List.findIdx?_eq_none_iff]
    intro a ha
    simpa using h1 a ha
  rw [this]
  simp [List.findIdx?_cons, h2]

set_option maxHeartbeats 2000000 in
theorem adjustTree_spec {q : Bool} (grow : Nat → Nat) (t : Rtree) (lo hi r : Nat) (hlo : LoOk lo hi t)
    {j : Nat} (c : Ctx F j) :
    ∀ (fuel : Nat) (h : Heap F) (x : Item F (j + 1)) (y : Option (Item F (j + 1))),
    c.depth < fuel → h.Inv q → x.Rep h → c.Rep h t.root x.id → (∀ z ∈ y, z.Rep h) →
    (¬ c.isTop → ∀ z ∈ y, z.Par h c.parent) →
    (x.ids ++ oids y ++ c.ids).Nodup →
    x.Good → (∀ z ∈ y, z.Good) → c.Good → x.Fill lo hi → (∀ z ∈ y, z.Fill lo hi) → c.Fill lo hi r →
    (¬ c.isTop ∨ y.isSome → x.Cnt lo hi ∧ ∀ z ∈ y, z.Cnt lo hi) →
    (c.isTop → y = none → RootCnt hi r x) →
    ∃ (h' : Heap F) (X : Item F (c.rootLevel + 1)) (Y : Option (Item F (c.rootLevel + 1))),
      adjustTree grow t fuel h (some x.id) (y.map Item.id) = .ok (h', some t.root, Y.map Item.id) ∧
      AdjPost q lo hi r h h' t.root X Y (x.ids ++ oids y ++ c.ids) (x.objs ++ oobjs y ++ c.objs) := by
  induction c with
  | top =>
    intro fuel h x y hf hinv hx hc hy hyp hnd gx gy gc fx fy fc cnt rc
    obtain ⟨fuel, rfl⟩ : ∃ f, fuel = f + 1 := ⟨fuel - 1, by omega⟩
    have hroot : x.id = t.root := hc
    refine ⟨h, x, y, ?_, ?_⟩
    · unfold adjustTree
      rw [if_pos (by rw [hroot])]
      show Except.ok (h, some x.id, y.map Item.id) = _
      rw [hroot]; rfl
    · refine ⟨hinv, le_rfl, hroot, hx, hy, ?_, ?_, fun _ _ _ => rfl, gx, gy, ?_, fx, fy, ?_, ?_, fun n hn => by rw [Ctx.ids, List.append_nil] at hn; exact hn⟩
      · rw [Ctx.ids, List.append_nil] at hnd; exact hnd
      · intro n hn; left; rw [Ctx.ids, List.append_nil]; exact hn
      · rw [Ctx.objs, List.append_nil]; exact List.Perm.refl _
      · exact fun h0 => rc trivial h0
      · intro y' hy'
        have := cnt (Or.inr (by rw [Option.mem_def.1 hy']; rfl))
        exact ⟨this.1, this.2 y' hy'⟩
  | @frame j id pre b post up ih =>
    intro fuel h x y hf hinv hx hc hy hyp hnd gx gy gc fx fy fc cnt rc
    obtain ⟨fuel, rfl⟩ : ∃ f, fuel = f + 1 := ⟨fuel - 1, by omega⟩
    obtain ⟨hne, ⟨par, hvid⟩, hs, ⟨vx, hvx, hvxp⟩, hup⟩ := hc
    have hx0 := hx
    obtain ⟨⟨parx, hvx'⟩, hxc⟩ := hx0
    rw [hvx'] at hvx
    cases hvx
    simp only at hvxp
    subst hvxp
    -- id bookkeeping
    have eids : (Ctx.frame id pre b post up).ids = id :: (idsL pre ++ idsL post) ++ up.ids := by
      simp [Ctx.ids, idsL]
    have eobjs : (Ctx.frame id pre b post up).objs = (objsL pre ++ objsL post) ++ up.objs := by
      simp [Ctx.objs, objsL]
    rw [eids] at hnd
    have D : (x.ids ++ oids y).Nodup ∧ id ∉ x.ids ∧ id ∉ oids y ∧ id ∉ idsL pre ∧ id ∉ idsL post ∧
        id ∉ up.ids ∧ (x.ids ++ oids y ++ (idsL pre ++ idsL post)).Nodup ∧
        (∀ n ∈ up.ids, n ∉ x.ids ∧ n ∉ oids y ∧ n ∉ idsL pre ∧ n ∉ idsL post) ∧ up.ids.Nodup := by
      simp only [List.nodup_append, List.nodup_cons, List.mem_append, List.mem_cons, List.cons_append,
        not_or] at hnd ⊢
      grind
    obtain ⟨D1, D2, D3, D4, D5, D6, D7, D8, D9⟩ := D
    have hpre : ∀ a ∈ pre.map (Item.entry (F := F)), a.child ≠ some x.id := by
      intro a ha hh
      have : x.id ∈ idsL pre := kids_sub (mem_kids.2 ⟨a, ha, hh⟩)
      have hx' : x.id ∈ x.ids := by rw [ids_eq]; simp
      simp only [List.nodup_append, List.mem_append] at D7
      exact D7.2.2 x.id (Or.inl hx') x.id (Or.inl this) rfl
    -- the recorded box of x is refreshed
    have hstep : adjustTree grow t (fuel + 1) h (some x.id) (y.map Item.id) =
        (match y.map Item.id with
        | none => adjustTree grow t fuel (h.setBB id pre.length x.box) (some id) none
        | some nni => do
          let (_, nv) ← (h.setBB id pre.length x.box).deref (some nni)
          let h := (h.setBB id pre.length x.box).append grow id ⟨computeBoundingBox nv.entries, some nni, Spatial.zero⟩
          let (_, p) ← h.deref (some id)
          if (p.entries.length : Int) > t.MaxChildren then
            let (h, r) ← split grow h id t.MinChildren
            adjustTree grow t fuel h (some id) (some r)
          else adjustTree grow t fuel h (some id) none) := by
      rw [adjustTree, if_neg (by simpa using hne), Heap.deref_some hvx']
      simp only [bind, Except.bind]
      rw [Heap.deref_some hvid]
      simp only []
      have : getEntry x.id (List.map Item.entry pre ++ (⟨b, some x.id, Spatial.zero⟩ : Entry F) :: List.map Item.entry post)
          = some (List.map (Item.entry (F := F)) pre).length := findIdx?_hole hpre rfl
      rw [this]
      simp only [List.length_map, Item.computeBoundingBox_es]
      rfl
    rw [hstep]
    set h1 := h.setBB id pre.length x.box with hh1
    have hinv1 : h1.Inv q := hinv.setBB _ _ _
    have hlen1 : h1.nodes.length = h.nodes.length := Heap.length_setBB _ _ _ _
    have hv1 : ∀ m, h1.view m = if m = id then
        some ⟨par, false, (j : Int) + 2, (pre ++ (x.box, x) :: post).map Item.entry⟩ else h.view m := by
      intro m
      rw [hh1, Heap.view_setBB hinv.toOk hvid (by simp)]
      congr 3
      apply List.ext_getElem?
      intro i
      rw [List.getElem?_modify]
      simp only [List.map_append, List.map_cons, List.getElem?_append, List.length_map]
      by_cases hi1 : i < pre.length
      · have : ¬ pre.length = i := by omega
        rw [if_pos hi1, if_pos hi1]; simp [this]
      · rw [if_neg hi1, if_neg hi1]
        by_cases hi2 : i = pre.length
        · subst hi2; simp [Item.entry_succ]
        · obtain ⟨k, hk⟩ : ∃ k, i - pre.length = k + 1 := ⟨i - pre.length - 1, by omega⟩
          have : ¬ pre.length = i := by omega
          rw [hk]; simp [this]
    have hoth : ∀ m, m ≠ id → h1.view m = h.view m := fun m hm => by rw [hv1, if_neg hm]
    have hx1 : x.Rep h1 := hx.congr fun n hn => hoth n (by rintro rfl; exact D2 hn)
    have hs1 : ∀ p ∈ pre ++ post, p.2.Rep h1 ∧ p.2.Par h1 (some id) := by
      intro p hp
      have hni : ∀ n ∈ p.2.ids, n ≠ id := by
        rintro n hn rfl
        rcases List.mem_append.1 hp with hp | hp
        · exact D4 (mem_idsL.2 ⟨p, hp, hn⟩)
        · exact D5 (mem_idsL.2 ⟨p, hp, hn⟩)
      exact ⟨(hs p hp).1.congr fun n hn => hoth n (hni n hn),
        (hs p hp).2.congr fun c hcc => hoth c (hni c (Item.child_mem_ids hcc))⟩
    have hxp1 : x.Par h1 (some id) :=
      ⟨_, by rw [hoth x.id (by rintro rfl; exact D2 (by rw [ids_eq]; simp))]; exact hvx', rfl⟩
    have hup1 : up.Rep h1 t.root id := hup.congr (fun n hn => hoth n (by rintro rfl; exact D6 hn))
      (fun v hv => by
        rw [hvid] at hv; cases hv
        exact ⟨_, (hv1 id).trans (if_pos rfl), rfl⟩)
    have lvl : (((j + 1 : Nat) : Int) + 1) = (j : Int) + 2 := by push_cast; omega
    obtain ⟨gs, gup⟩ := gc
    obtain ⟨fs, fr1, fr2, fr3, fup⟩ := fc
    have hfuel : up.depth < fuel := by simp only [Ctx.depth] at hf; omega
    have hcx := (cnt (Or.inl (by simp [Ctx.isTop])))
    cases y with
    | none =>
      simp only [Option.map_none]
      set x' : Item F (j + 1 + 1) := Item.mk id (pre ++ (x.box, x) :: post) with hx'
      have hids : (x'.ids).Perm (x.ids ++ (id :: (idsL pre ++ idsL post))) := by
        rw [ids_eq, hx', Item.mk_id, Item.mk_es, idsL_append, idsL_cons]
        refine (List.Perm.cons id ?_).trans List.perm_middle.symm
        rw [← List.append_assoc, ← List.append_assoc]
        exact List.Perm.append_right _ List.perm_append_comm
      have hobj : (x'.objs).Perm (x.objs ++ (objsL pre ++ objsL post)) := by
        rw [objs_eq, hx', Item.mk_es, objsL_append, objsL_cons]
        rw [← List.append_assoc, ← List.append_assoc]
        exact List.Perm.append_right _ List.perm_append_comm
      have hsplit : ∀ p ∈ x'.es, p = (x.box, x) ∨ p ∈ pre ++ post := by
        intro p hp
        rcases List.mem_append.1 hp with h0 | h0
        · exact Or.inr (List.mem_append_left _ h0)
        · rcases List.mem_cons.1 h0 with h0 | h0
          · exact Or.inl h0
          · exact Or.inr (List.mem_append_right _ h0)
      have hrep' : x'.Rep h1 := by
        refine ⟨⟨par, by rw [hx', Item.mk_id, hv1, if_pos rfl, lvl]; rfl⟩, ?_⟩
        intro p hp
        rcases hsplit p hp with rfl | hp
        · exact ⟨hx1, hxp1⟩
        · exact hs1 p hp
      obtain ⟨h', X, Y, e, pst⟩ := ih fuel h1 x' none hfuel hinv1 hrep' hup1 (by simp) (by simp)
        (by
          simp only [oids, Option.elim, List.append_nil]
          have : ((x.ids ++ (id :: (idsL pre ++ idsL post))) ++ up.ids).Nodup := by
            simpa [oids] using hnd
          exact ((hids.append_right up.ids).nodup_iff).2 this)
        (by
          intro p hp
          rcases hsplit p hp with rfl | hp
          · exact ⟨rfl, gx⟩
          · exact gs p hp)
        (by simp) gup
        (by
          intro p hp
          rcases hsplit p hp with rfl | hp
          · exact ⟨hcx.1, fx⟩
          · exact fs p hp)
        (by simp) fup
        (by
          intro h0
          refine ⟨?_, by simp⟩
          simp only [Option.isSome_none, Bool.false_eq_true, or_false] at h0
          have := fr2 h0
          refine ⟨?_, ?_⟩ <;> simp [hx'] <;> omega)
        (by
          intro h0 _
          have := fr1 h0
          refine ⟨?_, fun _ => ?_⟩ <;> simp [hx'] <;> omega)
      refine ⟨h', X, Y, e, ?_⟩
      have pall : (x'.ids ++ oids (none : Option (Item F (j + 1 + 1))) ++ up.ids).Perm
          (x.ids ++ oids (none : Option (Item F (j + 1))) ++ (Ctx.frame id pre b post up).ids) := by
        rw [eids]
        simp only [oids, Option.elim, List.append_nil]
        rw [← List.append_assoc]
        exact hids.append_right _
      refine ⟨pst.inv, hlen1 ▸ pst.len, pst.root, pst.rep, pst.repY, pst.nd, ?_, ?_, pst.good,
        pst.goodY, ?_, pst.fill, pst.fillY, pst.cnt, pst.cntY,
          fun n hn => pst.sup n (pall.mem_iff.2 hn)⟩
      · intro n hn
        rcases pst.sub n hn with h0 | h0
        · exact Or.inl (pall.mem_iff.1 h0)
        · exact Or.inr (hlen1 ▸ h0)
      · intro m hm hm'
        have hmid : m ≠ id := by rintro rfl; exact hm' (by rw [eids]; simp)
        rw [pst.frame m (hlen1.symm ▸ hm) (fun h0 => hm' (pall.mem_iff.1 h0)), hoth m hmid]
      · rw [eobjs]
        refine pst.objs.trans ?_
        simp only [oobjs, Option.elim, List.append_nil]
        rw [← List.append_assoc]
        exact hobj.append_right _
    | some z =>
      have hzrep := hy z rfl
      have hzpar := hyp (by simp [Ctx.isTop]) z rfl
      simp only [Option.map_some]
      have oz : oids (some z) = z.ids := rfl
      have ooz : oobjs (some z) = z.objs := rfl
      rw [oz] at hnd D1 D3 D7 D8
      have hz1 : z.Rep h1 := hzrep.congr fun n hn => hoth n (by rintro rfl; exact D3 hn)
      have hzid : z.id ≠ id := by rintro h0; exact D3 (by rw [ids_eq, h0]; simp)
      have hz0 := hz1
      obtain ⟨⟨parz, hvz⟩, hzc⟩ := hz0
      have hzp1 : z.Par h1 (some id) := hzpar.congr fun c hcc => by
        cases hcc; exact hoth _ hzid
      simp only [bind, Except.bind]
      rw [Heap.deref_some hvz]
      simp only [Item.computeBoundingBox_es]
      have hvid1 := hv1 id
      rw [if_pos rfl] at hvid1
      set h2 := h1.append grow id ⟨z.box, some z.id, Spatial.zero⟩ with hh2
      have pr : h1.Priv id := hinv1.priv_of_view hvid1 (Or.inl rfl)
      have hinv2 : h2.Inv q := hinv1.append pr grow _
      have hlen2 : h2.nodes.length = h.nodes.length := by rw [hh2, Heap.length_append, hlen1]
      set x' : Item F (j + 1 + 1) := Item.mk id (pre ++ (x.box, x) :: post ++ [(z.box, z)]) with hx'
      have hv2 : ∀ m, h2.view m = if m = id then some ⟨par, false, (j : Int) + 2, x'.es.map Item.entry⟩
          else h1.view m := by
        intro m
        rw [hh2, Heap.view_append hinv1.toOk.toBnd pr hvid1]
        congr 3
        simp [hx', Item.mk_es, Item.entry_succ]
      have hoth2 : ∀ m, m ≠ id → h2.view m = h.view m := fun m hm => by rw [hv2, if_neg hm, hoth m hm]
      have hvid2 := hv2 id
      rw [if_pos rfl] at hvid2
      rw [Heap.deref_some hvid2]
      simp only [List.length_map]
      have hids : (x'.ids).Perm (x.ids ++ z.ids ++ (id :: (idsL pre ++ idsL post))) := by
        rw [ids_eq, hx', Item.mk_id, Item.mk_es, idsL_append, idsL_append, idsL_cons, idsL_cons]
        refine (List.Perm.cons id ?_).trans List.perm_middle.symm
        simp only [idsL_nil, List.append_nil]
        have : (idsL pre ++ (x.ids ++ idsL post) ++ z.ids).Perm (z.ids ++ (idsL pre ++ (x.ids ++ idsL post))) :=
          List.perm_append_comm
        refine this.trans ?_
        have p2 : (idsL pre ++ (x.ids ++ idsL post)).Perm (x.ids ++ (idsL pre ++ idsL post)) := by
          rw [← List.append_assoc, ← List.append_assoc]
          exact List.Perm.append_right _ List.perm_append_comm
        refine (p2.append_left _).trans ?_
        rw [← List.append_assoc]
        exact List.Perm.append_right _ List.perm_append_comm
      have hobj : (x'.objs).Perm (x.objs ++ z.objs ++ (objsL pre ++ objsL post)) := by
        rw [objs_eq, hx', Item.mk_es, objsL_append, objsL_append, objsL_cons, objsL_cons]
        simp only [objsL_nil, List.append_nil]
        have : (objsL pre ++ (x.objs ++ objsL post) ++ z.objs).Perm (z.objs ++ (objsL pre ++ (x.objs ++ objsL post))) :=
          List.perm_append_comm
        refine this.trans ?_
        have p2 : (objsL pre ++ (x.objs ++ objsL post)).Perm (x.objs ++ (objsL pre ++ objsL post)) := by
          rw [← List.append_assoc, ← List.append_assoc]
          exact List.Perm.append_right _ List.perm_append_comm
        refine (p2.append_left _).trans ?_
        rw [← List.append_assoc]
        exact List.Perm.append_right _ List.perm_append_comm
      have hsplit : ∀ p ∈ x'.es, p = (x.box, x) ∨ p = (z.box, z) ∨ p ∈ pre ++ post := by
        intro p hp
        rcases List.mem_append.1 hp with hp | h0
        · rcases List.mem_append.1 hp with h0 | h0
          · exact Or.inr (Or.inr (List.mem_append_left _ h0))
          · rcases List.mem_cons.1 h0 with h0 | h0
            · exact Or.inl h0
            · exact Or.inr (Or.inr (List.mem_append_right _ h0))
        · exact Or.inr (Or.inl (List.mem_singleton.1 h0))
      have hxi : ∀ n ∈ x.ids, n ≠ id := by rintro n hn rfl; exact D2 hn
      have hzi : ∀ n ∈ z.ids, n ≠ id := by rintro n hn rfl; exact D3 hn
      have back : ∀ m, m ≠ id → h2.view m = h1.view m := fun m hm => by rw [hv2, if_neg hm]
      have hsi : ∀ p ∈ pre ++ post, ∀ n ∈ p.2.ids, n ≠ id := by
        rintro p hp n hn rfl
        rcases List.mem_append.1 hp with hp | hp
        · exact D4 (mem_idsL.2 ⟨p, hp, hn⟩)
        · exact D5 (mem_idsL.2 ⟨p, hp, hn⟩)
      have hrep' : x'.Rep h2 := by
        refine ⟨⟨par, by rw [hx', Item.mk_id, hv2, if_pos rfl, lvl]; rfl⟩, ?_⟩
        intro p hp
        rcases hsplit p hp with rfl | rfl | hp
        · exact ⟨hx1.congr fun n hn => back n (hxi n hn),
            hxp1.congr fun c hcc => back c (hxi c (Item.child_mem_ids hcc))⟩
        · exact ⟨hz1.congr fun n hn => back n (hzi n hn),
            hzp1.congr fun c hcc => back c (hzi c (Item.child_mem_ids hcc))⟩
        · exact ⟨(hs1 p hp).1.congr fun n hn => back n (hsi p hp n hn),
            (hs1 p hp).2.congr fun c hcc => back c (hsi p hp c (Item.child_mem_ids hcc))⟩
      have hup2 : up.Rep h2 t.root id := hup1.congr (fun n hn => back n (by rintro rfl; exact D6 hn))
        (fun v hv => by
          rw [hvid1] at hv; cases hv
          exact ⟨_, hvid2, rfl⟩)
      have good' : ∀ p ∈ x'.es, p.1 = p.2.box ∧ p.2.Good := by
        intro p hp
        rcases hsplit p hp with rfl | rfl | hp
        · exact ⟨rfl, gx⟩
        · exact ⟨rfl, gy z rfl⟩
        · exact gs p hp
      have fill' : ∀ p ∈ x'.es, p.2.Cnt lo hi ∧ p.2.Fill lo hi := by
        intro p hp
        rcases hsplit p hp with rfl | rfl | hp
        · exact ⟨hcx.1, fx⟩
        · exact ⟨hcx.2 z rfl, fy z rfl⟩
        · exact fs p hp
      have hnd' : (x'.ids ++ up.ids).Nodup := by
        have : ((x.ids ++ z.ids ++ (id :: (idsL pre ++ idsL post))) ++ up.ids).Nodup := by
          simpa using hnd
        exact ((hids.append_right up.ids).nodup_iff).2 this
      have hxlen : x'.es.length = pre.length + 1 + post.length + 1 := by simp [hx']; omega
      have pall : (x'.ids ++ up.ids).Perm
          (x.ids ++ oids (some z) ++ (Ctx.frame id pre b post up).ids) := by
        rw [eids, oz, ← List.append_assoc]
        exact hids.append_right _
      obtain ⟨hhi2, hmax, hlo'⟩ := hlo
      by_cases hover : (x'.es.length : Int) > t.MaxChildren
      · rw [if_pos hover]
        obtain ⟨h3, les, res, s1, s2, s3, s4, s5, s6, s7, s8, ⟨w1, s9, s9'⟩, ⟨w2, s10, s10'⟩, s11, s12⟩ :=
          splitItem_spec grow hinv2 x' hrep' (List.nodup_append.1 hnd').1 hvid2 (Or.inl (by omega))
            t.MinChildren (by omega)
        have s1' : split grow h2 id t.MinChildren = .ok (h3, h2.nodes.length) := s1
        rw [s1']
        simp only
        set R := h2.nodes.length with hR
        have hup3 : up.Rep h3 t.root id := hup2.congr
          (fun n hn => s11 n (Nat.ne_of_lt (hup2.valid n hn)) (by
            intro h0
            exact (List.nodup_append.1 hnd').2.2 n h0 n hn rfl))
          (fun v hv => by
            rw [hvid2] at hv; cases hv
            exact ⟨w1, s9, s9'⟩)
        have hval' : ∀ n ∈ x'.ids ++ up.ids, n < R := by
          intro n hn
          rcases List.mem_append.1 hn with h0 | h0
          · exact hrep'.valid n h0
          · exact hup2.valid n h0
        have hlr : (idsL les ++ idsL res).Perm (idsL x'.es) := by
          rw [← idsL_append]; exact idsL_perm s4
        have px : (id :: (idsL les ++ idsL res)).Perm x'.ids := hlr.cons id
        have pp : ((Item.mk id les).ids ++ oids (some (Item.mk R res)) ++ up.ids).Perm
            (R :: ((id :: (idsL les ++ idsL res)) ++ up.ids)) := by
          show ((id :: idsL les) ++ (R :: idsL res) ++ up.ids).Perm _
          have : ((id :: idsL les) ++ (R :: idsL res)).Perm (R :: (id :: (idsL les ++ idsL res))) :=
            List.perm_middle.trans (List.Perm.refl _)
          exact this.append_right up.ids
        have pp2 : ((Item.mk id les).ids ++ oids (some (Item.mk R res)) ++ up.ids).Perm
            (R :: (x'.ids ++ up.ids)) := pp.trans ((px.append_right _).cons R)
        have hnd3 : ((Item.mk id les).ids ++ oids (some (Item.mk R res)) ++ up.ids).Nodup := by
          have hRn : R ∉ x'.ids ++ up.ids := fun h0 => Nat.lt_irrefl R (hval' R h0)
          rw [pp2.nodup_iff, List.nodup_cons]
          exact ⟨hRn, hnd'⟩
        have lesx : ∀ p ∈ les, p ∈ x'.es := fun p hp => s4.mem_iff.1 (List.mem_append_left _ hp)
        have resx : ∀ p ∈ res, p ∈ x'.es := fun p hp => s4.mem_iff.1 (List.mem_append_right _ hp)
        have hlen : les.length + res.length = x'.es.length := by
          have := s4.length_eq; simpa using this
        have hl0 : 0 < les.length := List.length_pos_iff.2 s5
        have hr0 : 0 < res.length := List.length_pos_iff.2 s6
        have hmin : lo ≤ les.length ∧ lo ≤ res.length := by
          rcases hlo' with h0 | ⟨h0, h1'⟩
          · omega
          · by_cases hl1 : 1 ≤ t.MinChildren
            · have := s12 hl1 (by omega); omega
            · omega
        obtain ⟨h', X, Y, e, pst⟩ := ih fuel h3 (Item.mk id les) (some (Item.mk R res)) hfuel s2 s7 hup3
          (by rintro y' ⟨⟩; exact s8)
          (by
            rintro ht y' ⟨⟩
            refine ⟨w2, s10, ?_⟩
            rw [s10']
            cases up with
            | top => exact absurd trivial ht
            | frame uid upre ub upost uup =>
              obtain ⟨-, -, -, ⟨vv, hvv, hvvp⟩, -⟩ := hup2
              rw [hvid2] at hvv
              cases hvv
              exact hvvp)
          hnd3
          (fun p hp => good' p (lesx p hp))
          (by rintro y' ⟨⟩; exact fun p hp => good' p (resx p hp))
          gup
          (fun p hp => fill' p (lesx p hp))
          (by rintro y' ⟨⟩; exact fun p hp => fill' p (resx p hp))
          fup
          (by
            intro _
            refine ⟨⟨hmin.1, ?_⟩, ?_⟩
            · simp only [Item.mk_es]; omega
            · rintro y' ⟨⟩
              refine ⟨hmin.2, ?_⟩
              simp only [Item.mk_es]; omega)
          (by intro _ h0; exact absurd h0 (by simp))
        refine ⟨h', X, Y, e, ?_⟩
        refine ⟨pst.inv, by have := pst.len; omega, pst.root, pst.rep, pst.repY, pst.nd, ?_, ?_, pst.good,
          pst.goodY, ?_, pst.fill, pst.fillY, pst.cnt, pst.cntY,
          fun n hn => pst.sup n (pp2.mem_iff.2 (List.mem_cons_of_mem _ (pall.mem_iff.2 hn)))⟩
        · intro n hn
          rcases pst.sub n hn with h0 | h0
          · rcases List.mem_cons.1 (pp2.mem_iff.1 h0) with h1' | h1'
            · right; omega
            · exact Or.inl (pall.mem_iff.1 h1')
          · right; omega
        · intro m hm hm'
          have hmid : m ≠ id := by rintro rfl; exact hm' (by rw [eids]; simp)
          have hmx : m ∉ x'.ids ++ up.ids := fun h0 => hm' (pall.mem_iff.1 h0)
          have hmR : m ≠ R := by omega
          have hmn : m ∉ (Item.mk id les).ids ++ oids (some (Item.mk R res)) ++ up.ids := by
            intro h0
            rcases List.mem_cons.1 (pp2.mem_iff.1 h0) with h1' | h1'
            · exact hmR h1'
            · exact hmx h1'
          rw [pst.frame m (by omega) hmn, s11 m hmR (fun h0 => hmx (List.mem_append_left _ h0)),
            hoth2 m hmid]
        · rw [eobjs, ooz]
          refine pst.objs.trans ?_
          rw [← List.append_assoc]
          refine List.Perm.append_right _ ?_
          refine List.Perm.trans ?_ hobj
          show (objsL les ++ objsL res).Perm (objsL x'.es)
          rw [← objsL_append]; exact objsL_perm s4
      · rw [if_neg hover]
        obtain ⟨h', X, Y, e, pst⟩ := ih fuel h2 x' none hfuel hinv2 hrep' hup2 (by simp) (by simp)
          (by simpa [oids] using hnd') good' (by simp) gup fill' (by simp) fup
          (by
            intro h0
            refine ⟨?_, by simp⟩
            simp only [Option.isSome_none, Bool.false_eq_true, or_false] at h0
            have := fr2 h0
            refine ⟨?_, ?_⟩ <;> omega)
          (by
            intro h0 _
            have := fr1 h0
            refine ⟨?_, fun _ => ?_⟩ <;> omega)
        refine ⟨h', X, Y, e, ?_⟩
        refine ⟨pst.inv, by have := pst.len; omega, pst.root, pst.rep, pst.repY, pst.nd, ?_, ?_, pst.good,
          pst.goodY, ?_, pst.fill, pst.fillY, pst.cnt, pst.cntY,
          fun n hn => pst.sup n (by have := pall.mem_iff.2 hn; simpa [oids] using this)⟩
        · intro n hn
          rcases pst.sub n hn with h0 | h0
          · exact Or.inl (pall.mem_iff.1 (by simpa [oids] using h0))
          · right; omega
        · intro m hm hm'
          have hmid : m ≠ id := by rintro rfl; exact hm' (by rw [eids]; simp)
          rw [pst.frame m (by omega) (fun h0 => hm' (pall.mem_iff.1 (by simpa [oids] using h0))), hoth2 m hmid]
        · rw [eobjs, ooz]
          refine pst.objs.trans ?_
          simp only [oobjs, Option.elim, List.append_nil]
          rw [← List.append_assoc]
          exact hobj.append_right _

end GoGeo
