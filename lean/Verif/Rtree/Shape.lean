import Verif.Rtree.Total

/-!
# From the ghost tree to the tree in memory
-/

set_option linter.unusedSectionVars false

namespace GoGeo
open GoFloat Spec
variable {F : Type} [GoFloat F]

theorem idsL_nodup_of_mem {j : Nat} {es : List (Box F × Item F j)} {p : Box F × Item F j}
    (h : (idsL es).Nodup) (hp : p ∈ es) : p.2.ids.Nodup := by
  refine List.Nodup.sublist ?_ h
  unfold idsL
  obtain ⟨a, b, hab⟩ := List.append_of_mem hp
  rw [hab, List.flatMap_append, List.flatMap_cons]
  exact (List.sublist_append_left _ _).trans (List.sublist_append_right _ _)

/-- a node found by walking is a node of the ghost tree -/
theorem node_ghost {q : Bool} {lo hi r : Nat} {s : RState F} {K : Nat} {X : Item F (K + 1)}
    (ti : TInv q lo hi r s X) {d n : Nat} (hn : NodeAt s d n) :
    ∃ (j : Nat) (y : Item F (j + 1)), d + j = K ∧ y.id = n ∧ y.Rep s.h ∧ y.Good ∧ y.Fill lo hi ∧
      (0 < d → y.Cnt lo hi) ∧ y.ids.Nodup ∧ (d = 0 → n = X.id ∧ RootCnt hi r y) ∧
      (0 < d → ∀ m ∈ y.ids, m ∈ idsL X.es) ∧ (∀ m ∈ idsL y.es, m ∈ idsL X.es) ∧
      (∀ o ∈ y.objs, o ∈ X.objs) := by
  induction hn with
  | root =>
    exact ⟨K, X, by omega, ti.root, ti.rep, ti.good, ti.fill, by omega, ti.nd,
      fun _ => ⟨ti.root.symm, ti.cnt⟩, by omega, fun m h => h, fun o h => h⟩
  | @child d n c v e hn hv he hc ih =>
    obtain ⟨j, y, h1, h2, h3, h4, h5, h6, h7, h8, h9, h10, h11⟩ := ih
    obtain ⟨⟨par, hv'⟩, hch⟩ := id h3
    rw [h2, hv, Option.some.injEq] at hv'
    subst hv'
    obtain ⟨p, hp, rfl⟩ := List.mem_map.1 he
    cases j with
    | zero => cases hc
    | succ j =>
      have hpid : p.2.id = c := by simpa using hc
      have hsub : ∀ m ∈ p.2.ids, m ∈ idsL X.es := fun m hm => h10 m (mem_idsL.2 ⟨p, hp, hm⟩)
      refine ⟨j, p.2, by omega, hpid, (hch p hp).1, (h4 p hp).2, (h5 p hp).2, fun _ => (h5 p hp).1, ?_,
        by omega, fun _ => hsub, fun m hm => hsub m (by rw [ids_eq]; exact List.mem_cons_of_mem _ hm), ?_⟩
      · rw [ids_eq, List.nodup_cons] at h7
        exact idsL_nodup_of_mem h7.2 hp
      · intro o ho
        exact h11 o (by rw [objs_eq]; exact List.mem_flatMap.2 ⟨p, hp, ho⟩)

/-- every address of the ghost tree is found by walking -/
theorem ghost_node {s : RState F} {j : Nat} (y : Item F (j + 1)) (hy : y.Rep s.h) {d : Nat}
    (hd : NodeAt s d y.id) : ∀ n ∈ y.ids, ∃ k, NodeAt s (d + k) n ∧ (n ∈ idsL y.es → 0 < k) := by
  induction j generalizing d with
  | zero =>
    intro n hn
    have h0 : idsL y.es = [] := by
      unfold idsL; rw [List.flatMap_eq_nil_iff]; intro p _; rfl
    rw [ids_eq, h0, List.mem_singleton] at hn
    subst hn
    exact ⟨0, hd, by rw [h0]; simp⟩
  | succ j ih =>
    intro n hn
    by_cases hin : n ∈ idsL y.es
    · obtain ⟨p, hp, hpn⟩ := mem_idsL.1 hin
      obtain ⟨⟨par, hv⟩, hch⟩ := id hy
      have hc : NodeAt s (d + 1) p.2.id :=
        NodeAt.child hd hv (List.mem_map.2 ⟨p, hp, rfl⟩) rfl
      obtain ⟨k, hk, -⟩ := ih p.2 (hch p hp).1 hc n hpn
      exact ⟨1 + k, by rw [← Nat.add_assoc]; exact hk, by omega⟩
    · rw [ids_eq, List.mem_cons] at hn
      rcases hn with rfl | hn
      · exact ⟨0, hd, fun h => absurd h hin⟩
      · exact absurd hn hin

/-- an object of a ghost subtree is stored, and at each depth on the way the node's box covers it -/
theorem ghost_obj [FloatOrd F] {s : RState F} {j : Nat} (y : Item F (j + 1)) (hy : y.Rep s.h) (gy : y.Good)
    {d : Nat} (hd : NodeAt s d y.id) {o : Spatial F} (ho : o ∈ y.objs) :
    StoredIn s o ∧ ∀ k, d ≤ k → k ≤ d + j → ∃ n, NodeAt s k n ∧ Inside (BoundingBox o.Geom) (nodeBox s n) := by
  induction j generalizing d with
  | zero =>
    obtain ⟨⟨par, hv⟩, hch⟩ := id hy
    rw [objs_eq] at ho
    obtain ⟨p, hp, hpo⟩ := List.mem_flatMap.1 ho
    have hpo' : o = p.2 := List.mem_singleton.1 hpo
    refine ⟨⟨d, y.id, _, Item.entry p, hd, hv, rfl, List.mem_map.2 ⟨p, hp, rfl⟩, hpo'.symm⟩, ?_⟩
    intro k h1 h2
    have : k = d := by omega
    subst this
    refine ⟨y.id, hd, ?_⟩
    have hb : nodeBox s y.id = y.box := by
      unfold nodeBox; rw [hv]; exact Item.computeBoundingBox_es y
    rw [hb]
    exact (Item.box_spec y gy).2 o ho
  | succ j ih =>
    obtain ⟨⟨par, hv⟩, hch⟩ := id hy
    have ho' := ho
    rw [objs_eq] at ho'
    obtain ⟨p, hp, hpo⟩ := List.mem_flatMap.1 ho'
    have hc : NodeAt s (d + 1) p.2.id :=
      NodeAt.child hd hv (List.mem_map.2 ⟨p, hp, rfl⟩) rfl
    obtain ⟨h1, h2⟩ := ih p.2 (hch p hp).1 (gy p hp).2 hc hpo
    refine ⟨h1, ?_⟩
    intro k hk1 hk2
    by_cases hkd : k = d
    · subst hkd
      refine ⟨y.id, hd, ?_⟩
      have hb : nodeBox s y.id = y.box := by
        unfold nodeBox; rw [hv]; exact Item.computeBoundingBox_es y
      rw [hb]
      exact (Item.box_spec y gy).2 o ho
    · exact h2 k (by omega) (by omega)

/-- stored objects are the objects of the ghost tree -/
theorem stored_iff [FloatOrd F] {q : Bool} {lo hi r : Nat} {s : RState F} {K : Nat} {X : Item F (K + 1)}
    (ti : TInv q lo hi r s X) (o : Spatial F) : StoredIn s o ↔ o ∈ X.objs := by
  constructor
  · rintro ⟨d, n, v, e, hn, hv, hl, he, rfl⟩
    obtain ⟨j, y, h1, h2, h3, h4, h5, h6, h7, h8, h9, h10, h11⟩ := node_ghost ti hn
    obtain ⟨⟨par, hv'⟩, hch⟩ := id h3
    rw [h2, hv, Option.some.injEq] at hv'
    subst hv'
    have hj : j = 0 := by simpa using hl
    subst hj
    obtain ⟨p, hp, rfl⟩ := List.mem_map.1 he
    exact h11 _ (by rw [objs_eq]; exact List.mem_flatMap.2 ⟨p, hp, List.mem_singleton.2 rfl⟩)
  · intro ho
    exact (ghost_obj X ti.rep ti.good (by rw [ti.root]; exact NodeAt.root) ho).1

theorem shaped_of {q : Bool} {lo hi r : Nat} {s : RState F} {K : Nat} {X : Item F (K + 1)}
    (ti : TInv q lo hi r s X) : Shaped s ∧
    (∀ d n v, NodeAt s (d + 1) n → s.h.view n = some v → lo ≤ v.entries.length) ∧
    (∀ v, s.h.view s.t.root = some v → v.leaf = false → r ≤ v.entries.length) := by
  have get : ∀ d n, NodeAt s d n → ∃ (j : Nat) (y : Item F (j + 1)) (par : Option Nat), d + j = K ∧ y.id = n ∧
      y.Rep s.h ∧ y.Good ∧ (0 < d → y.Cnt lo hi) ∧ y.ids.Nodup ∧ (d = 0 → n = X.id ∧ RootCnt hi r y) ∧
      s.h.view n = some ⟨par, j == 0, (j : Int) + 1, y.es.map Item.entry⟩ ∧
      ∀ p ∈ y.es, p.2.Rep s.h ∧ p.2.Par s.h (some y.id) := by
    intro d n hn
    obtain ⟨j, y, h1, h2, h3, h4, h5, h6, h7, h8, -⟩ := node_ghost ti hn
    obtain ⟨⟨par, hv'⟩, hch⟩ := id h3
    rw [h2] at hv'
    exact ⟨j, y, par, h1, h2, h3, h4, h6, h7, h8, hv', hch⟩
  have hmax := ti.lo.2.1
  have hdep : Depth s = (K : Int) + 1 := ti.height
  refine ⟨⟨?_, ?_, ?_, ?_, ?_, ?_, ?_⟩, ?_, ?_⟩
  · intro d n hn
    obtain ⟨j, y, par, -, -, -, -, -, -, -, hv, -⟩ := get d n hn
    exact ⟨_, hv⟩
  · intro d n v hn hv
    obtain ⟨j, y, par, h1, -, -, -, -, -, -, hv', -⟩ := get d n hn
    rw [hv] at hv'; cases hv'
    rw [hdep]; simp only [beq_iff_eq]; omega
  · intro d n v hn hv
    obtain ⟨j, y, par, h1, -, -, -, -, -, -, hv', -⟩ := get d n hn
    rw [hv] at hv'; cases hv'
    rw [hdep]; simp only; omega
  · intro d n v hn hv
    obtain ⟨j, y, par, h1, -, -, -, h6, -, h8, hv', -⟩ := get d n hn
    rw [hv] at hv'; cases hv'
    simp only [List.length_map]
    by_cases hd : 0 < d
    · have := (h6 hd).2; omega
    · have := ((h8 (by omega)).2).1; omega
  · intro d n v e hn hv hl he
    obtain ⟨j, y, par, h1, -, -, h5, -, -, -, hv', hch⟩ := get _ _ hn
    rw [hv] at hv'; cases hv'
    have hj : j = 0 := by simpa using hl
    subst hj
    obtain ⟨p, hp, rfl⟩ := List.mem_map.1 he
    exact ⟨rfl, (h5 p hp).1⟩
  · intro d n v e hn hv hl he
    obtain ⟨j, y, par, h1, h2, -, h5, -, -, -, hv', hch⟩ := get _ _ hn
    rw [hv] at hv'; cases hv'
    obtain ⟨k, rfl⟩ : ∃ k, j = k + 1 := ⟨j - 1, by simp at hl; omega⟩
    obtain ⟨p, hp, rfl⟩ := List.mem_map.1 he
    obtain ⟨hr, v1, hv1, hpar⟩ := hch p hp
    obtain ⟨⟨par', hv2⟩, -⟩ := hr
    rw [hv1, Option.some.injEq] at hv2
    refine ⟨p.2.id, v1, rfl, hv1, by rw [hpar, h2], ?_⟩
    rw [hv2]
    show p.1 = _
    rw [(h5 p hp).1]
    exact (Item.computeBoundingBox_es p.2).symm
  · intro d n v hn hv
    obtain ⟨j, y, par, h1, h2, -, h5, -, h7, -, hv', hch⟩ := get _ _ hn
    rw [hv] at hv'; cases hv'
    rw [ids_eq, List.nodup_cons] at h7
    exact List.Nodup.sublist (kids_sublist y.es) h7.2
  · intro d n v hn hv
    obtain ⟨j, y, par, h1, -, -, -, h6, -, h8, hv', -⟩ := get _ n hn
    rw [hv] at hv'; cases hv'
    simp only [List.length_map]
    exact (h6 (by omega)).1
  · intro v hv hl
    obtain ⟨j, y, par, h1, -, -, -, h6, -, h8, hv', -⟩ := get _ _ (NodeAt.root (s := s))
    rw [hv] at hv'; cases hv'
    simp only [List.length_map]
    exact ((h8 rfl).2).2 (by simpa using hl)

theorem balanced_of {q : Bool} {lo hi : Nat} {s : RState F} {K : Nat} {X : Item F (K + 1)}
    (ti : TInv q lo hi 2 s X) (hlo : (lo : Int) = s.t.MinChildren) : Balanced s := by
  obtain ⟨h1, h2, h3⟩ := shaped_of ti
  exact ⟨h1, fun d n v hn hv => by rw [← hlo]; exact_mod_cast h2 d n v hn hv, h3⟩

theorem sub_box {s : RState F} {j : Nat} (x : Item F (j + 1)) (hx : x.Rep s.h) (gx : x.Good) :
    x.sub.map (·.1) = (x.sub.map (·.2)).map (nodeBox s) := by
  rw [List.map_map]
  refine List.map_congr_left ?_
  induction j with
  | zero => intro a ha; cases ha
  | succ j ih =>
    intro a ha
    rw [Item.sub_succ, List.mem_flatMap] at ha
    obtain ⟨p, hp, ha⟩ := ha
    rcases List.mem_append.1 ha with ha | ha
    · exact ih p.2 (hx.2 p hp).1 (gx p hp).2 a ha
    · rw [List.mem_singleton.1 ha]
      obtain ⟨⟨par, hv⟩, -⟩ := (hx.2 p hp).1
      show p.1 = nodeBox s p.2.id
      unfold nodeBox
      rw [hv, (gx p hp).1]
      exact (Item.computeBoundingBox_es p.2).symm

/-! ## histories of insertions -/

theorem TInv.empty {min max : Int} {lo hi r : Nat} (hr : r ≤ 2)
    (hlo : LoOk lo hi (NewEmptyTree min max : RState F).t) :
    TInv true lo hi r (NewEmptyTree min max : RState F) (Item.mk 0 [] : Item F (0 + 1)) := by
  have hinv0 : (⟨[], []⟩ : Heap F).Inv true := by
    refine ⟨⟨?_, ?_⟩, ?_⟩ <;> intros <;> simp_all
  have hv := Heap.view_alloc hinv0.toOk.toBnd none true 1 ([] : List (Entry F))
  refine ⟨hinv0.alloc _ _ _ _, rfl, ⟨⟨none, ?_⟩, ?_⟩, ?_, ?_, ?_, ?_, ?_, hlo, hr⟩
  · have h0 := hv 0
    exact h0
  · intro p hp; cases hp
  · simp [ids_eq]
  · intro p hp; cases hp
  · intro p hp; cases hp
  · exact ⟨Nat.zero_le _, fun h => absurd rfl h⟩
  · rfl

/-- one insertion -/
theorem Insert_spec {lo hi r : Nat} (grow : Nat → Nat) {s : RState F} {K : Nat}
    {X : Item F (K + 1)} (ti : TInv true lo hi r s X) (o : Spatial F) {s' : RState F}
    (h : Insert grow s o = .ok s') :
    ∃ (K' : Nat) (X' : Item F (K' + 1)), TInv true lo hi r s' X' ∧ X'.objs.Perm (o :: X.objs) ∧
      s'.t.size = s.t.size + 1 ∧ s'.t.MinChildren = s.t.MinChildren := by
  unfold Insert at h
  cases hc : chooseNode s.h (⟨BoundingBox o.Geom, none, o⟩ : Entry F) 1 (s.h.nodes.length + 1) (some s.t.root) with
  | error e =>
    simp [insert, hc, bind, Except.bind] at h
  | ok res =>
    obtain ⟨s1, K', X', h1, h2, -, h4, h5, h6, -⟩ := insert_spec grow s X ti (i := 0) (Nat.zero_le _)
      (o : Item F 0) trivial trivial trivial trivial (show (X.ids ++ []).Nodup by rw [List.append_nil]; exact ti.nd)
      (Or.inr rfl) hc
    have h1' : insert grow s (⟨BoundingBox o.Geom, none, o⟩ : Entry F) 1 = .ok s1 := h1
    rw [h1'] at h
    simp only [bind, Except.bind, Except.ok.injEq] at h
    subst h
    exact ⟨K', X', ⟨h2.inv, h2.root, h2.rep, h2.nd, h2.good, h2.fill, h2.cnt, h2.height, h2.lo, h2.r2⟩, h4,
      by simp [h5], h6⟩

section
variable {K : Type} [Field K] [LinearOrder K] [IsStrictOrderedRing K] [FloatVal F K]
include K

theorem Insert_total {lo hi r : Nat} (hl1 : 1 ≤ lo) (hr1 : 1 ≤ r) (grow : Nat → Nat) {s : RState F} {J : Nat}
    {X : Item F (J + 1)} (ti : TInv true lo hi r s X) (hX : ∀ o ∈ X.objs, CoordsOk o.Geom)
    (o : Spatial F) (ho : CoordsOk o.Geom) : ∃ s', Insert grow s o = .ok s' := by
  have hlen : X.ids.length ≤ s.h.nodes.length := length_le_of_nodup ti.nd ti.rep.valid
  obtain ⟨res, hc⟩ := chooseNode_total hl1 (⟨BoundingBox o.Geom, none, o⟩ : Entry F) (BBox_BoundingBox ho) 1
    (s.h.nodes.length + 1) J X (by omega) ti.rep ti.good ti.fill
    (fun hj h0 => by have := ti.cnt.2 (by omega); rw [h0] at this; simp at this; omega) hX
  rw [ti.root] at hc
  obtain ⟨s1, K', X', h1, -⟩ := insert_spec grow s X ti (i := 0) (Nat.zero_le _)
      (o : Item F 0) trivial trivial trivial trivial (show (X.ids ++ []).Nodup by rw [List.append_nil]; exact ti.nd)
      (Or.inr rfl) hc
  have h1' : insert grow s (⟨BoundingBox o.Geom, none, o⟩ : Entry F) 1 = .ok s1 := h1
  unfold Insert
  rw [h1']
  exact ⟨_, rfl⟩
end

theorem insertAll_spec {lo hi r : Nat} (grow : Nat → Nat) (objs : List (Spatial F)) :
    ∀ {s : RState F} {K : Nat} {X : Item F (K + 1)}, TInv true lo hi r s X → ∀ {s' : RState F},
    insertAll grow s objs = .ok s' →
    ∃ (K' : Nat) (X' : Item F (K' + 1)), TInv true lo hi r s' X' ∧ X'.objs.Perm (X.objs ++ objs) ∧
      s'.t.size = s.t.size + objs.length ∧ s'.t.MinChildren = s.t.MinChildren := by
  induction objs with
  | nil =>
    intro s K X ti s' h
    cases h
    exact ⟨K, X, ti, by simp, by simp, rfl⟩
  | cons o objs ih =>
    intro s K X ti s' h
    unfold insertAll at h
    rw [List.foldlM_cons] at h
    cases h1 : Insert grow s o with
    | error e => rw [h1] at h; cases h
    | ok s1 =>
      rw [h1] at h
      obtain ⟨K1, X1, t1, p1, z1, m1⟩ := Insert_spec grow ti o h1
      obtain ⟨K2, X2, t2, p2, z2, m2⟩ := ih t1 h
      refine ⟨K2, X2, t2, p2.trans ?_, ?_, m2.trans m1⟩
      · exact (p1.append_right objs).trans (by simpa using List.perm_middle.symm)
      · rw [z2, z1]; push_cast [List.length_cons]; omega

section
variable {K : Type} [Field K] [LinearOrder K] [IsStrictOrderedRing K] [FloatVal F K]
include K

theorem insertAll_total {lo hi r : Nat} (hl1 : 1 ≤ lo) (hr1 : 1 ≤ r) (grow : Nat → Nat) (objs : List (Spatial F)) :
    ∀ {s : RState F} {J : Nat} {X : Item F (J + 1)}, TInv true lo hi r s X →
    (∀ o ∈ X.objs, CoordsOk o.Geom) → (∀ o ∈ objs, CoordsOk o.Geom) →
    ∃ s', insertAll grow s objs = .ok s' := by
  induction objs with
  | nil => intro s J X _ _ _; exact ⟨s, rfl⟩
  | cons o objs ih =>
    intro s J X ti hX ho
    obtain ⟨s1, h1⟩ := Insert_total hl1 hr1 grow ti hX o (ho o (by simp))
    obtain ⟨K1, X1, t1, p1, -⟩ := Insert_spec grow ti o h1
    obtain ⟨s2, h2⟩ := ih t1 (fun o' ho' => by
      rcases List.mem_cons.1 (p1.mem_iff.1 ho') with rfl | h
      · exact ho _ (by simp)
      · exact hX _ h) (fun o' ho' => ho o' (by simp [ho']))
    refine ⟨s2, ?_⟩
    unfold insertAll
    rw [List.foldlM_cons, h1]
    exact h2
end

theorem SearchIntersect_spec [FloatOrd F] {q : Bool} {lo hi r : Nat} {s : RState F} {K : Nat} {X : Item F (K + 1)}
    (ti : TInv q lo hi r s X) (bb : Option (Box F)) (cond : Option (Spatial F → Bool)) :
    SearchIntersectWithCond s bb cond = .ok (X.objs.filter (hit bb cond)) := by
  have hlen : X.ids.length ≤ s.h.nodes.length := length_le_of_nodup ti.nd ti.rep.valid
  have := searchNode_spec bb cond (s.h.nodes.length + 1) X [] (by omega) ti.rep ti.good
  unfold SearchIntersectWithCond
  rw [← ti.root]
  simpa using this

end GoGeo
