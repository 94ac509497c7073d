import Verif.Rtree.Sim4

/-!
# Insertions into a tree whose leaves share memory: start, insertions, contents and searches
-/

set_option linter.unusedSectionVars false

namespace GoGeo
open GoFloat Spec
variable {F : Type} [GoFloat F]

/-! ## a memory with the same contents where nothing is shared -/

/-- every node gets an array of its own -/
def privatize (h : Heap F) : Heap F :=
  ⟨h.nodes.mapIdx fun i nd => { nd with entries := ⟨i, 0, nd.entries.len, nd.entries.len⟩ }, h.nodes.map fun nd => h.slice nd.entries⟩

theorem privatize_node {h : Heap F} {n : Nat} {nd : Node} (hn : (privatize h).nodes[n]? = some nd) :
    ∃ nd', h.nodes[n]? = some nd' ∧ nd = { nd' with entries := ⟨n, 0, nd'.entries.len, nd'.entries.len⟩ } := by
  unfold privatize at hn
  simp only [List.getElem?_mapIdx] at hn
  cases hx : h.nodes[n]? with
  | none => rw [hx] at hn; cases hn
  | some nd' => rw [hx] at hn; cases hn; exact ⟨nd', rfl, rfl⟩

theorem view_privatize (h : Heap F) (n : Nat) : (privatize h).view n = h.view n := by
  unfold Heap.view privatize
  simp only [List.getElem?_mapIdx]
  cases hx : h.nodes[n]? with
  | none => rfl
  | some nd =>
    simp only [Option.map_some, Option.some.injEq, NodeV.mk.injEq, true_and]
    unfold Heap.slice
    simp only [List.getD, List.getElem?_map, hx, Option.map_some, Option.getD_some, List.drop_zero]
    rw [List.take_take, min_self]

theorem privatize_inv {h : Heap F} (hb : h.Bnd) : (privatize h).Inv true := by
  refine ⟨⟨?_, ?_⟩, ?_⟩
  · intro n nd hn
    obtain ⟨nd', h1, rfl⟩ := privatize_node hn
    refine ⟨h.slice nd'.entries, ?_, ?_, le_refl _⟩
    · unfold privatize; simp [h1]
    · rw [hb.len h1]; simp
  · intro n m a b hne h1 h2 h3
    obtain ⟨a', -, rfl⟩ := privatize_node h1
    obtain ⟨b', -, rfl⟩ := privatize_node h2
    exact absurd h3 hne
  · intro n nd hn _ m a b hne h1 h2 h3
    obtain ⟨a', -, rfl⟩ := privatize_node h1
    obtain ⟨b', -, rfl⟩ := privatize_node h2
    exact absurd h3 hne

theorem DInv.of_TInv {q : Bool} {lo hi r : Nat} {P : Spatial F → Prop} {s : RState F} {K : Nat} {X : Item F (K + 1)}
    (ti : TInv q lo hi r s X) (hP : ∀ o ∈ X.objs, P o) : DInv lo hi r P s (privatize s.h) X := by
  have hb : s.h.Bnd := ti.inv.toOk.toBnd
  have hv := view_privatize s.h
  have rep : X.Rep (privatize s.h) := ti.rep.congr fun n _ => hv n
  refine ⟨⟨privatize_inv hb, ti.root, rep, ti.nd, ti.good, ti.fill, ti.cnt, ti.height, ti.lo, ti.r2⟩, ?_, hP⟩
  refine ⟨?_, hb, ?_, privatize_inv hb, ?_, ?_, ?_⟩
  · unfold privatize; simp
  · intro n v h1 h2
    exact ti.inv.priv_of_view h1 (Or.inl h2)
  · rintro n ⟨v, h1, -⟩
    rw [hv] at h1; exact Heap.view_lt h1
  · intro n _; exact (hv n).symm
  · rintro n ⟨v, h1, h2⟩
    refine ⟨v, v, h1, by rw [← hv]; exact h1, rfl, h2, h2, rfl, rfl, ?_⟩
    intro hn e he
    exact X.leaf_entries rep ti.good hP n hn v h1 h2 e he

/-! ## what is stored -/

section
variable {lo hi r : Nat} {P : Spatial F → Prop} {s : RState F} {k : Heap F} {K : Nat} {X : Item F (K + 1)}

theorem leafObjs_sim {Q : Nat → List (Entry F) → List (Entry F) → Prop} {h k : Heap F} (sim : Sim (Lf k) Q h k) (fuel : Nat) :
    ∀ {j : Nat} (x : Item F (j + 1)), x.ids.length ≤ fuel → x.Rep k → leafObjs h fuel (some x.id) = x.ids.flatMap (lcont h) := by
  induction fuel with
  | zero => intro j x hf; rw [ids_eq] at hf; simp at hf
  | succ fuel ih =>
    intro j x hf hx
    obtain ⟨⟨par, hv⟩, hch⟩ := id hx
    cases j with
    | zero =>
      obtain ⟨v, w, h1, h2, -, h4, -⟩ := sim.dirty (n := x.id) ⟨_, hv, rfl⟩
      have h0 : idsL x.es = [] := by unfold idsL; rw [List.flatMap_eq_nil_iff]; intro p _; rfl
      rw [leafObjs, h2, ids_eq, h0, List.flatMap_cons, List.flatMap_nil, List.append_nil, lcont_of h2]
      simp only [h4, if_true]
    | succ j =>
      have hc : h.view x.id = some ⟨par, false, ((j + 1 : Nat) : Int) + 1, x.es.map Item.entry⟩ := by
        rw [sim.clean]
        · exact hv
        · rintro ⟨v, h1, h2⟩
          rw [hv] at h1; cases h1; cases h2
      rw [leafObjs, hc, ids_eq, List.flatMap_cons, lcont_of hc]
      simp only [Bool.false_eq_true, if_false, List.nil_append, List.flatMap_map]
      unfold idsL
      rw [List.flatMap_assoc]
      have : ∀ (l : List (Box F × Item F (j + 1))), (∀ p ∈ l, p ∈ x.es) →
          l.flatMap (fun p => leafObjs h fuel (Item.entry p).child) = l.flatMap fun p => p.2.ids.flatMap (lcont h) := by
        intro l hl
        induction l with
        | nil => rfl
        | cons p l ihl =>
          rw [List.flatMap_cons, List.flatMap_cons, ihl fun p' hp' => hl p' (by simp [hp'])]
          have hp : p ∈ x.es := hl p (by simp)
          rw [Item.entry_child, Item.child_succ, ih p.2 (by have := ids_lt_of_mem hp; omega) (hch p hp).1]
      exact this x.es fun p hp => hp

theorem DInv.len (d : DInv lo hi r P s k X) : X.ids.length ≤ s.h.nodes.length := by
  rw [d.sim.len]; exact length_le_of_nodup d.ti.nd d.ti.rep.valid

theorem DInv.contents_eq (d : DInv lo hi r P s k X) : contents s = X.ids.flatMap (lcont s.h) := by
  have := d.len
  unfold contents
  have hr : X.id = s.t.root := d.ti.root
  rw [← hr]
  exact leafObjs_sim d.sim _ X (by omega) d.ti.rep

theorem DInv.lcont_length (d : DInv lo hi r P s k X) (n : Nat) : (lcont s.h n).length = (lcont k n).length := by
  by_cases hn : Lf k n
  · obtain ⟨v, w, h1, h2, -, h4, h5, -, h7, -⟩ := d.sim.dirty hn
    rw [lcont_of h1, lcont_of h2, h4, h5]
    simp [h7]
  · unfold lcont; rw [d.sim.clean hn]

theorem DInv.contents_length (d : DInv lo hi r P s k X) : (contents s).length = X.objs.length := by
  rw [d.contents_eq, X.objs_lcont d.ti.rep, List.length_flatMap, List.length_flatMap]
  congr 1
  exact List.map_congr_left fun n _ => d.lcont_length n

theorem DInv.lcont_P (d : DInv lo hi r P s k X) {n : Nat} (hn : n ∈ X.ids) : ∀ o ∈ lcont s.h n, P o := by
  intro o ho
  by_cases hl : Lf k n
  · obtain ⟨v, w, h1, h2, -, h4, h5, -, h7, h8⟩ := d.sim.dirty hl
    rw [lcont_of h2, h4] at ho
    obtain ⟨e, he, rfl⟩ := List.mem_map.1 ho
    exact (h8 hn e he).2.2
  · unfold lcont at ho
    rw [d.sim.clean hl] at ho
    cases hv : k.view n with
    | none => rw [hv] at ho; cases ho
    | some v =>
      rw [hv] at ho
      simp only at ho
      split_ifs at ho with h0
      · exact absurd ⟨v, hv, h0⟩ hl
      · cases ho

theorem DInv.contents_P (d : DInv lo hi r P s k X) : ∀ o ∈ contents s, P o := by
  intro o ho
  rw [d.contents_eq] at ho
  obtain ⟨n, hn, ho⟩ := List.mem_flatMap.1 ho
  exact d.lcont_P hn o ho

end

/-! ## searching -/

section
variable [FloatOrd F]

/-- a leaf's entries are filtered -/
theorem searchLoop_leaf {P : Spatial F → Prop} (bb : Option (Box F)) (cond : Option (Spatial F → Bool))
    (rec : Option Nat → List (Spatial F) → Go (List (Spatial F))) (es : List (Entry F)) (hes : ∀ e ∈ es, OkE P e) :
    ∀ res, searchLoop bb cond rec true es res = .ok (res ++ (es.map (·.obj)).filter (hit bb cond)) := by
  induction es with
  | nil => intro res; simp [searchLoop]
  | cons e es ih =>
    intro res
    have he := (hes e (by simp)).2.1
    have ih' := ih fun e' he' => hes e' (by simp [he'])
    rw [searchLoop.eq_def]
    dsimp only
    rw [he, List.map_cons, List.filter_cons]
    by_cases hi : Box.IntersectPtr (some (BoundingBox e.obj.Geom)) bb = true
    · rw [hi]
      simp only [Bool.not_true, Bool.false_eq_true, if_false]
      cases cond with
      | none =>
        simp only
        rw [ih', if_pos (by simp [hit, hi])]
        simp
      | some c =>
        simp only
        by_cases hc : c e.obj = true
        · rw [if_pos hc, ih', if_pos (by simp [hit, hi, hc])]
          simp
        · rw [if_neg hc, ih', if_neg (by simp [hit, hi, hc])]
    · rw [Bool.not_eq_true] at hi
      have hh : hit bb cond e.obj = false := by simp [hit, hi]
      simp only [hi, hh, Bool.not_false, if_true, Bool.false_eq_true, if_false]
      exact ih' res

theorem searchNode_sim {P : Spatial F → Prop} {h k : Heap F} {I : List Nat}
    (sim : Sim (Lf k) (fun n w _ => n ∈ I → ∀ e ∈ w, OkE P e) h k)
    (bb : Option (Box F)) (cond : Option (Spatial F → Bool)) (fuel : Nat) :
    ∀ {j : Nat} (x : Item F (j + 1)) (results : List (Spatial F)), x.ids.length ≤ fuel → x.Rep k → x.Good → (∀ n ∈ x.ids, n ∈ I) →
    ∃ R, searchNode h bb cond fuel (some x.id) results = .ok (results ++ R) ∧
      R.Sublist ((x.ids.flatMap (lcont h)).filter (hit bb cond)) ∧
      ∀ n ∈ x.ids, ∀ o ∈ lcont h n, o ∈ lcont k n → hit bb cond o = true → o ∈ R := by
  induction fuel with
  | zero => intro j x results hf; rw [ids_eq] at hf; simp at hf
  | succ fuel ih =>
    intro j x results hf hx gx hI
    obtain ⟨⟨par, hv⟩, hch⟩ := id hx
    have hxI : x.id ∈ I := hI _ (by rw [ids_eq]; simp)
    cases j with
    | zero =>
      obtain ⟨v, w, h1, h2, -, h4, -, -, -, h8⟩ := sim.dirty (n := x.id) ⟨_, hv, rfl⟩
      have h0 : idsL x.es = [] := by unfold idsL; rw [List.flatMap_eq_nil_iff]; intro p _; rfl
      have hl : lcont h x.id = w.entries.map (·.obj) := by rw [lcont_of h2, h4]; rfl
      refine ⟨(lcont h x.id).filter (hit bb cond), ?_, ?_, ?_⟩
      · rw [searchNode, Heap.deref_some h2]
        simp only [bind, Except.bind, h4]
        rw [searchLoop_leaf bb cond _ _ (h8 hxI), hl]
      · rw [ids_eq, h0, List.flatMap_cons, List.flatMap_nil, List.append_nil]
      · intro n hn o ho _ hh
        rw [ids_eq, h0, List.mem_singleton] at hn
        subst hn
        exact List.mem_filter.2 ⟨ho, hh⟩
    | succ j =>
      have hc : h.view x.id = some ⟨par, false, ((j + 1 : Nat) : Int) + 1, x.es.map Item.entry⟩ := by
        rw [sim.clean]
        · exact hv
        · rintro ⟨v, h1, h2⟩
          rw [hv] at h1; cases h1; cases h2
      rw [searchNode, Heap.deref_some hc]
      simp only [bind, Except.bind]
      have loop : ∀ (es : List (Box F × Item F (j + 1))) (res : List (Spatial F)), (∀ p ∈ es, p ∈ x.es) →
          ∃ R, searchLoop bb cond (searchNode h bb cond fuel) false (es.map Item.entry) res = .ok (res ++ R) ∧
            R.Sublist (((idsL es).flatMap (lcont h)).filter (hit bb cond)) ∧
            ∀ n ∈ idsL es, ∀ o ∈ lcont h n, o ∈ lcont k n → hit bb cond o = true → o ∈ R := by
        intro es
        induction es with
        | nil => intro res _; exact ⟨[], by simp [searchLoop], by simp [idsL], by simp [idsL]⟩
        | cons p es ihe =>
          intro res hsub
          have hp : p ∈ x.es := hsub p (by simp)
          have hes : ∀ p' ∈ es, p' ∈ x.es := fun p' hp' => hsub p' (by simp [hp'])
          have gp := gx p hp
          rw [List.map_cons, searchLoop.eq_def]
          dsimp only
          rw [idsL_cons, List.flatMap_append, List.filter_append, Item.entry_bb, gp.1]
          by_cases hi : Box.IntersectPtr (some p.2.box) bb = true
          · rw [hi]
            simp only [Bool.not_true, Bool.not_false, Bool.false_eq_true, if_false, if_true, Item.entry_child, Item.child_succ, bind,
              Except.bind]
            obtain ⟨R1, a1, a2, a3⟩ := ih p.2 res (by have := ids_lt_of_mem hp; omega) (hch p hp).1 gp.2
              (fun n hn => hI n (by rw [ids_eq]; exact List.mem_cons_of_mem _ (mem_idsL.2 ⟨p, hp, hn⟩)))
            rw [a1]
            simp only
            obtain ⟨R2, b1, b2, b3⟩ := ihe (res ++ R1) hes
            refine ⟨R1 ++ R2, by rw [b1, List.append_assoc], a2.append b2, ?_⟩
            intro n hn o ho he hh
            rcases List.mem_append.1 hn with hn | hn
            · exact List.mem_append_left _ (a3 n hn o ho he hh)
            · exact List.mem_append_right _ (b3 n hn o ho he hh)
          · rw [Bool.not_eq_true] at hi
            rw [hi]
            simp only [Bool.not_false, if_true]
            obtain ⟨R2, b1, b2, b3⟩ := ihe res hes
            refine ⟨R2, b1, b2.trans (List.sublist_append_right _ _), ?_⟩
            intro n hn o ho he hh
            rcases List.mem_append.1 hn with hn | hn
            · have ho' : o ∈ p.2.objs := by
                rw [p.2.objs_lcont (hch p hp).1]; exact List.mem_flatMap.2 ⟨n, hn, he⟩
              have := pruned gp.2 cond hi
              rw [List.filter_eq_nil_iff] at this
              exact absurd hh (this o ho')
            · exact b3 n hn o ho he hh
      obtain ⟨R, a1, a2, a3⟩ := loop x.es results fun p hp => hp
      refine ⟨R, a1, ?_, ?_⟩
      · rw [ids_eq, List.flatMap_cons, lcont_of hc]
        simpa using a2
      · intro n hn o ho he hh
        rw [ids_eq, List.mem_cons] at hn
        rcases hn with rfl | hn
        · rw [lcont_of hc] at ho; simp at ho
        · exact a3 n hn o ho he hh

theorem DInv.search {lo hi r : Nat} {P : Spatial F → Prop} {s : RState F} {k : Heap F} {K : Nat} {X : Item F (K + 1)}
    (d : DInv lo hi r P s k X) (bb : Option (Box F)) (cond : Option (Spatial F → Bool)) :
    ∃ R, SearchIntersectWithCond s bb cond = .ok R ∧ R.Sublist ((contents s).filter (hit bb cond)) ∧
      ∀ n ∈ X.ids, ∀ o ∈ lcont s.h n, o ∈ lcont k n → hit bb cond o = true → o ∈ R := by
  have := d.len
  have hr : X.id = s.t.root := d.ti.root
  obtain ⟨R, h1, h2, h3⟩ := searchNode_sim d.sim bb cond (s.h.nodes.length + 1) X [] (by omega) d.ti.rep d.ti.good fun n hn => hn
  refine ⟨R, ?_, by rw [d.contents_eq]; exact h2, h3⟩
  unfold SearchIntersectWithCond
  rw [← hr, h1, List.nil_append]
end

/-! ## insertions -/

theorem DInv.mono {lo hi r : Nat} {P P' : Spatial F → Prop} {s : RState F} {k : Heap F} {K : Nat} {X : Item F (K + 1)}
    (d : DInv lo hi r P s k X) (h : ∀ o, P o → P' o) : DInv lo hi r P' s k X :=
  ⟨d.ti, ⟨d.sim.len, d.sim.hb, d.sim.hp, d.sim.ki, d.sim.dlt, d.sim.clean, fun hn => by
    obtain ⟨v, w, h1, h2, h3, h4, h5, h6, h7, h8⟩ := d.sim.dirty hn
    exact ⟨v, w, h1, h2, h3, h4, h5, h6, h7, fun hx e he => ⟨(h8 hx e he).1, (h8 hx e he).2.1, h _ (h8 hx e he).2.2⟩⟩⟩,
    fun o ho => h o (d.objs o ho)⟩

theorem DInv.insert {lo hi r : Nat} {P : Spatial F → Prop} (grow : Nat → Nat) {s : RState F} {k : Heap F} {K : Nat}
    {X : Item F (K + 1)} (d : DInv lo hi r P s k X) (o : Spatial F) (ho : P o) {s' : RState F} (h : Insert grow s o = .ok s') :
    ∃ (k' : Heap F) (K' : Nat) (X' : Item F (K' + 1)), DInv lo hi r P s' k' X' ∧ s'.t.size = s.t.size + 1 ∧
      (contents s').length = (contents s).length + 1 ∧ ∃ n ∈ X'.ids, lcont s'.h n = lcont k' n ∧ o ∈ lcont k' n := by
  unfold Insert at h
  cases hc : chooseNode s.h (⟨BoundingBox o.Geom, none, o⟩ : Entry F) 1 (s.h.nodes.length + 1) (some s.t.root) with
  | error e => simp [GoGeo.insert, hc, bind, Except.bind] at h
  | ok l =>
    obtain ⟨s1, k', K', X', h1, h2, h3, h4, h5, h6⟩ := d.step grow o ho hc
    rw [h1] at h
    simp only [bind, Except.bind, Except.ok.injEq] at h
    subst h
    have d' : DInv lo hi r P ⟨s1.h, { s1.t with size := s1.t.size + 1 }⟩ k' X' :=
      ⟨⟨h2.ti.inv, h2.ti.root, h2.ti.rep, h2.ti.nd, h2.ti.good, h2.ti.fill, h2.ti.cnt, h2.ti.height, h2.ti.lo, h2.ti.r2⟩, h2.sim, h2.objs⟩
    exact ⟨k', K', X', d', by simp [h3], by rw [d'.contents_length, d.contents_length, h5], h6⟩

theorem DInv.insertAll {lo hi r : Nat} {P : Spatial F → Prop} (grow : Nat → Nat) (objs : List (Spatial F)) :
    ∀ {s : RState F} {k : Heap F} {K : Nat} {X : Item F (K + 1)}, DInv lo hi r P s k X → (∀ o ∈ objs, P o) → ∀ {s' : RState F},
    Spec.insertAll grow s objs = .ok s' →
    ∃ (k' : Heap F) (K' : Nat) (X' : Item F (K' + 1)), DInv lo hi r P s' k' X' ∧ s'.t.size = s.t.size + objs.length ∧
      (contents s').length = (contents s).length + objs.length ∧
      ∀ o, objs.getLast? = some o → ∃ n ∈ X'.ids, lcont s'.h n = lcont k' n ∧ o ∈ lcont k' n := by
  induction objs with
  | nil =>
    intro s k K X d _ s' h
    cases h
    exact ⟨k, K, X, d, by simp, by simp, by simp⟩
  | cons o objs ih =>
    intro s k K X d hP s' h
    unfold Spec.insertAll at h
    rw [List.foldlM_cons] at h
    cases h1 : Insert grow s o with
    | error e => rw [h1] at h; cases h
    | ok s1 =>
      rw [h1] at h
      obtain ⟨k1, K1, X1, d1, z1, l1, f1⟩ := d.insert grow o (hP o (by simp)) h1
      cases objs with
      | nil =>
        cases h
        refine ⟨k1, K1, X1, d1, by rw [z1]; rfl, by rw [l1]; rfl, ?_⟩
        intro x hx
        cases hx
        exact f1
      | cons y ys =>
        obtain ⟨k2, K2, X2, d2, z2, l2, f2⟩ := ih d1 (fun x hx => hP x (by simp [hx])) h
        refine ⟨k2, K2, X2, d2, by rw [z2, z1]; push_cast [List.length_cons]; omega, by rw [l2, l1]; simp only [List.length_cons]; omega, ?_⟩
        intro x hx
        exact f2 x (by rw [List.getLast?_cons_cons] at hx; exact hx)

section
variable {K : Type} [Field K] [LinearOrder K] [IsStrictOrderedRing K] [FloatVal F K]
include K

theorem DInv.insert_total {lo hi r : Nat} (hl1 : 1 ≤ lo) (hr1 : 1 ≤ r) {P : Spatial F → Prop} (hP : ∀ o, P o → CoordsOk o.Geom)
    (grow : Nat → Nat) {s : RState F} {k : Heap F} {J : Nat}
    {X : Item F (J + 1)} (d : DInv lo hi r P s k X) (o : Spatial F) (ho : P o) : ∃ s', Insert grow s o = .ok s' := by
  have hlen : X.ids.length ≤ k.nodes.length := length_le_of_nodup d.ti.nd d.ti.rep.valid
  obtain ⟨res, hc⟩ := chooseNode_total hl1 (⟨BoundingBox o.Geom, none, o⟩ : Entry F) (BBox_BoundingBox (hP o ho)) 1
    (k.nodes.length + 1) J X (by omega) d.ti.rep d.ti.good d.ti.fill
    (fun hj h0 => by have := d.ti.cnt.2 (by omega); rw [h0] at this; simp at this; omega) fun x hx => hP x (d.objs x hx)
  have hr : X.id = s.t.root := d.ti.root
  rw [hr, ← chooseNode_sim d.sim, ← d.sim.len] at hc
  obtain ⟨s1, k', K', X', h1, -⟩ := d.step grow o ho hc
  unfold Insert
  rw [h1]
  exact ⟨_, rfl⟩

theorem DInv.insertAll_total {lo hi r : Nat} (hl1 : 1 ≤ lo) (hr1 : 1 ≤ r) {P : Spatial F → Prop} (hP : ∀ o, P o → CoordsOk o.Geom)
    (grow : Nat → Nat) (objs : List (Spatial F)) :
    ∀ {s : RState F} {k : Heap F} {J : Nat} {X : Item F (J + 1)}, DInv lo hi r P s k X → (∀ o ∈ objs, P o) →
    ∃ s', Spec.insertAll grow s objs = .ok s' := by
  induction objs with
  | nil => intro s k J X _ _; exact ⟨s, rfl⟩
  | cons o objs ih =>
    intro s k J X d ho
    obtain ⟨s1, h1⟩ := d.insert_total hl1 hr1 hP grow o (ho o (by simp))
    obtain ⟨k1, K1, X1, d1, -⟩ := d.insert grow o (ho o (by simp)) h1
    obtain ⟨s2, h2⟩ := ih d1 fun o' ho' => ho o' (by simp [ho'])
    refine ⟨s2, ?_⟩
    unfold Spec.insertAll
    rw [List.foldlM_cons, h1]
    exact h2
end

end GoGeo
