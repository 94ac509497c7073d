import Verif.Rtree.Insert2
import Verif.Geo.BoxLemmas
import Verif.Props.Box

/-!
# Searching a tree
-/

set_option linter.unusedSectionVars false

namespace GoGeo
open GoFloat Spec
variable {F : Type} [GoFloat F]

section
variable [FloatOrd F]

theorem BoundingBox_num (g : Geometry F) : NumBox (BoundingBox g) := by
  cases g <;> first | exact calBox_num _ | exact zero_num

theorem BoxUnion_num (l : List (Box F)) (hl : ∀ x ∈ l, NumBox x) : NumBox (BoxUnion l) := by
  cases l with
  | nil => exact zero_num
  | cons b l => exact (boxUnion_spec (b :: l) (by simp) hl).1

/-- the box of an item is free of NaN and covers the boxes of all its objects -/
theorem Item.box_spec {j : Nat} (x : Item F j) (gx : x.Good) :
    NumBox x.box ∧ ∀ o ∈ x.objs, Inside (BoundingBox o.Geom) x.box := by
  induction j with
  | zero =>
    refine ⟨BoundingBox_num _, ?_⟩
    intro o ho
    have ho' : o = x := List.mem_singleton.1 ho
    subst ho'
    exact Inside.refl (BoundingBox_num _)
  | succ j ih =>
    have hn : ∀ b ∈ x.es.map (·.1), NumBox b := by
      intro b hb
      obtain ⟨p, hp, rfl⟩ := List.mem_map.1 hb
      rw [(gx p hp).1]
      exact (ih p.2 (gx p hp).2).1
    refine ⟨BoxUnion_num _ hn, ?_⟩
    intro o ho
    rw [Item.objs_succ, List.mem_flatMap] at ho
    obtain ⟨p, hp, ho⟩ := ho
    have h1 := (ih p.2 (gx p hp).2).2 o ho
    rw [← (gx p hp).1] at h1
    have hm : p.1 ∈ x.es.map (·.1) := List.mem_map.2 ⟨p, hp, rfl⟩
    exact h1.trans ((boxUnion_spec _ (List.ne_nil_of_mem hm) hn).2.1 _ hm)

end

theorem ids_lt_of_mem {j : Nat} {x : Item F (j + 1)} {p : Box F × Item F j} (hp : p ∈ x.es) :
    p.2.ids.length < x.ids.length := by
  rw [ids_eq, List.length_cons]
  have : p.2.ids.length ≤ (idsL x.es).length := by
    unfold idsL
    rw [List.length_flatMap]
    exact List.le_sum_of_mem (List.mem_map.2 ⟨p, hp, rfl⟩)
  omega

/-- the objects a search keeps -/
def hit (bb : Option (Box F)) (cond : Option (Spatial F → Bool)) (o : Spatial F) : Bool :=
  Box.IntersectPtr (some (BoundingBox o.Geom)) bb && (match cond with | none => true | some c => c o)

section
variable [FloatOrd F]

theorem pruned {j : Nat} {x : Item F j} (gx : x.Good) {bb : Option (Box F)}
    (cond : Option (Spatial F → Bool))
    (h : Box.IntersectPtr (some x.box) bb = false) : x.objs.filter (hit bb cond) = [] := by
  rw [List.filter_eq_nil_iff]
  intro o ho
  cases bb with
  | none => simp [hit, Box.IntersectPtr]
  | some q =>
    intro hh
    simp only [hit, Box.IntersectPtr, Bool.and_eq_true] at hh
    have := C22_intersect_mono _ _ q ((Item.box_spec x gx).2 o ho) hh.1
    simp only [Box.IntersectPtr] at h
    rw [this] at h; cases h

/-- the search returns the hits, in the order of the tree -/
theorem searchNode_spec {h : Heap F} (bb : Option (Box F)) (cond : Option (Spatial F → Bool)) (fuel : Nat) :
    ∀ {j : Nat} (x : Item F (j + 1)) (results : List (Spatial F)), x.ids.length ≤ fuel → x.Rep h → x.Good →
    searchNode h bb cond fuel (some x.id) results = .ok (results ++ x.objs.filter (hit bb cond)) := by
  induction fuel with
  | zero => intro j x results hf; rw [ids_eq] at hf; simp at hf
  | succ fuel ih =>
    intro j x results hf hx gx
    obtain ⟨⟨par, hv⟩, hch⟩ := id hx
    rw [searchNode, Heap.deref_some hv]
    simp only [bind, Except.bind]
    have loop : ∀ (es : List (Box F × Item F j)) (res : List (Spatial F)), (∀ p ∈ es, p ∈ x.es) →
        searchLoop bb cond (searchNode h bb cond fuel) (j == 0) (es.map Item.entry) res =
          .ok (res ++ (objsL es).filter (hit bb cond)) := by
      intro es
      induction es with
      | nil => intro res _; simp [searchLoop]
      | cons p es ihe =>
        intro res hsub
        have hp : p ∈ x.es := hsub p (by simp)
        have hes : ∀ p' ∈ es, p' ∈ x.es := fun p' hp' => hsub p' (by simp [hp'])
        have gp := gx p hp
        rw [List.map_cons, searchLoop.eq_def]
        dsimp only
        rw [objsL_cons, List.filter_append, Item.entry_bb, gp.1]
        by_cases hi : Box.IntersectPtr (some p.2.box) bb = true
        · rw [hi]
          simp only [Bool.not_true, Bool.false_eq_true, if_false]
          cases j with
          | zero =>
            obtain ⟨o, ho, hob, hbox⟩ : ∃ o : Spatial F, p.2.objs = [o] ∧ (Item.entry p).obj = o ∧
                p.2.box = BoundingBox o.Geom := ⟨p.2, rfl, rfl, rfl⟩
            rw [hbox] at hi
            rw [beq_self_eq_true] at ihe ⊢
            simp only [Bool.not_true, Bool.false_eq_true, if_false]
            rw [hob]
            cases cond with
            | none =>
              simp only
              rw [ihe _ hes, ho]
              simp [hit, hi]
            | some c =>
              simp only
              rw [ho]
              by_cases hc : c o = true
              · rw [if_pos hc, ihe _ hes]
                simp [hit, hi, hc]
              · rw [if_neg hc, ihe _ hes]
                simp [hit, hi, hc]
          | succ k =>
            have hb : ((k + 1 == 0)) = false := by simp
            rw [hb]
            simp only [Bool.not_false, if_true, Item.entry_child, Item.child_succ, bind, Except.bind]
            rw [ih p.2 res (by have := ids_lt_of_mem hp; omega) (hch p hp).1 gp.2]
            simp only
            rw [hb] at ihe
            rw [ihe _ hes, List.append_assoc]
        · rw [Bool.not_eq_true] at hi
          rw [hi, pruned gp.2 cond hi]
          simp only [Bool.not_false, if_true, List.nil_append]
          exact ihe _ hes
    rw [loop x.es results (fun p hp => hp), objs_eq]

end

/-- a condition only filters (any memory, even ill-formed) -/
theorem searchNode_filter (h : Heap F) (bb : Option (Box F)) (c : Spatial F → Bool) (fuel : Nat) :
    ∀ (n : Option Nat) (res : List (Spatial F)),
    searchNode h bb (some c) fuel n (res.filter c) =
      (searchNode h bb none fuel n res).map (fun l => l.filter c) := by
  induction fuel with
  | zero => intro n res; rfl
  | succ fuel ih =>
    intro n res
    rw [searchNode, searchNode]
    cases hd : h.deref n with
    | error e => rfl
    | ok v =>
      simp only [bind, Except.bind]
      generalize v.2.entries = es
      induction es generalizing res with
      | nil => rfl
      | cons e es ihe =>
        rw [searchLoop, searchLoop]
        split
        · exact ihe res
        · split
          · simp only [bind, Except.bind]
            rw [ih]
            cases searchNode h bb none fuel e.child res with
            | error e => rfl
            | ok l => exact ihe l
          · rw [← ihe]
            by_cases hc : c e.obj = true
            · simp [hc]
            · simp [hc]

/-! ## listing the boxes of all nodes -/

/-- box and address of every node strictly below, in the order of `GetAllBoundingBoxes` -/
def Item.sub : {j : Nat} → Item F j → List (Box F × Nat)
  | 0, _ => []
  | 1, _ => []
  | _ + 2, x => x.es.flatMap fun p => p.2.sub ++ [(p.1, p.2.id)]

theorem Item.sub_succ {j : Nat} (x : Item F (j + 2)) :
    x.sub = x.es.flatMap fun p => p.2.sub ++ [(p.1, p.2.id)] := rfl

theorem Item.sub_ids {j : Nat} (x : Item F (j + 1)) : (x.id :: x.sub.map (·.2)).Perm x.ids := by
  induction j with
  | zero =>
    have : idsL x.es = [] := by
      unfold idsL
      rw [List.flatMap_eq_nil_iff]
      intro p hp; rfl
    rw [ids_eq, this]
    exact List.Perm.refl _
  | succ j ih =>
    rw [ids_eq, Item.sub_succ]
    refine List.Perm.cons _ ?_
    generalize x.es = es
    induction es with
    | nil => exact List.Perm.refl _
    | cons p es ihe =>
      rw [idsL_cons, List.flatMap_cons, List.map_append]
      refine List.Perm.append ?_ ihe
      rw [List.map_append]
      exact (List.perm_append_comm (l₂ := [p.2.id])).trans (ih p.2)

theorem getAllBoxes_spec {h : Heap F} (fuel : Nat) :
    ∀ {j : Nat} (x : Item F (j + 1)), x.ids.length ≤ fuel → x.Rep h →
    getAllBoxes h fuel x.id = .ok (x.sub.map (·.1)) := by
  induction fuel with
  | zero => intro j x hf; rw [ids_eq] at hf; simp at hf
  | succ fuel ih =>
    intro j x hf hx
    obtain ⟨⟨par, hv⟩, hch⟩ := id hx
    rw [getAllBoxes, Heap.deref_some hv]
    simp only [bind, Except.bind]
    cases j with
    | zero => rfl
    | succ j =>
      have hb : ((j + 1 == 0)) = false := by simp
      rw [hb]
      simp only [Bool.false_eq_true, if_false]
      have loop : ∀ (es : List (Box F × Item F (j + 1))) (acc : List (Box F)), (∀ p ∈ es, p ∈ x.es) →
          getAllBoxesLoop (getAllBoxes h fuel) (es.map Item.entry) acc =
            .ok (acc ++ (es.flatMap fun p => p.2.sub ++ [(p.1, p.2.id)]).map (·.1)) := by
        intro es
        induction es with
        | nil => intro acc _; simp [getAllBoxesLoop]
        | cons p es ihe =>
          intro acc hsub
          have hp : p ∈ x.es := hsub p (by simp)
          rw [List.map_cons, getAllBoxesLoop, Item.entry_child, Item.child_succ]
          simp only [bind, Except.bind]
          rw [ih p.2 (by have := ids_lt_of_mem hp; omega) (hch p hp).1]
          simp only
          rw [ihe _ (fun p' hp' => hsub p' (by simp [hp']))]
          simp
      rw [loop x.es [] (fun p hp => hp), Item.sub_succ]
      simp

end GoGeo
