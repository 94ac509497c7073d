import Verif.Rtree.Delete

/-!
# `findLeaf`, re-insertion and `DeleteWithComparator`
-/

set_option linter.unusedSectionVars false

namespace GoGeo
open GoFloat Spec
variable {F : Type} [GoFloat F]

/-- a node of the tree and its surroundings -/
structure Focus (h : Heap F) (root lo hi r : Nat) {j : Nat} (x : Item F (j + 1)) (c : Ctx F j) : Prop where
  rep : x.Rep h
  crep : c.Rep h root x.id
  nd : (x.ids ++ c.ids).Nodup
  good : x.Good
  cgood : c.Good
  fill : x.Fill lo hi
  cfill : c.Fill lo hi r
  cnt : CntAt lo hi r x c

theorem Focus.down {h : Heap F} {root lo hi r : Nat} {j : Nat} {x : Item F (j + 2)} {c : Ctx F (j + 1)}
    (f : Focus h root lo hi r x c) {p : Box F × Item F (j + 1)} (hp : p ∈ x.es) :
    ∃ c' : Ctx F j, Focus h root lo hi r p.2 c' ∧ (p.2.ids ++ c'.ids).Perm (x.ids ++ c.ids) ∧
      (p.2.objs ++ c'.objs).Perm (x.objs ++ c.objs) ∧ c'.rootLevel = c.rootLevel := by
  obtain ⟨hx, hc, hnd, gx, gc, fx, fc, cnt⟩ := f
  obtain ⟨⟨par, hv⟩, hch⟩ := id hx
  obtain ⟨pre, post, hes⟩ := List.append_of_mem hp
  have hpm : ∀ p' ∈ pre ++ post, p' ∈ x.es := by
    intro p' hp'
    rw [hes]
    rcases List.mem_append.1 hp' with h1 | h1
    · exact List.mem_append_left _ h1
    · exact List.mem_append_right _ (List.mem_cons_of_mem _ h1)
  have pids : (p.2.ids ++ (Ctx.frame x.id pre p.1 post c).ids).Perm (x.ids ++ c.ids) := by
    have e1 : (Ctx.frame x.id pre p.1 post c).ids = (x.id :: (idsL pre ++ idsL post)) ++ c.ids := by
      simp [Ctx.ids, idsL]
    rw [e1, ← List.append_assoc, ids_eq x, hes, idsL_append, idsL_cons]
    refine List.Perm.append_right _ ?_
    refine List.perm_middle.trans (List.Perm.cons _ ?_)
    rw [← List.append_assoc, ← List.append_assoc]
    exact List.Perm.append_right _ List.perm_append_comm
  have pobjs : (p.2.objs ++ (Ctx.frame x.id pre p.1 post c).objs).Perm (x.objs ++ c.objs) := by
    have e1 : (Ctx.frame x.id pre p.1 post c).objs = (objsL pre ++ objsL post) ++ c.objs := by
      simp [Ctx.objs, objsL]
    rw [e1, ← List.append_assoc, objs_eq x, hes, objsL_append, objsL_cons]
    refine List.Perm.append_right _ ?_
    rw [← List.append_assoc, ← List.append_assoc]
    exact List.Perm.append_right _ List.perm_append_comm
  have hlen : x.es.length = pre.length + 1 + post.length := by rw [hes]; simp; omega
  refine ⟨Ctx.frame x.id pre p.1 post c, ⟨(hch p hp).1, ⟨?_, ⟨par, ?_⟩, fun p' hp' => hch p' (hpm p' hp'),
    (hch p hp).2, hc⟩, pids.nodup_iff.2 hnd, (gx p hp).2, ⟨fun p' hp' => gx p' (hpm p' hp'), gc⟩, (fx p hp).2,
    ⟨fun p' hp' => fx p' (hpm p' hp'), ?_, ?_, ?_, fc⟩,
    ⟨fun _ => (fx p hp).1, fun ht => absurd ht (by simp [Ctx.isTop])⟩⟩, pids, pobjs, rfl⟩
  · intro hr
    have h1 : p.2.id ∈ p.2.ids := by rw [ids_eq]; simp
    have hnd' := pids.nodup_iff.2 hnd
    rcases hc.root_mem with h2 | h2
    · exact (List.nodup_append.1 hnd').2.2 _ h1 x.id (by simp [Ctx.ids]) (by rw [hr, h2])
    · exact (List.nodup_append.1 hnd').2.2 _ h1 root (by simp [Ctx.ids, h2]) hr
  · rw [hv, hes]
    simp only [List.map_append, List.map_cons, Item.entry_succ, Option.some.injEq,
      NodeV.mk.injEq, true_and, and_true]
    refine ⟨rfl, ?_⟩
    push_cast; omega
  · intro ht; have := (cnt.2 ht).2 (by omega); omega
  · intro ht; have := (cnt.1 ht).1; omega
  · by_cases ht : c.isTop
    · have := (cnt.2 ht).1; omega
    · have := (cnt.1 ht).2; omega

/-- the leaf holds an entry that matches -/
def MatchAt (h : Heap F) (obj : Spatial F) (cmp : Cond2 F) (n : Nat) : Prop :=
  ∃ v e, h.view n = some v ∧ e ∈ v.entries ∧ cmp e.obj obj = .ok true

theorem anyMatch_true {obj : Spatial F} {cmp : Cond2 F} {es : List (Entry F)}
    (h : anyMatch cmp obj es = .ok true) : ∃ e ∈ es, cmp e.obj obj = .ok true := by
  induction es with
  | nil => simp [anyMatch] at h
  | cons e es ih =>
    rw [anyMatch] at h
    cases hc : cmp e.obj obj with
    | error _ => rw [hc] at h; cases h
    | ok b =>
      rw [hc] at h
      cases b with
      | true => exact ⟨e, by simp, hc⟩
      | false =>
        obtain ⟨e', h1, h2⟩ := ih h
        exact ⟨e', by simp [h1], h2⟩

theorem anyMatch_false {obj : Spatial F} {cmp : Cond2 F} {es : List (Entry F)}
    (h : anyMatch cmp obj es = .ok false) : ∀ e ∈ es, cmp e.obj obj = .ok false := by
  induction es with
  | nil => intro e he; cases he
  | cons e es ih =>
    rw [anyMatch] at h
    cases hc : cmp e.obj obj with
    | error _ => rw [hc] at h; cases h
    | ok b =>
      rw [hc] at h
      cases b with
      | true => cases h
      | false =>
        intro e' he'
        rcases List.mem_cons.1 he' with rfl | h1
        · exact hc
        · exact ih h e' h1

/-- the object can be found when looking for `obj` -/
def Findable (obj : Spatial F) (cmp : Cond2 F) (o : Spatial F) : Prop :=
  cmp o obj = .ok true ∧ Inside (BoundingBox obj.Geom) (BoundingBox o.Geom)

theorem findLeaf_spec [FloatOrd F] {h : Heap F} {root lo hi r : Nat} (obj : Spatial F) (cmp : Cond2 F)
    (fuel : Nat) :
    ∀ (j : Nat) (x : Item F (j + 1)) (c : Ctx F j) (res : Option Nat), Focus h root lo hi r x c →
    findLeaf h obj cmp fuel (some x.id) = .ok res →
    (∀ n, res = some n → (∃ (y : Item F 1) (c' : Ctx F 0), y.id = n ∧ Focus h root lo hi r y c' ∧
        (y.ids ++ c'.ids).Perm (x.ids ++ c.ids) ∧ (y.objs ++ c'.objs).Perm (x.objs ++ c.objs) ∧
        c'.rootLevel = c.rootLevel) ∧ (j ≠ 0 → MatchAt h obj cmp n)) ∧
    ((∃ o ∈ x.objs, Findable obj cmp o) → ∃ n, res = some n ∧ MatchAt h obj cmp n) := by
  induction fuel with
  | zero => intro j x c res _ h0; simp [findLeaf] at h0
  | succ fuel ih =>
    intro j x c res f h0
    obtain ⟨⟨par, hv⟩, hch⟩ := id f.rep
    rw [findLeaf, Heap.deref_some hv] at h0
    simp only [bind, Except.bind] at h0
    cases j with
    | zero =>
      simp only [beq_self_eq_true, if_true, Except.ok.injEq] at h0
      subst h0
      refine ⟨?_, ?_⟩
      · rintro n ⟨⟩
        exact ⟨⟨x, c, rfl, f, List.Perm.refl _, List.Perm.refl _, rfl⟩, fun h => absurd rfl h⟩
      · rintro ⟨o, ho, hm, -⟩
        rw [objs_eq] at ho
        obtain ⟨p, hp, hpo⟩ := List.mem_flatMap.1 ho
        refine ⟨x.id, rfl, _, Item.entry p, hv, List.mem_map.2 ⟨p, hp, rfl⟩, ?_⟩
        have : o = p.2 := List.mem_singleton.1 hpo
        rw [this] at hm
        exact hm
    | succ k =>
      have hb : ((k + 1 == 0)) = false := by simp
      rw [hb] at h0
      simp only [Bool.false_eq_true, if_false] at h0
      have loop : ∀ (es : List (Box F × Item F (k + 1))), (∀ p ∈ es, p ∈ x.es) → ∀ res,
          findLeafLoop h obj cmp (findLeaf h obj cmp fuel) (es.map Item.entry) = .ok res →
          (∀ n, res = some n → (∃ (y : Item F 1) (c' : Ctx F 0), y.id = n ∧ Focus h root lo hi r y c' ∧
            (y.ids ++ c'.ids).Perm (x.ids ++ c.ids) ∧ (y.objs ++ c'.objs).Perm (x.objs ++ c.objs) ∧
            c'.rootLevel = c.rootLevel) ∧ MatchAt h obj cmp n) ∧
          ((∃ o ∈ objsL es, Findable obj cmp o) → ∃ n, res = some n) := by
        intro es
        induction es with
        | nil =>
          intro _ res hr
          rw [List.map_nil, findLeafLoop] at hr
          cases hr
          refine ⟨by rintro n ⟨⟩, ?_⟩
          rintro ⟨o, ho, -⟩
          simp at ho
        | cons p es ihe =>
          intro hsub res hr
          have hp : p ∈ x.es := hsub p (by simp)
          have hes : ∀ p' ∈ es, p' ∈ x.es := fun p' hp' => hsub p' (by simp [hp'])
          have gp := f.good p hp
          rw [List.map_cons, findLeafLoop, Item.entry_bb, gp.1] at hr
          have skip : (¬ ∃ o ∈ p.2.objs, Findable obj cmp o) →
              findLeafLoop h obj cmp (findLeaf h obj cmp fuel) (es.map Item.entry) = .ok res →
              (∀ n, res = some n → (∃ (y : Item F 1) (c' : Ctx F 0), y.id = n ∧ Focus h root lo hi r y c' ∧
                (y.ids ++ c'.ids).Perm (x.ids ++ c.ids) ∧ (y.objs ++ c'.objs).Perm (x.objs ++ c.objs) ∧
                c'.rootLevel = c.rootLevel) ∧ MatchAt h obj cmp n) ∧
              ((∃ o ∈ objsL (p :: es), Findable obj cmp o) → ∃ n, res = some n) := by
            intro hno hr'
            obtain ⟨a1, a2⟩ := ihe hes res hr'
            refine And.intro a1 ?_
            rintro ⟨o, ho, hf⟩
            rw [objsL_cons, List.mem_append] at ho
            rcases ho with ho | ho
            · exact absurd ⟨o, ho, hf⟩ hno
            · exact a2 ⟨o, ho, hf⟩
          by_cases hcon : p.2.box.Contain (BoundingBox obj.Geom) = true
          · rw [if_pos hcon] at hr
            simp only [bind, Except.bind, Item.entry_child, Item.child_succ] at hr
            obtain ⟨cp, fp, pi1, pi2, pi3⟩ := f.down hp
            cases hrec : findLeaf h obj cmp fuel (some p.2.id) with
            | error e => rw [hrec] at hr; cases hr
            | ok rr =>
              rw [hrec] at hr
              simp only at hr
              obtain ⟨b1, b2⟩ := ih k p.2 cp rr fp hrec
              cases rr with
              | none =>
                simp only at hr
                refine skip ?_ hr
                intro hno
                obtain ⟨n, hn, -⟩ := b2 hno
                cases hn
              | some leaf =>
                simp only at hr
                obtain ⟨⟨y, c', y1, y2, y3, y4, y5⟩, -⟩ := b1 leaf rfl
                obtain ⟨⟨pary, hvy⟩, -⟩ := y2.rep
                rw [y1] at hvy
                rw [Heap.deref_some hvy] at hr
                simp only at hr
                cases ham : anyMatch cmp obj (List.map Item.entry y.es) with
                | error e => rw [ham] at hr; cases hr
                | ok b =>
                  rw [ham] at hr
                  cases b with
                  | true =>
                    simp only [if_true, Except.ok.injEq] at hr
                    subst hr
                    obtain ⟨e, he, hm⟩ := anyMatch_true ham
                    refine ⟨?_, fun _ => ⟨leaf, rfl⟩⟩
                    rintro n ⟨⟩
                    exact ⟨⟨y, c', y1, y2, y3.trans pi1, y4.trans pi2, y5.trans pi3⟩, _, e, hvy, he, hm⟩
                  | false =>
                    simp only [Bool.false_eq_true, if_false] at hr
                    refine skip ?_ hr
                    intro hno
                    obtain ⟨n, hn, v, e, hv', he, hm⟩ := b2 hno
                    cases hn
                    rw [hvy] at hv'; cases hv'
                    rw [anyMatch_false ham e he] at hm
                    cases hm
          · rw [if_neg hcon] at hr
            refine skip ?_ hr
            rintro ⟨o, ho, -, hin⟩
            apply hcon
            exact (contain_iff (Item.box_spec p.2 gp.2).1 (BoundingBox_num _)).2
              (hin.trans ((Item.box_spec p.2 gp.2).2 o ho))
      obtain ⟨a1, a2⟩ := loop x.es (fun p hp => hp) res h0
      refine ⟨fun n hn => ⟨(a1 n hn).1, fun _ => (a1 n hn).2⟩, ?_⟩
      rintro ⟨o, ho, hf⟩
      obtain ⟨n, hn⟩ := a2 ⟨o, by rw [← objs_eq]; exact ho, hf⟩
      exact ⟨n, hn, (a1 n hn).2⟩

/-- `findLeaf` completes when the comparator does -/
theorem findLeaf_total [FloatOrd F] {h : Heap F} (obj : Spatial F) (cmp : Cond2 F) (fuel : Nat) :
    ∀ (j : Nat) (x : Item F (j + 1)), x.ids.length ≤ fuel → x.Rep h →
    (∀ o ∈ x.objs, ∃ b, cmp o obj = .ok b) →
    ∃ res, findLeaf h obj cmp fuel (some x.id) = .ok res ∧
      ∀ n, res = some n → ∃ y : Item F 1, y.id = n ∧ y.Rep h ∧ ∀ o ∈ y.objs, o ∈ x.objs := by
  induction fuel with
  | zero => intro j x hf; rw [ids_eq] at hf; simp at hf
  | succ fuel ih =>
    intro j x hf hx hcm
    obtain ⟨⟨par, hv⟩, hch⟩ := id hx
    rw [findLeaf, Heap.deref_some hv]
    simp only [bind, Except.bind]
    cases j with
    | zero =>
      refine ⟨_, rfl, ?_⟩
      rintro n ⟨⟩
      exact ⟨x, rfl, hx, fun o h => h⟩
    | succ k =>
      have hb : ((k + 1 == 0)) = false := by simp
      rw [hb]
      simp only [Bool.false_eq_true, if_false]
      have loop : ∀ (es : List (Box F × Item F (k + 1))), (∀ p ∈ es, p ∈ x.es) →
          ∃ res, findLeafLoop h obj cmp (findLeaf h obj cmp fuel) (es.map Item.entry) = .ok res ∧
          ∀ n, res = some n → ∃ y : Item F 1, y.id = n ∧ y.Rep h ∧ ∀ o ∈ y.objs, o ∈ x.objs := by
        intro es
        induction es with
        | nil => intro _; exact ⟨none, rfl, by rintro n ⟨⟩⟩
        | cons p es ihe =>
          intro hsub
          have hp : p ∈ x.es := hsub p (by simp)
          have hes := ihe fun p' hp' => hsub p' (by simp [hp'])
          have hob : ∀ o ∈ p.2.objs, o ∈ x.objs := fun o ho => by
            rw [objs_eq]; exact List.mem_flatMap.2 ⟨p, hp, ho⟩
          rw [List.map_cons, findLeafLoop]
          split
          · obtain ⟨rr, h1, h2⟩ := ih k p.2 (by have := ids_lt_of_mem hp; omega) (hch p hp).1
              (fun o ho => hcm o (hob o ho))
            simp only [bind, Except.bind, Item.entry_child, Item.child_succ]
            rw [h1]
            cases rr with
            | none => exact hes
            | some leaf =>
              obtain ⟨y, y1, y2, y3⟩ := h2 leaf rfl
              obtain ⟨⟨pary, hvy⟩, -⟩ := id y2
              rw [y1] at hvy
              simp only
              rw [Heap.deref_some hvy]
              simp only
              have ham : ∃ b, anyMatch cmp obj (List.map Item.entry y.es) = .ok b := by
                have hy : ∀ p ∈ y.es, ∃ b, cmp (Item.entry p).obj obj = .ok b := by
                  intro p' hp'
                  exact hcm _ (hob _ (y3 _ (by
                    rw [objs_eq]; exact List.mem_flatMap.2 ⟨p', hp', List.mem_singleton.2 rfl⟩)))
                generalize y.es = l at hy
                induction l with
                | nil => exact ⟨false, rfl⟩
                | cons a l ihl =>
                  rw [List.map_cons, anyMatch]
                  obtain ⟨b, hb'⟩ := hy a (by simp)
                  rw [hb']
                  cases b with
                  | true => exact ⟨true, rfl⟩
                  | false => exact ihl fun p hp => hy p (by simp [hp])
              obtain ⟨b, hb'⟩ := ham
              rw [hb']
              cases b with
              | true =>
                refine ⟨some leaf, rfl, ?_⟩
                rintro n ⟨⟩
                exact ⟨y, y1, y2, fun o ho => hob o (y3 o ho)⟩
              | false => exact hes
          · exact hes
      exact loop x.es fun p hp => hp

/-! ## the last matching entry -/

theorem lastMatch_spec {obj : Spatial F} {cmp : Cond2 F} (es : List (Entry F)) :
    ∀ (i : Nat) (acc res : Option Nat), lastMatch cmp obj es i acc = .ok res →
    (res = acc ∧ ∀ e ∈ es, cmp e.obj obj = .ok false) ∨
    ∃ k e, res = some (i + k) ∧ es[k]? = some e ∧ cmp e.obj obj = .ok true := by
  induction es with
  | nil =>
    intro i acc res h
    cases h
    exact Or.inl ⟨rfl, by intro e he; cases he⟩
  | cons e es ih =>
    intro i acc res h
    rw [lastMatch] at h
    cases hc : cmp e.obj obj with
    | error _ => rw [hc] at h; cases h
    | ok b =>
      rw [hc] at h
      cases b with
      | true =>
        rcases ih _ _ _ h with ⟨h1, h2⟩ | ⟨k, e', h1, h2, h3⟩
        · exact Or.inr ⟨0, e, by simpa using h1, rfl, hc⟩
        · exact Or.inr ⟨k + 1, e', by rw [h1]; congr 1; omega, by simpa using h2, h3⟩
      | false =>
        rcases ih _ _ _ h with ⟨h1, h2⟩ | ⟨k, e', h1, h2, h3⟩
        · refine Or.inl ⟨h1, ?_⟩
          intro e' he'
          rcases List.mem_cons.1 he' with rfl | h0
          · exact hc
          · exact h2 e' h0
        · exact Or.inr ⟨k + 1, e', by rw [h1]; congr 1; omega, by simpa using h2, h3⟩

theorem lastMatch_total {obj : Spatial F} {cmp : Cond2 F} (es : List (Entry F))
    (h : ∀ e ∈ es, ∃ b, cmp e.obj obj = .ok b) :
    ∀ (i : Nat) (acc : Option Nat), ∃ res, lastMatch cmp obj es i acc = .ok res := by
  induction es with
  | nil => intro i acc; exact ⟨acc, rfl⟩
  | cons e es ih =>
    intro i acc
    obtain ⟨b, hb⟩ := h e (by simp)
    rw [lastMatch, hb]
    have := ih (fun e he => h e (by simp [he]))
    cases b with
    | true => exact this _ _
    | false => exact this _ _

/-! ## re-insertion -/

theorem reinsert_spec {q : Bool} {lo hi : Nat} (grow : Nat → Nat) (orph : List (Orphan F)) :
    ∀ (r : Nat) (s : RState F) (K : Nat) (X : Item F (K + 1)) (s' : RState F), TInv q lo hi r s X →
    (∀ o ∈ orph, OrphOk lo hi s.h K o) → (X.ids ++ orIds orph).Nodup →
    reinsert grow (orph.map fun o => o.2.id) s = .ok s' →
    ∃ (K' : Nat) (X' : Item F (K' + 1)), TInv q lo hi r s' X' ∧ K ≤ K' ∧
      X'.objs.Perm (X.objs ++ orObjs orph) ∧ s'.t.size = s.t.size ∧ s'.t.MinChildren = s.t.MinChildren ∧
      (K < K' → 2 ≤ X'.es.length) := by
  induction orph with
  | nil =>
    intro r s K X s' ti _ _ h
    cases h
    exact ⟨K, X, ti, le_refl _, by simp [orObjs], rfl, rfl, fun h0 => absurd h0 (Nat.lt_irrefl _)⟩
  | cons o orph ih =>
    intro r s K X s' ti hor hnd h
    obtain ⟨i, z⟩ := o
    have oz := hor ⟨i, z⟩ (by simp)
    rw [List.map_cons, reinsert] at h
    obtain ⟨⟨par, hv⟩, -⟩ := id oz.rep
    rw [Heap.deref_some hv] at h
    simp only [bind, Except.bind, Item.computeBoundingBox_es] at h
    have eI : orIds (⟨i, z⟩ :: orph : List (Orphan F)) = z.ids ++ orIds orph := by simp [orIds]
    have eO : orObjs (⟨i, z⟩ :: orph : List (Orphan F)) = z.objs ++ orObjs orph := by simp [orObjs]
    rw [eI] at hnd
    cases hins : insert grow s ⟨z.box, some z.id, Spatial.zero⟩ ((i : Int) + 1 + 1) with
    | error e => rw [hins] at h; cases h
    | ok s1 =>
      rw [hins] at h
      simp only at h
      cases hc : chooseNode s.h (⟨z.box, some z.id, Spatial.zero⟩ : Entry F) ((i : Int) + 1 + 1)
          (s.h.nodes.length + 1) (some s.t.root) with
      | error e => simp [insert, hc, bind, Except.bind] at hins
      | ok res =>
        have hnd1 : (X.ids ++ z.ids).Nodup := by
          rw [← List.append_assoc] at hnd; exact (List.nodup_append.1 hnd).1
        have hlv : (((i + 1 : Nat) : Int) + 1) = (i : Int) + 1 + 1 := by push_cast; rfl
        obtain ⟨s1', K1, X1, g1, g2, g3, g4, g5, g6, g7, g8, g9, g10⟩ := insert_spec grow s X ti (i := i + 1)
          oz.lvl z oz.rep oz.good oz.fill oz.cnt hnd1 (Or.inl (by omega)) (by rw [hlv]; exact hc)
        rw [hlv] at g1
        have g1' : insert grow s ⟨z.box, some z.id, Spatial.zero⟩ ((i : Int) + 1 + 1) = .ok s1' := g1
        rw [hins] at g1'
        cases g1'
        have hdis : ∀ n ∈ orIds orph, n ∉ X.ids ++ z.ids := by
          intro n h1 h2
          rw [← List.append_assoc] at hnd
          exact (List.nodup_append.1 hnd).2.2 n h2 n h1 rfl
        have hval : ∀ n ∈ orIds orph, n < s.h.nodes.length := by
          intro n hn
          obtain ⟨o', ho', hn'⟩ := List.mem_flatMap.1 hn
          exact (hor o' (by simp [ho'])).rep.valid n hn'
        have IH := fun rr (t : TInv q lo hi rr s1 X1) => ih rr s1 K1 X1 s' t
          (by
            intro o' ho'
            have h0 := hor o' (by simp [ho'])
            refine ⟨h0.rep.congr fun n hn => ?_, h0.good, h0.fill, h0.cnt, le_trans h0.lvl g3⟩
            have hn' : n ∈ orIds orph := List.mem_flatMap.2 ⟨o', ho', hn⟩
            exact g9 n (hval n hn') (hdis n hn'))
          (by
            rw [List.nodup_append]
            refine ⟨g2.nd, ?_, ?_⟩
            · rw [← List.append_assoc] at hnd; exact (List.nodup_append.1 hnd).2.1
            · rintro a ha b hb rfl
              rcases g8 a ha with h0 | h0
              · exact hdis a hb h0
              · have := hval a hb; omega) h
        by_cases hK : K < K1
        · have hX1 := g10 hK
          have g2' : TInv q lo hi 2 s1 X1 := ⟨g2.inv, g2.root, g2.rep, g2.nd, g2.good, g2.fill,
            ⟨g2.cnt.1, fun _ => hX1⟩, g2.height, g2.lo, le_refl 2⟩
          obtain ⟨K2, X2, t2, k2, p2, z2, m2, l2⟩ := IH 2 g2'
          refine ⟨K2, X2, ⟨t2.inv, t2.root, t2.rep, t2.nd, t2.good, t2.fill,
            ⟨t2.cnt.1, fun h0 => le_trans ti.r2 (t2.cnt.2 h0)⟩, t2.height, t2.lo, ti.r2⟩, le_trans g3 k2, ?_,
            by rw [z2, g5], by rw [m2, g6], fun _ => t2.cnt.2 (by omega)⟩
          rw [eO]
          refine p2.trans ?_
          refine (g4.append_right _).trans ?_
          rw [← List.append_assoc]
          exact List.Perm.append_right _ List.perm_append_comm
        obtain ⟨K2, X2, t2, k2, p2, z2, m2, l2⟩ := IH r g2
        refine ⟨K2, X2, t2, le_trans g3 k2, ?_, by rw [z2, g5], by rw [m2, g6],
          fun h0 => l2 (by omega)⟩
        rw [eO]
        refine p2.trans ?_
        refine (g4.append_right _).trans ?_
        rw [← List.append_assoc]
        exact List.Perm.append_right _ List.perm_append_comm

end GoGeo
