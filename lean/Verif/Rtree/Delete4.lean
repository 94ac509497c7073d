import Verif.Rtree.Delete3
import Verif.Rtree.Ops

/-!
# Deletions from trees whose root has a single child
-/

set_option linter.unusedSectionVars false

namespace GoGeo
open GoFloat Spec
variable {F : Type} [GoFloat F]

/-- nodes that are not empty, above nodes that are not empty, hold an object -/
theorem Item.objs_ne {hi : Nat} : ∀ {j : Nat} (x : Item F j), x.Cnt 1 hi → x.Fill 1 hi → x.objs ≠ []
  | 0, _, _, _ => List.cons_ne_nil _ _
  | j + 1, x, hc, hf => by
    obtain ⟨h1, -⟩ := hc
    rw [Item.objs_succ]
    cases he : x.es with
    | nil => rw [he] at h1; simp at h1
    | cons p es =>
      obtain ⟨c, f⟩ := hf p (by rw [he]; simp)
      intro h0
      rw [List.flatMap_cons, List.append_eq_nil_iff] at h0
      exact Item.objs_ne p.2 c f h0.1

theorem TInv.es_ne {q : Bool} {hi r : Nat} {s : RState F} {K : Nat} {X : Item F (K + 1)}
    (ti : TInv q 1 hi r s X) : X.objs = [] ↔ X.es = [] := by
  constructor
  · intro h
    cases he : X.es with
    | nil => rfl
    | cons p es =>
      obtain ⟨c, f⟩ := ti.fill p (by rw [he]; simp)
      rw [Item.objs_succ, he, List.flatMap_cons, List.append_eq_nil_iff] at h
      exact absurd h.1 (Item.objs_ne p.2 c f)
  · intro h
    rw [Item.objs_succ, h]
    rfl

theorem TInv.nonempty {q : Bool} {hi r : Nat} {s : RState F} {K : Nat} {X : Item F (K + 1)}
    (ti : TInv q 1 hi r s X) (h : X.objs ≠ [] ∨ K = 0) : TInv q 1 hi 1 s X := by
  refine ⟨ti.inv, ti.root, ti.rep, ti.nd, ti.good, ti.fill, ⟨ti.cnt.1, fun hK => ?_⟩, ti.height, ti.lo, by omega⟩
  rcases h with h | h
  · rw [Ne, ti.es_ne] at h
    exact List.length_pos_iff.2 h
  · exact absurd h hK

/-- with `MinChildren` at most one, no node is taken out that has to be put back -/
theorem condenseLoop_min1 (t : Rtree) (ht : t.MinChildren ≤ 1) (fuel : Nat) : ∀ (h : Heap F) (n : Option Nat) (del : List Nat)
    (h' : Heap F) (l : List Nat), condenseLoop t fuel h n del = .ok (h', l) → l = del := by
  induction fuel with
  | zero => intro h n del h' l e; cases e
  | succ fuel ih =>
    intro h n del h' l e
    unfold condenseLoop at e
    split at e
    · cases e; rfl
    · cases hn : h.deref n with
      | error x => rw [hn] at e; cases e
      | ok r =>
        obtain ⟨ni, v⟩ := r
        rw [hn] at e
        simp only [bind, Except.bind] at e
        cases hp : h.deref v.parent with
        | error x => rw [hp] at e; cases e
        | ok r =>
          obtain ⟨pi, p⟩ := r
          rw [hp] at e
          simp only at e
          split at e
          · rename_i hlt
            split at e
            · cases e
            · have h0 : ¬ v.entries.length > 0 := by omega
              rw [if_neg h0] at e
              exact ih _ _ _ _ _ e
          · split at e
            · cases e
            · exact ih _ _ _ _ _ e

/-- an insertion into an emptied inner root panics -/
theorem chooseNode_none {h : Heap F} {e : Entry F} {lvl : Int} {n fuel : Nat} {v : NodeV F} (hv : h.view n = some v)
    (h1 : v.leaf = false) (h2 : v.level ≠ lvl) (h3 : v.entries = []) :
    chooseNode h e lvl (fuel + 2) (some n) = .error .nilDeref := by
  rw [chooseNode, Heap.deref_some hv]
  simp only [bind, Except.bind, h1, Bool.false_or, beq_iff_eq, h2, if_false, h3, chooseLoop]
  rw [chooseNode]
  rfl

section
variable {V : Type} [Field V] [LinearOrder V] [IsStrictOrderedRing V] [FloatVal F V]
include V

/-- putting nodes back completes when the root is not empty, or they are put right under the root -/
theorem reinsert_total0 {q : Bool} {hi : Nat} (grow : Nat → Nat) (orph : List (Orphan F)) (s : RState F) (K : Nat)
    (X : Item F (K + 1)) (ti : TInv q 1 hi 0 s X)
    (hor : ∀ o ∈ orph, OrphOk 1 hi s.h K o) (hnd : (X.ids ++ orIds orph).Nodup)
    (hX : ∀ o ∈ X.objs, CoordsOk o.Geom) (hO : ∀ o ∈ orObjs orph, CoordsOk o.Geom)
    (hk : K ≤ 1 ∨ X.objs ≠ [] ∨ orph = []) :
    ∃ s', reinsert grow (orph.map fun o => o.2.id) s = .ok s' := by
  by_cases hne : X.objs ≠ [] ∨ K = 0
  · exact reinsert_total (le_refl 1) grow orph 1 s K X (le_refl 1) (ti.nonempty hne) hor hnd hX hO
  · obtain ⟨hX0, hK0⟩ := not_or.1 hne
    cases orph with
    | nil => exact ⟨s, rfl⟩
    | cons o orph =>
      have hK : K = 1 := by
        rcases hk with h | h | h
        · omega
        · exact absurd h hX0
        · cases h
      subst hK
      obtain ⟨i, z⟩ := o
      have oz := hor ⟨i, z⟩ (by simp)
      have hi0 : i = 0 := by have := oz.lvl; simp only at this; omega
      subst hi0
      rw [List.map_cons, reinsert]
      obtain ⟨⟨par, hv⟩, -⟩ := id oz.rep
      rw [Heap.deref_some hv]
      simp only [bind, Except.bind, Item.computeBoundingBox_es]
      have eI : orIds (⟨0, z⟩ :: orph : List (Orphan F)) = z.ids ++ orIds orph := by simp [orIds]
      have eO : orObjs (⟨0, z⟩ :: orph : List (Orphan F)) = z.objs ++ orObjs orph := by simp [orObjs]
      rw [eI] at hnd
      rw [eO] at hO
      obtain ⟨⟨parX, hvX⟩, -⟩ := id ti.rep
      have hc : chooseNode s.h (⟨z.box, some z.id, Spatial.zero⟩ : Entry F) (((0 : Nat) : Int) + 1 + 1) (s.h.nodes.length + 1)
          (some s.t.root) = .ok s.t.root := by
        rw [ti.root] at hvX
        rw [chooseNode, Heap.deref_some hvX]
        simp [bind, Except.bind]
      have hnd1 : (X.ids ++ z.ids).Nodup := by
        rw [← List.append_assoc] at hnd; exact (List.nodup_append.1 hnd).1
      have hlv : (((0 + 1 : Nat) : Int) + 1) = ((0 : Nat) : Int) + 1 + 1 := rfl
      obtain ⟨s1, K1, X1, g1, g2, g3, g4, g5, g6, g7, g8, g9, g10⟩ := insert_spec grow s X ti (i := 0 + 1)
        oz.lvl z oz.rep oz.good oz.fill oz.cnt hnd1 (Or.inl (by omega)) (by rw [hlv]; exact hc)
      rw [hlv] at g1
      have g1' : insert grow s ⟨z.box, some z.id, Spatial.zero⟩ (((0 : Nat) : Int) + 1 + 1) = .ok s1 := g1
      rw [g1']
      simp only
      have hz : X1.objs ≠ [] := by
        intro h0
        rw [h0] at g4
        have := List.nil_perm.1 g4
        rw [List.append_eq_nil_iff] at this
        exact Item.objs_ne z oz.cnt oz.fill this.1
      have hdis : ∀ n ∈ orIds orph, n ∉ X.ids ++ z.ids := by
        intro n h1 h2
        rw [← List.append_assoc] at hnd
        exact (List.nodup_append.1 hnd).2.2 n h2 n h1 rfl
      have hval : ∀ n ∈ orIds orph, n < s.h.nodes.length := by
        intro n hn
        obtain ⟨o', ho', hn'⟩ := List.mem_flatMap.1 hn
        exact (hor o' (by simp [ho'])).rep.valid n hn'
      refine reinsert_total (le_refl 1) grow orph 1 s1 K1 X1 (le_refl 1) (g2.nonempty (Or.inl hz)) ?_ ?_ ?_
        (fun o ho => hO o (List.mem_append_right _ ho))
      · intro o' ho'
        have h0 := hor o' (by simp [ho'])
        refine ⟨h0.rep.congr fun n hn => ?_, h0.good, h0.fill, h0.cnt, le_trans h0.lvl g3⟩
        have hn' : n ∈ orIds orph := List.mem_flatMap.2 ⟨o', ho', hn⟩
        exact g9 n (hval n hn') (hdis n hn')
      · rw [List.nodup_append]
        refine ⟨g2.nd, ?_, ?_⟩
        · rw [← List.append_assoc] at hnd; exact (List.nodup_append.1 hnd).2.1
        · intro a ha b hb hab
          subst hab
          rcases g8 a ha with h1 | h1
          · exact hdis a hb h1
          · have := hval a hb; omega
      · intro o ho
        rcases List.mem_append.1 (g4.mem_iff.1 ho) with h | h
        · exact hO o (List.mem_append_left _ h)
        · exact hX o h

/-- a deletion completes when `MinChildren` is one, or the tree has at most two levels, or the root has two children -/
theorem Delete_total0 {q : Bool} {hi : Nat} (grow : Nat → Nat) {s : RState F} {K : Nat} {X : Item F (K + 1)}
    (ti : TInv q 1 hi 0 s X) (hlm : 1 ≤ s.t.MinChildren) (hX : ∀ o ∈ X.objs, CoordsOk o.Geom)
    (obj : Spatial F) (cmp : Cond2 F) (hcm : ∀ o ∈ X.objs, ∃ b, cmp o obj = .ok b)
    (hk : s.t.MinChildren = 1 ∨ K ≤ 1 ∨ 2 ≤ X.es.length) :
    ∃ s' b, DeleteWithComparator grow s obj cmp = .ok (s', b) := by
  by_cases h2 : 2 ≤ X.es.length
  · exact Delete_total grow ⟨ti.inv, ti.root, ti.rep, ti.nd, ti.good, ti.fill, ⟨ti.cnt.1, fun _ => h2⟩, ti.height, ti.lo, le_refl 2⟩
      hlm hX obj cmp hcm
  replace hk : s.t.MinChildren = 1 ∨ K ≤ 1 := by
    rcases hk with h | h | h
    · exact Or.inl h
    · exact Or.inr h
    · exact absurd h h2
  rw [DeleteWithComparator_eq]
  have hlen : X.ids.length ≤ s.h.nodes.length := length_le_of_nodup ti.nd ti.rep.valid
  obtain ⟨res, hfl, -⟩ := findLeaf_total obj cmp (s.h.nodes.length + 1) K X (by omega) ti.rep hcm
  have hroot := ti.root
  obtain ⟨F1, F2⟩ := findLeaf_spec (root := s.t.root) (lo := 1) (hi := hi) (r := 0) obj cmp _ K X Ctx.top res
    ⟨ti.rep, hroot, by simpa [Ctx.ids] using ti.nd, ti.good, trivial, ti.fill, trivial,
      ⟨fun h0 => absurd trivial h0, fun _ => ti.cnt⟩⟩ hfl
  rw [hroot] at hfl
  rw [hfl]
  simp only [Except.bind]
  cases res with
  | none => exact ⟨_, _, rfl⟩
  | some n =>
    obtain ⟨⟨y, c, y1, y2, y3, y4, y5⟩, -⟩ := F1 n rfl
    subst y1
    simp only [Ctx.ids, Ctx.objs, List.append_nil, Ctx.rootLevel] at y3 y4 y5
    obtain ⟨⟨par, hv⟩, hch⟩ := id y2.rep
    simp only
    rw [Heap.deref_some hv]
    simp only
    obtain ⟨kk, hlm'⟩ := lastMatch_total (obj := obj) (cmp := cmp) (y.es.map Item.entry) (by
      intro e he
      obtain ⟨p, hp, rfl⟩ := List.mem_map.1 he
      refine hcm _ (y4.mem_iff.1 (List.mem_append_left _ ?_))
      rw [objs_eq]
      exact List.mem_flatMap.2 ⟨p, hp, List.mem_singleton.2 rfl⟩) 0 none
    rw [hlm']
    simp only
    rcases lastMatch_spec _ _ _ _ hlm' with ⟨rfl, hall⟩ | ⟨k, e, rfl, hk', hcm'⟩
    · exact ⟨_, _, rfl⟩
    · rw [Nat.zero_add]
      simp only
      rw [List.getElem?_map, Option.map_eq_some_iff] at hk'
      obtain ⟨p, hk', rfl⟩ := hk'
      obtain ⟨h', X1, orph, c1, c2, c3, c4, c5⟩ := condense_leaf (r' := 0) (le_refl 1) (Or.inr rfl)
        (by omega) ti (Or.inl hlm) y2 y3 y4 y5 hk'
      have hct : condenseTree grow ⟨s.h.removeAt y.id k, s.t⟩ y.id =
          reinsert grow (orph.map fun o => o.2.id) ⟨h', s.t⟩ := by
        unfold condenseTree
        simp only [c1, bind, Except.bind]
      rw [hct]
      have hob : ∀ o ∈ X1.objs ++ orObjs orph, CoordsOk o.Geom :=
        fun o ho => hX o (c5.mem_iff.2 (List.mem_cons_of_mem _ ho))
      obtain ⟨s2, hre⟩ := reinsert_total0 grow orph _ K X1 c2 c3 c4
        (fun o ho => hob o (List.mem_append_left _ ho)) (fun o ho => hob o (List.mem_append_right _ ho)) (by
          rcases hk with h | h
          · right; right
            have := condenseLoop_min1 s.t (le_of_eq h) _ _ _ _ _ _ c1
            simpa using this
          · exact Or.inl h)
      rw [hre]
      simp only
      obtain ⟨K2, X2, t2, -⟩ := reinsert_spec grow orph _ _ K X1 s2 c2 c3 c4 hre
      obtain ⟨s3, K3, X3, g1, -⟩ := finishDelete_spec (r := 0) (Nat.zero_le 1) t2
      exact ⟨_, _, g1⟩

end

end GoGeo
