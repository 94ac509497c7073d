import Verif.Rtree.Delete4
import Verif.Props.RtreeDelete

/-!
# C11: exactly when insertions panic after deletions, and when deletions do not
-/

set_option linter.unusedSectionVars false

namespace GoGeo
open GoFloat Spec
variable {F : Type} [GoFloat F] [FloatOrd F]

section
variable {V : Type} [Field V] [LinearOrder V] [IsStrictOrderedRing V] [FloatVal F V]
include V

theorem insert_exact {hi : Nat} (grow : Nat → Nat) {s : RState F} {K : Nat} {X : Item F (K + 1)} (ti : TInv true 1 hi 0 s X)
    (hX : ∀ o ∈ X.objs, CoordsOk o.Geom) (o : Spatial F) (ho : CoordsOk o.Geom) :
    (∃ s', Insert grow s o = .ok s') ↔ ¬ (X.objs = [] ∧ 1 < Depth s) := by
  have hd : Depth s = (K : Int) + 1 := ti.height
  constructor
  · rintro ⟨s', h⟩ ⟨h0, h1⟩
    rw [ti.es_ne] at h0
    obtain ⟨⟨par, hv⟩, -⟩ := id ti.rep
    rw [ti.root, h0] at hv
    obtain ⟨m, hm⟩ : ∃ m, s.h.nodes.length + 1 = m + 2 := by
      have hlen : X.ids.length ≤ s.h.nodes.length := length_le_of_nodup ti.nd ti.rep.valid
      rw [ids_eq] at hlen
      simp only [List.length_cons] at hlen
      exact ⟨s.h.nodes.length - 1, by omega⟩
    have hc := chooseNode_none (e := (⟨BoundingBox o.Geom, none, o⟩ : Entry F)) (lvl := 1) (fuel := m) hv
      (by simp; omega) (by simp only; omega) rfl
    unfold Insert at h
    rw [insert_eq, hm, hc] at h
    cases h
  · intro h
    refine Insert_total (le_refl 1) (le_refl 1) grow (ti.nonempty ?_) hX o ho
    by_cases h0 : X.objs = []
    · right
      by_contra hK
      exact h ⟨h0, by omega⟩
    · exact Or.inl h0

/-- **C11**, the exact condition for insertions: on a tree reached by any calls, `Insert` panics if and only if the tree holds nothing and
still is more than one level deep. -/
theorem C11_insert_exact (grow : Nat → Nat) (min max : Int) (hmin : 1 ≤ min) (hmax : 2 ≤ max) (s : RState F)
    (hs : Reached grow min max s) (hc : ∀ o ∈ contents s, CoordsOk o.Geom) (o : Spatial F) (ho : CoordsOk o.Geom) :
    (∃ s', Insert grow s o = .ok s') ↔ ¬ (Size s = 0 ∧ 1 < Depth s) := by
  obtain ⟨⟨K, X, ti⟩, hz, -⟩ := hs.sound1 hmin hmax
  rw [contents_eq ti] at hc hz
  rw [insert_exact grow ti hc o ho]
  have : Size s = 0 ↔ X.objs = [] := by
    unfold Size
    rw [hz, ← List.length_eq_zero_iff]
    omega
  rw [this]

/-- **C11**, partial: on a tree reached by any calls a deletion does not panic if `MinChildren` is one, or the tree is at most two levels
deep, or its root has two children.  Missing: larger `MinChildren` and deeper trees with a single child under the root, which earlier
deletions can leave and where it can panic, see `C11_delete_false`. -/
theorem C11_delete_total_partial (grow : Nat → Nat) (min max : Int) (hmin : 1 ≤ min) (hmax : 2 ≤ max) (s : RState F)
    (hs : Reached grow min max s) (hc : ∀ o ∈ contents s, CoordsOk o.Geom)
    (hk : s.t.MinChildren = 1 ∨ Depth s ≤ 2 ∨ RootAtLeast 2 s)
    (obj : Spatial F) (cmp : Cond2 F) (hcmp : ∀ o ∈ contents s, ∃ b, cmp o obj = .ok b) :
    ∃ s' b, DeleteWithComparator grow s obj cmp = .ok (s', b) := by
  obtain ⟨⟨K, X, ti⟩, -, -, hl⟩ := hs.sound1 hmin hmax
  rw [contents_eq ti] at hc hcmp
  have hm : 1 ≤ s.t.MinChildren := by rcases hl with h | h <;> omega
  refine Delete_total0 grow ti hm hc obj cmp hcmp ?_
  rcases hk with h | h | h
  · exact Or.inl h
  · have : Depth s = (K : Int) + 1 := ti.height
    exact Or.inr (Or.inl (by omega))
  · have := (ti.atLeast (le_refl 2) h).cnt.2
    by_cases hK : K = 0
    · exact Or.inr (Or.inl (by omega))
    · exact Or.inr (Or.inr (this hK))

/-- **C11** for `MinChildren` one: a history of insertions and deletions completes if and only if no insertion is called on a tree that has
been emptied and still is more than one level deep. -/
theorem C11_history_min1 (grow : Nat → Nat) (max : Int) (hmax : 2 ≤ max) (ops : List (Op F)) (hops : ∀ op ∈ ops, op.tame) :
    (∃ s bs, runAll grow ops (NewEmptyTree 1 max) = .ok (s, bs)) ↔ ¬ EmptiedInsert grow ops (NewEmptyTree 1 max : RState F) := by
  have key : ∀ (ops : List (Op F)), (∀ op ∈ ops, op.tame) → ∀ (s : RState F) (K : Nat) (X : Item F (K + 1)),
      TInv true 1 max.toNat 0 s X → s.t.size = X.objs.length → s.t.MinChildren = 1 → (∀ o ∈ X.objs, CoordsOk o.Geom) →
      ((∃ s' bs, runAll grow ops s = .ok (s', bs)) ↔ ¬ EmptiedInsert grow ops s) := by
    intro ops
    induction ops with
    | nil => intro _ s K X _ _ _ _; exact ⟨fun _ h => h, fun _ => ⟨s, [], rfl⟩⟩
    | cons op ops ih =>
      intro hops s K X ti hz hm hX
      have htame := hops op (by simp)
      have hops' : ∀ op ∈ ops, op.tame := fun op h => hops op (by simp [h])
      have hz0 : Size s = 0 ↔ X.objs = [] := by
        unfold Size
        rw [hz, ← List.length_eq_zero_iff]
        omega
      -- one call that returns
      have one : ∀ s1 b, op.run grow s = .ok (s1, b) → ∃ K1, ∃ X1 : Item F (K1 + 1),
          TInv true 1 max.toNat 0 s1 X1 ∧ s1.t.size = X1.objs.length ∧ s1.t.MinChildren = 1 ∧
          ∀ o ∈ X1.objs, CoordsOk o.Geom := by
        have del : ∀ obj cmp s1 b, DeleteWithComparator grow s obj cmp = .ok (s1, b) → ∃ K1, ∃ X1 : Item F (K1 + 1),
              TInv true 1 max.toNat 0 s1 X1 ∧ s1.t.size = X1.objs.length ∧ s1.t.MinChildren = 1 ∧
              ∀ o ∈ X1.objs, CoordsOk o.Geom := by
          intro obj cmp s1 b h
          obtain ⟨h1, h2⟩ := Delete_spec (r' := 0) (le_refl 1) (Or.inr rfl) (Nat.zero_le _) grow ti
            (Or.inl (by rw [hm]; norm_num)) obj cmp h
          cases b with
          | false =>
            obtain ⟨rfl, -⟩ := h1 rfl
            exact ⟨K, X, ti, hz, hm, hX⟩
          | true =>
            obtain ⟨K1, X1, o, t1, -, p1, z1, m1, -⟩ := h2 rfl
            refine ⟨K1, X1, t1, ?_, by rw [m1, hm], fun o ho => hX o (p1.mem_iff.2 (List.mem_cons_of_mem _ ho))⟩
            have := p1.length_eq
            rw [List.length_cons] at this
            rw [z1, hz, this]
            push_cast
            omega
        intro s1 b h
        cases op with
        | insert o =>
          simp only [Op.run] at h
          cases h1 : Insert grow s o with
          | error e => rw [h1] at h; cases h
          | ok s2 =>
            rw [h1] at h
            cases h
            obtain ⟨K1, X1, t1, p1, z1, m1⟩ := Insert_spec grow ti o h1
            refine ⟨K1, X1, t1, ?_, by rw [m1, hm], ?_⟩
            · have := p1.length_eq
              rw [z1, hz, this]
              simp
            · intro x hx
              rcases List.mem_cons.1 (p1.mem_iff.1 hx) with rfl | hx
              · exact htame
              · exact hX x hx
        | delete obj => exact del obj _ s1 b h
        | deleteWith obj cmp => exact del obj cmp s1 b h
        | deleteID id => exact htame.elim
        | upsert objs => exact htame.elim
      -- it returns exactly if it is not an insertion into an emptied tree
      have ret : (∃ s1 b, op.run grow s = .ok (s1, b)) ↔ ¬ ((∃ o, op = .insert o) ∧ Size s = 0 ∧ 1 < Depth s) := by
        cases op with
        | insert o =>
          have h0 := insert_exact grow ti hX o htame
          rw [hz0]
          constructor
          · rintro ⟨s1, b, h⟩ ⟨-, h1⟩
            simp only [Op.run] at h
            cases h2 : Insert grow s o with
            | error e => rw [h2] at h; cases h
            | ok s2 => exact h0.1 ⟨s2, h2⟩ h1
          · intro h
            obtain ⟨s1, h1⟩ := h0.2 (fun h1 => h ⟨⟨o, rfl⟩, h1⟩)
            exact ⟨s1, true, by simp [Op.run, h1, Except.map]⟩
        | delete obj =>
          refine ⟨fun _ h => (by simpa using h.1), fun _ => ?_⟩
          exact Delete_total0 grow ti (le_of_eq hm.symm) hX obj _ (fun o _ => goEq_total htame o) (Or.inl hm)
        | deleteWith obj cmp =>
          refine ⟨fun _ h => (by simpa using h.1), fun _ => ?_⟩
          exact Delete_total0 grow ti (le_of_eq hm.symm) hX obj cmp (fun o _ => htame o) (Or.inl hm)
        | deleteID id => exact htame.elim
        | upsert objs => exact htame.elim
      constructor
      · rintro ⟨s', bs, h⟩ (h1 | ⟨s1, b, h1, h2⟩)
        · cases hr : op.run grow s with
          | error e => rw [runAll, hr] at h; cases h
          | ok r => exact ret.1 ⟨r.1, r.2, hr⟩ h1
        · rw [runAll, h1] at h
          simp only [bind, Except.bind] at h
          obtain ⟨K1, X1, t1, z1, m1, c1⟩ := one s1 b h1
          cases hr : runAll grow ops s1 with
          | error e => rw [hr] at h; cases h
          | ok r => exact (ih hops' s1 K1 X1 t1 z1 m1 c1).1 ⟨r.1, r.2, hr⟩ h2
      · intro h
        obtain ⟨s1, b, h1⟩ := ret.2 (fun h0 => h (Or.inl h0))
        obtain ⟨K1, X1, t1, z1, m1, c1⟩ := one s1 b h1
        obtain ⟨s2, bs, h2⟩ := (ih hops' s1 K1 X1 t1 z1 m1 c1).2 (fun h0 => h (Or.inr ⟨s1, b, h1, h0⟩))
        exact ⟨s2, b :: bs, by rw [runAll, h1]; simp only [bind, Except.bind, h2]⟩
  exact key ops hops _ 0 _ (TInv.empty (min := 1) (max := max) (Nat.zero_le 2)
    ⟨by omega, by simp [NewEmptyTree]; omega, Or.inl (le_refl 1)⟩) (by simp [objs_eq, NewEmptyTree]) rfl (by simp [objs_eq])

end

/-! ## a deletion that panics, on binary64 -/

/-- a point on the first axis -/
def onAxis (id : String) (x : Float) : Spatial Float := ⟨id, .nil, .point ⟨x, 0⟩⟩

/-- insert seventeen points, delete sixteen of them -/
def thinningOps : List (Op Float) :=
  [onAxis "a" 4, onAxis "b" 9, onAxis "c" 0, onAxis "d" 6, onAxis "e" 3, onAxis "f" 2, onAxis "g" 9, onAxis "h" 1, onAxis "i" 9, onAxis "j" 7, onAxis "k" 9, onAxis "l" 6, onAxis "m" 5, onAxis "n" 5, onAxis "o" 8, onAxis "p" 2, onAxis "q" 4].map .insert ++
  [onAxis "k" 9, onAxis "c" 0, onAxis "j" 7, onAxis "e" 3, onAxis "o" 8, onAxis "d" 6, onAxis "q" 4, onAxis "p" 2, onAxis "a" 4, onAxis "g" 9, onAxis "m" 5, onAxis "b" 9, onAxis "n" 5, onAxis "h" 1, onAxis "f" 2, onAxis "i" 9].map .delete

/-- **C11** is false of deletions too when `MinChildren` is two: after fifteen deletions that return, the tree still holds two points and
the next deletion panics. -/
theorem C11_delete_false : ParamsOk 2 4 ∧
    (∃ s bs, runAll id (thinningOps.take 32) (NewEmptyTree 2 4) = .ok (s, bs) ∧ Size s = 2 ∧ Depth s = 3 ∧ ¬ RootAtLeast 2 s) ∧
    ∀ s bs, runAll id thinningOps (NewEmptyTree 2 4) ≠ .ok (s, bs) := by
  refine ⟨⟨by omega, by omega⟩, ?_, ?_⟩
  · have h : (runAll id (thinningOps.take 32) (NewEmptyTree 2 4)).map (fun r =>
        (Size r.1, Depth r.1, (r.1.h.view r.1.t.root).map fun v => (v.leaf, v.entries.length))) = .ok (2, 3, some (false, 1)) := by
      decide +kernel
    obtain ⟨⟨s, bs⟩, h1, h2⟩ := ok_of_map h
    simp only [Prod.mk.injEq] at h2
    refine ⟨s, bs, h1, h2.1, h2.2.1, fun h3 => ?_⟩
    obtain ⟨v, hv, hv'⟩ := Option.map_eq_some_iff.1 h2.2.2
    simp only [Prod.mk.injEq] at hv'
    have := h3 v hv hv'.1
    omega
  · intro s bs h
    have h0 : (runAll id thinningOps (NewEmptyTree 2 4)).toBool = false := by decide +kernel
    rw [h] at h0
    cases h0

/-- the history of `C11_history_false` is one of those of `C11_history_min1` -/
example : EmptiedInsert id emptyingOps (NewEmptyTree 1 3) := by
  have h := C11_history_min1 (F := Float) (V := ℚ) id 3 (by omega) emptyingOps C11_history_false.2.1
  by_contra h0
  obtain ⟨s, bs, h1⟩ := h.2 h0
  exact C11_history_false.2.2.2 s bs h1

end GoGeo
