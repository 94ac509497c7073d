import Verif.Rtree.Sim

/-!
# Insertion in lockstep
-/

set_option linter.unusedSectionVars false

namespace GoGeo
open GoFloat
variable {F : Type} [GoFloat F] {D : Nat → Prop} {Q : Nat → List (Entry F) → List (Entry F) → Prop}

theorem Sim.deref {h k : Heap F} (s : Sim D Q h k) {n : Nat} (hn : ¬ D n) : h.deref (some n) = k.deref (some n) := by
  unfold Heap.deref; simp only; rw [s.clean hn]

theorem splitLoop_sim (grow : Nat → Nat) (l r : Nat) (mg : Int) (oh ok : Slice) (hl : ¬ D l) (hr : ¬ D r) (fuel : Nat) :
    ∀ (h k : Heap F) (rem : List (Entry F)), Sim D Q h k → h.Priv l → h.Priv r → OldOk D Q h oh rem → k.Unused ok.arr →
    ∀ k', splitLoop grow l r mg ok fuel k rem = .ok k' → ∃ h', splitLoop grow l r mg oh fuel h rem = .ok h' ∧ Sim D Q h' k' := by
  induction fuel with
  | zero => intro h k rem s _ _ _ _ k' hk; cases hk; exact ⟨h, rfl, s⟩
  | succ fuel ih =>
    intro h k rem s pl pr o hu k' hk
    rw [splitLoop] at hk ⊢
    split_ifs at hk ⊢ with h0
    · cases hk; exact ⟨h, rfl, s⟩
    · rw [s.deref hl, s.deref hr]
      cases hd1 : k.deref (some l) with
      | error e => rw [hd1] at hk; cases hk
      | ok lv =>
        cases hd2 : k.deref (some r) with
        | error e => rw [hd1, hd2] at hk; cases hk
        | ok rv =>
          rw [hd1, hd2] at hk
          simp only [bind, Except.bind] at hk ⊢
          generalize pickNext lv.2.entries rv.2.entries rem = next at hk ⊢
          cases hre : rem[next]? with
          | none => rw [hre] at hk; cases hk
          | some e =>
            rw [hre] at hk
            simp only at hk ⊢
            generalize (if (rem.length : Int) + lv.2.entries.length ≤ mg then true
              else if (rem.length : Int) + rv.2.entries.length ≤ mg then false
              else assignGroupLeft e lv.2.entries rv.2.entries) = tl at hk ⊢
            obtain ⟨g, hg, hgD, hgP⟩ : ∃ g, g = (if tl = true then l else r) ∧ ¬ D g ∧ h.Priv g := by
              cases tl
              · exact ⟨r, rfl, hr, pr⟩
              · exact ⟨l, rfl, hl, pl⟩
            rw [← hg] at hk ⊢
            have hlt := (List.getElem?_eq_some_iff.1 hre).1
            have s1 := s.setChildParent e g
            have p1 : ∀ {n}, h.Priv n → (h.setChildParent e g).Priv n := fun hp =>
              Heap.Priv.mv s.hb (Heap.Mv.of_eq (Heap.addr_setChildParent h e g) 0) hp
            have s2 := s1.append grow hgD (p1 hgP) e
            have p2 : ∀ {n}, h.Priv n → (assign grow h e g).Priv n := fun hp =>
              Heap.Priv.mv s1.hb (Heap.mv_append _ _ _ _) (p1 hp)
            have o2 : OldOk D Q (assign grow h e g) oh (rem.take next ++ rem.drop (next + 1)) := by
              refine OldOk.shrink ((o.setChildParent e g).append grow hgD e) ?_ ?_
              · simp; omega
              · intro x hx
                rcases List.mem_append.1 hx with h1 | h1
                · exact List.mem_of_mem_take h1
                · exact List.mem_of_mem_drop h1
            have u2 : (assign grow k e g).Unused ok.arr := (hu.setChildParent e g).append grow g e
            exact ih _ _ _ (s2.blit o2 u2 _) (Heap.Priv.mv s2.hb (Heap.Mv.of_eq (Heap.addr_blit _ _ _) 0) (p2 pl))
              (Heap.Priv.mv s2.hb (Heap.Mv.of_eq (Heap.addr_blit _ _ _) 0) (p2 pr)) o2.blit (u2.blit _ _) k' hk

/-- the nodes that share the array of `n` are dirty leaves, and rearranging the entries of `n` does not harm them -/
def Shares (D : Nat → Prop) (Q : Nat → List (Entry F) → List (Entry F) → Prop) (h : Heap F) (n : Nat) (es : List (Entry F)) : Prop :=
  ∀ nd, h.nodes[n]? = some nd → ∀ m md, m ≠ n → h.nodes[m]? = some md → md.entries.arr = nd.entries.arr → D m ∧
    ((md.entries.off + md.entries.len ≤ nd.entries.off ∨ nd.entries.off + (nd.entries.len - 2) ≤ md.entries.off) ∨
     ∀ xs xs' vs, Q m xs vs → xs'.length = xs.length → (∀ e ∈ xs', e ∈ xs ∨ e ∈ es) → Q m xs' vs)

theorem Shares.of_priv {h : Heap F} {n : Nat} (pr : h.Priv n) (es : List (Entry F)) : Shares D Q h n es :=
  fun _ hn _ _ hm hmd ha => absurd ha.symm (pr hm.symm hn hmd)

theorem split_sim (grow : Nat → Nat) {h k : Heap F} (s : Sim D Q h k) {n : Nat} (hn : ¬ D n) {v : NodeV F} (hv : k.view n = some v)
    (h2 : 2 ≤ v.entries.length) (sh : Shares D Q h n v.entries) (mg : Int) {k' : Heap F} {R : Nat}
    (hk : split grow k n mg = .ok (k', R)) :
    ∃ h', split grow h n mg = .ok (h', R) ∧ Sim D Q h' k' ∧ ¬ D R := by
  have hvh : h.view n = some v := by rw [s.clean hn]; exact hv
  unfold split at hk ⊢
  rw [Heap.deref_some hvh]
  rw [Heap.deref_some hv] at hk
  simp only [bind, Except.bind] at hk ⊢
  obtain ⟨hb1, hb2⟩ := pickSeeds_bound v.entries h2
  generalize hps : pickSeeds v.entries = ps at hk hb1 hb2 ⊢
  obtain ⟨l, r⟩ := ps
  simp only at hk hb1 hb2 ⊢
  rw [List.getElem?_eq_getElem hb2, List.getElem?_eq_getElem (by omega : l < v.entries.length)] at hk ⊢
  simp only at hk ⊢
  generalize v.entries[l] = a at hk ⊢
  generalize v.entries[r] = b at hk ⊢
  obtain ⟨rem, hrem⟩ : ∃ rem, rem = v.entries.take l ++ (v.entries.drop (l + 1)).take (r - (l + 1)) ++ v.entries.drop (r + 1) := ⟨_, rfl⟩
  rw [← hrem] at hk ⊢
  have hreml : rem.length = v.entries.length - 2 := by rw [hrem]; simp; omega
  have hremm : ∀ e ∈ rem, e ∈ v.entries := by
    intro e he
    rw [hrem] at he
    rcases List.mem_append.1 he with h1 | h1
    · rcases List.mem_append.1 h1 with h1 | h1
      · exact List.mem_of_mem_take h1
      · exact List.mem_of_mem_drop (List.mem_of_mem_take h1)
    · exact List.mem_of_mem_drop h1
  obtain ⟨nd, hnd, hvnd⟩ := Heap.view_some.1 hvh
  obtain ⟨kd, hkd, -⟩ := Heap.view_some.1 hv
  have hso : h.sliceOf n = nd.entries := by unfold Heap.sliceOf; rw [hnd]; rfl
  have hsk : k.sliceOf n = kd.entries := by unfold Heap.sliceOf; rw [hkd]; rfl
  have hlen : v.entries.length = nd.entries.len := by rw [hvnd]; exact s.hb.len hnd
  rw [hso, Heap.blit_setEntries n (s.hb.arr_lt hnd)]
  rw [hsk, Heap.blit_setEntries n (s.ki.toOk.toBnd.arr_lt hkd)] at hk
  have s1 := s.setEntries hn hv [a]
  have u1 : (k.setEntries n [a]).Unused kd.entries.arr := Heap.Priv.unused s.ki.toOk (s.kpriv hv) hkd [a]
  obtain ⟨x, hx, hx1, hx2⟩ := s.hb.bnd hnd
  have o1 : OldOk D Q (h.setEntries n [a]) nd.entries rem := by
    refine ⟨?_, ?_, ?_⟩
    · have := s.hb.arr_lt hnd
      rw [Heap.setEntries_eq hnd]; unfold Heap.fresh; simp; omega
    · intro y hy
      rw [Heap.setEntries_eq hnd] at hy
      unfold Heap.fresh at hy
      simp only at hy
      rw [List.getElem?_append_left (s.hb.arr_lt hnd), hx] at hy
      cases hy
      omega
    · intro m md hm ha
      rcases Heap.node_setEntries hm with ⟨h3, h4⟩ | ⟨rfl, nd', h3, rfl⟩
      · obtain ⟨g1, g2⟩ := sh nd hnd m md h3 h4 ha
        refine ⟨g1, ?_⟩
        rcases g2 with g2 | g2
        · left; rw [hreml, hlen]; exact g2
        · right
          intro es es' vs q e mm
          exact g2 es es' vs q e fun x hx => (mm x hx).imp id (hremm x)
      · have := s.hb.arr_lt hnd
        simp only at ha; omega
  obtain ⟨mv1, ad1⟩ := Heap.mv_setEntries hvh [a]
  have pn1 : (h.setEntries n [a]).Priv n := Heap.Priv.mv_new s.hb mv1 ad1 le_rfl
  have s2 := s1.blit o1 u1 rem
  have pn2 : ((h.setEntries n [a]).blit nd.entries rem).Priv n := Heap.Priv.mv s1.hb (Heap.Mv.of_eq (Heap.addr_blit _ nd.entries rem) 0) pn1
  have o2 := o1.blit
  have u2 := u1.blit kd.entries rem
  obtain ⟨H2, hH2⟩ : ∃ x, x = (h.setEntries n [a]).blit nd.entries rem := ⟨_, rfl⟩
  obtain ⟨K2, hK2⟩ : ∃ x, x = (k.setEntries n [a]).blit kd.entries rem := ⟨_, rfl⟩
  rw [← hH2] at s2 pn2 o2 ⊢
  rw [← hK2] at s2 u2 hk
  have s3 := s2.alloc v.parent v.leaf v.level [b]
  obtain ⟨mv3, ad3⟩ := Heap.mv_alloc H2 v.parent v.leaf v.level [b]
  have pn3 : (H2.alloc v.parent v.leaf v.level [b]).1.Priv n := Heap.Priv.mv s2.hb mv3 pn2
  have pr3 : (H2.alloc v.parent v.leaf v.level [b]).1.Priv H2.nodes.length := Heap.Priv.mv_new s2.hb mv3 ad3 le_rfl
  have o3 := o2.alloc v.parent v.leaf v.level [b]
  have u3 := u2.alloc v.parent v.leaf v.level [b]
  have hRD : ¬ D H2.nodes.length := fun h0 => Nat.lt_irrefl _ (s2.dlt h0)
  have hR : (K2.alloc v.parent v.leaf v.level [b]).2 = H2.nodes.length := s2.len.symm
  have hR' : (H2.alloc v.parent v.leaf v.level [b]).2 = H2.nodes.length := rfl
  rw [hR] at hk
  rw [hR']
  generalize (H2.alloc v.parent v.leaf v.level [b]).1 = H3 at *
  generalize (K2.alloc v.parent v.leaf v.level [b]).1 = K3 at *
  generalize H2.nodes.length = R0 at *
  have s4 := (s3.setChildParent b R0).setChildParent a n
  have pv4 : ∀ {m}, H3.Priv m → ((H3.setChildParent b R0).setChildParent a n).Priv m := fun hp =>
    Heap.Priv.mv s3.hb (Heap.Mv.of_eq (fun m => by rw [Heap.addr_setChildParent, Heap.addr_setChildParent]) 0) hp
  cases hsl : splitLoop grow n R0 mg kd.entries rem.length ((K3.setChildParent b R0).setChildParent a n) rem with
  | error e => rw [hsl] at hk; cases hk
  | ok k4 =>
    rw [hsl] at hk
    cases hk
    obtain ⟨h4, e4, s5⟩ := splitLoop_sim grow n R mg nd.entries kd.entries hn hRD rem.length _ _ rem s4 (pv4 pn3) (pv4 pr3)
      ((o3.setChildParent b R).setChildParent a n) ((u3.setChildParent b R).setChildParent a n) k' hsl
    refine ⟨h4, ?_, s5, hRD⟩
    rw [e4]

/-! ## following parent pointers -/

/-- the parent pointer and the leaf flag of a node -/
def pl (k : Heap F) (n : Nat) : Option (Option Nat × Bool) := k.nodes[n]?.map fun nd => (nd.parent, nd.leaf)

theorem pl_view {k : Heap F} {n : Nat} {v : NodeV F} (hv : k.view n = some v) : pl k n = some (v.parent, v.leaf) := by
  obtain ⟨nd, h1, rfl⟩ := Heap.view_some.1 hv
  unfold pl; rw [h1]; rfl

theorem pl_append (k : Heap F) (grow : Nat → Nat) (n : Nat) (e : Entry F) (m : Nat) : pl (k.append grow n e) m = pl k m := by
  unfold pl Heap.append
  cases hn : k.nodes[n]? with
  | none => rfl
  | some nd =>
    dsimp only
    have hlt := (List.getElem?_eq_some_iff.1 hn).1
    split_ifs <;>
    · simp only [List.getElem?_set]
      split_ifs with h1
      · subst h1; simp [hn]
      · rfl

theorem pl_setEntries (k : Heap F) (n : Nat) (es : List (Entry F)) (m : Nat) : pl (k.setEntries n es) m = pl k m := by
  unfold pl Heap.setEntries
  cases hn : k.nodes[n]? with
  | none => rfl
  | some nd =>
    simp only [List.getElem?_set]
    split_ifs with h1
    · subst h1; simp [hn]
    · exact absurd (List.getElem?_eq_some_iff.1 hn).1 (by subst h1; assumption)
    · rfl

theorem pl_setBB (k : Heap F) (n i : Nat) (b : Box F) (m : Nat) : pl (k.setBB n i b) m = pl k m := by
  unfold pl Heap.setBB; split <;> rfl

theorem pl_blit (k : Heap F) (s : Slice) (es : List (Entry F)) (m : Nat) : pl (k.blit s es) m = pl k m := rfl

theorem pl_setParent (k : Heap F) (c : Nat) (p : Option Nat) (m : Nat) :
    pl (k.setParent c p) m = if m = c then (pl k m).map fun x => (p, x.2) else pl k m := by
  unfold pl Heap.setParent
  simp only [List.getElem?_modify]
  cases k.nodes[m]? with
  | none => simp
  | some nd =>
    simp only [Option.map_eq_map, Option.map_some]
    split_ifs with h1 h2 h2
    · rfl
    · exact absurd h1.symm h2
    · exact absurd h2.symm h1
    · rfl

theorem pl_alloc (k : Heap F) (p : Option Nat) (l : Bool) (lv : Int) (es : List (Entry F)) (m : Nat) :
    pl (k.alloc p l lv es).1 m = if m = k.nodes.length then some (p, l) else pl k m := by
  unfold pl Heap.alloc
  dsimp only
  split_ifs with h1
  · subst h1; simp
  · rcases lt_or_gt_of_ne h1 with h2 | h2
    · rw [List.getElem?_append_left h2]
    · rw [List.getElem?_eq_none (by simp; omega), List.getElem?_eq_none (by omega)]

/-- inner node -/
def IsInner (k : Heap F) (n : Nat) : Prop := ∃ par, pl k n = some (par, false)

/-- in the set `T`, nodes other than the root have an inner node of `T` as their parent -/
def Up (T : Nat → Prop) (root : Nat) (k : Heap F) : Prop :=
  ∀ n par l, T n → n ≠ root → pl k n = some (par, l) → ∃ p, par = some p ∧ T p ∧ IsInner k p

theorem IsInner.of_pl {k k' : Heap F} (e : ∀ m, pl k' m = pl k m) {n : Nat} (h : IsInner k n) : IsInner k' n := by
  obtain ⟨p, h⟩ := h; exact ⟨p, by rw [e]; exact h⟩

theorem IsInner.setParent {k : Heap F} {n : Nat} (h : IsInner k n) (c : Nat) (p : Option Nat) : IsInner (k.setParent c p) n := by
  obtain ⟨q, h⟩ := h
  unfold IsInner
  rw [pl_setParent, h]
  split_ifs
  · exact ⟨p, rfl⟩
  · exact ⟨q, rfl⟩

theorem Up.of_pl {T : Nat → Prop} {root : Nat} {k k' : Heap F} (e : ∀ m, pl k' m = pl k m) (up : Up T root k) : Up T root k' := by
  intro n par l h1 h2 h3
  rw [e] at h3
  obtain ⟨p, h4, h5, h6⟩ := up n par l h1 h2 h3
  exact ⟨p, h4, h5, h6.of_pl e⟩

theorem Up.setParent {T : Nat → Prop} {root : Nat} {k : Heap F} (up : Up T root k) (c : Nat) {g : Nat} (hg : T g) (hi : IsInner k g) :
    Up T root (k.setParent c (some g)) := by
  intro n par l h1 h2 h3
  rw [pl_setParent] at h3
  split_ifs at h3 with h0
  · cases hp : pl k n with
    | none => rw [hp] at h3; cases h3
    | some x =>
      rw [hp] at h3; cases h3
      exact ⟨g, rfl, hg, hi.setParent _ _⟩
  · obtain ⟨p, h4, h5, h6⟩ := up n par l h1 h2 h3
    exact ⟨p, h4, h5, h6.setParent _ _⟩

theorem Up.setChildParent {T : Nat → Prop} {root : Nat} {k : Heap F} (up : Up T root k) (e : Entry F) {g : Nat} (hg : T g)
    (hi : e.child = none ∨ IsInner k g) : Up T root (k.setChildParent e g) := by
  unfold Heap.setChildParent
  split
  · exact up
  · rename_i c hc
    rcases hi with hi | hi
    · rw [hi] at hc; cases hc
    · exact up.setParent _ hg hi

theorem IsInner.setChildParent {k : Heap F} {n : Nat} (h : IsInner k n) (e : Entry F) (g : Nat) : IsInner (k.setChildParent e g) n := by
  unfold Heap.setChildParent
  split
  · exact h
  · exact h.setParent _ _

theorem splitLoop_up (grow : Nat → Nat) (l r root : Nat) (mg : Int) (old : Slice) {T : Nat → Prop} (hl : T l) (hr : T r) (fuel : Nat) :
    ∀ (k : Heap F) (rem : List (Entry F)), Up T root k → ((∀ e ∈ rem, e.child = none) ∨ (IsInner k l ∧ IsInner k r)) →
    ∀ k', splitLoop grow l r mg old fuel k rem = .ok k' → Up T root k' := by
  induction fuel with
  | zero => intro k rem up _ k' hk; cases hk; exact up
  | succ fuel ih =>
    intro k rem up hin k' hk
    rw [splitLoop] at hk
    split_ifs at hk with h0
    · cases hk; exact up
    · cases hd1 : k.deref (some l) with
      | error e => rw [hd1] at hk; cases hk
      | ok lv =>
        cases hd2 : k.deref (some r) with
        | error e => rw [hd1, hd2] at hk; cases hk
        | ok rv =>
          rw [hd1, hd2] at hk
          simp only [bind, Except.bind] at hk
          generalize pickNext lv.2.entries rv.2.entries rem = next at hk
          cases hre : rem[next]? with
          | none => rw [hre] at hk; cases hk
          | some e =>
            rw [hre] at hk
            simp only at hk
            generalize (if (rem.length : Int) + lv.2.entries.length ≤ mg then true
              else if (rem.length : Int) + rv.2.entries.length ≤ mg then false
              else assignGroupLeft e lv.2.entries rv.2.entries) = tl at hk
            have he : e ∈ rem := List.mem_iff_getElem?.2 ⟨_, hre⟩
            obtain ⟨g, hg, hgT, hgI⟩ : ∃ g, g = (if tl = true then l else r) ∧ T g ∧ (e.child = none ∨ IsInner k g) := by
              cases tl
              · exact ⟨r, rfl, hr, hin.imp (fun h => h e he) fun h => h.2⟩
              · exact ⟨l, rfl, hl, hin.imp (fun h => h e he) fun h => h.1⟩
            rw [← hg] at hk
            have e2 : ∀ m, pl ((assign grow k e g).blit old (rem.take next ++ rem.drop (next + 1))) m = pl (k.setChildParent e g) m :=
              fun m => by rw [pl_blit]; exact pl_append _ _ _ _ _
            refine ih _ _ ((up.setChildParent e hgT hgI).of_pl e2) ?_ k' hk
            refine hin.imp (fun h x hx => h x ?_) fun h => ⟨(h.1.setChildParent e g).of_pl e2, (h.2.setChildParent e g).of_pl e2⟩
            rcases List.mem_append.1 hx with h1 | h1
            · exact List.mem_of_mem_take h1
            · exact List.mem_of_mem_drop h1

theorem split_up (grow : Nat → Nat) {T : Nat → Prop} {root : Nat} {k : Heap F} (up : Up T root k) {n : Nat} (hT : T n) (hne : n ≠ root)
    {v : NodeV F} (hv : k.view n = some v) (hc : (∀ e ∈ v.entries, e.child = none) ∨ v.leaf = false) (mg : Int) {k' : Heap F} {R : Nat}
    (hk : split grow k n mg = .ok (k', R)) : Up (fun m => T m ∨ m = R) root k' := by
  unfold split at hk
  rw [Heap.deref_some hv] at hk
  simp only [bind, Except.bind] at hk
  generalize pickSeeds v.entries = ps at hk
  obtain ⟨l, r⟩ := ps
  simp only at hk
  cases hl : v.entries[l]? with
  | none => rw [hl] at hk; simp at hk
  | some a =>
    cases hr : v.entries[r]? with
    | none => rw [hl, hr] at hk; simp at hk
    | some b =>
      rw [hl, hr] at hk
      simp only at hk
      have ha : a ∈ v.entries := List.mem_iff_getElem?.2 ⟨_, hl⟩
      have hb : b ∈ v.entries := List.mem_iff_getElem?.2 ⟨_, hr⟩
      obtain ⟨rem, hrem⟩ : ∃ rem, rem = v.entries.take l ++ (v.entries.drop (l + 1)).take (r - (l + 1)) ++ v.entries.drop (r + 1) :=
        ⟨_, rfl⟩
      rw [← hrem] at hk
      have hremm : ∀ e ∈ rem, e ∈ v.entries := by
        intro e he
        rw [hrem] at he
        rcases List.mem_append.1 he with h1 | h1
        · rcases List.mem_append.1 h1 with h1 | h1
          · exact List.mem_of_mem_take h1
          · exact List.mem_of_mem_drop (List.mem_of_mem_take h1)
        · exact List.mem_of_mem_drop h1
      obtain ⟨k1, hk1⟩ : ∃ x, x = (k.blit (k.sliceOf n) rem).setEntries n [a] := ⟨_, rfl⟩
      rw [← hk1] at hk
      have e1 : ∀ m, pl k1 m = pl k m := fun m => by rw [hk1, pl_setEntries, pl_blit]
      have up1 := up.of_pl e1
      have hR : (k1.alloc v.parent v.leaf v.level [b]).2 = k1.nodes.length := rfl
      rw [hR] at hk
      obtain ⟨R0, hR0⟩ : ∃ x, x = k1.nodes.length := ⟨_, rfl⟩
      rw [← hR0] at hk
      have e2 := pl_alloc k1 v.parent v.leaf v.level [b]
      rw [← hR0] at e2
      generalize (k1.alloc v.parent v.leaf v.level [b]).1 = k2 at hk e2
      have hpn : pl k1 n = some (v.parent, v.leaf) := by rw [e1]; exact pl_view hv
      have hnR : n ≠ R0 := by
        rintro rfl
        have : pl k1 k1.nodes.length = none := by unfold pl; rw [List.getElem?_eq_none (le_refl _)]; rfl
        rw [← hR0, hpn] at this; cases this
      have inn : ∀ m, IsInner k1 m → IsInner k2 m := by
        rintro m ⟨par, hm⟩
        refine ⟨par, ?_⟩
        rw [e2, if_neg]
        · exact hm
        · rintro rfl
          have : pl k1 k1.nodes.length = none := by unfold pl; rw [List.getElem?_eq_none (le_refl _)]; rfl
          rw [← hR0, hm] at this; cases this
      have up2 : Up (fun m => T m ∨ m = R0) root k2 := by
        intro m par lf h1 h2 h3
        rw [e2] at h3
        split_ifs at h3 with h0
        · cases h3
          obtain ⟨p, h4, h5, h6⟩ := up1 n _ _ hT hne hpn
          exact ⟨p, h4, Or.inl h5, inn p h6⟩
        · rcases h1 with h1 | h1
          · obtain ⟨p, h4, h5, h6⟩ := up1 m par lf h1 h2 h3
            exact ⟨p, h4, Or.inl h5, inn p h6⟩
          · exact absurd h1 h0
      have hin : (∀ e ∈ v.entries, e.child = none) ∨ (IsInner k2 n ∧ IsInner k2 R0) := by
        refine hc.imp id fun h => ⟨⟨v.parent, ?_⟩, ⟨v.parent, ?_⟩⟩
        · rw [e2, if_neg hnR, hpn, h]
        · rw [e2, if_pos rfl, h]
      have up3 := up2.setChildParent b (g := R0) (Or.inr rfl) (hin.imp (fun h => h b hb) fun h => h.2)
      have up4 := up3.setChildParent a (g := n) (Or.inl hT) (hin.imp (fun h => h a ha) fun h => h.1.setChildParent _ _)
      cases hsl : splitLoop grow n R0 mg (k.sliceOf n) rem.length ((k2.setChildParent b R0).setChildParent a n) rem with
      | error e => rw [hsl] at hk; cases hk
      | ok k4 =>
        rw [hsl] at hk
        cases hk
        exact splitLoop_up grow n R root mg _ (T := fun m => T m ∨ m = R) (Or.inl hT) (Or.inr rfl) _ _ _ up4
          (hin.imp (fun h e he => h e (hremm e he))
            fun h => ⟨(h.1.setChildParent _ _).setChildParent _ _, (h.2.setChildParent _ _).setChildParent _ _⟩) _ hsl

/-! ## the rest of an insertion -/

theorem Sim.not_dirty {h k : Heap F} (s : Sim D Q h k) {n : Nat} (hi : IsInner k n) : ¬ D n := by
  intro hd
  obtain ⟨v, w, h1, -, -, -, h5, -⟩ := s.dirty hd
  obtain ⟨par, hp⟩ := hi
  rw [pl_view h1, h5] at hp
  cases hp

theorem adjustTree_sim (grow : Nat → Nat) (t : Rtree) (hmax : 1 ≤ t.MaxChildren) (fuel : Nat) :
    ∀ (h k : Heap F) (T : Nat → Prop) (n : Nat) (nn : Option Nat), Sim D Q h k → ¬ D n → (∀ i ∈ nn, ¬ D i) → Up T t.root k → T n →
    ∀ k' a b, adjustTree grow t fuel k (some n) nn = .ok (k', a, b) →
    ∃ h', adjustTree grow t fuel h (some n) nn = .ok (h', a, b) ∧ Sim D Q h' k' ∧ (∀ i ∈ a, ¬ D i) ∧ (∀ i ∈ b, ¬ D i) := by
  induction fuel with
  | zero => intro h k T n nn _ _ _ _ _ k' a b hk; cases hk
  | succ fuel ih =>
    intro h k T n nn s hn hnn up hT k' a b hk
    rw [adjustTree] at hk ⊢
    split_ifs at hk ⊢ with h0
    · cases hk
      exact ⟨h, rfl, s, fun i hi => by cases hi; exact hn, hnn⟩
    · have h0' : n ≠ t.root := fun e => h0 (by rw [e])
      rw [s.deref hn]
      cases hd : k.deref (some n) with
      | error e => rw [hd] at hk; cases hk
      | ok x =>
        obtain ⟨ni, v⟩ := x
        obtain ⟨e1, hv⟩ := Heap.deref_ok hd
        obtain rfl : n = ni := Option.some.inj e1
        rw [hd] at hk
        simp only [bind, Except.bind] at hk ⊢
        obtain ⟨pi, hpi, hTp, hin⟩ := up n v.parent v.leaf hT h0' (pl_view hv)
        have hpD : ¬ D pi := s.not_dirty hin
        rw [hpi] at hk ⊢
        rw [s.deref hpD]
        cases hdp : k.deref (some pi) with
        | error e => rw [hdp] at hk; cases hk
        | ok y =>
          obtain ⟨pi', p⟩ := y
          obtain ⟨e1, hvp⟩ := Heap.deref_ok hdp
          obtain rfl : pi = pi' := Option.some.inj e1
          rw [hdp] at hk
          simp only at hk hvp ⊢
          have hlf : p.leaf = false := by
            obtain ⟨par, hp⟩ := hin
            rw [pl_view hvp] at hp
            simpa using (Prod.mk.inj (Option.some.inj hp)).2
          have hvph : h.view pi = some p := by rw [s.clean hpD]; exact hvp
          cases hg : getEntry n p.entries with
          | none => rw [hg] at hk; cases hk
          | some i =>
            rw [hg] at hk
            simp only at hk ⊢
            have hi : i < p.entries.length := by
              unfold getEntry at hg
              exact (List.findIdx?_eq_some_iff_getElem.1 hg).1
            have prp : h.Priv pi := s.hp hvph hlf
            have s1 := s.setBB hpD prp hvp hi (computeBoundingBox v.entries)
            have up1 : Up T t.root (k.setBB pi i (computeBoundingBox v.entries)) := up.of_pl (pl_setBB _ _ _ _)
            have hin1 : IsInner (k.setBB pi i (computeBoundingBox v.entries)) pi := hin.of_pl (pl_setBB _ _ _ _)
            generalize h.setBB pi i (computeBoundingBox v.entries) = h1 at *
            generalize k.setBB pi i (computeBoundingBox v.entries) = k1 at *
            cases nn with
            | none => exact ih h1 k1 T pi none s1 hpD (by simp) up1 hTp k' a b hk
            | some nni =>
              simp only at hk ⊢
              have hnD : ¬ D nni := hnn nni rfl
              rw [s1.deref hnD]
              cases hdn : k1.deref (some nni) with
              | error e => rw [hdn] at hk; cases hk
              | ok z =>
                obtain ⟨nj, nv⟩ := z
                rw [hdn] at hk
                simp only at hk ⊢
                have pr1 : h1.Priv pi := by
                  obtain ⟨par, hp⟩ := hin1
                  cases hw : h1.view pi with
                  | none =>
                    rw [s1.clean hpD] at hw
                    unfold Heap.view at hw; unfold pl at hp
                    cases hx : k1.nodes[pi]? <;> rw [hx] at hw hp <;> first | cases hp | cases hw
                  | some w =>
                    have : k1.view pi = some w := by rw [← s1.clean hpD]; exact hw
                    rw [pl_view this] at hp
                    have hwl : w.leaf = false := by simpa using (Prod.mk.inj (Option.some.inj hp)).2
                    have r : h1.Priv pi := s1.hp hw hwl
                    exact @r
                have s2 := s1.append grow hpD pr1 ⟨computeBoundingBox nv.entries, some nni, Spatial.zero⟩
                have up2 : Up T t.root (k1.append grow pi ⟨computeBoundingBox nv.entries, some nni, Spatial.zero⟩) :=
                  up1.of_pl (pl_append _ _ _ _)
                have hin2 : IsInner (k1.append grow pi ⟨computeBoundingBox nv.entries, some nni, Spatial.zero⟩) pi :=
                  hin1.of_pl (pl_append _ _ _ _)
                generalize h1.append grow pi ⟨computeBoundingBox nv.entries, some nni, Spatial.zero⟩ = h2 at *
                generalize k1.append grow pi ⟨computeBoundingBox nv.entries, some nni, Spatial.zero⟩ = k2 at *
                rw [s2.deref hpD]
                cases hd2 : k2.deref (some pi) with
                | error e => rw [hd2] at hk; cases hk
                | ok y2 =>
                  obtain ⟨pj, p2⟩ := y2
                  obtain ⟨e1, hvp2⟩ := Heap.deref_ok hd2
                  obtain rfl : pi = pj := Option.some.inj e1
                  rw [hd2] at hk
                  simp only at hk hvp2 ⊢
                  have hlf2 : p2.leaf = false := by
                    obtain ⟨par, hp⟩ := hin2
                    rw [pl_view hvp2] at hp
                    simpa using (Prod.mk.inj (Option.some.inj hp)).2
                  split_ifs at hk ⊢ with hov
                  · cases hsp : split grow k2 pi t.MinChildren with
                    | error e => rw [hsp] at hk; cases hk
                    | ok w =>
                      obtain ⟨k3, R⟩ := w
                      rw [hsp] at hk
                      simp only at hk
                      have hvh2 : h2.view pi = some p2 := by rw [s2.clean hpD]; exact hvp2
                      have prh2 : h2.Priv pi := s2.hp hvh2 hlf2
                      obtain ⟨h3, e3, s3, hRD⟩ := split_sim grow s2 hpD hvp2 (by omega) (Shares.of_priv prh2 _) _ hsp
                      rw [e3]
                      simp only
                      by_cases hpr : pi = t.root
                      · refine ih h3 k3 (fun m => m = t.root) pi (some R) s3 hpD (fun i hi => by cases hi; exact hRD) ?_ hpr k' a b hk
                        intro m par l h1 h2; exact absurd h1 h2
                      · exact ih h3 k3 _ pi (some R) s3 hpD (fun i hi => by cases hi; exact hRD)
                          (split_up grow up2 hTp hpr hvp2 (Or.inr hlf2) _ hsp) (Or.inl hTp) k' a b hk
                  · exact ih h2 k2 T pi none s2 hpD (by simp) up2 hTp k' a b hk

theorem growRoot_sim (t : Rtree) {h k : Heap F} (s : Sim D Q h k) {a b : Option Nat} (ha : ∀ i ∈ a, ¬ D i) (hb : ∀ i ∈ b, ¬ D i)
    {k' : Heap F} {t' : Rtree} (hk : growRoot t k a b = .ok ⟨k', t'⟩) :
    ∃ h', growRoot t h a b = .ok ⟨h', t'⟩ ∧ Sim D Q h' k' := by
  cases b with
  | none => cases hk; exact ⟨h, rfl, s⟩
  | some sr =>
    cases a with
    | none => simp [growRoot, Heap.deref, bind, Except.bind] at hk
    | some rt =>
      unfold growRoot at hk ⊢
      simp only at hk ⊢
      rw [s.deref (ha rt rfl), s.deref (hb sr rfl)]
      cases hd1 : k.deref (some rt) with
      | error e => rw [hd1] at hk; cases hk
      | ok x =>
        cases hd2 : k.deref (some sr) with
        | error e => rw [hd1, hd2] at hk; cases hk
        | ok y =>
          rw [hd1, hd2] at hk
          simp only [bind, Except.bind] at hk ⊢
          cases hk
          refine ⟨_, ?_, ((s.alloc none false (t.height + 1) _).setParent _ _).setParent _ _⟩
          have : ∀ es : List (Entry F), (h.alloc none false (t.height + 1) es).2 = (k.alloc none false (t.height + 1) es).2 := fun es => s.len
          rw [this]

/-- the end of an insertion into a clean leaf -/
theorem insertTail_sim (grow : Nat → Nat) (t : Rtree) (hmax : 1 ≤ t.MaxChildren) {h k : Heap F} (s : Sim D Q h k) {n : Nat} (hn : ¬ D n)
    {v : NodeV F} (hv : k.view n = some v) (hc : ∀ e ∈ v.entries, e.child = none) (sh : Shares D Q h n v.entries)
    {T : Nat → Prop} (up : Up T t.root k) (hT : T n) {k' : Heap F} {t' : Rtree}
    (hk : (do
      let (_, lv) ← k.deref (some n)
      let (h, sp) ← (if (lv.entries.length : Int) > t.MaxChildren then do
          let (h, r) ← split grow k n t.MinChildren
          .ok (h, some r)
        else .ok (k, none) : Go (Heap F × Option Nat))
      let (h, root, splitRoot) ← adjustTree grow t (h.nodes.length + 1) h (some n) sp
      growRoot t h root splitRoot) = .ok ⟨k', t'⟩) :
    ∃ h', (do
      let (_, lv) ← h.deref (some n)
      let (h, sp) ← (if (lv.entries.length : Int) > t.MaxChildren then do
          let (h, r) ← split grow h n t.MinChildren
          .ok (h, some r)
        else .ok (h, none) : Go (Heap F × Option Nat))
      let (h, root, splitRoot) ← adjustTree grow t (h.nodes.length + 1) h (some n) sp
      growRoot t h root splitRoot) = .ok (⟨h', t'⟩ : RState F) ∧ Sim D Q h' k' := by
  rw [s.deref hn]
  rw [Heap.deref_some hv] at hk ⊢
  simp only [bind, Except.bind] at hk ⊢
  have fin : ∀ (h1 k1 : Heap F) (sp : Option Nat) (T : Nat → Prop), Sim D Q h1 k1 → (∀ i ∈ sp, ¬ D i) → Up T t.root k1 → T n →
      (Except.bind (adjustTree grow t (k1.nodes.length + 1) k1 (some n) sp) fun x => growRoot t x.1 x.2.1 x.2.2) = .ok ⟨k', t'⟩ →
      ∃ h', (Except.bind (adjustTree grow t (h1.nodes.length + 1) h1 (some n) sp) fun x => growRoot t x.1 x.2.1 x.2.2) = .ok ⟨h', t'⟩ ∧ Sim D Q h' k' := by
    intro h1 k1 sp T s1 hsp up1 hT1 hk1
    rw [s1.len]
    cases had : adjustTree grow t (k1.nodes.length + 1) k1 (some n) sp with
    | error e => rw [had] at hk1; cases hk1
    | ok x =>
      obtain ⟨k2, a, b⟩ := x
      obtain ⟨h2, e2, s2, ha, hb⟩ := adjustTree_sim grow t hmax _ h1 k1 T n sp s1 hn hsp up1 hT1 k2 a b had
      rw [had] at hk1
      rw [e2]
      exact growRoot_sim t s2 ha hb hk1
  split_ifs at hk ⊢ with hov
  · cases hsp : split grow k n t.MinChildren with
    | error e => rw [hsp] at hk; cases hk
    | ok w =>
      obtain ⟨k3, R⟩ := w
      rw [hsp] at hk
      simp only at hk
      obtain ⟨h3, e3, s3, hRD⟩ := split_sim grow s hn hv (by omega) sh _ hsp
      rw [e3]
      simp only
      by_cases hpr : n = t.root
      · exact fin h3 k3 (some R) (fun m => m = t.root) s3 (fun i hi => by cases hi; exact hRD)
          (fun m par l h1 h2 => absurd h1 h2) hpr hk
      · exact fin h3 k3 (some R) _ s3 (fun i hi => by cases hi; exact hRD) (split_up grow up hT hpr hv (Or.inl hc) _ hsp) (Or.inl hT) hk
  · exact fin h k none T s (by simp) up hT hk

end GoGeo
