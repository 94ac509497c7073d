import Verif.Rtree.Tree

/-!
# What `split` does
-/

namespace GoGeo
open GoFloat
variable {F : Type} [GoFloat F]

/-- children of a list of entries -/
def kids (es : List (Entry F)) : List Nat := es.filterMap (·.child)

omit [GoFloat F] in
theorem mem_kids {es : List (Entry F)} {c : Nat} : c ∈ kids es ↔ ∃ e ∈ es, e.child = some c := by
  simp [kids]

omit [GoFloat F] in
theorem kids_perm {a b : List (Entry F)} (h : a.Perm b) : (kids a).Perm (kids b) := h.filterMap _

omit [GoFloat F] in
theorem kids_append (a b : List (Entry F)) : kids (a ++ b) = kids a ++ kids b := by
  simp [kids]

/-- set the parent in a view -/
def reparent (p : Nat) (v : Option (NodeV F)) : Option (NodeV F) := v.map fun v => { v with parent := some p }

omit [GoFloat F] in
theorem SameNode_reparent (p : Nat) (v : Option (NodeV F)) : Item.SameNode (reparent p v) v := by
  cases v <;> rfl

theorem view_assign {q : Bool} {h : Heap F} (hi : h.Inv q) {g : Nat} {v : NodeV F} (hv : h.view g = some v)
    (hq : v.leaf = false ∨ q = true) {e : Entry F} (hne : e.child ≠ some g) (grow : Nat → Nat) (m : Nat) :
    (assign grow h e g).view m =
      if m = g then some { v with entries := v.entries ++ [e] }
      else if e.child = some m then reparent g (h.view m) else h.view m := by
  unfold assign
  have hv' : (h.setChildParent e g).view g = some v := by
    rw [Heap.view_setChildParent, if_neg hne]; exact hv
  have hi' := hi.setChildParent e g
  rw [Heap.view_append hi'.toOk.toBnd (hi'.priv_of_view hv' hq) hv', Heap.view_setChildParent]
  rfl

theorem inv_assign {q : Bool} {h : Heap F} (hi : h.Inv q) {g : Nat} {v : NodeV F} (hv : h.view g = some v)
    (hq : v.leaf = false ∨ q = true) {e : Entry F} (hne : e.child ≠ some g) (grow : Nat → Nat) :
    (assign grow h e g).Inv q := by
  unfold assign
  have hv' : (h.setChildParent e g).view g = some v := by
    rw [Heap.view_setChildParent, if_neg hne]; exact hv
  have hi' := hi.setChildParent e g
  exact hi'.append (hi'.priv_of_view hv' hq) grow e

theorem length_assign (grow : Nat → Nat) (h : Heap F) (e : Entry F) (g : Nat) :
    (assign grow h e g).nodes.length = h.nodes.length := by
  unfold assign
  rw [Heap.length_append, Heap.length_setChildParent]

theorem pickNextLoop_bound (a b : Box F) (es : List (Entry F)) (i : Nat) (acc : F × Nat) :
    (pickNextLoop a b es i acc).2 = acc.2 ∨
      (i ≤ (pickNextLoop a b es i acc).2 ∧ (pickNextLoop a b es i acc).2 < i + es.length) := by
  induction es generalizing i acc with
  | nil => left; rfl
  | cons e es ih =>
    unfold pickNextLoop
    dsimp only
    split_ifs
    · rcases ih (i + 1) (abs ((a.Union e.bb).Size - a.Size - ((b.Union e.bb).Size - b.Size)), i) with h | h
      · right; rw [h]; simp
      · right; rw [List.length_cons]; omega
    · rcases ih (i + 1) (acc.1, acc.2) with h | h
      · left; rw [h]
      · right; rw [List.length_cons]; omega

theorem pickNext_lt (l r es : List (Entry F)) (hne : es ≠ []) : pickNext l r es < es.length := by
  unfold pickNext
  have hl : 0 < es.length := List.length_pos_iff.2 hne
  rcases pickNextLoop_bound (computeBoundingBox l) (computeBoundingBox r) es 0 (-(lit 1), 0) with h | h
  · rw [h]; exact hl
  · omega

theorem pickSeedsInner_bound (e1 : Entry F) (i n : Nat) (es : List (Entry F)) (j : Nat)
    (acc : F × Nat × Nat) (hacc : acc.2.1 < acc.2.2 ∧ acc.2.2 < n) (hn : i + 1 + j + es.length ≤ n) :
    (pickSeedsInner e1 i es j acc).2.1 < (pickSeedsInner e1 i es j acc).2.2 ∧
      (pickSeedsInner e1 i es j acc).2.2 < n := by
  induction es generalizing j acc with
  | nil => exact hacc
  | cons e es ih =>
    rw [List.length_cons] at hn
    unfold pickSeedsInner
    apply ih
    · split_ifs
      · simp; omega
      · exact hacc
    · omega

theorem pickSeedsOuter_bound (n : Nat) (es : List (Entry F)) (i : Nat)
    (acc : F × Nat × Nat) (hacc : acc.2.1 < acc.2.2 ∧ acc.2.2 < n) (hn : i + es.length ≤ n) :
    (pickSeedsOuter es i acc).2.1 < (pickSeedsOuter es i acc).2.2 ∧
      (pickSeedsOuter es i acc).2.2 < n := by
  induction es generalizing i acc with
  | nil => exact hacc
  | cons e es ih =>
    rw [List.length_cons] at hn
    unfold pickSeedsOuter
    apply ih
    · exact pickSeedsInner_bound e i n es 0 acc hacc (by omega)
    · omega

theorem pickSeeds_bound (es : List (Entry F)) (h2 : 2 ≤ es.length) :
    (pickSeeds es).1 < (pickSeeds es).2 ∧ (pickSeeds es).2 < es.length :=
  pickSeedsOuter_bound es.length es 0 _ ⟨by simp, by simp; omega⟩ (by simp)

/-- the distribution loop ends, and moves each remaining entry to exactly one side -/
theorem splitLoop_spec {q : Bool} (grow : Nat → Nat) (left right : Nat) (mg : Int) (hlr : left ≠ right) (old : Slice)
    (fuel : Nat) (h : Heap F) (rem : List (Entry F)) (hf : rem.length = fuel) (hi : h.Inv q) (hu : h.Unused old.arr)
    (lv rv : NodeV F) (hl : h.view left = some lv) (hr : h.view right = some rv)
    (hql : lv.leaf = false ∨ q = true) (hqr : rv.leaf = false ∨ q = true)
    (hk : (kids rem).Nodup) (hkl : left ∉ kids rem) (hkr : right ∉ kids rem) :
    ∃ h' A B, splitLoop grow left right mg old fuel h rem = .ok h' ∧ h'.Inv q ∧
      h'.nodes.length = h.nodes.length ∧ (A ++ B).Perm rem ∧
      h'.view left = some { lv with entries := lv.entries ++ A } ∧
      h'.view right = some { rv with entries := rv.entries ++ B } ∧
      (∀ c ∈ kids A, h'.view c = reparent left (h.view c)) ∧
      (∀ c ∈ kids B, h'.view c = reparent right (h.view c)) ∧
      (∀ m, m ≠ left → m ≠ right → m ∉ kids rem → h'.view m = h.view m) ∧
      (mg ≤ (rem.length : Int) + lv.entries.length → mg ≤ (rem.length : Int) + rv.entries.length →
        2 * mg ≤ (rem.length : Int) + lv.entries.length + rv.entries.length →
        mg ≤ ((lv.entries ++ A).length : Int) ∧ mg ≤ ((rv.entries ++ B).length : Int)) := by
  induction fuel generalizing h rem lv rv with
  | zero =>
    have : rem = [] := List.length_eq_zero_iff.1 hf
    subst this
    refine ⟨h, [], [], rfl, hi, rfl, by simp, by simpa using hl, by simpa using hr, by simp [kids],
      by simp [kids], fun m _ _ _ => rfl, ?_⟩
    intro h1 h2 _
    simp at h1 h2 ⊢; exact ⟨h1, h2⟩
  | succ fuel ih =>
    have hne : rem ≠ [] := by intro h0; rw [h0] at hf; simp at hf
    have hlt := pickNext_lt lv.entries rv.entries rem hne
    unfold splitLoop
    rw [if_neg (by omega), Heap.deref_some hl, Heap.deref_some hr]
    simp only [bind, Except.bind]
    rw [List.getElem?_eq_getElem hlt]
    dsimp only
    generalize hnx : pickNext lv.entries rv.entries rem = nx at hlt ⊢
    set e := rem[nx] with he
    have hrem' : rem.take nx ++ rem.drop (nx + 1) = rem.eraseIdx nx :=
      (List.eraseIdx_eq_take_drop_succ _ _).symm
    rw [hrem']
    have hperm : (e :: rem.eraseIdx nx).Perm rem := List.getElem_cons_eraseIdx_perm hlt
    have hlen : (rem.eraseIdx nx).length = fuel := by
      have := hperm.length_eq; simp at this; omega
    have hkp := kids_perm hperm
    have hkids : ∀ c, c ∈ kids rem ↔ (e.child = some c ∨ c ∈ kids (rem.eraseIdx nx)) := by
      intro c
      rw [← hkp.mem_iff, mem_kids, mem_kids]; simp
    have hknd : (kids (rem.eraseIdx nx)).Nodup ∧ ∀ c, e.child = some c → c ∉ kids (rem.eraseIdx nx) := by
      have := hkp.nodup_iff.2 hk
      unfold kids at this ⊢
      cases hc : e.child with
      | none =>
        rw [List.filterMap_cons_none hc] at this
        exact ⟨this, by simp⟩
      | some c =>
        rw [List.filterMap_cons_some hc, List.nodup_cons] at this
        refine ⟨this.2, ?_⟩
        intro c' hc'
        rw [← Option.some.inj hc']; exact this.1
    have hel : e.child ≠ some left := fun hh => hkl ((hkids left).2 (Or.inl hh))
    have her : e.child ≠ some right := fun hh => hkr ((hkids right).2 (Or.inl hh))
    generalize htl : (if (rem.length : Int) + lv.entries.length ≤ mg then true
          else if (rem.length : Int) + rv.entries.length ≤ mg then false
          else assignGroupLeft e lv.entries rv.entries) = toLeft
    cases toLeft with
    | true =>
      simp only [if_true]
      have hua : (assign grow h e left).Unused old.arr := (hu.setChildParent _ _).append _ _ _
      have hva := fun m => (Heap.view_blit hua (rem.eraseIdx nx) m).trans (view_assign hi hl hql hel grow m)
      have hia := inv_assign hi hl hql hel grow
      obtain ⟨h', A, B, e1, e2, e3, e4, e5, e6, e7, e8, e9, e10⟩ :=
        ih ((assign grow h e left).blit old (rem.eraseIdx nx)) (rem.eraseIdx nx) hlen (hia.blit hua _) (hua.blit _ _) { lv with entries := lv.entries ++ [e] } rv
          (by rw [hva, if_pos rfl]) (by rw [hva, if_neg hlr.symm, if_neg her]; exact hr) hql hqr hknd.1
          (fun hh => hkl ((hkids _).2 (Or.inr hh))) (fun hh => hkr ((hkids _).2 (Or.inr hh)))
      refine ⟨h', e :: A, B, e1, e2, by rw [e3, Heap.length_blit, length_assign], ?_, ?_, e6, ?_, ?_, ?_, ?_⟩
      · exact (List.Perm.cons e e4).trans hperm
      · simpa using e5
      · intro c hc
        have hc' : e.child = some c ∨ c ∈ kids A := by
          rw [mem_kids] at hc ⊢; simpa using hc
        have hcl : c ≠ left := by
          rintro rfl
          rcases hc' with hc' | hc'
          · exact hel hc'
          · exact hkl ((hkids _).2 (Or.inr ((kids_perm e4).mem_iff.1 (by rw [kids_append]; simp [hc']))))
        rcases hc' with hc' | hc'
        · rw [e9 c hcl (fun hh => her (hh ▸ hc')) (hknd.2 c hc'), hva, if_neg hcl, if_pos hc']
        · have hcE : c ∈ kids (rem.eraseIdx nx) :=
            (kids_perm e4).mem_iff.1 (by rw [kids_append]; simp [hc'])
          rw [e7 c hc', hva, if_neg hcl, if_neg (fun hh => hknd.2 c hh hcE)]
      · intro c hc
        have hcE : c ∈ kids (rem.eraseIdx nx) :=
          (kids_perm e4).mem_iff.1 (by rw [kids_append]; simp [hc])
        have hcl : c ≠ left := by rintro rfl; exact hkl ((hkids _).2 (Or.inr hcE))
        rw [e8 c hc, hva, if_neg hcl, if_neg (fun hh => hknd.2 c hh hcE)]
      · intro m h1 h2 h3
        rw [hkids] at h3
        push Not at h3
        rw [e9 m h1 h2 h3.2, hva, if_neg h1, if_neg h3.1]
      · intro h1 h2 h3
        have : mg ≤ ((lv.entries ++ [e] ++ A).length : Int) ∧ mg ≤ ((rv.entries ++ B).length : Int) := by
          apply e10
          · simp; omega
          · split_ifs at htl <;> omega
          · simp; omega
        simpa using this
    | false =>
      simp only [Bool.false_eq_true, if_false]
      have hua : (assign grow h e right).Unused old.arr := (hu.setChildParent _ _).append _ _ _
      have hva := fun m => (Heap.view_blit hua (rem.eraseIdx nx) m).trans (view_assign hi hr hqr her grow m)
      have hia := inv_assign hi hr hqr her grow
      obtain ⟨h', A, B, e1, e2, e3, e4, e5, e6, e7, e8, e9, e10⟩ :=
        ih ((assign grow h e right).blit old (rem.eraseIdx nx)) (rem.eraseIdx nx) hlen (hia.blit hua _) (hua.blit _ _) lv { rv with entries := rv.entries ++ [e] }
          (by rw [hva, if_neg hlr, if_neg hel]; exact hl) (by rw [hva, if_pos rfl]) hql hqr hknd.1
          (fun hh => hkl ((hkids _).2 (Or.inr hh))) (fun hh => hkr ((hkids _).2 (Or.inr hh)))
      refine ⟨h', A, e :: B, e1, e2, by rw [e3, Heap.length_blit, length_assign], ?_, e5, ?_, ?_, ?_, ?_, ?_⟩
      · exact (List.perm_middle.trans (List.Perm.cons e e4)).trans hperm
      · simpa using e6
      · intro c hc
        have hcE : c ∈ kids (rem.eraseIdx nx) :=
          (kids_perm e4).mem_iff.1 (by rw [kids_append]; simp [hc])
        have hcl : c ≠ right := by rintro rfl; exact hkr ((hkids _).2 (Or.inr hcE))
        rw [e7 c hc, hva, if_neg hcl, if_neg (fun hh => hknd.2 c hh hcE)]
      · intro c hc
        have hc' : e.child = some c ∨ c ∈ kids B := by
          rw [mem_kids] at hc ⊢; simpa using hc
        have hcl : c ≠ right := by
          rintro rfl
          rcases hc' with hc' | hc'
          · exact her hc'
          · exact hkr ((hkids _).2 (Or.inr ((kids_perm e4).mem_iff.1 (by rw [kids_append]; simp [hc']))))
        rcases hc' with hc' | hc'
        · rw [e9 c (fun hh => hel (hh ▸ hc')) hcl (hknd.2 c hc'), hva, if_neg hcl, if_pos hc']
        · have hcE : c ∈ kids (rem.eraseIdx nx) :=
            (kids_perm e4).mem_iff.1 (by rw [kids_append]; simp [hc'])
          rw [e8 c hc', hva, if_neg hcl, if_neg (fun hh => hknd.2 c hh hcE)]
      · intro m h1 h2 h3
        rw [hkids] at h3
        push Not at h3
        rw [e9 m h1 h2 h3.2, hva, if_neg h2, if_neg h3.1]
      · intro h1 h2 h3
        have : mg ≤ ((lv.entries ++ A).length : Int) ∧ mg ≤ ((rv.entries ++ [e] ++ B).length : Int) := by
          apply e10
          · split_ifs at htl <;> omega
          · simp; omega
          · simp; omega
        simpa using this

/-- `split` of a node with at least two entries distributes its entries over the old node and a new
one, and redirects the parent pointers of its children -/
theorem split_spec {q : Bool} (grow : Nat → Nat) {h : Heap F} (hi : h.Inv q) {n : Nat} {v : NodeV F}
    (hv : h.view n = some v) (hq : v.leaf = false ∨ q = true) (mg : Int) (h2 : 2 ≤ v.entries.length)
    (hk : (kids v.entries).Nodup) (hkn : n ∉ kids v.entries) (hkv : ∀ c ∈ kids v.entries, c < h.nodes.length) :
    ∃ h' L R, split grow h n mg = .ok (h', h.nodes.length) ∧ h'.Inv q ∧
      h'.nodes.length = h.nodes.length + 1 ∧ (L ++ R).Perm v.entries ∧ L ≠ [] ∧ R ≠ [] ∧
      h'.view n = some { v with entries := L } ∧
      h'.view h.nodes.length = some { v with entries := R } ∧
      (∀ c ∈ kids L, h'.view c = reparent n (h.view c)) ∧
      (∀ c ∈ kids R, h'.view c = reparent h.nodes.length (h.view c)) ∧
      (∀ m, m ≠ n → m ≠ h.nodes.length → m ∉ kids v.entries → h'.view m = h.view m) ∧
      (1 ≤ mg → 2 * mg ≤ (v.entries.length : Int) → mg ≤ (L.length : Int) ∧ mg ≤ (R.length : Int)) := by
  obtain ⟨hlr, hrn⟩ := pickSeeds_bound v.entries h2
  unfold split
  rw [Heap.deref_some hv]
  simp only [bind, Except.bind]
  generalize pickSeeds v.entries = lr at hlr hrn ⊢
  obtain ⟨l, r⟩ := lr
  dsimp only at hlr hrn ⊢
  have hll : l < v.entries.length := by omega
  rw [List.getElem?_eq_getElem hll, List.getElem?_eq_getElem hrn]
  dsimp only
  set a := v.entries[l] with ha
  set b := v.entries[r] with hb
  set rem := v.entries.take l ++ (v.entries.drop (l + 1)).take (r - (l + 1)) ++ v.entries.drop (r + 1) with hrem
  have hperm : (a :: b :: rem).Perm v.entries := by
    have s1 : v.entries = v.entries.take l ++ a :: (v.entries.drop (l + 1)) := by
      rw [ha, List.getElem_cons_drop, List.take_append_drop]
    have s2 : v.entries.drop (l + 1) =
        (v.entries.drop (l + 1)).take (r - (l + 1)) ++ b :: v.entries.drop (r + 1) := by
      have hd : r - (l + 1) < (v.entries.drop (l + 1)).length := by simp; omega
      have hb' : b = (v.entries.drop (l + 1))[r - (l + 1)] := by
        simp only [List.getElem_drop, hb]; congr 1; omega
      conv_lhs => rw [← List.take_append_drop (r - (l + 1)) (v.entries.drop (l + 1))]
      congr 1
      rw [List.drop_eq_getElem_cons hd, hb', List.drop_drop]
      congr 2; omega
    conv_rhs => rw [s1, s2]
    rw [hrem]
    refine ((List.Perm.cons a ?_).trans List.perm_middle.symm)
    rw [List.append_assoc, ← List.append_assoc (List.take l v.entries)]
    rw [← List.append_assoc (List.take l v.entries)]
    exact List.perm_middle.symm
  have hkp := kids_perm hperm
  have hn := Heap.view_lt hv
  have hkids : ∀ c, c ∈ kids v.entries ↔ (a.child = some c ∨ b.child = some c ∨ c ∈ kids rem) := by
    intro c; rw [← hkp.mem_iff, mem_kids, mem_kids]; simp
  have hnd : (kids rem).Nodup ∧ (∀ c, a.child = some c → b.child ≠ some c ∧ c ∉ kids rem) ∧
      (∀ c, b.child = some c → c ∉ kids rem) := by
    have := hkp.nodup_iff.2 hk
    have e2 : kids (a :: b :: rem) = a.child.toList ++ (b.child.toList ++ kids rem) := by
      unfold kids
      cases hac : a.child <;> cases hbc : b.child <;> simp [hac, hbc]
    rw [e2, List.nodup_append, List.nodup_append] at this
    obtain ⟨-, ⟨-, h3, h4⟩, h5⟩ := this
    refine ⟨h3, ?_, ?_⟩
    · intro c hc
      have := h5 c (by simp [hc])
      refine ⟨fun hh => this c (by simp [hh]) rfl, fun hh => this c (by simp [hh]) rfl⟩
    · intro c hc hh
      exact h4 c (by simp [hc]) c hh rfl
  set R := h.nodes.length with hR
  have hvalid : ∀ c, c ∈ kids v.entries → c ≠ R := fun c hc => Nat.ne_of_lt (hkv c hc)
  -- after the set-up
  obtain ⟨nd, hnd0, -⟩ := Heap.view_some.1 hv
  have hso : h.sliceOf n = nd.entries := by unfold Heap.sliceOf; rw [hnd0]; rfl
  rw [hso]
  have hu0 : (h.setEntries n [a]).Unused nd.entries.arr := Heap.Priv.unused hi.toOk (hi.priv_of_view hv hq) hnd0 [a]
  rw [Heap.blit_setEntries n (hi.toOk.arr_lt hnd0)]
  set h1 := (h.setEntries n [a]).blit nd.entries rem with hh1
  have hi1 : h1.Inv q := (hi.setEntries n [a]).blit hu0 rem
  have hu1 : h1.Unused nd.entries.arr := hu0.blit _ _
  have hl1 : h1.nodes.length = R := Heap.length_setEntries _ _ _
  have hv1 := fun m => (Heap.view_blit hu0 rem m).trans (Heap.view_setEntries hi.toOk.toBnd hv [a] m)
  have hal : (h1.alloc v.parent v.leaf v.level [b]) = ((h1.alloc v.parent v.leaf v.level [b]).1, R) := by
    rw [← hl1]; rfl
  rw [hal]
  dsimp only
  set h2' := (h1.alloc v.parent v.leaf v.level [b]).1 with hh2
  have hi2 : h2'.Inv q := hi1.alloc _ _ _ _
  have hu2 : h2'.Unused nd.entries.arr := hu1.alloc _ _ _ _
  have hl2 : h2'.nodes.length = R + 1 := by rw [hh2, Heap.length_alloc, hl1]
  have hv2 : ∀ m, h2'.view m = if m = R then some ⟨v.parent, v.leaf, v.level, [b]⟩ else h1.view m := by
    intro m; rw [hh2, Heap.view_alloc hi1.toOk.toBnd, hl1]
  set h3' := (h2'.setChildParent b R).setChildParent a n with hh3
  have hi3 : h3'.Inv q := (hi2.setChildParent _ _).setChildParent _ _
  have hu3 : h3'.Unused nd.entries.arr := (hu2.setChildParent _ _).setChildParent _ _
  have hl3 : h3'.nodes.length = R + 1 := by
    rw [hh3, Heap.length_setChildParent, Heap.length_setChildParent, hl2]
  have hv3 : ∀ m, h3'.view m = if a.child = some m then reparent n (h2'.view m)
      else if b.child = some m then reparent R (h2'.view m) else h2'.view m := by
    intro m
    rw [hh3, Heap.view_setChildParent, Heap.view_setChildParent]
    by_cases c1 : a.child = some m
    · rw [if_pos c1, if_pos c1, if_neg (hnd.2.1 m c1).1]; rfl
    · rw [if_neg c1, if_neg c1]; rfl
  have nA : a.child ≠ some n := fun hh => hkn ((hkids n).2 (Or.inl hh))
  have nB : b.child ≠ some n := fun hh => hkn ((hkids n).2 (Or.inr (Or.inl hh)))
  have rA : a.child ≠ some R := fun hh => hvalid R ((hkids R).2 (Or.inl hh)) rfl
  have rB : b.child ≠ some R := fun hh => hvalid R ((hkids R).2 (Or.inr (Or.inl hh))) rfl
  have nR : n ≠ R := Nat.ne_of_lt hn
  have hvn : h3'.view n = some { v with entries := [a] } := by
    rw [hv3, if_neg nA, if_neg nB, hv2, if_neg nR, hv1, if_pos rfl]
  have hvR : h3'.view R = some { v with entries := [b] } := by
    rw [hv3, if_neg rA, if_neg rB, hv2, if_pos rfl]
  obtain ⟨h', A, B, e1, e2, e3, e4, e5, e6, e7, e8, e9, e10⟩ :=
    splitLoop_spec grow n R mg nR nd.entries rem.length h3' rem rfl hi3 hu3 _ _ hvn hvR hq hq hnd.1
      (fun hh => hkn ((hkids n).2 (Or.inr (Or.inr hh))))
      (fun hh => hvalid R ((hkids R).2 (Or.inr (Or.inr hh))) rfl)
  rw [e1]
  have base : ∀ c, c ≠ n → c ≠ R → h2'.view c = h.view c := by
    intro c c1 c2; rw [hv2, if_neg c2, hv1, if_neg c1]
  have hcn : ∀ c ∈ kids v.entries, c ≠ n := fun c hc hh => hkn (hh ▸ hc)
  refine ⟨h', [a] ++ A, [b] ++ B, rfl, e2, by rw [e3, hl3], ?_, by simp, by simp, e5, e6, ?_, ?_, ?_, ?_⟩
  · have p1 : ([a] ++ A ++ ([b] ++ B)).Perm (a :: b :: (A ++ B)) := by
      simp only [List.cons_append, List.nil_append]
      exact List.Perm.cons a List.perm_middle
    exact (p1.trans (List.Perm.cons a (List.Perm.cons b e4))).trans hperm
  · intro c hc
    have hc' : a.child = some c ∨ c ∈ kids A := by rw [mem_kids] at hc ⊢; simpa using hc
    rcases hc' with hc' | hc'
    · have hm := (hkids c).2 (Or.inl hc')
      rw [e9 c (hcn c hm) (hvalid c hm) (hnd.2.1 c hc').2, hv3, if_pos hc', base c (hcn c hm) (hvalid c hm)]
    · have hr : c ∈ kids rem := (kids_perm e4).mem_iff.1 (by rw [kids_append]; simp [hc'])
      have hm := (hkids c).2 (Or.inr (Or.inr hr))
      rw [e7 c hc', hv3, if_neg (fun hh => (hnd.2.1 c hh).2 hr), if_neg (fun hh => hnd.2.2 c hh hr),
        base c (hcn c hm) (hvalid c hm)]
  · intro c hc
    have hc' : b.child = some c ∨ c ∈ kids B := by rw [mem_kids] at hc ⊢; simpa using hc
    rcases hc' with hc' | hc'
    · have hm := (hkids c).2 (Or.inr (Or.inl hc'))
      rw [e9 c (hcn c hm) (hvalid c hm) (hnd.2.2 c hc'), hv3, if_neg (fun hh => (hnd.2.1 c hh).1 hc'),
        if_pos hc', base c (hcn c hm) (hvalid c hm)]
    · have hr : c ∈ kids rem := (kids_perm e4).mem_iff.1 (by rw [kids_append]; simp [hc'])
      have hm := (hkids c).2 (Or.inr (Or.inr hr))
      rw [e8 c hc', hv3, if_neg (fun hh => (hnd.2.1 c hh).2 hr), if_neg (fun hh => hnd.2.2 c hh hr),
        base c (hcn c hm) (hvalid c hm)]
  · intro m m1 m2 m3
    rw [hkids] at m3
    push Not at m3
    rw [e9 m m1 m2 m3.2.2, hv3, if_neg m3.1, if_neg m3.2.1, base m m1 m2]
  · intro g1 g2
    have hl := hperm.length_eq
    simp only [List.length_cons] at hl
    apply e10 <;> simp <;> omega

end GoGeo
