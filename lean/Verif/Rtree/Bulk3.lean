import Verif.Rtree.Bulk2

/-!
# Bulk loading builds a sound tree
-/

namespace GoGeo
open GoFloat Heap
variable {F : Type} [GoFloat F]

/-- an entry made by `bulkLoad` for an object -/
def ObjEntry (e : Entry F) : Prop := e.child = none ∧ e.bb = BoundingBox e.obj.Geom

/-- what a subtree built by `omt` satisfies -/
structure Built (M : Nat) (h0 h : Heap F) {j : Nat} (x : Item F (j + 1)) : Prop where
  rep : x.Rep h
  nd : x.ids.Nodup
  new : ∀ i ∈ x.ids, h0.nodes.length ≤ i
  good : x.Good
  fill : x.Fill 1 M
  cnt : 1 ≤ x.es.length

/-- the state inside the loops of `omt`: node `n` has the children `done` -/
structure Loop (M : Nat) (h0 h : Heap F) (n : Nat) (lv : Int) (a lo hi cur : Nat) {j : Nat}
    (done : List (Box F × Item F (j + 1))) : Prop where
  grown : Grown h0 h a lo hi cur
  nn : h0.nodes.length ≤ n
  view : h.view n = some ⟨none, false, lv, done.map Item.entry⟩
  rep : ∀ p ∈ done, p.2.Rep h ∧ p.2.Par h (some n)
  good : ∀ p ∈ done, p.1 = p.2.box ∧ p.2.Good
  fill : ∀ p ∈ done, p.2.Cnt 1 M ∧ p.2.Fill 1 M
  nd : (n :: done.flatMap fun p => p.2.ids).Nodup
  new : ∀ i ∈ done.flatMap fun p => p.2.ids, h0.nodes.length ≤ i

/-- a step that only adds nodes keeps the loop state -/
theorem Loop.step {M : Nat} {h0 h h' : Heap F} {n : Nat} {lv : Int} {a lo hi cur lo' hi' cur' : Nat} {j : Nat}
    {done : List (Box F × Item F (j + 1))} (L : Loop M h0 h n lv a lo hi cur done)
    (fr : h.Free a lo' hi') (g : Grown h h' a lo' hi' cur') (h1 : lo ≤ lo') (h2 : hi' ≤ hi) (h3 : cur ≤ cur') :
    Loop M h0 h' n lv a lo hi cur' done := by
  have vw : ∀ i < h.nodes.length, h'.view i = h.view i := g.view L.grown.inv.toOk fr
  refine ⟨L.grown.trans g h1 h2 h3, L.nn, ?_, ?_, L.good, L.fill, L.nd, L.new⟩
  · rw [vw n (Heap.view_lt L.view)]; exact L.view
  · intro p hp
    obtain ⟨r1, r2⟩ := L.rep p hp
    refine ⟨r1.congr fun i hi1 => vw i (r1.valid i hi1), r2.congr fun c hc => vw c (r1.valid c (Item.child_mem_ids hc))⟩

/-- hanging a finished subtree below `n` -/
theorem Loop.attach {M : Nat} {h0 h1 h : Heap F} {n : Nat} {lv : Int} {a lo hi cur : Nat} {j : Nat}
    {done : List (Box F × Item F (j + 1))} (L : Loop M h0 h n lv a lo hi cur done) (ha : a < h0.arrs.length)
    (grow : Nat → Nat) {x : Item F (j + 1)} (bx : Built M h1 h x) (cx : x.es.length ≤ M)
    (hn1 : n < h1.nodes.length) (hd1 : ∀ i ∈ done.flatMap fun p => p.2.ids, i < h1.nodes.length)
    (h01 : h0.nodes.length ≤ h1.nodes.length) :
    ∃ cv, (h.setParent x.id (some n)).deref (some x.id) = .ok (x.id, cv) ∧
      Loop M h0 ((h.setParent x.id (some n)).append grow n ⟨computeBoundingBox cv.entries, some x.id, Spatial.zero⟩)
        n lv a lo hi cur (done ++ [(x.box, x)]) := by
  obtain ⟨⟨par, hv⟩, hc⟩ := bx.rep
  have hxid : h1.nodes.length ≤ x.id := bx.new x.id (by simp [Item.ids_succ])
  have hne : x.id ≠ n := by omega
  have hvp : (h.setParent x.id (some n)).view x.id = some ⟨some n, j == 0, (j : Int) + 1, x.es.map Item.entry⟩ := by
    rw [view_setParent, if_pos rfl, hv]; rfl
  have hvn : (h.setParent x.id (some n)).view n = some ⟨none, false, lv, done.map Item.entry⟩ := by
    rw [view_setParent, if_neg (Ne.symm hne)]; exact L.view
  have gp : Grown h0 (h.setParent x.id (some n)) a lo hi cur := L.grown.setParent (by omega) _
  refine ⟨_, deref_some hvp, ?_⟩
  have pr : (h.setParent x.id (some n)).Priv n := gp.inv.priv_of_view hvn (Or.inl rfl)
  have hva := view_append gp.inv.toOk.toBnd pr hvn grow
    ⟨computeBoundingBox (x.es.map Item.entry), some x.id, Spatial.zero⟩
  have vo : ∀ i, i ≠ n → i ≠ x.id → ((h.setParent x.id (some n)).append grow n
      ⟨computeBoundingBox (x.es.map Item.entry), some x.id, Spatial.zero⟩).view i = h.view i := by
    intro i h1 h2
    rw [hva, if_neg h1, view_setParent, if_neg h2]
  have hnd := List.nodup_cons.1 L.nd
  have hnx : n ∉ x.ids := fun hm => by have := bx.new n hm; omega
  refine ⟨gp.append L.nn hvn rfl ha _ _, L.nn, ?_, ?_, ?_, ?_, ?_, ?_⟩
  · rw [hva, if_pos rfl, List.map_append]
    simp only [List.map_cons, List.map_nil, Item.entry_succ]
    rw [Item.computeBoundingBox_es]
  · intro p hp
    rw [List.mem_append, List.mem_singleton] at hp
    rcases hp with hp | rfl
    · obtain ⟨r1, r2⟩ := L.rep p hp
      have hpi : ∀ i ∈ p.2.ids, i ∈ done.flatMap fun p => p.2.ids := fun i hi1 => List.mem_flatMap.2 ⟨p, hp, hi1⟩
      have key : ∀ i ∈ p.2.ids, i ≠ n ∧ i ≠ x.id := fun i hi1 =>
        ⟨fun e => hnd.1 (e ▸ hpi i hi1), fun e => by have := hd1 i (hpi i hi1); omega⟩
      exact ⟨r1.congr fun i hi1 => vo i (key i hi1).1 (key i hi1).2,
        r2.congr fun c hc => vo c (key c (Item.child_mem_ids hc)).1 (key c (Item.child_mem_ids hc)).2⟩
    · refine ⟨bx.rep.congr' (fun c hc => ?_) (fun i hi1 hi2 => ?_) bx.nd, ?_⟩
      · simp only [Item.child_succ, Option.some.injEq] at hc
        subst hc
        rw [hva, if_neg hne, hvp, hv]; rfl
      · refine vo i (fun e => hnx (e ▸ hi1)) (fun e => hi2 (by rw [e]; rfl))
      · exact ⟨_, by rw [hva, if_neg hne]; exact hvp, rfl⟩
  · intro p hp
    rw [List.mem_append, List.mem_singleton] at hp
    rcases hp with hp | rfl
    · exact L.good p hp
    · exact ⟨rfl, bx.good⟩
  · intro p hp
    rw [List.mem_append, List.mem_singleton] at hp
    rcases hp with hp | rfl
    · exact L.fill p hp
    · exact ⟨⟨bx.cnt, cx⟩, bx.fill⟩
  · rw [List.flatMap_append, List.flatMap_singleton]
    refine List.nodup_cons.2 ⟨?_, List.Nodup.append hnd.2 bx.nd ?_⟩
    · rw [List.mem_append]
      rintro (h1 | h1)
      · exact hnd.1 h1
      · exact hnx h1
    · intro i h1 h2
      have := hd1 i h1
      have := bx.new i h2
      omega
  · intro i hi1
    rw [List.flatMap_append, List.flatMap_singleton, List.mem_append] at hi1
    rcases hi1 with h1 | h1
    · exact L.new i h1
    · have := bx.new i h1; omega

/-- the specification of a call of `omt` -/
def OmtSpec (srt : GoSort) (grow : Nat → Nat) (height : Int) (M fuel : Nat) (h : Heap F) (j nS : Nat) (s : Slice) (m : Nat) : Prop :=
  ∃ (h' : Heap F) (x : Item F (j + 1)), omt srt grow height M fuel h ((j : Int) + 1) nS s m = .ok (h', x.id) ∧
    Grown h h' s.arr s.off (s.off + s.len) (s.off + s.len) ∧ Built M h h' x ∧ x.es.length ≤ m ∧
    x.objs.Perm ((h.slice s).map (·.obj))

/-- the slice may be handed to `omt` -/
structure OmtPre (h : Heap F) (s : Slice) : Prop where
  inv : h.Inv false
  arr : s.arr < h.arrs.length
  cap : s.off + s.cap ≤ (h.arrOf s.arr).length
  len : s.len ≤ s.cap
  pos : 1 ≤ s.len
  free : h.Free s.arr s.off (s.off + s.len)
  obj : ∀ e ∈ h.slice s, ObjEntry e

/-- the loop over the parts of a vertical slice -/
theorem parts_spec {srt : GoSort} {grow : Nat → Nat} {height : Int} {M fuel j : Nat} {k : Nat} {h0 : Heap F} {n : Nat} {lv : Int}
    {a lo hi top e : Nat} (ha : a < h0.arrs.length) (fr : h0.Free a lo hi) (he : e ≤ hi)
    (htop : top ≤ (h0.arrOf a).length) (hlv : lv = (j : Int) + 2) (hkM : k ≤ M * M ^ j)
    (ih : ∀ (h : Heap F) (s : Slice), OmtPre h s → s.len ≤ M * M ^ j →
      OmtSpec srt grow height M fuel h j 1 s M) :
    ∀ (ps : List Slice) (o : Nat) (h : Heap F) (done : List (Box F × Item F (j + 1))),
      Consec a k top e ps o → lo ≤ o → Loop M h0 h n lv a lo hi o done → (∀ x ∈ h.rng a o (e - o), ObjEntry x) →
      ∃ (h' : Heap F) (done' : List (Box F × Item F (j + 1))), ps.foldlM (fun h part => do
          let (h, child) ← omt srt grow height M fuel h (lv - 1) 1 part M
          let h := h.setParent child (some n)
          let (_, cv) ← h.deref (some child)
          (.ok (h.append grow n ⟨computeBoundingBox cv.entries, some child, Spatial.zero⟩) : Go (Heap F))) h = .ok h' ∧
        Loop M h0 h' n lv a lo hi e done' ∧ done'.length = done.length + ps.length ∧
        (done'.flatMap fun p => p.2.objs).Perm ((done.flatMap fun p => p.2.objs) ++ (h.rng a o (e - o)).map (·.obj)) ∧
        ∀ i, e ≤ i → (h'.arrOf a)[i]? = (h.arrOf a)[i]? := by
  intro ps
  induction ps with
  | nil =>
    intro o h done hc hlo L hobj
    obtain rfl : o = e := hc
    refine ⟨h, done, rfl, L, rfl, ?_, fun _ _ => rfl⟩
    simp [Heap.rng]
  | cons p ps ihp =>
    rintro o h done ⟨rfl, rfl, p1, p2, p3, p4, p5, hc⟩ hlo L hobj
    have hle := hc.le
    have fr1 : h.Free p.arr p.off (p.off + p.len) := L.grown.free fr ha hlo le_rfl (by omega)
    have hsplit : h.rng p.arr p.off (e - p.off) = h.slice p ++ h.rng p.arr (p.off + p.len) (e - (p.off + p.len)) := by
      rw [slice_eq_rng, ← Heap.rng_add]; congr 1; omega
    have pre : OmtPre h p := ⟨L.grown.inv, by have := L.grown.al; omega, by rw [L.grown.arrL]; omega, p3, p1, fr1,
      fun x hx => hobj x (by rw [hsplit]; exact List.mem_append_left _ hx)⟩
    obtain ⟨h1, x, e1, g1, b1, c1, o1⟩ := ih h p pre (by omega)
    have L1 := L.step fr1 g1 hlo (by omega) (by omega)
    have hval : ∀ i ∈ done.flatMap fun p => p.2.ids, i < h.nodes.length := by
      intro i hi1
      obtain ⟨p, hp, hi2⟩ := List.mem_flatMap.1 hi1
      exact (L.rep p hp).1.valid i hi2
    obtain ⟨cv, e2, L2⟩ := L1.attach ha grow b1 c1 (Heap.view_lt L.view) hval L.grown.nl
    have harr : ∀ i : Nat, (((h1.setParent x.id (some n)).append grow n
        ⟨computeBoundingBox cv.entries, some x.id, Spatial.zero⟩).arrOf p.arr)[i]? = (h1.arrOf p.arr)[i]? := by
      intro i
      have hxid : h.nodes.length ≤ x.id := b1.new x.id (by simp [Item.ids_succ])
      have hn := L1.view
      -- the node's own array is another one
      have gp : Grown h0 (h1.setParent x.id (some n)) p.arr lo hi (p.off + p.len) := L1.grown.setParent (by have := L.grown.nl; omega) _
      obtain ⟨nd, hnd, hvv⟩ := view_some.1 (show (h1.setParent x.id (some n)).view n = some ⟨none, false, lv, done.map Item.entry⟩ by
        rw [view_setParent, if_neg]; · exact hn
        · have := Heap.view_lt L.view; omega)
      have hlf : nd.leaf = false := by injection hvv with _ h2; exact h2.symm
      have hne : nd.entries.arr ≠ p.arr := by
        rcases gp.newn n nd L.nn hnd with ⟨-, e2, -⟩ | e
        · rw [hlf] at e2; cases e2
        · omega
      have hal : p.arr < (h1.setParent x.id (some n)).arrs.length := by
        have h5 := L1.grown.al
        show p.arr < h1.arrs.length
        omega
      unfold Heap.append
      simp only [hnd]
      split_ifs
      · unfold arrOf; simp only [List.getD, List.getElem?_modify, if_neg hne]
        show ((id <$> h1.arrs[p.arr]?).getD [])[i]? = _
        cases h1.arrs[p.arr]? <;> rfl
      · unfold arrOf; simp only [List.getD]
        rw [List.getElem?_append_left hal]; rfl
    have hrng : ∀ o' l, p.off + p.len ≤ o' → ((h1.setParent x.id (some n)).append grow n
        ⟨computeBoundingBox cv.entries, some x.id, Spatial.zero⟩).rng p.arr o' l = h.rng p.arr o' l := by
      intro o' l ho
      apply Heap.rng_congr
      intro i hi1 _
      rw [harr i]
      exact g1.arrA i (Or.inr (by omega))
    obtain ⟨h3, done3, e3, L3, n3, o3, r3⟩ := ihp (p.off + p.len) _ _ hc (by omega) L2 (by
      intro y hy
      rw [hrng _ _ le_rfl] at hy
      exact hobj y (by rw [hsplit]; exact List.mem_append_right _ hy))
    refine ⟨h3, done3, ?_, L3, ?_, ?_, fun i hi1 => ?_⟩
    · rw [List.foldlM_cons]
      have hlv' : lv - 1 = (j : Int) + 1 := by omega
      rw [hlv', e1]
      simp only [bind, Except.bind]
      rw [e2]
      simp only [bind, Except.bind, hlv'] at e3 ⊢
      exact e3
    · rw [n3]; simp; omega
    · refine o3.trans ?_
      rw [hsplit, hrng _ _ le_rfl, List.flatMap_append, List.flatMap_singleton, List.map_append, ← List.append_assoc]
      exact ((List.Perm.refl _).append o1).append (List.Perm.refl _)
    · rw [r3 i hi1, harr i]
      exact g1.arrA i (Or.inr (by omega))

/-- the loop over the vertical slices -/
theorem verts_spec {srt : GoSort} (hsrt : SortOk srt) {grow : Nat → Nat} {height : Int} {M fuel j : Nat} {k vs : Nat} {h0 : Heap F}
    {n : Nat} {lv : Int} (dim : Int)
    {a lo hi top : Nat} (ha : a < h0.arrs.length) (fr : h0.Free a lo hi) (hk : 1 ≤ k)
    (htop : top ≤ (h0.arrOf a).length) (hlv : lv = (j : Int) + 2) (hkM : k ≤ M * M ^ j)
    (ih : ∀ (h : Heap F) (s : Slice), OmtPre h s → s.len ≤ M * M ^ j →
      OmtSpec srt grow height M fuel h j 1 s M) :
    ∀ (vss : List Slice) (o : Nat) (h : Heap F) (done : List (Box F × Item F (j + 1))),
      Consec a vs top hi vss o → lo ≤ o → Loop M h0 h n lv a lo hi o done → (∀ x ∈ h.rng a o (hi - o), ObjEntry x) →
      (vss.length ≤ 1 ∨ k ∣ vs) → done.length * k = o - lo →
      ∃ (h' : Heap F) (done' : List (Box F × Item F (j + 1))), vss.foldlM (fun h vert => do
        let h := sortByDim srt dim h vert
        let parts ← walkPartitions k vert
        parts.foldlM (fun h part => do
          let (h, child) ← omt srt grow height M fuel h (lv - 1) 1 part M
          let h := h.setParent child (some n)
          let (_, cv) ← h.deref (some child)
          (.ok (h.append grow n ⟨computeBoundingBox cv.entries, some child, Spatial.zero⟩) : Go (Heap F))) h) h = .ok h' ∧
        Loop M h0 h' n lv a lo hi hi done' ∧
        (vss ≠ [] → 1 ≤ done'.length ∧ (done'.length - 1) * k < hi - lo) ∧
        (done'.flatMap fun p => p.2.objs).Perm ((done.flatMap fun p => p.2.objs) ++ (h.rng a o (hi - o)).map (·.obj)) := by
  intro vss
  induction vss with
  | nil =>
    intro o h done hc hlo L hobj hvs hcount
    obtain rfl : o = hi := hc
    refine ⟨h, done, rfl, L, fun h => absurd rfl h, ?_⟩
    simp [Heap.rng]
  | cons v vss ihv =>
    rintro o h done ⟨rfl, rfl, p1, p2, p3, p4, p5, hc⟩ hlo L hobj hvs hcount
    have hle := hc.le
    have fr1 : h.Free v.arr v.off (v.off + v.len) := L.grown.free fr ha hlo le_rfl (by omega)
    have hsplit : h.rng v.arr v.off (hi - v.off) = h.slice v ++ h.rng v.arr (v.off + v.len) (hi - (v.off + v.len)) := by
      rw [slice_eq_rng, ← Heap.rng_add]; congr 1; omega
    have hobjv : ∀ x ∈ h.slice v, ObjEntry x := fun x hx => hobj x (by rw [hsplit]; exact List.mem_append_left _ hx)
    have hva : v.arr < h.arrs.length := by have := L.grown.al; omega
    have hvb : v.off + v.len ≤ (h.arrOf v.arr).length := by rw [L.grown.arrL]; omega
    have hsl : (h.slice v).length = v.len := by
      rw [slice_eq_rng]; unfold Heap.rng
      rw [List.length_take, List.length_drop]; omega
    have hperm := hsrt.perm (Entry F) (dimLess dim) (h.slice v)
    have hlen : (srt (Entry F) (dimLess dim) (h.slice v)).length = v.len := by rw [hperm.length_eq, hsl]
    obtain ⟨gs, rs⟩ := grown_setSlice L.grown.inv hva hvb hlen v.off
    have L1 := L.step fr1 gs hlo (by omega) le_rfl
    have hs : sortByDim srt dim h v = h.setSlice v (srt (Entry F) (dimLess dim) (h.slice v)) := rfl
    obtain ⟨ps, w1, w2, w3⟩ := walkPartitions_spec (k := k) (s := v) hk p3 p1
    obtain ⟨h2, done2, e2, L2, n2, o2, r2⟩ := parts_spec (grow := grow) (height := height) (n := n) ha fr (e := v.off + v.len) (by omega) htop hlv hkM ih ps v.off
      (h.setSlice v (srt (Entry F) (dimLess dim) (h.slice v))) done
      (by
        have : ∀ (ps : List Slice) (o : Nat), Consec v.arr k (v.off + v.cap) (v.off + v.len) ps o → Consec v.arr k top (v.off + v.len) ps o := by
          intro ps
          induction ps with
          | nil => intro o h; exact h
          | cons p ps ih =>
            rintro o ⟨a1, a2, a3, a4, a5, a6, a7, a8⟩
            exact ⟨a1, a2, a3, a4, a5, by omega, a7, ih _ a8⟩
        exact this ps _ w3) hlo L1
      (by
        intro x hx
        have : v.off + v.len - v.off = v.len := by omega
        rw [this, rs] at hx
        exact hobjv x (hperm.mem_iff.1 hx))
    have hrng : ∀ o' l, v.off + v.len ≤ o' → h2.rng v.arr o' l = h.rng v.arr o' l := by
      intro o' l ho
      apply Heap.rng_congr
      intro i hi1 _
      rw [r2 i (by omega)]
      exact gs.arrA i (Or.inr (by omega))
    have hcnt := w3.count w2
    have e0 : v.off + v.len - v.off = v.len := by omega
    rw [e0] at hcnt
    rw [e0, rs] at o2
    have hps : 1 ≤ ps.length := by cases ps; exact absurd rfl w2; simp
    have hobj2 : ∀ x ∈ h2.rng v.arr (v.off + v.len) (hi - (v.off + v.len)), ObjEntry x := by
      intro y hy
      rw [hrng _ _ le_rfl] at hy
      exact hobj y (by rw [hsplit]; exact List.mem_append_right _ hy)
    have hfirst : done2.flatMap (fun p => p.2.objs) |>.Perm (done.flatMap (fun p => p.2.objs) ++ (h.slice v).map (·.obj)) :=
      o2.trans ((List.Perm.refl _).append (hperm.map _))
    -- the number of children so far
    have hlast : (done2.length - 1) * k < v.off + v.len - lo ∧ 1 ≤ done2.length := by
      rw [n2]
      have m1 : (done.length + ps.length - 1) * k = done.length * k + (ps.length - 1) * k := by
        rw [← Nat.add_mul]; congr 1; omega
      constructor
      · rw [m1, hcount]; omega
      · omega
    cases hvv : vss with
    | nil =>
      subst hvv
      have hend : v.off + v.len = hi := hc
      refine ⟨h2, done2, ?_, ?_, fun _ => ?_, ?_⟩
      · rw [List.foldlM_cons]
        simp only [bind, Except.bind, w1, hs] at e2 ⊢
        rw [e2]; rfl
      · rw [← hend] at L2 ⊢; exact L2
      · exact ⟨hlast.2, by rw [← hend]; exact hlast.1⟩
      · have : hi - v.off = v.len := by omega
        rw [this]; exact hfirst
    | cons v' vss' =>
      have hfull : v.len = vs := p5 (by rw [hvv]; simp)
      have hdiv : k ∣ vs := by
        rcases hvs with h1 | h1
        · rw [hvv] at h1; simp at h1
        · exact h1
      have hcount2 : done2.length * k = v.off + v.len - lo := by
        obtain ⟨q, hq⟩ := hdiv
        have hq' : v.len = q * k := by rw [hfull, hq, Nat.mul_comm]
        have : ps.length = q := by
          rw [hq'] at hcnt
          have h1 : ps.length - 1 < q := Nat.lt_of_mul_lt_mul_right hcnt.1
          have h2 : q ≤ ps.length := Nat.le_of_mul_le_mul_right hcnt.2 hk
          omega
        rw [n2, this, Nat.add_mul, hcount, hq']; omega
      obtain ⟨h3, done3, e3, L3, n3, o3⟩ := ihv (v.off + v.len) h2 done2 hc (by omega) L2 hobj2
        (Or.inr hdiv) hcount2
      refine ⟨h3, done3, ?_, L3, fun _ => n3 (by rw [hvv]; simp), ?_⟩
      · rw [← hvv, List.foldlM_cons]
        simp only [bind, Except.bind, w1, hs] at e2 e3 ⊢
        rw [e2]; exact e3
      · refine o3.trans ?_
        rw [hsplit, hrng _ _ le_rfl, List.map_append, ← List.append_assoc]
        exact hfirst.append (List.Perm.refl _)


theorem map_entry_objs {es : List (Entry F)} (ho : ∀ e ∈ es, ObjEntry e) :
    (es.map fun e => ((e.bb, e.obj) : Box F × Item F 0)).map Item.entry = es := by
  rw [List.map_map]
  conv_rhs => rw [← List.map_id es]
  apply List.map_congr_left
  intro e he
  obtain ⟨h1, h2⟩ := ho e he
  show (⟨e.bb, none, e.obj⟩ : Entry F) = e
  rw [← h1]

/-- `omt` builds a subtree over the given slice -/
theorem omt_spec {srt : GoSort} (hsrt : SortOk srt) (grow : Nat → Nat) (height : Int) (M : Nat) (hM : 1 ≤ M) :
    ∀ (fuel j : Nat) (h : Heap F) (nS : Nat) (s : Slice) (m : Nat), j < fuel → OmtPre h s → m ≤ M → s.len ≤ m * M ^ j →
      OmtSpec srt grow height M fuel h j nS s m := by
  intro fuel
  induction fuel with
  | zero => intro j _ _ _ _ h; omega
  | succ fuel ih =>
    intro j h nS s m hj pre hmM hlen
    have hslen : (h.slice s).length = s.len := by
      have := pre.cap; have := pre.len
      rw [slice_eq_rng]; unfold Heap.rng
      rw [List.length_take, List.length_drop]; omega
    unfold OmtSpec
    by_cases hle : s.len ≤ m
    · cases j with
      | zero =>
        obtain ⟨g, hv⟩ := grown_allocSlice pre.inv pre.arr pre.cap pre.len pre.free ((0 : Nat) + 1 : Int)
        let x : Item F 1 := Item.mk h.nodes.length ((h.slice s).map fun e => ((e.bb, e.obj) : Box F × Item F 0))
        have hx : x.es.map Item.entry = h.slice s := map_entry_objs pre.obj
        refine ⟨(h.allocSlice true ((0 : Nat) + 1 : Int) s).1, x, ?_, g, ⟨⟨⟨none, ?_⟩, fun p _ => ⟨trivial, trivial⟩⟩, ?_, ?_, ?_, ?_, ?_⟩, ?_, ?_⟩
        · unfold omt
          rw [if_pos hle, if_neg (by simp)]
          rfl
        · rw [hx]; exact hv
        · simp only [Item.ids_succ, List.nodup_cons]
          have he : (x.es.flatMap fun p => p.2.ids) = [] := List.flatMap_eq_nil_iff.2 fun p _ => rfl
          rw [he]; simp
        · intro i hi1
          simp [Item.ids_succ] at hi1
          rw [hi1]; exact le_rfl
        · intro p hp
          obtain ⟨e, he, rfl⟩ := List.mem_map.1 hp
          exact ⟨(pre.obj e he).2, trivial⟩
        · intro p hp; exact ⟨trivial, trivial⟩
        · show 1 ≤ (List.map _ _).length
          rw [List.length_map, hslen]; exact pre.pos
        · show (List.map _ _).length ≤ m
          rw [List.length_map, hslen]; exact hle
        · rw [Item.objs_succ]
          show (((h.slice s).map fun e => ((e.bb, e.obj) : Box F × Item F 0)).flatMap fun p => p.2.objs).Perm _
          rw [List.flatMap_map]
          have he : ∀ l : List (Entry F), (l.flatMap fun e => [e.obj]) = l.map (·.obj) := by
            intro l; induction l with
            | nil => rfl
            | cons a l ih => rw [List.flatMap_cons, ih]; rfl
          exact List.Perm.of_eq (he _)
      | succ j =>
        have hlen' : s.len ≤ m * M ^ j := le_trans hle (Nat.le_mul_of_pos_right _ (Nat.pow_pos hM))
        obtain ⟨h1, x, e1, g1, b1, c1, o1⟩ := ih j h nS s m (by omega) pre hmM hlen'
        obtain ⟨⟨par, hv⟩, hc⟩ := b1.rep
        have ha1 : s.arr < h1.arrs.length := lt_of_lt_of_le pre.arr g1.al
        obtain ⟨g2, hv2⟩ := grown_new g1.inv false ((j + 1 : Nat) + 1 : Int)
          [⟨computeBoundingBox (x.es.map Item.entry), some x.id, Spatial.zero⟩] 1 le_rfl ha1 s.off (s.off + s.len) (s.off + s.len)
        have hal : (h1.alloc none false ((j + 1 : Nat) + 1 : Int) [⟨computeBoundingBox (x.es.map Item.entry), some x.id, Spatial.zero⟩]).1
          = ⟨h1.nodes ++ [⟨none, false, ⟨h1.arrs.length, 0, 1, 1⟩, ((j + 1 : Nat) + 1 : Int)⟩],
              h1.arrs ++ [[⟨computeBoundingBox (x.es.map Item.entry), some x.id, Spatial.zero⟩]]⟩ := rfl
        have hidx := Heap.view_lt hv
        have hva := view_alloc g1.inv.toOk.toBnd none false ((j + 1 : Nat) + 1 : Int) [⟨computeBoundingBox (x.es.map Item.entry), some x.id, Spatial.zero⟩]
        have hxnew : h.nodes.length ≤ x.id := b1.new x.id (by simp [Item.ids_succ])
        have hG : Grown h ((h1.alloc none false ((j + 1 : Nat) + 1 : Int) [⟨computeBoundingBox (x.es.map Item.entry), some x.id, Spatial.zero⟩]).1.setParent x.id (some h1.nodes.length))
            s.arr s.off (s.off + s.len) (s.off + s.len) :=
          (g1.trans g2 le_rfl le_rfl le_rfl).setParent hxnew _
        have hvx : ∀ i, i < h1.nodes.length → i ≠ x.id → ((h1.alloc none false ((j + 1 : Nat) + 1 : Int) [⟨computeBoundingBox (x.es.map Item.entry), some x.id, Spatial.zero⟩]).1.setParent x.id (some h1.nodes.length)).view i = h1.view i := by
          intro i hi1 hi2
          rw [view_setParent, if_neg hi2, hva, if_neg (by omega)]
        have hvs : ((h1.alloc none false ((j + 1 : Nat) + 1 : Int) [⟨computeBoundingBox (x.es.map Item.entry), some x.id, Spatial.zero⟩]).1.setParent x.id (some h1.nodes.length)).view x.id =
            some ⟨some h1.nodes.length, j == 0, (j : Int) + 1, x.es.map Item.entry⟩ := by
          rw [view_setParent, if_pos rfl, hva, if_neg (by omega), hv]; rfl
        refine ⟨_, (Item.mk h1.nodes.length [(x.box, x)] : Item F (j + 2)), ?_, hG, ⟨⟨⟨none, ?_⟩, ?_⟩, ?_, ?_, ?_, ?_, ?_⟩, ?_, ?_⟩
        · unfold omt
          rw [if_pos hle, if_pos (by omega)]
          have : (((j + 1 : Nat) : Int) + 1 - 1) = (j : Int) + 1 := by omega
          rw [this, e1]
          simp only [bind, Except.bind]
          rw [deref_some hv]
          rfl
        · rw [view_setParent, if_neg (show (Item.mk h1.nodes.length [(x.box, x)] : Item F (j + 2)).id ≠ x.id by
            show h1.nodes.length ≠ _; omega), hva]
          show (if h1.nodes.length = h1.nodes.length then _ else _) = _
          rw [if_pos rfl, Item.computeBoundingBox_es]
          rfl
        · intro p hp
          have hp : p ∈ [(x.box, x)] := hp
          rw [List.mem_singleton] at hp; subst hp
          refine ⟨b1.rep.congr' (fun c hc' => ?_) (fun i hi1 hi2 => ?_) b1.nd, ⟨_, hvs, rfl⟩⟩
          · simp only [Item.child_succ, Option.some.injEq] at hc'
            subst hc'
            rw [hvs, hv]; rfl
          · exact hvx i (b1.rep.valid i hi1) (fun e => hi2 (by rw [e]; rfl))
        · rw [Item.ids_succ]
          show (h1.nodes.length :: [(x.box, x)].flatMap fun p => p.2.ids).Nodup
          rw [List.flatMap_singleton]
          exact List.nodup_cons.2 ⟨fun hm => by have := b1.rep.valid _ hm; omega, b1.nd⟩
        · intro i hi1
          rw [Item.ids_succ] at hi1
          have hi1 : i ∈ h1.nodes.length :: [(x.box, x)].flatMap fun p => p.2.ids := hi1
          rw [List.flatMap_singleton, List.mem_cons] at hi1
          rcases hi1 with rfl | hi1
          · exact g1.nl
          · exact b1.new i hi1
        · intro p hp
          have hp : p ∈ [(x.box, x)] := hp
          rw [List.mem_singleton] at hp; subst hp
          exact ⟨rfl, b1.good⟩
        · intro p hp
          have hp : p ∈ [(x.box, x)] := hp
          rw [List.mem_singleton] at hp; subst hp
          exact ⟨⟨b1.cnt, le_trans c1 hmM⟩, b1.fill⟩
        · exact le_rfl
        · exact le_trans pre.pos hle
        · rw [Item.objs_succ]
          show ([(x.box, x)].flatMap fun p => p.2.objs).Perm _
          rw [List.flatMap_singleton]
          exact o1
    · -- an inner node
      have hmpos : m ≠ 0 := by
        rintro rfl
        rw [Nat.zero_mul] at hlen
        have := pre.pos; omega
      cases j with
      | zero => rw [Nat.pow_zero, Nat.mul_one] at hlen; omega
      | succ j =>
        have hd := Nat.div_add_mod (s.len + m - 1) m
        have hmod := Nat.mod_lt (s.len + m - 1) (Nat.pos_of_ne_zero hmpos)
        have hk1 : 1 ≤ (s.len + m - 1) / m := (Nat.one_le_div_iff (Nat.pos_of_ne_zero hmpos)).2 (by have := pre.pos; omega)
        have hkM : (s.len + m - 1) / m ≤ M * M ^ j := by
          have hP : M ^ (j + 1) = M * M ^ j := by rw [Nat.pow_succ, Nat.mul_comm]
          rw [hP] at hlen
          rw [Nat.div_le_iff_le_mul_add_pred (Nat.pos_of_ne_zero hmpos)]
          omega
        have hkm : s.len ≤ m * ((s.len + m - 1) / m) := by omega
        obtain ⟨g0, hv0⟩ := grown_new pre.inv false ((j + 1 : Nat) + 1 : Int) (List.replicate m Entry.zero) 0 (Nat.zero_le _) pre.arr
          s.off (s.off + s.len) s.off
        rw [List.length_replicate] at g0 hv0
        have hcap : (h.allocCap ((j + 1 : Nat) + 1 : Int) m).1 =
            ⟨h.nodes ++ [⟨none, false, ⟨h.arrs.length, 0, 0, m⟩, ((j + 1 : Nat) + 1 : Int)⟩], h.arrs ++ [List.replicate m Entry.zero]⟩ := rfl
        rw [← hcap] at g0 hv0
        have hrng0 : ∀ o l, (h.allocCap ((j + 1 : Nat) + 1 : Int) m).1.rng s.arr o l = h.rng s.arr o l := by
          intro o l
          apply Heap.rng_congr
          intro i _ _
          unfold Heap.allocCap arrOf
          simp only [List.getD]
          rw [List.getElem?_append_left pre.arr]
        have L0 : Loop (j := j) M h (h.allocCap ((j + 1 : Nat) + 1 : Int) m).1 h.nodes.length ((j + 1 : Nat) + 1 : Int) s.arr s.off (s.off + s.len) s.off [] :=
          ⟨g0, le_rfl, hv0, by simp, by simp, by simp, by simp, by simp⟩
        generalize hk : (s.len + m - 1) / m = k at *
        have hvs1 : 1 ≤ (if nS > 1 then nS * k else s.len) := by
          split_ifs
          · exact Nat.mul_pos (by omega) hk1
          · exact pre.pos
        obtain ⟨vss, w1, w2, w3⟩ := walkPartitions_spec hvs1 pre.len pre.pos
        obtain ⟨h', done, e1, L, hcnt, ho⟩ := verts_spec hsrt (grow := grow) (height := height) (fuel := fuel) (n := h.nodes.length)
          (lv := ((j + 1 : Nat) + 1 : Int)) ((height - ((j + 1 : Nat) + 1 : Int) + 1) % 2) pre.arr pre.free hk1 pre.cap (by push_cast; ring)
          hkM (fun h s p1 p2 => ih j h 1 s M (by omega) p1 le_rfl p2) vss s.off _ [] w3 le_rfl L0
          (by
            intro x hx
            rw [hrng0] at hx
            have : s.off + s.len - s.off = s.len := by omega
            rw [this] at hx
            exact pre.obj x hx)
          (by
            by_cases hnS : nS > 1
            · right; rw [if_pos hnS]; exact Nat.dvd_mul_left _ _
            · left
              have := (w3.count w2).1
              rw [if_neg hnS] at this
              have h3 : s.off + s.len - s.off = s.len := by omega
              rw [h3] at this
              by_contra hcon
              have : s.len ≤ (vss.length - 1) * s.len := Nat.le_mul_of_pos_left _ (by omega)
              omega)
          (by simp)
        obtain ⟨c1, c2⟩ := hcnt w2
        have c3 : done.length ≤ m := by
          have h3 : s.off + s.len - s.off = s.len := by omega
          rw [h3] at c2
          have h4 : (done.length - 1) * k < m * k := by
            have := Nat.mul_comm m k; rw [Nat.mul_comm m k]; rw [Nat.mul_comm] at hkm; omega
          have := Nat.lt_of_mul_lt_mul_right h4
          omega
        refine ⟨h', (Item.mk h.nodes.length done : Item F (j + 2)), ?_, L.grown, ⟨⟨⟨none, ?_⟩, L.rep⟩, ?_, ?_, L.good, L.fill, c1⟩, c3, ?_⟩
        · unfold omt
          rw [if_neg hle, if_neg hmpos]
          simp only [hk, w1, bind, Except.bind] at e1 ⊢
          have hn : (h.allocCap ((j + 1 : Nat) + 1 : Int) m).2 = h.nodes.length := rfl
          rw [hn]
          rw [e1]
          rfl
        · exact L.view
        · rw [Item.ids_succ]; exact L.nd
        · intro i hi1
          rw [Item.ids_succ] at hi1
          rcases List.mem_cons.1 hi1 with rfl | hi1
          · exact le_rfl
          · exact L.new i hi1
        · rw [Item.objs_succ]
          refine ho.trans ?_
          rw [hrng0]
          have h3 : s.off + s.len - s.off = s.len := by omega
          rw [h3, ← slice_eq_rng]
          exact List.Perm.refl _

end GoGeo
