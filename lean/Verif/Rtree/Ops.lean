import Verif.Rtree.Delete3
import Verif.Spec.RtreeOps

/-!
# The calls that change the tree, in terms of the stored objects
-/

set_option linter.unusedSectionVars false

namespace GoGeo
open GoFloat Spec
variable {F : Type} [GoFloat F]

theorem leafObjs_spec {h : Heap F} (fuel : Nat) :
    ∀ {j : Nat} (x : Item F (j + 1)), x.ids.length ≤ fuel → x.Rep h →
    leafObjs h fuel (some x.id) = x.objs := by
  induction fuel with
  | zero => intro j x hf; rw [ids_eq] at hf; simp at hf
  | succ fuel ih =>
    intro j x hf hx
    obtain ⟨⟨par, hv⟩, hch⟩ := id hx
    rw [leafObjs, hv]
    simp only
    rw [objs_eq]
    unfold objsL
    cases j with
    | zero =>
      simp only [beq_self_eq_true, if_true, List.map_map]
      rw [← List.flatMap_singleton' (List.map _ x.es), List.flatMap_map]
      rfl
    | succ k =>
      have hb : ((k + 1 == 0)) = false := by simp
      rw [hb]
      simp only [Bool.false_eq_true, if_false, List.flatMap_map]
      have : ∀ (l : List (Box F × Item F (k + 1))), (∀ p ∈ l, p ∈ x.es) →
          l.flatMap (fun p => leafObjs h fuel (Item.entry p).child) = l.flatMap fun p => p.2.objs := by
        intro l hl
        induction l with
        | nil => rfl
        | cons p l ihl =>
          rw [List.flatMap_cons, List.flatMap_cons, ihl fun p' hp' => hl p' (by simp [hp'])]
          have hp : p ∈ x.es := hl p (by simp)
          rw [Item.entry_child, Item.child_succ, ih p.2 (by have := ids_lt_of_mem hp; omega) (hch p hp).1]
      exact this x.es fun p hp => hp

theorem contents_eq {q : Bool} {lo hi r : Nat} {s : RState F} {K : Nat} {X : Item F (K + 1)}
    (ti : TInv q lo hi r s X) : contents s = X.objs := by
  have hlen : X.ids.length ≤ s.h.nodes.length := length_le_of_nodup ti.nd ti.rep.valid
  unfold contents
  rw [← ti.root]
  exact leafObjs_spec _ X (by omega) ti.rep

/-- the tree is sound: its memory describes some ghost tree; `q` tells whether leaves are private -/
def Sound (q : Bool) (lo hi : Nat) (s : RState F) : Prop :=
  (∃ (K : Nat) (X : Item F (K + 1)), TInv q lo hi 0 s X) ∧ s.t.size = (contents s).length ∧ lo ≤ 1 ∧
    ((lo : Int) ≤ s.t.MinChildren ∨ lo = 0)

theorem TInv.weaken {q : Bool} {lo hi r r' : Nat} {s : RState F} {K : Nat} {X : Item F (K + 1)}
    (ti : TInv q lo hi r s X) (h : r' ≤ r) : TInv q lo hi r' s X :=
  ⟨ti.inv, ti.root, ti.rep, ti.nd, ti.good, ti.fill, ⟨ti.cnt.1, fun h0 => le_trans h (ti.cnt.2 h0)⟩, ti.height,
    ti.lo, le_trans h ti.r2⟩

theorem Sound.of {q : Bool} {lo hi r : Nat} {s : RState F} {K : Nat} {X : Item F (K + 1)}
    (ti : TInv q lo hi r s X) (hs : s.t.size = (contents s).length) (h1 : lo ≤ 1)
    (h2 : (lo : Int) ≤ s.t.MinChildren ∨ lo = 0) : Sound q lo hi s :=
  ⟨⟨K, X, ti.weaken (Nat.zero_le _)⟩, hs, h1, h2⟩

theorem Sound.empty {min max : Int} (hmax : 2 ≤ max) {lo : Nat} (h1 : lo ≤ 1) (h2 : (lo : Int) ≤ min ∨ lo = 0) :
    Sound true lo max.toNat (NewEmptyTree min max : RState F) := by
  have ti := TInv.empty (F := F) (min := min) (max := max) (lo := lo) (hi := max.toNat) (r := 0) (by omega)
    ⟨by omega, by simp [NewEmptyTree]; omega, Or.inl h1⟩
  refine Sound.of ti ?_ h1 h2
  rw [contents_eq ti]; simp [objs_eq]; rfl

section
variable [FloatOrd F]

theorem Sound.search {q : Bool} {lo hi : Nat} {s : RState F} (hs : Sound q lo hi s) (bb : Option (Box F))
    (cond : Option (Spatial F → Bool)) :
    SearchIntersectWithCond s bb cond = .ok ((contents s).filter (hit bb cond)) := by
  obtain ⟨⟨K, X, ti⟩, -⟩ := hs
  rw [contents_eq ti]
  exact SearchIntersect_spec ti bb cond

theorem Sound.insert {lo hi : Nat} {grow : Nat → Nat} {s s' : RState F} (hs : Sound true lo hi s) {o : Spatial F}
    (h : Insert grow s o = .ok s') :
    Sound true lo hi s' ∧ (contents s').Perm (o :: contents s) ∧ s'.t.size = s.t.size + 1 := by
  obtain ⟨⟨K, X, ti⟩, hz, hl1, hl2⟩ := hs
  obtain ⟨K', X', t', p', z', m'⟩ := Insert_spec grow ti o h
  have hp : (contents s').Perm (o :: contents s) := by rw [contents_eq t', contents_eq ti]; exact p'
  refine ⟨Sound.of t' ?_ hl1 (by rw [m']; exact hl2), hp, z'⟩
  rw [z', hz, hp.length_eq, List.length_cons]; push_cast; rfl

theorem Sound.delete {q : Bool} {lo hi : Nat} {grow : Nat → Nat} {s s' : RState F} (hs : Sound q lo hi s)
    {obj : Spatial F} {cmp : Cond2 F} {b : Bool} (h : DeleteWithComparator grow s obj cmp = .ok (s', b)) :
    Sound q lo hi s' ∧ DelOne cmp obj (contents s) (contents s') b ∧ (b = false → s' = s) ∧
      s'.t.size = s.t.size - (if b then 1 else 0) ∧
      ((∃ o ∈ contents s, Findable obj cmp o) → b = true) := by
  obtain ⟨⟨K, X, ti⟩, hz, hl1, hl2⟩ := id hs
  obtain ⟨h1, h2⟩ := Delete_spec (r' := 0) hl1 (Or.inr rfl) (Nat.zero_le _) grow ti hl2 obj cmp h
  cases b with
  | false =>
    obtain ⟨rfl, h4⟩ := h1 rfl
    refine ⟨hs, Or.inl ⟨rfl, rfl⟩, fun _ => rfl, by simp, ?_⟩
    rintro ⟨o, ho, hf⟩
    rw [contents_eq ti] at ho
    exact absurd hf (h4 o ho)
  | true =>
    obtain ⟨K', X', o, t', hc, hp, hsz, m', -⟩ := h2 rfl
    have hp' : (contents s).Perm (o :: contents s') := by rw [contents_eq t', contents_eq ti]; exact hp
    refine ⟨Sound.of t' ?_ hl1 (by rw [m']; exact hl2), Or.inr ⟨rfl, o, hc, hp'⟩, fun h0 => (by cases h0), by simpa using hsz, fun _ => rfl⟩
    rw [hsz, hz, hp'.length_eq, List.length_cons]; push_cast; omega

theorem Findable.self {cmp : Cond2 F} {o : Spatial F} (h : cmp o o = .ok true) : Findable o cmp o :=
  ⟨h, Inside.refl (BoundingBox_num _)⟩

theorem sameID_iff {a b : Spatial F} : (sameID a b : Go Bool) = .ok true ↔ a.ID = b.ID := by
  simp [sameID]

theorem Sound.deleteEach {q : Bool} {lo hi : Nat} {grow : Nat → Nat} {i : String} (sps : List (Spatial F)) :
    ∀ {s s' : RState F}, Sound q lo hi s → (∀ o ∈ sps, o.ID = i) → deleteEach grow sps s = .ok s' →
    Sound q lo hi s' ∧ ∃ gone : List (Spatial F), (∀ o ∈ gone, o.ID = i) ∧ (contents s).Perm (gone ++ contents s') := by
  induction sps with
  | nil =>
    intro s s' hs _ h
    cases h
    exact ⟨hs, [], by simp, List.Perm.refl _⟩
  | cons o sps ih =>
    intro s s' hs hid h
    rw [GoGeo.deleteEach] at h
    cases hd : DeleteWithComparator grow s o sameID with
    | error e => rw [hd] at h; cases h
    | ok r =>
      obtain ⟨s1, b⟩ := r
      rw [hd] at h
      have h : GoGeo.deleteEach grow sps s1 = .ok s' := h
      obtain ⟨d1, d2, -⟩ := hs.delete hd
      obtain ⟨e1, gone, e2, e3⟩ := ih d1 (fun o ho => hid o (by simp [ho])) h
      refine ⟨e1, ?_⟩
      rcases d2 with ⟨-, d2⟩ | ⟨-, x, hx, d2⟩
      · rw [← d2]; exact ⟨gone, e2, e3⟩
      · refine ⟨x :: gone, ?_, d2.trans (List.Perm.cons _ e3)⟩
        intro y hy
        rcases List.mem_cons.1 hy with rfl | hy
        · rw [sameID_iff.1 hx]; exact hid o (by simp)
        · exact e2 y hy

theorem Sound.rootBox {q : Bool} {lo hi : Nat} {s : RState F} (hs : Sound q lo hi s) :
    ∃ v, s.h.view s.t.root = some v ∧ NumBox (computeBoundingBox v.entries) ∧
      ∀ o ∈ contents s, Inside (BoundingBox o.Geom) (computeBoundingBox v.entries) := by
  obtain ⟨⟨K, X, ti⟩, -⟩ := hs
  obtain ⟨⟨par, hv⟩, -⟩ := id ti.rep
  rw [ti.root] at hv
  refine ⟨_, hv, ?_⟩
  rw [contents_eq ti]
  simp only [Item.computeBoundingBox_es]
  exact Item.box_spec X ti.good

/-- what `SearchBySpatialID` returns -/
theorem Sound.searchID {q : Bool} {lo hi : Nat} {s : RState F} (hs : Sound q lo hi s) (i : String) :
    ∃ box : Box F, NumBox box ∧ (∀ o ∈ contents s, Inside (BoundingBox o.Geom) box) ∧
      SearchBySpatialID s i = .ok ((contents s).filter fun o => Meets box o && (i == o.ID)) := by
  obtain ⟨v, hv, hn, hb⟩ := hs.rootBox
  refine ⟨_, hn, hb, ?_⟩
  unfold SearchBySpatialID
  rw [Heap.deref_some hv]
  simp only [bind, Except.bind]
  rw [hs.search]
  rfl

theorem meets_of_inside {b : Box F} {o : Spatial F} (hp : ProperGeom o.Geom) (hb : NumBox b)
    (hi : Inside (BoundingBox o.Geom) b) : Meets b o = true := by
  have hn := BoundingBox_num (F := F) o.Geom
  unfold Meets Box.Intersect
  have a1 : lt (BoundingBox o.Geom).MaxX b.MinX = false :=
    not_lt_of_Le (Le.trans hi.minX hp.x)
  have a2 : gt (BoundingBox o.Geom).MinX b.MaxX = false :=
    not_lt_of_Le (Le.trans hp.x hi.maxX)
  have a3 : gt (BoundingBox o.Geom).MinY b.MaxY = false :=
    not_lt_of_Le (Le.trans hp.y hi.maxY)
  have a4 : lt (BoundingBox o.Geom).MaxY b.MinY = false :=
    not_lt_of_Le (Le.trans hi.minY hp.y)
  simp [a1, a2, a3, a4]

theorem Sound.searchID_proper {q : Bool} {lo hi : Nat} {s : RState F} (hs : Sound q lo hi s) (i : String)
    (hp : ∀ o ∈ contents s, o.ID = i → ProperGeom o.Geom) :
    SearchBySpatialID s i = .ok ((contents s).filter fun o => o.ID = i) := by
  obtain ⟨box, h1, h2, h3⟩ := hs.searchID i
  rw [h3]
  congr 1
  refine List.filter_congr ?_
  intro o ho
  by_cases hid : o.ID = i
  · rw [meets_of_inside (hp o ho hid) h1 (h2 o ho)]
    simp [hid]
  · have : (i == o.ID) = false := by simpa using fun h => hid h.symm
    simp [this, hid]

theorem Sound.deleteID {q : Bool} {lo hi : Nat} {grow : Nat → Nat} {s s' : RState F} (hs : Sound q lo hi s)
    {i : String} {b : Bool} (h : DeleteBySpatialID grow s i = .ok (s', b)) :
    Sound q lo hi s' ∧ DelID i (contents s) (contents s') b := by
  obtain ⟨box, h1, h2, h3⟩ := hs.searchID i
  unfold DeleteBySpatialID at h
  rw [h3] at h
  simp only [bind, Except.bind] at h
  set sps := (contents s).filter fun o => Meets box o && (i == o.ID) with hsps
  have hid : ∀ o ∈ sps, o.ID = i := by
    intro o ho
    have := (List.mem_filter.1 ho).2
    simp only [Bool.and_eq_true, beq_iff_eq] at this
    exact this.2.symm
  split at h
  · rename_i h0
    cases h
    exact ⟨hs, [], by simp, List.Perm.refl _, by simp⟩
  · rename_i h0
    obtain ⟨o, rest, hor⟩ : ∃ o rest, sps = o :: rest := by
      cases hh : sps with
      | nil => rw [hh] at h0; simp at h0
      | cons o rest => exact ⟨o, rest, rfl⟩
    rw [hor, GoGeo.deleteEach] at h
    cases hd : DeleteWithComparator grow s o sameID with
    | error e => simp [hd, bind, Except.bind] at h
    | ok r =>
      obtain ⟨s1, b1⟩ := r
      rw [hd] at h
      simp only [bind, Except.bind] at h
      cases he : GoGeo.deleteEach grow rest s1 with
      | error e => rw [he] at h; cases h
      | ok s2 =>
        rw [he] at h
        cases h
        obtain ⟨d1, d2, -, -, d5⟩ := hs.delete hd
        have ho : o ∈ contents s := (List.mem_filter.1 (by rw [← hsps, hor]; simp : o ∈ _)).1
        have hb1 := d5 ⟨o, ho, Findable.self (sameID_iff.2 rfl)⟩
        obtain ⟨e1, gone, e2, e3⟩ := d1.deleteEach rest (i := i) (fun x hx => hid x (by rw [hor]; simp [hx])) he
        rcases d2 with ⟨d2, -⟩ | ⟨-, x, hx, d2⟩
        · rw [d2] at hb1; cases hb1
        · refine ⟨e1, x :: gone, ?_, d2.trans (List.Perm.cons _ e3), by simp⟩
          intro y hy
          rcases List.mem_cons.1 hy with rfl | hy
          · rw [sameID_iff.1 hx]; exact hid o (by rw [hor]; simp)
          · exact e2 y hy

/-- deleting by id when all objects with the id have the same box -/
theorem Sound.deleteEach_same {q : Bool} {lo hi : Nat} {grow : Nat → Nat} {i : String} {bx : Box F}
    (sps : List (Spatial F)) :
    ∀ {s s' : RState F}, Sound q lo hi s → (∀ o ∈ sps, o.ID = i ∧ Inside (BoundingBox o.Geom) bx) →
    (∀ o ∈ contents s, o.ID = i → Inside bx (BoundingBox o.Geom)) →
    ((contents s).filter fun o => o.ID = i).length ≤ sps.length →
    GoGeo.deleteEach grow sps s = .ok s' →
    Sound q lo hi s' ∧ (contents s').Perm ((contents s).filter fun o => o.ID ≠ i) := by
  induction sps with
  | nil =>
    intro s s' hs _ _ hl h
    cases h
    refine ⟨hs, ?_⟩
    have h0 : ((contents s).filter fun o => o.ID = i) = [] := List.eq_nil_of_length_eq_zero (by simpa using hl)
    rw [List.filter_eq_nil_iff] at h0
    rw [List.filter_eq_self.2]
    intro o ho
    have := h0 o ho
    simpa using this
  | cons o sps ih =>
    intro s s' hs hid hbx hl h
    rw [GoGeo.deleteEach] at h
    cases hd : DeleteWithComparator grow s o sameID with
    | error e => rw [hd] at h; cases h
    | ok r =>
      obtain ⟨s1, b⟩ := r
      rw [hd] at h
      have h : GoGeo.deleteEach grow sps s1 = .ok s' := h
      obtain ⟨d1, d2, d3, -, d5⟩ := hs.delete hd
      have hoi := hid o (by simp)
      rcases d2 with ⟨hb, d2⟩ | ⟨hb, x, hx, d2⟩
      · -- nothing found: no object with the id is left
        have hnone : ((contents s).filter fun o => o.ID = i) = [] := by
          rw [List.filter_eq_nil_iff]
          intro x hx hxi
          have hxi : x.ID = i := by simpa using hxi
          have := d5 ⟨x, hx, sameID_iff.2 (hxi.trans hoi.1.symm), hoi.2.trans (hbx x hx hxi)⟩
          rw [this] at hb; cases hb
        have hs1 := d3 hb
        subst hs1
        exact ih d1 (fun o ho => hid o (by simp [ho])) hbx (by rw [hnone]; simp) h
      · have hxi : x.ID = i := (sameID_iff.1 hx).trans hoi.1
        have hmem : ∀ y ∈ contents s1, y ∈ contents s := fun y hy => d2.mem_iff.2 (by simp [hy])
        have hf : ((contents s).filter fun o => o.ID = i).Perm
            (x :: (contents s1).filter fun o => o.ID = i) := by
          refine (d2.filter _).trans ?_
          rw [List.filter_cons_of_pos (by simpa using hxi)]
        have hf' : ((contents s).filter fun o => o.ID ≠ i).Perm
            ((contents s1).filter fun o => o.ID ≠ i) := by
          refine (d2.filter _).trans ?_
          rw [List.filter_cons_of_neg (by simpa using hxi)]
        have hlen := hf.length_eq
        rw [List.length_cons] at hlen
        obtain ⟨e1, e2⟩ := ih d1 (fun o ho => hid o (by simp [ho])) (fun o ho => hbx o (hmem o ho))
          (by rw [List.length_cons] at hl; omega) h
        exact ⟨e1, e2.trans hf'.symm⟩

/-- `DeleteBySpatialID` when the objects with the id have proper and equal boxes -/
theorem Sound.deleteID_same {q : Bool} {lo hi : Nat} {grow : Nat → Nat} {s s' : RState F} (hs : Sound q lo hi s)
    {i : String} {b : Bool} (hp : ∀ o ∈ contents s, o.ID = i → ProperGeom o.Geom)
    (hsame : ∀ o ∈ contents s, ∀ o' ∈ contents s, o.ID = i → o'.ID = i →
      SameBox (BoundingBox o.Geom) (BoundingBox o'.Geom))
    (h : DeleteBySpatialID grow s i = .ok (s', b)) :
    Sound q lo hi s' ∧ (contents s').Perm ((contents s).filter fun o => o.ID ≠ i) ∧
      (b = true ↔ ∃ o ∈ contents s, o.ID = i) := by
  have hsearch := hs.searchID_proper i hp
  unfold DeleteBySpatialID at h
  rw [hsearch] at h
  simp only [bind, Except.bind] at h
  set sps := (contents s).filter fun o => o.ID = i with hsps
  split at h
  · rename_i h0
    cases h
    have h1 : sps = [] := List.eq_nil_of_length_eq_zero h0
    rw [hsps, List.filter_eq_nil_iff] at h1
    refine ⟨hs, ?_, ?_⟩
    · rw [List.filter_eq_self.2]
      intro o ho
      simpa using h1 o ho
    · constructor
      · intro h; cases h
      · rintro ⟨o, ho, hi⟩
        exact absurd (by simpa using hi) (h1 o ho)
  · rename_i h0
    obtain ⟨o, rest, hor⟩ : ∃ o rest, sps = o :: rest := by
      cases hh : sps with
      | nil => rw [hh] at h0; simp at h0
      | cons o rest => exact ⟨o, rest, rfl⟩
    have hmem : ∀ x ∈ sps, x ∈ contents s ∧ x.ID = i := by
      intro x hx
      have := List.mem_filter.1 hx
      exact ⟨this.1, by simpa using this.2⟩
    have ho := hmem o (by rw [hor]; simp)
    cases he : GoGeo.deleteEach grow sps s with
    | error e => rw [he] at h; cases h
    | ok s2 =>
      rw [he] at h
      cases h
      obtain ⟨e1, e2⟩ := hs.deleteEach_same (bx := BoundingBox o.Geom) (i := i) sps
        (fun x hx => ⟨(hmem x hx).2, (hsame x (hmem x hx).1 o ho.1 (hmem x hx).2 ho.2).1⟩)
        (fun x hx hxi => (hsame o ho.1 x hx ho.2 hxi).1) (le_refl _) he
      exact ⟨e1, e2, by simpa using ⟨o, ho⟩⟩

theorem Sound.upsert {lo hi : Nat} {grow : Nat → Nat} (objs : List (Spatial F)) :
    ∀ {s s' : RState F}, Sound true lo hi s → UpsertBySpatialID grow objs s = .ok s' →
    Sound true lo hi s' ∧ Upserted objs (contents s) (contents s') := by
  induction objs with
  | nil => intro s s' hs h; cases h; exact ⟨hs, rfl⟩
  | cons o os ih =>
    intro s s' hs h
    rw [UpsertBySpatialID] at h
    cases hd : DeleteBySpatialID grow s o.ID with
    | error e => rw [hd] at h; cases h
    | ok r =>
      obtain ⟨s1, b⟩ := r
      rw [hd] at h
      simp only [bind, Except.bind] at h
      cases hin : Insert grow s1 o with
      | error e => rw [hin] at h; cases h
      | ok s2 =>
        rw [hin] at h
        simp only at h
        obtain ⟨d1, d2⟩ := hs.deleteID hd
        obtain ⟨i1, i2, -⟩ := d1.insert hin
        obtain ⟨u1, u2⟩ := ih i1 h
        exact ⟨u1, contents s1, contents s2, b, d2, i2, u2⟩

theorem goEq_same {a b : Spatial F} (h : Spatial.goEq a b = .ok true) : SameObject a b := by
  obtain ⟨i, pr, g⟩ := a
  obtain ⟨j, qr, k⟩ := b
  simp only [Spatial.goEq] at h
  split at h
  · cases h
  next hid =>
  have hid : i = j := by simpa using hid
  cases hp : PropVal.goEq pr qr with
  | error e => rw [hp] at h; cases h
  | ok b =>
    rw [hp] at h
    cases b with
    | false => cases h
    | true =>
      have hg : Geometry.goEq g k = .ok true := h
      have hpr : pr = qr := by
        cases pr <;> cases qr <;> simp only [PropVal.goEq] at hp <;> try cases hp
        · rfl
        · simp only [Except.ok.injEq, Bool.and_eq_true, beq_iff_eq] at hp
          rw [hp.1, hp.2]
        · split at hp <;> cases hp
      refine ⟨hid, hpr, ?_⟩
      cases g <;> cases k <;> first | cases hg | skip
      all_goals try simp only [Geometry.goEq, Except.ok.injEq, Bool.and_eq_true, FloatOrd.eq_iff] at hg
      · exact hg
      · exact ⟨hg.1.1, hg.1.2, hg.2⟩
      · simpa using hg
      · trivial

/-- every call keeps the tree sound and does what `Step` says -/
theorem Sound.step {lo hi : Nat} {grow : Nat → Nat} {s s' : RState F} (hs : Sound true lo hi s) {op : Op F} {b : Bool}
    (h : op.run grow s = .ok (s', b)) : Sound true lo hi s' ∧ Step op (contents s) (contents s') b := by
  cases op with
  | insert o =>
    simp only [Op.run] at h
    cases hin : Insert grow s o with
    | error e => rw [hin] at h; cases h
    | ok s1 =>
      rw [hin] at h
      cases h
      obtain ⟨h1, h2, -⟩ := hs.insert hin
      exact ⟨h1, h2⟩
  | delete obj =>
    obtain ⟨h1, h2, -⟩ := hs.delete h
    exact ⟨h1, h2.imp id fun ⟨hb, o, ho, hp⟩ => ⟨hb, o, goEq_same ho, hp⟩⟩
  | deleteWith obj cmp =>
    obtain ⟨h1, h2, -⟩ := hs.delete h
    exact ⟨h1, h2⟩
  | deleteID id => exact hs.deleteID h
  | upsert objs =>
    simp only [Op.run] at h
    cases hin : UpsertBySpatialID grow objs s with
    | error e => rw [hin] at h; cases h
    | ok s1 =>
      rw [hin] at h
      cases h
      exact hs.upsert objs hin

theorem Sound.runAll {lo hi : Nat} {grow : Nat → Nat} (ops : List (Op F)) :
    ∀ {s s' : RState F} {bs : List Bool}, Sound true lo hi s → runAll grow ops s = .ok (s', bs) → Sound true lo hi s' := by
  induction ops with
  | nil => intro s s' bs hs h; cases h; exact hs
  | cons op ops ih =>
    intro s s' bs hs h
    rw [Spec.runAll] at h
    cases hr : op.run grow s with
    | error e => rw [hr] at h; cases h
    | ok r =>
      obtain ⟨s1, b⟩ := r
      rw [hr] at h
      simp only [bind, Except.bind] at h
      cases hr2 : Spec.runAll grow ops s1 with
      | error e => rw [hr2] at h; cases h
      | ok r2 =>
        obtain ⟨s2, bs2⟩ := r2
        rw [hr2] at h
        cases h
        exact ih (hs.step hr).1 hr2

theorem Spec.Reached.sound {grow : Nat → Nat} {min max : Int} (hmax : 2 ≤ max) {s : RState F}
    (h : Reached grow min max s) : Sound true 0 max.toNat s := by
  obtain ⟨ops, bs, h⟩ := h
  exact (Sound.empty hmax (Nat.zero_le _) (Or.inr rfl)).runAll ops h

theorem Spec.Reached.sound1 {grow : Nat → Nat} {min max : Int} (hmin : 1 ≤ min) (hmax : 2 ≤ max) {s : RState F}
    (h : Reached grow min max s) : Sound true 1 max.toNat s := by
  obtain ⟨ops, bs, h⟩ := h
  exact (Sound.empty hmax (le_refl 1) (Or.inl (by exact_mod_cast hmin))).runAll ops h

end

end GoGeo
