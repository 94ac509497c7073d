import Verif.Props.RtreeInsert
import Verif.Rtree.Ops
import Verif.Go.F64

/-!
# C02-C06, C11, C15, C17: mixed histories of insertions and deletions

`contents s` is the list of objects found in the leaves of the tree by following its child pointers;
`Step` (in `Spec/RtreeOps`) says what each call does to a collection of objects.
-/

set_option linter.unusedSectionVars false

namespace GoGeo
open GoFloat Spec
variable {F : Type} [GoFloat F]

/-- four inserted points of which two have the same id, and a line -/
def mixedOps : List (Op Float) :=
  [.insert ⟨"a", .nil, .point ⟨0, 0⟩⟩, .insert ⟨"b", .nil, .point ⟨1, 7⟩⟩, .insert ⟨"c", .nil, .point ⟨2, 1⟩⟩,
   .insert ⟨"d", .nil, .lineString [⟨3, 3⟩, ⟨5, 4⟩]⟩, .insert ⟨"a", .nil, .point ⟨9, 9⟩⟩,
   .delete ⟨"b", .nil, .point ⟨1, 7⟩⟩, .delete ⟨"b", .nil, .point ⟨1, 7⟩⟩,
   .upsert [⟨"c", .nil, .point ⟨8, 8⟩⟩, ⟨"e", .nil, .point ⟨1, 1⟩⟩],
   .deleteWith ⟨"x", .nil, .point ⟨0, 0⟩⟩ (fun a _ => .ok (a.ID == "a")), .deleteID "d"]

/-- the history runs without a panic; it returns, and leaves: -/
example : (runAll id mixedOps (NewEmptyTree 1 2)).map (fun r => (r.2, (contents r.1).map (·.ID), Depth r.1)) =
    .ok ([true, true, true, true, true, true, false, true, true, true], ["e", "a", "c"], 3) := by
  decide +kernel

section
variable [FloatOrd F]

/-! ## C02 -/

/-- **C02.** After any history of calls, a search returns exactly the stored objects whose box meets
the query box. -/
theorem C02_search_exact (grow : Nat → Nat) (min max : Int) (hmax : 2 ≤ max) (s : RState F)
    (hs : Reached grow min max s) (q : Box F) :
    SearchIntersect s (some q) = .ok ((contents s).filter (Meets q)) := by
  unfold SearchIntersect
  rw [(hs.sound hmax).search]
  congr 2
  funext o
  simp [hit, Meets, Box.IntersectPtr]

/-- **C02.** What is stored follows the history: nothing at first, and each call changes it as
`Step` says (for an insertion: one object more; for a deletion: one matching object less; ...). -/
theorem C02_step (grow : Nat → Nat) (min max : Int) (hmax : 2 ≤ max) :
    contents (NewEmptyTree min max : RState F) = [] ∧
    ∀ (s s' : RState F) (op : Op F) (b : Bool), Reached grow min max s → op.run grow s = .ok (s', b) →
      Reached grow min max s' ∧ Step op (contents s) (contents s') b := by
  constructor
  · have ti := TInv.empty (F := F) (min := min) (max := max) (lo := 0) (hi := max.toNat) (r := 0) (by omega)
      ⟨by omega, by simp [NewEmptyTree]; omega, Or.inl (Nat.zero_le _)⟩
    rw [contents_eq ti]; simp [objs_eq]
  · intro s s' op b hs hop
    refine ⟨?_, ((hs.sound hmax).step hop).2⟩
    obtain ⟨ops, bs, h⟩ := hs
    refine ⟨ops ++ [op], bs ++ [b], ?_⟩
    have app : ∀ (ops : List (Op F)) (s0 s1 : RState F) (bs : List Bool), runAll grow ops s0 = .ok (s1, bs) →
        ∀ s2, op.run grow s1 = .ok (s2, b) → runAll grow (ops ++ [op]) s0 = .ok (s2, bs ++ [b]) := by
      intro ops
      induction ops with
      | nil =>
        intro s0 s1 bs h s2 h2
        cases h
        simp only [List.nil_append, runAll, h2, bind, Except.bind]
      | cons o ops ih =>
        intro s0 s1 bs h s2 h2
        rw [List.cons_append, runAll]
        rw [runAll] at h
        cases hr : o.run grow s0 with
        | error e => rw [hr] at h; cases h
        | ok r =>
          obtain ⟨t, bt⟩ := r
          rw [hr] at h
          simp only [bind, Except.bind] at h ⊢
          cases hr2 : runAll grow ops t with
          | error e => rw [hr2] at h; cases h
          | ok r2 =>
            obtain ⟨t2, bs2⟩ := r2
            rw [hr2] at h
            cases h
            rw [ih t t2 bs2 hr2 s2 h2]
            rfl
    exact app ops _ s bs h s' hop

/-- the stored objects are those that can be reached (C02, without the multiplicities) -/
theorem C02_contents_stored (grow : Nat → Nat) (min max : Int) (hmax : 2 ≤ max) (s : RState F)
    (hs : Reached grow min max s) (o : Spatial F) : StoredIn s o ↔ o ∈ contents s := by
  obtain ⟨⟨K, X, ti⟩, -⟩ := hs.sound hmax
  rw [contents_eq ti]
  exact stored_iff ti o

/-! ## C03 -/

/-- **C03.** After any history `Size` is the number of stored objects. -/
theorem C03_size (grow : Nat → Nat) (min max : Int) (hmax : 2 ≤ max) (s : RState F)
    (hs : Reached grow min max s) : Size s = (contents s).length :=
  (hs.sound hmax).2.1

/-- **C03.** Over any history of `Insert`, `Delete` and `DeleteWithComparator`, `Size` is the number of
insertions minus the number of deletions that returned true. -/
theorem C03_size_net (grow : Nat → Nat) (min max : Int) (hmax : 2 ≤ max) (ops : List (Op F))
    (hops : ∀ op ∈ ops, op.single) (s : RState F) (bs : List Bool)
    (h : runAll grow ops (NewEmptyTree min max) = .ok (s, bs)) : Size s = netCount ops bs := by
  have key : ∀ (ops : List (Op F)), (∀ op ∈ ops, op.single) → ∀ (s0 s : RState F) (bs : List Bool),
      Sound true 0 max.toNat s0 → runAll grow ops s0 = .ok (s, bs) →
      s.t.size = s0.t.size + netCount ops bs := by
    intro ops
    induction ops with
    | nil => intro _ s0 s bs _ h; cases h; simp [netCount]
    | cons op ops ih =>
      intro hops s0 s bs hs h
      rw [runAll] at h
      cases hr : op.run grow s0 with
      | error e => rw [hr] at h; cases h
      | ok r =>
        obtain ⟨t, b⟩ := r
        rw [hr] at h
        simp only [bind, Except.bind] at h
        cases hr2 : runAll grow ops t with
        | error e => rw [hr2] at h; cases h
        | ok r2 =>
          obtain ⟨t2, bs2⟩ := r2
          rw [hr2] at h
          cases h
          have hsnd := (hs.step hr).1
          rw [ih (fun op hop => hops op (by simp [hop])) t _ bs2 hsnd hr2]
          have hop := hops op (by simp)
          cases op with
          | insert o =>
            simp only [Op.run] at hr
            cases hin : Insert grow s0 o with
            | error e => rw [hin] at hr; cases hr
            | ok s1 =>
              rw [hin] at hr
              cases hr
              rw [(hs.insert hin).2.2]
              simp only [netCount]; omega
          | delete obj =>
            rw [(hs.delete hr).2.2.2.1]
            simp only [netCount]; omega
          | deleteWith obj cmp =>
            rw [(hs.delete hr).2.2.2.1]
            simp only [netCount]; omega
          | deleteID id => exact hop.elim
          | upsert objs => exact hop.elim
  have := key ops hops _ s bs (Sound.empty hmax (Nat.zero_le _) (Or.inr rfl)) h
  unfold Size
  rw [this]
  simp [NewEmptyTree]

/-- **C03.** A search with a box around all the stored objects returns `Size` objects (objects without
a proper box aside, see C15). -/
theorem C03_size_search (grow : Nat → Nat) (min max : Int) (hmax : 2 ≤ max) (s : RState F)
    (hs : Reached grow min max s) (q : Box F) (hq : NumBox q)
    (hall : ∀ o ∈ contents s, Inside (BoundingBox o.Geom) q ∧ ProperGeom o.Geom) :
    ∃ res, SearchIntersect s (some q) = .ok res ∧ (res.length : Int) = Size s := by
  refine ⟨_, C02_search_exact grow min max hmax s hs q, ?_⟩
  rw [C03_size grow min max hmax s hs, List.filter_eq_self.2]
  intro o ho
  exact meets_of_inside (hall o ho).2 hq (hall o ho).1

/-! ## C04 -/

/-- **C04.** A deletion that returns true took out one object the comparator accepts and left the
others; one that returns false changed nothing; and if a stored object is accepted and its box covers
the box of `obj` (for instance is the same box), it returns true. -/
theorem C04_delete (grow : Nat → Nat) (min max : Int) (hmax : 2 ≤ max) (s s' : RState F)
    (hs : Reached grow min max s) (obj : Spatial F) (cmp : Cond2 F) (b : Bool)
    (h : DeleteWithComparator grow s obj cmp = .ok (s', b)) :
    (b = true → ∃ o, cmp o obj = .ok true ∧ (contents s).Perm (o :: contents s')) ∧
    (b = false → s' = s) ∧
    ((∃ o ∈ contents s, cmp o obj = .ok true ∧ Inside (BoundingBox obj.Geom) (BoundingBox o.Geom)) → b = true) := by
  obtain ⟨-, h2, h3, -, h5⟩ := (hs.sound hmax).delete h
  refine ⟨?_, h3, ?_⟩
  · intro hb
    rcases h2 with ⟨h0, -⟩ | ⟨-, h2⟩
    · rw [hb] at h0; cases h0
    · exact h2
  · rintro ⟨o, ho, hf⟩
    exact h5 ⟨o, ho, hf⟩

/-! ## C15 -/

/-- **C15**, partial: the full statement ("exactly the stored objects with that id") needs the boxes
of the objects with that id to be proper. -/
theorem C15_searchID_partial (grow : Nat → Nat) (min max : Int) (hmax : 2 ≤ max) (s : RState F)
    (hs : Reached grow min max s) (i : String) (hp : ∀ o ∈ contents s, o.ID = i → ProperGeom o.Geom) :
    SearchBySpatialID s i = .ok ((contents s).filter fun o => o.ID = i) :=
  (hs.sound hmax).searchID_proper i hp

/-- **C15**, what holds for all objects: everything returned is stored and has the id. -/
theorem C15_searchID_sound (grow : Nat → Nat) (min max : Int) (hmax : 2 ≤ max) (s : RState F)
    (hs : Reached grow min max s) (i : String) :
    ∃ res, SearchBySpatialID s i = .ok res ∧ res.Sublist ((contents s).filter fun o => o.ID = i) := by
  obtain ⟨box, -, -, h⟩ := (hs.sound hmax).searchID i
  refine ⟨_, h, ?_⟩
  have : (fun o : Spatial F => Meets box o && (i == o.ID)) =
      fun o => (decide (o.ID = i)) && Meets box o := by
    funext o
    rw [Bool.and_comm]
    congr 1
    by_cases h : o.ID = i
    · simp [h]
    · simp [h, Ne.symm h]
  rw [this, ← List.filter_filter, List.filter_filter]
  have e : (fun o : Spatial F => decide (o.ID = i) && Meets box o) =
      fun o => Meets box o && decide (o.ID = i) := by funext o; rw [Bool.and_comm]
  rw [e, ← List.filter_filter]
  exact List.filter_sublist

/-- a geometry with a vertex whose coordinates are numbers has a proper box -/
theorem proper_of_vertex (g : Geometry F) (p : Point F) (hp : p ∈ boxedVertices g) (hx : IsNum p.X)
    (hy : IsNum p.Y) : ProperGeom g := by
  unfold ProperGeom
  rw [BoundingBox_eq g (fun h0 => by rw [h0] at hp; cases hp)]
  have := (foldl_calBox _ _ (start_num (F := F))).2.2 p hp
  exact ⟨(this.x hx).1.trans (this.x hx).2, (this.y hy).1.trans (this.y hy).2⟩

/-! ## C05 -/

/-- **C05**, partial: the objects with the id have to have proper boxes that are all the same — in
particular there may be just one.  Then all of them are removed, the others remain, and the call
returns whether there was one.  Missing: duplicate ids at different places. -/
theorem C05_deleteID_partial (grow : Nat → Nat) (min max : Int) (hmax : 2 ≤ max) (s s' : RState F)
    (hs : Reached grow min max s) (i : String) (b : Bool)
    (hp : ∀ o ∈ contents s, o.ID = i → ProperGeom o.Geom)
    (hsame : ∀ o ∈ contents s, ∀ o' ∈ contents s, o.ID = i → o'.ID = i →
      SameBox (BoundingBox o.Geom) (BoundingBox o'.Geom))
    (h : DeleteBySpatialID grow s i = .ok (s', b)) :
    (contents s').Perm ((contents s).filter fun o => o.ID ≠ i) ∧ (b = true ↔ ∃ o ∈ contents s, o.ID = i) :=
  ((hs.sound hmax).deleteID_same hp hsame h).2

/-- **C05**, what always holds: only objects with the id are removed. -/
theorem C05_deleteID_sound (grow : Nat → Nat) (min max : Int) (hmax : 2 ≤ max) (s s' : RState F)
    (hs : Reached grow min max s) (i : String) (b : Bool) (h : DeleteBySpatialID grow s i = .ok (s', b)) :
    ∃ gone : List (Spatial F), (∀ o ∈ gone, o.ID = i) ∧ (contents s).Perm (gone ++ contents s') ∧
      (b = true ↔ gone ≠ []) :=
  ((hs.sound hmax).deleteID h).2

/-- **C05**, the returned value: with proper geometries, the call tells whether there was an object with the id, and if so takes out at least one. -/
theorem C05_deleteID_returns (grow : Nat → Nat) (min max : Int) (hmax : 2 ≤ max) (s s' : RState F)
    (hs : Reached grow min max s) (i : String) (b : Bool) (hp : ∀ o ∈ contents s, o.ID = i → ProperGeom o.Geom)
    (h : DeleteBySpatialID grow s i = .ok (s', b)) :
    (b = true ↔ ∃ o ∈ contents s, o.ID = i) ∧ (b = false → s' = s) ∧
      (b = true → ((contents s').filter fun o => o.ID = i).length < ((contents s).filter fun o => o.ID = i).length) ∧
      ((contents s').filter fun o => o.ID ≠ i).Perm ((contents s).filter fun o => o.ID ≠ i) := by
  obtain ⟨gone, h1, h2, h3⟩ := C05_deleteID_sound grow min max hmax s s' hs i b h
  have hsearch := (hs.sound hmax).searchID_proper i hp
  have hsame : b = false → s' = s ∧ (contents s).filter (fun o => o.ID = i) = [] := by
    intro hb
    subst hb
    unfold DeleteBySpatialID at h
    rw [hsearch] at h
    simp only [bind, Except.bind] at h
    split at h
    · rename_i h0
      cases h
      exact ⟨rfl, List.eq_nil_of_length_eq_zero h0⟩
    · split at h <;> cases h
  have hf : ∀ p : Spatial F → Bool, ((contents s).filter p).Perm (gone.filter p ++ (contents s').filter p) := by
    intro p
    rw [← List.filter_append]
    exact h2.filter p
  have hg : gone.filter (fun o => o.ID = i) = gone := List.filter_eq_self.2 fun o ho => by simpa using h1 o ho
  have hg' : gone.filter (fun o => o.ID ≠ i) = [] := List.filter_eq_nil_iff.2 fun o ho => by simpa using h1 o ho
  refine ⟨⟨?_, ?_⟩, fun hb => (hsame hb).1, ?_, ?_⟩
  · intro hb
    obtain ⟨o, ho⟩ := List.exists_mem_of_ne_nil _ (h3.1 hb)
    exact ⟨o, h2.mem_iff.2 (List.mem_append_left _ ho), h1 o ho⟩
  · rintro ⟨o, ho, hi⟩
    by_contra hb
    have h0 := (hsame (by simpa using hb)).2
    rw [List.filter_eq_nil_iff] at h0
    exact h0 o ho (by simpa using hi)
  · intro hb
    rw [(hf _).length_eq, hg, List.length_append]
    have := List.length_pos_iff.2 (h3.1 hb)
    omega
  · have := hf fun o => o.ID ≠ i
    rw [hg', List.nil_append] at this
    exact this.symm

/-- **C05**, repeated calls: called as many times as there are objects with the id (which have proper geometries), `DeleteBySpatialID` takes out all of
them and nothing else, wherever they are. -/
theorem C05_deleteID_repeat (grow : Nat → Nat) (min max : Int) (hmax : 2 ≤ max) (i : String) (n : Nat) :
    ∀ (s s' : RState F) (bs : List Bool), Reached grow min max s → (∀ o ∈ contents s, o.ID = i → ProperGeom o.Geom) →
      ((contents s).filter fun o => o.ID = i).length ≤ n →
      runAll grow (List.replicate n (.deleteID i)) s = .ok (s', bs) →
      (contents s').Perm ((contents s).filter fun o => o.ID ≠ i) := by
  induction n with
  | zero =>
    intro s s' bs hs hp hn h
    cases h
    rw [List.filter_eq_self.2]
    intro o ho
    have h0 := List.eq_nil_of_length_eq_zero (Nat.le_zero.1 hn)
    rw [List.filter_eq_nil_iff] at h0
    simpa using h0 o ho
  | succ n ih =>
    intro s s' bs hs hp hn h
    rw [List.replicate_succ, Spec.runAll] at h
    simp only [Op.run, bind, Except.bind] at h
    cases hd : DeleteBySpatialID grow s i with
    | error e => rw [hd] at h; cases h
    | ok r =>
      obtain ⟨s1, b⟩ := r
      rw [hd] at h
      simp only at h
      cases hr : runAll grow (List.replicate n (.deleteID i)) s1 with
      | error e => rw [hr] at h; cases h
      | ok r2 =>
        obtain ⟨s2, bs2⟩ := r2
        rw [hr] at h
        cases h
        obtain ⟨h1, h2, h3, h4⟩ := C05_deleteID_returns grow min max hmax s s1 hs i b hp hd
        obtain ⟨gone, -, g2, -⟩ := C05_deleteID_sound grow min max hmax s s1 hs i b hd
        have hs1 := ((C02_step grow min max hmax).2 s s1 (.deleteID i) b hs (by simp only [Op.run, hd])).1
        refine (ih s1 _ bs2 hs1 (fun o ho => hp o (g2.mem_iff.2 (List.mem_append_right _ ho))) ?_ hr).trans h4
        cases b with
        | false =>
          have : (contents s).filter (fun o => o.ID = i) = [] := by
            rw [List.filter_eq_nil_iff]
            intro o ho hi
            exact absurd (h1.2 ⟨o, ho, by simpa using hi⟩) (by simp)
          rw [h2 rfl, this]
          exact Nat.zero_le _
        | true =>
          have := h3 rfl
          omega

/-! ## C06 -/

theorem nodup_same {l : List (Spatial F)} (h : (l.map (·.ID)).Nodup) {a b : Spatial F} (ha : a ∈ l) (hb : b ∈ l)
    (hab : a.ID = b.ID) : a = b := by
  induction l with
  | nil => cases ha
  | cons x l ih =>
    rw [List.map_cons, List.nodup_cons] at h
    rcases List.mem_cons.1 ha with rfl | ha' <;> rcases List.mem_cons.1 hb with rfl | hb'
    · rfl
    · exact absurd (List.mem_map.2 ⟨b, hb', hab.symm⟩) h.1
    · exact absurd (List.mem_map.2 ⟨a, ha', hab⟩) h.1
    · exact ih h.2 ha' hb'

/-- **C06**, partial: on a tree with distinct ids, upserting objects (all with proper boxes) makes the
stored objects those of the association list.  Missing: geometries without a vertex. -/
theorem C06_upsert_partial (grow : Nat → Nat) (min max : Int) (hmax : 2 ≤ max) (objs : List (Spatial F))
    (ho : ∀ o ∈ objs, ProperGeom o.Geom) :
    ∀ (s s' : RState F), Reached grow min max s → ((contents s).map (·.ID)).Nodup →
    (∀ o ∈ contents s, ProperGeom o.Geom) → UpsertBySpatialID grow objs s = .ok s' →
    (contents s').Perm (objs.foldl upsertList (contents s)) ∧ ((contents s').map (·.ID)).Nodup ∧
    (∀ o ∈ contents s', ProperGeom o.Geom) := by
  suffices H : ∀ (s s' : RState F), Sound true 0 max.toNat s → ((contents s).map (·.ID)).Nodup →
      (∀ o ∈ contents s, ProperGeom o.Geom) → UpsertBySpatialID grow objs s = .ok s' →
      (contents s').Perm (objs.foldl upsertList (contents s)) ∧ ((contents s').map (·.ID)).Nodup ∧
      (∀ o ∈ contents s', ProperGeom o.Geom) from
    fun s s' hs => H s s' (hs.sound hmax)
  have permfold : ∀ (os : List (Spatial F)) (l l' : List (Spatial F)), l.Perm l' →
      (os.foldl upsertList l).Perm (os.foldl upsertList l') := by
    intro os
    induction os with
    | nil => intro l l' h; exact h
    | cons o os ih =>
      intro l l' h
      exact ih _ _ (List.Perm.cons _ (h.filter _))
  induction objs with
  | nil => intro s s' hs h1 h2 h; cases h; exact ⟨List.Perm.refl _, h1, h2⟩
  | cons o os ih =>
    intro s s' hs h1 h2 h
    rw [UpsertBySpatialID] at h
    cases hd : DeleteBySpatialID grow s o.ID with
    | error e => rw [hd] at h; cases h
    | ok r =>
      obtain ⟨s1, b⟩ := r
      rw [hd] at h
      simp only [bind, Except.bind] at h
      cases hin : Insert grow s1 o with
      | error e => rw [hin] at h; cases h
      | ok s2 =>
        rw [hin] at h
        simp only at h
        obtain ⟨d1, d2, -⟩ := hs.deleteID_same (fun x hx _ => h2 x hx)
          (fun x hx y hy hxi hyi => by
            rw [nodup_same h1 hx hy (hxi.trans hyi.symm)]
            exact ⟨Inside.refl (BoundingBox_num _), Inside.refl (BoundingBox_num _)⟩) hd
        obtain ⟨i1, i2, -⟩ := d1.insert hin
        have hp : (contents s2).Perm (upsertList (contents s) o) := i2.trans (List.Perm.cons _ d2)
        obtain ⟨u1, u2, u3⟩ := ih (fun x hx => ho x (by simp [hx])) s2 s' i1
          (by
            rw [(hp.map _).nodup_iff, upsertList, List.map_cons, List.nodup_cons]
            refine ⟨?_, ?_⟩
            · intro hm
              obtain ⟨x, hx, hxe⟩ := List.mem_map.1 hm
              have := (List.mem_filter.1 hx).2
              simp at this
              exact this hxe
            · exact h1.sublist (List.filter_sublist.map _))
          (by
            intro x hx
            rcases List.mem_cons.1 (hp.mem_iff.1 hx) with rfl | hx
            · exact ho _ (by simp)
            · exact h2 x (List.mem_filter.1 hx).1) h
        exact ⟨u1.trans (permfold os _ _ hp), u2, u3⟩

/-- the association list, spelt out: after upserting, the objects stored are the last ones given for
their ids and the old ones whose id was not given -/
theorem C06_assoc_mem (objs l : List (Spatial F)) (x : Spatial F) :
    x ∈ objs.foldl upsertList l ↔
      (∃ pre post, objs = pre ++ x :: post ∧ ∀ y ∈ post, y.ID ≠ x.ID) ∨ (x ∈ l ∧ ∀ y ∈ objs, y.ID ≠ x.ID) := by
  induction objs generalizing l with
  | nil => simp
  | cons o os ih =>
    rw [List.foldl_cons, ih]
    unfold upsertList
    simp only [List.mem_cons, List.mem_filter, decide_eq_true_eq]
    constructor
    · rintro (⟨pre, post, h1, h2⟩ | ⟨rfl | ⟨h1, h2⟩, h3⟩)
      · exact Or.inl ⟨o :: pre, post, by rw [h1]; rfl, h2⟩
      · exact Or.inl ⟨[], os, rfl, h3⟩
      · refine Or.inr ⟨h1, ?_⟩
        rintro y (rfl | hy)
        · exact fun h => h2 h.symm
        · exact h3 y hy
    · rintro (⟨pre, post, h1, h2⟩ | ⟨h1, h2⟩)
      · cases pre with
        | nil =>
          rw [List.nil_append, List.cons.injEq] at h1
          obtain ⟨rfl, rfl⟩ := h1
          exact Or.inr ⟨Or.inl rfl, h2⟩
        | cons p pre =>
          rw [List.cons_append, List.cons.injEq] at h1
          exact Or.inl ⟨pre, post, h1.2, h2⟩
      · exact Or.inr ⟨Or.inr ⟨h1, fun h => h2 o (Or.inl rfl) h.symm⟩, fun y hy => h2 y (Or.inr hy)⟩

/-! ## C81 -/

/-- **C81.** After any history of calls the tree is balanced, no node has more than `MaxChildren`
entries, its parent links are right and its boxes are exact; with `MinChildren` at least one, no node
below the root is empty. -/
theorem C81_shaped (grow : Nat → Nat) (min max : Int) (hmax : 2 ≤ max) (s : RState F)
    (hs : Reached grow min max s) : Shaped s ∧
    (1 ≤ min → ∀ d n v, NodeAt s (d + 1) n → s.h.view n = some v → v.entries ≠ []) := by
  obtain ⟨⟨K, X, ti⟩, -⟩ := hs.sound hmax
  refine ⟨(shaped_of ti).1, fun hmin d n v hn hv h => ?_⟩
  obtain ⟨⟨K, X, ti⟩, -⟩ := hs.sound1 hmin hmax
  have := (shaped_of ti).2.1 d n v hn hv
  rw [h] at this
  simp at this

/-- **C81.** After any history of calls `GetAllBoundingBoxes` lists the box of each non-root node
once; at each level below the root one of them covers each stored object. -/
theorem C81_all_boxes (grow : Nat → Nat) (min max : Int) (hmax : 2 ≤ max) (s : RState F)
    (hs : Reached grow min max s) :
    ∃ ns : List Nat, ns.Nodup ∧ (∀ n, n ∈ ns ↔ ∃ d, NodeAt s (d + 1) n) ∧
      GetAllBoundingBoxes s = .ok (ns.map (nodeBox s)) ∧
      ∀ o ∈ contents s, ∀ d : Nat, 1 ≤ d → (d : Int) < Depth s →
        ∃ n ∈ ns, NodeAt s d n ∧ Inside (BoundingBox o.Geom) (nodeBox s n) := by
  obtain ⟨⟨K, X, ti⟩, -⟩ := hs.sound hmax
  rw [contents_eq ti]
  exact allBoxes_of ti

/-! ## C17 -/

theorem goEq_total {o : Spatial F} (h : Comparable o) (x : Spatial F) : ∃ b, Spatial.goEq x o = .ok b := by
  obtain ⟨i, pr, g⟩ := o
  obtain ⟨i', pr', g'⟩ := x
  obtain ⟨h1, h2⟩ := h
  unfold Spatial.goEq
  split
  · exact ⟨_, rfl⟩
  · have hp : ∃ b, PropVal.goEq pr' pr = .ok b := by
      cases pr <;> cases pr' <;> first | exact h2.elim | exact ⟨_, rfl⟩
    have hg : ∃ b, Geometry.goEq g' g = .ok b := by
      cases g <;> first | exact h1.elim | (cases g' <;> exact ⟨_, rfl⟩)
    obtain ⟨b, hb⟩ := hp
    simp only [bind, Except.bind, hb]
    cases b with
    | true => exact hg
    | false => exact ⟨_, rfl⟩

theorem goEq_refl {o : Spatial F} (h : Comparable o) : Spatial.goEq o o = .ok true := by
  obtain ⟨i, pr, g⟩ := o
  obtain ⟨h1, h2⟩ := h
  have eqr : ∀ a : F, IsNum a → eq a a = true := fun a ha =>
    (FloatOrd.eq_iff a a).2 ⟨FloatOrd.le_refl a ha, FloatOrd.le_refl a ha⟩
  have hp : PropVal.goEq pr pr = .ok true := by
    cases pr with
    | nil => rfl
    | comparable a x => simp [PropVal.goEq]
    | uncomparable a x => exact h2.elim
  have hg : Geometry.goEq g g = .ok true := by
    cases g <;> first | exact h1.elim | skip
    · simp only at h1; simp [Geometry.goEq, eqr _ h1.1, eqr _ h1.2]
    · simp only at h1; simp [Geometry.goEq, eqr _ h1.1, eqr _ h1.2.1, eqr _ h1.2.2]
    · simp [Geometry.goEq]
    · rfl
  simp [Spatial.goEq, hp, hg, bind, Except.bind]

theorem same_goEq {a b : Spatial F} (hb : Comparable b) (h : SameObject a b) : Spatial.goEq a b = .ok true := by
  obtain ⟨i, pr, g⟩ := a
  obtain ⟨j, qr, k⟩ := b
  obtain ⟨rfl, rfl, h3⟩ : i = j ∧ pr = qr ∧ _ := h
  obtain ⟨h1, h2⟩ := hb
  have hp : PropVal.goEq pr pr = .ok true := by
    cases pr with
    | nil => rfl
    | comparable a x => simp [PropVal.goEq]
    | uncomparable a x => exact h2.elim
  have hg : Geometry.goEq g k = .ok true := by
    cases g <;> cases k <;> first | exact h3.elim | skip
    all_goals simp only at h3
    all_goals simp only [Geometry.goEq, Except.ok.injEq, Bool.and_eq_true, FloatOrd.eq_iff, beq_iff_eq]
    · exact h3
    · exact ⟨⟨h3.1, h3.2.1⟩, h3.2.2⟩
    · exact h3
  simp [Spatial.goEq, hp, hg, bind, Except.bind]

/-- **C17**, partial: `Delete` of a stored object of a comparable type removes exactly one object, and
that object is the same as the argument, whenever the tree code itself does not panic (C11).
Missing: slice types, for which it is false. -/
theorem C17_delete_partial (grow : Nat → Nat) (min max : Int) (hmax : 2 ≤ max) (s : RState F)
    (hs : Reached grow min max s) (obj : Spatial F) (hc : Comparable obj) (hin : obj ∈ contents s)
    (s' : RState F) (b : Bool) (h : Delete grow s obj = .ok (s', b)) :
    b = true ∧ ∃ o, SameObject o obj ∧ (contents s).Perm (o :: contents s') := by
  obtain ⟨h1, -, h3⟩ := C04_delete grow min max hmax s s' hs obj Spatial.goEq b h
  have hb := h3 ⟨obj, hin, goEq_refl hc, Inside.refl (BoundingBox_num _)⟩
  obtain ⟨o, ho, hp⟩ := h1 hb
  exact ⟨hb, o, goEq_same ho, hp⟩

theorem stepMin_mono {m x y : F} (hm : IsNum m) (h : Le x y) :
    Le (if gt m x then x else m) (if gt m y then y else m) := by
  have hx := h.left
  have hy := h.right
  by_cases h1 : gt m x = true
  · rw [if_pos h1]
    split
    · exact h
    · exact Le_of_lt h1
  · rw [if_neg h1]
    have h2 : Le m x := (not_lt_iff hx hm).1 (Bool.eq_false_iff.2 h1)
    split
    · exact h2.trans h
    · exact FloatOrd.le_refl m hm

theorem stepMax_mono {m x y : F} (hm : IsNum m) (h : Le x y) :
    Le (if lt m x then x else m) (if lt m y then y else m) := by
  have hx := h.left
  have hy := h.right
  by_cases h1 : lt m y = true
  · rw [if_pos h1]
    split
    · exact h
    · exact Le_of_lt h1
  · rw [if_neg h1]
    have h2 : Le y m := (not_lt_iff hm hy).1 (Bool.eq_false_iff.2 h1)
    split
    · exact h.trans h2
    · exact FloatOrd.le_refl m hm

/-- **C04** for `Delete`: it reports success exactly when it removed one object that is the same as
its argument; otherwise the tree is untouched, and if the argument can be compared then no stored
object is the same as it. -/
theorem C04_delete_same (grow : Nat → Nat) (min max : Int) (hmax : 2 ≤ max) (s s' : RState F)
    (hs : Reached grow min max s) (obj : Spatial F) (b : Bool) (h : Delete grow s obj = .ok (s', b)) :
    (b = true → ∃ o, SameObject o obj ∧ (contents s).Perm (o :: contents s')) ∧
    (b = false → s' = s ∧ (Comparable obj → (∀ a g, obj.Geom ≠ .ptr a g) →
      ∀ o ∈ contents s, ¬ SameObject o obj)) := by
  obtain ⟨h1, h2, h3⟩ := C04_delete grow min max hmax s s' hs obj Spatial.goEq b h
  refine ⟨fun hb => ?_, fun hb => ⟨h2 hb, fun hc hptr o ho hsame => ?_⟩⟩
  · obtain ⟨o, ho, hp⟩ := h1 hb
    exact ⟨o, goEq_same ho, hp⟩
  · refine Bool.false_ne_true (hb.symm.trans (h3 ⟨o, ho, same_goEq hc hsame, ?_⟩))
    obtain ⟨i, pr, g⟩ := o
    obtain ⟨j, qr, k⟩ := obj
    obtain ⟨-, -, hg⟩ := hsame
    cases g <;> cases k <;> first | exact hg.elim | skip
    all_goals simp only at hg
    · have hs := start_num (F := F)
      exact ⟨stepMin_mono hs.minX hg.1.1, stepMin_mono hs.minY hg.2.1, stepMax_mono hs.maxX hg.1.2, stepMax_mono hs.maxY hg.2.2⟩
    · exact Inside.refl (BoundingBox_num _)
    · exact absurd rfl (hptr _ _)
    · exact Inside.refl (BoundingBox_num _)

end

/-! ## C11 -/

theorem TInv.atLeast {q : Bool} {lo hi r r' : Nat} {s : RState F} {K : Nat} {X : Item F (K + 1)}
    (ti : TInv q lo hi r s X) (hr : r' ≤ 2) (h : RootAtLeast r' s) : TInv q lo hi r' s X := by
  refine ⟨ti.inv, ti.root, ti.rep, ti.nd, ti.good, ti.fill, ⟨ti.cnt.1, ?_⟩, ti.height, ti.lo, hr⟩
  intro hK
  obtain ⟨⟨par, hv⟩, -⟩ := id ti.rep
  rw [ti.root] at hv
  have := h _ hv (by simpa using hK)
  simpa using this

section
variable {V : Type} [Field V] [LinearOrder V] [IsStrictOrderedRing V] [FloatVal F V]
include V

/-- **C11**, partial: on any tree reached by any calls whose root is a leaf or has a child, `Insert`
does not panic.  Missing: an inner root without children, on which it does. -/
theorem C11_insert_partial (grow : Nat → Nat) (min max : Int) (hmin : 1 ≤ min) (hmax : 2 ≤ max) (s : RState F)
    (hs : Reached grow min max s) (hc : ∀ o ∈ contents s, CoordsOk o.Geom) (hr : RootAtLeast 1 s)
    (o : Spatial F) (ho : CoordsOk o.Geom) : ∃ s', Insert grow s o = .ok s' := by
  obtain ⟨⟨K, X, ti⟩, -⟩ := hs.sound1 hmin hmax
  rw [contents_eq ti] at hc
  exact Insert_total (le_refl 1) (le_refl 1) grow (ti.atLeast (by omega) hr) hc o ho

/-- **C11**, partial: on any tree reached by any calls whose root is a leaf or has two children, a
deletion does not panic, and then the root is a leaf or has a child.  Missing: trees whose root has a
single child, which deletions can leave. -/
theorem C11_delete_partial (grow : Nat → Nat) (min max : Int) (hmin : 1 ≤ min) (hmax : 2 ≤ max) (s : RState F)
    (hs : Reached grow min max s) (hc : ∀ o ∈ contents s, CoordsOk o.Geom) (hr : RootAtLeast 2 s)
    (obj : Spatial F) (cmp : Cond2 F) (hcmp : ∀ o ∈ contents s, ∃ b, cmp o obj = .ok b) :
    ∃ s' b, DeleteWithComparator grow s obj cmp = .ok (s', b) ∧ RootAtLeast 1 s' := by
  obtain ⟨⟨K, X, ti⟩, -, -, hl⟩ := hs.sound1 hmin hmax
  rw [contents_eq ti] at hc hcmp
  have ti2 := ti.atLeast (le_refl 2) hr
  have hm : 1 ≤ s.t.MinChildren := by rcases hl with h | h <;> omega
  obtain ⟨s', b, h⟩ := Delete_total grow ti2 hm hc obj cmp hcmp
  refine ⟨s', b, h, ?_⟩
  obtain ⟨h1, h2⟩ := Delete_spec (r' := 1) (le_refl 1) (Or.inl (le_refl 2)) (le_refl 1) grow ti2
    (Or.inl hm) obj cmp h
  have conv : ∀ {K' : Nat} {X' : Item F (K' + 1)} {s' : RState F}, TInv true 1 max.toNat 1 s' X' → RootAtLeast 1 s' := by
    intro K' X' s' t v hv hl
    obtain ⟨⟨par, hv'⟩, -⟩ := id t.rep
    rw [t.root, hv] at hv'
    cases hv'
    have := t.cnt.2 (by simpa using hl)
    simpa using this
  cases b with
  | false =>
    obtain ⟨rfl, -⟩ := h1 rfl
    exact conv (ti2.weaken (by omega))
  | true =>
    obtain ⟨K', X', o, t', -⟩ := h2 rfl
    exact conv t'

/-- **C11**, partial: a history of insertions and deletions does not panic as long as no deletion is
called on a tree of more than two levels.  Missing: deletions from deeper trees, after which a panic
is possible. -/
theorem C11_history_partial (grow : Nat → Nat) (min max : Int) (hmin : 1 ≤ min) (hmax : 2 ≤ max)
    (ops : List (Op F)) (hops : ∀ op ∈ ops, op.tame)
    (hd : ¬ DeepDelete grow ops (NewEmptyTree min max : RState F)) :
    ∃ s bs, runAll grow ops (NewEmptyTree min max) = .ok (s, bs) := by
  have key : ∀ (ops : List (Op F)), (∀ op ∈ ops, op.tame) → ∀ (s : RState F) (K : Nat) (X : Item F (K + 1)),
      TInv true 1 max.toNat 2 s X → 1 ≤ s.t.MinChildren → (∀ o ∈ X.objs, CoordsOk o.Geom) →
      ¬ DeepDelete grow ops s → ∃ s' bs, runAll grow ops s = .ok (s', bs) := by
    intro ops
    induction ops with
    | nil => intro _ s K X _ _ _ _; exact ⟨s, [], rfl⟩
    | cons op ops ih =>
      intro hops s K X ti hm hX hd
      have htame := hops op (by simp)
      have hops' : ∀ op ∈ ops, op.tame := fun op h => hops op (by simp [h])
      -- one call
      have one : ∃ s1 b, op.run grow s = .ok (s1, b) ∧ ∃ K1, ∃ X1 : Item F (K1 + 1),
          TInv true 1 max.toNat 2 s1 X1 ∧ s1.t.MinChildren = s.t.MinChildren ∧
          ∀ o ∈ X1.objs, CoordsOk o.Geom := by
        have del : ∀ obj cmp, (∀ o ∈ X.objs, ∃ b, cmp o obj = .ok b) → Depth s ≤ 2 →
            ∃ s1 b, DeleteWithComparator grow s obj cmp = .ok (s1, b) ∧ ∃ K1, ∃ X1 : Item F (K1 + 1),
              TInv true 1 max.toNat 2 s1 X1 ∧ s1.t.MinChildren = s.t.MinChildren ∧
              ∀ o ∈ X1.objs, CoordsOk o.Geom := by
          intro obj cmp hcmp hdep
          have hK1 : K ≤ 1 := by
            have h0 := ti.height
            unfold Depth at hdep
            omega
          obtain ⟨s1, b, h⟩ := Delete_total grow ti hm hX obj cmp hcmp
          refine ⟨s1, b, h, ?_⟩
          obtain ⟨h1, h2⟩ := Delete_spec (r' := 1) (le_refl 1) (Or.inl (le_refl 2)) (le_refl 1) grow ti
            (Or.inl hm) obj cmp h
          cases b with
          | false =>
            obtain ⟨rfl, -⟩ := h1 rfl
            exact ⟨K, X, ti, rfl, hX⟩
          | true =>
            obtain ⟨K1, X1, o, -, -, p1, -, m1, t1⟩ := h2 rfl
            exact ⟨K1, X1, t1 hK1 rfl, m1, fun o ho => hX o (p1.mem_iff.2 (List.mem_cons_of_mem _ ho))⟩
        cases op with
        | insert o =>
          obtain ⟨s1, h1⟩ := Insert_total (le_refl 1) (by omega) grow ti hX o htame
          obtain ⟨K1, X1, t1, p1, -, m1⟩ := Insert_spec grow ti o h1
          refine ⟨s1, true, by simp [Op.run, h1, Except.map], K1, X1, t1, m1, ?_⟩
          intro x hx
          rcases List.mem_cons.1 (p1.mem_iff.1 hx) with rfl | hx
          · exact htame
          · exact hX x hx
        | delete obj =>
          refine del obj _ (fun o _ => goEq_total htame o) ?_
          by_contra h0
          exact hd (Or.inl ⟨by simp, by omega⟩)
        | deleteWith obj cmp =>
          refine del obj cmp (fun o _ => htame o) ?_
          by_contra h0
          exact hd (Or.inl ⟨by simp, by omega⟩)
        | deleteID id => exact htame.elim
        | upsert objs => exact htame.elim
      obtain ⟨s1, b, h1, K1, X1, t1, m1, c1⟩ := one
      obtain ⟨s2, bs, h2⟩ := ih hops' s1 K1 X1 t1 (by rw [m1]; exact hm) c1
        (fun h0 => hd (Or.inr ⟨s1, b, h1, h0⟩))
      exact ⟨s2, b :: bs, by rw [runAll, h1]; simp only [bind, Except.bind, h2]⟩
  exact key ops hops _ 0 _ (TInv.empty (min := min) (max := max) (le_refl 2)
    ⟨by omega, by simp [NewEmptyTree]; omega, Or.inl (le_refl 1)⟩) hmin (by simp [objs_eq]) hd

end

/-! ## counterexamples, on binary64 -/

/-- an object with an empty line -/
def emptyLine : Spatial Float := ⟨"g", .nil, .lineString []⟩

theorem ok_of_map {α β : Type} {x : Go α} {f : α → β} {c : β} (h : x.map f = .ok c) :
    ∃ a, x = .ok a ∧ f a = c := by
  cases x with
  | error e => cases h
  | ok a => exact ⟨a, rfl, by injection h⟩

/-- **C15** is false: a stored object with an empty geometry is not found by its id. -/
theorem C15_searchID_false : ∃ s : RState Float, Reached id 1 3 s ∧ (∃ o ∈ contents s, o.ID = "g") ∧
    SearchBySpatialID s "g" = .ok [] := by
  have h : (runAll id [.insert ⟨"a", .nil, .point ⟨1, 1⟩⟩, .insert emptyLine] (NewEmptyTree 1 3)).map (fun r =>
      ((contents r.1).map (·.ID), (SearchBySpatialID r.1 "g").map (fun l => l.map (·.ID)))) =
      .ok (["a", "g"], .ok []) := by decide +kernel
  obtain ⟨⟨s, bs⟩, h1, h2⟩ := ok_of_map h
  simp only [Prod.mk.injEq] at h2
  refine ⟨s, ⟨_, bs, h1⟩, ?_, ?_⟩
  · have : "g" ∈ (contents s).map (·.ID) := by rw [h2.1]; simp
    exact List.mem_map.1 this
  · obtain ⟨l, h3, h4⟩ := ok_of_map h2.2
    rw [h3, List.map_eq_nil_iff.1 h4]

/-- **C05** is false: with two objects of the same id at different places, one can survive. -/
theorem C05_deleteID_false : ∃ s s' : RState Float, Reached id 1 3 s ∧
    DeleteBySpatialID id s "d" = .ok (s', true) ∧ ∃ o ∈ contents s', o.ID = "d" := by
  have h : (runAll id [.insert ⟨"a", .nil, .point ⟨1, 5⟩⟩, .insert ⟨"b", .nil, .point ⟨5, 4⟩⟩,
      .insert ⟨"d", .nil, .point ⟨5, 0⟩⟩, .insert ⟨"d", .nil, .point ⟨7, 1⟩⟩] (NewEmptyTree 1 3 : RState Float)).map (fun r =>
      (DeleteBySpatialID id r.1 "d").map (fun r => (r.2, (contents r.1).map (·.ID)))) =
      .ok (.ok (true, ["a", "b", "d"])) := by decide +kernel
  obtain ⟨⟨s, bs⟩, h1, h2⟩ := ok_of_map h
  obtain ⟨⟨s', b⟩, h3, h4⟩ := ok_of_map h2
  simp only [Prod.mk.injEq] at h4
  refine ⟨s, s', ⟨_, bs, h1⟩, by rw [h3, h4.1], ?_⟩
  have : "d" ∈ (contents s').map (·.ID) := by rw [h4.2]; simp
  exact List.mem_map.1 this

/-- on the same tree, the second call takes out the object that survived the first -/
example : (runAll id ([.insert ⟨"a", .nil, .point ⟨1, 5⟩⟩, .insert ⟨"b", .nil, .point ⟨5, 4⟩⟩,
      .insert ⟨"d", .nil, .point ⟨5, 0⟩⟩, .insert ⟨"d", .nil, .point ⟨7, 1⟩⟩] ++ List.replicate 2 (.deleteID "d"))
      (NewEmptyTree 1 3 : RState Float)).map (fun r => (contents r.1).map (·.ID)) = .ok ["a", "b"] := by decide +kernel

/-- **C06** is false: upserting an object with an empty geometry twice stores it twice. -/
theorem C06_upsert_false : ∃ s : RState Float, UpsertBySpatialID id [emptyLine, emptyLine] (NewEmptyTree 1 3) = .ok s ∧
    (contents s).map (·.ID) = ["g", "g"] := by
  exact ok_of_map (by decide +kernel : (UpsertBySpatialID id [emptyLine, emptyLine] (NewEmptyTree 1 3)).map
    (fun s => (contents s).map (·.ID)) = .ok ["g", "g"])

/-- **C17** is false: `Delete` of a stored line panics. -/
theorem C17_delete_false : ∃ (s : RState Float) (o : Spatial Float), Reached id 1 3 s ∧ contents s = [o] ∧
    Delete id s o = .error .uncomparable := by
  have h : (Insert id (NewEmptyTree 1 3) (⟨"a", .nil, .lineString [⟨0, 0⟩, ⟨1, 1⟩]⟩ : Spatial Float)).map
      (fun s => ((contents s).map (·.ID), (Delete id s ⟨"a", .nil, .lineString [⟨0, 0⟩, ⟨1, 1⟩]⟩).map (fun r => r.2))) =
      .ok (["a"], .error .uncomparable) := by decide +kernel
  obtain ⟨s, h1, h2⟩ := ok_of_map h
  simp only [Prod.mk.injEq] at h2
  have hr : Reached id 1 3 s := ⟨[.insert ⟨"a", .nil, .lineString [⟨0, 0⟩, ⟨1, 1⟩]⟩], [true], by
    simp only [runAll, Op.run, h1, Except.map, bind, Except.bind]⟩
  refine ⟨s, ⟨"a", .nil, .lineString [⟨0, 0⟩, ⟨1, 1⟩]⟩, hr, ?_, ?_⟩
  rotate_left
  · cases hd : Delete id s ⟨"a", .nil, .lineString [⟨0, 0⟩, ⟨1, 1⟩]⟩ with
    | ok r => rw [hd] at h2; cases h2.2
    | error e =>
      rw [hd] at h2
      have := h2.2
      simp only [Except.map, Except.error.injEq] at this
      rw [this]
  · have hst := (((C02_step id 1 3 (by omega)).2 (NewEmptyTree 1 3) s
      (.insert ⟨"a", .nil, .lineString [⟨0, 0⟩, ⟨1, 1⟩]⟩) true ⟨[], [], rfl⟩
      (by simp only [Op.run, h1, Except.map])).2 : List.Perm _ _)
    rw [(C02_step id 1 3 (by omega)).1] at hst
    exact List.perm_singleton.1 hst

/-- eight points on a line -/
def eightPoints : List (Spatial Float) :=
  [⟨"a", .nil, .point ⟨6, 0⟩⟩, ⟨"b", .nil, .point ⟨5, 0⟩⟩, ⟨"c", .nil, .point ⟨2, 0⟩⟩, ⟨"d", .nil, .point ⟨0, 0⟩⟩,
   ⟨"e", .nil, .point ⟨2, 0⟩⟩, ⟨"f", .nil, .point ⟨9, 0⟩⟩, ⟨"g", .nil, .point ⟨3, 0⟩⟩, ⟨"h", .nil, .point ⟨9, 0⟩⟩]

/-- insert eight points, delete them in the same order, insert the first again -/
def emptyingOps : List (Op Float) :=
  eightPoints.map .insert ++ eightPoints.map .delete ++ (eightPoints.take 1).map .insert

/-- **C11** is false: after inserting eight points and deleting them all, the next insertion panics
(the sixteen calls before it complete). -/
theorem C11_history_false : ParamsOk 1 3 ∧ (∀ op ∈ emptyingOps, op.tame) ∧
    (∃ s bs, runAll id (emptyingOps.take 16) (NewEmptyTree 1 3) = .ok (s, bs) ∧ Size s = 0) ∧
    ∀ s bs, runAll id emptyingOps (NewEmptyTree 1 3) ≠ .ok (s, bs) := by
  refine ⟨⟨by omega, by omega⟩, ?_, ?_, ?_⟩
  · have hc : ∀ o ∈ eightPoints, CoordsOk o.Geom ∧ Comparable o := by
      have : ∀ o ∈ eightPoints, (∃ p, o.Geom = .point p ∧
          ((le (-lit (2 ^ 500)) p.X && le p.X (lit (2 ^ 500))) &&
           (le (-lit (2 ^ 500)) p.Y && le p.Y (lit (2 ^ 500)))) = true) ∧ o.Properties = .nil := by
        intro o ho
        simp only [eightPoints, List.mem_cons, List.not_mem_nil, or_false] at ho
        rcases ho with rfl | rfl | rfl | rfl | rfl | rfl | rfl | rfl <;>
          exact ⟨⟨_, rfl, by decide +kernel⟩, rfl⟩
      intro o ho
      obtain ⟨⟨p, hp, hb⟩, hpr⟩ := this o ho
      simp only [Bool.and_eq_true] at hb
      have hx : Bounded500 p.X := hb.1
      have hy : Bounded500 p.Y := hb.2
      refine ⟨?_, ?_⟩
      · intro q hq
        rw [hp] at hq
        rw [List.mem_singleton.1 hq]
        exact ⟨fun _ => hx, fun _ => hy⟩
      · unfold Comparable
        rw [hp, hpr]
        exact ⟨⟨hx.1.right, hy.1.right⟩, trivial⟩
    intro op hop
    simp only [emptyingOps, List.mem_append, List.mem_map] at hop
    rcases hop with (⟨o, ho, rfl⟩ | ⟨o, ho, rfl⟩) | ⟨o, ho, rfl⟩
    · exact (hc o ho).1
    · exact (hc o ho).2
    · exact (hc o (List.mem_of_mem_take ho)).1
  · have h : (runAll id (emptyingOps.take 16) (NewEmptyTree 1 3)).map (fun r => Size r.1) = .ok 0 := by
      decide +kernel
    obtain ⟨⟨s, bs⟩, h1, h2⟩ := ok_of_map h
    exact ⟨s, bs, h1, h2⟩
  · have h : ((runAll id emptyingOps (NewEmptyTree 1 3)).map (fun r => r.2)).toBool = false := by
      decide +kernel
    intro s bs h1
    rw [h1] at h
    cases h

end GoGeo
