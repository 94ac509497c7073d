import Verif.Rtree.RandomId
import Verif.Props.Bulk
import Verif.Props.RtreeInsert
import Verif.Props.RtreeDelete

/-!
# C95: ids from the clock
-/

namespace GoGeo
open GoFloat Spec
variable {F : Type} [GoFloat F]

/-! ### the texts -/

theorem natText_inj {a b : Nat} (h : (toString a).toList = (toString b).toList) : a = b := by
  have h' : Nat.toDigits 10 a = Nat.toDigits 10 b := by simpa using h
  rw [← Nat.ofDigitChars_ten_toDigits (n := a), h', Nat.ofDigitChars_ten_toDigits]

theorem intText_toList (n : Int) : (toString n).toList =
    if n < 0 then '-' :: Nat.toDigits 10 n.natAbs else Nat.toDigits 10 n.natAbs := by
  cases n with
  | ofNat k => 
    rw [if_neg (by simp)]
    show (Nat.repr k).toList = _
    simp
  | negSucc k =>
    rw [if_pos (Int.negSucc_lt_zero k)]
    show ("-" ++ Nat.repr (k + 1)).toList = _
    simp

theorem digit_ne {n : Nat} {c : Char} (h : c ∈ Nat.toDigits 10 n) : c ≠ '_' ∧ c ≠ '-' := by
  have := Nat.isDigit_of_mem_toDigits (by norm_num) (by norm_num) h
  constructor <;> rintro rfl <;> revert this <;> decide

theorem intText_no (n : Int) : '_' ∉ (toString n).toList := by
  rw [intText_toList]
  intro h
  split_ifs at h
  · rcases List.mem_cons.1 h with h | h
    · revert h; decide
    · exact (digit_ne h).1 rfl
  · exact (digit_ne h).1 rfl

theorem intText_inj {a b : Int} (h : (toString a).toList = (toString b).toList) : a = b := by
  rw [intText_toList, intText_toList] at h
  have key : ∀ m n : Nat, Nat.toDigits 10 m = Nat.toDigits 10 n → m = n := fun m n e => by
    rw [← Nat.ofDigitChars_ten_toDigits (n := m), e, Nat.ofDigitChars_ten_toDigits]
  have hn : ∀ m n : Nat, '-' :: Nat.toDigits 10 m ≠ Nat.toDigits 10 n := fun m n e =>
    (digit_ne (n := n) (c := '-') (by rw [← e]; simp)).2 rfl
  split_ifs at h with h1 h2 h2
  · have := key _ _ (List.cons.inj h).2; omega
  · exact absurd h (hn _ _)
  · exact absurd h.symm (hn _ _)
  · have := key _ _ h; omega

/-- the part before the first underscore is determined -/
theorem split_us {a b u v : List Char} (ha : '_' ∉ a) (hb : '_' ∉ b) (h : a ++ '_' :: u = b ++ '_' :: v) :
    a = b ∧ u = v := by
  induction a generalizing b with
  | nil =>
    cases b with
    | nil => exact ⟨rfl, (List.cons.inj h).2⟩
    | cons c b => exact absurd (List.cons.inj h).1 (fun e => hb (by rw [e]; simp))
  | cons c a ih =>
    cases b with
    | nil => exact absurd (List.cons.inj h).1 (fun e => ha (by rw [← e]; simp))
    | cons d b =>
      obtain ⟨e, h⟩ := List.cons.inj h
      obtain ⟨h1, h2⟩ := ih (fun hc => ha (List.mem_cons_of_mem _ hc)) (fun hc => hb (List.mem_cons_of_mem _ hc)) h
      exact ⟨by rw [e, h1], h2⟩

theorem newId_toList (r : Int) (i : Nat) :
    (newId r i).toList = (toString r).toList ++ '_' :: '0' :: '_' :: (toString i).toList := by
  unfold newId
  rw [String.toList_append, String.toList_append, List.append_assoc]; rfl

theorem insertId_toList (r : Int) (i : Nat) :
    (insertId r i).toList = (toString r).toList ++ '_' :: '1' :: '_' :: (toString i).toList := by
  unfold insertId
  rw [String.toList_append, String.toList_append, List.append_assoc]; rfl

theorem newId_inj {r r' : Int} {i i' : Nat} : newId r i = newId r' i' ↔ r = r' ∧ i = i' := by
  refine ⟨fun h => ?_, fun ⟨h1, h2⟩ => by rw [h1, h2]⟩
  have h := congrArg String.toList h
  rw [newId_toList, newId_toList] at h
  obtain ⟨h1, h2⟩ := split_us (intText_no _) (intText_no _) h
  exact ⟨intText_inj h1, natText_inj (by simpa using h2)⟩

theorem insertId_inj {r r' : Int} {i : Nat} : insertId r i = insertId r' i ↔ r = r' := by
  refine ⟨fun h => ?_, fun h1 => by rw [h1]⟩
  have h := congrArg String.toList h
  rw [insertId_toList, insertId_toList] at h
  exact intText_inj (split_us (intText_no _) (intText_no _) h).1

theorem newId_ne_insertId (r r' : Int) (i c : Nat) : newId r i ≠ insertId r' c := by
  intro h
  have h := congrArg String.toList h
  rw [newId_toList, insertId_toList] at h
  have := (split_us (intText_no _) (intText_no _) h).2
  simp at this

/-! ### the tree -/

theorem randomSpatials_geoms (r : Int) (i : Nat) (gs : List (Geometry F)) : (randomSpatials r i gs).map (·.Geom) = gs := by
  induction gs generalizing i with
  | nil => rfl
  | cons g gs ih => simp [randomSpatials, ih]

theorem randomSpatials_length (r : Int) (i : Nat) (gs : List (Geometry F)) : (randomSpatials r i gs).length = gs.length := by
  rw [← List.length_map (f := (·.Geom)), randomSpatials_geoms]

theorem randomSpatials_mem {r : Int} {i : Nat} {gs : List (Geometry F)} {o : Spatial F} (h : o ∈ randomSpatials r i gs) :
    o.Properties = .nil ∧ ∃ j, i ≤ j ∧ o.ID = newId r j := by
  induction gs generalizing i with
  | nil => cases h
  | cons g gs ih =>
    rcases List.mem_cons.1 h with rfl | h
    · exact ⟨rfl, i, le_refl _, rfl⟩
    · obtain ⟨h1, j, h2, h3⟩ := ih h
      exact ⟨h1, j, by omega, h3⟩

theorem randomSpatials_nodup (r : Int) (i : Nat) (gs : List (Geometry F)) : ((randomSpatials r i gs).map (·.ID)).Nodup := by
  induction gs generalizing i with
  | nil => exact List.nodup_nil
  | cons g gs ih =>
    rw [randomSpatials, List.map_cons, List.nodup_cons]
    refine ⟨fun h => ?_, ih _⟩
    obtain ⟨o, h1, h2⟩ := List.mem_map.1 h
    obtain ⟨-, j, h3, h4⟩ := randomSpatials_mem h1
    rw [h4] at h2
    have := (newId_inj.1 h2).2
    omega


theorem NewRandomIDTree_eq (cfg : OmtCfg) (srt : GoSort) (grow : Nat → Nat) (now : Int) (gs : List (Geometry F)) :
    NewRandomIDTree cfg srt grow now gs = NewTree cfg srt grow (randomSpatials now 0 gs) := by
  unfold NewRandomIDTree NewTree
  rw [randomSpatials_length]

theorem randomSpatials_filter (q : Box F) (r : Int) (i : Nat) (gs : List (Geometry F)) :
    ((randomSpatials r i gs).filter (Meets q)).map (·.Geom) = gs.filter fun g => (BoundingBox g).Intersect q := by
  induction gs generalizing i with
  | nil => rfl
  | cons g gs ih =>
    rw [randomSpatials, List.filter_cons, List.filter_cons]
    show List.map _ (if (BoundingBox g).Intersect q = true then _ else _) = _
    split_ifs
    · rw [List.map_cons, ih]
    · exact ih _

/-- `InsertWithRandomId` of each geometry at its time -/
def Spec.insertRandoms (code : Nat) (grow : Nat → Nat) (s : RState F) (calls : List (Int × Geometry F)) : Go (RState F) :=
  calls.foldlM (fun s c => InsertWithRandomId code grow s c.1 c.2) s

/-- the objects `InsertWithRandomId` stores -/
def stamped (code : Nat) (c : Int × Geometry F) : Spatial F := ⟨insertId c.1 code, .nil, c.2⟩

theorem insertRandoms_eq (code : Nat) (grow : Nat → Nat) (s : RState F) (calls : List (Int × Geometry F)) :
    Spec.insertRandoms code grow s calls = Spec.insertAll grow s (calls.map (stamped code)) := by
  unfold Spec.insertRandoms Spec.insertAll
  rw [List.foldlM_map]
  rfl

theorem insert_contents [FloatOrd F] {grow : Nat → Nat} {min max : Int} (hmax : 2 ≤ max) {objs : List (Spatial F)} {s : RState F}
    (hs : Spec.insertAll grow (NewEmptyTree min max) objs = .ok s) : (contents s).Perm objs ∧ Size s = objs.length := by
  obtain ⟨K, X, ti, hp, hsz, -⟩ := insertAll_spec (lo := 1) (hi := max.toNat) (r := 2) grow objs
    (TInv.empty (min := min) (max := max) (le_refl 2)
      ⟨by omega, by simp [NewEmptyTree]; omega, Or.inl (le_refl 1)⟩) hs
  refine ⟨?_, ?_⟩
  · rw [contents_eq ti]; simpa [objs_eq] using hp
  · show s.t.size = _
    rw [hsz]
    show (0 : Int) + _ = _
    omega

section
variable {K : Type} [Field K] [LinearOrder K] [IsStrictOrderedRing K] [FloatVal F K]
include K

/-- **C95 (NewRandomIDTree).** Every geometry is stored, each under an id of its own, whatever the clock
says, and a window search returns exactly the geometries whose box meets the window. -/
theorem C95_new (cfg : OmtCfg) (srt : GoSort) (hsrt : SortOk srt) (grow : Nat → Nat) (now : Int) (gs : List (Geometry F))
    (hc : ∀ g ∈ gs, CoordsOk g) (hh : 10 ≤ gs.length → cfg.height gs.length (gs.length / 2) = 2) :
    ∃ s, NewRandomIDTree cfg srt grow now gs = .ok s ∧ Size s = gs.length ∧
      ((contents s).map (·.ID)).Nodup ∧ ((contents s).map (·.Geom)).Perm gs ∧
      ∀ q, ∃ res, SearchIntersect s (some q) = .ok res ∧
        (res.map (·.Geom)).Perm (gs.filter fun g => (BoundingBox g).Intersect q) := by
  have hl := randomSpatials_length now 0 gs
  have key : ∃ s, NewTree cfg srt grow (randomSpatials now 0 gs) = .ok s ∧ (contents s).Perm (randomSpatials now 0 gs) ∧
      Size s = gs.length ∧
      ∀ q, ∃ res, SearchIntersect s (some q) = .ok res ∧ res.Perm ((randomSpatials now 0 gs).filter (Meets q)) := by
    by_cases h10 : 10 ≤ gs.length
    · obtain ⟨s, h1, h2, h3, -, -, h4⟩ := C12_newTree cfg srt hsrt grow (randomSpatials now 0 gs) (by rw [hl]; exact h10)
        (by rw [hl]; exact hh h10)
      exact ⟨s, h1, h2, by rw [h3, hl], h4⟩
    · obtain ⟨s, h1, h2⟩ := C01_search_exact grow 2 10 (by norm_num) (randomSpatials now 0 gs) (fun o ho =>
        hc o.Geom (by rw [← randomSpatials_geoms now 0 gs]; exact List.mem_map_of_mem ho))
      obtain ⟨h3, h4⟩ := insert_contents (by norm_num) h1
      refine ⟨s, ?_, h3, by rw [h4, hl], h2⟩
      unfold NewTree NewMinMaxTree
      rw [if_pos (by omega), if_pos (by omega)]
      exact h1
  obtain ⟨s, h1, h2, h3, h4⟩ := key
  refine ⟨s, by rw [NewRandomIDTree_eq]; exact h1, h3, ?_, ?_, fun q => ?_⟩
  · exact (h2.map _).nodup_iff.2 (randomSpatials_nodup _ _ _)
  · have := h2.map (·.Geom)
    rwa [randomSpatials_geoms] at this
  · obtain ⟨res, h5, h6⟩ := h4 q
    refine ⟨res, h5, ?_⟩
    have := h6.map (·.Geom)
    rwa [randomSpatials_filter] at this

/-- **C95 (InsertWithRandomId)**, as far as it is true.  In a tree of fewer than ten geometries to which
further ones are added one by one, every geometry is stored; the ids are pairwise different exactly when
no two of the calls read the same time from the clock.
Missing from the full statement: equal clock readings, where it is false (`C95_same_time_false`), and trees
built from ten geometries or more, where already `Insert` can lose objects (`C13_insert_after_bulk_false`). -/
theorem C95_insert_partial (cfg : OmtCfg) (srt : GoSort) (grow : Nat → Nat) (code : Nat) (now : Int)
    (gs : List (Geometry F)) (hn : gs.length < 10) (calls : List (Int × Geometry F))
    (hc : ∀ g ∈ gs, CoordsOk g) (hc' : ∀ c ∈ calls, CoordsOk c.2) :
    ∃ s s', NewRandomIDTree cfg srt grow now gs = .ok s ∧ insertRandoms code grow s calls = .ok s' ∧
      Size s' = gs.length + calls.length ∧ ((contents s').map (·.Geom)).Perm (gs ++ calls.map (·.2)) ∧
      (((contents s').map (·.ID)).Nodup ↔ (calls.map (·.1)).Nodup) := by
  have hl := randomSpatials_length now 0 gs
  obtain ⟨s', h1⟩ := C10_insert_total grow 2 10 (by norm_num) (randomSpatials now 0 gs ++ calls.map (stamped code)) (fun o ho => by
    rcases List.mem_append.1 ho with ho | ho
    · exact hc o.Geom (by rw [← randomSpatials_geoms now 0 gs]; exact List.mem_map_of_mem ho)
    · obtain ⟨c, hcm, rfl⟩ := List.mem_map.1 ho
      exact hc' c hcm)
  obtain ⟨h2, h3⟩ := insert_contents (by norm_num) h1
  have h4 := h1
  unfold insertAll at h4
  rw [List.foldlM_append] at h4
  cases hs : (randomSpatials now 0 gs).foldlM (fun s o => Insert grow s o) (NewEmptyTree 2 10) with
  | error e => rw [hs] at h4; cases h4
  | ok s =>
    rw [hs] at h4
    refine ⟨s, s', ?_, ?_, ?_, ?_, ?_⟩
    · rw [NewRandomIDTree_eq]
      unfold NewTree NewMinMaxTree
      rw [if_pos (by omega), if_pos (by omega)]
      exact hs
    · rw [insertRandoms_eq]; exact h4
    · rw [h3, List.length_append, hl, List.length_map]; push_cast; rfl
    · have := h2.map (·.Geom)
      rw [List.map_append, randomSpatials_geoms, List.map_map] at this
      exact this
    · rw [(h2.map (·.ID)).nodup_iff, List.map_append, List.nodup_append, List.map_map]
      have e : ((fun o : Spatial F => o.ID) ∘ stamped code) = (fun t => insertId t code) ∘ (fun c : Int × Geometry F => c.1) := rfl
      rw [e, ← List.map_map, List.nodup_map_iff (fun a b h => insertId_inj.1 h)]
      refine ⟨fun h => h.2.1, fun h => ⟨randomSpatials_nodup _ _ _, h, fun a ha b hb hab => ?_⟩⟩
      obtain ⟨o, ho, rfl⟩ := List.mem_map.1 ha
      obtain ⟨t, -, rfl⟩ := List.mem_map.1 hb
      obtain ⟨-, j, -, hj⟩ := randomSpatials_mem ho
      exact newId_ne_insertId _ _ _ _ (hj ▸ hab)

end

/-- a point at `x, y` -/
def ptf (x y : Float) : Geometry Float := .point ⟨x, y⟩

/-- **C95** is false: two geometries inserted within one tick of the clock get the same id, and deleting
by the id of one deletes both. -/
theorem C95_same_time_false : ∃ s s' s'' : RState Float,
    NewRandomIDTree exactCfg insSort id 1700000000000000000 [ptf 1 1, ptf 2 2] = .ok s ∧
    insertRandoms 4953504 id s [(1700000000000000123, ptf 3 3), (1700000000000000123, ptf 4 4)] = .ok s' ∧
    (contents s').map (·.ID) = ["1700000000000000000_0_0", "1700000000000000000_0_1",
      "1700000000000000123_1_4953504", "1700000000000000123_1_4953504"] ∧
    DeleteBySpatialID id s' "1700000000000000123_1_4953504" = .ok (s'', true) ∧ Size s'' = 2 := by
  have h : ((NewRandomIDTree exactCfg insSort id 1700000000000000000 [ptf 1 1, ptf 2 2]).bind fun s =>
      (insertRandoms 4953504 id s [(1700000000000000123, ptf 3 3), (1700000000000000123, ptf 4 4)]).map fun s' =>
        ((contents s').map (·.ID),
          (DeleteBySpatialID id s' "1700000000000000123_1_4953504").map fun r => (r.2, Size r.1))) =
      .ok (["1700000000000000000_0_0", "1700000000000000000_0_1", "1700000000000000123_1_4953504",
        "1700000000000000123_1_4953504"], .ok (true, 2)) := by decide +kernel
  cases hs : NewRandomIDTree exactCfg insSort id 1700000000000000000 [ptf 1 1, ptf 2 2] with
  | error e => rw [hs] at h; cases h
  | ok s =>
    rw [hs] at h
    obtain ⟨s', h1, h2⟩ := ok_of_map h
    simp only [Prod.mk.injEq] at h2
    obtain ⟨⟨s'', b⟩, h3, h4⟩ := ok_of_map h2.2
    simp only [Prod.mk.injEq] at h4
    obtain ⟨rfl, h5⟩ := h4
    exact ⟨s, s', s'', rfl, h1, h2.1, h3, h5⟩

theorem coordsOk_check {g : Geometry Float} (h : ∀ p ∈ vertices g,
    ((isNaN p.X || (le (-lit (2 ^ 500)) p.X && le p.X (lit (2 ^ 500)))) &&
      (isNaN p.Y || (le (-lit (2 ^ 500)) p.Y && le p.Y (lit (2 ^ 500))))) = true) : CoordsOk g := by
  intro p hp
  have h := h p hp
  simp only [Bool.and_eq_true, Bool.or_eq_true] at h
  refine ⟨fun hn => ?_, fun hn => ?_⟩
  · rcases h.1 with h1 | h1
    · rw [hn] at h1; cases h1
    · exact h1
  · rcases h.2 with h1 | h1
    · rw [hn] at h1; cases h1
    · exact h1

/-- the hypotheses of C95 are met by three geometries, then two insertions at different times -/
example : (∀ g ∈ [ptf 1 1, .lineString [⟨3, 3⟩, ⟨5, 4⟩], ptf 1 1], CoordsOk g) ∧
    (∀ c ∈ [((1700000000000000123 : Int), ptf 3 3), (1700000000000000124, ptf 4 4)], CoordsOk c.2) ∧
    ([((1700000000000000123 : Int), ptf 3 3), (1700000000000000124, ptf 4 4)].map (·.1)).Nodup := by
  refine ⟨fun g hg => coordsOk_check ?_, fun c hc => coordsOk_check ?_, by decide⟩
  · revert g; decide +kernel
  · revert c; decide +kernel

/-- and by twelve geometries, which are bulk loaded; their ids are all different -/
example : (∀ g ∈ List.replicate 12 (ptf 1 1), CoordsOk g) ∧ exactCfg.height 12 (12 / 2) = 2 ∧
    (NewRandomIDTree exactCfg insSort id (-5) (List.replicate 12 (ptf 1 1))).map
      (fun s => ((contents s).map (·.ID)).length) = .ok 12 := by
  refine ⟨fun g hg => ?_, by decide +kernel, by decide +kernel⟩
  rw [List.eq_of_mem_replicate hg]
  exact coordsOk_check (by decide +kernel)

end GoGeo
