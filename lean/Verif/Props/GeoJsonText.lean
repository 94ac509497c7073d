import Verif.GeoJson.TextLemmas
import Verif.Go.JsonTextRel
import Verif.Go.JsonNumber
import Verif.GeoJson.Stored

/-! # GeoJSON as text, with `float64` coordinates (C107, C108) -/

namespace GoGeo.GeoJson
open GoFloat Json JsonText Rfc8259 F64 Strconv FloatVal

/-! ### what is written is read as the tree -/

/-- a text is read as the tree whose numbers are texts -/
theorem read_raw {j : Json Float} {s : List Char} (h : Doc (JsonText.Reads parseFloat) j s) (hn : nesting j ≤ 10000) :
    ∃ t, JsonText.read some s = some t ∧ conv t = some j := by
  obtain ⟨t, h1, h2⟩ := doc_rel (M := JsonText.Reads some) (R := fun x t => parseFloat t = some x) (P := fun _ => True)
    (fun x t _ hr _ => ⟨t, rfl, hr⟩) h (nums_true j)
  exact ⟨t, (read_iff some s t).2 ⟨h1, by rw [h2.nesting]; exact hn⟩, rel_conv h2⟩

theorem ofText_doc {α : Type} {cv : Json (List Char) → Option (Json Float)} {f : Json Float → Except String α} (hc : Converts cv f) {j : Json Float}
    {s : List Char} (h : Doc (JsonText.Reads parseFloat) j s) (hn : nesting j ≤ 10000) : ofText cv f s = f j := by
  obtain ⟨t, h1, h2⟩ := read_raw h hn
  obtain ⟨j0, h3⟩ := hc.total t j h2
  unfold ofText
  rw [h1]
  dsimp only
  rw [h3]
  dsimp only
  rw [hc.same t j0 h3, conv_fill h2]

theorem ofText_text {α : Type} {cv : Json (List Char) → Option (Json Float)} {f : Json Float → Except String α} (hc : Converts cv f) {j : Json Float}
    (hj : Nums Fin64 j) (hn : nesting j ≤ 10000) : ofText cv f (enc encFloat j) = f j :=
  ofText_doc hc ((read_iff parseFloat _ j).1 (read_enc hj hn)).1 hn

theorem parse_in {t : List Char} {q : ℚ} {x : Float} (hq : NumberValue t q) (hr : parseFloat t = some x) : InRange q ∧ IsNearest x q := by
  obtain ⟨e1, e2⟩ := parse_number hq
  by_cases hi : InRange q
  · obtain ⟨y, h5, h6⟩ := e1 hi
    rw [hr] at h5; cases h5; exact ⟨hi, h6⟩
  · rw [e2 hi] at hr; cases hr

theorem enc_stands {j : Json Float} (hj : Nums Fin64 j) : Doc Stands j (enc encFloat j) := by
  refine ⟨[], enc encFloat j, [], ws_nil, enc_text (P := Fin64) (num := encFloat) (fun x hx => ?_) j hj, ws_nil, by simp⟩
  obtain ⟨⟨q, hq⟩, hp⟩ := encFloat_ok hx
  refine ⟨number_of_value hq, q, hq, ?_⟩
  exact (parse_in hq hp).2

theorem build_shape {g : Geometry Float} {o : Obj Float} (h : build g = .ok o) : o.Geometries = .nil ∧ o.CRS = [] ∧
    ((∃ l, o.Coordinates = .nums l) ∨ (∃ l, o.Coordinates = .nums2 l) ∨ (∃ l, o.Coordinates = .nums3 l) ∨ ∃ l, o.Coordinates = .nums4 l) := by
  unfold build at h
  split at h <;> first
    | (rw [bindE_iff] at h; obtain ⟨l, -, h⟩ := h; cases h; exact ⟨rfl, rfl, by simp⟩)
    | cases h

theorem marshalGeo_fin {g : Geometry Float} {j : Json Float} (h : MarshalGeo g = .ok j) : Nums Fin64 j ∧ nesting j ≤ 5 := by
  rw [MarshalGeo, bindE_iff] at h
  obtain ⟨o, h1, h⟩ := h
  obtain ⟨h2, h3, h4⟩ := build_shape h1
  refine ⟨obj_nums ⟨?_, ?_, ?_⟩ h, ?_⟩
  · rcases h4 with ⟨l, h4⟩ | ⟨l, h4⟩ | ⟨l, h4⟩ | ⟨l, h4⟩ <;> rw [h4] <;> simp only [Ints]
  · rw [h2]; simp only [Ints]
  · rw [h3]; simp only [IntsMap]
  · simp only [Obj.marshal, h2, h3, bindE_iff] at h
    obtain ⟨c, h5, g', h6, crs, h7, h⟩ := h
    cases h
    cases h6
    cases h7
    have hc : nestingMembers c ≤ 4 := by
      rcases h4 with ⟨l, h4⟩ | ⟨l, h4⟩ | ⟨l, h4⟩ | ⟨l, h4⟩ <;> rw [h4] at h5 <;> simp only [optAny, marshal, bindE_iff] at h5 <;>
        obtain ⟨j, h5, h8⟩ := h5 <;> cases h8 <;> simp only [nestingMembers] <;> refine max_le ?_ (Nat.zero_le _)
      · exact (nums1_nest h5).trans (by norm_num)
      · exact (numsUp_nest (fun _ _ => nums1_nest) h5).trans (by norm_num)
      · exact (numsUp_nest (fun _ _ => numsUp_nest (fun _ _ => nums1_nest)) h5).trans (by norm_num)
      · exact numsUp_nest (fun _ _ => numsUp_nest (fun _ _ => numsUp_nest (fun _ _ => nums1_nest))) h5
    simp only [nesting, nestingMembers, List.append_nil]
    have : Nat.max 0 (nestingMembers c) ≤ 4 := max_le (Nat.zero_le _) hc
    omega

/-! ### C107: round trip through text -/

/-- C107: the text that `MarshalGeo` writes is a JSON text of the object of RFC 7946, in which each coordinate stands as a number
to which no other `float64` is closer. -/
theorem C107_text (g : Geometry Float) (hw : Writable g) (hn : NoEmptyPart g) (hf : ∀ x ∈ coords g, Finite x) :
    ∃ s t c, MarshalGeoText g = .ok s ∧ rfc7946 g = some (t, c) ∧ Doc Stands (.obj [("type", .str t), ("coordinates", c)]) s := by
  obtain ⟨t, c, h1, h2⟩ := C82_rfc g hw hn hf
  refine ⟨_, t, c, ?_, h1, enc_stands (marshalGeo_fin h2).1⟩
  unfold MarshalGeoText text
  rw [h2]

/-- C107: a Point, PointZ, LineString, LineStringZ or Polygon without empty parts and with finite coordinates comes back, to the
last bit, from the text that `MarshalGeo` writes. -/
theorem C107_roundtrip (g : Geometry Float) (hr : Readable g) (hz : ∀ rs, g ≠ .polygonZ rs) (hn : NoEmptyPart g) (hf : ∀ x ∈ coords g, Finite x) :
    ∃ s o, MarshalGeoText g = .ok s ∧ UnmarshalObjText s = .ok o ∧ UnmarshalGeo (some o) = .ok (.ok g) := by
  obtain ⟨j, o, h1, h2, h3⟩ := C56_roundtrip g hr hz hn hf
  obtain ⟨h4, h5⟩ := marshalGeo_fin h1
  refine ⟨enc encFloat j, o, ?_, ?_, h3⟩
  · unfold MarshalGeoText text
    rw [h1]
  · unfold UnmarshalObjText
    rw [ofText_text (convObj_ok _) h4 (h5.trans (by norm_num)), h2]

theorem plain_ints {v : Val Float} (h : Plain v) : Ints v := by
  induction h with
  | nil => simp only [Ints]
  | bool => simp only [Ints]
  | float => simp only [Ints]
  | str => simp only [Ints]
  | slice l _ ih =>
    simp only [Ints]
    clear * - ih
    induction l with
    | nil => simp only [IntsList]
    | cons a l ih' => simp only [IntsList]; exact ⟨ih a (by simp), ih' fun v hv => ih v (by simp [hv])⟩
  | map m _ _ ih =>
    simp only [Ints]
    clear * - ih
    induction m with
    | nil => simp only [IntsMap]
    | cons a l ih' =>
      obtain ⟨k, a⟩ := a
      simp only [IntsMap]; exact ⟨ih (k, a) (by simp), ih' fun v hv => ih v (by simp [hv])⟩

theorem plainMap_ints {m : List (String × Val Float)} (h : PlainMap m) : IntsMap m := by
  have := plain_ints (.map m h.1 h.2)
  simpa only [Ints] using this

theorem plain_feature_ints {f : Feature Float} (h : f.Plain) : f.Ints :=
  ⟨plain_ints h.1, fun o ho => ⟨plain_ints (h.2.2.1 o ho).1, plain_ints (h.2.2.1 o ho).2.1, plainMap_ints (h.2.2.1 o ho).2.2⟩,
    fun m hm => plainMap_ints (h.2.2.2.1 m hm), plainMap_ints h.2.2.2.2⟩

/-- C107, in part (the geometry is lost, see C61): a feature of plain values comes back from its text. -/
theorem C107_feature_partial (f : Feature Float) (h : f.Plain) :
    ∃ j s, f.MarshalJSON = .ok j ∧ f.MarshalText = .ok s ∧ Doc Stands j s ∧ (nesting j ≤ 10000 → UnmarshalFeatureText s = .ok f.kept) := by
  obtain ⟨j, h1, h2⟩ := C61_feature_partial f h
  have h3 := feature_nums (plain_feature_ints h) h1
  refine ⟨j, enc encFloat j, h1, ?_, enc_stands h3, fun hn => ?_⟩
  · unfold Feature.MarshalText text
    rw [h1]
  · unfold UnmarshalFeatureText
    rw [ofText_text (f := UnmarshalFeature) (convFeature_ok Feature.zero) h3 hn, h2]

/-- C107, in part: the same for a collection of features. -/
theorem C107_collection_partial (fc : FeatureCollection Float) (hb : ∀ x ∈ fc.BoundingBox, Finite x) (hc : PlainMap fc.CRS)
    (hf : ∀ l, fc.Features = some l → ∀ f, some f ∈ l → f.Plain) :
    ∃ j s, fc.MarshalJSON = .ok j ∧ fc.MarshalText = .ok s ∧ Doc Stands j s ∧ (nesting j ≤ 10000 → UnmarshalFeatureCollectionText s =
      .ok ⟨"FeatureCollection", fc.BoundingBox, some ((fc.Features.getD []).map (Option.map Feature.kept)), fc.CRS⟩) := by
  obtain ⟨j, h1, h2⟩ := C61_roundtrip_partial fc hb hc hf
  have h3 := collection_nums (fc := fc) ⟨plainMap_ints hc, fun l hl f hm => plain_feature_ints (hf l hl f hm)⟩ h1
  refine ⟨j, enc encFloat j, h1, ?_, enc_stands h3, fun hn => ?_⟩
  · unfold FeatureCollection.MarshalText text
    rw [h1]
  · unfold UnmarshalFeatureCollectionText
    rw [ofText_text convCollection_ok h3 hn, h2]

/-- C107: `NewFeature`, which goes through the text, keeps the object of every geometry that `MarshalGeo` accepts. -/
theorem C107_newFeature (g : Geometry Float) : NewFeatureText g = NewFeature g := by
  unfold NewFeatureText NewFeature MarshalGeoText text
  cases h : MarshalGeo g with
  | error e => rfl
  | ok j =>
    obtain ⟨h4, h5⟩ := marshalGeo_fin h
    simp only [UnmarshalObjText, ofText_text (convObj_ok _) h4 (h5.trans (by norm_num))]
    cases Obj.zero.unmarshal j <;> rfl

/-- a value is printed with at most `n` levels -/
def MN (n : ℕ) (v : Val Float) : Prop := ∀ j, marshal v = .ok j → nesting j ≤ n

theorem MN.mono {n m : ℕ} (h : n ≤ m) {v : Val Float} (hv : MN n v) : MN m v := fun j hj => (hv j hj).trans h

theorem mn_slice {n : ℕ} : ∀ {l : List (Val Float)}, (∀ v ∈ l, MN n v) → ∀ m, marshalList l = .ok m → nestingList m ≤ n
  | [], _, m, h => by simp only [marshalList] at h; cases h; simp [nestingList]
  | v :: l, hl, m, h => by
    simp only [marshalList, bindE_iff] at h
    obtain ⟨j, h1, js, h2, h⟩ := h
    cases h
    simp only [nestingList]
    exact max_le (hl v (by simp) j h1) (mn_slice (fun w hw => hl w (by simp [hw])) js h2)

theorem mn_map {n : ℕ} : ∀ {l : List (String × Val Float)}, (∀ e ∈ l, MN n e.2) → ∀ m, marshalMembers l = .ok m → nestingMembers m ≤ n
  | [], _, m, h => by simp only [marshalMembers] at h; cases h; simp [nestingMembers]
  | (k, v) :: l, hl, m, h => by
    simp only [marshalMembers, bindE_iff] at h
    obtain ⟨j, h1, js, h2, h⟩ := h
    cases h
    simp only [nestingMembers]
    exact max_le (hl (k, v) (by simp) j h1) (mn_map (fun w hw => hl w (by simp [hw])) js h2)

theorem setKey_mem {α : Type} {k : String} {v : α} : ∀ {l : List (String × α)} {e}, e ∈ setKey k v l → e.2 = v ∨ ∃ e' ∈ l, e'.2 = e.2
  | [], e, h => by simp only [setKey, List.mem_singleton] at h; rw [h]; exact .inl rfl
  | (k', v') :: l, e, h => by
    rw [setKey] at h
    split at h
    · rcases List.mem_cons.1 h with rfl | h
      · exact .inl rfl
      · exact .inr ⟨e, by simp [h], rfl⟩
    split at h
    · rcases List.mem_cons.1 h with rfl | h
      · exact .inl rfl
      · exact .inr ⟨e, h, rfl⟩
    · rcases List.mem_cons.1 h with rfl | h
      · exact .inr ⟨(k', v'), by simp, rfl⟩
      · rcases setKey_mem h with h | ⟨e', h1, h2⟩
        · exact .inl h
        · exact .inr ⟨e', by simp [h1], h2⟩

mutual
theorem mn_decode : ∀ c : Json Float, MN (nesting c) (decode c)
  | .null => fun j h => by simp only [decode, marshal] at h; cases h; simp [nesting]
  | .bool _ => fun j h => by simp only [decode, marshal] at h; cases h; simp [nesting]
  | .num _ => fun j h => by simp only [decode, marshal] at h; exact number_nest h
  | .str _ => fun j h => by simp only [decode, marshal] at h; cases h; simp [nesting]
  | .arr l => fun j h => by
    simp only [decode, marshal, bindE_iff] at h
    obtain ⟨m, h1, h⟩ := h
    cases h
    simp only [nesting]
    exact Nat.succ_le_succ (mn_slice (mn_decodeList l) m h1)
  | .obj l => fun j h => by
    simp only [decode, marshal, bindE_iff] at h
    obtain ⟨m, h1, h⟩ := h
    cases h
    simp only [nesting]
    exact Nat.succ_le_succ (mn_map (mn_decodeMembers l [] _ le_rfl (by simp)) m h1)
theorem mn_decodeList : ∀ l : List (Json Float), ∀ v ∈ decodeList l, MN (nestingList l) v
  | [], v, h => by simp only [decodeList] at h; cases h
  | j :: l, v, h => by
    simp only [decodeList] at h
    simp only [nestingList]
    rcases List.mem_cons.1 h with rfl | h
    · exact (mn_decode j).mono (Nat.le_max_left _ _)
    · exact (mn_decodeList l v h).mono (Nat.le_max_right _ _)
theorem mn_decodeMembers : ∀ (l : List (String × Json Float)) (acc : List (String × Val Float)) (n : ℕ), nestingMembers l ≤ n →
    (∀ e ∈ acc, MN n e.2) → ∀ e ∈ decodeMembers l acc, MN n e.2
  | [], acc, n, _, ha, e, h => by simp only [decodeMembers] at h; exact ha e h
  | (k, j) :: l, acc, n, hn, ha, e, h => by
    simp only [decodeMembers] at h
    simp only [nestingMembers] at hn
    refine mn_decodeMembers l _ n ((Nat.le_max_right _ _).trans hn) (fun e he => ?_) e h
    rcases setKey_mem he with he | ⟨e', h1, h2⟩
    · rw [he]; exact (mn_decode j).mono ((Nat.le_max_left _ _).trans hn)
    · rw [← h2]; exact ha e' h1
end

theorem nestingMembers_le {F : Type} {n : ℕ} : ∀ {l : List (String × Json F)}, (∀ e ∈ l, nesting e.2 ≤ n) → nestingMembers l ≤ n
  | [], _ => by simp [nestingMembers]
  | (k, a) :: l, h => by
    simp only [nestingMembers]
    exact max_le (h (k, a) (by simp)) (nestingMembers_le fun j hj => h j (by simp [hj]))

theorem newFeature_nest (g : Geometry Float) {j : Json Float} (h : (NewFeature g).MarshalJSON = .ok j) : nesting j ≤ 6 := by
  obtain ⟨o, ho, hN⟩ : ∃ o : Obj Float, (∀ j, o.marshal = .ok j → nesting j ≤ 5) ∧ NewFeature g = ⟨.nil, "Feature", [], some o, some [], [], g⟩ := by
    by_cases h : Writable g ∧ ∀ x ∈ coords g, Finite x
    · obtain ⟨t, c, -, h2, h3⟩ := (marshalGeo_spec g).1 h
      refine ⟨⟨t, decode c, .nil, []⟩, fun j hj => ?_, ?_⟩
      · have hn := (marshalGeo_fin h2).2
        have hc : nesting c ≤ 4 := by
          simp only [doc, nesting, nestingMembers] at hn
          have h1 : nesting c ≤ Nat.max (nesting c) 0 := Nat.le_max_left _ _
          have h2 : Nat.max (nesting c) 0 ≤ Nat.max 0 (Nat.max (nesting c) 0) := Nat.le_max_right _ _
          omega
        simp only [Obj.marshal, bindE_iff] at hj
        obtain ⟨cc, h5, g', h6, crs, h7, hj⟩ := hj
        cases hj
        cases h6
        cases h7
        simp only [nesting, List.append_nil]
        refine Nat.succ_le_succ (nestingMembers_le fun e he => ?_)
        rcases List.mem_cons.1 he with rfl | he
        · simp [nesting]
        · unfold optAny at h5
          split at h5
          · cases h5; cases he
          · rename_i v hv
            rw [bindE_iff] at h5
            obtain ⟨j', h6, h5⟩ := h5
            cases h5
            simp only [List.mem_singleton] at he
            subst he
            exact (mn_decode c j' h6).trans hc
      · rw [NewFeature, h2]
        simp only [unmarshal_doc]
    · obtain ⟨e, he⟩ := (marshalGeo_spec g).2 h
      refine ⟨Obj.zero, fun j hj => ?_, ?_⟩
      · cases hj
        show nesting (Json.obj [("type", Json.str "")]) ≤ 5
        simp [nesting, nestingMembers]
      · rw [NewFeature, he]
  rw [hN, feature_marshal, Feature.print] at h
  simp only [bindE_iff] at h
  obtain ⟨id, h1, bb, h2, gg, h3, p, h4, crs, h5, h⟩ := h
  cases h
  cases h1
  cases h2
  cases h4
  cases h5
  have : nesting gg ≤ 5 := ho gg h3
  simp only [nesting]
  refine Nat.succ_le_succ (nestingMembers_le fun e he => ?_)
  simp only [List.mem_cons, List.nil_append, List.append_nil, List.mem_append, List.not_mem_nil, or_false] at he
  rcases he with rfl | rfl | rfl
  · simp [nesting]
  · exact this
  · simp [nesting]

/-- C107, in part: geometries as in C56, each in a feature of its own, come back from the text of the collection (in the field `GeometryJson`). -/
theorem C107_geometries_partial (gs : List (Geometry Float))
    (h : ∀ g ∈ gs, Readable g ∧ (∀ rs, g ≠ .polygonZ rs) ∧ NoEmptyPart g ∧ ∀ x ∈ coords g, Finite x) :
    ∃ s fc fs, (addAll NewFeatureCollection (gs.map fun g => some (NewFeatureText g))).MarshalText = .ok s ∧
      UnmarshalFeatureCollectionText s = .ok fc ∧ fc.Features = some fs ∧
      List.Forall₂ (fun g f => ∃ f', f = some f' ∧ UnmarshalGeo f'.GeometryJson = .ok (.ok g)) gs fs := by
  obtain ⟨j, fc, fs, h1, h2, h3, h4⟩ := C61_geometries_partial gs h
  have hfe : (addAll NewFeatureCollection (gs.map fun g => some (NewFeature g))).Features.getD [] = gs.map fun g => some (NewFeature g) := by
    rw [(addAll_features _ _).1]; rfl
  have hi : (addAll NewFeatureCollection (gs.map fun g => some (NewFeature g))).Ints := by
    refine ⟨by rw [(addAll_features _ _).2.2]; simp [NewFeatureCollection, IntsMap], ?_⟩
    intro l hl f hf
    rw [hl] at hfe
    simp only [Option.getD_some] at hfe
    rw [hfe] at hf
    obtain ⟨g, -, hg⟩ := List.mem_map.1 hf
    cases hg
    obtain ⟨o, ho, hN⟩ := newFeature_eq g
    refine plain_feature_ints ?_
    rw [hN]
    exact ⟨.nil, by simp, fun x hx => by cases hx; exact ho, fun m hm => by cases hm; exact ⟨List.Pairwise.nil, by simp⟩, List.Pairwise.nil, by simp⟩
  have hnums := collection_nums hi h1
  have hnest : nesting j ≤ 8 := by
    have h1' := h1
    rw [collection_marshal, FeatureCollection.print] at h1'
    simp only [FeatureCollection.kept, hfe, bindE_iff, (addAll_features _ _).2.1, (addAll_features _ _).2.2] at h1'
    obtain ⟨bb, e1, fj, ⟨js, e4, e2⟩, crs, e3, e⟩ := h1'
    cases e
    cases e1
    cases e3
    cases e2
    simp only [nesting]
    refine Nat.succ_le_succ (nestingMembers_le fun e he => ?_)
    simp only [List.mem_cons, List.append_nil, List.mem_append, List.not_mem_nil, or_false] at he
    rcases he with rfl | rfl
    · simp [nesting]
    · simp only [nesting]
      refine Nat.succ_le_succ (nestingList_le fun b hb => ?_)
      obtain ⟨a, ha, hab⟩ := mapE_mem e4 b hb
      obtain ⟨g, -, rfl⟩ := List.mem_map.1 ha
      exact newFeature_nest g hab
  refine ⟨enc encFloat j, fc, fs, ?_, ?_, h3, h4⟩
  · have : (gs.map fun g => some (NewFeatureText g)) = gs.map fun g => some (NewFeature g) := List.map_congr_left fun g _ => by rw [C107_newFeature]
    rw [this]
    unfold FeatureCollection.MarshalText text
    rw [h1]
  · unfold UnmarshalFeatureCollectionText
    rw [ofText_text convCollection_ok hnums (hnest.trans (by norm_num)), h2]

/-! ### C108: texts from elsewhere -/

/-- the tree of a text with its numbers filled in -/
theorem fill_doc {s : List Char} {t : Json (List Char)} (h : Doc (JsonText.Reads some) t s) :
    Doc (fun x t => ∀ q, NumberValue t q → InRange q → IsNearest x q) (fill t) s ∧ nesting (fill t) = nesting t := by
  obtain ⟨j, h1, h2⟩ := doc_rel (M := fun x t => ∀ q, NumberValue t q → InRange q → IsNearest x q) (R := fun t x => x = (parseFloat t).getD 0)
    (P := fun _ => True) (fun t' t _ (hr : some t = some t') _ => ⟨(parseFloat t).getD 0, fun q hq hi => by
      obtain ⟨x, h1, h2⟩ := (parse_number hq).1 hi
      rw [h1]
      exact h2, by cases hr; rfl⟩) h (nums_true t)
  have := rel_fill h2
  subst this
  exact ⟨h1, h2.nesting⟩

theorem ofText_syntax {α : Type} {cv : Json (List Char) → Option (Json Float)} {f : Json Float → Except String α} (hc : Converts cv f) {s : List Char} {r : α}
    (h : ofText cv f s = .ok r) : ∃ j, Doc (fun x t => ∀ q, NumberValue t q → InRange q → IsNearest x q) j s ∧ nesting j ≤ 10000 ∧ f j = .ok r := by
  unfold ofText at h
  split at h
  · cases h
  · rename_i t ht
    obtain ⟨h1, h2⟩ := (read_iff some s t).1 ht
    obtain ⟨h3, h4⟩ := fill_doc h1
    split at h
    · cases h
    · rename_i j hj
      exact ⟨fill t, h3, by rw [h4]; exact h2, by rw [← hc.same t j hj]; exact h⟩

/-- C108: only JSON texts of at most 10000 levels are accepted; what comes out is what the document of the text holds, with every number
within range read as a nearest `float64`. (A number out of range is accepted only where it is not looked at: C108_out_of_range.) -/
theorem C108_syntax (s : List Char) :
    (∀ r, UnmarshalObjText s = .ok r →
      ∃ j, Doc (fun x t => ∀ q, NumberValue t q → InRange q → IsNearest x q) j s ∧ nesting j ≤ 10000 ∧ Obj.zero.unmarshal j = .ok r) ∧
    (∀ r, UnmarshalFeatureText s = .ok r →
      ∃ j, Doc (fun x t => ∀ q, NumberValue t q → InRange q → IsNearest x q) j s ∧ nesting j ≤ 10000 ∧ UnmarshalFeature j = .ok r) ∧
    (∀ r, UnmarshalFeatureCollectionText s = .ok r →
      ∃ j, Doc (fun x t => ∀ q, NumberValue t q → InRange q → IsNearest x q) j s ∧ nesting j ≤ 10000 ∧ UnmarshalFeatureCollection j = .ok r) :=
  ⟨fun _ h => ofText_syntax (convObj_ok _) h, fun _ h => ofText_syntax (convFeature_ok _) h, fun _ h => ofText_syntax convCollection_ok h⟩

/-- C108: the layout of a text is free. Whatever the white space, the escapes in strings and the notation of numbers, a text of at most 10000
levels is taken as its document. -/
theorem C108_layout (j : Json Float) (s : List Char) (h : Doc (fun x t => parseFloat t = some x) j s) (hn : nesting j ≤ 10000) :
    UnmarshalObjText s = Obj.zero.unmarshal j ∧ UnmarshalFeatureText s = UnmarshalFeature j ∧
    UnmarshalFeatureCollectionText s = UnmarshalFeatureCollection j :=
  ⟨ofText_doc (convObj_ok _) h hn, ofText_doc (convFeature_ok _) h hn, ofText_doc convCollection_ok h hn⟩

section rel
variable {A B : Type} {R : A → B → Prop}

theorem num_rel {x : A} {j : Json B} (h : JRel R (.num x) j) : ∃ y, j = .num y ∧ R x y := by
  cases j with
  | num y => exact ⟨y, rfl, by simpa only [JRel] using h⟩
  | _ => simp only [JRel] at h

theorem position_rel {p : Point A} {j : Json B} (h : JRel R (position p) j) : ∃ p', j = position p' ∧ PointRel R p p' := by
  unfold position at h
  cases j with
  | arr l =>
    simp only [JRel] at h
    match l, h with
    | [a, b], h =>
      simp only [JRelList] at h
      obtain ⟨a, rfl, ha⟩ := num_rel h.1
      obtain ⟨b, rfl, hb⟩ := num_rel h.2.1
      exact ⟨⟨a, b⟩, rfl, ha, hb⟩
    | [], h => simp only [JRelList] at h
    | [_], h => simp only [JRelList, and_false] at h
    | _ :: _ :: _ :: _, h => simp only [JRelList, and_false] at h
  | _ => simp only [JRel] at h

theorem positionZ_rel {p : PointZ A} {j : Json B} (h : JRel R (positionZ p) j) : ∃ p', j = positionZ p' ∧ PointZRel R p p' := by
  unfold positionZ at h
  cases j with
  | arr l =>
    simp only [JRel] at h
    match l, h with
    | [a, b, c], h =>
      simp only [JRelList] at h
      obtain ⟨a, rfl, ha⟩ := num_rel h.1
      obtain ⟨b, rfl, hb⟩ := num_rel h.2.1
      obtain ⟨c, rfl, hc⟩ := num_rel h.2.2.1
      exact ⟨⟨a, b, c⟩, rfl, ha, hb, hc⟩
    | [], h => simp only [JRelList] at h
    | [_], h => simp only [JRelList, and_false] at h
    | [_, _], h => simp only [JRelList, and_false] at h
    | _ :: _ :: _ :: _ :: _, h => simp only [JRelList, and_false] at h
  | _ => simp only [JRel] at h

theorem array_rel {α β : Type} {f : α → Json A} {f' : β → Json B} {S : α → β → Prop} (hf : ∀ a j, JRel R (f a) j → ∃ b, j = f' b ∧ S a b)
    {l : List α} {j : Json B} (h : JRel R (array f l) j) : ∃ l', j = array f' l' ∧ List.Forall₂ S l l' := by
  unfold array at h
  cases j with
  | arr m =>
    simp only [JRel] at h
    suffices ∃ l', m = l'.map f' ∧ List.Forall₂ S l l' by
      obtain ⟨l', h1, h2⟩ := this
      exact ⟨l', by rw [h1]; rfl, h2⟩
    induction l generalizing m with
    | nil =>
      cases m with
      | nil => exact ⟨[], rfl, .nil⟩
      | cons => simp only [List.map_nil, JRelList] at h
    | cons a l ih =>
      cases m with
      | nil => simp only [List.map_cons, JRelList] at h
      | cons b m =>
        simp only [List.map_cons, JRelList] at h
        obtain ⟨b', rfl, h1⟩ := hf a b h.1
        obtain ⟨l', rfl, h2⟩ := ih m h.2
        exact ⟨b' :: l', rfl, .cons h1 h2⟩
  | _ => simp only [JRel] at h

theorem rfc_rel {g : Geometry A} {t : String} {c : Json A} {c' : Json B} (h : rfc7946 g = some (t, c)) (hc : JRel R c c') :
    ∃ g', rfc7946 g' = some (t, c') ∧ GeomRel R g g' := by
  cases g <;> cases h
  case point => obtain ⟨p', rfl, h⟩ := position_rel hc; exact ⟨.point p', rfl, h⟩
  case pointZ => obtain ⟨p', rfl, h⟩ := positionZ_rel hc; exact ⟨.pointZ p', rfl, h⟩
  case multiPoint => obtain ⟨p', rfl, h⟩ := array_rel (fun _ _ => position_rel) hc; exact ⟨.multiPoint p', rfl, h⟩
  case lineString => obtain ⟨p', rfl, h⟩ := array_rel (fun _ _ => position_rel) hc; exact ⟨.lineString p', rfl, h⟩
  case multiPointZ => obtain ⟨p', rfl, h⟩ := array_rel (fun _ _ => positionZ_rel) hc; exact ⟨.multiPointZ p', rfl, h⟩
  case lineStringZ => obtain ⟨p', rfl, h⟩ := array_rel (fun _ _ => positionZ_rel) hc; exact ⟨.lineStringZ p', rfl, h⟩
  case multiLineString => obtain ⟨p', rfl, h⟩ := array_rel (fun _ _ => array_rel (fun _ _ => position_rel)) hc; exact ⟨.multiLineString p', rfl, h⟩
  case polygon => obtain ⟨p', rfl, h⟩ := array_rel (fun _ _ => array_rel (fun _ _ => position_rel)) hc; exact ⟨.polygon p', rfl, h⟩
  case multiLineStringZ => obtain ⟨p', rfl, h⟩ := array_rel (fun _ _ => array_rel (fun _ _ => positionZ_rel)) hc; exact ⟨.multiLineStringZ p', rfl, h⟩
  case polygonZ => obtain ⟨p', rfl, h⟩ := array_rel (fun _ _ => array_rel (fun _ _ => positionZ_rel)) hc; exact ⟨.polygonZ p', rfl, h⟩
  case multiPolygon =>
    obtain ⟨p', rfl, h⟩ := array_rel (fun _ _ => array_rel (fun _ _ => array_rel (fun _ _ => position_rel))) hc; exact ⟨.multiPolygon p', rfl, h⟩
  case multiPolygonZ =>
    obtain ⟨p', rfl, h⟩ := array_rel (fun _ _ => array_rel (fun _ _ => array_rel (fun _ _ => positionZ_rel))) hc; exact ⟨.multiPolygonZ p', rfl, h⟩

theorem forall2_ne {α β : Type} {S : α → β → Prop} {l : List α} {l' : List β} (h : List.Forall₂ S l l') (hn : l ≠ []) : l' ≠ [] := by
  cases h with
  | nil => exact absurd rfl hn
  | cons => simp

theorem forall2_each {α β : Type} {S : List α → List β → Prop} (hS : ∀ a b, S a b → a ≠ [] → b ≠ []) {l : List (List α)} {l' : List (List β)}
    (h : List.Forall₂ S l l') (hn : ∀ a ∈ l, a ≠ []) : ∀ b ∈ l', b ≠ [] := by
  induction h with
  | nil => simp
  | cons h _ ih =>
    intro b hb
    rcases List.mem_cons.1 hb with rfl | hb
    · exact hS _ _ h (hn _ (by simp))
    · exact ih (fun a ha => hn a (by simp [ha])) b hb

theorem geomRel_ok {g : Geometry A} {g' : Geometry B} (h : GeomRel R g g') (hr : Readable g) (hn : NoEmptyPart g) : Readable g' ∧ NoEmptyPart g' := by
  cases g <;> first | exact hr.elim | skip
  case point => cases g' <;> first | exact h.elim | exact ⟨trivial, trivial⟩
  case pointZ => cases g' <;> first | exact h.elim | exact ⟨trivial, trivial⟩
  case lineString => cases g' <;> first | exact h.elim | exact ⟨trivial, forall2_ne h hn⟩
  case lineStringZ => cases g' <;> first | exact h.elim | exact ⟨trivial, forall2_ne h hn⟩
  case polygon => cases g' <;> first | exact h.elim | exact ⟨trivial, forall2_ne h hn.1, forall2_each (fun _ _ => forall2_ne) h hn.2⟩
  case polygonZ => cases g' <;> first | exact h.elim | exact ⟨trivial, forall2_ne h hn.1, forall2_each (fun _ _ => forall2_ne) h hn.2⟩

/-! ### the numbers and the depth of an object of RFC 7946 -/

theorem numsL_iff {P : A → Prop} {l : List (Json A)} : NumsList P l ↔ ∀ j ∈ l, Nums P j := by
  induction l with
  | nil => simp [NumsList]
  | cons a l ih => simp [NumsList, ih]

theorem array_nums {α : Type} {P : A → Prop} {f : α → Json A} {cs : α → List A} (hf : ∀ a, Nums P (f a) ↔ ∀ x ∈ cs a, P x) (l : List α) :
    Nums P (array f l) ↔ ∀ x ∈ l.flatMap cs, P x := by
  unfold array
  simp only [Nums, numsL_iff, List.mem_map, List.mem_flatMap]
  constructor
  · rintro h x ⟨a, ha, hx⟩
    exact (hf a).1 (h _ ⟨a, ha, rfl⟩) x hx
  · rintro h j ⟨a, ha, rfl⟩
    exact (hf a).2 fun x hx => h x ⟨a, ha, hx⟩

theorem position_nums {P : A → Prop} (p : Point A) : Nums P (position p) ↔ ∀ x ∈ xy p, P x := by
  simp [position, Nums, NumsList, xy]

theorem positionZ_nums {P : A → Prop} (p : PointZ A) : Nums P (positionZ p) ↔ ∀ x ∈ xyz p, P x := by
  simp [positionZ, Nums, NumsList, xyz]

theorem flat_flat {α β : Type} (f : α → List β) : ∀ l : List (List α), l.flatten.flatMap f = l.flatMap fun a => a.flatMap f
  | [] => rfl
  | a :: l => by rw [List.flatten_cons, List.flatMap_append, flat_flat f l, List.flatMap_cons]

theorem rfc_nums {P : A → Prop} {g : Geometry A} {t : String} {c : Json A} (h : rfc7946 g = some (t, c)) : Nums P c ↔ ∀ x ∈ coords g, P x := by
  have a := position_nums (P := P)
  have b := positionZ_nums (P := P)
  cases g <;> cases h
  case point p => exact a p
  case pointZ p => exact b p
  case multiPoint l => exact array_nums a l
  case lineString l => exact array_nums a l
  case multiPointZ l => exact array_nums b l
  case lineStringZ l => exact array_nums b l
  case multiLineString l => rw [coords, flat_flat]; exact array_nums (array_nums a) l
  case polygon l => rw [coords, flat_flat]; exact array_nums (array_nums a) l
  case multiLineStringZ l => rw [coords, flat_flat]; exact array_nums (array_nums b) l
  case polygonZ l => rw [coords, flat_flat]; exact array_nums (array_nums b) l
  case multiPolygon l => rw [coords, flat_flat, flat_flat]; exact array_nums (array_nums (array_nums a)) l
  case multiPolygonZ l => rw [coords, flat_flat, flat_flat]; exact array_nums (array_nums (array_nums b)) l

theorem array_nest {α : Type} {n : ℕ} {f : α → Json A} (hf : ∀ a, nesting (f a) ≤ n) (l : List α) : nesting (array f l) ≤ n + 1 := by
  unfold array
  simp only [nesting]
  have := nestingList_le (n := n) (l := l.map f) fun j hj => by
    obtain ⟨a, -, rfl⟩ := List.mem_map.1 hj
    exact hf a
  omega

theorem rfc_nest {g : Geometry A} {t : String} {c : Json A} (h : rfc7946 g = some (t, c)) : nesting c ≤ 4 := by
  have a : ∀ p : Point A, nesting (position p) ≤ 1 := fun p => by simp [position, nesting, nestingList]
  have b : ∀ p : PointZ A, nesting (positionZ p) ≤ 1 := fun p => by simp [positionZ, nesting, nestingList]
  cases g <;> cases h
  case point p => exact (a p).trans (by norm_num)
  case pointZ p => exact (b p).trans (by norm_num)
  case multiPoint l => exact (array_nest a l).trans (by norm_num)
  case lineString l => exact (array_nest a l).trans (by norm_num)
  case multiPointZ l => exact (array_nest b l).trans (by norm_num)
  case lineStringZ l => exact (array_nest b l).trans (by norm_num)
  case multiLineString l => exact (array_nest (array_nest a) l).trans (by norm_num)
  case polygon l => exact (array_nest (array_nest a) l).trans (by norm_num)
  case multiLineStringZ l => exact (array_nest (array_nest b) l).trans (by norm_num)
  case polygonZ l => exact (array_nest (array_nest b) l).trans (by norm_num)
  case multiPolygon l => exact (array_nest (array_nest (array_nest a)) l).trans (by norm_num)
  case multiPolygonZ l => exact (array_nest (array_nest (array_nest b)) l).trans (by norm_num)

end rel

theorem doc_nums {A : Type} {P : A → Prop} {t : String} {c : Json A} : Nums P (.obj [("type", .str t), ("coordinates", c)]) ↔ Nums P c := by
  simp [Nums, NumsMembers]

/-- C108: numbers with any number of digits, with or without an exponent. A text of the object of RFC 7946 of a geometry with rational
coordinates, all of them in range, is read as that geometry with each coordinate replaced by a nearest `float64`. -/
theorem C108_nearest (g : Geometry ℚ) (t : String) (c : Json ℚ) (s : List Char) (hr : Readable g) (hn : NoEmptyPart g) (hc : rfc7946 g = some (t, c))
    (hs : Doc (fun q t => NumberValue t q) (.obj [("type", .str t), ("coordinates", c)]) s) (hi : ∀ q ∈ coords g, InRange q) :
    ∃ o g', UnmarshalObjText s = .ok o ∧ UnmarshalGeo (some o) = .ok (.ok g') ∧ GeomRel (fun q x => IsNearest x q) g g' := by
  obtain ⟨j, h1, h2⟩ := doc_rel (M := JsonText.Reads parseFloat) (R := fun q x => IsNearest x q) (P := InRange)
    (fun q t _ h1 h2 => (parse_number h1).1 h2) hs (doc_nums.2 ((rfc_nums hc).2 hi))
  have hnest := h2.nesting
  cases j with
  | obj m =>
    simp only [JRel] at h2
    match m, h2 with
    | [(k1, j1), (k2, j2)], h2 =>
      simp only [JRelMembers] at h2
      obtain ⟨rfl, h3, rfl, h4, -⟩ := h2
      cases j1 with
      | str t' =>
        simp only [JRel] at h3
        subst h3
        obtain ⟨g', h5, h6⟩ := rfc_rel hc h4
        obtain ⟨h7, h8⟩ := geomRel_ok h6 hr hn
        obtain ⟨t', c', o, h9, h10, h11⟩ := C56_rfc g' h7 h8
        rw [h5] at h9
        cases h9
        refine ⟨o, g', ?_, h11, h6⟩
        unfold UnmarshalObjText
        rw [ofText_doc (convObj_ok _) h1, h10]
        rw [hnest]
        have := rfc_nest hc
        simp only [nesting, nestingMembers]
        have h12 : Nat.max 0 (Nat.max (nesting c) 0) ≤ 4 := max_le (Nat.zero_le _) (max_le this (Nat.zero_le _))
        omega
      | _ => simp only [JRel] at h3
    | [], h2 => simp only [JRelMembers] at h2
    | [_], h2 => simp only [JRelMembers, and_false] at h2
    | _ :: _ :: _ :: _, h2 => simp only [JRelMembers, and_false] at h2
  | _ => simp only [JRel] at h2

/-- a document with exact numbers and the tree with their texts -/
abbrev Written : Json ℚ → Json (List Char) → Prop := JRel fun q t => NumberValue t q

theorem written_conv {c : Json ℚ} {x : Json (List Char)} (h : Written c x) (hi : ¬ Nums InRange c) : conv x = none := by
  cases hx : conv x with
  | none => rfl
  | some j =>
    exact absurd (JRel.nums (P := InRange) (fun a b t (h : NumberValue t a) (h' : parseFloat t = some b) => (parse_in h h').1) h (conv_rel hx)) hi

theorem written_geometry {j c : Json ℚ} {t : Json (List Char)} (h : Written j t) (hk : KeptGeometry j c) : ∃ x, KeptGeometry t x ∧ Written c x := by
  cases hk with
  | member hn hv hm =>
    obtain ⟨m', rfl, h⟩ := JRel.obj h
    obtain ⟨x, h1, h2⟩ := JRelMembers.mem h hm
    exact ⟨x, .member hn hv h1, h2⟩

theorem written_feature {j c : Json ℚ} {t : Json (List Char)} (h : Written j t) (hk : KeptFeature j c) : ∃ x, KeptFeature t x ∧ Written c x := by
  cases hk with
  | member hn hg hv hm =>
    obtain ⟨m', rfl, h⟩ := JRel.obj h
    obtain ⟨x, h1, h2⟩ := JRelMembers.mem h hm
    exact ⟨x, .member hn hg hv h1, h2⟩
  | geometry hv hm hg =>
    obtain ⟨m', rfl, h⟩ := JRel.obj h
    obtain ⟨x, h1, h2⟩ := JRelMembers.mem h hm
    obtain ⟨y, h3, h4⟩ := written_geometry h2 hg
    exact ⟨y, .geometry hv h1 h3, h4⟩

theorem written_collection {j c : Json ℚ} {t : Json (List Char)} (h : Written j t) (hk : KeptCollection j c) : ∃ x, KeptCollection t x ∧ Written c x := by
  cases hk with
  | member hn hg hv hm =>
    obtain ⟨m', rfl, h⟩ := JRel.obj h
    obtain ⟨x, h1, h2⟩ := JRelMembers.mem h hm
    exact ⟨x, .member hn hg hv h1, h2⟩
  | feature hv hm hf hx =>
    obtain ⟨m', rfl, h⟩ := JRel.obj h
    obtain ⟨x, h1, h2⟩ := JRelMembers.mem h hm
    obtain ⟨l', rfl, h3⟩ := JRel.arr h2
    obtain ⟨y, h4, h5⟩ := JRelList.mem h3 hf
    obtain ⟨z, h6, h7⟩ := written_feature h5 hx
    exact ⟨z, .feature hv h1 h4 h6, h7⟩

theorem ofText_none {α : Type} {cv : Json (List Char) → Option (Json Float)} {f : Json Float → Except String α} {j : Json ℚ} {s : List Char}
    (hs : Doc (fun q t => NumberValue t q) j s) (h : ∀ t, Written j t → cv t = none) : ∃ e, ofText cv f s = .error e := by
  obtain ⟨t, h1, h2⟩ := doc_rel (M := JsonText.Reads some) (R := fun q t => NumberValue t q) (P := fun _ => True)
    (fun q t _ hr _ => ⟨t, rfl, hr⟩) hs (nums_true j)
  unfold ofText
  split
  · exact ⟨_, rfl⟩
  · rename_i t' ht
    have := doc_unique some h1 ((read_iff some s t').1 ht).1
    subst this
    rw [h t h2]
    exact ⟨_, rfl⟩

/-- C108: if a number that is looked at is out of range, the text is rejected. -/
theorem C108_out_of_range (j c : Json ℚ) (s : List Char) (hs : Doc (fun q t => NumberValue t q) j s) (hc : ¬ Nums InRange c) :
    (KeptGeometry j c → ∃ e, UnmarshalObjText s = .error e) ∧
    (KeptFeature j c → ∃ e, UnmarshalFeatureText s = .error e) ∧
    (KeptCollection j c → ∃ e, UnmarshalFeatureCollectionText s = .error e) := by
  refine ⟨fun hk => ofText_none hs fun t ht => ?_, fun hk => ofText_none hs fun t ht => ?_, fun hk => ofText_none hs fun t ht => ?_⟩
  · obtain ⟨x, h1, h2⟩ := written_geometry ht hk
    exact keptObj_none h1 (written_conv h2 hc)
  · obtain ⟨x, h1, h2⟩ := written_feature ht hk
    exact keptFeature_none h1 (written_conv h2 hc)
  · obtain ⟨x, h1, h2⟩ := written_collection ht hk
    exact keptCollection_none h1 (written_conv h2 hc)

/-! ### cases that meet the hypotheses -/

/-- hypotheses of C107 for a geometry -/
example : ∃ s o, MarshalGeoText sample = .ok s ∧ UnmarshalObjText s = .ok o ∧ UnmarshalGeo (some o) = .ok (.ok sample) :=
  C107_roundtrip sample trivial (fun _ h => (by cases h)) sample_parts sample_finite

/-- the text of a point, with an exponent -/
example : (match MarshalGeoText (.point ⟨-0.1, 1e-7⟩) with | .ok s => s | .error _ => []) =
    "{\"type\":\"Point\",\"coordinates\":[-0.1,1e-7]}".toList := by decide +kernel

/-- a text from elsewhere, with white space, an escape and other notations of numbers, is read as a point -/
example : (match UnmarshalObjText " { \"coordinates\" : [ 1.0E2,\n-25e-1 ], \"type\": \"Poi\\u006et\" }".toList with
    | .ok o => (match UnmarshalGeo (some o) with | .ok (.ok (.point p)) => p.X == 100 && p.Y == -2.5 | _ => false)
    | .error _ => false) = true := by decide +kernel

/-- a number out of range in a foreign member is not looked at -/
example : (match UnmarshalObjText "{\"type\":\"Point\",\"coordinates\":[1,2],\"note\":1e309}".toList with | .ok _ => true | .error _ => false) = true := by
  decide +kernel

/-- hypotheses of C108_out_of_range: the coordinates are looked at, and one is too large -/
example : KeptGeometry (.obj [("type", .str "Point"), ("coordinates", .arr [.num (10 ^ 400), .num (1 : ℚ)])]) (.arr [.num (10 ^ 400), .num 1]) ∧
    ¬ Nums InRange (.arr [.num (10 ^ 400), .num (1 : ℚ)]) := by
  refine ⟨.member (n := "coordinates") (by decide) (variant_self _) (by simp), fun h => ?_⟩
  simp only [Nums, NumsList] at h
  have h1 : |(10 : ℚ) ^ 400| < 2 ^ 1024 - 2 ^ 970 := h.1
  rw [abs_of_nonneg (pow_nonneg (by norm_num) _)] at h1
  have h2 : (8 : ℚ) ^ 400 ≤ 10 ^ 400 := pow_le_pow_left₀ (by norm_num) (by norm_num) _
  have h3 : (8 : ℚ) ^ 400 = 2 ^ 1200 := by rw [show (8 : ℚ) = 2 ^ 3 by norm_num, ← pow_mul]
  have h4 : (2 : ℚ) ^ 1024 ≤ 2 ^ 1200 := pow_le_pow_right₀ (by norm_num) (by norm_num)
  have h5 : (0 : ℚ) ≤ 2 ^ 970 := pow_nonneg (by norm_num) _
  exact absurd h1 (not_lt.2 ((sub_le_self _ h5).trans (h4.trans (h3.symm.le.trans h2))))

/-- a comma too many, and a number out of range -/
example : (match UnmarshalObjText "{\"type\":\"Point\",\"coordinates\":[1,2,]}".toList with | .ok _ => false | .error _ => true) = true ∧
    (match UnmarshalObjText "{\"type\":\"Point\",\"coordinates\":[1e309,2]}".toList with | .ok _ => false | .error _ => true) = true := by
  constructor <;> decide +kernel

theorem value_tenth : NumberValue "0.1".toList (1 / 10) := by
  refine ⟨[], ['0'], ['.', '1'], [], by decide, .inl rfl, .inl rfl, .inr ⟨['1'], rfl, by decide, by decide⟩, .inl rfl, by simp [expValue], ?_⟩
  have : Nat.ofDigitChars 10 (['0'] ++ ['.', '1'].tail) 0 = 1 := by decide
  rw [this]
  norm_num [expValue]

theorem value_hundred : NumberValue "-1.0E2".toList (-100) := by
  refine ⟨['-'], ['1'], ['.', '0'], ['E', '2'], by decide, .inr rfl, .inr ⟨⟨by decide, by decide⟩, by decide⟩, .inr ⟨['0'], rfl, by decide, by decide⟩,
    .inr ⟨'E', [], ['2'], rfl, .inr rfl, .inl rfl, by decide, by decide⟩, ?_, ?_⟩
  · rw [show ['E', '2'] = 'E' :: ['2'] from rfl, expValue_digits ⟨by decide, by decide⟩, show Nat.ofDigitChars 10 ['2'] 0 = 2 by decide]
    norm_num
  · rw [show ['E', '2'] = 'E' :: ['2'] from rfl, expValue_digits ⟨by decide, by decide⟩, show Nat.ofDigitChars 10 ['2'] 0 = 2 by decide,
      show Nat.ofDigitChars 10 (['1'] ++ ['.', '0'].tail) 0 = 10 by decide]
    norm_num

/-- hypotheses of C108 for numbers: a point at one tenth and minus one hundred -/
example : ∃ o g', UnmarshalObjText "{\"type\":\"Point\", \"coordinates\":[0.1,-1.0E2]}".toList = .ok o ∧
    UnmarshalGeo (some o) = .ok (.ok g') ∧ GeomRel (fun q x => IsNearest x q) (.point ⟨1 / 10, -100⟩) g' := by
  refine C108_nearest _ _ _ _ trivial trivial rfl ?_ ?_
  · have hn := number_of_value value_tenth
    have hm := number_of_value value_hundred
    refine ⟨[], "{\"type\":\"Point\", \"coordinates\":[0.1,-1.0E2]}".toList, [], ws_nil, ?_, ws_nil, by simp⟩
    simp only [Text]
    refine ⟨"\"type\":\"Point\", \"coordinates\":[0.1,-1.0E2]".toList, ?_, by decide⟩
    simp only [Members, MoreMembers, position, Text, Elems, MoreElems]
    refine ⟨[], encStr "type", [], [], encStr "Point", [], ", \"coordinates\":[0.1,-1.0E2]".toList, ws_nil, encStr_ok _, ws_nil, ws_nil, encStr_ok _, ws_nil,
      ⟨[' '], encStr "coordinates", [], [], "[0.1,-1.0E2]".toList, [], [], ?_, encStr_ok _, ws_nil, ws_nil,
        ⟨"0.1,-1.0E2".toList, ⟨[], "0.1".toList, [], ",-1.0E2".toList, ws_nil, ⟨hn, value_tenth⟩, ws_nil,
          ⟨[], "-1.0E2".toList, [], [], ws_nil, ⟨hm, value_hundred⟩, ws_nil, rfl, by decide⟩, by decide⟩, by decide⟩, ws_nil, rfl, by decide +kernel⟩, by decide +kernel⟩
    intro c hc
    simp only [List.mem_singleton] at hc
    exact .inl hc
  · intro q hq
    have : |q| ≤ 100 := by
      simp only [coords, xy, List.mem_cons, List.not_mem_nil, or_false] at hq
      rcases hq with rfl | rfl <;> norm_num [abs_le]
    refine lt_of_le_of_lt this ?_
    have a : (2 : ℚ) ^ 1024 = 2 ^ 970 * 2 ^ 54 := by rw [← pow_add]
    have b : (1 : ℚ) ≤ 2 ^ 970 := one_le_pow₀ (by norm_num)
    rw [a]
    generalize (2 : ℚ) ^ 970 = y at b
    norm_num
    linarith

end GoGeo.GeoJson
