import Verif.GeoJson.Trip

/-!
# Properties of package geojson

JSON documents are trees; parsing a document into a struct is `unmarshal`, printing one is `marshal` or `MarshalJSON`.
-/

set_option linter.unusedSectionVars false

namespace GoGeo
open GoFloat Json GeoJson

section
variable {F : Type} [GoFloat F]

/-! ### C82, C57: what `MarshalGeo` writes -/

/-- C82.  A geometry of a supported type, without empty parts and with finite coordinates, is written as the object of RFC 7946. -/
theorem C82_rfc (g : Geometry F) (hw : Writable g) (hn : NoEmptyPart g) (hf : ∀ x ∈ coords g, Finite x) :
    ∃ t c, rfc7946 g = some (t, c) ∧ MarshalGeo g = .ok (.obj [("type", .str t), ("coordinates", c)]) := by
  obtain ⟨t, c, h1, h2, -⟩ := (marshalGeo_spec g).1 ⟨hw, hf⟩
  exact ⟨t, c, by rw [← written_rfc hw hn, h1], h2⟩

/-- C82 fails for empty lines: the coordinates are null, not an array. -/
theorem C82_empty_false : MarshalGeo (.lineString [] : Geometry F) = .ok (.obj [("type", .str "LineString"), ("coordinates", .null)]) := rfl

/-- C57, first half.  `MarshalGeo` succeeds exactly on the types other than PolygonZ (and collections, pointers and nil) with finite
coordinates. -/
theorem C57_marshal_partial (g : Geometry F) : (∃ j, MarshalGeo g = .ok j) ↔ Writable g ∧ ∀ x ∈ coords g, Finite x := by
  constructor
  · rintro ⟨j, hj⟩
    by_contra hc
    obtain ⟨e, he⟩ := (marshalGeo_spec g).2 hc
    rw [hj] at he
    cases he
  · intro h
    obtain ⟨t, c, -, h2, -⟩ := (marshalGeo_spec g).1 h
    exact ⟨_, h2⟩

/-- C57 fails: no PolygonZ can be marshalled. -/
theorem C57_polygonZ_false (rs : List (List (PointZ F))) : ∃ e, MarshalGeo (.polygonZ rs) = .error e := ⟨_, rfl⟩

/-- C57 fails: what `MarshalGeo` writes for a multi-geometry is never accepted by `UnmarshalGeo`. -/
theorem C57_multi_false (g : Geometry F) (hm : Multi g) (hf : ∀ x ∈ coords g, Finite x) :
    ∃ j o e, MarshalGeo g = .ok j ∧ Obj.zero.unmarshal j = .ok o ∧ UnmarshalGeo (some o) = .ok (.error e) := by
  have hw : Writable g := by cases g <;> first | exact hm.elim | trivial
  obtain ⟨t, c, h1, h2, -⟩ := (marshalGeo_spec g).1 ⟨hw, hf⟩
  suffices ∃ e, UnmarshalGeo (some (⟨t, decode c, .nil, []⟩ : Obj F)) = .ok (.error e) by
    obtain ⟨e, he⟩ := this
    exact ⟨_, _, e, h2, unmarshal_doc t c, he⟩
  cases g <;> first | exact hm.elim | (injection h1 with h1; injection h1 with h1 h1'; subst h1; exact ⟨_, rfl⟩)

theorem reads_type {t : String} {v : Val F} {g : Geometry F} (o : Obj F) (ht : o.Typ = t) (hv : o.Coordinates = v) (h : Reads t v g) :
    UnmarshalGeo (some o) = .ok (.ok g) := by
  rcases h with ⟨rfl, h⟩ | ⟨rfl, h⟩ | ⟨rfl, h⟩
  · exact (unmarshal_point o ht _).2 ⟨g, rfl, hv ▸ h⟩
  · exact (unmarshal_line o ht _).2 ⟨g, rfl, hv ▸ h⟩
  · exact (unmarshal_polygon o ht _).2 ⟨g, rfl, hv ▸ h⟩

/-- C57, second half.  Of the geometries it writes, `MarshalGeo` writes in a form that `UnmarshalGeo` reads back as the same geometry
exactly those of type Point, PointZ, LineString, LineStringZ and Polygon that have no empty part. -/
theorem C57_back_partial (g : Geometry F) (hw : Writable g) (hf : ∀ x ∈ coords g, Finite x) :
    (∃ j o, MarshalGeo g = .ok j ∧ Obj.zero.unmarshal j = .ok o ∧ UnmarshalGeo (some o) = .ok (.ok g)) ↔ Readable g ∧ NoEmptyPart g := by
  constructor
  · rintro ⟨j, o, hj, ho, hu⟩
    by_cases hm : Multi g
    · obtain ⟨j', o', e, h1, h2, h3⟩ := C57_multi_false g hm hf
      rw [hj] at h1; cases h1
      rw [ho] at h2; cases h2
      rw [hu] at h3; cases h3
    obtain ⟨t, c, h1, h2, -⟩ := (marshalGeo_spec g).1 ⟨hw, hf⟩
    rw [hj] at h2; cases h2
    rw [unmarshal_doc] at ho; cases ho
    have hnil : ∀ ls : List (List (Val F)), Val.nil ∉ ls.map (Val.slice (F := F)) := by
      intro ls h
      obtain ⟨l, -, h⟩ := List.mem_map.1 h
      cases h
    cases g with
    | point p => exact ⟨trivial, trivial⟩
    | pointZ p => exact ⟨trivial, trivial⟩
    | lineString ps =>
      refine ⟨trivial, fun h => ?_⟩
      subst h
      cases h1
      obtain ⟨g, -, vs, hv, -⟩ := (unmarshal_line _ rfl _).1 hu
      cases hv
    | lineStringZ ps =>
      refine ⟨trivial, fun h => ?_⟩
      subst h
      cases h1
      obtain ⟨g, -, vs, hv, -⟩ := (unmarshal_line _ rfl _).1 hu
      cases hv
    | polygon rs =>
      cases h1
      obtain ⟨g, -, vss, hv, -⟩ := (unmarshal_polygon _ rfl _).1 hu
      have hne : rs ≠ [] := by
        rintro rfl
        cases hv
      refine ⟨trivial, hne, ?_⟩
      rintro r hr rfl
      rw [upJ_array _ hne] at hv
      have hv : decode (array (upJ position) rs) = .slice (vss.map .slice) := hv
      rw [decode_array] at hv
      injection hv with hv
      refine hnil vss (hv ▸ ?_)
      exact List.mem_map.2 ⟨[], hr, by rw [upJ]; simp [decode]⟩
    | polygonZ rs => exact hw.elim
    | collection l => exact hw.elim
    | ptr i l => exact hw.elim
    | nil => exact hw.elim
    | _ => exact absurd trivial hm
  · rintro ⟨hr, hn⟩
    obtain ⟨t, c, h1, h2⟩ := C82_rfc g hw hn hf
    obtain ⟨t', c', h3, h4⟩ := reads_rfc hr hn
    rw [h1] at h3; cases h3
    exact ⟨_, _, h2, unmarshal_doc t c, reads_type _ rfl rfl h4⟩

/-- C57 fails: an empty line is written, and reading it back panics. -/
theorem C57_empty_false : ∃ (j : Json F) (o : Obj F) (p : Panic), MarshalGeo (.lineString []) = .ok j ∧ Obj.zero.unmarshal j = .ok o ∧
    UnmarshalGeo (some o) = .error p :=
  ⟨_, _, _, rfl, unmarshal_doc _ _, rfl⟩

/-! ### C56 -/

/-- C56.  Marshalling, parsing and reading a Point, PointZ, LineString, LineStringZ or Polygon without empty parts and with finite
coordinates gives it back. -/
theorem C56_roundtrip (g : Geometry F) (hr : Readable g) (hz : ∀ rs, g ≠ .polygonZ rs) (hn : NoEmptyPart g) (hf : ∀ x ∈ coords g, Finite x) :
    ∃ j o, MarshalGeo g = .ok j ∧ Obj.zero.unmarshal j = .ok o ∧ UnmarshalGeo (some o) = .ok (.ok g) := by
  refine (C57_back_partial g ?_ hf).2 ⟨hr, hn⟩
  cases g <;> first | exact hr.elim | trivial | exact absurd rfl (hz _)

/-- C56 for documents from elsewhere, PolygonZ included: an object of RFC 7946 is read as the geometry it stands for. -/
theorem C56_rfc (g : Geometry F) (hr : Readable g) (hn : NoEmptyPart g) :
    ∃ t c o, rfc7946 g = some (t, c) ∧ Obj.zero.unmarshal (.obj [("type", .str t), ("coordinates", c)]) = .ok o ∧
      UnmarshalGeo (some o) = .ok (.ok g) := by
  obtain ⟨t, c, h1, h2⟩ := reads_rfc hr hn
  exact ⟨t, c, _, h1, unmarshal_doc t c, reads_type _ rfl rfl h2⟩

/-! ### C58 -/

/-- the types whose coordinates are looked at -/
def Parsed (t : String) : Prop := t = "Point" ∨ t = "LineString" ∨ t = "Polygon"

/-- C58, in part: what `UnmarshalGeo` returns for a point, a line or a polygon.  It never returns an error. -/
theorem C58_reads_partial (o : Obj F) (ht : Parsed o.Typ) (r : Except String (Geometry F)) :
    UnmarshalGeo (some o) = .ok r ↔ ∃ g, r = .ok g ∧ Reads o.Typ o.Coordinates g := by
  rcases ht with ht | ht | ht
  · rw [unmarshal_point o ht]
    simp [Reads, ht]
  · rw [unmarshal_line o ht]
    simp [Reads, ht]
  · rw [unmarshal_polygon o ht]
    simp [Reads, ht]

/-- C58, in part: `UnmarshalGeo` panics exactly on points, lines and polygons whose coordinates do not have the right shape. -/
theorem C58_panics_partial (o : Obj F) :
    (∃ p, UnmarshalGeo (some o) = .error p) ↔ Parsed o.Typ ∧ ∀ g, ¬ Reads o.Typ o.Coordinates g := by
  constructor
  · rintro ⟨p, hp⟩
    have ht : Parsed o.Typ := by
      by_contra hc
      simp only [Parsed, not_or] at hc
      simp only [UnmarshalGeo, if_neg hc.1, if_neg hc.2.1, if_neg hc.2.2] at hp
      split_ifs at hp
    refine ⟨ht, fun g hg => ?_⟩
    rw [(C58_reads_partial o ht (.ok g)).2 ⟨g, rfl, hg⟩] at hp
    cases hp
  · rintro ⟨ht, hg⟩
    cases h : UnmarshalGeo (some o) with
    | error p => exact ⟨p, rfl⟩
    | ok r =>
      obtain ⟨g, -, hr⟩ := (C58_reads_partial o ht r).1 h
      exact absurd hr (hg g)

/-- C58 fails: a point without coordinates makes `UnmarshalGeo` panic, and so do a line with one position of one number and the nil pointer. -/
theorem C58_false : (∃ p, UnmarshalGeo (some (⟨"Point", .nil, .nil, []⟩ : Obj F)) = .error p) ∧
    (∀ x : F, ∃ p, UnmarshalGeo (some ⟨"LineString", .slice [.slice [.float x]], .nil, []⟩) = .error p) ∧
    ∃ p, UnmarshalGeo (none : Option (Obj F)) = .error p :=
  ⟨⟨_, rfl⟩, fun _ => ⟨_, rfl⟩, _, rfl⟩

/-- C58 fails: a document of an unknown type is read as nil without an error, whatever its coordinates. -/
theorem C58_unknown_false (o : Obj F)
    (ht : o.Typ ∉ ["Point", "MultiPoint", "LineString", "MultiLineString", "Polygon", "MultiPolygon"]) :
    UnmarshalGeo (some o) = .ok (.ok .nil) := by
  simp only [List.mem_cons, List.not_mem_nil, or_false, not_or] at ht
  obtain ⟨h1, h2, h3, h4, h5, h6⟩ := ht
  rw [UnmarshalGeo, if_neg h1, if_neg h2, if_neg h3, if_neg h4, if_neg h5, if_neg h6]

/-- C58, in part: multi-geometries are errors, whatever their coordinates. -/
theorem C58_multi_partial (o : Obj F) (ht : o.Typ ∈ ["MultiPoint", "MultiLineString", "MultiPolygon"]) :
    ∃ e, UnmarshalGeo (some o) = .ok (.error e) := by
  obtain ⟨t, c, g, crs⟩ := o
  simp only [List.mem_cons, List.not_mem_nil, or_false] at ht
  rcases ht with h | h | h <;> subst h <;> exact ⟨_, rfl⟩

/-! ### C59 -/

theorem optAny_form {name : String} {v : Val F} {ms : List (String × Json F)} (h : optAny name v = .ok ms) :
    ms = [] ∨ ∃ j, ms = [(name, j)] := by
  by_cases hv : v = .nil
  · subst hv; cases h; exact .inl rfl
  · cases hm : marshal v with
    | error e => cases v <;> first | exact absurd rfl hv | simp [optAny, hm, bind, Except.bind] at h
    | ok j => cases v <;> first | exact absurd rfl hv | (simp [optAny, hm, bind, Except.bind, pure, Except.pure] at h; exact .inr ⟨j, h.symm⟩)

theorem optMap_form {name : String} {m : List (String × Val F)} {ms : List (String × Json F)} (h : optMap name m = .ok ms) :
    (m = [] ∧ ms = []) ∨ (m ≠ [] ∧ ∃ js, marshalMembers m = .ok js ∧ ms = [(name, .obj js)]) := by
  cases m with
  | nil => cases h; exact .inl ⟨rfl, rfl⟩
  | cons e m =>
    cases hm : marshalMembers (e :: m) with
    | error e => simp [optMap, hm, bind, Except.bind] at h
    | ok js =>
      simp [optMap, hm, bind, Except.bind, pure, Except.pure] at h
      exact .inr ⟨by simp, js, rfl, h.symm⟩

theorem optNums_form {name : String} {l : List F} {ms : List (String × Json F)} (h : optNums name l = .ok ms) :
    ms = if l.isEmpty then [] else [(name, .arr (l.map .num))] := by
  by_cases hl : ∀ x ∈ l, Finite x
  · obtain ⟨ms', h1, h2, -⟩ := optNums_trip name hl
    rw [h1] at h
    cases h
    rw [h2]
    cases l <;> simp
  · cases l with
    | nil => exact absurd (by simp) hl
    | cons x l =>
      obtain ⟨e, he⟩ := enc_nums1.err (x :: l) hl
      have : optNums name (x :: l) = .error e := by
        show (nums1 (x :: l) >>= _) = _
        rw [bindE_error he]
      rw [this] at h
      cases h

theorem bindE_iff {ε α β : Type} {x : Except ε α} {f : α → Except ε β} {b : β} : (x >>= f) = .ok b ↔ ∃ a, x = .ok a ∧ f a = .ok b := by
  cases x <;> simp [bind, Except.bind]

/-- the printed feature -/
theorem feature_form {f : Feature F} {j : Json F} (h : f.MarshalJSON = .ok j) :
    ∃ id bb g p crs, j = .obj (id ++ [("type", .str "Feature")] ++ bb ++ [("geometry", g), ("properties", p)] ++ crs) ∧
      (id = [] ∨ ∃ i, id = [("id", i)]) ∧ bb = if f.BoundingBox.isEmpty then [] else [("bbox", .arr (f.BoundingBox.map .num))] := by
  rw [feature_marshal, Feature.print] at h
  simp only [bindE_iff] at h
  obtain ⟨id, h1, bb, h2, g, -, p, -, crs, -, h⟩ := h
  cases h
  exact ⟨id, bb, g, p, crs, rfl, optAny_form h1, optNums_form h2⟩

/-- the value of a member of a document -/
def Json.get (j : Json F) (k : String) : Option (Json F) :=
  match j with
  | .obj m => m.lookup k
  | _ => none

/-- C59, in part: a box stored in the field `BoundingBox` is printed as `bbox`. -/
theorem C59_partial (f : Feature F) (j : Json F) (hb : f.BoundingBox ≠ []) (h : f.MarshalJSON = .ok j) :
    Json.get j "bbox" = some (.arr (f.BoundingBox.map .num)) := by
  obtain ⟨id, bb, g, p, crs, rfl, hid, hbb⟩ := feature_form h
  cases hl : f.BoundingBox with
  | nil => exact absurd hl hb
  | cons x l =>
    rw [hl] at hbb
    rcases hid with rfl | ⟨i, rfl⟩ <;> rw [hbb] <;> rfl

/-- C59 fails for every feature: `SetBoundingBox` leaves the feature as it was. -/
theorem C59_unchanged_false (f : Feature F) : SetBoundingBox f = f := rfl

theorem newFeature_eq (g : Geometry F) : ∃ o : Obj F, o.Plain ∧ NewFeature g = ⟨.nil, "Feature", [], some o, some [], [], g⟩ := by
  by_cases h : Writable g ∧ ∀ x ∈ coords g, Finite x
  · obtain ⟨t, c, -, h2, h3⟩ := (marshalGeo_spec g).1 h
    refine ⟨⟨t, decode c, .nil, []⟩, ⟨h3, .nil, List.Pairwise.nil, by simp⟩, ?_⟩
    rw [NewFeature, h2]
    simp only [unmarshal_doc]
  · obtain ⟨e, he⟩ := (marshalGeo_spec g).2 h
    refine ⟨Obj.zero, ⟨.nil, .nil, List.Pairwise.nil, by simp [Obj.zero]⟩, ?_⟩
    rw [NewFeature, he]

/-- C59 fails: after `SetBoundingBox`, a new feature is printed without `bbox`, whatever its geometry. -/
theorem C59_false (g : Geometry F) : ∃ j, (SetBoundingBox (NewFeature g)).MarshalJSON = .ok j ∧ Json.get j "bbox" = none := by
  obtain ⟨o, ho, hN⟩ := newFeature_eq g
  obtain ⟨m, hm, -⟩ := obj_trip ho
  rw [C59_unchanged_false, hN]
  refine ⟨.obj [("type", .str "Feature"), ("geometry", .obj m), ("properties", .null)], ?_, rfl⟩
  rw [feature_marshal, Feature.print]
  simp [Feature.kept, optAny, optNums, ptrMarshal, hm, mapMarshal, optMap, bind, Except.bind, pure, Except.pure]

/-! ### C60 -/

/-- a series of `SetProperty` calls -/
def setAll (f : Feature F) (ops : List (String × Val F)) : Feature F := ops.foldl (fun f op => SetProperty f op.1 op.2) f

theorem lookup_cons' {α : Type} (k k' : String) (v : α) (m : List (String × α)) :
    ((k, v) :: m).lookup k' = if k' = k then some v else m.lookup k' := by
  rw [List.lookup_cons]
  by_cases h : k' = k
  · rw [if_pos h, beq_iff_eq.2 h]
  · rw [if_neg h, beq_eq_false_iff_ne.2 h]

theorem lookup_setKey {α : Type} (k k' : String) (v : α) (m : List (String × α)) :
    (setKey k v m).lookup k' = if k' = k then some v else m.lookup k' := by
  induction m with
  | nil => rw [setKey, lookup_cons']
  | cons e m ih =>
    obtain ⟨a, b⟩ := e
    rw [setKey]
    by_cases ha : k = a
    · rw [if_pos ha, lookup_cons', lookup_cons', ha]
      split_ifs <;> rfl
    · rw [if_neg ha]
      split_ifs with h1 h2 h2
      · rw [lookup_cons', if_pos h2]
      · rw [lookup_cons', if_neg h2]
      · rw [lookup_cons', ih, if_pos h2, if_neg fun e => ha (h2.symm.trans e)]
      · rw [lookup_cons', ih, if_neg h2, lookup_cons']

theorem prop_set (f : Feature F) (k k' : String) (v : Val F) : (SetProperty f k v).prop k' = if k' = k then v else f.prop k' := by
  simp only [Feature.prop, SetProperty, lookup_setKey]
  by_cases h : k' = k
  · simp [h]
  · rw [if_neg h, if_neg h]
    cases f.Properties <;> rfl

theorem prop_setAll (f : Feature F) (ops : List (String × Val F)) (k : String) :
    (setAll f ops).prop k = match lastSet k ops with | some v => v | none => f.prop k := by
  induction ops generalizing f with
  | nil => rfl
  | cons op ops ih =>
    obtain ⟨k', v⟩ := op
    show (setAll (SetProperty f k' v) ops).prop k = _
    rw [ih, lastSet]
    cases lastSet k ops with
    | some w => rfl
    | none =>
      dsimp only
      rw [prop_set]
      by_cases h : k = k'
      · rw [if_pos h, if_pos h.symm]
      · rw [if_neg h, if_neg fun e => h e.symm]

/-- C60.  After any series of `SetProperty` calls, a typed read of a key that was set returns the value last set under it when the type
matches (`PropertyInt` also converts a float64), and an error otherwise. -/
theorem C60_last (toInt : F → Int) (f : Feature F) (ops : List (String × Val F)) (k : String) (v : Val F) (h : lastSet k ops = some v) :
    (∀ b, PropertyBool (setAll f ops) k = .ok b ↔ v = .bool b) ∧
    (∀ x, PropertyFloat64 (setAll f ops) k = .ok x ↔ v = .float x) ∧
    (∀ s, PropertyString (setAll f ops) k = .ok s ↔ v = .str s) ∧
    (∀ i, PropertyInt toInt (setAll f ops) k = .ok i ↔ v = .int i ∨ ∃ x, v = .float x ∧ toInt x = i) := by
  have hp : (setAll f ops).prop k = v := by rw [prop_setAll, h]
  simp only [PropertyBool, PropertyFloat64, PropertyString, PropertyInt, hp]
  cases v <;> simp

/-- C60.  A key that was not set reads as before. -/
theorem C60_others (toInt : F → Int) (f : Feature F) (ops : List (String × Val F)) (k : String) (h : lastSet k ops = none) :
    PropertyBool (setAll f ops) k = PropertyBool f k ∧ PropertyFloat64 (setAll f ops) k = PropertyFloat64 f k ∧
    PropertyString (setAll f ops) k = PropertyString f k ∧ PropertyInt toInt (setAll f ops) k = PropertyInt toInt f k := by
  have hp : (setAll f ops).prop k = f.prop k := by rw [prop_setAll, h]
  simp only [PropertyBool, PropertyFloat64, PropertyString, PropertyInt, hp, and_self]

/-- C60.  A new feature has no properties: every typed read is an error. -/
theorem C60_new (toInt : F → Int) (g : Geometry F) (k : String) :
    (∃ e, PropertyBool (NewFeature g) k = .error e) ∧ (∃ e, PropertyFloat64 (NewFeature g) k = .error e) ∧
    (∃ e, PropertyString (NewFeature g) k = .error e) ∧ (∃ e, PropertyInt toInt (NewFeature g) k = .error e) :=
  ⟨⟨_, rfl⟩, ⟨_, rfl⟩, ⟨_, rfl⟩, ⟨_, rfl⟩⟩

/-- C60.  `SetProperty` changes nothing but the properties. -/
theorem C60_frame (f : Feature F) (ops : List (String × Val F)) :
    (setAll f ops).ID = f.ID ∧ (setAll f ops).Typ = f.Typ ∧ (setAll f ops).BoundingBox = f.BoundingBox ∧
    (setAll f ops).GeometryJson = f.GeometryJson ∧ (setAll f ops).CRS = f.CRS ∧ (setAll f ops).Geometry = f.Geometry := by
  induction ops generalizing f with
  | nil => exact ⟨rfl, rfl, rfl, rfl, rfl, rfl⟩
  | cons op ops ih => exact ih (SetProperty f op.1 op.2)

/-- C60.  `PropertyMust*` return the value, or else the first default, or else the zero value. -/
theorem C60_must (toInt : F → Int) (f : Feature F) (k : String) :
    (∀ ds, (∀ b, PropertyBool f k = .ok b → PropertyMustBool f k ds = b) ∧
      (∀ e, PropertyBool f k = .error e → PropertyMustBool f k ds = ds.headD false)) ∧
    (∀ ds, (∀ i, PropertyInt toInt f k = .ok i → PropertyMustInt toInt f k ds = i) ∧
      (∀ e, PropertyInt toInt f k = .error e → PropertyMustInt toInt f k ds = ds.headD 0)) ∧
    (∀ ds, (∀ x, PropertyFloat64 f k = .ok x → PropertyMustFloat64 f k ds = x) ∧
      (∀ e, PropertyFloat64 f k = .error e → PropertyMustFloat64 f k ds = ds.headD (lit 0))) ∧
    (∀ ds, (∀ s, PropertyString f k = .ok s → PropertyMustString f k ds = s) ∧
      (∀ e, PropertyString f k = .error e → PropertyMustString f k ds = ds.headD "")) := by
  refine ⟨fun ds => ⟨fun b h => ?_, fun e h => ?_⟩, fun ds => ⟨fun b h => ?_, fun e h => ?_⟩, fun ds => ⟨fun b h => ?_, fun e h => ?_⟩,
    fun ds => ⟨fun b h => ?_, fun e h => ?_⟩⟩ <;>
  simp only [PropertyMustBool, PropertyMustInt, PropertyMustFloat64, PropertyMustString, must, h] <;> cases ds <;> rfl

/-! ### C61 -/

theorem mapE_iff {α β : Type} {f : α → Except String β} {l : List α} {bs : List β} :
    mapE f l = .ok bs ↔ List.Forall₂ (fun a b => f a = .ok b) l bs := by
  induction l generalizing bs with
  | nil => simp [mapE, eq_comm]
  | cons a l ih =>
    rw [mapE]
    simp only [bindE_iff, ih]
    constructor
    · rintro ⟨b, hb, bs', hbs, h⟩
      cases h
      exact .cons hb hbs
    · rintro (_ | ⟨hb, hbs⟩)
      exact ⟨_, hb, _, hbs, rfl⟩

/-- a collection as it is printed -/
def FeatureCollection.kept (fc : FeatureCollection F) : FeatureCollection F :=
  { fc with Typ := "FeatureCollection", Features := some (fc.Features.getD []) }

theorem collection_marshal (fc : FeatureCollection F) : fc.MarshalJSON = (FeatureCollection.kept fc).print := by
  obtain ⟨t, bb, fs, crs⟩ := fc
  simp only [FeatureCollection.MarshalJSON, FeatureCollection.kept]
  cases bb <;> cases crs <;> cases fs <;> rfl

/-- a series of `AddFeature` calls -/
def addAll (fc : FeatureCollection F) (fs : List (Option (Feature F))) : FeatureCollection F := fs.foldl AddFeature fc

theorem addAll_eq (fc : FeatureCollection F) (fs : List (Option (Feature F))) (h : fs ≠ []) :
    addAll fc fs = { fc with Features := some (fc.Features.getD [] ++ fs) } := by
  induction fs generalizing fc with
  | nil => exact absurd rfl h
  | cons f fs ih =>
    show addAll (AddFeature fc f) fs = _
    by_cases hf : fs = []
    · subst hf; rfl
    · rw [ih _ hf]
      simp [AddFeature]

theorem addAll_features (fc : FeatureCollection F) (fs : List (Option (Feature F))) :
    (addAll fc fs).Features.getD [] = fc.Features.getD [] ++ fs ∧ (addAll fc fs).BoundingBox = fc.BoundingBox ∧ (addAll fc fs).CRS = fc.CRS := by
  by_cases h : fs = []
  · subst h; exact ⟨by simp [addAll], rfl, rfl⟩
  · rw [addAll_eq fc fs h]; exact ⟨rfl, rfl, rfl⟩

/-- C61.  Whatever features are added to whatever collection, a printed collection has the type FeatureCollection and a `features` array
with the printed old and new features in order; `bbox` and `crs` are there exactly when they are not empty. -/
theorem C61_members (fc : FeatureCollection F) (fs : List (Option (Feature F))) (j : Json F) (h : (addAll fc fs).MarshalJSON = .ok j) :
    Json.get j "type" = some (.str "FeatureCollection") ∧
    (∃ js, Json.get j "features" = some (.arr js) ∧ List.Forall₂ (fun f d => featMarshal f = .ok d) (fc.Features.getD [] ++ fs) js) ∧
    (Json.get j "bbox" = if fc.BoundingBox.isEmpty then none else some (.arr (fc.BoundingBox.map .num))) ∧
    (fc.CRS = [] → Json.get j "crs" = none) ∧
    (fc.CRS ≠ [] → ∃ m, Json.get j "crs" = some (.obj m) ∧ marshalMembers fc.CRS = .ok m) := by
  obtain ⟨hF, hB, hC⟩ := addAll_features fc fs
  rw [collection_marshal, FeatureCollection.print] at h
  simp only [bindE_iff, FeatureCollection.kept, hF, hB, hC] at h
  obtain ⟨bb, h1, fj, ⟨js, h2, h2'⟩, crs, h3, h⟩ := h
  cases h
  cases h2'
  have hb := optNums_form h1
  have hc := optMap_form h3
  cases hbb : fc.BoundingBox with
  | nil =>
    rw [hbb] at hb
    subst hb
    refine ⟨rfl, ⟨js, rfl, mapE_iff.1 h2⟩, ?_, ?_, ?_⟩
    · rcases hc with ⟨-, rfl⟩ | ⟨-, m, -, rfl⟩ <;> rfl
    · intro hn
      rcases hc with ⟨-, rfl⟩ | ⟨hn', -⟩
      · rfl
      · exact absurd hn hn'
    · intro hn
      rcases hc with ⟨hn', -⟩ | ⟨-, m, hm, rfl⟩
      · exact absurd hn' hn
      · exact ⟨m, rfl, hm⟩
  | cons x l =>
    rw [hbb] at hb
    subst hb
    refine ⟨rfl, ⟨js, rfl, mapE_iff.1 h2⟩, ?_, ?_, ?_⟩
    · rcases hc with ⟨-, rfl⟩ | ⟨-, m, -, rfl⟩ <;> rfl
    · intro hn
      rcases hc with ⟨-, rfl⟩ | ⟨hn', -⟩
      · rfl
      · exact absurd hn hn'
    · intro hn
      rcases hc with ⟨hn', -⟩ | ⟨-, m, hm, rfl⟩
      · exact absurd hn' hn
      · exact ⟨m, rfl, hm⟩

/-- C61, in part: a collection with plain values is printed, and reading it gives the same features in order, except that `Geometry` is nil
and an empty map of properties is nil. -/
theorem C61_roundtrip_partial (fc : FeatureCollection F) (hb : ∀ x ∈ fc.BoundingBox, Finite x) (hc : PlainMap fc.CRS)
    (hf : ∀ l, fc.Features = some l → ∀ f, some f ∈ l → f.Plain) :
    ∃ j, fc.MarshalJSON = .ok j ∧ UnmarshalFeatureCollection j =
      .ok ⟨"FeatureCollection", fc.BoundingBox, some ((fc.Features.getD []).map (Option.map Feature.kept)), fc.CRS⟩ := by
  have hf' : ∀ f, some f ∈ fc.Features.getD [] → f.Plain := by
    cases h : fc.Features with
    | none => intro f hf; cases hf
    | some l => exact hf l h
  obtain ⟨m1, e1, -, t1⟩ := optNums_trip "bbox" hb
  obtain ⟨js, e2, t2⟩ := features_trip hf'
  obtain ⟨m3, e3, t3⟩ := optMap_trip "crs" hc
  refine ⟨.obj ([("type", .str "FeatureCollection")] ++ m1 ++ [("features", .arr js)] ++ m3), ?_, ?_⟩
  · rw [collection_marshal, FeatureCollection.print]
    simp only [FeatureCollection.kept, bindE_ok e1, bindE_ok e2, bindE_ok e3]
    rfl
  · rw [UnmarshalFeatureCollection, members_append, members_append, members_append]
    have s0 : members FeatureCollection.member (⟨"", [], none, []⟩ : FeatureCollection F) [("type", .str "FeatureCollection")] =
        .ok ⟨"FeatureCollection", [], none, []⟩ := members_one rfl
    have s1 : members FeatureCollection.member (⟨"FeatureCollection", [], none, []⟩ : FeatureCollection F) m1 =
        .ok ⟨"FeatureCollection", fc.BoundingBox, none, []⟩ := by
      refine t1 (fun j hj => by simp [FeatureCollection.member, FeatureCollection.set, fieldOf, collectionFields, hj, bind, Except.bind, pure, Except.pure]) fun hv => ?_
      rw [hv]
    have s2 : members FeatureCollection.member (⟨"FeatureCollection", fc.BoundingBox, none, []⟩ : FeatureCollection F) [("features", .arr js)] =
        .ok ⟨"FeatureCollection", fc.BoundingBox, some ((fc.Features.getD []).map (Option.map Feature.kept)), []⟩ := by
      refine members_one ?_
      simp [FeatureCollection.member, FeatureCollection.set, fieldOf, collectionFields, t2, bind, Except.bind, pure, Except.pure]
    rw [bindE_ok s0, bindE_ok s1, bindE_ok s2]
    refine t3 (fun js hj => ?_) fun hv => ?_
    · simp [FeatureCollection.member, FeatureCollection.set, fieldOf, collectionFields, toMap, hj, bind, Except.bind, pure, Except.pure]
    · rw [hv]

/-- C61 for single features: a feature with plain values comes back, but for `Geometry` and an empty map of properties. -/
theorem C61_feature_partial (f : Feature F) (h : f.Plain) : ∃ j, f.MarshalJSON = .ok j ∧ UnmarshalFeature j = .ok f.kept := by
  obtain ⟨m, h1, h2⟩ := feature_trip h
  exact ⟨_, h1, h2⟩

/-- C61 fails: the geometry of a feature is lost on the round trip. -/
theorem C61_geometry_false (p : Point F) : ∃ j f, (NewFeature (.point p)).MarshalJSON = .ok j ∧ UnmarshalFeature j = .ok f ∧ f.Geometry = .nil := by
  obtain ⟨o, ho, hN⟩ := newFeature_eq (.point p : Geometry F)
  obtain ⟨j, h1, h2⟩ := C61_feature_partial (NewFeature (.point p : Geometry F)) (by
    rw [hN]
    refine ⟨.nil, by simp, fun x hx => by cases hx; exact ho, fun m hm => by cases hm; exact ⟨List.Pairwise.nil, by simp⟩, List.Pairwise.nil, by simp⟩)
  exact ⟨j, _, h1, h2, rfl⟩

/-- C61, in part: but for geometries as in C56 the geometry can be had from the field `GeometryJson` of the features read. -/
theorem C61_geometries_partial (gs : List (Geometry F)) (h : ∀ g ∈ gs, Readable g ∧ (∀ rs, g ≠ .polygonZ rs) ∧ NoEmptyPart g ∧ ∀ x ∈ coords g, Finite x) :
    ∃ j fc fs, (addAll NewFeatureCollection (gs.map fun g => some (NewFeature g))).MarshalJSON = .ok j ∧
      UnmarshalFeatureCollection j = .ok fc ∧ fc.Features = some fs ∧
      List.Forall₂ (fun g f => ∃ f', f = some f' ∧ UnmarshalGeo f'.GeometryJson = .ok (.ok g)) gs fs := by
  have hfe : (addAll NewFeatureCollection (gs.map fun g => some (NewFeature g))).Features.getD [] = gs.map fun g => some (NewFeature g) := by
    rw [(addAll_features _ _).1]; rfl
  have hpl : ∀ g : Geometry F, (NewFeature g).Plain := by
    intro g
    obtain ⟨o, ho, hN⟩ := newFeature_eq g
    rw [hN]
    exact ⟨.nil, by simp, fun x hx => by cases hx; exact ho, fun m hm => by cases hm; exact ⟨List.Pairwise.nil, by simp⟩, List.Pairwise.nil, by simp⟩
  obtain ⟨j, h1, h2⟩ := C61_roundtrip_partial (addAll NewFeatureCollection (gs.map fun g => some (NewFeature g)))
    (by rw [(addAll_features _ _).2.1]; simp [NewFeatureCollection]) (by rw [(addAll_features _ _).2.2]; exact ⟨List.Pairwise.nil, by simp [NewFeatureCollection]⟩)
    (by
      intro l hl f hf
      rw [hl] at hfe
      simp only [Option.getD_some] at hfe
      rw [hfe] at hf
      obtain ⟨g, -, hg⟩ := List.mem_map.1 hf
      cases hg
      exact hpl g)
  refine ⟨j, _, _, h1, h2, rfl, ?_⟩
  rw [hfe, List.map_map]
  clear hfe h1 h2
  induction gs with
  | nil => exact .nil
  | cons g gs ih =>
    refine .cons ⟨(NewFeature g).kept, rfl, ?_⟩ (ih fun g hg => h g (List.mem_cons_of_mem _ hg))
    obtain ⟨hr, hz, hn, hf⟩ := h g List.mem_cons_self
    obtain ⟨j, o, e1, e2, e3⟩ := C56_roundtrip g hr hz hn hf
    show UnmarshalGeo (NewFeature g).GeometryJson = _
    rw [NewFeature, e1]
    simp only [e2]
    exact e3

end

/-! ### cases that meet the hypotheses, over `float64` -/

/-- a triangle with a triangular hole -/
def sample : Geometry Float :=
  .polygon [[⟨0, 0⟩, ⟨4, 0⟩, ⟨0, 4⟩, ⟨0, 0⟩], [⟨1.5, 1⟩, ⟨2, 1⟩, ⟨1, 2⟩, ⟨1.5, 1⟩]]

theorem sample_finite : ∀ x ∈ coords sample, Finite x := by
  have : (coords sample).all (fun x => !isNaN x && !eq x inf && !eq x (-inf)) = true := by decide +kernel
  intro x hx
  have h := List.all_eq_true.1 this x hx
  simp only [Bool.and_eq_true, Bool.not_eq_true'] at h
  exact ⟨h.1.1, h.1.2, h.2⟩

theorem sample_parts : NoEmptyPart sample := ⟨by simp, by simp⟩

/-- hypotheses of C82, C56 and of the second half of C57 -/
example : Writable sample ∧ Readable sample ∧ (∀ rs, sample ≠ .polygonZ rs) ∧ NoEmptyPart sample ∧ ∀ x ∈ coords sample, Finite x :=
  ⟨trivial, trivial, fun _ h => (by cases h), sample_parts, sample_finite⟩

/-- hypothesis of C57_multi_false -/
example : ∃ j o e, MarshalGeo (.multiPoint [⟨1, 2⟩] : Geometry Float) = .ok j ∧ Obj.zero.unmarshal j = .ok o ∧ UnmarshalGeo (some o) = .ok (.error e) :=
  C57_multi_false _ trivial (by
    have : (coords (.multiPoint [⟨1, 2⟩] : Geometry Float)).all (fun x => !isNaN x && !eq x inf && !eq x (-inf)) = true := by decide +kernel
    intro x hx
    have h := List.all_eq_true.1 this x hx
    simp only [Bool.and_eq_true, Bool.not_eq_true'] at h
    exact ⟨h.1.1, h.1.2, h.2⟩)

/-- both sides of C57_marshal_partial happen: NaN is not printed -/
example : ¬ ∃ j, MarshalGeo (.point ⟨1, 0 / 0⟩ : Geometry Float) = .ok j := fun h =>
  absurd (((C57_marshal_partial _).1 h).2 (0 / 0) (by simp [coords, xy])).1 (by decide +kernel)

/-- both sides of C58_reads_partial and C58_panics_partial happen: a line with altitudes, the last position with one value more … -/
example (x : Float) : UnmarshalGeo (some ⟨"LineString", .slice [.slice [.float x, .float 1, .float 2], .slice [.float 3, .float 4, .float 5, .nil]], .nil, []⟩) =
    .ok (.ok (.lineStringZ [⟨x, 1, 2⟩, ⟨3, 4, 5⟩])) :=
  (C58_reads_partial _ (.inr (.inl rfl)) _).2 ⟨_, rfl, .inr (.inl ⟨rfl, _, rfl, .inl ⟨⟨_, List.mem_cons_self, _, _, _, rfl⟩, _,
    .cons ⟨_, rfl⟩ (.cons ⟨_, rfl⟩ .nil), rfl⟩⟩)⟩

/-- … and one whose last position has too few. -/
example (x : Float) : ∃ p, UnmarshalGeo (some ⟨"LineString", .slice [.slice [.float x, .float 1, .float 2], .slice [.float 3, .float 4]], .nil, []⟩) =
    .error p := ⟨_, rfl⟩

/-- hypotheses of C59_partial: a feature with a box -/
example : ∃ j, Feature.MarshalJSON { (Feature.zero : Feature Float) with BoundingBox := [0, 0, 4, 4] } = .ok j ∧
    Json.get j "bbox" = some (.arr [.num 0, .num 0, .num 4, .num 4]) := by
  obtain ⟨j, hj, -⟩ := C61_feature_partial { (Feature.zero : Feature Float) with BoundingBox := [0, 0, 4, 4] }
    ⟨.nil, by
      have : [(0 : Float), 0, 4, 4].all (fun x => !isNaN x && !eq x inf && !eq x (-inf)) = true := by decide +kernel
      intro x hx
      have h := List.all_eq_true.1 this x hx
      simp only [Bool.and_eq_true, Bool.not_eq_true'] at h
      exact ⟨h.1.1, h.1.2, h.2⟩, fun _ h => (by cases h), fun _ h => (by cases h), List.Pairwise.nil, by simp [Feature.zero]⟩
  exact ⟨j, hj, C59_partial _ j (by simp) hj⟩

/-- C60: overwritten, other type, untouched -/
example (f : Feature Float) :
    PropertyString (setAll f [("a", .int 1), ("b", .bool true), ("a", .str "x")]) "a" = .ok "x" ∧
    (∀ i, PropertyInt (fun _ => 0) (setAll f [("a", .int 1), ("b", .bool true), ("a", .str "x")]) "a" ≠ .ok i) ∧
    PropertyBool (setAll f [("a", .int 1), ("b", .bool true), ("a", .str "x")]) "c" = PropertyBool f "c" :=
  ⟨((C60_last (fun _ => 0) f _ "a" (.str "x") rfl).2.2.1 "x").2 rfl,
    fun i h => by have := ((C60_last (fun _ => 0) f _ "a" (.str "x") rfl).2.2.2 i).1 h; simp at this,
    (C60_others (fun _ => 0) f _ "c" rfl).1⟩

/-- hypotheses of C61_geometries_partial, and so of C61_roundtrip_partial and C61_members -/
example : ∃ j fc fs, (addAll NewFeatureCollection ([sample, sample].map fun g => some (NewFeature g))).MarshalJSON = .ok j ∧
      UnmarshalFeatureCollection j = .ok fc ∧ fc.Features = some fs ∧
      List.Forall₂ (fun g f => ∃ f', f = some f' ∧ UnmarshalGeo f'.GeometryJson = .ok (.ok g)) [sample, sample] fs :=
  C61_geometries_partial _ (by
    intro g hg
    simp only [List.mem_cons, List.not_mem_nil, or_false, or_self] at hg
    subst hg
    exact ⟨trivial, fun _ h => (by cases h), sample_parts, sample_finite⟩)

/-- a feature with an id, properties and a reference system is plain -/
example : Feature.Plain (⟨.str "f1", "", [], none, some [("name", .str "A"), ("tags", .slice [.bool true, .nil])], [("type", .str "name")], sample⟩ : Feature Float) := by
  refine ⟨.str _, by simp, by simp, ?_, ⟨List.pairwise_singleton _ _, ?_⟩⟩
  · intro m hm
    cases hm
    refine ⟨show ["name", "tags"].Pairwise (· < ·) by decide, fun e he => ?_⟩
    simp only [List.mem_cons, List.not_mem_nil, or_false] at he
    rcases he with rfl | rfl
    · exact .str _
    · refine .slice _ fun v hv => ?_
      simp only [List.mem_cons, List.not_mem_nil, or_false] at hv
      rcases hv with rfl | rfl
      · exact .bool _
      · exact .nil
  · intro e he
    simp only [List.mem_cons, List.not_mem_nil, or_false] at he
    subst he
    exact .str _

end GoGeo
