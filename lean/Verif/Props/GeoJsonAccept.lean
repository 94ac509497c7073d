import Verif.Props.GeoJsonAbsent

/-!
# C174: which documents are read as features and collections

Exactly those whose standard members have values of the right kind; everything else is an error.
-/

namespace GoGeo.Spec
open Json GeoJson

variable {A : Type}

/-- null or a string -/
def TextValue (j : Json A) : Prop := j = .null ∨ ∃ s, j = .str s
/-- null or an array of numbers and nulls -/
def NumbersValue (j : Json A) : Prop := j = .null ∨ ∃ l, j = .arr l ∧ ∀ x ∈ l, x = .null ∨ ∃ n, x = .num n

/-- null or a geometry object with members of the right kind; coordinates may be anything -/
def GeometryDoc (j : Json A) : Prop :=
  j = .null ∨ ∃ m, j = .obj m ∧ ∀ k x, (k, x) ∈ m → (CaseVariant "type" k → TextValue x) ∧ (CaseVariant "crs" k → NullOrObject x)

/-- null or a feature object with members of the right kind; the id may be anything -/
def FeatureDoc (j : Json A) : Prop :=
  j = .null ∨ ∃ m, j = .obj m ∧ ∀ k x, (k, x) ∈ m → (CaseVariant "type" k → TextValue x) ∧ (CaseVariant "bbox" k → NumbersValue x) ∧
    (CaseVariant "geometry" k → GeometryDoc x) ∧ (CaseVariant "properties" k → NullOrObject x) ∧ (CaseVariant "crs" k → NullOrObject x)

/-- null or a feature collection object with members of the right kind -/
def CollectionDoc (j : Json A) : Prop :=
  j = .null ∨ ∃ m, j = .obj m ∧ ∀ k x, (k, x) ∈ m → (CaseVariant "type" k → TextValue x) ∧ (CaseVariant "bbox" k → NumbersValue x) ∧
    (CaseVariant "features" k → x = .null ∨ ∃ l, x = .arr l ∧ ∀ f ∈ l, FeatureDoc f) ∧ (CaseVariant "crs" k → NullOrObject x)

end GoGeo.Spec

set_option linter.unusedSectionVars false

namespace GoGeo.GeoJson
open GoFloat Json JsonText Spec Rfc8259 F64 Strconv FloatVal

/-- there is a result, not an error -/
def IsOk {α : Type} (x : Except String α) : Prop := ∃ a, x = .ok a

section
variable {F : Type} [GoFloat F]

theorem isOk_bind {α β : Type} {x : Except String α} {f : α → β} : IsOk (x >>= fun a => pure (f a)) ↔ IsOk x := by
  constructor
  · rintro ⟨b, h⟩; obtain ⟨a, h, -⟩ := bindE_iff.1 h; exact ⟨a, h⟩
  · rintro ⟨a, h⟩; exact ⟨f a, bindE_iff.2 ⟨a, h, rfl⟩⟩

theorem isOk_map {α β : Type} {x : Except String α} {f : α → β} : IsOk (f <$> x) ↔ IsOk x := by
  cases x with
  | ok a => exact ⟨fun _ => ⟨a, rfl⟩, fun _ => ⟨f a, rfl⟩⟩
  | error e => exact ⟨(fun ⟨_, h⟩ => nomatch h), (fun ⟨_, h⟩ => nomatch h)⟩

theorem isOk_ok {α : Type} {a : α} : IsOk (.ok a : Except String α) := ⟨a, rfl⟩
theorem isOk_error {α : Type} {e : String} : ¬ IsOk (.error e : Except String α) := by rintro ⟨a, h⟩; cases h

theorem members_isOk {σ : Type} {f : σ → String → Json F → Except String σ} {G : String → Json F → Prop} (hf : ∀ s k j, IsOk (f s k j) ↔ G k j) :
    ∀ (m : List (String × Json F)) (s : σ), IsOk (members f s m) ↔ ∀ k x, (k, x) ∈ m → G k x
  | [], s => by simp [members, isOk_ok]
  | (k, j) :: m, s => by
    constructor
    · rintro ⟨t, h⟩
      rw [members, bindE_iff] at h
      obtain ⟨a, h1, h2⟩ := h
      intro k' x' hm
      rcases List.mem_cons.1 hm with e | hm
      · cases e; exact (hf s k j).1 ⟨a, h1⟩
      · exact (members_isOk hf m a).1 ⟨t, h2⟩ k' x' hm
    · intro h
      obtain ⟨a, h1⟩ := (hf s k j).2 (h k j List.mem_cons_self)
      obtain ⟨t, h2⟩ := (members_isOk hf m a).2 fun k x hm => h k x (List.mem_cons_of_mem _ hm)
      exact ⟨t, by rw [members, bindE_ok h1, h2]⟩

/-- a member is looked at for what its name stands for -/
theorem field_isOk {σ : Type} {s : σ} {set : String → Json F → Except String σ} {names : List String} (hl : ∀ n ∈ names, ∀ a ∈ n.toList, a ∈ letters) {G : String → Json F → Prop}
    (hset : ∀ n ∈ names, ∀ j, IsOk (set n j) ↔ G n j) (k : String) (j : Json F) :
    IsOk (match fieldOf names k with | some n => set n j | none => .ok s) ↔ ∀ n ∈ names, CaseVariant n k → G n j := by
  split
  · rename_i n hk
    have hv := Reuse.fieldOf_some hk
    have hn : n ∈ names := by
      unfold fieldOf at hk
      split at hk
      · cases hk; exact List.contains_iff_mem.1 ‹_›
      · exact List.mem_of_find?_eq_some hk
    rw [hset n hn]
    constructor
    · intro h n' hn' hv'
      have := fieldOf_variant hl hn' hv'
      rw [hk] at this
      cases this; exact h
    · exact fun h => h n hn hv
  · rename_i hk
    refine ⟨fun _ n hn hv => ?_, fun _ => isOk_ok⟩
    rw [fieldOf_variant hl hn hv] at hk
    cases hk

theorem toStr_isOk (old : String) (j : Json F) : IsOk (toStr old j) ↔ TextValue j := by
  cases j <;> simp [toStr, isOk_ok, isOk_error, TextValue]

theorem toMap_isOk (old : Option (List (String × Val F))) (j : Json F) : IsOk (toMap old j) ↔ NullOrObject j := by
  cases j <;> simp [toMap, isOk_ok, isOk_error, NullOrObject]

theorem mapE_isOk {α β : Type} {f : α → Except String β} {G : α → Prop} (hf : ∀ a, IsOk (f a) ↔ G a) (l : List α) : IsOk (mapE f l) ↔ ∀ a ∈ l, G a := by
  induction l with
  | nil => simp [mapE, isOk_ok]
  | cons a l ih =>
    rw [List.forall_mem_cons, ← hf, ← ih]
    constructor
    · rintro ⟨b, h⟩
      rw [mapE, bindE_iff] at h
      obtain ⟨x, h1, h2⟩ := h
      obtain ⟨y, h3, -⟩ := bindE_iff.1 h2
      exact ⟨⟨x, h1⟩, ⟨y, h3⟩⟩
    · rintro ⟨⟨x, h1⟩, ⟨y, h3⟩⟩
      exact ⟨x :: y, by rw [mapE, bindE_ok h1, bindE_ok h3]; rfl⟩

theorem toNums_isOk (j : Json F) : IsOk (toNums j) ↔ NumbersValue j := by
  cases j with
  | arr l =>
    rw [toNums, mapE_isOk (G := fun x => x = .null ∨ ∃ n, x = .num n) (fun x => by cases x <;> simp [toNum, isOk_ok, isOk_error])]
    simp [NumbersValue]
  | _ => simp [toNums, isOk_ok, isOk_error, NumbersValue]

/-- **C174 (geometries).** -/
theorem C174_geometry (o : Obj F) (j : Json F) : (∃ o', o.unmarshal j = .ok o') ↔ GeometryDoc j := by
  change IsOk _ ↔ _
  cases j with
  | obj m =>
    rw [Obj.unmarshal, members_isOk (G := fun k x => ∀ n ∈ geometryNames, CaseVariant n k → (n = "type" → TextValue x) ∧ (n = "crs" → NullOrObject x))]
    · simp [GeometryDoc, geometryNames]
    · intro s k j
      rw [obj_member]
      refine field_isOk (s := s) (set := s.set) letters_geometry (G := fun n x => (n = "type" → TextValue x) ∧ (n = "crs" → NullOrObject x)) ?_ k j
      intro n hn j
      simp only [geometryNames, List.mem_cons, List.not_mem_nil, or_false] at hn
      rcases hn with rfl | rfl | rfl | rfl <;> simp [Obj.set, isOk_ok, isOk_map, toStr_isOk, toMap_isOk]
  | _ => simp [Obj.unmarshal, isOk_ok, isOk_error, GeometryDoc]

/-- what a member of a feature has to be -/
def FeatureMember (n : String) (x : Json F) : Prop :=
  (n = "type" → TextValue x) ∧ (n = "bbox" → NumbersValue x) ∧ (n = "geometry" → GeometryDoc x) ∧ (n = "properties" → NullOrObject x) ∧ (n = "crs" → NullOrObject x)

theorem feature_set_isOk (f : Feature F) (n : String) (hn : n ∈ featureNames) (j : Json F) : IsOk (f.set n j) ↔ FeatureMember n j := by
  simp only [featureNames, List.mem_cons, List.not_mem_nil, or_false] at hn
  rcases hn with rfl | rfl | rfl | rfl | rfl | rfl
  · simp [Feature.set, isOk_ok, FeatureMember]
  · simp [Feature.set, isOk_map, toStr_isOk, FeatureMember]
  · simp [Feature.set, isOk_map, toNums_isOk, FeatureMember]
  · have : FeatureMember "geometry" j ↔ GeometryDoc j := by simp [FeatureMember]
    rw [this]
    cases j with
    | null => simp [Feature.set, isOk_ok, GeometryDoc]
    | _ => simp [Feature.set, isOk_map]; exact C174_geometry _ _
  · simp [Feature.set, isOk_map, toMap_isOk, FeatureMember]
  · simp [Feature.set, isOk_map, toMap_isOk, FeatureMember]

theorem featureDoc_iff (m : List (String × Json F)) : FeatureDoc (.obj m) ↔ ∀ k x, (k, x) ∈ m → ∀ n ∈ featureNames, CaseVariant n k → FeatureMember n x := by
  simp [FeatureDoc, featureNames, FeatureMember]

theorem feature_isOk (f : Feature F) (j : Json F) : IsOk (f.unmarshal j) ↔ FeatureDoc j := by
  cases j with
  | obj m =>
    rw [featureDoc_iff, Feature.unmarshal, members_isOk]
    intro s k j
    rw [feature_member]
    exact field_isOk (s := s) (set := s.set) letters_feature (feature_set_isOk s) k j
  | _ => simp [Feature.unmarshal, isOk_ok, isOk_error, FeatureDoc]

/-- **C174 (features).** A document is read as a feature exactly when its standard members have values of the right kind. -/
theorem C174_feature (j : Json F) : (∃ f, UnmarshalFeature j = .ok f) ↔ FeatureDoc j := feature_isOk _ j

/-- what a member of a collection has to be -/
def CollectionMember (n : String) (x : Json F) : Prop :=
  (n = "type" → TextValue x) ∧ (n = "bbox" → NumbersValue x) ∧ (n = "features" → x = .null ∨ ∃ l, x = .arr l ∧ ∀ f ∈ l, FeatureDoc f) ∧ (n = "crs" → NullOrObject x)

theorem collectionDoc_iff (m : List (String × Json F)) :
    CollectionDoc (.obj m) ↔ ∀ k x, (k, x) ∈ m → ∀ n ∈ collectionNames, CaseVariant n k → CollectionMember n x := by
  simp [CollectionDoc, collectionNames, CollectionMember]

theorem toFeature_isOk (j : Json F) : IsOk (toFeature j) ↔ FeatureDoc j := by
  cases j with
  | null => simp [toFeature, isOk_ok, FeatureDoc]
  | _ => simp only [toFeature, isOk_bind]; exact feature_isOk _ _

theorem collection_set_isOk (c : FeatureCollection F) (n : String) (hn : n ∈ collectionNames) (j : Json F) : IsOk (c.set n j) ↔ CollectionMember n j := by
  simp only [collectionNames, List.mem_cons, List.not_mem_nil, or_false] at hn
  rcases hn with rfl | rfl | rfl | rfl
  · simp [FeatureCollection.set, isOk_map, toStr_isOk, CollectionMember]
  · simp [FeatureCollection.set, isOk_map, toNums_isOk, CollectionMember]
  · cases j with
    | arr l => simp [FeatureCollection.set, isOk_map, CollectionMember, mapE_isOk toFeature_isOk]
    | _ => simp [FeatureCollection.set, isOk_ok, isOk_error, CollectionMember]
  · simp [FeatureCollection.set, isOk_map, toMap_isOk, CollectionMember]

/-- **C174 (collections).** A document is read as a collection exactly when its standard members have values of the right kind. -/
theorem C174_collection (j : Json F) : (∃ c, UnmarshalFeatureCollection j = .ok c) ↔ CollectionDoc j := by
  change IsOk _ ↔ _
  cases j with
  | obj m =>
    rw [collectionDoc_iff, UnmarshalFeatureCollection, members_isOk]
    intro s k j
    rw [collection_member]
    exact field_isOk (s := s) (set := s.set) letters_collection (collection_set_isOk s) k j
  | _ => simp [UnmarshalFeatureCollection, isOk_ok, isOk_error, CollectionDoc]

/-! ### repeated members

The same with the cells of earlier values of the same member kept (Verif/GeoJson/Reuse.lean). -/

theorem readFrom_isOk {α : Type} {zero : α} {dec : α → Json F → Except String α} {G : Json F → Prop} (hd : ∀ a j, IsOk (dec a j) ↔ G j) :
    ∀ (l : List (Json F)) (i : Nat) (b : Reuse.Buf α), IsOk (Reuse.readFrom zero dec l i b) ↔ ∀ j ∈ l, G j
  | [], i, b => by simp [Reuse.readFrom, isOk_ok]
  | j :: l, i, b => by
    rw [List.forall_mem_cons, ← hd ((b.grow zero i).getD i zero) j]
    constructor
    · rintro ⟨r, h⟩
      rw [Reuse.readFrom] at h
      obtain ⟨x, h1, h2⟩ := bindE_iff.1 h
      exact ⟨⟨x, h1⟩, (readFrom_isOk hd l _ _).1 ⟨r, h2⟩⟩
    · rintro ⟨⟨x, h1⟩, h⟩
      obtain ⟨r, h2⟩ := (readFrom_isOk hd l (i + 1) ⟨(b.grow zero i).set i x, max b.len (i + 1)⟩).2 h
      exact ⟨r, by rw [Reuse.readFrom]; exact bindE_iff.2 ⟨x, h1, h2⟩⟩

theorem numsInto_isOk (b : Reuse.Buf F) (j : Json F) : IsOk (Reuse.numsInto b j) ↔ NumbersValue j := by
  cases j with
  | arr l =>
    rw [Reuse.numsInto, readFrom_isOk (G := fun x => x = .null ∨ ∃ n, x = .num n) (fun a x => by cases x <;> simp [Reuse.numInto, isOk_ok, isOk_error])]
    simp [NumbersValue]
  | _ => simp [Reuse.numsInto, isOk_ok, isOk_error, NumbersValue]

theorem feat_isOk (s : Reuse.Feat F) (j : Json F) : IsOk (s.unmarshal j) ↔ FeatureDoc j := by
  cases j with
  | obj m =>
    rw [featureDoc_iff, Reuse.Feat.unmarshal, members_isOk]
    intro s k j
    refine field_isOk (s := s) (set := s.set) letters_feature (fun n hn j => ?_) k j
    by_cases e : n = "bbox"
    · subst e
      simp [Reuse.Feat.set, isOk_map, numsInto_isOk, FeatureMember]
    · rw [← feature_set_isOk s.f n hn j]
      simp [Reuse.Feat.set, isOk_map, e]
  | _ => simp [Reuse.Feat.unmarshal, isOk_ok, isOk_error, FeatureDoc]

/-- **C174 (repeated members).** Members that occur several times do not change this: the same documents are accepted when the elements of earlier values are kept as encoding/json does. -/
theorem C174_repeated (j : Json F) : ((∃ f, Reuse.UnmarshalFeature j = .ok f) ↔ FeatureDoc j) ∧ ((∃ c, Reuse.UnmarshalFeatureCollection j = .ok c) ↔ CollectionDoc j) := by
  constructor
  · change IsOk _ ↔ _
    rw [Reuse.UnmarshalFeature, isOk_bind, feat_isOk]
  · change IsOk _ ↔ _
    cases j with
    | obj m =>
      rw [collectionDoc_iff, Reuse.UnmarshalFeatureCollection, isOk_bind, members_isOk]
      intro s k j
      refine field_isOk (s := s) (set := s.set) letters_collection (fun n hn j => ?_) k j
      by_cases e : n = "bbox"
      · subst e
        simp [Reuse.Coll.set, isOk_map, numsInto_isOk, CollectionMember]
      · by_cases e' : n = "features"
        · subst e'
          cases j with
          | arr l =>
            have hd : ∀ (a : Option (Reuse.Feat F)) (j : Json F), IsOk (Reuse.featInto a j) ↔ FeatureDoc j := by
              intro a j
              cases j with
              | null => simp [Reuse.featInto, isOk_ok, FeatureDoc]
              | _ => simp only [Reuse.featInto, isOk_bind]; exact feat_isOk _ _
            simp [Reuse.Coll.set, isOk_map, CollectionMember, readFrom_isOk hd]
          | _ => simp [Reuse.Coll.set, isOk_ok, isOk_error, CollectionMember]
        · rw [← collection_set_isOk s.fc n hn j]
          simp [Reuse.Coll.set, isOk_map, e, e']
    | _ => simp [Reuse.UnmarshalFeatureCollection, isOk_ok, isOk_error, CollectionDoc]

end

/-- **C174 (texts).** The same for texts of at most 10000 levels, with any layout, whose numbers are in the range of `float64`. -/
theorem C174_text (j : Json Float) (s : List Char) (h : Doc (fun x t => parseFloat t = some x) j s) (hn : nesting j ≤ 10000) :
    ((∃ f, UnmarshalFeatureText s = .ok f) ↔ FeatureDoc j) ∧ ((∃ c, UnmarshalFeatureCollectionText s = .ok c) ↔ CollectionDoc j) := by
  obtain ⟨-, h2, h3⟩ := C108_layout j s h hn
  rw [h2, h3]
  exact ⟨C174_feature j, C174_collection j⟩

/-- a collection with a feature in it is accepted; one whose feature has a number as its type is not -/
example : CollectionDoc (.obj [("features", .arr [.null, .obj [("TYPE", .str "Feature"), ("id", .num 3.5)]])] : Json Float) ∧
    ¬ CollectionDoc (.obj [("features", .arr [.null, .obj [("TYPE", .num 3.5)]])] : Json Float) := by
  have hv : CaseVariant "type" "TYPE" := (equalFold_iff _ _).1 (by decide +kernel)
  constructor
  · refine .inr ⟨_, rfl, ?_⟩
    intro k x hm
    simp only [List.mem_singleton, Prod.mk.injEq] at hm
    obtain ⟨rfl, rfl⟩ := hm
    refine ⟨fun h => ?_, fun h => ?_, fun _ => .inr ⟨_, rfl, ?_⟩, fun h => ?_⟩
    · have := h.length_eq; simp at this
    · have := h.length_eq; simp at this
    · intro f hf
      simp only [List.mem_cons, List.not_mem_nil, or_false] at hf
      rcases hf with rfl | rfl
      · exact .inl rfl
      · refine .inr ⟨_, rfl, ?_⟩
        intro k x hm
        simp only [List.mem_cons, Prod.mk.injEq, List.not_mem_nil, or_false] at hm
        rcases hm with ⟨rfl, rfl⟩ | ⟨rfl, rfl⟩
        · refine ⟨fun _ => .inr ⟨_, rfl⟩, fun h => ?_, fun h => ?_, fun h => ?_, fun h => ?_⟩
          · exact absurd ((equalFold_iff _ _).2 h) (by decide +kernel)
          · have := h.length_eq; simp at this
          · have := h.length_eq; simp at this
          · have := h.length_eq; simp at this
        · refine ⟨fun h => ?_, fun h => ?_, fun h => ?_, fun h => ?_, fun h => ?_⟩ <;> (have := h.length_eq; simp at this)
    · have := h.length_eq; simp at this
  · rintro (h | ⟨m, h, hm⟩)
    · cases h
    · cases h
      rcases (hm "features" _ List.mem_cons_self).2.2.1 (variant_self _) with h | ⟨l, h, hl⟩
      · cases h
      · cases h
        rcases hl _ (List.mem_cons_of_mem _ List.mem_cons_self) with h | ⟨m, h, hm⟩
        · cases h
        · cases h
          rcases (hm "TYPE" _ List.mem_cons_self).1 hv with h | ⟨s, h⟩ <;> cases h

end GoGeo.GeoJson
