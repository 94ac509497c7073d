import Verif.Props.GeoJsonProps

/-!
# C176: the parts of a document are read like documents of their own

The features of a collection like features, and the geometry of a feature like a geometry object.
-/

set_option linter.unusedSectionVars false

namespace GoGeo.GeoJson
open GoFloat Json JsonText Spec Rfc8259 F64 Strconv FloatVal

section
variable {F : Type} [GoFloat F]

/-- what only the member `n` changes is what that member made of the first value -/
theorem members_only {σ α : Type} {f set : σ → String → Json F → Except String σ} {names : List String} {n : String} {get : σ → α}
    (hf : ∀ s k j, f s k j = match fieldOf names k with | some n => set s n j | none => .ok s) (hl : ∀ n ∈ names, ∀ a ∈ n.toList, a ∈ letters) (hn : n ∈ names)
    (hset : ∀ s k j s', k ≠ n → set s k j = .ok s' → get s' = get s) {a c : List (String × Json F)} {k : String} {x : Json F} {s s' : σ} (hk : CaseVariant n k)
    (ha : Absent n a) (hc : Absent n c) (h : members f s (a ++ (k, x) :: c) = .ok s') :
    ∃ t t', get t = get s ∧ set t n x = .ok t' ∧ get s' = get t' := by
  have keep {m : List (String × Json F)} (hm : Absent n m) {s s' : σ} (h : members f s m = .ok s') : get s' = get s := by
    refine members_keep (P := fun t => get t = get s) m s s' (fun t k j t' hk hP ht => ?_) rfl h
    rw [hf] at ht
    split at ht
    · rename_i n' hn'
      rw [hset t n' j t' (fun e => hm (k, j) hk (e ▸ Reuse.fieldOf_some hn')) ht, hP]
    · cases ht; exact hP
  rw [members_append, bindE_iff] at h
  obtain ⟨t, h1, h2⟩ := h
  rw [members, bindE_iff] at h2
  obtain ⟨t', h2, h3⟩ := h2
  rw [hf, fieldOf_variant hl hn hk] at h2
  exact ⟨t, t', keep ha h1, h2, keep hc h3⟩

/-- **C176 (geometry).** The geometry of a feature is what its member `geometry` is on its own; null is no geometry. -/
theorem C176_geometry {a c : List (String × Json F)} {k : String} {g : Json F} {f : Feature F} (hk : CaseVariant "geometry" k) (ha : Absent "geometry" a)
    (hc : Absent "geometry" c) (h : UnmarshalFeature (.obj (a ++ (k, g) :: c)) = .ok f) :
    (g = .null ∧ f.GeometryJson = none) ∨ (g ≠ .null ∧ ∃ o, f.GeometryJson = some o ∧ Obj.zero.unmarshal g = .ok o) := by
  obtain ⟨t, t', h1, h2, h3⟩ := members_only (get := Feature.GeometryJson) (names := featureNames) feature_member letters_feature (by decide)
    (fun s k j s' hk hs => (feature_set hs).2.2.2.1 hk) hk ha hc h
  have h1 : t.GeometryJson = none := h1
  rw [h3]
  by_cases hg : g = .null
  · subst hg
    refine .inl ⟨rfl, ?_⟩
    simp [Feature.set] at h2
    cases h2; rfl
  · refine .inr ⟨hg, ?_⟩
    have e : t.set "geometry" g = (Obj.zero.unmarshal g >>= fun o => pure { t with GeometryJson := some o }) := by
      cases g <;> first | exact absurd rfl hg | (simp [Feature.set, h1])
    rw [e, bindE_iff] at h2
    obtain ⟨o, h4, h5⟩ := h2
    cases h5
    exact ⟨o, rfl, h4⟩

/-- **C176 (features).** The features of a collection are, in order, what the elements of its member `features` are on their own; null elements are nil pointers. -/
theorem C176_features {a c : List (String × Json F)} {k : String} {l : List (Json F)} {fc : FeatureCollection F} (hk : CaseVariant "features" k) (ha : Absent "features" a)
    (hc : Absent "features" c) (h : UnmarshalFeatureCollection (.obj (a ++ (k, .arr l) :: c)) = .ok fc) :
    ∃ fs, fc.Features = some fs ∧ List.Forall₂ (fun j o => (j = .null ∧ o = none) ∨ (j ≠ .null ∧ ∃ f, o = some f ∧ UnmarshalFeature j = .ok f)) l fs := by
  obtain ⟨t, t', -, h2, h3⟩ := members_only (get := FeatureCollection.Features) (names := collectionNames) collection_member letters_collection (by decide)
    (fun s k j s' hk hs => (collection_set hs).2.2.1 hk) hk ha hc h
  have e : t.set "features" (.arr l) = (mapE toFeature l >>= fun fs => pure { t with Features := some fs }) := by simp [FeatureCollection.set]
  rw [e, bindE_iff] at h2
  obtain ⟨fs, h4, h5⟩ := h2
  cases h5
  refine ⟨fs, h3, (mapE_iff.1 h4).imp fun j o hj => ?_⟩
  by_cases hn : j = .null
  · subst hn; cases hj; exact .inl ⟨rfl, rfl⟩
  · have e : toFeature j = (UnmarshalFeature j >>= fun f => pure (some f)) := by cases j <;> first | exact absurd rfl hn | rfl
    rw [e, bindE_iff] at hj
    obtain ⟨f, h6, h7⟩ := hj
    cases h7
    exact .inr ⟨hn, f, rfl, h6⟩

end

/-- **C176 (texts).** A collection is read from a text of any layout: the geometry object of each feature is that of the element, so that `UnmarshalGeo` gives what it gives for the element's
geometry alone. -/
theorem C176_text {a c : List (String × Json Float)} {k : String} {l : List (Json Float)} {s : List Char} {fc : FeatureCollection Float} (hk : CaseVariant "features" k)
    (ha : Absent "features" a) (hc : Absent "features" c) (hd : Doc (fun x t => parseFloat t = some x) (.obj (a ++ (k, .arr l) :: c)) s)
    (hn : nesting (.obj (a ++ (k, .arr l) :: c)) ≤ 10000) (h : UnmarshalFeatureCollectionText s = .ok fc) :
    ∃ fs, fc.Features = some fs ∧ List.Forall₂ (fun j o => (j = .null ∧ o = none) ∨ (j ≠ .null ∧ ∃ f, o = some f ∧ UnmarshalFeature j = .ok f ∧
      ∀ (a' c' : List (String × Json Float)) (k' : String) (g : Json Float), j = .obj (a' ++ (k', g) :: c') → CaseVariant "geometry" k' → Absent "geometry" a' → Absent "geometry" c' →
        g ≠ .null → ∃ r, Obj.zero.unmarshal g = .ok r ∧ UnmarshalGeo f.GeometryJson = UnmarshalGeo (some r))) l fs := by
  obtain ⟨fs, h1, h2⟩ := C176_features hk ha hc (by rw [← (C108_layout _ s hd hn).2.2]; exact h)
  refine ⟨fs, h1, h2.imp fun j o ho => ho.imp_right fun ⟨h3, f, h4, h5⟩ => ⟨h3, f, h4, h5, ?_⟩⟩
  rintro a' c' k' g rfl hk' ha' hc' hg
  rcases C176_geometry hk' ha' hc' h5 with ⟨e, -⟩ | ⟨-, r, h6, h7⟩
  · exact absurd e hg
  · exact ⟨r, h7, by rw [h6]⟩

/-- the hypotheses of C176 are met by a collection with a null, a feature without members and a foreign member -/
example : ∃ fc : FeatureCollection Float, UnmarshalFeatureCollection (.obj ([("name", .str "x")] ++ ("features", .arr [.null, .obj []]) :: [])) = .ok fc ∧
    Absent "features" ([("name", .str "x")] : List (String × Json Float)) ∧ fc.Features = some [none, some Feature.zero] := by
  have e1 : fieldOf collectionFields "name" = none := by decide +kernel
  have e2 : fieldOf collectionFields "features" = some "features" := by decide +kernel
  refine ⟨⟨"", [], some [none, some Feature.zero], []⟩, ?_, ?_, rfl⟩
  · simp [UnmarshalFeatureCollection, members, FeatureCollection.member, e1, e2, FeatureCollection.set, mapE, toFeature, Feature.unmarshal, bind, Except.bind, pure, Except.pure,
      Functor.map, Except.map]
  · intro e he hv
    simp only [List.mem_singleton] at he
    subst he
    have := hv.length_eq
    simp at this

end GoGeo.GeoJson
