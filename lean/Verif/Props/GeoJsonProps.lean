import Verif.Props.GeoJsonAccept

/-!
# C175: the properties of a feature that was read

The typed reads give exactly what the text says under that key, and an error when it says something else or nothing.
-/

namespace GoGeo.Spec
open Json

/-- `x` is the value of the last member with exactly this name -/
def LastOf {A : Type} (key : String) (m : List (String × Json A)) (x : Json A) : Prop :=
  ∃ a b, m = a ++ (key, x) :: b ∧ ∀ e ∈ b, e.1 ≠ key

end GoGeo.Spec

set_option linter.unusedSectionVars false

namespace GoGeo.GeoJson
open GoFloat Json JsonText Spec Rfc8259 F64 Strconv FloatVal

section
variable {F : Type} [GoFloat F]

theorem decodeMembers_append (a b : List (String × Json F)) (acc : List (String × Val F)) : decodeMembers (a ++ b) acc = decodeMembers b (decodeMembers a acc) := by
  induction a generalizing acc with
  | nil => rw [decodeMembers]; rfl
  | cons e a ih => rw [List.cons_append, decodeMembers, decodeMembers, ih]

theorem lookup_other {key : String} : ∀ (b : List (String × Json F)) (acc : List (String × Val F)), (∀ e ∈ b, e.1 ≠ key) → (decodeMembers b acc).lookup key = acc.lookup key
  | [], acc, _ => by rw [decodeMembers]
  | (k, j) :: b, acc, h => by
    rw [decodeMembers, lookup_other b _ fun e he => h e (List.mem_cons_of_mem _ he), lookup_setKey, if_neg fun e => h (k, j) List.mem_cons_self e.symm]

theorem lookup_last {key : String} {m : List (String × Json F)} {x : Json F} (h : LastOf key m x) (acc : List (String × Val F)) :
    (decodeMembers m acc).lookup key = some (decode x) := by
  obtain ⟨a, b, rfl, hb⟩ := h
  rw [decodeMembers_append, decodeMembers, lookup_other b _ hb, lookup_setKey, if_pos rfl]

/-- members without the name leave the properties alone -/
theorem properties_keep {m : List (String × Json F)} (hm : Absent "properties" m) {f f' : Feature F} (h : members Feature.member f m = .ok f') : f'.Properties = f.Properties := by
  refine members_keep (P := fun t => t.Properties = f.Properties) m f f' (fun t k j t' hk hP ht => ?_) rfl h
  rw [feature_member] at ht
  split at ht
  · rename_i n hn
    rw [(feature_set ht).2.2.2.2.1 (fun e => hm (k, j) hk (e ▸ Reuse.fieldOf_some hn)), hP]
  · cases ht; exact hP

theorem properties_read {a c ps : List (String × Json F)} {k : String} {f : Feature F} (hk : CaseVariant "properties" k) (ha : Absent "properties" a)
    (hc : Absent "properties" c) (h : UnmarshalFeature (.obj (a ++ (k, .obj ps) :: c)) = .ok f) : f.Properties = some (decodeMembers ps []) := by
  rw [UnmarshalFeature, Feature.unmarshal, members_append, bindE_iff] at h
  obtain ⟨f1, h1, h2⟩ := h
  rw [members, bindE_iff] at h2
  obtain ⟨f2, h2, h3⟩ := h2
  rw [properties_keep hc h3]
  have e : f1.Properties = none := properties_keep ha h1
  rw [feature_member, fieldOf_variant letters_feature (n := "properties") (by decide) hk] at h2
  simp only [Feature.set] at h2
  rw [if_neg (by decide), if_neg (by decide), if_neg (by decide), if_neg (by decide), if_pos trivial, toMap] at h2
  cases h2
  simp [e]

/-- **C175.** A feature is read from a document with one member `properties`, which is an object.  A typed read of a key gives a value exactly when the last member of that name in the object is
of that type, and then its value (`PropertyInt` takes numbers); when there is none, it gives an error. -/
theorem C175_typed (toInt : F → Int) {a c ps : List (String × Json F)} {k : String} {f : Feature F} (hk : CaseVariant "properties" k) (ha : Absent "properties" a)
    (hc : Absent "properties" c) (h : UnmarshalFeature (.obj (a ++ (k, .obj ps) :: c)) = .ok f) (key : String) :
    (∀ x, LastOf key ps x → (∀ b, PropertyBool f key = .ok b ↔ x = .bool b) ∧ (∀ y, PropertyFloat64 f key = .ok y ↔ x = .num y) ∧
      (∀ s, PropertyString f key = .ok s ↔ x = .str s) ∧ ∀ i, PropertyInt toInt f key = .ok i ↔ ∃ y, x = .num y ∧ toInt y = i) ∧
    ((∀ e ∈ ps, e.1 ≠ key) → (∃ e, PropertyBool f key = .error e) ∧ (∃ e, PropertyFloat64 f key = .error e) ∧ (∃ e, PropertyString f key = .error e) ∧
      ∃ e, PropertyInt toInt f key = .error e) := by
  have hp := properties_read hk ha hc h
  constructor
  · intro x hx
    have e : f.prop key = decode x := by rw [Feature.prop, hp]; simp only [lookup_last hx]; rfl
    simp only [PropertyBool, PropertyFloat64, PropertyString, PropertyInt, e]
    cases x <;> simp [decode]
  · intro hn
    have e : f.prop key = .nil := by rw [Feature.prop, hp]; simp only [lookup_other ps [] hn]; rfl
    simp only [PropertyBool, PropertyFloat64, PropertyString, PropertyInt, e]
    exact ⟨⟨_, rfl⟩, ⟨_, rfl⟩, ⟨_, rfl⟩, ⟨_, rfl⟩⟩

/-- **C175 (absent).** Without properties, or with null, every typed read gives an error. -/
theorem C175_absent (toInt : F → Int) {j : Json F} {f : Feature F} (h : UnmarshalFeature j = .ok f) (hn : ¬ Says j "properties") (key : String) :
    (∃ e, PropertyBool f key = .error e) ∧ (∃ e, PropertyFloat64 f key = .error e) ∧ (∃ e, PropertyString f key = .error e) ∧ ∃ e, PropertyInt toInt f key = .error e := by
  have e : f.prop key = .nil := by rw [Feature.prop, (C173_feature h).2.2.2.2.2.1 hn]
  simp only [PropertyBool, PropertyFloat64, PropertyString, PropertyInt, e]
  exact ⟨⟨_, rfl⟩, ⟨_, rfl⟩, ⟨_, rfl⟩, ⟨_, rfl⟩⟩

end

/-- **C175 (texts).** For a text of such a document, with any layout: what a typed read gives is what the text says; a number is read as the `float64` that `parseFloat` makes of it. -/
theorem C175_text (toInt : Float → Int) {a c ps : List (String × Json Float)} {k : String} {s : List Char} {f : Feature Float} (hk : CaseVariant "properties" k)
    (ha : Absent "properties" a) (hc : Absent "properties" c) (hd : Doc (fun x t => parseFloat t = some x) (.obj (a ++ (k, .obj ps) :: c)) s)
    (hn : nesting (.obj (a ++ (k, .obj ps) :: c)) ≤ 10000) (h : UnmarshalFeatureText s = .ok f) (key : String) :
    (∀ x, LastOf key ps x → (∀ b, PropertyBool f key = .ok b ↔ x = .bool b) ∧ (∀ y, PropertyFloat64 f key = .ok y ↔ x = .num y) ∧
      (∀ s, PropertyString f key = .ok s ↔ x = .str s) ∧ ∀ i, PropertyInt toInt f key = .ok i ↔ ∃ y, x = .num y ∧ toInt y = i) ∧
    ((∀ e ∈ ps, e.1 ≠ key) → (∃ e, PropertyBool f key = .error e) ∧ (∃ e, PropertyFloat64 f key = .error e) ∧ (∃ e, PropertyString f key = .error e) ∧
      ∃ e, PropertyInt toInt f key = .error e) :=
  C175_typed toInt hk ha hc (by rw [← (C108_layout _ s hd hn).2.1]; exact h) key

/-- the hypotheses of C175 are met: a feature whose properties say the name twice -/
example : ∃ f : Feature Float, UnmarshalFeature (.obj ([("type", .str "Feature")] ++ ("properties", .obj [("name", .str "a"), ("n", .null), ("name", .str "b")]) :: [])) = .ok f ∧
    PropertyString f "name" = .ok "b" := by
  have h1 : Absent "properties" ([("type", .str "Feature")] : List (String × Json Float)) := by
    intro e he hv
    simp only [List.mem_singleton] at he
    subst he
    have := hv.length_eq
    simp at this
  have hf : FeatureDoc (.obj ([("type", .str "Feature")] ++ ("properties", .obj [("name", .str "a"), ("n", .null), ("name", .str "b")]) :: []) : Json Float) := by
    refine .inr ⟨_, rfl, ?_⟩
    intro k x hm
    simp only [List.cons_append, List.nil_append, List.mem_cons, Prod.mk.injEq, List.not_mem_nil, or_false] at hm
    rcases hm with ⟨rfl, rfl⟩ | ⟨rfl, rfl⟩
    · refine ⟨fun _ => .inr ⟨_, rfl⟩, fun h => absurd ((equalFold_iff _ _).2 h) (by decide +kernel), fun h => ?_, fun h => ?_, fun h => ?_⟩ <;> (have := h.length_eq; simp at this)
    · refine ⟨fun h => ?_, fun h => ?_, fun h => ?_, fun _ => .inr ⟨_, rfl⟩, fun h => ?_⟩ <;> (have := h.length_eq; simp at this)
  obtain ⟨f, h⟩ := (C174_feature _).2 hf
  refine ⟨f, h, ?_⟩
  have := (C175_typed (fun _ => 0) (variant_self _) h1 (by intro e he; cases he) h "name").1 (.str "b") ⟨[("name", .str "a"), ("n", .null)], [], rfl, by simp⟩
  exact (this.2.2.1 "b").2 rfl

end GoGeo.GeoJson
