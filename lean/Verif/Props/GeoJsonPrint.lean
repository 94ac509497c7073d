import Verif.Props.GeoJsonAccept
import Verif.Props.GeoJsonNames
import Verif.Props.GeoJsonText

/-!
# C177: which features and collections can be printed

Exactly those without an infinite number, a NaN or a value of a type that JSON does not have, at any depth.
-/

namespace GoGeo.Spec
open Json GeoJson

/-- the value can be written as JSON: all numbers in it are finite, and there is nothing in it that JSON does not have, such as a function -/
inductive Printable {F : Type} [GoFloat F] : Val F → Prop where
  | nil : Printable .nil
  | bool (b) : Printable (.bool b)
  | int (i) : Printable (.int i)
  | float (x) : GeoJson.Finite x → Printable (.float x)
  | str (s) : Printable (.str s)
  | slice (l) : (∀ v ∈ l, Printable v) → Printable (.slice l)
  | map (m : List (String × Val F)) : (∀ e ∈ m, Printable e.2) → Printable (.map m)
  | nums (l) : (∀ x ∈ l, GeoJson.Finite x) → Printable (.nums l)
  | nums2 (l) : (∀ a ∈ l, ∀ x ∈ a, GeoJson.Finite x) → Printable (.nums2 l)
  | nums3 (l) : (∀ a ∈ l, ∀ b ∈ a, ∀ x ∈ b, GeoJson.Finite x) → Printable (.nums3 l)
  | nums4 (l) : (∀ a ∈ l, ∀ b ∈ a, ∀ c ∈ b, ∀ x ∈ c, GeoJson.Finite x) → Printable (.nums4 l)

variable {F : Type} [GoFloat F]

/-- the values of a map can be written -/
def PrintableMap (m : List (String × Val F)) : Prop := ∀ e ∈ m, Printable e.2

/-- a geometry object can be written -/
def PrintableObj (o : Obj F) : Prop := Printable o.Coordinates ∧ Printable o.Geometries ∧ PrintableMap o.CRS

/-- a feature can be written; its `Geometry` is not looked at -/
def PrintableFeature (f : Feature F) : Prop :=
  Printable f.ID ∧ (∀ x ∈ f.BoundingBox, GeoJson.Finite x) ∧ (∀ o, f.GeometryJson = some o → PrintableObj o) ∧ (∀ m, f.Properties = some m → PrintableMap m) ∧ PrintableMap f.CRS

/-- a collection can be written -/
def PrintableCollection (c : FeatureCollection F) : Prop :=
  (∀ x ∈ c.BoundingBox, GeoJson.Finite x) ∧ (∀ l, c.Features = some l → ∀ f, some f ∈ l → PrintableFeature f) ∧ PrintableMap c.CRS

end GoGeo.Spec

set_option linter.unusedSectionVars false

namespace GoGeo.GeoJson
open GoFloat Json Spec

section
variable {F : Type} [GoFloat F]

theorem Enc.isOk {α : Type} {f : α → Except String (Json F)} {P : α → Prop} {h : α → Json F} (E : Enc f P h) (a : α) : IsOk (f a) ↔ P a := by
  constructor
  · intro ho
    by_contra hn
    obtain ⟨e, he⟩ := E.err a hn
    rw [he] at ho
    exact isOk_error ho
  · exact fun p => ⟨_, E.ok a p⟩

/-- a result that needs two others -/
theorem isOk_bind2 {α β : Type} {x : Except String α} {f : α → Except String β} {P : Prop} (hf : ∀ a, IsOk (f a) ↔ P) : IsOk (x >>= f) ↔ IsOk x ∧ P := by
  constructor
  · rintro ⟨b, h⟩
    obtain ⟨a, h1, h2⟩ := bindE_iff.1 h
    exact ⟨⟨a, h1⟩, (hf a).1 ⟨b, h2⟩⟩
  · rintro ⟨⟨a, h1⟩, hp⟩
    obtain ⟨b, h2⟩ := (hf a).2 hp
    exact ⟨b, bindE_iff.2 ⟨a, h1, h2⟩⟩

mutual
theorem marshal_isOk : ∀ v : Val F, IsOk (marshal v) ↔ Printable v
  | .nil => by rw [marshal]; exact iff_of_true isOk_ok .nil
  | .bool b => by rw [marshal]; exact iff_of_true isOk_ok (.bool b)
  | .int i => by rw [marshal]; exact iff_of_true isOk_ok (.int i)
  | .float x => by rw [marshal, enc_number.isOk]; exact ⟨.float x, fun h => by cases h; assumption⟩
  | .str s => by rw [marshal]; exact iff_of_true isOk_ok (.str s)
  | .slice l => by rw [marshal, isOk_bind, marshalList_isOk l]; exact ⟨.slice l, fun h => by cases h; assumption⟩
  | .map m => by rw [marshal, isOk_bind, marshalMembers_isOk m]; exact ⟨.map m, fun h => by cases h; assumption⟩
  | .nums l => by rw [marshal, enc_nums1.isOk]; exact ⟨.nums l, fun h => by cases h; assumption⟩
  | .nums2 l => by rw [marshal, enc_nums2.isOk]; exact ⟨.nums2 l, fun h => by cases h; assumption⟩
  | .nums3 l => by rw [marshal, enc_nums3.isOk]; exact ⟨.nums3 l, fun h => by cases h; assumption⟩
  | .nums4 l => by rw [marshal, enc_nums4.isOk]; exact ⟨.nums4 l, fun h => by cases h; assumption⟩
  | .other _ => by rw [marshal]; exact iff_of_false isOk_error (fun h => by cases h)
theorem marshalList_isOk : ∀ l : List (Val F), IsOk (marshalList l) ↔ ∀ v ∈ l, Printable v
  | [] => by rw [marshalList]; exact iff_of_true isOk_ok (by simp)
  | v :: l => by
    rw [marshalList, isOk_bind2 (P := ∀ v ∈ l, Printable v) fun j => by rw [isOk_bind, marshalList_isOk l], marshal_isOk v, List.forall_mem_cons]
theorem marshalMembers_isOk : ∀ m : List (String × Val F), IsOk (marshalMembers m) ↔ ∀ e ∈ m, Printable e.2
  | [] => by rw [marshalMembers]; exact iff_of_true isOk_ok (by simp)
  | (k, v) :: m => by
    rw [marshalMembers, isOk_bind2 (P := ∀ e ∈ m, Printable e.2) fun j => by rw [isOk_bind, marshalMembers_isOk m], marshal_isOk v, List.forall_mem_cons]
end

theorem optAny_isOk (n : String) (v : Val F) : IsOk (optAny n v) ↔ Printable v := by
  cases v with
  | nil => exact iff_of_true isOk_ok .nil
  | _ => rw [optAny, isOk_bind, marshal_isOk]; simp

theorem optMap_isOk (n : String) (m : List (String × Val F)) : IsOk (optMap n m) ↔ PrintableMap m := by
  cases m with
  | nil => exact iff_of_true isOk_ok (by simp [PrintableMap])
  | cons e m => rw [optMap, isOk_bind, marshalMembers_isOk]; · rfl
                · simp

theorem optNums_isOk (n : String) (l : List F) : IsOk (optNums n l) ↔ ∀ x ∈ l, GeoJson.Finite x := by
  cases l with
  | nil => exact iff_of_true isOk_ok (by simp)
  | cons e m => rw [optNums, isOk_bind, enc_nums1.isOk]; simp

theorem obj_marshal_isOk (o : Obj F) : IsOk o.marshal ↔ PrintableObj o := by
  rw [Obj.marshal, isOk_bind2 (P := Printable o.Geometries ∧ PrintableMap o.CRS), optAny_isOk]
  · rfl
  · intro c
    rw [isOk_bind2 (P := PrintableMap o.CRS), optAny_isOk]
    intro g
    rw [isOk_bind, optMap_isOk]

theorem feature_print_isOk (f : Feature F) : IsOk f.print ↔ PrintableFeature f := by
  have hg : IsOk (ptrMarshal f.GeometryJson) ↔ ∀ o, f.GeometryJson = some o → PrintableObj o := by
    cases f.GeometryJson with
    | none => exact iff_of_true isOk_ok (by simp)
    | some o => rw [ptrMarshal, obj_marshal_isOk]; simp
  have hp : IsOk (mapMarshal f.Properties) ↔ ∀ m, f.Properties = some m → PrintableMap m := by
    cases f.Properties with
    | none => exact iff_of_true isOk_ok (by simp)
    | some m => rw [mapMarshal, isOk_bind, marshalMembers_isOk]; simp [PrintableMap]
  unfold Feature.print PrintableFeature
  rw [isOk_bind2, optAny_isOk]
  intro a
  rw [isOk_bind2, optNums_isOk]
  intro b
  rw [isOk_bind2, hg]
  intro c
  rw [isOk_bind2, hp]
  intro d
  rw [isOk_bind, optMap_isOk]

/-- **C177 (features).** A feature can be printed exactly when all its numbers are finite and all its values are of types that JSON has. -/
theorem C177_feature (f : Feature F) : (∃ j, f.MarshalJSON = .ok j) ↔ PrintableFeature f := by
  change IsOk _ ↔ _
  obtain ⟨p, hp, e⟩ : ∃ p, (p = f.Properties ∨ p = none ∧ f.Properties = some []) ∧ f.MarshalJSON = Feature.print { f with Typ := "Feature", Properties := p, Geometry := .nil } := by
    rcases f with ⟨id, t, bb, g, p, crs, geo⟩
    cases bb <;> rcases p with _ | (_ | ⟨p, ps⟩) <;> cases crs
    all_goals first | exact ⟨none, .inl rfl, rfl⟩ | exact ⟨none, .inr ⟨rfl, rfl⟩, rfl⟩ | exact ⟨some (_ :: _), .inl rfl, rfl⟩
  rw [e, feature_print_isOk]
  unfold PrintableFeature
  rcases hp with rfl | ⟨rfl, h⟩
  · rfl
  · simp [h, PrintableMap]

/-- **C177 (collections).** The same for a collection and all the features in it; nil features are printed as null. -/
theorem C177_collection (c : FeatureCollection F) : (∃ j, c.MarshalJSON = .ok j) ↔ PrintableCollection c := by
  change IsOk _ ↔ _
  have e : c.MarshalJSON = FeatureCollection.print ⟨"FeatureCollection", c.BoundingBox, some (c.Features.getD []), c.CRS⟩ := by
    rcases c with ⟨t, bb, fs, crs⟩
    cases bb <;> cases fs <;> cases crs <;> rfl
  have hf (o : Option (Feature F)) : IsOk (featMarshal o) ↔ ∀ f, o = some f → PrintableFeature f := by
    cases o with
    | none => exact iff_of_true isOk_ok (by simp)
    | some f =>
      rw [featMarshal]
      refine (C177_feature f).trans ?_
      simp
  rw [e]
  unfold FeatureCollection.print PrintableCollection
  rw [isOk_bind2, optNums_isOk]
  intro a
  rw [isOk_bind2 (P := PrintableMap c.CRS)]
  · rw [isOk_bind, mapE_isOk hf]
    cases c.Features with
    | none => simp
    | some l =>
      simp
      exact fun _ => ⟨fun h f hf => h _ hf f rfl, fun h a ha f e => h f (e ▸ ha)⟩
  · intro b
    rw [isOk_bind, optMap_isOk]

theorem mem_iff_lookup {α : Type} : ∀ {m : List (String × α)}, IsMap m → ∀ k v, (k, v) ∈ m ↔ m.lookup k = some v
  | [], _, k, v => by simp
  | (k', v') :: m, h, k, v => by
    have h' := List.pairwise_cons.1 (show ((k', v') :: m |>.map Prod.fst).Pairwise (· < ·) from h)
    rw [lookup_cons', List.mem_cons]
    by_cases hk : k = k'
    · subst hk
      rw [if_pos rfl]
      constructor
      · rintro (e | e)
        · cases e; rfl
        · exact absurd (h'.1 k (List.mem_map_of_mem (f := Prod.fst) e)) (lt_irrefl _)
      · rintro e; cases e; exact .inl rfl
    · rw [if_neg hk, ← mem_iff_lookup (m := m) h'.2 k v]
      exact ⟨fun e => e.resolve_left fun e => hk (by cases e; rfl), .inr⟩

/-- **C177 (built features).** A feature made by `NewFeature` of any geometry and any calls of `SetProperty` can be printed exactly when the values that were set last can. -/
theorem C177_built (g : Geometry F) (ops : List (String × Val F)) :
    (∃ j, (setAll (NewFeature g) ops).MarshalJSON = .ok j) ↔ ∀ k v, lastSet k ops = some v → Printable v := by
  rw [C177_feature]
  obtain ⟨o, ho, hN⟩ := newFeature_eq g
  obtain ⟨m, hm, -⟩ := obj_trip ho
  have hpo : PrintableObj o := (obj_marshal_isOk o).1 ⟨_, hm⟩
  by_cases h0 : ops = []
  · subst h0
    refine iff_of_true ?_ (by simp [lastSet])
    change PrintableFeature (NewFeature g)
    rw [hN]
    refine ⟨.nil, by simp, fun x hx => by cases hx; exact hpo, fun m hm => by cases hm; simp [PrintableMap], by simp [PrintableMap]⟩
  · obtain ⟨m, h1, h2, h3⟩ := setAll_props ops (NewFeature g) h0 (by rw [hN]; exact List.Pairwise.nil)
    have h3 : ∀ k, m.lookup k = lastSet k ops := by
      intro k
      rw [h3 k, hN]
      cases lastSet k ops <;> rfl
    have hmem : ∀ k v, (k, v) ∈ m ↔ m.lookup k = some v := fun k v => mem_iff_lookup h2 k v
    rw [h1, hN]
    constructor
    · rintro ⟨-, -, -, h, -⟩ k v hk
      exact h m rfl (k, v) ((hmem k v).2 (by rw [h3, hk]))
    · intro h
      refine ⟨.nil, by simp, fun x hx => by cases hx; exact hpo, fun m' hm' => ?_, by simp [PrintableMap]⟩
      cases hm'
      rintro ⟨k, v⟩ he
      exact h k v (by rw [← h3]; exact (hmem k v).1 he)

/-- a feature with a property that was a NaN before it was overwritten can be printed; with the NaN set last it cannot -/
example (x : F) (hx : isNaN x = true) : (∃ j, (setAll (NewFeature (.point ⟨lit 1, lit 2⟩)) [("a", .float x), ("a", .str "b")]).MarshalJSON = .ok j) ∧
    ¬ ∃ j, (setAll (NewFeature (.point ⟨lit 1, lit 2⟩)) [("a", .str "b"), ("a", .float x)]).MarshalJSON = .ok j := by
  rw [C177_built, C177_built]
  constructor
  · intro k v h
    by_cases hk : "a" = k
    · subst hk
      simp [lastSet] at h
      rw [← h]; exact .str _
    · simp [lastSet, hk] at h
  · intro h
    have := h "a" (.float x) (by simp [lastSet])
    cases this with
    | float _ hf => rw [hf.1] at hx; cases hx

end

/-- **C177 (texts).** The same for the texts that are printed in `float64`. -/
theorem C177_text (f : Feature Float) (c : FeatureCollection Float) :
    ((∃ s, f.MarshalText = .ok s) ↔ PrintableFeature f) ∧ ((∃ s, c.MarshalText = .ok s) ↔ PrintableCollection c) := by
  have h (r : Except String (Json Float)) : (∃ s, text r = .ok s) ↔ ∃ j, r = .ok j := by
    cases r <;> simp [text]
  exact ⟨(h _).trans (C177_feature f), (h _).trans (C177_collection c)⟩

end GoGeo.GeoJson
