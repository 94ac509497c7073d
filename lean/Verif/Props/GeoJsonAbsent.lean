import Verif.Props.GeoJsonRepeat
import Verif.Props.GeoJsonText

/-!
# C173: reading GeoJSON adds nothing that the text does not say

What is read is a JSON object or null, and a field of the result for which the object has no member, or only null, is empty.
-/

namespace GoGeo.Spec
open Json

/-- the document is an object with a member of this name, in any mixture of cases, which is not null -/
def Says {A : Type} (j : Json A) (n : String) : Prop := ∃ m, j = .obj m ∧ ∃ k x, (k, x) ∈ m ∧ GeoJson.CaseVariant n k ∧ x ≠ .null

/-- the document is null or an object -/
def NullOrObject {A : Type} (j : Json A) : Prop := j = .null ∨ ∃ m, j = .obj m

end GoGeo.Spec

set_option linter.unusedSectionVars false

namespace GoGeo.GeoJson
open GoFloat Json JsonText Spec Rfc8259 F64 Strconv FloatVal

section
variable {F : Type} [GoFloat F]

/-- what every member leaves alone stays as it is -/
theorem members_keep {σ : Type} {f : σ → String → Json F → Except String σ} {P : σ → Prop} :
    ∀ (m : List (String × Json F)) (s s' : σ), (∀ s k j s', (k, j) ∈ m → P s → f s k j = .ok s' → P s') → P s → members f s m = .ok s' → P s'
  | [], s, s', _, hP, h => by cases h; exact hP
  | (k, j) :: m, s, s', hf, hP, h => by
    rw [members, bindE_iff] at h
    obtain ⟨t, h1, h2⟩ := h
    exact members_keep m t s' (fun s k j s' hm => hf s k j s' (List.mem_cons_of_mem _ hm)) (hf s k j t List.mem_cons_self hP h1) h2

/-- a field that only the member `n` sets, and that null leaves at `z` -/
theorem members_field {σ α : Type} {f set : σ → String → Json F → Except String σ} {names : List String} {n : String} {get : σ → α} {z : α}
    (hf : ∀ s k j, f s k j = match fieldOf names k with | some n => set s n j | none => .ok s)
    (hset : ∀ s k j s', k ≠ n → set s k j = .ok s' → get s' = get s) (hnull : ∀ s s', get s = z → set s n .null = .ok s' → get s' = z)
    {m : List (String × Json F)} {s s' : σ} (h : members f s m = .ok s') (hn : ¬ Says (.obj m) n) (h0 : get s = z) : get s' = z := by
  refine members_keep (P := fun t => get t = z) m s s' (fun t k j t' hm hP ht => ?_) h0 h
  rw [hf] at ht
  split at ht
  · rename_i n' hk
    by_cases e : n' = n
    · subst e
      have hj : j = .null := by
        by_contra hj
        exact hn ⟨m, rfl, k, j, hm, Reuse.fieldOf_some hk, hj⟩
      rw [hj] at ht
      exact hnull t t' hP ht
    · rw [hset t n' j t' e ht, hP]
  · cases ht; exact hP

theorem feature_set {f f' : Feature F} {k : String} {j : Json F} (h : f.set k j = .ok f') :
    (k ≠ "id" → f'.ID = f.ID) ∧ (k ≠ "type" → f'.Typ = f.Typ) ∧ (k ≠ "bbox" → f'.BoundingBox = f.BoundingBox) ∧
    (k ≠ "geometry" → f'.GeometryJson = f.GeometryJson) ∧ (k ≠ "properties" → f'.Properties = f.Properties) ∧ (k ≠ "crs" → f'.CRS = f.CRS) ∧
    f'.Geometry = f.Geometry := by
  unfold Feature.set at h
  split_ifs at h with h1 h2 h3 h4 h5 h6
  · cases h; simp [h1]
  · obtain ⟨a, -, ha⟩ := bindE_iff.1 h; cases ha; simp [h2]
  · obtain ⟨a, -, ha⟩ := bindE_iff.1 h; cases ha; simp [h3]
  · split at h
    · cases h; simp [h4]
    · obtain ⟨a, -, ha⟩ := bindE_iff.1 h; cases ha; simp [h4]
  · obtain ⟨a, -, ha⟩ := bindE_iff.1 h; cases ha; simp [h5]
  · obtain ⟨a, -, ha⟩ := bindE_iff.1 h; cases ha; simp [h6]
  · cases h; simp

theorem collection_set {c c' : FeatureCollection F} {k : String} {j : Json F} (h : c.set k j = .ok c') :
    (k ≠ "type" → c'.Typ = c.Typ) ∧ (k ≠ "bbox" → c'.BoundingBox = c.BoundingBox) ∧ (k ≠ "features" → c'.Features = c.Features) ∧ (k ≠ "crs" → c'.CRS = c.CRS) := by
  unfold FeatureCollection.set at h
  split_ifs at h with h1 h2 h3 h4
  · obtain ⟨a, -, ha⟩ := bindE_iff.1 h; cases ha; simp [h1]
  · obtain ⟨a, -, ha⟩ := bindE_iff.1 h; cases ha; simp [h2]
  · split at h
    · cases h; simp [h3]
    · obtain ⟨a, -, ha⟩ := bindE_iff.1 h; cases ha; simp [h3]
    · cases h
  · obtain ⟨a, -, ha⟩ := bindE_iff.1 h; cases ha; simp [h4]
  · cases h; simp

theorem obj_set {o o' : Obj F} {k : String} {j : Json F} (h : o.set k j = .ok o') :
    (k ≠ "type" → o'.Typ = o.Typ) ∧ (k ≠ "coordinates" → o'.Coordinates = o.Coordinates) ∧ (k ≠ "geometries" → o'.Geometries = o.Geometries) ∧
    (k ≠ "crs" → o'.CRS = o.CRS) := by
  unfold Obj.set at h
  split_ifs at h with h1 h2 h3 h4
  · obtain ⟨a, -, ha⟩ := bindE_iff.1 h; cases ha; simp [h1]
  · cases h; simp [h2]
  · cases h; simp [h3]
  · obtain ⟨a, -, ha⟩ := bindE_iff.1 h; cases ha; simp [h4]
  · cases h; simp

/-- **C173 (features).** Only objects and null are read as features; the fields for which there is no member, or only null, are empty, and `Geometry` always is. -/
theorem C173_feature {j : Json F} {f : Feature F} (h : UnmarshalFeature j = .ok f) :
    NullOrObject j ∧ (¬ Says j "id" → f.ID = .nil) ∧ (¬ Says j "type" → f.Typ = "") ∧ (¬ Says j "bbox" → f.BoundingBox = []) ∧
    (¬ Says j "geometry" → f.GeometryJson = none) ∧ (¬ Says j "properties" → f.Properties = none) ∧ (¬ Says j "crs" → f.CRS = []) ∧ f.Geometry = .nil := by
  unfold UnmarshalFeature Feature.unmarshal at h
  split at h
  · cases h; exact ⟨.inl rfl, by simp [Feature.zero]⟩
  · rename_i m
    have H {α : Type} (n : String) (get : Feature F → α) (hg : ∀ s k j s', k ≠ n → Feature.set s k j = .ok s' → get s' = get s)
        (hz : ∀ s s', get s = get Feature.zero → Feature.set s n .null = .ok s' → get s' = get Feature.zero) : ¬ Says (.obj m) n → get f = get Feature.zero :=
      fun hn => members_field (names := featureNames) feature_member hg hz h hn rfl
    refine ⟨.inr ⟨m, rfl⟩, H "id" (·.ID) (fun s k j s' hk hs => (feature_set hs).1 hk) (fun s s' h0 hs => by
      simp [Feature.set, toStr, toNums, toMap, decode, bind, Except.bind, pure, Except.pure] at hs; cases hs; first | exact h0 | rfl), H "type" (·.Typ) (fun s k j s' hk hs => (feature_set hs).2.1 hk) (fun s s' h0 hs => by
      simp [Feature.set, toStr, toNums, toMap, decode, bind, Except.bind, pure, Except.pure] at hs; cases hs; first | exact h0 | rfl),
      H "bbox" (·.BoundingBox) (fun s k j s' hk hs => (feature_set hs).2.2.1 hk) (fun s s' h0 hs => by
      simp [Feature.set, toStr, toNums, toMap, decode, bind, Except.bind, pure, Except.pure] at hs; cases hs; first | exact h0 | rfl), H "geometry" (·.GeometryJson) (fun s k j s' hk hs => (feature_set hs).2.2.2.1 hk) (fun s s' h0 hs => by
      simp [Feature.set, toStr, toNums, toMap, decode, bind, Except.bind, pure, Except.pure] at hs; cases hs; first | exact h0 | rfl),
      H "properties" (·.Properties) (fun s k j s' hk hs => (feature_set hs).2.2.2.2.1 hk) (fun s s' h0 hs => by
      simp [Feature.set, toStr, toNums, toMap, decode, bind, Except.bind, pure, Except.pure] at hs; cases hs; first | exact h0 | rfl), H "crs" (·.CRS) (fun s k j s' hk hs => (feature_set hs).2.2.2.2.2.1 hk) (fun s s' h0 hs => by
      simp [Feature.set, toStr, toNums, toMap, decode, bind, Except.bind, pure, Except.pure] at hs; cases hs; first | exact h0 | rfl), ?_⟩
    refine members_keep (P := fun t => t.Geometry = .nil) m _ _ (fun t k j t' _ hP ht => ?_) rfl h
    rw [feature_member] at ht
    split at ht
    · rw [(feature_set ht).2.2.2.2.2.2, hP]
    · cases ht; exact hP
  · cases h

/-- **C173 (collections).** The same for collections: without a member `features` there are none. -/
theorem C173_collection {j : Json F} {c : FeatureCollection F} (h : UnmarshalFeatureCollection j = .ok c) :
    NullOrObject j ∧ (¬ Says j "type" → c.Typ = "") ∧ (¬ Says j "bbox" → c.BoundingBox = []) ∧ (¬ Says j "features" → c.Features = none) ∧
    (¬ Says j "crs" → c.CRS = []) := by
  unfold UnmarshalFeatureCollection at h
  split at h
  · cases h; exact ⟨.inl rfl, by simp⟩
  · rename_i m
    have H {α : Type} (n : String) (get : FeatureCollection F → α) (hg : ∀ s k j s', k ≠ n → FeatureCollection.set s k j = .ok s' → get s' = get s)
        (hz : ∀ s s', get s = get ⟨"", [], none, []⟩ → FeatureCollection.set s n .null = .ok s' → get s' = get ⟨"", [], none, []⟩) : ¬ Says (.obj m) n → get c = get ⟨"", [], none, []⟩ :=
      fun hn => members_field (names := collectionNames) collection_member hg hz h hn rfl
    exact ⟨.inr ⟨m, rfl⟩, H "type" (·.Typ) (fun s k j s' hk hs => (collection_set hs).1 hk) (fun s s' h0 hs => by
      simp [FeatureCollection.set, toStr, toNums, toMap, decode, bind, Except.bind, pure, Except.pure] at hs; cases hs; first | exact h0 | rfl), H "bbox" (·.BoundingBox) (fun s k j s' hk hs => (collection_set hs).2.1 hk) (fun s s' h0 hs => by
      simp [FeatureCollection.set, toStr, toNums, toMap, decode, bind, Except.bind, pure, Except.pure] at hs; cases hs; first | exact h0 | rfl),
      H "features" (·.Features) (fun s k j s' hk hs => (collection_set hs).2.2.1 hk) (fun s s' h0 hs => by
      simp [FeatureCollection.set, toStr, toNums, toMap, decode, bind, Except.bind, pure, Except.pure] at hs; cases hs; first | exact h0 | rfl), H "crs" (·.CRS) (fun s k j s' hk hs => (collection_set hs).2.2.2 hk) (fun s s' h0 hs => by
      simp [FeatureCollection.set, toStr, toNums, toMap, decode, bind, Except.bind, pure, Except.pure] at hs; cases hs; first | exact h0 | rfl)⟩
  · cases h

/-- **C173 (geometries).** The same for the geometry objects that `UnmarshalGeo` is given. -/
theorem C173_geometry {j : Json F} {o : Obj F} (h : Obj.zero.unmarshal j = .ok o) :
    NullOrObject j ∧ (¬ Says j "type" → o.Typ = "") ∧ (¬ Says j "coordinates" → o.Coordinates = .nil) ∧ (¬ Says j "geometries" → o.Geometries = .nil) ∧
    (¬ Says j "crs" → o.CRS = []) := by
  unfold Obj.unmarshal at h
  split at h
  · cases h; exact ⟨.inl rfl, by simp [Obj.zero]⟩
  · rename_i m
    have H {α : Type} (n : String) (get : Obj F → α) (hg : ∀ s k j s', k ≠ n → Obj.set s k j = .ok s' → get s' = get s)
        (hz : ∀ s s', get s = get Obj.zero → Obj.set s n .null = .ok s' → get s' = get Obj.zero) : ¬ Says (.obj m) n → get o = get Obj.zero :=
      fun hn => members_field (names := geometryNames) obj_member hg hz h hn rfl
    exact ⟨.inr ⟨m, rfl⟩, H "type" (·.Typ) (fun s k j s' hk hs => (obj_set hs).1 hk) (fun s s' h0 hs => by
      simp [Obj.set, toStr, toNums, toMap, decode, bind, Except.bind, pure, Except.pure] at hs; cases hs; first | exact h0 | rfl), H "coordinates" (·.Coordinates) (fun s k j s' hk hs => (obj_set hs).2.1 hk) (fun s s' h0 hs => by
      simp [Obj.set, toStr, toNums, toMap, decode, bind, Except.bind, pure, Except.pure] at hs; cases hs; first | exact h0 | rfl),
      H "geometries" (·.Geometries) (fun s k j s' hk hs => (obj_set hs).2.2.1 hk) (fun s s' h0 hs => by
      simp [Obj.set, toStr, toNums, toMap, decode, bind, Except.bind, pure, Except.pure] at hs; cases hs; first | exact h0 | rfl), H "crs" (·.CRS) (fun s k j s' hk hs => (obj_set hs).2.2.2 hk) (fun s s' h0 hs => by
      simp [Obj.set, toStr, toNums, toMap, decode, bind, Except.bind, pure, Except.pure] at hs; cases hs; first | exact h0 | rfl)⟩
  · cases h

theorem feat_set {s s' : Reuse.Feat F} {k : String} {j : Json F} (h : s.set k j = .ok s') :
    (k ≠ "id" → s'.f.ID = s.f.ID) ∧ (k ≠ "type" → s'.f.Typ = s.f.Typ) ∧ (k ≠ "bbox" → s'.f.BoundingBox = s.f.BoundingBox) ∧
    (k ≠ "geometry" → s'.f.GeometryJson = s.f.GeometryJson) ∧ (k ≠ "properties" → s'.f.Properties = s.f.Properties) ∧ (k ≠ "crs" → s'.f.CRS = s.f.CRS) ∧
    s'.f.Geometry = s.f.Geometry := by
  unfold Reuse.Feat.set at h
  split_ifs at h with h1
  · obtain ⟨b, -, hb⟩ := bindE_iff.1 h; cases hb; simp [h1]
  · obtain ⟨f, hf, hb⟩ := bindE_iff.1 h; cases hb; exact feature_set hf

theorem coll_set {s s' : Reuse.Coll F} {k : String} {j : Json F} (h : s.set k j = .ok s') :
    (k ≠ "type" → s'.fc.Typ = s.fc.Typ) ∧ (k ≠ "bbox" → s'.fc.BoundingBox = s.fc.BoundingBox) ∧ (k ≠ "features" → s'.fc.Features = s.fc.Features) ∧
    (k ≠ "crs" → s'.fc.CRS = s.fc.CRS) := by
  unfold Reuse.Coll.set at h
  split_ifs at h with h1 h2
  · obtain ⟨b, -, hb⟩ := bindE_iff.1 h; cases hb; simp [h1]
  · split at h
    · cases h; simp [h2]
    · obtain ⟨b, -, hb⟩ := bindE_iff.1 h; cases hb; simp [h2]
    · cases h
  · obtain ⟨f, hf, hb⟩ := bindE_iff.1 h; cases hb; exact collection_set hf

/-- **C173 (repeated members).** The same when members occur several times and the elements of earlier values are kept as encoding/json does. -/
theorem C173_repeated (j : Json F) :
    (∀ f, Reuse.UnmarshalFeature j = .ok f → NullOrObject j ∧ (¬ Says j "id" → f.ID = .nil) ∧ (¬ Says j "type" → f.Typ = "") ∧ (¬ Says j "bbox" → f.BoundingBox = []) ∧
      (¬ Says j "geometry" → f.GeometryJson = none) ∧ (¬ Says j "properties" → f.Properties = none) ∧ (¬ Says j "crs" → f.CRS = []) ∧ f.Geometry = .nil) ∧
    (∀ c, Reuse.UnmarshalFeatureCollection j = .ok c → NullOrObject j ∧ (¬ Says j "type" → c.Typ = "") ∧ (¬ Says j "bbox" → c.BoundingBox = []) ∧
      (¬ Says j "features" → c.Features = none) ∧ (¬ Says j "crs" → c.CRS = [])) := by
  constructor
  · intro f h
    unfold Reuse.UnmarshalFeature at h
    obtain ⟨s, h', hs⟩ := bindE_iff.1 h
    clear h
    have h := h'
    clear h'
    cases hs
    unfold Reuse.Feat.unmarshal at h
    split at h
    · cases h; exact ⟨.inl rfl, by simp [Reuse.Feat.zero, Feature.zero]⟩
    · rename_i m
      have hf : ∀ (s : Reuse.Feat F) k j, s.member k j = match fieldOf featureNames k with | some n => s.set n j | none => .ok s := fun _ _ _ => rfl
      have H {α : Type} (n : String) (get : Feature F → α) (hg : ∀ (s : Reuse.Feat F) k j s', k ≠ n → s.set k j = .ok s' → get s'.f = get s.f)
          (hz : ∀ (s : Reuse.Feat F) s', get s.f = get Feature.zero → s.set n .null = .ok s' → get s'.f = get Feature.zero) : ¬ Says (.obj m) n → get s.f = get Feature.zero :=
        fun hn => members_field (get := fun s => get s.f) hf hg hz h hn rfl
      refine ⟨.inr ⟨m, rfl⟩, H "id" (·.ID) (fun s k j s' hk hs => (feat_set hs).1 hk) (fun s s' h0 hs => ?_), H "type" (·.Typ) (fun s k j s' hk hs => (feat_set hs).2.1 hk) (fun s s' h0 hs => ?_),
        H "bbox" (·.BoundingBox) (fun s k j s' hk hs => (feat_set hs).2.2.1 hk) (fun s s' h0 hs => ?_),
        H "geometry" (·.GeometryJson) (fun s k j s' hk hs => (feat_set hs).2.2.2.1 hk) (fun s s' h0 hs => ?_),
        H "properties" (·.Properties) (fun s k j s' hk hs => (feat_set hs).2.2.2.2.1 hk) (fun s s' h0 hs => ?_),
        H "crs" (·.CRS) (fun s k j s' hk hs => (feat_set hs).2.2.2.2.2.1 hk) (fun s s' h0 hs => ?_), ?_⟩
      iterate 6
        · simp [Reuse.Feat.set, Reuse.numsInto, Feature.set, toStr, toNums, toMap, decode, bind, Except.bind, pure, Except.pure, Functor.map, Except.map] at hs
          cases hs
          first | exact h0 | rfl
      refine members_keep (P := fun t => t.f.Geometry = .nil) m _ _ (fun t k j t' _ hP ht => ?_) rfl h
      rw [hf] at ht
      split at ht
      · rw [(feat_set ht).2.2.2.2.2.2, hP]
      · cases ht; exact hP
    · cases h
  · intro c h
    unfold Reuse.UnmarshalFeatureCollection at h
    split at h
    · cases h; exact ⟨.inl rfl, by simp [Reuse.Coll.zero]⟩
    · rename_i m
      obtain ⟨s, h', hs⟩ := bindE_iff.1 h
      clear h
      have h := h'
      clear h'
      cases hs
      have hf : ∀ (s : Reuse.Coll F) k j, s.member k j = match fieldOf collectionNames k with | some n => s.set n j | none => .ok s := fun _ _ _ => rfl
      have H {α : Type} (n : String) (get : FeatureCollection F → α) (hg : ∀ (s : Reuse.Coll F) k j s', k ≠ n → s.set k j = .ok s' → get s'.fc = get s.fc)
          (hz : ∀ (s : Reuse.Coll F) s', get s.fc = get ⟨"", [], none, []⟩ → s.set n .null = .ok s' → get s'.fc = get ⟨"", [], none, []⟩) :
          ¬ Says (.obj m) n → get s.fc = get ⟨"", [], none, []⟩ := fun hn => members_field (get := fun s => get s.fc) hf hg hz h hn rfl
      refine ⟨.inr ⟨m, rfl⟩, H "type" (·.Typ) (fun s k j s' hk hs => (coll_set hs).1 hk) (fun s s' h0 hs => ?_), H "bbox" (·.BoundingBox) (fun s k j s' hk hs => (coll_set hs).2.1 hk) (fun s s' h0 hs => ?_),
        H "features" (·.Features) (fun s k j s' hk hs => (coll_set hs).2.2.1 hk) (fun s s' h0 hs => ?_), H "crs" (·.CRS) (fun s k j s' hk hs => (coll_set hs).2.2.2 hk) (fun s s' h0 hs => ?_)⟩
      iterate 4
        · simp [Reuse.Coll.set, Reuse.numsInto, FeatureCollection.set, toStr, toNums, toMap, bind, Except.bind, pure, Except.pure, Functor.map, Except.map] at hs
          cases hs
          first | exact h0 | rfl
    · cases h

/-- **C173 (null and `{}`).** Both are read, as the empty feature and the empty collection, whose type is not set. -/
theorem C173_empty (j : Json F) (h : j = .null ∨ j = .obj []) :
    UnmarshalFeature j = .ok ⟨.nil, "", [], none, none, [], .nil⟩ ∧ UnmarshalFeatureCollection j = .ok ⟨"", [], none, []⟩ := by
  rcases h with rfl | rfl <;> exact ⟨rfl, rfl⟩

end

/-- **C173 (texts).** For texts: what is read is that of a document of the text, to which all this applies. -/
theorem C173_text (s : List Char) :
    (∀ f, UnmarshalFeatureText s = .ok f → ∃ j, Doc (fun x t => ∀ q, NumberValue t q → InRange q → IsNearest x q) j s ∧
      NullOrObject j ∧ (¬ Says j "id" → f.ID = .nil) ∧ (¬ Says j "type" → f.Typ = "") ∧ (¬ Says j "bbox" → f.BoundingBox = []) ∧
      (¬ Says j "geometry" → f.GeometryJson = none) ∧ (¬ Says j "properties" → f.Properties = none) ∧ (¬ Says j "crs" → f.CRS = []) ∧ f.Geometry = .nil) ∧
    (∀ c, UnmarshalFeatureCollectionText s = .ok c → ∃ j, Doc (fun x t => ∀ q, NumberValue t q → InRange q → IsNearest x q) j s ∧
      NullOrObject j ∧ (¬ Says j "type" → c.Typ = "") ∧ (¬ Says j "bbox" → c.BoundingBox = []) ∧ (¬ Says j "features" → c.Features = none) ∧
      (¬ Says j "crs" → c.CRS = [])) := by
  constructor
  · intro f h
    obtain ⟨j, h1, -, h2⟩ := (C108_syntax s).2.1 f h
    exact ⟨j, h1, C173_feature h2⟩
  · intro c h
    obtain ⟨j, h1, -, h2⟩ := (C108_syntax s).2.2 c h
    exact ⟨j, h1, C173_collection h2⟩

/-- the hypotheses of C173 are met: an object with a type and an unknown member is read -/
example : ∃ f : Feature Float, UnmarshalFeature (.obj [("Type", .str "Feature"), ("extra", .arr [.null])]) = .ok f ∧ f.Typ = "Feature" ∧
    ¬ Says (.obj [("Type", .str "Feature"), ("extra", .arr [.null])] : Json Float) "id" ∧ f.ID = .nil := by
  have hs : ¬ Says (.obj [("Type", .str "Feature"), ("extra", .arr [.null])] : Json Float) "id" := by
    rintro ⟨m, hm, k, x, hk, hv, -⟩
    cases hm
    have := hv.length_eq
    simp only [List.mem_cons, Prod.mk.injEq, List.not_mem_nil, or_false] at hk
    rcases hk with ⟨rfl, -⟩ | ⟨rfl, -⟩ <;> simp at this
  obtain ⟨f, hf, ht⟩ : ∃ f : Feature Float, UnmarshalFeature (.obj [("Type", .str "Feature"), ("extra", .arr [.null])]) = .ok f ∧ f.Typ = "Feature" := by
    refine ⟨{ Feature.zero with Typ := "Feature" }, ?_, rfl⟩
    have e1 : fieldOf featureFields "Type" = some "type" := by decide +kernel
    have e2 : fieldOf featureFields "extra" = none := by decide +kernel
    simp [UnmarshalFeature, Feature.unmarshal, members, Feature.member, e1, e2, Feature.set, toStr, bind, Except.bind, pure, Except.pure]
  exact ⟨f, hf, ht, hs, (C173_feature hf).2.1 hs⟩

end GoGeo.GeoJson
