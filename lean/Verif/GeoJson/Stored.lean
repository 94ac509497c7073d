import Verif.GeoJson.Text
import Verif.GeoJson.Names
import Verif.Go.JsonTextRel

/-! # The numbers of a text, converted when they are stored -/

namespace GoGeo.GeoJson
open Json JsonText Rfc8259 Strconv

mutual
/-- the document with every number converted, those out of range to 0 -/
def fill : Json (List Char) → Json Float
  | .null => .null
  | .bool b => .bool b
  | .num t => .num ((parseFloat t).getD 0)
  | .str s => .str s
  | .arr l => .arr (fillList l)
  | .obj m => .obj (fillMembers m)
def fillList : List (Json (List Char)) → List (Json Float)
  | [] => []
  | j :: js => fill j :: fillList js
def fillMembers : List (String × Json (List Char)) → List (String × Json Float)
  | [] => []
  | (n, j) :: js => (n, fill j) :: fillMembers js
end

mutual
theorem conv_fill : ∀ {t : Json (List Char)} {j : Json Float}, conv t = some j → j = fill t
  | .null, _, h => by simp only [conv, Option.some.injEq] at h; rw [← h, fill]
  | .bool _, _, h => by simp only [conv, Option.some.injEq] at h; rw [← h, fill]
  | .str _, _, h => by simp only [conv, Option.some.injEq] at h; rw [← h, fill]
  | .num t, _, h => by
    simp only [conv, Option.map_eq_some_iff] at h
    obtain ⟨x, h1, rfl⟩ := h
    rw [fill, h1]; rfl
  | .arr l, _, h => by
    simp only [conv, Option.map_eq_some_iff] at h
    obtain ⟨x, h1, rfl⟩ := h
    rw [fill, convList_fill h1]
  | .obj l, _, h => by
    simp only [conv, Option.map_eq_some_iff] at h
    obtain ⟨x, h1, rfl⟩ := h
    rw [fill, convMembers_fill h1]
theorem convList_fill : ∀ {t : List (Json (List Char))} {j : List (Json Float)}, convList t = some j → j = fillList t
  | [], _, h => by simp only [convList, Option.some.injEq] at h; rw [← h, fillList]
  | a :: l, _, h => by
    simp only [convList, Option.bind_eq_some_iff, Option.map_eq_some_iff] at h
    obtain ⟨x, h1, y, h2, rfl⟩ := h
    rw [fillList, conv_fill h1, convList_fill h2]
theorem convMembers_fill : ∀ {t : List (String × Json (List Char))} {j : List (String × Json Float)}, convMembers t = some j → j = fillMembers t
  | [], _, h => by simp only [convMembers, Option.some.injEq] at h; rw [← h, fillMembers]
  | (k, a) :: l, _, h => by
    simp only [convMembers, Option.bind_eq_some_iff, Option.map_eq_some_iff] at h
    obtain ⟨x, h1, y, h2, rfl⟩ := h
    rw [fillMembers, conv_fill h1, convMembers_fill h2]
end

/-- the text of a number and its `float64` -/
abbrev Parses (x : Float) (t : List Char) : Prop := parseFloat t = some x

mutual
theorem conv_rel : ∀ {t : Json (List Char)} {j : Json Float}, conv t = some j → JRel Parses j t
  | .null, _, h => by simp only [conv, Option.some.injEq] at h; rw [← h]; simp only [JRel]
  | .bool _, _, h => by simp only [conv, Option.some.injEq] at h; rw [← h]; simp only [JRel]
  | .str _, _, h => by simp only [conv, Option.some.injEq] at h; rw [← h]; simp only [JRel]
  | .num t, _, h => by
    simp only [conv, Option.map_eq_some_iff] at h
    obtain ⟨x, h1, rfl⟩ := h
    simp only [JRel]
    exact h1
  | .arr l, _, h => by
    simp only [conv, Option.map_eq_some_iff] at h
    obtain ⟨x, h1, rfl⟩ := h
    simp only [JRel]
    exact convList_rel h1
  | .obj l, _, h => by
    simp only [conv, Option.map_eq_some_iff] at h
    obtain ⟨x, h1, rfl⟩ := h
    simp only [JRel]
    exact convMembers_rel h1
theorem convList_rel : ∀ {t : List (Json (List Char))} {j : List (Json Float)}, convList t = some j → JRelList Parses j t
  | [], _, h => by simp only [convList, Option.some.injEq] at h; rw [← h]; simp only [JRelList]
  | a :: l, _, h => by
    simp only [convList, Option.bind_eq_some_iff, Option.map_eq_some_iff] at h
    obtain ⟨x, h1, y, h2, rfl⟩ := h
    simp only [JRelList]
    exact ⟨conv_rel h1, convList_rel h2⟩
theorem convMembers_rel : ∀ {t : List (String × Json (List Char))} {j : List (String × Json Float)}, convMembers t = some j → JRelMembers Parses j t
  | [], _, h => by simp only [convMembers, Option.some.injEq] at h; rw [← h]; simp only [JRelMembers]
  | (k, a) :: l, _, h => by
    simp only [convMembers, Option.bind_eq_some_iff, Option.map_eq_some_iff] at h
    obtain ⟨x, h1, y, h2, rfl⟩ := h
    simp only [JRelMembers]
    exact ⟨trivial, conv_rel h1, convMembers_rel h2⟩
end

mutual
theorem rel_conv : ∀ {t : Json (List Char)} {j : Json Float}, JRel (fun x t => parseFloat t = some x) j t → conv t = some j
  | .null, .null, _ => by simp only [conv]
  | .bool _, .bool _, h => by simp only [JRel] at h; simp only [conv, h]
  | .num t, .num x, h => by simp only [JRel] at h; simp only [conv, h]; rfl
  | .str _, .str _, h => by simp only [JRel] at h; simp only [conv, h]
  | .arr l, .arr l', h => by simp only [JRel] at h; simp only [conv, rel_convList h]; rfl
  | .obj l, .obj l', h => by simp only [JRel] at h; simp only [conv, rel_convMembers h]; rfl
  | .null, .bool _, h | .null, .num _, h | .null, .str _, h | .null, .arr _, h | .null, .obj _, h => by simp only [JRel] at h
  | .bool _, .null, h | .bool _, .num _, h | .bool _, .str _, h | .bool _, .arr _, h | .bool _, .obj _, h => by simp only [JRel] at h
  | .num _, .null, h | .num _, .bool _, h | .num _, .str _, h | .num _, .arr _, h | .num _, .obj _, h => by simp only [JRel] at h
  | .str _, .null, h | .str _, .bool _, h | .str _, .num _, h | .str _, .arr _, h | .str _, .obj _, h => by simp only [JRel] at h
  | .arr _, .null, h | .arr _, .bool _, h | .arr _, .num _, h | .arr _, .str _, h | .arr _, .obj _, h => by simp only [JRel] at h
  | .obj _, .null, h | .obj _, .bool _, h | .obj _, .num _, h | .obj _, .str _, h | .obj _, .arr _, h => by simp only [JRel] at h
theorem rel_convList : ∀ {t : List (Json (List Char))} {j : List (Json Float)}, JRelList (fun x t => parseFloat t = some x) j t → convList t = some j
  | [], [], _ => by simp only [convList]
  | a :: l, b :: l', h => by simp only [JRelList] at h; simp only [convList, rel_conv h.1, rel_convList h.2]; rfl
  | [], _ :: _, h => by simp only [JRelList] at h
  | _ :: _, [], h => by simp only [JRelList] at h
theorem rel_convMembers : ∀ {t : List (String × Json (List Char))} {j : List (String × Json Float)},
    JRelMembers (fun x t => parseFloat t = some x) j t → convMembers t = some j
  | [], [], _ => by simp only [convMembers]
  | (k, a) :: l, (k', b) :: l', h => by
    simp only [JRelMembers] at h
    simp only [convMembers, rel_conv h.2.1, rel_convMembers h.2.2, h.1]
    rfl
  | [], _ :: _, h => by simp only [JRelMembers] at h
  | _ :: _, [], h => by simp only [JRelMembers] at h
end

mutual
theorem rel_fill : ∀ {t : Json (List Char)} {j : Json Float}, JRel (fun t x => x = (parseFloat t).getD 0) t j → fill t = j
  | .null, .null, _ => by simp only [fill]
  | .bool _, .bool _, h => by simp only [JRel] at h; simp only [fill, h]
  | .num t, .num x, h => by simp only [JRel] at h; simp only [fill, h]
  | .str _, .str _, h => by simp only [JRel] at h; simp only [fill, h]
  | .arr l, .arr l', h => by simp only [JRel] at h; simp only [fill, rel_fillList h]
  | .obj l, .obj l', h => by simp only [JRel] at h; simp only [fill, rel_fillMembers h]
  | .bool _, .null, h | .bool _, .num _, h | .bool _, .str _, h | .bool _, .arr _, h | .bool _, .obj _, h => by simp only [JRel] at h
  | .num _, .null, h | .num _, .bool _, h | .num _, .str _, h | .num _, .arr _, h | .num _, .obj _, h => by simp only [JRel] at h
  | .str _, .null, h | .str _, .bool _, h | .str _, .num _, h | .str _, .arr _, h | .str _, .obj _, h => by simp only [JRel] at h
  | .arr _, .null, h | .arr _, .bool _, h | .arr _, .num _, h | .arr _, .str _, h | .arr _, .obj _, h => by simp only [JRel] at h
  | .obj _, .null, h | .obj _, .bool _, h | .obj _, .num _, h | .obj _, .str _, h | .obj _, .arr _, h => by simp only [JRel] at h
theorem rel_fillList : ∀ {t : List (Json (List Char))} {j : List (Json Float)}, JRelList (fun t x => x = (parseFloat t).getD 0) t j → fillList t = j
  | [], [], _ => by simp only [fillList]
  | a :: l, b :: l', h => by simp only [JRelList] at h; simp only [fillList, rel_fill h.1, rel_fillList h.2]
  | [], _ :: _, h => by simp only [JRelList] at h
  | _ :: _, [], h => by simp only [JRelList] at h
theorem rel_fillMembers : ∀ {t : List (String × Json (List Char))} {j : List (String × Json Float)},
    JRelMembers (fun t x => x = (parseFloat t).getD 0) t j → fillMembers t = j
  | [], [], _ => by simp only [fillMembers]
  | (k, a) :: l, (k', b) :: l', h => by
    simp only [JRelMembers] at h
    simp only [fillMembers, rel_fill h.2.1, rel_fillMembers h.2.2, h.1]
  | [], _ :: _, h => by simp only [JRelMembers] at h
  | _ :: _, [], h => by simp only [JRelMembers] at h
end

/-! ### what is stored -/

/-- passing members over makes no difference to what is stored -/
theorem fields_same {σ : Type} {fields : List String} {g : String → Json (List Char) → Option (Json Float)}
    {f : σ → String → Json Float → Except String σ} {set : σ → String → Json Float → Except String σ}
    (hf : ∀ s k j, f s k j = match fieldOf fields k with | some n => set s n j | none => .ok s)
    (hg : ∀ n j j', g n j = some j' → ∀ s, set s n j' = set s n (fill j)) :
    ∀ (m : List (String × Json (List Char))) (m' : List (String × Json Float)) (s : σ), convFields fields g m = some m' →
      members f s m' = members f s (fillMembers m)
  | [], m', s, h => by simp only [convFields, Option.some.injEq] at h; rw [← h, fillMembers]
  | (k, j) :: m, m', s, h => by
    rw [convFields] at h
    rw [fillMembers, members, hf]
    cases hn : fieldOf fields k with
    | none =>
      rw [hn] at h
      exact fields_same hf hg m m' s h
    | some n =>
      rw [hn] at h
      simp only [Option.bind_eq_some_iff, Option.map_eq_some_iff] at h
      obtain ⟨j', h1, m'', h2, rfl⟩ := h
      rw [members, hf, hn]
      dsimp only
      rw [hg n j j' h1]
      cases set s n (fill j) with
      | error e => rfl
      | ok s' => exact fields_same hf hg m m'' s' h2

/-- when all numbers of a document can be converted, so can those that are looked at -/
theorem fields_total {fields : List String} {g : String → Json (List Char) → Option (Json Float)}
    (hg : ∀ n j j', conv j = some j' → ∃ j0, g n j = some j0) :
    ∀ (m : List (String × Json (List Char))) (m' : List (String × Json Float)), convMembers m = some m' → ∃ m0, convFields fields g m = some m0
  | [], _, _ => ⟨[], rfl⟩
  | (k, j) :: m, m', h => by
    simp only [convMembers, Option.bind_eq_some_iff, Option.map_eq_some_iff] at h
    obtain ⟨j', h1, m'', h2, -⟩ := h
    obtain ⟨m0, h3⟩ := fields_total hg m m'' h2
    obtain ⟨j0, h4⟩ := hg (Option.getD (fieldOf fields k) "") j j' h1
    rw [convFields]
    cases hn : fieldOf fields k with
    | none => exact ⟨m0, h3⟩
    | some n =>
      rw [hn, Option.getD_some] at h4
      exact ⟨(k, j0) :: m0, by dsimp only; rw [h4, h3]; rfl⟩

/-- a member that cannot be converted -/
theorem fields_none {fields : List String} {g : String → Json (List Char) → Option (Json Float)} {n k : String} {x : Json (List Char)}
    (hn : fieldOf fields k = some n) (hx : g n x = none) : ∀ (m : List (String × Json (List Char))), (k, x) ∈ m → convFields fields g m = none
  | [], h => by cases h
  | (k', j) :: m, h => by
    rw [convFields]
    rcases List.mem_cons.1 h with h | h
    · cases h
      rw [hn]
      dsimp only
      rw [hx]
      rfl
    · have ih := fields_none hn hx m h
      cases fieldOf fields k' with
      | none => exact ih
      | some n' =>
        dsimp only
        rw [ih]
        cases g n' j <;> rfl

/-- `cv` converts the numbers that `f` looks at -/
structure Converts {α : Type} (cv : Json (List Char) → Option (Json Float)) (f : Json Float → Except String α) : Prop where
  total : ∀ t j, conv t = some j → ∃ j0, cv t = some j0
  same : ∀ t j0, cv t = some j0 → f j0 = f (fill t)

theorem convObj_ok (o : Obj Float) : Converts convObj o.unmarshal where
  total t j h := by
    cases t
    case obj m =>
      simp only [conv, Option.map_eq_some_iff] at h
      obtain ⟨m', h, -⟩ := h
      obtain ⟨m0, h0⟩ := fields_total (fields := objFields) (g := fun _ => conv) (fun _ _ j' h => ⟨j', h⟩) m m' h
      exact ⟨.obj m0, by rw [convObj, h0]; rfl⟩
    all_goals exact ⟨j, h⟩
  same t j0 h := by
    cases t
    case obj m =>
      simp only [convObj, Option.map_eq_some_iff] at h
      obtain ⟨m0, h, rfl⟩ := h
      rw [fill]
      exact fields_same (f := Obj.member) (set := Obj.set) (fun _ _ _ => rfl) (fun n j j' h s => by rw [conv_fill h]) m m0 o h
    all_goals exact congrArg _ (conv_fill h)

theorem convFeature_ok (f : Feature Float) : Converts convFeature f.unmarshal where
  total t j h := by
    cases t
    case obj m =>
      simp only [conv, Option.map_eq_some_iff] at h
      obtain ⟨m', h, -⟩ := h
      obtain ⟨m0, h0⟩ := fields_total (fields := featureFields) (g := fun n => if n = "geometry" then convObj else conv) (fun n j j' h => by
        by_cases hn : n = "geometry"
        · simp only [hn, if_true]; exact (convObj_ok Obj.zero).total j j' h
        · simp only [hn, if_false]; exact ⟨j', h⟩) m m' h
      exact ⟨.obj m0, by rw [convFeature, h0]; rfl⟩
    all_goals exact ⟨j, h⟩
  same t j0 h := by
    cases t
    case obj m =>
      simp only [convFeature, Option.map_eq_some_iff] at h
      obtain ⟨m0, h, rfl⟩ := h
      rw [fill]
      refine fields_same (f := Feature.member) (set := Feature.set) (fun _ _ _ => rfl) (fun n j j' h s => ?_) m m0 f h
      by_cases hn : n = "geometry"
      · simp only [hn, if_true] at h
        cases j
        case obj g =>
          have h' := h
          simp only [convObj, Option.map_eq_some_iff] at h'
          obtain ⟨g0, -, rfl⟩ := h'
          have := (convObj_ok (s.GeometryJson.getD Obj.zero)).same _ _ h
          rw [fill] at this ⊢
          rw [hn]
          simp only [Feature.set, String.reduceEq, if_false, if_true, this]
        all_goals exact congrArg _ (conv_fill h)
      · simp only [hn, if_false] at h
        rw [conv_fill h]
    all_goals exact congrArg _ (conv_fill h)

theorem convFeatures_total : ∀ (l : List (Json (List Char))) (l' : List (Json Float)), convList l = some l' → ∃ l0, convFeatures l = some l0
  | [], _, _ => ⟨[], rfl⟩
  | j :: l, l', h => by
    simp only [convList, Option.bind_eq_some_iff, Option.map_eq_some_iff] at h
    obtain ⟨j', h1, l'', h2, -⟩ := h
    obtain ⟨j0, h3⟩ := (convFeature_ok Feature.zero).total j j' h1
    obtain ⟨l0, h4⟩ := convFeatures_total l l'' h2
    exact ⟨j0 :: l0, by rw [convFeatures, h3, h4]; rfl⟩

theorem toFeature_same {t : Json (List Char)} {j : Json Float} (h : convFeature t = some j) : toFeature j = toFeature (fill t) := by
  cases t
  case obj m =>
    have h' := h
    simp only [convFeature, Option.map_eq_some_iff] at h'
    obtain ⟨m0, -, rfl⟩ := h'
    have := (convFeature_ok Feature.zero).same _ _ h
    rw [fill] at this ⊢
    rw [toFeature, toFeature, this]
    · rintro ⟨⟩
    · rintro ⟨⟩
  all_goals exact congrArg _ (conv_fill h)

theorem convFeatures_same : ∀ (l : List (Json (List Char))) (l0 : List (Json Float)), convFeatures l = some l0 →
    mapE toFeature l0 = mapE toFeature (fillList l)
  | [], l0, h => by simp only [convFeatures, Option.some.injEq] at h; rw [← h, fillList]
  | j :: l, l0, h => by
    simp only [convFeatures, Option.bind_eq_some_iff, Option.map_eq_some_iff] at h
    obtain ⟨j', h1, l'', h2, rfl⟩ := h
    rw [fillList, mapE, mapE, toFeature_same h1, convFeatures_same l l'' h2]

theorem convCollection_ok : Converts convCollection (UnmarshalFeatureCollection (F := Float)) where
  total t j h := by
    cases t
    case obj m =>
      simp only [conv, Option.map_eq_some_iff] at h
      obtain ⟨m', h, -⟩ := h
      obtain ⟨m0, h0⟩ := fields_total (fields := collectionFields) (g := fun n => if n = "features" then convArr else conv) (fun n j j' h => by
        by_cases hn : n = "features"
        · simp only [hn, if_true]
          cases j
          case arr l =>
            simp only [conv, Option.map_eq_some_iff] at h
            obtain ⟨l', h, -⟩ := h
            obtain ⟨l0, h0⟩ := convFeatures_total l l' h
            exact ⟨.arr l0, by rw [convArr, h0]; rfl⟩
          all_goals exact ⟨j', h⟩
        · simp only [hn, if_false]; exact ⟨j', h⟩) m m' h
      exact ⟨.obj m0, by rw [convCollection, h0]; rfl⟩
    all_goals exact ⟨j, h⟩
  same t j0 h := by
    cases t
    case obj m =>
      simp only [convCollection, Option.map_eq_some_iff] at h
      obtain ⟨m0, h, rfl⟩ := h
      rw [fill]
      refine fields_same (f := FeatureCollection.member) (set := FeatureCollection.set) (fun _ _ _ => rfl) (fun n j j' h s => ?_) m m0 _ h
      by_cases hn : n = "features"
      · simp only [hn, if_true] at h
        cases j
        case arr l =>
          simp only [convArr, Option.map_eq_some_iff] at h
          obtain ⟨l0, h, rfl⟩ := h
          have := convFeatures_same l l0 h
          rw [fill, hn]
          simp only [FeatureCollection.set, String.reduceEq, if_false, if_true, this]
        all_goals exact congrArg _ (conv_fill h)
      · simp only [hn, if_false] at h
        rw [conv_fill h]
    all_goals exact congrArg _ (conv_fill h)

/-! ### what is rejected -/

theorem keptObj_none {t x : Json (List Char)} (h : KeptGeometry t x) (hx : conv x = none) : convObj t = none := by
  cases h with
  | member hn hk hm =>
    rw [convObj, fields_none (fields := objFields) (g := fun _ => conv) (fieldOf_variant letters_geometry hn hk) hx _ hm]
    rfl

theorem keptFeature_none {t x : Json (List Char)} (h : KeptFeature t x) (hx : conv x = none) : convFeature t = none := by
  cases h with
  | member hn hg hk hm =>
    rw [convFeature, fields_none (fields := featureFields) (fieldOf_variant letters_feature hn hk) (by rw [if_neg hg]; exact hx) _ hm]
    rfl
  | geometry hk hm hg =>
    rw [convFeature, fields_none (fields := featureFields) (fieldOf_variant letters_feature (by decide) hk)
      (by rw [if_pos rfl]; exact keptObj_none hg hx) _ hm]
    rfl

theorem convFeatures_none {t : Json (List Char)} (hx : convFeature t = none) : ∀ (l : List (Json (List Char))), t ∈ l → convFeatures l = none
  | [], h => by cases h
  | j :: l, h => by
    rw [convFeatures]
    rcases List.mem_cons.1 h with rfl | h
    · rw [hx]; rfl
    · rw [convFeatures_none hx l h]
      cases convFeature j <;> rfl

theorem keptCollection_none {t x : Json (List Char)} (h : KeptCollection t x) (hx : conv x = none) : convCollection t = none := by
  cases h with
  | member hn hg hk hm =>
    rw [convCollection, fields_none (fields := collectionFields) (fieldOf_variant letters_collection hn hk) (by rw [if_neg hg]; exact hx) _ hm]
    rfl
  | feature hk hm hf hx' =>
    rw [convCollection, fields_none (fields := collectionFields) (fieldOf_variant letters_collection (by decide) hk)
      (by rw [if_pos rfl, convArr, convFeatures_none (keptFeature_none hx' hx) _ hf]; rfl) _ hm]
    rfl

end GoGeo.GeoJson
