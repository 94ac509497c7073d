import Verif.GeoJson.Text
import Verif.Spec.GeoJsonText
import Verif.Go.JsonTextPrint
import Verif.Props.GeoJson
import Verif.Props.Wkt64

/-! # Lemmas on GeoJSON as text -/

namespace GoGeo.GeoJson
open GoFloat Json JsonText Rfc8259 F64 Strconv FloatVal

/-- not NaN or infinite -/
abbrev Fin64 (x : Float) : Prop := ∃ q, valF x = .fin q

theorem Finite.fin64 {x : Float} (h : Finite x) : Fin64 x := FiniteNum.val h

theorem ofInt_fin {i : ℤ} (h : -2 ^ 63 ≤ i ∧ i < 2 ^ 63) : Fin64 (ofInt i : Float) := by
  have h1 : valF (ofInt i : Float) = rndX (.fin (i : ℚ)) := FloatVal.val_ofInt (F := Float) i
  rw [Fin64, h1]
  rw [rndX_fin_iff]
  have h2 : |i| ≤ 2 ^ 63 := abs_le.2 ⟨h.1, h.2.le⟩
  have h3 : |(i : ℚ)| ≤ 2 ^ 63 := by
    have : ((|i| : ℤ) : ℚ) ≤ ((2 ^ 63 : ℤ) : ℚ) := by exact_mod_cast h2
    rw [Int.cast_abs] at this
    refine this.trans (by norm_num)
  refine lt_of_le_of_lt h3 ?_
  unfold ovfBound
  have a : (2 : ℚ) ^ 1024 = 2 ^ 970 * 2 ^ 54 := by rw [← pow_add]
  have b : (2 : ℚ) ^ 63 ≤ 2 ^ 970 := pow_le_pow_right₀ (by norm_num) (by norm_num)
  rw [a]
  have c : (1 : ℚ) ≤ 2 ^ 970 := one_le_pow₀ (by norm_num)
  refine lt_of_le_of_lt b ?_
  generalize (2 : ℚ) ^ 970 = y at c
  norm_num
  linarith

theorem numsList_iff {P : Float → Prop} {l : List (Json Float)} : NumsList P l ↔ ∀ j ∈ l, Nums P j := by
  induction l with
  | nil => simp [NumsList]
  | cons a l ih => simp [NumsList, ih]

theorem numsMembers_iff {P : Float → Prop} {l : List (String × Json Float)} : NumsMembers P l ↔ ∀ e ∈ l, Nums P e.2 := by
  induction l with
  | nil => simp [NumsMembers]
  | cons a l ih => obtain ⟨k, j⟩ := a; simp only [NumsMembers, ih, List.forall_mem_cons]

theorem mapE_mem {α β : Type} {f : α → Except String β} : ∀ {l : List α} {m : List β}, mapE f l = .ok m → ∀ b ∈ m, ∃ a ∈ l, f a = .ok b
  | [], m, h, b, hb => by
    cases h; simp at hb
  | a :: l, m, h, b, hb => by
    rw [mapE, bindE_iff] at h
    obtain ⟨b0, h0, h⟩ := h
    rw [bindE_iff] at h
    obtain ⟨bs, h1, h⟩ := h
    cases h
    rcases List.mem_cons.1 hb with rfl | hb
    · exact ⟨a, by simp, h0⟩
    · obtain ⟨a', ha', h'⟩ := mapE_mem h1 b hb
      exact ⟨a', by simp [ha'], h'⟩

theorem number_nums {x : Float} {j : Json Float} (h : Json.number x = .ok j) : Nums Fin64 j := by
  unfold Json.number at h
  split at h
  · cases h
  · rename_i hu
    cases h
    simp only [Nums]
    exact ((unprintable_iff x).1 (by simpa using hu)).fin64

theorem nums1_nums {l : List Float} {j : Json Float} (h : nums1 l = .ok j) : Nums Fin64 j := by
  rw [nums1, bindE_iff] at h
  obtain ⟨m, h1, h⟩ := h
  cases h
  simp only [Nums]
  rw [numsList_iff]
  intro b hb
  obtain ⟨a, -, ha⟩ := mapE_mem h1 b hb
  exact number_nums ha

theorem numsUp_nums {α : Type} {f : α → Except String (Json Float)} (hf : ∀ a j, f a = .ok j → Nums Fin64 j) {l : List α} {j : Json Float}
    (h : numsUp f l = .ok j) : Nums Fin64 j := by
  unfold numsUp at h
  split at h
  · cases h; simp only [Nums]
  · rw [bindE_iff] at h
    obtain ⟨m, h1, h⟩ := h
    cases h
    simp only [Nums]
    rw [numsList_iff]
    intro b hb
    obtain ⟨a, -, ha⟩ := mapE_mem h1 b hb
    exact hf a b ha

mutual
theorem marshal_nums : ∀ (v : Val Float) (j : Json Float), Ints v → marshal v = .ok j → Nums Fin64 j
  | .nil, j, _, h => by simp only [marshal] at h; cases h; simp only [Nums]
  | .bool b, j, _, h => by simp only [marshal] at h; cases h; simp only [Nums]
  | .int i, j, hi, h => by
    simp only [marshal] at h; cases h
    simp only [Ints] at hi
    simp only [Nums]
    exact ofInt_fin hi
  | .float x, j, _, h => by simp only [marshal] at h; exact number_nums h
  | .str s, j, _, h => by simp only [marshal] at h; cases h; simp only [Nums]
  | .slice l, j, hi, h => by
    simp only [marshal, bindE_iff] at h
    obtain ⟨m, h1, h⟩ := h
    cases h
    simp only [Ints] at hi
    simp only [Nums]
    exact marshalList_nums l m hi h1
  | .map l, j, hi, h => by
    simp only [marshal, bindE_iff] at h
    obtain ⟨m, h1, h⟩ := h
    cases h
    simp only [Ints] at hi
    simp only [Nums]
    exact marshalMembers_nums l m hi h1
  | .nums l, j, _, h => by simp only [marshal] at h; exact nums1_nums h
  | .nums2 l, j, _, h => by simp only [marshal] at h; exact numsUp_nums (fun _ _ => nums1_nums) h
  | .nums3 l, j, _, h => by simp only [marshal] at h; exact numsUp_nums (fun _ _ => numsUp_nums (fun _ _ => nums1_nums)) h
  | .nums4 l, j, _, h => by
    simp only [marshal] at h; exact numsUp_nums (fun _ _ => numsUp_nums (fun _ _ => numsUp_nums (fun _ _ => nums1_nums))) h
  | .other _, j, _, h => by simp only [marshal] at h; cases h
theorem marshalList_nums : ∀ (l : List (Val Float)) (m : List (Json Float)), IntsList l → marshalList l = .ok m → NumsList Fin64 m
  | [], m, _, h => by simp only [marshalList] at h; cases h; simp only [NumsList]
  | v :: vs, m, hi, h => by
    simp only [marshalList, bindE_iff] at h
    obtain ⟨j, h1, js, h2, h⟩ := h
    cases h
    simp only [IntsList] at hi
    simp only [NumsList]
    exact ⟨marshal_nums v j hi.1 h1, marshalList_nums vs js hi.2 h2⟩
theorem marshalMembers_nums : ∀ (l : List (String × Val Float)) (m : List (String × Json Float)), IntsMap l → marshalMembers l = .ok m →
    NumsMembers Fin64 m
  | [], m, _, h => by simp only [marshalMembers] at h; cases h; simp only [NumsMembers]
  | (k, v) :: vs, m, hi, h => by
    simp only [marshalMembers, bindE_iff] at h
    obtain ⟨j, h1, js, h2, h⟩ := h
    cases h
    simp only [IntsMap] at hi
    simp only [NumsMembers]
    exact ⟨marshal_nums v j hi.1 h1, marshalMembers_nums vs js hi.2 h2⟩
end

theorem optAny_nums {name : String} {v : Val Float} {m : List (String × Json Float)} (hi : Ints v) (h : optAny name v = .ok m) : NumsMembers Fin64 m := by
  unfold optAny at h
  split at h
  · cases h; simp only [NumsMembers]
  · rw [bindE_iff] at h
    obtain ⟨j, h1, h⟩ := h
    cases h
    simp only [NumsMembers, and_true]
    exact marshal_nums _ j hi h1

theorem optMap_nums {name : String} {v : List (String × Val Float)} {m : List (String × Json Float)} (hi : IntsMap v) (h : optMap name v = .ok m) :
    NumsMembers Fin64 m := by
  unfold optMap at h
  split at h
  · cases h; simp only [NumsMembers]
  · rw [bindE_iff] at h
    obtain ⟨j, h1, h⟩ := h
    cases h
    simp only [NumsMembers, and_true, Nums]
    exact marshalMembers_nums _ j hi h1

theorem optNums_nums {name : String} {v : List Float} {m : List (String × Json Float)} (h : optNums name v = .ok m) : NumsMembers Fin64 m := by
  unfold optNums at h
  split at h
  · cases h; simp only [NumsMembers]
  · rw [bindE_iff] at h
    obtain ⟨j, h1, h⟩ := h
    cases h
    simp only [NumsMembers, and_true]
    exact nums1_nums h1

theorem obj_nums {o : Obj Float} {j : Json Float} (hi : o.Ints) (h : o.marshal = .ok j) : Nums Fin64 j := by
  simp only [Obj.marshal, bindE_iff] at h
  obtain ⟨c, h1, g, h2, crs, h3, h⟩ := h
  cases h
  have a := numsMembers_iff.1 (optAny_nums hi.1 h1)
  have b := numsMembers_iff.1 (optAny_nums hi.2.1 h2)
  have c' := numsMembers_iff.1 (optMap_nums hi.2.2 h3)
  simp only [Nums]
  rw [numsMembers_iff]
  intro e he
  simp only [List.mem_cons, List.mem_append] at he
  rcases he with rfl | (he | he) | he
  · simp only [Nums]
  · exact a e he
  · exact b e he
  · exact c' e he

theorem print_nums {f : Feature Float} {j : Json Float} (hi : f.Ints) (h : f.print = .ok j) : Nums Fin64 j := by
  simp only [Feature.print, bindE_iff] at h
  obtain ⟨id, h1, bb, h2, g, h3, p, h4, crs, h5, h⟩ := h
  cases h
  have a := numsMembers_iff.1 (optAny_nums hi.1 h1)
  have b := numsMembers_iff.1 (optNums_nums h2)
  have d := numsMembers_iff.1 (optMap_nums hi.2.2.2 h5)
  have hg : Nums Fin64 g := by
    unfold ptrMarshal at h3
    split at h3
    · cases h3; simp only [Nums]
    · rename_i o ho
      exact obj_nums (hi.2.1 o ho) h3
  have hp : Nums Fin64 p := by
    unfold mapMarshal at h4
    split at h4
    · cases h4; simp only [Nums]
    · rename_i m hm
      rw [bindE_iff] at h4
      obtain ⟨m', h6, h4⟩ := h4
      cases h4
      simp only [Nums]
      exact marshalMembers_nums m m' (hi.2.2.1 m hm) h6
  simp only [Nums]
  rw [numsMembers_iff]
  intro e he
  simp only [List.mem_cons, List.mem_append, List.not_mem_nil, or_false] at he
  rcases he with (((he | rfl) | he) | (rfl | rfl)) | he
  · exact a e he
  · simp only [Nums]
  · exact b e he
  · exact hg
  · exact hp
  · exact d e he

theorem feature_nums {f : Feature Float} {j : Json Float} (hi : f.Ints) (h : f.MarshalJSON = .ok j) : Nums Fin64 j := by
  unfold Feature.MarshalJSON at h
  refine print_nums (f := _) ?_ h
  have he : IntsMap ([] : List (String × Val Float)) := by simp only [IntsMap]
  refine ⟨?_, ?_, ?_, ?_⟩
  · have : Ints f.ID := hi.1
    split <;> split <;> split <;> exact this
  · have : ∀ o, f.GeometryJson = some o → o.Ints := hi.2.1
    split <;> split <;> split <;> exact this
  · have := hi.2.2.1
    split <;> split <;> split <;> intro m hm <;> first
      | (cases hm; exact this _ (by assumption))
      | cases hm
  · have := hi.2.2.2
    split
    · rename_i c cs hm
      rw [hm] at this
      exact this
    · split <;> split <;> exact he

theorem collection_nums {fc : FeatureCollection Float} {j : Json Float} (hi : fc.Ints) (h : fc.MarshalJSON = .ok j) : Nums Fin64 j := by
  rw [collection_marshal, FeatureCollection.print] at h
  simp only [bindE_iff] at h
  obtain ⟨bb, h1, fj, h2, crs, h3, h⟩ := h
  cases h
  have b := numsMembers_iff.1 (optNums_nums h1)
  have d := numsMembers_iff.1 (optMap_nums (show IntsMap fc.CRS from hi.1) h3)
  have hf : Nums Fin64 fj := by
    simp only [FeatureCollection.kept, bindE_iff] at h2
    obtain ⟨js, h4, h2⟩ := h2
    cases h2
    simp only [Nums]
    rw [numsList_iff]
    intro e he
    obtain ⟨a, ha, hm⟩ := mapE_mem h4 e he
    unfold featMarshal at hm
    split at hm
    · cases hm; simp only [Nums]
    · rename_i f
      refine feature_nums ?_ hm
      cases hF : fc.Features with
      | none => rw [hF] at ha; simp at ha
      | some l => rw [hF] at ha; exact hi.2 l hF f ha
  simp only [Nums]
  rw [numsMembers_iff]
  intro e he
  simp only [List.mem_cons, List.mem_append, List.not_mem_nil, or_false] at he
  rcases he with ((rfl | he) | rfl) | he
  · simp only [Nums]
  · exact b e he
  · exact hf
  · exact d e he

/-! ### Geometry documents are not deeply nested -/

theorem nestingList_le {F : Type} {n : ℕ} : ∀ {l : List (Json F)}, (∀ j ∈ l, nesting j ≤ n) → nestingList l ≤ n
  | [], _ => by simp [nestingList]
  | a :: l, h => by
    simp only [nestingList]
    exact max_le (h a (by simp)) (nestingList_le fun j hj => h j (by simp [hj]))

theorem number_nest {x : Float} {j : Json Float} (h : Json.number x = .ok j) : nesting j ≤ 0 := by
  unfold Json.number at h
  split at h
  · cases h
  · cases h; simp [nesting]

theorem nums1_nest {l : List Float} {j : Json Float} (h : nums1 l = .ok j) : nesting j ≤ 1 := by
  rw [nums1, bindE_iff] at h
  obtain ⟨m, h1, h⟩ := h
  cases h
  simp only [nesting]
  have := nestingList_le (n := 0) (l := m) fun b hb => by
    obtain ⟨a, -, ha⟩ := mapE_mem h1 b hb
    exact number_nest ha
  omega

theorem numsUp_nest {α : Type} {n : ℕ} {f : α → Except String (Json Float)} (hf : ∀ a j, f a = .ok j → nesting j ≤ n) {l : List α} {j : Json Float}
    (h : numsUp f l = .ok j) : nesting j ≤ n + 1 := by
  unfold numsUp at h
  split at h
  · cases h; simp [nesting]
  · rw [bindE_iff] at h
    obtain ⟨m, h1, h⟩ := h
    cases h
    simp only [nesting]
    have := nestingList_le (n := n) (l := m) fun b hb => by
      obtain ⟨a, -, ha⟩ := mapE_mem h1 b hb
      exact hf a b ha
    omega

end GoGeo.GeoJson
