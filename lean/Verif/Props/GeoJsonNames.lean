import Verif.Props.GeoJsonText

/-! # C109, C110, C111: member names, repeated members, the order of properties -/

set_option linter.unusedSectionVars false

namespace GoGeo.GeoJson
open GoFloat Json JsonText

section
variable {F : Type} [GoFloat F]

/-- C109, in part: a member whose name is none of the standard names, in any mixture of cases, makes no difference wherever it stands. -/
theorem C109_foreign_partial (a b : List (String × Json F)) (k : String) (j : Json F) :
    ((∀ n ∈ geometryNames, ¬ CaseVariant n k) → ∀ o : Obj F, o.unmarshal (.obj (a ++ (k, j) :: b)) = o.unmarshal (.obj (a ++ b))) ∧
    ((∀ n ∈ featureNames, ¬ CaseVariant n k) → UnmarshalFeature (.obj (a ++ (k, j) :: b)) = UnmarshalFeature (.obj (a ++ b))) ∧
    ((∀ n ∈ collectionNames, ¬ CaseVariant n k) →
      UnmarshalFeatureCollection (.obj (a ++ (k, j) :: b)) = UnmarshalFeatureCollection (.obj (a ++ b))) :=
  ⟨fun h o => members_drop (fun s => by rw [obj_member, fieldOf_foreign h]) _ _ _,
    fun h => members_drop (fun s => by rw [feature_member, fieldOf_foreign h]) _ _ _,
    fun h => members_drop (fun s => by rw [collection_member, fieldOf_foreign h]) _ _ _⟩

/-- C109: a member whose name is a standard name up to case is read as if it had the standard name. -/
theorem C109_variant (a b : List (String × Json F)) (n k : String) (j : Json F) (h : CaseVariant n k) :
    (n ∈ geometryNames → ∀ o : Obj F, o.unmarshal (.obj (a ++ (k, j) :: b)) = o.unmarshal (.obj (a ++ (n, j) :: b))) ∧
    (n ∈ featureNames → UnmarshalFeature (.obj (a ++ (k, j) :: b)) = UnmarshalFeature (.obj (a ++ (n, j) :: b))) ∧
    (n ∈ collectionNames → UnmarshalFeatureCollection (.obj (a ++ (k, j) :: b)) = UnmarshalFeatureCollection (.obj (a ++ (n, j) :: b))) :=
  ⟨fun hn o => members_swap (fun s => by
      rw [obj_member, obj_member, fieldOf_variant letters_geometry hn h, fieldOf_variant letters_geometry hn (variant_self n)]) _ _ _,
    fun hn => members_swap (fun s => by
      rw [feature_member, feature_member, fieldOf_variant letters_feature hn h, fieldOf_variant letters_feature hn (variant_self n)]) _ _ _,
    fun hn => members_swap (fun s => by
      rw [collection_member, collection_member, fieldOf_variant letters_collection hn h, fieldOf_variant letters_collection hn (variant_self n)]) _ _ _⟩

/-! ### repeated members -/

/-- two runs end alike: in related states, or with the same error -/
def Alike {σ : Type} (R : σ → σ → Prop) (x y : Except String σ) : Prop :=
  (∃ s t, x = .ok s ∧ y = .ok t ∧ R s t) ∨ ∃ e, x = .error e ∧ y = .error e

theorem members_alike {σ : Type} {f : σ → String → Json F → Except String σ} {R : σ → σ → Prop}
    (hR : ∀ s t k j, R s t → Alike R (f s k j) (f t k j)) : ∀ (m : List (String × Json F)) (s t : σ), R s t → Alike R (members f s m) (members f t m)
  | [], s, t, h => .inl ⟨s, t, rfl, rfl, h⟩
  | (k, j) :: m, s, t, h => by
    rw [members, members]
    rcases hR s t k j h with ⟨s', t', h1, h2, h3⟩ | ⟨e, h1, h2⟩
    · rw [bindE_ok h1, bindE_ok h2]
      exact members_alike hR m s' t' h3
    · rw [bindE_error h1, bindE_error h2]
      exact .inr ⟨e, rfl, rfl⟩

/-- a member whose effect is undone by a later one can be left out -/
theorem members_last {σ : Type} {f : σ → String → Json F → Except String σ} {R : σ → σ → Prop}
    (hR : ∀ s t k j, R s t → Alike R (f s k j) (f t k j)) {n n' : String} {j j' : Json F} (h1 : ∀ s, ∃ s', f s n j = .ok s' ∧ R s' s)
    (h2 : ∀ s t, R s t → f s n' j' = f t n' j') (s : σ) (a b c : List (String × Json F)) :
    members f s (a ++ (n, j) :: b ++ (n', j') :: c) = members f s (a ++ b ++ (n', j') :: c) := by
  rw [List.append_assoc, List.append_assoc, members_append, members_append]
  refine congrArg _ (funext fun s0 => ?_)
  obtain ⟨s1, h3, h4⟩ := h1 s0
  rw [List.cons_append, members, bindE_ok h3, members_append, members_append]
  rcases members_alike hR b s1 s0 h4 with ⟨u, v, h5, h6, h7⟩ | ⟨e, h5, h6⟩
  · rw [bindE_ok h5, bindE_ok h6, members, members, h2 u v h7]
  · rw [bindE_error h5, bindE_error h6]

theorem alike_of {σ : Type} {R : σ → σ → Prop} {α : Type} {x : Except String α} {f g : α → σ} (h : ∀ a, R (f a) (g a)) :
    Alike R (do return f (← x)) (do return g (← x)) := by
  cases x with
  | error e => exact .inr ⟨e, rfl, rfl⟩
  | ok a => exact .inl ⟨_, _, rfl, rfl, h a⟩

theorem alike_toStr {σ : Type} {R : σ → σ → Prop} {u v : String} {j : Json F} {f g : String → σ} (h : ∀ a, R (f a) (g a)) (h0 : R (f u) (g v)) :
    Alike R (do return f (← toStr u j)) (do return g (← toStr v j)) := by
  cases j
  case null => exact .inl ⟨_, _, rfl, rfl, h0⟩
  case str s => exact .inl ⟨_, _, rfl, rfl, h s⟩
  all_goals exact .inr ⟨_, rfl, rfl⟩

theorem obj_alike {R : Obj F → Obj F → Prop} (hty : ∀ s t j, R s t → Alike R (s.set "type" j) (t.set "type" j))
    (hco : ∀ s t v, R s t → R { s with Coordinates := v } { t with Coordinates := v })
    (hge : ∀ s t v, R s t → R { s with Geometries := v } { t with Geometries := v })
    (hcr : ∀ s t v, R s t → R { s with CRS := v } { t with CRS := v }) (hcrs : ∀ s t, R s t → s.CRS = t.CRS) (s t : Obj F) (k : String) (j : Json F)
    (h : R s t) : Alike R (s.member k j) (t.member k j) := by
  rw [obj_member, obj_member]
  cases fieldOf geometryNames k with
  | none => exact .inl ⟨s, t, rfl, rfl, h⟩
  | some n =>
    dsimp only
    by_cases h1 : n = "type"
    · rw [h1]; exact hty s t j h
    · rw [Obj.set, Obj.set, if_neg h1, if_neg h1]
      split_ifs
      · exact .inl ⟨_, _, rfl, rfl, hco s t _ h⟩
      · exact .inl ⟨_, _, rfl, rfl, hge s t _ h⟩
      · rw [hcrs s t h]
        exact alike_of fun a => hcr s t _ h
      · exact .inl ⟨s, t, rfl, rfl, h⟩

/-- C110, in part: of two members `coordinates`, `geometries` or (with strings) `type` of a geometry object the last one decides. -/
theorem C110_geometry_partial (o : Obj F) (a b c : List (String × Json F)) :
    (∀ n ∈ ["coordinates", "geometries"], ∀ j j', o.unmarshal (.obj (a ++ (n, j) :: b ++ (n, j') :: c)) = o.unmarshal (.obj (a ++ b ++ (n, j') :: c))) ∧
    (∀ t t', o.unmarshal (.obj (a ++ ("type", .str t) :: b ++ ("type", .str t') :: c)) = o.unmarshal (.obj (a ++ b ++ ("type", .str t') :: c))) := by
  refine ⟨fun n hn j j' => ?_, fun t t' => ?_⟩
  · simp only [List.mem_cons, List.not_mem_nil, or_false] at hn
    rcases hn with rfl | rfl
    · refine members_last (R := fun s t => s.Typ = t.Typ ∧ s.Geometries = t.Geometries ∧ s.CRS = t.CRS) (obj_alike ?_ ?_ ?_ ?_ ?_) ?_ ?_ o a b c
      · intro s t j h
        simp only [Obj.set, if_true, h.1]
        exact alike_of fun a => ⟨rfl, h.2⟩
      · exact fun s t v h => h
      · exact fun s t v h => ⟨h.1, rfl, h.2.2⟩
      · exact fun s t v h => ⟨h.1, h.2.1, rfl⟩
      · exact fun s t h => h.2.2
      · exact fun s => ⟨{ s with Coordinates := decode j }, rfl, rfl, rfl, rfl⟩
      · rintro ⟨a, b, c, d⟩ ⟨a', b', c', d'⟩ ⟨h1, h2, h3⟩
        dsimp only at h1 h2 h3
        subst h1 h2 h3
        rfl
    · refine members_last (R := fun s t => s.Typ = t.Typ ∧ s.Coordinates = t.Coordinates ∧ s.CRS = t.CRS) (obj_alike ?_ ?_ ?_ ?_ ?_) ?_ ?_ o a b c
      · intro s t j h
        simp only [Obj.set, if_true, h.1]
        exact alike_of fun a => ⟨rfl, h.2⟩
      · exact fun s t v h => ⟨h.1, rfl, h.2.2⟩
      · exact fun s t v h => h
      · exact fun s t v h => ⟨h.1, h.2.1, rfl⟩
      · exact fun s t h => h.2.2
      · exact fun s => ⟨{ s with Geometries := decode j }, rfl, rfl, rfl, rfl⟩
      · rintro ⟨a, b, c, d⟩ ⟨a', b', c', d'⟩ ⟨h1, h2, h3⟩
        dsimp only at h1 h2 h3
        subst h1 h2 h3
        rfl
  · refine members_last (R := fun s t => s.Coordinates = t.Coordinates ∧ s.Geometries = t.Geometries ∧ s.CRS = t.CRS) (obj_alike ?_ ?_ ?_ ?_ ?_) ?_ ?_ o a b c
    · intro s t j h
      simp only [Obj.set, if_true]
      exact alike_toStr (fun a => h) h
    · exact fun s t v h => ⟨rfl, h.2⟩
    · exact fun s t v h => ⟨h.1, rfl, h.2.2⟩
    · exact fun s t v h => ⟨h.1, h.2.1, rfl⟩
    · exact fun s t h => h.2.2
    · exact fun s => ⟨{ s with Typ := t }, rfl, rfl, rfl, rfl⟩
    · rintro ⟨a, b, c, d⟩ ⟨a', b', c', d'⟩ ⟨h1, h2, h3⟩
      dsimp only at h1 h2 h3
      subst h1 h2 h3
      rfl

/-- C110, in part: of two members `id` or (with strings) `type` of a feature the last one decides. -/
theorem C110_feature_partial (a b c : List (String × Json F)) :
    (∀ j j', UnmarshalFeature (.obj (a ++ ("id", j) :: b ++ ("id", j') :: c)) = UnmarshalFeature (.obj (a ++ b ++ ("id", j') :: c))) ∧
    (∀ t t', UnmarshalFeature (.obj (a ++ ("type", .str t) :: b ++ ("type", .str t') :: c)) =
      UnmarshalFeature (.obj (a ++ b ++ ("type", .str t') :: c))) := by
  refine ⟨fun j j' => ?_, fun t t' => ?_⟩
  · refine members_last (f := Feature.member) (R := fun s t => ({ s with ID := .nil } : Feature F) = { t with ID := .nil }) ?_ ?_ ?_ _ a b c
    · rintro ⟨i, ty, bb, gj, pr, cr, ge⟩ ⟨i', ty', bb', gj', pr', cr', ge'⟩ k j h
      simp only [Feature.mk.injEq, true_and] at h
      obtain ⟨rfl, rfl, rfl, rfl, rfl, rfl⟩ := h
      rw [feature_member, feature_member]
      cases fieldOf featureNames k with
      | none => exact .inl ⟨_, _, rfl, rfl, rfl⟩
      | some n =>
        dsimp only
        unfold Feature.set
        split_ifs
        · exact .inl ⟨_, _, rfl, rfl, rfl⟩
        · exact alike_of fun a => rfl
        · exact alike_of fun a => rfl
        · split
          · exact .inl ⟨_, _, rfl, rfl, rfl⟩
          · exact alike_of fun a => rfl
        · exact alike_of fun a => rfl
        · exact alike_of fun a => rfl
        · exact .inl ⟨_, _, rfl, rfl, rfl⟩
    · exact fun s => ⟨{ s with ID := decode j }, rfl, rfl⟩
    · rintro ⟨i, ty, bb, gj, pr, cr, ge⟩ ⟨i', ty', bb', gj', pr', cr', ge'⟩ h
      simp only [Feature.mk.injEq, true_and] at h
      obtain ⟨rfl, rfl, rfl, rfl, rfl, rfl⟩ := h
      rfl
  · refine members_last (f := Feature.member) (R := fun s t => ({ s with Typ := "" } : Feature F) = { t with Typ := "" }) ?_ ?_ ?_ _ a b c
    · rintro ⟨i, ty, bb, gj, pr, cr, ge⟩ ⟨i', ty', bb', gj', pr', cr', ge'⟩ k j h
      simp only [Feature.mk.injEq, true_and] at h
      obtain ⟨rfl, rfl, rfl, rfl, rfl, rfl⟩ := h
      rw [feature_member, feature_member]
      cases fieldOf featureNames k with
      | none => exact .inl ⟨_, _, rfl, rfl, rfl⟩
      | some n =>
        dsimp only
        unfold Feature.set
        split_ifs
        · exact .inl ⟨_, _, rfl, rfl, rfl⟩
        · exact alike_toStr (fun a => rfl) rfl
        · exact alike_of fun a => rfl
        · split
          · exact .inl ⟨_, _, rfl, rfl, rfl⟩
          · exact alike_of fun a => rfl
        · exact alike_of fun a => rfl
        · exact alike_of fun a => rfl
        · exact .inl ⟨_, _, rfl, rfl, rfl⟩
    · exact fun s => ⟨{ s with Typ := t }, rfl, rfl⟩
    · rintro ⟨i, ty, bb, gj, pr, cr, ge⟩ ⟨i', ty', bb', gj', pr', cr', ge'⟩ h
      simp only [Feature.mk.injEq, true_and] at h
      obtain ⟨rfl, rfl, rfl, rfl, rfl, rfl⟩ := h
      rfl

/-! ### the order of properties -/

theorem setKey_keys {α : Type} {k : String} {v : α} : ∀ {m : List (String × α)} {x}, x ∈ (setKey k v m).map Prod.fst → x = k ∨ x ∈ m.map Prod.fst
  | [], x, h => by simpa [setKey] using h
  | (k', v') :: m, x, h => by
    rw [setKey] at h
    split_ifs at h with h1 h2
    · simp only [List.map_cons, List.mem_cons] at h ⊢
      tauto
    · simp only [List.map_cons, List.mem_cons] at h ⊢
      tauto
    · simp only [List.map_cons, List.mem_cons] at h ⊢
      rcases h with h | h
      · exact .inr (.inl h)
      · rcases setKey_keys h with h | h
        · exact .inl h
        · exact .inr (.inr h)

theorem setKey_isMap {α : Type} {k : String} {v : α} : ∀ {m : List (String × α)}, IsMap m → IsMap (setKey k v m)
  | [], _ => List.pairwise_singleton _ _
  | (k', v') :: m, h => by
    unfold IsMap at h ⊢
    rw [List.map_cons, List.pairwise_cons] at h
    rw [setKey]
    split_ifs with h1 h2
    · rw [List.map_cons, List.pairwise_cons]
      exact ⟨by rw [h1]; exact h.1, h.2⟩
    · rw [List.map_cons, List.map_cons, List.pairwise_cons, List.pairwise_cons]
      refine ⟨fun x hx => ?_, h⟩
      rcases List.mem_cons.1 hx with rfl | hx
      · exact h2
      · exact lt_trans h2 (h.1 x hx)
    · rw [List.map_cons, List.pairwise_cons]
      refine ⟨fun x hx => ?_, setKey_isMap (m := m) h.2⟩
      rcases setKey_keys hx with rfl | hx
      · exact lt_of_le_of_ne (not_lt.1 h2) fun e => h1 e.symm
      · exact h.1 x hx

theorem lookup_none {α : Type} {k : String} {m : List (String × α)} (h : k ∉ m.map Prod.fst) : m.lookup k = none := by
  induction m with
  | nil => rfl
  | cons e m ih =>
    obtain ⟨k', v⟩ := e
    simp only [List.map_cons, List.mem_cons, not_or] at h
    rw [lookup_cons', if_neg h.1, ih h.2]

theorem isMap_ext {α : Type} : ∀ {m m' : List (String × α)}, IsMap m → IsMap m' → (∀ k, m.lookup k = m'.lookup k) → m = m'
  | [], [], _, _, _ => rfl
  | [], (k, v) :: m, _, _, h => by have := h k; rw [lookup_cons', if_pos rfl] at this; cases this
  | (k, v) :: m, [], _, _, h => by have := h k; rw [lookup_cons', if_pos rfl] at this; cases this
  | (k, v) :: m, (k', v') :: m', h1, h2, h => by
    unfold IsMap at h1 h2
    rw [List.map_cons, List.pairwise_cons] at h1 h2
    have hk : k = k' := by
      rcases lt_trichotomy k k' with hlt | heq | hgt
      · have := h k
        rw [lookup_cons', if_pos rfl, lookup_none] at this
        · cases this
        · rw [List.map_cons, List.mem_cons]
          rintro (e | e)
          · exact absurd e hlt.ne
          · exact absurd (lt_trans hlt (h2.1 k e)) (lt_irrefl _)
      · exact heq
      · have := h k'
        rw [lookup_cons' k', if_pos rfl, lookup_none] at this
        · cases this
        · rw [List.map_cons, List.mem_cons]
          rintro (e | e)
          · exact absurd e hgt.ne
          · exact absurd (lt_trans hgt (h1.1 k' e)) (lt_irrefl _)
    subst hk
    have hv := h k
    rw [lookup_cons', lookup_cons', if_pos rfl, if_pos rfl] at hv
    cases hv
    rw [isMap_ext (m := m) (m' := m') h1.2 h2.2 fun x => ?_]
    by_cases hx : x = k
    · subst hx
      rw [lookup_none, lookup_none]
      · exact fun e => lt_irrefl _ (h2.1 x e)
      · exact fun e => lt_irrefl _ (h1.1 x e)
    · have := h x
      rwa [lookup_cons', lookup_cons', if_neg hx, if_neg hx] at this

/-- the properties after a series of calls -/
theorem setAll_props (ops : List (String × Val F)) : ∀ (f : Feature F), ops ≠ [] → IsMap (f.Properties.getD []) →
    ∃ m, setAll f ops = { f with Properties := some m } ∧ IsMap m ∧
      ∀ k, m.lookup k = match lastSet k ops with | some v => some v | none => (f.Properties.getD []).lookup k := by
  induction ops with
  | nil => exact fun f h => absurd rfl h
  | cons op ops ih =>
    intro f _ hm
    obtain ⟨k', v⟩ := op
    have hset : setAll f ((k', v) :: ops) = setAll (SetProperty f k' v) ops := rfl
    have hmap : IsMap ((SetProperty f k' v).Properties.getD []) := setKey_isMap hm
    have hlook : ∀ k, ((SetProperty f k' v).Properties.getD []).lookup k = if k = k' then some v else (f.Properties.getD []).lookup k :=
      fun k => lookup_setKey _ _ _ _
    by_cases ho : ops = []
    · subst ho
      refine ⟨setKey k' v (f.Properties.getD []), rfl, hmap, fun k => ?_⟩
      rw [lookup_setKey, lastSet, lastSet]
      by_cases h : k = k'
      · rw [if_pos h, if_pos h.symm]
      · rw [if_neg h, if_neg fun e => h e.symm]
    · obtain ⟨m, h1, h2, h3⟩ := ih (SetProperty f k' v) ho hmap
      refine ⟨m, by rw [hset, h1]; rfl, h2, fun k => ?_⟩
      rw [h3, hlook, lastSet]
      cases lastSet k ops with
      | some w => rfl
      | none =>
        by_cases h : k = k'
        · rw [if_pos h, if_pos h.symm]
        · rw [if_neg h, if_neg fun e => h e.symm]

theorem lastSet_head (k : String) (v : Val F) (ops : List (String × Val F)) : lastSet k ((k, v) :: ops) ≠ none := by
  rw [lastSet]
  cases lastSet k ops <;> simp

theorem setAll_same {f : Feature F} (hm : IsMap (f.Properties.getD [])) {ops ops' : List (String × Val F)}
    (h : ∀ k, lastSet k ops = lastSet k ops') : setAll f ops = setAll f ops' := by
  cases ops with
  | nil =>
    cases ops' with
    | nil => rfl
    | cons op ops' => exact absurd (h op.1).symm (lastSet_head op.1 op.2 ops')
  | cons op ops =>
    cases ops' with
    | nil => exact absurd (h op.1) (lastSet_head op.1 op.2 ops)
    | cons op' ops' =>
      obtain ⟨m, h1, h2, h3⟩ := setAll_props (op :: ops) f (by simp) hm
      obtain ⟨m', h1', h2', h3'⟩ := setAll_props (op' :: ops') f (by simp) hm
      rw [h1, h1', isMap_ext h2 h2' fun k => by rw [h3, h3', h]]

end

/-- C111: what is written for a new feature depends only on the value last set under each property, not on the order of the calls. -/
theorem C111_order (g : Geometry Float) (ops ops' : List (String × Val Float)) (h : ∀ k, lastSet k ops = lastSet k ops') :
    (setAll (NewFeatureText g) ops).MarshalText = (setAll (NewFeatureText g) ops').MarshalText := by
  rw [setAll_same (f := NewFeatureText g) List.Pairwise.nil h]

/-! ### foreign members in texts -/

theorem convFields_drop {fields : List String} {g : String → Json (List Char) → Option (Json Float)} {k : String} {x : Json (List Char)}
    (h : fieldOf fields k = none) (b : List (String × Json (List Char))) :
    ∀ a : List (String × Json (List Char)), convFields fields g (a ++ (k, x) :: b) = convFields fields g (a ++ b)
  | [] => by rw [List.nil_append, List.nil_append, convFields, h]
  | (k', j) :: a => by rw [List.cons_append, List.cons_append, convFields, convFields, convFields_drop h b a]

theorem ofText_raw {α : Type} {cv : Json (List Char) → Option (Json Float)} {f : Json Float → Except String α} {t : Json (List Char)} {s : List Char}
    (h : Rfc8259.Doc (fun x t => t = x) t s) (hn : Rfc8259.nesting t ≤ 10000) :
    ofText cv f s = match cv t with | none => .error "json: cannot unmarshal number into Go value of type float64" | some j => f j := by
  have h' : Rfc8259.Doc (JsonText.Reads some) t s := by
    obtain ⟨j, h1, h2⟩ := doc_rel (M := JsonText.Reads some) (R := Eq) (P := fun _ => True) (fun q t _ hr _ => ⟨q, by rw [hr]; rfl, rfl⟩) h (nums_true t)
    rw [JRel.eq h2]
    exact h1
  unfold ofText
  rw [(read_iff some s t).2 ⟨h', hn⟩]
  rfl

/-- C109, in part, for texts: a member whose name is none of the standard names, in any mixture of cases, makes no difference wherever it
stands and whatever its value, even a number out of range. -/
theorem C109_text_partial (a b : List (String × Json (List Char))) (k : String) (x : Json (List Char)) (s s' : List Char)
    (hs : Rfc8259.Doc (fun x t => t = x) (.obj (a ++ (k, x) :: b)) s) (hs' : Rfc8259.Doc (fun x t => t = x) (.obj (a ++ b)) s')
    (hn : Rfc8259.nesting (.obj (a ++ (k, x) :: b)) ≤ 10000) :
    ((∀ n ∈ geometryNames, ¬ CaseVariant n k) → UnmarshalObjText s = UnmarshalObjText s') ∧
    ((∀ n ∈ featureNames, ¬ CaseVariant n k) → UnmarshalFeatureText s = UnmarshalFeatureText s') ∧
    ((∀ n ∈ collectionNames, ¬ CaseVariant n k) → UnmarshalFeatureCollectionText s = UnmarshalFeatureCollectionText s') := by
  have hn' : Rfc8259.nesting (.obj (a ++ b)) ≤ 10000 := by
    refine le_trans ?_ hn
    simp only [Rfc8259.nesting]
    refine Nat.succ_le_succ ?_
    clear hs hs' hn
    induction a with
    | nil => exact le_max_right _ _
    | cons e a ih => exact max_le_max le_rfl ih
  refine ⟨fun h => ?_, fun h => ?_, fun h => ?_⟩
  · unfold UnmarshalObjText
    rw [ofText_raw hs hn, ofText_raw hs' hn', convObj, convObj, convFields_drop (fields := objFields) (fieldOf_foreign h)]
  · unfold UnmarshalFeatureText
    rw [ofText_raw hs hn, ofText_raw hs' hn', convFeature, convFeature, convFields_drop (fields := featureFields) (fieldOf_foreign h)]
  · unfold UnmarshalFeatureCollectionText
    rw [ofText_raw hs hn, ofText_raw hs' hn', convCollection, convCollection, convFields_drop (fields := collectionFields) (fieldOf_foreign h)]

/-! ### concrete texts -/

/-- the coordinates of the point a text is read as -/
def pointOf (s : String) : Option (Float × Float) :=
  match UnmarshalObjText s.toList with
  | .ok o => (match UnmarshalGeo (some o) with | .ok (.ok (.point p)) => some (p.X, p.Y) | _ => none)
  | .error _ => none

/-- C109 fails: a foreign member `COORDINATES` replaces the coordinates; so does one spelt with a long s. -/
theorem C109_false : pointOf "{\"type\":\"Point\",\"coordinates\":[1,2]}" = some (1, 2) ∧
    pointOf "{\"type\":\"Point\",\"coordinates\":[1,2],\"COORDINATES\":[3,4]}" = some (3, 4) ∧
    pointOf "{\"type\":\"Point\",\"coordinates\":[1,2],\"coordinateſ\":[5,6]}" = some (5, 6) := by
  refine ⟨?_, ?_, ?_⟩ <;> decide +kernel

/-- the geometry object of the feature a text is read as -/
def geometryOf (s : String) : Option (String × Option (Float × Float)) :=
  match UnmarshalFeatureText s.toList with
  | .ok f => f.GeometryJson.map fun o => (o.Typ, match o.Coordinates with | .slice [.float x, .float y] => some (x, y) | _ => none)
  | .error _ => none

/-- the names of the properties of the feature a text is read as -/
def propertiesOf (s : String) : Option (List String) :=
  match UnmarshalFeatureText s.toList with
  | .ok f => f.Properties.map fun m => m.map Prod.fst
  | .error _ => none

/-- C110 fails: two members `geometry` are merged into one object, two members `properties` into one map. -/
theorem C110_false : geometryOf "{\"type\":\"Feature\",\"geometry\":{\"type\":\"Point\",\"coordinates\":[1,2]},\"geometry\":{\"type\":\"LineString\"}}" =
      some ("LineString", some (1, 2)) ∧
    propertiesOf "{\"type\":\"Feature\",\"geometry\":null,\"properties\":{\"b\":1},\"properties\":{\"a\":2}}" = some ["a", "b"] := by
  constructor <;> decide +kernel

/-- hypotheses of C109_foreign_partial and C109_variant -/
example : (∀ n ∈ geometryNames, ¬ CaseVariant n "coords") ∧ CaseVariant "coordinates" "Coordinateſ" := by
  refine ⟨?_, (equalFold_iff _ _).1 (by decide +kernel)⟩
  intro n hn h
  have h' := (equalFold_iff _ _).2 h
  clear h
  revert n
  decide +kernel

/-- hypothesis of C111_order: two keys set in either order, one of them twice -/
example (k : String) : lastSet k [("b", (.bool true : Val Float)), ("a", .nil), ("b", .str "x")] = lastSet k [("a", .nil), ("b", .str "x")] := by
  simp only [lastSet]
  by_cases h1 : "b" = k
  · simp [h1]
  · by_cases h2 : "a" = k <;> simp [h1, h2]

/-- the properties are written in the order of their keys -/
example : (match (setAll (NewFeatureText (.point ⟨1, 2⟩)) [("b", .bool true), ("a", .nil)]).MarshalText with | .ok s => s | .error _ => []) =
    "{\"type\":\"Feature\",\"geometry\":{\"type\":\"Point\",\"coordinates\":[1,2]},\"properties\":{\"a\":null,\"b\":true}}".toList := by decide +kernel

end GoGeo.GeoJson
