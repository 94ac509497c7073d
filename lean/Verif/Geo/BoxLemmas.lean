import Verif.Spec.Box
import Verif.Geo.Box

/-!
# Lemmas about boxes
-/
set_option linter.unusedSectionVars false

namespace GoGeo
open GoFloat Spec
variable {F : Type} [GoFloat F] [FloatOrd F]

/-! ## helper lemmas -/

theorem Spec.Le.trans {a b c : F} (h : Le a b) (h' : Le b c) : Le a c := le_trans' h h'
theorem Spec.Le.refl {a : F} (h : IsNum a) : Le a a := le_refl' h
theorem Spec.Le.left {a b : F} (h : Le a b) : IsNum a := FloatOrd.le_left _ _ h
theorem Spec.Le.right {a b : F} (h : Le a b) : IsNum b := FloatOrd.le_right _ _ h
theorem Le_of_lt {a b : F} (h : lt a b = true) : Le a b := le_of_lt' h
theorem not_lt_iff {a b : F} (ha : IsNum a) (hb : IsNum b) : lt a b = false ↔ Le b a := lt_false_iff ha hb
theorem not_lt_of_Le {a b : F} (h : Le a b) : lt b a = false := (not_lt_iff h.right h.left).2 h

theorem INF_num : IsNum (INF : F) := FloatOrd.dec_not_nan _ _
theorem nINF_num : IsNum (-INF : F) := by unfold IsNum; rw [FloatOrd.neg_isNaN]; exact INF_num

/-- running minimum -/
theorem stepMin {m v : F} (hm : IsNum m) :
    let r := if gt m v then v else m
    IsNum r ∧ Le r m ∧ (IsNum v → Le r v) ∧ (r = v ∨ r = m) := by
  cases h : gt m v
  · refine ⟨hm, Le.refl hm, fun hv => (not_lt_iff hv hm).1 h, Or.inr rfl⟩
  · have hv := nn_of_lt h
    exact ⟨hv.1, Le_of_lt h, fun _ => Le.refl hv.1, Or.inl rfl⟩

/-- running maximum -/
theorem stepMax {m v : F} (hm : IsNum m) :
    let r := if lt m v then v else m
    IsNum r ∧ Le m r ∧ (IsNum v → Le v r) ∧ (r = v ∨ r = m) := by
  cases h : lt m v
  · refine ⟨hm, Le.refl hm, fun hv => (not_lt_iff hm hv).1 h, Or.inr rfl⟩
  · have hv := nn_of_lt h
    exact ⟨hv.2, Le_of_lt h, fun _ => Le.refl hv.2, Or.inl rfl⟩

theorem calBoxStep_num {b : Box F} (hb : NumBox b) (v : Point F) : NumBox (calBoxStep b v) :=
  ⟨(stepMin hb.minX).1, (stepMin hb.minY).1, (stepMax hb.maxX).1, (stepMax hb.maxY).1⟩

theorem calBoxStep_inside {b : Box F} (hb : NumBox b) (v : Point F) : Inside b (calBoxStep b v) :=
  ⟨(stepMin hb.minX).2.1, (stepMin hb.minY).2.1, (stepMax hb.maxX).2.1, (stepMax hb.maxY).2.1⟩

theorem Spec.Inside.trans {a b c : Box F} (h : Inside a b) (h' : Inside b c) : Inside a c :=
  ⟨h'.1.trans h.1, h'.2.trans h.2, h.3.trans h'.3, h.4.trans h'.4⟩

theorem Spec.Inside.refl {a : Box F} (h : NumBox a) : Inside a a :=
  ⟨Le.refl h.1, Le.refl h.2, Le.refl h.3, Le.refl h.4⟩

/-- a box covers the numeric coordinates of a vertex -/
structure Covers (b : Box F) (p : Point F) : Prop where
  x : IsNum p.X → Le b.MinX p.X ∧ Le p.X b.MaxX
  y : IsNum p.Y → Le b.MinY p.Y ∧ Le p.Y b.MaxY

theorem Covers.mono {a b : Box F} {p : Point F} (h : Covers a p) (hab : Inside a b) : Covers b p :=
  ⟨fun hx => ⟨hab.minX.trans (h.x hx).1, (h.x hx).2.trans hab.maxX⟩,
   fun hy => ⟨hab.minY.trans (h.y hy).1, (h.y hy).2.trans hab.maxY⟩⟩

theorem calBoxStep_covers {b : Box F} (hb : NumBox b) (v : Point F) : Covers (calBoxStep b v) v :=
  ⟨fun h => ⟨(stepMin hb.minX).2.2.1 h, (stepMax hb.maxX).2.2.1 h⟩,
   fun h => ⟨(stepMin hb.minY).2.2.1 h, (stepMax hb.maxY).2.2.1 h⟩⟩

theorem foldl_calBox (l : List (Point F)) (b : Box F) (hb : NumBox b) :
    NumBox (l.foldl calBoxStep b) ∧ Inside b (l.foldl calBoxStep b) ∧
    ∀ p ∈ l, Covers (l.foldl calBoxStep b) p := by
  induction l generalizing b with
  | nil => exact ⟨hb, Inside.refl hb, by simp⟩
  | cons v l ih =>
    obtain ⟨h1, h2, h3⟩ := ih (calBoxStep b v) (calBoxStep_num hb v)
    refine ⟨h1, (calBoxStep_inside hb v).trans h2, ?_⟩
    intro p hp
    rcases List.mem_cons.1 hp with rfl | hp
    · exact (calBoxStep_covers hb p).mono h2
    · exact h3 p hp

theorem start_num : NumBox (⟨INF, INF, -INF, -INF⟩ : Box F) := ⟨INF_num, INF_num, nINF_num, nINF_num⟩

theorem calBox_num (l : List (Point F)) : NumBox (calBox l) := (foldl_calBox l _ start_num).1

theorem zero_num : NumBox (Box.zero : Box F) :=
  ⟨FloatOrd.dec_not_nan _ _, FloatOrd.dec_not_nan _ _, FloatOrd.dec_not_nan _ _, FloatOrd.dec_not_nan _ _⟩

theorem foldl_attained (l : List (Point F)) (b : Box F) (hb : NumBox b) :
    ((l.foldl calBoxStep b).MinX = b.MinX ∨ ∃ p ∈ l, (l.foldl calBoxStep b).MinX = p.X) ∧
    ((l.foldl calBoxStep b).MinY = b.MinY ∨ ∃ p ∈ l, (l.foldl calBoxStep b).MinY = p.Y) ∧
    ((l.foldl calBoxStep b).MaxX = b.MaxX ∨ ∃ p ∈ l, (l.foldl calBoxStep b).MaxX = p.X) ∧
    ((l.foldl calBoxStep b).MaxY = b.MaxY ∨ ∃ p ∈ l, (l.foldl calBoxStep b).MaxY = p.Y) := by
  induction l generalizing b with
  | nil => simp
  | cons v l ih =>
    obtain ⟨h1, h2, h3, h4⟩ := ih (calBoxStep b v) (calBoxStep_num hb v)
    have e1 := (stepMin (v := v.X) hb.minX).2.2.2
    have e2 := (stepMin (v := v.Y) hb.minY).2.2.2
    have e3 := (stepMax (v := v.X) hb.maxX).2.2.2
    have e4 := (stepMax (v := v.Y) hb.maxY).2.2.2
    simp only [List.foldl_cons, List.mem_cons, exists_eq_or_imp]
    refine ⟨?_, ?_, ?_, ?_⟩
    · rcases h1 with h | h
      · rw [h]; rcases e1 with e | e
        · exact Or.inr (Or.inl e)
        · exact Or.inl e
      · exact Or.inr (Or.inr h)
    · rcases h2 with h | h
      · rw [h]; rcases e2 with e | e
        · exact Or.inr (Or.inl e)
        · exact Or.inl e
      · exact Or.inr (Or.inr h)
    · rcases h3 with h | h
      · rw [h]; rcases e3 with e | e
        · exact Or.inr (Or.inl e)
        · exact Or.inl e
      · exact Or.inr (Or.inr h)
    · rcases h4 with h | h
      · rw [h]; rcases e4 with e | e
        · exact Or.inr (Or.inl e)
        · exact Or.inl e
      · exact Or.inr (Or.inr h)

theorem calBox_tight (l : List (Point F)) (hne : l ≠ [])
    (hb : ∀ p ∈ l, Bounded31 p.X ∧ Bounded31 p.Y) :
    (∃ p ∈ l, Same (calBox l).MinX p.X) ∧ (∃ p ∈ l, Same (calBox l).MinY p.Y) ∧
    (∃ p ∈ l, Same (calBox l).MaxX p.X) ∧ (∃ p ∈ l, Same (calBox l).MaxY p.Y) := by
  obtain ⟨h1, h2, h3, h4⟩ := foldl_attained l _ (start_num (F := F))
  have hc := (foldl_calBox l _ (start_num (F := F))).2.2
  obtain ⟨q, hq⟩ := List.exists_mem_of_ne_nil l hne
  have hqx := (hb q hq).1
  have hqy := (hb q hq).2
  have cx := (hc q hq).x hqx.2.left
  have cy := (hc q hq).y hqy.2.left
  change _ at h1
  refine ⟨?_, ?_, ?_, ?_⟩
  · rcases h1 with h | ⟨p, hp, h⟩
    · exact ⟨q, hq, cx.1, by unfold calBox; rw [h]; exact hqx.2⟩
    · exact ⟨p, hp, by unfold calBox; rw [h]; exact ⟨Le.refl (hb p hp).1.2.left, Le.refl (hb p hp).1.2.left⟩⟩
  · rcases h2 with h | ⟨p, hp, h⟩
    · exact ⟨q, hq, cy.1, by unfold calBox; rw [h]; exact hqy.2⟩
    · exact ⟨p, hp, by unfold calBox; rw [h]; exact ⟨Le.refl (hb p hp).2.2.left, Le.refl (hb p hp).2.2.left⟩⟩
  · rcases h3 with h | ⟨p, hp, h⟩
    · exact ⟨q, hq, by unfold calBox; rw [h]; exact hqx.1, cx.2⟩
    · exact ⟨p, hp, by unfold calBox; rw [h]; exact ⟨Le.refl (hb p hp).1.2.left, Le.refl (hb p hp).1.2.left⟩⟩
  · rcases h4 with h | ⟨p, hp, h⟩
    · exact ⟨q, hq, by unfold calBox; rw [h]; exact hqy.1, cy.2⟩
    · exact ⟨p, hp, by unfold calBox; rw [h]; exact ⟨Le.refl (hb p hp).2.2.left, Le.refl (hb p hp).2.2.left⟩⟩

theorem BoundingBox_eq (g : Geometry F) (hne : boxedVertices g ≠ []) :
    BoundingBox g = calBox (boxedVertices g) := by
  cases g with
  | polygon rs => cases rs <;> rfl
  | _ => first | rfl | exact absurd rfl hne

theorem contain_iff {a b : Box F} (ha : NumBox a) (hb : NumBox b) : a.Contain b = true ↔ Inside b a := by
  unfold Box.Contain
  constructor
  · intro h
    split at h
    · cases h
    · rename_i h1
      split at h
      · cases h
      · rename_i h2
        simp only [Bool.or_eq_true, not_or, Bool.not_eq_true] at h1 h2
        exact ⟨(not_lt_iff hb.1 ha.1).1 h1.1, (not_lt_iff hb.2 ha.2).1 h2.1,
          (not_lt_iff ha.3 hb.3).1 h1.2, (not_lt_iff ha.4 hb.4).1 h2.2⟩
  · intro h
    have e1 := not_lt_of_Le h.minX
    have e2 := not_lt_of_Le h.minY
    have e3 := not_lt_of_Le h.maxX
    have e4 := not_lt_of_Le h.maxY
    simp [gt, e1, e2, e3, e4]

theorem union_num {a b : Box F} (ha : NumBox a) (hb : NumBox b) : NumBox (a.Union b) :=
  ⟨(min_spec ha.1 hb.1).1, (min_spec ha.2 hb.2).1, (max_spec ha.3 hb.3).1, (max_spec ha.4 hb.4).1⟩

theorem union_left {a b : Box F} (ha : NumBox a) (hb : NumBox b) : Inside a (a.Union b) :=
  ⟨(min_spec ha.1 hb.1).2.1, (min_spec ha.2 hb.2).2.1, (max_spec ha.3 hb.3).2.1, (max_spec ha.4 hb.4).2.1⟩

theorem union_right {a b : Box F} (ha : NumBox a) (hb : NumBox b) : Inside b (a.Union b) :=
  ⟨(min_spec ha.1 hb.1).2.2.1, (min_spec ha.2 hb.2).2.2.1, (max_spec ha.3 hb.3).2.2.1, (max_spec ha.4 hb.4).2.2.1⟩

theorem union_least {a b c : Box F} (h1 : Inside a c) (h2 : Inside b c) : Inside (a.Union b) c := by
  refine ⟨?_, ?_, ?_, ?_⟩
  · rcases (min_spec h1.minX.right h2.minX.right).2.2.2 with h | h
    · exact h1.minX.trans h
    · exact h2.minX.trans h
  · rcases (min_spec h1.minY.right h2.minY.right).2.2.2 with h | h
    · exact h1.minY.trans h
    · exact h2.minY.trans h
  · rcases (max_spec h1.maxX.left h2.maxX.left).2.2.2 with h | h
    · exact Le.trans h h1.maxX
    · exact Le.trans h h2.maxX
  · rcases (max_spec h1.maxY.left h2.maxY.left).2.2.2 with h | h
    · exact Le.trans h h1.maxY
    · exact Le.trans h h2.maxY

theorem intersect_iff {a b : Box F} (ha : NumBox a) (hb : NumBox b) : a.Intersect b = true ↔
    Le b.MinX a.MaxX ∧ Le a.MinX b.MaxX ∧ Le a.MinY b.MaxY ∧ Le b.MinY a.MaxY := by
  unfold Box.Intersect
  constructor
  · intro h
    split at h
    · cases h
    · rename_i h1
      simp only [Bool.or_eq_true, not_or, Bool.not_eq_true] at h1
      exact ⟨(not_lt_iff ha.3 hb.1).1 h1.1.1.1, (not_lt_iff hb.3 ha.1).1 h1.1.1.2,
        (not_lt_iff hb.4 ha.2).1 h1.1.2, (not_lt_iff ha.4 hb.2).1 h1.2⟩
  · rintro ⟨h1, h2, h3, h4⟩
    have e1 := not_lt_of_Le h1
    have e2 := not_lt_of_Le h2
    have e3 := not_lt_of_Le h3
    have e4 := not_lt_of_Le h4
    simp [gt, e1, e2, e3, e4]

theorem exists_between {a b c d : F} (h1 : Le a b) (h2 : Le c d) (h3 : Le a d) (h4 : Le c b) :
    ∃ x, Le a x ∧ Le x b ∧ Le c x ∧ Le x d := by
  rcases FloatOrd.le_total a c h1.left h2.left with h | h
  · exact ⟨c, h, h4, Le.refl h2.left, h2⟩
  · exact ⟨a, Le.refl h1.left, h1, h, h3⟩

theorem foldl_union (l : List (Box F)) (b : Box F) (hb : NumBox b) (hl : ∀ x ∈ l, NumBox x) :
    NumBox (l.foldl Box.Union b) ∧ Inside b (l.foldl Box.Union b) ∧
    (∀ x ∈ l, Inside x (l.foldl Box.Union b)) ∧
    ∀ c, Inside b c → (∀ x ∈ l, Inside x c) → Inside (l.foldl Box.Union b) c := by
  induction l generalizing b with
  | nil => exact ⟨hb, Inside.refl hb, by simp, fun c h _ => h⟩
  | cons v l ih =>
    have hv := hl v (by simp)
    obtain ⟨h1, h2, h3, h4⟩ := ih (b.Union v) (union_num hb hv) (fun x hx => hl x (by simp [hx]))
    refine ⟨h1, (union_left hb hv).trans h2, ?_, ?_⟩
    · intro x hx
      rcases List.mem_cons.1 hx with rfl | hx
      · exact (union_right hb hv).trans h2
      · exact h3 x hx
    · intro c hbc hc
      exact h4 c (union_least hbc (hc v (by simp))) (fun x hx => hc x (by simp [hx]))

theorem boxUnion_spec (l : List (Box F)) (hne : l ≠ []) (hl : ∀ x ∈ l, NumBox x) :
    NumBox (BoxUnion l) ∧ (∀ x ∈ l, Inside x (BoxUnion l)) ∧
    ∀ c, (∀ x ∈ l, Inside x c) → Inside (BoxUnion l) c := by
  cases l with
  | nil => exact absurd rfl hne
  | cons b l =>
    obtain ⟨h1, h2, h3, h4⟩ := foldl_union l b (hl b (by simp)) (fun x hx => hl x (by simp [hx]))
    refine ⟨h1, ?_, fun c hc => h4 c (hc b (by simp)) (fun x hx => hc x (by simp [hx]))⟩
    intro x hx
    rcases List.mem_cons.1 hx with rfl | hx
    · exact h2
    · exact h3 x hx

end GoGeo
