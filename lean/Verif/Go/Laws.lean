import Verif.Go.Num

/-!
# Laws of `float64` used by the proofs

`FloatOrd`: IEEE comparison is a total preorder on the non-NaN values (true of binary64 and of exact
arithmetic).  `FloatArith`: monotonicity of (correctly rounded) arithmetic.
-/

namespace GoGeo
open GoFloat

/-- Comparison laws.  `a`, `b` NaN-free compare as in a total preorder; NaN compares with nothing. -/
class FloatOrd (F : Type) [GoFloat F] : Prop where
  le_refl : ∀ a : F, isNaN a = false → le a a = true
  le_trans : ∀ a b c : F, le a b = true → le b c = true → le a c = true
  le_total : ∀ a b : F, isNaN a = false → isNaN b = false → le a b = true ∨ le b a = true
  le_left : ∀ a b : F, le a b = true → isNaN a = false
  le_right : ∀ a b : F, le a b = true → isNaN b = false
  lt_iff : ∀ a b : F, lt a b = true ↔ isNaN a = false ∧ isNaN b = false ∧ le b a = false
  eq_iff : ∀ a b : F, eq a b = true ↔ le a b = true ∧ le b a = true
  le_inf : ∀ a : F, isNaN a = false → le a inf = true
  ninf_le : ∀ a : F, isNaN a = false → le (-inf) a = true
  nan_isNaN : isNaN (nan : F) = true
  dec_not_nan : ∀ m e, isNaN (dec m e : F) = false
  neg_isNaN : ∀ a : F, isNaN (-a) = isNaN a
  neg_le : ∀ a b : F, le (-b) (-a) = le a b

/-- Arithmetic laws of correctly rounded (in particular: of exact) arithmetic. -/
class FloatArith (F : Type) [GoFloat F] : Prop extends FloatOrd F where
  /-- `x < a` gives a difference that is not NaN and not positive -/
  sub_lt : ∀ x a : F, lt x a = true → le (x - a) (lit 0) = true
  /-- `x > a` gives a difference that is not NaN and not negative -/
  sub_gt : ∀ x a : F, lt a x = true → le (lit 0) (x - a) = true
  /-- rounded subtraction is antitone in its second argument -/
  sub_anti : ∀ x a b : F, le a b = true → isNaN (x - a) = false → isNaN (x - b) = false →
    le (x - b) (x - a) = true
  sq_nonneg : ∀ d : F, isNaN d = false → le (lit 0) (d * d) = true
  sq_mono : ∀ d d' : F, le (lit 0) d = true → le d d' = true → le (d * d) (d' * d') = true
  sq_anti : ∀ d d' : F, le d' (lit 0) = true → le d d' = true → le (d' * d') (d * d) = true
  add_mono : ∀ a b c d : F, le (lit 0) a = true → le (lit 0) c = true →
    le a b = true → le c d = true → le (a + c) (b + d) = true

variable {F : Type} [GoFloat F]

section
variable [FloatOrd F]

theorem le_refl' {a : F} (h : isNaN a = false) : le a a = true := FloatOrd.le_refl a h
theorem le_trans' {a b c : F} (h : le a b = true) (h' : le b c = true) : le a c = true :=
  FloatOrd.le_trans a b c h h'
theorem lt_iff' {a b : F} : lt a b = true ↔ isNaN a = false ∧ isNaN b = false ∧ le b a = false :=
  FloatOrd.lt_iff a b

theorem le_of_lt' {a b : F} (h : lt a b = true) : le a b = true := by
  obtain ⟨ha, hb, hba⟩ := lt_iff'.1 h
  rcases FloatOrd.le_total a b ha hb with h | h
  · exact h
  · rw [h] at hba; cases hba

theorem lt_false_iff {a b : F} (ha : isNaN a = false) (hb : isNaN b = false) :
    lt a b = false ↔ le b a = true := by
  constructor
  · intro h
    cases hba : le b a
    · have := lt_iff'.2 ⟨ha, hb, hba⟩; rw [h] at this; cases this
    · rfl
  · intro h
    cases hab : lt a b
    · rfl
    · have := (lt_iff'.1 hab).2.2; rw [h] at this; cases this

theorem lt_of_lt_of_le' {a b c : F} (h : lt a b = true) (h' : le b c = true) : lt a c = true := by
  obtain ⟨ha, hb, hba⟩ := lt_iff'.1 h
  refine lt_iff'.2 ⟨ha, FloatOrd.le_right _ _ h', ?_⟩
  cases hca : le c a
  · rfl
  · rw [FloatOrd.le_trans _ _ _ h' hca] at hba; cases hba

theorem lt_of_le_of_lt' {a b c : F} (h : le a b = true) (h' : lt b c = true) : lt a c = true := by
  obtain ⟨hb, hc, hcb⟩ := lt_iff'.1 h'
  refine lt_iff'.2 ⟨FloatOrd.le_left _ _ h, hc, ?_⟩
  cases hca : le c a
  · rfl
  · rw [FloatOrd.le_trans _ _ _ hca h] at hcb; cases hcb

theorem lt_irrefl' (a : F) : lt a a = false := by
  cases h : lt a a
  · rfl
  · obtain ⟨ha, _, h'⟩ := lt_iff'.1 h
    rw [FloatOrd.le_refl a ha] at h'; cases h'

theorem nn_of_lt {a b : F} (h : lt a b = true) : isNaN a = false ∧ isNaN b = false :=
  ⟨(lt_iff'.1 h).1, (lt_iff'.1 h).2.1⟩

theorem inf_nn : isNaN (inf : F) = false :=
  FloatOrd.le_right _ _ (FloatOrd.le_inf (dec 0 0 : F) (FloatOrd.dec_not_nan 0 0))

theorem ninf_nn : isNaN (-inf : F) = false :=
  FloatOrd.le_left _ _ (FloatOrd.ninf_le (dec 0 0 : F) (FloatOrd.dec_not_nan 0 0))

/-- What `math.Min` gives on NaN-free arguments. -/
theorem min_spec {x y : F} (hx : isNaN x = false) (hy : isNaN y = false) :
    isNaN (GoFloat.min x y) = false ∧ le (GoFloat.min x y) x = true ∧ le (GoFloat.min x y) y = true ∧
    ((le x (GoFloat.min x y) = true) ∨ (le y (GoFloat.min x y) = true)) := by
  unfold GoFloat.min
  split
  · rename_i h
    refine ⟨ninf_nn, FloatOrd.ninf_le _ hx, FloatOrd.ninf_le _ hy, ?_⟩
    rcases Bool.or_eq_true_iff.1 h with h | h
    · exact Or.inl ((FloatOrd.eq_iff _ _).1 h).1
    · exact Or.inr ((FloatOrd.eq_iff _ _).1 h).1
  · simp only [hx, hy, Bool.or_false, Bool.false_eq_true, if_false]
    split
    · rename_i h
      obtain ⟨_, h2⟩ := Bool.and_eq_true_iff.1 h
      obtain ⟨hxy, hyx⟩ := (FloatOrd.eq_iff _ _).1 h2
      split
      · exact ⟨hx, le_refl' hx, hxy, Or.inl (le_refl' hx)⟩
      · exact ⟨hy, hyx, le_refl' hy, Or.inr (le_refl' hy)⟩
    · split
      · rename_i h; exact ⟨hx, le_refl' hx, le_of_lt' h, Or.inl (le_refl' hx)⟩
      · rename_i h
        exact ⟨hy, (lt_false_iff hx hy).1 (Bool.not_eq_true _ ▸ h), le_refl' hy, Or.inr (le_refl' hy)⟩

/-- What `math.Max` gives on NaN-free arguments. -/
theorem max_spec {x y : F} (hx : isNaN x = false) (hy : isNaN y = false) :
    isNaN (GoFloat.max x y) = false ∧ le x (GoFloat.max x y) = true ∧ le y (GoFloat.max x y) = true ∧
    ((le (GoFloat.max x y) x = true) ∨ (le (GoFloat.max x y) y = true)) := by
  unfold GoFloat.max
  split
  · rename_i h
    refine ⟨inf_nn, FloatOrd.le_inf _ hx, FloatOrd.le_inf _ hy, ?_⟩
    rcases Bool.or_eq_true_iff.1 h with h | h
    · exact Or.inl ((FloatOrd.eq_iff _ _).1 h).2
    · exact Or.inr ((FloatOrd.eq_iff _ _).1 h).2
  · simp only [hx, hy, Bool.or_false, Bool.false_eq_true, if_false]
    split
    · rename_i h
      obtain ⟨_, h2⟩ := Bool.and_eq_true_iff.1 h
      obtain ⟨hxy, hyx⟩ := (FloatOrd.eq_iff _ _).1 h2
      split
      · exact ⟨hy, hxy, le_refl' hy, Or.inr (le_refl' hy)⟩
      · exact ⟨hx, le_refl' hx, hyx, Or.inl (le_refl' hx)⟩
    · split
      · rename_i h; exact ⟨hx, le_refl' hx, le_of_lt' h, Or.inl (le_refl' hx)⟩
      · rename_i h
        exact ⟨hy, (lt_false_iff hy hx).1 (Bool.not_eq_true _ ▸ h), le_refl' hy, Or.inr (le_refl' hy)⟩

end

end GoGeo
