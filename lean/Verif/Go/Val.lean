import Verif.Go.Laws
import Mathlib.Tactic.Linarith
import Mathlib.Tactic.Ring
import Mathlib.Tactic.Positivity

/-!
# Correctly rounded arithmetic over exact extended numbers

`FloatVal F K`: every value of `F` denotes an exact extended number (`val`), comparisons are exact
and each operation is a monotone odd rounding `rnd` of the exact result.  From this all laws in
`Verif.Go.Laws` follow.  Instances: `XR K` (no rounding) and `Float` (in `Verif.Go.F64`).
-/

set_option linter.unusedSectionVars false

namespace GoGeo
open GoFloat

class FloatVal (F : Type) [GoFloat F] (K : outParam Type) [Field K] [LinearOrder K]
    [IsStrictOrderedRing K] where
  val : F → XR K
  rnd : XR K → XR K
  rnd_nan : rnd .nan = .nan
  rnd_nn : ∀ x, x ≠ .nan → rnd x ≠ .nan
  rnd_zero : rnd (.fin 0) = .fin 0
  rnd_mono : ∀ x y, XR.le x y = true → XR.le (rnd x) (rnd y) = true
  val_lt : ∀ a b, lt a b = XR.lt (val a) (val b)
  val_le : ∀ a b, le a b = XR.le (val a) (val b)
  val_eq : ∀ a b, eq a b = XR.eq (val a) (val b)
  val_isNaN : ∀ a, isNaN a = XR.isNaN (val a)
  val_add : ∀ a b, val (a + b) = rnd (XR.add (val a) (val b))
  val_sub : ∀ a b, val (a - b) = rnd (XR.sub (val a) (val b))
  val_mul : ∀ a b, val (a * b) = rnd (XR.mul (val a) (val b))
  val_neg : ∀ a, val (-a) = XR.neg (val a)
  val_abs : ∀ a, val (GoFloat.abs a) = XR.abs (val a)
  val_inf : val (inf : F) = .pinf
  val_nan : val (nan : F) = .nan
  val_dec : ∀ m e, val (dec m e : F) = rnd (.fin ((m : K) / 10 ^ e))
  val_div : ∀ a b, val b ≠ .fin 0 → val (a / b) = rnd (XR.div (val a) (val b))
  val_ofInt : ∀ i, val (ofInt i : F) = rnd (.fin (i : K))
  rnd_neg : ∀ x, rnd (XR.neg x) = XR.neg (rnd x)
  rnd_val : ∀ a, rnd (val a) = val a
  /-- integers of at most 53 bits scaled by a power of two are exact -/
  rnd_rep : ∀ n k : ℕ, n ≤ 2 ^ 53 → k ≤ 970 → rnd (.fin ((n : K) * 2 ^ k)) = .fin ((n : K) * 2 ^ k)
  /-- and so are those divided by a power of two -/
  rnd_frac : ∀ n k : ℕ, n ≤ 2 ^ 53 → k ≤ 1074 → rnd (.fin ((n : K) / 2 ^ k)) = .fin ((n : K) / 2 ^ k)

namespace XR
variable {K : Type} [Field K] [LinearOrder K]

theorem le_refl (a : XR K) (h : isNaN a = false) : le a a = true := by
  cases a <;> simp_all [le, isNaN]

theorem le_trans (a b c : XR K) (h : le a b = true) (h' : le b c = true) : le a c = true := by
  cases a <;> cases b <;> cases c <;> simp_all [le]
  exact _root_.le_trans h h'

theorem le_total (a b : XR K) (ha : isNaN a = false) (hb : isNaN b = false) :
    le a b = true ∨ le b a = true := by
  cases a <;> cases b <;> simp_all [le, isNaN]
  exact _root_.le_total _ _

theorem le_left (a b : XR K) (h : le a b = true) : isNaN a = false := by
  cases a <;> cases b <;> simp_all [le, isNaN]

theorem le_right (a b : XR K) (h : le a b = true) : isNaN b = false := by
  cases a <;> cases b <;> simp_all [le, isNaN]

theorem lt_iff (a b : XR K) : lt a b = true ↔ isNaN a = false ∧ isNaN b = false ∧ le b a = false := by
  cases a <;> cases b <;> simp [le, lt, isNaN]

theorem eq_iff (a b : XR K) : eq a b = true ↔ le a b = true ∧ le b a = true := by
  cases a <;> cases b <;> simp [le, eq]
  exact le_antisymm_iff

theorem isNaN_iff (a : XR K) : isNaN a = true ↔ a = nan := by cases a <;> simp [isNaN]
theorem isNaN_false_iff (a : XR K) : isNaN a = false ↔ a ≠ nan := by cases a <;> simp [isNaN]

variable [IsStrictOrderedRing K]

theorem sub_lt (x a : XR K) (h : lt x a = true) : le (sub x a) (fin 0) = true := by
  cases x <;> cases a <;> simp_all [lt, le, sub, add, neg]
  linarith

theorem sub_gt (x a : XR K) (h : lt a x = true) : le (fin 0) (sub x a) = true := by
  cases x <;> cases a <;> simp_all [lt, le, sub, add, neg]
  linarith

theorem sub_anti (x a b : XR K) (h : le a b = true) (ha : isNaN (sub x a) = false)
    (hb : isNaN (sub x b) = false) : le (sub x b) (sub x a) = true := by
  cases x <;> cases a <;> cases b <;> simp_all [le, sub, add, neg, isNaN]
  linarith

theorem sq_nonneg (d : XR K) (h : isNaN d = false) : le (fin 0) (mul d d) = true := by
  cases d <;> simp_all [le, mul, isNaN]
  exact mul_self_nonneg _

theorem sq_mono (d d' : XR K) (h0 : le (fin 0) d = true) (h : le d d' = true) :
    le (mul d d) (mul d' d') = true := by
  cases d <;> cases d' <;> simp_all [le, mul]
  nlinarith

theorem sq_anti (d d' : XR K) (h0 : le d' (fin 0) = true) (h : le d d' = true) :
    le (mul d' d') (mul d d) = true := by
  cases d <;> cases d' <;> simp_all [le, mul]
  nlinarith

theorem add_mono (a b c d : XR K) (ha : le (fin 0) a = true) (hc : le (fin 0) c = true)
    (h : le a b = true) (h' : le c d = true) : le (add a c) (add b d) = true := by
  cases a <;> cases b <;> simp_all [le] <;> cases c <;> cases d <;> simp_all [add]
  linarith

end XR

section
variable {F K : Type} [GoFloat F] [Field K] [LinearOrder K] [IsStrictOrderedRing K] [FloatVal F K]
open FloatVal

theorem rnd_le_zero {x : XR K} (h : XR.le x (.fin 0) = true) :
    XR.le (rnd F x) (.fin 0) = true := by
  have := rnd_mono (F := F) _ _ h
  rwa [rnd_zero] at this

theorem zero_le_rnd {x : XR K} (h : XR.le (.fin 0) x = true) :
    XR.le (.fin 0) (rnd F x) = true := by
  have := rnd_mono (F := F) _ _ h
  rwa [rnd_zero] at this

theorem val_lit0 : val (lit 0 : F) = .fin (0 : K) := by
  simp [lit, val_dec, rnd_zero]

theorem rnd_isNaN (x : XR K) : XR.isNaN (rnd F x) = XR.isNaN x := by
  by_cases h : x = .nan
  · subst h; rw [rnd_nan]
  · have := rnd_nn (F := F) x h
    rw [(XR.isNaN_false_iff _).2 this, (XR.isNaN_false_iff _).2 h]

instance FloatVal.toOrd : FloatOrd F where
  le_refl a h := by rw [val_isNaN] at h; rw [val_le]; exact XR.le_refl _ h
  le_trans a b c h h' := by rw [val_le] at *; exact XR.le_trans _ _ _ h h'
  le_total a b h h' := by rw [val_isNaN] at h h'; rw [val_le, val_le]; exact XR.le_total _ _ h h'
  le_left a b h := by rw [val_le] at h; rw [val_isNaN]; exact XR.le_left _ _ h
  le_right a b h := by rw [val_le] at h; rw [val_isNaN]; exact XR.le_right _ _ h
  lt_iff a b := by rw [val_lt, val_le, val_isNaN, val_isNaN]; exact XR.lt_iff _ _
  eq_iff a b := by rw [val_eq, val_le, val_le]; exact XR.eq_iff _ _
  le_inf a h := by
    rw [val_isNaN] at h; rw [val_le, val_inf]; cases h' : val a <;> simp_all [XR.le, XR.isNaN]
  ninf_le a h := by
    rw [val_isNaN] at h; rw [val_le, val_neg, val_inf]
    cases h' : val a <;> simp_all [XR.le, XR.isNaN, XR.neg]
  nan_isNaN := by rw [val_isNaN, val_nan]; rfl
  dec_not_nan m e := by rw [val_isNaN, val_dec, rnd_isNaN]; rfl
  neg_isNaN a := by rw [val_isNaN, val_isNaN, val_neg]; cases val a <;> rfl
  neg_le a b := by
    rw [val_le, val_le, val_neg, val_neg]; cases val a <;> cases val b <;> simp [XR.le, XR.neg]

instance FloatVal.toArith : FloatArith F where
  sub_lt x a h := by
    rw [val_lt] at h; rw [val_le, val_sub, val_lit0]; exact rnd_le_zero (XR.sub_lt _ _ h)
  sub_gt x a h := by
    rw [val_lt] at h; rw [val_le, val_sub, val_lit0]; exact zero_le_rnd (XR.sub_gt _ _ h)
  sub_anti x a b h ha hb := by
    rw [val_isNaN, val_sub, rnd_isNaN] at ha hb
    rw [val_le] at h; rw [val_le, val_sub, val_sub]
    exact rnd_mono _ _ (XR.sub_anti _ _ _ h ha hb)
  sq_nonneg d h := by
    rw [val_isNaN] at h; rw [val_le, val_mul, val_lit0]; exact zero_le_rnd (XR.sq_nonneg _ h)
  sq_mono d d' h0 h := by
    rw [val_le] at *; rw [val_lit0] at h0; rw [val_mul, val_mul]
    exact rnd_mono _ _ (XR.sq_mono _ _ h0 h)
  sq_anti d d' h0 h := by
    rw [val_le] at *; rw [val_lit0] at h0; rw [val_mul, val_mul]
    exact rnd_mono _ _ (XR.sq_anti _ _ h0 h)
  add_mono a b c d ha hc h h' := by
    rw [val_le] at *; rw [val_lit0] at ha hc; rw [val_add, val_add]
    exact rnd_mono _ _ (XR.add_mono _ _ _ _ ha hc h h')
end

instance (K : Type) [Field K] [LinearOrder K] [IsStrictOrderedRing K] : FloatVal (XR K) K where
  val := id
  rnd := id
  rnd_nan := rfl
  rnd_nn _ h := h
  rnd_zero := rfl
  rnd_mono _ _ h := h
  val_lt _ _ := rfl
  val_le _ _ := rfl
  val_eq _ _ := rfl
  val_isNaN _ := rfl
  val_add _ _ := rfl
  val_sub _ _ := rfl
  val_mul _ _ := rfl
  val_neg _ := rfl
  val_abs _ := rfl
  val_inf := rfl
  val_nan := rfl
  val_dec _ _ := rfl
  val_div _ _ _ := rfl
  val_ofInt _ := rfl
  rnd_neg _ := rfl
  rnd_val _ := rfl
  rnd_rep _ _ _ _ := rfl
  rnd_frac _ _ _ _ := rfl

end GoGeo
