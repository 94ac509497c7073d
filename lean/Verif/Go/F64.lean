import Verif.Go.F64Val
import Verif.Go.Val

/-!
# `Float` satisfies the laws of correctly rounded arithmetic

`Float` of Lean core is a bit-exact model of IEEE-754 binary64, Go's `float64`.  This file proves
that every operation used by the model is the round-to-nearest-even of the exact result, giving
`FloatVal Float ℚ` and hence all order and arithmetic laws used by the property proofs.
-/
set_option linter.unusedSectionVars false
set_option linter.unusedSimpArgs false
set_option exponentiation.threshold 2000

namespace GoGeo.F64
open Float.Model Float.Model.UnpackedFloat

theorem s_mm_nn : Sign.negative * Sign.negative = Sign.positive := rfl
theorem s_mm_np : Sign.negative * Sign.positive = Sign.negative := rfl
theorem s_mm_pn : Sign.positive * Sign.negative = Sign.negative := rfl
theorem s_mm_pp : Sign.positive * Sign.positive = Sign.positive := rfl
theorem s_dd_nn : Sign.negative / Sign.negative = Sign.positive := rfl
theorem s_dd_np : Sign.negative / Sign.positive = Sign.negative := rfl
theorem s_dd_pn : Sign.positive / Sign.negative = Sign.negative := rfl
theorem s_dd_pp : Sign.positive / Sign.positive = Sign.positive := rfl
theorem s_n : -Sign.negative = Sign.positive := rfl
theorem s_p : -Sign.positive = Sign.negative := rfl
theorem s_b_np : (Sign.negative == Sign.positive) = false := rfl
theorem s_b_pn : (Sign.positive == Sign.negative) = false := rfl
theorem s_b_nn : (Sign.negative == Sign.negative) = true := rfl
theorem s_b_pp : (Sign.positive == Sign.positive) = true := rfl

/-- canonical and in range -/
def Good : UnpackedFloat → Prop
  | .finite _ m e _ => Canon m e ∧ e ≤ 971
  | _ => True

theorem good_unpack (b : BitVec Format.binary64.numBits) :
    Good (UnpackedFloat.unpack Format.binary64 b) := by
  cases h : UnpackedFloat.unpack Format.binary64 b with
  | finite s m e hm => exact unpack_canon h
  | _ => trivial

theorem repack_good {u : UnpackedFloat} (h : Good u) : repack u = u := by
  cases u with
  | finite s m e hm => rw [repack, unpack_pack_finite h.1, if_neg (by have := h.2; omega)]
  | infinity s => exact unpack_pack_special.1 s
  | zero s => exact unpack_pack_special.2.1 s
  | notANumber => exact unpack_pack_special.2.2

theorem repack_i (s) : repack (.infinity s) = .infinity s := unpack_pack_special.1 s
theorem repack_z (s) : repack (.zero s) = .zero s := unpack_pack_special.2.1 s
theorem repack_n : repack .notANumber = .notANumber := unpack_pack_special.2.2

theorem canon_lt {m : ℕ} {e : ℤ} (hc : Canon m e) (he : e ≤ 971) :
    (m : ℚ) * 2 ^ e < 2 ^ (1024 : ℤ) := by
  have h1 : (m : ℚ) < ((2 ^ 53 : ℕ) : ℚ) := by exact_mod_cast hc.lt
  have h2 : (2 : ℚ) ^ e ≤ 2 ^ (971 : ℤ) := zpow_le_zpow_right₀ (by norm_num) (by omega)
  have h3 : (2 : ℚ) ^ (1024 : ℤ) = ((2 ^ 53 : ℕ) : ℚ) * 2 ^ (971 : ℤ) := by
    rw [show (1024 : ℤ) = ((53 : ℕ) : ℤ) + 971 by norm_num, zpow_add₀ (by norm_num), zpow_natCast]
    push_cast; rfl
  rw [h3]
  calc (m : ℚ) * 2 ^ e < ((2 ^ 53 : ℕ) : ℚ) * 2 ^ e :=
          mul_lt_mul_of_pos_right h1 (two_zpow_pos _)
    _ ≤ _ := mul_le_mul_of_nonneg_left h2 (by positivity)

theorem fval_pos {m : ℕ} (hm : 0 < m) (e : ℤ) : (0 : ℚ) < (m : ℚ) * 2 ^ e := by
  have := two_zpow_pos e; positivity

theorem rndP_zero : rndP 0 = .fin 0 := by
  rw [rndP, rnP_zero, ovf, if_neg (not_le.2 (two_zpow_pos _))]

local macro "fsimp" : tactic => `(tactic| simp [UnpackedFloat.add, UnpackedFloat.sub, UnpackedFloat.mul,
  UnpackedFloat.div, repack_i, repack_z, repack_n, valU, sgnX, XR.neg, XR.add, XR.sub, XR.mul, XR.div, XR.infSign,
  rndX, rndP_zero, s_mm_nn, s_mm_np, s_mm_pn, s_mm_pp, s_dd_nn, s_dd_np, s_dd_pn, s_dd_pp, s_n, s_p,
  s_b_np, s_b_pn, s_b_nn, s_b_pp, two_zpow_pos, *])

theorem rndX_sgn (s : Sign) {q : ℚ} (h : 0 ≤ q) : rndX (sgnX s (.fin q)) = sgnX s (rndP q) := by
  cases s with
  | positive => simp only [sgnX, rndX, if_neg (not_lt.2 h)]
  | negative =>
    simp only [sgnX, XR.neg, rndX]
    by_cases h0 : q = 0
    · subst h0; simp [rndP_zero, XR.neg]
    · have : -q < 0 := by have := lt_of_le_of_ne h (Ne.symm h0); linarith
      rw [if_pos this, neg_neg]

theorem rndP_canon {m : ℕ} {e : ℤ} (hc : Canon m e) (he : e ≤ 971) :
    rndP ((m : ℚ) * 2 ^ e) = .fin ((m : ℚ) * 2 ^ e) := by
  rw [rndP, rnP_exact hc.lt.le hc.ge, ovf, if_neg (not_le.2 (canon_lt hc he))]

theorem rndX_valU {u : UnpackedFloat} (h : Good u) : rndX (valU u) = valU u := by
  cases u with
  | finite s m e hm =>
    rw [valU, rndX_sgn s (fval_pos hm e).le, rndP_canon h.1 h.2]
  | infinity s => cases s <;> rfl
  | zero s => simp only [valU, rndX, lt_irrefl, if_false, rndP_zero]
  | notANumber => rfl

theorem neg_neg' (x : XR ℚ) : XR.neg (XR.neg x) = x := by cases x <;> simp [XR.neg]

theorem sgnX_fin (s : Sign) (q : ℚ) : sgnX s (.fin q) = .fin (match s with | .negative => -q | .positive => q) := by
  cases s <;> rfl

/-! ## negation, absolute value -/

theorem good_neg {u : UnpackedFloat} (h : Good u) : Good u.neg := by
  cases u <;> simp_all [Good, UnpackedFloat.neg]

theorem good_abs {u : UnpackedFloat} (h : Good u) : Good u.abs := by
  cases u <;> simp_all [Good, UnpackedFloat.abs]

theorem valU_neg (u : UnpackedFloat) : valU u.neg = XR.neg (valU u) := by
  cases u with
  | finite s m e hm => cases s <;> simp [UnpackedFloat.neg, valU, sgnX, XR.neg, s_n, s_p]
  | infinity s => cases s <;> rfl
  | zero s => simp [UnpackedFloat.neg, valU, XR.neg]
  | notANumber => rfl

theorem valU_abs (u : UnpackedFloat) : valU u.abs = XR.abs (valU u) := by
  cases u with
  | finite s m e hm =>
    have := fval_pos hm e
    cases s <;> simp [UnpackedFloat.abs, valU, sgnX, XR.neg, XR.abs, hm, two_zpow_pos, this.le]
  | infinity s => cases s <;> rfl
  | zero s => simp [UnpackedFloat.abs, valU, XR.abs]
  | notANumber => rfl

/-! ## comparison -/

def cmpX : XR ℚ → XR ℚ → Option Ordering
  | .nan, _ => none
  | _, .nan => none
  | .ninf, .ninf => some .eq
  | .ninf, _ => some .lt
  | .pinf, .pinf => some .eq
  | .pinf, _ => some .gt
  | .fin _, .ninf => some .gt
  | .fin _, .pinf => some .lt
  | .fin a, .fin b => some (compare a b)

theorem canon_cmp {m₁ m₂ : ℕ} {e₁ e₂ : ℤ} (h₁ : Canon m₁ e₁) (h₂ : Canon m₂ e₂) :
    ((compare e₁ e₂).then (compare m₁ m₂)) = compare ((m₁ : ℚ) * 2 ^ e₁) ((m₂ : ℚ) * 2 ^ e₂) := by
  have key : ∀ {m₁ m₂ : ℕ} {e₁ e₂ : ℤ}, Canon m₁ e₁ → Canon m₂ e₂ → e₁ < e₂ →
      (m₁ : ℚ) * 2 ^ e₁ < (m₂ : ℚ) * 2 ^ e₂ := by
    intro m₁ m₂ e₁ e₂ h₁ h₂ h
    have hm2 : 2 ^ 52 ≤ m₂ := by
      rcases h₂.norm with h' | h'
      · exact h'
      · have := h₁.ge; omega
    have a1 : (m₁ : ℚ) < ((2 ^ 53 : ℕ) : ℚ) := by exact_mod_cast h₁.lt
    have a2 : ((2 ^ 52 : ℕ) : ℚ) ≤ (m₂ : ℚ) := by exact_mod_cast hm2
    calc (m₁ : ℚ) * 2 ^ e₁ < ((2 ^ 53 : ℕ) : ℚ) * 2 ^ e₁ :=
            mul_lt_mul_of_pos_right a1 (two_zpow_pos _)
      _ = ((2 ^ 52 : ℕ) : ℚ) * 2 ^ (e₁ + 1) := by
            rw [zpow_add₀ (by norm_num)]; push_cast; ring
      _ ≤ ((2 ^ 52 : ℕ) : ℚ) * 2 ^ e₂ := by
            apply mul_le_mul_of_nonneg_left _ (by positivity)
            exact zpow_le_zpow_right₀ (by norm_num) (by omega)
      _ ≤ _ := mul_le_mul_of_nonneg_right a2 (two_zpow_pos _).le
  rcases lt_trichotomy e₁ e₂ with h | h | h
  · rw [compare_lt_iff_lt.2 h, compare_lt_iff_lt.2 (key h₁ h₂ h)]; rfl
  · subst h
    rw [show compare e₁ e₁ = .eq from compare_eq_iff_eq.2 rfl]
    have hp := two_zpow_pos e₁
    simp only [Ordering.then]
    rcases lt_trichotomy m₁ m₂ with h | h | h
    · rw [compare_lt_iff_lt.2 h, compare_lt_iff_lt.2]
      exact mul_lt_mul_of_pos_right (by exact_mod_cast h) hp
    · subst h; rw [compare_eq_iff_eq.2 rfl, compare_eq_iff_eq.2 rfl]
    · rw [compare_gt_iff_gt.2 h, compare_gt_iff_gt.2]
      exact mul_lt_mul_of_pos_right (by exact_mod_cast h) hp
  · rw [compare_gt_iff_gt.2 h, compare_gt_iff_gt.2 (key h₂ h₁ h)]; rfl

theorem compare_neg_neg (a b : ℚ) : compare (-a) (-b) = (compare a b).swap := by
  rcases lt_trichotomy a b with h | h | h
  · rw [compare_lt_iff_lt.2 h, compare_gt_iff_gt.2 (by linarith)]; rfl
  · subst h; rw [compare_eq_iff_eq.2 rfl, compare_eq_iff_eq.2 rfl]; rfl
  · rw [compare_gt_iff_gt.2 h, compare_lt_iff_lt.2 (by linarith)]; rfl

theorem compare_val {u v : UnpackedFloat} (hu : Good u) (hv : Good v) :
    UnpackedFloat.compare u v = cmpX (valU u) (valU v) := by
  cases u with
  | notANumber => cases v <;> rfl
  | infinity s =>
    cases v with
    | notANumber => cases s <;> rfl
    | infinity s' => cases s <;> cases s' <;> rfl
    | zero s' => cases s <;> rfl
    | finite s' m e h => cases s <;> cases s' <;> rfl
  | zero s =>
    cases v with
    | notANumber => rfl
    | infinity s' => cases s' <;> rfl
    | zero s' =>
      simp only [UnpackedFloat.compare, valU, cmpX]
      rw [compare_eq_iff_eq.2 rfl]
    | finite s' m e h =>
      have := fval_pos h e
      cases s'
      · simp only [UnpackedFloat.compare, valU, sgnX, XR.neg, cmpX]
        rw [compare_gt_iff_gt.2]; linarith
      · simp only [UnpackedFloat.compare, valU, sgnX, cmpX]
        rw [compare_lt_iff_lt.2]; linarith
  | finite s m e h =>
    have hp := fval_pos h e
    cases v with
    | notANumber => cases s <;> rfl
    | infinity s' => cases s <;> cases s' <;> rfl
    | zero s' =>
      cases s
      · simp only [UnpackedFloat.compare, valU, sgnX, XR.neg, cmpX]
        rw [compare_lt_iff_lt.2]; linarith
      · simp only [UnpackedFloat.compare, valU, sgnX, cmpX]
        rw [compare_gt_iff_gt.2]; linarith
    | finite s' m' e' h' =>
      have hp' := fval_pos h' e'
      cases s <;> cases s' <;> simp only [UnpackedFloat.compare, valU, sgnX, XR.neg, cmpX]
      · rw [canon_cmp hu.1 hv.1, compare_neg_neg]
      · rw [compare_lt_iff_lt.2]; linarith
      · rw [compare_gt_iff_gt.2]; linarith
      · rw [canon_cmp hu.1 hv.1]

theorem cmpX_lt (a b : XR ℚ) : (cmpX a b == some .lt) = XR.lt a b := by
  cases a <;> cases b <;> simp [cmpX, XR.lt]
  rename_i a b
  rw [Bool.eq_iff_iff]; simp [compare_lt_iff_lt]

theorem cmpX_le (a b : XR ℚ) : (cmpX a b).any (·.isLE) = XR.le a b := by
  cases a <;> cases b <;> simp [cmpX, XR.le]
  rename_i a b
  rcases lt_trichotomy a b with h | h | h
  · rw [compare_lt_iff_lt.2 h]; simp [h.le]
  · subst h; rw [compare_eq_iff_eq.2 rfl]; simp
  · rw [compare_gt_iff_gt.2 h]; simp [h]

theorem cmpX_eq (a b : XR ℚ) : (cmpX a b == some .eq) = XR.eq a b := by
  cases a <;> cases b <;> simp [cmpX, XR.eq]
  rename_i a b
  rcases lt_trichotomy a b with h | h | h
  · rw [compare_lt_iff_lt.2 h]; simp [h.ne]
  · subst h; rw [compare_eq_iff_eq.2 rfl]; simp
  · rw [compare_gt_iff_gt.2 h]; simp [h.ne']

/-! ## addition, subtraction -/

theorem decrease_val (s : Sign) (m : ℕ) (e t : ℤ) (h : t ≤ e) :
    ((s.apply ((decreaseExponent m e t).1 : ℤ) : ℤ) : ℚ) * 2 ^ t =
      (match s with | .negative => -((m : ℚ) * 2 ^ e) | .positive => (m : ℚ) * 2 ^ e) := by
  have : ((m <<< (e - t).toNat : ℕ) : ℚ) * 2 ^ t = (m : ℚ) * 2 ^ e := by
    rw [Nat.shiftLeft_eq]; push_cast
    have h2 : (2 : ℚ) ^ e = 2 ^ (e - t).toNat * 2 ^ t := by
      rw [← zpow_natCast, ← zpow_add₀ (by norm_num)]
      congr 1; omega
    rw [h2]; ring
  cases s
  · simp only [decreaseExponent, Sign.apply]; rw [← this, Int.cast_neg, Int.cast_natCast]; ring
  · simp only [decreaseExponent, Sign.apply]; rw [← this, Int.cast_natCast]

theorem add_val {u v : UnpackedFloat} (hu : Good u) (hv : Good v) :
    valU (repack (UnpackedFloat.add Format.binary64 u v)) = rndX (XR.add (valU u) (valU v)) := by
  cases u with
  | notANumber => cases v <;> fsimp
  | infinity s =>
    cases v with
    | notANumber => cases s <;> fsimp
    | infinity s' => cases s <;> cases s' <;> fsimp
    | zero s' => cases s <;> fsimp
    | finite s' m e h => cases s <;> cases s' <;> fsimp
  | zero s =>
    cases v with
    | notANumber => fsimp
    | infinity s' => cases s' <;> fsimp
    | zero s' =>
      cases s <;> cases s' <;>
        fsimp
    | finite s' m e h =>
      have : UnpackedFloat.add Format.binary64 (.zero s) (.finite s' m e h) = .finite s' m e h := rfl
      rw [this, repack_good hv]
      conv_rhs => rw [show valU (.zero s) = .fin 0 from rfl]
      rw [show XR.add (.fin 0) (valU (.finite s' m e h)) = valU (.finite s' m e h) by
        simp [valU, sgnX_fin, XR.add], rndX_valU hv]
  | finite s m e h =>
    cases v with
    | notANumber => cases s <;> fsimp
    | infinity s' => cases s <;> cases s' <;> fsimp
    | zero s' =>
      have : UnpackedFloat.add Format.binary64 (.finite s m e h) (.zero s') = .finite s m e h := rfl
      rw [this, repack_good hu]
      conv_rhs => rw [show valU (.zero s') = .fin 0 from rfl]
      rw [show XR.add (valU (.finite s m e h)) (.fin 0) = valU (.finite s m e h) by
        simp [valU, sgnX_fin, XR.add], rndX_valU hu]
    | finite s' m' e' h' =>
      have : UnpackedFloat.add Format.binary64 (.finite s m e h) (.finite s' m' e' h') =
        normalize Format.binary64 (s.apply ((decreaseExponent m e (min e e')).1 : ℤ) +
          s'.apply ((decreaseExponent m' e' (min e e')).1 : ℤ)) (min e e') .positive := rfl
      rw [this, normalize_val]
      congr 1
      simp only [valU, sgnX_fin, XR.add]
      push_cast
      rw [add_mul, decrease_val s m e _ (min_le_left _ _), decrease_val s' m' e' _ (min_le_right _ _)]

theorem sub_val {u v : UnpackedFloat} (hu : Good u) (hv : Good v) :
    valU (repack (UnpackedFloat.sub Format.binary64 u v)) = rndX (XR.sub (valU u) (valU v)) := by
  cases u with
  | notANumber => cases v <;> fsimp
  | infinity s =>
    cases v with
    | notANumber => cases s <;> fsimp
    | infinity s' => cases s <;> cases s' <;> fsimp
    | zero s' => cases s <;> fsimp
    | finite s' m e h => cases s <;> cases s' <;> fsimp
  | zero s =>
    cases v with
    | notANumber => fsimp
    | infinity s' => cases s' <;> fsimp
    | zero s' =>
      cases s <;> cases s' <;>
        fsimp
    | finite s' m e h =>
      have : UnpackedFloat.sub Format.binary64 (.zero s) (.finite s' m e h) = .finite (-s') m e h := rfl
      rw [this, repack_good (u := .finite (-s') m e h) hv]
      rw [← rndX_valU (u := .finite (-s') m e h) hv]
      congr 1
      cases s' <;> fsimp
  | finite s m e h =>
    cases v with
    | notANumber => cases s <;> fsimp
    | infinity s' => cases s <;> cases s' <;> fsimp
    | zero s' =>
      have : UnpackedFloat.sub Format.binary64 (.finite s m e h) (.zero s') = .finite s m e h := rfl
      rw [this, repack_good hu]
      conv_rhs => rw [show valU (.zero s') = .fin 0 from rfl]
      rw [show XR.sub (valU (.finite s m e h)) (.fin 0) = valU (.finite s m e h) by
        simp [valU, sgnX_fin, XR.add, XR.sub, XR.neg], rndX_valU hu]
    | finite s' m' e' h' =>
      have : UnpackedFloat.sub Format.binary64 (.finite s m e h) (.finite s' m' e' h') =
        normalize Format.binary64 (s.apply ((decreaseExponent m e (min e e')).1 : ℤ) -
          s'.apply ((decreaseExponent m' e' (min e e')).1 : ℤ)) (min e e') .positive := rfl
      rw [this, normalize_val]
      congr 1
      simp only [valU, sgnX_fin, XR.add, XR.sub, XR.neg]
      push_cast
      rw [sub_mul, decrease_val s m e _ (min_le_left _ _), decrease_val s' m' e' _ (min_le_right _ _)]
      rw [sub_eq_add_neg]

/-! ## multiplication -/

theorem mul_core (s : Sign) {m m' : ℕ} {e e' : ℤ} (h : 0 < m) (h' : 0 < m')
    (hok : e + e' ≤ texp (((m * m' : ℕ) : ℚ) * 2 ^ (e + e'))) :
    valU (repack (roundWithAccuracy Format.binary64 s (m * m') (e + e') .exact)) =
      sgnX s (rndP (((m : ℚ) * 2 ^ e) * ((m' : ℚ) * 2 ^ e'))) := by
  rw [(roundWithAccuracy_exact s (Nat.mul_pos h h') hok).val, rndP]
  congr 3
  rw [zpow_add₀ (by norm_num)]; push_cast; ring

theorem mul_texp {m m' : ℕ} {e e' : ℤ} (h : Canon m e) (h' : Canon m' e') :
    e + e' ≤ texp (((m * m' : ℕ) : ℚ) * 2 ^ (e + e')) := by
  rw [texp, log_nat_mul _ (Nat.mul_pos h.pos h'.pos)]
  have a := h.ge
  have a' := h'.ge
  have hlog : ∀ k : ℕ, 2 ^ 52 ≤ k → 52 ≤ k.log2 := by
    intro k hk
    exact (Nat.le_log2 (by intro h0; rw [h0] at hk; norm_num at hk)).2 hk
  rcases h.norm with hn | hn
  · have := hlog (m * m') (le_trans hn (Nat.le_mul_of_pos_right _ h'.pos))
    omega
  · rcases h'.norm with hn' | hn'
    · have := hlog (m * m') (le_trans hn' (Nat.le_mul_of_pos_left _ h.pos))
      omega
    · omega

theorem mul_val {u v : UnpackedFloat} (hu : Good u) (hv : Good v) :
    valU (repack (UnpackedFloat.mul Format.binary64 u v)) = rndX (XR.mul (valU u) (valU v)) := by
  cases u with
  | notANumber => cases v <;> fsimp
  | infinity s =>
    cases v with
    | notANumber => cases s <;> fsimp
    | infinity s' => cases s <;> cases s' <;> fsimp
    | zero s' => cases s <;> fsimp
    | finite s' m e h =>
      have := fval_pos h e
      have hn := this.not_gt
      cases s <;> cases s' <;> fsimp
  | zero s =>
    cases v with
    | notANumber => fsimp
    | infinity s' => cases s' <;> fsimp
    | zero s' =>
      fsimp
    | finite s' m e h =>
      cases s' <;> fsimp
  | finite s m e h =>
    have := fval_pos h e
    have hn := this.not_gt
    cases v with
    | notANumber => cases s <;> fsimp
    | infinity s' =>
      cases s <;> cases s' <;> fsimp
    | zero s' =>
      cases s <;> fsimp
    | finite s' m' e' h' =>
      have hp := fval_pos h' e'
      have : UnpackedFloat.mul Format.binary64 (.finite s m e h) (.finite s' m' e' h') =
        roundWithAccuracy Format.binary64 (s * s') (m * m') (e + e') .exact := rfl
      rw [this, mul_core _ h h' (mul_texp hu.1 hv.1), ← rndX_sgn _ (by positivity)]
      congr 1
      cases s <;> cases s' <;> fsimp


/-! ## division -/

theorem ERep.ofFraction (m d : ℕ) (hd : 0 < d) :
    ERep (ExtendedMantissa.ofMantissaAndAccuracy (m / d) (accuracyOfFraction (m % d) d))
      ((m : ℚ) / d) := by
  have hd' : (0 : ℚ) < d := by exact_mod_cast hd
  have hlt : ((m % d : ℕ) : ℚ) < d := by exact_mod_cast Nat.mod_lt _ hd
  have hx : (m : ℚ) / d = ((m / d : ℕ) : ℚ) + ((m % d : ℕ) : ℚ) / d := by
    rw [div_eq_iff hd'.ne', add_mul, div_mul_cancel₀ _ hd'.ne']
    exact_mod_cast (Nat.div_add_mod' m d).symm
  obtain ⟨r, hr⟩ : ∃ r, r = m % d := ⟨_, rfl⟩
  rw [← hr] at hx hlt ⊢
  refine ⟨(r : ℚ) / d, ?_, by positivity, by rw [div_lt_one hd']; exact hlt, ?_, ?_⟩
  · rw [hx]; congr 2
    unfold accuracyOfFraction ExtendedMantissa.ofMantissaAndAccuracy
    split <;> rfl
  · rw [le_div_iff₀ hd']
    unfold accuracyOfFraction
    by_cases h0 : r = 0
    · subst h0
      simp [ExtendedMantissa.ofMantissaAndAccuracy]; exact hd
    · rw [if_neg h0]
      have hc : (1 / 2 * (d : ℚ) ≤ r) ↔ d ≤ 2 * r := by
        constructor
        · intro h
          have : (d : ℚ) ≤ 2 * r := by linarith
          exact_mod_cast this
        · intro h
          have : (d : ℚ) ≤ 2 * r := by exact_mod_cast h
          linarith
      rw [hc]
      rcases lt_trichotomy (2 * r) d with h | h | h
      · rw [compare_lt_iff_lt.2 h]; simp [ExtendedMantissa.ofMantissaAndAccuracy]; omega
      · rw [compare_eq_iff_eq.2 h]; simp [ExtendedMantissa.ofMantissaAndAccuracy]; omega
      · rw [compare_gt_iff_gt.2 h]; simp [ExtendedMantissa.ofMantissaAndAccuracy]; omega
  · unfold accuracyOfFraction
    have h1 : ((r : ℚ) / d ≠ 0) ↔ r ≠ 0 := by
      rw [Ne, div_eq_zero_iff]; simp [hd'.ne', hd.ne']
    have h2 : ((r : ℚ) / d ≠ 1 / 2) ↔ 2 * r ≠ d := by
      rw [Ne, div_eq_div_iff hd'.ne' (by norm_num)]
      constructor
      · intro h h'; apply h; rw [← h']; push_cast; ring
      · intro h h'; apply h
        have : (2 * r : ℚ) = d := by linarith
        exact_mod_cast this
    rw [h1, h2]
    by_cases h0 : r = 0
    · subst h0; simp [ExtendedMantissa.ofMantissaAndAccuracy]
    · rw [if_neg h0]
      rcases lt_trichotomy (2 * r) d with h | h | h
      · rw [compare_lt_iff_lt.2 h]; simp [ExtendedMantissa.ofMantissaAndAccuracy]; omega
      · rw [compare_eq_iff_eq.2 h]; simp [ExtendedMantissa.ofMantissaAndAccuracy]; omega
      · rw [compare_gt_iff_gt.2 h]; simp [ExtendedMantissa.ofMantissaAndAccuracy]; omega

theorem log_bounds {q : ℚ} (h : 0 < q) : (2 : ℚ) ^ Int.log 2 q ≤ q ∧ q < 2 ^ (Int.log 2 q + 1) := by
  have h1 := Int.zpow_log_le_self (b := 2) (R := ℚ) (by norm_num) h
  have h2 := Int.lt_zpow_succ_log_self (b := 2) (R := ℚ) (by norm_num) q
  push_cast at h1 h2
  exact ⟨h1, h2⟩

theorem log_unique {q : ℚ} {l : ℤ} (h1 : (2 : ℚ) ^ l ≤ q) (h2 : q < 2 ^ (l + 1)) : Int.log 2 q = l := by
  have h0 : 0 < q := lt_of_lt_of_le (two_zpow_pos _) h1
  have a := (Int.lt_zpow_iff_log_lt (R := ℚ) (b := 2) (x := l + 1) (by norm_num) h0).1 (by push_cast; exact h2)
  have b := (Int.zpow_le_iff_le_log (R := ℚ) (b := 2) (x := l) (by norm_num) h0).1 (by push_cast; exact h1)
  omega

theorem log_floor {x : ℚ} {n : ℕ} (hn : ⌊x⌋ = (n : ℤ)) (h1 : 1 ≤ n) : Int.log 2 x = (n.log2 : ℤ) := by
  have hb := Int.floor_eq_iff.1 hn
  push_cast at hb
  apply log_unique
  · have : ((2 ^ n.log2 : ℕ) : ℚ) ≤ n := by exact_mod_cast Nat.log2_self_le (by omega)
    push_cast at this
    rw [zpow_natCast]; linarith [hb.1]
  · have : ((n + 1 : ℕ) : ℚ) ≤ ((2 ^ (n.log2 + 1) : ℕ) : ℚ) := by exact_mod_cast Nat.lt_log2_self
    push_cast at this
    rw [show ((n.log2 : ℤ) + 1) = ((n.log2 + 1 : ℕ) : ℤ) by push_cast; rfl, zpow_natCast]
    linarith [hb.2]

theorem log_mul_two_zpow {x : ℚ} (h : 0 < x) (e : ℤ) : Int.log 2 (x * 2 ^ e) = Int.log 2 x + e := by
  have ⟨h1, h2⟩ := log_bounds h
  apply log_unique
  · rw [zpow_add₀ (by norm_num)]; exact mul_le_mul_of_nonneg_right h1 (two_zpow_pos _).le
  · rw [show Int.log 2 x + e + 1 = (Int.log 2 x + 1) + e by ring, zpow_add₀ (by norm_num)]
    exact mul_lt_mul_of_pos_right h2 (two_zpow_pos _)

theorem div_core (s : Sign) {m₁ m₂ : ℕ} (e₁ e₂ : ℤ) (h₁ : 0 < m₁) (h₂ : 0 < m₂) :
    CanonOf s (rnP (((m₁ : ℚ) * 2 ^ e₁) / ((m₂ : ℚ) * 2 ^ e₂)))
      (let r := divCore Format.binary64 m₁ e₁ m₂ e₂
       roundWithAccuracy Format.binary64 s r.1 r.2.1 r.2.2) := by
  have hm2 : (0 : ℚ) < m₂ := by exact_mod_cast h₂
  unfold divCore
  simp only [targetExponent_eq, totalExponent]
  obtain ⟨L, hL⟩ : ∃ L, L = ((m₁.log2 : ℤ) + 1 + e₁ - ((m₂.log2 : ℤ) + 1 + e₂)) := ⟨_, rfl⟩
  rw [← hL]
  obtain ⟨e, he⟩ : ∃ e, e = min (e₁ - e₂) (max (L - 53) (-1074)) := ⟨_, rfl⟩
  rw [← he]
  obtain ⟨k, hk⟩ : ∃ k, k = (e₁ - e₂ - e).toNat := ⟨_, rfl⟩
  rw [← hk]
  obtain ⟨M, hM⟩ : ∃ M, M = m₁ <<< k := ⟨_, rfl⟩
  rw [← hM]
  have hM0 : 0 < M := by rw [hM, Nat.shiftLeft_eq]; positivity
  have hMq : (0 : ℚ) < M := by exact_mod_cast hM0
  have hx0 : (0 : ℚ) < (M : ℚ) / m₂ := by positivity
  have hq : ((m₁ : ℚ) * 2 ^ e₁) / ((m₂ : ℚ) * 2 ^ e₂) = ((M : ℚ) / m₂) * 2 ^ e := by
    have hke : e₁ = (k : ℤ) + (e + e₂) := by omega
    rw [hM, Nat.shiftLeft_eq, hke]; push_cast
    rw [zpow_add₀ (by norm_num), zpow_add₀ (by norm_num), zpow_natCast]
    have := (two_zpow_pos e₂).ne'
    field_simp
  rw [hq]
  have hq0 : 0 < ((M : ℚ) / m₂) * 2 ^ e := by have := two_zpow_pos e; positivity
  have hlogq : L - 1 ≤ Int.log 2 (((M : ℚ) / m₂) * 2 ^ e) := by
    rw [← hq] at hq0 ⊢
    have l1 := log_bounds (fval_pos h₁ e₁)
    have l2 := log_bounds (fval_pos h₂ e₂)
    rw [log_nat_mul _ h₁] at l1
    rw [log_nat_mul _ h₂] at l2
    have : (2 : ℚ) ^ (L - 1) ≤ ((m₁ : ℚ) * 2 ^ e₁) / ((m₂ : ℚ) * 2 ^ e₂) := by
      rw [le_div_iff₀ (fval_pos h₂ e₂)]
      calc (2 : ℚ) ^ (L - 1) * ((m₂ : ℚ) * 2 ^ e₂) ≤ 2 ^ (L - 1) * 2 ^ ((m₂.log2 : ℤ) + e₂ + 1) :=
            mul_le_mul_of_nonneg_left l2.2.le (two_zpow_pos _).le
        _ = 2 ^ ((m₁.log2 : ℤ) + e₁) := by
            rw [← zpow_add₀ (by norm_num)]; congr 1; omega
        _ ≤ _ := l1.1
    exact (Int.zpow_le_iff_le_log (R := ℚ) (b := 2) (x := L - 1) (by norm_num) hq0).1 (by push_cast; exact this)
  have hrep := ERep.ofFraction M m₂ h₂
  have hfl := hrep.floor
  have hmant : (ExtendedMantissa.ofMantissaAndAccuracy (M / m₂) (accuracyOfFraction (M % m₂) m₂)).mantissa = M / m₂ := by
    unfold ExtendedMantissa.ofMantissaAndAccuracy
    split <;> rfl
  rw [hmant] at hfl
  apply roundWithAccuracy_canon s hrep hx0
  · rw [targetExponent_eq, totalExponent, texp, log_mul_two_zpow hx0]
    by_cases h0 : M / m₂ = 0
    · rw [h0] at hfl
      have hx1 : (M : ℚ) / m₂ < 1 := by
        have := (Int.floor_eq_iff.1 hfl).2; push_cast at this; linarith
      have hl : Int.log 2 ((M : ℚ) / m₂) < 0 := by
        apply (Int.lt_zpow_iff_log_lt (R := ℚ) (b := 2) (x := 0) (by norm_num) hx0).1
        simpa using hx1
      rw [log_mul_two_zpow hx0] at hlogq
      rw [h0, Nat.log2_zero]
      push_cast
      omega
    · rw [log_floor hfl (Nat.pos_of_ne_zero h0)]
      congr 1; ring
  · unfold texp; omega

theorem div_val {u v : UnpackedFloat} (hu : Good u) (hv : Good v) (hz : valU v ≠ .fin 0) :
    valU (repack (UnpackedFloat.div Format.binary64 u v)) = rndX (XR.div (valU u) (valU v)) := by
  cases u with
  | notANumber => cases v <;> fsimp
  | infinity s =>
    cases v with
    | notANumber => cases s <;> fsimp
    | infinity s' => cases s <;> cases s' <;> fsimp
    | zero s' => exact absurd rfl hz
    | finite s' m e h =>
      have := fval_pos h e
      have hn := this.not_gt
      cases s <;> cases s' <;> fsimp
  | zero s =>
    cases v with
    | notANumber => fsimp
    | infinity s' => cases s' <;> fsimp
    | zero s' => exact absurd rfl hz
    | finite s' m e h =>
      have := (fval_pos h e).ne'
      cases s' <;> fsimp
  | finite s m e h =>
    cases v with
    | notANumber => cases s <;> fsimp
    | infinity s' => cases s <;> cases s' <;> fsimp
    | zero s' => exact absurd rfl hz
    | finite s' m' e' h' =>
      have hp := fval_pos h e
      have hp' := fval_pos h' e'
      have hd := (div_core (s / s') e e' h h').val
      have : UnpackedFloat.div Format.binary64 (.finite s m e h) (.finite s' m' e' h') =
        (let r := divCore Format.binary64 m e m' e'
         roundWithAccuracy Format.binary64 (s / s') r.1 r.2.1 r.2.2) := rfl
      rw [this, hd]
      change sgnX (s / s') (rndP _) = _
      rw [← rndX_sgn _ (by positivity)]
      congr 1
      have hne := hp'.ne'
      cases s <;> cases s' <;>
        simp only [valU, sgnX, XR.neg, XR.div, s_dd_nn, s_dd_np, s_dd_pn, s_dd_pp, neg_eq_zero, if_neg hne] <;>
        congr 1 <;> field_simp

/-! ## decimal literals -/

theorem rnP_tiny {q : ℚ} (h0 : 0 < q) (h : q ≤ 2 ^ (-1075 : ℤ)) : rnP q = 0 := by
  have ht : texp q = -1074 := by
    have hl : Int.log 2 q < -1074 := by
      apply (Int.lt_zpow_iff_log_lt (R := ℚ) (b := 2) (x := -1074) (by norm_num) h0).1
      push_cast
      refine lt_of_le_of_lt h (zpow_lt_zpow_right₀ (by norm_num) (by norm_num))
    unfold texp; omega
  unfold rnP
  rw [ht]
  have hle : q / 2 ^ (-1074 : ℤ) ≤ 1 / 2 := by
    rw [div_le_iff₀ (two_zpow_pos _)]
    refine le_trans h (le_of_eq ?_)
    rw [show (-1075 : ℤ) = -1 + -1074 by norm_num, zpow_add₀ (by norm_num)]
    norm_num
  have hz : rne (1 / 2) = 0 := by
    have : ⌊(1 / 2 : ℚ)⌋ = 0 := by norm_num
    unfold rne; rw [this]; norm_num
  have h1 : rne (q / 2 ^ (-1074 : ℤ)) ≤ 0 := hz ▸ rne_mono hle
  have h2 : 0 ≤ rne (q / 2 ^ (-1074 : ℤ)) := by
    apply le_rne_of_le; push_cast
    exact (div_pos h0 (two_zpow_pos _)).le
  rw [le_antisymm h1 h2]; simp

theorem dec_val (m k : ℕ) :
    valU (repack (UnpackedFloat.ofScientific Format.binary64 m (-(k : ℤ)))) =
      rndX (.fin ((m : ℚ) / 10 ^ k)) := by
  unfold UnpackedFloat.ofScientific
  by_cases hm : m = 0
  · rw [dif_pos hm, repack_z]; subst hm
    simp [valU, rndX, rndP_zero]
  rw [dif_neg hm]
  have hm0 : 0 < m := Nat.pos_of_ne_zero hm
  have hmq : (0 : ℚ) < m := by exact_mod_cast hm0
  have h10 : (0 : ℚ) < 10 ^ k := by positivity
  have hE : ((2 ^ Format.binary64.exponentBits : ℕ) : ℤ) = 2048 := rfl
  have hE' : (2 : ℤ) ^ Format.binary64.exponentBits = 2048 := rfl
  have hnn : ¬ ((m : ℚ) / 10 ^ k < 0) := not_lt.2 (by positivity)
  rw [if_neg (by omega)]
  by_cases hsmall : -(k : ℤ) < -((2 ^ Format.binary64.exponentBits : ℤ) + (m.log2 : ℤ))
  · rw [if_pos hsmall, repack_z]
    have htiny : (m : ℚ) / 10 ^ k ≤ 2 ^ (-1075 : ℤ) := by
      rw [div_le_iff₀ h10]
      have a1 : (m : ℚ) < 2 ^ (m.log2 + 1) := by exact_mod_cast Nat.lt_log2_self
      have a2 : (2 : ℚ) ^ k ≤ 10 ^ k := pow_le_pow_left₀ (by norm_num) (by norm_num) k
      have a3 : (2 : ℚ) ^ (m.log2 + 1) ≤ 2 ^ (-1075 : ℤ) * 2 ^ k := by
        rw [← zpow_natCast, ← zpow_natCast, ← zpow_add₀ (by norm_num)]
        apply zpow_le_zpow_right₀ (by norm_num)
        push_cast; omega
      have a4 := mul_le_mul_of_nonneg_left a2 (two_zpow_pos (-1075)).le
      linarith
    simp only [valU, rndX, if_neg hnn, rndP, rnP_tiny (by positivity) htiny, ovf,
      if_neg (not_le.2 (two_zpow_pos 1024))]
  rw [if_neg hsmall]
  by_cases hk : k = 0
  · subst hk
    rw [if_pos (by simp)]
    have hs0 : 0 < m <<< 53 := by rw [Nat.shiftLeft_eq]; positivity
    have : UnpackedFloat.mul Format.binary64
        (.finite .positive (m <<< Format.binary64.mantissaBits) (-(Format.binary64.mantissaBits : ℤ)) hs0)
        (.finite .positive (10 ^ (-((0 : ℕ) : ℤ)).toNat) 0 (Nat.pow_pos (by decide))) =
        roundWithAccuracy Format.binary64 .positive ((m <<< 53) * 1) (-53 + 0) .exact := rfl
    rw [this, mul_core .positive hs0 Nat.one_pos]
    · have hv : ((m <<< 53 : ℕ) : ℚ) * 2 ^ (-53 : ℤ) * (((1 : ℕ) : ℚ) * 2 ^ (0 : ℤ)) = (m : ℚ) / 10 ^ 0 := by
        rw [Nat.shiftLeft_eq]; push_cast
        rw [zpow_neg]; norm_num
        field_simp
      rw [hv]
      simp only [sgnX, rndX, if_neg hnn]
    · rw [texp, log_nat_mul _ (by omega)]
      have : 53 ≤ ((m <<< 53) * 1).log2 := by
        rw [Nat.le_log2 (by omega), Nat.mul_one, Nat.shiftLeft_eq]
        exact Nat.le_mul_of_pos_left _ hm0
      omega
  · rw [if_neg (by omega)]
    have hp : 0 < 10 ^ k := Nat.pow_pos (by decide)
    have hd := (div_core .positive 0 0 hm0 hp).val
    have : UnpackedFloat.div Format.binary64 (.finite .positive m 0 (Nat.pos_iff_ne_zero.2 hm))
        (.finite .positive (10 ^ (- -(k : ℤ)).toNat) 0 (Nat.pow_pos (by decide))) =
      (let r := divCore Format.binary64 m 0 (10 ^ (- -(k : ℤ)).toNat) 0
       roundWithAccuracy Format.binary64 .positive r.1 r.2.1 r.2.2) := rfl
    rw [this, show (- -(k : ℤ)).toNat = k by omega, hd]
    simp only [sgnX, rndX, if_neg hnn, rndP]
    congr 2
    push_cast; simp

/-! ## monotonicity of rounding -/

theorem ovf_mono {p q : ℚ} (h : p ≤ q) : XR.le (ovf p) (ovf q) = true := by
  unfold ovf
  split <;> split <;> simp [XR.le, h]
  · linarith

theorem ovf_nonneg {p : ℚ} (h : 0 ≤ p) : XR.le (.fin 0) (ovf p) = true := by
  unfold ovf; split <;> simp [XR.le, h]

theorem neg_le_neg {x y : XR ℚ} (h : XR.le x y = true) : XR.le (XR.neg y) (XR.neg x) = true := by
  cases x <;> cases y <;> simp_all [XR.le, XR.neg]

theorem rndX_nn (x : XR ℚ) (h : x ≠ .nan) : rndX x ≠ .nan := by
  cases x with
  | nan => exact absurd rfl h
  | ninf => simp [rndX]
  | pinf => simp [rndX]
  | fin q => simp only [rndX, rndP, ovf]; split <;> split <;> simp [XR.neg]

theorem rndX_mono (x y : XR ℚ) (h : XR.le x y = true) : XR.le (rndX x) (rndX y) = true := by
  have hinf : ∀ z : XR ℚ, z ≠ .nan → XR.le z .pinf = true ∧ XR.le .ninf z = true := by
    intro z hz; cases z <;> simp_all [XR.le]
  cases x with
  | nan => simp [XR.le] at h
  | ninf =>
    have hy : y ≠ .nan := by rintro rfl; simp [XR.le] at h
    exact (hinf _ (rndX_nn _ hy)).2
  | pinf => cases y <;> simp_all [XR.le, rndX]
  | fin p =>
    cases y with
    | nan => simp [XR.le] at h
    | ninf => simp [XR.le] at h
    | pinf => exact (hinf _ (rndX_nn _ (by simp))).1
    | fin q =>
      have hpq : p ≤ q := by simpa [XR.le] using h
      simp only [rndX]
      by_cases hp : p < 0
      · rw [if_pos hp]
        by_cases hq : q < 0
        · rw [if_pos hq]
          exact neg_le_neg (ovf_mono (rnP_mono (by linarith) (by linarith)))
        · rw [if_neg hq]
          have h1 := neg_le_neg (ovf_nonneg (rnP_nonneg (q := -p) (by linarith)))
          have h2 := ovf_nonneg (rnP_nonneg (q := q) (by linarith))
          simp only [XR.neg, neg_zero] at h1
          exact XR.le_trans _ _ _ h1 h2
      · rw [if_neg hp, if_neg (by linarith)]
        exact ovf_mono (rnP_mono (by linarith) hpq)

theorem rndX_neg (x : XR ℚ) : rndX (XR.neg x) = XR.neg (rndX x) := by
  cases x with
  | fin q =>
    rw [show XR.neg (.fin q) = .fin (-q) from rfl]
    simp only [rndX]
    rcases lt_trichotomy q 0 with h | h | h
    · rw [if_pos h, if_neg (by linarith), neg_neg']
    · subst h; simp [rndP_zero, XR.neg]
    · rw [if_pos (by linarith), if_neg (by linarith), neg_neg]
  | _ => rfl

theorem rndX_pow (n k : ℕ) (hn : n ≤ 2 ^ 53) (h : k ≤ 970) :
    rndX (.fin ((n : ℚ) * 2 ^ k)) = .fin ((n : ℚ) * 2 ^ k) := by
  have := rnP_exact (n := n) (t := (k : ℤ)) hn (by omega)
  rw [zpow_natCast] at this
  have hlt : (n : ℚ) * 2 ^ k < 2 ^ (1024 : ℤ) := by
    have h1 : (n : ℚ) ≤ ((2 ^ 53 : ℕ) : ℚ) := by exact_mod_cast hn
    push_cast at h1
    calc (n : ℚ) * 2 ^ k ≤ 2 ^ 53 * 2 ^ k := mul_le_mul_of_nonneg_right h1 (by positivity)
      _ = 2 ^ ((53 + k : ℕ) : ℤ) := by rw [zpow_natCast, pow_add]
      _ < 2 ^ (1024 : ℤ) := zpow_lt_zpow_right₀ (by norm_num) (by push_cast; omega)
  simp only [rndX, if_neg (not_lt.2 (show (0 : ℚ) ≤ (n : ℚ) * 2 ^ k by positivity)), rndP, this, ovf,
    if_neg (not_le.2 hlt)]

theorem rndX_frac (n k : ℕ) (hn : n ≤ 2 ^ 53) (h : k ≤ 1074) :
    rndX (.fin ((n : ℚ) / 2 ^ k)) = .fin ((n : ℚ) / 2 ^ k) := by
  have := rnP_exact (n := n) (t := -(k : ℤ)) hn (by omega)
  rw [zpow_neg, zpow_natCast, ← div_eq_mul_inv] at this
  have hlt : (n : ℚ) / 2 ^ k < 2 ^ (1024 : ℤ) := by
    have h1 : (n : ℚ) ≤ ((2 ^ 53 : ℕ) : ℚ) := by exact_mod_cast hn
    push_cast at h1
    calc (n : ℚ) / 2 ^ k ≤ n / 1 := div_le_div_of_nonneg_left (by positivity) (by norm_num) (one_le_pow₀ (by norm_num))
      _ ≤ 2 ^ 53 := by rw [div_one]; exact h1
      _ < 2 ^ (1024 : ℤ) := by norm_num
  simp only [rndX, if_neg (not_lt.2 (show (0 : ℚ) ≤ (n : ℚ) / 2 ^ k by positivity)), rndP, this, ovf,
    if_neg (not_le.2 hlt)]

/-- the exact value of a `Float` -/
def valF (f : Float) : XR ℚ := valU f.toModel.unpack

theorem good_f (f : Float) : Good f.toModel.unpack := good_unpack _

theorem valF_ofPack (u : UnpackedFloat) : valF ⟨.pack u⟩ = valU (repack u) := rfl

end GoGeo.F64

namespace GoGeo
open F64 GoFloat

instance : FloatVal Float ℚ where
  val := valF
  rnd := rndX
  rnd_nan := rfl
  rnd_nn := rndX_nn
  rnd_zero := by simp [rndX, rndP_zero]
  rnd_mono := rndX_mono
  val_lt a b := by
    rw [valF, valF, ← cmpX_lt, ← compare_val (good_f a) (good_f b)]
    exact Bool.decide_coe _
  val_le a b := by
    rw [valF, valF, ← cmpX_le, ← compare_val (good_f a) (good_f b)]
    exact Bool.decide_coe _
  val_eq a b := by
    rw [valF, valF, ← cmpX_eq, ← compare_val (good_f a) (good_f b)]
    rfl
  val_isNaN a := by
    change a.toModel.unpack.isNaN = _
    rw [valF]
    cases a.toModel.unpack with
    | finite s m e h => cases s <;> rfl
    | infinity s => cases s <;> rfl
    | _ => rfl
  val_add a b := add_val (good_f a) (good_f b)
  val_sub a b := sub_val (good_f a) (good_f b)
  val_mul a b := mul_val (good_f a) (good_f b)
  val_neg a := by
    change valU (repack a.toModel.unpack.neg) = _
    rw [repack_good (good_neg (good_f a)), valU_neg]; rfl
  val_abs a := by
    change valU (repack a.toModel.unpack.abs) = _
    rw [repack_good (good_abs (good_f a)), valU_abs]; rfl
  val_inf := rfl
  val_nan := rfl
  val_dec m e := dec_val m e
  val_div a b h := div_val (good_f a) (good_f b) h
  val_ofInt i := by
    change valU (repack (Float.Model.UnpackedFloat.normalize _ i 0 .positive)) = _
    rw [normalize_val]; simp
  rnd_neg := rndX_neg
  rnd_val a := rndX_valU (good_f a)
  rnd_rep := rndX_pow
  rnd_frac := rndX_frac

end GoGeo
