import Verif.Go.F64Pack
import Mathlib.Data.Rat.Floor
import Mathlib.Tactic.FieldSimp
import Mathlib.Tactic.NormNum.Pow

/-!
# Rounding in Lean core's binary64 model is round-to-nearest-even of the exact value
-/
set_option linter.unusedSectionVars false

namespace GoGeo.F64
open Float.Model Float.Model.UnpackedFloat

/-! ## round half to even on rationals -/

/-- nearest integer, ties to even -/
def rne (x : ℚ) : ℤ :=
  if 2 * (x - ⌊x⌋) < 1 then ⌊x⌋
  else if 1 < 2 * (x - ⌊x⌋) then ⌊x⌋ + 1
  else ⌊x⌋ + ⌊x⌋ % 2

theorem rne_ge_floor (x : ℚ) : ⌊x⌋ ≤ rne x := by
  unfold rne
  split
  · exact le_refl _
  · split <;> omega

theorem rne_le_floor_succ (x : ℚ) : rne x ≤ ⌊x⌋ + 1 := by
  unfold rne
  split
  · omega
  · split <;> omega

theorem rne_intCast (n : ℤ) : rne (n : ℚ) = n := by simp [rne]

theorem rne_mono {x y : ℚ} (h : x ≤ y) : rne x ≤ rne y := by
  have hf : ⌊x⌋ ≤ ⌊y⌋ := Int.floor_le_floor h
  rcases lt_or_eq_of_le hf with hlt | heq
  · have := rne_le_floor_succ x
    have := rne_ge_floor y
    omega
  · unfold rne
    rw [heq]
    split_ifs <;> first | omega | (exfalso; linarith)

theorem rne_le_of_le {x : ℚ} {n : ℤ} (h : x ≤ n) : rne x ≤ n := by
  have := rne_mono h; rwa [rne_intCast] at this

theorem le_rne_of_le {x : ℚ} {n : ℤ} (h : (n : ℚ) ≤ x) : n ≤ rne x := by
  have := rne_mono h; rwa [rne_intCast] at this

/-! ## binary64 rounding of a non-negative rational -/

/-- exponent of the last mantissa bit of the binary64 rounding of `q` -/
def texp (q : ℚ) : ℤ := max (Int.log 2 q + 1 - 53) (-1074)

/-- round-to-nearest-even to a 53 bit significand with exponent at least -1074 -/
def rnP (q : ℚ) : ℚ := rne (q / 2 ^ texp q) * 2 ^ texp q

theorem two_zpow_pos (t : ℤ) : (0 : ℚ) < 2 ^ t := zpow_pos (by norm_num) t

theorem rnP_zero : rnP 0 = 0 := by
  have : rne 0 = 0 := by simpa using rne_intCast 0
  simp [rnP, this]

theorem rnP_nonneg {q : ℚ} (h : 0 ≤ q) : 0 ≤ rnP q := by
  unfold rnP
  have h1 : (0 : ℤ) ≤ rne (q / 2 ^ texp q) := le_rne_of_le (by
    have := two_zpow_pos (texp q)
    simp only [Int.cast_zero]; positivity)
  have := two_zpow_pos (texp q)
  have h2 : (0 : ℚ) ≤ (rne (q / 2 ^ texp q) : ℚ) := by exact_mod_cast h1
  positivity

theorem texp_mono {p q : ℚ} (h0 : 0 < p) (h : p ≤ q) : texp p ≤ texp q := by
  have := Int.log_mono_right (b := 2) h0 h
  unfold texp; omega

/-- bounds of a scaled rational -/
theorem scaled_lt (q : ℚ) : q / 2 ^ texp q < 2 ^ 53 := by
  have h1 : q < (2 : ℚ) ^ (Int.log 2 q + 1) := by
    have := Int.lt_zpow_succ_log_self (R := ℚ) (b := 2) (by norm_num) q
    exact_mod_cast this
  have h2 : Int.log 2 q + 1 ≤ texp q + 53 := by unfold texp; omega
  have h3 : (2 : ℚ) ^ (Int.log 2 q + 1) ≤ 2 ^ (texp q + 53) := zpow_le_zpow_right₀ (by norm_num) h2
  have h4 : (2 : ℚ) ^ (texp q + 53) = 2 ^ (53 : ℕ) * 2 ^ texp q := by
    rw [zpow_add₀ (by norm_num), mul_comm]; norm_cast
  rw [div_lt_iff₀ (two_zpow_pos _)]
  calc q < _ := h1
    _ ≤ _ := h3
    _ = _ := h4

theorem scaled_ge {q : ℚ} (h0 : 0 < q) (ht : texp q ≠ -1074) : 2 ^ 52 ≤ q / 2 ^ texp q := by
  have h1 : (2 : ℚ) ^ (Int.log 2 q) ≤ q := by
    have := Int.zpow_log_le_self (R := ℚ) (b := 2) (by norm_num) h0
    exact_mod_cast this
  have h2 : Int.log 2 q = texp q + 52 := by unfold texp at *; omega
  rw [le_div_iff₀ (two_zpow_pos _)]
  have h4 : (2 : ℚ) ^ (texp q + 52) = 2 ^ (52 : ℕ) * 2 ^ texp q := by
    rw [zpow_add₀ (by norm_num), mul_comm]; norm_cast
  calc _ = _ := h4.symm
    _ = _ := by rw [h2]
    _ ≤ _ := h1

theorem rnP_mono {p q : ℚ} (h0 : 0 ≤ p) (h : p ≤ q) : rnP p ≤ rnP q := by
  rcases h0.eq_or_lt with h0' | h0'
  · rw [← h0', rnP_zero]; exact rnP_nonneg (h0.trans h)
  have hq : 0 < q := lt_of_lt_of_le h0' h
  have ht := texp_mono h0' h
  rcases lt_or_eq_of_le ht with hlt | heq
  · -- different binades: both sides are compared with 2^(t'+52)
    have hne : texp q ≠ -1074 := by
      have : -1074 ≤ texp p := by unfold texp; omega
      omega
    have h1 := scaled_ge hq hne
    have h2 : (2 : ℤ) ^ 52 ≤ rne (q / 2 ^ texp q) := le_rne_of_le (by push_cast; exact h1)
    have h3 : (2 : ℚ) ^ 52 * 2 ^ texp q ≤ rnP q := by
      unfold rnP
      apply mul_le_mul_of_nonneg_right _ (two_zpow_pos _).le
      exact_mod_cast h2
    refine le_trans ?_ h3
    -- p < 2^(53 + t) ≤ 2^(52 + t')
    obtain ⟨k, hk⟩ : ∃ k : ℕ, texp q = texp p + 1 + k := ⟨(texp q - texp p - 1).toNat, by omega⟩
    have h4 : p / 2 ^ texp p ≤ ((2 ^ (53 + k) : ℤ) : ℚ) := by
      refine le_trans (scaled_lt p).le ?_
      push_cast
      exact pow_le_pow_right₀ (by norm_num) (by omega)
    have h5 := rne_le_of_le h4
    have h6 : (2 : ℚ) ^ 52 * 2 ^ texp q = 2 ^ (53 + k) * 2 ^ texp p := by
      rw [hk, zpow_add₀ (by norm_num), zpow_add₀ (by norm_num), zpow_natCast]
      rw [pow_add]; ring
    rw [h6]
    unfold rnP
    apply mul_le_mul_of_nonneg_right _ (two_zpow_pos _).le
    exact_mod_cast h5
  · unfold rnP
    rw [heq]
    apply mul_le_mul_of_nonneg_right _ (two_zpow_pos _).le
    have : rne (p / 2 ^ texp q) ≤ rne (q / 2 ^ texp q) := rne_mono (by
      apply div_le_div_of_nonneg_right h (two_zpow_pos _).le)
    exact_mod_cast this

/-- values `n * 2^t` with few bits are not changed by rounding -/
theorem rnP_exact {n : ℕ} {t : ℤ} (hn : n ≤ 2 ^ 53) (ht : -1074 ≤ t) :
    rnP ((n : ℚ) * 2 ^ t) = n * 2 ^ t := by
  rcases Nat.eq_zero_or_pos n with h | h
  · subst h; simp [rnP_zero]
  obtain ⟨q, hq⟩ : ∃ q : ℚ, q = (n : ℚ) * 2 ^ t := ⟨_, rfl⟩
  rw [← hq]
  have hq0 : 0 < q := by have := two_zpow_pos t; rw [hq]; positivity
  have key : ∀ k : ℕ, texp q ≤ t → t = texp q + k → rnP q = q := by
    intro k _ hk
    unfold rnP
    have e : (2 : ℚ) ^ t = 2 ^ texp q * 2 ^ k := by
      rw [hk, zpow_add₀ (by norm_num), zpow_natCast]
    have h1 : q / 2 ^ texp q = ((n * 2 ^ k : ℤ) : ℚ) := by
      have := (two_zpow_pos (texp q)).ne'
      rw [div_eq_iff this]
      calc q = n * 2 ^ t := hq
        _ = _ := by rw [e]; push_cast; ring
    rw [h1, rne_intCast]
    calc _ = (n : ℚ) * 2 ^ t := by rw [e]; push_cast; ring
      _ = q := hq.symm
  by_cases hle : texp q ≤ t
  · exact key (t - texp q).toNat hle (by omega)
  · -- then n = 2^53 and texp q = t + 1
    have h1 : q ≤ 2 ^ (t + 53) := by
      rw [zpow_add₀ (by norm_num), hq, mul_comm]
      apply mul_le_mul_of_nonneg_left _ (two_zpow_pos _).le
      have : (n : ℚ) ≤ ((2 ^ 53 : ℕ) : ℚ) := by exact_mod_cast hn
      calc (n : ℚ) ≤ _ := this
        _ = _ := by norm_num
    have hlog : t + 53 ≤ Int.log 2 q := by unfold texp at hle; omega
    have h2 : (2 : ℚ) ^ (t + 53) ≤ q := by
      have := Int.zpow_log_le_self (R := ℚ) (b := 2) (by norm_num) hq0
      calc (2 : ℚ) ^ (t + 53) ≤ 2 ^ (Int.log 2 q) := zpow_le_zpow_right₀ (by norm_num) hlog
        _ ≤ q := by exact_mod_cast this
    have h3 : q = 2 ^ (t + 53) := le_antisymm h1 h2
    have hl : Int.log 2 q = t + 53 := by
      rw [h3]; exact_mod_cast Int.log_zpow (R := ℚ) (b := 2) (by norm_num) (t + 53)
    have htx : texp q = t + 1 := by unfold texp; omega
    unfold rnP
    have h4 : q / 2 ^ texp q = ((2 ^ 52 : ℤ) : ℚ) := by
      rw [htx, h3, ← zpow_sub₀ (by norm_num)]
      have : t + 53 - (t + 1) = ((52 : ℕ) : ℤ) := by omega
      rw [this, zpow_natCast]; push_cast; rfl
    rw [h4, rne_intCast, ← h4]
    exact div_mul_cancel₀ _ (two_zpow_pos _).ne'

/-! ## extended mantissas -/

/-- `em` describes the non-negative rational `x`: integer part, round bit, sticky bit. -/
def ERep (em : ExtendedMantissa) (x : ℚ) : Prop :=
  ∃ f : ℚ, x = em.mantissa + f ∧ 0 ≤ f ∧ f < 1 ∧ (em.roundBit = true ↔ 1 / 2 ≤ f) ∧
    (em.stickyBit = true ↔ f ≠ 0 ∧ f ≠ 1 / 2)

theorem ERep.exact (m : ℕ) : ERep (ExtendedMantissa.ofMantissaAndAccuracy m .exact) m :=
  ⟨0, by simp [ExtendedMantissa.ofMantissaAndAccuracy], le_refl _, by norm_num,
    by simp [ExtendedMantissa.ofMantissaAndAccuracy],
    by simp [ExtendedMantissa.ofMantissaAndAccuracy]⟩

theorem ERep.shift {em : ExtendedMantissa} {x : ℚ} (h : ERep em x) :
    ERep em.shiftRightOne (x / 2) := by
  obtain ⟨f, hx, h0, h1, hr, hs⟩ := h
  have hf0 : (em.roundBit || em.stickyBit) = true ↔ f ≠ 0 := by
    rw [Bool.or_eq_true, hr, hs]
    constructor
    · rintro (h | h)
      · intro h'; rw [h'] at h; norm_num at h
      · exact h.1
    · intro h
      by_cases h' : f = 1 / 2
      · left; rw [h']
      · right; exact ⟨h, h'⟩
  rcases Nat.mod_two_eq_zero_or_one em.mantissa with hm | hm
  · refine ⟨f / 2, ?_, by linarith, by linarith, ?_, ?_⟩
    · have : em.mantissa = 2 * (em.mantissa / 2) := by omega
      have h2 : (em.mantissa : ℚ) = 2 * ((em.mantissa / 2 : ℕ) : ℚ) := by exact_mod_cast this
      simp only [ExtendedMantissa.shiftRightOne]
      rw [hx, h2]; ring
    · simp only [ExtendedMantissa.shiftRightOne, hm]
      simp only [bne_self_eq_false, Bool.false_eq_true, false_iff, not_le]; linarith
    · simp only [ExtendedMantissa.shiftRightOne]
      rw [hf0]
      constructor
      · intro h; constructor
        · intro h'; apply h; linarith
        · intro h'; linarith
      · rintro ⟨h, _⟩ h'; apply h; rw [h']; norm_num
  · refine ⟨(1 + f) / 2, ?_, by linarith, by linarith, ?_, ?_⟩
    · have : em.mantissa = 2 * (em.mantissa / 2) + 1 := by omega
      have h2 : (em.mantissa : ℚ) = 2 * ((em.mantissa / 2 : ℕ) : ℚ) + 1 := by exact_mod_cast this
      simp only [ExtendedMantissa.shiftRightOne]
      rw [hx, h2]; ring
    · simp only [ExtendedMantissa.shiftRightOne, hm]
      simp only [bne_iff_ne, ne_eq, one_ne_zero, not_false_eq_true, true_iff]; linarith
    · simp only [ExtendedMantissa.shiftRightOne]
      rw [hf0]
      constructor
      · intro h; constructor
        · intro h'; linarith
        · intro h'; apply h; linarith
      · rintro ⟨_, h⟩ h'; apply h; rw [h']; norm_num

theorem ERep.shiftN {em : ExtendedMantissa} {x : ℚ} (h : ERep em x) (n : ℕ) :
    ERep (em >>> n) (x / 2 ^ n) := by
  change ERep (n.repeat ExtendedMantissa.shiftRightOne em) _
  induction n with
  | zero => simpa [Nat.repeat] using h
  | succ n ih =>
    have := ih.shift
    rw [div_div, ← pow_succ] at this
    exact this

theorem ERep.floor {em : ExtendedMantissa} {x : ℚ} (h : ERep em x) : ⌊x⌋ = (em.mantissa : ℤ) := by
  obtain ⟨f, hx, h0, h1, _, _⟩ := h
  rw [hx, Int.floor_eq_iff]
  push_cast
  constructor <;> linarith

theorem ERep.rounded {em : ExtendedMantissa} {x : ℚ} (h : ERep em x) :
    (em.roundedMantissa : ℤ) = rne x := by
  have hfl := h.floor
  obtain ⟨f, hx, h0, h1, hr, hs⟩ := h
  have hd : x - ⌊x⌋ = f := by rw [hfl, hx]; push_cast; ring
  unfold rne
  rw [hd, hfl]
  rcases em with ⟨m, r, s⟩
  simp only at *
  cases r <;> cases s <;>
    simp only [ExtendedMantissa.roundedMantissa, ExtendedMantissa.accuracy,
      Accuracy.roundToNearestEven] <;> simp at hr hs
  · have : f = 0 := by
      by_contra h'
      have := hs h'
      rw [this] at hr; norm_num at hr
    rw [if_pos (by linarith)]
  · rw [if_pos (by linarith)]
  · have hf : f = 1 / 2 := by
      have : f ≠ 0 := by intro h'; rw [h'] at hr; norm_num at hr
      rw [hs this]; norm_num
    rw [if_neg (by linarith), if_neg (by linarith)]
    push_cast; rfl
  · have hf : 1 / 2 < f := by
      have h2 : (2 : ℚ)⁻¹ ≤ f := hr
      rcases h2.eq_or_lt with h' | h'
      · exact absurd h'.symm hs.2
      · linarith
    rw [if_neg (by linarith), if_pos (by linarith)]
    push_cast; rfl

end GoGeo.F64
