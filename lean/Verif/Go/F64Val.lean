import Verif.Go.F64Round

/-!
# The value of a binary64 operation of Lean core is the rounded exact value
-/
set_option linter.unusedSectionVars false
set_option exponentiation.threshold 2000

namespace GoGeo.F64
open Float.Model Float.Model.UnpackedFloat

/-- apply a sign to an exact value -/
def sgnX (s : Sign) (x : XR ℚ) : XR ℚ :=
  match s with
  | .negative => XR.neg x
  | .positive => x

/-- the exact value of an unpacked float (both zeros have value 0) -/
def valU : UnpackedFloat → XR ℚ
  | .infinity s => sgnX s .pinf
  | .notANumber => .nan
  | .zero _ => .fin 0
  | .finite s m e _ => sgnX s (.fin ((m : ℚ) * 2 ^ e))

/-- value with overflow to infinity at `2^1024` -/
def ovf (q : ℚ) : XR ℚ := if (2 : ℚ) ^ (1024 : ℤ) ≤ q then .pinf else .fin q

/-- binary64 round-to-nearest-even of a non-negative rational -/
def rndP (q : ℚ) : XR ℚ := ovf (rnP q)

/-- binary64 round-to-nearest-even of an extended rational -/
def rndX : XR ℚ → XR ℚ
  | .fin q => if q < 0 then XR.neg (rndP (-q)) else rndP q
  | x => x

def repack (u : UnpackedFloat) : UnpackedFloat :=
  UnpackedFloat.unpack Format.binary64 (UnpackedFloat.pack Format.binary64 u)

theorem targetExponent_eq (te : ℤ) :
    Format.binary64.targetExponent te = max (te - 53) (-1074) := rfl

theorem valU_repack_canon {s : Sign} {m : ℕ} {e : ℤ} {h : 0 < m} (hc : Canon m e) :
    valU (repack (.finite s m e h)) = sgnX s (ovf ((m : ℚ) * 2 ^ e)) := by
  rw [repack, unpack_pack_finite hc]
  by_cases he : 971 < e
  · rw [if_pos he]
    have hm : 2 ^ 52 ≤ m := by
      rcases hc.norm with h' | h'
      · exact h'
      · omega
    have : (2 : ℚ) ^ (1024 : ℤ) ≤ (m : ℚ) * 2 ^ e := by
      have h1 : ((2 ^ 52 : ℕ) : ℚ) ≤ m := by exact_mod_cast hm
      have h2 : (2 : ℚ) ^ (972 : ℤ) ≤ 2 ^ e := zpow_le_zpow_right₀ (by norm_num) (by omega)
      have h3 : (2 : ℚ) ^ (1024 : ℤ) = ((2 ^ 52 : ℕ) : ℚ) * 2 ^ (972 : ℤ) := by
        rw [show (1024 : ℤ) = ((52 : ℕ) : ℤ) + 972 by norm_num, zpow_add₀ (by norm_num), zpow_natCast]
        push_cast; rfl
      rw [h3]
      exact mul_le_mul h1 h2 (two_zpow_pos _).le (by positivity)
    rw [ovf, if_pos this]; rfl
  · rw [if_neg he]
    have : ¬ (2 : ℚ) ^ (1024 : ℤ) ≤ (m : ℚ) * 2 ^ e := by
      rw [not_le]
      have h1 : (m : ℚ) < ((2 ^ 53 : ℕ) : ℚ) := by exact_mod_cast hc.lt
      have h2 : (2 : ℚ) ^ e ≤ 2 ^ (971 : ℤ) := zpow_le_zpow_right₀ (by norm_num) (by omega)
      have h3 : (2 : ℚ) ^ (1024 : ℤ) = ((2 ^ 53 : ℕ) : ℚ) * 2 ^ (971 : ℤ) := by
        rw [show (1024 : ℤ) = ((53 : ℕ) : ℤ) + 971 by norm_num, zpow_add₀ (by norm_num), zpow_natCast]
        push_cast; rfl
      rw [h3]
      calc (m : ℚ) * 2 ^ e < ((2 ^ 53 : ℕ) : ℚ) * 2 ^ e := by
              exact mul_lt_mul_of_pos_right h1 (two_zpow_pos _)
        _ ≤ _ := mul_le_mul_of_nonneg_left h2 (by positivity)
    rw [ovf, if_neg this]; rfl

/-- zero or a canonical float, together with its exact value -/
inductive CanonOf (s : Sign) (q : ℚ) : UnpackedFloat → Prop
  | zero (h : q = 0) : CanonOf s q (.zero s)
  | finite (m : ℕ) (e : ℤ) (h : 0 < m) (hc : Canon m e) (hq : q = (m : ℚ) * 2 ^ e) :
      CanonOf s q (.finite s m e h)

theorem CanonOf.val {s : Sign} {q : ℚ} {u : UnpackedFloat} (h : CanonOf s q u) :
    valU (repack u) = sgnX s (ovf q) := by
  cases h with
  | zero h =>
    have h0 : ¬ (2 : ℚ) ^ (1024 : ℤ) ≤ 0 := not_le.2 (two_zpow_pos _)
    rw [repack, unpack_pack_special.2.1, h, ovf, if_neg h0]
    cases s <;> simp [valU, sgnX, XR.neg]
  | finite m e h hc hq => rw [valU_repack_canon hc, hq]

/-- **Rounding is correct.** `m`, `acc` describe the rational `x`; the result is the
round-to-nearest-even of `x * 2^e`. -/
theorem roundWithAccuracy_canon (s : Sign) {m : ℕ} {e : ℤ} {acc : Accuracy} {x : ℚ}
    (hrep : ERep (ExtendedMantissa.ofMantissaAndAccuracy m acc) x) (hx : 0 < x)
    (hT : Format.binary64.targetExponent (totalExponent m e) = texp (x * 2 ^ e))
    (he : e ≤ texp (x * 2 ^ e)) :
    CanonOf s (rnP (x * 2 ^ e)) (roundWithAccuracy Format.binary64 s m e acc) := by
  have hq0 : 0 < x * 2 ^ e := by have := two_zpow_pos e; positivity
  obtain ⟨q, hq⟩ : ∃ q, q = x * 2 ^ e := ⟨_, rfl⟩
  rw [← hq] at hT he hq0 ⊢
  obtain ⟨t, ht⟩ : ∃ t, t = texp q := ⟨_, rfl⟩
  have htge : -1074 ≤ t := by rw [ht]; unfold texp; omega
  have hk : e + ((t - e).toNat : ℤ) = t := by omega
  have hN : (((ExtendedMantissa.ofMantissaAndAccuracy m acc) >>> (t - e).toNat).roundedMantissa : ℤ)
      = rne (q / 2 ^ t) := by
    have := (hrep.shiftN (t - e).toNat).rounded
    rw [this]
    congr 1
    rw [div_eq_div_iff (by positivity) (two_zpow_pos _).ne', hq]
    have : (2 : ℚ) ^ t = 2 ^ e * 2 ^ (t - e).toNat := by
      conv_lhs => rw [← hk]
      rw [zpow_add₀ (by norm_num), zpow_natCast]
    rw [this]; ring
  obtain ⟨N, hNdef⟩ : ∃ N : ℕ, N =
    ((ExtendedMantissa.ofMantissaAndAccuracy m acc) >>> (t - e).toNat).roundedMantissa := ⟨_, rfl⟩
  have hrn : rnP q = (N : ℚ) * 2 ^ t := by
    unfold rnP; rw [← ht, ← hN, ← hNdef]; push_cast; rfl
  have hlt := scaled_lt q
  rw [← ht] at hlt
  have hN53 : N ≤ 2 ^ 53 := by
    have : rne (q / 2 ^ t) ≤ 2 ^ 53 := rne_le_of_le (by push_cast; exact hlt.le)
    rw [← hN, ← hNdef] at this; exact_mod_cast this
  have hN52 : t ≠ -1074 → 2 ^ 52 ≤ N := by
    intro hne
    have h1 := scaled_ge hq0 (by rw [← ht]; exact hne)
    rw [← ht] at h1
    have : (2 : ℤ) ^ 52 ≤ rne (q / 2 ^ t) := le_rne_of_le (by push_cast; exact h1)
    rw [← hN, ← hNdef] at this; exact_mod_cast this
  -- unfold the function
  have hfun : roundWithAccuracy Format.binary64 s m e acc =
      (let em2 := (ExtendedMantissa.ofMantissaAndAccuracy N .exact) >>>
          (Format.binary64.targetExponent (totalExponent N t) - t).toNat
       if h : em2.mantissa = 0 then .zero s
       else .finite s em2.mantissa (t + ((Format.binary64.targetExponent (totalExponent N t) - t).toNat : ℤ))
          (Nat.pos_of_ne_zero h)) := by
    unfold roundWithAccuracy shiftToTargetExponent shiftToExponent
    simp only [hT, ← ht, hk, ← hNdef]
  rw [hfun, hrn]
  obtain ⟨k, hkd⟩ : ∃ k, k = (Format.binary64.targetExponent (totalExponent N t) - t).toNat := ⟨_, rfl⟩
  rw [← hkd]
  rw [targetExponent_eq, totalExponent] at hkd
  simp only
  by_cases hN0 : N = 0
  · have hs : (max ((N.log2 : ℤ) + 1 + t - 53) (-1074) - t).toNat = 0 := by
      rw [hN0, Nat.log2_zero]; simp only [Nat.cast_zero]; omega
    rw [hs] at hkd; subst hkd
    have hz : (ExtendedMantissa.ofMantissaAndAccuracy N .exact >>> 0).mantissa = 0 := by
      rw [hN0]; rfl
    rw [dif_pos hz]
    exact .zero (by rw [hN0]; simp)
  · by_cases hNlt : N < 2 ^ 53
    · have hlog : N.log2 < 53 := (Nat.log2_lt hN0).2 hNlt
      have hs : (max ((N.log2 : ℤ) + 1 + t - 53) (-1074) - t).toNat = 0 := by omega
      rw [hs] at hkd; subst hkd
      have hm : (ExtendedMantissa.ofMantissaAndAccuracy N .exact >>> 0).mantissa = N := rfl
      rw [dif_neg (by rw [hm]; exact hN0)]
      refine .finite _ _ _ ⟨by rw [hm]; omega, by rw [hm]; exact hNlt, by simpa using htge, ?_⟩ ?_
      · rw [hm]
        by_cases h' : t = -1074
        · right; simpa using h'
        · left; exact hN52 h'
      · rw [hm]; simp
    · have hNe : N = 2 ^ 53 := by omega
      have hlog : N.log2 = 53 := by rw [hNe]; exact Nat.log2_two_pow
      have hs : (max ((N.log2 : ℤ) + 1 + t - 53) (-1074) - t).toNat = 1 := by rw [hlog]; push_cast; omega
      rw [hs] at hkd; subst hkd
      have hm : (ExtendedMantissa.ofMantissaAndAccuracy N .exact >>> 1).mantissa = 2 ^ 52 := by
        rw [hNe]; rfl
      rw [dif_neg (by rw [hm]; norm_num)]
      refine .finite _ _ _ ⟨by rw [hm]; norm_num, by rw [hm]; norm_num, by push_cast; omega, ?_⟩ ?_
      · rw [hm]; left; exact le_refl _
      · rw [hm, hNe]; push_cast
        rw [zpow_add₀ (by norm_num)]; norm_num; ring

/-! ## log2 and Int.log -/

theorem log_nat_mul (m : ℕ) (hm : 0 < m) (e : ℤ) :
    Int.log 2 ((m : ℚ) * 2 ^ e) = (m.log2 : ℤ) + e := by
  have h1 : ((2 : ℕ) : ℚ) ^ ((m.log2 : ℤ) + e) ≤ (m : ℚ) * 2 ^ e := by
    rw [zpow_add₀ (by norm_num), zpow_natCast]
    push_cast
    apply mul_le_mul_of_nonneg_right _ (two_zpow_pos _).le
    exact_mod_cast Nat.log2_self_le (by omega)
  have h2 : (m : ℚ) * 2 ^ e < ((2 : ℕ) : ℚ) ^ ((m.log2 : ℤ) + e + 1) := by
    rw [show (m.log2 : ℤ) + e + 1 = ((m.log2 + 1 : ℕ) : ℤ) + e by push_cast; ring,
      zpow_add₀ (by norm_num), zpow_natCast]
    push_cast
    apply mul_lt_mul_of_pos_right _ (two_zpow_pos _)
    exact_mod_cast Nat.lt_log2_self
  have hq : 0 < (m : ℚ) * 2 ^ e := by have := two_zpow_pos e; positivity
  apply le_antisymm
  · have := (Int.lt_zpow_iff_log_lt (R := ℚ) (b := 2) (by norm_num) hq).1 h2
    omega
  · exact (Int.zpow_le_iff_le_log (R := ℚ) (b := 2) (by norm_num) hq).1 h1

theorem texp_nat_mul (m : ℕ) (hm : 0 < m) (e : ℤ) :
    Format.binary64.targetExponent (totalExponent m e) = texp ((m : ℚ) * 2 ^ e) := by
  rw [targetExponent_eq, texp, log_nat_mul m hm, totalExponent]
  congr 1; ring

/-- the exact case, with enough bits -/
theorem roundWithAccuracy_exact (s : Sign) {m : ℕ} {e : ℤ} (hm : 0 < m)
    (he : e ≤ texp ((m : ℚ) * 2 ^ e)) :
    CanonOf s (rnP ((m : ℚ) * 2 ^ e)) (roundWithAccuracy Format.binary64 s m e .exact) :=
  roundWithAccuracy_canon s (ERep.exact m) (by exact_mod_cast hm) (texp_nat_mul m hm e) he

theorem round_canon (s : Sign) {m : ℕ} {e : ℤ} (hm : 0 < m) :
    CanonOf s (rnP ((m : ℚ) * 2 ^ e)) (UnpackedFloat.round Format.binary64 s m e) := by
  unfold UnpackedFloat.round decreaseExponent
  rw [texp_nat_mul m hm]
  simp only
  obtain ⟨k, hk⟩ : ∃ k, k = (e - texp ((m : ℚ) * 2 ^ e)).toNat := ⟨_, rfl⟩
  rw [← hk]
  have hv : ((m <<< k : ℕ) : ℚ) * 2 ^ (e - (k : ℤ)) = (m : ℚ) * 2 ^ e := by
    rw [Nat.shiftLeft_eq]; push_cast
    rw [zpow_sub₀ (by norm_num), zpow_natCast]
    have : (2 : ℚ) ^ k ≠ 0 := by positivity
    field_simp
  have hm' : 0 < m <<< k := by rw [Nat.shiftLeft_eq]; positivity
  have := roundWithAccuracy_exact s (e := e - (k : ℤ)) hm' (by rw [hv]; omega)
  rwa [hv] at this

/-- value of a signed exact sum after `normalize` -/
theorem normalize_val (M : ℤ) (e : ℤ) (zs : Sign) :
    valU (repack (normalize Format.binary64 M e zs)) = rndX (.fin ((M : ℚ) * 2 ^ e)) := by
  have h2 := two_zpow_pos e
  unfold normalize
  rcases lt_trichotomy M 0 with h | h | h
  · rw [Int.compare_eq_lt.2 h]
    simp only
    have hm : 0 < (-M).toNat := by omega
    rw [(round_canon .negative hm).val]
    have hc : (((-M).toNat : ℕ) : ℚ) = -(M : ℚ) := by
      have : (((-M).toNat : ℕ) : ℤ) = -M := by omega
      have h3 : ((((-M).toNat : ℕ) : ℤ) : ℚ) = ((-M : ℤ) : ℚ) := by rw [this]
      push_cast at h3; exact h3
    have hneg : (M : ℚ) * 2 ^ e < 0 := mul_neg_of_neg_of_pos (by exact_mod_cast h) h2
    simp only [rndX, if_pos hneg, sgnX, hc, rndP, neg_mul]
  · subst h
    rw [show compare (0 : ℤ) 0 = .eq from rfl]
    simp only [repack, unpack_pack_special.2.1, valU, Int.cast_zero, zero_mul, rndX, lt_irrefl,
      if_false, rndP, rnP_zero, ovf]
    rw [if_neg (not_le.2 (two_zpow_pos _))]
  · rw [Int.compare_eq_gt.2 h]
    simp only
    have hm : 0 < M.toNat := by omega
    rw [(round_canon .positive hm).val]
    have hc : ((M.toNat : ℕ) : ℚ) = (M : ℚ) := by
      have : ((M.toNat : ℕ) : ℤ) = M := by omega
      have h3 : (((M.toNat : ℕ) : ℤ) : ℚ) = (M : ℚ) := by rw [this]
      push_cast at h3; exact h3
    have hpos : ¬ (M : ℚ) * 2 ^ e < 0 := by
      have : (0 : ℚ) < M := by exact_mod_cast h
      rw [not_lt]; positivity
    simp only [rndX, if_neg hpos, sgnX, hc, rndP]

end GoGeo.F64
