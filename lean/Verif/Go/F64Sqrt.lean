import Verif.Go.Err
import Verif.Go.Math
import Mathlib.Tactic.FieldSimp

/-! # The square root of binary64 -/

namespace GoGeo.F64
open Float.Model Float.Model.UnpackedFloat

theorem ERep.ofRem (r rem : ℕ) : ∃ x : ℚ, (r : ℚ) ≤ x ∧ x < r + 1 ∧
    ERep (ExtendedMantissa.ofMantissaAndAccuracy r (if rem = 0 then .exact else .inexact (if rem ≤ r then .lt else .gt))) x := by
  by_cases h : rem = 0
  · rw [if_pos h]
    exact ⟨r, le_rfl, by linarith, ERep.exact r⟩
  · rw [if_neg h]
    by_cases h' : rem ≤ r
    · rw [if_pos h']
      refine ⟨r + 1 / 4, by linarith, by linarith, 1 / 4, rfl, by norm_num, by norm_num, ?_, ?_⟩ <;>
        simp [ExtendedMantissa.ofMantissaAndAccuracy] <;> norm_num
    · rw [if_neg h']
      refine ⟨r + 3 / 4, by linarith, by linarith, 3 / 4, rfl, by norm_num, by norm_num, ?_, ?_⟩ <;>
        simp [ExtendedMantissa.ofMantissaAndAccuracy] <;> norm_num

/-- the square root of a positive finite number: a number of at least 53 bits within one unit of the exact root is rounded -/
theorem sqrt_core {m : ℕ} {e : ℤ} (hc : Canon m e) :
    ∃ (M : ℕ) (t : ℤ) (x : ℚ), (m : ℚ) * 2 ^ e = M * (2 ^ t) ^ 2 ∧ -600 ≤ t ∧ 2 ^ 52 ≤ Nat.sqrt M ∧ (Nat.sqrt M : ℚ) ≤ x ∧ x < Nat.sqrt M + 1 ∧
      CanonOf .positive (rnP (x * 2 ^ t)) (let r := sqrtCore Format.binary64 m e
        roundWithAccuracy Format.binary64 .positive r.1 r.2.1 r.2.2) := by
  unfold sqrtCore
  simp only [targetExponent_eq, totalExponent]
  have hge := hc.ge
  have hpos := hc.pos
  obtain ⟨t, ht⟩ : ∃ t, t = min (e.ediv 2) (max ((((m.log2 : ℤ) + 1 + e + 1).ediv 2) - 53) (-1074)) := ⟨_, rfl⟩
  simp only [← ht]
  have d1 : e.ediv 2 = e / 2 := rfl
  have d2 : ((m.log2 : ℤ) + 1 + e + 1).ediv 2 = ((m.log2 : ℤ) + 1 + e + 1) / 2 := rfl
  rw [d1, d2] at ht
  have ht1 : 2 * t ≤ e := by omega
  have ht2 : 2 * t ≤ (m.log2 : ℤ) + e - 104 := by omega
  have ht3 : -600 ≤ t := by omega
  obtain ⟨k, hk⟩ : ∃ k, k = (e - 2 * t).toNat := ⟨_, rfl⟩
  simp only [← hk]
  obtain ⟨M, hM⟩ : ∃ M, M = m <<< k := ⟨_, rfl⟩
  simp only [← hM]
  have hlog : 2 ^ m.log2 ≤ m := Nat.log2_self_le (by omega)
  have hM1 : 2 ^ 104 ≤ M := by
    rw [hM, Nat.shiftLeft_eq]
    calc 2 ^ 104 ≤ 2 ^ (m.log2 + k) := Nat.pow_le_pow_right (by norm_num) (by omega)
      _ = 2 ^ m.log2 * 2 ^ k := pow_add _ _ _
      _ ≤ m * 2 ^ k := Nat.mul_le_mul_right _ hlog
  have hr : 2 ^ 52 ≤ Nat.sqrt M := by
    rw [Nat.le_sqrt]; exact le_trans (by norm_num) hM1
  obtain ⟨x, x1, x2, hrep⟩ := ERep.ofRem (Nat.sqrt M) (M - Nat.sqrt M * Nat.sqrt M)
  refine ⟨M, t, x, ?_, ht3, hr, x1, x2, ?_⟩
  · have hke : e = (k : ℤ) + (t + t) := by omega
    rw [hM, Nat.shiftLeft_eq, hke]; push_cast
    rw [zpow_add₀ (by norm_num), zpow_add₀ (by norm_num), zpow_natCast]
    ring
  · have hr0 : 1 ≤ Nat.sqrt M := le_trans (by norm_num) hr
    have hx0 : (0 : ℚ) < x := lt_of_lt_of_le (by exact_mod_cast hr0) x1
    have hfl : ⌊x⌋ = (Nat.sqrt M : ℤ) := by
      rw [Int.floor_eq_iff]
      exact ⟨by exact_mod_cast x1, by exact_mod_cast x2⟩
    have hl : 52 ≤ (Nat.sqrt M).log2 := (Nat.le_log2 (by omega)).2 hr
    apply roundWithAccuracy_canon .positive hrep hx0
    · rw [targetExponent_eq, totalExponent, texp, log_mul_two_zpow hx0, log_floor hfl hr0]
      congr 1; ring
    · unfold texp
      rw [log_mul_two_zpow hx0, log_floor hfl hr0]
      omega

end GoGeo.F64

namespace GoGeo
open F64 FloatVal Float.Model Float.Model.UnpackedFloat

theorem float_sqrt_def (a : Float) : Float.sqrt a = ⟨.pack (UnpackedFloat.sqrt Format.binary64 a.toModel.unpack)⟩ := rfl

/-- `math.Sqrt` of a finite non-negative number: relative error at most 2^-51 -/
theorem float_sqrt_err {f : Float} {q : ℚ} (hf : val f = .fin q) (h0 : 0 ≤ q) :
    ∃ s : ℚ, val (Float.sqrt f) = .fin s ∧ 0 ≤ s ∧ |(s : ℝ) - √(q : ℝ)| ≤ √(q : ℝ) / 2 ^ 51 := by
  have hg := good_f f
  have hv : val (Float.sqrt f) = valU (repack (UnpackedFloat.sqrt Format.binary64 f.toModel.unpack)) := by
    rw [float_sqrt_def]; exact valF_ofPack _
  change valU f.toModel.unpack = _ at hf
  rw [hv]
  generalize f.toModel.unpack = u at *
  cases u with
  | notANumber => simp [valU] at hf
  | infinity s => cases s <;> simp [valU, sgnX, XR.neg] at hf
  | zero s =>
    have : q = 0 := by simpa [valU] using hf.symm
    subst this
    exact ⟨0, by show valU (repack (.zero s)) = _; rw [repack_z]; rfl, le_rfl, by simp⟩
  | finite s m e hm =>
    have hp := fval_pos hm e
    cases s with
    | negative =>
      simp only [valU, sgnX, XR.neg, XR.fin.injEq] at hf
      linarith
    | positive =>
      have hq : (m : ℚ) * 2 ^ e = q := by simpa [valU, sgnX] using hf
      obtain ⟨M, t, x, hMt, ht, hr, x1, x2, hcan⟩ := sqrt_core hg.1
      have hval := hcan.val
      have hdef : UnpackedFloat.sqrt Format.binary64 (.finite .positive m e hm) = (let r := sqrtCore Format.binary64 m e
        roundWithAccuracy Format.binary64 .positive r.1 r.2.1 r.2.2) := rfl
      rw [hdef, hval]
      have h2t := two_zpow_pos t
      have hr1 : (2 : ℚ) ^ 52 ≤ Nat.sqrt M := by exact_mod_cast hr
      have hx0 : 0 ≤ x * 2 ^ t := mul_nonneg (le_trans (le_trans (by positivity) hr1) x1) h2t.le
      obtain ⟨r, hrr⟩ : ∃ r, r = Nat.sqrt M := ⟨_, rfl⟩
      have hle : r * r ≤ M := by rw [hrr]; exact Nat.sqrt_le M
      have hlt : M < (r + 1) * (r + 1) := by rw [hrr]; exact Nat.lt_succ_sqrt M
      rw [← hrr] at hr1 x1 x2
      have hleq : (r : ℚ) * r ≤ M := by exact_mod_cast hle
      have hq2 : q ≤ (2 ^ 512) ^ 2 := by
        rw [← hq, ← pow_mul]
        have h1 : (m : ℚ) ≤ 2 ^ 53 := by
          have := hg.1.lt
          exact_mod_cast this.le
        have h2 : (2 : ℚ) ^ e ≤ 2 ^ (971 : ℤ) := zpow_le_zpow_right₀ (by norm_num) hg.2
        calc (m : ℚ) * 2 ^ e ≤ 2 ^ 53 * 2 ^ (971 : ℤ) := mul_le_mul h1 h2 (two_zpow_pos e).le (by positivity)
          _ = 2 ^ (512 * 2) := by
            rw [show ((971 : ℤ)) = ((971 : ℕ) : ℤ) by rfl, zpow_natCast, ← pow_add]
      have hrT : (r : ℚ) * 2 ^ t ≤ 2 ^ 512 := by
        apply le_of_sq_le_sq _ (by positivity)
        refine le_trans ?_ hq2
        rw [← hq, hMt, mul_pow, pow_two (r : ℚ)]
        exact mul_le_mul_of_nonneg_right hleq (by positivity)
      have hbig : x * 2 ^ t ≤ 2 ^ 1023 := by
        have h1r : (1 : ℚ) ≤ r := le_trans (one_le_pow₀ (by norm_num)) hr1
        have h1 : x * 2 ^ t ≤ (2 * r) * 2 ^ t :=
          mul_le_mul_of_nonneg_right (by linarith) h2t.le
        have h2 : (2 * (r : ℚ)) * 2 ^ t ≤ 2 * 2 ^ 512 := by
          rw [mul_assoc]; exact mul_le_mul_of_nonneg_left hrT (by norm_num)
        refine le_trans h1 (le_trans h2 ?_)
        rw [← pow_succ']
        exact pow_le_pow_right₀ (by norm_num) (by norm_num)
      obtain ⟨y, hy, hye⟩ := rndP_err hx0 hbig
      have hT : (1 : ℚ) / 2 ^ 1075 ≤ 2 ^ t / 2 ^ 20 := by
        have h1 : (2 : ℚ) ^ (-600 : ℤ) ≤ 2 ^ t := zpow_le_zpow_right₀ (by norm_num) ht
        have h2 : (1 : ℚ) / 2 ^ 1075 ≤ 2 ^ (-600 : ℤ) / 2 ^ 20 := by
          rw [show (-600 : ℤ) = -((600 : ℕ) : ℤ) by rfl, zpow_neg, zpow_natCast, ← one_div, div_div, ← pow_add]
          exact one_div_le_one_div_of_le (by positivity) (pow_le_pow_right₀ (by norm_num) (by norm_num))
        exact le_trans h2 (div_le_div_of_nonneg_right h1 (by positivity))
      obtain ⟨T, hTT⟩ : ∃ T : ℚ, T = 2 ^ t := ⟨_, rfl⟩
      obtain ⟨δ, hδ⟩ : ∃ δ : ℚ, δ = 1 / 2 ^ 1075 := ⟨_, rfl⟩
      rw [← hTT] at hye hMt h2t hx0 hT
      rw [← hδ] at hye hT
      clear hδ hTT hbig hrT hq2
      have hrx : 2 ^ 52 * T ≤ x * T := mul_le_mul_of_nonneg_right (le_trans hr1 x1) h2t.le
      refine ⟨y, hy, ?_, ?_⟩
      · have := (abs_le.1 hye).1
        norm_num at this hT hrx ⊢
        linarith
      · have hR : √(q : ℝ) = √(M : ℝ) * (T : ℝ) := by
          rw [← hq, hMt]; push_cast
          rw [Real.sqrt_mul (by positivity), Real.sqrt_sq (by exact_mod_cast h2t.le)]
        have hs1 : (r : ℝ) ≤ √(M : ℝ) := Real.le_sqrt_of_sq_le (by rw [pow_two]; exact_mod_cast hle)
        have hs2 : √(M : ℝ) ≤ r + 1 := by
          rw [Real.sqrt_le_left (by positivity), pow_two]
          exact_mod_cast hlt.le
        have x1' : (r : ℝ) ≤ x := by exact_mod_cast x1
        have x2' : (x : ℝ) ≤ r + 1 := by exact_mod_cast x2.le
        have hr1' : (2 : ℝ) ^ 52 ≤ r := by exact_mod_cast hr1
        have hT0 : (0 : ℝ) < T := by exact_mod_cast h2t
        have hye' : |(y : ℝ) - x * T| ≤ x * T / 2 ^ 53 + δ := by exact_mod_cast hye
        have hT' : (δ : ℝ) ≤ T / 2 ^ 20 := by exact_mod_cast hT
        rw [hR]
        have b1 : (2 : ℝ) ^ 52 * T ≤ √(M : ℝ) * T := mul_le_mul_of_nonneg_right (le_trans hr1' hs1) hT0.le
        have b2 : (x : ℝ) * T ≤ √(M : ℝ) * T + T := by
          have := mul_le_mul_of_nonneg_right (by linarith : (x : ℝ) ≤ √(M : ℝ) + 1) hT0.le
          linarith
        have b3 : √(M : ℝ) * T - T ≤ (x : ℝ) * T := by
          have := mul_le_mul_of_nonneg_right (by linarith : √(M : ℝ) - 1 ≤ (x : ℝ)) hT0.le
          linarith
        have := abs_le.1 hye'
        generalize √(M : ℝ) * T = R at *
        generalize (x : ℝ) * T = X at *
        norm_num at this hT' b1 b2 b3 ⊢
        rw [abs_le]
        constructor <;> linarith

end GoGeo

namespace GoGeo
open F64 FloatVal Float.Model Float.Model.UnpackedFloat

theorem val_zero_unpack {f : Float} (hf : val f = .fin 0) : ∃ s, f.toModel.unpack = .zero s := by
  have hg := good_f f
  change valU f.toModel.unpack = _ at hf
  generalize f.toModel.unpack = u at *
  cases u with
  | notANumber => simp [valU] at hf
  | infinity s => cases s <;> simp [valU, sgnX, XR.neg] at hf
  | zero s => exact ⟨s, rfl⟩
  | finite s m e hm =>
    have hp := fval_pos hm e
    cases s with
    | negative =>
      simp only [valU, sgnX, XR.neg, XR.fin.injEq] at hf
      linarith
    | positive =>
      simp only [valU, sgnX, XR.fin.injEq] at hf
      linarith

/-- 0/0 is NaN whatever the signs of the zeros -/
theorem float_zero_div {f g : Float} (hf : val f = .fin 0) (hg : val g = .fin 0) : val (f / g) = .nan := by
  obtain ⟨s, e1⟩ := val_zero_unpack hf
  obtain ⟨t, e2⟩ := val_zero_unpack hg
  have hd : f / g = ⟨.pack (UnpackedFloat.div Format.binary64 f.toModel.unpack g.toModel.unpack)⟩ := rfl
  have hv : val (f / g) = valU (repack (UnpackedFloat.div Format.binary64 f.toModel.unpack g.toModel.unpack)) := by
    rw [hd]; exact valF_ofPack _
  rw [hv, e1, e2]
  show valU (repack .notANumber) = _
  rw [repack, unpack_pack_special.2.2]; rfl

/-- the square root of NaN -/
theorem float_sqrt_nan {f : Float} (hf : val f = .nan) : val (Float.sqrt f) = .nan := by
  have hv : val (Float.sqrt f) = valU (repack (UnpackedFloat.sqrt Format.binary64 f.toModel.unpack)) := by
    rw [float_sqrt_def]; exact valF_ofPack _
  change valU f.toModel.unpack = _ at hf
  rw [hv]
  generalize f.toModel.unpack = u at *
  cases u with
  | notANumber => show valU (repack .notANumber) = _; rw [repack, unpack_pack_special.2.2]; rfl
  | infinity s => cases s <;> simp [valU, sgnX, XR.neg] at hf
  | zero s => simp [valU] at hf
  | finite s m e hm => cases s <;> simp [valU, sgnX, XR.neg] at hf

end GoGeo
