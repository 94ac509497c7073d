import Verif.Go.F64

/-! # Rounding gives the nearest `float64`, and overflows exactly from `2^1024 - 2^970` on -/

namespace GoGeo.F64
open Float.Model

theorem rne_nearest (x : ℚ) (n : ℤ) : |(rne x : ℚ) - x| ≤ |(n : ℚ) - x| := by
  have h1 := Int.floor_le x
  have h2 := Int.lt_floor_add_one x
  have hr : |(rne x : ℚ) - x| ≤ x - ⌊x⌋ ∧ |(rne x : ℚ) - x| ≤ ⌊x⌋ + 1 - x := by
    unfold rne
    split
    · rw [abs_of_nonpos (by linarith)]; constructor <;> linarith
    · split
      · push_cast; rw [abs_of_nonneg (by linarith)]; constructor <;> linarith
      · have h3 : 2 * (x - ⌊x⌋) = 1 := by linarith
        rcases Int.emod_two_eq_zero_or_one ⌊x⌋ with h | h <;> rw [h] <;> push_cast
        · rw [abs_of_nonpos (by linarith)]; constructor <;> linarith
        · rw [abs_of_nonneg (by linarith)]; constructor <;> linarith
  rcases le_or_gt n ⌊x⌋ with h | h
  · have : (n : ℚ) ≤ ⌊x⌋ := by exact_mod_cast h
    rw [abs_of_nonpos (by linarith : (n : ℚ) - x ≤ 0)]
    linarith [hr.1]
  · have : ((⌊x⌋ + 1 : ℤ) : ℚ) ≤ n := by exact_mod_cast h
    push_cast at this
    rw [abs_of_nonneg (by linarith : 0 ≤ (n : ℚ) - x)]
    linarith [hr.2]

theorem rnP_grid (q : ℚ) (n : ℤ) : |rnP q - q| ≤ |(n : ℚ) * 2 ^ texp q - q| := by
  have hp := two_zpow_pos (texp q)
  have h := rne_nearest (q / 2 ^ texp q) n
  have key : ∀ a : ℚ, |a * 2 ^ texp q - q| = |a - q / 2 ^ texp q| * 2 ^ texp q := fun a => by
    rw [← abs_of_pos hp, ← abs_mul, abs_of_pos hp]
    congr 1
    field_simp
  unfold rnP
  rw [key, key]
  exact mul_le_mul_of_nonneg_right h hp.le

theorem rnP_nearest {q v : ℚ} (hq : 0 ≤ q) (hv : v ≤ 0 ∨ ∃ m e, Canon m e ∧ v = (m : ℚ) * 2 ^ e) : |rnP q - q| ≤ |v - q| := by
  rcases hv with hv | ⟨m, e, hc, rfl⟩
  · have := rnP_grid q 0
    rw [Int.cast_zero, zero_mul, zero_sub, abs_neg, abs_of_nonneg hq] at this
    rw [abs_of_nonpos (by linarith : v - q ≤ 0)]
    linarith
  · rcases hq.eq_or_lt with rfl | hq
    · rw [rnP_zero, sub_self, abs_zero]; exact abs_nonneg _
    rcases le_or_gt (texp q) e with h | h
    · have := rnP_grid q ((m : ℤ) * 2 ^ (e - texp q).toNat)
      push_cast at this
      have e1 : (m : ℚ) * 2 ^ (e - texp q).toNat * 2 ^ texp q = m * 2 ^ e := by
        rw [mul_assoc, ← zpow_natCast, ← zpow_add₀ (by norm_num)]
        congr 2; omega
      rwa [e1] at this
    · have hne : texp q ≠ -1074 := by have := hc.ge; omega
      have h1 := scaled_ge hq hne
      rw [le_div_iff₀ (two_zpow_pos _)] at h1
      have h2 : |rnP q - q| ≤ |(2 : ℚ) ^ 52 * 2 ^ texp q - q| := by
        have := rnP_grid q (2 ^ 52)
        rwa [show ((2 ^ 52 : ℤ) : ℚ) = 2 ^ 52 by norm_num] at this
      have h3 : (m : ℚ) * 2 ^ e ≤ 2 ^ 52 * 2 ^ texp q := by
        have a1 : (m : ℚ) ≤ 2 ^ 53 := by exact_mod_cast hc.lt.le
        have a2 : (2 : ℚ) ^ (e + 1) ≤ 2 ^ texp q := zpow_le_zpow_right₀ (by norm_num) (by omega)
        have a3 := mul_le_mul_of_nonneg_right a1 (two_zpow_pos e).le
        rw [zpow_add₀ (by norm_num), zpow_one] at a2
        linarith
      rw [abs_of_nonpos (by linarith : (2 : ℚ) ^ 52 * 2 ^ texp q - q ≤ 0)] at h2
      rw [abs_of_nonpos (by linarith : (m : ℚ) * 2 ^ e - q ≤ 0)]
      linarith

theorem valU_cases {u : UnpackedFloat} (hg : Good u) {v : ℚ} (h : valU u = .fin v) :
    (v ≤ 0 ∨ ∃ m e, Canon m e ∧ v = (m : ℚ) * 2 ^ e) ∧ (-v ≤ 0 ∨ ∃ m e, Canon m e ∧ -v = (m : ℚ) * 2 ^ e) := by
  cases u with
  | notANumber => cases h
  | infinity s => cases s <;> cases h
  | zero s =>
    simp only [valU, XR.fin.injEq] at h
    subst h; simp
  | finite s m e hm =>
    have hp := fval_pos hm e
    cases s with
    | positive =>
      simp only [valU, sgnX, XR.fin.injEq] at h
      subst h
      exact ⟨.inr ⟨m, e, hg.1, rfl⟩, .inl (by linarith)⟩
    | negative =>
      simp only [valU, sgnX, XR.neg, XR.fin.injEq] at h
      subst h
      exact ⟨.inl (by linarith), .inr ⟨m, e, hg.1, by ring⟩⟩

/-- no `float64` is closer to `q` than the rounding of `q` -/
theorem rndX_nearest {q r : ℚ} (hr : rndX (.fin q) = .fin r) (g : Float) {v : ℚ} (hv : valF g = .fin v) : |r - q| ≤ |v - q| := by
  obtain ⟨c1, c2⟩ := valU_cases (good_f g) hv
  unfold rndX at hr
  simp only at hr
  have out : ∀ p, ∀ s, ovf p = .fin s → p = s := fun p s h => by
    unfold ovf at h
    split at h
    · cases h
    · injection h
  split at hr
  · rename_i hq
    unfold rndP at hr
    have h1 : ovf (rnP (-q)) = .fin (-r) := by
      have := congrArg XR.neg hr
      rwa [neg_neg'] at this
    have h2 := out _ _ h1
    have := rnP_nearest (q := -q) (by linarith) c2
    rw [h2] at this
    rw [← abs_neg (r - q), ← abs_neg (v - q)]
    convert this using 2 <;> ring
  · rename_i hq
    have h2 := out _ _ hr
    have := rnP_nearest (q := q) (by linarith) c1
    rwa [h2] at this

/-- from here on numbers round to infinity -/
def ovfBound : ℚ := 2 ^ 1024 - 2 ^ 970

theorem rnP_bound : rnP ((2 ^ 54 - 1) * 2 ^ (970 : ℤ)) = 2 ^ (1024 : ℤ) := by
  have hl : Int.log 2 (((2 : ℚ) ^ 54 - 1) * 2 ^ (970 : ℤ)) = 1023 := by
    rw [log_mul_two_zpow (by norm_num)]
    have : Int.log 2 ((2 : ℚ) ^ 54 - 1) = 53 := log_unique (by norm_num) (by norm_num)
    rw [this]; rfl
  have ht : texp (((2 : ℚ) ^ 54 - 1) * 2 ^ (970 : ℤ)) = 971 := by unfold texp; rw [hl]; rfl
  unfold rnP
  rw [ht]
  have e1 : ((2 : ℚ) ^ 54 - 1) * 2 ^ (970 : ℤ) / 2 ^ (971 : ℤ) = (2 ^ 54 - 1) / 2 := by
    have : (2 : ℚ) ^ (971 : ℤ) = 2 ^ (970 : ℤ) * 2 := by rw [show (971 : ℤ) = 970 + 1 by norm_num, zpow_add₀ (by norm_num), zpow_one]
    rw [this]
    have := (two_zpow_pos 970).ne'
    field_simp
  have e2 : rne (((2 : ℚ) ^ 54 - 1) / 2) = 2 ^ 53 := by
    have hf : ⌊((2 : ℚ) ^ 54 - 1) / 2⌋ = 2 ^ 53 - 1 := by
      rw [Int.floor_eq_iff]; norm_num
    unfold rne; rw [hf]; norm_num
  rw [e1, e2]
  push_cast
  rw [show (1024 : ℤ) = 53 + 971 by norm_num, zpow_add₀ (by norm_num)]
  rfl

theorem ovfBound_eq : ovfBound = (2 ^ 54 - 1) * 2 ^ (970 : ℤ) := by
  unfold ovfBound
  rw [show (970 : ℤ) = ((970 : ℕ) : ℤ) by norm_num, zpow_natCast, show 1024 = 54 + 970 by norm_num, pow_add]
  ring

theorem rnP_lt_iff {q : ℚ} (hq : 0 ≤ q) : rnP q < 2 ^ (1024 : ℤ) ↔ q < ovfBound := by
  constructor
  · intro h
    by_contra hc
    push Not at hc
    have h0 : (0 : ℚ) ≤ ovfBound := by
      rw [ovfBound_eq]
      exact mul_nonneg (by norm_num) (two_zpow_pos _).le
    have := rnP_mono h0 hc
    rw [ovfBound_eq, rnP_bound] at this
    linarith
  · intro h
    have hmax : rnP (((2 ^ 53 - 1 : ℕ) : ℚ) * 2 ^ (971 : ℤ)) = ((2 ^ 53 - 1 : ℕ) : ℚ) * 2 ^ (971 : ℤ) := rnP_exact (by norm_num) (by norm_num)
    have e24 : (2 : ℚ) ^ (1024 : ℤ) = 2 ^ 53 * 2 ^ (971 : ℤ) := by
      rw [show (1024 : ℤ) = 53 + 971 by norm_num, zpow_add₀ (by norm_num)]; rfl
    have hp := two_zpow_pos 971
    have hlt : ((2 ^ 53 - 1 : ℕ) : ℚ) * 2 ^ (971 : ℤ) < 2 ^ (1024 : ℤ) := by
      rw [e24]
      exact mul_lt_mul_of_pos_right (by norm_num) hp
    rcases le_or_gt q (((2 ^ 53 - 1 : ℕ) : ℚ) * 2 ^ (971 : ℤ)) with h1 | h1
    · have := rnP_mono hq h1
      rw [hmax] at this
      linarith
    · have hl : Int.log 2 q = 1023 := by
        apply log_unique
        · refine le_trans ?_ h1.le
          rw [show (1023 : ℤ) = 52 + 971 by norm_num, zpow_add₀ (by norm_num)]
          exact mul_le_mul_of_nonneg_right (by norm_num) hp.le
        · refine lt_trans h ?_
          rw [ovfBound_eq, show ((1023 : ℤ) + 1) = 54 + 970 by norm_num, zpow_add₀ (by norm_num)]
          exact mul_lt_mul_of_pos_right (by norm_num) (two_zpow_pos 970)
      have ht : texp q = 971 := by unfold texp; rw [hl]; rfl
      have e970 : (2 : ℚ) ^ (971 : ℤ) = 2 ^ (970 : ℤ) * 2 := by rw [show (971 : ℤ) = 970 + 1 by norm_num, zpow_add₀ (by norm_num), zpow_one]
      have hx1 : ((2 ^ 53 - 1 : ℤ) : ℚ) ≤ q / 2 ^ (971 : ℤ) := by
        rw [le_div_iff₀ hp]
        refine le_trans (le_of_eq ?_) h1.le
        norm_num
      have hx2 : q / 2 ^ (971 : ℤ) < (2 ^ 54 - 1) / 2 := by
        rw [div_lt_iff₀ hp, e970]
        rw [ovfBound_eq] at h
        linarith
      have hf : ⌊q / 2 ^ (971 : ℤ)⌋ = 2 ^ 53 - 1 := by
        rw [Int.floor_eq_iff]
        refine ⟨hx1, lt_trans hx2 (by norm_num)⟩
      have hr : rne (q / 2 ^ (971 : ℤ)) = 2 ^ 53 - 1 := by
        unfold rne
        rw [hf, if_pos]
        push_cast
        linarith
      unfold rnP
      rw [ht, hr, e24]
      exact mul_lt_mul_of_pos_right (by norm_num) hp

/-- rounding overflows exactly from `2^1024 - 2^970` on -/
theorem rndX_fin_iff (q : ℚ) : (∃ r, rndX (.fin q) = .fin r) ↔ |q| < ovfBound := by
  have key : ∀ p, 0 ≤ p → ((∃ r, rndP p = .fin r) ↔ p < ovfBound) := fun p hp => by
    rw [← rnP_lt_iff hp]
    unfold rndP ovf
    split
    · rename_i h
      constructor
      · rintro ⟨r, hr⟩; cases hr
      · intro h'; linarith
    · rename_i h
      exact ⟨fun _ => by linarith, fun _ => ⟨_, rfl⟩⟩
  unfold rndX
  simp only
  split
  · rename_i h
    rw [abs_of_neg h, ← key (-q) (by linarith)]
    constructor
    · rintro ⟨r, hr⟩
      refine ⟨-r, ?_⟩
      have := congrArg XR.neg hr
      rwa [neg_neg'] at this
    · rintro ⟨r, hr⟩
      exact ⟨-r, by rw [hr]; rfl⟩
  · rename_i h
    rw [abs_of_nonneg (by linarith), key q (by linarith)]

end GoGeo.F64
