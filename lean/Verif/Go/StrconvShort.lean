import Verif.Go.StrconvOk
import Verif.Go.F64Near
import Verif.Go.Err

/-! # The digits chosen by `FormatFloat`: at most 17, as few as possible, and up to 15 digits are kept -/

namespace GoGeo.Strconv
open GoFloat F64 FloatVal

/-! ### decimals with few digits -/

/-- the next number with `n + 1` digits -/
theorem next_dec {n c c' : ℕ} {i i' : ℤ} (hc : 10 ^ n ≤ c) (hc' : c' < 10 ^ (n + 1)) (h : (c : ℚ) * 10 ^ i < c' * 10 ^ i') :
    ((c : ℚ) + 1) * 10 ^ i ≤ c' * 10 ^ i' := by
  have p10 : ∀ j : ℤ, (0 : ℚ) < 10 ^ j := fun j => zpow_pos (by norm_num) j
  rcases le_or_gt i i' with hi | hi
  · obtain ⟨d, hd⟩ := Int.le.dest hi
    have e : (c' : ℚ) * 10 ^ i' = ((c' * 10 ^ d : ℕ) : ℚ) * 10 ^ i := by
      rw [← hd, zpow_add₀ (by norm_num), zpow_natCast]; push_cast; ring
    rw [e] at h ⊢
    have h1 : (c : ℚ) < ((c' * 10 ^ d : ℕ) : ℚ) := lt_of_mul_lt_mul_right h (p10 i).le
    have h2 : c < c' * 10 ^ d := by exact_mod_cast h1
    have h3 : (c : ℚ) + 1 ≤ ((c' * 10 ^ d : ℕ) : ℚ) := by exact_mod_cast h2
    exact mul_le_mul_of_nonneg_right h3 (p10 i).le
  · exfalso
    obtain ⟨d, hd⟩ := Int.le.dest (show i' + 1 ≤ i by omega)
    have e : (c : ℚ) * 10 ^ i = ((c * (10 * 10 ^ d) : ℕ) : ℚ) * 10 ^ i' := by
      rw [← hd, zpow_add₀ (by norm_num), zpow_add₀ (by norm_num), zpow_natCast, zpow_one]; push_cast; ring
    rw [e] at h
    have h1 := lt_of_mul_lt_mul_right h (p10 i').le
    have h2 : c * (10 * 10 ^ d) < c' := by exact_mod_cast h1
    have h3 : 1 ≤ 10 ^ d := Nat.one_le_pow _ _ (by norm_num)
    have : c * 10 ≤ c * (10 * 10 ^ d) := Nat.mul_le_mul_left _ (by omega)
    rw [pow_succ] at hc'
    omega

/-- a positive number with at most `n + 1` digits can be written with exactly `n + 1` -/
theorem full_dec {n c : ℕ} (i : ℤ) (h0 : 0 < c) (hc : c < 10 ^ (n + 1)) : ∃ (c' : ℕ) (i' : ℤ), 10 ^ n ≤ c' ∧ c' < 10 ^ (n + 1) ∧ (c : ℚ) * 10 ^ i = c' * 10 ^ i' := by
  by_cases h : 10 ^ n ≤ c
  · exact ⟨c, i, h, hc, rfl⟩
  · have hn : n ≠ 0 := by rintro rfl; simp at h; omega
    obtain ⟨l, rfl⟩ := Nat.exists_eq_succ_of_ne_zero hn
    obtain ⟨c', i', h1, h2, h3⟩ := full_dec (n := l) i h0 (by simpa using h)
    refine ⟨c' * 10, i' - 1, ?_, ?_, ?_⟩
    · rw [Nat.succ_eq_add_one, pow_succ]; omega
    · rw [Nat.succ_eq_add_one, pow_succ]; omega
    · rw [h3, zpow_sub₀ (by norm_num), zpow_one]; push_cast; field_simp

/-! ### rounding near a `float64` -/

/-- what is closer to a `float64` than half the smallest gap around it is rounded to it -/
theorem rnP_close {m : ℕ} {e : ℤ} (hc : Canon m e) {q : ℚ} (hq : 0 < q) (h : |q - (m : ℚ) * 2 ^ e| < (m : ℚ) * 2 ^ e / 2 ^ 54) : rnP q = (m : ℚ) * 2 ^ e := by
  have hv := fval_pos hc.pos e
  have hn := rnP_nearest hq.le (.inr ⟨m, e, hc, rfl⟩ : (m : ℚ) * 2 ^ e ≤ 0 ∨ ∃ m' e', Canon m' e' ∧ (m : ℚ) * 2 ^ e = (m' : ℚ) * 2 ^ e')
  have hr : |rnP q - (m : ℚ) * 2 ^ e| < (m : ℚ) * 2 ^ e / 2 ^ 53 := by
    have e1 : rnP q - (m : ℚ) * 2 ^ e = (rnP q - q) + (q - (m : ℚ) * 2 ^ e) := by ring
    rw [e1]
    refine (abs_add_le _ _).trans_lt ?_
    rw [abs_sub_comm ((m : ℚ) * 2 ^ e) q] at hn
    have : (m : ℚ) * 2 ^ e / 2 ^ 53 = (m : ℚ) * 2 ^ e / 2 ^ 54 + (m : ℚ) * 2 ^ e / 2 ^ 54 := by ring
    rw [this]
    linarith
  have hm53 : (m : ℚ) < 2 ^ 53 := by exact_mod_cast hc.lt
  have hs := scaled_lt q
  have ht := two_zpow_pos (texp q)
  have he := two_zpow_pos e
  rw [div_lt_iff₀ ht] at hs
  have small : (m : ℚ) * 2 ^ e / 2 ^ 53 < 2 ^ e := by
    rw [div_lt_iff₀ (by positivity), mul_comm]
    exact mul_lt_mul_of_pos_left hm53 he
  rcases le_or_gt e (texp q) with hte | hte
  · obtain ⟨d, hd⟩ := Int.le.dest hte
    have e2 : rnP q - (m : ℚ) * 2 ^ e = ((rne (q / 2 ^ texp q) * 2 ^ d - m : ℤ) : ℚ) * 2 ^ e := by
      unfold rnP
      have : (2 : ℚ) ^ texp q = 2 ^ d * 2 ^ e := by rw [← hd, zpow_add₀ (by norm_num), zpow_natCast]; ring
      rw [this]; push_cast; ring
    rw [e2, abs_mul, abs_of_pos he] at hr
    have h1 : |((rne (q / 2 ^ texp q) * 2 ^ d - m : ℤ) : ℚ)| < 1 := by
      have := hr.trans small
      rw [← one_mul ((2 : ℚ) ^ e)] at this
      exact lt_of_mul_lt_mul_right (by simpa using this) he.le
    have h2 : rne (q / 2 ^ texp q) * 2 ^ d - m = 0 := by
      have : |rne (q / 2 ^ texp q) * 2 ^ d - m| < 1 := by exact_mod_cast h1
      exact Int.abs_lt_one_iff.1 this
    rw [h2, Int.cast_zero, zero_mul] at e2
    linarith
  · have hm52 : 2 ^ 52 ≤ m := by
      rcases hc.norm with h | h
      · exact h
      · have : -1074 ≤ texp q := le_max_right _ _
        omega
    have hqe : q < 2 ^ 52 * 2 ^ e := by
      have : (2 : ℚ) ^ texp q ≤ 2 ^ (e - 1) := zpow_le_zpow_right₀ (by norm_num) (by omega)
      have h2 : (2 : ℚ) ^ e = 2 ^ (e - 1) * 2 := by rw [zpow_sub₀ (by norm_num), zpow_one]; field_simp
      rw [h2]
      calc q < 2 ^ 53 * 2 ^ texp q := hs
        _ ≤ 2 ^ 53 * 2 ^ (e - 1) := by gcongr
        _ = _ := by ring
    rw [abs_lt] at h
    have hm : m = 2 ^ 52 := by
      by_contra hne
      have h1 : (2 : ℚ) ^ 52 + 1 ≤ m := by
        have : 2 ^ 52 + 1 ≤ m := by omega
        exact_mod_cast this
      have h2 := mul_le_mul_of_nonneg_right h1 he.le
      have h3 : (m : ℚ) * 2 ^ e / 2 ^ 54 = (m : ℚ) * 2 ^ e / 2 ^ 53 / 2 := by ring
      rw [h3] at h
      linarith [h.1]
    have hmQ : (m : ℚ) = 2 ^ 52 := by rw [hm]; norm_num
    rw [hmQ] at h hr hv ⊢
    have htt : texp q = e - 1 := by
      by_contra hne
      have : (2 : ℚ) ^ texp q ≤ 2 ^ (e - 2) := zpow_le_zpow_right₀ (by norm_num) (by omega)
      have h2 : (2 : ℚ) ^ e = 2 ^ (e - 2) * 4 := by rw [zpow_sub₀ (by norm_num)]; norm_num
      have h3 : q < 2 ^ 53 * 2 ^ (e - 2) := hs.trans_le (by gcongr)
      have h4 := two_zpow_pos (e - 2)
      rw [h2] at h
      norm_num at h h3
      linarith [h.1]
    have h2 : (2 : ℚ) ^ e = 2 ^ texp q * 2 := by rw [htt, zpow_sub₀ (by norm_num), zpow_one]; field_simp
    have e2 : rnP q - 2 ^ 52 * 2 ^ e = ((rne (q / 2 ^ texp q) - 2 ^ 53 : ℤ) : ℚ) * 2 ^ texp q := by
      rw [h2]; unfold rnP; push_cast; ring
    have hz : rne (q / 2 ^ texp q) - 2 ^ 53 = 0 := by
      rw [e2, abs_mul, abs_of_pos ht, h2] at hr
      have : |((rne (q / 2 ^ texp q) - 2 ^ 53 : ℤ) : ℚ)| < 1 := by
        have h5 : (2 : ℚ) ^ 52 * (2 ^ texp q * 2) / 2 ^ 53 = 1 * 2 ^ texp q := by ring
        rw [h5] at hr
        exact lt_of_mul_lt_mul_right hr ht.le
      exact Int.abs_lt_one_iff.1 (by exact_mod_cast this)
    rw [hz, Int.cast_zero, zero_mul] at e2
    linarith

set_option exponentiation.threshold 2000 in
/-- numbers of at most 15 digits are rounded to different `float64` -/
theorem rnP_inj15 {c c' : ℕ} {i i' : ℤ} (hc : c < 10 ^ 15) (hc' : c' < 10 ^ 15) (h1 : 3 / 10 ^ 308 ≤ (c : ℚ) * 10 ^ i) (h2 : 3 / 10 ^ 308 ≤ (c' : ℚ) * 10 ^ i')
    (h : rnP ((c : ℚ) * 10 ^ i) = rnP ((c' : ℚ) * 10 ^ i')) : (c : ℚ) * 10 ^ i = (c' : ℚ) * 10 ^ i' := by
  have key : ∀ {c c' : ℕ} {i i' : ℤ}, c < 10 ^ 15 → c' < 10 ^ 15 → 3 / 10 ^ 308 ≤ (c : ℚ) * 10 ^ i →
      rnP ((c : ℚ) * 10 ^ i) = rnP ((c' : ℚ) * 10 ^ i') → ¬ (c : ℚ) * 10 ^ i < (c' : ℚ) * 10 ^ i' := by
    intro c c' i i' hc hc' h1 h hlt
    have hpos : (0 : ℚ) < (c : ℚ) * 10 ^ i := lt_of_lt_of_le (by positivity) h1
    have hc0 : 0 < c := by
      rcases Nat.eq_zero_or_pos c with h | h
      · rw [h] at hpos; simp at hpos
      · exact h
    obtain ⟨d, j, d1, d2, d3⟩ := full_dec (n := 14) i hc0 hc
    rw [d3] at hpos hlt h1 h
    have nx := next_dec d1 hc' hlt
    rw [add_mul, one_mul] at nx
    have dj : (d : ℚ) * 10 ^ j < 10 ^ 15 * 10 ^ j := mul_lt_mul_of_pos_right (by exact_mod_cast d2) (zpow_pos (by norm_num) j)
    have r1 := rnP_err hpos.le
    have r2 := rnP_err (hpos.trans hlt).le
    rw [h] at r1
    have tiny : (1 : ℚ) / 2 ^ 1075 ≤ 3 / 10 ^ 308 / 2 ^ 53 := by
      rw [div_div, div_le_div_iff₀ (by positivity) (by positivity), one_mul]
      have : 10 ^ 308 * 2 ^ 53 ≤ 3 * 2 ^ 1075 := by decide +kernel
      exact_mod_cast this
    generalize (d : ℚ) * 10 ^ j = q at *
    generalize (c' : ℚ) * 10 ^ i' = q' at *
    rw [abs_le] at r1 r2
    have g1 : q' - q ≤ (q + q') / 2 ^ 53 + 2 * (1 / 2 ^ 1075) := by
      rw [add_div]; linarith [r1.1, r1.2, r2.1, r2.2]
    have g2 : (1 : ℚ) / 2 ^ 1075 ≤ q / 2 ^ 53 := tiny.trans (by gcongr)
    generalize (1 : ℚ) / 2 ^ 1075 = T at *
    have g3 : (0 : ℚ) < 10 ^ j := zpow_pos (by norm_num) j
    generalize (10 : ℚ) ^ j = t at *
    norm_num at g1 g2 nx dj
    linarith
  rcases lt_trichotomy ((c : ℚ) * 10 ^ i) ((c' : ℚ) * 10 ^ i') with hl | he | hl
  · exact absurd hl (key hc hc' h1 h)
  · exact he
  · exact absurd hl (key hc' hc h2 h.symm)

/-! ### the texts of candidates -/

theorem trimZeros_spec : ∀ (k m : ℕ), ((trimZeros m k).1 : ℚ) / 10 ^ (trimZeros m k).2 = (m : ℚ) / 10 ^ k ∧ ((trimZeros m k).2 = 0 ∨ (trimZeros m k).1 % 10 ≠ 0)
  | 0, m => by simp [trimZeros]
  | k + 1, m => by
    unfold trimZeros
    split
    · rename_i h
      obtain ⟨h1, h2⟩ := trimZeros_spec k (m / 10)
      refine ⟨?_, h2⟩
      rw [h1]
      have : m = m / 10 * 10 := by omega
      rw [this, Nat.mul_div_cancel _ (by norm_num), pow_succ]
      push_cast
      field_simp
    · rename_i h
      exact ⟨rfl, .inr h⟩

/-- the text of a candidate: a decimal without zeros at the end -/
theorem candText_spec (m j k : ℕ) : ∃ m' k', candText m j k = fixed m' k' ∧ (m' : ℚ) / 10 ^ k' = (m : ℚ) * 10 ^ ((j : ℤ) - k) ∧ (k' = 0 ∨ m' % 10 ≠ 0) := by
  unfold candText
  split
  · rename_i h
    obtain ⟨h1, h2⟩ := trimZeros_spec (k - j) m
    refine ⟨_, _, rfl, ?_, h2⟩
    rw [h1, div_eq_mul_inv, ← zpow_natCast, ← zpow_neg]
    congr 2
    omega
  · rename_i h
    refine ⟨_, 0, rfl, ?_, .inl rfl⟩
    push_cast
    rw [pow_zero, div_one, ← zpow_natCast]
    congr 2
    omega

theorem rndX_pos {q : ℚ} (h : 0 ≤ q) : rndX (.fin q) = ovf (rnP q) := by
  unfold rndX
  simp only
  rw [if_neg (by linarith)]
  rfl

/-- a positive number is read exactly from the decimals that round to it -/
theorem readFloat_iff {x : Float} {m : ℕ} {e : ℤ} {h} (hx : x.toModel.unpack = .finite .positive m e h) (a b : ℕ) :
    readFloat (fixed a b) = some x ↔ rnP ((a : ℚ) / 10 ^ b) = (m : ℚ) * 2 ^ e := by
  have hg := good_f x
  rw [hx] at hg
  have hvx : valF x = .fin ((m : ℚ) * 2 ^ e) := by unfold valF; rw [hx]; rfl
  rw [readFloat_fixed]
  have hv := decVal_val a b
  rw [rndX_pos (by positivity)] at hv
  constructor
  · intro h1
    split at h1
    · cases h1
    · injection h1 with h1
      rw [h1, hvx] at hv
      unfold ovf at hv
      split at hv
      · cases hv
      · injection hv with hv; exact hv.symm
  · intro h1
    rw [h1, ovf, if_neg (not_le.2 (canon_lt hg.1 hg.2))] at hv
    obtain ⟨h', hu⟩ := unpack_of_val hg.1 hv
    rw [float_ext_finite hu hx, if_neg]
    rintro rfl
    cases (show Float.Model.UnpackedFloat.infinity .positive = _ from hx)

theorem len_bounds {M : ℕ} (hM : 0 < M) : 10 ^ ((Nat.toDigits 10 M).length - 1) ≤ M ∧ M < 10 ^ (Nat.toDigits 10 M).length := by
  have h0 : 0 < (Nat.toDigits 10 M).length := Nat.length_toDigits_pos
  refine ⟨?_, (Nat.length_toDigits_le_iff (by norm_num) h0).1 le_rfl⟩
  rcases Nat.eq_zero_or_pos ((Nat.toDigits 10 M).length - 1) with h | h
  · rw [h, pow_zero]; exact hM
  · by_contra hn
    have := (Nat.length_toDigits_le_iff (b := 10) (n := M) (k := (Nat.toDigits 10 M).length - 1) (by norm_num) h).2 (by omega)
    omega

/-- the candidates with `n + 1` digits enclose the number -/
theorem candNums_spec {M n : ℕ} (hM : 0 < M) (hn : n + 1 ≤ (Nat.toDigits 10 M).length) :
    ∃ lo j : ℕ, 10 ^ n ≤ lo ∧ lo < 10 ^ (n + 1) ∧ lo * 10 ^ j ≤ M ∧ M < (lo + 1) * 10 ^ j ∧
      ((lo * 10 ^ j = M ∧ candNums M (n + 1) = [(lo, j)]) ∨
       (10 ^ j < 2 * (M - lo * 10 ^ j) ∨ (2 * (M - lo * 10 ^ j) = 10 ^ j ∧ lo % 2 = 1)) ∧ candNums M (n + 1) = [(lo + 1, j), (lo, j)] ∨
       2 * (M - lo * 10 ^ j) ≤ 10 ^ j ∧ candNums M (n + 1) = [(lo, j), (lo + 1, j)]) := by
  obtain ⟨b1, b2⟩ := len_bounds hM
  have hdm := Nat.div_add_mod M (10 ^ ((Nat.toDigits 10 M).length - (n + 1)))
  have hmod := Nat.mod_lt M (show 0 < 10 ^ ((Nat.toDigits 10 M).length - (n + 1)) by positivity)
  refine ⟨M / 10 ^ ((Nat.toDigits 10 M).length - (n + 1)), (Nat.toDigits 10 M).length - (n + 1), ?_, ?_, ?_, ?_, ?_⟩
  · rw [Nat.le_div_iff_mul_le (by positivity), ← pow_add]
    convert b1 using 2
    omega
  · rw [Nat.div_lt_iff_lt_mul (by positivity), ← pow_add]
    convert b2 using 2
    omega
  · exact Nat.div_mul_le_self _ _
  · rw [add_mul, one_mul, mul_comm]
    omega
  · have er : M - M / 10 ^ ((Nat.toDigits 10 M).length - (n + 1)) * 10 ^ ((Nat.toDigits 10 M).length - (n + 1)) = M % 10 ^ ((Nat.toDigits 10 M).length - (n + 1)) := by
      rw [mul_comm]; omega
    rw [er]
    unfold candNums
    simp only
    split
    · rename_i h
      left
      exact ⟨by rw [mul_comm]; omega, rfl⟩
    · split
      · rename_i h; right; left; exact ⟨h, rfl⟩
      · rename_i h; right; right; exact ⟨by omega, rfl⟩

theorem candNums_long {M n : ℕ} (hn : (Nat.toDigits 10 M).length ≤ n) : candNums M n = [(M, 0)] := by
  unfold candNums
  simp only
  rw [Nat.sub_eq_zero_of_le hn]
  simp [Nat.mod_one]

section
variable {m : ℕ} {e : ℤ} {M k : ℕ}

theorem scaled {a j k : ℕ} : (a : ℚ) * 10 ^ ((j : ℤ) - k) = ((a * 10 ^ j : ℕ) : ℚ) / 10 ^ k := by
  rw [zpow_sub₀ (by norm_num), zpow_natCast, zpow_natCast]; push_cast; ring

/-- if some number of `n` digits rounds to the `float64`, so does a candidate -/
theorem cand_of_digits (hc : Canon m e) (hv : (M : ℚ) / 10 ^ k = (m : ℚ) * 2 ^ e) {n c : ℕ} {i : ℤ} (hcn : c < 10 ^ (n + 1)) (hr : rnP ((c : ℚ) * 10 ^ i) = (m : ℚ) * 2 ^ e) :
    ∃ p ∈ candNums M (n + 1), rnP ((p.1 : ℚ) * 10 ^ ((p.2 : ℤ) - k)) = (m : ℚ) * 2 ^ e := by
  have hpos := fval_pos hc.pos e
  have hself : rnP ((M : ℚ) / 10 ^ k) = (m : ℚ) * 2 ^ e := by rw [hv]; exact rnP_exact hc.lt.le hc.ge
  have hM : 0 < M := by
    rcases Nat.eq_zero_or_pos M with h | h
    · rw [h, Nat.cast_zero, zero_div] at hv; linarith
    · exact h
  rcases le_or_gt (n + 1) (Nat.toDigits 10 M).length with hn | hn
  · obtain ⟨lo, j, h1, h2, h3, h4, h5⟩ := candNums_spec hM hn
    have pk : (0 : ℚ) < 10 ^ k := by positivity
    have q3 : (lo : ℚ) * 10 ^ ((j : ℤ) - k) ≤ (M : ℚ) / 10 ^ k := by
      rw [scaled]
      exact div_le_div_of_nonneg_right (by exact_mod_cast h3) pk.le
    have q4 : (M : ℚ) / 10 ^ k < ((lo : ℚ) + 1) * 10 ^ ((j : ℤ) - k) := by
      have : ((lo : ℚ) + 1) = ((lo + 1 : ℕ) : ℚ) := by push_cast; rfl
      rw [this, scaled]
      exact div_lt_div_of_pos_right (by exact_mod_cast h4) pk
    have c0 : (0 : ℚ) ≤ (c : ℚ) * 10 ^ i := mul_nonneg (Nat.cast_nonneg _) (zpow_nonneg (by norm_num) _)
    have l0 : (0 : ℚ) ≤ (lo : ℚ) * 10 ^ ((j : ℤ) - k) := mul_nonneg (Nat.cast_nonneg _) (zpow_nonneg (by norm_num) _)
    -- the lower candidate, or the upper one
    have low : (c : ℚ) * 10 ^ i ≤ (M : ℚ) / 10 ^ k → rnP ((lo : ℚ) * 10 ^ ((j : ℤ) - k)) = (m : ℚ) * 2 ^ e := by
      intro hle
      have : (c : ℚ) * 10 ^ i ≤ (lo : ℚ) * 10 ^ ((j : ℤ) - k) := by
        by_contra hn
        have := next_dec h1 hcn (not_le.1 hn)
        linarith
      have a1 := rnP_mono c0 this
      have a2 := rnP_mono l0 q3
      rw [hr] at a1
      rw [hself] at a2
      exact le_antisymm a2 a1
    have high : (M : ℚ) / 10 ^ k < (c : ℚ) * 10 ^ i → rnP (((lo : ℚ) + 1) * 10 ^ ((j : ℤ) - k)) = (m : ℚ) * 2 ^ e := by
      intro hlt
      have := next_dec h1 hcn (q3.trans_lt hlt)
      have a1 := rnP_mono (l0.trans (q3.trans q4.le)) this
      have a2 := rnP_mono (by positivity) q4.le
      rw [hr] at a1
      rw [hself] at a2
      exact le_antisymm a1 a2
    rcases h5 with ⟨he, hl⟩ | ⟨-, hl⟩ | ⟨-, hl⟩
    · refine ⟨(lo, j), by rw [hl]; simp, ?_⟩
      rw [scaled]
      simp only [he, hself]
    · rcases le_or_gt ((c : ℚ) * 10 ^ i) ((M : ℚ) / 10 ^ k) with h | h
      · exact ⟨(lo, j), by rw [hl]; simp, low h⟩
      · exact ⟨(lo + 1, j), by rw [hl]; simp, by simpa using high h⟩
    · rcases le_or_gt ((c : ℚ) * 10 ^ i) ((M : ℚ) / 10 ^ k) with h | h
      · exact ⟨(lo, j), by rw [hl]; simp, low h⟩
      · exact ⟨(lo + 1, j), by rw [hl]; simp, by simpa using high h⟩
  · refine ⟨(M, 0), by rw [candNums_long hn.le]; simp, ?_⟩
    rw [scaled]
    simpa using hself

/-- 17 digits are enough -/
theorem cand17 (hc : Canon m e) (hv : (M : ℚ) / 10 ^ k = (m : ℚ) * 2 ^ e) : ∃ p ∈ candNums M 17, rnP ((p.1 : ℚ) * 10 ^ ((p.2 : ℤ) - k)) = (m : ℚ) * 2 ^ e := by
  have hpos := fval_pos hc.pos e
  have hM : 0 < M := by
    rcases Nat.eq_zero_or_pos M with h | h
    · rw [h, Nat.cast_zero, zero_div] at hv; linarith
    · exact h
  rcases le_or_gt 17 (Nat.toDigits 10 M).length with hn | hn
  · obtain ⟨lo, j, h1, h2, h3, h4, h5⟩ := candNums_spec (n := 16) hM hn
    have pk : (0 : ℚ) < 10 ^ k := by positivity
    have pj : (0 : ℚ) < 10 ^ j := by positivity
    -- the unit of the last digit
    have unit : (10 : ℚ) ^ j / 10 ^ k * 10 ^ 16 ≤ (m : ℚ) * 2 ^ e := by
      rw [← hv, div_mul_eq_mul_div]
      apply div_le_div_of_nonneg_right _ pk.le
      have : 10 ^ j * 10 ^ 16 ≤ M := by
        rw [mul_comm]
        exact (Nat.mul_le_mul_right _ h1).trans h3
      exact_mod_cast this
    have close : ∀ a : ℕ, 2 * |((a * 10 ^ j : ℕ) : ℚ) - M| ≤ 10 ^ j → 0 < a → rnP ((a : ℚ) * 10 ^ ((j : ℤ) - k)) = (m : ℚ) * 2 ^ e := by
      intro a ha a0
      apply rnP_close hc
      · exact mul_pos (by exact_mod_cast a0) (zpow_pos (by norm_num) _)
      · rw [scaled, ← hv, ← sub_div, abs_div, abs_of_pos pk, hv]
        have : |((a * 10 ^ j : ℕ) : ℚ) - M| / 10 ^ k ≤ 10 ^ j / 10 ^ k / 2 := by
          rw [div_div, mul_comm ((10 : ℚ) ^ k) 2, ← div_div]
          exact div_le_div_of_nonneg_right (by linarith) pk.le
        generalize (10 : ℚ) ^ j / 10 ^ k = u at *
        generalize (m : ℚ) * 2 ^ e = v at *
        generalize |((a * 10 ^ j : ℕ) : ℚ) - M| / 10 ^ k = d at *
        norm_num at unit ⊢
        linarith
    have lo0 : 0 < lo := lt_of_lt_of_le (by positivity) h1
    have h3Q : ((lo * 10 ^ j : ℕ) : ℚ) ≤ M := by exact_mod_cast h3
    have h4Q : (M : ℚ) < (((lo + 1) * 10 ^ j : ℕ) : ℚ) := by exact_mod_cast h4
    rcases h5 with ⟨he, hl⟩ | ⟨hd, hl⟩ | ⟨hd, hl⟩
    · refine ⟨(lo, j), by rw [hl]; simp, close lo ?_ lo0⟩
      rw [he]; simp
    · refine ⟨(lo + 1, j), by rw [hl]; simp, close (lo + 1) ?_ (by omega)⟩
      rw [abs_of_pos (by linarith)]
      have : 2 * ((lo + 1) * 10 ^ j) ≤ 10 ^ j + 2 * M := by
        have e1 : (lo + 1) * 10 ^ j = lo * 10 ^ j + 10 ^ j := by ring
        rw [e1]
        omega
      have : (2 * (((lo + 1) * 10 ^ j : ℕ) : ℚ)) ≤ 10 ^ j + 2 * M := by exact_mod_cast this
      linarith
    · refine ⟨(lo, j), by rw [hl]; simp, close lo ?_ lo0⟩
      rw [abs_of_nonpos (by linarith)]
      have : 2 * M ≤ 10 ^ j + 2 * (lo * 10 ^ j) := by omega
      have : (2 * (M : ℚ)) ≤ 10 ^ j + 2 * ((lo * 10 ^ j : ℕ) : ℚ) := by exact_mod_cast this
      linarith
  · refine ⟨(M, 0), by rw [candNums_long hn.le]; simp, ?_⟩
    rw [scaled]
    simp only [pow_zero, mul_one]
    rw [hv]; exact rnP_exact hc.lt.le hc.ge

/-- the digits of a candidate -/
theorem candNums_digits {n : ℕ} (hM : 0 < M) {p : ℕ × ℕ} (hp : p ∈ candNums M (n + 1)) :
    0 < p.1 ∧ ∃ (c : ℕ) (i : ℤ), c < 10 ^ (n + 1) ∧ (p.1 : ℚ) * 10 ^ ((p.2 : ℤ) - k) = c * 10 ^ i := by
  have one : ∀ c j : ℕ, c = 10 ^ (n + 1) → ∃ (c' : ℕ) (i : ℤ), c' < 10 ^ (n + 1) ∧ (c : ℚ) * 10 ^ ((j : ℤ) - k) = c' * 10 ^ i := by
    intro c j hc
    refine ⟨1, ((n + 1 : ℕ) : ℤ) + ((j : ℤ) - k), Nat.one_lt_pow (by omega) (by norm_num), ?_⟩
    rw [hc, zpow_add₀ (by norm_num) ((n + 1 : ℕ) : ℤ), zpow_natCast]
    push_cast; ring
  rcases le_or_gt (n + 1) (Nat.toDigits 10 M).length with hn | hn
  · obtain ⟨lo, j, h1, h2, h3, h4, h5⟩ := candNums_spec hM hn
    have lo0 : 0 < lo := lt_of_lt_of_le (by positivity) h1
    have : p = (lo, j) ∨ p = (lo + 1, j) := by
      rcases h5 with ⟨-, hl⟩ | ⟨-, hl⟩ | ⟨-, hl⟩ <;> rw [hl] at hp <;> simp at hp <;> tauto
    rcases this with rfl | rfl
    · exact ⟨lo0, lo, _, h2, rfl⟩
    · refine ⟨by simp, ?_⟩
      rcases Nat.lt_or_ge (lo + 1) (10 ^ (n + 1)) with h | h
      · exact ⟨lo + 1, _, h, rfl⟩
      · exact one _ j (by simp only; omega)
  · rw [candNums_long hn.le] at hp
    simp at hp
    subst hp
    refine ⟨hM, M, _, ?_, rfl⟩
    exact (len_bounds hM).2.trans_le (Nat.pow_le_pow_right (by norm_num) hn.le)

end

/-- what `FormatFloat` writes for a positive number: a decimal without zeros at the end, of at most 17 digits, that rounds to the number; no number of fewer digits does -/
theorem shortest_spec {x : Float} {m : ℕ} {e : ℤ} {h} (hx : x.toModel.unpack = .finite .positive m e h) {M k : ℕ} (hv : (M : ℚ) / 10 ^ k = (m : ℚ) * 2 ^ e) :
    ∃ (m' k' n : ℕ) (c : ℕ) (i : ℤ), shortest x M k = fixed m' k' ∧ (k' = 0 ∨ m' % 10 ≠ 0) ∧ 0 < m' ∧ (m' : ℚ) / 10 ^ k' = c * 10 ^ i ∧ c < 10 ^ (n + 1) ∧ n < 17 ∧
      rnP ((m' : ℚ) / 10 ^ k') = (m : ℚ) * 2 ^ e ∧
      ∀ (n' c' : ℕ) (i' : ℤ), c' < 10 ^ (n' + 1) → rnP ((c' : ℚ) * 10 ^ i') = (m : ℚ) * 2 ^ e → n ≤ n' := by
  have hg := good_f x
  rw [hx] at hg
  have hc := hg.1
  have hpos := fval_pos hc.pos e
  have hM : 0 < M := by
    rcases Nat.eq_zero_or_pos M with h | h
    · rw [h, Nat.cast_zero, zero_div] at hv; linarith
    · exact h
  have reads : ∀ p : ℕ × ℕ, readFloat (candText p.1 p.2 k) = some x ↔ rnP ((p.1 : ℚ) * 10 ^ ((p.2 : ℤ) - k)) = (m : ℚ) * 2 ^ e := by
    intro p
    obtain ⟨m', k', h1, h2, -⟩ := candText_spec p.1 p.2 k
    rw [h1, readFloat_iff hx, h2]
  have found : ∀ n, (∃ p ∈ candNums M (n + 1), rnP ((p.1 : ℚ) * 10 ^ ((p.2 : ℤ) - k)) = (m : ℚ) * 2 ^ e) → ((cands M k (n + 1)).find? fun t => readFloat t = some x) ≠ none := by
    rintro n ⟨p, hp, h1⟩ hnone
    rw [List.find?_eq_none] at hnone
    exact hnone (candText p.1 p.2 k) (List.mem_map.2 ⟨p, hp, rfl⟩) (by simpa using (reads p).2 h1)
  unfold shortest
  rw [List.find?_flatMap]
  cases hf : (List.range 17).findSome? fun n => (cands M k (n + 1)).find? fun t => readFloat t = some x with
  | none =>
    rw [List.findSome?_eq_none_iff] at hf
    exact absurd (hf 16 (by simp)) (found 16 (cand17 hc hv))
  | some t =>
    rw [List.findSome?_eq_some_iff] at hf
    obtain ⟨l1, n, l2, hl, ht, hbefore⟩ := hf
    have hn : n < 17 := by
      have : n ∈ List.range 17 := by rw [hl]; simp
      simpa using this
    have hl1 : ∀ n', n' < n → n' ∈ l1 := by
      intro n' hn'
      have hlen : l1.length = n := by
        have h1 : (List.range 17)[l1.length]? = some n := by rw [hl]; simp
        have h2 : l1.length < 17 := by
          have := congrArg List.length hl
          simp at this; omega
        rw [List.getElem?_range h2] at h1
        injection h1
      have h1 : (List.range 17)[n']? = some n' := List.getElem?_range (by omega)
      rw [hl, List.getElem?_append_left (by omega)] at h1
      exact List.mem_of_getElem? h1
    have h1 := List.find?_some ht
    have h2 := List.mem_of_find?_eq_some ht
    obtain ⟨p, hp, rfl⟩ := List.mem_map.1 h2
    have h3 := (reads p).1 (by simpa using h1)
    obtain ⟨p0, c, i, hcn, hci⟩ := candNums_digits (k := k) hM hp
    obtain ⟨m', k', g1, g2, g3⟩ := candText_spec p.1 p.2 k
    refine ⟨m', k', n, c, i, g1, g3, ?_, g2.trans hci, hcn, hn, by rw [g2]; exact h3, ?_⟩
    · rcases Nat.eq_zero_or_pos m' with h | h
      · rw [h, Nat.cast_zero, zero_div] at g2
        have : (0 : ℚ) < (p.1 : ℚ) * 10 ^ ((p.2 : ℤ) - k) := mul_pos (by exact_mod_cast p0) (zpow_pos (by norm_num) _)
        linarith
      · exact h
    · intro n' c' i' hc' hr
      by_contra hlt
      exact found n' (cand_of_digits hc hv hc' hr) (hbefore n' (hl1 n' (by omega)))

end GoGeo.Strconv
