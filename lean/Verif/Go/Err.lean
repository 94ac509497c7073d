import Verif.Go.F64
import Mathlib.Tactic.Linarith
import Mathlib.Tactic.Positivity

/-!
# Rounding errors

`FloatErr`: the relative error of a rounding is at most 2^-53, plus 2^-1075 for results in the subnormal range.  True of binary64 (`Float`) and
trivially of exact arithmetic.  `Near f x e`: the value of `f` is a finite number within `e` of `x`.
-/

namespace GoGeo
open GoFloat FloatVal

/-- error of a rounding away from overflow -/
class FloatErr (F : Type) [GoFloat F] (K : outParam Type) [Field K] [LinearOrder K] [IsStrictOrderedRing K] [FloatVal F K] : Prop where
  rnd_err : ∀ x : K, |x| ≤ 2 ^ 1023 → ∃ y, rnd F (.fin x) = .fin y ∧ |y - x| ≤ |x| / 2 ^ 53 + 1 / 2 ^ 1075

namespace F64

theorem rne_err (x : ℚ) : |(rne x : ℚ) - x| ≤ 1 / 2 := by
  have h0 := Int.floor_le x
  have h1 := Int.lt_floor_add_one x
  unfold rne
  split_ifs with a b
  · rw [abs_le]; constructor <;> linarith
  · push_cast; rw [abs_le]; constructor <;> linarith
  · have e : x = ⌊x⌋ + 1 / 2 := by linarith
    have : ⌊x⌋ % 2 = 0 ∨ ⌊x⌋ % 2 = 1 := by omega
    push_cast
    rcases this with h | h <;> rw [h] <;> push_cast <;> rw [abs_le] <;> constructor <;> linarith

theorem rnP_err {q : ℚ} (h : 0 ≤ q) : |rnP q - q| ≤ q / 2 ^ 53 + 1 / 2 ^ 1075 := by
  rcases h.eq_or_lt with rfl | h
  · rw [rnP_zero]; norm_num
  have ht := two_zpow_pos (texp q)
  have e1 : rnP q - q = ((rne (q / 2 ^ texp q) : ℚ) - q / 2 ^ texp q) * 2 ^ texp q := by
    unfold rnP; field_simp
  rw [e1, abs_mul, abs_of_pos ht]
  have e2 := mul_le_mul_of_nonneg_right (rne_err (q / 2 ^ texp q)) ht.le
  refine e2.trans ?_
  unfold texp
  rcases max_choice (Int.log 2 q + 1 - 53) (-1074) with hm | hm
  · rw [hm]
    have hb := (log_bounds h).1
    have e3 : (2 : ℚ) ^ (Int.log 2 q + 1 - 53) = 2 ^ Int.log 2 q * 2 / 2 ^ 53 := by
      rw [show Int.log 2 q + 1 - 53 = Int.log 2 q + (1 - 53) by ring, zpow_add₀ (by norm_num)]
      norm_num
      ring
    rw [e3]
    have hη : (0 : ℚ) < 1 / 2 ^ 1075 := div_pos one_pos (pow_pos two_pos _)
    generalize (1 : ℚ) / 2 ^ 1075 = η at *
    have h53 : (0 : ℚ) < 2 ^ 53 := by positivity
    have : (2 : ℚ) ^ Int.log 2 q / 2 ^ 53 ≤ q / 2 ^ 53 := by gcongr
    have e4 : 1 / 2 * ((2 : ℚ) ^ Int.log 2 q * 2 / 2 ^ 53) = (2 : ℚ) ^ Int.log 2 q / 2 ^ 53 := by ring
    rw [e4]
    linarith
  · rw [hm]
    have e3 : (1 : ℚ) / 2 * 2 ^ (-1074 : ℤ) = 1 / 2 ^ 1075 := by
      rw [zpow_neg, pow_succ (2 : ℚ) 1074]
      have : (2 : ℚ) ^ (1074 : ℤ) = 2 ^ 1074 := zpow_natCast 2 1074
      rw [this]
      have : (2 : ℚ) ^ 1074 ≠ 0 := pow_ne_zero _ two_ne_zero
      generalize (2 : ℚ) ^ 1074 = t at *
      field_simp
    rw [e3]
    have : (0 : ℚ) ≤ q / 2 ^ 53 := by positivity
    linarith

theorem rndP_err {q : ℚ} (h0 : 0 ≤ q) (h : q ≤ 2 ^ 1023) : ∃ y, rndP q = .fin y ∧ |y - q| ≤ q / 2 ^ 53 + 1 / 2 ^ 1075 := by
  refine ⟨rnP q, ?_, rnP_err h0⟩
  unfold rndP ovf
  rw [if_neg]
  rw [not_le]
  have e : rnP (2 ^ 1023) = 2 ^ 1023 := by
    have := rnP_exact (n := 1) (t := 1023) (by norm_num) (by norm_num)
    rw [Nat.cast_one, one_mul] at this
    exact_mod_cast this
  have := rnP_mono h0 h
  rw [e] at this
  refine this.trans_lt ?_
  have h2 : (2 : ℚ) ^ (1024 : ℤ) = 2 ^ 1023 * 2 := (zpow_natCast 2 1024).trans (pow_succ 2 1023)
  have h3 : (0 : ℚ) < 2 ^ 1023 := pow_pos two_pos _
  rw [h2]
  exact lt_mul_of_one_lt_right h3 one_lt_two

end F64

instance {K : Type} [Field K] [LinearOrder K] [IsStrictOrderedRing K] : FloatErr (XR K) K where
  rnd_err x _ := ⟨x, rfl, by
    rw [sub_self, abs_zero]
    have h1 : (0 : K) ≤ |x| / 2 ^ 53 := by positivity
    have h2 : (0 : K) < 1 / 2 ^ 1075 := div_pos one_pos (pow_pos two_pos _)
    exact add_nonneg h1 h2.le⟩

instance : FloatErr Float ℚ where
  rnd_err x hx := by
    show ∃ y, F64.rndX (.fin x) = .fin y ∧ _
    by_cases h : x < 0
    · rw [abs_of_neg h] at hx ⊢
      obtain ⟨y, e, hy⟩ := F64.rndP_err (by linarith : 0 ≤ -x) hx
      refine ⟨-y, ?_, ?_⟩
      · simp only [F64.rndX]; rw [if_pos h, e]; rfl
      · rw [show -y - x = -(y - -x) by ring, abs_neg]; exact hy
    · rw [abs_of_nonneg (not_lt.1 h)] at hx ⊢
      obtain ⟨y, e, hy⟩ := F64.rndP_err (not_lt.1 h) hx
      refine ⟨y, ?_, hy⟩
      simp only [F64.rndX]; rw [if_neg h, e]

/-! ### approximate values -/

section
variable {F K : Type} [GoFloat F] [Field K] [LinearOrder K] [IsStrictOrderedRing K] [FloatVal F K]

/-- the value of `f` is a finite number within `e` of `x` -/
def Near (f : F) (x e : K) : Prop := ∃ v, val f = .fin v ∧ |v - x| ≤ e

theorem Near.mono {f : F} {x e e' : K} (h : Near f x e) (he : e ≤ e') : Near f x e' := by
  obtain ⟨v, a, b⟩ := h; exact ⟨v, a, b.trans he⟩

theorem Near.of_val {f : F} {x : K} (h : val f = .fin x) : Near f x 0 := ⟨x, h, by simp⟩

theorem Near.nonneg {f : F} {x e : K} (h : Near f x e) : 0 ≤ e := by
  obtain ⟨v, _, b⟩ := h; exact (abs_nonneg _).trans b

variable [FloatErr F K]

theorem rnd_near (x : K) (hx : |x| ≤ 2 ^ 250) :
    ∃ y, rnd F (.fin x) = .fin y ∧ |y - x| ≤ |x| / 2 ^ 53 + 1 / 2 ^ 200 := by
  obtain ⟨y, e, h⟩ := FloatErr.rnd_err (F := F) x (hx.trans (pow_le_pow_right₀ one_le_two (by norm_num)))
  refine ⟨y, e, h.trans ?_⟩
  have : (1 : K) / 2 ^ 1075 ≤ 1 / 2 ^ 200 :=
    one_div_le_one_div_of_le (pow_pos two_pos _) (pow_le_pow_right₀ one_le_two (by norm_num))
  exact add_le_add le_rfl this

theorem Near.rnd {f : F} {z : XR K} {x e B : K} (hf : val f = FloatVal.rnd F z) (hz : ∃ v, z = .fin v ∧ |v - x| ≤ e)
    (hx : |x| + e ≤ B) (hB : B ≤ 2 ^ 250) : Near f x (e + (B / 2 ^ 53 + 1 / 2 ^ 200)) := by
  obtain ⟨v, rfl, hv⟩ := hz
  have hvB : |v| ≤ B := by
    have : |v| ≤ |v - x| + |x| := by simpa using abs_add_le (v - x) x
    linarith
  obtain ⟨y, e1, h1⟩ := rnd_near (F := F) v (hvB.trans hB)
  refine ⟨y, hf.trans e1, ?_⟩
  have h2 : |y - x| ≤ |y - v| + |v - x| := by simpa using abs_add_le (y - v) (v - x)
  have h3 : |v| / 2 ^ 53 ≤ B / 2 ^ 53 := by gcongr
  linarith

theorem Near.sub {f g : F} {x y e d B : K} (hf : Near f x e) (hg : Near g y d) (hx : |x - y| + (e + d) ≤ B) (hB : B ≤ 2 ^ 250) :
    Near (f - g) (x - y) (e + d + (B / 2 ^ 53 + 1 / 2 ^ 200)) := by
  obtain ⟨v, a, b⟩ := hf
  obtain ⟨w, a', b'⟩ := hg
  refine Near.rnd (val_sub f g) ⟨v - w, ?_, ?_⟩ hx hB
  · rw [a, a']; simp [XR.sub, XR.add, XR.neg, sub_eq_add_neg]
  · calc |v - w - (x - y)| = |(v - x) - (w - y)| := by ring_nf
      _ ≤ |v - x| + |w - y| := abs_sub _ _
      _ ≤ e + d := add_le_add b b'

theorem Near.add {f g : F} {x y e d B : K} (hf : Near f x e) (hg : Near g y d) (hx : |x + y| + (e + d) ≤ B) (hB : B ≤ 2 ^ 250) :
    Near (f + g) (x + y) (e + d + (B / 2 ^ 53 + 1 / 2 ^ 200)) := by
  obtain ⟨v, a, b⟩ := hf
  obtain ⟨w, a', b'⟩ := hg
  refine Near.rnd (val_add f g) ⟨v + w, ?_, ?_⟩ hx hB
  · rw [a, a']; simp [XR.add]
  · calc |v + w - (x + y)| = |(v - x) + (w - y)| := by ring_nf
      _ ≤ |v - x| + |w - y| := abs_add_le _ _
      _ ≤ e + d := add_le_add b b'

theorem Near.mul {f g : F} {x y e d X Y B : K} (hf : Near f x e) (hg : Near g y d) (hX : |x| ≤ X) (hY : |y| ≤ Y)
    (hx : X * Y + (X * d + Y * e + e * d) ≤ B) (hB : B ≤ 2 ^ 250) :
    Near (f * g) (x * y) (X * d + Y * e + e * d + (B / 2 ^ 53 + 1 / 2 ^ 200)) := by
  have he := hf.nonneg
  have hd := hg.nonneg
  obtain ⟨v, a, b⟩ := hf
  obtain ⟨w, a', b'⟩ := hg
  have hX0 : 0 ≤ X := (abs_nonneg _).trans hX
  have hxy : |x * y| ≤ X * Y := by rw [abs_mul]; exact mul_le_mul hX hY (abs_nonneg _) hX0
  refine Near.rnd (val_mul f g) ⟨v * w, ?_, ?_⟩ (le_trans (by linarith) hx) hB
  · rw [a, a']; simp [XR.mul]
  · have e1 : v * w - x * y = x * (w - y) + y * (v - x) + (v - x) * (w - y) := by ring
    rw [e1]
    have h1 : |x * (w - y)| ≤ X * d := by rw [abs_mul]; exact mul_le_mul hX b' (abs_nonneg _) hX0
    have h2 : |y * (v - x)| ≤ Y * e := by
      rw [abs_mul]; exact mul_le_mul hY b (abs_nonneg _) ((abs_nonneg _).trans hY)
    have h3 : |(v - x) * (w - y)| ≤ e * d := by rw [abs_mul]; exact mul_le_mul b b' (abs_nonneg _) he
    exact (abs_add_three _ _ _).trans (by linarith)

end

end GoGeo
