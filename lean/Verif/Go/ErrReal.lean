import Verif.Go.F64Sqrt
import Mathlib.Tactic.Positivity

/-!
# Rounding errors measured against real numbers
-/

namespace GoGeo
open FloatVal

/-- the value of the float64 `f` is a finite number within `e` of the real number `x` -/
def NearR (f : Float) (x e : ℝ) : Prop := ∃ v : ℚ, val f = .fin v ∧ |(v : ℝ) - x| ≤ e

theorem NearR.mono {f : Float} {x e e' : ℝ} (h : NearR f x e) (he : e ≤ e') : NearR f x e' := by
  obtain ⟨v, a, b⟩ := h; exact ⟨v, a, b.trans he⟩

theorem NearR.of_val {f : Float} {v : ℚ} (h : val f = .fin v) : NearR f v 0 := ⟨v, h, by simp⟩

theorem NearR.nonneg {f : Float} {x e : ℝ} (h : NearR f x e) : 0 ≤ e := by
  obtain ⟨v, _, b⟩ := h; exact (abs_nonneg _).trans b

theorem NearR.shift {f : Float} {x e y d : ℝ} (h : NearR f x e) (hd : |x - y| ≤ d) : NearR f y (e + d) := by
  obtain ⟨v, a, b⟩ := h
  refine ⟨v, a, ?_⟩
  calc |(v : ℝ) - y| = |(v - x) + (x - y)| := by ring_nf
    _ ≤ |(v : ℝ) - x| + |x - y| := abs_add_le _ _
    _ ≤ e + d := add_le_add b hd

theorem rndR (x : ℚ) (hx : |(x : ℝ)| ≤ 2 ^ 250) : ∃ y : ℚ, rnd Float (.fin x) = .fin y ∧ |(y : ℝ) - x| ≤ |(x : ℝ)| / 2 ^ 53 + 1 / 2 ^ 250 := by
  have hx' : |x| ≤ 2 ^ 250 := by exact_mod_cast hx
  obtain ⟨y, e, h⟩ := FloatErr.rnd_err (F := Float) x (hx'.trans (pow_le_pow_right₀ one_le_two (by norm_num)))
  have : (1 : ℚ) / 2 ^ 1075 ≤ 1 / 2 ^ 250 :=
    one_div_le_one_div_of_le (pow_pos two_pos _) (pow_le_pow_right₀ one_le_two (by norm_num))
  have h2 : |y - x| ≤ |x| / 2 ^ 53 + 1 / 2 ^ 250 := h.trans (add_le_add le_rfl this)
  have h3 : ((|y - x| : ℚ) : ℝ) ≤ ((|x| / 2 ^ 53 + 1 / 2 ^ 250 : ℚ) : ℝ) := Rat.cast_le.2 h2
  push_cast at h3
  exact ⟨y, e, h3⟩

theorem NearR.rnd {f : Float} {z : XR ℚ} {x e B : ℝ} (hf : val f = FloatVal.rnd Float z) (hz : ∃ v : ℚ, z = .fin v ∧ |(v : ℝ) - x| ≤ e)
    (hx : |x| + e ≤ B) (hB : B ≤ 2 ^ 250) : NearR f x (e + (B / 2 ^ 53 + 1 / 2 ^ 250)) := by
  obtain ⟨v, rfl, hv⟩ := hz
  have hvB : |(v : ℝ)| ≤ B := by
    have : |(v : ℝ)| ≤ |v - x| + |x| := by simpa using abs_add_le (v - x) x
    linarith
  obtain ⟨y, e1, h1⟩ := rndR v (hvB.trans hB)
  refine ⟨y, hf.trans e1, ?_⟩
  have h2 : |(y : ℝ) - x| ≤ |(y : ℝ) - v| + |(v : ℝ) - x| := by simpa using abs_add_le ((y : ℝ) - v) (v - x)
  have h3 : |(v : ℝ)| / 2 ^ 53 ≤ B / 2 ^ 53 := by gcongr
  linarith

theorem NearR.sub {f g : Float} {x y e d B : ℝ} (hf : NearR f x e) (hg : NearR g y d) (hx : |x - y| + (e + d) ≤ B) (hB : B ≤ 2 ^ 250) :
    NearR (f - g) (x - y) (e + d + (B / 2 ^ 53 + 1 / 2 ^ 250)) := by
  obtain ⟨v, a, b⟩ := hf
  obtain ⟨w, a', b'⟩ := hg
  refine NearR.rnd (val_sub f g) ⟨v - w, ?_, ?_⟩ hx hB
  · rw [a, a']; simp [XR.sub, XR.add, XR.neg, sub_eq_add_neg]
  · push_cast
    calc |(v : ℝ) - w - (x - y)| = |(v - x) - (w - y)| := by ring_nf
      _ ≤ |(v : ℝ) - x| + |w - y| := abs_sub _ _
      _ ≤ e + d := add_le_add b b'

theorem NearR.add {f g : Float} {x y e d B : ℝ} (hf : NearR f x e) (hg : NearR g y d) (hx : |x + y| + (e + d) ≤ B) (hB : B ≤ 2 ^ 250) :
    NearR (f + g) (x + y) (e + d + (B / 2 ^ 53 + 1 / 2 ^ 250)) := by
  obtain ⟨v, a, b⟩ := hf
  obtain ⟨w, a', b'⟩ := hg
  refine NearR.rnd (val_add f g) ⟨v + w, ?_, ?_⟩ hx hB
  · rw [a, a']; simp [XR.add]
  · push_cast
    calc |(v : ℝ) + w - (x + y)| = |(v - x) + (w - y)| := by ring_nf
      _ ≤ |(v : ℝ) - x| + |w - y| := abs_add_le _ _
      _ ≤ e + d := add_le_add b b'

theorem NearR.mul {f g : Float} {x y e d X Y B : ℝ} (hf : NearR f x e) (hg : NearR g y d) (hX : |x| ≤ X) (hY : |y| ≤ Y)
    (hx : X * Y + (X * d + Y * e + e * d) ≤ B) (hB : B ≤ 2 ^ 250) :
    NearR (f * g) (x * y) (X * d + Y * e + e * d + (B / 2 ^ 53 + 1 / 2 ^ 250)) := by
  have he := hf.nonneg
  have hd := hg.nonneg
  obtain ⟨v, a, b⟩ := hf
  obtain ⟨w, a', b'⟩ := hg
  have hX0 : 0 ≤ X := (abs_nonneg _).trans hX
  have hxy : |x * y| ≤ X * Y := by rw [abs_mul]; exact mul_le_mul hX hY (abs_nonneg _) hX0
  refine NearR.rnd (val_mul f g) ⟨v * w, ?_, ?_⟩ (le_trans (by linarith) hx) hB
  · rw [a, a']; simp [XR.mul]
  · push_cast
    have e1 : (v : ℝ) * w - x * y = x * (w - y) + y * (v - x) + (v - x) * (w - y) := by ring
    rw [e1]
    have h1 : |x * (w - y)| ≤ X * d := by rw [abs_mul]; exact mul_le_mul hX b' (abs_nonneg _) hX0
    have h2 : |y * (v - x)| ≤ Y * e := by
      rw [abs_mul]; exact mul_le_mul hY b (abs_nonneg _) ((abs_nonneg _).trans hY)
    have h3 : |(v - x) * (w - y)| ≤ e * d := by rw [abs_mul]; exact mul_le_mul b b' (abs_nonneg _) he
    exact (abs_add_three _ _ _).trans (by linarith)

/-- a quotient by a number near `y > 0` -/
theorem NearR.div {f g : Float} {x y e d E B : ℝ} (hf : NearR f x e) (hg : NearR g y d) (hd : d < y)
    (hE : (e + |x| / y * d) / (y - d) ≤ E) (hx : |x| / y + E ≤ B) (hB : B ≤ 2 ^ 250) :
    NearR (f / g) (x / y) (E + (B / 2 ^ 53 + 1 / 2 ^ 250)) := by
  have he := hf.nonneg
  have hd0 := hg.nonneg
  obtain ⟨v, a, b⟩ := hf
  obtain ⟨w, a', b'⟩ := hg
  have hy : 0 < y := by linarith
  have hw : y - d ≤ w := by have := (abs_le.1 b').1; linarith
  have hw0 : (0 : ℝ) < w := by linarith
  have hwq : w ≠ 0 := by
    intro h; rw [h] at hw0; simp at hw0
  have habs : |x / y| = |x| / y := by rw [abs_div, abs_of_pos hy]
  refine NearR.rnd (x := x / y) (e := E) (val_div f g (by rw [a']; simpa using hwq)) ⟨v / w, ?_, ?_⟩ (by rw [habs]; exact hx) hB
  · rw [a, a']; simp [XR.div, hwq]
  · push_cast
    have e1 : (v : ℝ) / w - x / y = ((v - x) - x / y * (w - y)) / w := by field_simp; ring
    rw [e1, abs_div, abs_of_pos hw0]
    have h1 : |(v - x) - x / y * (w - y)| ≤ e + |x| / y * d := by
      refine (abs_sub _ _).trans (add_le_add b ?_)
      rw [abs_mul, habs]
      exact mul_le_mul_of_nonneg_left b' (by positivity)
    have h0 : 0 ≤ e + |x| / y * d := by positivity
    calc _ ≤ (e + |x| / y * d) / w := div_le_div_of_nonneg_right h1 hw0.le
      _ ≤ (e + |x| / y * d) / (y - d) := div_le_div_of_nonneg_left h0 (by linarith) hw
      _ ≤ E := hE

theorem sqrt_close {S Q k t : ℝ} (hS : 0 ≤ S) (hQ : 0 ≤ Q) (hk : 0 ≤ k) (ht : 0 ≤ t) (h : |S - Q| ≤ k * Q + t ^ 2) : |√S - √Q| ≤ k * √Q + t := by
  have s1 := Real.sq_sqrt hS
  have s2 := Real.sq_sqrt hQ
  have n1 := Real.sqrt_nonneg S
  have n2 := Real.sqrt_nonneg Q
  rw [← s1, ← s2] at h
  generalize √S = a at *
  generalize √Q = b at *
  by_contra hc
  rw [not_le] at hc
  have e1 : |a ^ 2 - b ^ 2| = |a - b| * (a + b) := by
    rw [show a ^ 2 - b ^ 2 = (a - b) * (a + b) by ring, abs_mul, abs_of_nonneg (add_nonneg n1 n2)]
  have hkb : 0 ≤ k * b := mul_nonneg hk n2
  have h1 : |a - b| ≤ a + b := by rw [abs_le]; constructor <;> linarith
  have h2 : k * b + t < a + b := lt_of_lt_of_le hc h1
  have hpos : 0 < |a - b| := lt_of_le_of_lt (by linarith) hc
  have h3 : (k * b + t) * (a + b) < |a - b| * (a + b) := mul_lt_mul_of_pos_right hc (by linarith)
  have h4 : k * b * b ≤ k * b * (a + b) := mul_le_mul_of_nonneg_left (by linarith) hkb
  have h5 : t * t ≤ t * (a + b) := mul_le_mul_of_nonneg_left (by linarith) ht
  nlinarith

/-- the square root of a number near `Q ≥ 0` -/
theorem NearR.sqrt {f : Float} {Q k t : ℝ} (hQ : 0 ≤ Q) (hk : 0 ≤ k) (ht : 0 ≤ t) (hf : NearR f Q (k * Q + t ^ 2))
    (hpos : ∀ v : ℚ, val f = .fin v → 0 ≤ v) :
    NearR (Float.sqrt f) (√Q) (k * √Q + t + ((1 + k) * √Q + t) / 2 ^ 51) := by
  obtain ⟨v, a, b⟩ := hf
  have hv := hpos v a
  obtain ⟨s, e, _, hs⟩ := float_sqrt_err a hv
  refine ⟨s, e, ?_⟩
  have hv' : (0 : ℝ) ≤ v := by exact_mod_cast hv
  have h1 := sqrt_close hv' hQ hk ht b
  have h2 : √(v : ℝ) ≤ (1 + k) * √Q + t := by have := (abs_le.1 h1).2; linarith
  have h3 : √(v : ℝ) / 2 ^ 51 ≤ ((1 + k) * √Q + t) / 2 ^ 51 := by gcongr
  have h4 : |(s : ℝ) - √Q| ≤ |s - √(v : ℝ)| + |√(v : ℝ) - √Q| := by simpa using abs_add_le ((s : ℝ) - √(v : ℝ)) (√(v : ℝ) - √Q)
  linarith

end GoGeo
