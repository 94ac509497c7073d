import Verif.Geo.Lonlat
import Verif.Geo.AngleLemmas
import Mathlib.Analysis.Real.Pi.Bounds
import Mathlib.Analysis.SpecialFunctions.Trigonometric.Bounds

set_option linter.unusedSectionVars false

namespace GoGeo.Lonlat
open GoFloat Real

/-! ### the shift of GCJ02, over the reals -/

noncomputable def tlatR (x y : ℝ) : ℝ :=
  -100 + 2 * x + 3 * y + 2 / 10 * y * y + 1 / 10 * x * y + 2 / 10 * √|x| +
    (20 * sin (6 * x * π) + 20 * sin (2 * x * π)) * 2 / 3 + (20 * sin (y * π) + 40 * sin (y / 3 * π)) * 2 / 3 +
    (160 * sin (y / 12 * π) + 320 * sin (y * π / 30)) * 2 / 3

noncomputable def tlngR (x y : ℝ) : ℝ :=
  300 + x + 2 * y + 1 / 10 * x * x + 1 / 10 * x * y + 1 / 10 * √|x| +
    (20 * sin (6 * x * π) + 20 * sin (2 * x * π)) * 2 / 3 + (20 * sin (x * π) + 40 * sin (x / 3 * π)) * 2 / 3 +
    (150 * sin (x / 12 * π) + 300 * sin (x / 30 * π)) * 2 / 3

noncomputable def off : ℝ := 669342162296594323 / 10 ^ 20
noncomputable def magic (lat : ℝ) : ℝ := 1 - off * sin (lat / 180 * π) * sin (lat / 180 * π)

noncomputable def dLat (lon lat : ℝ) : ℝ :=
  tlatR (lon - 105) (lat - 35) * 180 / (6378245 * 99330657837703405677 / 10 ^ 20 / (magic lat * √(magic lat)) * π)
noncomputable def dLon (lon lat : ℝ) : ℝ :=
  tlngR (lon - 105) (lat - 35) * 180 / (6378245 / √(magic lat) * cos (lat / 180 * π) * π)

theorem pi_fin' : (GoMath.piFrac 1 1 : XR ℝ) = .fin π := pi_fin

theorem tlat_fin (x y : ℝ) : transformlat (XR.fin x) (XR.fin y) = .fin (tlatR x y) := by
  unfold transformlat tlatR
  simp only [pi_fin', XR.fin_dec, XR.fin_abs, sqrt_fin (abs_nonneg x), XR.fin_mul, XR.fin_add, XR.fin_neg, sin_fin,
    XR.fin_div _ ((3 : ℕ) / 10 ^ 0 : ℝ) (by norm_num), XR.fin_div _ ((12 : ℕ) / 10 ^ 0 : ℝ) (by norm_num), XR.fin_div _ ((30 : ℕ) / 10 ^ 0 : ℝ) (by norm_num)]
  norm_num

theorem tlng_fin (x y : ℝ) : transformlng (XR.fin x) (XR.fin y) = .fin (tlngR x y) := by
  unfold transformlng tlngR
  simp only [pi_fin', XR.fin_dec, XR.fin_abs, sqrt_fin (abs_nonneg x), XR.fin_mul, XR.fin_add, sin_fin,
    XR.fin_div _ ((3 : ℕ) / 10 ^ 0 : ℝ) (by norm_num), XR.fin_div _ ((12 : ℕ) / 10 ^ 0 : ℝ) (by norm_num), XR.fin_div _ ((30 : ℕ) / 10 ^ 0 : ℝ) (by norm_num)]
  norm_num

theorem sin_sq_bound (x : ℝ) : 0 ≤ sin x * sin x ∧ sin x * sin x ≤ 1 := by
  have := sin_sq_add_cos_sq x
  constructor
  · exact mul_self_nonneg _
  · nlinarith [sq_nonneg (cos x)]

theorem magic_bound (lat : ℝ) : 0.99 ≤ magic lat ∧ magic lat ≤ 1 := by
  unfold magic off
  have := sin_sq_bound (lat / 180 * π)
  constructor <;> nlinarith

theorem sqrt_magic_bound (lat : ℝ) : 0.99 ≤ √(magic lat) ∧ √(magic lat) ≤ 1 := by
  obtain ⟨h1, h2⟩ := magic_bound lat
  constructor
  · apply Real.le_sqrt_of_sq_le; nlinarith
  · exact Real.sqrt_le_iff.2 ⟨by norm_num, by linarith⟩

/-- the box of China, in degrees -/
def InBox (lon lat : ℝ) : Prop := 73.66 < lon ∧ lon < 135.05 ∧ 3.86 < lat ∧ lat < 53.55

theorem cos_bound {lat : ℝ} (h1 : 3.86 < lat) (h2 : lat < 53.55) : 1 / 2 ≤ cos (lat / 180 * π) := by
  have hp := Real.pi_pos
  rw [← Real.cos_pi_div_three]
  apply Real.cos_le_cos_of_nonneg_of_le_pi
  · have : 0 < lat := by linarith
    positivity
  · linarith
  · nlinarith

theorem delta_fin {lon lat : ℝ} (h1 : 3.86 < lat) (h2 : lat < 53.55) :
    delta (XR.fin lon) (XR.fin lat) = (.fin (lon + dLon lon lat), .fin (lat + dLat lon lat)) := by
  have hp := Real.pi_pos
  have hm := magic_bound lat
  have hs := sqrt_magic_bound lat
  have hc := cos_bound h1 h2
  have m0 : magic lat ≠ 0 := by linarith
  have s0 : √(magic lat) ≠ 0 := by linarith
  have c0 : cos (lat / 180 * π) ≠ 0 := by linarith
  have e1 : (GoFloat.lit 1 : XR ℝ) - OFFSET * .fin (sin (lat / 180 * π)) * .fin (sin (lat / 180 * π)) = .fin (magic lat) := by
    unfold OFFSET magic off
    rw [XR.fin_dec, XR.fin_mul, XR.fin_mul, XR.fin_lit, XR.fin_sub]
    norm_num
  have e2 : (XR.fin lat) / GoFloat.lit 180 * GoMath.piFrac 1 1 = XR.fin (lat / 180 * π) := by
    rw [XR.fin_lit, XR.fin_div _ _ (by norm_num), pi_fin', XR.fin_mul]; norm_num
  unfold delta
  simp only
  rw [XR.fin_lit 105, XR.fin_lit 35, XR.fin_sub, XR.fin_sub, tlat_fin, tlng_fin, e2, sin_fin, e1, sqrt_fin (by linarith), cos_fin, XR.fin_lit 180]
  unfold AXIS AXIS1
  have p0 : π ≠ 0 := hp.ne'
  have d1 := XR.fin_div ((6378245 * 99330657837703405677 : ℕ) / 10 ^ 20 : ℝ) (magic lat * √(magic lat)) (mul_ne_zero m0 s0)
  have d2 := XR.fin_div ((6378245 : ℕ) : ℝ) (√(magic lat)) s0
  have d3 := XR.fin_div (tlatR (lon - (105 : ℕ)) (lat - (35 : ℕ)) * (180 : ℕ)) ((6378245 * 99330657837703405677 : ℕ) / 10 ^ 20 / (magic lat * √(magic lat)) * π)
    (mul_ne_zero (div_ne_zero (by positivity) (mul_ne_zero m0 s0)) p0)
  have d4 := XR.fin_div (tlngR (lon - (105 : ℕ)) (lat - (35 : ℕ)) * (180 : ℕ)) ((6378245 : ℕ) / √(magic lat) * cos (lat / 180 * π) * π)
    (mul_ne_zero (mul_ne_zero (div_ne_zero (by positivity) s0) c0) p0)
  simp only [XR.fin_dec _ 20, XR.fin_lit, XR.fin_mul, d1, d2, pi_fin', d3, d4, XR.fin_add]
  unfold dLat dLon
  rw [Nat.cast_mul]
  push_cast
  rfl

/-! ### bounds -/

theorem mul_bound {a b A B : ℝ} (ha : |a| ≤ A) (hb : |b| ≤ B) : |a * b| ≤ A * B := by
  rw [abs_mul]
  exact mul_le_mul ha hb (abs_nonneg _) ((abs_nonneg _).trans ha)

theorem sin_b (x : ℝ) : |sin x| ≤ 1 := abs_sin_le_one x

theorem lin6 {a b c d e f : ℝ} (ha : |a| ≤ 1) (hb : |b| ≤ 1) (hc : |c| ≤ 1) (hd : |d| ≤ 1) (he : |e| ≤ 1) (hf : |f| ≤ 1) :
    |(20 * a + 20 * b) * 2 / 3 + (20 * c + 40 * d) * 2 / 3 + (160 * e + 320 * f) * 2 / 3| ≤ 388 := by
  rw [abs_le] at *
  constructor <;> linarith

theorem lin6' {a b c d e f : ℝ} (ha : |a| ≤ 1) (hb : |b| ≤ 1) (hc : |c| ≤ 1) (hd : |d| ≤ 1) (he : |e| ≤ 1) (hf : |f| ≤ 1) :
    |(20 * a + 20 * b) * 2 / 3 + (20 * c + 40 * d) * 2 / 3 + (150 * e + 300 * f) * 2 / 3| ≤ 368 := by
  rw [abs_le] at *
  constructor <;> linarith

theorem sqrt_x {x : ℝ} (h1 : -31.34 < x) (h2 : x < 30.05) : 0 ≤ √|x| ∧ √|x| ≤ 5.6 := by
  refine ⟨Real.sqrt_nonneg _, ?_⟩
  apply Real.sqrt_le_iff.2
  refine ⟨by norm_num, ?_⟩
  rw [abs_le]; constructor <;> norm_num <;> linarith

theorem tlat_bound {x y : ℝ} (h1 : -31.34 < x) (h2 : x < 30.05) (h3 : -31.14 < y) (h4 : y < 18.55) : |tlatR x y| ≤ 565 := by
  have hs := sqrt_x h1 h2
  have ht := lin6 (sin_b (6 * x * π)) (sin_b (2 * x * π)) (sin_b (y * π)) (sin_b (y / 3 * π)) (sin_b (y / 12 * π)) (sin_b (y * π / 30))
  unfold tlatR
  rw [abs_le] at *
  constructor
  · nlinarith [mul_pos (sub_pos.2 h1) (sub_pos.2 h3), mul_pos (sub_pos.2 h2) (sub_pos.2 h4), mul_pos (sub_pos.2 h1) (sub_pos.2 h4), mul_pos (sub_pos.2 h2) (sub_pos.2 h3), sq_nonneg y, sq_nonneg (y + 7.5)]
  · nlinarith [mul_pos (sub_pos.2 h1) (sub_pos.2 h3), mul_pos (sub_pos.2 h2) (sub_pos.2 h4), mul_pos (sub_pos.2 h1) (sub_pos.2 h4), mul_pos (sub_pos.2 h2) (sub_pos.2 h3), mul_pos (sub_pos.2 h3) (sub_pos.2 h4)]

theorem tlng_bound {x y : ℝ} (h1 : -31.34 < x) (h2 : x < 30.05) (h3 : -31.14 < y) (h4 : y < 18.55) : |tlngR x y| ≤ 890 := by
  have hs := sqrt_x h1 h2
  have ht := lin6' (sin_b (6 * x * π)) (sin_b (2 * x * π)) (sin_b (x * π)) (sin_b (x / 3 * π)) (sin_b (x / 12 * π)) (sin_b (x / 30 * π))
  unfold tlngR
  rw [abs_le] at *
  constructor
  · nlinarith [mul_pos (sub_pos.2 h1) (sub_pos.2 h3), mul_pos (sub_pos.2 h2) (sub_pos.2 h4), mul_pos (sub_pos.2 h1) (sub_pos.2 h4), mul_pos (sub_pos.2 h2) (sub_pos.2 h3), sq_nonneg x]
  · nlinarith [mul_pos (sub_pos.2 h1) (sub_pos.2 h3), mul_pos (sub_pos.2 h2) (sub_pos.2 h4), mul_pos (sub_pos.2 h1) (sub_pos.2 h4), mul_pos (sub_pos.2 h2) (sub_pos.2 h3), mul_pos (sub_pos.2 h1) (sub_pos.2 h2)]

/-- the factors of the shifts, metres to degrees -/
noncomputable def uLat (lat : ℝ) : ℝ := 180 * (magic lat * √(magic lat)) / (6378245 * 99330657837703405677 / 10 ^ 20 * π)
noncomputable def uLon (lat : ℝ) : ℝ := 180 * √(magic lat) / (6378245 * cos (lat / 180 * π) * π)

theorem dLat_eq (lon lat : ℝ) : dLat lon lat = tlatR (lon - 105) (lat - 35) * uLat lat := by
  have hm := magic_bound lat
  have hs := sqrt_magic_bound lat
  have m0 : magic lat ≠ 0 := by linarith
  have s0 : √(magic lat) ≠ 0 := by linarith
  unfold dLat uLat
  field_simp

theorem dLon_eq (lon lat : ℝ) : dLon lon lat = tlngR (lon - 105) (lat - 35) * uLon lat := by
  have hs := sqrt_magic_bound lat
  have s0 : √(magic lat) ≠ 0 := by linarith
  unfold dLon uLon
  rw [mul_div_assoc, mul_div_assoc]
  congr 1
  by_cases hc : cos (lat / 180 * π) = 0
  · simp [hc]
  · field_simp

theorem uLat_bound (lat : ℝ) : 0 ≤ uLat lat ∧ uLat lat ≤ 9.1e-6 := by
  have hp := Real.pi_gt_d4
  have hm := magic_bound lat
  have hs := sqrt_magic_bound lat
  have h1 : magic lat * √(magic lat) ≤ 1 := by nlinarith
  have h0 : 0 ≤ magic lat * √(magic lat) := by nlinarith
  unfold uLat
  constructor
  · positivity
  · rw [div_le_iff₀ (by positivity)]
    norm_num at *
    nlinarith

theorem uLon_bound {lat : ℝ} (h1 : 3.86 < lat) (h2 : lat < 53.55) : 0 ≤ uLon lat ∧ uLon lat ≤ 1.8e-5 := by
  have hp := Real.pi_gt_d4
  have hs := sqrt_magic_bound lat
  have hc := cos_bound h1 h2
  have hcp : 1.57 ≤ cos (lat / 180 * π) * π := by nlinarith
  unfold uLon
  constructor
  · have : 0 ≤ √(magic lat) := by linarith
    positivity
  · rw [div_le_iff₀ (by positivity), mul_assoc (6378245 : ℝ)]
    have e1 : 180 * √(magic lat) ≤ 180 := by linarith
    have e2 : (180 : ℝ) ≤ 1.8e-5 * (6378245 * 1.57) := by norm_num
    have e3 : (1.8e-5 : ℝ) * (6378245 * 1.57) ≤ 1.8e-5 * (6378245 * (cos (lat / 180 * π) * π)) := by
      apply mul_le_mul_of_nonneg_left _ (by norm_num)
      apply mul_le_mul_of_nonneg_left hcp (by norm_num)
    linarith

theorem dLat_bound {lon lat : ℝ} (h : InBox lon lat) : |dLat lon lat| ≤ 0.0052 := by
  obtain ⟨h1, h2, h3, h4⟩ := h
  have ht := tlat_bound (x := lon - 105) (y := lat - 35) (by linarith) (by linarith) (by linarith) (by linarith)
  have hu := uLat_bound lat
  rw [dLat_eq, abs_mul, abs_of_nonneg hu.1]
  have := abs_nonneg (tlatR (lon - 105) (lat - 35))
  norm_num at *
  nlinarith

theorem dLon_bound {lon lat : ℝ} (h : InBox lon lat) : |dLon lon lat| ≤ 0.0161 := by
  obtain ⟨h1, h2, h3, h4⟩ := h
  have ht := tlng_bound (x := lon - 105) (y := lat - 35) (by linarith) (by linarith) (by linarith) (by linarith)
  have hu := uLon_bound h3 h4
  rw [dLon_eq, abs_mul, abs_of_nonneg hu.1]
  have := abs_nonneg (tlngR (lon - 105) (lat - 35))
  norm_num at *
  nlinarith

theorem out_fin (lon lat : ℝ) : isOutOFChina (XR.fin lon) (XR.fin lat) = true ↔ ¬ InBox lon lat := by
  unfold isOutOFChina InBox
  simp only [GoFloat.gt, XR.fin_dec, XR.fin_lt]
  simp only [Bool.not_eq_true', ← Bool.not_eq_true, Bool.and_eq_true, decide_eq_true_eq, and_assoc]
  norm_num

/-! ### differences -/

theorem sqrt_diff (a b : ℝ) (ha : 0 ≤ a) (hb : 0 ≤ b) {d : ℝ} (hd : 0 ≤ d) (h : |a - b| ≤ d ^ 2) : |√a - √b| ≤ d := by
  have h1 := Real.sq_sqrt ha
  have h2 := Real.sq_sqrt hb
  have h3 := Real.sqrt_nonneg a
  have h4 := Real.sqrt_nonneg b
  rw [abs_le] at *
  constructor
  · by_contra hc
    nlinarith
  · by_contra hc
    nlinarith

theorem sin_diff (a b : ℝ) {d : ℝ} (h : |a - b| ≤ d) : |sin a - sin b| ≤ d := (abs_sin_sub_sin_le a b).trans h

theorem sinm {x x' k d : ℝ} (hk : 0 ≤ k) (h : |x - x'| ≤ d) (c c' : ℝ) (hc : c = k * x) (hc' : c' = k * x') : |sin c - sin c'| ≤ k * d := by
  subst hc hc'
  apply sin_diff
  rw [← mul_sub, abs_mul, abs_of_nonneg hk]
  exact mul_le_mul_of_nonneg_left h hk

theorem tlat_diff {x y x' y' : ℝ} (h1 : -31.34 < x) (h2 : x < 30.05) (h3 : -31.14 < y) (h4 : y < 18.55)
    (h1' : -31.34 < x') (h2' : x' < 30.05) (h3' : -31.14 < y') (h4' : y' < 18.55) (hx : |x - x'| ≤ 0.0162) (hy : |y - y'| ≤ 0.0053) :
    |tlatR x y - tlatR x' y'| ≤ 6.3 := by
  have hp := Real.pi_pos
  have hp' := Real.pi_lt_d4
  have s1 := sinm (k := 6 * π) (by positivity) hx (6 * x * π) (6 * x' * π) (by ring) (by ring)
  have s2 := sinm (k := 2 * π) (by positivity) hx (2 * x * π) (2 * x' * π) (by ring) (by ring)
  have s3 := sinm (k := π) (by positivity) hy (y * π) (y' * π) (by ring) (by ring)
  have s4 := sinm (k := π / 3) (by positivity) hy (y / 3 * π) (y' / 3 * π) (by ring) (by ring)
  have s5 := sinm (k := π / 12) (by positivity) hy (y / 12 * π) (y' / 12 * π) (by ring) (by ring)
  have s6 := sinm (k := π / 30) (by positivity) hy (y * π / 30) (y' * π / 30) (by ring) (by ring)
  have s7 : |(√|x| - √|x'|)| ≤ 0.13 := by
    apply sqrt_diff _ _ (abs_nonneg _) (abs_nonneg _) (by norm_num)
    refine (abs_abs_sub_abs_le_abs_sub x x').trans (hx.trans (by norm_num))
  have s8 : |y * y - y' * y'| ≤ 0.34 := by
    have : y * y - y' * y' = (y - y') * (y + y') := by ring
    rw [this, abs_mul]
    have : |y + y'| ≤ 62.28 := by rw [abs_le]; constructor <;> linarith
    have := abs_nonneg (y - y')
    have := abs_nonneg (y + y')
    nlinarith
  have s9 : |x * y - x' * y'| ≤ 0.68 := by
    have : x * y - x' * y' = (x - x') * y + x' * (y - y') := by ring
    rw [this]
    refine (abs_add_le _ _).trans ?_
    rw [abs_mul, abs_mul]
    have a1 : |y| ≤ 31.14 := by rw [abs_le]; constructor <;> linarith
    have a2 : |x'| ≤ 31.34 := by rw [abs_le]; constructor <;> linarith
    have := abs_nonneg (y - y')
    have := abs_nonneg (x - x')
    have := abs_nonneg y
    have := abs_nonneg x'
    nlinarith
  unfold tlatR
  rw [abs_le] at *
  constructor <;> norm_num at * <;> linarith

theorem tlng_diff {x y x' y' : ℝ} (h1 : -31.34 < x) (h2 : x < 30.05) (h3 : -31.14 < y) (h4 : y < 18.55)
    (h1' : -31.34 < x') (h2' : x' < 30.05) (h3' : -31.14 < y') (h4' : y' < 18.55) (hx : |x - x'| ≤ 0.0162) (hy : |y - y'| ≤ 0.0053) :
    |tlngR x y - tlngR x' y'| ≤ 7.6 := by
  have hp := Real.pi_pos
  have hp' := Real.pi_lt_d4
  have s1 := sinm (k := 6 * π) (by positivity) hx (6 * x * π) (6 * x' * π) (by ring) (by ring)
  have s2 := sinm (k := 2 * π) (by positivity) hx (2 * x * π) (2 * x' * π) (by ring) (by ring)
  have s3 := sinm (k := π) (by positivity) hx (x * π) (x' * π) (by ring) (by ring)
  have s4 := sinm (k := π / 3) (by positivity) hx (x / 3 * π) (x' / 3 * π) (by ring) (by ring)
  have s5 := sinm (k := π / 12) (by positivity) hx (x / 12 * π) (x' / 12 * π) (by ring) (by ring)
  have s6 := sinm (k := π / 30) (by positivity) hx (x / 30 * π) (x' / 30 * π) (by ring) (by ring)
  have s7 : |(√|x| - √|x'|)| ≤ 0.13 := by
    apply sqrt_diff _ _ (abs_nonneg _) (abs_nonneg _) (by norm_num)
    refine (abs_abs_sub_abs_le_abs_sub x x').trans (hx.trans (by norm_num))
  have s8 : |x * x - x' * x'| ≤ 1.02 := by
    have : x * x - x' * x' = (x - x') * (x + x') := by ring
    rw [this, abs_mul]
    have : |x + x'| ≤ 62.68 := by rw [abs_le]; constructor <;> linarith
    have := abs_nonneg (x - x')
    have := abs_nonneg (x + x')
    nlinarith
  have s9 : |x * y - x' * y'| ≤ 0.68 := by
    have : x * y - x' * y' = (x - x') * y + x' * (y - y') := by ring
    rw [this]
    refine (abs_add_le _ _).trans ?_
    rw [abs_mul, abs_mul]
    have a1 : |y| ≤ 31.14 := by rw [abs_le]; constructor <;> linarith
    have a2 : |x'| ≤ 31.34 := by rw [abs_le]; constructor <;> linarith
    have := abs_nonneg (y - y')
    have := abs_nonneg (x - x')
    have := abs_nonneg y
    have := abs_nonneg x'
    nlinarith
  unfold tlngR
  rw [abs_le] at *
  constructor <;> norm_num at * <;> linarith

theorem rad_diff {a b : ℝ} (h : |a - b| ≤ 0.0053) : |a / 180 * π - b / 180 * π| ≤ 1e-4 := by
  have hp := Real.pi_pos
  have hp' := Real.pi_lt_d4
  have : a / 180 * π - b / 180 * π = (a - b) * (π / 180) := by ring
  rw [this, abs_mul, abs_of_pos (a := π / 180) (by positivity)]
  have := abs_nonneg (a - b)
  norm_num at *
  nlinarith

theorem magic_diff {a b : ℝ} (h : |a - b| ≤ 0.0053) : |magic a - magic b| ≤ 2e-6 := by
  have h1 := sin_diff _ _ (rad_diff h)
  have h2 := sin_b (a / 180 * π)
  have h3 := sin_b (b / 180 * π)
  have : magic a - magic b = off * ((sin (b / 180 * π) - sin (a / 180 * π)) * (sin (b / 180 * π) + sin (a / 180 * π))) := by
    unfold magic; ring
  rw [this]
  have h4 : |sin (b / 180 * π) + sin (a / 180 * π)| ≤ 2 := (abs_add_le _ _).trans (by linarith)
  rw [abs_sub_comm] at h1
  have h5 : |off| ≤ 0.007 := by unfold off; rw [abs_of_pos (by positivity)]; norm_num
  exact (mul_bound h5 (mul_bound h1 h4)).trans (by norm_num)

theorem sqrtm_diff {a b : ℝ} (h : |a - b| ≤ 0.0053) : |√(magic a) - √(magic b)| ≤ 2e-6 := by
  have h1 := magic_diff h
  have ha := sqrt_magic_bound a
  have hb := sqrt_magic_bound b
  have e1 := Real.sq_sqrt (show 0 ≤ magic a by linarith [magic_bound a])
  have e2 := Real.sq_sqrt (show 0 ≤ magic b by linarith [magic_bound b])
  rw [abs_le] at *
  norm_num at *
  constructor <;> nlinarith

theorem uLat_diff {a b : ℝ} (h : |a - b| ≤ 0.0053) : |uLat a - uLat b| ≤ 4e-11 := by
  have hp := Real.pi_gt_d4
  have h1 := magic_diff h
  have h2 := sqrtm_diff h
  have ha := sqrt_magic_bound a
  have hb := magic_bound b
  have e : uLat a - uLat b = ((magic a - magic b) * √(magic a) + magic b * (√(magic a) - √(magic b))) *
      (180 / (6378245 * 99330657837703405677 / 10 ^ 20 * π)) := by unfold uLat; ring
  have hk : 180 / (6378245 * 99330657837703405677 / 10 ^ 20 * π) ≤ 1e-5 := by
    rw [div_le_iff₀ (by positivity)]; norm_num at *; linarith
  have hk0 : 0 ≤ 180 / (6378245 * 99330657837703405677 / 10 ^ 20 * π) := by positivity
  have hv : |(magic a - magic b) * √(magic a) + magic b * (√(magic a) - √(magic b))| ≤ 4e-6 := by
    have k1 : |√(magic a)| ≤ 1 := by rw [abs_of_nonneg (by linarith)]; exact ha.2
    have k2 : |magic b| ≤ 1 := by rw [abs_of_nonneg (by linarith)]; exact hb.2
    have := mul_bound h1 k1
    have := mul_bound k2 h2
    refine (abs_add_le _ _).trans ?_
    linarith
  rw [e]
  have hk' : |180 / (6378245 * 99330657837703405677 / 10 ^ 20 * π)| ≤ 1e-5 := by rw [abs_of_nonneg hk0]; exact hk
  exact (mul_bound hv hk').trans (by norm_num)

theorem uLon_diff {a b : ℝ} (h : |a - b| ≤ 0.0053) (h1 : 3.86 < a) (h2 : a < 53.55) (h1' : 3.86 < b) (h2' : b < 53.55) : |uLon a - uLon b| ≤ 5e-9 := by
  have hp := Real.pi_gt_d4
  have g1 := sqrtm_diff h
  have g2 := (abs_cos_sub_cos_le _ _).trans (rad_diff h)
  have ca := cos_bound h1 h2
  have cb := cos_bound h1' h2'
  have ha := sqrt_magic_bound a
  have hb := sqrt_magic_bound b
  have hcb := cos_le_one (b / 180 * π)
  have e : uLon a - uLon b = ((√(magic a) - √(magic b)) * cos (b / 180 * π) - √(magic b) * (cos (a / 180 * π) - cos (b / 180 * π))) *
      (180 / (6378245 * (cos (a / 180 * π) * cos (b / 180 * π)) * π)) := by
    unfold uLon
    have a0 : cos (a / 180 * π) ≠ 0 := by linarith
    have b0 : cos (b / 180 * π) ≠ 0 := by linarith
    generalize cos (a / 180 * π) = ca at *
    generalize cos (b / 180 * π) = cb at *
    field_simp
    ring
  have hcc : 1 / 4 ≤ cos (a / 180 * π) * cos (b / 180 * π) := by nlinarith
  have hk : 180 / (6378245 * (cos (a / 180 * π) * cos (b / 180 * π)) * π) ≤ 4e-5 := by
    have : 0.785 ≤ cos (a / 180 * π) * cos (b / 180 * π) * π := by nlinarith
    rw [div_le_iff₀ (by positivity), mul_assoc (6378245 : ℝ)]
    have e2 : (180 : ℝ) ≤ 4e-5 * (6378245 * 0.785) := by norm_num
    have e3 : (4e-5 : ℝ) * (6378245 * 0.785) ≤ 4e-5 * (6378245 * (cos (a / 180 * π) * cos (b / 180 * π) * π)) := by
      apply mul_le_mul_of_nonneg_left _ (by norm_num)
      apply mul_le_mul_of_nonneg_left this (by norm_num)
    linarith
  have hk0 : 0 ≤ 180 / (6378245 * (cos (a / 180 * π) * cos (b / 180 * π)) * π) := by positivity
  have hk' : |180 / (6378245 * (cos (a / 180 * π) * cos (b / 180 * π)) * π)| ≤ 4e-5 := by rw [abs_of_nonneg hk0]; exact hk
  have hv : |(√(magic a) - √(magic b)) * cos (b / 180 * π) - √(magic b) * (cos (a / 180 * π) - cos (b / 180 * π))| ≤ 1.1e-4 := by
    have k1 : |√(magic b)| ≤ 1 := by rw [abs_of_nonneg (by linarith)]; exact hb.2
    have := mul_bound g1 (abs_cos_le_one (b / 180 * π))
    have := mul_bound k1 g2
    refine (abs_sub _ _).trans ?_
    norm_num at *
    linarith
  rw [e]
  exact (mul_bound hv hk').trans (by norm_num)

theorem dLat_diff {a b a' b' : ℝ} (h : InBox a b) (h' : InBox a' b') (hx : |a - a'| ≤ 0.0162) (hy : |b - b'| ≤ 0.0053) :
    |dLat a b - dLat a' b'| ≤ 6e-5 := by
  obtain ⟨h1, h2, h3, h4⟩ := h
  obtain ⟨h1', h2', h3', h4'⟩ := h'
  have t := tlat_diff (x := a - 105) (y := b - 35) (x' := a' - 105) (y' := b' - 35) (by linarith) (by linarith) (by linarith) (by linarith) (by linarith)
    (by linarith) (by linarith) (by linarith) (by simpa using hx) (by simpa using hy)
  have tb := tlat_bound (x := a' - 105) (y := b' - 35) (by linarith) (by linarith) (by linarith) (by linarith)
  have u := uLat_diff hy
  have ub := uLat_bound b
  rw [dLat_eq, dLat_eq]
  have e : tlatR (a - 105) (b - 35) * uLat b - tlatR (a' - 105) (b' - 35) * uLat b' =
    (tlatR (a - 105) (b - 35) - tlatR (a' - 105) (b' - 35)) * uLat b + tlatR (a' - 105) (b' - 35) * (uLat b - uLat b') := by ring
  rw [e]
  have k1 := mul_bound t (show |uLat b| ≤ 9.1e-6 by rw [abs_of_nonneg ub.1]; exact ub.2)
  have k2 := mul_bound tb u
  refine (abs_add_le _ _).trans ((add_le_add k1 k2).trans (by norm_num))

theorem dLon_diff {a b a' b' : ℝ} (h : InBox a b) (h' : InBox a' b') (hx : |a - a'| ≤ 0.0162) (hy : |b - b'| ≤ 0.0053) :
    |dLon a b - dLon a' b'| ≤ 1.5e-4 := by
  obtain ⟨h1, h2, h3, h4⟩ := h
  obtain ⟨h1', h2', h3', h4'⟩ := h'
  have t := tlng_diff (x := a - 105) (y := b - 35) (x' := a' - 105) (y' := b' - 35) (by linarith) (by linarith) (by linarith) (by linarith) (by linarith)
    (by linarith) (by linarith) (by linarith) (by simpa using hx) (by simpa using hy)
  have tb := tlng_bound (x := a' - 105) (y := b' - 35) (by linarith) (by linarith) (by linarith) (by linarith)
  have u := uLon_diff hy h3 h4 h3' h4'
  have ub := uLon_bound h3 h4
  rw [dLon_eq, dLon_eq]
  have e : tlngR (a - 105) (b - 35) * uLon b - tlngR (a' - 105) (b' - 35) * uLon b' =
    (tlngR (a - 105) (b - 35) - tlngR (a' - 105) (b' - 35)) * uLon b + tlngR (a' - 105) (b' - 35) * (uLon b - uLon b') := by ring
  rw [e]
  have k1 := mul_bound t (show |uLon b| ≤ 1.8e-5 by rw [abs_of_nonneg ub.1]; exact ub.2)
  have k2 := mul_bound tb u
  refine (abs_add_le _ _).trans ((add_le_add k1 k2).trans (by norm_num))

end GoGeo.Lonlat

namespace GoGeo.Lonlat
open GoFloat Real

/-! ### BD09, with complex numbers -/

/-- the shift of BD09 without the offset: the radius grows by `f`, the angle by `g` -/
noncomputable def turn (p : ℂ) (f g : ℝ) : ℂ := ((‖p‖ + f : ℝ) : ℂ) * Complex.exp ((p.arg + g : ℝ) * Complex.I)

theorem turn_eq (p : ℂ) (f g : ℝ) : turn p f g = (p + f * Complex.exp (p.arg * Complex.I)) * Complex.exp (g * Complex.I) := by
  unfold turn
  push_cast
  rw [add_mul ((p.arg : ℂ)), Complex.exp_add]
  have h := Complex.norm_mul_exp_arg_mul_I p
  calc ((‖p‖ : ℂ) + f) * (Complex.exp (p.arg * Complex.I) * Complex.exp (g * Complex.I))
      = ((‖p‖ : ℂ) * Complex.exp (p.arg * Complex.I) + f * Complex.exp (p.arg * Complex.I)) * Complex.exp (g * Complex.I) := by ring
    _ = _ := by rw [h]

theorem norm_exp_I (t : ℝ) : ‖Complex.exp (t * Complex.I)‖ = 1 := Complex.norm_exp_ofReal_mul_I t

theorem exp_sub_one (t : ℝ) : ‖Complex.exp (t * Complex.I) - 1‖ ≤ |t| := by
  have := Real.norm_exp_I_mul_ofReal_sub_one_le (x := t)
  rwa [mul_comm, Real.norm_eq_abs] at this

/-- how far a point moves -/
theorem turn_dist (p : ℂ) (f g : ℝ) : ‖turn p f g - p‖ ≤ |f| + ‖p‖ * |g| := by
  have h : turn p f g - p = p * (Complex.exp (g * Complex.I) - 1) + f * (Complex.exp (p.arg * Complex.I) * Complex.exp (g * Complex.I)) := by
    rw [turn_eq]; ring
  rw [h]
  refine (norm_add_le _ _).trans ?_
  rw [norm_mul, norm_mul, norm_mul, norm_exp_I, norm_exp_I, Complex.norm_real, Real.norm_eq_abs]
  have := mul_le_mul_of_nonneg_left (exp_sub_one g) (norm_nonneg p)
  linarith

theorem norm_turn (p : ℂ) (f g : ℝ) : ‖turn p f g‖ = |‖p‖ + f| := by
  unfold turn
  rw [norm_mul, norm_exp_I, Complex.norm_real, Real.norm_eq_abs, mul_one]

/-- turning back by almost the same amounts -/
theorem turn_turn (p : ℂ) (f g f' g' : ℝ) (h : 0 < ‖p‖ + f) : ‖turn (turn p f g) f' g' - p‖ ≤ |f + f'| + ‖p‖ * |g + g'| := by
  have hn : ‖turn p f g‖ = ‖p‖ + f := by rw [norm_turn, abs_of_pos h]
  have hq := Complex.norm_mul_exp_arg_mul_I (turn p f g)
  have he : Complex.exp ((turn p f g).arg * Complex.I) = Complex.exp ((p.arg + g : ℝ) * Complex.I) := by
    have h0 : ((‖p‖ + f : ℝ) : ℂ) ≠ 0 := by exact_mod_cast h.ne'
    rw [hn] at hq
    conv_rhs at hq => unfold turn
    exact mul_left_cancel₀ h0 hq
  have e2 : turn (turn p f g) f' g' = turn p (f + f') (g + g') := by
    unfold turn at he ⊢
    have hn' := hn
    unfold turn at hn'
    rw [hn']
    push_cast at he ⊢
    rw [add_mul _ (g' : ℂ), Complex.exp_add, he, ← Complex.exp_add]
    congr 1
    · ring
    · congr 1; ring
  rw [e2]
  exact turn_dist p _ _

theorem xpi_fin : (X_PI : XR ℝ) = .fin (3000 * π / 180) := by
  show XR.fin _ = _
  norm_num

theorem turn_re (p : ℂ) (f g : ℝ) : (turn p f g).re = (‖p‖ + f) * cos (p.arg + g) := by
  unfold turn
  rw [Complex.re_ofReal_mul, Complex.exp_ofReal_mul_I_re]

theorem turn_im (p : ℂ) (f g : ℝ) : (turn p f g).im = (‖p‖ + f) * sin (p.arg + g) := by
  unfold turn
  rw [Complex.im_ofReal_mul, Complex.exp_ofReal_mul_I_im]

theorem norm_mk (x y : ℝ) : √(x * x + y * y) = ‖(⟨x, y⟩ : ℂ)‖ := by
  rw [Complex.norm_def, Complex.normSq_mk]

/-- `GCJ02toBD09`, in complex numbers -/
theorem toBD_fin (p : ℂ) : GCJ02toBD09 (XR.fin p.re) (XR.fin p.im) =
    (.fin ((turn p (2e-5 * sin (p.im * (3000 * π / 180))) (3e-6 * cos (p.re * (3000 * π / 180)))).re + 0.0065),
      .fin ((turn p (2e-5 * sin (p.im * (3000 * π / 180))) (3e-6 * cos (p.re * (3000 * π / 180)))).im + 0.006)) := by
  rw [turn_re, turn_im]
  unfold GCJ02toBD09
  simp only [XR.fin_mul, XR.fin_add, sqrt_fin (add_nonneg (mul_self_nonneg p.re) (mul_self_nonneg p.im)), xpi_fin, sin_fin, cos_fin, atan2_fin, XR.fin_dec,
    norm_mk]
  norm_num

/-- `BD09toGCJ02`, in complex numbers -/
theorem fromBD_fin (p : ℂ) : BD09toGCJ02 (XR.fin (p.re + 0.0065)) (XR.fin (p.im + 0.006)) =
    (.fin (turn p (-(2e-5 * sin (p.im * (3000 * π / 180)))) (-(3e-6 * cos (p.re * (3000 * π / 180))))).re,
      .fin (turn p (-(2e-5 * sin (p.im * (3000 * π / 180)))) (-(3e-6 * cos (p.re * (3000 * π / 180))))).im) := by
  rw [turn_re, turn_im]
  have e1 : (XR.fin (p.re + 0.0065) : XR ℝ) - dec 65 4 = .fin p.re := by
    rw [XR.fin_dec, XR.fin_sub]; norm_num
  have e2 : (XR.fin (p.im + 0.006) : XR ℝ) - dec 6 3 = .fin p.im := by
    rw [XR.fin_dec, XR.fin_sub]; norm_num
  unfold BD09toGCJ02
  simp only [e1, e2]
  simp only [XR.fin_mul, XR.fin_add, XR.fin_sub, sqrt_fin (add_nonneg (mul_self_nonneg p.re) (mul_self_nonneg p.im)), xpi_fin, sin_fin, cos_fin,
    atan2_fin, XR.fin_dec, norm_mk]
  norm_num [sub_eq_add_neg]

end GoGeo.Lonlat
