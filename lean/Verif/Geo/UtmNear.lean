import Verif.Geo.UtmPoly
import Verif.Geo.UtmFoot

/-! # The footpoint latitude off the central meridian -/

set_option linter.unusedSectionVars false

namespace GoGeo.Utm
open Real PB

/-! ### the derivative of the meridian length -/

/-- the derivative of `mC`, over the semi-axis -/
noncomputable def dM (φ : ℝ) : ℝ := m1C - 2 * m2C * cos (2 * φ) + 4 * m3C * cos (4 * φ) - 6 * m4C * cos (6 * φ)

def m1Q : ℚ := 998326405 / 10 ^ 9 - 3 * (448147235844 / 10 ^ 16) / 64 - 5 * (448147235844 / 10 ^ 16 * (669438 / 10 ^ 8)) / 256
def m2Q : ℚ := 25103925 / 10 ^ 10 + 3 * (448147235844 / 10 ^ 16) / 32 + 45 * (448147235844 / 10 ^ 16 * (669438 / 10 ^ 8)) / 1024
def m3Q : ℚ := 15 * (448147235844 / 10 ^ 16) / 256 + 45 * (448147235844 / 10 ^ 16 * (669438 / 10 ^ 8)) / 1024
def m4Q : ℚ := 35 * (448147235844 / 10 ^ 16 * (669438 / 10 ^ 8)) / 3072

theorem m1Q_eq : ((m1Q : ℚ) : ℝ) = m1C := by unfold m1Q m1C e3C e2C eC; push_cast; ring
theorem m2Q_eq : ((m2Q : ℚ) : ℝ) = m2C := by unfold m2Q m2C e3C e2C eC; push_cast; ring
theorem m3Q_eq : ((m3Q : ℚ) : ℝ) = m3C := by unfold m3Q m3C e3C e2C eC; push_cast; ring
theorem m4Q_eq : ((m4Q : ℚ) : ℝ) = m4C := by unfold m4Q m4C e3C e2C eC; push_cast; ring

/-- the start of the series of the square root -/
noncomputable def rootR (z : ℝ) : ℝ := 1 - eC * z * (1 / 2) - eC ^ 2 * z ^ 2 * (1 / 8) - eC ^ 3 * z ^ 3 * (1 / 16)
def rootP (z : PE) : PE := PE.num 1 - PE.num (669438 / 10 ^ 8) * z * PE.num (1 / 2) - PE.num (669438 / 10 ^ 8) ^ 2 * z ^ 2 * PE.num (1 / 8) -
  PE.num (669438 / 10 ^ 8) ^ 3 * z ^ 3 * PE.num (1 / 16)
@[simp] theorem rootP_eval (v : ℕ → ℝ) (z : PE) : (rootP z).eval v = rootR (z.eval v) := by norm_num [rootP, rootR, eC]

theorem root_sq {y : ℝ} (hy : |y| ≤ 1) : |rootR ((1 - y) / 2) ^ 2 - (1 - eC * ((1 - y) / 2))| ≤ 0.000000003 := by
  have hw : Within [y] [1] := ⟨by exact_mod_cast hy, trivial⟩
  have h := PE.bound hw (rootP ((PE.num 1 - PE.var 0) * PE.num (1 / 2)) ^ 2 - (PE.num 1 - PE.num (669438 / 10 ^ 8) * ((PE.num 1 - PE.var 0) * PE.num (1 / 2)))) (3 / 10 ^ 9) (by decide +kernel)
  have e : (rootP ((PE.num 1 - PE.var 0) * PE.num (1 / 2)) ^ 2 - (PE.num 1 - PE.num (669438 / 10 ^ 8) * ((PE.num 1 - PE.var 0) * PE.num (1 / 2)))).eval (env [y]) =
      rootR ((1 - y) / 2) ^ 2 - (1 - eC * ((1 - y) / 2)) := by
    simp only [eval_sub, eval_pow, eval_mul, eval_num, eval_var, rootP_eval, env, eC]
    norm_num [div_eq_mul_inv]
  rw [e] at h
  exact h.trans (by norm_num)

theorem root_near (φ : ℝ) : |√(1 - eC * sin φ * sin φ) - rootR (sin φ ^ 2)| ≤ 0.000000003 := by
  have hs := sqrt_e_sin φ
  have h := root_sq (abs_cos_le_one (2 * φ))
  have hz : (1 - cos (2 * φ)) / 2 = sin φ ^ 2 := by rw [cos_two_mul, cos_sq']; ring
  rw [hz] at h
  have hq : √(1 - eC * sin φ * sin φ) ^ 2 = 1 - eC * sin φ * sin φ := sq_sqrt (by linarith [(e_sin φ).1])
  have hr : 0.99 ≤ rootR (sin φ ^ 2) := by
    have z0 := sq_nonneg (sin φ)
    have z1 : sin φ ^ 2 ≤ 1 := sin_sq_le_one φ
    have z2 : (sin φ ^ 2) ^ 2 ≤ 1 := pow_le_one₀ z0 z1
    have z3 : (sin φ ^ 2) ^ 3 ≤ 1 := pow_le_one₀ z0 z1
    unfold rootR eC
    generalize sin φ ^ 2 = z at *
    linarith
  have hm : |(√(1 - eC * sin φ * sin φ) - rootR (sin φ ^ 2)) * (√(1 - eC * sin φ * sin φ) + rootR (sin φ ^ 2))| ≤ 0.000000003 := by
    rw [show (√(1 - eC * sin φ * sin φ) - rootR (sin φ ^ 2)) * (√(1 - eC * sin φ * sin φ) + rootR (sin φ ^ 2)) =
      -(rootR (sin φ ^ 2) ^ 2 - (1 - eC * sin φ ^ 2)) by linear_combination hq, abs_neg]
    exact h
  rw [abs_mul, abs_of_pos (show 0 < √(1 - eC * sin φ * sin φ) + rootR (sin φ ^ 2) by linarith)] at hm
  have := mul_le_mul_of_nonneg_left (show (1 : ℝ) ≤ √(1 - eC * sin φ * sin φ) + rootR (sin φ ^ 2) by linarith)
    (abs_nonneg (√(1 - eC * sin φ * sin φ) - rootR (sin φ ^ 2)))
  linarith

/-- the series of the meridian length has the derivative it should have -/
theorem dM_check (φ : ℝ) : |dM φ * RR (cos φ ^ 2) * √(1 - eC * sin φ * sin φ) - 1| ≤ 0.00000001 := by
  have hn := root_near φ
  set n := √(1 - eC * sin φ * sin φ) - rootR (sin φ ^ 2) with hn'
  have hs : √(1 - eC * sin φ * sin φ) = rootR (sin φ ^ 2) + n := by rw [hn']; ring
  have hz : (1 - cos (2 * φ)) / 2 = sin φ ^ 2 := by rw [cos_two_mul, cos_sq']; ring
  have hw' : (1 + cos (2 * φ)) / 2 = cos φ ^ 2 := by rw [cos_two_mul]; ring
  have d4 : cos (4 * φ) = 2 * cos (2 * φ) ^ 2 - 1 := by rw [show 4 * φ = 2 * (2 * φ) by ring, cos_two_mul]
  have d6 : cos (6 * φ) = 4 * cos (2 * φ) ^ 3 - 3 * cos (2 * φ) := by rw [show 6 * φ = 3 * (2 * φ) by ring, cos_three_mul]
  have hy := abs_cos_le_one (2 * φ)
  unfold dM
  rw [hs, d4, d6, ← hz, ← hw']
  generalize cos (2 * φ) = y at *
  have hw : Within [y, n] [1, 3 / 10 ^ 9] := ⟨by exact_mod_cast hy, by norm_num at *; linarith, trivial⟩
  have h := PE.bound hw ((PE.num m1Q - PE.num 2 * PE.num m2Q * PE.var 0 + PE.num 4 * PE.num m3Q * (PE.num 2 * PE.var 0 ^ 2 - PE.num 1) -
    PE.num 6 * PE.num m4Q * (PE.num 4 * PE.var 0 ^ 3 - PE.num 3 * PE.var 0)) * RP ((PE.num 1 + PE.var 0) * PE.num (1 / 2)) *
    (rootP ((PE.num 1 - PE.var 0) * PE.num (1 / 2)) + PE.var 1) - PE.num 1) (1 / 10 ^ 8) (by decide +kernel)
  have e : ((PE.num m1Q - PE.num 2 * PE.num m2Q * PE.var 0 + PE.num 4 * PE.num m3Q * (PE.num 2 * PE.var 0 ^ 2 - PE.num 1) -
    PE.num 6 * PE.num m4Q * (PE.num 4 * PE.var 0 ^ 3 - PE.num 3 * PE.var 0)) * RP ((PE.num 1 + PE.var 0) * PE.num (1 / 2)) *
    (rootP ((PE.num 1 - PE.var 0) * PE.num (1 / 2)) + PE.var 1) - PE.num 1 : PE).eval (env [y, n]) =
      (m1C - 2 * m2C * y + 4 * m3C * (2 * y ^ 2 - 1) - 6 * m4C * (4 * y ^ 3 - 3 * y)) * RR ((1 + y) / 2) * (rootR ((1 - y) / 2) + n) - 1 := by
    simp only [eval_sub, eval_add, eval_pow, eval_mul, eval_num, eval_var, rootP_eval, RP_eval, m1Q_eq, m2Q_eq, m3Q_eq, m4Q_eq, env]
    norm_num [div_eq_mul_inv]
  rw [e] at h
  exact h.trans (by norm_num)

/-! ### the meridian length near a latitude -/

theorem sin_lin (a : ℝ) {b : ℝ} (hb : |b| ≤ 0.02) : |sin (a + b) - sin a - b * cos a| ≤ 0.51 * b ^ 2 := by
  have h1 : |cos b - 1| ≤ b ^ 2 / 2 := by
    rw [abs_sub_comm, abs_of_nonneg (by linarith [cos_le_one b])]
    linarith [one_sub_sq_div_two_le_cos (x := b)]
  have h2 : |sin b - b| ≤ 0.01 * b ^ 2 := by
    have h := small_sin (le_refl |b|) (hb.trans (by norm_num))
    have e2 : b ^ 2 = |b| ^ 2 := (sq_abs b).symm
    rw [e2]
    refine h.trans ?_
    have p := abs_nonneg b
    have k2 : |b| ^ 2 * |b| ≤ |b| ^ 2 * 0.02 := mul_le_mul_of_nonneg_left hb (by positivity)
    have k3 : |b| ^ 2 * |b| ^ 3 ≤ |b| ^ 2 * 0.02 ^ 3 := mul_le_mul_of_nonneg_left (pow_le_pow_left₀ p hb 3) (by positivity)
    have k4 : (0 : ℝ) ≤ |b| ^ 2 := by positivity
    rw [show |b| ^ 3 = |b| ^ 2 * |b| by ring, show |b| ^ 5 = |b| ^ 2 * |b| ^ 3 by ring]
    norm_num at *
    linarith
  have e : sin (a + b) - sin a - b * cos a = sin a * (cos b - 1) + cos a * (sin b - b) := by rw [sin_add]; ring
  rw [e]
  refine (abs_add_le _ _).trans ?_
  have k1 := Lonlat.mul_bound (abs_sin_le_one a) h1
  have k2 := Lonlat.mul_bound (abs_cos_le_one a) h2
  linarith

theorem mC_lin (φ : ℝ) {k : ℝ} (hk : |k| ≤ 0.003) : |mC (φ + k) - mC φ - 6378137 * dM φ * k| ≤ 6378137 * (0.0052 * k ^ 2) := by
  have b2 : |2 * k| ≤ 0.02 := by rw [abs_mul]; norm_num at *; linarith
  have b4 : |4 * k| ≤ 0.02 := by rw [abs_mul]; norm_num at *; linarith
  have b6 : |6 * k| ≤ 0.02 := by rw [abs_mul]; norm_num at *; linarith
  have h2 := sin_lin (2 * φ) b2
  have h4 := sin_lin (4 * φ) b4
  have h6 := sin_lin (6 * φ) b6
  have c2 : |m2C| ≤ 0.002515 := abs_pos_le (by unfold m2C e3C e2C eC; norm_num) (by unfold m2C e3C e2C eC; norm_num)
  have c3 : |m3C| ≤ 0.000003 := abs_pos_le (by unfold m3C e3C e2C eC; norm_num) (by unfold m3C e3C e2C eC; norm_num)
  have c4 : |m4C| ≤ 0.00000001 := abs_pos_le (by unfold m4C e3C e2C eC; norm_num) (by unfold m4C e3C e2C eC; norm_num)
  have k2 := Lonlat.mul_bound c2 h2
  have k4 := Lonlat.mul_bound c3 h4
  have k6 := Lonlat.mul_bound c4 h6
  have e : mC (φ + k) - mC φ - 6378137 * dM φ * k = 6378137 * (-(m2C * (sin (2 * φ + 2 * k) - sin (2 * φ) - 2 * k * cos (2 * φ))) +
      m3C * (sin (4 * φ + 4 * k) - sin (4 * φ) - 4 * k * cos (4 * φ)) + -(m4C * (sin (6 * φ + 6 * k) - sin (6 * φ) - 6 * k * cos (6 * φ)))) := by
    unfold mC dM
    rw [mul_add 2, mul_add 4, mul_add 6]
    ring
  rw [e, abs_mul, abs_of_pos (by norm_num : (0 : ℝ) < 6378137)]
  refine mul_le_mul_of_nonneg_left ?_ (by norm_num)
  refine (abs_add_le _ _).trans ?_
  refine (add_le_add (abs_add_le _ _) le_rfl).trans ?_
  rw [abs_neg, abs_neg]
  have k0 := sq_nonneg k
  have e2 : (2 * k) ^ 2 = 4 * k ^ 2 := by ring
  have e4 : (4 * k) ^ 2 = 16 * k ^ 2 := by ring
  have e6 : (6 * k) ^ 2 = 36 * k ^ 2 := by ring
  rw [e2] at k2
  rw [e4] at k4
  rw [e6] at k6
  linarith

theorem foot_lip (m m' : ℝ) : |foot (k0C * m) - foot (k0C * m')| ≤ 1.007 * |m - m'| / 6378137 := by
  have hk : k0C ≠ 0 := by unfold k0C; norm_num
  have hm := m1C_bound
  have q2 := p2C_bounds
  have q3 := p3C_bounds
  have q4 := p4C_bounds
  have q5 := p5C_bounds
  have P2 : |p2C| ≤ 0.00252 := abs_pos_le (by linarith [q2.1]) (by linarith [q2.2])
  have P3 : |p3C| ≤ 0.000004 := abs_pos_le (by linarith [q3.1]) (by linarith [q3.2])
  have P4 : |p4C| ≤ 0.00000001 := abs_pos_le (by linarith [q4.1]) (by linarith [q4.2])
  have P5 : |p5C| ≤ 0.00000001 := abs_pos_le (by linarith [q5.1]) (by linarith [q5.2])
  unfold foot
  simp only [mul_div_cancel_left₀ _ hk]
  have hd : m / (6378137 * m1C) - m' / (6378137 * m1C) = (m - m') / (6378137 * m1C) := by ring
  have hd' : |m / (6378137 * m1C) - m' / (6378137 * m1C)| ≤ 1.0017 * |m - m'| / 6378137 := by
    rw [hd, abs_div, abs_of_pos (show 0 < 6378137 * m1C by linarith), div_le_div_iff₀ (by linarith) (by norm_num)]
    have := abs_nonneg (m - m')
    nlinarith
  generalize m / (6378137 * m1C) = a at *
  generalize m' / (6378137 * m1C) = b at *
  have s (c : ℝ) (hc : 0 < c) : |sin (c * a) - sin (c * b)| ≤ c * |a - b| := by
    refine (abs_sin_sub_sin_le _ _).trans ?_
    rw [← mul_sub, abs_mul, abs_of_pos hc]
  have t2 := Lonlat.mul_bound P2 (s 2 (by norm_num))
  have t4 := Lonlat.mul_bound P3 (s 4 (by norm_num))
  have t6 := Lonlat.mul_bound P4 (s 6 (by norm_num))
  have t8 := Lonlat.mul_bound P5 (s 8 (by norm_num))
  have e : a + p2C * sin (2 * a) + p3C * sin (4 * a) + p4C * sin (6 * a) + p5C * sin (8 * a) -
      (b + p2C * sin (2 * b) + p3C * sin (4 * b) + p4C * sin (6 * b) + p5C * sin (8 * b)) =
      (a - b) + p2C * (sin (2 * a) - sin (2 * b)) + p3C * (sin (4 * a) - sin (4 * b)) + p4C * (sin (6 * a) - sin (6 * b)) +
        p5C * (sin (8 * a) - sin (8 * b)) := by ring
  rw [e]
  refine (abs_add_le _ _).trans ?_
  refine (add_le_add (abs_add_le _ _) le_rfl).trans ?_
  refine (add_le_add (add_le_add (abs_add_le _ _) le_rfl) le_rfl).trans ?_
  refine (add_le_add (add_le_add (add_le_add (abs_add_le _ _) le_rfl) le_rfl) le_rfl).trans ?_
  have := abs_nonneg (a - b)
  have := abs_nonneg (m - m')
  linarith

/-- the footpoint of the northing `mC φ + N T` is at `φ + R T` -/
theorem foot_near (φ T B : ℝ) (hT : |RR (cos φ ^ 2) * T| ≤ B) (hB : B ≤ 0.003) :
    |foot (k0C * (mC φ + nC φ * T)) - (φ + RR (cos φ ^ 2) * T)| ≤ 0.000000001 + 1.007 * (0.0052 * B ^ 2 + 0.0000000102 * B) := by
  set k := RR (cos φ ^ 2) * T with hk
  have h1 := foot_mC (φ + k)
  have h2 := foot_lip (mC φ + nC φ * T) (mC (φ + k))
  have h3 := mC_lin φ (hT.trans hB)
  have h4 := dM_check φ
  have hs := sqrt_e_sin φ
  have hR : 1 ≤ RR (cos φ ^ 2) := by
    unfold RR eP2C
    exact le_add_of_nonneg_right (by positivity)
  have hT' : |T| ≤ B := by
    refine le_trans ?_ hT
    rw [hk, abs_mul, abs_of_pos (show 0 < RR (cos φ ^ 2) by linarith)]
    exact le_mul_of_one_le_left (abs_nonneg T) hR
  have e : nC φ * T - 6378137 * dM φ * k = -(nC φ * T) * (dM φ * RR (cos φ ^ 2) * √(1 - eC * sin φ * sin φ) - 1) := by
    rw [hk]
    unfold nC
    have : √(1 - eC * sin φ * sin φ) ≠ 0 := by linarith
    generalize √(1 - eC * sin φ * sin φ) = q at *
    field_simp
    ring
  have hN : |nC φ| ≤ 1.0102 * 6378137 := by
    have : 0 < √(1 - eC * sin φ * sin φ) := by linarith
    unfold nC
    rw [abs_div, abs_of_pos this, abs_of_pos (by norm_num : (0 : ℝ) < 6378137), div_le_iff₀ this]
    linarith
  have h5 : |nC φ * T - 6378137 * dM φ * k| ≤ 1.0102 * 6378137 * B * 0.00000001 := by
    rw [e]
    refine Lonlat.mul_bound ?_ h4
    rw [abs_neg]
    exact Lonlat.mul_bound hN hT'
  have h6 : |mC φ + nC φ * T - mC (φ + k)| ≤ 6378137 * (0.0052 * B ^ 2 + 0.000000010102 * B) := by
    have e2 : mC φ + nC φ * T - mC (φ + k) = (nC φ * T - 6378137 * dM φ * k) - (mC (φ + k) - mC φ - 6378137 * dM φ * k) := by ring
    rw [e2]
    refine (abs_sub _ _).trans ?_
    have kk : k ^ 2 ≤ B ^ 2 := by rw [← sq_abs k]; exact pow_le_pow_left₀ (abs_nonneg _) hT 2
    linarith
  have e3 : foot (k0C * (mC φ + nC φ * T)) - (φ + k) = (foot (k0C * (mC φ + nC φ * T)) - foot (k0C * mC (φ + k))) + (foot (k0C * mC (φ + k)) - (φ + k)) := by ring
  rw [e3]
  refine (abs_add_le _ _).trans ?_
  have hB0 : 0 ≤ B := (abs_nonneg _).trans hT
  rw [le_div_iff₀ (by norm_num)] at h2
  linarith

end GoGeo.Utm
