import Verif.Geo.UtmReal

/-! # The footpoint latitude inverts the meridian length -/

set_option linter.unusedSectionVars false

namespace GoGeo.Utm
open Real

/-- `p^2 … p^5` of the third flattening -/
theorem fe_bounds : 0.00167922038886497 < feC ∧ feC < 0.00167922038886499 := by
  have hs := sqrtC_bound
  unfold feC
  constructor
  · rw [lt_div_iff₀ (by linarith)]; linarith
  · rw [div_lt_iff₀ (by linarith)]; linarith

theorem fe_pow (n : ℕ) : 0.00167922038886497 ^ n ≤ feC ^ n ∧ feC ^ n ≤ 0.00167922038886499 ^ n := by
  obtain ⟨h1, h2⟩ := fe_bounds
  exact ⟨pow_le_pow_left₀ (by norm_num) h1.le n, pow_le_pow_left₀ (by linarith) h2.le n⟩

theorem p2C_bounds : 0.0025188265881195 < p2C ∧ p2C < 0.0025188265881197 := by
  have h1 := fe_bounds
  have h3 := fe_pow 3
  have h5 := fe_pow 5
  have e : p2C = 3 / 2 * feC - 27 / 32 * feC ^ 3 + 269 / 512 * feC ^ 5 := by unfold p2C; ring
  rw [e]
  norm_num at *
  constructor <;> linarith

theorem p3C_bounds : 0.0000037009490465 < p3C ∧ p3C < 0.0000037009490467 := by
  have h2 := fe_pow 2
  have h4 := fe_pow 4
  have e : p3C = 21 / 16 * feC ^ 2 - 55 / 32 * feC ^ 4 := by unfold p3C; ring
  rw [e]
  norm_num at *
  constructor <;> linarith

theorem p4C_bounds : 0.0000000074477 < p4C ∧ p4C < 0.0000000074478 := by
  have h3 := fe_pow 3
  have h5 := fe_pow 5
  have e : p4C = 151 / 96 * feC ^ 3 - 417 / 128 * feC ^ 5 := by unfold p4C; ring
  rw [e]
  norm_num at *
  constructor <;> linarith

theorem p5C_bounds : 0.000000000017 < p5C ∧ p5C < 0.0000000000171 := by
  have h4 := fe_pow 4
  have e : p5C = 1097 / 512 * feC ^ 4 := by unfold p5C; ring
  rw [e]
  norm_num at *
  constructor <;> linarith

/-- the coefficients of the meridian length over the first -/
noncomputable def mα : ℝ := m2C / m1C
noncomputable def mβ : ℝ := m3C / m1C
noncomputable def mγ : ℝ := m4C / m1C

theorem m1C_pos : 0 < m1C := by linarith [m1C_bound.1]

theorem mα_bounds : 0.0025188278679899 < mα ∧ mα < 0.002518827867990 := by
  have := m1C_pos
  unfold mα
  rw [lt_div_iff₀ this, div_lt_iff₀ this]
  unfold m1C m2C e3C e2C eC
  norm_num

theorem mβ_bounds : 0.0000026434762794 < mβ ∧ mβ < 0.0000026434762795 := by
  have := m1C_pos
  unfold mβ
  rw [lt_div_iff₀ this, div_lt_iff₀ this]
  unfold m1C m3C e3C e2C eC
  norm_num

theorem mγ_bounds : 0.0000000034237 < mγ ∧ mγ < 0.0000000034238 := by
  have := m1C_pos
  unfold mγ
  rw [lt_div_iff₀ this, div_lt_iff₀ this]
  unfold m1C m4C e3C e2C eC
  norm_num

/-- the correction between latitude and rectifying latitude -/
noncomputable def mε (ψ : ℝ) : ℝ := mα * sin (2 * ψ) - mβ * sin (4 * ψ) + mγ * sin (6 * ψ)

theorem mu_eq (ψ : ℝ) : k0C * mC ψ / k0C / (6378137 * m1C) = ψ - mε ψ := by
  have := m1C_pos
  have k : k0C ≠ 0 := by unfold k0C; norm_num
  unfold mC mε mα mβ mγ
  field_simp
  ring

theorem abs_pos_le {x b : ℝ} (h0 : 0 < x) (h : x < b) : |x| ≤ b := by rw [abs_of_pos h0]; exact h.le

theorem mε_split (ψ : ℝ) : ∃ η, mε ψ = mα * sin (2 * ψ) + η ∧ |η| ≤ 0.00000265 := by
  refine ⟨-(mβ * sin (4 * ψ)) + mγ * sin (6 * ψ), by unfold mε; ring, ?_⟩
  have b := mβ_bounds
  have g := mγ_bounds
  have k1 := Lonlat.mul_bound (abs_pos_le (by linarith [b.1]) b.2) (abs_sin_le_one (4 * ψ))
  have k2 := Lonlat.mul_bound (abs_pos_le (by linarith [g.1]) g.2) (abs_sin_le_one (6 * ψ))
  refine (abs_add_le _ _).trans ?_
  rw [abs_neg]
  norm_num at *
  linarith

theorem mε_bound (ψ : ℝ) : |mε ψ| ≤ 0.0025215 := by
  obtain ⟨η, h1, h2⟩ := mε_split ψ
  have a := mα_bounds
  rw [h1]
  have k1 := Lonlat.mul_bound (abs_pos_le (by linarith [a.1]) a.2) (abs_sin_le_one (2 * ψ))
  refine (abs_add_le _ _).trans ?_
  norm_num at *
  linarith

/-- sine and cosine of a small angle -/
theorem small_sin {x b : ℝ} (h : |x| ≤ b) (hb : b ≤ 1) : |sin x - x| ≤ b ^ 3 / 6 + b ^ 5 / 100 := by
  have h1 := Real.sin_bound (h.trans hb)
  have h3 : |x ^ 3 / 6| ≤ b ^ 3 / 6 := by
    rw [abs_div, abs_pow]
    have := pow_le_pow_left₀ (abs_nonneg x) h 3
    norm_num
    linarith
  have h4 := pow_le_pow_left₀ (abs_nonneg x) h 5
  have e : sin x - x = (sin x - (x - x ^ 3 / 6)) - x ^ 3 / 6 := by ring
  rw [e]
  refine (abs_sub _ _).trans ?_
  linarith

theorem small_cos {x b : ℝ} (h : |x| ≤ b) (hb : b ≤ 1) : |cos x - (1 - x ^ 2 / 2)| ≤ b ^ 4 * (5 / 96) := by
  have h1 := Real.cos_bound (h.trans hb)
  have h4 := pow_le_pow_left₀ (abs_nonneg x) h 4
  linarith

/-- the part of the footpoint series that is not small -/
theorem main_part (S C : ℝ) (h : S ^ 2 + C ^ 2 = 1) :
    |S * ((-mα + mγ + p2C - 2 * p2C * mα ^ 2 + 4 * p3C * mα - p4C) + (2 * mβ + 2 * p3C - 2 * p2C * mα) * C +
      (-4 * mγ + 2 * p2C * mα ^ 2 + 4 * p2C * mβ - 8 * p3C * mα + 4 * p4C) * C ^ 2)| ≤ 0.00000000028 := by
  have a := mα_bounds
  have b := mβ_bounds
  have g := mγ_bounds
  have q2 := p2C_bounds
  have q3 := p3C_bounds
  have q4 := p4C_bounds
  have hS : |S| ≤ 1 := abs_le_one_iff_mul_self_le_one.2 (by nlinarith [sq_nonneg C])
  have hC : |C| ≤ 1 := abs_le_one_iff_mul_self_le_one.2 (by nlinarith [sq_nonneg S])
  have hC2 : |C ^ 2| ≤ 1 := by rw [abs_pow]; exact pow_le_one₀ (abs_nonneg _) hC
  have pa : (0.0025188265881195 : ℝ) * 0.0025188278679899 ≤ p2C * mα ∧ p2C * mα ≤ 0.0025188265881197 * 0.002518827867990 :=
    ⟨mul_le_mul q2.1.le a.1.le (by norm_num) (by linarith), mul_le_mul q2.2.le a.2.le (by linarith [a.1]) (by norm_num)⟩
  have paa : (0.0025188265881195 * 0.0025188278679899 : ℝ) * 0.0025188278679899 ≤ p2C * mα * mα ∧ p2C * mα * mα ≤ 0.0025188265881197 * 0.002518827867990 * 0.002518827867990 :=
    ⟨mul_le_mul pa.1 a.1.le (by norm_num) (by linarith [pa.1]), mul_le_mul pa.2 a.2.le (by linarith [a.1]) (by norm_num)⟩
  have p3a : (0.0000037009490465 : ℝ) * 0.0025188278679899 ≤ p3C * mα ∧ p3C * mα ≤ 0.0000037009490467 * 0.002518827867990 :=
    ⟨mul_le_mul q3.1.le a.1.le (by norm_num) (by linarith), mul_le_mul q3.2.le a.2.le (by linarith [a.1]) (by norm_num)⟩
  have p2b : (0.0025188265881195 : ℝ) * 0.0000026434762794 ≤ p2C * mβ ∧ p2C * mβ ≤ 0.0025188265881197 * 0.0000026434762795 :=
    ⟨mul_le_mul q2.1.le b.1.le (by norm_num) (by linarith), mul_le_mul q2.2.le b.2.le (by linarith [b.1]) (by norm_num)⟩
  have e2 : 2 * p2C * mα ^ 2 = 2 * (p2C * mα * mα) := by ring
  have c0 : |-mα + mγ + p2C - 2 * p2C * mα ^ 2 + 4 * p3C * mα - p4C| ≤ 0.000000000025 := by
    rw [e2, abs_le]
    norm_num at *
    constructor <;> linarith
  have c1 : |2 * mβ + 2 * p3C - 2 * p2C * mα| ≤ 0.000000000132 := by
    rw [abs_le]
    norm_num at *
    constructor <;> linarith
  have c2 : |-4 * mγ + 2 * p2C * mα ^ 2 + 4 * p2C * mβ - 8 * p3C * mα + 4 * p4C| ≤ 0.000000000117 := by
    rw [e2, abs_le]
    norm_num at *
    constructor <;> linarith
  have k1 := Lonlat.mul_bound c1 hC
  have k2 := Lonlat.mul_bound c2 hC2
  refine (Lonlat.mul_bound (B := 0.00000000028) hS ?_).trans (by norm_num)
  refine (abs_add_le _ _).trans ?_
  refine (add_le_add (abs_add_le _ _) le_rfl).trans ?_
  norm_num at *
  linarith

/-- **The footpoint latitude of the meridian length.** -/
theorem foot_mC (ψ : ℝ) : |foot (k0C * mC ψ) - ψ| ≤ 0.000000001 := by
  have a := mα_bounds
  have b := mβ_bounds
  have g := mγ_bounds
  have q2 := p2C_bounds
  have q3 := p3C_bounds
  have q4 := p4C_bounds
  have q5 := p5C_bounds
  have hε := mε_bound ψ
  obtain ⟨η, hη, hη'⟩ := mε_split ψ
  have hηε : mε ψ = mα * sin (2 * ψ) - mβ * sin (4 * ψ) + mγ * sin (6 * ψ) := rfl
  unfold foot
  simp only [mu_eq]
  generalize mε ψ = ε at *
  have s2 : sin (2 * (ψ - ε)) = sin (2 * ψ) * cos (2 * ε) - cos (2 * ψ) * sin (2 * ε) := by rw [mul_sub, sin_sub]
  have s4 : sin (4 * (ψ - ε)) = sin (4 * ψ) * cos (4 * ε) - cos (4 * ψ) * sin (4 * ε) := by rw [mul_sub, sin_sub]
  have e2 : |2 * ε| ≤ 0.005043 := by rw [abs_mul, abs_two]; norm_num at *; linarith
  have e4 : |4 * ε| ≤ 0.010086 := by rw [abs_mul, abs_of_pos (by norm_num : (0 : ℝ) < 4)]; norm_num at *; linarith
  have e6 : |6 * ε| ≤ 0.015129 := by rw [abs_mul, abs_of_pos (by norm_num : (0 : ℝ) < 6)]; norm_num at *; linarith
  have r2s := small_sin e2 (by norm_num)
  have r2c := small_cos e2 (by norm_num)
  have r4s := small_sin e4 (by norm_num)
  have r4c : |cos (4 * ε) - 1| ≤ 0.0000509 := by
    have h := small_cos e4 (by norm_num)
    have e : cos (4 * ε) - 1 = (cos (4 * ε) - (1 - (4 * ε) ^ 2 / 2)) - (4 * ε) ^ 2 / 2 := by ring
    rw [e]
    refine (abs_sub _ _).trans ?_
    have h2 : |(4 * ε) ^ 2 / 2| ≤ 0.010086 ^ 2 / 2 := by
      rw [abs_div, abs_pow, abs_two]
      have := pow_le_pow_left₀ (abs_nonneg _) e4 2
      linarith
    norm_num at *
    linarith
  have r6 : |sin (6 * (ψ - ε)) - sin (6 * ψ)| ≤ 0.015129 := by
    refine (abs_sin_sub_sin_le _ _).trans ?_
    rw [show 6 * (ψ - ε) - 6 * ψ = -(6 * ε) by ring, abs_neg]; exact e6
  have d4 : sin (4 * ψ) = 2 * sin (2 * ψ) * cos (2 * ψ) := by rw [show 4 * ψ = 2 * (2 * ψ) by ring, sin_two_mul]
  have d4' : cos (4 * ψ) = 2 * cos (2 * ψ) ^ 2 - 1 := by rw [show 4 * ψ = 2 * (2 * ψ) by ring, cos_two_mul]
  have d6 : sin (6 * ψ) = 3 * sin (2 * ψ) - 4 * sin (2 * ψ) ^ 3 := by rw [show 6 * ψ = 3 * (2 * ψ) by ring, sin_three_mul]
  have hSC := sin_sq_add_cos_sq (2 * ψ)
  have bS := abs_sin_le_one (2 * ψ)
  have bC := abs_cos_le_one (2 * ψ)
  have bS4 := abs_sin_le_one (4 * ψ)
  have bC4 := abs_cos_le_one (4 * ψ)
  have bS6 := abs_sin_le_one (6 * ψ)
  have bS8 := abs_sin_le_one (8 * (ψ - ε))
  have hm := main_part (sin (2 * ψ)) (cos (2 * ψ)) hSC
  have P2 : |p2C| ≤ 0.002518827 := abs_pos_le (by linarith [q2.1]) (by linarith [q2.2])
  have P3 : |p3C| ≤ 0.00000370095 := abs_pos_le (by linarith [q3.1]) (by linarith [q3.2])
  have P4 : |p4C| ≤ 0.0000000074478 := abs_pos_le (by linarith [q4.1]) (by linarith [q4.2])
  have P5 : |p5C| ≤ 0.0000000000171 := abs_pos_le (by linarith [q5.1]) (by linarith [q5.2])
  have A : |mα| ≤ 0.002518828 := abs_pos_le (by linarith [a.1]) (by linarith [a.2])
  have G : |mγ| ≤ 0.0000000034238 := abs_pos_le (by linarith [g.1]) (by linarith [g.2])
  -- the small parts
  have t1 : |p2C * (sin (2 * ψ) * (cos (2 * ε) - (1 - (2 * ε) ^ 2 / 2)))| ≤ 0.0000000000001 :=
    (Lonlat.mul_bound P2 (Lonlat.mul_bound bS r2c)).trans (by norm_num)
  have t2 : |p2C * (cos (2 * ψ) * (sin (2 * ε) - 2 * ε))| ≤ 0.000000000055 :=
    (Lonlat.mul_bound P2 (Lonlat.mul_bound bC r2s)).trans (by norm_num)
  have t3 : |p2C * (sin (2 * ψ) * (2 * (2 * (mα * sin (2 * ψ)) * η + η * η)))| ≤ 0.000000000068 := by
    have h1 : |2 * (2 * (mα * sin (2 * ψ)) * η + η * η)| ≤ 2 * (2 * (0.002518828 * 1) * 0.00000265 + 0.00000265 * 0.00000265) := by
      refine Lonlat.mul_bound (by norm_num) ((abs_add_le _ _).trans (add_le_add ?_ ?_))
      · exact Lonlat.mul_bound (Lonlat.mul_bound (by norm_num) (Lonlat.mul_bound A bS)) hη'
      · exact Lonlat.mul_bound hη' hη'
    exact (Lonlat.mul_bound P2 (Lonlat.mul_bound bS h1)).trans (by norm_num)
  have t4 : |p2C * (2 * (cos (2 * ψ) * (mγ * sin (6 * ψ))))| ≤ 0.000000000018 :=
    (Lonlat.mul_bound P2 (Lonlat.mul_bound (B := 1 * (0.0000000034238 * 1)) (by norm_num : |(2 : ℝ)| ≤ 2) (Lonlat.mul_bound bC (Lonlat.mul_bound G bS6)))).trans (by norm_num)
  have t5 : |p3C * (sin (4 * ψ) * (cos (4 * ε) - 1))| ≤ 0.00000000019 :=
    (Lonlat.mul_bound P3 (Lonlat.mul_bound bS4 r4c)).trans (by norm_num)
  have t6 : |p3C * (cos (4 * ψ) * (sin (4 * ε) - 4 * ε))| ≤ 0.000000000001 :=
    (Lonlat.mul_bound P3 (Lonlat.mul_bound bC4 r4s)).trans (by norm_num)
  have t7 : |p3C * (4 * (cos (4 * ψ) * η))| ≤ 0.00000000004 :=
    (Lonlat.mul_bound P3 (Lonlat.mul_bound (by norm_num : |(4 : ℝ)| ≤ 4) (Lonlat.mul_bound bC4 hη'))).trans (by norm_num)
  have t8 : |p4C * (sin (6 * (ψ - ε)) - sin (6 * ψ))| ≤ 0.000000000113 :=
    (Lonlat.mul_bound P4 r6).trans (by norm_num)
  have t9 : |p5C * sin (8 * (ψ - ε))| ≤ 0.000000000018 :=
    (Lonlat.mul_bound P5 bS8).trans (by norm_num)
  have key : ψ - ε + p2C * sin (2 * (ψ - ε)) + p3C * sin (4 * (ψ - ε)) + p4C * sin (6 * (ψ - ε)) + p5C * sin (8 * (ψ - ε)) - ψ =
      sin (2 * ψ) * ((-mα + mγ + p2C - 2 * p2C * mα ^ 2 + 4 * p3C * mα - p4C) + (2 * mβ + 2 * p3C - 2 * p2C * mα) * cos (2 * ψ) +
        (-4 * mγ + 2 * p2C * mα ^ 2 + 4 * p2C * mβ - 8 * p3C * mα + 4 * p4C) * cos (2 * ψ) ^ 2) +
      p2C * (sin (2 * ψ) * (cos (2 * ε) - (1 - (2 * ε) ^ 2 / 2))) - p2C * (cos (2 * ψ) * (sin (2 * ε) - 2 * ε)) -
      p2C * (sin (2 * ψ) * (2 * (2 * (mα * sin (2 * ψ)) * η + η * η))) - p2C * (2 * (cos (2 * ψ) * (mγ * sin (6 * ψ)))) +
      p3C * (sin (4 * ψ) * (cos (4 * ε) - 1)) - p3C * (cos (4 * ψ) * (sin (4 * ε) - 4 * ε)) - p3C * (4 * (cos (4 * ψ) * η)) +
      p4C * (sin (6 * (ψ - ε)) - sin (6 * ψ)) + p5C * sin (8 * (ψ - ε)) := by
    rw [s2, s4]
    have x1 : (4 : ℝ) * (cos (4 * ψ) * η) = 4 * (cos (4 * ψ) * (ε - mα * sin (2 * ψ))) := by rw [hη]; ring
    generalize sin (6 * (ψ - ε)) = u6
    generalize sin (8 * (ψ - ε)) = u8
    generalize cos (2 * ε) = c2
    generalize cos (4 * ε) = c4
    generalize sin (2 * ε) = z2
    generalize sin (4 * ε) = z4
    rw [d4, d6] at hηε
    rw [d4, d4', d6]
    generalize sin (2 * ψ) = S at *
    generalize cos (2 * ψ) = C at *
    linear_combination (-1 - 2 * p2C * C) * hηε + (-2 * p2C * S * (ε + mα * S + η) - 4 * p3C * (2 * C ^ 2 - 1)) * hη +
      (-4 * S * p4C + 4 * S * mγ - 2 * p2C * mα ^ 2 * S) * hSC
  rw [key]
  rw [abs_le] at *
  norm_num at *
  constructor <;> linarith

end GoGeo.Utm
