import Verif.Props.Published
import Mathlib.MeasureTheory.Integral.IntervalIntegral.FundThmCalculus
import Mathlib.Analysis.SpecialFunctions.Integrals.Basic

/-! # C133: the northing on the central meridian is the length of the meridian -/

set_option linter.unusedSectionVars false

namespace GoGeo.Utm
open GoFloat Real

/-- the Taylor polynomial of `(1 - u) ^ (-3 / 2)` -/
noncomputable def tay (u : ℝ) : ℝ := 1 + 3 / 2 * u + 15 / 8 * u ^ 2 + 35 / 16 * u ^ 3

theorem tay_bounds {u : ℝ} (h0 : 0 ≤ u) (h1 : u ≤ 0.0067) :
    tay u + 2.46 * u ^ 4 ≤ 1 / √(1 - u) ^ 3 ∧ 1 / √(1 - u) ^ 3 ≤ tay u + 2.6 * u ^ 4 := by
  have hw : 0 < √(1 - u) := Real.sqrt_pos.2 (by linarith)
  have hsq : (√(1 - u) ^ 3) ^ 2 = (1 - u) ^ 3 := by
    rw [← pow_mul, mul_comm, pow_mul, Real.sq_sqrt (by linarith)]
  have ht : 0 ≤ tay u := by unfold tay; positivity
  have h4 : 0 ≤ u ^ 4 := by positivity
  have hk : ∀ k : ℕ, 2 ≤ k → 0 ≤ u ^ k ∧ u ^ k ≤ 0.0067 * u := fun k hk => by
    refine ⟨by positivity, ?_⟩
    obtain ⟨m, rfl⟩ := Nat.exists_eq_add_of_le hk
    have : u ^ m ≤ 1 := pow_le_one₀ h0 (by linarith)
    have h3 : u * u ^ m ≤ 0.0067 * 1 := mul_le_mul h1 this (by positivity) (by norm_num)
    calc u ^ (2 + m) = u * (u * u ^ m) := by ring
      _ ≤ u * (0.0067 * 1) := mul_le_mul_of_nonneg_left h3 h0
      _ = 0.0067 * u := by ring
  obtain ⟨a2, b2⟩ := hk 2 (by norm_num)
  obtain ⟨a3, b3⟩ := hk 3 (by norm_num)
  obtain ⟨a5, b5⟩ := hk 5 (by norm_num)
  obtain ⟨a6, b6⟩ := hk 6 (by norm_num)
  obtain ⟨a7, b7⟩ := hk 7 (by norm_num)
  obtain ⟨-, b4⟩ := hk 4 (by norm_num)
  constructor
  · rw [le_div_iff₀ (by positivity)]
    have hn : 0 ≤ (tay u + 2.46 * u ^ 4) * √(1 - u) ^ 3 := by positivity
    refine (sq_le_sq₀ hn (by norm_num)).1 ?_
    rw [mul_pow, hsq]
    have e : (tay u + 2.46 * u ^ 4) ^ 2 * (1 - u) ^ 3 = 1 - u ^ 4 * (3 / 1600 + 4329 / 800 * u - 14433 / 6400 * u ^ 2 - 3093 / 6400 * u ^ 3 -
        33831 / 160000 * u ^ 4 - 19607 / 160000 * u ^ 5 - 73923 / 10000 * u ^ 6 + 15129 / 2500 * u ^ 7) := by
      unfold tay
      ring
    have : 0 ≤ u ^ 4 * (3 / 1600 + 4329 / 800 * u - 14433 / 6400 * u ^ 2 - 3093 / 6400 * u ^ 3 -
        33831 / 160000 * u ^ 4 - 19607 / 160000 * u ^ 5 - 73923 / 10000 * u ^ 6 + 15129 / 2500 * u ^ 7) := mul_nonneg h4 (by linarith)
    rw [e]
    linarith
  · rw [div_le_iff₀ (by positivity)]
    have hn : 0 ≤ (tay u + 2.6 * u ^ 4) * √(1 - u) ^ 3 := by positivity
    refine (sq_le_sq₀ (by norm_num) hn).1 ?_
    rw [mul_pow, hsq]
    have e : (tay u + 2.6 * u ^ 4) ^ 2 * (1 - u) ^ 3 = 1 + u ^ 4 * (89 / 320 - 933 / 160 * u + 3021 / 1280 * u ^ 2 + 641 / 1280 * u ^ 3 +
        1519 / 6400 * u ^ 4 - 4417 / 6400 * u ^ 5 + 1781 / 200 * u ^ 6 - 169 / 25 * u ^ 7) := by
      unfold tay
      ring
    have : 0 ≤ u ^ 4 * (89 / 320 - 933 / 160 * u + 3021 / 1280 * u ^ 2 + 641 / 1280 * u ^ 3 +
        1519 / 6400 * u ^ 4 - 4417 / 6400 * u ^ 5 + 1781 / 200 * u ^ 6 - 169 / 25 * u ^ 7) := mul_nonneg h4 (by linarith)
    rw [e]
    linarith

/-- the derivative of the series -/
noncomputable def slope (a e φ : ℝ) : ℝ :=
  a * ((1 - e / 4 - 3 * e ^ 2 / 64 - 5 * e ^ 3 / 256) - (3 * e / 8 + 3 * e ^ 2 / 32 + 45 * e ^ 3 / 1024) * (cos (2 * φ) * 2) +
    (15 * e ^ 2 / 256 + 45 * e ^ 3 / 1024) * (cos (4 * φ) * 4) - 35 * e ^ 3 / 3072 * (cos (6 * φ) * 6))

theorem slope_deriv (a e φ : ℝ) : HasDerivAt (Spec.meridian a e) (slope a e φ) φ := by
  unfold Spec.meridian slope
  have hs : ∀ k : ℝ, HasDerivAt (fun φ => sin (k * φ)) (cos (k * φ) * k) φ := fun k => by
    have := ((hasDerivAt_id φ).const_mul k).sin
    simpa using this
  have h1 : HasDerivAt (fun φ => (1 - e / 4 - 3 * e ^ 2 / 64 - 5 * e ^ 3 / 256) * φ) (1 - e / 4 - 3 * e ^ 2 / 64 - 5 * e ^ 3 / 256) φ := by
    simpa using (hasDerivAt_id φ).const_mul (1 - e / 4 - 3 * e ^ 2 / 64 - 5 * e ^ 3 / 256)
  exact (((h1.sub ((hs 2).const_mul _)).add ((hs 4).const_mul _)).sub ((hs 6).const_mul _)).const_mul a

theorem slope_eq (a e φ : ℝ) : slope a e φ = a * ((1 - e) * tay (e * sin φ ^ 2) + 35 / 16 * e ^ 4 * (sin φ ^ 2) ^ 3) := by
  have hc : cos (2 * φ) = 1 - 2 * sin φ ^ 2 := by
    have := Real.sin_sq_add_cos_sq φ
    rw [Real.cos_two_mul]; linarith
  have h4 : cos (4 * φ) = 2 * (1 - 2 * sin φ ^ 2) ^ 2 - 1 := by
    rw [show 4 * φ = 2 * (2 * φ) by ring, Real.cos_two_mul, hc]
  have h6 : cos (6 * φ) = 4 * (1 - 2 * sin φ ^ 2) ^ 3 - 3 * (1 - 2 * sin φ ^ 2) := by
    rw [show 6 * φ = 3 * (2 * φ) by ring, Real.cos_three_mul, hc]
  unfold slope tay
  rw [hc, h4, h6]
  ring

theorem slope_near {a e : ℝ} (ha : 0 ≤ a) (h0 : 0 ≤ e) (h1 : e ≤ 0.0067) (φ : ℝ) :
    |slope a e φ - Spec.meridianRadius a e φ| ≤ a * (0.42 * e ^ 4) := by
  have s0 : 0 ≤ sin φ ^ 2 := sq_nonneg _
  have s1 : sin φ ^ 2 ≤ 1 := Real.sin_sq_le_one φ
  have u0 : 0 ≤ e * sin φ ^ 2 := mul_nonneg h0 s0
  have u1 : e * sin φ ^ 2 ≤ 0.0067 := by nlinarith
  obtain ⟨b1, b2⟩ := tay_bounds u0 u1
  rw [slope_eq]
  unfold Spec.meridianRadius
  generalize sin φ ^ 2 = s at *
  have e1 : a * ((1 - e) * tay (e * s) + 35 / 16 * e ^ 4 * s ^ 3) - a * (1 - e) / √(1 - e * s) ^ 3 =
      a * ((1 - e) * (tay (e * s) - 1 / √(1 - e * s) ^ 3) + 35 / 16 * e ^ 4 * s ^ 3) := by ring
  rw [e1, abs_mul, abs_of_nonneg ha]
  refine mul_le_mul_of_nonneg_left ?_ ha
  have e4 : 0 ≤ e ^ 4 := by positivity
  have p4 : (e * s) ^ 4 = e ^ 4 * s ^ 4 := by ring
  rw [p4] at b1 b2
  have s3 : 0 ≤ s ^ 3 := by positivity
  have s3' : s ^ 3 ≤ 1 := pow_le_one₀ s0 s1
  have s4 : 0 ≤ s ^ 4 := by positivity
  have s4' : s ^ 4 ≤ s ^ 3 := by
    have : s ^ 3 * s ≤ s ^ 3 * 1 := mul_le_mul_of_nonneg_left s1 s3
    linarith [show s ^ 4 = s ^ 3 * s by ring]
  have q : 0 ≤ e ^ 4 * s ^ 4 := mul_nonneg e4 s4
  have q1 : e ^ 4 * s ^ 4 ≤ e ^ 4 * s ^ 3 := mul_le_mul_of_nonneg_left s4' e4
  have q2 : e ^ 4 * s ^ 3 ≤ e ^ 4 * 1 := mul_le_mul_of_nonneg_left s3' e4
  have d1 : (1 - e) * (tay (e * s) - 1 / √(1 - e * s) ^ 3) ≤ (1 - e) * (-(2.46 * (e ^ 4 * s ^ 4))) := mul_le_mul_of_nonneg_left (by linarith) (by linarith)
  have d2 : (1 - e) * (-(2.6 * (e ^ 4 * s ^ 4))) ≤ (1 - e) * (tay (e * s) - 1 / √(1 - e * s) ^ 3) := mul_le_mul_of_nonneg_left (by linarith) (by linarith)
  have d3 : e * (e ^ 4 * s ^ 4) ≤ 0.0067 * (e ^ 4 * s ^ 4) := mul_le_mul_of_nonneg_right h1 q
  have d4 : 0 ≤ e * (e ^ 4 * s ^ 4) := mul_nonneg h0 q
  have key : 35 / 16 * s ^ 3 - 2.44 * s ^ 4 ≤ 0.42 := by
    nlinarith [mul_nonneg s3 (sub_nonneg.2 s1), sq_nonneg (s - 0.67), sq_nonneg (s ^ 2 - 0.45), mul_nonneg s0 (sq_nonneg (s - 0.67))]
  have key' : e ^ 4 * (35 / 16 * s ^ 3 - 2.44 * s ^ 4) ≤ e ^ 4 * 0.42 := mul_le_mul_of_nonneg_left key e4
  rw [abs_le]
  constructor
  · linarith
  · linarith

theorem radius_continuous {a e : ℝ} (h0 : 0 ≤ e) (h1 : e ≤ 0.0067) : Continuous (Spec.meridianRadius a e) := by
  unfold Spec.meridianRadius
  refine Continuous.div continuous_const (by fun_prop) fun φ => ?_
  have : sin φ ^ 2 ≤ 1 := Real.sin_sq_le_one φ
  have : 0 < 1 - e * sin φ ^ 2 := by nlinarith [sq_nonneg (sin φ)]
  have := Real.sqrt_pos.2 this
  positivity

theorem slope_continuous (a e : ℝ) : Continuous (slope a e) := by
  unfold slope
  fun_prop

/-- the series is close to the integral -/
theorem meridian_near {a e : ℝ} (ha : 0 ≤ a) (h0 : 0 ≤ e) (h1 : e ≤ 0.0067) (φ : ℝ) :
    |Spec.meridian a e φ - ∫ t in (0 : ℝ)..φ, Spec.meridianRadius a e t| ≤ a * (0.42 * e ^ 4) * |φ| := by
  have i1 : ∫ t in (0 : ℝ)..φ, slope a e t = Spec.meridian a e φ - Spec.meridian a e 0 :=
    intervalIntegral.integral_eq_sub_of_hasDerivAt (fun t _ => slope_deriv a e t) ((slope_continuous a e).intervalIntegrable _ _)
  have z : Spec.meridian a e 0 = 0 := by unfold Spec.meridian; simp
  rw [z, sub_zero] at i1
  rw [← i1, ← intervalIntegral.integral_sub ((slope_continuous a e).intervalIntegrable _ _) ((radius_continuous h0 h1).intervalIntegrable _ _)]
  have := intervalIntegral.norm_integral_le_of_norm_le_const (a := (0 : ℝ)) (b := φ) (f := fun t => slope a e t - Spec.meridianRadius a e t)
    (C := a * (0.42 * e ^ 4)) fun t _ => slope_near ha h0 h1 t
  rwa [sub_zero] at this

/-- C133.  On the central meridian of the zone the northing is 0.9996 times the length of the meridian between the equator and the point (plus ten
million in the south), to within a centimetre. -/
theorem C133_northing (lat lon : ℝ) (northern : Bool) (c : Coord (XR ℝ)) (h : FromLatLon (XR.fin lat) (XR.fin lon) northern = .ok c)
    (hl : lon = 6 * c.zoneNumber - 183) :
    ∃ n, c.northing = .fin n ∧
      |n - ((if lat < 0 then 10000000 else 0) + 0.9996 * ∫ φ in (0 : ℝ)..Spec.rad lat, Spec.meridianRadius 6378137 0.00669438 φ)| < 0.01 := by
  obtain ⟨h1, h2, -⟩ := from_fin h
  obtain ⟨-, hn⟩ := C132_forward lat lon northern c h
  refine ⟨_, hn, ?_⟩
  have hz : Spec.rad (lon - (6 * c.zoneNumber - 183)) = 0 := by
    rw [hl]
    unfold Spec.rad
    simp
  have ht : ∀ φ, Spec.tmNorth 0.9996 6378137 0.00669438 φ 0 = 0.9996 * Spec.meridian 6378137 0.00669438 φ := fun φ => by
    unfold Spec.tmNorth
    simp
  rw [hz, ht]
  have hm := meridian_near (a := 6378137) (e := 0.00669438) (by norm_num) (by norm_num) (by norm_num) (Spec.rad lat)
  have hr : |Spec.rad lat| ≤ 1.5 := by
    have hp := Real.pi_lt_d2
    have hp0 := Real.pi_pos
    unfold Spec.rad
    rw [abs_le]
    constructor <;> nlinarith
  generalize (∫ φ in (0 : ℝ)..Spec.rad lat, Spec.meridianRadius 6378137 0.00669438 φ) = I at hm ⊢
  have e : (if lat < 0 then (10000000 : ℝ) else 0) + 0.9996 * Spec.meridian 6378137 0.00669438 (Spec.rad lat) -
      ((if lat < 0 then 10000000 else 0) + 0.9996 * I) = 0.9996 * (Spec.meridian 6378137 0.00669438 (Spec.rad lat) - I) := by ring
  rw [e, abs_mul, abs_of_pos (by norm_num)]
  have hb : (6378137 : ℝ) * (0.42 * 0.00669438 ^ 4) * |Spec.rad lat| ≤ 6378137 * (0.42 * 0.00669438 ^ 4) * 1.5 :=
    mul_le_mul_of_nonneg_left hr (by norm_num)
  have : (6378137 : ℝ) * (0.42 * 0.00669438 ^ 4) * 1.5 < 0.009 := by norm_num
  linarith

/-- hypotheses of C133_northing: a point on the central meridian of zone 50 -/
example : ∃ c, FromLatLon (XR.fin (48 : ℝ)) (XR.fin (117 : ℝ)) false = .ok c ∧ (117 : ℝ) = 6 * c.zoneNumber - 183 := by
  obtain ⟨c, h⟩ := accepts 48 117 false (by norm_num) (by norm_num) (by norm_num) (by norm_num)
  refine ⟨c, h, ?_⟩
  rw [zone50 h (by norm_num) (by norm_num)]
  norm_num

end GoGeo.Utm
