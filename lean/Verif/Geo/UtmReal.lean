import Verif.Geo.UtmLemmas
import Verif.Geo.LonlatLemmas

/-! # The UTM series over the reals -/

set_option linter.unusedSectionVars false

namespace GoGeo.Utm
open GoFloat Real

/-! ### constants -/

noncomputable def eC : ℝ := 669438 / 10 ^ 8
noncomputable def e2C : ℝ := 448147235844 / 10 ^ 16
noncomputable def e3C : ℝ := e2C * eC
noncomputable def eP2C : ℝ := 669438 / 99330562
noncomputable def sqrtC : ℝ := √(99330562 / 10 ^ 8)
noncomputable def feC : ℝ := (1 - sqrtC) / (1 + sqrtC)
noncomputable def m1C : ℝ := 998326405 / 10 ^ 9 - 3 * e2C / 64 - 5 * e3C / 256
noncomputable def m2C : ℝ := 25103925 / 10 ^ 10 + 3 * e2C / 32 + 45 * e3C / 1024
noncomputable def m3C : ℝ := 15 * e2C / 256 + 45 * e3C / 1024
noncomputable def m4C : ℝ := 35 * e3C / 3072
noncomputable def p2C : ℝ := 3 / 2 * feC - 27 / 32 * (feC * feC * feC) + 269 / 512 * (feC * feC * feC * feC * feC)
noncomputable def p3C : ℝ := 21 / 16 * (feC * feC) - 55 / 32 * (feC * feC * feC * feC)
noncomputable def p4C : ℝ := 151 / 96 * (feC * feC * feC) - 417 / 128 * (feC * feC * feC * feC * feC)
noncomputable def p5C : ℝ := 1097 / 512 * (feC * feC * feC * feC)
noncomputable def k0C : ℝ := 9996 / 10 ^ 4

theorem e_fin : (e : XR ℝ) = .fin eC := by unfold e eC; rw [XR.fin_dec]; norm_num
theorem e2_fin : (e2 : XR ℝ) = .fin e2C := by unfold e2 e2C; rw [XR.fin_dec]; norm_num
theorem e3_fin : (e3 : XR ℝ) = .fin e3C := by unfold e3 e3C; rw [e_fin, e2_fin, XR.fin_mul]
theorem eP2_fin : (eP2 : XR ℝ) = .fin eP2C := by
  unfold eP2 eP2C; rw [XR.fin_lit, XR.fin_lit, XR.fin_div _ _ (by norm_num)]; norm_num
theorem k0_fin : (k0 : XR ℝ) = .fin k0C := by unfold k0 k0C; rw [XR.fin_dec]; norm_num
theorem r_fin : (r : XR ℝ) = .fin 6378137 := by unfold r; rw [XR.fin_lit]; norm_num
theorem sqrtE_fin : (sqrtE : XR ℝ) = .fin sqrtC := by
  unfold sqrtE sqrtC; rw [XR.fin_dec, sqrt_fin (by positivity)]; norm_num

theorem sqrtC_bound : 0.99664718933030659 < sqrtC ∧ sqrtC < 0.9966471893303066 := by
  unfold sqrtC
  constructor
  · apply Real.lt_sqrt_of_sq_lt; norm_num
  · rw [Real.sqrt_lt' (by norm_num)]; norm_num

theorem fe_fin : (fe : XR ℝ) = .fin feC := by
  unfold fe feC
  have := sqrtC_bound
  rw [sqrtE_fin, XR.fin_lit, XR.fin_sub, XR.fin_add, XR.fin_div _ _ (by push_cast; linarith)]
  push_cast; rfl

theorem m1_fin : (m1 : XR ℝ) = .fin m1C := by
  unfold m1 m1C
  simp only [e2_fin, e3_fin, XR.fin_lit, XR.fin_mul, XR.fin_div _ ((64 : ℕ) : ℝ) (by norm_num), XR.fin_div _ ((256 : ℕ) : ℝ) (by norm_num), XR.fin_sub, XR.fin_dec _ 9]
  norm_num

theorem m2_fin : (m2 : XR ℝ) = .fin m2C := by
  unfold m2 m2C
  simp only [e2_fin, e3_fin, XR.fin_lit, XR.fin_mul, XR.fin_div _ ((32 : ℕ) : ℝ) (by norm_num), XR.fin_div _ ((1024 : ℕ) : ℝ) (by norm_num), XR.fin_add, XR.fin_dec _ 10]
  norm_num

theorem m3_fin : (m3 : XR ℝ) = .fin m3C := by
  unfold m3 m3C
  simp only [e2_fin, e3_fin, XR.fin_lit, XR.fin_mul, XR.fin_div _ ((256 : ℕ) : ℝ) (by norm_num), XR.fin_div _ ((1024 : ℕ) : ℝ) (by norm_num), XR.fin_add]
  norm_num

theorem m4_fin : (m4 : XR ℝ) = .fin m4C := by
  unfold m4 m4C
  simp only [e3_fin, XR.fin_lit, XR.fin_mul, XR.fin_div _ ((3072 : ℕ) : ℝ) (by norm_num)]
  norm_num

theorem p2_fin : (p2 : XR ℝ) = .fin p2C := by
  unfold p2 p2C fe5 fe4 fe3 fe2
  simp only [fe_fin, XR.fin_lit, XR.fin_mul, XR.fin_div _ ((2 : ℕ) : ℝ) (by norm_num), XR.fin_div _ ((32 : ℕ) : ℝ) (by norm_num),
    XR.fin_div _ ((512 : ℕ) : ℝ) (by norm_num), XR.fin_sub, XR.fin_add]
  norm_num

theorem p3_fin : (p3 : XR ℝ) = .fin p3C := by
  unfold p3 p3C fe4 fe3 fe2
  simp only [fe_fin, XR.fin_lit, XR.fin_mul, XR.fin_div _ ((16 : ℕ) : ℝ) (by norm_num), XR.fin_div _ ((32 : ℕ) : ℝ) (by norm_num), XR.fin_sub]
  norm_num

theorem p4_fin : (p4 : XR ℝ) = .fin p4C := by
  unfold p4 p4C fe5 fe4 fe3 fe2
  simp only [fe_fin, XR.fin_lit, XR.fin_mul, XR.fin_div _ ((96 : ℕ) : ℝ) (by norm_num), XR.fin_div _ ((128 : ℕ) : ℝ) (by norm_num), XR.fin_sub]
  norm_num

theorem p5_fin : (p5 : XR ℝ) = .fin p5C := by
  unfold p5 p5C fe4 fe3 fe2
  simp only [fe_fin, XR.fin_lit, XR.fin_mul, XR.fin_div _ ((512 : ℕ) : ℝ) (by norm_num)]
  norm_num

theorem rad_fin' (d : ℝ) : rad (XR.fin d) = .fin (Spec.rad d) := by
  unfold rad Spec.rad
  show XR.fin d * XR.fin _ = _
  rw [XR.fin_mul]; congr 1; push_cast; ring

theorem deg_fin (d : ℝ) : deg (XR.fin d) = .fin (d * 180 / π) := by
  unfold deg
  have hp := Real.pi_pos
  show XR.fin d / XR.fin _ = _
  rw [XR.fin_div _ _ (by positivity)]; congr 1; push_cast; field_simp

/-! ### latitude and longitude to easting and northing -/

/-- the radius of curvature -/
noncomputable def nC (φ : ℝ) : ℝ := 6378137 / √(1 - eC * sin φ * sin φ)
/-- the length of the meridian -/
noncomputable def mC (φ : ℝ) : ℝ := 6378137 * (m1C * φ - m2C * sin (2 * φ) + m3C * sin (4 * φ) - m4C * sin (6 * φ))
/-- the easting, from the central meridian -/
noncomputable def fE (φ δ : ℝ) : ℝ :=
  let t := sin φ / cos φ
  let c := eP2C * cos φ * cos φ
  let a := cos φ * δ
  k0C * nC φ * (a + a * a * a / 6 * (1 - t * t + c) + a * a * a * a * a / 120 * (5 - 18 * (t * t) + t * t * (t * t) + 72 * c - 58 * eP2C))
/-- the northing, from the equator -/
noncomputable def fN (φ δ : ℝ) : ℝ :=
  let t := sin φ / cos φ
  let c := eP2C * cos φ * cos φ
  let a := cos φ * δ
  k0C * (mC φ + nC φ * t * (a * a / 2 + a * a * a * a / 24 * (5 - t * t + 9 * c + 4 * c * c) +
    a * a * a * a * a * a / 720 * (61 - 58 * (t * t) + t * t * (t * t) + 600 * c - 330 * eP2C)))

theorem e_sin (φ : ℝ) : 0.99 ≤ 1 - eC * sin φ * sin φ ∧ 1 - eC * sin φ * sin φ ≤ 1 := by
  have := Lonlat.sin_sq_bound φ
  unfold eC
  constructor <;> nlinarith

theorem sqrt_e_sin (φ : ℝ) : 0.99 ≤ √(1 - eC * sin φ * sin φ) ∧ √(1 - eC * sin φ * sin φ) ≤ 1 := by
  obtain ⟨h1, h2⟩ := e_sin φ
  constructor
  · apply Real.le_sqrt_of_sq_le; nlinarith
  · exact Real.sqrt_le_iff.2 ⟨by norm_num, by linarith⟩

theorem forward_fin (lat lon : ℝ) (z : ℤ) (hc : cos (Spec.rad lat) ≠ 0) :
    forward (XR.fin lat) (XR.fin lon) z =
      (.fin (fE (Spec.rad lat) (Spec.rad lon - Spec.rad (zoneNumberToCentralLongitude z)) + 500000),
        .fin (fN (Spec.rad lat) (Spec.rad lon - Spec.rad (zoneNumberToCentralLongitude z)) + if lat < 0 then 10000000 else 0)) := by
  have hs := sqrt_e_sin (Spec.rad lat)
  have s0 : √(1 - eC * sin (Spec.rad lat) * sin (Spec.rad lat)) ≠ 0 := by linarith
  unfold forward fE fN nC mC
  have l1 : (GoFloat.lit 1 : XR ℝ) = .fin 1 := by rw [XR.fin_lit]; norm_num
  have hsq : GoSqrt.sqrt (XR.fin (1 - eC * sin (Spec.rad lat) * sin (Spec.rad lat))) = .fin (√(1 - eC * sin (Spec.rad lat) * sin (Spec.rad lat))) :=
    sqrt_fin (by linarith [(e_sin (Spec.rad lat)).1])
  simp only [rad_fin', sin_fin, cos_fin, XR.fin_div _ _ hc, XR.fin_mul, XR.fin_ofInt, XR.fin_sub, e_fin, l1, hsq, r_fin, XR.fin_div _ _ s0, eP2_fin,
    m1_fin, m2_fin, m3_fin, m4_fin, k0_fin, XR.fin_lit, XR.fin_add, XR.fin_div _ ((6 : ℕ) : ℝ) (by norm_num), XR.fin_div _ ((120 : ℕ) : ℝ) (by norm_num),
    XR.fin_div _ ((2 : ℕ) : ℝ) (by norm_num), XR.fin_div _ ((24 : ℕ) : ℝ) (by norm_num), XR.fin_div _ ((720 : ℕ) : ℝ) (by norm_num), XR.fin_lt]
  push_cast
  by_cases h : lat < 0
  · simp only [h, decide_true, if_true]
  · simp only [h, decide_false, if_false, Bool.false_eq_true, add_zero]

theorem nC_neg (φ : ℝ) : nC (-φ) = nC φ := by unfold nC; simp
theorem mC_neg (φ : ℝ) : mC (-φ) = -mC φ := by unfold mC; simp only [mul_neg, sin_neg]; ring

theorem fE_neg (φ δ : ℝ) : fE φ (-δ) = -fE φ δ := by unfold fE; ring
theorem fE_negφ (φ δ : ℝ) : fE (-φ) δ = fE φ δ := by unfold fE; simp only [nC_neg, sin_neg, cos_neg]; ring
theorem fN_neg (φ δ : ℝ) : fN φ (-δ) = fN φ δ := by unfold fN; ring
theorem fN_negφ (φ δ : ℝ) : fN (-φ) δ = -fN φ δ := by unfold fN; simp only [nC_neg, mC_neg, sin_neg, cos_neg]; ring
theorem fE_zero (φ : ℝ) : fE φ 0 = 0 := by unfold fE; simp
theorem fN_zero (φ : ℝ) : fN φ 0 = k0C * mC φ := by unfold fN; simp

/-! ### easting and northing to latitude and longitude -/

/-- the footpoint latitude -/
noncomputable def foot (y : ℝ) : ℝ :=
  let mu := y / k0C / (6378137 * m1C)
  mu + p2C * sin (2 * mu) + p3C * sin (4 * mu) + p4C * sin (6 * mu) + p5C * sin (8 * mu)

/-- the latitude in radians -/
noncomputable def iLat (x y : ℝ) : ℝ :=
  let p := foot y
  let t := sin p / cos p
  let c := feC * cos p * cos p
  let d := x / (nC p * k0C)
  p - t / (99330562 / 10 ^ 8 / (1 - eC * (sin p * sin p))) *
      (d * d / 2 - d * d * d * d / 24 * (5 + 3 * (t * t) + 10 * c - 4 * (c * c) - 9 * eP2C)) +
    d * d * d * d * d * d / 720 * (61 + 90 * (t * t) + 298 * c + 45 * (t * t * (t * t)) - 252 * eP2C - 3 * (c * c))

/-- the longitude in radians, from the central meridian -/
noncomputable def iLon (x y : ℝ) : ℝ :=
  let p := foot y
  let t := sin p / cos p
  let c := feC * cos p * cos p
  let d := x / (nC p * k0C)
  (d - d * d * d / 6 * (1 + 2 * (t * t) + c) +
    d * d * d * d * d / 120 * (5 - 2 * c + 28 * (t * t) - 3 * (c * c) + 8 * eP2C + 24 * (t * t * (t * t)))) / cos p

theorem m1C_bound : 0.9983242 < m1C ∧ m1C < 0.9983243 := by
  unfold m1C e3C e2C eC
  constructor <;> norm_num

theorem inverse_fin (x y : ℝ) (z : ℤ) (north : Bool) (hc : cos (foot (if north then y else y - 10000000)) ≠ 0) :
    inverse (XR.fin (x + 500000)) (XR.fin y) z north =
      (.fin (iLat x (if north then y else y - 10000000) * 180 / π),
        .fin (iLon x (if north then y else y - 10000000) * 180 / π + zoneNumberToCentralLongitude z)) := by
  have hy : (if (!north) = true then (XR.fin y - GoFloat.lit 10000000 : XR ℝ) else XR.fin y) = .fin (if north = true then y else y - 10000000) := by
    cases north
    · simp [XR.fin_lit, XR.fin_sub]
    · simp
  generalize (if north = true then y else y - 10000000) = w at *
  have k0 : k0C ≠ 0 := by unfold k0C; norm_num
  have hm := m1C_bound
  have m0 : 6378137 * m1C ≠ 0 := by nlinarith
  have hf : XR.fin w / Utm.k0 / (r * m1) = XR.fin (w / k0C / (6378137 * m1C)) := by
    rw [k0_fin, r_fin, m1_fin, XR.fin_mul, XR.fin_div _ _ k0, XR.fin_div _ _ m0]
  have hfoot : XR.fin (w / k0C / (6378137 * m1C)) + p2 * GoMath.sin (GoFloat.lit 2 * XR.fin (w / k0C / (6378137 * m1C))) +
      p3 * GoMath.sin (GoFloat.lit 4 * XR.fin (w / k0C / (6378137 * m1C))) + p4 * GoMath.sin (GoFloat.lit 6 * XR.fin (w / k0C / (6378137 * m1C))) +
      p5 * GoMath.sin (GoFloat.lit 8 * XR.fin (w / k0C / (6378137 * m1C))) = .fin (foot w) := by
    rw [p2_fin, p3_fin, p4_fin, p5_fin]
    simp only [XR.fin_lit, XR.fin_mul, sin_fin, XR.fin_add]
    unfold foot
    push_cast
    rfl
  have hx : (XR.fin (x + 500000) - GoFloat.lit 500000 : XR ℝ) = .fin x := by rw [XR.fin_lit, XR.fin_sub]; congr 1; push_cast; ring
  have hs := sqrt_e_sin (foot w)
  have s0 : √(1 - eC * (sin (foot w) * sin (foot w))) ≠ 0 := by rw [← mul_assoc]; linarith
  have hes := e_sin (foot w)
  have es0 : 1 - eC * (sin (foot w) * sin (foot w)) ≠ 0 := by rw [← mul_assoc]; linarith
  have l1 : (GoFloat.lit 1 : XR ℝ) = .fin 1 := by rw [XR.fin_lit]; norm_num
  have hsq : GoSqrt.sqrt (XR.fin (1 - eC * (sin (foot w) * sin (foot w)))) = .fin (√(1 - eC * (sin (foot w) * sin (foot w)))) :=
    sqrt_fin (by rw [← mul_assoc]; linarith [(e_sin (foot w)).1])
  have hn : nC (foot w) = 6378137 / √(1 - eC * (sin (foot w) * sin (foot w))) := by unfold nC; rw [mul_assoc]
  have nk0 : 6378137 / √(1 - eC * (sin (foot w) * sin (foot w))) * k0C ≠ 0 := mul_ne_zero (div_ne_zero (by norm_num) s0) k0
  have r0 : (99330562 : ℕ) / 10 ^ 8 / (1 - eC * (sin (foot w) * sin (foot w))) ≠ 0 := div_ne_zero (by norm_num) es0
  unfold inverse iLat iLon
  simp only [hy]
  simp only [hf]
  simp only [hfoot, hx]
  simp only [sin_fin, cos_fin, XR.fin_mul, XR.fin_div _ _ hc, e_fin, l1, XR.fin_sub, hsq, r_fin, XR.fin_div _ _ s0, XR.fin_dec _ 8,
    XR.fin_div _ _ es0, fe_fin, k0_fin, XR.fin_div _ _ nk0, XR.fin_div _ _ r0, eP2_fin, XR.fin_lit, XR.fin_add, XR.fin_div _ ((6 : ℕ) : ℝ) (by norm_num),
    XR.fin_div _ ((120 : ℕ) : ℝ) (by norm_num), XR.fin_div _ ((2 : ℕ) : ℝ) (by norm_num), XR.fin_div _ ((24 : ℕ) : ℝ) (by norm_num),
    XR.fin_div _ ((720 : ℕ) : ℝ) (by norm_num), deg_fin, XR.fin_ofInt, hn]
  push_cast
  rfl

theorem foot_neg (y : ℝ) : foot (-y) = -foot y := by unfold foot; simp only [neg_div, mul_neg, sin_neg]; ring
theorem iLat_neg (x y : ℝ) : iLat (-x) y = iLat x y := by unfold iLat; simp only [neg_div]; ring
theorem iLon_neg (x y : ℝ) : iLon (-x) y = -iLon x y := by unfold iLon; simp only [neg_div]; ring
theorem iLon_negy (x y : ℝ) : iLon x (-y) = iLon x y := by unfold iLon; simp only [foot_neg, nC_neg, sin_neg, cos_neg]; ring
theorem iLat_zero (y : ℝ) : iLat 0 y = foot y := by unfold iLat; simp
theorem iLon_zero (y : ℝ) : iLon 0 y = 0 := by unfold iLon; simp

end GoGeo.Utm
