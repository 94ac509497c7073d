import Verif.Geo.UtmOff
import Verif.Geo.UtmTable
import Verif.Props.UtmSeries

/-!
# C94: from latitude and longitude to UTM and back, in exact arithmetic
-/

set_option linter.unusedSectionVars false

namespace GoGeo
open GoFloat Utm Real

/-- the call of `ToLatLon` on what `FromLatLon` returned, with the letter -/
theorem trip_fin {lat lon : ℝ} {c : Coord (XR ℝ)} (h : FromLatLon (XR.fin lat) (XR.fin lon) false = .ok c) (h1 : lat < 84)
    (h2 : lon ≤ 180 - 1 / 2 ^ 44) :
    ToLatLon c.easting c.northing c.zoneNumber (ascii c.zoneLetter) [] =
      .ok (.ok (.fin (iLat (fE (Spec.rad lat) (Spec.rad lon - Spec.rad (zoneNumberToCentralLongitude c.zoneNumber)))
          (fN (Spec.rad lat) (Spec.rad lon - Spec.rad (zoneNumberToCentralLongitude c.zoneNumber))) * 180 / π),
        .fin (iLon (fE (Spec.rad lat) (Spec.rad lon - Spec.rad (zoneNumberToCentralLongitude c.zoneNumber)))
          (fN (Spec.rad lat) (Spec.rad lon - Spec.rad (zoneNumberToCentralLongitude c.zoneNumber))) * 180 / π +
            zoneNumberToCentralLongitude c.zoneNumber))) := by
  obtain ⟨b1, b2, b3, b4, he, hn⟩ := from_fin h
  obtain ⟨z1, z2, -⟩ := C62_partial (K := ℝ) _ _ false c lat lon h rfl rfl h1 h2
  obtain ⟨e', n', he', hn', a1, a2, a3, a4⟩ := C87_range lat lon false c h
  rw [he] at he'
  rw [hn] at hn'
  cases he'
  cases hn'
  rw [C64_partial (K := ℝ) _ _ c lat h rfl h1]
  set δ := Spec.rad lon - Spec.rad (zoneNumberToCentralLongitude c.zoneNumber) with hδ
  have hN : Northing (fN (Spec.rad lat) δ + if lat < 0 then 10000000 else 0) (decide (0 ≤ lat)) := by
    obtain ⟨o1, -⟩ := offset_bound h
    rw [← hδ] at o1
    have hc := cos_lat_pos b1 b2
    have hp := Real.pi_lt_d4
    have hp' := Real.pi_pos
    unfold Northing
    rcases lt_or_ge lat 0 with h0 | h0
    · rw [if_pos h0] at a3 a4 ⊢
      simp only [decide_eq_true_eq]
      rw [if_neg (not_le.2 h0)]
      refine ⟨?_, a4⟩
      have r : Spec.rad lat = -Spec.rad (-lat) := by unfold Spec.rad; ring
      have h0' : 0 ≤ Spec.rad (-lat) := by
        have : 0 < -lat := by linarith
        unfold Spec.rad
        positivity
      have := fN_bound' (φ := Spec.rad (-lat)) (by rw [r, cos_neg] at hc; exact hc) h0'
        (by unfold Spec.rad; norm_num at *; nlinarith) o1
      rw [r, fN_negφ]
      linarith [this.2]
    · rw [if_neg (not_lt.2 h0), add_zero] at a3 a4 ⊢
      simp only [decide_eq_true_eq]
      rw [if_pos h0]
      have := fN_bound' hc (by unfold Spec.rad; positivity) (by unfold Spec.rad; norm_num at *; nlinarith) o1
      exact ⟨a3, this.2⟩
  rw [he, hn]
  rw [toLatLon_fin ⟨by linarith, by linarith⟩ hN ⟨z1, z2⟩]
  have : fromEquator (fN (Spec.rad lat) δ + if lat < 0 then 10000000 else 0) (decide (0 ≤ lat)) = fN (Spec.rad lat) δ := by
    unfold fromEquator
    simp only [decide_eq_true_eq]
    rcases lt_or_ge lat 0 with h0 | h0
    · rw [if_pos h0, if_neg (not_le.2 h0)]; ring
    · rw [if_neg (not_lt.2 h0), if_pos h0]; ring
  rw [this]

/-- **C94 (central meridian).** From the central meridian of a zone and back: the longitude is exact, the latitude off by
less than 6·10⁻⁸ degrees (7 mm). -/
theorem C94_meridian (lat lon : ℝ) (c : Coord (XR ℝ)) (h : FromLatLon (XR.fin lat) (XR.fin lon) false = .ok c) (h1 : lat < 84)
    (h2 : lon ≤ 180 - 1 / 2 ^ 44) (hl : lon = zoneNumberToCentralLongitude c.zoneNumber) :
    ∃ lat', ToLatLon c.easting c.northing c.zoneNumber (ascii c.zoneLetter) [] = .ok (.ok (.fin lat', .fin lon)) ∧
      |lat' - lat| < 6 / 10 ^ 8 := by
  refine ⟨foot (k0C * mC (Spec.rad lat)) * 180 / π, (trip_fin h h1 h2).trans ?_, ?_⟩
  · rw [← hl, sub_self, fE_zero, fN_zero, iLat_zero, iLon_zero, zero_mul, zero_div, zero_add]
  · have hp := Real.pi_gt_d4
    have hk := foot_mC (Spec.rad lat)
    have e : foot (k0C * mC (Spec.rad lat)) * 180 / π - lat = (foot (k0C * mC (Spec.rad lat)) - Spec.rad lat) * (180 / π) := by
      unfold Spec.rad; field_simp
    rw [e, abs_mul, abs_of_pos (show 0 < 180 / π by positivity)]
    have h180 : 180 / π < 57.3 := by rw [div_lt_iff₀ (by linarith)]; norm_num at *; linarith
    have := mul_le_mul hk h180.le (by positivity) (by norm_num)
    norm_num at *
    linarith

/-! ### the equator -/

/-- the easting on the equator, over `k0 r` -/
noncomputable def eqX (δ : ℝ) : ℝ := δ + δ * δ * δ / 6 * (1 + eP2C) + δ * δ * δ * δ * δ / 120 * (5 + 72 * eP2C - 58 * eP2C)

theorem nC_zero : nC 0 = 6378137 := by unfold nC; simp

theorem fE_eq (δ : ℝ) : fE 0 δ = k0C * 6378137 * eqX δ := by unfold fE eqX; simp [nC_zero]

theorem fN_eq (δ : ℝ) : fN 0 δ = 0 := by unfold fN; simp [mC_zero]

theorem foot_zero : foot 0 = 0 := by unfold foot; simp

theorem iLat_eq (X : ℝ) : iLat (k0C * 6378137 * X) 0 = X ^ 6 * ((61 + 298 * feC - 252 * eP2C - 3 * (feC * feC)) / 720) := by
  have k : k0C ≠ 0 := by unfold k0C; norm_num
  have e : k0C * 6378137 * X / (6378137 * k0C) = X := by field_simp
  unfold iLat
  simp only [foot_zero, nC_zero, sin_zero, cos_zero, e]
  ring

theorem iLon_eq (X : ℝ) : iLon (k0C * 6378137 * X) 0 = X - X ^ 3 / 6 * (1 + feC) + X ^ 5 / 120 * (5 - 2 * feC - 3 * (feC * feC) + 8 * eP2C) := by
  have k : k0C ≠ 0 := by unfold k0C; norm_num
  have e : k0C * 6378137 * X / (6378137 * k0C) = X := by field_simp
  unfold iLon
  simp only [foot_zero, nC_zero, sin_zero, cos_zero, e]
  ring

theorem eP2C_bounds : 0.0067394 < eP2C ∧ eP2C < 0.0067395 := by unfold eP2C; norm_num

theorem eq_num {y u : ℝ} (hy0 : 0 ≤ y) (hy : y ≤ 0.00275) (hu : u = y / 6 * (1 + eP2C) + y * y / 120 * (5 + 14 * eP2C)) :
    0.00084 ≤ (1 + eP2C) / 6 + y / 120 * (5 + 14 * eP2C) - (1 + u) ^ 3 * (1 + feC) / 6 +
      (1 + u) ^ 5 * y * (5 - 2 * feC - 3 * (feC * feC) + 8 * eP2C) / 120 ∧
    (1 + eP2C) / 6 + y / 120 * (5 + 14 * eP2C) - (1 + u) ^ 3 * (1 + feC) / 6 +
      (1 + u) ^ 5 * y * (5 - 2 * feC - 3 * (feC * feC) + 8 * eP2C) / 120 ≤ 0.000848 := by
  obtain ⟨f1, f2⟩ := fe_bounds
  obtain ⟨p1, p2⟩ := eP2C_bounds
  have yy : y * y ≤ 0.00275 * y := mul_le_mul_of_nonneg_right hy hy0
  have yy0 : 0 ≤ y * y := mul_nonneg hy0 hy0
  have a1 : 0.1677899 * y ≤ y / 6 * (1 + eP2C) ∧ y / 6 * (1 + eP2C) ≤ 0.16779 * y := by
    constructor <;> nlinarith
  have a2 : 0 ≤ y * y / 120 * (5 + 14 * eP2C) ∧ y * y / 120 * (5 + 14 * eP2C) ≤ 0.042454 * (y * y) := by
    constructor <;> nlinarith
  have u1 : 0.1677899 * y ≤ u := by rw [hu]; linarith
  have u2 : u ≤ 0.167907 * y := by rw [hu]; linarith
  have u0 : 0 ≤ u := by linarith
  have uy : u ≤ 0.000462 := by linarith
  have uu : u * u ≤ 0.000078 * y := by
    have := mul_le_mul uy u2 u0 (by norm_num)
    linarith
  have c3 : 1 + 3 * u ≤ (1 + u) ^ 3 ∧ (1 + u) ^ 3 ≤ 1 + 3 * u + 3.001 * (u * u) := by
    have e : (1 + u) ^ 3 = 1 + 3 * u + 3 * (u * u) + u * u * u := by ring
    have : u * u * u ≤ u * u * 0.001 := mul_le_mul_of_nonneg_left (by linarith) (by positivity)
    have p : 0 ≤ u * u * u := by positivity
    have q : 0 ≤ u * u := by positivity
    rw [e]
    constructor <;> linarith
  have c5 : 1 ≤ (1 + u) ^ 5 ∧ (1 + u) ^ 5 ≤ 1.00232 := by
    constructor
    · exact one_le_pow₀ (by linarith)
    · have := pow_le_pow_left₀ (show 0 ≤ 1 + u by linarith) (show 1 + u ≤ 1.000462 by linarith) 5
      linarith
  have ff : feC * feC ≤ 0.000003 := by
    have := fe_pow 2
    rw [← pow_two]; linarith
  have ff0 : 0 ≤ feC * feC := by positivity
  have q1 : 5.0505 ≤ 5 - 2 * feC - 3 * (feC * feC) + 8 * eP2C ∧ 5 - 2 * feC - 3 * (feC * feC) + 8 * eP2C ≤ 5.0506 := by
    constructor <;> linarith
  have b3 : (1 + 3 * u) * 1.0016792203 ≤ (1 + u) ^ 3 * (1 + feC) :=
    mul_le_mul c3.1 (by linarith) (by norm_num) (by linarith)
  have b3' : (1 + u) ^ 3 * (1 + feC) ≤ (1 + 3 * u + 3.001 * (u * u)) * 1.0016792204 :=
    mul_le_mul c3.2 (by linarith) (by linarith) (by linarith [mul_nonneg u0 u0])
  have b5 : 1 * y * 5.0505 ≤ (1 + u) ^ 5 * y * (5 - 2 * feC - 3 * (feC * feC) + 8 * eP2C) :=
    mul_le_mul (mul_le_mul_of_nonneg_right c5.1 hy0) q1.1 (by norm_num) (by linarith [mul_nonneg (zero_le_one.trans c5.1) hy0])
  have b5' : (1 + u) ^ 5 * y * (5 - 2 * feC - 3 * (feC * feC) + 8 * eP2C) ≤ 1.00232 * y * 5.0506 :=
    mul_le_mul (mul_le_mul_of_nonneg_right c5.2 hy0) q1.2 (by linarith [q1.1]) (by linarith)
  have b6 : y / 120 * 5.0943 ≤ y / 120 * (5 + 14 * eP2C) ∧ y / 120 * (5 + 14 * eP2C) ≤ y / 120 * 5.0944 := by
    constructor <;> exact mul_le_mul_of_nonneg_left (by linarith) (by linarith)
  constructor <;> linarith

theorem eq_lon {δ : ℝ} (h : |δ| ≤ 0.0524) :
    ∃ k, iLon (k0C * 6378137 * eqX δ) 0 - δ = δ ^ 3 * k ∧ 0.00084 ≤ k ∧ k ≤ 0.000848 := by
  have hy : δ ^ 2 ≤ 0.00275 := by
    rw [← sq_abs]
    have := pow_le_pow_left₀ (abs_nonneg δ) h 2
    norm_num at *; linarith
  have hy0 := sq_nonneg δ
  set y := δ ^ 2 with hyd
  set u := y / 6 * (1 + eP2C) + y * y / 120 * (5 + 14 * eP2C) with hu
  have hX : eqX δ = δ * (1 + u) := by rw [hu, hyd]; unfold eqX; ring
  refine ⟨(1 + eP2C) / 6 + y / 120 * (5 + 14 * eP2C) - (1 + u) ^ 3 * (1 + feC) / 6 +
    (1 + u) ^ 5 * y * (5 - 2 * feC - 3 * (feC * feC) + 8 * eP2C) / 120, ?_, ?_⟩
  · rw [iLon_eq, hX]
    have : u * δ = δ ^ 3 * ((1 + eP2C) / 6 + y / 120 * (5 + 14 * eP2C)) := by rw [hu, hyd]; ring
    linear_combination this
  exact eq_num hy0 hy hu

theorem eqX_bound {δ : ℝ} (h : |δ| ≤ 0.0524) : |eqX δ| ≤ 0.05243 := by
  obtain ⟨p1, p2⟩ := eP2C_bounds
  have e1 : |1 + eP2C| ≤ 1.0068 := by rw [abs_of_pos (by linarith)]; linarith
  have e2 : |5 + 72 * eP2C - 58 * eP2C| ≤ 5.1 := by rw [abs_of_pos (by linarith)]; linarith
  have d3 := Lonlat.mul_bound (Lonlat.mul_bound h h) h
  have d5 := Lonlat.mul_bound (Lonlat.mul_bound d3 h) h
  have t3 : |δ * δ * δ / 6 * (1 + eP2C)| ≤ 0.0524 * 0.0524 * 0.0524 / 6 * 1.0068 :=
    Lonlat.mul_bound (by rw [abs_div, abs_of_pos (by norm_num : (0 : ℝ) < 6)]; linarith) e1
  have t5 : |δ * δ * δ * δ * δ / 120 * (5 + 72 * eP2C - 58 * eP2C)| ≤ 0.0524 * 0.0524 * 0.0524 * 0.0524 * 0.0524 / 120 * 5.1 :=
    Lonlat.mul_bound (by rw [abs_div, abs_of_pos (by norm_num : (0 : ℝ) < 120)]; linarith) e2
  unfold eqX
  refine (abs_add_le _ _).trans ?_
  refine (add_le_add (abs_add_le _ _) le_rfl).trans ?_
  linarith

theorem eq_lat {δ : ℝ} (h : |δ| ≤ 0.0524) : |iLat (k0C * 6378137 * eqX δ) 0| ≤ 0.0000000018 := by
  have hX := pow_le_pow_left₀ (abs_nonneg _) (eqX_bound h) 6
  rw [← abs_pow] at hX
  obtain ⟨f1, f2⟩ := fe_bounds
  obtain ⟨p1, p2⟩ := eP2C_bounds
  have ff := fe_pow 2
  rw [pow_two feC] at ff
  have hk : |(61 + 298 * feC - 252 * eP2C - 3 * (feC * feC)) / 720| ≤ 0.0832 := by
    rw [abs_of_pos (by linarith)]
    linarith
  rw [iLat_eq]
  exact (Lonlat.mul_bound hX hk).trans (by norm_num)

/-- **C94 (equator).** From a point of the equator and back: the latitude is off by less than 1.1·10⁻⁷ degrees, the
longitude by less than 7·10⁻⁶ degrees (0.8 m). -/
theorem C94_equator (lon : ℝ) (c : Coord (XR ℝ)) (h : FromLatLon (XR.fin 0) (XR.fin lon) false = .ok c)
    (h2 : lon ≤ 180 - 1 / 2 ^ 44) :
    ∃ lat' lon', ToLatLon c.easting c.northing c.zoneNumber (ascii c.zoneLetter) [] = .ok (.ok (.fin lat', .fin lon')) ∧
      |lat'| < 11 / 10 ^ 8 ∧ |lon' - lon| < 7 / 10 ^ 6 := by
  have hp := Real.pi_gt_d4
  have hp' := Real.pi_lt_d4
  have h180 : 180 / π < 57.2976 := by rw [div_lt_iff₀ (by linarith)]; linarith
  have h180' : 0 < 180 / π := by positivity
  obtain ⟨m1, -, -⟩ := C63_meridian (K := ℝ) (XR.fin 0) (XR.fin lon) false c 0 lon h rfl rfl
  obtain ⟨g1, g2⟩ := m1 (by unfold Norway; norm_num) (by unfold Svalbard; norm_num)
  have r0 : Spec.rad 0 = 0 := by unfold Spec.rad; ring
  have ht := trip_fin h (by norm_num) h2
  rw [r0] at ht
  set δ := Spec.rad lon - Spec.rad (zoneNumberToCentralLongitude c.zoneNumber) with hδ
  have hδ' : δ = (lon - (zoneNumberToCentralLongitude c.zoneNumber : ℝ)) * (π / 180) := by rw [hδ]; unfold Spec.rad; ring
  have w : |lon - (zoneNumberToCentralLongitude c.zoneNumber : ℝ)| ≤ 3.001 := by rw [abs_le]; norm_num at *; constructor <;> linarith
  have hk : |π / 180| ≤ 0.0174534 := by rw [abs_of_pos (by positivity)]; linarith
  have hb : |δ| ≤ 0.05238 := by rw [hδ']; exact (Lonlat.mul_bound w hk).trans (by norm_num)
  rw [fE_eq, fN_eq] at ht
  refine ⟨_, _, ht, ?_, ?_⟩
  · rw [mul_div_assoc, abs_mul, abs_of_pos h180']
    have := mul_le_mul (eq_lat (hb.trans (by norm_num))) h180.le h180'.le (by norm_num)
    norm_num at *; linarith
  · obtain ⟨k, hk, k1, k2⟩ := eq_lon (hb.trans (by norm_num))
    have e : iLon (k0C * 6378137 * eqX δ) 0 * 180 / π + (zoneNumberToCentralLongitude c.zoneNumber : ℝ) - lon =
        (iLon (k0C * 6378137 * eqX δ) 0 - δ) * (180 / π) := by
      rw [sub_mul, hδ']; field_simp; ring
    rw [e, hk, abs_mul, abs_mul, abs_of_pos h180', abs_pow]
    have d3 := pow_le_pow_left₀ (abs_nonneg δ) hb 3
    have := mul_le_mul (mul_le_mul d3 (show |k| ≤ 0.000848 by rw [abs_of_pos (by linarith)]; exact k2) (abs_nonneg _) (by norm_num)) h180.le h180'.le (by norm_num)
    norm_num at *; linarith

/-- **C94 is sharp.** The point 114 E on the equator comes back more than 6.8·10⁻⁶ degrees (0.75 m) away from itself: `ToLatLon`
uses the third flattening where the second eccentricity belongs. -/
theorem C94_sharp : ∃ (c : Coord (XR ℝ)) (lat' lon' : ℝ), FromLatLon (XR.fin 0) (XR.fin 114) false = .ok c ∧
    ToLatLon c.easting c.northing c.zoneNumber (ascii c.zoneLetter) [] = .ok (.ok (.fin lat', .fin lon')) ∧
    6.8 / 10 ^ 6 < |lon' - 114| := by
  have hp := Real.pi_gt_d4
  have hp' := Real.pi_lt_d4
  obtain ⟨c, h⟩ := accepts 0 114 false (by norm_num) (by norm_num) (by norm_num) (by norm_num)
  have hz := zone50 h (by norm_num) (by norm_num)
  have r0 : Spec.rad 0 = 0 := by unfold Spec.rad; ring
  have ht := trip_fin h (by norm_num) (by norm_num)
  have hcm : ((zoneNumberToCentralLongitude c.zoneNumber : ℤ) : ℝ) = 117 := by rw [hz]; norm_num [zoneNumberToCentralLongitude]
  have hδ : Spec.rad 114 - Spec.rad (zoneNumberToCentralLongitude c.zoneNumber) = -(π / 60) := by rw [hcm]; unfold Spec.rad; ring
  rw [r0, hδ, fE_eq, fN_eq, hcm] at ht
  refine ⟨c, _, _, h, ht, ?_⟩
  have hb : |-(π / 60)| ≤ 0.0524 := by rw [abs_neg, abs_of_pos (by positivity)]; linarith
  obtain ⟨k, hk, k1, k2⟩ := eq_lon hb
  have e : iLon (k0C * 6378137 * eqX (-(π / 60))) 0 * 180 / π + 117 - 114 = (iLon (k0C * 6378137 * eqX (-(π / 60))) 0 - -(π / 60)) * (180 / π) := by
    field_simp; ring
  rw [e, hk, abs_mul, abs_mul, abs_pow, abs_neg, abs_of_pos (show 0 < π / 60 by positivity), abs_of_pos (show 0 < 180 / π by positivity),
    abs_of_pos (show 0 < k by linarith)]
  have : (π / 60) ^ 3 * k * (180 / π) = π ^ 2 / 1200 * k := by field_simp; ring
  rw [this]
  have p2 := pow_le_pow_left₀ (by norm_num) hp.le 2
  have := mul_le_mul (show (3.1415 : ℝ) ^ 2 / 1200 ≤ π ^ 2 / 1200 by linarith) k1 (by norm_num) (by positivity)
  norm_num at *; linarith

/-! ### every position -/

theorem cos_lat {lat : ℝ} (h1 : -80 ≤ lat) (h2 : lat ≤ 84) : 0.1 ≤ cos (Spec.rad lat) := by
  have hp := Real.pi_gt_d4
  have hp' := Real.pi_lt_d4
  have e : cos (Spec.rad 84) = sin (π / 30) := by
    rw [← cos_pi_div_two_sub]; congr 1; unfold Spec.rad; ring
  have hs : 0.1 ≤ sin (π / 30) := by
    have := Real.sin_gt_sub_cube (x := π / 30) (by positivity)
    have h3 : (π / 30) ^ 3 ≤ 0.10472 ^ 3 := pow_le_pow_left₀ (by positivity) (by linarith) 3
    linarith
  rw [← cos_abs]
  refine (hs.trans_eq e.symm).trans (Real.cos_le_cos_of_nonneg_of_le_pi (abs_nonneg _) ?_ ?_)
  · unfold Spec.rad; nlinarith
  · rw [abs_le]
    unfold Spec.rad
    constructor <;> nlinarith

theorem half_sin_cos (φ : ℝ) : |sin φ * cos φ| ≤ 1 / 2 := by
  rw [abs_le]
  have := sin_sq_add_cos_sq φ
  constructor <;> nlinarith [sq_nonneg (sin φ - cos φ), sq_nonneg (sin φ + cos φ)]

/-- outside the exceptions -/
theorem trip_A {φ δ : ℝ} (hC : 0.1 ≤ cos φ) (hδ : |δ| ≤ 0.0524) :
    |iLon (fE φ δ) (fN φ δ) - δ| ≤ 0.000000127 ∧ |iLat (fE φ δ) (fN φ δ) - φ| ≤ 0.0000000228 := by
  have hx : δ ^ 2 ≤ 0.0524 ^ 2 := by rw [← sq_abs]; exact pow_le_pow_left₀ (abs_nonneg δ) hδ 2
  have dom : Dom parA (2 * cos φ ^ 2 - 1) (cos φ ^ 2) (sin φ ^ 2) (δ ^ 2) := by
    have h0 := sq_nonneg (cos φ)
    have h1 := cos_sq_le_one φ
    refine ⟨?_, ?_, by linarith [sin_sq_add_cos_sq φ], ?_⟩
    · rw [abs_le]; constructor <;> linarith
    · show _ = (((1 / 2 : ℚ)) : ℝ) * _
      push_cast
      ring
    · rw [abs_of_nonneg (sq_nonneg δ)]
      show _ ≤ (((27458 / 10 ^ 7 : ℚ)) : ℝ)
      push_cast
      linarith
  obtain ⟨κ, ν, D, E, s, b⟩ := back parA_ok hC dom (half_sin_cos φ) (kB := 0.000692) (E0 := 0.000000004) (by norm_num [parA]) (by norm_num) (by norm_num) (by norm_num)
    (by norm_num [parA]) (by norm_num [parA])
  have g1 := off_lon parA_ok hC dom b (by norm_num [parA]) (by norm_num [parA])
  have g2 := off_lat parA_ok hC dom (half_sin_cos φ) b (by norm_num [parA]) (by norm_num [parA]) (by norm_num [parA]) (by norm_num [parA])
  constructor
  · refine g1.trans ?_
    rw [div_le_iff₀ (by norm_num [parA])]
    have : (parA.lon : ℝ) + 0.00085 * parA.X * (2 * parA.a) ^ 2 ≤ 0.000002402 := by norm_num [parA]
    have h := mul_le_mul hδ this (by norm_num [parA]) (by norm_num)
    refine h.trans ?_
    norm_num [parA]
  · refine g2.trans ?_
    norm_num [parA]

/-- the exceptions -/
theorem trip_B {φ δ : ℝ} (hC : 0.1 ≤ cos φ) (hw : cos φ ^ 2 ≤ 0.313) (hδ : |δ| ≤ 0.10473) :
    |iLon (fE φ δ) (fN φ δ) - δ| ≤ 0.00000018 ∧ |iLat (fE φ δ) (fN φ δ) - φ| ≤ 0.000000191 := by
  have hx : δ ^ 2 ≤ 0.10473 ^ 2 := by rw [← sq_abs]; exact pow_le_pow_left₀ (abs_nonneg δ) hδ 2
  have dom : Dom parB (cos φ ^ 2 * (2000 / 313) - 1) (cos φ ^ 2) (sin φ ^ 2) (δ ^ 2) := by
    have h0 := sq_nonneg (cos φ)
    refine ⟨?_, ?_, by linarith [sin_sq_add_cos_sq φ], ?_⟩
    · rw [abs_le]; constructor <;> linarith
    · show _ = (((1565 / 10 ^ 4 : ℚ)) : ℝ) * _
      push_cast
      ring
    · rw [abs_of_nonneg (sq_nonneg δ)]
      show _ ≤ (((1097 / 10 ^ 5 : ℚ)) : ℝ)
      push_cast
      linarith
  have hSC : |sin φ * cos φ| ≤ 0.464 := by
    apply abs_le_of_sq_le_sq _ (by norm_num)
    rw [mul_pow, sin_sq]
    have h0 := sq_nonneg (cos φ)
    nlinarith
  obtain ⟨κ, ν, D, E, s, b⟩ := back parB_ok hC dom hSC (kB := 0.00256) (E0 := 0.00000004) (by norm_num [parB]) (by norm_num) (by norm_num) (by norm_num)
    (by norm_num [parB]) (by norm_num [parB])
  have g1 := off_lon parB_ok hC dom b (by norm_num [parB]) (by norm_num [parB])
  have g2 := off_lat parB_ok hC dom hSC b (by norm_num [parB]) (by norm_num [parB]) (by norm_num [parB]) (by norm_num [parB])
  constructor
  · refine g1.trans ?_
    rw [div_le_iff₀ (by norm_num [parB])]
    have : (parB.lon : ℝ) + 0.00085 * parB.X * (2 * parB.a) ^ 2 ≤ 0.000001664 := by norm_num [parB]
    have h := mul_le_mul hδ this (by norm_num [parB]) (by norm_num)
    refine h.trans ?_
    norm_num [parB]
  · refine g2.trans ?_
    norm_num [parB]

theorem cos_sq_56 {lat : ℝ} (h1 : 56 ≤ lat) (h2 : lat ≤ 84) : cos (Spec.rad lat) ^ 2 ≤ 0.313 := by
  have hp := Real.pi_gt_d4
  have hp' := Real.pi_lt_d4
  have h0 := (cos_lat (lat := lat) (by linarith) h2)
  have e : cos (Spec.rad 56) ^ 2 = (1 - sin (11 * π / 90)) / 2 := by
    rw [cos_sq, show 2 * Spec.rad 56 = 11 * π / 90 + π / 2 by unfold Spec.rad; ring, cos_add_pi_div_two]
    ring
  have l2 : cos (Spec.rad lat) ≤ cos (Spec.rad 56) := by
    apply Real.cos_le_cos_of_nonneg_of_le_pi
    · unfold Spec.rad; positivity
    · unfold Spec.rad; nlinarith
    · unfold Spec.rad; nlinarith
  refine (pow_le_pow_left₀ (by linarith) l2 2).trans ?_
  rw [e]
  have hs := small_sin (x := 11 * π / 90) (b := 0.38398) (by rw [abs_of_pos (by positivity)]; norm_num at *; linarith) (by norm_num)
  have := (abs_le.1 hs).1
  norm_num at *
  linarith

/-- **C94.** From latitude and longitude to UTM and back: the latitude is off by less than 1.5·10⁻⁶ degrees and the longitude by less
than 7.5·10⁻⁶, and both by less than 1.1·10⁻⁵ in the widened zones of Norway and Svalbard. -/
theorem C94_trip (lat lon : ℝ) (c : Coord (XR ℝ)) (h : FromLatLon (XR.fin lat) (XR.fin lon) false = .ok c) (h1 : lat < 84)
    (h2 : lon ≤ 180 - 1 / 2 ^ 44) :
    ∃ lat' lon', ToLatLon c.easting c.northing c.zoneNumber (ascii c.zoneLetter) [] = .ok (.ok (.fin lat', .fin lon')) ∧
      (¬ Norway lat lon → ¬ Svalbard lat lon → |lat' - lat| < 1.5 / 10 ^ 6 ∧ |lon' - lon| < 7.5 / 10 ^ 6) ∧
      |lat' - lat| < 1.1 / 10 ^ 5 ∧ |lon' - lon| < 1.1 / 10 ^ 5 := by
  have hp := Real.pi_gt_d4
  have hp' := Real.pi_lt_d4
  have h180 : 180 / π < 57.2976 := by rw [div_lt_iff₀ (by linarith)]; linarith
  have h180' : 0 < 180 / π := by positivity
  obtain ⟨b1, b2, b3, b4, -, -⟩ := from_fin h
  obtain ⟨m1, m2, m3⟩ := C63_meridian (K := ℝ) (XR.fin lat) (XR.fin lon) false c lat lon h rfl rfl
  refine ⟨_, _, trip_fin h h1 h2, ?_⟩
  have hC := cos_lat b1 b2
  generalize hz : ((zoneNumberToCentralLongitude c.zoneNumber : ℤ) : ℝ) = l0 at *
  have eδ : Spec.rad lon - Spec.rad l0 = (lon - l0) * (π / 180) := by unfold Spec.rad; ring
  have hk : |π / 180| ≤ 0.017454 := by rw [abs_of_pos (by positivity)]; linarith
  generalize hd : Spec.rad lon - Spec.rad l0 = δ at *
  have elat (y : ℝ) : y * 180 / π - lat = (y - Spec.rad lat) * (180 / π) := by unfold Spec.rad; field_simp
  have elon (y : ℝ) : y * 180 / π + l0 - lon = (y - δ) * (180 / π) := by rw [eδ]; field_simp; ring
  rw [elat, elon, abs_mul, abs_mul, abs_of_pos h180']
  have up {a A B : ℝ} (ha : a ≤ A) (h0 : 0 ≤ a) (hAB : A * 57.2976 < B) : a * (180 / π) < B :=
    lt_of_le_of_lt (mul_le_mul ha h180.le h180'.le (h0.trans ha)) hAB
  by_cases hx : Norway lat lon ∨ Svalbard lat lon
  · have h56 : 56 ≤ lat := by rcases hx with hx | hx <;> linarith [hx.1]
    have hδ : |δ| ≤ 0.10473 := by
      have w : |lon - l0| ≤ 6.0000001 := by rw [abs_le]; constructor <;> norm_num at * <;> linarith
      rw [eδ]
      have hk' : |π / 180| ≤ 0.01745334 := by rw [abs_of_pos (by positivity)]; linarith
      exact (Lonlat.mul_bound w hk').trans (by norm_num)
    obtain ⟨g1, g2⟩ := trip_B hC (cos_sq_56 h56 b2) hδ
    refine ⟨fun n1 n2 => (hx.elim n1 n2).elim, up g2 (abs_nonneg _) (by norm_num), up g1 (abs_nonneg _) (by norm_num)⟩
  · obtain ⟨n1, n2⟩ := not_or.1 hx
    have hδ : |δ| ≤ 0.0524 := by
      have w : |lon - l0| ≤ 3.0001 := by
        obtain ⟨a1, a2⟩ := m1 n1 n2
        rw [abs_le]; constructor <;> norm_num at * <;> linarith
      rw [eδ]
      exact (Lonlat.mul_bound w hk).trans (by norm_num)
    obtain ⟨g1, g2⟩ := trip_A hC hδ
    exact ⟨fun _ _ => ⟨up g2 (abs_nonneg _) (by norm_num), up g1 (abs_nonneg _) (by norm_num)⟩,
      up g2 (abs_nonneg _) (by norm_num), up g1 (abs_nonneg _) (by norm_num)⟩

/-- C94 on points of zones 50 and 32V -/
example : ∃ c c', FromLatLon (XR.fin (39.875 : ℝ)) (XR.fin 116.5) false = .ok c ∧ FromLatLon (XR.fin (60 : ℝ)) (XR.fin 3.5) false = .ok c' ∧
    (116.5 : ℝ) ≤ 180 - 1 / 2 ^ 44 ∧ ¬ Norway (39.875 : ℝ) 116.5 ∧ ¬ Svalbard (39.875 : ℝ) 116.5 ∧ Norway (60 : ℝ) 3.5 := by
  obtain ⟨c, hc⟩ := accepts 39.875 116.5 false (by norm_num) (by norm_num) (by norm_num) (by norm_num)
  obtain ⟨c', hc'⟩ := accepts 60 3.5 false (by norm_num) (by norm_num) (by norm_num) (by norm_num)
  refine ⟨c, c', hc, hc', by norm_num, ?_, ?_, ?_⟩ <;> first | unfold Norway | unfold Svalbard
  all_goals norm_num

/-- C94 (meridian, equator) on points of zone 50 -/
example : ∃ c c', FromLatLon (XR.fin (40 : ℝ)) (XR.fin 117) false = .ok c ∧ (117 : ℝ) = zoneNumberToCentralLongitude c.zoneNumber ∧
    FromLatLon (XR.fin (0 : ℝ)) (XR.fin 118) false = .ok c' ∧ (118 : ℝ) ≤ 180 - 1 / 2 ^ 44 := by
  obtain ⟨c, hc⟩ := accepts 40 117 false (by norm_num) (by norm_num) (by norm_num) (by norm_num)
  obtain ⟨c', hc'⟩ := accepts 0 118 false (by norm_num) (by norm_num) (by norm_num) (by norm_num)
  refine ⟨c, c', hc, ?_, hc', by norm_num⟩
  rw [zone50 hc (by norm_num) (by norm_num)]; norm_num [zoneNumberToCentralLongitude]

end GoGeo
