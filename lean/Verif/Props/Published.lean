import Verif.Spec.Projection
import Verif.Props.Lonlat
import Verif.Props.UtmSeries

/-!
# C131, C132: the conversions compute the published formulas

`fin x` is the exact real number `x`.
-/

set_option linter.unusedSectionVars false

namespace GoGeo
open GoFloat Lonlat Real

/-! ### C131: GCJ02 and BD09 -/

theorem magic_eq (lat : ℝ) : 1 - 0.00669342162296594323 * sin (Spec.rad lat) ^ 2 = magic lat := by
  unfold magic off Spec.rad
  rw [show lat * π / 180 = lat / 180 * π by ring]
  norm_num
  ring

theorem gcjLat_eq (lon lat : ℝ) : Spec.gcjLat lon lat = dLat lon lat := by
  have hm := magic_bound lat
  have hs := sqrt_magic_bound lat
  have hp := Real.pi_pos
  have h2 : √(magic lat) ^ 3 = magic lat * √(magic lat) := by
    rw [pow_succ, Real.sq_sqrt (by linarith)]
  have h3 : Spec.gcjNorth (lon - 105) (lat - 35) = tlatR (lon - 105) (lat - 35) := by
    unfold Spec.gcjNorth tlatR
    rw [show 6 * (lon - 105) * π = 6 * π * (lon - 105) by ring, show 2 * (lon - 105) * π = 2 * π * (lon - 105) by ring,
      show (lat - 35) * π = π * (lat - 35) by ring, show (lat - 35) / 3 * π = π * (lat - 35) / 3 by ring,
      show (lat - 35) / 12 * π = π * (lat - 35) / 12 by ring]
    ring
  unfold Spec.gcjLat Spec.degrees Spec.meridianRadius dLat
  rw [magic_eq, h2, h3]
  have h4 : magic lat * √(magic lat) ≠ 0 := by
    have : 0 < magic lat * √(magic lat) := mul_pos (by linarith) (by linarith)
    exact this.ne'
  field_simp
  norm_num
  ring

theorem gcjLon_eq (lon lat : ℝ) : Spec.gcjLon lon lat = dLon lon lat := by
  have h3 : Spec.gcjEast (lon - 105) (lat - 35) = tlngR (lon - 105) (lat - 35) := by
    unfold Spec.gcjEast tlngR
    rw [show 6 * (lon - 105) * π = 6 * π * (lon - 105) by ring, show 2 * (lon - 105) * π = 2 * π * (lon - 105) by ring,
      show (lon - 105) * π = π * (lon - 105) by ring, show (lon - 105) / 3 * π = π * (lon - 105) / 3 by ring,
      show (lon - 105) / 12 * π = π * (lon - 105) / 12 by ring, show (lon - 105) / 30 * π = π * (lon - 105) / 30 by ring]
    ring
  unfold Spec.gcjLon Spec.degrees Spec.normalRadius dLon
  rw [magic_eq, h3, show Spec.rad lat = lat / 180 * π by unfold Spec.rad; ring, div_mul_eq_mul_div, div_div]

/-- C131.  Inside China `WGS84toGCJ02` adds the published shift and `GCJ02toWGS84` subtracts it. -/
theorem C131_gcj (lon lat : ℝ) (h1 : 73.66 < lon) (h2 : lon < 135.05) (h3 : 3.86 < lat) (h4 : lat < 53.55) :
    WGS84toGCJ02 (XR.fin lon) (XR.fin lat) = (.fin (lon + Spec.gcjLon lon lat), .fin (lat + Spec.gcjLat lon lat)) ∧
    GCJ02toWGS84 (XR.fin lon) (XR.fin lat) = (.fin (lon - Spec.gcjLon lon lat), .fin (lat - Spec.gcjLat lon lat)) := by
  rw [gcjLat_eq, gcjLon_eq]
  exact ⟨toGCJ_in ⟨h1, h2, h3, h4⟩, toWGS_in ⟨h1, h2, h3, h4⟩⟩

/-- C131.  `GCJ02toBD09` and `BD09toGCJ02` are the published formulas, everywhere. -/
theorem C131_bd (lon lat : ℝ) :
    GCJ02toBD09 (XR.fin lon) (XR.fin lat) = (.fin (Spec.bd09 lon lat).1, .fin (Spec.bd09 lon lat).2) ∧
    BD09toGCJ02 (XR.fin lon) (XR.fin lat) = (.fin (Spec.bd09Back lon lat).1, .fin (Spec.bd09Back lon lat).2) := by
  have hn : ∀ x y : ℝ, ‖(⟨x, y⟩ : ℂ)‖ = √(x ^ 2 + y ^ 2) := fun x y => by
    rw [Complex.norm_def, Complex.normSq_apply]
    congr 1
    ring
  constructor
  · have h := toBD_fin ⟨lon, lat⟩
    rw [turn_re, turn_im] at h
    rw [h]
    unfold Spec.bd09 Spec.polar Spec.wobble
    rw [hn]
    norm_num
  · have h := fromBD_fin ⟨lon - 0.0065, lat - 0.006⟩
    rw [turn_re, turn_im] at h
    rw [show (lon - 0.0065) + 0.0065 = lon by ring, show (lat - 0.006) + 0.006 = lat by ring] at h
    rw [h]
    unfold Spec.bd09Back Spec.polar Spec.wobble
    rw [hn]
    norm_num [sub_eq_add_neg]

/-- C131.  The two composed conversions. -/
theorem C131_composed (lon lat : ℝ) (h1 : 73.66 < lon) (h2 : lon < 135.05) (h3 : 3.86 < lat) (h4 : lat < 53.55) :
    WGS84toBD09 (XR.fin lon) (XR.fin lat) =
      (.fin (Spec.bd09 (lon + Spec.gcjLon lon lat) (lat + Spec.gcjLat lon lat)).1,
        .fin (Spec.bd09 (lon + Spec.gcjLon lon lat) (lat + Spec.gcjLat lon lat)).2) := by
  rw [WGS84toBD09, (C131_gcj lon lat h1 h2 h3 h4).1]
  exact (C131_bd _ _).1

/-- hypotheses of C131_gcj and C131_composed: Beijing -/
example : (73.66 : ℝ) < 116.4 ∧ (116.4 : ℝ) < 135.05 ∧ (3.86 : ℝ) < 39.9 ∧ (39.9 : ℝ) < 53.55 := by norm_num

/-! ### C132: UTM -/

namespace Utm

theorem normal_eq (φ : ℝ) : Spec.normalRadius 6378137 0.00669438 φ = nC φ := by
  unfold Spec.normalRadius nC eC
  congr 2
  norm_num
  ring

theorem meridian_eq (φ : ℝ) : Spec.meridian 6378137 0.00669438 φ = mC φ := by
  unfold Spec.meridian mC m1C m2C m3C m4C e3C e2C eC
  norm_num

theorem second_eq : Spec.second 0.00669438 = eP2C := by
  unfold Spec.second eP2C
  norm_num

/-- C132.  `FromLatLon` computes the series of Snyder on the ellipsoid of WGS84 (e^2 = 0.00669438) with scale 0.9996, false easting 500000 and, in the
south, false northing 10000000; the central meridian of zone `z` is `6 z - 183` degrees. -/
theorem C132_forward (lat lon : ℝ) (northern : Bool) (c : Coord (XR ℝ)) (h : FromLatLon (XR.fin lat) (XR.fin lon) northern = .ok c) :
    c.easting = .fin (500000 + Spec.tmEast 0.9996 6378137 0.00669438 (Spec.rad lat) (Spec.rad (lon - (6 * c.zoneNumber - 183)))) ∧
    c.northing = .fin ((if lat < 0 then 10000000 else 0) +
      Spec.tmNorth 0.9996 6378137 0.00669438 (Spec.rad lat) (Spec.rad (lon - (6 * c.zoneNumber - 183)))) := by
  obtain ⟨h1, h2, h3, h4, he, hn⟩ := from_fin h
  have hl : Spec.rad (lon - (6 * (c.zoneNumber : ℝ) - 183)) = Spec.rad lon - Spec.rad (zoneNumberToCentralLongitude c.zoneNumber) := by
    unfold Spec.rad zoneNumberToCentralLongitude
    push_cast
    ring
  rw [he, hn, hl]
  generalize Spec.rad lon - Spec.rad (zoneNumberToCentralLongitude c.zoneNumber) = δ
  generalize Spec.rad lat = φ
  constructor
  · congr 1
    unfold Spec.tmEast fE
    rw [normal_eq, second_eq, tan_eq_sin_div_cos, show (0.9996 : ℝ) = k0C by unfold k0C; norm_num]
    ring
  · congr 1
    unfold Spec.tmNorth fN
    rw [normal_eq, second_eq, meridian_eq, tan_eq_sin_div_cos, show (0.9996 : ℝ) = k0C by unfold k0C; norm_num]
    ring

theorem foot_eq (y : ℝ) : Spec.footLatitude 0.9996 6378137 0.00669438 y = foot y := by
  have h1 : (1 - 0.00669438 / 4 - 3 * 0.00669438 ^ 2 / 64 - 5 * 0.00669438 ^ 3 / 256 : ℝ) = m1C := by
    unfold m1C e3C e2C eC
    norm_num
  have h2 : (1 - √(1 - 0.00669438)) / (1 + √(1 - 0.00669438)) = feC := by
    unfold feC sqrtC
    norm_num
  unfold Spec.footLatitude foot p2C p3C p4C p5C
  rw [h1, h2, show (0.9996 : ℝ) = k0C by unfold k0C; norm_num]
  ring

/-- C132, in part: on the central meridian `ToLatLon` computes the series of Snyder. -/
theorem C132_back_partial (n : ℝ) (z : ℤ) (north : Bool) (h : Northing n north) (hz : 1 ≤ z ∧ z ≤ 60) :
    ToLatLon (XR.fin 500000) (XR.fin n) z [] [north] =
      .ok (.ok (.fin (Spec.degrees (Spec.tmLatitude 0.9996 6378137 0.00669438 0 (if north then n else n - 10000000))),
        .fin (6 * z - 183 + Spec.degrees (Spec.tmLongitude 0.9996 6378137 0.00669438 0 (if north then n else n - 10000000))))) := by
  have e := toLatLon_fin (x := 0) (by norm_num) h hz
  rw [zero_add] at e
  rw [e]
  have h1 : iLat 0 (fromEquator n north) = Spec.tmLatitude 0.9996 6378137 0.00669438 0 (if north then n else n - 10000000) := by
    unfold iLat Spec.tmLatitude
    rw [foot_eq]
    simp [fromEquator]
  have h2 : iLon 0 (fromEquator n north) = Spec.tmLongitude 0.9996 6378137 0.00669438 0 (if north then n else n - 10000000) := by
    unfold iLon Spec.tmLongitude
    rw [foot_eq]
    simp [fromEquator]
  rw [h1, h2]
  unfold Spec.degrees zoneNumberToCentralLongitude
  congr 4
  push_cast
  ring

theorem foot_zero : foot 0 = 0 := by
  unfold foot
  simp

/-- C132 fails off the central meridian: on the equator the series gives latitude 0, `ToLatLon` a point north of it, for every easting but 500000. -/
theorem C132_back_false (x : ℝ) (z : ℤ) (hx : -400000 ≤ x ∧ x < 500000) (h0 : x ≠ 0) (hz : 1 ≤ z ∧ z ≤ 60) :
    Spec.tmLatitude 0.9996 6378137 0.00669438 x 0 = 0 ∧
    ∃ lat lon, ToLatLon (XR.fin (500000 + x)) (XR.fin 0) z [] [true] = .ok (.ok (.fin lat, .fin lon)) ∧ 0 < lat := by
  constructor
  · unfold Spec.tmLatitude
    rw [foot_eq, foot_zero]
    simp
  · have e := toLatLon_fin (x := x) (n := 0) (north := true) hx (by unfold Northing; norm_num) hz
    rw [add_comm] at e
    refine ⟨_, _, e, ?_⟩
    have hp := Real.pi_pos
    refine div_pos (mul_pos ?_ (by norm_num)) hp
    have hs := sqrtC_bound
    have hf : 0 ≤ feC ∧ feC ≤ 0.01 := by
      unfold feC
      constructor
      · exact div_nonneg (by linarith) (by linarith)
      · rw [div_le_iff₀ (by linarith)]; linarith
    have hn := (nC_bound 0).1
    have hd : x / (nC 0 * k0C) ≠ 0 := div_ne_zero h0 (mul_ne_zero hn.ne' (by unfold k0C; norm_num))
    unfold iLat fromEquator
    simp only [if_true, foot_zero, sin_zero, cos_zero, zero_div, zero_mul, mul_zero, add_zero, zero_add, mul_one, sub_zero]
    generalize x / (nC 0 * k0C) = d at hd
    have h6 : 0 < d * d * d * d * d * d := by
      have : 0 < d * d := mul_self_pos.2 hd
      nlinarith [mul_pos (mul_pos this this) this]
    refine mul_pos (by linarith) ?_
    have : eP2C ≤ 0.0068 := by unfold eP2C; norm_num
    nlinarith [hf.1, hf.2]

/-- hypotheses of C132_forward, C132_back_partial and C132_back_false -/
example : (∃ c, FromLatLon (XR.fin (48 : ℝ)) (XR.fin (11 : ℝ)) false = .ok c) ∧ Northing 5000000 true ∧ ((-400000 : ℝ) ≤ 250000 ∧ (250000 : ℝ) < 500000) :=
  ⟨accepts _ _ _ (by norm_num) (by norm_num) (by norm_num) (by norm_num), by unfold Northing; norm_num, by norm_num, by norm_num⟩

end Utm
end GoGeo
