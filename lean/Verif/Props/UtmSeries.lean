import Verif.Geo.UtmReal
import Verif.Props.Utm

/-!
# Properties of the UTM series, in exact arithmetic

`fin x` is the exact real number `x`; `zoneNumberToCentralLongitude z = 6 z - 183` is the central meridian of zone `z`.
-/

set_option linter.unusedSectionVars false

namespace GoGeo
open GoFloat Utm Real

theorem cos_lat_pos {lat : ℝ} (h1 : -80 ≤ lat) (h2 : lat ≤ 84) : 0 < cos (Spec.rad lat) := by
  have hp := Real.pi_pos
  apply Real.cos_pos_of_mem_Ioo
  unfold Spec.rad
  constructor <;> nlinarith

theorem from_fin {lat lon : ℝ} {northern : Bool} {c : Coord (XR ℝ)} (h : FromLatLon (XR.fin lat) (XR.fin lon) northern = .ok c) :
    -80 ≤ lat ∧ lat ≤ 84 ∧ -180 ≤ lon ∧ lon ≤ 180 ∧
    c.easting = .fin (fE (Spec.rad lat) (Spec.rad lon - Spec.rad (zoneNumberToCentralLongitude c.zoneNumber)) + 500000) ∧
    c.northing = .fin (fN (Spec.rad lat) (Spec.rad lon - Spec.rad (zoneNumberToCentralLongitude c.zoneNumber)) + if lat < 0 then 10000000 else 0) := by
  obtain ⟨⟨φ, l, e1, e2, h1, h2, h3, h4⟩, hz, -⟩ := from_eq (K := ℝ) h
  cases e1
  cases e2
  refine ⟨h1, h2, h3, h4, ?_⟩
  have hf := forward_fin lat lon c.zoneNumber (cos_lat_pos h1 h2).ne'
  rw [FromLatLon] at h
  cases hv : ValidateLatLone (XR.fin lat) (XR.fin lon) with
  | some e => rw [hv] at h; cases h
  | none =>
    rw [hv] at h
    cases h
    simp only at hf ⊢
    rw [hf]
    exact ⟨rfl, rfl⟩

/-! ### C84 -/

/-- C84.  A point on the central meridian of its zone has easting 500000. -/
theorem C84_forward (lat lon : ℝ) (northern : Bool) (c : Coord (XR ℝ)) (h : FromLatLon (XR.fin lat) (XR.fin lon) northern = .ok c)
    (hl : lon = zoneNumberToCentralLongitude c.zoneNumber) : c.easting = .fin 500000 := by
  obtain ⟨-, -, -, -, he, -⟩ := from_fin h
  rw [he, ← hl, sub_self, fE_zero, zero_add]

theorem p_bound : 0 ≤ p2C ∧ p2C ≤ 0.00252 ∧ 0 ≤ p3C ∧ p3C ≤ 0.000004 ∧ 0 ≤ p4C ∧ p4C ≤ 0.00000001 ∧ 0 ≤ p5C ∧ p5C ≤ 0.00000001 := by
  have hs := sqrtC_bound
  have h1 : 0.001679 < feC := by unfold feC; rw [lt_div_iff₀ (by linarith)]; linarith
  have h2 : feC < 0.0016793 := by unfold feC; rw [div_lt_iff₀ (by linarith)]; linarith
  have a2 : 0.0000028190 ≤ feC * feC ∧ feC * feC ≤ 0.00000282005 := by constructor <;> nlinarith
  have a3 : 0 ≤ feC * feC * feC ∧ feC * feC * feC ≤ 0.000000004736 := by constructor <;> nlinarith
  have a3' : 0.000000004732 ≤ feC * feC * feC := by nlinarith
  have a4 : 0 ≤ feC * feC * feC * feC ∧ feC * feC * feC * feC ≤ 0.000000000008 := by constructor <;> nlinarith
  have a5 : 0 ≤ feC * feC * feC * feC * feC ∧ feC * feC * feC * feC * feC ≤ 0.0000000000001 := by constructor <;> nlinarith
  unfold p2C p3C p4C p5C
  refine ⟨?_, ?_, ?_, ?_, ?_, ?_, ?_, ?_⟩ <;> linarith

theorem foot_bound {y : ℝ} (h : |y| ≤ 9950000) : |foot y| < π / 2 := by
  have hp := Real.pi_gt_d4
  obtain ⟨a, a', b, b', c, c', d, d'⟩ := p_bound
  have hm := m1C_bound
  have hmu : |y / k0C / (6378137 * m1C)| ≤ 1.5635 := by
    have h0 : 0 < 6378137 * m1C := by linarith
    rw [abs_div, abs_div, abs_of_pos h0, abs_of_pos (show 0 < k0C by unfold k0C; norm_num), div_le_iff₀ h0, div_le_iff₀ (by unfold k0C; norm_num)]
    unfold k0C
    norm_num at *
    linarith
  unfold foot
  simp only
  generalize y / k0C / (6378137 * m1C) = mu at *
  have s1 := abs_sin_le_one (2 * mu)
  have s2 := abs_sin_le_one (4 * mu)
  have s3 := abs_sin_le_one (6 * mu)
  have s4 := abs_sin_le_one (8 * mu)
  have k1 : |p2C * sin (2 * mu)| ≤ 0.00252 * 1 := Lonlat.mul_bound (by rw [abs_of_nonneg a]; exact a') s1
  have k2 : |p3C * sin (4 * mu)| ≤ 0.000004 * 1 := Lonlat.mul_bound (by rw [abs_of_nonneg b]; exact b') s2
  have k3 : |p4C * sin (6 * mu)| ≤ 0.00000001 * 1 := Lonlat.mul_bound (by rw [abs_of_nonneg c]; exact c') s3
  have k4 : |p5C * sin (8 * mu)| ≤ 0.00000001 * 1 := Lonlat.mul_bound (by rw [abs_of_nonneg d]; exact d') s4
  rw [abs_lt]
  rw [abs_le] at *
  norm_num at *
  constructor <;> linarith

theorem cos_foot_pos {y : ℝ} (h : |y| ≤ 9950000) : 0 < cos (foot y) := by
  have := abs_lt.1 (foot_bound h)
  exact Real.cos_pos_of_mem_Ioo ⟨this.1, this.2⟩

/-- northings of the northern and southern hemisphere that are not within 50 km of the end of the range (the pole is at 9997965) -/
def Northing (n : ℝ) (north : Bool) : Prop := if north then 0 ≤ n ∧ n ≤ 9950000 else 50000 ≤ n ∧ n ≤ 10000000

/-- the distance to the equator -/
noncomputable def fromEquator (n : ℝ) (north : Bool) : ℝ := if north then n else n - 10000000

theorem Northing.abs {n : ℝ} {north : Bool} (h : Northing n north) : |fromEquator n north| ≤ 9950000 := by
  unfold Northing fromEquator at *
  cases north
  · simp only [Bool.false_eq_true, if_false] at *; rw [abs_le]; constructor <;> linarith
  · simp only [if_true] at *; rw [abs_le]; constructor <;> linarith

theorem toLatLon_fin {x n : ℝ} {z : ℤ} {north : Bool} (hx : -400000 ≤ x ∧ x < 500000) (h : Northing n north) (hz : 1 ≤ z ∧ z ≤ 60) :
    ToLatLon (XR.fin (x + 500000)) (XR.fin n) z [] [north] =
      .ok (.ok (.fin (iLat x (fromEquator n north) * 180 / π), .fin (iLon x (fromEquator n north) * 180 / π + zoneNumberToCentralLongitude z))) := by
  have hv : Valid (XR.fin (x + 500000)) (XR.fin n) z [] [north] := by
    refine ⟨by simp, ?_, ?_, hz, by simp⟩
    · simp only [XR.fin_lit, XR.fin_le, XR.fin_lt, decide_eq_true_eq]
      push_cast
      constructor <;> linarith
    · simp only [XR.fin_lit, XR.fin_le, decide_eq_true_eq]
      push_cast
      unfold Northing at h
      cases north
      · simp only [Bool.false_eq_true, if_false] at h; constructor <;> linarith
      · simp only [if_true] at h; constructor <;> linarith
  rw [C65_valid _ _ _ _ _ hv]
  have := inverse_fin x n z north (cos_foot_pos h.abs).ne'
  simp only [List.headD_cons]
  rw [this]
  rfl

/-- C84.  Easting 500000 is on the central meridian. -/
theorem C84_back (n : ℝ) (z : ℤ) (north : Bool) (h : Northing n north) (hz : 1 ≤ z ∧ z ≤ 60) :
    ∃ lat, ToLatLon (XR.fin 500000) (XR.fin n) z [] [north] = .ok (.ok (.fin lat, .fin (zoneNumberToCentralLongitude z))) := by
  have := toLatLon_fin (x := 0) (by norm_num) h hz
  rw [zero_add] at this
  rw [iLon_zero, zero_mul, zero_div, zero_add] at this
  exact ⟨_, this⟩

/-! ### C85 -/

/-- C85.  Mirroring a point at the central meridian mirrors its easting. -/
theorem C85_meridian (lat d : ℝ) (z : ℤ) (n1 n2 : Bool) (c c' : Coord (XR ℝ)) 
    (h : FromLatLon (XR.fin lat) (XR.fin (zoneNumberToCentralLongitude z + d)) n1 = .ok c)
    (h' : FromLatLon (XR.fin lat) (XR.fin (zoneNumberToCentralLongitude z - d)) n2 = .ok c') (hz : c.zoneNumber = z) (hz' : c'.zoneNumber = z) :
    ∃ x, c.easting = .fin (500000 + x) ∧ c'.easting = .fin (500000 - x) ∧ c.northing = c'.northing := by
  obtain ⟨-, -, -, -, e1, n1⟩ := from_fin h
  obtain ⟨-, -, -, -, e2, n2⟩ := from_fin h'
  rw [hz] at e1 n1
  rw [hz'] at e2 n2
  have r1 : Spec.rad (zoneNumberToCentralLongitude z + d) - Spec.rad (zoneNumberToCentralLongitude z) = Spec.rad d := by unfold Spec.rad; ring
  have r2 : Spec.rad (zoneNumberToCentralLongitude z - d) - Spec.rad (zoneNumberToCentralLongitude z) = -Spec.rad d := by unfold Spec.rad; ring
  rw [r1] at e1 n1
  rw [r2, fE_neg] at e2
  rw [r2, fN_neg] at n2
  refine ⟨_, e1.trans (by rw [add_comm]), e2.trans ?_, n1.trans n2.symm⟩
  congr 1; ring

/-- C85.  Mirroring a point at the equator mirrors its northing. -/
theorem C85_equator (lat lon : ℝ) (n1 n2 : Bool) (c c' : Coord (XR ℝ)) (h0 : 0 < lat) (h : FromLatLon (XR.fin lat) (XR.fin lon) n1 = .ok c)
    (h' : FromLatLon (XR.fin (-lat)) (XR.fin lon) n2 = .ok c') (hz : c'.zoneNumber = c.zoneNumber) :
    ∃ n, c.northing = .fin n ∧ c'.northing = .fin (10000000 - n) ∧ c.easting = c'.easting := by
  obtain ⟨-, -, -, -, e1, n1⟩ := from_fin h
  obtain ⟨-, -, -, -, e2, n2⟩ := from_fin h'
  have r : Spec.rad (-lat) = -Spec.rad lat := by unfold Spec.rad; ring
  rw [hz, r, fE_negφ] at e2
  rw [hz, r, fN_negφ, if_pos (by linarith)] at n2
  rw [if_neg (by linarith), add_zero] at n1
  refine ⟨_, n1, n2.trans ?_, e1.trans e2.symm⟩
  congr 1; ring

/-- C85.  `ToLatLon` mirrors, too. -/
theorem C85_back (x n : ℝ) (z : ℤ) (north : Bool) (hx : -400000 ≤ x ∧ x ≤ 400000) (h : Northing n north) (hz : 1 ≤ z ∧ z ≤ 60) :
    ∃ lat d, ToLatLon (XR.fin (500000 + x)) (XR.fin n) z [] [north] = .ok (.ok (.fin lat, .fin (zoneNumberToCentralLongitude z + d))) ∧
      ToLatLon (XR.fin (500000 - x)) (XR.fin n) z [] [north] = .ok (.ok (.fin lat, .fin (zoneNumberToCentralLongitude z - d))) := by
  have a := toLatLon_fin (x := x) ⟨hx.1, by linarith⟩ h hz
  have b := toLatLon_fin (x := -x) ⟨by linarith, by linarith⟩ h hz
  rw [iLat_neg, iLon_neg] at b
  refine ⟨_, _, (by rw [add_comm]; exact a.trans (by rw [add_comm (_ * 180 / π)])), ?_⟩
  rw [show 500000 - x = -x + 500000 by ring]
  refine b.trans ?_
  congr 4
  ring

/-! ### C86 -/

theorem m_bound : m1C ≤ 0.9983243 ∧ 0 ≤ m2C ∧ m2C ≤ 0.00252 ∧ 0 ≤ m3C ∧ m3C ≤ 0.000004 ∧ 0 ≤ m4C ∧ m4C ≤ 0.00000001 := by
  refine ⟨m1C_bound.2.le, ?_⟩
  unfold m2C m3C m4C e3C e2C eC
  norm_num

theorem mC_mono {a b : ℝ} (h : a < b) : mC a < mC b := by
  obtain ⟨-, a2, b2, a3, b3, a4, b4⟩ := m_bound
  have hm := m1C_bound
  have s : ∀ k : ℝ, 0 ≤ k → |sin (k * b) - sin (k * a)| ≤ k * (b - a) := by
    intro k hk
    refine (abs_sin_sub_sin_le _ _).trans ?_
    rw [← mul_sub, abs_of_nonneg (mul_nonneg hk (by linarith))]
  have s2 := abs_le.1 (s 2 (by norm_num))
  have s4 := abs_le.1 (s 4 (by norm_num))
  have s6 := abs_le.1 (s 6 (by norm_num))
  have d : 0 < b - a := by linarith
  have k2 : m2C * (sin (2 * b) - sin (2 * a)) ≤ 0.00252 * (2 * (b - a)) :=
    (mul_le_mul_of_nonneg_left s2.2 a2).trans (mul_le_mul_of_nonneg_right b2 (by linarith))
  have k3 : -(0.000004 * (4 * (b - a))) ≤ m3C * (sin (4 * b) - sin (4 * a)) := by
    have h1 := mul_le_mul_of_nonneg_left s4.1 a3
    have h2 := mul_le_mul_of_nonneg_right b3 (show 0 ≤ 4 * (b - a) by linarith)
    linarith
  have k4 : m4C * (sin (6 * b) - sin (6 * a)) ≤ 0.00000001 * (6 * (b - a)) :=
    (mul_le_mul_of_nonneg_left s6.2 a4).trans (mul_le_mul_of_nonneg_right b4 (by linarith))
  have k1 : 0.9983242 * (b - a) ≤ m1C * (b - a) := mul_le_mul_of_nonneg_right hm.1.le d.le
  have e : mC b - mC a = 6378137 * (m1C * (b - a) - m2C * (sin (2 * b) - sin (2 * a)) + m3C * (sin (4 * b) - sin (4 * a)) -
    m4C * (sin (6 * b) - sin (6 * a))) := by unfold mC; ring
  have : 0 < mC b - mC a := by
    rw [e]
    norm_num at *
    linarith
  linarith

theorem mC_zero : mC 0 = 0 := by unfold mC; simp

/-- C86.  On the central meridian of its zone, a point further north in the same hemisphere has a greater northing … -/
theorem C86_mono (lat lat' lon lon' : ℝ) (n1 n2 : Bool) (c c' : Coord (XR ℝ)) (h : FromLatLon (XR.fin lat) (XR.fin lon) n1 = .ok c)
    (h' : FromLatLon (XR.fin lat') (XR.fin lon') n2 = .ok c') (hl : lon = zoneNumberToCentralLongitude c.zoneNumber)
    (hl' : lon' = zoneNumberToCentralLongitude c'.zoneNumber) (h1 : lat < lat') (h2 : 0 ≤ lat ∨ lat' < 0) :
    lt c.northing c'.northing = true := by
  obtain ⟨-, -, -, -, -, e⟩ := from_fin h
  obtain ⟨-, -, -, -, -, e'⟩ := from_fin h'
  rw [← hl, sub_self, fN_zero] at e
  rw [← hl', sub_self, fN_zero] at e'
  have hr : Spec.rad lat < Spec.rad lat' := by
    have := Real.pi_pos
    unfold Spec.rad
    nlinarith
  have hm := mC_mono hr
  rw [e, e', XR.fin_lt, decide_eq_true_eq]
  have : k0C * mC (Spec.rad lat) < k0C * mC (Spec.rad lat') := mul_lt_mul_of_pos_left hm (by unfold k0C; norm_num)
  rcases h2 with h2 | h2
  · rw [if_neg (by linarith), if_neg (by linarith)]; linarith
  · rw [if_pos (by linarith), if_pos (by linarith)]; linarith

/-- C86.  … and the equator has northing 0 there. -/
theorem C86_equator (lon : ℝ) (n1 : Bool) (c : Coord (XR ℝ)) (h : FromLatLon (XR.fin 0) (XR.fin lon) n1 = .ok c) : c.northing = .fin 0 := by
  obtain ⟨-, -, -, -, -, e⟩ := from_fin h
  rw [e]
  have r : Spec.rad 0 = 0 := by unfold Spec.rad; ring
  rw [r]
  unfold fN
  simp [mC_zero]

/-! ### C87 -/

/-- the offset of a point from the central meridian, scaled to its latitude -/
theorem offset_bound {lat lon : ℝ} {northern : Bool} {c : Coord (XR ℝ)} (h : FromLatLon (XR.fin lat) (XR.fin lon) northern = .ok c) :
    |Spec.rad lon - Spec.rad (zoneNumberToCentralLongitude c.zoneNumber)| ≤ 0.1048 ∧
    |cos (Spec.rad lat) * (Spec.rad lon - Spec.rad (zoneNumberToCentralLongitude c.zoneNumber))| ≤ 0.061 := by
  obtain ⟨b1, b2, b3, b4, -, -⟩ := from_fin h
  obtain ⟨m1, m2, m3⟩ := C63_meridian (K := ℝ) (XR.fin lat) (XR.fin lon) northern c lat lon h rfl rfl
  have hp := Real.pi_pos
  have hp4 := Real.pi_lt_d4
  have hp3 := Real.pi_gt_d4
  have e : Spec.rad lon - Spec.rad (zoneNumberToCentralLongitude c.zoneNumber) = (lon - (zoneNumberToCentralLongitude c.zoneNumber : ℝ)) * (π / 180) := by
    unfold Spec.rad; ring
  have hk : |π / 180| ≤ 0.017454 := by rw [abs_of_pos (by positivity)]; norm_num at *; linarith
  have hc := cos_lat_pos b1 b2
  rw [e]
  have w : |lon - (zoneNumberToCentralLongitude c.zoneNumber : ℝ)| ≤ 6.001 := by
    rw [abs_le]; norm_num at *; constructor <;> linarith
  refine ⟨(Lonlat.mul_bound w hk).trans (by norm_num), ?_⟩
  by_cases hx : Norway lat lon ∨ Svalbard lat lon
  · have h56 : 56 ≤ lat := by rcases hx with hx | hx <;> linarith [hx.1]
    have hcos : cos (Spec.rad lat) ≤ 0.575 := by
      have l1 : Spec.rad 56 ≤ Spec.rad lat := by unfold Spec.rad; nlinarith
      have l2 : cos (Spec.rad lat) ≤ cos (Spec.rad 56) := by
        apply Real.cos_le_cos_of_nonneg_of_le_pi _ _ l1
        · unfold Spec.rad; positivity
        · unfold Spec.rad; nlinarith
      have l3 : 0.9773 ≤ Spec.rad 56 ∧ Spec.rad 56 ≤ 0.9774 := by unfold Spec.rad; norm_num at *; constructor <;> linarith
      have l4 := Real.cos_bound (x := Spec.rad 56) (by rw [abs_of_pos] <;> linarith)
      rw [abs_of_pos (show 0 < Spec.rad 56 by linarith)] at l4
      have l5 := (abs_le.1 l4).2
      have l6 : (0.9773 : ℝ) ^ 2 ≤ Spec.rad 56 ^ 2 := pow_le_pow_left₀ (by norm_num) l3.1 2
      have l7 : Spec.rad 56 ^ 4 ≤ (0.9774 : ℝ) ^ 4 := pow_le_pow_left₀ (by linarith) l3.2 4
      norm_num at *
      linarith
    have := Lonlat.mul_bound (show |cos (Spec.rad lat)| ≤ 0.575 by rw [abs_of_pos hc]; exact hcos) (Lonlat.mul_bound w hk)
    exact this.trans (by norm_num)
  · rw [not_or] at hx
    obtain ⟨g1, g2⟩ := m1 hx.1 hx.2
    have w' : |lon - (zoneNumberToCentralLongitude c.zoneNumber : ℝ)| ≤ 3.001 := by
      rw [abs_le]; norm_num at *; constructor <;> linarith
    exact (Lonlat.mul_bound (abs_cos_le_one _) (Lonlat.mul_bound w' hk)).trans (by norm_num)

theorem nC_bound (φ : ℝ) : 0 < nC φ ∧ nC φ ≤ 6442563 := by
  have hs := sqrt_e_sin φ
  unfold nC
  constructor
  · have : 0 < √(1 - eC * sin φ * sin φ) := by linarith
    positivity
  · rw [div_le_iff₀ (by linarith)]
    norm_num at *
    linarith

theorem fE_form {φ : ℝ} (hc : cos φ ≠ 0) (δ : ℝ) : fE φ δ = k0C * nC φ * (cos φ * δ) * (1 + δ ^ 2 / 6 * (cos φ ^ 2 - sin φ ^ 2 + eP2C * cos φ ^ 4) +
    δ ^ 4 / 120 * (5 * cos φ ^ 4 - 18 * (cos φ ^ 2 * sin φ ^ 2) + sin φ ^ 4 + 72 * eP2C * cos φ ^ 6 - 58 * eP2C * cos φ ^ 4)) := by
  unfold fE
  field_simp

theorem fN_form {φ : ℝ} (hc : cos φ ≠ 0) (δ : ℝ) : fN φ δ = k0C * (mC φ + nC φ * (sin φ * cos φ) * δ ^ 2 * (1 / 2 +
    δ ^ 2 / 24 * (5 * cos φ ^ 2 - sin φ ^ 2 + 9 * eP2C * cos φ ^ 4 + 4 * eP2C ^ 2 * cos φ ^ 6) +
    δ ^ 4 / 720 * (61 * cos φ ^ 4 - 58 * (cos φ ^ 2 * sin φ ^ 2) + sin φ ^ 4 + 600 * eP2C * cos φ ^ 6 - 330 * eP2C * cos φ ^ 4))) := by
  unfold fN
  field_simp

theorem trig_bounds (φ : ℝ) :
    |cos φ ^ 2 - sin φ ^ 2 + eP2C * cos φ ^ 4| ≤ 2 ∧
    |5 * cos φ ^ 4 - 18 * (cos φ ^ 2 * sin φ ^ 2) + sin φ ^ 4 + 72 * eP2C * cos φ ^ 6 - 58 * eP2C * cos φ ^ 4| ≤ 24 ∧
    |5 * cos φ ^ 2 - sin φ ^ 2 + 9 * eP2C * cos φ ^ 4 + 4 * eP2C ^ 2 * cos φ ^ 6| ≤ 6 ∧
    |61 * cos φ ^ 4 - 58 * (cos φ ^ 2 * sin φ ^ 2) + sin φ ^ 4 + 600 * eP2C * cos φ ^ 6 - 330 * eP2C * cos φ ^ 4| ≤ 120 := by
  have h := sin_sq_add_cos_sq φ
  have hs : sin φ ^ 4 = (sin φ ^ 2) ^ 2 := by ring
  have hc4 : cos φ ^ 4 = (cos φ ^ 2) ^ 2 := by ring
  have hc6 : cos φ ^ 6 = (cos φ ^ 2) ^ 3 := by ring
  have u0 := sq_nonneg (cos φ)
  have v0 := sq_nonneg (sin φ)
  rw [hs, hc4, hc6]
  generalize cos φ ^ 2 = u at *
  generalize sin φ ^ 2 = v at *
  have hv : v = 1 - u := by linarith
  subst hv
  have u1 : u ≤ 1 := by linarith
  have e0 : 0 ≤ eP2C ∧ eP2C ≤ 0.0068 := by unfold eP2C; norm_num
  have p2 : 0 ≤ u ^ 2 ∧ u ^ 2 ≤ 1 := ⟨by positivity, pow_le_one₀ u0 u1⟩
  have p3 : 0 ≤ u ^ 3 ∧ u ^ 3 ≤ 1 := ⟨by positivity, pow_le_one₀ u0 u1⟩
  have q2 : 0 ≤ (1 - u) ^ 2 ∧ (1 - u) ^ 2 ≤ 1 := ⟨by positivity, pow_le_one₀ v0 (by linarith)⟩
  have x : 0 ≤ u * (1 - u) ∧ u * (1 - u) ≤ 1 := ⟨mul_nonneg u0 v0, mul_le_one₀ u1 v0 (by linarith)⟩
  have f2 : 0 ≤ eP2C * u ^ 2 ∧ eP2C * u ^ 2 ≤ 0.0068 * 1 := ⟨mul_nonneg e0.1 p2.1, mul_le_mul e0.2 p2.2 p2.1 (by norm_num)⟩
  have f3 : 0 ≤ eP2C * u ^ 3 ∧ eP2C * u ^ 3 ≤ 0.0068 * 1 := ⟨mul_nonneg e0.1 p3.1, mul_le_mul e0.2 p3.2 p3.1 (by norm_num)⟩
  have ee : eP2C ^ 2 ≤ 0.0068 ^ 2 := pow_le_pow_left₀ e0.1 e0.2 2
  have g3 : 0 ≤ eP2C ^ 2 * u ^ 3 ∧ eP2C ^ 2 * u ^ 3 ≤ 0.0068 ^ 2 * 1 := ⟨by positivity, mul_le_mul ee p3.2 p3.1 (by norm_num)⟩
  norm_num at f2 f3 g3
  refine ⟨?_, ?_, ?_, ?_⟩ <;> rw [abs_le] <;> constructor <;> linarith

theorem fE_bound {φ δ : ℝ} (hc : cos φ ≠ 0) (h1 : |δ| ≤ 0.1048) (h2 : |cos φ * δ| ≤ 0.061) : |fE φ δ| ≤ 396000 := by
  obtain ⟨t1, t2, -, -⟩ := trig_bounds φ
  rw [fE_form hc]
  have d2 : |δ ^ 2 / 6| ≤ 0.002 := by
    rw [abs_of_nonneg (by positivity), ← sq_abs]
    have := pow_le_pow_left₀ (abs_nonneg δ) h1 2
    norm_num at *; linarith
  have d4 : |δ ^ 4 / 120| ≤ 0.000002 := by
    have e : δ ^ 4 = |δ| ^ 4 := by rw [show (4 : ℕ) = 2 * 2 by norm_num, pow_mul, pow_mul, sq_abs]
    rw [abs_of_nonneg (by positivity), e]
    have := pow_le_pow_left₀ (abs_nonneg δ) h1 4
    norm_num at *; linarith
  have g : |1 + δ ^ 2 / 6 * (cos φ ^ 2 - sin φ ^ 2 + eP2C * cos φ ^ 4) +
    δ ^ 4 / 120 * (5 * cos φ ^ 4 - 18 * (cos φ ^ 2 * sin φ ^ 2) + sin φ ^ 4 + 72 * eP2C * cos φ ^ 6 - 58 * eP2C * cos φ ^ 4)| ≤ 1.0041 := by
    have k1 := Lonlat.mul_bound d2 t1
    have k2 := Lonlat.mul_bound d4 t2
    refine (abs_add_le _ _).trans ?_
    refine (add_le_add (abs_add_le _ _) le_rfl).trans ?_
    rw [abs_one]
    norm_num at *
    linarith
  have hn := nC_bound φ
  have hk : |k0C * nC φ| ≤ 0.9996 * 6442563 := Lonlat.mul_bound (by unfold k0C; rw [abs_of_pos (by norm_num)]; norm_num) (by rw [abs_of_pos hn.1]; exact hn.2)
  exact (Lonlat.mul_bound (Lonlat.mul_bound hk h2) g).trans (by norm_num)

theorem fN_bound' {φ δ : ℝ} (hc : 0 < cos φ) (h0 : 0 ≤ φ) (hφ : φ ≤ 1.4662) (h1 : |δ| ≤ 0.1048) : 0 ≤ fN φ δ ∧ fN φ δ ≤ 9950000 := by
  obtain ⟨-, -, t1, t2⟩ := trig_bounds φ
  obtain ⟨a1, a2, b2, a3, b3, a4, b4⟩ := m_bound
  have hn := nC_bound φ
  have hm0 : 0 ≤ mC φ := by
    rcases eq_or_lt_of_le h0 with h | h
    · rw [← h, mC_zero]
    · rw [← mC_zero]; exact (mC_mono h).le
  have hm1 : mC φ ≤ 9353000 := by
    have k1 : m1C * φ ≤ 0.9983243 * 1.4662 := mul_le_mul a1 hφ h0 (by norm_num)
    have k2 : |m2C * sin (2 * φ)| ≤ 0.00252 * 1 := Lonlat.mul_bound (by rw [abs_of_nonneg a2]; exact b2) (abs_sin_le_one _)
    have k3 : |m3C * sin (4 * φ)| ≤ 0.000004 * 1 := Lonlat.mul_bound (by rw [abs_of_nonneg a3]; exact b3) (abs_sin_le_one _)
    have k4 : |m4C * sin (6 * φ)| ≤ 0.00000001 * 1 := Lonlat.mul_bound (by rw [abs_of_nonneg a4]; exact b4) (abs_sin_le_one _)
    unfold mC
    rw [abs_le] at k2 k3 k4
    norm_num at *
    linarith
  have hs : 0 ≤ sin φ := Real.sin_nonneg_of_nonneg_of_le_pi h0 (by linarith [Real.pi_gt_d4])
  have hδ2 : 0 ≤ δ ^ 2 ∧ δ ^ 2 ≤ 0.011 := by
    refine ⟨by positivity, ?_⟩
    rw [← sq_abs]
    have := pow_le_pow_left₀ (abs_nonneg δ) h1 2
    norm_num at *; linarith
  have d2 : |δ ^ 2 / 24| ≤ 0.0005 := by
    rw [abs_of_nonneg (by positivity)]; norm_num at *; linarith
  have d4 : |δ ^ 4 / 720| ≤ 0.000001 := by
    rw [abs_of_nonneg (by positivity), show δ ^ 4 = (δ ^ 2) ^ 2 by ring]
    have := pow_le_pow_left₀ hδ2.1 hδ2.2 2
    norm_num at *; linarith
  have k1 := abs_le.1 (Lonlat.mul_bound d2 t1)
  have k2 := abs_le.1 (Lonlat.mul_bound d4 t2)
  rw [fN_form hc.ne']
  set G := 1 / 2 + δ ^ 2 / 24 * (5 * cos φ ^ 2 - sin φ ^ 2 + 9 * eP2C * cos φ ^ 4 + 4 * eP2C ^ 2 * cos φ ^ 6) +
    δ ^ 4 / 720 * (61 * cos φ ^ 4 - 58 * (cos φ ^ 2 * sin φ ^ 2) + sin φ ^ 4 + 600 * eP2C * cos φ ^ 6 - 330 * eP2C * cos φ ^ 4) with hG
  have g : 0 ≤ G ∧ G ≤ 0.51 := by rw [hG]; norm_num at *; constructor <;> linarith
  have hsc : 0 ≤ sin φ * cos φ ∧ sin φ * cos φ ≤ 1 := ⟨by positivity, mul_le_one₀ (sin_le_one _) hc.le (cos_le_one _)⟩
  have w : 0 ≤ nC φ * (sin φ * cos φ) * δ ^ 2 * G :=
    mul_nonneg (mul_nonneg (mul_nonneg hn.1.le hsc.1) hδ2.1) g.1
  have w' : nC φ * (sin φ * cos φ) * δ ^ 2 * G ≤ 6442563 * 1 * 0.011 * 0.51 :=
    mul_le_mul (mul_le_mul (mul_le_mul hn.2 hsc.2 hsc.1 (by norm_num)) hδ2.2 hδ2.1 (by norm_num)) g.2 g.1 (by norm_num)
  unfold k0C
  norm_num at w' ⊢
  constructor <;> linarith

theorem fN_bound {φ δ : ℝ} (hc : 0 < cos φ) (h0 : 0 ≤ φ) (hφ : φ ≤ 1.4662) (h1 : |δ| ≤ 0.1048) : 0 ≤ fN φ δ ∧ fN φ δ < 10000000 :=
  ⟨(fN_bound' hc h0 hφ h1).1, by linarith [(fN_bound' hc h0 hφ h1).2]⟩

/-- C87.  Easting and northing returned by `FromLatLon` are in the range of `ToLatLon`. -/
theorem C87_range (lat lon : ℝ) (northern : Bool) (c : Coord (XR ℝ)) (h : FromLatLon (XR.fin lat) (XR.fin lon) northern = .ok c) :
    ∃ e n, c.easting = .fin e ∧ c.northing = .fin n ∧ 100000 < e ∧ e < 900000 ∧ 0 ≤ n ∧ n ≤ 10000000 := by
  obtain ⟨b1, b2, b3, b4, he, hn⟩ := from_fin h
  obtain ⟨o1, o2⟩ := offset_bound h
  have hc := cos_lat_pos b1 b2
  have hp := Real.pi_lt_d4
  have hp' := Real.pi_pos
  have k := abs_le.1 (fE_bound hc.ne' o1 o2)
  refine ⟨_, _, he, hn, by linarith, by linarith, ?_⟩
  rcases lt_or_ge lat 0 with h0 | h0
  · rw [if_pos h0]
    have r : Spec.rad lat = -Spec.rad (-lat) := by unfold Spec.rad; ring
    have h0' : 0 ≤ Spec.rad (-lat) := by
      have : 0 < -lat := by linarith
      unfold Spec.rad
      positivity
    have := fN_bound (φ := Spec.rad (-lat)) (by rw [r, cos_neg] at hc; exact hc) h0'
      (by unfold Spec.rad; norm_num at *; nlinarith) o1
    rw [r, fN_negφ]
    constructor <;> linarith [this.1, this.2]
  · rw [if_neg (by linarith), add_zero]
    have := fN_bound hc (by unfold Spec.rad; positivity) (by unfold Spec.rad; norm_num at *; nlinarith) o1
    constructor <;> linarith [this.1, this.2]

/-- C87, in part.  South of 84 N and west of 180 E, `ToLatLon` accepts what `FromLatLon` returns. -/
theorem C87_accepted_partial (lat lon : ℝ) (northern : Bool) (c : Coord (XR ℝ)) (h : FromLatLon (XR.fin lat) (XR.fin lon) northern = .ok c)
    (h1 : lat < 84) (h2 : lon ≤ 180 - 1 / 2 ^ 44) :
    ∃ p, ToLatLon c.easting c.northing c.zoneNumber (ascii c.zoneLetter) [] = .ok (.ok p) := by
  obtain ⟨e, n, he, hn, a1, a2, a3, a4⟩ := C87_range lat lon northern c h
  refine C62_roundtrip_partial (K := ℝ) _ _ northern c lat lon h rfl rfl h1 h2 _ _ ?_ ?_
  · rw [he]
    simp only [XR.fin_lit, XR.fin_le, XR.fin_lt, decide_eq_true_eq]
    push_cast
    constructor <;> linarith
  · rw [hn]
    simp only [XR.fin_lit, XR.fin_le, decide_eq_true_eq]
    push_cast
    exact ⟨a3, a4⟩

/-! ### cases that meet the hypotheses -/

theorem accepts (lat lon : ℝ) (northern : Bool) (h1 : -80 ≤ lat) (h2 : lat ≤ 84) (h3 : -180 ≤ lon) (h4 : lon ≤ 180) :
    ∃ c, FromLatLon (XR.fin lat) (XR.fin lon) northern = .ok c :=
  (C62_accepted (K := ℝ) _ _ northern).2 ⟨lat, lon, rfl, rfl, h1, h2, h3, h4⟩

theorem zone50 {lat lon : ℝ} {northern : Bool} {c : Coord (XR ℝ)} (h : FromLatLon (XR.fin lat) (XR.fin lon) northern = .ok c) (h1 : 114 ≤ lon)
    (h2 : lon < 119) : c.zoneNumber = 50 := by
  obtain ⟨b1, b2, b3, b4, -, -⟩ := from_fin h
  have hz := (from_eq (K := ℝ) h).2.1
  have := zone_spec (K := ℝ) (lat := XR.fin lat) (lon := XR.fin lon) rfl rfl b3 b4 b2
  rw [← hz] at this
  rw [if_neg (by unfold Norway; intro h; linarith [h.2.2.2]), if_neg (by intro h; linarith [h.2.2]), if_neg (by intro h; linarith [h.2.2]),
    if_neg (by intro h; linarith [h.2.2]), if_neg (by intro h; linarith [h.2.2])] at this
  obtain ⟨-, -, k1, k2⟩ := this
  push_cast at k1 k2
  have a : (c.zoneNumber : ℝ) < 51 := by norm_num at k1; linarith
  have b : (49 : ℝ) < c.zoneNumber := by linarith
  have a' : c.zoneNumber < 51 := by exact_mod_cast a
  have b' : 49 < c.zoneNumber := by exact_mod_cast b
  omega

/-- C84_forward, C86_mono: 40 N and 41 N on the central meridian 117 E of zone 50; C87_accepted_partial -/
example : ∃ c c', FromLatLon (XR.fin (40 : ℝ)) (XR.fin 117) false = .ok c ∧ FromLatLon (XR.fin (41 : ℝ)) (XR.fin 117) false = .ok c' ∧
    (117 : ℝ) = zoneNumberToCentralLongitude c.zoneNumber ∧ (117 : ℝ) = zoneNumberToCentralLongitude c'.zoneNumber := by
  obtain ⟨c, hc⟩ := accepts 40 117 false (by norm_num) (by norm_num) (by norm_num) (by norm_num)
  obtain ⟨c', hc'⟩ := accepts 41 117 false (by norm_num) (by norm_num) (by norm_num) (by norm_num)
  refine ⟨c, c', hc, hc', ?_, ?_⟩
  · rw [zone50 hc (by norm_num) (by norm_num)]; norm_num [zoneNumberToCentralLongitude]
  · rw [zone50 hc' (by norm_num) (by norm_num)]; norm_num [zoneNumberToCentralLongitude]

/-- C85_meridian: 118 E and 116 E; C85_equator: 40 N and 40 S -/
example : ∃ c c' c'', FromLatLon (XR.fin 40) (XR.fin ((zoneNumberToCentralLongitude 50 : ℝ) + 1)) false = .ok c ∧
    FromLatLon (XR.fin 40) (XR.fin ((zoneNumberToCentralLongitude 50 : ℝ) - 1)) false = .ok c' ∧
    FromLatLon (XR.fin (-40)) (XR.fin ((zoneNumberToCentralLongitude 50 : ℝ) + 1)) true = .ok c'' ∧
    c.zoneNumber = 50 ∧ c'.zoneNumber = 50 ∧ c''.zoneNumber = c.zoneNumber := by
  have e : (zoneNumberToCentralLongitude 50 : ℝ) = 117 := by norm_num [zoneNumberToCentralLongitude]
  rw [e]
  obtain ⟨c, hc⟩ := accepts 40 (117 + 1) false (by norm_num) (by norm_num) (by norm_num) (by norm_num)
  obtain ⟨c', hc'⟩ := accepts 40 (117 - 1) false (by norm_num) (by norm_num) (by norm_num) (by norm_num)
  obtain ⟨c'', hc''⟩ := accepts (-40) (117 + 1) true (by norm_num) (by norm_num) (by norm_num) (by norm_num)
  refine ⟨c, c', c'', hc, hc', hc'', zone50 hc (by norm_num) (by norm_num), zone50 hc' (by norm_num) (by norm_num), ?_⟩
  rw [zone50 hc (by norm_num) (by norm_num), zone50 hc'' (by norm_num) (by norm_num)]

/-- C84_back, C85_back -/
example : Northing 4000000 true ∧ Northing 4000000 false := by unfold Northing; norm_num

end GoGeo
