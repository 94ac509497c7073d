import Verif.Geo.UtmTM

/-!
# From latitude and longitude to UTM and back, off the central meridian
-/

set_option linter.unusedSectionVars false

namespace GoGeo.Utm
open Real PB

/-! ### the footpoint -/

theorem near_trig {φ k E kB E0 : ℝ} (hC : 0.1 ≤ cos φ) (hk : |k| ≤ kB) (hE : |E| ≤ E0) (hb : kB + E0 ≤ 1) :
    |cos (φ + k + E) / cos φ - (1 - k ^ 2 / 2 - sin φ / cos φ * k)| ≤
      (kB + E0) ^ 4 * (5 / 96) + (kB * E0 + E0 ^ 2 / 2) + 10 * (E0 + ((kB + E0) ^ 3 / 6 + (kB + E0) ^ 5 / 100)) ∧
    |sin (φ + k + E) - (sin φ + cos φ * k - sin φ * (k ^ 2 / 2))| ≤
      (kB + E0) ^ 4 * (5 / 96) + (kB * E0 + E0 ^ 2 / 2) + (E0 + ((kB + E0) ^ 3 / 6 + (kB + E0) ^ 5 / 100)) := by
  have hh : |k + E| ≤ kB + E0 := (abs_add_le _ _).trans (add_le_add hk hE)
  have hc := small_cos hh hb
  have hs := small_sin hh hb
  have hkE : |k * E + E ^ 2 / 2| ≤ kB * E0 + E0 ^ 2 / 2 := by
    refine (abs_add_le _ _).trans (add_le_add (Lonlat.mul_bound hk hE) ?_)
    rw [abs_of_nonneg (by positivity), ← sq_abs E]
    have := pow_le_pow_left₀ (abs_nonneg E) hE 2
    linarith
  have hES : |E + (sin (k + E) - (k + E))| ≤ E0 + ((kB + E0) ^ 3 / 6 + (kB + E0) ^ 5 / 100) := (abs_add_le _ _).trans (add_le_add hE hs)
  have ht : |sin φ / cos φ| ≤ 10 := by
    rw [abs_div, abs_of_pos (show 0 < cos φ by linarith), div_le_iff₀ (by linarith)]
    linarith [abs_sin_le_one φ]
  have hC0 : cos φ ≠ 0 := by linarith
  rw [add_assoc]
  generalize hh' : k + E = h at *
  have hE' : E = h - k := by linarith
  subst hE'
  rw [cos_add, sin_add]
  constructor
  · have e : (cos φ * cos h - sin φ * sin h) / cos φ - (1 - k ^ 2 / 2 - sin φ / cos φ * k) =
        (cos h - (1 - h ^ 2 / 2)) - (k * (h - k) + (h - k) ^ 2 / 2) - sin φ / cos φ * ((h - k) + (sin h - h)) := by
      field_simp
      ring
    rw [e]
    refine (abs_sub _ _).trans (add_le_add ((abs_sub _ _).trans (add_le_add hc hkE)) (Lonlat.mul_bound ht hES))
  · have e : sin φ * cos h + cos φ * sin h - (sin φ + cos φ * k - sin φ * (k ^ 2 / 2)) =
        sin φ * (cos h - (1 - h ^ 2 / 2)) - sin φ * (k * (h - k) + (h - k) ^ 2 / 2) + cos φ * ((h - k) + (sin h - h)) := by
      ring
    rw [e]
    have a := Lonlat.mul_bound (abs_sin_le_one φ) hc
    have b := Lonlat.mul_bound (abs_sin_le_one φ) hkE
    have c := Lonlat.mul_bound (abs_cos_le_one φ) hES
    rw [one_mul] at a b c
    exact (abs_add_le _ _).trans (add_le_add ((abs_sub _ _).trans (add_le_add a b)) c)

/-! ### the two series in the variables of the stages -/

theorem fN_form {φ : ℝ} (δ : ℝ) (hC : cos φ ≠ 0) :
    fN φ δ = k0C * (mC φ + nC φ * (sin φ * cos φ * δ ^ 2 * GR (cos φ ^ 2) (sin φ ^ 2) (δ ^ 2))) := by
  unfold fN GR
  field_simp

theorem fE_form {φ : ℝ} (δ : ℝ) (hC : cos φ ≠ 0) :
    fE φ δ = k0C * nC φ * (cos φ * δ * UR (cos φ ^ 2) (sin φ ^ 2) (δ ^ 2)) := by
  unfold fE UR
  field_simp

/-- the longitude, where `C` is the cosine of the latitude, `K` the cosine of the footpoint over it, and `C δ D` the easting over the
radius of curvature -/
theorem lon_form {C κ D δ s : ℝ} (hC : C ≠ 0) (hκ : κ ≠ 0) (h1 : s ^ 2 + (C * κ) ^ 2 = 1) (f ep : ℝ) :
    κ ^ 5 * ((C * δ * D - C * δ * D * (C * δ * D) * (C * δ * D) / 6 * (1 + 2 * (s / (C * κ) * (s / (C * κ))) + f * (C * κ) * (C * κ)) +
      C * δ * D * (C * δ * D) * (C * δ * D) * (C * δ * D) * (C * δ * D) / 120 *
        (5 - 2 * (f * (C * κ) * (C * κ)) + 28 * (s / (C * κ) * (s / (C * κ))) - 3 * (f * (C * κ) * (C * κ) * (f * (C * κ) * (C * κ))) + 8 * ep +
          24 * (s / (C * κ) * (s / (C * κ)) * (s / (C * κ) * (s / (C * κ)))))) / (C * κ) - δ) =
    δ * (κ ^ 4 * (D - κ) - δ ^ 2 * (1 / 6) * D ^ 3 * κ ^ 2 * (2 - κ ^ 2 * C ^ 2 + f * (κ ^ 2) ^ 2 * (C ^ 2) ^ 2) +
      (δ ^ 2) ^ 2 * (1 / 120) * D ^ 5 * (5 * (κ ^ 2) ^ 2 * (C ^ 2) ^ 2 + 28 * ((1 - κ ^ 2 * C ^ 2) * κ ^ 2 * C ^ 2) + 24 * (1 - κ ^ 2 * C ^ 2) ^ 2 -
        2 * f * (κ ^ 2) ^ 3 * (C ^ 2) ^ 3 - 3 * f ^ 2 * (κ ^ 2) ^ 4 * (C ^ 2) ^ 4 + 8 * ep * (κ ^ 2) ^ 2 * (C ^ 2) ^ 2)) := by
  have hs : s ^ 2 = 1 - κ ^ 2 * C ^ 2 := by linear_combination h1
  have ht : s / (C * κ) * (s / (C * κ)) = (1 - κ ^ 2 * C ^ 2) / (κ ^ 2 * C ^ 2) := by rw [← hs]; field_simp
  rw [ht]
  field_simp
  ring

theorem lat_form {C S κ D δ s g σ R ν : ℝ} (hC : C ≠ 0) (hκ : κ ≠ 0) (h1 : s ^ 2 + (C * κ) ^ 2 = 1) (f ep : ℝ) :
    κ ^ 3 * (S * C * g - s / (C * κ) * (R * ν ^ 2) * (C * δ * D * (C * δ * D) / 2 - C * δ * D * (C * δ * D) * (C * δ * D) * (C * δ * D) / 24 *
      (5 + 3 * (s / (C * κ) * (s / (C * κ))) + 10 * (f * (C * κ) * (C * κ)) - 4 * (f * (C * κ) * (C * κ) * (f * (C * κ) * (C * κ))) - 9 * ep))) =
    S * C * (κ ^ 3 * g - R * δ ^ 2 * (1 / 2) * (ν ^ 2 * σ * D ^ 2 * κ ^ 2) + R * (δ ^ 2) ^ 2 * (1 / 24) * (ν ^ 2 * σ * D ^ 4) *
      (3 + 2 * κ ^ 2 * C ^ 2 + 10 * f * (κ ^ 2) ^ 2 * (C ^ 2) ^ 2 - 4 * f ^ 2 * (κ ^ 2) ^ 3 * (C ^ 2) ^ 3 - 9 * ep * κ ^ 2 * C ^ 2)) -
    C * (s - S * σ) * (R * ν ^ 2) * (δ ^ 2 * D ^ 2 * κ ^ 2 / 2 - (δ ^ 2) ^ 2 * D ^ 4 / 24 *
      (3 + 2 * κ ^ 2 * C ^ 2 + 10 * f * (κ ^ 2) ^ 2 * (C ^ 2) ^ 2 - 4 * f ^ 2 * (κ ^ 2) ^ 3 * (C ^ 2) ^ 3 - 9 * ep * κ ^ 2 * C ^ 2)) := by
  have hs : s ^ 2 = 1 - κ ^ 2 * C ^ 2 := by linear_combination h1
  have ht : s / (C * κ) * (s / (C * κ)) = (1 - κ ^ 2 * C ^ 2) / (κ ^ 2 * C ^ 2) := by rw [← hs]; field_simp
  rw [ht]
  field_simp
  ring

theorem six_form {C κ D δ s : ℝ} (hC : C ≠ 0) (hκ : κ ≠ 0) (h1 : s ^ 2 + (C * κ) ^ 2 = 1) (f ep : ℝ) :
    κ ^ 4 * (C * δ * D * (C * δ * D) * (C * δ * D) * (C * δ * D) * (C * δ * D) * (C * δ * D) / 720 *
      (61 + 90 * (s / (C * κ) * (s / (C * κ))) + 298 * (f * (C * κ) * (C * κ)) + 45 * (s / (C * κ) * (s / (C * κ)) * (s / (C * κ) * (s / (C * κ)))) -
        252 * ep - 3 * (f * (C * κ) * (C * κ) * (f * (C * κ) * (C * κ))))) =
    C ^ 2 * (δ ^ 2) ^ 3 * D ^ 6 / 720 * (45 + (16 - 252 * ep) * (κ ^ 2 * C ^ 2) ^ 2 + 298 * f * (κ ^ 2 * C ^ 2) ^ 3 - 3 * f ^ 2 * (κ ^ 2 * C ^ 2) ^ 4) := by
  have hs : s ^ 2 = 1 - κ ^ 2 * C ^ 2 := by linear_combination h1
  have ht : s / (C * κ) * (s / (C * κ)) = (1 - κ ^ 2 * C ^ 2) / (κ ^ 2 * C ^ 2) := by rw [← hs]; field_simp
  rw [ht]
  field_simp
  ring

theorem iLon_of {X Y p d c s : ℝ} (h1 : foot Y = p) (h2 : X / (nC p * k0C) = d) (h3 : cos p = c) (h4 : sin p = s) :
    iLon X Y = (d - d * d * d / 6 * (1 + 2 * (s / c * (s / c)) + feC * c * c) +
      d * d * d * d * d / 120 * (5 - 2 * (feC * c * c) + 28 * (s / c * (s / c)) - 3 * (feC * c * c * (feC * c * c)) + 8 * eP2C +
        24 * (s / c * (s / c) * (s / c * (s / c))))) / c := by
  subst h1 h2 h3 h4
  rfl

theorem iLat_of {X Y p d c s : ℝ} (h1 : foot Y = p) (h2 : X / (nC p * k0C) = d) (h3 : cos p = c) (h4 : sin p = s) :
    iLat X Y = p - s / c / (99330562 / 10 ^ 8 / (1 - eC * (s * s))) *
      (d * d / 2 - d * d * d * d / 24 * (5 + 3 * (s / c * (s / c)) + 10 * (feC * c * c) - 4 * (feC * c * c * (feC * c * c)) - 9 * eP2C)) +
    d * d * d * d * d * d / 720 * (61 + 90 * (s / c * (s / c)) + 298 * (feC * c * c) + 45 * (s / c * (s / c) * (s / c * (s / c))) - 252 * eP2C -
      3 * (feC * c * c * (feC * c * c))) := by
  subst h1 h2 h3 h4
  rfl

/-- the ratio of the radii of curvature -/
theorem radii (φ p : ℝ) : ∃ ν, 0.985 ≤ ν ∧ ν ^ 2 ≤ 1.011 ∧ nC φ = ν * nC p ∧ ν ^ 2 * (1 - eC * sin φ ^ 2) = 1 - eC * (sin p * sin p) := by
  have q1 := sqrt_e_sin φ
  have q2 := sqrt_e_sin p
  have r1 : √(1 - eC * sin φ * sin φ) ^ 2 = 1 - eC * sin φ * sin φ := sq_sqrt (by linarith [(e_sin φ).1])
  have r2 : √(1 - eC * sin p * sin p) ^ 2 = 1 - eC * sin p * sin p := sq_sqrt (by linarith [(e_sin p).1])
  have a : 0.99 ≤ 1 - eC * sin φ ^ 2 := by have := (e_sin φ).1; linarith
  have b : 1 - eC * (sin p * sin p) ≤ 1 := by have := (e_sin p).2; linarith
  unfold nC
  generalize √(1 - eC * sin φ * sin φ) = q at *
  generalize √(1 - eC * sin p * sin p) = r at *
  have hq0 : q ≠ 0 := by linarith
  have hr0 : r ≠ 0 := by linarith
  have h : (r / q) ^ 2 * (1 - eC * sin φ ^ 2) = 1 - eC * (sin p * sin p) := by
    rw [show 1 - eC * sin φ ^ 2 = q ^ 2 by rw [r1]; ring, div_pow, div_mul_cancel₀ _ (pow_ne_zero 2 hq0), r2]
    ring
  refine ⟨r / q, ?_, ?_, ?_, h⟩
  · rw [le_div_iff₀ (by linarith)]
    linarith
  · have c : (r / q) ^ 2 * 0.99 ≤ (r / q) ^ 2 * (1 - eC * sin φ ^ 2) := mul_le_mul_of_nonneg_left a (sq_nonneg _)
    linarith
  · field_simp

/-- all the quantities of the way back -/
structure Back (P : Par) (φ δ E0 κ ν D E s : ℝ) : Prop where
  hE : |E| ≤ E0
  foot : Utm.foot (fN φ δ) = φ + Real.sin φ * Real.cos φ * gR (Real.cos φ ^ 2) (Real.sin φ ^ 2) (δ ^ 2) + E
  cos : Real.cos (Utm.foot (fN φ δ)) = Real.cos φ * κ
  sin : Real.sin (Utm.foot (fN φ δ)) = s
  one : s ^ 2 + (Real.cos φ * κ) ^ 2 = 1
  hs : |s - Real.sin φ * sFR (Real.cos φ ^ 2) (Real.sin φ ^ 2) (δ ^ 2)| ≤ P.ns0
  hκ : |κ - KpR (Real.cos φ ^ 2) (Real.sin φ ^ 2) (δ ^ 2)| ≤ P.nK
  hκ1 : |κ - 1| ≤ P.k1
  hν : |ν - nuPR (Real.cos φ ^ 2) (Real.sin φ ^ 2) (δ ^ 2)| ≤ P.nnu
  ν2 : ν ^ 2 ≤ 1.011
  hD : |D - DpR (Real.cos φ ^ 2) (Real.sin φ ^ 2) (δ ^ 2)| ≤ P.nD
  hD1 : |D| ≤ P.mDp + P.nD
  d : fE φ δ / (nC (Utm.foot (fN φ δ)) * k0C) = Real.cos φ * δ * D
  R : 99330562 / 10 ^ 8 / (1 - eC * (s * s)) = 1 / (RR (Real.cos φ ^ 2) * ν ^ 2)

theorem back {P : Par} (ok : P.Ok) {φ δ SC kB E0 u : ℝ} (hC : 0.1 ≤ cos φ) (dom : Dom P u (cos φ ^ 2) (sin φ ^ 2) (δ ^ 2))
    (hSC : |sin φ * cos φ| ≤ SC) (hkB : SC * P.gB ≤ kB) (hkB3 : kB ≤ 0.003)
    (hE0 : 0.000000001 + 1.007 * (0.0052 * kB ^ 2 + 0.0000000102 * kB) ≤ E0) (hE1 : E0 ≤ 0.001)
    (hnk : (kB + E0) ^ 4 * (5 / 96) + (kB * E0 + E0 ^ 2 / 2) + 10 * (E0 + ((kB + E0) ^ 3 / 6 + (kB + E0) ^ 5 / 100)) ≤ P.nk0)
    (hns : (kB + E0) ^ 4 * (5 / 96) + (kB * E0 + E0 ^ 2 / 2) + (E0 + ((kB + E0) ^ 3 / 6 + (kB + E0) ^ 5 / 100)) ≤ P.ns0) :
    ∃ κ ν D E s, Back P φ δ E0 κ ν D E s := by
  have hC0 : cos φ ≠ 0 := by linarith
  have hkg : |sin φ * cos φ * gR (cos φ ^ 2) (sin φ ^ 2) (δ ^ 2)| ≤ kB := (Lonlat.mul_bound hSC (st_g ok dom)).trans hkB
  have hRT : RR (cos φ ^ 2) * (sin φ * cos φ * δ ^ 2 * GR (cos φ ^ 2) (sin φ ^ 2) (δ ^ 2)) =
    sin φ * cos φ * gR (cos φ ^ 2) (sin φ ^ 2) (δ ^ 2) := by unfold gR; ring
  have hE := (foot_near φ (sin φ * cos φ * δ ^ 2 * GR (cos φ ^ 2) (sin φ ^ 2) (δ ^ 2)) kB (by rw [hRT]; exact hkg) hkB3).trans hE0
  rw [← fN_form δ hC0, hRT] at hE
  generalize hp : Utm.foot (fN φ δ) = p at *
  obtain ⟨E, hpE⟩ : ∃ E, p = φ + sin φ * cos φ * gR (cos φ ^ 2) (sin φ ^ 2) (δ ^ 2) + E := ⟨p - (φ + sin φ * cos φ * gR (cos φ ^ 2) (sin φ ^ 2) (δ ^ 2)), by ring⟩
  have hE' : |E| ≤ E0 := by rw [hpE, add_sub_cancel_left] at hE; exact hE
  obtain ⟨t1, t2⟩ := near_trig hC hkg hE' (by linarith)
  rw [← hpE] at t1 t2
  have e1 : 1 - (sin φ * cos φ * gR (cos φ ^ 2) (sin φ ^ 2) (δ ^ 2)) ^ 2 / 2 - sin φ / cos φ * (sin φ * cos φ * gR (cos φ ^ 2) (sin φ ^ 2) (δ ^ 2)) =
      KFR (cos φ ^ 2) (sin φ ^ 2) (δ ^ 2) := by
    unfold KFR
    generalize gR (cos φ ^ 2) (sin φ ^ 2) (δ ^ 2) = g
    field_simp
    ring
  have e2 : sin φ + cos φ * (sin φ * cos φ * gR (cos φ ^ 2) (sin φ ^ 2) (δ ^ 2)) - sin φ * ((sin φ * cos φ * gR (cos φ ^ 2) (sin φ ^ 2) (δ ^ 2)) ^ 2 / 2) =
      sin φ * sFR (cos φ ^ 2) (sin φ ^ 2) (δ ^ 2) := by
    unfold sFR
    generalize gR (cos φ ^ 2) (sin φ ^ 2) (δ ^ 2) = g
    ring
  rw [e1] at t1
  rw [e2] at t2
  obtain ⟨κ, hκ⟩ : ∃ κ, κ = cos p / cos φ := ⟨_, rfl⟩
  rw [← hκ] at t1
  have hcp : cos p = cos φ * κ := by rw [hκ]; field_simp
  have hκp := st_K ok dom (t1.trans hnk)
  obtain ⟨-, -, -, -, hκ1⟩ := st_Ks ok dom hκp
  have hsc : sin p ^ 2 + (cos φ * κ) ^ 2 = 1 := by rw [← hcp]; exact sin_sq_add_cos_sq p
  obtain ⟨ν, v1, v2, v3, v4⟩ := radii φ p
  have hν3 : ν ^ 2 * (1 - eC * sin φ ^ 2) = 1 - eC + eC * κ ^ 2 * cos φ ^ 2 := by rw [v4]; linear_combination (-eC) * hsc
  have hνp := st_nu ok dom hκp hν3 v1 (sq_nonneg _) (sin_sq_le_one φ)
  have hDp := st_D ok dom hνp
  refine ⟨κ, ν, ν * UR (cos φ ^ 2) (sin φ ^ 2) (δ ^ 2), E, sin p, hE', by rw [hp, hpE], by rw [hp, hcp], by rw [hp], hsc, t2.trans hns, hκp, hκ1, hνp, v2,
    hDp, ?_, ?_, ?_⟩
  · generalize ν * UR (cos φ ^ 2) (sin φ ^ 2) (δ ^ 2) = D at *
    have a := (st_m ok dom).2.2.1
    have : D = (D - DpR (cos φ ^ 2) (sin φ ^ 2) (δ ^ 2)) + DpR (cos φ ^ 2) (sin φ ^ 2) (δ ^ 2) := by ring
    rw [this]
    exact (abs_add_le _ _).trans (by linarith)
  · rw [hp, fE_form δ hC0, v3]
    have h1 : k0C ≠ 0 := by unfold k0C; norm_num
    have h2 : nC p ≠ 0 := by
      have := (sqrt_e_sin p).1
      unfold nC
      exact div_ne_zero (by norm_num) (by linarith)
    field_simp
  · rw [← v4]
    have h1 : 1 - eC * sin φ ^ 2 = 99330562 / 10 ^ 8 * RR (cos φ ^ 2) := by
      unfold eC RR eP2C
      rw [sin_sq]
      ring
    have h2 : RR (cos φ ^ 2) ≠ 0 := by
      have : 0 ≤ eP2C * cos φ ^ 2 := by unfold eP2C; positivity
      unfold RR
      linarith
    have h3 : ν ≠ 0 := by linarith
    rw [h1]
    field_simp

theorem off_lon {P : Par} (ok : P.Ok) {φ δ E0 u κ ν D E s : ℝ} (hC : 0.1 ≤ cos φ) (dom : Dom P u (cos φ ^ 2) (sin φ ^ 2) (δ ^ 2))
    (b : Back P φ δ E0 κ ν D E s) (hk1 : (P.k1 : ℝ) ≤ 0.01) (ha : 0 < (P.a : ℝ)) :
    |iLon (fE φ δ) (fN φ δ) - δ| ≤ |δ| * ((P.lon : ℝ) + 0.00085 * P.X * (2 * P.a) ^ 2) / (1 - P.k1) ^ 5 := by
  have hC0 : cos φ ≠ 0 := by linarith
  have hκl : 1 - (P.k1 : ℝ) ≤ κ := by linarith [(abs_le.1 b.hκ1).1]
  have hκ0 : κ ≠ 0 := by linarith
  have hform := lon_form (δ := δ) (D := D) hC0 hκ0 b.one feC eP2C
  rw [← iLon_of (X := fE φ δ) rfl b.d b.cos b.sin] at hform
  have hlon := st_lon ok dom b.hκ b.hD
  have hM : |lonMR feC (cos φ ^ 2) (δ ^ 2)| ≤ 0.00085 * P.X * (2 * P.a) ^ 2 := by
    obtain ⟨f1, f2⟩ := fe_bounds
    have hw0 : 0 ≤ cos φ ^ 2 := sq_nonneg _
    have hwa : cos φ ^ 2 ≤ 2 * P.a := by
      rw [dom.hw]
      nlinarith [(abs_le.1 dom.hu).2]
    have hx := dom.hx
    unfold lonMR
    have a1 : |(eP2C - feC) * (1 / 6)| ≤ 0.00085 := by
      rw [abs_of_nonneg] <;> unfold eP2C <;> linarith
    have a2 : |(cos φ ^ 2) ^ 2| ≤ (2 * P.a) ^ 2 := by
      rw [abs_of_nonneg (by positivity)]
      exact pow_le_pow_left₀ hw0 hwa 2
    exact Lonlat.mul_bound (Lonlat.mul_bound a1 hx) a2
  have hE : |lonER κ D (κ ^ 2) (D ^ 3) (κ ^ 4) (D ^ 5) (κ ^ 2) feC (cos φ ^ 2) (δ ^ 2)| ≤ (P.lon : ℝ) + 0.00085 * P.X * (2 * P.a) ^ 2 := by
    have e : lonER κ D (κ ^ 2) (D ^ 3) (κ ^ 4) (D ^ 5) (κ ^ 2) feC (cos φ ^ 2) (δ ^ 2) =
      (lonER κ D (κ ^ 2) (D ^ 3) (κ ^ 4) (D ^ 5) (κ ^ 2) feC (cos φ ^ 2) (δ ^ 2) - lonMR feC (cos φ ^ 2) (δ ^ 2)) + lonMR feC (cos φ ^ 2) (δ ^ 2) := by ring
    rw [e]
    exact (abs_add_le _ _).trans (add_le_add hlon hM)
  have hf : κ ^ 5 * (iLon (fE φ δ) (fN φ δ) - δ) = δ * lonER κ D (κ ^ 2) (D ^ 3) (κ ^ 4) (D ^ 5) (κ ^ 2) feC (cos φ ^ 2) (δ ^ 2) := by
    rw [hform]; unfold lonER; ring
  have h5 : (1 - (P.k1 : ℝ)) ^ 5 ≤ κ ^ 5 := pow_le_pow_left₀ (by linarith) hκl 5
  have h5' : 0 < (1 - (P.k1 : ℝ)) ^ 5 := pow_pos (by linarith) 5
  rw [le_div_iff₀ h5']
  have h6 := Lonlat.mul_bound (le_refl |δ|) hE
  rw [← hf, abs_mul, abs_of_pos (lt_of_lt_of_le h5' h5)] at h6
  have := mul_le_mul_of_nonneg_right h5 (abs_nonneg (iLon (fE φ δ) (fN φ δ) - δ))
  linarith

set_option maxHeartbeats 2000000 in
theorem off_lat {P : Par} (ok : P.Ok) {φ δ E0 SC u κ ν D E s : ℝ} (hC : 0.1 ≤ cos φ) (dom : Dom P u (cos φ ^ 2) (sin φ ^ 2) (δ ^ 2))
    (hSC : |sin φ * cos φ| ≤ SC)
    (b : Back P φ δ E0 κ ν D E s) (hk1 : (P.k1 : ℝ) ≤ 0.01) (hD1 : (P.mDp : ℝ) + P.nD ≤ 1.006) (hX1 : (P.X : ℝ) ≤ 0.011) (ha : 0 < (P.a : ℝ)) :
    |iLat (fE φ δ) (fN φ δ) - φ| ≤ E0 + (SC * P.lat + 0.6 * P.X * P.ns0) / (1 - P.k1) ^ 3 + 0.1 * (2 * P.a * (P.X : ℝ) ^ 3) := by
  have hC0 : cos φ ≠ 0 := by linarith
  have hκl : 1 - (P.k1 : ℝ) ≤ κ := by linarith [(abs_le.1 b.hκ1).1]
  have hκu : κ ≤ 1 + (P.k1 : ℝ) := by linarith [(abs_le.1 b.hκ1).2]
  have hκ0 : κ ≠ 0 := by linarith
  obtain ⟨f1, f2⟩ := fe_bounds
  have hx0 : 0 ≤ δ ^ 2 := sq_nonneg δ
  have hx : δ ^ 2 ≤ P.X := by have := dom.hx; rwa [abs_of_nonneg hx0] at this
  have hw0 : 0 ≤ cos φ ^ 2 := sq_nonneg _
  have hw1 : cos φ ^ 2 ≤ 1 := cos_sq_le_one φ
  have hwa : cos φ ^ 2 ≤ 2 * P.a := by
    rw [dom.hw]
    nlinarith [(abs_le.1 dom.hu).2]
  have hy0 : 0 ≤ κ ^ 2 * cos φ ^ 2 := by positivity
  have hy1 : κ ^ 2 * cos φ ^ 2 ≤ 1 := by have := sq_nonneg s; linarith [b.one]
  have hD : |D| ≤ 1.006 := b.hD1.trans hD1
  have hform := lat_form (δ := δ) (D := D) (S := sin φ) (g := gR (cos φ ^ 2) (sin φ ^ 2) (δ ^ 2)) (σ := sFR (cos φ ^ 2) (sin φ ^ 2) (δ ^ 2))
    (R := RR (cos φ ^ 2)) (ν := ν) hC0 hκ0 b.one feC eP2C
  have hsix := six_form (δ := δ) (D := D) hC0 hκ0 b.one feC eP2C
  have hlat := st_lat ok dom b.hκ b.hν b.hD
  have hI := iLat_of (X := fE φ δ) rfl b.d b.cos b.sin
  rw [b.foot, b.R, div_div_eq_mul_div, div_one] at hI
  -- the last term of the series
  generalize hT6 : cos φ * δ * D * (cos φ * δ * D) * (cos φ * δ * D) * (cos φ * δ * D) * (cos φ * δ * D) * (cos φ * δ * D) / 720 *
      (61 + 90 * (s / (cos φ * κ) * (s / (cos φ * κ))) + 298 * (feC * (cos φ * κ) * (cos φ * κ)) +
        45 * (s / (cos φ * κ) * (s / (cos φ * κ)) * (s / (cos φ * κ) * (s / (cos φ * κ)))) -
        252 * eP2C - 3 * (feC * (cos φ * κ) * (cos φ * κ) * (feC * (cos φ * κ) * (cos φ * κ)))) = T6 at *
  generalize hM : s / (cos φ * κ) * (RR (cos φ ^ 2) * ν ^ 2) * (cos φ * δ * D * (cos φ * δ * D) / 2 - cos φ * δ * D * (cos φ * δ * D) * (cos φ * δ * D) * (cos φ * δ * D) / 24 *
      (5 + 3 * (s / (cos φ * κ) * (s / (cos φ * κ))) + 10 * (feC * (cos φ * κ) * (cos φ * κ)) - 4 * (feC * (cos φ * κ) * (cos φ * κ) * (feC * (cos φ * κ) * (cos φ * κ))) - 9 * eP2C)) = M at *
  have h6 : |T6| ≤ 0.1 * (2 * P.a * (P.X : ℝ) ^ 3) := by
    generalize κ ^ 2 * cos φ ^ 2 = y at *
    have p2 : |y ^ 2| ≤ 1 := by rw [abs_of_nonneg (by positivity)]; exact pow_le_one₀ hy0 hy1
    have p3 : |y ^ 3| ≤ 1 := by rw [abs_of_nonneg (by positivity)]; exact pow_le_one₀ hy0 hy1
    have p4 : |y ^ 4| ≤ 1 := by rw [abs_of_nonneg (by positivity)]; exact pow_le_one₀ hy0 hy1
    have c2 : |16 - 252 * eP2C| ≤ 14.5 := by unfold eP2C; rw [abs_of_pos] <;> norm_num
    have c3 : |298 * feC| ≤ 0.51 := by rw [abs_of_pos (by linarith)]; linarith
    have c4 : |3 * feC ^ 2| ≤ 0.01 := by
      have := fe_pow 2
      rw [abs_of_pos (by positivity)]
      linarith
    have hb : |45 + (16 - 252 * eP2C) * y ^ 2 + 298 * feC * y ^ 3 - 3 * feC ^ 2 * y ^ 4| ≤ 62 := by
      refine (abs_sub _ _).trans ?_
      refine (add_le_add ((abs_add_le _ _).trans (add_le_add (abs_add_le _ _) le_rfl)) le_rfl).trans ?_
      have a2 := Lonlat.mul_bound c2 p2
      have a3 := Lonlat.mul_bound c3 p3
      have a4 := Lonlat.mul_bound c4 p4
      rw [abs_of_pos (by norm_num : (0 : ℝ) < 45)]
      linarith
    have hD6 : |D ^ 6| ≤ 1.04 := by
      rw [abs_pow]
      exact (pow_le_pow_left₀ (abs_nonneg D) hD 6).trans (by norm_num)
    have hx3 : |(δ ^ 2) ^ 3| ≤ (P.X : ℝ) ^ 3 := by rw [abs_of_nonneg (by positivity)]; exact pow_le_pow_left₀ hx0 hx 3
    have hc : |cos φ ^ 2| ≤ 2 * P.a := by rw [abs_of_nonneg hw0]; exact hwa
    have hr := Lonlat.mul_bound (Lonlat.mul_bound (Lonlat.mul_bound (Lonlat.mul_bound hc hx3) hD6) (show |(1 / 720 : ℝ)| ≤ 1 / 720 by rw [abs_of_pos] <;> norm_num)) hb
    rw [show cos φ ^ 2 * (δ ^ 2) ^ 3 * D ^ 6 * (1 / 720) = cos φ ^ 2 * (δ ^ 2) ^ 3 * D ^ 6 / 720 by ring, ← hsix, abs_mul] at hr
    have h4 : 0.96 ≤ |κ ^ 4| := by
      rw [abs_of_nonneg (by positivity)]
      exact le_trans (by norm_num) (pow_le_pow_left₀ (by norm_num) (show 0.99 ≤ κ by linarith) 4)
    have := mul_le_mul_of_nonneg_right h4 (abs_nonneg T6)
    have hX3 : 0 ≤ 2 * P.a * (P.X : ℝ) ^ 3 := mul_nonneg ((abs_nonneg _).trans hc) ((abs_nonneg _).trans hx3)
    linarith
  have hMb : |sin φ * cos φ * gR (cos φ ^ 2) (sin φ ^ 2) (δ ^ 2) - M| ≤ (SC * P.lat + 0.6 * P.X * P.ns0) / (1 - P.k1) ^ 3 := by
    have h3 : (1 - (P.k1 : ℝ)) ^ 3 ≤ κ ^ 3 := pow_le_pow_left₀ (by linarith) hκl 3
    have h3' : 0 < (1 - (P.k1 : ℝ)) ^ 3 := pow_pos (by linarith) 3
    rw [le_div_iff₀ h3']
    have hf : κ ^ 3 * (sin φ * cos φ * gR (cos φ ^ 2) (sin φ ^ 2) (δ ^ 2) - M) = sin φ * cos φ *
        latER (κ ^ 3) (gR (cos φ ^ 2) (sin φ ^ 2) (δ ^ 2)) (prodWR ν (sFR (cos φ ^ 2) (sin φ ^ 2) (δ ^ 2)) D (κ ^ 2))
          (prodVR ν (sFR (cos φ ^ 2) (sin φ ^ 2) (δ ^ 2)) D) (κ ^ 2) feC (cos φ ^ 2) (δ ^ 2) -
        cos φ * (s - sin φ * sFR (cos φ ^ 2) (sin φ ^ 2) (δ ^ 2)) * (RR (cos φ ^ 2) * ν ^ 2) *
          (δ ^ 2 * (D ^ 2 * κ ^ 2 / 2 - δ ^ 2 * D ^ 4 / 24 *
            (3 + 2 * (κ ^ 2 * cos φ ^ 2) + 10 * feC * (κ ^ 2 * cos φ ^ 2) ^ 2 - 4 * feC ^ 2 * (κ ^ 2 * cos φ ^ 2) ^ 3 - 9 * eP2C * (κ ^ 2 * cos φ ^ 2)))) := by
      rw [hform]
      unfold latER latBR prodWR prodVR
      ring
    have hB : |3 + 2 * (κ ^ 2 * cos φ ^ 2) + 10 * feC * (κ ^ 2 * cos φ ^ 2) ^ 2 - 4 * feC ^ 2 * (κ ^ 2 * cos φ ^ 2) ^ 3 - 9 * eP2C * (κ ^ 2 * cos φ ^ 2)| ≤ 5.3 := by
      generalize κ ^ 2 * cos φ ^ 2 = y at *
      have p1 : |y| ≤ 1 := by rw [abs_of_nonneg hy0]; exact hy1
      have p2 : |y ^ 2| ≤ 1 := by rw [abs_of_nonneg (by positivity)]; exact pow_le_one₀ hy0 hy1
      have p3 : |y ^ 3| ≤ 1 := by rw [abs_of_nonneg (by positivity)]; exact pow_le_one₀ hy0 hy1
      have c1 : |(2 : ℝ)| ≤ 2 := by norm_num
      have c2 : |10 * feC| ≤ 0.017 := by rw [abs_of_pos (by linarith)]; linarith
      have c3 : |4 * feC ^ 2| ≤ 0.01 := by
        have := fe_pow 2
        rw [abs_of_pos (by positivity)]
        linarith
      have c4 : |9 * eP2C| ≤ 0.07 := by unfold eP2C; rw [abs_of_pos] <;> norm_num
      refine (abs_sub _ _).trans ?_
      refine (add_le_add ((abs_sub _ _).trans (add_le_add ((abs_add_le _ _).trans (add_le_add (abs_add_le _ _) le_rfl)) le_rfl)) le_rfl).trans ?_
      have a1 := Lonlat.mul_bound c1 p1
      have a2 := Lonlat.mul_bound c2 p2
      have a3 := Lonlat.mul_bound c3 p3
      have a4 := Lonlat.mul_bound c4 p1
      rw [abs_of_pos (by norm_num : (0 : ℝ) < 3)]
      linarith
    have hD2 : |D ^ 2| ≤ 1.013 := by rw [abs_pow]; exact (pow_le_pow_left₀ (abs_nonneg D) hD 2).trans (by norm_num)
    have hD4 : |D ^ 4| ≤ 1.03 := by rw [abs_pow]; exact (pow_le_pow_left₀ (abs_nonneg D) hD 4).trans (by norm_num)
    have hκ2 : |κ ^ 2| ≤ 1.021 := by
      rw [abs_of_nonneg (by positivity)]
      exact (pow_le_pow_left₀ (by linarith) (show κ ≤ 1.01 by linarith) 2).trans (by norm_num)
    have hxa : |δ ^ 2| ≤ (P.X : ℝ) := dom.hx
    have hxb : |δ ^ 2| ≤ 0.011 := hxa.trans hX1
    have hi : |D ^ 2 * κ ^ 2 / 2 - δ ^ 2 * D ^ 4 / 24 *
        (3 + 2 * (κ ^ 2 * cos φ ^ 2) + 10 * feC * (κ ^ 2 * cos φ ^ 2) ^ 2 - 4 * feC ^ 2 * (κ ^ 2 * cos φ ^ 2) ^ 3 - 9 * eP2C * (κ ^ 2 * cos φ ^ 2))| ≤ 0.55 := by
      refine (abs_sub _ _).trans ?_
      have a1 := Lonlat.mul_bound hD2 hκ2
      have a2 := Lonlat.mul_bound (Lonlat.mul_bound hxb hD4) hB
      rw [abs_div, abs_of_pos (by norm_num : (0 : ℝ) < 2), div_mul_eq_mul_div, abs_div _ (24 : ℝ), abs_of_pos (by norm_num : (0 : ℝ) < 24)]
      linarith
    have hR : |RR (cos φ ^ 2)| ≤ 1.007 := by
      unfold RR eP2C
      rw [abs_of_pos (by positivity)]
      linarith
    have hν2 : |ν ^ 2| ≤ 1.011 := by rw [abs_of_nonneg (sq_nonneg ν)]; exact b.ν2
    have hA := Lonlat.mul_bound hSC hlat
    have hN := Lonlat.mul_bound (Lonlat.mul_bound (Lonlat.mul_bound (abs_cos_le_one φ) b.hs) (Lonlat.mul_bound hR hν2)) (Lonlat.mul_bound hxa hi)
    have hr := (abs_sub _ _).trans (add_le_add hA hN)
    rw [← hf, abs_mul, abs_of_pos (lt_of_lt_of_le h3' h3)] at hr
    have h7 := mul_le_mul_of_nonneg_right h3 (abs_nonneg (sin φ * cos φ * gR (cos φ ^ 2) (sin φ ^ 2) (δ ^ 2) - M))
    have h8 : 0 ≤ (P.X : ℝ) * P.ns0 := mul_nonneg ((abs_nonneg _).trans hxa) ((abs_nonneg _).trans b.hs)
    have h9 : 1 * (P.ns0 : ℝ) * (1.007 * 1.011) * (P.X * 0.55) ≤ 0.6 * P.X * P.ns0 := by
      rw [show 1 * (P.ns0 : ℝ) * (1.007 * 1.011) * (P.X * 0.55) = 1.007 * 1.011 * 0.55 * (P.X * P.ns0) by ring, mul_assoc 0.6]
      exact mul_le_mul_of_nonneg_right (by norm_num) h8
    linarith
  have e : iLat (fE φ δ) (fN φ δ) - φ = E + (sin φ * cos φ * gR (cos φ ^ 2) (sin φ ^ 2) (δ ^ 2) - M) + T6 := by rw [hI]; ring
  rw [e]
  exact (abs_add_le _ _).trans (add_le_add ((abs_add_le _ _).trans (add_le_add b.hE hMb)) h6)

end GoGeo.Utm
