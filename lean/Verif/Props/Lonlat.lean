import Verif.Geo.LonlatLemmas

/-!
# Properties of lonlat.go

`fin x` is the exact real number `x`.  All distances are in degrees.
-/

set_option linter.unusedSectionVars false

namespace GoGeo
open GoFloat Lonlat Real

/-! ### C66 -/

/-- C66.  Outside the box 73.66 < lon < 135.05, 3.86 < lat < 53.55, and for NaN, the shifts return their arguments, whatever the number type. -/
theorem C66_outside {F : Type} [GoMath F] [FloatOrd F] (lon lat : F)
    (h : le lon (dec 7366 2) = true ∨ le (dec 13505 2) lon = true ∨ le lat (dec 386 2) = true ∨ le (dec 5355 2) lat = true ∨
      isNaN lon = true ∨ isNaN lat = true) :
    WGS84toGCJ02 lon lat = (lon, lat) ∧ GCJ02toWGS84 lon lat = (lon, lat) := by
  have : isOutOFChina lon lat = true := by
    unfold isOutOFChina
    rw [Bool.not_eq_true']
    by_contra hc
    simp only [Bool.not_eq_false, Bool.and_eq_true] at hc
    obtain ⟨⟨⟨h1, h2⟩, h3⟩, h4⟩ := hc
    obtain ⟨n1, n2, l1⟩ := lt_iff'.1 h1
    obtain ⟨n3, n4, l2⟩ := lt_iff'.1 h2
    obtain ⟨n5, n6, l3⟩ := lt_iff'.1 h3
    obtain ⟨n7, n8, l4⟩ := lt_iff'.1 h4
    rcases h with h | h | h | h | h | h <;> simp_all
  simp [WGS84toGCJ02, GCJ02toWGS84, this]

/-! ### C88: the shift of GCJ02 is small -/

theorem toGCJ_in {lon lat : ℝ} (h : InBox lon lat) :
    WGS84toGCJ02 (XR.fin lon) (XR.fin lat) = (.fin (lon + dLon lon lat), .fin (lat + dLat lon lat)) := by
  have hb : isOutOFChina (XR.fin lon) (XR.fin lat) = false := by
    rw [← Bool.not_eq_true, out_fin]; exact not_not.2 h
  rw [WGS84toGCJ02, hb, if_neg (by decide), delta_fin h.2.2.1 h.2.2.2]

theorem toGCJ_out {lon lat : ℝ} (h : ¬ InBox lon lat) : WGS84toGCJ02 (XR.fin lon) (XR.fin lat) = (.fin lon, .fin lat) := by
  rw [WGS84toGCJ02, (out_fin lon lat).2 h, if_pos rfl]

theorem toWGS_in {lon lat : ℝ} (h : InBox lon lat) :
    GCJ02toWGS84 (XR.fin lon) (XR.fin lat) = (.fin (lon - dLon lon lat), .fin (lat - dLat lon lat)) := by
  have hb : isOutOFChina (XR.fin lon) (XR.fin lat) = false := by
    rw [← Bool.not_eq_true, out_fin]; exact not_not.2 h
  rw [GCJ02toWGS84, hb, if_neg (by decide), delta_fin h.2.2.1 h.2.2.2]
  simp only [XR.fin_lit, XR.fin_mul, XR.fin_sub]
  congr 2 <;> push_cast <;> ring

theorem toWGS_out {lon lat : ℝ} (h : ¬ InBox lon lat) : GCJ02toWGS84 (XR.fin lon) (XR.fin lat) = (.fin lon, .fin lat) := by
  rw [GCJ02toWGS84, (out_fin lon lat).2 h, if_pos rfl]

/-- C88.  `WGS84toGCJ02` moves no point by more than 0.0161 degrees of longitude and 0.0052 degrees of latitude. -/
theorem C88_toGCJ (lon lat : ℝ) : ∃ lon' lat', WGS84toGCJ02 (XR.fin lon) (XR.fin lat) = (.fin lon', .fin lat') ∧
    |lon' - lon| ≤ 0.0161 ∧ |lat' - lat| ≤ 0.0052 := by
  by_cases h : InBox lon lat
  · exact ⟨_, _, toGCJ_in h, by simpa using dLon_bound h, by simpa using dLat_bound h⟩
  · exact ⟨_, _, toGCJ_out h, by norm_num, by norm_num⟩

/-- C88.  The same for `GCJ02toWGS84`. -/
theorem C88_toWGS (lon lat : ℝ) : ∃ lon' lat', GCJ02toWGS84 (XR.fin lon) (XR.fin lat) = (.fin lon', .fin lat') ∧
    |lon' - lon| ≤ 0.0161 ∧ |lat' - lat| ≤ 0.0052 := by
  by_cases h : InBox lon lat
  · exact ⟨_, _, toWGS_in h, by simpa using dLon_bound h, by simpa using dLat_bound h⟩
  · exact ⟨_, _, toWGS_out h, by norm_num, by norm_num⟩

/-! ### C89: and back -/

/-- China, with a margin to the edge of the box -/
def Inside (lon lat : ℝ) : Prop := 73.7 ≤ lon ∧ lon ≤ 135 ∧ 3.9 ≤ lat ∧ lat ≤ 53.5

theorem Inside.box {lon lat lon' lat' : ℝ} (h : Inside lon lat) (h1 : |lon' - lon| ≤ 0.02) (h2 : |lat' - lat| ≤ 0.02) : InBox lon' lat' := by
  obtain ⟨a, b, c, d⟩ := h
  rw [abs_le] at h1 h2
  norm_num at *
  refine ⟨?_, ?_, ?_, ?_⟩ <;> norm_num <;> linarith

/-- C89.  Converting to GCJ02 and back returns a point inside China to within 0.00015 degrees of longitude and 0.00006 degrees of latitude. -/
theorem C89_roundtrip (lon lat : ℝ) (h : Inside lon lat) :
    ∃ lon' lat' lon'' lat'', WGS84toGCJ02 (XR.fin lon) (XR.fin lat) = (.fin lon', .fin lat') ∧
      GCJ02toWGS84 (XR.fin lon') (XR.fin lat') = (.fin lon'', .fin lat'') ∧ |lon'' - lon| ≤ 0.00015 ∧ |lat'' - lat| ≤ 0.00006 := by
  have hb : InBox lon lat := h.box (by norm_num) (by norm_num)
  have b1 := dLon_bound hb
  have b2 := dLat_bound hb
  have hb' : InBox (lon + dLon lon lat) (lat + dLat lon lat) :=
    h.box (by rw [add_sub_cancel_left]; linarith) (by rw [add_sub_cancel_left]; linarith)
  have c1 : |lon - (lon + dLon lon lat)| ≤ 0.0162 := by rw [sub_add_cancel_left, abs_neg]; linarith
  have c2 : |lat - (lat + dLat lon lat)| ≤ 0.0053 := by rw [sub_add_cancel_left, abs_neg]; linarith
  refine ⟨_, _, _, _, toGCJ_in hb, toWGS_in hb', ?_, ?_⟩
  · have := dLon_diff hb hb' c1 c2
    refine le_trans (le_of_eq ?_) (this.trans (by norm_num))
    congr 1; ring
  · have := dLat_diff hb hb' c1 c2
    refine le_trans (le_of_eq ?_) (this.trans (by norm_num))
    congr 1; ring

/-- C89.  Converting from GCJ02 and back, too. -/
theorem C89_roundtrip' (lon lat : ℝ) (h : Inside lon lat) :
    ∃ lon' lat' lon'' lat'', GCJ02toWGS84 (XR.fin lon) (XR.fin lat) = (.fin lon', .fin lat') ∧
      WGS84toGCJ02 (XR.fin lon') (XR.fin lat') = (.fin lon'', .fin lat'') ∧ |lon'' - lon| ≤ 0.00015 ∧ |lat'' - lat| ≤ 0.00006 := by
  have hb : InBox lon lat := h.box (by norm_num) (by norm_num)
  have b1 := dLon_bound hb
  have b2 := dLat_bound hb
  have hb' : InBox (lon - dLon lon lat) (lat - dLat lon lat) :=
    h.box (by rw [sub_sub_cancel_left, abs_neg]; linarith) (by rw [sub_sub_cancel_left, abs_neg]; linarith)
  have c1 : |lon - (lon - dLon lon lat)| ≤ 0.0162 := by rw [sub_sub_cancel]; linarith
  have c2 : |lat - (lat - dLat lon lat)| ≤ 0.0053 := by rw [sub_sub_cancel]; linarith
  refine ⟨_, _, _, _, toWGS_in hb, toGCJ_in hb', ?_, ?_⟩
  · have := dLon_diff hb hb' c1 c2
    rw [abs_sub_comm] at this
    refine le_trans (le_of_eq ?_) (this.trans (by norm_num))
    congr 1; ring
  · have := dLat_diff hb hb' c1 c2
    rw [abs_sub_comm] at this
    refine le_trans (le_of_eq ?_) (this.trans (by norm_num))
    congr 1; ring

/-- C89.  Everywhere, the round trip stays within the bounds of one shift, except that it moves nothing outside China. -/
theorem C89_everywhere (lon lat : ℝ) :
    ∃ lon' lat' lon'' lat'', WGS84toGCJ02 (XR.fin lon) (XR.fin lat) = (.fin lon', .fin lat') ∧
      GCJ02toWGS84 (XR.fin lon') (XR.fin lat') = (.fin lon'', .fin lat'') ∧ |lon'' - lon| ≤ 0.0161 ∧ |lat'' - lat| ≤ 0.0052 ∧
      (¬ (73.66 < lon ∧ lon < 135.05 ∧ 3.86 < lat ∧ lat < 53.55) → lon'' = lon ∧ lat'' = lat) := by
  by_cases hb : InBox lon lat
  · have b1 := dLon_bound hb
    have b2 := dLat_bound hb
    by_cases hb' : InBox (lon + dLon lon lat) (lat + dLat lon lat)
    · have c1 : |lon - (lon + dLon lon lat)| ≤ 0.0162 := by rw [sub_add_cancel_left, abs_neg]; linarith
      have c2 : |lat - (lat + dLat lon lat)| ≤ 0.0053 := by rw [sub_add_cancel_left, abs_neg]; linarith
      refine ⟨_, _, _, _, toGCJ_in hb, toWGS_in hb', ?_, ?_, fun hn => absurd hb hn⟩
      · have := dLon_diff hb hb' c1 c2
        refine le_trans (le_of_eq ?_) (this.trans (by norm_num))
        congr 1; ring
      · have := dLat_diff hb hb' c1 c2
        refine le_trans (le_of_eq ?_) (this.trans (by norm_num))
        congr 1; ring
    · exact ⟨_, _, _, _, toGCJ_in hb, toWGS_out hb', by simpa using b1, by simpa using b2, fun hn => absurd hb hn⟩
  · exact ⟨_, _, _, _, toGCJ_out hb, toWGS_out hb, by norm_num, by norm_num, fun _ => ⟨rfl, rfl⟩⟩

/-! ### C90: BD09 -/

/-- the distance of two points, in degrees -/
noncomputable def degDist (a b c d : ℝ) : ℝ := √((a - c) ^ 2 + (b - d) ^ 2)

theorem degDist_eq (p q : ℂ) : degDist p.re p.im q.re q.im = ‖p - q‖ := by
  unfold degDist
  rw [Complex.norm_def, Complex.normSq_apply]
  congr 1
  simp only [Complex.sub_re, Complex.sub_im]
  ring

theorem degDist_shift (a b c d s t : ℝ) : degDist (a + s) (b + t) c d = degDist a b (c - s) (d - t) := by
  unfold degDist
  congr 1
  ring

theorem shift_bound (p : ℂ) (s c : ℝ) (hs : |s| ≤ 1) (hc : |c| ≤ 1) : ‖turn p (2e-5 * s) (3e-6 * c) - p‖ ≤ 2e-5 + 3e-6 * ‖p‖ := by
  have hb := turn_dist p (2e-5 * s) (3e-6 * c)
  rw [abs_mul, abs_mul, abs_of_pos (show (0 : ℝ) < 2e-5 by norm_num), abs_of_pos (show (0 : ℝ) < 3e-6 by norm_num)] at hb
  have h3 := norm_nonneg p
  have h4 : ‖p‖ * (3e-6 * |c|) ≤ ‖p‖ * (3e-6 * 1) := mul_le_mul_of_nonneg_left (by linarith) h3
  linarith

/-- C90.  `GCJ02toBD09` moves a point by (0.0065, 0.006), up to 0.00002 degrees and 0.000003 times its distance to the origin. -/
theorem C90_shift (lon lat : ℝ) : ∃ lon' lat', GCJ02toBD09 (XR.fin lon) (XR.fin lat) = (.fin lon', .fin lat') ∧
    degDist lon' lat' (lon + 0.0065) (lat + 0.006) ≤ 0.00002 + 0.000003 * √(lon ^ 2 + lat ^ 2) := by
  refine ⟨_, _, toBD_fin ⟨lon, lat⟩, ?_⟩
  have := shift_bound ⟨lon, lat⟩ _ _ (abs_sin_le_one (lat * (3000 * π / 180))) (abs_cos_le_one (lon * (3000 * π / 180)))
  rw [← degDist_eq, ← norm_mk] at this
  rw [degDist_shift, add_sub_cancel_right, add_sub_cancel_right]
  refine this.trans (le_of_eq ?_)
  norm_num [pow_two]

theorem back_bound (p : ℂ) (σ : ℝ) (hσ : |σ| = 1) (q : ℂ)
    (hq : q = turn p (σ * (2e-5 * sin (p.im * (3000 * π / 180)))) (σ * (3e-6 * cos (p.re * (3000 * π / 180))))) :
    ‖turn q (-σ * (2e-5 * sin (q.im * (3000 * π / 180)))) (-σ * (3e-6 * cos (q.re * (3000 * π / 180)))) - p‖ ≤ 53 * (2e-5 + 3e-6 * ‖p‖) ^ 2 := by
  have hp := Real.pi_pos
  have hX : 3000 * π / 180 ≤ 53 := by have := Real.pi_lt_d4; norm_num at *; linarith
  have hX0 : 0 ≤ 3000 * π / 180 := by positivity
  generalize 3000 * π / 180 = X at *
  set s := 2e-5 + 3e-6 * ‖p‖ with hs
  have hs0 : 0 ≤ s := by have := norm_nonneg p; positivity
  have hdist : ‖q - p‖ ≤ s := by
    have := shift_bound p (σ * sin (p.im * X)) (σ * cos (p.re * X)) (by rw [abs_mul, hσ, one_mul]; exact abs_sin_le_one _)
      (by rw [abs_mul, hσ, one_mul]; exact abs_cos_le_one _)
    rw [hq]
    convert this using 4 <;> ring
  by_cases hp0 : p = 0
  · subst hp0
    have hq0 : q = 0 := by rw [hq]; simp [turn]
    rw [hq0]
    have : turn 0 (-σ * (2e-5 * sin ((0 : ℂ).im * X))) (-σ * (3e-6 * cos ((0 : ℂ).re * X))) = 0 := by simp [turn]
    rw [this]
    simp
    positivity
  · have hpos : 0 < ‖p‖ := norm_pos_iff.2 hp0
    have hf : 0 < ‖p‖ + σ * (2e-5 * sin (p.im * X)) := by
      have h1 : |sin (p.im * X)| ≤ |p.im * X| := Real.abs_sin_le_abs
      have h2 : |p.im * X| ≤ ‖p‖ * 53 := mul_bound (Complex.abs_im_le_norm p) (by rw [abs_of_nonneg hX0]; exact hX)
      have h3 : |σ * (2e-5 * sin (p.im * X))| ≤ 1 * (2e-5 * (‖p‖ * 53)) :=
        mul_bound hσ.le (mul_bound (by rw [abs_of_pos (by norm_num)]) (h1.trans h2))
      have := neg_abs_le (σ * (2e-5 * sin (p.im * X)))
      have h4 : 1 * (2e-5 * (‖p‖ * 53)) < ‖p‖ := by norm_num; linarith
      linarith
    have hb := turn_turn p (σ * (2e-5 * sin (p.im * X))) (σ * (3e-6 * cos (p.re * X))) (-σ * (2e-5 * sin (q.im * X))) (-σ * (3e-6 * cos (q.re * X))) hf
    rw [← hq] at hb
    refine hb.trans ?_
    have e1 : |σ * (2e-5 * sin (p.im * X)) + -σ * (2e-5 * sin (q.im * X))| ≤ 2e-5 * (53 * s) := by
      have : σ * (2e-5 * sin (p.im * X)) + -σ * (2e-5 * sin (q.im * X)) = σ * (2e-5 * (sin (p.im * X) - sin (q.im * X))) := by ring
      rw [this, abs_mul, hσ, one_mul]
      refine mul_bound (by rw [abs_of_pos (by norm_num)]) ((abs_sin_sub_sin_le _ _).trans ?_)
      rw [← sub_mul, mul_comm]
      refine mul_bound (by rw [abs_of_nonneg hX0]; exact hX) ?_
      have := Complex.abs_im_le_norm (q - p)
      rw [Complex.sub_im, abs_sub_comm] at this
      exact this.trans hdist
    have e2 : |σ * (3e-6 * cos (p.re * X)) + -σ * (3e-6 * cos (q.re * X))| ≤ 3e-6 * (53 * s) := by
      have : σ * (3e-6 * cos (p.re * X)) + -σ * (3e-6 * cos (q.re * X)) = σ * (3e-6 * (cos (p.re * X) - cos (q.re * X))) := by ring
      rw [this, abs_mul, hσ, one_mul]
      refine mul_bound (by rw [abs_of_pos (by norm_num)]) ((abs_cos_sub_cos_le _ _).trans ?_)
      rw [← sub_mul, mul_comm]
      refine mul_bound (by rw [abs_of_nonneg hX0]; exact hX) ?_
      have := Complex.abs_re_le_norm (q - p)
      rw [Complex.sub_re, abs_sub_comm] at this
      exact this.trans hdist
    have e3 := mul_le_mul_of_nonneg_left e2 hpos.le
    have : 53 * s ^ 2 = 2e-5 * (53 * s) + ‖p‖ * (3e-6 * (53 * s)) := by
      rw [pow_two]; nth_rw 2 [hs]; ring
    rw [this]
    linarith

/-- C90.  Converting to BD09 and back returns every point, up to 53 times the square of the bound in C90_shift. -/
theorem C90_roundtrip (lon lat : ℝ) : ∃ lon' lat' lon'' lat'', GCJ02toBD09 (XR.fin lon) (XR.fin lat) = (.fin lon', .fin lat') ∧
    BD09toGCJ02 (XR.fin lon') (XR.fin lat') = (.fin lon'', .fin lat'') ∧
    degDist lon'' lat'' lon lat ≤ 53 * (0.00002 + 0.000003 * √(lon ^ 2 + lat ^ 2)) ^ 2 := by
  refine ⟨_, _, _, _, toBD_fin ⟨lon, lat⟩, fromBD_fin _, ?_⟩
  have := back_bound ⟨lon, lat⟩ 1 (by simp) _ rfl
  simp only [one_mul, neg_mul] at this
  rw [← degDist_eq, ← norm_mk] at this
  refine this.trans (le_of_eq ?_)
  norm_num [pow_two]

/-- C90.  Converting from BD09 and back, too. -/
theorem C90_roundtrip' (lon lat : ℝ) : ∃ lon' lat' lon'' lat'', BD09toGCJ02 (XR.fin lon) (XR.fin lat) = (.fin lon', .fin lat') ∧
    GCJ02toBD09 (XR.fin lon') (XR.fin lat') = (.fin lon'', .fin lat'') ∧
    degDist lon'' lat'' lon lat ≤ 53 * (0.00002 + 0.000003 * √((lon - 0.0065) ^ 2 + (lat - 0.006) ^ 2)) ^ 2 := by
  have e := fromBD_fin ⟨lon - 0.0065, lat - 0.006⟩
  simp only [sub_add_cancel] at e
  refine ⟨_, _, _, _, e, toBD_fin _, ?_⟩
  have := back_bound ⟨lon - 0.0065, lat - 0.006⟩ (-1) (by simp) _ rfl
  simp only [one_mul, neg_mul, neg_neg] at this
  rw [← degDist_eq, ← norm_mk] at this
  rw [degDist_shift]
  refine this.trans (le_of_eq ?_)
  norm_num [pow_two]

/-- C90.  In particular, every valid coordinate returns to within 0.000021 degrees. -/
theorem C90_valid (lon lat : ℝ) (h1 : |lon| ≤ 180) (h2 : |lat| ≤ 90) :
    ∃ lon' lat' lon'' lat'', GCJ02toBD09 (XR.fin lon) (XR.fin lat) = (.fin lon', .fin lat') ∧
    BD09toGCJ02 (XR.fin lon') (XR.fin lat') = (.fin lon'', .fin lat'') ∧ degDist lon'' lat'' lon lat ≤ 0.000021 := by
  obtain ⟨a, b, c, d, e1, e2, e3⟩ := C90_roundtrip lon lat
  refine ⟨a, b, c, d, e1, e2, e3.trans ?_⟩
  have hr : √(lon ^ 2 + lat ^ 2) ≤ 201.3 := by
    apply Real.sqrt_le_iff.2
    refine ⟨by norm_num, ?_⟩
    have := sq_le_sq' (abs_le.1 h1).1 (abs_le.1 h1).2
    have := sq_le_sq' (abs_le.1 h2).1 (abs_le.1 h2).2
    norm_num at *
    linarith
  have h0 := Real.sqrt_nonneg (lon ^ 2 + lat ^ 2)
  have : (0.00002 + 0.000003 * √(lon ^ 2 + lat ^ 2)) ^ 2 ≤ (0.00002 + 0.000003 * 201.3) ^ 2 := by
    apply pow_le_pow_left₀ (by positivity)
    linarith
  norm_num at *
  linarith

/-! ### C91: WGS84 to BD09 and back -/

/-- C91.  Converting from WGS84 to BD09 and back returns a point inside China to within 0.00018 degrees of longitude and 0.00009 degrees of latitude. -/
theorem C91_roundtrip (lon lat : ℝ) (h : Inside lon lat) :
    ∃ lon' lat' lon'' lat'', WGS84toBD09 (XR.fin lon) (XR.fin lat) = (.fin lon', .fin lat') ∧
      BD09toWGS84 (XR.fin lon') (XR.fin lat') = (.fin lon'', .fin lat'') ∧ |lon'' - lon| ≤ 0.00018 ∧ |lat'' - lat| ≤ 0.00009 := by
  have hb : InBox lon lat := h.box (by norm_num) (by norm_num)
  have b1 := dLon_bound hb
  have b2 := dLat_bound hb
  set g1 := lon + dLon lon lat with hg1
  set g2 := lat + dLat lon lat with hg2
  have d1 : |g1 - lon| ≤ 0.0161 := by rw [hg1, add_sub_cancel_left]; exact b1
  have d2 : |g2 - lat| ≤ 0.0052 := by rw [hg2, add_sub_cancel_left]; exact b2
  have hb' : InBox g1 g2 := h.box (by linarith) (by linarith)
  obtain ⟨q1, q2, r1, r2, e1, e2, e3⟩ := C90_valid g1 g2 (by rw [abs_le]; constructor <;> linarith [hb'.1, hb'.2.1])
    (by rw [abs_le]; constructor <;> linarith [hb'.2.2.1, hb'.2.2.2])
  have f1 : |r1 - g1| ≤ 0.000021 := by
    refine le_trans ?_ e3
    have := Complex.abs_re_le_norm ((⟨r1, r2⟩ : ℂ) - ⟨g1, g2⟩)
    rwa [← degDist_eq] at this
  have f2 : |r2 - g2| ≤ 0.000021 := by
    refine le_trans ?_ e3
    have := Complex.abs_im_le_norm ((⟨r1, r2⟩ : ℂ) - ⟨g1, g2⟩)
    rwa [← degDist_eq] at this
  have k1 : |lon - r1| ≤ 0.0162 := by rw [abs_le] at *; norm_num at *; constructor <;> linarith
  have k2 : |lat - r2| ≤ 0.0053 := by rw [abs_le] at *; norm_num at *; constructor <;> linarith
  have hr : InBox r1 r2 := h.box (by rw [abs_sub_comm]; linarith) (by rw [abs_sub_comm]; linarith)
  refine ⟨q1, q2, r1 - dLon r1 r2, r2 - dLat r1 r2, ?_, ?_, ?_, ?_⟩
  · rw [WGS84toBD09, toGCJ_in hb]; exact e1
  · rw [BD09toWGS84, e2]; exact toWGS_in hr
  · have := dLon_diff hb hr k1 k2
    have e : r1 - dLon r1 r2 - lon = (r1 - g1) + (dLon lon lat - dLon r1 r2) := by rw [hg1]; ring
    rw [e]
    refine (abs_add_le _ _).trans ((add_le_add f1 this).trans (by norm_num))
  · have := dLat_diff hb hr k1 k2
    have e : r2 - dLat r1 r2 - lat = (r2 - g2) + (dLat lon lat - dLat r1 r2) := by rw [hg2]; ring
    rw [e]
    refine (abs_add_le _ _).trans ((add_le_add f2 this).trans (by norm_num))

/-- Beijing meets the hypotheses of C89_roundtrip, C89_roundtrip', C90_valid and C91_roundtrip -/
example : Inside 116.4 39.9 ∧ |(116.4 : ℝ)| ≤ 180 ∧ |(39.9 : ℝ)| ≤ 90 := by
  unfold Inside
  norm_num [abs_of_pos]

/-- London is outside China, and NaN too -/
example : le (-0.125 : Float) (dec 7366 2) = true ∧ isNaN (nan : Float) = true := by decide +kernel

end GoGeo
