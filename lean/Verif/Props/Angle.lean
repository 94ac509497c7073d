import Verif.Geo.AngleLemmas
import Verif.Props.Hull
import Mathlib.Analysis.Real.Pi.Bounds

/-!
# Angles, geographic distances and bearings, rotation and buffers (C50, C51, C52, C75, C76)

Real arithmetic unless a statement mentions `Float`.
-/

set_option linter.unusedSectionVars false

namespace GoGeo
open GoFloat Spec Real InnerProductGeometry

/-! ## geographic distance -/

/-- **C50.** `CoordDistance` (haversine) and `CoordGreateCircle` (spherical cosines) both are 6371000 times the angle at the centre of the
sphere between the two points. -/
theorem C50_value (p q : ℝ × ℝ) : CoordDistance (pt p) (pt q) = .fin (6371000 * central p q) ∧ CoordGreateCircle (pt p) (pt q) = .fin (6371000 * central p q) := by
  rw [coordDistance_fin, greateCircle_fin, mul_comm]; exact ⟨rfl, rfl⟩

/-- **C50.** It is a symmetric number between 0 and half the circumference. -/
theorem C50_distance (p q : ℝ × ℝ) : ∃ d : ℝ, CoordDistance (pt p) (pt q) = .fin d ∧ CoordDistance (pt q) (pt p) = .fin d ∧ CoordGreateCircle (pt p) (pt q) = .fin d ∧
    0 ≤ d ∧ d ≤ π * 6371000 := by
  refine ⟨6371000 * central p q, (C50_value p q).1, ?_, (C50_value p q).2, ?_, ?_⟩
  · rw [(C50_value q p).1]; unfold central; rw [angle_comm]
  · have := central_nonneg p q; positivity
  · have := central_le_pi p q; linarith

/-- **C50.** It is zero exactly when the coordinates denote the same point of the globe, in particular for equal coordinates. -/
theorem C50_zero (p q : ℝ × ℝ) : CoordDistance (pt p) (pt q) = .fin 0 ↔ onSphere p = onSphere q := by
  rw [(C50_value p q).1]
  have h : XR.fin (6371000 * central p q) = (.fin 0 : XR ℝ) ↔ central p q = 0 := by
    constructor
    · intro h; injection h with h; linarith
    · intro h; rw [h, mul_zero]
  rw [h]
  unfold central
  rw [angle_eq_zero_iff]
  constructor
  · rintro ⟨_, r, hr, e⟩
    have := norm_sphere q
    rw [e, norm_smul, norm_sphere, mul_one, Real.norm_of_nonneg hr.le] at this
    rw [e, this, one_smul]
  · intro e
    refine ⟨fun h0 => ?_, 1, one_pos, by rw [e, one_smul]⟩
    have := norm_sphere p
    rw [h0, norm_zero] at this
    exact absurd this (by norm_num)

/-- **C50.** It obeys the triangle inequality. -/
theorem C50_triangle (p q r : ℝ × ℝ) : ∃ a b c : ℝ, CoordDistance (pt p) (pt q) = .fin a ∧ CoordDistance (pt q) (pt r) = .fin b ∧ CoordDistance (pt p) (pt r) = .fin c ∧ c ≤ a + b := by
  refine ⟨_, _, _, (C50_value p q).1, (C50_value q r).1, (C50_value p r).1, ?_⟩
  have := angle_le_angle_add_angle (onSphere p) (onSphere q) (onSphere r)
  unfold central
  linarith

/-- a quarter of a meridian -/
example : CoordDistance (pt ((0, 0) : ℝ × ℝ)) (pt (0, 90)) = .fin (6371000 * (π / 2)) := by
  rw [(C50_value _ _).1]
  congr 2
  have h : cos (central (0, 0) (0, 90)) = cos (π / 2) := by
    rw [cos_central]
    simp [rad, show (90 : ℝ) * π / 180 = π / 2 by ring]
  exact injOn_cos ⟨central_nonneg _ _, central_le_pi _ _⟩ ⟨by positivity, by linarith [pi_pos]⟩ h

/-! ## angles in the plane -/

/-- **C51.** For two points different from the centre, `CacAngle` returns, without error, the angle in `[0, 2π)` by which the first ray has
to be turned anticlockwise around the centre to become the second. -/
theorem C51_angle (a c b : ℝ × ℝ) (ha : a ≠ c) (hb : b ≠ c) : ∃ θ : ℝ, CacAngle (pt a) (pt c) (pt b) = (.fin θ, none) ∧ 0 ≤ θ ∧ θ < 2 * π ∧
    eucl a c * (b.1 - c.1) = eucl b c * ((a.1 - c.1) * cos θ - (a.2 - c.2) * sin θ) ∧
    eucl a c * (b.2 - c.2) = eucl b c * ((a.1 - c.1) * sin θ + (a.2 - c.2) * cos θ) := by
  refine ⟨turnAngle a c b, ?_, (turnAngle_range a c b).1, (turnAngle_range a c b).2, (turnAngle_rot a c b).1, (turnAngle_rot a c b).2⟩
  rw [cacAngle_fin, if_neg (mul_pos (eucl_pos ha) (eucl_pos hb)).ne']

example : ∃ θ : ℝ, CacAngle (pt ((3, 1) : ℝ × ℝ)) (pt (1, 1)) (pt (1, -4)) = (.fin θ, none) ∧ cos θ = 0 ∧ sin θ = -1 := by
  obtain ⟨θ, h, _, _, h1, h2⟩ := C51_angle ((3, 1) : ℝ × ℝ) (1, 1) (1, -4) (by norm_num) (by norm_num)
  refine ⟨θ, h, ?_, ?_⟩
  · have e : eucl ((1, -4) : ℝ × ℝ) (1, 1) = 5 := by
      unfold eucl; norm_num; rw [show (25 : ℝ) = 5 ^ 2 by norm_num]; exact sqrt_sq (by norm_num)
    rw [e] at h1; norm_num at h1; exact h1
  · have e : eucl ((1, -4) : ℝ × ℝ) (1, 1) = 5 := by
      unfold eucl; norm_num; rw [show (25 : ℝ) = 5 ^ 2 by norm_num]; exact sqrt_sq (by norm_num)
    have e2 : eucl ((3, 1) : ℝ × ℝ) (1, 1) = 2 := by
      unfold eucl; norm_num; rw [show (4 : ℝ) = 2 ^ 2 by norm_num]; exact sqrt_sq (by norm_num)
    rw [e, e2] at h2; norm_num at h2; linarith

/-- **C51.** `CacAngle` reports an error exactly when one of the points is the centre. -/
theorem C51_angle_error (a c b : ℝ × ℝ) : (CacAngle (pt a) (pt c) (pt b)).2 ≠ none ↔ a = c ∨ b = c := by
  rw [cacAngle_fin]
  by_cases ha : a = c
  · subst ha; simp [eucl_same]
  by_cases hb : b = c
  · subst hb; simp [eucl_same]
  rw [if_neg (mul_pos (eucl_pos ha) (eucl_pos hb)).ne']
  simp [ha, hb]

/-- **C51, limits of float64.** The product of the two lengths underflows: `CacAngle` calls points at a distance of 1e-170 coincident. -/
theorem C51_underflow_false : (CacAngle (F := Float) ⟨1e-170, 0⟩ ⟨0, 0⟩ ⟨0, 1e-170⟩).2 = some "some points is repeat" := by decide +kernel

/-- **C51, limits of float64.** `CacQuadrantAngle` adds 1e-7 to get a direction, which is lost for coordinates such as 1e10: it calls two
points coincident that are 1.4 apart. -/
theorem C51_quadrant_false : (CacQuadrantAngle (F := Float) ⟨10000000000, 0⟩ ⟨10000000001, 1⟩).2 = some "some points is repeat" := by decide +kernel

/-- **C51.** `CacQuadrantAngle` of two different points is the direction of the second from the first, anticlockwise from the x axis. -/
theorem C51_quadrant (a b : ℝ × ℝ) (h : b ≠ a) : ∃ θ : ℝ, CacQuadrantAngle (pt a) (pt b) = (.fin θ, none) ∧ 0 ≤ θ ∧ θ < 2 * π ∧
    b.1 = a.1 + eucl b a * cos θ ∧ b.2 = a.2 + eucl b a * sin θ := by
  have e : CacQuadrantAngle (pt a) (pt b) = CacAngle (pt (a.1 + 1 / 10 ^ 7, a.2)) (pt a) (pt b) := by
    unfold CacQuadrantAngle pt
    simp only [XR.fin_dec, XR.fin_add, Nat.cast_one]
  obtain ⟨θ, h0, h1, h2, h3, h4⟩ := C51_angle (a.1 + 1 / 10 ^ 7, a.2) a b (by intro h; have := congrArg Prod.fst h; norm_num at this) h
  refine ⟨θ, e.trans h0, h1, h2, ?_, ?_⟩
  all_goals
    have hd : eucl (a.1 + 1 / 10 ^ 7, a.2) a = 1 / 10 ^ 7 := by
      unfold eucl; simp only [add_sub_cancel_left, sub_self]
      rw [show ((1 : ℝ) / 10 ^ 7) ^ 2 + 0 ^ 2 = (1 / 10 ^ 7) ^ 2 by norm_num]
      exact sqrt_sq (by norm_num)
    rw [hd] at h3 h4
    simp only [add_sub_cancel_left, sub_self] at h3 h4
    linarith

example : ∃ θ : ℝ, CacQuadrantAngle (pt ((1, 1) : ℝ × ℝ)) (pt (0, 2)) = (.fin θ, none) ∧ 0 ≤ θ ∧ θ < 2 * π ∧
    (0 : ℝ) = 1 + eucl (0, 2) (1, 1) * cos θ ∧ (2 : ℝ) = 1 + eucl (0, 2) (1, 1) * sin θ := C51_quadrant (1, 1) (0, 2) (by norm_num)

/-- **C75.** `CacConvex(p1, p2, p3)` is 0 when going from `p1` over `p2` to `p3` turns left, 1 when it turns right, 2 on a straight line, and an
error exactly when `p1` or `p3` is `p2`. -/
theorem C75_convex (a c b : ℝ × ℝ) : CacConvex (pt a) (pt c) (pt b) =
    if a = c ∨ b = c then (-1, some "some points is repeat") else if 0 < turn a c b then (0, none) else if turn a c b < 0 then (1, none) else (2, none) := by
  unfold CacConvex
  rw [cacAngle_fin]
  by_cases h : a = c ∨ b = c
  · rw [if_pos h, if_pos]
    · rcases h with rfl | rfl <;> simp [eucl_same]
  · push Not at h
    have hp := mul_pos (eucl_pos h.1) (eucl_pos h.2)
    rw [if_neg hp.ne', if_neg (by push Not; exact h)]
    have hs := turnAngle_sin a c b
    have ht : turn c a b = -turn a c b := by unfold turn; ring
    simp only [sin_fin, XR.fin_lit, XR.fin_lt, GoFloat.gt, Nat.cast_zero, decide_eq_true_eq]
    rcases lt_trichotomy (turn a c b) 0 with hlt | heq | hgt
    · have : 0 < sin (turnAngle a c b) := by
        by_contra hc
        nlinarith
      rw [if_neg this.not_gt, if_pos this, if_neg hlt.not_gt, if_pos hlt]
    · have : sin (turnAngle a c b) = 0 := by
        rw [ht, heq, neg_zero] at hs
        exact (mul_eq_zero.1 hs).resolve_left hp.ne'
      rw [this, heq]
    · have : sin (turnAngle a c b) < 0 := by
        by_contra hc
        nlinarith
      rw [if_pos this, if_pos hgt]

example : CacConvex (pt ((0, 0) : ℝ × ℝ)) (pt (2, 0)) (pt (3, 1)) = (0, none) := by
  rw [C75_convex, if_neg (by norm_num), if_pos (by norm_num [turn])]

/-! ## bearings -/

/-- **C51.** The azimuth of `q` seen from `p` is in `[0, 360)`, and starting at `p` in that direction one meets `q` at the distance
between the two points. -/
theorem C51_azimuth (p q : ℝ × ℝ) : ∃ az : ℝ, GetAzimuth (pt p) (pt q) 4326 = .fin az ∧ 0 ≤ az ∧ az < 360 ∧ travel p (rad az) (central p q) = onSphere q := by
  set A := Complex.arg ⟨inner ℝ (onSphere q) (north p), inner ℝ (onSphere q) (east p)⟩ with hA
  have e : GetAzimuth (pt p) (pt q) 4326 = GoMod.mod (XR.fin (A * 180 / π + 360)) (lit 360) := by
    unfold GetAzimuth
    rw [if_neg (by decide)]
    simp only [pt, rad_fin, XR.fin_sub, sin_fin, cos_fin, XR.fin_mul, atan2_fin, ← north_sphere, ← east_sphere]
    rw [← hA, pi_fin, XR.fin_lit, XR.fin_mul, XR.fin_div _ _ pi_ne_zero, XR.fin_lit, XR.fin_add]
    norm_num
  have hr := deg_range (Complex.neg_pi_lt_arg _) (Complex.arg_le_pi _) (t := A)
  obtain ⟨k, h1, h2, h3⟩ := mod_fin (x := A * 180 / π + 360) (by linarith [hr.1])
  refine ⟨_, e.trans h1, h2, h3, ?_⟩
  have hrad : rad (A * 180 / π + 360 - 360 * k) = A - (k - 1 : ℤ) * (2 * π) := by
    rw [show A * 180 / π + 360 - 360 * (k : ℝ) = A * 180 / π - 360 * ((k - 1 : ℤ) : ℝ) by push_cast; ring, rad_turns, rad_deg]
  have hs : 0 ≤ sin (central p q) := sin_nonneg_of_nonneg_of_le_pi (central_nonneg p q) (central_le_pi p q)
  have hn : √(inner ℝ (onSphere q) (north p) * inner ℝ (onSphere q) (north p) + inner ℝ (onSphere q) (east p) * inner ℝ (onSphere q) (east p)) = sin (central p q) := by
    rw [show inner ℝ (onSphere q) (north p) * inner ℝ (onSphere q) (north p) + inner ℝ (onSphere q) (east p) * inner ℝ (onSphere q) (east p) = sin (central p q) ^ 2 by
      rw [← sphere_pythagoras]; ring]
    exact sqrt_sq hs
  have p1 := polar_re (inner ℝ (onSphere q) (north p)) (inner ℝ (onSphere q) (east p))
  have p2 := polar_im (inner ℝ (onSphere q) (north p)) (inner ℝ (onSphere q) (east p))
  rw [hn, ← hA] at p1 p2
  unfold travel
  rw [hrad, cos_sub_int_mul_two_pi, sin_sub_int_mul_two_pi, smul_add, smul_smul, smul_smul, p1, p2, cos_central, ← inner_sphere, ← sphere_expand]

example : ∃ az : ℝ, GetAzimuth (pt ((10, 20) : ℝ × ℝ)) (pt (-100, 45)) 4326 = .fin az ∧ 0 ≤ az ∧ az < 360 :=
  let ⟨az, h, h0, h1, _⟩ := C51_azimuth (10, 20) (-100, 45)
  ⟨az, h, h0, h1⟩

/-- **C51.** For every other reference system the azimuth is 0. -/
theorem C51_azimuth_other {F : Type} [GoMod F] (p q : Point F) (srid : Int) (h : srid ≠ 4326) : GetAzimuth p q srid = lit 0 := by
  unfold GetAzimuth; rw [if_pos h]

/-- what `DestinationPoint` computes, away from the poles -/
theorem destination_fin (p : ℝ × ℝ) (d b : ℝ) (hp : |p.2| < 90) (hl : -360 ≤ p.1) :
    ∃ q : ℝ × ℝ, DestinationPoint (F := XR ℝ) (.fin p.2) (.fin p.1) (.fin d) (.fin b) = (.fin q.2, .fin q.1) ∧ -90 ≤ q.2 ∧ q.2 ≤ 90 ∧ -180 ≤ q.1 ∧ q.1 < 180 ∧
      onSphere q = travel p (rad b) (d / 6371000) := by
  set δ := d / 6371000 with hδ
  set θ := rad b with hθ
  set φ := rad p.2 with hφ
  set l := rad p.1 with hl'
  have hpi := pi_pos
  have hc : 0 < cos φ := by
    rw [abs_lt] at hp
    apply cos_pos_of_mem_Ioo
    constructor <;> rw [hφ] <;> unfold rad <;> nlinarith
  set S := sin φ * cos δ + cos φ * sin δ * cos θ with hS
  set A := cos φ * cos δ - sin φ * sin δ * cos θ with hA
  set B := sin θ * sin δ with hB
  have t1 := sin_sq_add_cos_sq φ
  have t2 := sin_sq_add_cos_sq δ
  have t3 := sin_sq_add_cos_sq θ
  have hsum : A ^ 2 + B ^ 2 + S ^ 2 = 1 := by
    rw [hA, hB, hS]
    linear_combination (cos δ ^ 2 + sin δ ^ 2 * cos θ ^ 2) * t1 + sin δ ^ 2 * t3 + t2
  have hS1 : -1 ≤ S := by nlinarith [sq_nonneg A, sq_nonneg B]
  have hS2 : S ≤ 1 := by nlinarith [sq_nonneg A, sq_nonneg B]
  have hsin : sin (arcsin S) = S := sin_arcsin hS1 hS2
  have hcos0 : 0 ≤ cos (arcsin S) := cos_arcsin_nonneg S
  have hcos : cos (arcsin S) ^ 2 = A ^ 2 + B ^ 2 := by
    have := sin_sq_add_cos_sq (arcsin S)
    rw [hsin] at this; linarith
  have hx : cos δ - sin φ * S = cos φ * A := by rw [hS, hA]; linear_combination -(cos δ) * t1
  have hy : sin θ * sin δ * cos φ = cos φ * B := by rw [hB]; ring
  set G := Complex.arg ⟨cos φ * A, cos φ * B⟩ with hG
  have p1 := polar_re (cos φ * A) (cos φ * B)
  have p2 := polar_im (cos φ * A) (cos φ * B)
  have hn : √(cos φ * A * (cos φ * A) + cos φ * B * (cos φ * B)) = cos φ * cos (arcsin S) := by
    rw [show cos φ * A * (cos φ * A) + cos φ * B * (cos φ * B) = (cos φ * cos (arcsin S)) ^ 2 by rw [mul_pow, hcos]; ring]
    exact sqrt_sq (mul_nonneg hc.le hcos0)
  rw [hn, ← hG, mul_assoc, mul_right_inj' hc.ne'] at p1 p2
  have hGr := deg_range (Complex.neg_pi_lt_arg _) (Complex.arg_le_pi _) (t := G)
  have hld : (l + G) * 180 / π = p.1 + G * 180 / π := by
    rw [hl']; unfold rad; field_simp
  obtain ⟨k, h1, h2, h3⟩ := mod_fin (x := (l + G) * 180 / π + 540) (by rw [hld]; linarith [hGr.1])
  refine ⟨((l + G) * 180 / π - 360 * ((k - 1 : ℤ) : ℝ), arcsin S * 180 / π), ?_, ?_, ?_, ?_, ?_, ?_⟩
  · unfold DestinationPoint
    simp only [rad_fin]
    have e1 : (XR.fin d : XR ℝ) / lit 6371000 = .fin δ := by
      rw [XR.fin_lit, XR.fin_div _ _ (by norm_num), hδ]; norm_num
    rw [e1]
    simp only [← hφ, ← hl', ← hθ, sin_fin, cos_fin, XR.fin_mul, XR.fin_add, ← hS]
    have e2 : GoMath.asin (XR.fin S) = .fin (arcsin S) := by
      show (if -1 ≤ S ∧ S ≤ 1 then XR.fin (arcsin S) else XR.nan) = _
      rw [if_pos ⟨hS1, hS2⟩]
    simp only [e2, sin_fin, hsin, XR.fin_mul, XR.fin_sub, atan2_fin, hx, XR.fin_add, pi_fin]
    rw [hy, ← hG]
    have e180 : (lit 180 : XR ℝ) = .fin 180 := by rw [XR.fin_lit]; norm_num
    have e540 : (lit 540 : XR ℝ) = .fin 540 := by rw [XR.fin_lit]; norm_num
    simp only [e180, e540, XR.fin_mul, XR.fin_div _ _ pi_ne_zero, XR.fin_add, h1, XR.fin_sub]
    congr 2
    push_cast; ring
  · have := neg_pi_div_two_le_arcsin S
    simp only
    rw [le_div_iff₀ hpi]; linarith
  · have := arcsin_le_pi_div_two S
    simp only
    rw [div_le_iff₀ hpi]; linarith
  · push_cast at h2 ⊢; linarith
  · push_cast at h3 ⊢; linarith
  · rw [onSphere_shift ((l + G) * 180 / π, 0)]
    unfold travel onSphere north east
    simp only [rad_deg, ← hφ, ← hl', hsin, cos_add, sin_add]
    ext i
    fin_cases i
    · simp
      linear_combination cos l * p1 - sin l * p2 + cos l * hA - sin l * hB
    · simp
      linear_combination sin l * p1 + cos l * p2 + sin l * hA + cos l * hB
    · simp
      rw [hS]; ring

/-- **C76.** Away from the poles `DestinationPoint` is the point reached along the great circle with the given bearing after the given
distance; the latitude is in `[-90, 90]` and the longitude in `[-180, 180)`. -/
theorem C76_destination (p : ℝ × ℝ) (d b : ℝ) (hp : |p.2| < 90) (hl : -360 ≤ p.1) :
    ∃ q : ℝ × ℝ, DestinationPoint (F := XR ℝ) (.fin p.2) (.fin p.1) (.fin d) (.fin b) = (.fin q.2, .fin q.1) ∧ -90 ≤ q.2 ∧ q.2 ≤ 90 ∧ -180 ≤ q.1 ∧ q.1 < 180 ∧
      onSphere q = travel p (rad b) (d / 6371000) := destination_fin p d b hp hl

/-- **C76.** For a distance up to half the circumference the destination is at that distance. -/
theorem C76_distance (p : ℝ × ℝ) (d b : ℝ) (hp : |p.2| < 90) (hl : -360 ≤ p.1) (h0 : 0 ≤ d) (h1 : d ≤ π * 6371000) :
    ∃ q : ℝ × ℝ, DestinationPoint (F := XR ℝ) (.fin p.2) (.fin p.1) (.fin d) (.fin b) = (.fin q.2, .fin q.1) ∧ CoordDistance (pt p) (pt q) = .fin d := by
  obtain ⟨q, h, _, _, _, _, hq⟩ := destination_fin p d b hp hl
  refine ⟨q, h, ?_⟩
  rw [(C50_value p q).1]
  have : central p q = d / 6371000 := by
    apply injOn_cos ⟨central_nonneg _ _, central_le_pi _ _⟩ ⟨by positivity, by rw [div_le_iff₀ (by norm_num)]; exact h1⟩
    rw [cos_central, ← inner_sphere, hq, inner_travel]
  rw [this]
  congr 1; field_simp

/-- **C76.** Going from `p` in the direction of `q` as far as `q` is away leads to `q`. -/
theorem C76_roundtrip (p q : ℝ × ℝ) (hp : |p.2| < 90) (hl : -360 ≤ p.1) :
    ∃ d az : ℝ, ∃ r : ℝ × ℝ, CoordDistance (pt p) (pt q) = .fin d ∧ GetAzimuth (pt p) (pt q) 4326 = .fin az ∧
      DestinationPoint (F := XR ℝ) (.fin p.2) (.fin p.1) (.fin d) (.fin az) = (.fin r.2, .fin r.1) ∧ onSphere r = onSphere q := by
  obtain ⟨az, h1, _, _, h2⟩ := C51_azimuth p q
  obtain ⟨r, h3, _, _, _, _, h4⟩ := destination_fin p (6371000 * central p q) az hp hl
  refine ⟨_, az, r, (C50_value p q).1, h1, h3, ?_⟩
  rw [h4, ← h2]
  congr 1; field_simp

/-- a case within the hypotheses: from (10°E, 20°N) 1000 km at a bearing of 300° -/
example : ∃ q : ℝ × ℝ, DestinationPoint (F := XR ℝ) (.fin 20) (.fin 10) (.fin 1000000) (.fin 300) = (.fin q.2, .fin q.1) ∧ CoordDistance (pt (10, 20)) (pt q) = .fin 1000000 :=
  C76_distance (10, 20) 1000000 300 (by norm_num) (by norm_num) (by norm_num) (by have := pi_gt_three; linarith)

/-- **C76 is false at the poles**: there `DestinationPoint` ignores the bearing.  Leaving the north pole (given as longitude 0) with bearings
90° and 270° leads to the same meridian 0. -/
theorem C76_pole_false (b d : ℝ) : (DestinationPoint (F := XR ℝ) (.fin 90) (.fin 0) (.fin d) (.fin b)).2 = .fin 0 := by
  unfold DestinationPoint
  simp only [rad_fin]
  have e1 : (XR.fin d : XR ℝ) / lit 6371000 = .fin (d / 6371000) := by
    rw [XR.fin_lit, XR.fin_div _ _ (by norm_num)]; norm_num
  have hc : cos (rad 90) = 0 := by rw [show rad 90 = π / 2 by unfold rad; ring, cos_pi_div_two]
  have hs : sin (rad 90) = 1 := by rw [show rad 90 = π / 2 by unfold rad; ring, sin_pi_div_two]
  have h0 : rad 0 = 0 := by unfold rad; ring
  rw [e1]
  simp only [sin_fin, cos_fin, XR.fin_mul, XR.fin_add, hc, hs, h0, zero_mul, mul_zero, add_zero, one_mul]
  have e2 : GoMath.asin (XR.fin (cos (d / 6371000))) = .fin (arcsin (cos (d / 6371000))) := by
    show (if -1 ≤ cos (d / 6371000) ∧ cos (d / 6371000) ≤ 1 then XR.fin (arcsin (cos (d / 6371000))) else XR.nan) = _
    rw [if_pos ⟨neg_one_le_cos _, cos_le_one _⟩]
  simp only [e2, sin_fin, sin_arcsin (neg_one_le_cos _) (cos_le_one _), XR.fin_mul, one_mul, XR.fin_sub, sub_self, atan2_fin]
  have ha : Complex.arg ⟨0, 0⟩ = 0 := Complex.arg_zero
  have e180 : (lit 180 : XR ℝ) = .fin 180 := by rw [XR.fin_lit]; norm_num
  have e540 : (lit 540 : XR ℝ) = .fin 540 := by rw [XR.fin_lit]; norm_num
  have e360 : (lit 360 : XR ℝ) = .fin 360 := by rw [XR.fin_lit]; norm_num
  simp only [ha, e180, e540, e360, pi_fin, XR.fin_add, XR.fin_mul, XR.fin_div _ _ pi_ne_zero, add_zero, zero_mul, zero_div, zero_add]
  show (if (360 : ℝ) = 0 then XR.nan else .fin (540 - 360 * XR.truncR (540 / 360))) - XR.fin 180 = _
  rw [if_neg (by norm_num)]
  have : XR.truncR (540 / 360) = 1 := by
    unfold XR.truncR
    rw [if_neg (by norm_num)]
    have : ⌊(540 / 360 : ℝ)⌋ = 1 := by rw [Int.floor_eq_iff]; norm_num
    rw [this]; norm_num
  rw [this, XR.fin_sub]; norm_num

/-! ## rotation -/

/-- the point `p` turned clockwise by `θ` around `c` -/
noncomputable def cw (c : ℝ × ℝ) (θ : ℝ) (p : ℝ × ℝ) : ℝ × ℝ :=
  (c.1 + ((p.1 - c.1) * cos θ + (p.2 - c.2) * sin θ), c.2 + ((p.2 - c.2) * cos θ - (p.1 - c.1) * sin θ))

theorem rotateExact_fin (p c : ℝ × ℝ) (θ : ℝ) : rotateExact (pt p) (pt c) (.fin θ) = pt (cw c θ p) := by
  unfold rotateExact pt cw
  simp only [XR.fin_sub, cos_fin, sin_fin, XR.fin_mul, XR.fin_add]
  congr 2 <;> ring

/-- **C52.** Before truncation `RotateCW` turns the plane around the centre: it keeps distances, fixes the centre, and turning back by the same
angle (`RotateCCW`) undoes it. -/
theorem C52_isometry (c p q : ℝ × ℝ) (θ : ℝ) : ∃ p' q' : ℝ × ℝ, rotateExact (F := XR ℝ) (pt p) (pt c) (.fin θ) = pt p' ∧ rotateExact (pt q) (pt c) (.fin θ) = pt q' ∧
    eucl p' q' = eucl p q ∧ rotateExact (pt c) (pt c) (.fin θ) = pt c ∧ rotateExact (pt p') (pt c) (-(.fin θ)) = pt p := by
  refine ⟨cw c θ p, cw c θ q, rotateExact_fin _ _ _, rotateExact_fin _ _ _, ?_, ?_, ?_⟩
  · unfold eucl cw
    congr 1
    simp only
    linear_combination ((p.1 - q.1) ^ 2 + (p.2 - q.2) ^ 2) * sin_sq_add_cos_sq θ
  · rw [rotateExact_fin]; unfold cw; simp
  · have : -(XR.fin θ : XR ℝ) = .fin (-θ) := rfl
    rw [this, rotateExact_fin]
    congr 1
    unfold cw
    simp only [cos_neg, sin_neg]
    apply Prod.ext
    · simp only; linear_combination (p.1 - c.1) * sin_sq_add_cos_sq θ
    · simp only; linear_combination (p.2 - c.2) * sin_sq_add_cos_sq θ

theorem trunc4_fin (x : ℝ) : ∃ y : ℝ, trunc4 (XR.fin x) = .fin y ∧ |y - x| < 1 / 10000 := by
  have e : (lit 10000 : XR ℝ) = .fin 10000 := by rw [XR.fin_lit]; norm_num
  refine ⟨XR.truncR (x * 10000) / 10000, ?_, ?_⟩
  · unfold trunc4
    rw [e, XR.fin_mul]
    show XR.fin (XR.truncR (x * 10000)) / XR.fin 10000 = _
    rw [XR.fin_div _ _ (by norm_num)]
  · have : |XR.truncR (x * 10000) - x * 10000| < 1 := by
      unfold XR.truncR
      rw [abs_lt]
      split_ifs with h
      · constructor <;> linarith [Int.le_ceil (x * 10000), Int.ceil_lt_add_one (x * 10000)]
      · constructor <;> linarith [Int.floor_le (x * 10000), Int.lt_floor_add_one (x * 10000)]
    rw [show XR.truncR (x * 10000) / 10000 - x = (XR.truncR (x * 10000) - x * 10000) / 10000 by ring, abs_div]
    rw [div_lt_div_iff₀ (by norm_num) (by norm_num)]
    norm_num [this]

/-- **C52.** What `RotateCW` returns for a point is less than 1e-4 off in each coordinate. -/
theorem C52_rotate_point (c p : ℝ × ℝ) (θ : ℝ) : ∃ q : ℝ × ℝ, RotateCW (F := XR ℝ) (.point (pt p)) (pt c) (.fin θ) = .ok (.point (pt q)) ∧
    |q.1 - (cw c θ p).1| < 1 / 10000 ∧ |q.2 - (cw c θ p).2| < 1 / 10000 := by
  obtain ⟨x, h1, h2⟩ := trunc4_fin (cw c θ p).1
  obtain ⟨y, h3, h4⟩ := trunc4_fin (cw c θ p).2
  refine ⟨(x, y), ?_, h2, h4⟩
  show Except.ok (Geometry.point (rotatePoint _ _ _)) = _
  unfold rotatePoint
  rw [rotateExact_fin]
  show Except.ok (Geometry.point ⟨trunc4 (XR.fin _), trunc4 (XR.fin _)⟩) = _
  rw [h1, h3]; rfl

/-- **C52 (RotateCCW).** `RotateCCW` turns a point the other way: `cw c θ` takes the exact counter-clockwise image back to the point. -/
theorem C52_rotateCCW_point (c p : ℝ × ℝ) (θ : ℝ) : ∃ q r : ℝ × ℝ, RotateCCW (F := XR ℝ) (.point (pt p)) (pt c) (.fin θ) = .ok (.point (pt q)) ∧
    cw c θ r = p ∧ |q.1 - r.1| < 1 / 10000 ∧ |q.2 - r.2| < 1 / 10000 := by
  obtain ⟨q, h1, h2, h3⟩ := C52_rotate_point c p (-θ)
  refine ⟨q, cw c (-θ) p, h1, ?_, h2, h3⟩
  unfold cw
  simp only [cos_neg, sin_neg]
  have e := sin_sq_add_cos_sq θ
  ext <;> simp only <;> [linear_combination (p.1 - c.1) * e; linear_combination (p.2 - c.2) * e]

/-- **C52 is false for the result**: because of the truncation `RotateCW` is not an isometry; turning by no angle at all moves 0.00005 to 0. -/
theorem C52_trunc_false : RotateCW (F := XR ℝ) (.point (pt ((1 / 20000, 0) : ℝ × ℝ))) (pt (0, 0)) (.fin 0) = .ok (.point (pt (0, 0))) := by
  show Except.ok (Geometry.point (rotatePoint _ _ _)) = _
  unfold rotatePoint
  rw [rotateExact_fin]
  have e : (lit 10000 : XR ℝ) = .fin 10000 := by rw [XR.fin_lit]; norm_num
  have h : ∀ x : ℝ, 0 ≤ x → x * 10000 < 1 → trunc4 (XR.fin x) = .fin 0 := by
    intro x h0 h1
    unfold trunc4
    rw [e, XR.fin_mul]
    show XR.fin (XR.truncR (x * 10000)) / XR.fin 10000 = _
    have : XR.truncR (x * 10000) = 0 := by
      unfold XR.truncR
      rw [if_neg (not_lt.2 (by positivity))]
      have : ⌊x * 10000⌋ = 0 := by rw [Int.floor_eq_iff]; exact ⟨by norm_num; exact h0, by norm_num; exact h1⟩
      rw [this]; norm_num
    rw [this, XR.fin_div _ _ (by norm_num)]; norm_num
  show Except.ok (Geometry.point ⟨trunc4 (XR.fin _), trunc4 (XR.fin _)⟩) = _
  rw [h _ (by unfold cw; norm_num) (by unfold cw; norm_num), h _ (by unfold cw; norm_num) (by unfold cw; norm_num)]
  rfl

/-! ## buffers -/

theorem radians_fin (γ : ℝ) (hγ : 0 < γ) : ∀ n k fuel : ℕ, k + n = 25 → n < fuel →
    radians (XR.fin γ) (XR.fin (24 * γ)) fuel (XR.fin (k * γ)) = .ok ((List.range' k n).map fun i : ℕ => XR.fin (i * γ))
  | 0, k, 0, _, hf => by omega
  | n + 1, k, 0, _, hf => by omega
  | 0, k, fuel + 1, hk, hf => by
    have : k = 25 := by omega
    subst this
    unfold radians
    rw [if_neg]
    · rfl
    · rw [XR.fin_le]; simp; linarith
  | n + 1, k, fuel + 1, hk, hf => by
    unfold radians
    have hle : ((k : ℝ)) ≤ 24 := by have : k ≤ 24 := by omega
                                    exact_mod_cast this
    rw [if_pos]
    · rw [XR.fin_add, show (k : ℝ) * γ + γ = ((k + 1 : ℕ) : ℝ) * γ by push_cast; ring, radians_fin γ hγ n (k + 1) fuel (by omega) (by omega)]
      rfl
    · rw [XR.fin_le]; simp; nlinarith

/-- **C52.** For a width `w ≥ 0` the buffer of a point is the closed ring of the 25 points at the angles 0°, 15°, …, 360° on the circle of radius
`w` around it. -/
theorem C52_buffer (c : ℝ × ℝ) (w : ℝ) (hw : 0 ≤ w) (fuel : ℕ) (hf : 26 ≤ fuel) : pointBuffer (F := XR ℝ) fuel (pt c) (.fin w) =
    .ok (some ((List.range 25).map fun k : ℕ => pt (c.1 + w * cos (k * (π / 12)), c.2 + w * sin (k * (π / 12))))) := by
  unfold pointBuffer getBufferCoordsByRadian
  have e : lt (XR.fin w) (lit 0) = false := by rw [XR.fin_lit, XR.fin_lt]; simp [hw]
  simp only [e, Bool.false_eq_true, if_false]
  have e1 : (GoMath.piFrac 2 24 : XR ℝ) = .fin (π / 12) := by rw [piFrac_fin]; congr 1; push_cast; ring
  have e2 : (GoMath.piFrac 2 1 : XR ℝ) = .fin (24 * (π / 12)) := by rw [piFrac_fin]; congr 1; push_cast; ring
  have e3 : (lit 0 : XR ℝ) = .fin ((0 : ℕ) * (π / 12)) := by rw [XR.fin_lit]; simp
  rw [e1, e2, e3, radians_fin (π / 12) (by positivity) 25 0 fuel rfl (by omega)]
  simp only [bind, Except.bind, pure, Except.pure, List.map_map]
  have em : ((List.range' 0 25).map ((fun phi : XR ℝ => (⟨(pt c).X + .fin w * GoMath.cos phi, (pt c).Y + .fin w * GoMath.sin phi⟩ : Point (XR ℝ))) ∘ fun i : ℕ => XR.fin (i * (π / 12)))) =
      (List.range 25).map fun k : ℕ => pt (c.1 + w * cos (k * (π / 12)), c.2 + w * sin (k * (π / 12))) := by
    rw [← List.range_eq_range']
    apply List.map_congr_left
    intro k _
    simp only [Function.comp, pt, cos_fin, sin_fin, XR.fin_mul, XR.fin_add]
  rw [em]
  set f := fun k : ℕ => ((c.1 + w * cos (k * (π / 12)), c.2 + w * sin (k * (π / 12))) : ℝ × ℝ) with hfdef
  have hcl : closeRing ((List.range 25).map fun k => pt (f k)) = some ((List.range 25).map fun k => pt (f k)) := by
    have h024 : f 24 = f 0 := by
      rw [hfdef]
      simp only [Nat.cast_zero, zero_mul, cos_zero, sin_zero]
      rw [show ((24 : ℕ) : ℝ) * (π / 12) = 2 * π by push_cast; ring, cos_two_pi, sin_two_pi]
    rw [show (List.range 25).map (fun k => pt (f k)) = pt (f 0) :: pt (f 1) :: ((List.range' 2 22).map (fun k => pt (f k)) ++ [pt (f 24)]) by rfl]
    unfold closeRing
    simp only
    rw [if_pos]
    rw [show ((pt (f 1) :: ((List.range' 2 22).map (fun k => pt (f k)) ++ [pt (f 24)])).getLast (by simp)) = pt (f 24) by simp, h024, equal_pt]
    exact ⟨by simp, by simp⟩
  rw [hcl]

/-- **C52.** The corners of the buffer are at distance `w` from the point. -/
theorem C52_buffer_radius (c : ℝ × ℝ) (w : ℝ) (hw : 0 ≤ w) (fuel : ℕ) (hf : 26 ≤ fuel) : ∃ r : List (ℝ × ℝ), pointBuffer (F := XR ℝ) fuel (pt c) (.fin w) = .ok (some (r.map pt)) ∧
    r.length = 25 ∧ r.head? = r.getLast? ∧ ∀ q ∈ r, eucl q c = w := by
  refine ⟨(List.range 25).map fun k : ℕ => (c.1 + w * cos (k * (π / 12)), c.2 + w * sin (k * (π / 12))), ?_, by simp, ?_, ?_⟩
  · rw [C52_buffer c w hw fuel hf, List.map_map]; rfl
  · rw [show List.range 25 = 0 :: (List.range' 1 23 ++ [24]) by rfl]
    simp
    rw [show (24 : ℝ) * (π / 12) = 2 * π by ring, cos_two_pi, sin_two_pi]; simp [List.getLast?_cons]
  · intro q hq
    obtain ⟨k, _, rfl⟩ := List.mem_map.1 hq
    unfold eucl
    simp only [add_sub_cancel_left]
    rw [show (w * cos (k * (π / 12))) ^ 2 + (w * sin (k * (π / 12))) ^ 2 = w ^ 2 by linear_combination w ^ 2 * sin_sq_add_cos_sq (k * (π / 12))]
    exact sqrt_sq hw

/-- **C52.** A negative width gives the nil polygon. -/
theorem C52_buffer_negative {F : Type} [GoMath F] (fuel : ℕ) (c : Point F) (w : F) (hw : lt w (lit 0) = true) : pointBuffer fuel c w = .ok none := by
  unfold pointBuffer; rw [if_pos hw]

/-- **C52, float64.** The loop over the angles ends after 25 rounds also in float64 arithmetic, where the angles are accumulated with rounding. -/
theorem C52_buffer_float : (radians (F := Float) (GoMath.piFrac 2 24) (GoMath.piFrac 2 1) 26 (lit 0)).map List.length = .ok 25 := by decide +kernel

/-! ## vectors -/

/-- **C78.** `Normalize` of a vector other than zero has length 1 and the same direction; of the zero vector it panics. -/
theorem C78_normalize (x y : ℝ) (h : x ≠ 0 ∨ y ≠ 0) : ∃ k u v : ℝ, Vector2.Normalize (F := XR ℝ) ⟨.fin x, .fin y⟩ = .ok ⟨.fin u, .fin v⟩ ∧
    0 < k ∧ x = k * u ∧ y = k * v ∧ u ^ 2 + v ^ 2 = 1 := by
  have hpos : 0 < x * x + y * y := by
    rcases h with h | h
    · have := mul_self_pos.2 h; nlinarith [mul_self_nonneg y]
    · have := mul_self_pos.2 h; nlinarith [mul_self_nonneg x]
  have hk : 0 < √(x * x + y * y) := sqrt_pos.2 hpos
  have hsq : √(x * x + y * y) ^ 2 = x * x + y * y := sq_sqrt hpos.le
  refine ⟨√(x * x + y * y), x * (1 / √(x * x + y * y)), y * (1 / √(x * x + y * y)), ?_, hk, ?_, ?_, ?_⟩
  · unfold Vector2.Normalize Vector2.Divide
    rw [vecLength_fin, if_neg]
    · unfold Vector2.Multiply
      simp only [XR.fin_lit, Nat.cast_one]
      rw [XR.fin_div _ _ hk.ne', XR.fin_mul, XR.fin_mul]
    · rw [XR.fin_lit, XR.fin_eq]; simpa using hk.ne'
  · generalize √(x * x + y * y) = k at hk; field_simp
  · generalize √(x * x + y * y) = k at hk; field_simp
  · generalize √(x * x + y * y) = k at hk hsq
    field_simp
    rw [hsq]; ring

example : ∃ k u v : ℝ, Vector2.Normalize (F := XR ℝ) ⟨.fin 3, .fin (-4)⟩ = .ok ⟨.fin u, .fin v⟩ ∧ 0 < k ∧ (3 : ℝ) = k * u ∧ -4 = k * v ∧ u ^ 2 + v ^ 2 = 1 :=
  C78_normalize 3 (-4) (by norm_num)

theorem C78_zero : Vector2.Normalize (F := XR ℝ) ⟨.fin 0, .fin 0⟩ = .error .explicit := by
  unfold Vector2.Normalize Vector2.Divide
  rw [vecLength_fin, if_pos]
  rw [XR.fin_lit, XR.fin_eq]; simp

end GoGeo
