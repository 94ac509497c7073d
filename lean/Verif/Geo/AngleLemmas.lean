import Verif.Geo.Angle
import Verif.Spec.Sphere
import Verif.Spec.Measure
import Verif.Geo.DistanceLemmas
import Mathlib.Geometry.Euclidean.Angle.Unoriented.TriangleInequality
import Mathlib.Tactic.LinearCombination
import Mathlib.Tactic.FieldSimp

set_option linter.unusedSectionVars false

namespace GoGeo
open GoFloat Spec Real InnerProductGeometry

theorem pi_fin : (pi : XR ℝ) = .fin π := by
  show XR.fin ((1 : ℕ) * π / (1 : ℕ)) = _
  simp

theorem inner3 (a b c d e f : ℝ) : inner ℝ (!₂[a, b, c] : EuclideanSpace ℝ (Fin 3)) !₂[d, e, f] = a * d + b * e + c * f := by
  rw [EuclideanSpace.inner_eq_star_dotProduct]
  simp [dotProduct, Fin.sum_univ_three]
  ring

theorem inner_sphere (p q : ℝ × ℝ) : inner ℝ (onSphere p) (onSphere q) =
    sin (rad p.2) * sin (rad q.2) + cos (rad p.2) * cos (rad q.2) * cos (rad q.1 - rad p.1) := by
  unfold onSphere
  rw [inner3, cos_sub]; ring

theorem norm_of_inner {v : EuclideanSpace ℝ (Fin 3)} (h : inner ℝ v v = (1 : ℝ)) : ‖v‖ = 1 := by
  rw [real_inner_self_eq_norm_sq] at h
  have := norm_nonneg v
  nlinarith

theorem norm_sphere (p : ℝ × ℝ) : ‖onSphere p‖ = 1 := by
  apply norm_of_inner
  rw [inner_sphere, sub_self, cos_zero]
  nlinarith [sin_sq_add_cos_sq (rad p.2)]

theorem cos_central (p q : ℝ × ℝ) : cos (central p q) = sin (rad p.2) * sin (rad q.2) + cos (rad p.2) * cos (rad q.2) * cos (rad q.1 - rad p.1) := by
  unfold central
  rw [InnerProductGeometry.cos_angle, norm_sphere, norm_sphere, inner_sphere]; simp

theorem rad_fin (x : ℝ) : (XR.fin x : XR ℝ) * pi / GoFloat.lit 180 = .fin (rad x) := by
  rw [pi_fin, XR.fin_mul, XR.fin_lit, XR.fin_div _ _ (by norm_num)]
  unfold rad; norm_num

theorem sqrt_fin {a : ℝ} (h : 0 ≤ a) : GoSqrt.sqrt (XR.fin a) = .fin (√a) := by
  show (if a < 0 then XR.nan else XR.fin (√a)) = _
  rw [if_neg (not_lt.2 h)]

theorem sin_fin (x : ℝ) : GoMath.sin (XR.fin x) = .fin (sin x) := rfl
theorem cos_fin (x : ℝ) : GoMath.cos (XR.fin x) = .fin (cos x) := rfl
theorem pow_fin (x : ℝ) (n : ℕ) : GoMath.powNat (XR.fin x) n = .fin (x ^ n) := rfl
theorem atan2_fin (y x : ℝ) : GoMath.atan2 (XR.fin y) (XR.fin x) = .fin (Complex.arg ⟨x, y⟩) := rfl

theorem mk_polar (r θ : ℝ) : (⟨r * cos θ, r * sin θ⟩ : ℂ) = r * (Complex.cos θ + Complex.sin θ * Complex.I) := by
  rw [← Complex.ofReal_cos, ← Complex.ofReal_sin]
  apply Complex.ext
  · simp [-Complex.ofReal_cos, -Complex.ofReal_sin]
  · simp [-Complex.ofReal_cos, -Complex.ofReal_sin]

theorem arg_polar {r θ : ℝ} (hr : 0 < r) (h1 : -π < θ) (h2 : θ ≤ π) : Complex.arg ⟨r * cos θ, r * sin θ⟩ = θ := by
  rw [mk_polar]
  exact Complex.arg_mul_cos_add_sin_mul_I hr ⟨h1, h2⟩

theorem central_nonneg (p q : ℝ × ℝ) : 0 ≤ central p q := InnerProductGeometry.angle_nonneg _ _
theorem central_le_pi (p q : ℝ × ℝ) : central p q ≤ π := InnerProductGeometry.angle_le_pi _ _

theorem coordDistance_fin (p q : ℝ × ℝ) : CoordDistance (pt p) (pt q) = .fin (central p q * 6371000) := by
  unfold CoordDistance
  simp only [pt, rad_fin]
  have h0 := central p q |> fun _ => InnerProductGeometry.angle_nonneg (onSphere p) (onSphere q)
  have hpi := InnerProductGeometry.angle_le_pi (onSphere p) (onSphere q)
  have hc := cos_central p q
  change 0 ≤ central p q at h0
  change central p q ≤ π at hpi
  generalize central p q = θ at h0 hpi hc ⊢
  have e2 : (GoFloat.lit 2 : XR ℝ) = .fin 2 := by rw [XR.fin_lit]; norm_num
  have e1 : (GoFloat.lit 1 : XR ℝ) = .fin 1 := by rw [XR.fin_lit]; norm_num
  have ea : sin ((rad q.2 - rad p.2) / 2) ^ 2 + cos (rad p.2) * cos (rad q.2) * sin ((rad q.1 - rad p.1) / 2) ^ 2 = sin (θ / 2) ^ 2 := by
    have half : ∀ x : ℝ, sin (x / 2) ^ 2 = (1 - cos x) / 2 := by
      intro x
      have := cos_sq (x / 2)
      have h2 := sin_sq_add_cos_sq (x / 2)
      rw [show 2 * (x / 2) = x by ring] at this
      linarith
    rw [half, half, half, hc, cos_sub (rad q.2)]
    ring
  have hs : 0 ≤ sin (θ / 2) := sin_nonneg_of_nonneg_of_le_pi (by linarith) (by linarith)
  have hcc : 0 ≤ cos (θ / 2) := cos_nonneg_of_neg_pi_div_two_le_of_le (by linarith) (by linarith)
  simp only [e2, e1, XR.fin_sub, XR.fin_div _ (2 : ℝ) two_ne_zero, sin_fin, cos_fin, pow_fin, XR.fin_mul, XR.fin_add, ea]
  rw [sqrt_fin (sq_nonneg _), sqrt_fin (by nlinarith [sin_sq_add_cos_sq (θ / 2)]), atan2_fin]
  have : (1 : ℝ) - sin (θ / 2) ^ 2 = cos (θ / 2) ^ 2 := by linarith [sin_sq_add_cos_sq (θ / 2)]
  rw [this, sqrt_sq hs, sqrt_sq hcc]
  have harg : Complex.arg ⟨cos (θ / 2), sin (θ / 2)⟩ = θ / 2 := by
    have := arg_polar (r := 1) (θ := θ / 2) one_pos (by linarith [pi_pos]) (by linarith)
    simpa using this
  rw [harg, XR.fin_lit, XR.fin_mul, XR.fin_mul]
  congr 1
  norm_num; ring

theorem greateCircle_fin (p q : ℝ × ℝ) : CoordGreateCircle (pt p) (pt q) = .fin (central p q * 6371000) := by
  unfold CoordGreateCircle
  simp only [pt, rad_fin, XR.fin_sub, sin_fin, cos_fin, XR.fin_mul, XR.fin_add]
  rw [← cos_central]
  show (if -1 ≤ cos (central p q) ∧ cos (central p q) ≤ 1 then XR.fin (arccos (cos (central p q))) else XR.nan) * _ = _
  rw [if_pos ⟨neg_one_le_cos _, cos_le_one _⟩]
  rw [arccos_cos (central_nonneg p q) (central_le_pi p q), XR.fin_lit, XR.fin_mul]
  norm_num


/-! ## plane angles -/

theorem polar_re (x y : ℝ) : √(x * x + y * y) * cos (Complex.arg ⟨x, y⟩) = x := by
  have h := Complex.norm_mul_cos_arg (⟨x, y⟩ : ℂ)
  rwa [Complex.norm_eq_sqrt_sq_add_sq, show (⟨x, y⟩ : ℂ).re ^ 2 + (⟨x, y⟩ : ℂ).im ^ 2 = x * x + y * y by simp; ring] at h

theorem polar_im (x y : ℝ) : √(x * x + y * y) * sin (Complex.arg ⟨x, y⟩) = y := by
  have h := Complex.norm_mul_sin_arg (⟨x, y⟩ : ℂ)
  rwa [Complex.norm_eq_sqrt_sq_add_sq, show (⟨x, y⟩ : ℂ).re ^ 2 + (⟨x, y⟩ : ℂ).im ^ 2 = x * x + y * y by simp; ring] at h

theorem piFrac_fin (n d : ℕ) : (GoMath.piFrac n d : XR ℝ) = .fin (n * π / d) := rfl

theorem vecLength_fin (x y : ℝ) : (⟨.fin x, .fin y⟩ : Vector2 (XR ℝ)).Length = .fin (√(x * x + y * y)) := by
  unfold Vector2.Length
  simp only [XR.fin_mul, XR.fin_add]
  exact sqrt_fin (by nlinarith [mul_self_nonneg x, mul_self_nonneg y])

theorem vec_fin (a c : ℝ × ℝ) : ConvertPointToVector (pt a) (pt c) = (⟨.fin (c.1 - a.1), .fin (c.2 - a.2)⟩ : Vector2 (XR ℝ)) := by
  unfold ConvertPointToVector pt
  simp only [XR.fin_sub]

theorem eucl_vec (a c : ℝ × ℝ) : eucl a c = √((c.1 - a.1) * (c.1 - a.1) + (c.2 - a.2) * (c.2 - a.2)) := by
  unfold eucl; congr 1; ring

/-- the angle `CacAngle` computes -/
noncomputable def turnAngle (a c b : ℝ × ℝ) : ℝ :=
  let t := Complex.arg ⟨c.1 - b.1, c.2 - b.2⟩ - Complex.arg ⟨c.1 - a.1, c.2 - a.2⟩
  if t < 0 then t + 2 * π else t

theorem cacAngle_fin (a c b : ℝ × ℝ) : CacAngle (pt a) (pt c) (pt b) =
    if eucl a c * eucl b c = 0 then ((.fin 0 : XR ℝ), some "some points is repeat") else (.fin (turnAngle a c b), none) := by
  unfold CacAngle turnAngle
  simp only [vec_fin, vecLength_fin, XR.fin_mul, atan2_fin, XR.fin_sub, XR.fin_lit, piFrac_fin, ← eucl_vec]
  by_cases h : eucl a c * eucl b c = 0
  · rw [if_pos h, if_pos]
    · simp
    · rw [XR.fin_eq]; simpa using h
  · rw [if_neg h, if_neg]
    · congr 1
      by_cases h2 : Complex.arg ⟨c.1 - b.1, c.2 - b.2⟩ - Complex.arg ⟨c.1 - a.1, c.2 - a.2⟩ < 0
      · rw [if_pos h2, if_pos]
        · rw [XR.fin_add]; norm_num
        · rw [XR.fin_lt]; simpa using h2
      · rw [if_neg h2, if_neg]
        rw [XR.fin_lt]; simpa using h2
    · rw [XR.fin_eq]; simpa using h

theorem turnAngle_range (a c b : ℝ × ℝ) : 0 ≤ turnAngle a c b ∧ turnAngle a c b < 2 * π := by
  unfold turnAngle
  have h1 := Complex.arg_le_pi ⟨c.1 - b.1, c.2 - b.2⟩
  have h2 := Complex.neg_pi_lt_arg ⟨c.1 - b.1, c.2 - b.2⟩
  have h3 := Complex.arg_le_pi ⟨c.1 - a.1, c.2 - a.2⟩
  have h4 := Complex.neg_pi_lt_arg ⟨c.1 - a.1, c.2 - a.2⟩
  simp only
  split_ifs with h
  · constructor <;> linarith
  · constructor <;> linarith

theorem turnAngle_trig (a c b : ℝ × ℝ) :
    cos (turnAngle a c b) = cos (Complex.arg ⟨c.1 - b.1, c.2 - b.2⟩ - Complex.arg ⟨c.1 - a.1, c.2 - a.2⟩) ∧
    sin (turnAngle a c b) = sin (Complex.arg ⟨c.1 - b.1, c.2 - b.2⟩ - Complex.arg ⟨c.1 - a.1, c.2 - a.2⟩) := by
  unfold turnAngle
  simp only
  split_ifs with h
  · exact ⟨cos_add_two_pi _, sin_add_two_pi _⟩
  · exact ⟨rfl, rfl⟩

theorem turnAngle_rot (a c b : ℝ × ℝ) :
    eucl a c * (b.1 - c.1) = eucl b c * ((a.1 - c.1) * cos (turnAngle a c b) - (a.2 - c.2) * sin (turnAngle a c b)) ∧
    eucl a c * (b.2 - c.2) = eucl b c * ((a.1 - c.1) * sin (turnAngle a c b) + (a.2 - c.2) * cos (turnAngle a c b)) := by
  obtain ⟨e1, e2⟩ := turnAngle_trig a c b
  rw [e1, e2, eucl_vec, eucl_vec, cos_sub, sin_sub]
  have a1 := polar_re (c.1 - a.1) (c.2 - a.2)
  have a2 := polar_im (c.1 - a.1) (c.2 - a.2)
  have b1 := polar_re (c.1 - b.1) (c.2 - b.2)
  have b2 := polar_im (c.1 - b.1) (c.2 - b.2)
  have t := sin_sq_add_cos_sq (Complex.arg ⟨c.1 - a.1, c.2 - a.2⟩)
  set r := √((c.1 - a.1) * (c.1 - a.1) + (c.2 - a.2) * (c.2 - a.2))
  set s := √((c.1 - b.1) * (c.1 - b.1) + (c.2 - b.2) * (c.2 - b.2))
  set x := Complex.arg ⟨c.1 - a.1, c.2 - a.2⟩
  set y := Complex.arg ⟨c.1 - b.1, c.2 - b.2⟩
  rw [show b.1 - c.1 = -(s * cos y) by linarith, show b.2 - c.2 = -(s * sin y) by linarith,
    show a.1 - c.1 = -(r * cos x) by linarith, show a.2 - c.2 = -(r * sin x) by linarith]
  constructor
  · linear_combination (s * r * cos y) * t
  · linear_combination (s * r * sin y) * t

theorem turnAngle_sin (a c b : ℝ × ℝ) : eucl a c * eucl b c * sin (turnAngle a c b) = turn c a b := by
  obtain ⟨_, e2⟩ := turnAngle_trig a c b
  rw [e2, eucl_vec, eucl_vec, sin_sub]
  have a1 := polar_re (c.1 - a.1) (c.2 - a.2)
  have a2 := polar_im (c.1 - a.1) (c.2 - a.2)
  have b1 := polar_re (c.1 - b.1) (c.2 - b.2)
  have b2 := polar_im (c.1 - b.1) (c.2 - b.2)
  unfold turn
  set r := √((c.1 - a.1) * (c.1 - a.1) + (c.2 - a.2) * (c.2 - a.2))
  set s := √((c.1 - b.1) * (c.1 - b.1) + (c.2 - b.2) * (c.2 - b.2))
  set x := Complex.arg ⟨c.1 - a.1, c.2 - a.2⟩
  set y := Complex.arg ⟨c.1 - b.1, c.2 - b.2⟩
  rw [show b.1 - c.1 = -(s * cos y) by linarith, show b.2 - c.2 = -(s * sin y) by linarith,
    show a.1 - c.1 = -(r * cos x) by linarith, show a.2 - c.2 = -(r * sin x) by linarith]
  ring

theorem eucl_pos {a c : ℝ × ℝ} (h : a ≠ c) : 0 < eucl a c := by
  unfold eucl
  apply sqrt_pos.2
  by_contra hc
  have h1 : a.1 - c.1 = 0 := by nlinarith [sq_nonneg (a.1 - c.1), sq_nonneg (a.2 - c.2)]
  have h2 : a.2 - c.2 = 0 := by nlinarith [sq_nonneg (a.1 - c.1), sq_nonneg (a.2 - c.2)]
  exact h (Prod.ext (by linarith) (by linarith))

theorem eucl_same (a : ℝ × ℝ) : eucl a a = 0 := by unfold eucl; simp

/-! ## the sphere -/

theorem norm_north (p : ℝ × ℝ) : inner ℝ (north p) (north p) = (1 : ℝ) := by
  unfold north; rw [inner3]
  linear_combination sin_sq_add_cos_sq (rad p.2) + sin (rad p.2) ^ 2 * sin_sq_add_cos_sq (rad p.1)

theorem norm_east (p : ℝ × ℝ) : inner ℝ (east p) (east p) = (1 : ℝ) := by
  unfold east; rw [inner3]
  linear_combination sin_sq_add_cos_sq (rad p.1)

theorem sphere_self (p : ℝ × ℝ) : inner ℝ (onSphere p) (onSphere p) = (1 : ℝ) := by
  rw [inner_sphere, sub_self, cos_zero]
  linear_combination sin_sq_add_cos_sq (rad p.2)

theorem sphere_north (p : ℝ × ℝ) : inner ℝ (onSphere p) (north p) = (0 : ℝ) := by
  unfold north onSphere; rw [inner3]
  linear_combination -(sin (rad p.2) * cos (rad p.2)) * sin_sq_add_cos_sq (rad p.1)

theorem sphere_east (p : ℝ × ℝ) : inner ℝ (onSphere p) (east p) = (0 : ℝ) := by
  unfold east onSphere; rw [inner3]; ring

theorem north_east (p : ℝ × ℝ) : inner ℝ (north p) (east p) = (0 : ℝ) := by
  unfold east north; rw [inner3]; ring

theorem inner_travel (p : ℝ × ℝ) (b d : ℝ) : inner ℝ (onSphere p) (travel p b d) = cos d := by
  unfold travel
  simp only [inner_add_right, inner_smul_right, sphere_self, sphere_north, sphere_east]
  ring

theorem north_sphere (p q : ℝ × ℝ) : inner ℝ (onSphere q) (north p) =
    cos (rad p.2) * sin (rad q.2) - sin (rad p.2) * cos (rad q.2) * cos (rad q.1 - rad p.1) := by
  unfold north onSphere; rw [inner3, cos_sub]; ring

theorem east_sphere (p q : ℝ × ℝ) : inner ℝ (onSphere q) (east p) = sin (rad q.1 - rad p.1) * cos (rad q.2) := by
  unfold east onSphere; rw [inner3, sin_sub]; ring

theorem sphere_expand (p q : ℝ × ℝ) : onSphere q = inner ℝ (onSphere p) (onSphere q) • onSphere p
    + (inner ℝ (onSphere q) (north p) • north p + inner ℝ (onSphere q) (east p) • east p) := by
  unfold onSphere north east
  simp only [inner3]
  have h1 := sin_sq_add_cos_sq (rad p.2)
  have h2 := sin_sq_add_cos_sq (rad p.1)
  ext i
  fin_cases i
  · simp
    linear_combination -(cos (rad q.2) * cos (rad q.1) * cos (rad p.1) ^ 2 + cos (rad q.2) * sin (rad q.1) * cos (rad p.1) * sin (rad p.1)) * h1
      - cos (rad q.2) * cos (rad q.1) * h2
  · simp
    linear_combination -(cos (rad q.2) * sin (rad q.1) * sin (rad p.1) ^ 2 + cos (rad q.2) * cos (rad q.1) * cos (rad p.1) * sin (rad p.1)) * h1
      - cos (rad q.2) * sin (rad q.1) * h2
  · simp
    linear_combination -sin (rad q.2) * h1

theorem sphere_pythagoras (p q : ℝ × ℝ) : inner ℝ (onSphere q) (north p) ^ 2 + inner ℝ (onSphere q) (east p) ^ 2 = sin (central p q) ^ 2 := by
  have h := sphere_self q
  have e := sphere_expand p q
  have hc : cos (central p q) = inner ℝ (onSphere p) (onSphere q) := by rw [cos_central, inner_sphere]
  have e2 : inner ℝ (onSphere q) (onSphere q) = inner ℝ (onSphere p) (onSphere q) * inner ℝ (onSphere p) (onSphere q) +
      (inner ℝ (onSphere q) (north p) * inner ℝ (onSphere q) (north p) + inner ℝ (onSphere q) (east p) * inner ℝ (onSphere q) (east p)) := by
    have := congrArg (fun v => inner ℝ (onSphere q) v) e
    simp only [inner_add_right, inner_smul_right, real_inner_comm (onSphere p) (onSphere q)] at this
    exact this
  have := sin_sq_add_cos_sq (central p q)
  rw [← hc] at e2
  linear_combination -e2 + h - this

theorem rad_add (x y : ℝ) : rad (x + y) = rad x + rad y := by unfold rad; ring

theorem rad_turns (x : ℝ) (k : ℤ) : rad (x - 360 * k) = rad x - k * (2 * π) := by unfold rad; ring

theorem rad_deg (x : ℝ) : rad (x * 180 / π) = x := by
  unfold rad; field_simp [pi_ne_zero]

theorem mod_fin {x : ℝ} (h : 0 ≤ x) : ∃ k : ℤ, GoMod.mod (XR.fin x) (GoFloat.lit 360) = .fin (x - 360 * k) ∧ 0 ≤ x - 360 * k ∧ x - 360 * k < 360 := by
  have e : (GoFloat.lit 360 : XR ℝ) = .fin 360 := by rw [XR.fin_lit]; norm_num
  rw [e]
  refine ⟨⌊x / 360⌋, ?_, ?_, ?_⟩
  · show (if (360 : ℝ) = 0 then XR.nan else .fin (x - 360 * XR.truncR (x / 360))) = _
    rw [if_neg (by norm_num)]
    unfold XR.truncR
    rw [if_neg (not_lt.2 (by positivity))]
  · have := Int.floor_le (x / 360); linarith
  · have := Int.lt_floor_add_one (x / 360); linarith

theorem deg_range {t : ℝ} (h1 : -π < t) (h2 : t ≤ π) : -180 < t * 180 / π ∧ t * 180 / π ≤ 180 := by
  have := pi_pos
  constructor
  · rw [lt_div_iff₀ this]; nlinarith
  · rw [div_le_iff₀ this]; nlinarith

theorem onSphere_shift (p : ℝ × ℝ) (k : ℤ) (lat : ℝ) : onSphere (p.1 - 360 * k, lat) = onSphere (p.1, lat) := by
  unfold onSphere
  simp only [rad_turns, cos_sub_int_mul_two_pi, sin_sub_int_mul_two_pi]

end GoGeo
