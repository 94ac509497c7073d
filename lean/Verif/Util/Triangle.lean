import Verif.Spec.Measure
import Mathlib.MeasureTheory.Function.Jacobian
import Mathlib.MeasureTheory.Measure.Lebesgue.Integral
import Mathlib.MeasureTheory.Integral.Prod
import Mathlib.MeasureTheory.Integral.IntervalIntegral.FundThmCalculus
import Mathlib.Analysis.SpecialFunctions.Integrals.Basic
import Mathlib.Topology.Algebra.Module.FiniteDimension
import Mathlib.Tactic.Linarith

/-!
# Integrals of affine functions over an open triangle of the real plane
-/

namespace GoGeo.Region
open MeasureTheory Set Spec

instance haar : (volume : Measure (ℝ × ℝ)).IsAddHaarMeasure := Measure.prod.instIsAddHaarMeasure _ _

/-- the open triangle with counter-clockwise corners `a b c` -/
def tri (a b c : ℝ × ℝ) : Set (ℝ × ℝ) := {p | 0 < turn a b p ∧ 0 < turn b c p ∧ 0 < turn c a p}

/-- the open unit triangle -/
def unit : Set (ℝ × ℝ) := {p | 0 < p.1 ∧ 0 < p.2 ∧ p.1 + p.2 < 1}

theorem unit_open : IsOpen unit := by
  unfold unit
  exact (isOpen_lt continuous_const continuous_fst).inter ((isOpen_lt continuous_const continuous_snd).inter
    (isOpen_lt (continuous_fst.add continuous_snd) continuous_const))

theorem unit_sub : unit ⊆ Icc (0 : ℝ × ℝ) 1 := by
  rintro ⟨x, y⟩ ⟨h1, h2, h3⟩
  simp only at h1 h2 h3
  exact ⟨⟨h1.le, h2.le⟩, ⟨by show x ≤ 1; linarith, by show y ≤ 1; linarith⟩⟩

theorem unit_int {f : ℝ × ℝ → ℝ} (hf : Continuous f) : IntegrableOn f unit :=
  (hf.continuousOn.integrableOn_compact isCompact_Icc).mono_set unit_sub

theorem unit_fubini {f : ℝ × ℝ → ℝ} (hf : Continuous f) :
    ∫ p in unit, f p = ∫ x in (0 : ℝ)..1, ∫ y in (0 : ℝ)..(1 - x), f (x, y) := by
  rw [← integral_indicator unit_open.measurableSet, Measure.volume_eq_prod,
    integral_prod _ (by simpa [Measure.volume_eq_prod] using (integrable_indicator_iff unit_open.measurableSet).2 (unit_int hf)),
    intervalIntegral.integral_of_le zero_le_one, ← integral_indicator measurableSet_Ioc]
  have : ∀ x : ℝ, x ≠ 1 → (∫ y, unit.indicator f (x, y)) = (Ioc (0 : ℝ) 1).indicator (fun x => ∫ y in (0 : ℝ)..(1 - x), f (x, y)) x := by
    intro x hx
    by_cases h : 0 < x ∧ x < 1
    · rw [indicator_of_mem (show x ∈ Ioc (0 : ℝ) 1 from ⟨h.1, h.2.le⟩), intervalIntegral.integral_of_le (by linarith), integral_Ioc_eq_integral_Ioo,
        ← integral_indicator measurableSet_Ioo]
      congr 1
      ext y
      by_cases hy : 0 < y ∧ y < 1 - x
      · rw [indicator_of_mem (show y ∈ Ioo (0 : ℝ) (1 - x) from hy), indicator_of_mem]
        exact ⟨h.1, hy.1, by show x + y < 1; linarith [hy.2]⟩
      · rw [indicator_of_notMem (show y ∉ Ioo (0 : ℝ) (1 - x) from hy), indicator_of_notMem]
        rintro ⟨_, h2, h3⟩
        exact hy ⟨h2, by simp only at h3; linarith⟩
    · rw [indicator_of_notMem]
      · rw [integral_eq_zero_of_ae]
        refine Filter.Eventually.of_forall fun y => ?_
        show unit.indicator f (x, y) = 0
        rw [indicator_of_notMem]
        · rintro ⟨h1, h2, h3⟩
          simp only at h1 h2 h3
          exact h ⟨h1, by linarith⟩
      · rintro ⟨h1, h2⟩
        exact h ⟨h1, lt_of_le_of_ne h2 hx⟩
  refine integral_congr_ae ?_
  filter_upwards [(Measure.ae_ne volume (1 : ℝ))] with x hx using this x hx

/-- an affine function over the unit triangle -/
theorem unit_affine (α β γ : ℝ) : ∫ p in unit, (α + β * p.1 + γ * p.2) = α / 2 + β / 6 + γ / 6 := by
  rw [unit_fubini (by fun_prop)]
  have : ∀ x : ℝ, (∫ y in (0 : ℝ)..(1 - x), (α + β * x + γ * y)) = (α + γ / 2) + (β - α - γ) * x + (γ / 2 - β) * x ^ 2 := by
    intro x
    rw [intervalIntegral.integral_add (by simp) (by apply Continuous.intervalIntegrable; fun_prop), intervalIntegral.integral_const,
      intervalIntegral.integral_const_mul, integral_id]
    simp only [smul_eq_mul]
    ring
  simp only [this]
  rw [intervalIntegral.integral_add (by apply Continuous.intervalIntegrable; fun_prop) (by apply Continuous.intervalIntegrable; fun_prop),
    intervalIntegral.integral_add (by simp) (by apply Continuous.intervalIntegrable; fun_prop), intervalIntegral.integral_const,
    intervalIntegral.integral_const_mul, intervalIntegral.integral_const_mul, integral_id, integral_pow]
  norm_num
  ring

/-- the affine map that takes the unit triangle to the triangle `a b c` -/
def chart (a b c p : ℝ × ℝ) : ℝ × ℝ := (a.1 + (b.1 - a.1) * p.1 + (c.1 - a.1) * p.2, a.2 + (b.2 - a.2) * p.1 + (c.2 - a.2) * p.2)

theorem turn_chart (a b c p : ℝ × ℝ) : turn a b (chart a b c p) = turn a b c * p.2 ∧
    turn b c (chart a b c p) = turn a b c * (1 - p.1 - p.2) ∧ turn c a (chart a b c p) = turn a b c * p.1 := by
  unfold turn chart; refine ⟨?_, ?_, ?_⟩ <;> ring

theorem chart_image {a b c : ℝ × ℝ} (h : 0 < turn a b c) : chart a b c '' unit = tri a b c := by
  ext q
  constructor
  · rintro ⟨p, ⟨h1, h2, h3⟩, rfl⟩
    obtain ⟨t1, t2, t3⟩ := turn_chart a b c p
    refine ⟨?_, ?_, ?_⟩
    · rw [t1]; positivity
    · rw [t2]; exact mul_pos h (by linarith)
    · rw [t3]; positivity
  · rintro ⟨h1, h2, h3⟩
    have hs : turn a b q + turn b c q + turn c a q = turn a b c := by unfold turn; ring
    refine ⟨(turn c a q / turn a b c, turn a b q / turn a b c), ⟨by positivity, by positivity, ?_⟩, ?_⟩
    · rw [← add_div, div_lt_one h]; linarith
    · have hne := h.ne'
      ext
      · simp only [chart]; field_simp; unfold turn; ring
      · simp only [chart]; field_simp; unfold turn; ring

theorem chart_inj {a b c : ℝ × ℝ} (h : 0 < turn a b c) : Function.Injective (chart a b c) := by
  intro p q e
  obtain ⟨s1, _, s3⟩ := turn_chart a b c p
  obtain ⟨t1, _, t3⟩ := turn_chart a b c q
  rw [e] at s1 s3
  ext
  · exact mul_left_cancel₀ h.ne' (s3.symm.trans t3)
  · exact mul_left_cancel₀ h.ne' (s1.symm.trans t1)

theorem chart_deriv (a b c p : ℝ × ℝ) : HasFDerivAt (chart a b c)
    (LinearMap.toContinuousLinearMap (Matrix.toLin (Module.Basis.finTwoProd ℝ) (Module.Basis.finTwoProd ℝ)
      !![b.1 - a.1, c.1 - a.1; b.2 - a.2, c.2 - a.2])) p := by
  rw [Matrix.toLin_finTwoProd_toContinuousLinearMap]
  refine HasFDerivAt.prodMk ?_ ?_
  · have h1 := (hasFDerivAt_fst (𝕜 := ℝ) (p := p)).const_mul (b.1 - a.1)
    have h2 := (hasFDerivAt_snd (𝕜 := ℝ) (p := p)).const_mul (c.1 - a.1)
    exact (h1.const_add a.1).add h2
  · have h1 := (hasFDerivAt_fst (𝕜 := ℝ) (p := p)).const_mul (b.2 - a.2)
    have h2 := (hasFDerivAt_snd (𝕜 := ℝ) (p := p)).const_mul (c.2 - a.2)
    exact (h1.const_add a.2).add h2

theorem tri_integral {a b c : ℝ × ℝ} (h : 0 < turn a b c) (f : ℝ × ℝ → ℝ) :
    ∫ p in tri a b c, f p = turn a b c * ∫ p in unit, f (chart a b c p) := by
  rw [← chart_image h, integral_image_eq_integral_abs_det_fderiv_smul volume unit_open.measurableSet
    (fun p _ => (chart_deriv a b c p).hasFDerivWithinAt) (chart_inj h).injOn]
  have : ((LinearMap.toContinuousLinearMap (Matrix.toLin (Module.Basis.finTwoProd ℝ) (Module.Basis.finTwoProd ℝ)
      !![b.1 - a.1, c.1 - a.1; b.2 - a.2, c.2 - a.2])) : ℝ × ℝ →L[ℝ] ℝ × ℝ).det = turn a b c := by
    show LinearMap.det _ = _
    rw [LinearMap.coe_toContinuousLinearMap, LinearMap.det_toLin, Matrix.det_fin_two_of]
    unfold turn; ring
  simp only [this, smul_eq_mul, abs_of_pos h, integral_const_mul]

/-- an affine function over a triangle: its area times the mean over the corners -/
theorem tri_affine' {a b c : ℝ × ℝ} (h : 0 < turn a b c) (α β γ : ℝ) :
    ∫ p in tri a b c, (α + β * p.1 + γ * p.2) = turn a b c / 2 * (α + β * ((a.1 + b.1 + c.1) / 3) + γ * ((a.2 + b.2 + c.2) / 3)) := by
  rw [tri_integral h]
  have : ∀ p : ℝ × ℝ, α + β * (chart a b c p).1 + γ * (chart a b c p).2 =
      (α + β * a.1 + γ * a.2) + (β * (b.1 - a.1) + γ * (b.2 - a.2)) * p.1 + (β * (c.1 - a.1) + γ * (c.2 - a.2)) * p.2 := by
    intro p; unfold chart; ring
  simp only [this, unit_affine]
  ring

theorem turn_cont (a b : ℝ × ℝ) : Continuous (turn a b) := by unfold turn; fun_prop

theorem tri_open (a b c : ℝ × ℝ) : IsOpen (tri a b c) :=
  (isOpen_lt continuous_const (turn_cont a b)).inter ((isOpen_lt continuous_const (turn_cont b c)).inter
    (isOpen_lt continuous_const (turn_cont c a)))

theorem tri_pos {a b c p : ℝ × ℝ} (h : p ∈ tri a b c) : 0 < turn a b c := by
  obtain ⟨h1, h2, h3⟩ := h
  have : turn a b c = turn a b p + turn b c p + turn c a p := by unfold turn; ring
  linarith

theorem tri_empty {a b c : ℝ × ℝ} (h : ¬ 0 < turn a b c) : tri a b c = ∅ := by
  ext p
  simp only [mem_empty_iff_false, iff_false]
  exact fun hp => h (tri_pos hp)

theorem tri_int' {a b c : ℝ × ℝ} (h : 0 < turn a b c) {f : ℝ × ℝ → ℝ} (hf : Continuous f) : IntegrableOn f (tri a b c) := by
  have hc : Continuous (chart a b c) := by unfold chart; fun_prop
  refine (hf.continuousOn.integrableOn_compact (isCompact_Icc.image hc) : IntegrableOn f (chart a b c '' Icc 0 1)).mono_set ?_
  rw [← chart_image h]
  exact image_mono unit_sub

theorem tri_int {a b c : ℝ × ℝ} (h : 0 ≤ turn a b c) {f : ℝ × ℝ → ℝ} (hf : Continuous f) : IntegrableOn f (tri a b c) := by
  rcases h.lt_or_eq with h | h
  · exact tri_int' h hf
  · rw [tri_empty (by rw [← h]; simp)]; simp

/-- an affine function over a triangle that may be flat -/
theorem tri_affine {a b c : ℝ × ℝ} (h : 0 ≤ turn a b c) (α β γ : ℝ) :
    ∫ p in tri a b c, (α + β * p.1 + γ * p.2) = turn a b c / 2 * (α + β * ((a.1 + b.1 + c.1) / 3) + γ * ((a.2 + b.2 + c.2) / 3)) := by
  rcases h.lt_or_eq with h | h
  · exact tri_affine' h α β γ
  · rw [tri_empty (by rw [← h]; simp), ← h]; simp

/-- a line has no area -/
theorem line_null {a b : ℝ × ℝ} (h : a ≠ b) : volume {p | turn a b p = 0} = 0 := by
  let S : AffineSubspace ℝ (ℝ × ℝ) := AffineSubspace.mk' a (LinearMap.ker ((b.1 - a.1) • LinearMap.snd ℝ ℝ ℝ - (b.2 - a.2) • LinearMap.fst ℝ ℝ ℝ))
  have hS : (S : Set (ℝ × ℝ)) = {p | turn a b p = 0} := by
    ext p
    simp only [S, SetLike.mem_coe, AffineSubspace.mem_mk', LinearMap.mem_ker, mem_ofPred_eq, turn, vsub_eq_sub, LinearMap.sub_apply,
      LinearMap.smul_apply, LinearMap.snd_apply, LinearMap.fst_apply, smul_eq_mul, Prod.fst_sub, Prod.snd_sub]
  rw [← hS]
  apply Measure.addHaar_affineSubspace
  intro ht
  have : ∀ p : ℝ × ℝ, turn a b p = 0 := by
    intro p
    have : p ∈ (S : Set (ℝ × ℝ)) := by rw [ht]; trivial
    rw [hS] at this
    exact this
  have h1 := this (a.1, a.2 + 1)
  have h2 := this (a.1 + 1, a.2)
  unfold turn at h1 h2
  apply h
  ext <;> [nlinarith; nlinarith]

end GoGeo.Region
