import Verif.Go.ErrReal
import Verif.Geo.DistanceLemmas
import Verif.Geo.ErrLemmas

/-!
# Rounding errors of distances
-/

namespace GoGeo
open GoFloat FloatVal Spec

theorem vdiff {f g : Float} {x y : ℚ} {M : ℝ} (hf : val f = .fin x) (hg : val g = .fin y) (hx : |(x : ℝ)| ≤ M) (hy : |(y : ℝ)| ≤ M) (h2 : M ≤ 2 ^ 100) :
    NearR (f - g) ((x : ℝ) - y) (|(x : ℝ) - y| / 2 ^ 53 + 1 / 2 ^ 250) := by
  have hb := abs_sub (x : ℝ) y
  have h := (NearR.of_val hf).sub (NearR.of_val hg) (B := |(x : ℝ) - y|) (by linarith) (by norm_num at h2 ⊢; linarith)
  exact h.mono (by linarith)

theorem sqdiff_near {f g : Float} {x y : ℚ} {M : ℝ} (hf : val f = .fin x) (hg : val g = .fin y) (hx : |(x : ℝ)| ≤ M) (hy : |(y : ℝ)| ≤ M) (h2 : M ≤ 2 ^ 100) :
    NearR ((f - g) * (f - g)) (((x : ℝ) - y) ^ 2) (4 * ((x : ℝ) - y) ^ 2 / 2 ^ 53 + 2 / 2 ^ 250) := by
  have d := vdiff hf hg hx hy h2
  have hb : |(x : ℝ) - y| ≤ 2 * 2 ^ 100 := (abs_sub (x : ℝ) y).trans (by linarith)
  rw [← sq_abs ((x : ℝ) - y)]
  have hX0 := abs_nonneg ((x : ℝ) - y)
  obtain ⟨X, hX⟩ : ∃ X, X = |(x : ℝ) - y| := ⟨_, rfl⟩
  rw [← hX] at d hb hX0 ⊢
  have hXX : X ^ 2 ≤ 2 ^ 202 := by
    calc X ^ 2 ≤ (2 * 2 ^ 100) ^ 2 := pow_le_pow_left₀ hX0 hb 2
      _ = 2 ^ 202 := by norm_num
  have hη3 : (1 : ℝ) / 2 ^ 250 * (1 / 2 ^ 250) ≤ 1 / 2 ^ 250 / 2 ^ 200 := by
    rw [div_eq_mul_one_div (1 / 2 ^ 250 : ℝ) (2 ^ 200)]
    exact mul_le_mul_of_nonneg_left (one_div_le_one_div_of_le (by positivity) (pow_le_pow_right₀ (by norm_num) (by norm_num))) (by positivity)
  have hη2 : (1 : ℝ) / 2 ^ 250 * (1 / 2 ^ 250) ≤ 1 / 2 ^ 250 / 2 ^ 100 := by
    refine hη3.trans ?_
    exact div_le_div_of_nonneg_left (by positivity) (by positivity) (pow_le_pow_right₀ (by norm_num) (by norm_num))
  have hc : X * (1 / 2 ^ 250) ≤ X ^ 2 / 2 ^ 60 + 1 / 2 ^ 250 / 2 ^ 100 := by
    have h0 : (0 : ℝ) < 1 / 2 ^ 250 := by positivity
    generalize (1 : ℝ) / 2 ^ 250 = η at *
    have := sq_nonneg (X / 2 ^ 30 - 2 ^ 30 * η)
    have e : (X / 2 ^ 30 - 2 ^ 30 * η) ^ 2 = X ^ 2 / 2 ^ 60 - 2 * (X * η) + 2 ^ 60 * (η * η) := by ring
    rw [e] at this
    have e4 : 0 ≤ X * η := by positivity
    generalize X * η = Z at *
    generalize η * η = E2 at *
    norm_num at hη3 this ⊢
    linarith
  have hη0 : (0 : ℝ) < 1 / 2 ^ 250 := by positivity
  have hη1 : (1 : ℝ) / 2 ^ 250 ≤ 1 := by
    rw [div_le_one (by positivity)]; exact one_le_pow₀ (by norm_num)
  have h2η : (2 : ℝ) / 2 ^ 250 = 2 * (1 / 2 ^ 250) := by ring
  rw [h2η]
  have hee : X * (X / 2 ^ 53 + 1 / 2 ^ 250) + X * (X / 2 ^ 53 + 1 / 2 ^ 250) + (X / 2 ^ 53 + 1 / 2 ^ 250) * (X / 2 ^ 53 + 1 / 2 ^ 250) =
      2 * (X ^ 2 / 2 ^ 53) + X ^ 2 / 2 ^ 106 + (2 + 2 / 2 ^ 53) * (X * (1 / 2 ^ 250)) + 1 / 2 ^ 250 * (1 / 2 ^ 250) := by ring
  have hm := d.mul d (X := X) (Y := X) (by rw [hX]) (by rw [hX]) (B := 3 / 2 * X ^ 2 + 1 / 2 ^ 250) (by
    rw [hee]
    generalize hη' : (1 : ℝ) / 2 ^ 250 = η at *
    generalize X * η = Z at *
    have : X * X = X ^ 2 := by ring
    rw [this]
    have h0 : 0 ≤ X ^ 2 := by positivity
    generalize X ^ 2 = Q at *
    generalize η * η = E2 at *
    norm_num at hc hη2 ⊢
    linarith) (by norm_num at hXX hη1 ⊢; linarith)
  have e2 : ((x : ℝ) - y) * (x - y) = X ^ 2 := by rw [hX, sq_abs]; ring
  rw [e2] at hm
  refine hm.mono ?_
  rw [hee]
  generalize hη' : (1 : ℝ) / 2 ^ 250 = η at *
  generalize X * η = Z at *
  have h0 : 0 ≤ X ^ 2 := by positivity
  generalize X ^ 2 = Q at *
  generalize η * η = E2 at *
  norm_num at hc hη2 ⊢
  linarith

theorem sq_val_nonneg (f : Float) {v : ℚ} (h : val (f * f) = .fin v) : 0 ≤ v := by
  have h1 : XR.le (.fin 0) (val (f * f)) = true := by
    rw [val_mul]
    apply zero_le_rnd
    have hn : rnd Float (XR.mul (val f) (val f)) = .fin v := by rw [← val_mul]; exact h
    generalize val f = z at *
    cases z with
    | fin a => simp only [XR.mul, XR.le, decide_eq_true_eq]; exact mul_self_nonneg a
    | nan => simp [XR.mul, rnd_nan] at hn
    | pinf => rfl
    | ninf => rfl
  rw [h] at h1
  simpa [XR.le] using h1

theorem add_val_nonneg {f g : Float} {v a b : ℚ} (h : val (f + g) = .fin v) (ha : val f = .fin a) (hb : val g = .fin b) (a0 : 0 ≤ a) (b0 : 0 ≤ b) : 0 ≤ v := by
  have h1 : XR.le (.fin 0) (val (f + g)) = true := by
    rw [val_add, ha, hb]
    apply zero_le_rnd
    simp only [XR.add, XR.le, decide_eq_true_eq]
    exact add_nonneg a0 b0
  rw [h] at h1
  simpa [XR.le] using h1

/-- the computed distance of two points -/
theorem euclid_near {p q : Point Float} {x y : ℚ × ℚ} {M : ℝ} (hp : At p x) (hq : At q y) (bx : |((x.1 : ℚ) : ℝ)| ≤ M ∧ |((x.2 : ℚ) : ℝ)| ≤ M)
    (by' : |((y.1 : ℚ) : ℝ)| ≤ M ∧ |((y.2 : ℚ) : ℝ)| ≤ M) (h2 : M ≤ 2 ^ 100) :
    NearR (EuclideanDis p q) (eucl (real x) (real y)) (eucl (real x) (real y) / 2 ^ 49 + 1 / 2 ^ 120) := by
  have s1 := sqdiff_near hp.1 hq.1 bx.1 by'.1 h2
  have s2 := sqdiff_near hp.2 hq.2 bx.2 by'.2 h2
  have hQ : ∀ u v : ℝ, |u| ≤ M → |v| ≤ M → (u - v) ^ 2 ≤ 2 ^ 202 := by
    intro u v hu hv
    rw [← sq_abs]
    calc |u - v| ^ 2 ≤ (2 * 2 ^ 100) ^ 2 := pow_le_pow_left₀ (abs_nonneg _) ((abs_sub u v).trans (by linarith)) 2
      _ = 2 ^ 202 := by norm_num
  have q1 := hQ _ _ bx.1 by'.1
  have q2 := hQ _ _ bx.2 by'.2
  have p1 : (0 : ℝ) ≤ ((x.1 : ℝ) - y.1) ^ 2 := sq_nonneg _
  have p2 : (0 : ℝ) ≤ ((x.2 : ℝ) - y.2) ^ 2 := sq_nonneg _
  unfold eucl real
  simp only
  have hs := s1.add s2 (B := 2 * (((x.1 : ℝ) - y.1) ^ 2 + ((x.2 : ℝ) - y.2) ^ 2) + 5 / 2 ^ 250) (by
    rw [abs_of_nonneg (add_nonneg p1 p2)]
    norm_num
    linarith) (by norm_num at q1 q2 ⊢; linarith)
  have hs' := hs.mono (e' := 7 / 2 ^ 53 * (((x.1 : ℝ) - y.1) ^ 2 + ((x.2 : ℝ) - y.2) ^ 2) + (1 / 2 ^ 123) ^ 2) (by
    norm_num; linarith)
  have := NearR.sqrt (add_nonneg p1 p2) (by norm_num) (by norm_num) hs' (by
    intro v hv
    obtain ⟨a, ha, _⟩ := s1
    obtain ⟨b, hb, _⟩ := s2
    exact add_val_nonneg hv ha hb (sq_val_nonneg _ ha) (sq_val_nonneg _ hb))
  refine this.mono ?_
  have h0 := Real.sqrt_nonneg (((x.1 : ℝ) - y.1) ^ 2 + ((x.2 : ℝ) - y.2) ^ 2)
  norm_num
  linarith

theorem sqrt_val_nonneg {f : Float} {v s : ℚ} (hf : val f = .fin v) (h0 : 0 ≤ v) (hs : val (Float.sqrt f) = .fin s) : 0 ≤ s := by
  obtain ⟨s', e, h, _⟩ := float_sqrt_err hf h0
  rw [hs] at e
  injection e with e
  rw [e]; exact h

/-- a computed distance is not negative -/
theorem euclid_val_nonneg {p q : Point Float} {x y : ℚ × ℚ} {M : ℝ} (hp : At p x) (hq : At q y) (bx : Within M (real x)) (by' : Within M (real y)) (h2 : M ≤ 2 ^ 100)
    {d : ℚ} (hd : val (EuclideanDis p q) = .fin d) : 0 ≤ d := by
  obtain ⟨a, ha, _⟩ := sqdiff_near hp.1 hq.1 bx.1 by'.1 h2
  obtain ⟨b, hb, _⟩ := sqdiff_near hp.2 hq.2 bx.2 by'.2 h2
  have ha0 := sq_val_nonneg _ ha
  have hb0 := sq_val_nonneg _ hb
  cases hv : val ((p.X - q.X) * (p.X - q.X) + (p.Y - q.Y) * (p.Y - q.Y)) with
  | fin v => exact sqrt_val_nonneg hv (add_val_nonneg hv ha hb ha0 hb0) hd
  | nan =>
    have h := rnd_nn (F := Float) (.fin (a + b)) (by simp)
    rw [val_add, ha, hb] at hv
    exact absurd hv h
  | pinf =>
    obtain ⟨v, hv', _⟩ := (sqdiff_near hp.1 hq.1 bx.1 by'.1 h2).add (sqdiff_near hp.2 hq.2 bx.2 by'.2 h2) le_rfl (by
      have hQ : ∀ u v : ℝ, |u| ≤ M → |v| ≤ M → (u - v) ^ 2 ≤ 2 ^ 202 := by
        intro u v hu hv
        rw [← sq_abs]
        calc |u - v| ^ 2 ≤ (2 * 2 ^ 100) ^ 2 := pow_le_pow_left₀ (abs_nonneg _) ((abs_sub u v).trans (by linarith)) 2
          _ = 2 ^ 202 := by norm_num
      have q1 := hQ _ _ bx.1 by'.1
      have q2 := hQ _ _ bx.2 by'.2
      unfold real at q1 q2
      simp only at q1 q2
      have p1 : (0 : ℝ) ≤ ((x.1 : ℝ) - y.1) ^ 2 := sq_nonneg _
      have p2 : (0 : ℝ) ≤ ((x.2 : ℝ) - y.2) ^ 2 := sq_nonneg _
      rw [abs_of_nonneg (add_nonneg p1 p2)]
      norm_num at q1 q2 ⊢
      linarith)
    rw [hv] at hv'; cases hv'
  | ninf =>
    have h := zero_le_rnd (F := Float) (x := .fin (a + b)) (by simp only [XR.le, decide_eq_true_eq]; exact add_nonneg ha0 hb0)
    rw [val_add, ha, hb] at hv
    have hv' : rnd Float (.fin (a + b)) = .ninf := hv
    rw [hv'] at h
    simp [XR.le] at h

end GoGeo
