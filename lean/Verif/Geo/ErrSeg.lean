import Verif.Geo.ErrDist

/-!
# Rounding errors of the distance to a segment
-/

namespace GoGeo
open GoFloat FloatVal Spec

theorem abs_le_eucl (a b : ℝ × ℝ) : |b.1 - a.1| ≤ eucl a b ∧ |b.2 - a.2| ≤ eucl a b := by
  unfold eucl
  constructor <;> refine Real.abs_le_sqrt ?_ <;> nlinarith [sq_nonneg (a.1 - b.1), sq_nonneg (a.2 - b.2)]

theorem eucl_sq (a b : ℝ × ℝ) : eucl a b * eucl a b = (b.1 - a.1) * (b.1 - a.1) + (b.2 - a.2) * (b.2 - a.2) := by
  unfold eucl
  rw [Real.mul_self_sqrt (by positivity)]; ring

theorem eucl_le_three {M : ℝ} {a b : ℝ × ℝ} (ha : Within M a) (hb : Within M b) : eucl a b ≤ 3 * M := by
  have hM : 0 ≤ M := (abs_nonneg _).trans ha.1
  unfold eucl
  rw [Real.sqrt_le_left (by linarith)]
  have h1 : |a.1 - b.1| ≤ 2 * M := (abs_sub _ _).trans (by linarith [ha.1, hb.1])
  have h2 : |a.2 - b.2| ≤ 2 * M := (abs_sub _ _).trans (by linarith [ha.2, hb.2])
  have h3 := pow_le_pow_left₀ (abs_nonneg _) h1 2
  have h4 := pow_le_pow_left₀ (abs_nonneg _) h2 2
  rw [sq_abs] at h3 h4
  nlinarith

theorem footFactor_near {p a b : Point Float} {x y z : ℚ × ℚ} {M : ℝ} (hp : At p x) (ha : At a y) (hb : At b z) (bx : Within M (real x))
    (by' : Within M (real y)) (bz : Within M (real z)) (h1 : 1 ≤ M) (h2 : M ≤ 2 ^ 100) (hL : 1 / 2 ^ 40 ≤ eucl (real y) (real z)) :
    NearR (footFactor p a b) (ufac (real x) (real y) (real z)) (49 * (M / eucl (real y) (real z)) / 2 ^ 53) := by
  have hsq := eucl_sq (real y) (real z)
  have hL3 := eucl_le_three by' bz
  obtain ⟨l1, l2⟩ := abs_le_eucl (real y) (real z)
  unfold ufac footFactor
  rw [← hsq]
  obtain ⟨L, hLd⟩ : ∃ L, L = eucl (real y) (real z) := ⟨_, rfl⟩
  rw [← hLd] at hsq hL3 l1 l2 hL ⊢
  have hL0 : 0 < L := lt_of_lt_of_le (by positivity) hL
  have c : ∀ u v : ℝ, |u| ≤ M → |v| ≤ M → |u - v| ≤ 2 * M := fun u v hu hv => (abs_sub u v).trans (by linarith)
  have P1 : M * L ≤ 2 ^ 202 := by
    calc M * L ≤ 2 ^ 100 * (2 ^ 102) := mul_le_mul h2 (by norm_num at h2 ⊢; linarith) hL0.le (by positivity)
      _ = _ := by norm_num
  have P2 : 1 / 2 ^ 40 ≤ M * L := by nlinarith
  have S1 : L * L ≤ 2 ^ 204 := by
    calc L * L ≤ 2 ^ 102 * (2 ^ 102) := mul_le_mul (by norm_num at h2 ⊢; linarith) (by norm_num at h2 ⊢; linarith) hL0.le (by positivity)
      _ = _ := by norm_num
  have S2 : 1 / 2 ^ 80 ≤ L * L := by
    calc (1 : ℝ) / 2 ^ 80 = (1 / 2 ^ 40) * (1 / 2 ^ 40) := by norm_num
      _ ≤ L * L := mul_le_mul hL hL (by positivity) hL0.le
  -- the differences
  have dx : NearR (p.X - a.X) ((real x).1 - (real y).1) (2001 / 1000 * M / 2 ^ 53) :=
    (vdiff hp.1 ha.1 bx.1 by'.1 h2).mono (by have := c _ _ bx.1 by'.1; unfold real at this; norm_num at this ⊢; linarith)
  have dy : NearR (p.Y - a.Y) ((real x).2 - (real y).2) (2001 / 1000 * M / 2 ^ 53) :=
    (vdiff hp.2 ha.2 bx.2 by'.2 h2).mono (by have := c _ _ bx.2 by'.2; unfold real at this; norm_num at this ⊢; linarith)
  have ex : NearR (b.X - a.X) ((real z).1 - (real y).1) (1001 / 1000 * L / 2 ^ 53) :=
    (vdiff hb.1 ha.1 bz.1 by'.1 h2).mono (by have := l1; unfold real at this; norm_num at this hL ⊢; linarith)
  have ey : NearR (b.Y - a.Y) ((real z).2 - (real y).2) (1001 / 1000 * L / 2 ^ 53) :=
    (vdiff hb.2 ha.2 bz.2 by'.2 h2).mono (by have := l2; unfold real at this; norm_num at this hL ⊢; linarith)
  -- the numerator
  have hp1 : 2 * M * (1001 / 1000 * L / 2 ^ 53) + L * (2001 / 1000 * M / 2 ^ 53) + 2001 / 1000 * M / 2 ^ 53 * (1001 / 1000 * L / 2 ^ 53) ≤ 4004 / 1000 * (M * L) / 2 ^ 53 := by
    have e : 2 * M * (1001 / 1000 * L / 2 ^ 53) + L * (2001 / 1000 * M / 2 ^ 53) + 2001 / 1000 * M / 2 ^ 53 * (1001 / 1000 * L / 2 ^ 53) =
      (4003 / 1000 / 2 ^ 53 + 2001 / 1000 * (1001 / 1000) / 2 ^ 106) * (M * L) := by ring
    rw [e]
    norm_num at P2 ⊢
    linarith
  have np : ∀ {f g : Float} {u v : ℝ}, NearR f u (2001 / 1000 * M / 2 ^ 53) → NearR g v (1001 / 1000 * L / 2 ^ 53) → |u| ≤ 2 * M → |v| ≤ L →
      NearR (f * g) (u * v) (601 / 100 * (M * L) / 2 ^ 53) := by
    intro f g u v hf hg hu hv
    have h := hf.mul hg hu hv (B := 2001 / 1000 * (M * L)) (by
      rw [show 2 * M * L = 2 * (M * L) by ring]
      generalize M * L = P at *
      norm_num at hp1 P2 ⊢
      linarith) (by generalize M * L = P at *; norm_num at P1 ⊢; linarith)
    refine h.mono ?_
    generalize M * L = P at *
    norm_num at hp1 P2 ⊢
    linarith
  have n1 := np dx ex (c _ _ bx.1 by'.1) l1
  have n2 := np dy ey (c _ _ bx.2 by'.2) l2
  have hb1 : ∀ u v : ℝ, |u| ≤ 2 * M → |v| ≤ L → |u * v| ≤ 2 * (M * L) := by
    intro u v hu hv
    rw [abs_mul, ← mul_assoc]
    exact mul_le_mul hu hv (abs_nonneg _) (by linarith)
  have hN : |((real x).1 - (real y).1) * ((real z).1 - (real y).1) + ((real x).2 - (real y).2) * ((real z).2 - (real y).2)| ≤ 4 * (M * L) := by
    refine (abs_add_le _ _).trans ?_
    have := hb1 _ _ (c _ _ bx.1 by'.1) l1
    have := hb1 _ _ (c _ _ bx.2 by'.2) l2
    linarith
  have n := (n1.add n2 (B := 4001 / 1000 * (M * L)) (by
      generalize M * L = P at *
      norm_num at P2 ⊢
      linarith) (by generalize M * L = P at *; norm_num at P1 ⊢; linarith)).mono (e' := 161 / 10 * (M * L) / 2 ^ 53) (by
      generalize M * L = P at *
      norm_num at P2 ⊢
      linarith)
  -- the denominator
  have hp2 : L * (1001 / 1000 * L / 2 ^ 53) + L * (1001 / 1000 * L / 2 ^ 53) + 1001 / 1000 * L / 2 ^ 53 * (1001 / 1000 * L / 2 ^ 53) ≤ 2003 / 1000 * (L * L) / 2 ^ 53 := by
    have e : L * (1001 / 1000 * L / 2 ^ 53) + L * (1001 / 1000 * L / 2 ^ 53) + 1001 / 1000 * L / 2 ^ 53 * (1001 / 1000 * L / 2 ^ 53) =
      (2002 / 1000 / 2 ^ 53 + 1001 / 1000 * (1001 / 1000) / 2 ^ 106) * (L * L) := by ring
    rw [e]
    norm_num at S2 ⊢
    linarith
  have dp : ∀ {f : Float} {v : ℝ}, NearR f v (1001 / 1000 * L / 2 ^ 53) → |v| ≤ L → NearR (f * f) (v * v) (301 / 100 * (L * L) / 2 ^ 53) := by
    intro f v hf hv
    have h := hf.mul hf hv hv (B := 1001 / 1000 * (L * L)) (by
      generalize L * L = P at *
      norm_num at hp2 S2 ⊢
      linarith) (by generalize L * L = P at *; norm_num at S1 ⊢; linarith)
    refine h.mono ?_
    generalize L * L = P at *
    norm_num at hp2 S2 ⊢
    linarith
  have d1 := dp ex l1
  have d2 := dp ey l2
  have d := d1.add d2 (B := 1001 / 1000 * (L * L)) (by
      rw [← hsq, abs_of_pos (mul_pos hL0 hL0)]
      generalize L * L = P at *
      norm_num at S2 ⊢
      linarith) (by generalize L * L = P at *; norm_num at S1 ⊢; linarith)
  rw [← hsq] at d
  have d := d.mono (e' := 71 / 10 * (L * L) / 2 ^ 53) (by
      generalize L * L = P at *
      norm_num at S2 ⊢
      linarith)
  -- the quotient
  have hLL : 0 < L * L := mul_pos hL0 hL0
  have hR : |((real x).1 - (real y).1) * ((real z).1 - (real y).1) + ((real x).2 - (real y).2) * ((real z).2 - (real y).2)| / (L * L) ≤ 4 * (M / L) := by
    rw [div_le_iff₀ hLL]
    refine hN.trans (le_of_eq ?_)
    field_simp
  have R1 : 1 / 3 ≤ M / L := by rw [div_le_div_iff₀ (by norm_num) hL0]; linarith
  have R2 : M / L ≤ 2 ^ 140 := by
    rw [div_le_iff₀ hL0]
    calc M ≤ 2 ^ 140 * (1 / 2 ^ 40) := by norm_num at h2 ⊢; linarith
      _ ≤ 2 ^ 140 * L := mul_le_mul_of_nonneg_left hL (by positivity)
  have q := n.div d (E := 446 / 10 * (M / L) / 2 ^ 53) (B := 4001 / 1000 * (M / L)) (by
      generalize L * L = P at *
      norm_num
      linarith) (by
      rw [div_le_iff₀ (by generalize L * L = P at *; norm_num; linarith)]
      have k1 := mul_le_mul_of_nonneg_right hR (by positivity : 0 ≤ 71 / 10 * (L * L) / 2 ^ 53)
      have k2 : 4 * (M / L) * (71 / 10 * (L * L) / 2 ^ 53) = 284 / 10 * (M * L) / 2 ^ 53 := by field_simp; ring
      rw [k2] at k1
      have k3 : 446 / 10 * (M / L) / 2 ^ 53 * (L * L - 71 / 10 * (L * L) / 2 ^ 53) = (446 / 10 / 2 ^ 53 * (1 - 71 / 10 / 2 ^ 53)) * (M * L) := by field_simp
      rw [k3]
      generalize M * L = P at *
      norm_num at k1 P2 ⊢
      linarith) (by norm_num; linarith) (by norm_num at R2 ⊢; linarith)
  refine q.mono ?_
  norm_num at R1 ⊢
  linarith

theorem convex_bound {u v t M : ℝ} (hu : |u| ≤ M) (hv : |v| ≤ M) (h0 : 0 ≤ t) (h1 : t ≤ 1) : |u + t * (v - u)| ≤ M := by
  have e : u + t * (v - u) = (1 - t) * u + t * v := by ring
  rw [e]
  refine (abs_add_le _ _).trans ?_
  rw [abs_mul, abs_mul, abs_of_nonneg h0, abs_of_nonneg (sub_nonneg.2 h1)]
  nlinarith

theorem eucl_le_abs (a b : ℝ × ℝ) : eucl a b ≤ |a.1 - b.1| + |a.2 - b.2| := by
  unfold eucl
  rw [Real.sqrt_le_left (by positivity)]
  have h1 := abs_nonneg (a.1 - b.1)
  have h2 := abs_nonneg (a.2 - b.2)
  nlinarith [sq_abs (a.1 - b.1), sq_abs (a.2 - b.2), mul_nonneg h1 h2]

theorem eucl_along (a b : ℝ × ℝ) (s t : ℝ) : eucl (along a b s) (along a b t) = |s - t| * eucl a b := by
  unfold eucl along
  simp only
  rw [← Real.sqrt_sq_eq_abs, ← Real.sqrt_mul (sq_nonneg _)]
  congr 1; ring

theorem foot_coord {f g u : Float} {y z w : ℚ} {M L : ℝ} (hf : val f = .fin y) (hg : val g = .fin z) (hu : val u = .fin w) (by' : |(y : ℝ)| ≤ M) (bz : |(z : ℝ)| ≤ M)
    (hw0 : 0 ≤ (w : ℝ)) (hw1 : (w : ℝ) ≤ 1) (hl : |(z : ℝ) - y| ≤ L) (hL : 1 / 2 ^ 40 ≤ L) (hL3 : L ≤ 3 * M) (h1 : 1 ≤ M) (h2 : M ≤ 2 ^ 99) :
    NearR (f + u * (g - f)) ((y : ℝ) + w * (z - y)) (71 / 10 * M / 2 ^ 53) := by
  have ex : NearR (g - f) ((z : ℝ) - y) (1001 / 1000 * L / 2 ^ 53) :=
    (vdiff hg hf bz by' (by norm_num at h2 ⊢; linarith)).mono (by norm_num at hL ⊢; linarith)
  have m := ((NearR.of_val hu).mul ex (X := 1) (Y := L) (by rw [abs_of_nonneg hw0]; exact hw1) hl (B := 1001 / 1000 * L) (by norm_num at hL ⊢; linarith)
    (by norm_num at h2 ⊢; linarith)).mono (e' := 201 / 100 * L / 2 ^ 53) (by norm_num at hL ⊢; linarith)
  have hc := convex_bound by' bz hw0 hw1
  refine ((NearR.of_val hf).add m (B := 1001 / 1000 * M) (by norm_num at hL ⊢; linarith) (by norm_num at h2 ⊢; linarith)).mono ?_
  norm_num
  linarith

theorem val_lit1 : val (lit 1 : Float) = .fin (1 : ℚ) := by
  have := rnd_rep (F := Float) 1 0 (by norm_num) (by norm_num)
  simp only [pow_zero, mul_one] at this
  rw [lit, val_dec, pow_zero, div_one, this]; norm_num

noncomputable def clamp (u : ℝ) : ℝ := if u < 0 then 0 else if 1 < u then 1 else u

theorem clamp_lip (u v : ℝ) : |clamp u - clamp v| ≤ |u - v| := by
  unfold clamp
  rcases abs_cases (u - v) with ⟨h, _⟩ | ⟨h, _⟩ <;> rw [h, abs_le] <;> split_ifs <;> constructor <;> linarith

theorem toSegment_near {p a b : Point Float} {x y z : ℚ × ℚ} {M : ℝ} (hp : At p x) (ha : At a y) (hb : At b z) (bx : Within M (real x))
    (by' : Within M (real y)) (bz : Within M (real z)) (h1 : 1 ≤ M) (h2 : M ≤ 2 ^ 99) (hL : 1 / 2 ^ 40 ≤ eucl (real y) (real z)) {srid : Int} (hs : srid ≠ 4326) :
    ∃ c : ℚ × ℚ, At (PointToSegmentDistance p a b srid).2 c ∧
      eucl (real c) (along (real y) (real z) (clampU (real x) (real y) (real z))) ≤ M / 2 ^ 46 ∧
      NearR (PointToSegmentDistance p a b srid).1 (eucl (real x) (along (real y) (real z) (clampU (real x) (real y) (real z)))) (M / 2 ^ 46) := by
  have hu := footFactor_near hp ha hb bx by' bz h1 (by norm_num at h2 ⊢; linarith) hL
  have hL3 := eucl_le_three by' bz
  obtain ⟨l1, l2⟩ := abs_le_eucl (real y) (real z)
  have hL0 : 0 < eucl (real y) (real z) := lt_of_lt_of_le (by positivity) hL
  obtain ⟨w, hw, hwe⟩ := hu
  have hcl : clampU (real x) (real y) (real z) = clamp (ufac (real x) (real y) (real z)) := rfl
  have hdist : eucl (along (real y) (real z) (clamp w)) (along (real y) (real z) (clampU (real x) (real y) (real z))) ≤ 49 * M / 2 ^ 53 := by
    rw [eucl_along, hcl]
    calc _ ≤ 49 * (M / eucl (real y) (real z)) / 2 ^ 53 * eucl (real y) (real z) :=
          mul_le_mul_of_nonneg_right ((clamp_lip _ _).trans hwe) hL0.le
      _ = _ := by field_simp
  have key : ∃ c : ℚ × ℚ, At (PointToSegmentDistance p a b srid).2 c ∧ |(c.1 : ℝ) - (along (real y) (real z) (clamp w)).1| ≤ 71 / 10 * M / 2 ^ 53 ∧
      |(c.2 : ℝ) - (along (real y) (real z) (clamp w)).2| ≤ 71 / 10 * M / 2 ^ 53 := by
    have vl : ∀ a b : Float, lt a b = XR.lt (val a) (val b) := val_lt
    have l0 : lt (footFactor p a b) (lit 0) = decide (w < 0) := by rw [vl, hw, val_lit0]; rfl
    have l1' : gt (footFactor p a b) (lit 1) = decide (1 < w) := by unfold GoFloat.gt; rw [vl, hw, val_lit1]; rfl
    have hM0 : 0 ≤ 71 / 10 * M / 2 ^ 53 := by positivity
    unfold PointToSegmentDistance
    simp only [l0, l1']
    by_cases c1 : w < 0
    · have c1' : (w : ℝ) < 0 := by exact_mod_cast c1
      refine ⟨y, by simpa [c1] using ha, ?_, ?_⟩ <;> simp [clamp, c1', along, real] <;> exact hM0
    · by_cases c2 : 1 < w
      · have c1' : ¬ (w : ℝ) < 0 := by exact_mod_cast c1
        have c2' : (1 : ℝ) < w := by exact_mod_cast c2
        refine ⟨z, by simpa [c1, c2] using hb, ?_, ?_⟩ <;> simp [clamp, c1', c2', along, real] <;> exact hM0
      · have c1' : ¬ (w : ℝ) < 0 := by exact_mod_cast c1
        have c2' : ¬ (1 : ℝ) < w := by exact_mod_cast c2
        obtain ⟨v1, e1, k1⟩ := foot_coord ha.1 hb.1 hw by'.1 bz.1 (not_lt.1 c1') (not_lt.1 c2') l1 hL hL3 h1 h2
        obtain ⟨v2, e2, k2⟩ := foot_coord ha.2 hb.2 hw by'.2 bz.2 (not_lt.1 c1') (not_lt.1 c2') l2 hL hL3 h1 h2
        refine ⟨(v1, v2), by simpa [c1, c2] using ⟨e1, e2⟩, ?_, ?_⟩
        · simpa [clamp, c1', c2', along, real] using k1
        · simpa [clamp, c1', c2', along, real] using k2
  obtain ⟨c, hc, k1, k2⟩ := key
  have hcd : eucl (real c) (along (real y) (real z) (clamp w)) ≤ 142 / 10 * M / 2 ^ 53 := by
    refine (eucl_le_abs _ _).trans ?_
    have k1' : |(real c).1 - (along (real y) (real z) (clamp w)).1| ≤ 71 / 10 * M / 2 ^ 53 := k1
    have k2' : |(real c).2 - (along (real y) (real z) (clamp w)).2| ≤ 71 / 10 * M / 2 ^ 53 := k2
    norm_num at k1' k2' ⊢
    linarith
  have hct := eucl_triangle (real c) (along (real y) (real z) (clamp w)) (along (real y) (real z) (clampU (real x) (real y) (real z)))
  have hcm : 0 ≤ clamp w ∧ clamp w ≤ 1 := by
    unfold clamp; split_ifs <;> constructor <;> linarith
  have bc : Within (1001 / 1000 * M) (real c) := by
    have m1 := convex_bound by'.1 bz.1 hcm.1 hcm.2
    have m2 := convex_bound by'.2 bz.2 hcm.1 hcm.2
    have a1 : |(real c).1| ≤ |(c.1 : ℝ) - (along (real y) (real z) (clamp w)).1| + |(along (real y) (real z) (clamp w)).1| := by
      simpa [real] using abs_add_le ((c.1 : ℝ) - (along (real y) (real z) (clamp w)).1) (along (real y) (real z) (clamp w)).1
    have a2 : |(real c).2| ≤ |(c.2 : ℝ) - (along (real y) (real z) (clamp w)).2| + |(along (real y) (real z) (clamp w)).2| := by
      simpa [real] using abs_add_le ((c.2 : ℝ) - (along (real y) (real z) (clamp w)).2) (along (real y) (real z) (clamp w)).2
    unfold along at a1 a2 k1 k2
    constructor
    · norm_num at k1 ⊢; linarith
    · norm_num at k2 ⊢; linarith
  have bx' : Within (1001 / 1000 * M) (real x) := ⟨bx.1.trans (by linarith), bx.2.trans (by linarith)⟩
  refine ⟨c, hc, ?_, ?_⟩
  · norm_num at hdist hcd ⊢
    linarith
  · have hd := euclid_near hp hc bx' bc (by norm_num at h2 ⊢; linarith)
    have hd' : NearR (PointToSegmentDistance p a b srid).1 (eucl (real x) (real c)) (eucl (real x) (real c) / 2 ^ 49 + 1 / 2 ^ 120) := by
      have e : (PointToSegmentDistance p a b srid).1 = EuclideanDis p (PointToSegmentDistance p a b srid).2 := by
        show PointDistance p _ srid = _
        unfold PointDistance; rw [if_neg hs]; rfl
      rw [e]; exact hd
    have h3 := eucl_le_three bx' bc
    have t1 := eucl_triangle (real x) (along (real y) (real z) (clampU (real x) (real y) (real z))) (real c)
    have t2 := eucl_triangle (real x) (real c) (along (real y) (real z) (clampU (real x) (real y) (real z)))
    rw [eucl_comm (along (real y) (real z) (clampU (real x) (real y) (real z))) (real c)] at t1
    refine (hd'.shift (y := eucl (real x) (along (real y) (real z) (clampU (real x) (real y) (real z)))) (d := 64 * M / 2 ^ 53) ?_).mono ?_
    · rw [abs_le]
      norm_num at hdist hcd ⊢
      constructor <;> linarith
    · norm_num at h3 ⊢
      linarith

end GoGeo
