import Verif.Props.RoundingDist

/-!
# The foot of the perpendicular in float64: C123
-/

namespace GoGeo
open GoFloat FloatVal Spec

theorem footLine_coord {f g u : Float} {y z w : ℚ} {M L : ℝ} (hf : val f = .fin y) (hg : val g = .fin z) (hu : val u = .fin w) (by' : |(y : ℝ)| ≤ M) (bz : |(z : ℝ)| ≤ M)
    (hw : |(w : ℝ)| * L ≤ 301 / 100 * M) (hl : |(z : ℝ) - y| ≤ L) (hL : 1 / 2 ^ 40 ≤ L) (h1 : 1 ≤ M) (h2 : M ≤ 2 ^ 97) :
    NearR (f + u * (g - f)) ((y : ℝ) + w * (z - y)) (12 * M / 2 ^ 53) := by
  have hL0 : 0 < L := lt_of_lt_of_le (by positivity) hL
  have hL2 : L ≤ L * L * 2 ^ 40 := by
    have := mul_le_mul_of_nonneg_left hL hL0.le
    norm_num at this ⊢
    linarith
  have ex : NearR (g - f) ((z : ℝ) - y) (1001 / 1000 * L / 2 ^ 53) :=
    (vdiff hg hf bz by' (by norm_num at h2 ⊢; linarith)).mono (by norm_num at hL ⊢; linarith)
  have hp : |(w : ℝ) * (z - y)| ≤ 301 / 100 * M := by
    rw [abs_mul]
    exact (mul_le_mul_of_nonneg_left hl (abs_nonneg _)).trans hw
  have m := ((NearR.of_val hu).mul ex (X := |(w : ℝ)|) (Y := L) le_rfl hl (B := 302 / 100 * M) (by
      have : |(w : ℝ)| * (1001 / 1000 * L / 2 ^ 53) = (|(w : ℝ)| * L) * (1001 / 1000 / 2 ^ 53) := by ring
      rw [this]
      generalize |(w : ℝ)| * L = W at *
      norm_num at h1 hw ⊢
      linarith)
    (by norm_num at h2 ⊢; linarith)).mono (e' := 61 / 10 * M / 2 ^ 53) (by
      have : |(w : ℝ)| * (1001 / 1000 * L / 2 ^ 53) = (|(w : ℝ)| * L) * (1001 / 1000 / 2 ^ 53) := by ring
      rw [this]
      generalize |(w : ℝ)| * L = W at *
      norm_num at h1 hw ⊢
      linarith)
  have hc : |(y : ℝ) + w * (z - y)| ≤ 401 / 100 * M := (abs_add_le _ _).trans (by linarith)
  refine ((NearR.of_val hf).add m (B := 402 / 100 * M) (by norm_num at h1 ⊢; linarith) (by norm_num at h2 ⊢; linarith)).mono ?_
  norm_num at h1 ⊢
  linarith

/-- **C123.** For finite coordinates up to `M` (`1 ≤ M ≤ 2^97`) and `a`, `b` at least 2^-40 apart, `PointToLineDistance` in float64
returns a point within `M/2^46` of the foot `q` of the perpendicular on the line through `a` and `b`, the distance up to `M/2^46`, and the
parameter of `q` (0 at `a`, 1 at `b`) up to `M/2^47` divided by the distance of `a` and `b`. -/
theorem C123_toLine {p a b : Point Float} {x y z : ℚ × ℚ} {M : ℚ} (hp : At p x) (ha : At a y) (hb : At b z) (bx : Within M x) (by' : Within M y) (bz : Within M z)
    (h1 : 1 ≤ M) (h2 : M ≤ 2 ^ 97) (hL : 1 / 2 ^ 40 ≤ eucl (real y) (real z)) (srid : Int) (hs : srid ≠ 4326) :
    ∃ (q : ℝ × ℝ) (t : ℝ) (c : ℚ × ℚ) (d u : ℚ), q = along (real y) (real z) t ∧ (∀ s, eucl (real x) q ≤ eucl (real x) (along (real y) (real z) s)) ∧
      At (PointToLineDistance p a b srid).2.1 c ∧ eucl (real c) q ≤ M / 2 ^ 46 ∧
      val (PointToLineDistance p a b srid).1 = .fin d ∧ |(d : ℝ) - eucl (real x) q| ≤ M / 2 ^ 46 ∧
      val (PointToLineDistance p a b srid).2.2 = .fin u ∧ |(u : ℝ) - t| ≤ M / eucl (real y) (real z) / 2 ^ 47 := by
  have h1' : (1 : ℝ) ≤ M := by exact_mod_cast h1
  have h2' : (M : ℝ) ≤ 2 ^ 97 := cast_two_pow h2
  have bx := within_real bx
  have by' := within_real by'
  have bz := within_real bz
  generalize hMR : (M : ℝ) = N at *
  have hL0 : 0 < eucl (real y) (real z) := lt_of_lt_of_le (by positivity) hL
  have hne : real y ≠ real z := by
    intro h
    rw [eucl_eq_zero.2 h] at hL0
    exact lt_irrefl _ hL0
  obtain ⟨w, hw, hwe⟩ := footFactor_near hp ha hb bx by' bz h1' (by norm_num at h2' ⊢; linarith) hL
  obtain ⟨q, t, hq, hqt, hperp, hleast⟩ := C72_toLine (real x) (real y) (real z) hne srid hs
  have htu : t = ufac (real x) (real y) (real z) := by
    unfold PointToLineDistance at hq
    rw [footFactor_fin _ _ _ hne] at hq
    have := (Prod.ext_iff.1 (Prod.ext_iff.1 hq).2).2
    simp only at this
    injection this with this
    exact this.symm
  rw [← htu] at hwe
  -- the foot is no farther from `a` than `p`
  have hqa : eucl (real y) q ≤ eucl (real x) (real y) := by
    unfold eucl
    apply Real.sqrt_le_sqrt
    have e1 : q.1 - (real y).1 = t * ((real z).1 - (real y).1) := by rw [hqt]; simp [along]
    have e2 : q.2 - (real y).2 = t * ((real z).2 - (real y).2) := by rw [hqt]; simp [along]
    have e3 : ((real x).1 - q.1) * (q.1 - (real y).1) + ((real x).2 - q.2) * (q.2 - (real y).2) = 0 := by
      rw [e1, e2]
      linear_combination t * hperp
    nlinarith [sq_nonneg ((real x).1 - q.1), sq_nonneg ((real x).2 - q.2)]
  have hT : |t| * eucl (real y) (real z) ≤ 3 * N := by
    have e : eucl (along (real y) (real z) t) (along (real y) (real z) 0) = |t| * eucl (real y) (real z) := by rw [eucl_along, sub_zero]
    have e0 : along (real y) (real z) 0 = real y := by simp [along]
    rw [← e, e0, ← hqt, eucl_comm]
    exact hqa.trans (eucl_le_three bx by')
  have hW : |(w : ℝ)| * eucl (real y) (real z) ≤ 301 / 100 * N := by
    have : |(w : ℝ)| ≤ |t| + 49 * (N / eucl (real y) (real z)) / 2 ^ 53 := by
      have := abs_add_le ((w : ℝ) - t) t
      rw [sub_add_cancel] at this
      linarith
    have h := mul_le_mul_of_nonneg_right this hL0.le
    have e : (|t| + 49 * (N / eucl (real y) (real z)) / 2 ^ 53) * eucl (real y) (real z) = |t| * eucl (real y) (real z) + 49 * N / 2 ^ 53 := by field_simp
    rw [e] at h
    norm_num at h ⊢
    linarith
  obtain ⟨l1, l2⟩ := abs_le_eucl (real y) (real z)
  obtain ⟨v1, e1, k1⟩ := footLine_coord ha.1 hb.1 hw by'.1 bz.1 hW l1 hL h1' h2'
  obtain ⟨v2, e2, k2⟩ := footLine_coord ha.2 hb.2 hw by'.2 bz.2 hW l2 hL h1' h2'
  have hdist : eucl (along (real y) (real z) w) q ≤ 49 * N / 2 ^ 53 := by
    rw [hqt, eucl_along]
    calc _ ≤ 49 * (N / eucl (real y) (real z)) / 2 ^ 53 * eucl (real y) (real z) := mul_le_mul_of_nonneg_right hwe hL0.le
      _ = _ := by field_simp
  have hcd : eucl (real (v1, v2)) (along (real y) (real z) w) ≤ 24 * N / 2 ^ 53 := by
    refine (eucl_le_abs _ _).trans ?_
    have k1' : |(real (v1, v2)).1 - (along (real y) (real z) w).1| ≤ 12 * N / 2 ^ 53 := k1
    have k2' : |(real (v1, v2)).2 - (along (real y) (real z) w).2| ≤ 12 * N / 2 ^ 53 := k2
    norm_num at k1' k2' ⊢
    linarith
  have hcq := eucl_triangle (real (v1, v2)) (along (real y) (real z) w) q
  have hc : At (PointToLineDistance p a b srid).2.1 (v1, v2) := ⟨e1, e2⟩
  have hxq : eucl (real x) q ≤ 3 * N := by
    have := hleast 0
    have e0 : along (real y) (real z) 0 = real y := by simp [along]
    rw [e0] at this
    exact this.trans (eucl_le_three bx by')
  have bc : Within (5 * N) (real (v1, v2)) := by
    have m : ∀ r s : ℝ, |r| ≤ N → |s - r| ≤ eucl (real y) (real z) → |r + w * (s - r)| ≤ 402 / 100 * N := by
      intro r s hr hs
      have : |(w : ℝ) * (s - r)| ≤ 301 / 100 * N := by rw [abs_mul]; exact (mul_le_mul_of_nonneg_left hs (abs_nonneg _)).trans hW
      exact (abs_add_le _ _).trans (by linarith)
    have m1 := m _ _ by'.1 l1
    have m2 := m _ _ by'.2 l2
    constructor
    · have := abs_add_le ((v1 : ℝ) - (y.1 + w * (z.1 - y.1))) (y.1 + w * (z.1 - y.1))
      rw [sub_add_cancel] at this
      have m1 : |(y.1 : ℝ) + w * (z.1 - y.1)| ≤ 402 / 100 * N := m1
      show |(v1 : ℝ)| ≤ _
      norm_num at k1 ⊢
      linarith
    · have := abs_add_le ((v2 : ℝ) - (y.2 + w * (z.2 - y.2))) (y.2 + w * (z.2 - y.2))
      rw [sub_add_cancel] at this
      have m2 : |(y.2 : ℝ) + w * (z.2 - y.2)| ≤ 402 / 100 * N := m2
      show |(v2 : ℝ)| ≤ _
      norm_num at k2 ⊢
      linarith
  have bx' : Within (5 * N) (real x) := ⟨bx.1.trans (by linarith), bx.2.trans (by linarith)⟩
  obtain ⟨d, hd, hde⟩ : NearR (PointToLineDistance p a b srid).1 (eucl (real x) (real (v1, v2))) (eucl (real x) (real (v1, v2)) / 2 ^ 49 + 1 / 2 ^ 120) := by
    have e : (PointToLineDistance p a b srid).1 = EuclideanDis p (PointToLineDistance p a b srid).2.1 := by
      show PointDistance p _ srid = _
      unfold PointDistance; rw [if_neg hs]; rfl
    rw [e]; exact euclid_near hp hc bx' bc (by norm_num at h2' ⊢; linarith)
  have t1 := eucl_triangle (real x) q (real (v1, v2))
  have t2 := eucl_triangle (real x) (real (v1, v2)) q
  rw [eucl_comm q (real (v1, v2))] at t1
  refine ⟨q, t, (v1, v2), d, w, hqt, hleast, hc, ?_, hd, ?_, hw, ?_⟩
  · norm_num at hdist hcd ⊢
    linarith
  · have := abs_le.1 hde
    rw [abs_le]
    norm_num at hdist hcd this ⊢
    constructor <;> linarith
  · refine hwe.trans ?_
    have : 0 ≤ N / eucl (real y) (real z) := by positivity
    norm_num at this ⊢
    linarith

/-- the foot of (1, 1) on the line through (0, 0) and (4, 2) -/
example : ∃ (q : ℝ × ℝ) (d : ℚ), (∀ s, eucl (real (1, 1)) q ≤ eucl (real (1, 1)) (along (real (0, 0)) (real (4, 2)) s)) ∧
    val (PointToLineDistance (fpt 1 1) (fpt 0 0) (fpt 4 2) 3857).1 = .fin d ∧ |(d : ℝ) - eucl (real (1, 1)) q| ≤ 1 / 10 ^ 12 := by
  obtain ⟨q, t, c, d, u, -, h, -, -, hd, he, -⟩ := C123_toLine (M := 4) (x := (1, 1)) (y := (0, 0)) (z := (4, 2))
    (fpt_at' (x := 1) (y := 1) (by norm_num) (by norm_num) (by norm_num) (by norm_num))
    (fpt_at' (x := 0) (y := 0) (by norm_num) (by norm_num) (by norm_num) (by norm_num))
    (fpt_at' (x := 4) (y := 2) (by norm_num) (by norm_num) (by norm_num) (by norm_num))
    (by norm_num [Within]) (by norm_num [Within]) (by norm_num [Within]) (by norm_num) (by norm_num) (long_of_apart (by norm_num)) 3857 (by decide)
  exact ⟨q, d, h, hd, he.trans (by norm_num)⟩

end GoGeo
