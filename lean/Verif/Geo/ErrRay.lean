import Verif.Geo.ErrLemmas
import Verif.Geo.RelationLemmas

/-!
# Rounding errors of the ray test of `IsPointInPolygon`
-/

set_option linter.unusedSectionVars false

namespace GoGeo
open GoFloat FloatVal Spec

section
variable {F K : Type} [GoFloat F] [Field K] [LinearOrder K] [IsStrictOrderedRing K] [FloatVal F K]

theorem fdcmp_pos {f : F} {x e : K} (hf : val f = .fin x) (hc : val (COORDPRESION : F) = .fin e) (he : 0 < e) : dcmp f > 0 ↔ e ≤ x := by
  have vl : ∀ a b : F, lt a b = XR.lt (val a) (val b) := val_lt
  unfold dcmp GoFloat.gt
  rw [vl, vl, vl, val_abs, hf, hc, val_lit0, show XR.abs (.fin x) = .fin |x| from XR.fin_abs x]
  simp only [XR.lt, decide_eq_true_eq]
  split_ifs with h1 h2 h3
  · simp only [gt_iff_lt, lt_self_iff_false, false_iff, not_le]
    exact lt_of_le_of_lt (le_abs_self x) h1
  · rw [abs_of_pos h2] at h1
    simpa using h1
  · simp only [gt_iff_lt, Left.neg_pos_iff, not_lt.2 Int.one_nonneg, false_iff, not_le]; linarith
  · simp only [gt_iff_lt, lt_self_iff_false, false_iff, not_le]; linarith

theorem fdcmp_neg {f : F} {x e : K} (hf : val f = .fin x) (hc : val (COORDPRESION : F) = .fin e) (he : 0 < e) : dcmp f < 0 ↔ x ≤ -e := by
  have vl : ∀ a b : F, lt a b = XR.lt (val a) (val b) := val_lt
  unfold dcmp GoFloat.gt
  rw [vl, vl, vl, val_abs, hf, hc, val_lit0, show XR.abs (.fin x) = .fin |x| from XR.fin_abs x]
  simp only [XR.lt, decide_eq_true_eq]
  split_ifs with h1 h2 h3
  · simp only [lt_self_iff_false, false_iff, not_le]
    exact (abs_lt.1 h1).1
  · simp only [Int.one_nonneg, not_lt.2, false_iff, not_le]; linarith
  · rw [abs_of_neg h3] at h1
    simp only [Int.neg_neg_iff_pos, Int.zero_lt_one, true_iff]; linarith
  · have : x = 0 := le_antisymm (not_lt.1 h2) (not_lt.1 h3)
    rw [this, abs_zero] at h1
    exact absurd he h1

variable [FloatErr F K]

theorem coord_val : ∃ e : K, val (COORDPRESION : F) = .fin e ∧ rnd F (.fin eps) = .fin e ∧ 99 / 100 * eps ≤ e ∧ e ≤ 101 / 100 * eps := by
  obtain ⟨y, h1, h2⟩ := rnd_near (F := F) (eps : K) (by unfold eps; rw [abs_of_pos (by positivity)]; norm_num)
  refine ⟨y, ?_, h1, ?_⟩
  · show val (dec 1 6 : F) = _
    rw [val_dec, ← h1]; simp [eps]
  · rw [abs_of_pos (eps_pos (K := K))] at h2
    rw [abs_le] at h2
    unfold eps at *
    norm_num at *
    constructor <;> linarith

/-- the comparison of heights is exact -/
theorem yTest {p a : F} {x y : K} (hp : val p = .fin x) (ha : val a = .fin y) (bx : |x| ≤ 2 ^ 26) (by' : |y| ≤ 2 ^ 26) (h : y ≤ x ∨ x + eps ≤ y) :
    dcmp (a - p) > 0 ↔ x < y := by
  obtain ⟨e, he, hr, e1, e2⟩ := coord_val (F := F) (K := K)
  have hpos := eps_pos (K := K)
  have hd : val (a - p) = rnd F (.fin (y - x)) := by rw [val_sub, ha, hp]; simp [XR.sub, XR.add, XR.neg, sub_eq_add_neg]
  obtain ⟨v, hv, -⟩ := rnd_near (F := F) (y - x) (by
    have := abs_sub y x
    norm_num at *; linarith)
  rw [hv] at hd
  rw [fdcmp_pos hd he (by linarith)]
  rcases h with h | h
  · have := rnd_le_zero (F := F) (x := .fin (y - x)) (by simp [XR.le]; exact h)
    rw [hv] at this
    simp only [XR.le, decide_eq_true_eq] at this
    constructor <;> intro <;> linarith
  · have := rnd_mono (F := F) (.fin eps) (.fin (y - x)) (by simp only [XR.le, decide_eq_true_eq]; linarith)
    rw [hv, hr] at this
    simp only [XR.le, decide_eq_true_eq] at this
    constructor <;> intro <;> linarith

theorem div_err {a c A C u : K} (hc : c ≠ 0) (hac : |a| ≤ |c|) (hA : |A - a| ≤ |c| * u) (hC : |C - c| ≤ |c| * u) (hu : u ≤ 1 / 2) :
    C ≠ 0 ∧ |c| / 2 ≤ |C| ∧ |A / C - a / c| ≤ 4 * u := by
  have hcp : 0 < |c| := abs_pos.2 hc
  have hu0 : 0 ≤ u := by
    by_contra hn
    have := (abs_nonneg _).trans hC
    nlinarith
  have h1 : |c| / 2 ≤ |C| := by
    have h2 : |c| ≤ |C| + |C - c| := by
      have := abs_add_le C (-(C - c))
      rw [abs_neg] at this
      simpa using this
    nlinarith
  have hC0 : C ≠ 0 := by
    rintro rfl
    rw [abs_zero] at h1
    linarith
  refine ⟨hC0, h1, ?_⟩
  have e : A / C - a / c = ((A - a) * c - a * (C - c)) / (C * c) := by field_simp; ring
  rw [e, abs_div, abs_mul C c, div_le_iff₀ (mul_pos (abs_pos.2 hC0) hcp)]
  have h3 : |(A - a) * c - a * (C - c)| ≤ |c| * u * |c| + |c| * (|c| * u) := by
    refine (abs_sub _ _).trans (add_le_add ?_ ?_)
    · rw [abs_mul]; gcongr
    · rw [abs_mul]; gcongr
  refine h3.trans ?_
  have : |c| / 2 * |c| ≤ |C| * |c| := by gcongr
  nlinarith

/-- a quotient of the kind `(y - y1) * (x1 - x2) / (y1 - y2)` with `y` between `y1` and `y2` -/
theorem quot_near {fa fb fc : F} {a b c : K} (ha : Near fa a (|c| / 2 ^ 52)) (hc : Near fc c (|c| / 2 ^ 52)) (hb : Near fb b (1 / 2 ^ 25))
    (hac : |a| ≤ |c|) (hc1 : 1 / 2 ^ 20 ≤ |c|) (hb2 : |b| ≤ 2 ^ 27) (hc2 : |c| ≤ 2 ^ 27) :
    Near (fa * fb / fc) (a * b / c) (1 / 2 ^ 22) := by
  obtain ⟨A, vA, hA⟩ := ha
  obtain ⟨B, vB, hB⟩ := hb
  obtain ⟨C, vC, hC⟩ := hc
  have hc0 : c ≠ 0 := by rintro rfl; rw [abs_zero] at hc1; norm_num at hc1
  obtain ⟨hC0, hC1, hR⟩ := div_err (u := 1 / 2 ^ 52) hc0 hac (by rw [mul_one_div]; exact hA) (by rw [mul_one_div]; exact hC) (by norm_num)
  have hCp : 0 < |C| := abs_pos.2 hC0
  have hr1 : |a / c| ≤ 1 := by rw [abs_div]; exact div_le_one_of_le₀ hac (abs_nonneg _)
  have tri : ∀ x y : K, |x| ≤ |y| + |x - y| := fun x y => by simpa using abs_add_le y (x - y)
  have hR1 : |A / C| ≤ 1001 / 1000 := by
    have := tri (A / C) (a / c)
    norm_num at *; linarith
  have hB1 : |B| ≤ 2 ^ 27 + 1 := by
    have := tri B b
    norm_num at *; linarith
  have hA1 : |A| ≤ 2 ^ 28 := by
    have := tri A a
    norm_num at *; linarith
  have hRB : |A / C * B| ≤ 1001 / 1000 * (2 ^ 27 + 1) := by rw [abs_mul]; gcongr
  have hAB : |A * B| ≤ 2 ^ 28 * (2 ^ 27 + 1) := by rw [abs_mul]; gcongr
  obtain ⟨N, vN, hN⟩ := rnd_near (F := F) (A * B) (hAB.trans (by norm_num))
  have vN' : val (fa * fb) = .fin N := by rw [val_mul, vA, vB]; simpa [XR.mul] using vN
  have e1 : N / C = A / C * B + (N - A * B) / C := by field_simp; ring
  have e2 : |(N - A * B) / C| ≤ (|A / C * B|) / 2 ^ 53 + 1 / 2 ^ 150 := by
    rw [abs_div, div_le_iff₀ hCp]
    have : |A * B| = |A / C * B| * |C| := by rw [← abs_mul]; congr 1; field_simp
    rw [this] at hN
    have h3 : (1 : K) / 2 ^ 200 ≤ 1 / 2 ^ 150 * |C| := by
      have : (1 : K) / 2 ^ 21 ≤ |C| := by norm_num at *; linarith
      calc (1 : K) / 2 ^ 200 ≤ 1 / 2 ^ 150 * (1 / 2 ^ 21) := by norm_num
        _ ≤ _ := by gcongr
    calc |N - A * B| ≤ |A / C * B| * |C| / 2 ^ 53 + 1 / 2 ^ 200 := hN
      _ ≤ |A / C * B| * |C| / 2 ^ 53 + 1 / 2 ^ 150 * |C| := by gcongr
      _ = _ := by ring
  have e3 : |A / C * B - a * b / c| ≤ 4 * (1 / 2 ^ 52) * (2 ^ 27 + 1) + 1 * (1 / 2 ^ 25) := by
    have : A / C * B - a * b / c = (A / C - a / c) * B + a / c * (B - b) := by field_simp; ring
    rw [this]
    refine (abs_add_le _ _).trans (add_le_add ?_ ?_)
    · rw [abs_mul]; gcongr
    · rw [abs_mul]; gcongr
  have e4 : |N / C - a * b / c| ≤ 4 * (1 / 2 ^ 52) * (2 ^ 27 + 1) + 1 * (1 / 2 ^ 25) + ((|A / C * B|) / 2 ^ 53 + 1 / 2 ^ 150) := by
    rw [e1]
    have : A / C * B + (N - A * B) / C - a * b / c = (A / C * B - a * b / c) + (N - A * B) / C := by ring
    rw [this]
    exact (abs_add_le _ _).trans (add_le_add e3 e2)
  have hNC : |a * b / c| ≤ 2 ^ 27 := by
    have : a * b / c = a / c * b := by ring
    rw [this, abs_mul]
    calc |a / c| * |b| ≤ 1 * 2 ^ 27 := by gcongr
      _ = _ := by norm_num
  have h := Near.rnd (f := fa * fb / fc) (z := .fin (N / C)) (x := a * b / c) (e := 3 / 2 ^ 24) (B := 2 ^ 27 + 1)
    (by rw [val_div _ _ (by rw [vC]; simpa using hC0), vN', vC]; simp [XR.div, hC0])
    ⟨_, rfl, e4.trans (by norm_num at *; linarith)⟩ (by norm_num at *; linarith) (by norm_num)
  exact h.mono (by norm_num)

/-- the comparison with the abscissa of the crossing -/
theorem xTest {p a b : Point F} {x y z : K × K} (hp : At p x) (ha : At a y) (hb : At b z)
    (bx : Within (2 ^ 26) x) (by' : Within (2 ^ 26) y) (bz : Within (2 ^ 26) z)
    (hs : (y.2 ≤ x.2 ∧ x.2 + eps ≤ z.2) ∨ (z.2 ≤ x.2 ∧ x.2 + eps ≤ y.2)) (hx : 2 * eps ≤ |xAt x.2 y z - x.1|) :
    dcmp (p.X - (p.Y - a.Y) * (a.X - b.X) / (a.Y - b.Y) - a.X) < 0 ↔ x.1 < xAt x.2 y z := by
  have hpos := eps_pos (K := K)
  have diff : ∀ {f g : F} {u v : K}, val f = .fin u → val g = .fin v → |u| ≤ 2 ^ 26 → |v| ≤ 2 ^ 26 →
      Near (f - g) (u - v) (|u - v| / 2 ^ 53 + 1 / 2 ^ 200) := by
    intro f g u v hf hg hu hv
    obtain ⟨w, e1, e2⟩ := rnd_near (F := F) (u - v) (by
      have := abs_sub u v
      norm_num at *; linarith)
    exact ⟨w, by rw [val_sub, hf, hg]; simpa [XR.sub, XR.add, XR.neg, sub_eq_add_neg] using e1, e2⟩
  have d1 := diff hp.2 ha.2 bx.2 by'.2
  have d2 := diff ha.1 hb.1 by'.1 bz.1
  have d3 := diff ha.2 hb.2 by'.2 bz.2
  have cb : ∀ u v : K, |u| ≤ 2 ^ 26 → |v| ≤ 2 ^ 26 → |u - v| ≤ 2 ^ 27 := fun u v hu hv => (abs_sub u v).trans (by norm_num at *; linarith)
  have b2 := cb _ _ by'.1 bz.1
  have b3 := cb _ _ by'.2 bz.2
  have hac : |x.2 - y.2| ≤ |y.2 - z.2| := by
    rcases hs with ⟨h1, h2⟩ | ⟨h1, h2⟩
    · rw [abs_of_nonneg (by linarith), abs_of_nonpos (by linarith)]; linarith
    · rw [abs_of_nonpos (by linarith), abs_of_nonneg (by linarith)]; linarith
  have hc1 : (1 : K) / 2 ^ 20 ≤ |y.2 - z.2| := by
    have : (1 : K) / 2 ^ 20 ≤ eps := by unfold eps; norm_num
    refine this.trans ?_
    rcases hs with ⟨h1, h2⟩ | ⟨h1, h2⟩
    · rw [abs_of_nonpos (by linarith)]; linarith
    · rw [abs_of_nonneg (by linarith)]; linarith
  have q := quot_near (d1.mono (e' := |y.2 - z.2| / 2 ^ 52) (by norm_num at *; linarith)) (d3.mono (e' := |y.2 - z.2| / 2 ^ 52) (by norm_num at *; linarith))
    (d2.mono (e' := 1 / 2 ^ 25) (by norm_num at *; linarith)) hac hc1 b2 b3
  have hq : |(x.2 - y.2) * (y.1 - z.1) / (y.2 - z.2)| ≤ 2 ^ 27 := by
    have : (x.2 - y.2) * (y.1 - z.1) / (y.2 - z.2) = (x.2 - y.2) / (y.2 - z.2) * (y.1 - z.1) := by ring
    rw [this, abs_mul, abs_div]
    calc |x.2 - y.2| / |y.2 - z.2| * |y.1 - z.1| ≤ 1 * 2 ^ 27 := by
          gcongr
          exact div_le_one_of_le₀ hac (abs_nonneg _)
      _ = _ := by norm_num
  have s1 := (Near.of_val hp.1).sub q (B := 2 ^ 28) (by
    have := abs_sub x.1 ((x.2 - y.2) * (y.1 - z.1) / (y.2 - z.2))
    have := bx.1
    norm_num at *; linarith) (by norm_num)
  have s2 := s1.sub (Near.of_val ha.1) (B := 2 ^ 29) (by
    have h1 := abs_sub x.1 ((x.2 - y.2) * (y.1 - z.1) / (y.2 - z.2))
    have h2 := abs_sub (x.1 - (x.2 - y.2) * (y.1 - z.1) / (y.2 - z.2)) y.1
    have h3 := bx.1
    have h4 := by'.1
    norm_num at h1 h2 h3 h4 hq ⊢; linarith) (by norm_num)
  obtain ⟨v, hv, hve⟩ := s2
  obtain ⟨e, he, -, e1, e2⟩ := coord_val (F := F) (K := K)
  rw [fdcmp_neg hv he (by linarith)]
  have ex : x.1 - (x.2 - y.2) * (y.1 - z.1) / (y.2 - z.2) - y.1 = x.1 - xAt x.2 y z := by unfold xAt; ring
  rw [ex] at hve
  have hv2 : |v - (x.1 - xAt x.2 y z)| ≤ eps / 2 := hve.trans (by unfold eps; norm_num)
  rw [abs_le] at hv2
  rcases le_abs.1 hx with h | h
  · constructor <;> intro <;> linarith [hv2.1, hv2.2]
  · constructor <;> intro <;> linarith [hv2.1, hv2.2]

end
end GoGeo
