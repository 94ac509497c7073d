import Verif.Go.Err
import Verif.Spec.Float
import Verif.Geo.SegmentLemmas

/-!
# Rounding errors of the geometric predicates
-/

set_option linter.unusedSectionVars false

namespace GoGeo
open GoFloat FloatVal Spec

section
variable {F K : Type} [GoFloat F] [Field K] [LinearOrder K] [IsStrictOrderedRing K] [FloatVal F K] [FloatErr F K]

theorem diff_near {f g : F} {x y M : K} (hf : val f = .fin x) (hg : val g = .fin y) (hx : |x| ≤ M) (hy : |y| ≤ M)
    (h1 : 1 ≤ M) (h2 : M ≤ 2 ^ 100) : Near (g - f) (y - x) (2001 / 1000 * M / 2 ^ 53) := by
  have h := (Near.of_val hg).sub (Near.of_val hf) (B := 2 * M) (by
    have := abs_sub y x
    linarith) (by norm_num at h2 ⊢; linarith)
  refine h.mono ?_
  norm_num
  linarith

/-- the exact cross product of the vectors `pq` and `rs` -/
def crossK (p q r s : K × K) : K := (q.1 - p.1) * (s.2 - r.2) - (q.2 - p.2) * (s.1 - r.1)

theorem cross_near {p q r s : Point F} {x y z w : K × K} {M : K} (hp : At p x) (hq : At q y) (hr : At r z) (hs : At s w)
    (bx : Within M x) (by' : Within M y) (bz : Within M z) (bw : Within M w) (h1 : 1 ≤ M) (h2 : M ≤ 2 ^ 100) :
    Near ((ConvertPointToVector p q).Cross (ConvertPointToVector r s)) (crossK x y z w) (33 * (M * M) / 2 ^ 53) := by
  have d1 := diff_near hp.1 hq.1 bx.1 by'.1 h1 h2
  have d2 := diff_near hp.2 hq.2 bx.2 by'.2 h1 h2
  have d3 := diff_near hr.1 hs.1 bz.1 bw.1 h1 h2
  have d4 := diff_near hr.2 hs.2 bz.2 bw.2 h1 h2
  have c : ∀ u v : K, |u| ≤ M → |v| ≤ M → |v - u| ≤ 2 * M := fun u v hu hv => (abs_sub v u).trans (by linarith)
  have hQ1 : 1 ≤ M * M := by nlinarith
  have hQ2 : M * M ≤ 2 ^ 200 := by
    calc M * M ≤ 2 ^ 100 * 2 ^ 100 := mul_le_mul h2 h2 (by linarith) (by positivity)
      _ = 2 ^ 200 := by norm_num
  have e0 : 2 * M * (2001 / 1000 * M / 2 ^ 53) + 2 * M * (2001 / 1000 * M / 2 ^ 53) + 2001 / 1000 * M / 2 ^ 53 * (2001 / 1000 * M / 2 ^ 53) ≤
      8005 / 1000 * (M * M) / 2 ^ 53 := by
    have : 2 * M * (2001 / 1000 * M / 2 ^ 53) + 2 * M * (2001 / 1000 * M / 2 ^ 53) + 2001 / 1000 * M / 2 ^ 53 * (2001 / 1000 * M / 2 ^ 53) =
      (8004 / 1000 / 2 ^ 53 + (2001 / 1000 / 2 ^ 53) ^ 2) * (M * M) := by ring
    rw [this]
    have : 8005 / 1000 * (M * M) / 2 ^ 53 = (8005 / 1000 / 2 ^ 53) * (M * M) := by ring
    rw [this]
    apply mul_le_mul_of_nonneg_right _ (by linarith)
    norm_num
  have m1 := d1.mul d4 (c _ _ bx.1 by'.1) (c _ _ bz.2 bw.2) (B := 4001 / 1000 * (M * M)) (by
    have : 2 * M * (2 * M) = 4 * (M * M) := by ring
    generalize M * M = Q at *
    norm_num at e0 ⊢
    linarith) (by generalize M * M = Q at *; norm_num at hQ2 ⊢; linarith)
  have m2 := d2.mul d3 (c _ _ bx.2 by'.2) (c _ _ bz.1 bw.1) (B := 4001 / 1000 * (M * M)) (by
    have : 2 * M * (2 * M) = 4 * (M * M) := by ring
    generalize M * M = Q at *
    norm_num at e0 ⊢
    linarith) (by generalize M * M = Q at *; norm_num at hQ2 ⊢; linarith)
  have m1 := m1.mono (e' := 12007 / 1000 * (M * M) / 2 ^ 53) (by
    generalize M * M = Q at *
    norm_num at e0 ⊢
    linarith)
  have m2 := m2.mono (e' := 12007 / 1000 * (M * M) / 2 ^ 53) (by
    generalize M * M = Q at *
    norm_num at e0 ⊢
    linarith)
  have hb : ∀ u v u' v' : K, |u| ≤ M → |v| ≤ M → |u'| ≤ M → |v'| ≤ M → |(v - u) * (v' - u')| ≤ 4 * (M * M) := by
    intro u v u' v' a b a' b'
    rw [abs_mul]
    calc _ ≤ (2 * M) * (2 * M) := mul_le_mul (c _ _ a b) (c _ _ a' b') (abs_nonneg _) (by linarith)
      _ = _ := by ring
  have m3 := m1.sub m2 (B := 8001 / 1000 * (M * M)) (by
    have := abs_sub ((y.1 - x.1) * (w.2 - z.2)) ((y.2 - x.2) * (w.1 - z.1))
    have := hb _ _ _ _ bx.1 by'.1 bz.2 bw.2
    have := hb _ _ _ _ bx.2 by'.2 bz.1 bw.1
    generalize M * M = Q at *
    norm_num
    linarith) (by generalize M * M = Q at *; norm_num at hQ2 ⊢; linarith)
  refine m3.mono ?_
  generalize M * M = Q at *
  norm_num
  linarith

/-! ### segments -/

theorem xle_pos {a : K} {x : XR K} (h : XR.le (.fin a) x = true) (b : K) (hb : b < a) : XR.lt (.fin b) x = true := by
  cases x <;> simp_all [XR.le, XR.lt]
  linarith

theorem xle_neg {a : K} {x : XR K} (h : XR.le x (.fin a) = true) (b : K) (hb : a < b) : XR.lt x (.fin b) = true := by
  cases x <;> simp_all [XR.le, XR.lt]
  linarith

theorem xlt_not {x y : XR K} (h : XR.lt x y = true) : XR.lt y x = false ∧ XR.eq x y = false ∧ XR.eq y x = false := by
  cases x <;> cases y <;> simp_all [XR.lt, XR.eq]
  rename_i a b
  exact ⟨h.le, h.ne, h.ne'⟩

/-- rounding keeps the side of a representable number `b` when the numbers `b + 2^-51` and `b - 2^-51` are representable too -/
theorem rnd_side (F : Type) {K : Type} [GoFloat F] [Field K] [LinearOrder K] [IsStrictOrderedRing K] [FloatVal F K] {t b : K} (hb : b = 0 ∨ b = 1)
    (h : 1 / 2 ^ 51 ≤ |t - b|) :
    XR.lt (.fin b) (rnd F (.fin t)) = decide (b < t) ∧ XR.lt (rnd F (.fin t)) (.fin b) = decide (t < b) ∧ XR.eq (rnd F (.fin t)) (.fin b) = false := by
  have hpos : (0 : K) < 1 / 2 ^ 51 := by positivity
  have rep1 : rnd F (.fin (b + 1 / 2 ^ 51)) = .fin (b + 1 / 2 ^ 51) := by
    rcases hb with rfl | rfl
    · have := rnd_frac (F := F) 1 51 (by norm_num) (by norm_num)
      rwa [Nat.cast_one, ← zero_add ((1 : K) / 2 ^ 51)] at this
    · have := rnd_frac (F := F) (2 ^ 51 + 1) 51 (by norm_num) (by norm_num)
      have e : ((2 ^ 51 + 1 : ℕ) : K) / 2 ^ 51 = 1 + 1 / 2 ^ 51 := by push_cast; norm_num
      rwa [e] at this
  have rep2 : rnd F (.fin (b - 1 / 2 ^ 51)) = .fin (b - 1 / 2 ^ 51) := by
    rcases hb with rfl | rfl
    · have := rnd_frac (F := F) 1 51 (by norm_num) (by norm_num)
      rw [Nat.cast_one] at this
      rw [zero_sub]
      have h2 := rnd_neg (F := F) (.fin ((1 : K) / 2 ^ 51))
      rw [this] at h2
      exact h2
    · have := rnd_frac (F := F) (2 ^ 51 - 1) 51 (by norm_num) (by norm_num)
      have e : ((2 ^ 51 - 1 : ℕ) : K) / 2 ^ 51 = 1 - 1 / 2 ^ 51 := by push_cast; norm_num
      rwa [e] at this
  rcases le_abs.1 h with h | h
  · have := rnd_mono (F := F) (.fin (b + 1 / 2 ^ 51)) (.fin t) (by simp only [XR.le, decide_eq_true_eq]; linarith)
    rw [rep1] at this
    have hl := xle_pos this b (by linarith)
    obtain ⟨q1, q2, q3⟩ := xlt_not hl
    refine ⟨?_, ?_, q3⟩
    · rw [hl]; symm; rw [decide_eq_true_eq]; linarith
    · rw [q1]; symm; rw [decide_eq_false_iff_not]; linarith
  · have := rnd_mono (F := F) (.fin t) (.fin (b - 1 / 2 ^ 51)) (by simp only [XR.le, decide_eq_true_eq]; linarith)
    rw [rep2] at this
    have hl := xle_neg this b (by linarith)
    obtain ⟨q1, q2, q3⟩ := xlt_not hl
    refine ⟨?_, ?_, q2⟩
    · rw [q1]; symm; rw [decide_eq_false_iff_not]; linarith
    · rw [hl]; symm; rw [decide_eq_true_eq]; linarith

/-- `n / d` is strictly between 0 and 1 -/
def InUnit (n d : K) : Prop := (0 < n ∧ n < d) ∨ (d < n ∧ n < 0)

theorem inUnit_div {n d : K} (hd : d ≠ 0) : 0 < n / d ∧ n / d < 1 ↔ InUnit n d := by
  unfold InUnit
  rcases lt_or_gt_of_ne hd with h | h
  · rw [div_lt_one_of_neg h]
    constructor
    · rintro ⟨a, b⟩
      exact .inr ⟨b, (by
        by_contra hn
        exact absurd a (not_lt.2 (div_nonpos_of_nonneg_of_nonpos (not_lt.1 hn) h.le)))⟩
    · rintro (⟨a, b⟩ | ⟨a, b⟩)
      · linarith
      · exact ⟨div_pos_of_neg_of_neg b h, a⟩
  · rw [div_lt_one h, div_pos_iff_of_pos_right h]
    constructor
    · exact fun ⟨a, b⟩ => .inl ⟨a, b⟩
    · rintro (⟨a, b⟩ | ⟨a, b⟩)
      · exact ⟨a, b⟩
      · linarith

omit [FloatErr F K] in
theorem fval_lit1 : val (lit 1 : F) = .fin (1 : K) := by
  have := rnd_rep (F := F) (K := K) 1 0 (by norm_num) (by norm_num)
  simp only [pow_zero, mul_one, Nat.cast_one] at this
  rw [lit, val_dec, pow_zero, div_one, Nat.cast_one, this]

omit [FloatErr F K] in
/-- `SegmentRelation` from the values of the three cross products -/
theorem segRel_of_vals {s1 s2 : LineSegment F} {D N1 N2 m B : K}
    (hD : val ((ConvertSegToVector s1).Cross (ConvertSegToVector s2)) = .fin D)
    (hN1 : val ((ConvertPointToVector s1.Start s2.Start).Cross (ConvertSegToVector s2)) = .fin N1)
    (hN2 : val ((ConvertPointToVector s1.Start s2.Start).Cross (ConvertSegToVector s1)) = .fin N2)
    (h1 : m ≤ |N1|) (h2 : m ≤ |N2|) (h3 : m ≤ |N1 - D|) (h4 : m ≤ |N2 - D|) (hm : 0 < m) (hB : |D| ≤ B) (hmB : B / 2 ^ 51 ≤ m) :
    (InUnit N1 D ∧ InUnit N2 D → SegmentRelation s1 s2 = .intersect) ∧
    (¬ (InUnit N1 D ∧ InUnit N2 D) → SegmentRelation s1 s2 = .disjoint) := by
  have n2 : N2 ≠ 0 := by rintro rfl; rw [abs_zero] at h2; linarith
  unfold SegmentRelation
  have ve : ∀ a b : F, eq a b = XR.eq (val a) (val b) := val_eq
  have vl : ∀ a b : F, lt a b = XR.lt (val a) (val b) := val_lt
  have v0 : val (lit 0 : F) = .fin (0 : K) := val_lit0
  simp only [gt, ne, ve, vl, hD, hN2, v0]
  by_cases hd : D = 0
  · subst hd
    have hu : ¬ InUnit N2 0 := by rintro (⟨a, b⟩ | ⟨a, b⟩) <;> linarith
    simp [XR.eq, n2, hu]
  · have q1 : val ((ConvertPointToVector s1.Start s2.Start).Cross (ConvertSegToVector s2) / (ConvertSegToVector s1).Cross (ConvertSegToVector s2)) =
        rnd F (.fin (N1 / D)) := by
      rw [val_div _ _ (by rw [hD]; simpa using hd), hD, hN1]; simp [XR.div, hd]
    have q2 : val ((ConvertPointToVector s1.Start s2.Start).Cross (ConvertSegToVector s1) / (ConvertSegToVector s1).Cross (ConvertSegToVector s2)) =
        rnd F (.fin (N2 / D)) := by
      rw [val_div _ _ (by rw [hD]; simpa using hd), hD, hN2]; simp [XR.div, hd]
    have hdp : 0 < |D| := abs_pos.2 hd
    have key : ∀ N : K, m ≤ |N| → m ≤ |N - D| → 1 / 2 ^ 51 ≤ |N / D - 0| ∧ 1 / 2 ^ 51 ≤ |N / D - 1| := by
      intro N a b
      have hx : |D| / 2 ^ 51 ≤ B / 2 ^ 51 := by gcongr
      have e1 : |N / D - 0| = |N| / |D| := by rw [sub_zero, abs_div]
      have e2 : |N / D - 1| = |N - D| / |D| := by rw [← abs_div]; congr 1; field_simp
      rw [e1, e2, le_div_iff₀ hdp, le_div_iff₀ hdp]
      constructor
      · have : 1 / 2 ^ 51 * |D| = |D| / 2 ^ 51 := by ring
        linarith
      · have : 1 / 2 ^ 51 * |D| = |D| / 2 ^ 51 := by ring
        linarith
    obtain ⟨a0, a1⟩ := key N1 h1 h3
    obtain ⟨b0, b1⟩ := key N2 h2 h4
    obtain ⟨r1, -, r2⟩ := rnd_side F (.inl rfl) a0
    obtain ⟨-, r3, r4⟩ := rnd_side F (.inr rfl) a1
    obtain ⟨r5, -, r6⟩ := rnd_side F (.inl rfl) b0
    obtain ⟨-, r7, r8⟩ := rnd_side F (.inr rfl) b1
    rw [q1, q2, fval_lit1, r1, r2, r3, r4, r5, r6, r7, r8]
    have hd' : XR.eq (.fin D : XR K) (.fin 0) = false := by simp [XR.eq, hd]
    rw [hd']
    rw [← inUnit_div hd, ← inUnit_div hd]
    constructor
    · rintro ⟨⟨x1, x2⟩, x3, x4⟩
      simp [x1, x2, x3, x4]
    · intro hn
      have : ¬ (0 < N1 / D ∧ N1 / D < 1 ∧ 0 < N2 / D ∧ N2 / D < 1) := fun ⟨x1, x2, x3, x4⟩ => hn ⟨⟨x1, x2⟩, x3, x4⟩
      simpa [and_assoc] using this

/-- no end point of either segment is near the line of the other: the parallelograms have area over `M² / 2^46` -/
def ClearSegs (M : K) (a b c d : K × K) : Prop :=
  M * M / 2 ^ 46 < |turn a b c| ∧ M * M / 2 ^ 46 < |turn a b d| ∧ M * M / 2 ^ 46 < |turn c d a| ∧ M * M / 2 ^ 46 < |turn c d b|

theorem segRel_float {p1 p2 q1 q2 : Point F} {a b c d : K × K} {M : K} (hp1 : At p1 a) (hp2 : At p2 b) (hq1 : At q1 c) (hq2 : At q2 d)
    (ba : Within M a) (bb : Within M b) (bc : Within M c) (bd : Within M d) (h1 : 1 ≤ M) (h2 : M ≤ 2 ^ 100) (hc : ClearSegs M a b c d) :
    SegmentRelation ⟨p1, p2⟩ ⟨q1, q2⟩ = SegmentRelation (seg a b) (seg c d) := by
  have hQ1 : 1 ≤ M * M := by nlinarith
  obtain ⟨t1, t2, t3, t4⟩ := hc
  have e1 : turn a b c = -segN2 a b c := by unfold turn segN2; ring
  have e2 : turn a b d = -(segN2 a b c - segD a b c d) := by unfold turn segN2 segD; ring
  have e3 : turn c d a = segN1 a c d := by unfold turn segN1; ring
  have e4 : turn c d b = segN1 a c d - segD a b c d := by unfold turn segN1 segD; ring
  rw [e1, abs_neg] at t1
  rw [e2, abs_neg] at t2
  rw [e3] at t3
  rw [e4] at t4
  obtain ⟨D', vD, eD⟩ := cross_near hp1 hp2 hq1 hq2 ba bb bc bd h1 h2
  obtain ⟨N1', v1, eN1⟩ := cross_near hp1 hq1 hq1 hq2 ba bc bc bd h1 h2
  obtain ⟨N2', v2, eN2⟩ := cross_near hp1 hq1 hp1 hp2 ba bc ba bb h1 h2
  have f0 : crossK a b c d = segD a b c d := rfl
  have f1 : crossK a c c d = segN1 a c d := rfl
  have f2 : crossK a c a b = segN2 a b c := rfl
  rw [f0] at eD
  rw [f1] at eN1
  rw [f2] at eN2
  have hDb : |segD a b c d| ≤ 8 * (M * M) := by
    have c : ∀ u v : K, |u| ≤ M → |v| ≤ M → |v - u| ≤ 2 * M := fun u v hu hv => (abs_sub v u).trans (by linarith)
    have hb : ∀ u v u' v' : K, |u| ≤ M → |v| ≤ M → |u'| ≤ M → |v'| ≤ M → |(v - u) * (v' - u')| ≤ 4 * (M * M) := by
      intro u v u' v' a b a' b'
      rw [abs_mul]
      calc _ ≤ (2 * M) * (2 * M) := mul_le_mul (c _ _ a b) (c _ _ a' b') (abs_nonneg _) (by linarith)
        _ = _ := by ring
    unfold segD
    refine (abs_sub _ _).trans ?_
    have := hb _ _ _ _ ba.1 bb.1 bc.2 bd.2
    have := hb _ _ _ _ ba.2 bb.2 bc.1 bd.1
    linarith
  have hex := segRel_of_vals (F := XR K) (s1 := seg a b) (s2 := seg c d) (D := segD a b c d) (N1 := segN1 a c d) (N2 := segN2 a b c) (m := M * M / 2 ^ 46) (B := 8 * (M * M))
    (by simp only [ConvertSegToVector, ConvertPointToVector, Vector2.Cross, seg, pt, XR.fin_sub, XR.fin_mul, segD]; rfl)
    (by simp only [ConvertSegToVector, ConvertPointToVector, Vector2.Cross, seg, pt, XR.fin_sub, XR.fin_mul, segN1]; rfl)
    (by simp only [ConvertSegToVector, ConvertPointToVector, Vector2.Cross, seg, pt, XR.fin_sub, XR.fin_mul, segN2]; rfl)
    t3.le t1.le t4.le t2.le (by positivity) hDb (by generalize M * M = Q at *; norm_num; linarith)
  generalize hDe : segD a b c d = D at *
  generalize segN1 a c d = N1 at *
  generalize segN2 a b c = N2 at *
  generalize M * M = Q at *
  have abs3 : ∀ x y : K, |x| ≤ |y| + |x - y| := fun x y => by simpa using abs_add_le y (x - y)
  have w1 : 95 * Q / 2 ^ 53 ≤ |N1'| := by
    have := abs3 N1 N1'
    rw [abs_sub_comm] at eN1
    norm_num at *
    linarith
  have w2 : 95 * Q / 2 ^ 53 ≤ |N2'| := by
    have := abs3 N2 N2'
    rw [abs_sub_comm] at eN2
    norm_num at *
    linarith
  have sub3 : ∀ x y x' y' : K, |x - y| ≤ |x' - y'| + |x' - x| + |y' - y| := fun x y x' y' => by
    have : x - y = (x' - y') + (x - x') + (y' - y) := by ring
    rw [this, abs_sub_comm x' x]
    exact abs_add_three _ _ _
  have w3 : 62 * Q / 2 ^ 53 ≤ |N1' - D'| := by
    have := sub3 N1 D N1' D'
    norm_num at *
    linarith
  have w4 : 62 * Q / 2 ^ 53 ≤ |N2' - D'| := by
    have := sub3 N2 D N2' D'
    norm_num at *
    linarith
  have w5 : |D'| ≤ 9 * Q := by
    have := abs3 D' D
    norm_num at *
    linarith
  have hfl := segRel_of_vals (F := F) (s1 := ⟨p1, p2⟩) (s2 := ⟨q1, q2⟩) (m := 62 * Q / 2 ^ 53) (B := 9 * Q) vD v1 v2
    (le_trans (by norm_num; linarith) w1) (le_trans (by norm_num; linarith) w2) w3 w4 (by positivity) w5 (by norm_num; linarith)
  have same : ∀ N N' : K, |N' - N| ≤ 33 * Q / 2 ^ 53 → Q / 2 ^ 46 < |N| → Q / 2 ^ 46 < |N - D| → (InUnit N D ↔ InUnit N' D') := by
    intro N N' x1 x2 x3
    rw [abs_le] at x1 eD
    rw [lt_abs] at x2 x3
    unfold InUnit
    norm_num at x1 x2 x3 eD
    constructor
    · rintro (⟨y1, y2⟩ | ⟨y1, y2⟩)
      · left
        have : Q / 70368744177664 < N := x2.resolve_right (by intro h; linarith)
        have : Q / 70368744177664 < D - N := by rcases x3 with h | h <;> linarith
        constructor <;> linarith
      · right
        have : Q / 70368744177664 < -N := x2.resolve_left (by intro h; linarith)
        have : Q / 70368744177664 < N - D := by rcases x3 with h | h <;> linarith
        constructor <;> linarith
    · rintro (⟨y1, y2⟩ | ⟨y1, y2⟩)
      · left
        have : Q / 70368744177664 < N := by rcases x2 with h | h <;> linarith
        have : Q / 70368744177664 < D - N := by rcases x3 with h | h <;> linarith
        constructor <;> linarith
      · right
        have : Q / 70368744177664 < -N := by rcases x2 with h | h <;> linarith
        have : Q / 70368744177664 < N - D := by rcases x3 with h | h <;> linarith
        constructor <;> linarith
  have s1 := same N1 N1' eN1 t3 t4
  have s2 := same N2 N2' eN2 t1 t2
  by_cases hin : InUnit N1 D ∧ InUnit N2 D
  · rw [hex.1 hin, hfl.1 ⟨s1.1 hin.1, s2.1 hin.2⟩]
  · rw [hex.2 hin, hfl.2 fun h => hin ⟨s1.2 h.1, s2.2 h.2⟩]

end
end GoGeo
