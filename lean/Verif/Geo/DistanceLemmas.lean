import Verif.Geo.Distance
import Verif.Geo.SegmentLemmas
import Verif.Geo.LengthLemmas
import Verif.Spec.Distance
import Mathlib.Order.Bounds.Basic

set_option linter.unusedSectionVars false

namespace GoGeo
open GoFloat GoSqrt GoMath Spec

/-! ### the Euclidean distance -/

theorem eucl_nonneg (p q : ℝ × ℝ) : 0 ≤ eucl p q := Real.sqrt_nonneg _

theorem eucl_comm (p q : ℝ × ℝ) : eucl p q = eucl q p := by
  unfold eucl; congr 1; ring

theorem eucl_eq_zero {p q : ℝ × ℝ} : eucl p q = 0 ↔ p = q := by
  unfold eucl
  rw [Real.sqrt_eq_zero (by positivity)]
  constructor
  · intro h
    have h1 := sq_nonneg (p.1 - q.1)
    have h2 := sq_nonneg (p.2 - q.2)
    have e1 : (p.1 - q.1) ^ 2 = 0 := by linarith
    have e2 : (p.2 - q.2) ^ 2 = 0 := by linarith
    exact Prod.ext (sub_eq_zero.1 (pow_eq_zero_iff (by norm_num) |>.1 e1)) (sub_eq_zero.1 (pow_eq_zero_iff (by norm_num) |>.1 e2))
  · rintro rfl; ring

theorem eucl_triangle (p q r : ℝ × ℝ) : eucl p r ≤ eucl p q + eucl q r := by
  unfold eucl
  obtain ⟨a, ha⟩ : ∃ a, a = p.1 - q.1 := ⟨_, rfl⟩
  obtain ⟨b, hb⟩ : ∃ b, b = p.2 - q.2 := ⟨_, rfl⟩
  obtain ⟨c, hc⟩ : ∃ c, c = q.1 - r.1 := ⟨_, rfl⟩
  obtain ⟨d, hd⟩ : ∃ d, d = q.2 - r.2 := ⟨_, rfl⟩
  have h1 : p.1 - r.1 = a + c := by rw [ha, hc]; ring
  have h2 : p.2 - r.2 = b + d := by rw [hb, hd]; ring
  rw [h1, h2, ← ha, ← hb, ← hc, ← hd]
  have s1 := Real.sq_sqrt (show 0 ≤ a ^ 2 + b ^ 2 by positivity)
  have s2 := Real.sq_sqrt (show 0 ≤ c ^ 2 + d ^ 2 by positivity)
  have n1 := Real.sqrt_nonneg (a ^ 2 + b ^ 2)
  have n2 := Real.sqrt_nonneg (c ^ 2 + d ^ 2)
  apply Real.sqrt_le_iff.2
  refine ⟨by linarith, ?_⟩
  have hcs : a * c + b * d ≤ √(a ^ 2 + b ^ 2) * √(c ^ 2 + d ^ 2) := by
    apply le_of_not_gt
    intro hlt
    have hp := mul_nonneg n1 n2
    have : (√(a ^ 2 + b ^ 2) * √(c ^ 2 + d ^ 2)) ^ 2 < (a * c + b * d) ^ 2 := by nlinarith
    rw [mul_pow, s1, s2] at this
    nlinarith [sq_nonneg (a * d - b * c)]
  nlinarith

theorem euclid_fin (p q : ℝ × ℝ) : EuclideanDistance (pt p) (pt q) = .fin (eucl p q) := by
  unfold EuclideanDistance pt eucl
  simp only [XR.fin_sub, XR.fin_mul, XR.fin_add]
  show XR.sqrt _ = _
  unfold XR.sqrt
  simp only
  rw [if_neg (by nlinarith [mul_self_nonneg (p.1 - q.1), mul_self_nonneg (p.2 - q.2)]), ← pow_two, ← pow_two]

theorem pointDistance_fin (p q : ℝ × ℝ) {srid : Int} (hs : srid ≠ 4326) : PointDistance (pt p) (pt q) srid = .fin (eucl p q) := by
  unfold PointDistance; rw [if_neg hs, euclid_fin]

/-! ### foot points -/

noncomputable def ufac (p a b : ℝ × ℝ) : ℝ :=
  ((p.1 - a.1) * (b.1 - a.1) + (p.2 - a.2) * (b.2 - a.2)) / ((b.1 - a.1) * (b.1 - a.1) + (b.2 - a.2) * (b.2 - a.2))

theorem den_pos {a b : ℝ × ℝ} (h : a ≠ b) : 0 < (b.1 - a.1) * (b.1 - a.1) + (b.2 - a.2) * (b.2 - a.2) := by
  by_contra hn
  apply h
  have h1 := mul_self_nonneg (b.1 - a.1)
  have h2 := mul_self_nonneg (b.2 - a.2)
  have e1 : (b.1 - a.1) * (b.1 - a.1) = 0 := by linarith
  have e2 : (b.2 - a.2) * (b.2 - a.2) = 0 := by linarith
  exact Prod.ext (by linarith [mul_self_eq_zero.1 e1]) (by linarith [mul_self_eq_zero.1 e2])

theorem footFactor_fin (p a b : ℝ × ℝ) (h : a ≠ b) : footFactor (pt p) (pt a) (pt b) = .fin (ufac p a b) := by
  unfold footFactor pt ufac
  simp only [XR.fin_sub, XR.fin_mul, XR.fin_add]
  rw [XR.fin_div _ _ (den_pos h).ne']

theorem footPoint_fin (a b : ℝ × ℝ) (u : ℝ) : footPoint (pt a) (pt b) (.fin u) = pt (along a b u) := by
  unfold footPoint pt along
  simp only [XR.fin_sub, XR.fin_mul, XR.fin_add]

/-- squared distance along a line -/
theorem dist_along (p a b : ℝ × ℝ) (h : a ≠ b) (t : ℝ) :
    (p.1 - (along a b t).1) ^ 2 + (p.2 - (along a b t).2) ^ 2 =
      ((p.1 - (along a b (ufac p a b)).1) ^ 2 + (p.2 - (along a b (ufac p a b)).2) ^ 2) +
      ((b.1 - a.1) * (b.1 - a.1) + (b.2 - a.2) * (b.2 - a.2)) * (t - ufac p a b) ^ 2 := by
  have hd := (den_pos h).ne'
  have hu : ufac p a b * ((b.1 - a.1) * (b.1 - a.1) + (b.2 - a.2) * (b.2 - a.2)) =
      (p.1 - a.1) * (b.1 - a.1) + (p.2 - a.2) * (b.2 - a.2) := by
    unfold ufac; rw [div_mul_cancel₀ _ hd]
  obtain ⟨u, hu'⟩ : ∃ u, u = ufac p a b := ⟨_, rfl⟩
  rw [← hu'] at hu ⊢
  simp only [along]
  linear_combination (2 * (t - u)) * hu

/-- the parameter the code chooses -/
noncomputable def clampU (p a b : ℝ × ℝ) : ℝ := if ufac p a b < 0 then 0 else if 1 < ufac p a b then 1 else ufac p a b

theorem clampU_mem (p a b : ℝ × ℝ) : 0 ≤ clampU p a b ∧ clampU p a b ≤ 1 := by
  unfold clampU
  split_ifs with h1 h2
  · exact ⟨le_rfl, zero_le_one⟩
  · exact ⟨zero_le_one, le_rfl⟩
  · exact ⟨not_lt.1 h1, not_lt.1 h2⟩

theorem clampU_best (p a b : ℝ × ℝ) {t : ℝ} (h0 : 0 ≤ t) (h1 : t ≤ 1) : (clampU p a b - ufac p a b) ^ 2 ≤ (t - ufac p a b) ^ 2 := by
  unfold clampU
  split_ifs with h2 h3
  · nlinarith
  · nlinarith
  · rw [sub_self]; nlinarith [sq_nonneg (t - ufac p a b)]

theorem toSegment_fin (p a b : ℝ × ℝ) (h : a ≠ b) {srid : Int} (hs : srid ≠ 4326) :
    PointToSegmentDistance (pt p) (pt a) (pt b) srid =
      (.fin (eucl p (along a b (clampU p a b))), pt (along a b (clampU p a b))) := by
  unfold PointToSegmentDistance
  rw [footFactor_fin _ _ _ h]
  simp only [GoFloat.gt, XR.fin_lit, XR.fin_lt, Nat.cast_zero, Nat.cast_one, decide_eq_true_eq, footPoint_fin]
  have : (if ufac p a b < 0 then pt a else if 1 < ufac p a b then pt b else pt (along a b (ufac p a b))) = pt (along a b (clampU p a b)) := by
    unfold clampU
    split_ifs
    · congr 1; simp [along]
    · congr 1; simp [along]
    · rfl
  rw [this, pointDistance_fin _ _ hs]

theorem toSegment_least (p a b : ℝ × ℝ) (h : a ≠ b) (x : ℝ × ℝ) (hx : OnSeg a b x) : eucl p (along a b (clampU p a b)) ≤ eucl p x := by
  obtain ⟨t, h0, h1, rfl⟩ := hx
  unfold eucl
  apply Real.sqrt_le_sqrt
  rw [dist_along p a b h t, dist_along p a b h (clampU p a b)]
  have := mul_le_mul_of_nonneg_left (clampU_best p a b h0 h1) (den_pos h).le
  linarith

/-! ### the nearest segment -/
section
variable {F : Type} [GoMath F] [FloatOrd F]

theorem lt_asymm' {a b : F} (h : lt a b = true) : le b a = false := (lt_iff'.1 h).2.2

theorem lt_false_of_le_false {a b : F} (h : le a b = false) : lt a b = false := by
  by_contra hn
  rw [le_of_lt' (by simpa using hn)] at h; cases h

theorem lt_trans' {a b c : F} (h : lt a b = true) (h' : lt b c = true) : lt a c = true := lt_of_lt_of_le' h (le_of_lt' h')

theorem hitLoop_spec (p : Point F) (srid : Int) (es : List (Point F × Point F)) (i : Nat) (b : Point F × Nat × F) :
    let D := fun e : Point F × Point F => PointToSegmentDistance p e.1 e.2 srid
    let r := hitLoop p srid i b es
    (r = b ∧ ∀ f ∈ es, lt (D f).1 b.2.2 = false) ∨
    (∃ (k : Nat) (e : Point F × Point F), es[k]? = some e ∧ r = ((D e).2, i + k, (D e).1) ∧ lt (D e).1 b.2.2 = true ∧
      (∀ f ∈ es, lt (D f).1 (D e).1 = false) ∧ ∀ (j : Nat) (f : Point F × Point F), j < k → es[j]? = some f → le (D f).1 (D e).1 = false) := by
  induction es generalizing i b with
  | nil => left; exact ⟨rfl, by simp⟩
  | cons e0 es ih =>
    obtain ⟨a0, b0⟩ := e0
    intro D r
    have hr : r = hitLoop p srid (i + 1) (if lt (D (a0, b0)).1 b.2.2 then ((D (a0, b0)).2, i, (D (a0, b0)).1) else b) es := rfl
    by_cases h0 : lt (D (a0, b0)).1 b.2.2 = true
    · rw [if_pos h0] at hr
      rw [hr]
      rcases ih (i + 1) ((D (a0, b0)).2, i, (D (a0, b0)).1) with ⟨h1, h2⟩ | ⟨k, e, h1, h2, h3, h4, h5⟩
      · right
        refine ⟨0, (a0, b0), rfl, by rw [h1]; rfl, h0, ?_, by intro j f hj; omega⟩
        intro f hf
        rcases List.mem_cons.1 hf with rfl | hf
        · exact lt_irrefl' _
        · exact h2 f hf
      · right
        refine ⟨k + 1, e, by simpa using h1, by rw [h2]; congr 2; omega, lt_trans' h3 h0, ?_, ?_⟩
        · intro f hf
          rcases List.mem_cons.1 hf with rfl | hf
          · exact lt_false_of_le_false (lt_asymm' h3)
          · exact h4 f hf
        · intro j f hj hf
          cases j with
          | zero =>
            have : (a0, b0) = f := by simpa using hf
            subst this; exact lt_asymm' h3
          | succ j => exact h5 j f (by omega) (by simpa using hf)
    · rw [if_neg h0] at hr
      rw [hr]
      rcases ih (i + 1) b with ⟨h1, h2⟩ | ⟨k, e, h1, h2, h3, h4, h5⟩
      · left
        refine ⟨h1, ?_⟩
        intro f hf
        rcases List.mem_cons.1 hf with rfl | hf
        · simpa using h0
        · exact h2 f hf
      · right
        have hle : le (D (a0, b0)).1 (D e).1 = false := by
          by_contra hn
          exact h0 (lt_of_le_of_lt' (by simpa using hn) h3)
        refine ⟨k + 1, e, by simpa using h1, by rw [h2]; congr 2; omega, h3, ?_, ?_⟩
        · intro f hf
          rcases List.mem_cons.1 hf with rfl | hf
          · exact lt_false_of_le_false hle
          · exact h4 f hf
        · intro j f hj hf
          cases j with
          | zero =>
            have : (a0, b0) = f := by simpa using hf
            subst this; exact hle
          | succ j => exact h5 j f (by omega) (by simpa using hf)

theorem edges_getElem? {α : Type} (l : List α) (i : Nat) (e : α × α) : (edges l)[i]? = some e ↔ l[i]? = some e.1 ∧ l[i+1]? = some e.2 := by
  induction l generalizing i with
  | nil => simp [edges]
  | cons a l ih => cases l with
    | nil => simp [edges]
    | cons b l =>
      cases i with
      | zero => simp [edges]; constructor
                · rintro rfl; exact ⟨rfl, rfl⟩
                · rintro ⟨rfl, rfl⟩; rfl
      | succ i => rw [edges, List.getElem?_cons_succ, ih]; simp

end

/-! ### degenerate edges do not hide points -/
section
variable {K : Type} [Field K] [LinearOrder K] [IsStrictOrderedRing K]

theorem head_on_edge (a : K × K) (l : List (K × K)) (h : ∃ e ∈ edges (a :: l), e.1 ≠ e.2) :
    ∃ f ∈ edges (a :: l), f.1 ≠ f.2 ∧ OnSeg f.1 f.2 a := by
  induction l generalizing a with
  | nil => obtain ⟨e, he, _⟩ := h; simp [edges] at he
  | cons b l ih =>
    by_cases hab : a = b
    · subst hab
      obtain ⟨f, hf, h1, h2⟩ := ih a (by
        obtain ⟨e, he, hne⟩ := h
        rw [edges] at he
        rcases List.mem_cons.1 he with rfl | he
        · exact absurd rfl hne
        · exact ⟨e, he, hne⟩)
      exact ⟨f, by rw [edges]; exact List.mem_cons_of_mem _ hf, h1, h2⟩
    · exact ⟨(a, b), by rw [edges]; exact List.mem_cons_self, hab, 0, le_rfl, zero_le_one, by simp [along]⟩

theorem degenerate_covered (l : List (K × K)) (h : ∃ e ∈ edges l, e.1 ≠ e.2) :
    ∀ e ∈ edges l, ∀ x, OnSeg e.1 e.2 x → ∃ f ∈ edges l, f.1 ≠ f.2 ∧ OnSeg f.1 f.2 x := by
  intro e he x hx
  by_cases hne : e.1 = e.2
  · have hxe : x = e.1 := by
      obtain ⟨t, _, _, rfl⟩ := hx
      unfold along; rw [← hne]; simp
    subst hxe
    clear hx
    induction l with
    | nil => simp [edges] at he
    | cons a l ih =>
      cases l with
      | nil => simp [edges] at he
      | cons b l =>
        rw [edges] at he
        rcases List.mem_cons.1 he with rfl | he
        · exact head_on_edge a (b :: l) h
        · by_cases hx : ∃ e ∈ edges (b :: l), e.1 ≠ e.2
          · obtain ⟨f, hf, h1, h2⟩ := ih hx he
            exact ⟨f, by rw [edges]; exact List.mem_cons_of_mem _ hf, h1, h2⟩
          · push Not at hx
            have hab : a ≠ b := by
              obtain ⟨g, hg, hgn⟩ := h
              rw [edges] at hg
              rcases List.mem_cons.1 hg with rfl | hg
              · exact hgn
              · exact absurd (hx g hg) hgn
            have hall : ∀ (l : List (K × K)) (b : K × K), (∀ e ∈ edges (b :: l), e.1 = e.2) → ∀ e ∈ edges (b :: l), e.1 = b := by
              intro l
              induction l with
              | nil => intro b _ e he; simp [edges] at he
              | cons d l ih =>
                intro b hb e he
                rw [edges] at he hb
                rcases List.mem_cons.1 he with rfl | he
                · rfl
                · have : b = d := hb (b, d) List.mem_cons_self
                  rw [this]
                  exact ih d (fun e he => hb e (List.mem_cons_of_mem _ he)) e he
            have := hall l b hx e he
            exact ⟨(a, b), by rw [edges]; exact List.mem_cons_self, hab, 1, zero_le_one, le_rfl, by rw [this]; simp [along]⟩
  · exact ⟨e, he, hne, hx⟩

end

/-! ### Hausdorff -/
section

theorem minDisTo_fin (p : ℝ × ℝ) {srid : Int} (hs : srid ≠ 4326) (m : List (ℝ × ℝ)) :
    ∃ r, minDisTo (pt p) srid (m.map pt) = .fin r ∧ (∀ q ∈ m, r ≤ eucl p q) ∧ r ≤ 2 ^ 31 ∧ (r = 2 ^ 31 ∨ ∃ q ∈ m, r = eucl p q) := by
  unfold minDisTo
  have key : ∀ (m : List (ℝ × ℝ)) (M : ℝ), ∃ r, (m.map pt).foldl (fun minDis pt2 =>
      if gt minDis (PointDistance (pt p) pt2 srid) then PointDistance (pt p) pt2 srid else minDis) (.fin M : XR ℝ) = .fin r ∧
      (∀ q ∈ m, r ≤ eucl p q) ∧ r ≤ M ∧ (r = M ∨ ∃ q ∈ m, r = eucl p q) := by
    intro m
    induction m with
    | nil => intro M; exact ⟨M, rfl, by simp, le_rfl, Or.inl rfl⟩
    | cons q m ih =>
      intro M
      rw [List.map_cons, List.foldl_cons, pointDistance_fin _ _ hs]
      simp only [GoFloat.gt, XR.fin_lt, decide_eq_true_eq]
      by_cases h : eucl p q < M
      · rw [if_pos h]
        obtain ⟨r, h1, h2, h3, h4⟩ := ih (eucl p q)
        refine ⟨r, h1, ?_, by linarith, ?_⟩
        · intro q' hq'
          rcases List.mem_cons.1 hq' with rfl | hq'
          · exact h3
          · exact h2 q' hq'
        · right
          rcases h4 with h4 | ⟨q', hq', h4⟩
          · exact ⟨q, List.mem_cons_self, h4⟩
          · exact ⟨q', List.mem_cons_of_mem _ hq', h4⟩
      · rw [if_neg h]
        obtain ⟨r, h1, h2, h3, h4⟩ := ih M
        refine ⟨r, h1, ?_, h3, ?_⟩
        · intro q' hq'
          rcases List.mem_cons.1 hq' with rfl | hq'
          · exact h3.trans (not_lt.1 h)
          · exact h2 q' hq'
        · rcases h4 with h4 | ⟨q', hq', h4⟩
          · exact Or.inl h4
          · exact Or.inr ⟨q', List.mem_cons_of_mem _ hq', h4⟩
  have e : (INF : XR ℝ) = .fin (2 ^ 31) := by
    show (lit (2 ^ 31) : XR ℝ) = _
    rw [XR.fin_lit]; norm_num
  rw [e]
  exact key m _

theorem hausdorffPass_fin {srid : Int} (hs : srid ≠ 4326) (l m : List (ℝ × ℝ)) (hm : m ≠ [])
    (hlt : ∀ p ∈ l, ∀ q ∈ m, eucl p q < 2 ^ 31) (M : ℝ) :
    ∃ R, hausdorffPass srid (.fin M) (l.map pt) (m.map pt) = .fin R ∧ M ≤ R ∧ (∀ p ∈ l, ∃ q ∈ m, eucl p q ≤ R) ∧
      (R = M ∨ ∃ p ∈ l, ∀ q ∈ m, R ≤ eucl p q) := by
  unfold hausdorffPass
  induction l generalizing M with
  | nil => exact ⟨M, rfl, le_rfl, by simp, Or.inl rfl⟩
  | cons p l ih =>
    rw [List.map_cons, List.foldl_cons]
    obtain ⟨r, h1, h2, h3, h4⟩ := minDisTo_fin p hs m
    have hr : ∃ q ∈ m, r = eucl p q := by
      rcases h4 with h4 | h4
      · obtain ⟨q, hq⟩ := List.exists_mem_of_ne_nil m hm
        have := hlt p List.mem_cons_self q hq
        have := h2 q hq
        linarith
      · exact h4
    obtain ⟨q0, hq0, hr0⟩ := hr
    have hINF : (INF : XR ℝ) = .fin (2 ^ 31) := by
      show (lit (2 ^ 31) : XR ℝ) = _
      rw [XR.fin_lit]; norm_num
    have hne : r ≠ 2 ^ 31 := by
      have := hlt p List.mem_cons_self q0 hq0
      rw [hr0]; exact this.ne
    have hstep : (let minDis := minDisTo (pt p) srid (m.map pt)
        if lt (XR.fin M) minDis && ne minDis INF then minDis else .fin M) = if M < r then .fin r else .fin M := by
      simp only [h1, hINF, GoFloat.ne, XR.fin_lt, XR.fin_eq, hne, decide_false, Bool.not_false, Bool.and_true, decide_eq_true_eq]
    rw [hstep]
    by_cases h : M < r
    · rw [if_pos h]
      obtain ⟨R, g1, g2, g3, g4⟩ := ih (fun p hp => hlt p (List.mem_cons_of_mem _ hp)) r
      refine ⟨R, g1, by linarith, ?_, ?_⟩
      · intro p' hp'
        rcases List.mem_cons.1 hp' with rfl | hp'
        · exact ⟨q0, hq0, by rw [← hr0]; exact g2⟩
        · exact g3 p' hp'
      · right
        rcases g4 with g4 | ⟨p', hp', g4⟩
        · exact ⟨p, List.mem_cons_self, fun q hq => by rw [g4]; exact h2 q hq⟩
        · exact ⟨p', List.mem_cons_of_mem _ hp', g4⟩
    · rw [if_neg h]
      obtain ⟨R, g1, g2, g3, g4⟩ := ih (fun p hp => hlt p (List.mem_cons_of_mem _ hp)) M
      refine ⟨R, g1, g2, ?_, ?_⟩
      · intro p' hp'
        rcases List.mem_cons.1 hp' with rfl | hp'
        · exact ⟨q0, hq0, by rw [← hr0]; linarith⟩
        · exact g3 p' hp'
      · rcases g4 with g4 | ⟨p', hp', g4⟩
        · exact Or.inl g4
        · exact Or.inr ⟨p', List.mem_cons_of_mem _ hp', g4⟩

end
end GoGeo
