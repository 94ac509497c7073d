import Verif.Props.SimplifyTwice
import Verif.Props.Rounding
import Verif.Spec.SelfAvoiding

/-!
# C154: simplification and crossings (float64)
-/

set_option linter.unusedSectionVars false

namespace GoGeo
open GoFloat Spec FloatVal

/-- a line that advances in some direction does not meet itself -/
theorem advances_selfAvoiding {K : Type} [Field K] [LinearOrder K] [IsStrictOrderedRing K] {u : K × K} {l : List (K × K)} (h : Advances u l) : SelfAvoiding l := by
  have key : ∀ (i j : Nat) (p q : K × K), i < j → l[i]? = some p → l[j]? = some q → u.1 * p.1 + u.2 * p.2 < u.1 * q.1 + u.2 * q.2 := by
    intro i j p q hij hp hq
    obtain ⟨h1, rfl⟩ := List.getElem?_eq_some_iff.1 hp
    obtain ⟨h2, rfl⟩ := List.getElem?_eq_some_iff.1 hq
    exact List.pairwise_iff_getElem.1 h i j h1 h2 hij
  rintro i j a b c d x hij ha hb hc hd ⟨s, s0, s1, rfl⟩ ⟨t, t0, t1, ht⟩
  have hab := key i (i + 1) a b (by omega) ha hb
  have hcd := key j (j + 1) c d (by omega) hc hd
  have e1 : u.1 * (along a b s).1 + u.2 * (along a b s).2 = (u.1 * a.1 + u.2 * a.2) + s * ((u.1 * b.1 + u.2 * b.2) - (u.1 * a.1 + u.2 * a.2)) := by
    unfold along; ring
  have e2 : u.1 * (along c d t).1 + u.2 * (along c d t).2 = (u.1 * c.1 + u.2 * c.2) + t * ((u.1 * d.1 + u.2 * d.2) - (u.1 * c.1 + u.2 * c.2)) := by
    unfold along; ring
  rw [← ht, e1] at e2
  have g1 := mul_nonneg (sub_nonneg.2 s1) (sub_pos.2 hab).le
  have g2 := mul_nonneg t0 (sub_pos.2 hcd).le
  rcases Nat.lt_or_ge (i + 1) j with hj | hj
  · have := key (i + 1) j b c hj hb hc
    exfalso; nlinarith
  · obtain rfl : j = i + 1 := by omega
    obtain rfl : b = c := by rw [hb] at hc; exact Option.some.inj hc
    refine ⟨rfl, ?_⟩
    have hs : s = 1 := by
      by_contra hne
      have : 0 < (1 - s) * ((u.1 * b.1 + u.2 * b.2) - (u.1 * a.1 + u.2 * a.2)) := mul_pos (sub_pos.2 (lt_of_le_of_ne s1 hne)) (sub_pos.2 hab)
      nlinarith
    subst hs
    unfold along; ext <;> simp

theorem forall₂_sublist {α β : Type} {R : α → β → Prop} {a : List α} {b : List β} (h : List.Forall₂ R a b) {a' : List α} (hs : a'.Sublist a) :
    ∃ b', b'.Sublist b ∧ List.Forall₂ R a' b' := by
  induction hs generalizing b with
  | slnil => exact ⟨[], List.nil_sublist _, .nil⟩
  | cons x _ ih =>
    cases h with
    | cons h1 h2 =>
      obtain ⟨b', g1, g2⟩ := ih h2
      exact ⟨b', g1.cons _, g2⟩
  | cons_cons x _ ih =>
    cases h with
    | cons h1 h2 =>
      obtain ⟨b', g1, g2⟩ := ih h2
      exact ⟨_ :: b', g1.cons_cons _, .cons h1 g2⟩

/-- **C154 (partial).** A line that advances in some direction (the graph of a function, a profile, a track that never turns back) stays such a line when it is
simplified, whatever the threshold, and so never meets itself. -/
theorem C154_advances_partial (srt : GoSort) (hsrt : SortOk srt) (grow : Nat → Nat → Nat) (m : Mem (Point Float)) (line : Slice) (hv : m.Valid line) (t : Float)
    (ht : 0 ≤ t) (srid : Int) (l : List (ℚ × ℚ)) (hl : List.Forall₂ At (m.read line) l) (hlen : 2 ≤ l.length) (u : ℚ × ℚ) (hu : Advances u l) :
    ∃ n, ∀ fuel, n ≤ fuel → ∃ m' line' l', DouglasPeuckerSimplify srt grow fuel m line t srid = .ok (m', line') ∧ List.Forall₂ At (m'.read line') l' ∧
      l'.Sublist l ∧ Advances u l' ∧ SelfAvoiding l' := by
  have hle : le (lit 0 : Float) t = true := ht
  obtain ⟨n, h⟩ := C46_simplify srt hsrt grow m line hv t srid ((lt_false_iff (FloatOrd.le_right _ _ hle) (FloatOrd.le_left _ _ hle)).2 hle)
    (by rw [hl.length_eq]; exact hlen)
  refine ⟨n, fun fuel hf => ?_⟩
  obtain ⟨m', line', h1, -, h3, -⟩ := h fuel hf
  obtain ⟨l', g1, g2⟩ := forall₂_sublist hl (simplifies_sublist h3)
  have hu' : Advances u l' := List.Pairwise.sublist g1 hu
  exact ⟨m', line', l', h1, g2, g1, hu', advances_selfAvoiding hu'⟩

/-- non-vacuity: a profile over the x axis -/
example : List.Forall₂ At [fpt 0 0, fpt 1 3, fpt 2 1, fpt 4 0] [((0 : ℚ), (0 : ℚ)), (1, 3), (2, 1), (4, 0)] ∧ Advances (1, 0) [((0 : ℚ), (0 : ℚ)), (1, 3), (2, 1), (4, 0)] := by
  refine ⟨?_, ?_⟩
  · simpa using (fpt_all 4 (by norm_num) [(0, 0), (1, 3), (2, 1), (4, 0)] (by decide)).imp fun _ _ h => h.1
  · unfold Advances; decide +kernel

/-- **C154 is false in general**: the line `(0,0) (5,1) (10,0) (10,-5) (5,-5) (5,0.5)` does not meet itself; simplified with threshold 1.5 its last segment
crosses its first one. -/
theorem C154_crossing_false :
    SelfAvoiding [((0 : ℚ), (0 : ℚ)), (5, 1), (10, 0), (10, -5), (5, -5), (5, 1 / 2)] ∧
    List.Forall₂ At [⟨0, 0⟩, ⟨5, 1⟩, ⟨10, 0⟩, ⟨10, -5⟩, ⟨5, -5⟩, (⟨5, 0.5⟩ : Point Float)] [((0 : ℚ), (0 : ℚ)), (5, 1), (10, 0), (10, -5), (5, -5), (5, 1 / 2)] ∧
    (DouglasPeuckerSimplify (F := Float) insSort (fun _ _ => 0) 20 ⟨[[⟨0, 0⟩, ⟨5, 1⟩, ⟨10, 0⟩, ⟨10, -5⟩, ⟨5, -5⟩, ⟨5, 0.5⟩]]⟩ ⟨0, 0, 6, 6⟩ 1.5 0).map (fun r => r.1.read r.2) =
      .ok [⟨0, 0⟩, ⟨10, 0⟩, ⟨10, -5⟩, ⟨5, -5⟩, ⟨5, 0.5⟩] ∧
    ¬ SelfAvoiding [((0 : ℚ), (0 : ℚ)), (10, 0), (10, -5), (5, -5), (5, 1 / 2)] := by
  refine ⟨?_, ?_, by decide +kernel, ?_⟩
  · rintro i j a b c d x hij ha hb hc hd ⟨s, s0, s1, rfl⟩ ⟨t, t0, t1, ht⟩
    have hj : j + 1 < 6 := by simpa using (List.getElem?_eq_some_iff.1 hd).1
    have hj' : j < 5 := by omega
    clear hj
    interval_cases j <;> interval_cases i <;> simp only [List.getElem?_cons_succ, List.getElem?_cons_zero, Option.some.injEq] at ha hb hc hd <;> subst ha hb hc hd <;>
      simp only [along, Prod.mk.injEq] at ht ⊢ <;> obtain ⟨h1, h2⟩ := ht
    all_goals first | (exfalso; linarith) | (refine ⟨trivial, ?_, ?_⟩ <;> linarith)
  · simp only [List.forall₂_cons, List.Forall₂.nil, and_true]
    unfold At
    decide +kernel
  · intro h
    have := h 0 3 (0, 0) (10, 0) (5, -5) (5, 1 / 2) (5, 0) (by norm_num) rfl rfl rfl rfl ⟨1 / 2, by norm_num, by norm_num, by norm_num [along]⟩
      ⟨10 / 11, by norm_num, by norm_num, by norm_num [along]⟩
    omega

end GoGeo
