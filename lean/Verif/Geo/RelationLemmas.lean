import Verif.Geo.Relation
import Verif.Geo.MeasureLemmas
import Verif.Spec.Relation
import Mathlib.Tactic.Linarith
import Mathlib.Algebra.Order.Ring.Abs

set_option linter.unusedSectionVars false

namespace GoGeo
open GoFloat Spec

/-! ### edges -/
section
variable {α β : Type}

theorem segments_eq : ∀ l : List α, segments l = edges l
  | [] => rfl
  | [_] => rfl
  | a :: b :: l => by
    have := segments_eq (b :: l)
    simp only [segments, edges, List.tail_cons, List.zip_cons_cons] at this ⊢
    rw [this]

theorem edges_map (f : α → β) (l : List α) : edges (l.map f) = (edges l).map (Prod.map f f) := by
  induction l with
  | nil => rfl
  | cons a l ih => cases l with
    | nil => rfl
    | cons b l => simpa [edges, Prod.map] using ih

theorem edges_snoc2 (l : List α) (x y : α) : edges (l ++ [x, y]) = edges (l ++ [x]) ++ [(x, y)] := by
  induction l with
  | nil => rfl
  | cons a l ih => cases l with
    | nil => rfl
    | cons b l => simpa [edges] using ih

theorem edges_reverse (l : List α) : edges l.reverse = ((edges l).map Prod.swap).reverse := by
  induction l with
  | nil => rfl
  | cons a l ih => cases l with
    | nil => rfl
    | cons b l =>
      have : (a :: b :: l).reverse = l.reverse ++ [b, a] := by simp
      rw [this, edges_snoc2]
      have e : l.reverse ++ [b] = (b :: l).reverse := by simp
      rw [e, ih]
      simp [edges]

theorem edges_zip (a : α) (l : List α) (x : α) : edges (a :: l ++ [x]) = (a :: l).zip (l ++ [x]) := by
  induction l generalizing a with
  | nil => rfl
  | cons b l ih =>
    have := ih b
    simp only [List.cons_append] at this ⊢
    rw [edges, this]; rfl

theorem edges_closed (c : List α) : edges (c ++ c.take 1) = sides c := by
  cases c with
  | nil => rfl
  | cons a l =>
    show edges (a :: l ++ [a]) = _
    rw [edges_zip]
    unfold sides
    rw [List.rotate_cons_succ]; simp

theorem edges_length (l : List α) : (edges l).length = l.length - 1 := by
  induction l with
  | nil => rfl
  | cons a l ih => cases l with
    | nil => rfl
    | cons b l => simp only [edges, List.length_cons] at ih ⊢; omega

theorem mem_edges (l : List α) (e : α × α) : e ∈ edges l ↔ ∃ (i : Nat), l[i]? = some e.1 ∧ l[i+1]? = some e.2 := by
  induction l with
  | nil => simp [edges]
  | cons a l ih => cases l with
    | nil => simp [edges]
    | cons b l =>
      rw [edges, List.mem_cons, ih]
      constructor
      · rintro (h | ⟨i, h1, h2⟩)
        · exact ⟨0, by simp [h], by simp [h]⟩
        · exact ⟨i + 1, by simpa using h1, by simpa using h2⟩
      · rintro ⟨i, h1, h2⟩
        cases i with
        | zero => left; simp at h1 h2; exact Prod.ext h1.symm h2.symm
        | succ i => right; exact ⟨i, by simpa using h1, by simpa using h2⟩

theorem sides_rotate_perm (c : List α) (k : ℕ) : (sides (c.rotate k)).Perm (sides c) := by
  unfold sides
  rw [List.rotate_rotate, Nat.add_comm, ← List.rotate_rotate]
  have : (c.rotate k).zip ((c.rotate 1).rotate k) = (c.zip (c.rotate 1)).rotate k := by
    unfold List.zip; rw [List.zipWith_rotate_distrib _ _ _ _ (by simp)]
  rw [this]
  exact List.rotate_perm _ _

theorem mem_sides (c : List α) (e : α × α) : e ∈ sides c ↔ ∃ (i : Nat), c[i]? = some e.1 ∧ c[(i+1) % c.length]? = some e.2 ∧ i < c.length := by
  unfold sides
  rw [List.mem_iff_getElem?]
  constructor
  · rintro ⟨i, h⟩
    obtain ⟨h1, h2⟩ := List.getElem?_zip_eq_some.1 h
    have hi : i < c.length := by
      by_contra hn
      rw [List.getElem?_eq_none (by omega)] at h1; simp at h1
    rw [List.getElem?_rotate hi] at h2
    exact ⟨i, h1, h2, hi⟩
  · rintro ⟨i, h1, h2, hi⟩
    exact ⟨i, List.getElem?_zip_eq_some.2 ⟨h1, by rw [List.getElem?_rotate hi]; exact h2⟩⟩

theorem sides_mem_left {c : List α} {e : α × α} (h : e ∈ sides c) : e.1 ∈ c := by
  obtain ⟨i, h1, _, _⟩ := (mem_sides c e).1 h
  exact List.mem_of_getElem? h1

theorem sides_mem_right {c : List α} {e : α × α} (h : e ∈ sides c) : e.2 ∈ c := by
  obtain ⟨i, _, h2, _⟩ := (mem_sides c e).1 h
  exact List.mem_of_getElem? h2

/-- every corner has a side coming in and one going out, with three different corners -/
theorem corner_sides {c : List α} (hl : 3 ≤ c.length) (hn : c.Nodup) {v : α} (hv : v ∈ c) :
    ∃ u w, (u, v) ∈ sides c ∧ (v, w) ∈ sides c ∧ w ≠ u ∧ w ≠ v ∧ u ≠ v := by
  obtain ⟨i, hi, rfl⟩ := List.mem_iff_getElem.1 hv
  have hpos : 0 < c.length := by omega
  have h1 : (i + 1) % c.length < c.length := Nat.mod_lt _ hpos
  have h2 : (i + (c.length - 1)) % c.length < c.length := Nat.mod_lt _ hpos
  have h3 : ((i + (c.length - 1)) % c.length + 1) % c.length = i := by
    rw [Nat.mod_add_mod, show i + (c.length - 1) + 1 = i + c.length by omega, Nat.add_mod_right, Nat.mod_eq_of_lt hi]
  have e1 : (i + 1) % c.length = if i + 1 = c.length then 0 else i + 1 := by
    split
    · rename_i h; rw [h, Nat.mod_self]
    · rw [Nat.mod_eq_of_lt (by omega)]
  have e2 : (i + (c.length - 1)) % c.length = if i = 0 then c.length - 1 else i - 1 := by
    split
    · rename_i h; rw [h, Nat.zero_add, Nat.mod_eq_of_lt (by omega)]
    · rw [show i + (c.length - 1) = (i - 1) + c.length by omega, Nat.add_mod_right, Nat.mod_eq_of_lt (by omega)]
  refine ⟨c[(i + (c.length - 1)) % c.length], c[(i + 1) % c.length], ?_, ?_, ?_, ?_, ?_⟩
  · refine (mem_sides _ _).2 ⟨(i + (c.length - 1)) % c.length, by simp, ?_, h2⟩
    simp [h3]
  · refine (mem_sides _ _).2 ⟨i, by simp, by simp [h1], hi⟩
  all_goals
    intro h
    have := (hn.getElem_inj_iff).1 h
    simp only [e1, e2] at this
    split_ifs at this <;> omega

/-- a side is determined by its start in a ring of distinct corners -/
theorem side_unique {c : List α} (hn : c.Nodup) {a b b' : α} (h : (a, b) ∈ sides c) (h' : (a, b') ∈ sides c) : b = b' := by
  obtain ⟨i, h1, h2, hi⟩ := (mem_sides _ _).1 h
  obtain ⟨j, h3, h4, hj⟩ := (mem_sides _ _).1 h'
  simp only [List.getElem?_eq_getElem hi, List.getElem?_eq_getElem hj, Option.some.injEq] at h1 h3
  have : i = j := (hn.getElem_inj_iff).1 (h1.trans h3.symm)
  subst this
  rw [h2] at h4; exact Option.some.inj h4

theorem sides_nodup {c : List α} (hn : c.Nodup) : (sides c).Nodup := by
  have : (sides c).map Prod.fst = c := by unfold sides; rw [List.map_fst_zip]; simp
  exact List.Nodup.of_map _ (this ▸ hn)

/-- a property kept along every side is constant on the ring -/
theorem ring_const {c : List α} (P : α → Prop) (h : ∀ e ∈ sides c, P e.1 ↔ P e.2) : ∀ v ∈ c, ∀ w ∈ c, P v → P w := by
  have key : ∀ (i : Nat) (hi : i < c.length), P c[i] ↔ P (c[0]'(by omega)) := by
    intro i
    induction i with
    | zero => intro _; rfl
    | succ i ih =>
      intro hi
      rw [← ih (by omega)]
      have := h (c[i], c[i+1]) ((mem_sides _ _).2 ⟨i, by simp, by simp [Nat.mod_eq_of_lt hi], by omega⟩)
      exact this.symm
  intro v hv w hw
  obtain ⟨i, hi, rfl⟩ := List.mem_iff_getElem.1 hv
  obtain ⟨j, hj, rfl⟩ := List.mem_iff_getElem.1 hw
  rw [key i hi, key j hj]; exact id

end

/-! ### the loop -/
section
variable {F : Type} [GoFloat F]

theorem inPolyLoop_eq (p : Point F) (b : Bool) (es : List (Point F × Point F)) :
    inPolyLoop p b es = if es.any (fun e => IsPointOnSegment e.1 e.2 p) then .touch
      else if (b ^^ decide (es.countP (fun e => crossesRay p e.1 e.2) % 2 = 1)) then .contain else .disjoint := by
  induction es generalizing b with
  | nil => simp [inPolyLoop]
  | cons e es ih =>
    obtain ⟨p1, p2⟩ := e
    rw [inPolyLoop]
    by_cases h : IsPointOnSegment p1 p2 p = true
    · simp [h]
    · rw [if_neg h, ih]
      simp only [List.any_cons, List.countP_cons, h, Bool.false_or, Bool.not_eq_true] at *
      by_cases hc : crossesRay p p1 p2 = true
      · simp only [hc, if_true]
        have : decide ((es.countP (fun e => crossesRay p e.1 e.2) + 1) % 2 = 1) =
            !decide (es.countP (fun e => crossesRay p e.1 e.2) % 2 = 1) := by
          rcases Nat.mod_two_eq_zero_or_one (es.countP (fun e => crossesRay p e.1 e.2)) with h2 | h2
          · rw [h2, show (es.countP (fun e => crossesRay p e.1 e.2) + 1) % 2 = 1 by omega]; rfl
          · rw [h2, show (es.countP (fun e => crossesRay p e.1 e.2) + 1) % 2 = 0 by omega]; rfl
        rw [this]
        cases b <;> simp [Bool.xor]
      · simp only [hc]; rfl

end

/-! ### exact arithmetic -/
section
variable {K : Type} [Field K] [LinearOrder K] [IsStrictOrderedRing K]

theorem eps_pos : (0 : K) < eps := by unfold eps; positivity

theorem coordpresion_fin : (COORDPRESION : XR K) = .fin eps := by
  show (dec 1 6 : XR K) = _
  rw [XR.fin_dec]; simp [eps]

theorem dcmp_pos (x : K) : dcmp (.fin x : XR K) > 0 ↔ eps ≤ x := by
  have he := eps_pos (K := K)
  unfold dcmp GoFloat.gt
  rw [coordpresion_fin, XR.fin_abs, XR.fin_lit, XR.fin_lt, XR.fin_lt, XR.fin_lt, Nat.cast_zero]
  simp only [decide_eq_true_eq]
  split_ifs with h1 h2 h3
  · simp only [gt_iff_lt, lt_self_iff_false, false_iff, not_le]
    exact lt_of_le_of_lt (le_abs_self x) h1
  · rw [abs_of_pos h2] at h1
    simpa using h1
  · simp only [gt_iff_lt, Left.neg_pos_iff, not_lt.2 Int.one_nonneg, false_iff, not_le]; linarith
  · simp only [gt_iff_lt, lt_self_iff_false, false_iff, not_le]; linarith

theorem dcmp_neg (x : K) : dcmp (.fin x : XR K) < 0 ↔ x ≤ -eps := by
  have he := eps_pos (K := K)
  unfold dcmp GoFloat.gt
  rw [coordpresion_fin, XR.fin_abs, XR.fin_lit, XR.fin_lt, XR.fin_lt, XR.fin_lt, Nat.cast_zero]
  simp only [decide_eq_true_eq]
  split_ifs with h1 h2 h3
  · simp only [lt_self_iff_false, false_iff, not_le]
    exact (abs_lt.1 h1).1
  · simp only [Int.one_nonneg, not_lt.2, false_iff, not_le]; linarith
  · rw [abs_of_neg h3] at h1
    simp only [Int.neg_neg_iff_pos, Int.zero_lt_one, true_iff]; linarith
  · have : x = 0 := le_antisymm (not_lt.1 h2) (not_lt.1 h3)
    rw [this, abs_zero] at h1
    exact absurd he h1

/-- where the line through `a` and `b` has height `y` -/
def xAt (y : K) (a b : K × K) : K := a.1 + (y - a.2) * (a.1 - b.1) / (a.2 - b.2)

/-- `crossesRay` for finite exact coordinates -/
theorem crossesRay_fin (p a b : K × K) : crossesRay (pt p) (pt a) (pt b) = true ↔
    ((eps ≤ a.2 - p.2 ∧ b.2 - p.2 < eps) ∨ (a.2 - p.2 < eps ∧ eps ≤ b.2 - p.2)) ∧ p.1 + eps ≤ xAt p.2 a b := by
  unfold crossesRay pt
  simp only [XR.fin_sub, XR.fin_mul, dcmp_pos, Bool.and_eq_true, decide_eq_true_eq]
  have h1 : ((decide (eps ≤ a.2 - p.2) != decide (eps ≤ b.2 - p.2)) = true) ↔
      ((eps ≤ a.2 - p.2 ∧ b.2 - p.2 < eps) ∨ (a.2 - p.2 < eps ∧ eps ≤ b.2 - p.2)) := by
    simp only [← not_le]
    by_cases h : eps ≤ a.2 - p.2 <;> by_cases h' : eps ≤ b.2 - p.2 <;> simp [h, h']
  rw [h1]
  refine and_congr_right fun h => ?_
  have hne : a.2 - b.2 ≠ 0 := by
    rcases h with h | h
    · intro e; linarith
    · intro e; linarith
  rw [XR.fin_div _ _ hne, XR.fin_sub, XR.fin_sub, dcmp_neg]
  unfold xAt
  constructor <;> intro h <;> linarith

theorem isPointOnSegment_fin (a b p : K × K) : IsPointOnSegment (pt a) (pt b) (pt p) = true ↔
    p = (0, 0) ∧ turn a b p = 0 := by
  unfold IsPointOnSegment pt turn
  simp only [XR.fin_sub, XR.fin_mul, XR.fin_eq]
  have hb : IsPointInBox (BoundingBox (.ptr 0 (.lineString [⟨.fin a.1, .fin a.2⟩, ⟨.fin b.1, .fin b.2⟩]))) (⟨.fin p.1, .fin p.2⟩ : Point (XR K)) = true
      ↔ p = (0, 0) := by
    show (GoFloat.le (lit 0 : XR K) (.fin p.1) && GoFloat.le (.fin p.1) (lit 0 : XR K) && GoFloat.le (lit 0 : XR K) (.fin p.2) &&
      GoFloat.le (.fin p.2) (lit 0 : XR K)) = true ↔ _
    rw [XR.fin_lit, XR.fin_le, XR.fin_le, XR.fin_le, XR.fin_le, Nat.cast_zero]
    simp only [Bool.and_eq_true, decide_eq_true_eq]
    constructor
    · rintro ⟨⟨⟨h1, h2⟩, h3⟩, h4⟩
      exact Prod.ext (le_antisymm h2 h1) (le_antisymm h4 h3)
    · rintro rfl; simp
  simp only [Bool.if_false_right, Bool.and_true, Bool.and_eq_true, decide_eq_true_eq, hb]
  constructor
  · rintro ⟨h1, h2⟩; exact ⟨h2, by linarith⟩
  · rintro ⟨h1, h2⟩; exact ⟨by linarith, h1⟩

end
end GoGeo
