import Verif.Geo.RelationLemmas
import Mathlib.Tactic.LinearCombination

set_option linter.unusedSectionVars false

/-! # Rays and strictly convex rings -/

namespace GoGeo
open Spec

section
variable {α : Type}

theorem countP_swap (A B : α → Bool) (l : List α) :
    l.countP (fun e => !A e && B e) + l.countP A = l.countP (fun e => A e && !B e) + l.countP B := by
  induction l with
  | nil => rfl
  | cons a l ih =>
    simp only [List.countP_cons]
    cases A a <;> cases B a <;> simp <;> omega

/-- a closed ring goes up as often as down -/
theorem up_eq_down (P : α → Bool) (c : List α) :
    (sides c).countP (fun e => !P e.1 && P e.2) = (sides c).countP (fun e => P e.1 && !P e.2) := by
  have h := countP_swap (fun e : α × α => P e.1) (fun e => P e.2) (sides c)
  have h1 : (sides c).countP (fun e : α × α => P e.1) = c.countP P := by
    have : (sides c).map Prod.fst = c := by unfold sides; rw [List.map_fst_zip]; simp
    conv_rhs => rw [← this, List.countP_map]
    rfl
  have h2 : (sides c).countP (fun e : α × α => P e.2) = c.countP P := by
    have : (sides c).map Prod.snd = c.rotate 1 := by unfold sides; rw [List.map_snd_zip]; simp
    rw [← (List.rotate_perm c 1).countP_eq, ← this, List.countP_map]
    rfl
  rw [h1, h2] at h
  omega

theorem countP_split (A B C : α → Bool) (l : List α) (h : ∀ e ∈ l, C e = true → (A e = true ∨ B e = true))
    (hd : ∀ e ∈ l, ¬ (A e = true ∧ B e = true)) :
    l.countP C = l.countP (fun e => A e && C e) + l.countP (fun e => B e && C e) := by
  induction l with
  | nil => rfl
  | cons a l ih =>
    simp only [List.countP_cons]
    rw [ih (fun e he => h e (List.mem_cons_of_mem _ he)) (fun e he => hd e (List.mem_cons_of_mem _ he))]
    have h1 := h a List.mem_cons_self
    have h2 := hd a List.mem_cons_self
    revert h1 h2
    cases A a <;> cases B a <;> cases C a <;> simp <;> omega

theorem countP_le_one (A : α → Bool) (l : List α) (hn : l.Nodup) (h : ∀ e ∈ l, ∀ f ∈ l, A e = true → A f = true → e = f) :
    l.countP A ≤ 1 := by
  induction l with
  | nil => simp
  | cons a l ih =>
    rw [List.nodup_cons] at hn
    rw [List.countP_cons]
    by_cases ha : A a = true
    · have : l.countP A = 0 := by
        rw [List.countP_eq_zero]
        intro b hb hB
        exact hn.1 (h a List.mem_cons_self b (List.mem_cons_of_mem _ hb) ha hB ▸ hb)
      rw [this]; simp [ha]
    · simp only [ha]
      exact ih hn.2 fun e he f hf => h e (List.mem_cons_of_mem _ he) f (List.mem_cons_of_mem _ hf)

end

section
variable {K : Type} [Field K] [LinearOrder K] [IsStrictOrderedRing K]

/-- the point of the side at height `y` -/
theorem xAt_onSeg {y : K} {a b : K × K} (h : (a.2 ≤ y ∧ y < b.2) ∨ (y < a.2 ∧ b.2 ≤ y)) : OnSeg a b (xAt y a b, y) := by
  have hne : b.2 - a.2 ≠ 0 := by rcases h with h | h <;> intro e <;> linarith
  have hne' : a.2 - b.2 ≠ 0 := by intro e; apply hne; linarith
  refine ⟨(y - a.2) / (b.2 - a.2), ?_, ?_, ?_⟩
  · rcases h with h | h
    · exact div_nonneg (by linarith) (by linarith)
    · exact div_nonneg_of_nonpos (by linarith) (by linarith)
  · rcases h with h | h
    · rw [div_le_one (by linarith)]; linarith
    · rw [div_le_one_of_neg (by linarith)]; linarith
  · unfold along xAt
    refine Prod.ext ?_ ?_
    · simp only; congr 1; rw [div_mul_eq_mul_div, div_eq_div_iff hne' hne]; ring
    · simp only; field_simp; ring

/-- `turn` against a point at height `y` -/
theorem turn_xAt (y : K) (a b p : K × K) (hp : p.2 = y) (h : a.2 ≠ b.2) :
    turn a b p = (b.2 - a.2) * (xAt y a b - p.1) := by
  have hne' : a.2 - b.2 ≠ 0 := sub_ne_zero.2 h
  unfold turn xAt
  rw [hp]
  field_simp
  ring

theorem turn_along (a b u v : K × K) (t : K) : turn a b (along u v t) = (1 - t) * turn a b u + t * turn a b v := by
  unfold turn along; ring

theorem turn_self_left (a b : K × K) : turn a b a = 0 := by unfold turn; ring
theorem turn_self_right (a b : K × K) : turn a b b = 0 := by unfold turn; ring

theorem convex_nonneg {c : List (K × K)} (hc : StrictlyConvex c) {e} (he : e ∈ sides c) {v} (hv : v ∈ c) : 0 ≤ turn e.1 e.2 v := by
  by_cases h1 : v = e.1
  · rw [h1, turn_self_left]
  · by_cases h2 : v = e.2
    · rw [h2, turn_self_right]
    · exact (hc.2.2 e he v hv h1 h2).le

/-- boundary points are to the left of or on every side -/
theorem convex_boundary {c : List (K × K)} (hc : StrictlyConvex c) {e f} (he : e ∈ sides c) (hf : f ∈ sides c) {q}
    (hq : OnSeg f.1 f.2 q) : 0 ≤ turn e.1 e.2 q := by
  obtain ⟨t, h0, h1, rfl⟩ := hq
  rw [turn_along]
  have a1 := convex_nonneg hc he (sides_mem_left hf)
  have a2 := convex_nonneg hc he (sides_mem_right hf)
  have := mul_nonneg (sub_nonneg.2 h1) a1
  have := mul_nonneg h0 a2
  linarith

theorem up_unique {c : List (K × K)} (hc : StrictlyConvex c) (y : K) {e f} (he : e ∈ sides c) (hf : f ∈ sides c)
    (he' : e.1.2 ≤ y ∧ y < e.2.2) (hf' : f.1.2 ≤ y ∧ y < f.2.2) : e = f := by
  have ne : e.1.2 ≠ e.2.2 := by intro h; rw [h] at he'; exact absurd he'.2 (not_lt.2 he'.1)
  have nf : f.1.2 ≠ f.2.2 := by intro h; rw [h] at hf'; exact absurd hf'.2 (not_lt.2 hf'.1)
  have h1 := convex_boundary hc he hf (xAt_onSeg (Or.inl hf'))
  have h2 := convex_boundary hc hf he (xAt_onSeg (Or.inl he'))
  rw [turn_xAt y _ _ _ rfl ne] at h1
  rw [turn_xAt y _ _ _ rfl nf] at h2
  have hx : xAt y e.1 e.2 = xAt y f.1 f.2 := by
    apply le_antisymm
    · have := nonneg_of_mul_nonneg_right h2 (by linarith); simp only at this; linarith
    · have := nonneg_of_mul_nonneg_right h1 (by linarith); simp only at this; linarith
  have h3 : turn e.1 e.2 (xAt y f.1 f.2, y) = 0 := by
    rw [turn_xAt y _ _ _ rfl ne, hx]; simp
  have key : f.1 = e.1 := by
    by_contra hne
    have hne2 : f.1 ≠ e.2 := by intro h; rw [h] at hf'; exact absurd hf'.1 (not_le.2 he'.2)
    have p1 := hc.2.2 e he f.1 (sides_mem_left hf) hne hne2
    have p2 := convex_nonneg hc he (sides_mem_right hf)
    obtain ⟨t, t0, t1, ht⟩ := xAt_onSeg (y := y) (a := f.1) (b := f.2) (Or.inl hf')
    rw [ht, turn_along] at h3
    have q1 := mul_nonneg (sub_nonneg.2 t1) p1.le
    have q2 := mul_nonneg t0 p2
    have : (1 - t) * turn e.1 e.2 f.1 = 0 := by linarith
    rcases mul_eq_zero.1 this with h | h
    · have ht1 : t = 1 := by linarith
      have := congrArg Prod.snd ht
      simp only [along, ht1] at this
      linarith [hf'.2]
    · linarith
  have hE : (e.1, e.2) ∈ sides c := he
  have hF : (e.1, f.2) ∈ sides c := key ▸ hf
  exact Prod.ext key.symm (side_unique hc.2.1 hE hF)

/-- three directions around a corner -/
theorem three_cross (d1 d2 q : K × K) :
    d1.2 * (d2.1 * q.2 - d2.2 * q.1) - d2.2 * (d1.1 * q.2 - d1.2 * q.1) + q.2 * (d1.1 * d2.2 - d1.2 * d2.1) = 0 := by ring

theorem corner_facts {c : List (K × K)} (hc : StrictlyConvex c) {p} (hp : InsideConvex c p) {v} (hv : v ∈ c) :
    ∃ u w, u ∈ c ∧ w ∈ c ∧ ∃ x y z : K, 0 < x ∧ 0 < y ∧ 0 < z ∧
      (v.2 - u.2) * x - (w.2 - v.2) * y + (p.2 - v.2) * z = 0 ∧ (v.2 - u.2 = 0 → w.2 - v.2 = 0 → False) := by
  obtain ⟨u, w, h1, h2, n1, n2, n3⟩ := corner_sides hc.1 hc.2.1 hv
  refine ⟨u, w, sides_mem_left h1, sides_mem_right h2, turn v w p, turn u v p, turn u v w, hp _ h2, hp _ h1,
    hc.2.2 _ h1 w (sides_mem_right h2) n1 n2, ?_, ?_⟩
  · unfold turn; ring
  · intro e1 e2
    have := hc.2.2 _ h1 w (sides_mem_right h2) n1 n2
    have hz : turn u v w = 0 := by
      unfold turn
      rw [show w.2 - u.2 = (v.2 - u.2) + (w.2 - v.2) by ring, e1, e2]; ring
    rw [hz] at this; exact lt_irrefl _ this

theorem exists_max (c : List (K × K)) (h : c ≠ []) : ∃ v ∈ c, ∀ w ∈ c, w.2 ≤ v.2 := by
  induction c with
  | nil => exact absurd rfl h
  | cons a c ih =>
    by_cases hc : c = []
    · exact ⟨a, by simp, by simp [hc]⟩
    · obtain ⟨v, hv, hm⟩ := ih hc
      rcases le_total v.2 a.2 with h | h
      · exact ⟨a, by simp, by rintro w (_ | hw); · rfl
                              · rename_i hw; exact (hm w hw).trans h⟩
      · refine ⟨v, List.mem_cons_of_mem _ hv, ?_⟩
        intro w hw
        rcases List.mem_cons.1 hw with rfl | hw
        · exact h
        · exact hm w hw

theorem exists_min (c : List (K × K)) (h : c ≠ []) : ∃ v ∈ c, ∀ w ∈ c, v.2 ≤ w.2 := by
  obtain ⟨v, hv, hm⟩ := exists_max (c.map fun p => (p.1, -p.2)) (by simpa using h)
  obtain ⟨u, hu, rfl⟩ := List.mem_map.1 hv
  refine ⟨u, hu, fun w hw => ?_⟩
  have := hm _ (List.mem_map.2 ⟨w, hw, rfl⟩)
  simpa using this

theorem inside_above {c : List (K × K)} (hc : StrictlyConvex c) {p} (hp : InsideConvex c p) : ∃ v ∈ c, p.2 < v.2 := by
  by_contra hno
  push Not at hno
  obtain ⟨v, hv, hm⟩ := exists_max c (by intro h; have := hc.1; simp [h] at this)
  obtain ⟨u, w, hu, hw, x, y, z, hx, hy, hz, he, hf⟩ := corner_facts hc hp hv
  have a1 : 0 ≤ (v.2 - u.2) * x := mul_nonneg (by linarith [hm u hu]) hx.le
  have a2 : 0 ≤ -((w.2 - v.2) * y) := by
    have := mul_nonneg (show 0 ≤ v.2 - w.2 by linarith [hm w hw]) hy.le; linarith
  have a3 : 0 ≤ (p.2 - v.2) * z := mul_nonneg (by linarith [hno v hv]) hz.le
  have b1 : (v.2 - u.2) * x = 0 := by linarith
  have b2 : (w.2 - v.2) * y = 0 := by linarith
  exact hf ((mul_eq_zero.1 b1).resolve_right hx.ne') ((mul_eq_zero.1 b2).resolve_right hy.ne')

theorem inside_below {c : List (K × K)} (hc : StrictlyConvex c) {p} (hp : InsideConvex c p) : ∃ v ∈ c, v.2 ≤ p.2 := by
  by_contra hno
  push Not at hno
  obtain ⟨v, hv, hm⟩ := exists_min c (by intro h; have := hc.1; simp [h] at this)
  obtain ⟨u, w, hu, hw, x, y, z, hx, hy, hz, he, hf⟩ := corner_facts hc hp hv
  have a1 : 0 ≤ (u.2 - v.2) * x := mul_nonneg (by linarith [hm u hu]) hx.le
  have a2 := mul_nonneg (show 0 ≤ w.2 - v.2 by linarith [hm w hw]) hy.le
  have a3 : 0 < (v.2 - p.2) * z := mul_pos (by linarith [hno v hv]) hz
  linarith

/-! ### the ray test on a ring -/

/-- above the ray's height -/
def abv (p v : K × K) : Bool := decide (p.2 < v.2)
def up (p : K × K) (e : (K × K) × (K × K)) : Bool := !abv p e.1 && abv p e.2
def down (p : K × K) (e : (K × K) × (K × K)) : Bool := abv p e.1 && !abv p e.2
/-- to the right of `p`, by the tolerance -/
def rightOf (p : K × K) (e : (K × K) × (K × K)) : Bool := decide (p.1 + eps ≤ xAt p.2 e.1 e.2)

theorem up_iff (p : K × K) (e) : up p e = true ↔ e.1.2 ≤ p.2 ∧ p.2 < e.2.2 := by simp [up, abv]
theorem down_iff (p : K × K) (e) : down p e = true ↔ p.2 < e.1.2 ∧ e.2.2 ≤ p.2 := by simp [down, abv]

theorem crossesRay_clear {c : List (K × K)} {p : K × K} (h : ClearY c p) {e} (he : e ∈ sides c) :
    crossesRay (pt p) (pt e.1) (pt e.2) = ((up p e || down p e) && rightOf p e) := by
  rw [Bool.eq_iff_iff, crossesRay_fin]
  have he' := eps_pos (K := K)
  simp only [Bool.and_eq_true, Bool.or_eq_true, up_iff, down_iff, rightOf, decide_eq_true_eq]
  have key : ∀ v ∈ c, (eps ≤ v.2 - p.2 ↔ p.2 < v.2) ∧ (v.2 - p.2 < eps ↔ v.2 ≤ p.2) := by
    intro v hv
    rcases h v hv with h | h
    · exact ⟨⟨fun h' => by linarith, fun h' => by linarith⟩, ⟨fun _ => h, fun _ => by linarith⟩⟩
    · exact ⟨⟨fun h' => by linarith, fun h' => by linarith⟩, ⟨fun _ => by linarith, fun _ => by linarith⟩⟩
  have k1 := key _ (sides_mem_left he)
  have k2 := key _ (sides_mem_right he)
  rw [k1.1, k1.2, k2.1, k2.2]
  constructor
  · rintro ⟨h | h, h'⟩
    · exact ⟨Or.inr h, h'⟩
    · exact ⟨Or.inl h, h'⟩
  · rintro ⟨h | h, h'⟩
    · exact ⟨Or.inr h, h'⟩
    · exact ⟨Or.inl h, h'⟩

/-- the number of edges the code counts -/
def hits (p : K × K) (c : List (K × K)) : Nat := (sides c).countP fun e => crossesRay (pt p) (pt e.1) (pt e.2)

theorem hits_clear {c : List (K × K)} {p : K × K} (h : ClearY c p) :
    hits p c = (sides c).countP (fun e => up p e && rightOf p e) + (sides c).countP (fun e => down p e && rightOf p e) := by
  unfold hits
  rw [List.countP_congr (fun e he => by rw [crossesRay_clear h he]), countP_split (up p) (down p)]
  · congr 1
    · apply List.countP_congr; intro e _; cases up p e <;> simp
    · apply List.countP_congr; intro e _; cases down p e <;> simp
  · intro e _ he
    simpa using (Bool.and_eq_true_iff.1 he).1
  · intro e _ he
    rw [up_iff, down_iff] at he
    exact absurd he.1.2 (not_lt.2 he.2.2)

theorem inPoly_ring (p : K × K) (c : List (K × K)) (holes : List (List (Point (XR K)))) :
    IsPointInPolygon (pt p) (ring c :: holes) =
      if p = (0, 0) ∧ ∃ e ∈ sides c, turn e.1 e.2 p = 0 then .touch
      else if hits p c % 2 = 1 then .contain else .disjoint := by
  unfold IsPointInPolygon
  have : edges (GetExteriorRing (ring c :: holes)) = (sides c).map (Prod.map pt pt) := by
    show edges (ring c) = _
    unfold ring
    rw [edges_map, edges_closed]
  rw [this, inPolyLoop_eq, List.any_map, List.countP_map]
  have h1 : ((sides c).any ((fun e => IsPointOnSegment e.1 e.2 (pt p)) ∘ Prod.map pt pt) = true) ↔ (p = (0, 0) ∧ ∃ e ∈ sides c, turn e.1 e.2 p = 0) := by
    rw [List.any_eq_true]
    constructor
    · rintro ⟨e, he, h⟩
      obtain ⟨h1, h2⟩ := (isPointOnSegment_fin e.1 e.2 p).1 h
      exact ⟨h1, e, he, h2⟩
    · rintro ⟨h1, e, he, h2⟩
      exact ⟨e, he, (isPointOnSegment_fin e.1 e.2 p).2 ⟨h1, h2⟩⟩
  simp only [h1, Bool.false_xor, decide_eq_true_eq]
  rfl

theorem hits_inside {c : List (K × K)} (hc : StrictlyConvex c) {p : K × K} (hp : InsideConvex c p) (hx : ClearX c p) (hy : ClearY c p) :
    hits p c = 1 := by
  rw [hits_clear hy]
  have hup : (sides c).countP (fun e => up p e && rightOf p e) = (sides c).countP (up p) := by
    apply List.countP_congr
    intro e he
    constructor
    · intro h; exact (Bool.and_eq_true_iff.1 h).1
    · intro h
      rw [Bool.and_eq_true]; refine ⟨h, ?_⟩
      rw [up_iff] at h
      have hpe := hp e he
      rw [turn_xAt p.2 _ _ _ rfl (by intro e; linarith)] at hpe
      have := pos_of_mul_pos_right hpe (by linarith : (0:K) ≤ e.2.2 - e.1.2)
      have hm := hx e he _ (xAt_onSeg (Or.inl h)) rfl
      simp only [rightOf, decide_eq_true_eq]
      simp only [abs_of_pos this] at hm
      linarith
  have hdn : (sides c).countP (fun e => down p e && rightOf p e) = 0 := by
    rw [List.countP_eq_zero]
    intro e he h
    rw [Bool.and_eq_true, down_iff] at h
    obtain ⟨h, hr⟩ := h
    have hpe := hp e he
    rw [turn_xAt p.2 _ _ _ rfl (by intro e; linarith)] at hpe
    simp only [rightOf, decide_eq_true_eq] at hr
    have he' := eps_pos (K := K)
    have : (e.2.2 - e.1.2) * (xAt p.2 e.1 e.2 - p.1) ≤ 0 := mul_nonpos_of_nonpos_of_nonneg (by linarith) (by linarith)
    linarith
  rw [hup, hdn, Nat.add_zero]
  apply le_antisymm
  · apply countP_le_one _ _ (sides_nodup hc.2.1)
    intro e he f hf h1 h2
    rw [up_iff] at h1 h2
    exact up_unique hc p.2 he hf h1 h2
  · by_contra hlt
    have h0 : (sides c).countP (up p) = 0 := by omega
    have h1 : (sides c).countP (down p) = 0 := by
      have := up_eq_down (abv p) c
      unfold up at h0; unfold down; omega
    obtain ⟨v, hv, hva⟩ := inside_above hc hp
    obtain ⟨w, hw, hwb⟩ := inside_below hc hp
    have := ring_const (fun v : K × K => p.2 < v.2) (c := c) (by
      intro e he
      have e0 := List.countP_eq_zero.1 h0 e he
      have e1 := List.countP_eq_zero.1 h1 e he
      rw [up_iff] at e0; rw [down_iff] at e1
      push Not at e0 e1
      exact ⟨fun h => e1 h, fun h => by by_contra hn; exact absurd h (not_lt.2 (e0 (not_lt.1 hn)))⟩) v hv w hw hva
    exact absurd this (not_lt.2 hwb)

theorem countP_one {α : Type} (A : α → Bool) (l : List α) (h : 0 < l.countP A) : ∃ e ∈ l, A e = true := List.countP_pos_iff.1 h

theorem hits_outside {c : List (K × K)} (hc : StrictlyConvex c) {p : K × K} (hp : OutsideConvex c p) (hx : ClearX c p) (hy : ClearY c p) :
    hits p c % 2 = 0 := by
  rw [hits_clear hy]
  have he0 := eps_pos (K := K)
  have hU : (sides c).countP (up p) ≤ 1 := by
    apply countP_le_one _ _ (sides_nodup hc.2.1)
    intro e he f hf h1 h2
    rw [up_iff] at h1 h2
    exact up_unique hc p.2 he hf h1 h2
  have hD : (sides c).countP (down p) = (sides c).countP (up p) := (up_eq_down (abv p) c).symm
  have lU : (sides c).countP (fun e => up p e && rightOf p e) ≤ (sides c).countP (up p) :=
    List.countP_mono_left fun e _ h => (Bool.and_eq_true_iff.1 h).1
  have lD : (sides c).countP (fun e => down p e && rightOf p e) ≤ (sides c).countP (down p) :=
    List.countP_mono_left fun e _ h => (Bool.and_eq_true_iff.1 h).1
  by_cases h0 : (sides c).countP (up p) = 0
  · omega
  have h1 : (sides c).countP (up p) = 1 := by omega
  obtain ⟨e, he, hue⟩ := countP_one _ _ (show 0 < (sides c).countP (up p) by omega)
  obtain ⟨f, hf, hdf⟩ := countP_one _ _ (show 0 < (sides c).countP (down p) by omega)
  have hue' := (up_iff _ _).1 hue
  have hdf' := (down_iff _ _).1 hdf
  -- the down crossing is not to the right of the up crossing
  have hord : xAt p.2 f.1 f.2 ≤ xAt p.2 e.1 e.2 := by
    have h := convex_boundary hc he hf (xAt_onSeg (Or.inr hdf'))
    rw [turn_xAt p.2 _ _ (xAt p.2 f.1 f.2, p.2) rfl (by intro h; linarith)] at h
    have := nonneg_of_mul_nonneg_right h (by linarith)
    simp only at this; linarith
  -- `p` is not between
  have hnb : ¬ (xAt p.2 f.1 f.2 ≤ p.1 ∧ p.1 ≤ xAt p.2 e.1 e.2) := by
    rintro ⟨b1, b2⟩
    obtain ⟨g, hg, hlt⟩ := hp
    have t1 := convex_boundary hc hg hf (xAt_onSeg (Or.inr hdf'))
    have t2 := convex_boundary hc hg he (xAt_onSeg (Or.inl hue'))
    rcases eq_or_lt_of_le hord with heq | hl
    · have : p = (xAt p.2 f.1 f.2, p.2) := Prod.ext (le_antisymm (by rw [heq]; exact b2) b1) rfl
      rw [← this] at t1; linarith
    · have hlin : (xAt p.2 e.1 e.2 - xAt p.2 f.1 f.2) * turn g.1 g.2 p =
          (xAt p.2 e.1 e.2 - p.1) * turn g.1 g.2 (xAt p.2 f.1 f.2, p.2) + (p.1 - xAt p.2 f.1 f.2) * turn g.1 g.2 (xAt p.2 e.1 e.2, p.2) := by
        unfold turn; ring
      have s1 := mul_nonneg (sub_nonneg.2 b2) t1
      have s2 := mul_nonneg (sub_nonneg.2 b1) t2
      have s3 : (xAt p.2 e.1 e.2 - xAt p.2 f.1 f.2) * turn g.1 g.2 p < 0 := mul_neg_of_pos_of_neg (by linarith) hlt
      linarith
  have me := hx e he _ (xAt_onSeg (Or.inl hue')) rfl
  have mf := hx f hf _ (xAt_onSeg (Or.inr hdf')) rfl
  simp only at me mf
  by_cases hleft : p.1 < xAt p.2 f.1 f.2
  · have r1 : rightOf p e = true := by
      simp only [rightOf, decide_eq_true_eq]
      rw [abs_of_pos (by linarith)] at me; linarith
    have r2 : rightOf p f = true := by
      simp only [rightOf, decide_eq_true_eq]
      rw [abs_of_pos (by linarith)] at mf; linarith
    have c1 : 0 < (sides c).countP (fun e => up p e && rightOf p e) := List.countP_pos_iff.2 ⟨e, he, by simp [hue, r1]⟩
    have c2 : 0 < (sides c).countP (fun e => down p e && rightOf p e) := List.countP_pos_iff.2 ⟨f, hf, by simp [hdf, r2]⟩
    omega
  · have hright : xAt p.2 e.1 e.2 < p.1 := by
      by_contra hn
      exact hnb ⟨not_lt.1 hleft, not_lt.1 hn⟩
    have z1 : (sides c).countP (fun e => up p e && rightOf p e) = 0 := by
      rw [List.countP_eq_zero]
      intro e' he' h
      rw [Bool.and_eq_true] at h
      have : e' = e := up_unique hc p.2 he' he ((up_iff _ _).1 h.1) hue'
      subst this
      have := h.2
      simp only [rightOf, decide_eq_true_eq] at this
      linarith
    have z2 : (sides c).countP (fun e => down p e && rightOf p e) = 0 := by
      rw [List.countP_eq_zero]
      intro f' hf' h
      rw [Bool.and_eq_true] at h
      have hd' := (down_iff _ _).1 h.1
      have hb := convex_boundary hc he hf' (xAt_onSeg (Or.inr hd'))
      rw [turn_xAt p.2 _ _ (xAt p.2 f'.1 f'.2, p.2) rfl (by intro h; linarith)] at hb
      have := nonneg_of_mul_nonneg_right hb (by linarith)
      have h2 := h.2
      simp only [rightOf, decide_eq_true_eq] at h2
      simp only at this
      linarith
    omega

end
end GoGeo
