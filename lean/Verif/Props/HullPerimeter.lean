import Verif.Props.HullSimple
import Verif.Props.Distance
import Verif.Props.OnLine
import Mathlib.MeasureTheory.Integral.IntervalIntegral.Periodic
import Mathlib.Analysis.SpecialFunctions.Integrals.Basic

/-!
# The boundary of a convex hull is the shortest way round the points: C147

The length of a segment is, up to a constant, the integral over all directions of the length of its projection.  In every direction the
projections of the sides of the hull cover the projection of the points twice, those of any other ring round the points at least twice.
-/

namespace GoGeo.Region
open GoFloat Spec MeasureTheory

/-- the projection of a point on the direction `u` -/
def proj (u p : ℝ × ℝ) : ℝ := u.1 * p.1 + u.2 * p.2

/-! ## Lengths are integrals of projections -/

theorem abs_cos_integral (φ : ℝ) : ∫ θ in (0 : ℝ)..(2 * Real.pi), |Real.cos (θ - φ)| = ∫ θ in (0 : ℝ)..(2 * Real.pi), |Real.cos θ| := by
  rw [intervalIntegral.integral_comp_sub_right (fun x => |Real.cos x|) φ]
  have hp : Function.Periodic (fun x => |Real.cos x|) (2 * Real.pi) := fun x => by simp only [Real.cos_add_two_pi]
  have := hp.intervalIntegral_add_eq (0 - φ) 0
  rw [zero_add] at this
  rw [← this]
  congr 1
  ring

theorem abs_cos_pos : 0 < ∫ θ in (0 : ℝ)..(2 * Real.pi), |Real.cos θ| := by
  have h : ∫ θ in (0 : ℝ)..(2 * Real.pi), Real.cos θ ^ 2 ≤ ∫ θ in (0 : ℝ)..(2 * Real.pi), |Real.cos θ| := by
    apply intervalIntegral.integral_mono_on (by positivity) (Continuous.intervalIntegrable (by fun_prop) _ _) (Continuous.intervalIntegrable (by fun_prop) _ _)
    intro x _
    rw [← sq_abs]
    nlinarith [abs_nonneg (Real.cos x), Real.abs_cos_le_one x]
  rw [integral_cos_sq] at h
  simp at h
  linarith [Real.pi_pos]

theorem length_integral (s : ℝ × ℝ) : ∫ θ in (0 : ℝ)..(2 * Real.pi), |proj (Real.cos θ, Real.sin θ) s| =
    (∫ θ in (0 : ℝ)..(2 * Real.pi), |Real.cos θ|) * √(s.1 ^ 2 + s.2 ^ 2) := by
  have h1 := Complex.norm_mul_cos_arg (⟨s.1, s.2⟩ : ℂ)
  have h2 := Complex.norm_mul_sin_arg (⟨s.1, s.2⟩ : ℂ)
  have h3 : ‖(⟨s.1, s.2⟩ : ℂ)‖ = √(s.1 ^ 2 + s.2 ^ 2) := by
    rw [Complex.norm_def, Complex.normSq_mk]; congr 1; ring
  rw [h3] at h1 h2
  simp only at h1 h2
  set r := √(s.1 ^ 2 + s.2 ^ 2)
  set φ := Complex.arg ⟨s.1, s.2⟩
  have hr : 0 ≤ r := Real.sqrt_nonneg _
  rw [← abs_cos_integral φ, mul_comm _ r, ← intervalIntegral.integral_const_mul]
  congr 1
  funext θ
  rw [proj, ← h1, ← h2, Real.cos_sub, ← abs_of_nonneg hr, ← abs_mul, abs_of_nonneg hr]
  congr 1
  ring

theorem sum_integral (m : List (ℝ × ℝ)) : Continuous (fun θ : ℝ => (m.map fun s => |proj (Real.cos θ, Real.sin θ) s|).sum) ∧
    ∫ θ in (0 : ℝ)..(2 * Real.pi), (m.map fun s => |proj (Real.cos θ, Real.sin θ) s|).sum =
      (∫ θ in (0 : ℝ)..(2 * Real.pi), |Real.cos θ|) * (m.map fun s => √(s.1 ^ 2 + s.2 ^ 2)).sum := by
  induction m with
  | nil => exact ⟨by simpa using continuous_const, by simp⟩
  | cons s m ih =>
    have hc : Continuous fun θ : ℝ => |proj (Real.cos θ, Real.sin θ) s| := by unfold proj; fun_prop
    simp only [List.map_cons, List.sum_cons]
    refine ⟨hc.add ih.1, ?_⟩
    rw [intervalIntegral.integral_add (hc.intervalIntegrable _ _) (ih.1.intervalIntegrable _ _), ih.2, length_integral]
    ring

/-- if the projections of the vectors `m` are in every direction together no longer than those of `n`, neither are the vectors -/
theorem sum_le_of_proj {m n : List (ℝ × ℝ)} (h : ∀ u, (m.map fun s => |proj u s|).sum ≤ (n.map fun s => |proj u s|).sum) :
    (m.map fun s => √(s.1 ^ 2 + s.2 ^ 2)).sum ≤ (n.map fun s => √(s.1 ^ 2 + s.2 ^ 2)).sum := by
  obtain ⟨c1, i1⟩ := sum_integral m
  obtain ⟨c2, i2⟩ := sum_integral n
  have := intervalIntegral.integral_mono_on (μ := volume) (a := 0) (b := 2 * Real.pi) (by positivity) (c1.intervalIntegrable _ _) (c2.intervalIntegrable _ _) fun θ _ => h _
  rw [i1, i2] at this
  exact le_of_mul_le_mul_left this abs_cos_pos

/-! ## Projections of a ring cover the projections of its corners twice -/

theorem proj_sub (u a b : ℝ × ℝ) : proj u (b.1 - a.1, b.2 - a.2) = proj u b - proj u a := by unfold proj; ring

theorem sides_abs (u : ℝ × ℝ) (c : List (ℝ × ℝ)) :
    ((sides c).map fun e => |proj u e.2 - proj u e.1|).sum = 2 * ((sides c).map fun e => max (proj u e.2 - proj u e.1) 0).sum := by
  have h := sides_tel c (proj u)
  have : ∀ l : List ((ℝ × ℝ) × (ℝ × ℝ)), (l.map fun e => |proj u e.2 - proj u e.1|).sum =
      2 * (l.map fun e => max (proj u e.2 - proj u e.1) 0).sum - (l.map fun e => proj u e.2 - proj u e.1).sum := by
    intro l
    induction l with
    | nil => simp
    | cons e l ih =>
      simp only [List.map_cons, List.sum_cons, ih]
      rcases le_total 0 (proj u e.2 - proj u e.1) with h | h
      · rw [abs_of_nonneg h, max_eq_left h]; ring
      · rw [abs_of_nonpos h, max_eq_right h]; ring
  rw [this, h, sub_zero]

/-- the ups along a way from `a` to `b` add up to at least the difference of the heights -/
theorem ups_path (f : ℝ × ℝ → ℝ) : ∀ (l : List (ℝ × ℝ)) (a b : ℝ × ℝ) (t : List (ℝ × ℝ)), b ∈ a :: l →
    f b - f a ≤ (((a :: l).zip (l ++ t)).map fun e => max (f e.2 - f e.1) 0).sum
  | [], a, b, t, h => by
    simp only [List.mem_cons, List.not_mem_nil, or_false] at h
    subst h
    rw [sub_self]
    apply List.sum_nonneg
    simp only [List.mem_map]
    rintro x ⟨e, -, rfl⟩
    exact le_max_right _ _
  | c :: l, a, b, t, h => by
    have hn : ∀ m : List ((ℝ × ℝ) × (ℝ × ℝ)), 0 ≤ (m.map fun e => max (f e.2 - f e.1) 0).sum := by
      intro m
      apply List.sum_nonneg
      simp only [List.mem_map]
      rintro x ⟨e, -, rfl⟩
      exact le_max_right _ _
    rcases List.mem_cons.1 h with rfl | h
    · rw [sub_self]; exact hn _
    · have := ups_path f l c b t h
      simp only [List.cons_append, List.zip_cons_cons, List.map_cons, List.sum_cons] at this ⊢
      linarith [le_max_left (f c - f a) 0]

theorem ups_ring (f : ℝ × ℝ → ℝ) {c : List (ℝ × ℝ)} {a b : ℝ × ℝ} (ha : a ∈ c) (hb : b ∈ c) : f b - f a ≤ ((sides c).map fun e => max (f e.2 - f e.1) 0).sum := by
  obtain ⟨k, hk, rfl⟩ := List.mem_iff_getElem.1 ha
  rw [← ((sides_rotate_perm c k).map _).sum_eq]
  have hr : c.rotate k = c[k] :: (c.drop (k + 1) ++ c.take k) := by
    rw [List.rotate_eq_drop_append_take hk.le, List.drop_eq_getElem_cons hk, List.cons_append]
  have hb' : b ∈ c.rotate k := List.mem_rotate.2 hb
  rw [hr, sides_cons]
  rw [hr] at hb'
  exact ups_path f _ _ _ _ hb'

/-! ## The sides of a hull that go up have disjoint projections -/

/-- any three points in the order of the ring are in line or turn left -/
def Turns (v : List (ℝ × ℝ)) : Prop := ∀ a b c, [a, b, c].Sublist v → 0 ≤ turn a b c

theorem turns_rotate_one {a : ℝ × ℝ} {l : List (ℝ × ℝ)} (h : Turns (a :: l)) : Turns (l ++ [a]) := by
  intro x y z hs
  rw [List.sublist_append_iff] at hs
  obtain ⟨l1, l2, he, h1, h2⟩ := hs
  rcases List.sublist_singleton.1 h2 with rfl | rfl
  · rw [List.append_nil] at he
    subst he
    exact h x y z (h1.trans (List.sublist_cons_self a l))
  · have he' : [x, y] ++ [z] = l1 ++ [a] := he
    obtain ⟨rfl, he2⟩ := List.append_inj' he' rfl
    obtain rfl : z = a := by simpa using he2
    have := h z x y (h1.cons_cons z)
    have e : turn x y z = turn z x y := by unfold turn; ring
    rw [e]; exact this

theorem turns_rotate {v : List (ℝ × ℝ)} (h : Turns v) : ∀ k, Turns (v.rotate k)
  | 0 => by simpa using h
  | k + 1 => by
    have := turns_rotate h k
    rw [show v.rotate (k + 1) = (v.rotate k).rotate 1 by rw [List.rotate_rotate]]
    match v.rotate k, this with
    | [], h => simpa using h
    | a :: l, h => simpa using turns_rotate_one h

/-- for points on the line `ab`, with `x` to its left, going left as seen from `x` is going up -/
theorem aligned {u a b p q x : ℝ × ℝ} (hab : proj u a < proj u b) (hx : 0 < turn a b x) (hp : turn a b p = 0) (hq : turn a b q = 0) (h : 0 ≤ turn x p q) :
    proj u p ≤ proj u q := by
  by_contra hn
  have e : (proj u b - proj u a) * turn x p q = (proj u q - proj u p) * turn a b x := by
    simp only [turn, proj] at hp hq ⊢
    linear_combination (-((u.1 * x.1 + u.2 * x.2) - (u.1 * p.1 + u.2 * p.2))) * (hq - hp) - ((u.1 * q.1 + u.2 * q.2) - (u.1 * p.1 + u.2 * p.2)) * hp
  have h1 : 0 ≤ (proj u b - proj u a) * turn x p q := mul_nonneg (by linarith) h
  have h2 : (proj u q - proj u p) * turn a b x < 0 := mul_neg_of_neg_of_pos (by linarith) hx
  linarith

/-- where a side of the ring `x :: w` that does not end at `x` is -/
theorem side_index {x : ℝ × ℝ} {w : List (ℝ × ℝ)} {e : (ℝ × ℝ) × (ℝ × ℝ)} (he : e ∈ sides (x :: w)) (h1 : e.1 ≠ x) (h2 : e.2 ≠ x) :
    ∃ i, w[i]? = some e.1 ∧ w[i + 1]? = some e.2 := by
  rw [sides_cons, List.mem_iff_getElem?] at he
  obtain ⟨k, hk⟩ := he
  rw [List.getElem?_zip_eq_some] at hk
  obtain ⟨hk1, hk2⟩ := hk
  match k with
  | 0 => simp at hk1; exact absurd hk1.symm h1
  | k + 1 =>
    refine ⟨k, by simpa using hk1, ?_⟩
    rcases Nat.lt_or_ge (k + 1) w.length with h | h
    · rwa [List.getElem?_append_left h] at hk2
    · rw [List.getElem?_append_right h] at hk2
      have := List.mem_of_getElem? hk2
      simp at this
      exact absurd this h2

theorem pair_sublist {α : Type} : ∀ {w : List α} {i j : ℕ} {a b : α}, i < j → w[i]? = some a → w[j]? = some b → [a, b].Sublist w
  | [], i, j, a, b, _, h, _ => by simp at h
  | c :: w, 0, j + 1, a, b, _, h1, h2 => by
    simp at h1 h2
    subst h1
    exact (List.singleton_sublist.2 (List.mem_of_getElem? h2)).cons_cons _
  | c :: w, i + 1, j + 1, a, b, h, h1, h2 => by
    simp at h1 h2
    exact (pair_sublist (Nat.lt_of_succ_lt_succ h) h1 h2).cons c

/-- sides on one line that leave a corner on their left do not overlap -/
theorem up_order {v : List (ℝ × ℝ)} (ht : Turns v) {u : ℝ × ℝ} {e f : (ℝ × ℝ) × (ℝ × ℝ)} (he : e ∈ sides v) (hf : f ∈ sides v) (hne : e ≠ f)
    (hu : proj u e.1 < proj u e.2) {x : ℝ × ℝ} (hx : x ∈ v) (hl : 0 < turn e.1 e.2 x) (h1 : turn e.1 e.2 f.1 = 0) (h2 : turn e.1 e.2 f.2 = 0) :
    proj u e.2 ≤ proj u f.1 ∨ proj u f.2 ≤ proj u e.1 := by
  obtain ⟨k, hk, rfl⟩ := List.mem_iff_getElem.1 hx
  have hr : v.rotate k = v[k] :: (v.drop (k + 1) ++ v.take k) := by
    rw [List.rotate_eq_drop_append_take hk.le, List.drop_eq_getElem_cons hk, List.cons_append]
  have ht' := turns_rotate ht k
  rw [← (sides_rotate_perm v k).mem_iff] at he hf
  rw [hr] at he hf ht'
  have z1 : turn e.1 e.2 e.1 = 0 := by unfold turn; ring
  have z2 : turn e.1 e.2 e.2 = 0 := by unfold turn; ring
  have off : ∀ {p}, turn e.1 e.2 p = 0 → p ≠ v[k] := by rintro p hp rfl; linarith
  obtain ⟨i, i1, i2⟩ := side_index he (off z1) (off z2)
  obtain ⟨j, j1, j2⟩ := side_index hf (off h1) (off h2)
  rcases lt_trichotomy i j with hij | rfl | hij
  · left
    rcases Nat.lt_or_ge (i + 1) j with h | h
    · exact aligned hu hl z2 h1 (ht' _ _ _ ((pair_sublist h i2 j1).cons_cons _))
    · obtain rfl : i + 1 = j := by omega
      rw [i2] at j1; rw [Option.some.inj j1]
  · rw [i1] at j1; rw [i2] at j2
    exact absurd (Prod.ext (Option.some.inj j1) (Option.some.inj j2)) hne
  · right
    rcases Nat.lt_or_ge (j + 1) i with h | h
    · exact aligned hu hl h2 z1 (ht' _ _ _ ((pair_sublist h j2 i1).cons_cons _))
    · obtain rfl : j + 1 = i := by omega
      rw [i1] at j2; rw [Option.some.inj j2]

/-- points on one line are in line -/
theorem in_line {a b p q r : ℝ × ℝ} (hab : a ≠ b) (hp : turn a b p = 0) (hq : turn a b q = 0) (hr : turn a b r = 0) : turn p q r = 0 := by
  have e1 : turn p q r * (b.1 - a.1) = 0 := by
    simp only [turn] at hp hq hr ⊢
    linear_combination (q.1 - p.1) * (hr - hp) - (r.1 - p.1) * (hq - hp)
  have e2 : turn p q r * (b.2 - a.2) = 0 := by
    simp only [turn] at hp hq hr ⊢
    linear_combination (q.2 - p.2) * (hr - hp) - (r.2 - p.2) * (hq - hp)
  by_contra hn
  have g1 := (mul_eq_zero.1 e1).resolve_left hn
  have g2 := (mul_eq_zero.1 e2).resolve_left hn
  exact hab (Prod.ext (by linarith) (by linarith))

/-- two sides of a hull that go up have no height in common -/
theorem ups_disjoint {pts v : List (ℝ × ℝ)} (h : HullOf pts v) (hl : ∃ a ∈ pts, ∃ b ∈ pts, ∃ c ∈ pts, turn a b c ≠ 0) {u : ℝ × ℝ}
    {e f : (ℝ × ℝ) × (ℝ × ℝ)} (he : e ∈ sides v) (hf : f ∈ sides v) (hne : e ≠ f) (hu : proj u e.1 < proj u e.2) :
    Disjoint (Set.Ioo (proj u e.1) (proj u e.2)) (Set.Ioo (proj u f.1) (proj u f.2)) := by
  rw [Set.disjoint_left]
  rintro t ⟨t1, t2⟩ ⟨t3, t4⟩
  have a1 := h.left f hf e.1 (h.corners _ (sides_mem_left he))
  have a2 := h.left f hf e.2 (h.corners _ (sides_mem_right he))
  have a3 := h.left e he f.1 (h.corners _ (sides_mem_left hf))
  have a4 := h.left e he f.2 (h.corners _ (sides_mem_right hf))
  obtain ⟨x, hx, hxl⟩ : ∃ x ∈ v, 0 < turn e.1 e.2 x := by
    by_contra hn
    push Not at hn
    obtain ⟨a, ha, b, hb, c, hc, habc⟩ := hl
    have hsw : ∀ x, turn e.2 e.1 x = -turn e.1 e.2 x := fun x => by unfold turn; ring
    have hz : ∀ x ∈ pts, turn e.1 e.2 x = 0 := by
      intro x hx
      have b1 := h.left e he x hx
      have b2 := h.tight e.2 e.1 (fun y hy => by rw [hsw]; linarith [hn y hy]) x hx
      rw [hsw] at b2
      linarith
    exact habc (in_line (a := e.1) (b := e.2) (by intro hh; rw [hh] at hu; exact lt_irrefl _ hu) (hz a ha) (hz b hb) (hz c hc))
  -- the mixed identity at the height `t`
  have key : (proj u f.2 - t) * turn e.1 e.2 f.1 + (t - proj u f.1) * turn e.1 e.2 f.2 + ((proj u e.2 - t) * turn f.1 f.2 e.1 + (t - proj u e.1) * turn f.1 f.2 e.2) = 0 := by
    simp only [turn, proj]; ring
  have p1 : 0 ≤ (proj u f.2 - t) * turn e.1 e.2 f.1 := mul_nonneg (by linarith) a3
  have p2 : 0 ≤ (t - proj u f.1) * turn e.1 e.2 f.2 := mul_nonneg (by linarith) a4
  have p3 : 0 ≤ (proj u e.2 - t) * turn f.1 f.2 e.1 := mul_nonneg (by linarith) a1
  have p4 : 0 ≤ (t - proj u e.1) * turn f.1 f.2 e.2 := mul_nonneg (by linarith) a2
  have q1 : turn e.1 e.2 f.1 = 0 :=
    (mul_eq_zero.1 (show (proj u f.2 - t) * turn e.1 e.2 f.1 = 0 by linarith)).resolve_left (by linarith)
  have q2 : turn e.1 e.2 f.2 = 0 :=
    (mul_eq_zero.1 (show (t - proj u f.1) * turn e.1 e.2 f.2 = 0 by linarith)).resolve_left (by linarith)
  rcases up_order h.turns he hf hne hu hx hxl q1 q2 with h | h <;> linarith

/-- disjoint intervals within `[lo, hi]` are together no longer than it -/
theorem sum_Ioo_le {α : Type} (s : Finset α) (a b : α → ℝ) {lo hi : ℝ} (hs : ∀ e ∈ s, lo ≤ a e ∧ a e ≤ b e ∧ b e ≤ hi) (hle : lo ≤ hi)
    (hd : Set.PairwiseDisjoint (s : Set α) fun e => Set.Ioo (a e) (b e)) : ∑ e ∈ s, (b e - a e) ≤ hi - lo := by
  have h1 : volume (⋃ e ∈ s, Set.Ioo (a e) (b e)) ≤ volume (Set.Icc lo hi) := by
    apply measure_mono
    intro t ht
    simp only [Set.mem_iUnion] at ht
    obtain ⟨e, he, h1, h2⟩ := ht
    obtain ⟨g1, -, g3⟩ := hs e he
    exact ⟨g1.trans h1.le, h2.le.trans g3⟩
  rw [measure_biUnion_finset hd (fun _ _ => measurableSet_Ioo)] at h1
  simp only [Real.volume_Ioo, Real.volume_Icc] at h1
  rw [← ENNReal.ofReal_sum_of_nonneg (fun e he => by linarith [(hs e he).2.1]), ENNReal.ofReal_le_ofReal_iff (by linarith)] at h1
  exact h1

theorem ups_hull {pts v : List (ℝ × ℝ)} (h : HullOf pts v) (hl : ∃ a ∈ pts, ∃ b ∈ pts, ∃ c ∈ pts, turn a b c ≠ 0) (u : ℝ × ℝ) :
    ∃ p ∈ v, ∃ q ∈ v, ((sides v).map fun e => max (proj u e.2 - proj u e.1) 0).sum ≤ proj u q - proj u p := by
  classical
  have hne : v.toFinset.Nonempty := by
    obtain ⟨x, hx⟩ := List.exists_mem_of_length_pos (l := v) (by have := h.three; omega)
    exact ⟨x, List.mem_toFinset.2 hx⟩
  obtain ⟨p, hp, hpm⟩ := Finset.exists_min_image v.toFinset (proj u) hne
  obtain ⟨q, hq, hqm⟩ := Finset.exists_max_image v.toFinset (proj u) hne
  simp only [List.mem_toFinset] at hp hq hpm hqm
  refine ⟨p, hp, q, hq, ?_⟩
  rw [← List.sum_toFinset _ (sides_nodup h.distinct), ← Finset.sum_filter_add_sum_filter_not _ (fun e => proj u e.1 < proj u e.2)]
  have z : ∑ e ∈ (sides v).toFinset with ¬ proj u e.1 < proj u e.2, max (proj u e.2 - proj u e.1) 0 = 0 := by
    apply Finset.sum_eq_zero
    intro e he
    rw [Finset.mem_filter] at he
    exact max_eq_right (by linarith [not_lt.1 he.2])
  have w : ∑ e ∈ (sides v).toFinset with proj u e.1 < proj u e.2, max (proj u e.2 - proj u e.1) 0 =
      ∑ e ∈ (sides v).toFinset with proj u e.1 < proj u e.2, (proj u e.2 - proj u e.1) := by
    apply Finset.sum_congr rfl
    intro e he
    rw [Finset.mem_filter] at he
    exact max_eq_left (by linarith [he.2])
  rw [z, add_zero, w]
  apply sum_Ioo_le _ (fun e : (ℝ × ℝ) × (ℝ × ℝ) => proj u e.1) (fun e => proj u e.2)
  · intro e he
    rw [Finset.mem_filter, List.mem_toFinset] at he
    exact ⟨hpm _ (sides_mem_left he.1), he.2.le, hqm _ (sides_mem_right he.1)⟩
  · exact hpm q hq
  · intro e he f hf hne
    rw [Finset.mem_coe, Finset.mem_filter, List.mem_toFinset] at he hf
    exact ups_disjoint h hl he.1 hf.1 hne he.2

/-- a linear function on a convex hull is nowhere larger than at some corner -/
theorem hull_max (u : ℝ × ℝ) {m : List (ℝ × ℝ)} {z : ℝ × ℝ} (hz : z ∈ convexHull ℝ {y | y ∈ m}) : ∃ y ∈ m, proj u z ≤ proj u y := by
  classical
  have hne : m.toFinset.Nonempty := by
    by_contra hn
    rw [Finset.not_nonempty_iff_eq_empty, List.toFinset_eq_empty_iff] at hn
    subst hn
    simp at hz
  obtain ⟨q, hq, hqm⟩ := Finset.exists_max_image m.toFinset (proj u) hne
  simp only [List.mem_toFinset] at hq hqm
  have hcv : Convex ℝ {y | proj u y ≤ proj u q} := by
    apply convex_halfSpace_le
    refine ⟨fun x y => ?_, fun c x => ?_⟩
    · simp only [proj, Prod.fst_add, Prod.snd_add]; ring
    · simp only [proj, Prod.smul_fst, Prod.smul_snd, smul_eq_mul]; ring
  exact ⟨q, hq, convexHull_min (s := {y | y ∈ m}) (fun y hy => hqm y hy) hcv hz⟩

/-- the ring of a hull is no longer than any ring whose corners have the points in their convex hull -/
theorem hull_shortest {pts v m : List (ℝ × ℝ)} (h : HullOf pts v) (hl : ∃ a ∈ pts, ∃ b ∈ pts, ∃ c ∈ pts, turn a b c ≠ 0)
    (hm : ∀ x ∈ pts, x ∈ convexHull ℝ {y | y ∈ m}) :
    ((sides v).map fun e => eucl e.1 e.2).sum ≤ ((sides m).map fun e => eucl e.1 e.2).sum := by
  have conv : ∀ c : List (ℝ × ℝ), ((sides c).map fun e => eucl e.1 e.2) =
      (((sides c).map fun e => (e.2.1 - e.1.1, e.2.2 - e.1.2)).map fun s : ℝ × ℝ => √(s.1 ^ 2 + s.2 ^ 2)) := by
    intro c
    rw [List.map_map]
    apply List.map_congr_left
    intro e _
    simp only [Function.comp, eucl]
    congr 1; ring
  rw [conv, conv]
  apply sum_le_of_proj
  intro u
  simp only [List.map_map, Function.comp_def, proj_sub]
  rw [sides_abs, sides_abs]
  obtain ⟨p, hp, q, hq, hle⟩ := ups_hull h hl u
  obtain ⟨y, hy, hqy⟩ := hull_max u (hm q (h.corners q hq))
  obtain ⟨z, hz, hpz⟩ := hull_max (-u.1, -u.2) (hm p (h.corners p hp))
  have := ups_ring (proj u) hz hy
  simp only [proj] at hpz hqy hle this ⊢
  linarith

theorem ring_length (m : List (ℝ × ℝ)) (hm : m ≠ []) : LineLength (ring m) = .fin ((sides m).map fun e => eucl e.1 e.2).sum := by
  match m, hm with
  | a :: l, _ =>
    have : ring (a :: l) = (a :: l ++ [a]).map pt := by simp [ring]
    rw [this, length_fin, edges_eq_zip, sides_cons]
    have := List.zip_append (l₁ := a :: l) (r₁ := [a]) (l₂ := l ++ [a]) (r₂ := ([] : List (ℝ × ℝ))) (by simp)
    congr 3
    simpa using this

/-- **C147.** The ring that `ConvexHull` returns is no longer than any closed line round the points: the ring of a polygon whose corners have all the points in their convex hull
(for instance one with the points for corners, or on it, or inside it). -/
theorem C147_hull (sortPts : List (Point (XR ℝ)) → List (Point (XR ℝ))) (hs : HullSort sortPts) (pts : List (ℝ × ℝ))
    (hd : pts.Pairwise fun a b => ¬ Close a b) (h3 : 3 ≤ pts.length) (hl : ∃ a ∈ pts, ∃ b ∈ pts, ∃ c ∈ pts, turn a b c ≠ 0) (m : List (ℝ × ℝ))
    (hm : ∀ x ∈ pts, x ∈ convexHull ℝ {y | y ∈ m}) :
    ∃ after r A B, ConvexHull sortPts (pts.map pt) = .ok (after, some r) ∧ LineLength r = .fin A ∧ LineLength (ring m) = .fin B ∧ A ≤ B := by
  obtain ⟨after, v, h, hv⟩ := C48_hull_apart sortPts hs pts hd h3
  have hm0 : m ≠ [] := by
    rintro rfl
    obtain ⟨a, ha, -⟩ := hl
    simpa using hm a ha
  have hv0 : v ≠ [] := by
    rintro rfl
    simpa using hv.three
  exact ⟨after, _, _, _, h, ring_length v hv0, ring_length m hm0, hull_shortest hv hl hm⟩

/-- **C147.** In particular the hull of the corners of a polygon, simple or not, is no longer than its ring. -/
theorem C147_polygon (sortPts : List (Point (XR ℝ)) → List (Point (XR ℝ))) (hs : HullSort sortPts) (c : List (ℝ × ℝ))
    (hd : c.Pairwise fun a b => ¬ Close a b) (h3 : 3 ≤ c.length) (hl : ∃ a ∈ c, ∃ b ∈ c, ∃ x ∈ c, turn a b x ≠ 0) :
    ∃ after r A B, ConvexHull sortPts (c.map pt) = .ok (after, some r) ∧ LineLength r = .fin A ∧ LineLength (ring c) = .fin B ∧ A ≤ B :=
  C147_hull sortPts hs c hd h3 hl c fun _ hx => subset_convexHull ℝ _ hx

/-- non-vacuity: the dart (0,0), (4,0), (1,1), (0,4), whose hull is a triangle -/
example : ∃ after r A B, ConvexHull goSort12 ([((0 : ℝ), (0 : ℝ)), (4, 0), (1, 1), (0, 4)].map pt) = .ok (after, some r) ∧ LineLength r = .fin A ∧
    LineLength (ring [((0 : ℝ), (0 : ℝ)), (4, 0), (1, 1), (0, 4)]) = .fin B ∧ A ≤ B :=
  C147_polygon goSort12 goSort12_hullSort _ (by unfold Close; norm_num [abs_lt]) (by simp) ⟨(0, 0), by simp, (4, 0), by simp, (1, 1), by simp, by norm_num [turn]⟩

end GoGeo.Region
