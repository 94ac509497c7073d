import Verif.Spec.Winding
import Verif.Props.Region
import Verif.Props.Lookup

/-!
# C135: area and centroid of any ring are those of its winding number
-/

namespace GoGeo.Region
open MeasureTheory Set Spec

open Classical in
/-- what a directed side adds to the winding number -/
noncomputable def chi (u v z : ℝ × ℝ) : ℝ :=
  if ¬ z.2 < u.2 ∧ z.2 < v.2 ∧ 0 < turn u v z then 1 else if z.2 < u.2 ∧ ¬ z.2 < v.2 ∧ turn u v z < 0 then -1 else 0

theorem chi_symm (u v z : ℝ × ℝ) : chi v u z = -chi u v z := by
  have h0 : turn v u z = -turn u v z := by unfold turn; ring
  unfold chi
  rw [h0]
  rcases lt_trichotomy (turn u v z) 0 with h | h | h
  · by_cases h1 : z.2 < u.2 <;> by_cases h2 : z.2 < v.2 <;> simp [h1, h2, h, not_lt.2 h.le]
  · simp [h]
  · by_cases h1 : z.2 < u.2 <;> by_cases h2 : z.2 < v.2 <;> simp [h1, h2, h, not_lt.2 h.le]

section
variable {K : Type} [Field K] [LinearOrder K] [IsStrictOrderedRing K]

omit [LinearOrder K] [IsStrictOrderedRing K] in
theorem turn_level (u v z : K × K) (x t : K) (h : (x, z.2) = along u v t) : turn u v z = (v.2 - u.2) * (x - z.1) := by
  have h1 : x = (along u v t).1 := by rw [← h]
  have h2 : z.2 = (along u v t).2 := by rw [← h]
  simp only [along] at h1 h2
  unfold turn
  rw [h1, h2]; ring

theorem hits_up {u v z : K × K} (h1 : ¬ z.2 < u.2) (h2 : z.2 < v.2) : HitsRight z (u, v) ↔ 0 < turn u v z := by
  have hd : 0 < v.2 - u.2 := by linarith [not_lt.1 h1]
  constructor
  · rintro ⟨x, hx, t, _, _, h⟩
    rw [turn_level u v z x t h]
    exact mul_pos hd (by linarith)
  · intro h
    obtain ⟨t, t0, t1, ht⟩ := xAt_onSeg (Or.inl ⟨not_lt.1 h1, h2⟩)
    refine ⟨_, ?_, t, t0, t1, ht⟩
    rw [turn_level u v z _ t ht] at h
    linarith [(pos_iff_pos_of_mul_pos h).1 hd]

theorem hits_down {u v z : K × K} (h1 : z.2 < u.2) (h2 : ¬ z.2 < v.2) : HitsRight z (u, v) ↔ turn u v z < 0 := by
  have hd : v.2 - u.2 < 0 := by linarith [not_lt.1 h2]
  constructor
  · rintro ⟨x, hx, t, _, _, h⟩
    rw [turn_level u v z x t h]
    exact mul_neg_of_neg_of_pos hd (by linarith)
  · intro h
    obtain ⟨t, t0, t1, ht⟩ := xAt_onSeg (Or.inr ⟨h1, not_lt.1 h2⟩)
    refine ⟨_, ?_, t, t0, t1, ht⟩
    rw [turn_level u v z _ t ht] at h
    by_contra hx
    exact absurd h (not_lt.2 (mul_nonneg_of_nonpos_of_nonpos hd.le (by linarith)))

end

theorem winding_chi (c : List (ℝ × ℝ)) (z : ℝ × ℝ) : (winding c z : ℝ) = ((sides c).map fun e => chi e.1 e.2 z).sum := by
  classical
  unfold winding
  generalize sides c = m
  induction m with
  | nil => simp
  | cons e m ih =>
    simp only [List.countP_cons, List.map_cons, List.sum_cons, ← ih]
    push_cast
    obtain ⟨u, v⟩ := e
    by_cases h1 : z.2 < u.2 <;> by_cases h2 : z.2 < v.2
    · simp [chi, h1, h2]
    · have := hits_down h1 h2
      by_cases h : turn u v z < 0
      · simp [chi, h1, h2, this, h]; ring
      · simp [chi, h1, h2, this, h]
    · have := hits_up h1 h2
      by_cases h : 0 < turn u v z
      · simp [chi, h1, h2, this, h]; ring
      · simp [chi, h1, h2, this, h]
    · simp [chi, h1, h2]

open Classical in
/-- what a triangle of the fan adds -/
noncomputable def tau (o u v z : ℝ × ℝ) : ℝ := (tri o u v).indicator 1 z - (tri o v u).indicator 1 z

theorem sgn {a b c x y z : ℝ} (h : a * x + b * y + c * z = 0) (h1 : 0 < a ∧ 0 < x ∨ a < 0 ∧ x < 0)
    (h2 : 0 < b ∧ 0 < y ∨ b < 0 ∧ y < 0) (h3 : 0 < c ∧ 0 < z ∨ c < 0 ∧ z < 0) : False := by
  have pos : ∀ {a x : ℝ}, (0 < a ∧ 0 < x ∨ a < 0 ∧ x < 0) → 0 < a * x := by
    rintro a x (⟨h, h'⟩ | ⟨h, h'⟩)
    · exact mul_pos h h'
    · exact mul_pos_of_neg_of_neg h h'
  linarith [pos h1, pos h2, pos h3]

theorem sgn' {a b c x y z : ℝ} (h : a * x + b * y + c * z = 0) (h1 : 0 < a ∧ x < 0 ∨ a < 0 ∧ 0 < x)
    (h2 : 0 < b ∧ y < 0 ∨ b < 0 ∧ 0 < y) (h3 : 0 < c ∧ z < 0 ∨ c < 0 ∧ 0 < z) : False := by
  have neg : ∀ {a x : ℝ}, (0 < a ∧ x < 0 ∨ a < 0 ∧ 0 < x) → a * x < 0 := by
    rintro a x (⟨h, h'⟩ | ⟨h, h'⟩)
    · exact mul_neg_of_pos_of_neg h h'
    · exact mul_neg_of_neg_of_pos h h'
  linarith [neg h1, neg h2, neg h3]

/-- around a triangle, for a point in general position -/
theorem chi_tri (o u v z : ℝ × ℝ) (ho : z.2 ≠ o.2) (hu : z.2 ≠ u.2) (hv : z.2 ≠ v.2) (h1 : turn o u z ≠ 0) (h2 : turn u v z ≠ 0)
    (h3 : turn v o z ≠ 0) : chi o u z + chi u v z + chi v o z = tau o u v z := by
  classical
  have key : (o.2 - z.2) * turn u v z + (u.2 - z.2) * turn v o z + (v.2 - z.2) * turn o u z = 0 := by unfold turn; ring
  have e1 : turn u o z = -turn o u z := by unfold turn; ring
  have e2 : turn v u z = -turn u v z := by unfold turn; ring
  have e3 : turn o v z = -turn v o z := by unfold turn; ring
  unfold tau
  simp only [Set.indicator, tri, mem_ofPred_eq, e1, e2, e3, Pi.one_apply]
  unfold chi
  rcases lt_or_gt_of_ne ho with a1 | a1 <;> rcases lt_or_gt_of_ne hu with a2 | a2 <;> rcases lt_or_gt_of_ne hv with a3 | a3 <;>
  rcases lt_or_gt_of_ne h1 with b1 | b1 <;> rcases lt_or_gt_of_ne h2 with b2 | b2 <;> rcases lt_or_gt_of_ne h3 with b3 | b3 <;>
  simp only [a1, a2, a3, b1, b2, b3, not_lt.2 a1.le, not_lt.2 a2.le, not_lt.2 a3.le, not_lt.2 b1.le, not_lt.2 b2.le, not_lt.2 b3.le,
    Left.neg_pos_iff, if_true, if_false, and_true, and_false, not_true, not_false_iff] <;>
  first
  | norm_num; done
  | exact (sgn key (by first | exact Or.inl ⟨sub_pos.2 a1, b2⟩ | exact Or.inr ⟨sub_neg.2 a1, b2⟩)
      (by first | exact Or.inl ⟨sub_pos.2 a2, b3⟩ | exact Or.inr ⟨sub_neg.2 a2, b3⟩)
      (by first | exact Or.inl ⟨sub_pos.2 a3, b1⟩ | exact Or.inr ⟨sub_neg.2 a3, b1⟩)).elim
  | exact (sgn' key (by first | exact Or.inl ⟨sub_pos.2 a1, b2⟩ | exact Or.inr ⟨sub_neg.2 a1, b2⟩)
      (by first | exact Or.inl ⟨sub_pos.2 a2, b3⟩ | exact Or.inr ⟨sub_neg.2 a2, b3⟩)
      (by first | exact Or.inl ⟨sub_pos.2 a3, b1⟩ | exact Or.inr ⟨sub_neg.2 a3, b1⟩)).elim

theorem height_null (y : ℝ) : ∀ᵐ z ∂(volume : Measure (ℝ × ℝ)), z.2 ≠ y := by
  rw [ae_iff]
  have := line_null (a := (0, y)) (b := (1, y)) (by simp)
  simpa [turn, sub_eq_zero] using this

theorem turn_ae {a b : ℝ × ℝ} (h : a ≠ b) : ∀ᵐ z ∂(volume : Measure (ℝ × ℝ)), turn a b z ≠ 0 := by
  rw [ae_iff]
  simpa using line_null h

theorem turn_same (a z : ℝ × ℝ) : turn a a z = 0 := by unfold turn; ring
theorem chi_same (a z : ℝ × ℝ) : chi a a z = 0 := by unfold chi; simp [turn_same]

theorem chi_tri_ae (o u v : ℝ × ℝ) : ∀ᵐ z ∂(volume : Measure (ℝ × ℝ)), chi o u z + chi u v z + chi v o z = tau o u v z := by
  have hz : ∀ a b z : ℝ × ℝ, tau a b b z = 0 ∧ tau a a b z = 0 ∧ tau b a b z = 0 := by
    intro a b z
    unfold tau
    have e1 : tri a b b = ∅ := by ext p; simp [tri, turn_same]
    have e2 : tri a a b = ∅ := by ext p; simp [tri, turn_same]
    have e3 : tri a b a = ∅ := by ext p; simp [tri, turn_same]
    have e4 : tri b a b = ∅ := by ext p; simp [tri, turn_same]
    have e5 : tri b b a = ∅ := by ext p; simp [tri, turn_same]
    simp [e1, e2, e3, e4, e5]
  by_cases h1 : o = u
  · refine Filter.Eventually.of_forall fun z => ?_
    rw [h1, (hz u v z).2.1, chi_same, chi_symm u v]; ring
  by_cases h2 : u = v
  · refine Filter.Eventually.of_forall fun z => ?_
    rw [h2, (hz o v z).1, chi_same, chi_symm o v]; ring
  by_cases h3 : v = o
  · refine Filter.Eventually.of_forall fun z => ?_
    rw [h3, (hz u o z).2.2, chi_same, chi_symm o u]; ring
  filter_upwards [height_null o.2, height_null u.2, height_null v.2, turn_ae h1, turn_ae h2, turn_ae h3] with z a1 a2 a3 b1 b2 b3
    using chi_tri o u v z a1 a2 a3 b1 b2 b3

theorem sum_sides (c : List (ℝ × ℝ)) (f : ℝ × ℝ → ℝ × ℝ → ℝ) : ((sides c).map fun e => f e.1 e.2).sum = cycSum f c := by
  unfold cycSum sides
  rw [List.zip_eq_zipWith, List.map_zipWith]

theorem winding_tau (o : ℝ × ℝ) (c : List (ℝ × ℝ)) : ∀ᵐ z ∂(volume : Measure (ℝ × ℝ)),
    (winding c z : ℝ) = ((sides c).map fun e => tau o e.1 e.2 z).sum := by
  have h : ∀ m : List ((ℝ × ℝ) × (ℝ × ℝ)), ∀ᵐ z ∂(volume : Measure (ℝ × ℝ)), ∀ e ∈ m,
      chi o e.1 z + chi e.1 e.2 z + chi e.2 o z = tau o e.1 e.2 z := by
    intro m
    induction m with
    | nil => simp
    | cons e m ih =>
      filter_upwards [ih, chi_tri_ae o e.1 e.2] with z h1 h2
      intro f hf
      rcases List.mem_cons.1 hf with rfl | hf
      · exact h2
      · exact h1 f hf
  filter_upwards [h (sides c)] with z hz
  have e1 : (sides c).map (fun e => tau o e.1 e.2 z) = (sides c).map (fun e => chi e.1 e.2 z + (chi e.2 o z - chi e.1 o z)) := by
    refine List.map_congr_left fun e he => ?_
    rw [← hz e he, chi_symm e.1 o]; ring
  rw [e1, winding_chi, sum_sides c fun u v => chi u v z + (chi v o z - chi u o z), sum_sides c fun u v => chi u v z, cycSum_add, cycSum_tele, add_zero]

theorem tri_indicator (a b c : ℝ × ℝ) {f : ℝ × ℝ → ℝ} (α β γ : ℝ) (hf : f = fun p => α + β * p.1 + γ * p.2) :
    Integrable ((tri a b c).indicator f) ∧ ∫ p, (tri a b c).indicator f p =
      max 0 (turn a b c) / 2 * (α + β * ((a.1 + b.1 + c.1) / 3) + γ * ((a.2 + b.2 + c.2) / 3)) := by
  by_cases h : 0 < turn a b c
  · refine ⟨(integrable_indicator_iff (tri_open a b c).measurableSet).2 (tri_int h.le (by rw [hf]; fun_prop)), ?_⟩
    rw [integral_indicator (tri_open a b c).measurableSet, max_eq_right h.le, hf, tri_affine h.le]
  · rw [tri_empty h, max_eq_left (not_lt.1 h)]
    simp

theorem tau_affine (o u v : ℝ × ℝ) {f : ℝ × ℝ → ℝ} (α β γ : ℝ) (hf : f = fun p => α + β * p.1 + γ * p.2) :
    Integrable (fun z => f z * tau o u v z) ∧ ∫ z, f z * tau o u v z =
      turn o u v / 2 * (α + β * ((o.1 + u.1 + v.1) / 3) + γ * ((o.2 + u.2 + v.2) / 3)) := by
  have e : (fun z => f z * tau o u v z) = fun z => (tri o u v).indicator f z - (tri o v u).indicator f z := by
    funext z
    unfold tau
    simp only [Set.indicator, Pi.one_apply]
    split_ifs <;> ring
  obtain ⟨i1, h1⟩ := tri_indicator o u v α β γ hf
  obtain ⟨i2, h2⟩ := tri_indicator o v u α β γ hf
  rw [e]
  refine ⟨i1.sub i2, ?_⟩
  rw [integral_sub i1 i2, h1, h2]
  have : turn o v u = -turn o u v := by unfold turn; ring
  rw [this]
  rcases le_total 0 (turn o u v) with h | h
  · rw [max_eq_right h, max_eq_left (by linarith)]; ring
  · rw [max_eq_left h, max_eq_right (by linarith)]; ring

theorem winding_affine (o : ℝ × ℝ) (c : List (ℝ × ℝ)) {f : ℝ × ℝ → ℝ} (α β γ : ℝ) (hf : f = fun p => α + β * p.1 + γ * p.2) :
    Integrable (fun z => f z * winding c z) ∧
    ∫ z, f z * winding c z = α * fanArea o c + β * fanMomentX o c + γ * fanMomentY o c := by
  have ae : (fun z => f z * (winding c z : ℝ)) =ᵐ[volume] fun z => ((sides c).map fun e => f z * tau o e.1 e.2 z).sum := by
    filter_upwards [winding_tau o c] with z hz
    rw [hz, List.sum_map_mul_left]
  have main : Integrable (fun z => ((sides c).map fun e => f z * tau o e.1 e.2 z).sum) ∧
      ∫ z, ((sides c).map fun e => f z * tau o e.1 e.2 z).sum =
        ((sides c).map fun e => turn o e.1 e.2 / 2 * (α + β * ((o.1 + e.1.1 + e.2.1) / 3) + γ * ((o.2 + e.1.2 + e.2.2) / 3))).sum := by
    generalize sides c = m
    induction m with
    | nil => simp
    | cons e m ih =>
      obtain ⟨i, h⟩ := tau_affine o e.1 e.2 α β γ hf
      simp only [List.map_cons, List.sum_cons]
      exact ⟨i.add ih.1, by rw [integral_add i ih.1, h, ih.2]⟩
  refine ⟨main.1.congr ae.symm, ?_⟩
  rw [integral_congr_ae ae, main.2]
  unfold fanArea fanMomentX fanMomentY
  rw [← sum_sides, ← sum_sides, ← sum_sides]
  generalize sides c = m
  induction m with
  | nil => simp
  | cons e m ih => simp only [List.map_cons, List.sum_cons, ih]; ring

/-- the even-odd rule is the parity of the winding number -/
theorem evenOdd_iff (c : List (ℝ × ℝ)) (z : ℝ × ℝ) : EvenOdd c z ↔ Odd (winding c z) := by
  classical
  have key : ∀ m : List ((ℝ × ℝ) × (ℝ × ℝ)), m.countP (fun e => decide (HitsRight z e ∧ ¬ (z.2 < e.1.2 ↔ z.2 < e.2.2))) =
      m.countP (fun e => decide (HitsRight z e ∧ ¬ z.2 < e.1.2 ∧ z.2 < e.2.2)) +
      m.countP (fun e => decide (HitsRight z e ∧ z.2 < e.1.2 ∧ ¬ z.2 < e.2.2)) := by
    intro m
    induction m with
    | nil => simp
    | cons e m ih =>
      simp only [List.countP_cons, ih]
      by_cases h1 : z.2 < e.1.2 <;> by_cases h2 : z.2 < e.2.2 <;> by_cases h3 : HitsRight z e <;> simp [h1, h2, h3] <;> omega
  have h := key (sides c)
  have e : EvenOdd c z ↔ (sides c).countP (fun e => decide (HitsRight z e ∧ ¬ (z.2 < e.1.2 ↔ z.2 < e.2.2))) % 2 = 1 := by
    unfold EvenOdd
    constructor <;> intro h <;> convert h
  rw [e, h]
  unfold winding
  rw [Int.odd_iff]
  generalize List.countP (fun e => decide (HitsRight z e ∧ ¬ z.2 < e.1.2 ∧ z.2 < e.2.2)) (sides c) = a
  generalize List.countP (fun e => decide (HitsRight z e ∧ z.2 < e.1.2 ∧ ¬ z.2 < e.2.2)) (sides c) = b
  omega

/-- **C135 (area).** For every ring, convex or not, crossing itself or not, GetArea is the absolute value of the integral of
the winding number over the plane, and the ring counts as counter-clockwise exactly if that integral is positive. -/
theorem C135_area (c : List (ℝ × ℝ)) (holes : List (List (Point (XR ℝ)))) : Integrable (fun z => (winding c z : ℝ)) ∧
    GetArea (.polygon (ring c :: holes)) = .fin |∫ z, (winding c z : ℝ)| ∧
    (IsCCW (ring c :: holes) = true ↔ 0 < ∫ z, (winding c z : ℝ)) := by
  have h := winding_affine 0 c (f := fun _ => 1) 1 0 0 (by funext p; simp)
  simp only [one_mul, zero_mul, add_zero] at h
  obtain ⟨i, h⟩ := h
  rw [h]
  exact ⟨i, C32_area_fan 0 c holes⟩

/-- a ring has no area -/
theorem ring_null (c : List (ℝ × ℝ)) : ∀ᵐ z ∂(volume : Measure (ℝ × ℝ)), ¬ OnRing c z := by
  have h : ∀ m : List ((ℝ × ℝ) × (ℝ × ℝ)), ∀ᵐ z ∂(volume : Measure (ℝ × ℝ)), ∀ e ∈ m, ¬ OnSeg e.1 e.2 z := by
    intro m
    induction m with
    | nil => simp
    | cons e m ih =>
      have h1 : ∀ᵐ z ∂(volume : Measure (ℝ × ℝ)), ¬ OnSeg e.1 e.2 z := by
        by_cases he : e.1 = e.2
        · have : ∀ᵐ z ∂(volume : Measure (ℝ × ℝ)), z.2 ≠ e.1.2 := height_null _
          filter_upwards [this] with z hz
          rintro ⟨t, -, -, rfl⟩
          apply hz
          simp [along, he]
        · filter_upwards [turn_ae he] with z hz
          rintro ⟨t, -, -, rfl⟩
          apply hz
          unfold turn along
          ring
      filter_upwards [h1, ih] with z a b
      intro f hf
      rcases List.mem_cons.1 hf with rfl | hf
      · exact a
      · exact b f hf
  filter_upwards [h (sides c)] with z hz
  rintro ⟨e, he, hon⟩
  exact hz e he hon

theorem evenOdd_measurable (c : List (ℝ × ℝ)) : NullMeasurableSet {z | EvenOdd c z} := by
  obtain ⟨i, -⟩ := winding_affine 0 c (f := fun _ => 1) 1 0 0 (by funext p; simp)
  simp only [one_mul] at i
  have hae : AEMeasurable (fun z => (winding c z : ℝ)) volume := i.aestronglyMeasurable.aemeasurable
  have hodd : MeasurableSet ((fun n : ℤ => (n : ℝ)) '' {n | Odd n}) := ((Set.to_countable _).image _).measurableSet
  have := hae.nullMeasurable hodd
  have e : {z | EvenOdd c z} = (fun z => (winding c z : ℝ)) ⁻¹' ((fun n : ℤ => (n : ℝ)) '' {n | Odd n}) := by
    ext z
    rw [mem_preimage, mem_image]
    constructor
    · intro h
      exact ⟨_, (evenOdd_iff c z).1 h, rfl⟩
    · rintro ⟨n, hn, h⟩
      have : n = winding c z := by exact_mod_cast h
      rw [this] at hn
      exact (evenOdd_iff c z).2 hn
  rwa [e]

theorem evenOdd_finite (c : List (ℝ × ℝ)) : volume {z | EvenOdd c z} < ⊤ := by
  obtain ⟨i, -⟩ := winding_affine 0 c (f := fun _ => 1) 1 0 0 (by funext p; simp)
  simp only [one_mul] at i
  refine (measure_mono ?_).trans_lt (i.measure_norm_ge_lt_top zero_lt_one)
  intro z hE
  have ho := (evenOdd_iff c z).1 hE
  show (1 : ℝ) ≤ ‖(winding c z : ℝ)‖
  rw [Real.norm_eq_abs]
  have : (1 : ℤ) ≤ |winding c z| := Int.one_le_abs (by rintro h; rw [h] at ho; simp at ho)
  exact_mod_cast this

/-- weighting with a winding number of one sign is restricting to the inside -/
theorem winding_inside (c : List (ℝ × ℝ)) {s : ℝ} (hs : s = 1 ∨ s = -1) (hz : ∀ z, ¬ OnRing c z → winding c z = 0 ∨ (winding c z : ℝ) = s)
    (f : ℝ × ℝ → ℝ) : ∫ z, f z * (winding c z : ℝ) = s * ∫ z in {z | EvenOdd c z}, f z := by
  rw [← integral_indicator₀ (evenOdd_measurable c), ← integral_const_mul]
  apply integral_congr_ae
  filter_upwards [ring_null c] with z hoff
  by_cases hE : EvenOdd c z
  · rw [indicator_of_mem (by exact hE)]
    have ho := (evenOdd_iff c z).1 hE
    rcases hz z hoff with h | h
    · rw [h] at ho; simp at ho
    · rw [h]; ring
  · rw [indicator_of_notMem (by exact hE)]
    have ho := (not_iff_not.2 (evenOdd_iff c z)).1 hE
    rcases hz z hoff with h | h
    · rw [h]; simp
    · exfalso
      apply ho
      rcases hs with rfl | rfl
      · have : winding c z = 1 := by exact_mod_cast h
        rw [this]; decide
      · have : winding c z = -1 := by exact_mod_cast h
        rw [this]; decide

theorem winding_volume (c : List (ℝ × ℝ)) {s : ℝ} (hs : s = 1 ∨ s = -1) (hz : ∀ z, ¬ OnRing c z → winding c z = 0 ∨ (winding c z : ℝ) = s) :
    ∫ z, (winding c z : ℝ) = s * (volume {z | EvenOdd c z}).toReal := by
  have := winding_inside c hs hz fun _ => 1
  simpa [Measure.real] using this

/-- **C135 (region).** If the ring goes round no point off it more than once, all in the same direction, GetArea is the Lebesgue measure
of the set of points inside it by the even-odd rule. -/
theorem C135_region (c : List (ℝ × ℝ)) (h : (∀ z, ¬ OnRing c z → winding c z = 0 ∨ winding c z = 1) ∨
      (∀ z, ¬ OnRing c z → winding c z = 0 ∨ winding c z = -1))
    (holes : List (List (Point (XR ℝ)))) : ∃ A : ℝ, 0 ≤ A ∧ volume {z | EvenOdd c z} = ENNReal.ofReal A ∧
    GetArea (.polygon (ring c :: holes)) = .fin A := by
  obtain ⟨i, ha, -⟩ := C135_area c holes
  refine ⟨(volume {z | EvenOdd c z}).toReal, ENNReal.toReal_nonneg, (ENNReal.ofReal_toReal (evenOdd_finite c).ne).symm, ?_⟩
  rw [ha]
  rcases h with h | h
  · rw [winding_volume c (Or.inl rfl) fun z hz => (h z hz).imp id fun h => by rw [h]; simp, one_mul, abs_of_nonneg ENNReal.toReal_nonneg]
  · rw [winding_volume c (Or.inr rfl) fun z hz => (h z hz).imp id fun h => by rw [h]; simp, neg_one_mul, abs_neg, abs_of_nonneg ENNReal.toReal_nonneg]

/-- **C135 (centroid).** For every ring whose winding number does not integrate to zero, Centroid is the mean position
weighted by the winding number. -/
theorem C135_centroid (c : List (ℝ × ℝ)) (h : ∫ z, (winding c z : ℝ) ≠ 0) (holes : List (List (Point (XR ℝ)))) :
    Centroid (.polygon (ring c :: holes)) = .ok (pt ((∫ z, z.1 * (winding c z : ℝ)) / ∫ z, (winding c z : ℝ),
      (∫ z, z.2 * (winding c z : ℝ)) / ∫ z, (winding c z : ℝ))) := by
  have h0 := (winding_affine 0 c (f := fun _ => 1) 1 0 0 (by funext p; simp)).2
  have hx := (winding_affine 0 c (f := fun z => z.1) 0 1 0 (by funext p; simp)).2
  have hy := (winding_affine 0 c (f := fun z => z.2) 0 0 1 (by funext p; simp)).2
  simp only [one_mul, zero_mul, add_zero, zero_add] at h0 hx hy
  rw [h0] at h ⊢
  rw [hx, hy]
  exact C34_centroid_fan 0 c holes h

/-- an L-shaped ring, which is not convex -/
def ell : List (ℝ × ℝ) := [(0, 0), (2, 0), (2, 1), (1, 1), (1, 2), (0, 2)]

theorem chi_flat (a b y : ℝ) (z : ℝ × ℝ) : chi (a, y) (b, y) z = 0 := by
  unfold chi
  by_cases h : z.2 < y <;> simp [h]

open Classical in
theorem chi_upright (x a b : ℝ) (h : a < b) (z : ℝ × ℝ) : chi (x, a) (x, b) z = if (a ≤ z.2 ∧ z.2 < b) ∧ z.1 < x then 1 else 0 := by
  unfold chi turn
  have e : (x - x) * (z.2 - a) - (b - a) * (z.1 - x) = (b - a) * (x - z.1) := by ring
  simp only [e]
  have hp : 0 < (b - a) * (x - z.1) ↔ z.1 < x := by
    rw [mul_pos_iff_of_pos_left (sub_pos.2 h), sub_pos]
  by_cases h1 : z.2 < a
  · simp [h1, not_le.2 h1, h1.trans h]
  · simp [h1, not_lt.1 h1, hp, and_assoc]

/-- non-vacuity: it goes round every point at most once -/
theorem ell_winding : ∀ z, winding ell z = 0 ∨ winding ell z = 1 := by
  intro z
  have h := winding_chi ell z
  have : ((winding ell z : ℤ) : ℝ) = 0 ∨ ((winding ell z : ℤ) : ℝ) = 1 := by
    rw [h]
    simp only [ell, sides, List.rotate_cons_succ, List.rotate_zero, List.cons_append, List.nil_append, List.zip_cons_cons, List.zip_nil_right,
      List.map_cons, List.sum_cons, List.map_nil, List.sum_nil, chi_flat, chi_symm (0, 0) (0, 2)]
    rw [chi_upright 2 0 1 (by norm_num), chi_upright 1 1 2 (by norm_num), chi_upright 0 0 2 (by norm_num)]
    by_cases a1 : 0 ≤ z.2 <;> by_cases a2 : z.2 < 1 <;> by_cases a3 : z.2 < 2 <;> by_cases b1 : z.1 < 0 <;> by_cases b2 : z.1 < 1 <;>
      by_cases b3 : z.1 < 2 <;> simp [a1, a2, a3, b1, b2, b3, not_lt.1, not_le.1] <;> grind
  exact_mod_cast this

/-- the hypothesis of C135_region is needed: the bow tie goes round its two halves in opposite directions, and its area is 0 -/
example : GetArea (.polygon [ring [((0 : ℝ), (0 : ℝ)), (2, 2), (2, 0), (0, 2)]]) = .fin 0 := by
  rw [(C32_area_fan 0 _ []).1]
  norm_num [fanArea, cycSum, turn]

end GoGeo.Region
