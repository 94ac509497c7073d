import Verif.Props.Winding
import Mathlib.Analysis.SpecialFunctions.Complex.Arg

/-!
# The winding number as a sum of angles

The crossing count of `Spec.winding` is the total angle under which the sides are seen, divided by 2π; so it does not change along
paths that avoid the ring.
-/

namespace GoGeo.Region
open Set Spec Real

/-- a vector of the plane as a complex number -/
def cx (p : ℝ × ℝ) : ℂ := ⟨p.1, p.2⟩

/-- the angle from `u` to `v` seen from `z` -/
noncomputable def ang (u v z : ℝ × ℝ) : ℝ := Complex.arg (cx (v - z) / cx (u - z))

/-- the direction of `u` seen from `z`, with the cut to the right -/
noncomputable def theta (z u : ℝ × ℝ) : ℝ := Complex.arg (-cx (u - z))

theorem cx_ne {u z : ℝ × ℝ} (h : u ≠ z) : cx (u - z) ≠ 0 := by
  intro e
  apply h
  have h1 := congrArg Complex.re e
  have h2 := congrArg Complex.im e
  simp only [cx, Prod.fst_sub, Prod.snd_sub, Complex.zero_re, Complex.zero_im] at h1 h2
  ext <;> linarith

theorem ratio_im (u v z : ℝ × ℝ) : (cx (v - z) / cx (u - z)).im = turn u v z / Complex.normSq (cx (u - z)) := by
  rw [Complex.div_im]
  simp only [cx, Prod.fst_sub, Prod.snd_sub, turn]
  rw [← sub_div]
  congr 1
  ring

theorem ratio_re (u v z : ℝ × ℝ) : (cx (v - z) / cx (u - z)).re =
    ((v.1 - z.1) * (u.1 - z.1) + (v.2 - z.2) * (u.2 - z.2)) / Complex.normSq (cx (u - z)) := by
  rw [Complex.div_re]
  simp only [cx, Prod.fst_sub, Prod.snd_sub]
  rw [← add_div]

theorem end_on (u v : ℝ × ℝ) : OnSeg u v u ∧ OnSeg u v v :=
  ⟨⟨0, le_rfl, zero_le_one, by simp [along]⟩, ⟨1, zero_le_one, le_rfl, by simp [along]⟩⟩

theorem ratio_slit {u v z : ℝ × ℝ} (h : ¬ OnSeg u v z) : cx (v - z) / cx (u - z) ∈ Complex.slitPlane := by
  have hu : u ≠ z := by rintro rfl; exact h (end_on _ _).1
  rw [Complex.mem_slitPlane_iff]
  by_contra hc
  rw [not_or, not_lt, not_not] at hc
  obtain ⟨h1, h2⟩ := hc
  set r := (cx (v - z) / cx (u - z)).re with hr
  have e : cx (v - z) = r * cx (u - z) := by
    rw [← div_eq_iff (cx_ne hu)]
    apply Complex.ext
    · rw [Complex.ofReal_re]
    · rw [Complex.ofReal_im, h2]
  have e1 := congrArg Complex.re e
  have e2 := congrArg Complex.im e
  simp only [cx, Prod.fst_sub, Prod.snd_sub, Complex.mul_re, Complex.mul_im, Complex.ofReal_re, Complex.ofReal_im, zero_mul, sub_zero, add_zero] at e1 e2
  have hp : 0 < 1 - r := by linarith
  refine h ⟨1 / (1 - r), by positivity, by rw [div_le_one hp]; linarith, ?_⟩
  unfold along
  ext
  · show z.1 = u.1 + 1 / (1 - r) * (v.1 - u.1)
    field_simp
    linarith
  · show z.2 = u.2 + 1 / (1 - r) * (v.2 - u.2)
    field_simp
    linarith

theorem ang_lt {u v z : ℝ × ℝ} (h : ¬ OnSeg u v z) : -π < ang u v z ∧ ang u v z < π := by
  have h1 := Complex.mem_slitPlane_iff_arg.1 (ratio_slit h)
  exact ⟨Complex.neg_pi_lt_arg _, lt_of_le_of_ne (Complex.arg_le_pi _) h1.1⟩

theorem ang_mod {u v z : ℝ × ℝ} (hu : u ≠ z) (hv : v ≠ z) : ∃ n : ℤ, ang u v z = theta z v - theta z u + 2 * π * n := by
  have h := Complex.arg_div_coe_angle (neg_ne_zero.2 (cx_ne hv)) (neg_ne_zero.2 (cx_ne hu))
  rw [neg_div_neg_eq, ← Real.Angle.coe_sub, Real.Angle.angle_eq_iff_two_pi_dvd_sub] at h
  obtain ⟨n, hn⟩ := h
  exact ⟨n, by unfold ang theta; linarith⟩

theorem theta_above {z u : ℝ × ℝ} (h : z.2 < u.2) : -π < theta z u ∧ theta z u < 0 := by
  refine ⟨Complex.neg_pi_lt_arg _, Complex.arg_neg_iff.2 ?_⟩
  simp only [cx, Complex.neg_im, Prod.snd_sub]
  linarith

theorem theta_below {z u : ℝ × ℝ} (h : ¬ z.2 < u.2) : 0 ≤ theta z u ∧ theta z u ≤ π := by
  refine ⟨Complex.arg_nonneg_iff.2 ?_, Complex.arg_le_pi _⟩
  simp only [cx, Complex.neg_im, Prod.snd_sub]
  linarith [not_lt.1 h]

theorem int_lt {n k : ℤ} (h : 2 * π * n < 2 * π * k) : n < k := by
  have := lt_of_mul_lt_mul_left h (by positivity)
  exact_mod_cast this

theorem int_eq {n k : ℤ} (h1 : 2 * π * n < 2 * π * k + 2 * π) (h2 : 2 * π * k - 2 * π < 2 * π * n) : n = k := by
  have a := int_lt (n := n) (k := k + 1) (by push_cast; linarith)
  have b := int_lt (n := k - 1) (k := n) (by push_cast; linarith)
  omega

/-- the angle of a side is the difference of directions, plus a full turn for each crossing -/
theorem ang_chi {u v z : ℝ × ℝ} (h : ¬ OnSeg u v z) : ang u v z = theta z v - theta z u + 2 * π * chi u v z := by
  have hu : u ≠ z := by rintro rfl; exact h (end_on _ _).1
  have hv : v ≠ z := by rintro rfl; exact h (end_on _ _).2
  obtain ⟨n, hn⟩ := ang_mod hu hv
  obtain ⟨b1, b2⟩ := ang_lt h
  have hpi := pi_pos
  have hN : 0 < Complex.normSq (cx (u - z)) := Complex.normSq_pos.2 (cx_ne hu)
  have key : ∀ k : ℤ, 2 * π * (n : ℝ) < 2 * π * k + 2 * π → 2 * π * (k : ℝ) - 2 * π < 2 * π * n → chi u v z = k →
      ang u v z = theta z v - theta z u + 2 * π * chi u v z := by
    intro k h1 h2 h3
    rw [hn, int_eq h1 h2, h3]
  have spos : 0 < turn u v z → 0 ≤ ang u v z := fun hp => Complex.arg_nonneg_iff.2 (by rw [ratio_im]; positivity)
  have sneg : turn u v z < 0 → ang u v z < 0 := fun hp => Complex.arg_neg_iff.2 (by rw [ratio_im]; exact div_neg_of_neg_of_pos hp hN)
  have szero : turn u v z = 0 → ang u v z = 0 := by
    intro hp
    have hi : (cx (v - z) / cx (u - z)).im = 0 := by rw [ratio_im, hp, zero_div]
    refine Complex.arg_eq_zero_iff.2 ⟨?_, hi⟩
    rcases Complex.mem_slitPlane_iff.1 (ratio_slit h) with h | h
    · exact h.le
    · exact absurd hi h
  by_cases c1 : z.2 < u.2 <;> by_cases c2 : z.2 < v.2
  · obtain ⟨t1, t2⟩ := theta_above c1
    obtain ⟨t3, t4⟩ := theta_above c2
    exact key 0 (by push_cast; linarith) (by push_cast; linarith) (by unfold chi; simp [c1, c2])
  · obtain ⟨t1, t2⟩ := theta_above c1
    obtain ⟨t3, t4⟩ := theta_below c2
    rcases lt_trichotomy (turn u v z) 0 with hp | hp | hp
    · have := sneg hp
      exact key (-1) (by push_cast; linarith) (by push_cast; linarith) (by unfold chi; simp [c1, c2, hp])
    · have := szero hp
      have : (-1 : ℤ) < n := int_lt (by push_cast; linarith)
      have : n < (0 : ℤ) := int_lt (by push_cast; linarith)
      omega
    · have := spos hp
      exact key 0 (by push_cast; linarith) (by push_cast; linarith) (by unfold chi; simp [c1, c2, hp.le])
  · obtain ⟨t1, t2⟩ := theta_below c1
    obtain ⟨t3, t4⟩ := theta_above c2
    rcases lt_trichotomy (turn u v z) 0 with hp | hp | hp
    · have := sneg hp
      exact key 0 (by push_cast; linarith) (by push_cast; linarith) (by unfold chi; simp [c1, c2, hp.le])
    · have := szero hp
      have : (0 : ℤ) < n := int_lt (by push_cast; linarith)
      have : n < (1 : ℤ) := int_lt (by push_cast; linarith)
      omega
    · have := spos hp
      exact key 1 (by push_cast; linarith) (by push_cast; linarith) (by unfold chi; simp [c1, c2, hp])
  · obtain ⟨t1, t2⟩ := theta_below c1
    obtain ⟨t3, t4⟩ := theta_below c2
    exact key 0 (by push_cast; linarith) (by push_cast; linarith) (by unfold chi; simp [c1, c2])

/-- differences along a closed ring cancel -/
theorem sides_tel (c : List (ℝ × ℝ)) (g : ℝ × ℝ → ℝ) : ((sides c).map fun e => g e.2 - g e.1).sum = 0 := by
  have h1 : ((sides c).map fun e => g e.2 - g e.1).sum = ((sides c).map fun e => g e.2).sum - ((sides c).map fun e => g e.1).sum := by
    generalize sides c = m
    induction m with
    | nil => simp
    | cons e m ih => simp only [List.map_cons, List.sum_cons, ih]; ring
  have hl : c.length = (c.rotate 1).length := by simp
  have e1 : (sides c).map (fun e => g e.1) = c.map g := by
    show (c.zip (c.rotate 1)).map (g ∘ Prod.fst) = _
    rw [← List.map_map (g := g) (f := Prod.fst), List.map_fst_zip hl.le]
  have e2 : (sides c).map (fun e => g e.2) = (c.rotate 1).map g := by
    show (c.zip (c.rotate 1)).map (g ∘ Prod.snd) = _
    rw [← List.map_map (g := g) (f := Prod.snd), List.map_snd_zip hl.ge]
  rw [h1, e1, e2, ((c.rotate_perm 1).map g).sum_eq, sub_self]

theorem winding_angle {c : List (ℝ × ℝ)} {z : ℝ × ℝ} (h : ¬ OnRing c z) :
    ((sides c).map fun e => ang e.1 e.2 z).sum = 2 * π * winding c z := by
  have h1 : (sides c).map (fun e => ang e.1 e.2 z) = (sides c).map (fun e => (theta z e.2 - theta z e.1) + 2 * π * chi e.1 e.2 z) := by
    apply List.map_congr_left
    intro e he
    exact ang_chi fun hc => h ⟨e, he, hc⟩
  rw [h1, List.sum_map_add, sides_tel c (theta z), zero_add, List.sum_map_mul_left, winding_chi]

theorem cx_cont (u : ℝ × ℝ) : Continuous fun z => cx (u - z) := by
  have : (fun z : ℝ × ℝ => cx (u - z)) = fun z => Complex.equivRealProdCLM.symm (u - z) := rfl
  rw [this]
  fun_prop

theorem ang_cont {u v z : ℝ × ℝ} (h : ¬ OnSeg u v z) : ContinuousAt (ang u v) z := by
  have hu : u ≠ z := by rintro rfl; exact h (end_on _ _).1
  unfold ang
  exact ContinuousAt.comp (g := Complex.arg) (f := fun z => cx (v - z) / cx (u - z)) (Complex.continuousAt_arg (ratio_slit h))
    ((cx_cont v).continuousAt.div (cx_cont u).continuousAt (cx_ne hu))

theorem seg_eq (u v : ℝ × ℝ) : {x | OnSeg u v x} = segment ℝ u v := by
  ext x
  rw [segment_eq_image', mem_image]
  constructor
  · rintro ⟨t, h0, h1, rfl⟩
    exact ⟨t, ⟨h0, h1⟩, by simp [along, Prod.ext_iff]⟩
  · rintro ⟨t, ⟨h0, h1⟩, rfl⟩
    exact ⟨t, h0, h1, by simp [along, Prod.ext_iff]⟩

theorem seg_compact (u v : ℝ × ℝ) : IsCompact {x | OnSeg u v x} := by
  rw [seg_eq, segment_eq_image]
  exact isCompact_Icc.image (by fun_prop)

theorem ring_compact (c : List (ℝ × ℝ)) : IsCompact {x | OnRing c x} := by
  have : {x | OnRing c x} = ⋃ e ∈ {e | e ∈ sides c}, {x | OnSeg e.1 e.2 x} := by ext x; simp [OnRing]
  rw [this]
  exact (List.finite_toSet _).isCompact_biUnion fun e _ => seg_compact _ _

theorem off_open (c : List (ℝ × ℝ)) : IsOpen {x | ¬ OnRing c x} := (ring_compact c).isClosed.isOpen_compl

theorem sum_cont {α : Type} (m : List α) (f : α → ℝ × ℝ → ℝ) (z : ℝ × ℝ) (h : ∀ e ∈ m, ContinuousAt (f e) z) :
    ContinuousAt (fun z => (m.map fun e => f e z).sum) z := by
  induction m with
  | nil => simpa using continuousAt_const
  | cons e m ih =>
    simp only [List.map_cons, List.sum_cons]
    exact (h e List.mem_cons_self).add (ih fun e he => h e (List.mem_cons_of_mem _ he))

/-- the winding number is locally constant away from the ring -/
theorem winding_cont (c : List (ℝ × ℝ)) : ContinuousOn (winding c) {x | ¬ OnRing c x} := by
  intro z hz
  have hc : ContinuousAt (fun z => ((sides c).map fun e => ang e.1 e.2 z).sum) z :=
    sum_cont (sides c) (fun e z => ang e.1 e.2 z) z fun e he => ang_cont fun h => hz ⟨e, he, h⟩
  have h1 := Metric.continuousAt_iff.1 hc (2 * π) (by positivity)
  obtain ⟨δ, hδ, h1⟩ := h1
  have hev : ∀ᶠ y in nhds z, winding c y = winding c z := by
    filter_upwards [Metric.ball_mem_nhds z hδ, (off_open c).mem_nhds hz] with y hy hoff
    have := h1 hy
    rw [winding_angle hoff, winding_angle hz, Real.dist_eq, ← mul_sub, abs_mul, abs_of_pos (by positivity : (0 : ℝ) < 2 * π)] at this
    have h2 : |((winding c y : ℝ) - winding c z)| < 1 := by
      have hp : 0 < 2 * π := by positivity
      by_contra hc
      have := mul_le_mul_of_nonneg_left (not_lt.1 hc) hp.le
      linarith
    have h3 : |winding c y - winding c z| < 1 := by exact_mod_cast h2
    rw [Int.abs_lt_one_iff] at h3
    omega
  exact (continuousAt_const.congr (hev.mono fun y hy => hy.symm)).continuousWithinAt

/-- the winding number is the same everywhere in a connected set that avoids the ring -/
theorem winding_path (c : List (ℝ × ℝ)) {S : Set (ℝ × ℝ)} (hS : IsPreconnected S) (hoff : ∀ x ∈ S, ¬ OnRing c x) {p q : ℝ × ℝ} (hp : p ∈ S)
    (hq : q ∈ S) : winding c p = winding c q :=
  hS.constant ((winding_cont c).mono hoff) hp hq

end GoGeo.Region
