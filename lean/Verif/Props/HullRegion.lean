import Verif.Props.Winding
import Verif.Props.Hull
import Mathlib.Analysis.Convex.Hull
import Mathlib.Analysis.Convex.Combination

/-!
# C136: the polygon ConvexHull returns has the area of the convex hull

`convexHull ℝ S` is the least convex set that contains `S` (Mathlib).
-/

namespace GoGeo.Region
open MeasureTheory Set Spec

theorem tri_hull {S : Set (ℝ × ℝ)} {a b c : ℝ × ℝ} (ha : a ∈ S) (hb : b ∈ S) (hc : c ∈ S) : tri a b c ⊆ convexHull ℝ S := by
  intro p hp
  have hT := tri_pos hp
  obtain ⟨h1, h2, h3⟩ := hp
  have hs : turn a b p + turn b c p + turn c a p = turn a b c := by unfold turn; ring
  have hbc : 0 < turn c a p + turn a b p := by linarith
  have hcv := convex_convexHull ℝ S
  have ia := subset_convexHull ℝ S ha
  have ib := subset_convexHull ℝ S hb
  have ic := subset_convexHull ℝ S hc
  have iq := hcv ib ic (a := turn c a p / (turn c a p + turn a b p)) (b := turn a b p / (turn c a p + turn a b p)) (by positivity) (by positivity)
    (by rw [← add_div, div_self hbc.ne'])
  have ip := hcv ia iq (a := turn b c p / turn a b c) (b := (turn c a p + turn a b p) / turn a b c) (by positivity) (by positivity)
    (by rw [← add_div, div_eq_one_iff_eq hT.ne']; linarith)
  have hne := hT.ne'
  have hne' := hbc.ne'
  have k1 : turn b c p * a.1 + turn c a p * b.1 + turn a b p * c.1 = turn a b c * p.1 := by unfold turn; ring
  have k2 : turn b c p * a.2 + turn c a p * b.2 + turn a b p * c.2 = turn a b c * p.2 := by unfold turn; ring
  convert ip using 1
  ext
  · simp only [Prod.fst_add, Prod.smul_fst, smul_eq_mul]
    field_simp
    linarith
  · simp only [Prod.snd_add, Prod.smul_snd, smul_eq_mul]
    field_simp
    linarith

theorem halfplane_convex (a b : ℝ × ℝ) : Convex ℝ {p | 0 ≤ turn a b p} := by
  intro x hx y hy s t hs ht hst
  have e : turn a b (s • x + t • y) = s * turn a b x + t * turn a b y := by
    have : s = 1 - t := by linarith
    subst this
    simp only [turn, Prod.fst_add, Prod.snd_add, Prod.smul_fst, Prod.smul_snd, smul_eq_mul]
    ring
  show 0 ≤ turn a b _
  rw [e]
  exact add_nonneg (mul_nonneg hs hx) (mul_nonneg ht hy)

theorem list_ae {α : Type} (P : α → ℝ × ℝ → Prop) (m : List α) (h : ∀ e ∈ m, ∀ᵐ z ∂(volume : Measure (ℝ × ℝ)), P e z) :
    ∀ᵐ z ∂(volume : Measure (ℝ × ℝ)), ∀ e ∈ m, P e z := by
  induction m with
  | nil => simp
  | cons e m ih =>
    filter_upwards [h e (by simp), ih fun e he => h e (by simp [he])] with z h1 h2
    intro f hf
    rcases List.mem_cons.1 hf with rfl | hf
    · exact h1
    · exact h2 f hf

/-- the sides of a ring without repeated corners have two different ends -/
theorem side_ne {c : List (ℝ × ℝ)} (hn : c.Nodup) (h2 : 2 ≤ c.length) {e} (he : e ∈ sides c) : e.1 ≠ e.2 := by
  obtain ⟨i, h1, h2', h3⟩ := (mem_sides c e).1 he
  intro h
  rw [← h] at h2'
  have hm : (i + 1) % c.length < c.length := Nat.mod_lt _ (by omega)
  have := (List.getElem?_inj hm hn).1 (h2'.trans h1.symm)
  rcases Nat.lt_or_ge (i + 1) c.length with hl | hl
  · rw [Nat.mod_eq_of_lt hl] at this; omega
  · rw [show i + 1 = c.length by omega, Nat.mod_self] at this
    omega

theorem hull_ae {pts v : List (ℝ × ℝ)} (h : HullOf pts v) : ∃ o ∈ v, ∃ l, v = o :: l ∧ Fan o l ∧
    (convexHull ℝ {x | x ∈ pts} : Set (ℝ × ℝ)) =ᵐ[volume] fan o l := by
  obtain ⟨o, b, l, rfl⟩ : ∃ o b l, v = o :: b :: l := by
    match v, h.three with
    | o :: b :: l, _ => exact ⟨o, b, l, rfl⟩
  have hf : Fan o (b :: l) := by
    unfold Fan
    rw [List.pairwise_iff_forall_sublist]
    intro u w hs
    exact h.turns o u w (hs.cons_cons o)
  refine ⟨o, by simp, b :: l, rfl, hf, ?_⟩
  have hs : sides (o :: b :: l) = (o, b) :: (b :: l).zip (l ++ [o]) := by rw [sides_cons]; simp
  have no : o ∉ b :: l := (List.nodup_cons.1 h.distinct).1
  have n1 := list_ae (fun (e : (ℝ × ℝ) × (ℝ × ℝ)) z => turn e.1 e.2 z ≠ 0) (sides (o :: b :: l))
    fun e he => turn_ae (side_ne h.distinct (by simp) he)
  have n2 := list_ae (fun (v : ℝ × ℝ) z => turn o v z ≠ 0) l fun v hv => turn_ae fun e => no (by rw [e]; simp [hv])
  filter_upwards [n1, n2] with p h1 h2
  apply propext
  constructor
  · intro hp
    have pos : ∀ e ∈ sides (o :: b :: l), 0 < turn e.1 e.2 p := by
      intro e he
      have : p ∈ {p | 0 ≤ turn e.1 e.2 p} := convexHull_min (fun x hx => h.left e he x hx) (halfplane_convex e.1 e.2) hp
      exact lt_of_le_of_ne this (h1 e he).symm
    exact walk_cover o b p l (fun e he => pos e (by rw [hs]; exact List.mem_cons_of_mem _ he)) (pos (o, b) (by simp [hs])) h2
  · rintro ⟨e, he, hpe⟩
    have m := segments_mem he
    exact tri_hull (h.corners _ (by simp)) (h.corners _ (List.mem_cons_of_mem _ m.1)) (h.corners _ (List.mem_cons_of_mem _ m.2)) hpe

theorem hull_affine {pts v : List (ℝ × ℝ)} (h : HullOf pts v) : ∃ o, 0 ≤ fanArea o v ∧ ∀ α β γ : ℝ,
    IntegrableOn (fun p : ℝ × ℝ => α + β * p.1 + γ * p.2) (convexHull ℝ {x | x ∈ pts}) ∧
    ∫ p in convexHull ℝ {x | x ∈ pts}, (α + β * p.1 + γ * p.2) = α * fanArea o v + β * fanMomentX o v + γ * fanMomentY o v := by
  obtain ⟨o, -, l, rfl, hf, hae⟩ := hull_ae h
  obtain ⟨b, l, rfl⟩ : ∃ b l', l = b :: l' := by
    match l, h.three with
    | b :: l, _ => exact ⟨b, l, rfl⟩
  obtain ⟨h1, h2⟩ := fan_sum hf
  refine ⟨o, h1, fun α β γ => ⟨(fan_int hf (by fun_prop)).congr_set_ae hae, ?_⟩⟩
  rw [setIntegral_congr_set hae, h2]

theorem hull_area {pts v : List (ℝ × ℝ)} (h : HullOf pts v) : ∃ o, 0 ≤ fanArea o v ∧
    volume (convexHull ℝ {x | x ∈ pts}) = ENNReal.ofReal (fanArea o v) ∧
    ∫ p in convexHull ℝ {x | x ∈ pts}, p.1 = fanMomentX o v ∧ ∫ p in convexHull ℝ {x | x ∈ pts}, p.2 = fanMomentY o v := by
  obtain ⟨o, hpos, h⟩ := hull_affine h
  have h1 := h 1 0 0
  have h2 := (h 0 1 0).2
  have h3 := (h 0 0 1).2
  simp only [zero_mul, one_mul, add_zero, zero_add] at h1 h2 h3
  refine ⟨o, hpos, ?_, h2, h3⟩
  have hfin : volume (convexHull ℝ {x | x ∈ pts}) ≠ ⊤ := by
    have := h1.1
    rw [integrableOn_const_iff] at this
    rcases this with h0 | h0
    · simp at h0
    · exact h0.ne
  rw [← h1.2, setIntegral_const, smul_eq_mul, mul_one, Measure.real, ENNReal.ofReal_toReal hfin]

/-- **C136 (area of the hull).** For at least three points no two of which are close to each other, the polygon that ConvexHull
returns has the area of the convex hull of the points. -/
theorem C136_area (sortPts : List (Point (XR ℝ)) → List (Point (XR ℝ))) (hs : HullSort sortPts) (pts : List (ℝ × ℝ))
    (hd : pts.Pairwise fun a b => ¬ Close a b) (h3 : 3 ≤ pts.length) :
    ∃ after r A, ConvexHull sortPts (pts.map pt) = .ok (after, some r) ∧ GetArea (.polygon [r]) = .fin A ∧ 0 ≤ A ∧
      volume (convexHull ℝ {x | x ∈ pts}) = ENNReal.ofReal A := by
  obtain ⟨after, v, h, hv⟩ := C48_hull_apart sortPts hs pts hd h3
  obtain ⟨o, hpos, hvol, _⟩ := hull_area hv
  refine ⟨after, _, fanArea o v, h, ?_, hpos, hvol⟩
  rw [(C32_area_fan o v []).1, abs_of_nonneg hpos]

/-- **C136 (centroid of the hull).** If the points are not in line, the centroid of that polygon is the mean position over the
convex hull. -/
theorem C136_centroid (sortPts : List (Point (XR ℝ)) → List (Point (XR ℝ))) (hs : HullSort sortPts) (pts : List (ℝ × ℝ))
    (hd : pts.Pairwise fun a b => ¬ Close a b) (h3 : 3 ≤ pts.length) (h0 : volume (convexHull ℝ {x | x ∈ pts}) ≠ 0) :
    ∃ after r, ConvexHull sortPts (pts.map pt) = .ok (after, some r) ∧
      Centroid (.polygon [r]) = .ok (pt (⨍ p in convexHull ℝ {x | x ∈ pts}, p.1, ⨍ p in convexHull ℝ {x | x ∈ pts}, p.2)) := by
  obtain ⟨after, v, h, hv⟩ := C48_hull_apart sortPts hs pts hd h3
  obtain ⟨o, hpos, hvol, hx, hy⟩ := hull_area hv
  have hne : fanArea o v ≠ 0 := by
    intro e
    rw [hvol, e] at h0
    simp at h0
  refine ⟨after, _, h, ?_⟩
  rw [C34_centroid_fan o v [] hne, setAverage_eq, setAverage_eq, hx, hy, Measure.real, hvol, ENNReal.toReal_ofReal hpos]
  simp only [smul_eq_mul, div_eq_inv_mul]

/-- a point that a ring goes round is in the convex hull of its corners -/
theorem winding_hull (c : List (ℝ × ℝ)) : ∀ᵐ z ∂(volume : Measure (ℝ × ℝ)), winding c z ≠ 0 → z ∈ convexHull ℝ {x | x ∈ c} := by
  match c with
  | [] => exact Filter.Eventually.of_forall fun z h => absurd rfl h
  | o :: l =>
    filter_upwards [winding_tau o (o :: l)] with z hz h
    by_contra hn
    apply h
    have : ((winding (o :: l) z : ℤ) : ℝ) = 0 := by
      rw [hz]
      apply List.sum_eq_zero
      intro x hx
      obtain ⟨e, he, rfl⟩ := List.mem_map.1 hx
      have m1 := sides_mem_left he
      have m2 := sides_mem_right he
      unfold tau
      rw [indicator_of_notMem (fun h => hn (tri_hull (by simp) m1 m2 h)), indicator_of_notMem (fun h => hn (tri_hull (by simp) m2 m1 h)), sub_zero]
    exact_mod_cast this

/-- **C136 (hull of a polygon).** The hull of the corners of a polygon that goes round no point off it more than once, always in the
same direction, has at least the area of the polygon. -/
theorem C136_polygon_le (sortPts : List (Point (XR ℝ)) → List (Point (XR ℝ))) (hs : HullSort sortPts) (c : List (ℝ × ℝ))
    (h : (∀ z, ¬ OnRing c z → winding c z = 0 ∨ winding c z = 1) ∨ (∀ z, ¬ OnRing c z → winding c z = 0 ∨ winding c z = -1))
    (hd : c.Pairwise fun a b => ¬ Close a b) (h3 : 3 ≤ c.length) :
    ∃ after r A B, ConvexHull sortPts (c.map pt) = .ok (after, some r) ∧ GetArea (.polygon [ring c]) = .fin A ∧
      GetArea (.polygon [r]) = .fin B ∧ A ≤ B := by
  obtain ⟨after, r, B, h1, h2, hB, h4⟩ := C136_area sortPts hs c hd h3
  obtain ⟨A, hA, h5, h6⟩ := C135_region c h []
  refine ⟨after, r, A, B, h1, h6, h2, ?_⟩
  rw [← ENNReal.ofReal_le_ofReal_iff hB, ← h5, ← h4]
  refine measure_mono_ae ?_
  filter_upwards [winding_hull c] with z hz hE
  refine hz ?_
  intro h0
  have : EvenOdd c z := hE
  rw [evenOdd_iff, h0] at this
  simp at this

/-- non-vacuity: five points, one of them inside -/
example : ∃ after r A, ConvexHull goSort12 ([((0 : ℝ), (0 : ℝ)), (1, 1), (2, 0), (2, 2), (0, 2)].map pt) = .ok (after, some r) ∧
    GetArea (.polygon [r]) = .fin A ∧ 0 ≤ A ∧
    volume (convexHull ℝ {x | x ∈ [((0 : ℝ), (0 : ℝ)), (1, 1), (2, 0), (2, 2), (0, 2)]}) = ENNReal.ofReal A :=
  C136_area goSort12 goSort12_hullSort _ (by unfold Close; norm_num [abs_lt]) (by simp)

end GoGeo.Region
