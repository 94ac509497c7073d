import Verif.Props.HullPerimeter
import Verif.Props.HullRegion
import Mathlib.Analysis.LocallyConvex.Separation
import Mathlib.Analysis.Convex.Topology

/-!
# More points make a larger hull: C156

What ConvexHull says of the size of a set of points (area, length of the boundary, centroid) depends on the convex set spanned by
the points alone and grows with it.
-/

namespace GoGeo.Region
open GoFloat Spec MeasureTheory Set

/-- the corners span what the points span -/
theorem hullOf_span {pts v : List (ℝ × ℝ)} (h : HullOf pts v) : convexHull ℝ {x | x ∈ v} = convexHull ℝ {x | x ∈ pts} := by
  apply subset_antisymm
  · exact convexHull_mono fun x hx => h.corners x hx
  · refine convexHull_min ?_ (convex_convexHull ℝ _)
    intro x hx
    by_contra hn
    have fin : {x | x ∈ v}.Finite := List.finite_toSet v
    obtain ⟨f, u, h1, h2⟩ := geometric_hahn_banach_point_closed (convex_convexHull ℝ {x | x ∈ v}) (fin.isCompact_convexHull (𝕜 := ℝ)).isClosed hn
    have hv0 : v ≠ [] := by rintro rfl; simpa using h.three
    obtain ⟨a, ha, hmin⟩ := fin.exists_minimalFor f _ (by obtain ⟨y, hy⟩ := List.exists_mem_of_ne_nil v hv0; exact ⟨y, hy⟩)
    have hlin : ∀ y : ℝ × ℝ, f y = y.1 * f (1, 0) + y.2 * f (0, 1) := by
      intro y
      rw [← smul_eq_mul, ← smul_eq_mul, ← map_smul, ← map_smul, ← map_add]
      simp
    have key : ∀ y, turn a (a.1 + f (0, 1), a.2 - f (1, 0)) y = f y - f a := by
      intro y
      rw [hlin y, hlin a]
      unfold turn
      ring
    have hle : ∀ y ∈ v, f a ≤ f y := by
      intro y hy
      rcases le_total (f a) (f y) with g | g
      · exact g
      · exact hmin hy g
    have := h.tight a (a.1 + f (0, 1), a.2 - f (1, 0)) (fun y hy => by rw [key]; linarith [hle y hy]) x hx
    rw [key] at this
    linarith [h2 a (subset_convexHull ℝ _ ha)]

theorem apart_sub {pts v : List (ℝ × ℝ)} (hd : pts.Pairwise fun a b => ¬ Close a b) (hs : ∀ x ∈ v, x ∈ pts) (hn : v.Nodup) :
    v.Pairwise fun a b => ¬ Close a b := by
  have hcs : ∀ a b : ℝ × ℝ, Close a b → Close b a := by
    intro a b h
    unfold Close at *
    rwa [abs_sub_comm b.1, abs_sub_comm b.2]
  refine hn.imp_of_mem ?_
  intro a b ha hb hne
  have : Std.Symm fun a b : ℝ × ℝ => ¬ Close a b := ⟨fun x y hx h => hx (hcs _ _ h)⟩
  exact hd.forall (hs a ha) (hs b hb) hne

theorem span_pos {pts : List (ℝ × ℝ)} (hl : ∃ a ∈ pts, ∃ b ∈ pts, ∃ c ∈ pts, turn a b c ≠ 0) : volume (convexHull ℝ {x | x ∈ pts}) ≠ 0 := by
  have main : ∀ a b c : ℝ × ℝ, a ∈ pts → b ∈ pts → c ∈ pts → 0 < turn a b c → volume (convexHull ℝ {x | x ∈ pts}) ≠ 0 := by
    intro a b c ha hb hc h
    have ho : IsOpen (tri a b c) := by
      have hcont : ∀ x y : ℝ × ℝ, Continuous fun p => turn x y p := by intro x y; unfold turn; fun_prop
      exact (isOpen_lt continuous_const (hcont a b)).inter ((isOpen_lt continuous_const (hcont b c)).inter (isOpen_lt continuous_const (hcont c a)))
    have hne : (tri a b c).Nonempty := by
      refine ⟨((a.1 + b.1 + c.1) / 3, (a.2 + b.2 + c.2) / 3), ?_, ?_, ?_⟩
      · have : turn a b ((a.1 + b.1 + c.1) / 3, (a.2 + b.2 + c.2) / 3) = turn a b c / 3 := by unfold turn; ring
        rw [this]; linarith
      · have : turn b c ((a.1 + b.1 + c.1) / 3, (a.2 + b.2 + c.2) / 3) = turn a b c / 3 := by unfold turn; ring
        rw [this]; linarith
      · have : turn c a ((a.1 + b.1 + c.1) / 3, (a.2 + b.2 + c.2) / 3) = turn a b c / 3 := by unfold turn; ring
        rw [this]; linarith
    have h1 := ho.measure_pos volume hne
    exact (lt_of_lt_of_le h1 (measure_mono (tri_hull (S := {x | x ∈ pts}) ha hb hc))).ne'
  obtain ⟨a, ha, b, hb, c, hc, h⟩ := hl
  rcases lt_or_gt_of_ne h with h | h
  · exact main a c b ha hc hb (by have : turn a c b = - turn a b c := by unfold turn; ring
                                  linarith)
  · exact main a b c ha hb hc h

theorem hullOf_bent {pts v : List (ℝ × ℝ)} (h : HullOf pts v) (hl : ∃ a ∈ pts, ∃ b ∈ pts, ∃ c ∈ pts, turn a b c ≠ 0) :
    ∃ a ∈ v, ∃ b ∈ v, ∃ c ∈ v, turn a b c ≠ 0 := by
  obtain ⟨a, b, l, rfl⟩ : ∃ a b l, v = a :: b :: l := by
    match v, h.three with
    | a :: b :: l, _ => exact ⟨a, b, l, rfl⟩
  have hab : a ≠ b := by
    have := h.distinct
    simp only [List.nodup_cons, List.mem_cons, not_or] at this
    exact this.1.1
  by_contra hn
  push Not at hn
  have h0 : ∀ x ∈ a :: b :: l, turn a b x = 0 := fun x hx => hn a (by simp) b (by simp) x hx
  have sw : ∀ x : ℝ × ℝ, turn b a x = - turn a b x := by intro x; unfold turn; ring
  have all : ∀ x ∈ pts, turn a b x = 0 := by
    intro x hx
    have k1 := h.tight a b (fun y hy => (h0 y hy).ge) x hx
    have k2 := h.tight b a (fun y hy => by rw [sw, h0 y hy]; simp) x hx
    rw [sw] at k2
    linarith
  obtain ⟨p, hp, q, hq, r, hr, hne⟩ := hl
  exact hne (in_line hab (all p hp) (all q hq) (all r hr))

/-- **C156 (area).** Points that lie in the convex set spanned by others have a hull of no larger area. -/
theorem C156_area (s s' : List (Point (XR ℝ)) → List (Point (XR ℝ))) (hs : HullSort s) (hs' : HullSort s') (pts pts' : List (ℝ × ℝ))
    (hd : pts.Pairwise fun a b => ¬ Close a b) (hd' : pts'.Pairwise fun a b => ¬ Close a b) (h3 : 3 ≤ pts.length) (h3' : 3 ≤ pts'.length)
    (h : ∀ x ∈ pts, x ∈ convexHull ℝ {y | y ∈ pts'}) :
    ∃ after r after' r' A A', ConvexHull s (pts.map pt) = .ok (after, some r) ∧ ConvexHull s' (pts'.map pt) = .ok (after', some r') ∧
      GetArea (.polygon [r]) = .fin A ∧ GetArea (.polygon [r']) = .fin A' ∧ A ≤ A' := by
  obtain ⟨after, r, A, h1, h2, hA, h4⟩ := C136_area s hs pts hd h3
  obtain ⟨after', r', A', h1', h2', hA', h4'⟩ := C136_area s' hs' pts' hd' h3'
  refine ⟨after, r, after', r', A, A', h1, h1', h2, h2', ?_⟩
  rw [← ENNReal.ofReal_le_ofReal_iff hA', ← h4, ← h4']
  exact measure_mono (convexHull_min h (convex_convexHull ℝ _))

/-- **C156 (length).** and, unless they are in line, of no longer boundary. -/
theorem C156_length (s s' : List (Point (XR ℝ)) → List (Point (XR ℝ))) (hs : HullSort s) (hs' : HullSort s') (pts pts' : List (ℝ × ℝ))
    (hd : pts.Pairwise fun a b => ¬ Close a b) (hd' : pts'.Pairwise fun a b => ¬ Close a b) (h3 : 3 ≤ pts.length) (h3' : 3 ≤ pts'.length)
    (hl : ∃ a ∈ pts, ∃ b ∈ pts, ∃ c ∈ pts, turn a b c ≠ 0) (h : ∀ x ∈ pts, x ∈ convexHull ℝ {y | y ∈ pts'}) :
    ∃ after r after' r' L L', ConvexHull s (pts.map pt) = .ok (after, some r) ∧ ConvexHull s' (pts'.map pt) = .ok (after', some r') ∧
      LineLength r = .fin L ∧ LineLength r' = .fin L' ∧ L ≤ L' := by
  obtain ⟨after', v, h', hv⟩ := C48_hull_apart s' hs' pts' hd' h3'
  obtain ⟨after, r, A, B, g1, g2, g3, g4⟩ := C147_hull s hs pts hd h3 hl v (fun x hx => by rw [hullOf_span hv]; exact h x hx)
  exact ⟨after, r, after', _, A, B, g1, h', g2, g3, g4⟩

/-- **C156 (the spanned set alone counts).** Points that span the same convex set have hulls of the same area, the same length and
the same centroid. In particular points inside the hull of the others may be dropped or added. -/
theorem C156_same (s s' : List (Point (XR ℝ)) → List (Point (XR ℝ))) (hs : HullSort s) (hs' : HullSort s') (pts pts' : List (ℝ × ℝ))
    (hd : pts.Pairwise fun a b => ¬ Close a b) (hd' : pts'.Pairwise fun a b => ¬ Close a b) (h3 : 3 ≤ pts.length) (h3' : 3 ≤ pts'.length)
    (hl : ∃ a ∈ pts, ∃ b ∈ pts, ∃ c ∈ pts, turn a b c ≠ 0) (hl' : ∃ a ∈ pts', ∃ b ∈ pts', ∃ c ∈ pts', turn a b c ≠ 0)
    (h : convexHull ℝ {y | y ∈ pts} = convexHull ℝ {y | y ∈ pts'}) :
    ∃ after r after' r', ConvexHull s (pts.map pt) = .ok (after, some r) ∧ ConvexHull s' (pts'.map pt) = .ok (after', some r') ∧
      GetArea (.polygon [r]) = GetArea (.polygon [r']) ∧ LineLength r = LineLength r' ∧ Centroid (.polygon [r]) = Centroid (.polygon [r']) := by
  have i1 : ∀ x ∈ pts, x ∈ convexHull ℝ {y | y ∈ pts'} := fun x hx => h ▸ subset_convexHull ℝ _ hx
  have i2 : ∀ x ∈ pts', x ∈ convexHull ℝ {y | y ∈ pts} := fun x hx => h ▸ subset_convexHull ℝ _ hx
  obtain ⟨_, r, _, r', A, A', a1, a2, a3, a4, a5⟩ := C156_area s s' hs hs' pts pts' hd hd' h3 h3' i1
  obtain ⟨_, _, _, _, B, B', b1, b2, b3, b4, b5⟩ := C156_area s' s hs' hs pts' pts hd' hd h3' h3 i2
  obtain ⟨_, _, _, _, L, L', c1, c2, c3, c4, c5⟩ := C156_length s s' hs hs' pts pts' hd hd' h3 h3' hl i1
  obtain ⟨_, _, _, _, M, M', d1, d2, d3, d4, d5⟩ := C156_length s' s hs' hs pts' pts hd' hd h3' h3 hl' i2
  rw [a1] at b2 c1 d2
  rw [a2] at b1 c2 d1
  simp only [Except.ok.injEq, Prod.mk.injEq, Option.some.injEq] at b1 b2 c1 c2 d1 d2
  obtain ⟨rfl, rfl⟩ := b1
  obtain ⟨rfl, rfl⟩ := b2
  obtain ⟨rfl, rfl⟩ := c1
  obtain ⟨rfl, rfl⟩ := c2
  obtain ⟨rfl, rfl⟩ := d1
  obtain ⟨rfl, rfl⟩ := d2
  rw [a3] at b4
  rw [a4] at b3
  rw [c3] at d4
  rw [c4] at d3
  simp only [XR.fin.injEq] at b3 b4 d3 d4
  subst b3 b4 d3 d4
  have e1 : A = A' := le_antisymm a5 b5
  have e2 : L = L' := le_antisymm c5 d5
  subst e1 e2
  refine ⟨_, _, _, _, a1, a2, by rw [a3, a4], by rw [c3, c4], ?_⟩
  obtain ⟨_, _, k1, k2⟩ := C136_centroid s hs pts hd h3 (span_pos hl)
  obtain ⟨_, _, m1, m2⟩ := C136_centroid s' hs' pts' hd' h3' (span_pos hl')
  rw [a1] at k1
  rw [a2] at m1
  simp only [Except.ok.injEq, Prod.mk.injEq, Option.some.injEq] at k1 m1
  obtain ⟨rfl, rfl⟩ := k1
  obtain ⟨rfl, rfl⟩ := m1
  rw [k2, m2, h]

/-- **C156 (merging hulls).** The hull of two sets of points has the area, the length and the centroid of the hull of the corners of
the two hulls. -/
theorem C156_merge (s : List (Point (XR ℝ)) → List (Point (XR ℝ))) (hs : HullSort s) (p q : List (ℝ × ℝ))
    (hd : (p ++ q).Pairwise fun a b => ¬ Close a b) (hp : 3 ≤ p.length) (hq : 3 ≤ q.length)
    (hl : ∃ a ∈ p, ∃ b ∈ p, ∃ c ∈ p, turn a b c ≠ 0) :
    ∃ ap v aq w am r am' r', ConvexHull s (p.map pt) = .ok (ap, some (ring v)) ∧ ConvexHull s (q.map pt) = .ok (aq, some (ring w)) ∧
      ConvexHull s ((v ++ w).map pt) = .ok (am, some r) ∧ ConvexHull s ((p ++ q).map pt) = .ok (am', some r') ∧
      GetArea (.polygon [r]) = GetArea (.polygon [r']) ∧ LineLength r = LineLength r' ∧ Centroid (.polygon [r]) = Centroid (.polygon [r']) := by
  obtain ⟨dp, dq, dpq⟩ := List.pairwise_append.1 hd
  obtain ⟨ap, v, h1, hv⟩ := C48_hull_apart s hs p dp hp
  obtain ⟨aq, w, h2, hw⟩ := C48_hull_apart s hs q dq hq
  have e : convexHull ℝ {y | y ∈ v ++ w} = convexHull ℝ {y | y ∈ p ++ q} := by
    apply subset_antisymm
    · refine convexHull_mono fun x hx => ?_
      rcases List.mem_append.1 hx with hx | hx
      · exact List.mem_append_left _ (hv.corners x hx)
      · exact List.mem_append_right _ (hw.corners x hx)
    · refine convexHull_min (fun x hx => ?_) (convex_convexHull ℝ _)
      rcases List.mem_append.1 hx with hx | hx
      · have : x ∈ convexHull ℝ {y | y ∈ v} := by rw [hullOf_span hv]; exact subset_convexHull ℝ _ hx
        exact convexHull_mono (fun y hy => List.mem_append_left w hy) this
      · have : x ∈ convexHull ℝ {y | y ∈ w} := by rw [hullOf_span hw]; exact subset_convexHull ℝ _ hx
        exact convexHull_mono (fun y hy => List.mem_append_right v hy) this
  have dvw : (v ++ w).Pairwise fun a b => ¬ Close a b :=
    List.pairwise_append.2 ⟨apart_sub dp hv.corners hv.distinct, apart_sub dq hw.corners hw.distinct,
      fun a ha b hb => dpq a (hv.corners a ha) b (hw.corners b hb)⟩
  have hl' : ∃ a ∈ p ++ q, ∃ b ∈ p ++ q, ∃ c ∈ p ++ q, turn a b c ≠ 0 := by
    obtain ⟨a, ha, b, hb, c, hc, h⟩ := hl
    exact ⟨a, by simp [ha], b, by simp [hb], c, by simp [hc], h⟩
  have hlv : ∃ a ∈ v ++ w, ∃ b ∈ v ++ w, ∃ c ∈ v ++ w, turn a b c ≠ 0 := by
    obtain ⟨a, ha, b, hb, c, hc, h⟩ := hullOf_bent hv hl
    exact ⟨a, by simp [ha], b, by simp [hb], c, by simp [hc], h⟩
  obtain ⟨am, r, am', r', g1, g2, g3, g4, g5⟩ := C156_same s s hs hs (v ++ w) (p ++ q) dvw hd
    (by have := hv.three; simp; omega) (by simp; omega) hlv hl' e
  exact ⟨ap, v, aq, w, am, r, am', r', h1, h2, g1, g2, g3, g4, g5⟩

/-- **C156 (box).** A box round the points is at least as large as their hull, in area and in length of the boundary. -/
theorem C156_box (s : List (Point (XR ℝ)) → List (Point (XR ℝ))) (hs : HullSort s) (pts : List (ℝ × ℝ))
    (hd : pts.Pairwise fun a b => ¬ Close a b) (h3 : 3 ≤ pts.length) (hl : ∃ a ∈ pts, ∃ b ∈ pts, ∃ c ∈ pts, turn a b c ≠ 0)
    (x₀ y₀ x₁ y₁ : ℝ) (hb : ∀ x ∈ pts, IsPointInBox (⟨.fin x₀, .fin y₀, .fin x₁, .fin y₁⟩ : Box (XR ℝ)) (pt x) = true) :
    ∃ after r A L, ConvexHull s (pts.map pt) = .ok (after, some r) ∧ GetArea (.polygon [r]) = .fin A ∧ LineLength r = .fin L ∧
      Box.Size (⟨.fin x₀, .fin y₀, .fin x₁, .fin y₁⟩ : Box (XR ℝ)) = .fin ((x₁ - x₀) * (y₁ - y₀)) ∧ A ≤ (x₁ - x₀) * (y₁ - y₀) ∧
      L ≤ 2 * ((x₁ - x₀) + (y₁ - y₀)) := by
  have hin : ∀ x ∈ pts, (x₀ ≤ x.1 ∧ x.1 ≤ x₁) ∧ (y₀ ≤ x.2 ∧ x.2 ≤ y₁) := by
    intro x hx
    have := hb x hx
    simp only [IsPointInBox, pt, Bool.and_eq_true] at this
    obtain ⟨⟨⟨k1, k2⟩, k3⟩, k4⟩ := this
    exact ⟨⟨of_decide_eq_true k1, of_decide_eq_true k2⟩, of_decide_eq_true k3, of_decide_eq_true k4⟩
  obtain ⟨a, ha, -⟩ := id hl
  have h0 := hin a ha
  have hx : x₀ ≤ x₁ := h0.1.1.trans h0.1.2
  have hy : y₀ ≤ y₁ := h0.2.1.trans h0.2.2
  obtain ⟨after, r, A, g1, g2, g3, g4⟩ := C136_area s hs pts hd h3
  obtain ⟨_, _, L, B, k1, k2, k3, k4⟩ := C147_hull s hs pts hd h3 hl [(x₀, y₀), (x₁, y₀), (x₁, y₁), (x₀, y₁)] (by
    intro x hx'
    have e : {y : ℝ × ℝ | y ∈ [(x₀, y₀), (x₁, y₀), (x₁, y₁), (x₀, y₁)]} = {x₀, x₁} ×ˢ {y₀, y₁} := by
      ext ⟨u, w⟩
      simp only [List.mem_cons, List.not_mem_nil, or_false, mem_ofPred_eq, Prod.mk.injEq, mem_prod, mem_insert_iff, mem_singleton_iff]
      tauto
    rw [e, convexHull_prod, convexHull_pair, convexHull_pair, segment_eq_Icc hx, segment_eq_Icc hy]
    exact hin x hx')
  rw [g1] at k1
  simp only [Except.ok.injEq, Prod.mk.injEq, Option.some.injEq] at k1
  obtain ⟨rfl, rfl⟩ := k1
  refine ⟨after, r, A, L, g1, g2, k2, ?_, ?_, ?_⟩
  · rfl
  · have : volume (convexHull ℝ {x | x ∈ pts}) ≤ volume (Icc x₀ x₁ ×ˢ Icc y₀ y₁) := by
      refine measure_mono (convexHull_min (fun x hx => ?_) ((convex_Icc _ _).prod (convex_Icc _ _)))
      exact hin x hx
    rw [g4, Measure.volume_eq_prod, Measure.prod_prod, Real.volume_Icc, Real.volume_Icc, ← ENNReal.ofReal_mul (by linarith)] at this
    exact (ENNReal.ofReal_le_ofReal_iff (mul_nonneg (by linarith) (by linarith))).1 this
  · rw [ring_length _ (by simp)] at k3
    simp only [XR.fin.injEq] at k3
    refine k4.trans (le_of_eq ?_)
    rw [← k3]
    have ex : √((x₁ - x₀) ^ 2) = x₁ - x₀ := Real.sqrt_sq (by linarith)
    have ey : √((y₁ - y₀) ^ 2) = y₁ - y₀ := Real.sqrt_sq (by linarith)
    have ex' : √((x₀ - x₁) ^ 2) = x₁ - x₀ := by rw [← ex]; congr 1; ring
    have ey' : √((y₀ - y₁) ^ 2) = y₁ - y₀ := by rw [← ey]; congr 1; ring
    simp [sides, eucl, ex, ey, ex', ey']
    ring

/-- non-vacuity: a triangle and the same triangle with a point inside it -/
example : ∃ after r after' r', ConvexHull goSort12 ([((0 : ℝ), (0 : ℝ)), (4, 0), (0, 4)].map pt) = .ok (after, some r) ∧
    ConvexHull goSort12 ([((0 : ℝ), (0 : ℝ)), (4, 0), (0, 4), (1, 1)].map pt) = .ok (after', some r') ∧
    GetArea (.polygon [r]) = GetArea (.polygon [r']) ∧ LineLength r = LineLength r' ∧ Centroid (.polygon [r]) = Centroid (.polygon [r']) := by
  refine C156_same goSort12 goSort12 goSort12_hullSort goSort12_hullSort _ _ (by unfold Close; norm_num [abs_lt]) (by unfold Close; norm_num [abs_lt])
    (by simp) (by simp) ⟨(0, 0), by simp, (4, 0), by simp, (0, 4), by simp, by norm_num [turn]⟩
    ⟨(0, 0), by simp, (4, 0), by simp, (0, 4), by simp, by norm_num [turn]⟩ ?_
  apply subset_antisymm
  · refine convexHull_mono fun x hx => ?_
    simp only [List.mem_cons, List.not_mem_nil, or_false, mem_ofPred_eq] at hx ⊢
    tauto
  · refine convexHull_min (fun x hx => ?_) (convex_convexHull ℝ _)
    have i : ∀ y ∈ [((0 : ℝ), (0 : ℝ)), (4, 0), (0, 4)], y ∈ convexHull ℝ {x | x ∈ [((0 : ℝ), (0 : ℝ)), (4, 0), (0, 4)]} :=
      fun y hy => subset_convexHull ℝ _ hy
    simp only [List.mem_cons, List.not_mem_nil, or_false, mem_ofPred_eq] at hx
    rcases hx with rfl | rfl | rfl | rfl
    · exact i _ (by simp)
    · exact i _ (by simp)
    · exact i _ (by simp)
    · exact tri_hull (a := (0, 0)) (b := (4, 0)) (c := (0, 4)) (by simp) (by simp) (by simp) ⟨by norm_num [turn], by norm_num [turn], by norm_num [turn]⟩

/-- non-vacuity: two triangles apart from each other -/
example : ∃ ap v aq w am r am' r', ConvexHull goSort12 ([((0 : ℝ), (0 : ℝ)), (4, 0), (0, 4)].map pt) = .ok (ap, some (ring v)) ∧
    ConvexHull goSort12 ([((9 : ℝ), (0 : ℝ)), (9, 4), (5, 4)].map pt) = .ok (aq, some (ring w)) ∧
    ConvexHull goSort12 ((v ++ w).map pt) = .ok (am, some r) ∧
    ConvexHull goSort12 (([((0 : ℝ), (0 : ℝ)), (4, 0), (0, 4)] ++ [((9 : ℝ), (0 : ℝ)), (9, 4), (5, 4)]).map pt) = .ok (am', some r') ∧
    GetArea (.polygon [r]) = GetArea (.polygon [r']) ∧ LineLength r = LineLength r' ∧ Centroid (.polygon [r]) = Centroid (.polygon [r']) :=
  C156_merge goSort12 goSort12_hullSort _ _ (by unfold Close; norm_num [abs_lt]) (by simp) (by simp)
    ⟨(0, 0), by simp, (4, 0), by simp, (0, 4), by simp, by norm_num [turn]⟩

end GoGeo.Region
