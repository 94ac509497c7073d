import Verif.Props.Contained
import Verif.Props.AreaMeasure
import Verif.Props.AreaBox
import Verif.Props.Around
import Verif.Props.HullSimple
import Verif.Props.SimplifyCurve

/-!
# C170: buffers of points against each other, against boxes and in the index

The bounding box of `Point.Buffer(w)` is `NewRectBox(p, w, w)`, so that searching with it misses nothing within `w` of the point.  Wider buffers round the same point lie round narrower
ones, and two buffers overlap or not as the distance of their points against the sum of their widths says, up to the factor cos 7.5°.
-/

namespace GoGeo.Region

open Set Spec Real Rtree

/-- the interior of a strictly convex ring: left of all sides -/
theorem interior_convex {c : List (ℝ × ℝ)} (hc : StrictlyConvex c) (z : ℝ × ℝ) : z ∈ Interior c ↔ InsideConvex c z := by
  obtain ⟨hs, h⟩ := C140_convex c hc
  rw [interior_iff hs]
  refine ⟨fun hz => (h z hz.1).1 hz.2, fun hz => ?_⟩
  have hoff : ¬ OnRing c z := by
    rintro ⟨e, he, t, -, -, rfl⟩
    have := hz e he
    unfold turn along at this
    simp only at this
    ring_nf at this
    exact lt_irrefl _ this
  exact ⟨hoff, (h z hoff).2 hz⟩

theorem interior_buffer {c : ℝ × ℝ} {w : ℝ} (hw : 0 < w) (z : ℝ × ℝ) : (z ∈ Interior (corners24 c w) → eucl z c < w) ∧ (eucl z c < w * cos (π / 24) → z ∈ Interior (corners24 c w)) := by
  obtain ⟨r, h1, h2, h3⟩ := C139_region c w hw 26 le_rfl
  rw [buffer_ring c w hw.le 26 le_rfl] at h1
  have e : corners24 c w = r := ring_inj (by simpa using h1)
  subst e
  rw [interior_convex (corners24_convex c w hw)]
  exact ⟨h2 z, h3 z⟩

/-- **C170 (box).** The bounding box of the buffer of a point is the box that goes out from the point by the width on all sides. -/
theorem C170_box (c : ℝ × ℝ) (w : ℝ) (hw : 0 ≤ w) (b1 : |c.1| + w ≤ 2 ^ 31) (b2 : |c.2| + w ≤ 2 ^ 31) (fuel : ℕ) (hf : 26 ≤ fuel) :
    ∃ r, pointBuffer (F := XR ℝ) fuel (pt c) (.fin w) = .ok (some r) ∧ BoundingBox (.polygon [r]) = NewRectBox (pt c) (.fin w) (.fin w) := by
  refine ⟨_, buffer_ring c w hw fuel hf, ?_⟩
  obtain ⟨m, n, M, N, hb, hv⟩ := box_fin (corners24 c w) []
  have hc1 := abs_le.1 (le_refl |c.1|)
  have hc2 := abs_le.1 (le_refl |c.2|)
  have bd : ∀ v ∈ corners24 c w, c.1 - w ≤ v.1 ∧ v.1 ≤ c.1 + w ∧ c.2 - w ≤ v.2 ∧ v.2 ≤ c.2 + w := by
    intro v hv
    obtain ⟨k, -, rfl⟩ := List.mem_map.1 hv
    unfold onCircle
    have h1 := neg_one_le_cos ((k : ℝ) * (π / 12))
    have h2 := cos_le_one ((k : ℝ) * (π / 12))
    have h3 := neg_one_le_sin ((k : ℝ) * (π / 12))
    have h4 := sin_le_one ((k : ℝ) * (π / 12))
    refine ⟨?_, ?_, ?_, ?_⟩ <;> dsimp only <;> nlinarith
  have mem : ∀ k : ℕ, k < 24 → onCircle c w k ∈ corners24 c w := fun k hk => List.mem_map.2 ⟨k, List.mem_range.2 hk, rfl⟩
  have inb := (C20_boundingBox_least (.polygon [ring (corners24 c w)]) (by
      intro h
      have := mem_ring_iff.2 ⟨_, mem 0 (by norm_num), rfl⟩
      rw [show boxedVertices (.polygon [ring (corners24 c w)]) = ring (corners24 c w) from rfl] at h
      rw [h] at this
      cases this) (by
      intro p hp
      obtain ⟨v, hv, rfl⟩ := mem_ring_iff.1 hp
      obtain ⟨g1, g2, g3, g4⟩ := bd v hv
      unfold Bounded31 Le
      rw [XR.fin_lit, XR.fin_neg]
      simp only [pt, XR.fin_le, decide_eq_true_eq]
      norm_num
      norm_num at b1 b2
      refine ⟨⟨?_, ?_⟩, ?_, ?_⟩ <;> linarith [hc1.1, hc1.2, hc2.1, hc2.2])).2 ⟨.fin (c.1 - w), .fin (c.2 - w), .fin (c.1 + w), .fin (c.2 + w)⟩ (by
      intro p hp
      obtain ⟨v, hv, rfl⟩ := mem_ring_iff.1 hp
      obtain ⟨g1, g2, g3, g4⟩ := bd v hv
      exact ⟨decide_eq_true g1, decide_eq_true g2, decide_eq_true g3, decide_eq_true g4⟩)
  rw [hb] at inb ⊢
  have i1 := of_decide_eq_true inb.minX
  have i2 := of_decide_eq_true inb.minY
  have i3 := of_decide_eq_true inb.maxX
  have i4 := of_decide_eq_true inb.maxY
  have k0 := hv _ (mem 0 (by norm_num))
  have k6 := hv _ (mem 6 (by norm_num))
  have k12 := hv _ (mem 12 (by norm_num))
  have k18 := hv _ (mem 18 (by norm_num))
  unfold onCircle at k0 k6 k12 k18
  rw [show ((6 : ℕ) : ℝ) * (π / 12) = π / 2 by push_cast; ring] at k6
  rw [show ((12 : ℕ) : ℝ) * (π / 12) = π by push_cast; ring] at k12
  rw [show ((18 : ℕ) : ℝ) * (π / 12) = π / 2 + π by push_cast; ring] at k18
  simp only [Nat.cast_zero, zero_mul, cos_zero, sin_zero, cos_pi, sin_pi, cos_pi_div_two, sin_pi_div_two, sin_add_pi, cos_add_pi] at k0 k6 k12 k18
  unfold NewRectBox
  simp only [pt, XR.fin_add, XR.fin_sub, Box.mk.injEq, XR.fin.injEq]
  refine ⟨?_, ?_, ?_, ?_⟩ <;> apply le_antisymm <;> linarith [k0.2.1, k6.2.2.2, k12.1, k18.2.2.1]

/-- **C170 (search).** Searching the index with the bounding box of the buffer of a point returns every stored object that has a place within the width of the point. -/
theorem C170_search (grow : Nat → Nat) (min max : Int) (hmax : 2 ≤ max) (s : RState (XR ℝ)) (hs : Reached grow min max s) (c : ℝ × ℝ) (w : ℝ) (hw : 0 ≤ w)
    (b1 : |c.1| + w ≤ 2 ^ 31) (b2 : |c.2| + w ≤ 2 ^ 31) (fuel : ℕ) (hf : 26 ≤ fuel) :
    ∃ r res, pointBuffer (F := XR ℝ) fuel (pt c) (.fin w) = .ok (some r) ∧ SearchIntersect s (some (BoundingBox (.polygon [r]))) = .ok res ∧
      ∀ o, StoredIn s o → (∃ z : ℝ × ℝ, Occupies o.Geom z ∧ eucl c z ≤ w) → o ∈ res := by
  obtain ⟨r, h1, h2⟩ := C170_box c w hw b1 b2 fuel hf
  obtain ⟨res, h3, h4⟩ := C128_radius grow min max hmax s hs (pt c) (.fin w) (x := c) (d := w) ⟨rfl, rfl⟩ rfl hw
  refine ⟨r, res, h1, by rw [h2]; exact h3, fun o ho ⟨z, hz, hd⟩ => h4 o ho ⟨z, hz, ?_⟩⟩
  unfold distSq
  have := (Real.sqrt_le_left hw).1 hd
  linarith

/-- **C170 (wider).** The buffer of a smaller width lies in that of a larger width round the same point. -/
theorem C170_wider (c : ℝ × ℝ) (w w' : ℝ) (hw : 0 < w) (hle : w ≤ w') (fuel : ℕ) (hf : 26 ≤ fuel) : ∃ r r' : List (ℝ × ℝ),
    pointBuffer (F := XR ℝ) fuel (pt c) (.fin w) = .ok (some (ring r)) ∧ pointBuffer (F := XR ℝ) fuel (pt c) (.fin w') = .ok (some (ring r')) ∧
    SimpleRing r ∧ SimpleRing r' ∧ Interior r ⊆ Interior r' ∧ (BoundingBox (.polygon [ring r'])).Contain (BoundingBox (.polygon [ring r])) = true := by
  have hw' : 0 < w' := hw.trans_le hle
  have s1 := (C140_convex _ (corners24_convex c w hw)).1
  have s2 := (C140_convex _ (corners24_convex c w' hw')).1
  have hsub : Interior (corners24 c w) ⊆ Interior (corners24 c w') := by
    intro z hz
    rw [interior_convex (corners24_convex c _ ‹_›)] at hz ⊢
    obtain ⟨φ, h⟩ := polar c z
    rw [h] at hz ⊢
    rw [inside_buffer c _ ‹_›] at hz ⊢
    exact fun k hk => (hz k hk).trans_le (mul_le_mul_of_nonneg_right hle cos24_pos.le)
  exact ⟨_, _, buffer_ring c w hw.le fuel hf, buffer_ring c w' hw'.le fuel hf, s1, s2, hsub, C166_box _ _ s1 s2 hsub [] []⟩

/-- **C170 (overlap).** Two buffers have no point inside in common when their points are at least the sum of the widths apart, and they have one when the points are nearer than cos 7.5°
times the sum. -/
theorem C170_overlap (c c' : ℝ × ℝ) (w w' : ℝ) (hw : 0 < w) (hw' : 0 < w') (fuel : ℕ) (hf : 26 ≤ fuel) : ∃ r r' : List (ℝ × ℝ),
    pointBuffer (F := XR ℝ) fuel (pt c) (.fin w) = .ok (some (ring r)) ∧ pointBuffer (F := XR ℝ) fuel (pt c') (.fin w') = .ok (some (ring r')) ∧
    (w + w' ≤ eucl c c' → Disjoint (Interior r) (Interior r')) ∧ (eucl c c' < (w + w') * cos (π / 24) → ¬ Disjoint (Interior r) (Interior r')) := by
  refine ⟨_, _, buffer_ring c w hw.le fuel hf, buffer_ring c' w' hw'.le fuel hf, fun h => ?_, fun h hd => ?_⟩
  · refine Set.disjoint_left.2 fun z h1 h2 => ?_
    have e1 := (interior_buffer hw z).1 h1
    have e2 := (interior_buffer hw' z).1 h2
    have := eucl_triangle c z c'
    rw [eucl_comm c z] at this
    linarith
  · have hp : 0 < w + w' := by linarith
    have hD : eucl c c' / (w + w') < cos (π / 24) := (div_lt_iff₀ hp).2 (by linarith)
    have t1 : eucl (along c c' (w / (w + w'))) c = w / (w + w') * eucl c c' := eucl_along_self (by positivity)
    have t2 : eucl (along c c' (w / (w + w'))) c' = w' / (w + w') * eucl c c' := by
      have := eucl_along c c' (w / (w + w')) 1
      rw [show along c c' 1 = c' by unfold along; ext <;> simp] at this
      rw [this, abs_sub_comm, abs_of_nonneg]
      · congr 1
        field_simp
        ring
      · rw [sub_nonneg, div_le_one hp]
        linarith
    refine Set.disjoint_left.1 hd ((interior_buffer hw _).2 (t1.trans_lt ?_)) ((interior_buffer hw' _).2 (t2.trans_lt ?_))
    · calc w / (w + w') * eucl c c' = w * (eucl c c' / (w + w')) := by ring
        _ < _ := mul_lt_mul_of_pos_left hD hw
    · calc w' / (w + w') * eucl c c' = w' * (eucl c c' / (w + w')) := by ring
        _ < _ := mul_lt_mul_of_pos_left hD hw'

/-- **C170 (within).** The buffer of one point lies in that of another when the wider one, made smaller by the factor cos 7.5°, reaches round it; and then it is smaller and has its box in
the box of the other. -/
theorem C170_within (c c' : ℝ × ℝ) (w w' : ℝ) (hw : 0 < w) (h : eucl c c' + w ≤ w' * cos (π / 24)) (fuel : ℕ) (hf : 26 ≤ fuel) : ∃ (r r' : List (ℝ × ℝ)) (A A' : ℝ),
    pointBuffer (F := XR ℝ) fuel (pt c) (.fin w) = .ok (some (ring r)) ∧ pointBuffer (F := XR ℝ) fuel (pt c') (.fin w') = .ok (some (ring r')) ∧
    Interior r ⊆ Interior r' ∧ GetArea (.polygon [ring r]) = .fin A ∧ GetArea (.polygon [ring r']) = .fin A' ∧ A ≤ A' ∧
    (BoundingBox (.polygon [ring r'])).Contain (BoundingBox (.polygon [ring r])) = true := by
  have hw' : 0 < w' := by
    by_contra hn
    nlinarith [eucl_nonneg c c', cos24_pos]
  have s1 := (C140_convex _ (corners24_convex c w hw)).1
  have s2 := (C140_convex _ (corners24_convex c' w' hw')).1
  have hsub : Interior (corners24 c w) ⊆ Interior (corners24 c' w') := by
    intro z hz
    have e1 := (interior_buffer hw z).1 hz
    have := eucl_triangle z c c'
    exact (interior_buffer hw' z).2 (by linarith)
  obtain ⟨A, A', h1, h2, h3⟩ := C165_nested _ _ s1 s2 hsub [] []
  exact ⟨_, _, A, A', buffer_ring c w hw.le fuel hf, buffer_ring c' w' hw'.le fuel hf, hsub, h1, h2, h3.2, C166_box _ _ s1 s2 hsub [] []⟩

/-- the hypotheses can be met -/
example : ∃ r, pointBuffer (F := XR ℝ) 26 (pt (100, -30)) (.fin 5) = .ok (some r) ∧ BoundingBox (.polygon [r]) = NewRectBox (pt (100, -30)) (.fin 5) (.fin 5) :=
  C170_box (100, -30) 5 (by norm_num) (by norm_num) (by norm_num) 26 le_rfl

example : ∃ r r' : List (ℝ × ℝ), pointBuffer (F := XR ℝ) 26 (pt (0, 0)) (.fin 2) = .ok (some (ring r)) ∧ pointBuffer (F := XR ℝ) 26 (pt (3, 4)) (.fin 3) = .ok (some (ring r')) ∧
    Disjoint (Interior r) (Interior r') := by
  obtain ⟨r, r', h1, h2, h3, -⟩ := C170_overlap (0, 0) (3, 4) 2 3 (by norm_num) (by norm_num) 26 le_rfl
  exact ⟨r, r', h1, h2, h3 (by unfold eucl; apply Real.le_sqrt_of_sq_le; norm_num)⟩

end GoGeo.Region
