import Verif.Props.SimpleRegion
import Verif.Props.Relation2

/-!
# C141: lines and polygons against a simple polygon
-/

namespace GoGeo.Region
open MeasureTheory Set Spec Real

/-! ### two rings without a common point -/

theorem side_winding {c d : List (ℝ × ℝ)} (h : ∀ x, OnRing c x → ¬ OnRing d x) {x y : ℝ × ℝ} (hx : OnRing c x) (hy : OnRing c y) : winding d x = winding d y :=
  ring_constant ((winding_cont d).mono fun x hx => h x hx) hx hy

theorem side_evenOdd {c d : List (ℝ × ℝ)} (h : ∀ x, OnRing c x → ¬ OnRing d x) {x y : ℝ × ℝ} (hx : OnRing c x) (hy : OnRing c y) : EvenOdd d x ↔ EvenOdd d y := by
  rw [evenOdd_iff, evenOdd_iff, side_winding h hx hy]

/-- near a point off the ring the answer is the same -/
theorem evenOdd_near {c : List (ℝ × ℝ)} {z : ℝ × ℝ} (hz : ¬ OnRing c z) : ∃ δ > 0, ∀ y ∈ Metric.ball z δ, ¬ OnRing c y ∧ (EvenOdd c y ↔ EvenOdd c z) := by
  have hopen : IsOpen ({x | ¬ OnRing c x} ∩ winding c ⁻¹' {winding c z}) := (winding_cont c).isOpen_inter_preimage (off_open c) (isOpen_discrete _)
  obtain ⟨δ, hδ, h⟩ := Metric.isOpen_iff.1 hopen z ⟨hz, rfl⟩
  refine ⟨δ, hδ, fun y hy => ?_⟩
  obtain ⟨h1, h2⟩ := h hy
  refine ⟨h1, ?_⟩
  rw [evenOdd_iff, evenOdd_iff, show winding c y = winding c z from h2]

theorem joined_evenOdd {c : List (ℝ × ℝ)} {y z : ℝ × ℝ} (h : JoinedIn {x | ¬ OnRing c x} y z) : EvenOdd c y ↔ EvenOdd c z := by
  rw [evenOdd_iff, evenOdd_iff, linked_winding (linked_joined.2 h)]

/-- a ring inside another: so is its region -/
theorem region_nested {c d : List (ℝ × ℝ)} (hd : SimpleRing d) (hin : ∀ x, OnRing c x → ¬ OnRing d x ∧ EvenOdd d x) {z : ℝ × ℝ} (hz : EvenOdd c z) : EvenOdd d z := by
  by_cases oc : OnRing c z
  · exact (hin z oc).2
  by_contra hn
  obtain ⟨z', oc', od', h1, h2⟩ : ∃ z', ¬ OnRing c z' ∧ ¬ OnRing d z' ∧ EvenOdd c z' ∧ ¬ EvenOdd d z' := by
    by_cases od : OnRing d z
    · obtain ⟨δ, hδ, h⟩ := evenOdd_near oc
      obtain ⟨-, y, hy, oy, ey⟩ := C140_boundary d hd z od δ hδ
      exact ⟨y, (h y hy).1, oy, (h y hy).2.2 hz, ey⟩
    · exact ⟨z, oc, od, hz, hn⟩
  have hesc : Escapes d z' := by_contra fun g => h2 ((evenOdd_escapes hd od').2 g)
  obtain ⟨R, R0, hR⟩ := bound c
  obtain ⟨y, hy, γ, hγ⟩ := hesc R
  obtain ⟨oy, wy⟩ := winding_out hR hy
  by_cases hmeet : ∃ t, OnRing c (γ t)
  · obtain ⟨t, ht⟩ := hmeet
    obtain ⟨o, e⟩ := hin _ ht
    apply h2
    refine (evenOdd_path d (isPreconnected_range γ.continuous) (by rintro _ ⟨s, rfl⟩; exact hγ s) ⟨0, γ.source⟩ ⟨t, rfl⟩).2 e
  · push Not at hmeet
    have := (evenOdd_path c (isPreconnected_range γ.continuous) (by rintro _ ⟨s, rfl⟩; exact hmeet s) ⟨0, γ.source⟩ ⟨1, γ.target⟩).1 h1
    rw [evenOdd_iff, wy] at this
    simp at this

/-- two rings outside each other: their regions have no common point -/
theorem region_disjoint {c d : List (ℝ × ℝ)} (hd : SimpleRing d) (h1 : ∀ x, OnRing c x → ¬ OnRing d x ∧ ¬ EvenOdd d x)
    (h2 : ∀ x, OnRing d x → ¬ OnRing c x ∧ ¬ EvenOdd c x) {z : ℝ × ℝ} (hc : EvenOdd c z) (hz : EvenOdd d z) : False := by
  by_cases oc : OnRing c z
  · exact (h1 z oc).2 hz
  by_cases od : OnRing d z
  · exact (h2 z od).2 hc
  obtain ⟨x, hx⟩ := simple_some hd
  obtain ⟨δ, hδ, h⟩ := evenOdd_near (h2 x hx).1
  obtain ⟨⟨y, hy, oy, ey⟩, -⟩ := C140_boundary d hd x hx δ hδ
  obtain ⟨γ, hγ⟩ := ((C140_parts d hd).2.2.1 z y od oy).2 ⟨fun _ => ey, fun _ => hz⟩
  have hin : ∀ t, ¬ OnRing c (γ t) := by
    intro t ht
    exact (h1 _ ht).2 ((evenOdd_path d (isPreconnected_range γ.continuous) (by rintro _ ⟨s, rfl⟩; exact hγ s) ⟨0, γ.source⟩ ⟨t, rfl⟩).1 hz)
  have := (evenOdd_path c (isPreconnected_range γ.continuous) (by rintro _ ⟨s, rfl⟩; exact hin s) ⟨0, γ.source⟩ ⟨1, γ.target⟩).1 hc
  exact (h2 x hx).2 ((h y hy).2.1 this)

/-- where one of two simple rings without a common point is decides about the regions -/
theorem regions {c d : List (ℝ × ℝ)} (hc : SimpleRing c) (hd : SimpleRing d) (h : ∀ x, OnRing c x → ¬ OnRing d x) {x : ℝ × ℝ} (hx : OnRing c x) :
    (EvenOdd d x ↔ {z | EvenOdd c z} ⊆ {z | EvenOdd d z}) ∧
    (¬ EvenOdd d x ↔ Disjoint {z | EvenOdd c z} {z | EvenOdd d z} ∨ {z | EvenOdd d z} ⊆ {z | EvenOdd c z}) := by
  have i1 : EvenOdd d x → {z | EvenOdd c z} ⊆ {z | EvenOdd d z} := fun he z hz =>
    region_nested hd (fun y hy => ⟨h y hy, (side_evenOdd h hy hx).2 he⟩) hz
  obtain ⟨δ, hδ, hn⟩ := evenOdd_near (h x hx)
  obtain ⟨⟨y, hy, oy, ey⟩, y', hy', oy', ey'⟩ := C140_boundary c hc x hx δ hδ
  have i2 : {z | EvenOdd c z} ⊆ {z | EvenOdd d z} → EvenOdd d x := fun hs => (hn y hy).2.1 (hs ey)
  have i3 : ¬ EvenOdd d x → Disjoint {z | EvenOdd c z} {z | EvenOdd d z} ∨ {z | EvenOdd d z} ⊆ {z | EvenOdd c z} := by
    intro he
    have h' : ∀ x, OnRing d x → ¬ OnRing c x := fun x hx hy => h x hy hx
    obtain ⟨w, hw⟩ := simple_some hd
    by_cases hw' : EvenOdd c w
    · exact Or.inr fun z hz => region_nested hc (fun y hy => ⟨h' y hy, (side_evenOdd h' hy hw).2 hw'⟩) hz
    · refine Or.inl (Set.disjoint_left.2 fun z h1 h2 => region_disjoint hd (fun y hy => ⟨h y hy, fun g => he ((side_evenOdd h hx hy).2 g)⟩)
        (fun y hy => ⟨h' y hy, fun g => hw' ((side_evenOdd h' hw hy).2 g)⟩) h1 h2)
  have i4 : Disjoint {z | EvenOdd c z} {z | EvenOdd d z} ∨ {z | EvenOdd d z} ⊆ {z | EvenOdd c z} → ¬ EvenOdd d x := by
    rintro (hs | hs) he
    · exact Set.disjoint_left.1 hs ey (i1 he ey)
    · exact ey' (hs ((hn y' hy').2.2 he))
  exact ⟨⟨i1, i2⟩, ⟨i3, i4⟩⟩

/-! ### the answers in float64 -/

section
variable {F : Type} [GoFloat F] [FloatOrd F] [FloatVal F ℚ] [FloatErr F ℚ]

theorem grid_mono {B B' k : ℕ} (h : B ≤ B') {x : ℚ × ℚ} (hx : OnGrid B k x) : OnGrid B' k x := by
  obtain ⟨m, n, h1, h2, e⟩ := hx
  have : (2 : ℤ) ^ B ≤ 2 ^ B' := pow_le_pow_right₀ (by norm_num) h
  exact ⟨m, n, h1.trans this, h2.trans this, e⟩

theorem ring_real {d : List (ℚ × ℚ)} {e : (ℚ × ℚ) × (ℚ × ℚ)} (he : e ∈ sides d) {z : ℝ × ℝ} (hz : OnSeg (real e.1) (real e.2) z) : OnRing (d.map real) z := by
  refine ⟨(real e.1, real e.2), ?_, hz⟩
  rw [sides_real]
  exact List.mem_map.2 ⟨e, he, rfl⟩

/-- **C141 (segments).** On a grid (multiples of `1 / 2^k` with numerators up to `2^B`, `B + k ≤ 17`), in float64: for a segment that has no point in
common with a simple ring, is in line with no side and does not end in the origin, SegPolyRelation is CONTAIN and the whole segment is shut in by the ring, or it is DISJOINT and the
whole segment is outside. -/
theorem C141_segment {B k : ℕ} (hB : B + k ≤ 17) {p q : Point F} {ps : List (Point F)} {x y : ℚ × ℚ} {d : List (ℚ × ℚ)} (hp : At p x) (hq : At q y)
    (gx : OnGrid B k x) (gy : OnGrid B k y) (hd : GridAll B k ps (d ++ d.take 1)) (hs : SimpleRing (d.map real)) (x0 : x ≠ (0, 0)) (y0 : y ≠ (0, 0))
    (hoff : ∀ z, OnSeg (real x) (real y) z → ¬ OnRing (d.map real) z) (hn : ∀ e ∈ sides d, ¬ (turn e.1 e.2 x = 0 ∧ turn e.1 e.2 y = 0))
    (holes : List (List (Point F))) :
    (SegPolyRelation ⟨p, q⟩ (ps :: holes) = .contain ∧ ∀ z, OnSeg (real x) (real y) z → ¬ Escapes (d.map real) z) ∨
    (SegPolyRelation ⟨p, q⟩ (ps :: holes) = .disjoint ∧ ∀ z, OnSeg (real x) (real y) z → Escapes (d.map real) z) := by
  have ox : OnSeg (real x) (real y) (real x) := (end_on _ _).1
  have oy : OnSeg (real x) (real y) (real y) := (end_on _ _).2
  have hpre : IsPreconnected {z | OnSeg (real x) (real y) z} := by rw [seg_eq]; exact (convex_segment _ _).isPreconnected
  have same : ∀ z, OnSeg (real x) (real y) z → (Escapes (d.map real) z ↔ Escapes (d.map real) (real x)) := by
    intro z hz
    have h := evenOdd_path (d.map real) hpre hoff hz ox
    rw [evenOdd_escapes hs (hoff z hz), evenOdd_escapes hs (hoff _ ox)] at h
    exact not_iff_not.1 h
  have hloop : segPolyLoop ⟨p, q⟩ false (edges (GetExteriorRing (ps :: holes))).dropLast = some false := by
    apply segPolyLoop_clear
    intro e he
    have he := List.dropLast_subset _ he
    obtain ⟨f, hf, r1, r2⟩ := forall₂_mem_left (edges_forall₂ hd) (show e ∈ edges ps from he)
    rw [edges_closed] at hf
    have h24 : B ≤ 24 := by omega
    rw [segRel_grid (by omega) r1.1 r2.1 hp hq (grid_mono h24 r1.2) (grid_mono h24 r2.2) (grid_mono h24 gx) (grid_mono h24 gy)]
    refine segRel_apart (hn f hf) ?_
    rintro ⟨z, h1, h2⟩
    exact hoff (real z) (seg_real h2) (ring_real hf (seg_real h1))
  obtain ⟨a1, a2⟩ := C140_inside_grid hB hp gx hd hs (hoff _ ox) x0 holes
  obtain ⟨b1, b2⟩ := C140_inside_grid hB hq gy hd hs (hoff _ oy) y0 holes
  by_cases he : Escapes (d.map real) (real x)
  · right
    refine ⟨?_, fun z hz => (same z hz).2 he⟩
    unfold SegPolyRelation
    rw [hloop]
    simp only [a2.2 he, b2.2 ((same _ oy).2 he)]
    decide
  · left
    refine ⟨?_, fun z hz h => he ((same z hz).1 h)⟩
    unfold SegPolyRelation
    rw [hloop]
    simp only [a1.2 he, b1.2 fun h => he ((same _ oy).1 h)]
    decide

end

/-- a segment that meets a side in its middle, does not begin on it and has neither end of the side on it, is not parallel to it -/
theorem mid_cross {a b x y : ℝ × ℝ} {s t : ℝ} (s0 : 0 < s) (s1 : s < 1) (t0 : 0 ≤ t) (t1 : t ≤ 1) (hz : along a b s = along x y t) (hab : a ≠ b)
    (hx : ¬ OnSeg a b x) (ha : ¬ OnSeg x y a) (hb : ¬ OnSeg x y b) : segD a b x y ≠ 0 := by
  intro h0
  have hr : 0 < (b.1 - a.1) ^ 2 + (b.2 - a.2) ^ 2 := by
    rcases eq_or_ne (b.1 - a.1) 0 with h | h
    · rcases eq_or_ne (b.2 - a.2) 0 with g | g
      · exact absurd (Prod.ext (by linarith) (by linarith)) hab
      · positivity
    · positivity
  -- the direction of the segment is a multiple of that of the side
  obtain ⟨μ, m1, m2⟩ : ∃ μ : ℝ, y.1 - x.1 = μ * (b.1 - a.1) ∧ y.2 - x.2 = μ * (b.2 - a.2) := by
    unfold segD at h0
    refine ⟨((y.1 - x.1) * (b.1 - a.1) + (y.2 - x.2) * (b.2 - a.2)) / ((b.1 - a.1) ^ 2 + (b.2 - a.2) ^ 2), ?_, ?_⟩
    · rw [div_mul_eq_mul_div, eq_div_iff hr.ne']; linear_combination -(b.2 - a.2) * h0
    · rw [div_mul_eq_mul_div, eq_div_iff hr.ne']; linear_combination (b.1 - a.1) * h0
  have e1 := congrArg Prod.fst hz
  have e2 := congrArg Prod.snd hz
  simp only [along] at e1 e2
  have x1 : x.1 = a.1 + (s - t * μ) * (b.1 - a.1) := by rw [m1] at e1; linarith
  have x2 : x.2 = a.2 + (s - t * μ) * (b.2 - a.2) := by rw [m2] at e2; linarith
  have hp : s - t * μ < 0 ∨ 1 < s - t * μ := by
    by_contra hc
    rw [not_or, not_lt, not_lt] at hc
    exact hx ⟨s - t * μ, hc.1, hc.2, Prod.ext x1 x2⟩
  rcases hp with h | h
  · have hμ : 0 < μ := by
      by_contra hc
      have := mul_nonneg t0 (sub_nonneg.2 (not_lt.1 hc))
      linarith
    refine ha ⟨t - s / μ, ?_, ?_, ?_⟩
    · rw [sub_nonneg, div_le_iff₀ hμ]; linarith
    · have : 0 < s / μ := by positivity
      linarith
    · refine Prod.ext ?_ ?_
      · simp only [along]; rw [m1, x1]; field_simp; ring
      · simp only [along]; rw [m2, x2]; field_simp; ring
  · have hμ : μ < 0 := by
      by_contra hc
      have := mul_nonneg t0 (not_lt.1 hc)
      linarith
    have hd : (1 - s) / μ < 0 := div_neg_of_pos_of_neg (by linarith) hμ
    refine hb ⟨t + (1 - s) / μ, ?_, by linarith, ?_⟩
    · have := mul_div_cancel₀ (1 - s) hμ.ne
      by_contra hc
      rw [not_le] at hc
      have := mul_pos_of_neg_of_neg hc hμ
      rw [add_mul, div_mul_cancel₀ _ hμ.ne] at this
      linarith
    · refine Prod.ext ?_ ?_
      · simp only [along]; rw [m1, x1]; have := hμ.ne; field_simp; ring
      · simp only [along]; rw [m2, x2]; have := hμ.ne; field_simp; ring

section
variable {F : Type} [GoFloat F] [FloatOrd F] [FloatVal F ℚ] [FloatErr F ℚ]

/-- **C141 (across).** On the same grid: for a segment from a point shut in by a simple ring to a point outside, in either direction,
SegPolyRelation is INTERSECT or UNKNOWN, never CONTAIN, COVER, TOUCH or DISJOINT. It is INTERSECT if there is no corner on the segment and the segment does not
meet the last side. -/
theorem C141_across {B k : ℕ} (hB : B + k ≤ 17) {p q : Point F} {ps : List (Point F)} {x y : ℚ × ℚ} {d : List (ℚ × ℚ)} (hp : At p x) (hq : At q y)
    (gx : OnGrid B k x) (gy : OnGrid B k y) (hd : GridAll B k ps (d ++ d.take 1)) (hs : SimpleRing (d.map real)) (x0 : x ≠ (0, 0)) (y0 : y ≠ (0, 0))
    (ox : ¬ OnRing (d.map real) (real x)) (oy : ¬ OnRing (d.map real) (real y))
    (hne : ¬ (Escapes (d.map real) (real x) ↔ Escapes (d.map real) (real y))) (holes : List (List (Point F))) :
    (SegPolyRelation ⟨p, q⟩ (ps :: holes) = .intersect ∨ SegPolyRelation ⟨p, q⟩ (ps :: holes) = .unknown) ∧
    ((∀ v ∈ d, ¬ OnSeg (real x) (real y) (real v)) →
      (∀ e, (sides d).getLast? = some e → ¬ ∃ z, OnSeg (real e.1) (real e.2) z ∧ OnSeg (real x) (real y) z) →
      SegPolyRelation ⟨p, q⟩ (ps :: holes) = .intersect) := by
  obtain ⟨a1, a2⟩ := C140_inside_grid hB hp gx hd hs ox x0 holes
  obtain ⟨b1, b2⟩ := C140_inside_grid hB hq gy hd hs oy y0 holes
  constructor
  · unfold SegPolyRelation
    cases segPolyLoop ⟨p, q⟩ false (edges (GetExteriorRing (ps :: holes))).dropLast with
    | none => exact Or.inl rfl
    | some b =>
      right
      by_cases he : Escapes (d.map real) (real x)
      · have hy : ¬ Escapes (d.map real) (real y) := fun h => hne ⟨fun _ => h, fun _ => he⟩
        simp only [a2.2 he, b1.2 hy]
        cases b <;> decide
      · have hy : Escapes (d.map real) (real y) := by_contra fun h => hne ⟨fun h' => absurd h' he, fun h' => absurd h' h⟩
        simp only [a1.2 he, b2.2 hy]
        cases b <;> decide
  · intro hcor hlast
    have hmeet : ∃ z, OnSeg (real x) (real y) z ∧ OnRing (d.map real) z := by
      by_contra hcon
      have hoff : ∀ z ∈ {z | OnSeg (real x) (real y) z}, ¬ OnRing (d.map real) z := fun z hz h => hcon ⟨z, hz, h⟩
      have hpre : IsPreconnected {z | OnSeg (real x) (real y) z} := by rw [seg_eq]; exact (convex_segment _ _).isPreconnected
      have h := evenOdd_path (d.map real) hpre hoff (end_on _ _).1 (end_on _ _).2
      rw [evenOdd_escapes hs ox, evenOdd_escapes hs oy] at h
      exact hne (not_iff_not.1 h)
    obtain ⟨z, ⟨t, t0, t1, hzt⟩, g, hg, s, s0, s1, hzs⟩ := hmeet
    rw [sides_real] at hg
    obtain ⟨e, he, rfl⟩ := List.mem_map.1 hg
    have hzs' : z = along (real e.1) (real e.2) s := hzs
    have m1 : e.1 ∈ d := sides_mem_left he
    have m2 : e.2 ∈ d := sides_mem_right he
    have s0' : 0 < s := by
      refine lt_of_le_of_ne s0 ?_
      rintro rfl
      refine hcor e.1 m1 ⟨t, t0, t1, ?_⟩
      rw [← hzt, hzs']; simp [along]
    have s1' : s < 1 := by
      refine lt_of_le_of_ne s1 ?_
      rintro rfl
      refine hcor e.2 m2 ⟨t, t0, t1, ?_⟩
      rw [← hzt, hzs']; simp [along]
    have t0' : 0 < t := by
      refine lt_of_le_of_ne t0 ?_
      rintro rfl
      refine ox (ring_real he (z := real x) ⟨s, s0, s1, ?_⟩)
      rw [← hzs', hzt]; simp [along]
    have t1' : t < 1 := by
      refine lt_of_le_of_ne t1 ?_
      rintro rfl
      refine oy (ring_real he (z := real y) ⟨s, s0, s1, ?_⟩)
      rw [← hzs', hzt]; simp [along]
    have hee : real e.1 ≠ real e.2 := by
      rw [← sides_real] at hg
      exact sides_ne hs.1 hs.2.1 hg
    have hD := mid_cross s0' s1' t0 t1 (hzs'.symm.trans hzt) hee (fun h => ox (ring_real he h)) (hcor _ m1) (hcor _ m2)
    obtain ⟨q1, q2⟩ := (meet hD s t).1 (hzs'.symm.trans hzt)
    have cD : segD (real e.1) (real e.2) (real x) (real y) = ((segD e.1 e.2 x y : ℚ) : ℝ) := by unfold segD real; push_cast; ring
    have c1 : segN1 (real e.1) (real x) (real y) = ((segN1 e.1 x y : ℚ) : ℝ) := by unfold segN1 real; push_cast; ring
    have c2 : segN2 (real e.1) (real e.2) (real x) = ((segN2 e.1 e.2 x : ℚ) : ℝ) := by unfold segN2 real; push_cast; ring
    rw [cD] at hD
    rw [cD, c1, ← Rat.cast_div] at q1
    rw [cD, c2, ← Rat.cast_div] at q2
    have hD' : segD e.1 e.2 x y ≠ 0 := by exact_mod_cast hD
    have hrel : SegmentRelation (seg e.1 e.2) (seg x y) = .intersect := by
      rw [segRel_fin, if_neg hD', if_pos]
      rw [q1] at s0' s1'
      rw [q2] at t0' t1'
      exact ⟨by exact_mod_cast s0', by exact_mod_cast s1', by exact_mod_cast t0', by exact_mod_cast t1'⟩
    have hmem : e ∈ (sides d).dropLast := by
      have hn : sides d ≠ [] := List.ne_nil_of_mem he
      rw [← List.dropLast_append_getLast hn] at he
      rcases List.mem_append.1 he with h | h
      · exact h
      · have he' : e = (sides d).getLast hn := by simpa using h
        exact absurd ⟨z, ⟨s, s0, s1, hzs'⟩, t, t0, t1, hzt⟩ (hlast e (by rw [he', List.getLast?_eq_getLast_of_ne_nil hn]))
    have hnone : segPolyLoop ⟨p, q⟩ false (edges (GetExteriorRing (ps :: holes))).dropLast = none := by
      rw [segPolyLoop_none]
      have hE := edges_forall₂ hd
      rw [edges_closed] at hE
      have hl := hE.length_eq
      have hE' := List.forall₂_take ((edges ps).length - 1) hE
      rw [← List.dropLast_eq_take, hl, ← List.dropLast_eq_take] at hE'
      obtain ⟨f, hf, r1, r2⟩ := forall₂_mem_right hE' hmem
      refine ⟨f, hf, ?_⟩
      have h24 : B ≤ 24 := by omega
      rw [segRel_grid (by omega) r1.1 r2.1 hp hq (grid_mono h24 r1.2) (grid_mono h24 r2.2) (grid_mono h24 gx) (grid_mono h24 gy)]
      exact hrel
    unfold SegPolyRelation
    rw [hnone]

end

section
variable {F : Type} [GoFloat F] [FloatOrd F] [FloatVal F ℚ] [FloatErr F ℚ]

/-- the segments of a list: what is the same at both ends of each is the same at all points -/
theorem all_same {α : Type} (P : α → Prop) : ∀ l : List α, (∀ e ∈ edges l, P e.1 ↔ P e.2) → ∀ v ∈ l, ∀ w ∈ l, P v ↔ P w
  | [], _, _, hv, _, _ => by simp at hv
  | [a], _, v, hv, w, hw => by simp at hv hw; rw [hv, hw]
  | a :: b :: l, h, v, hv, w, hw => by
    have ih := all_same P (b :: l) fun e he => h e (by simp [edges, he])
    have hab : P a ↔ P b := h (a, b) (by simp [edges])
    have key : ∀ u ∈ a :: b :: l, P u ↔ P b := by
      intro u hu
      rcases List.mem_cons.1 hu with rfl | hu
      · exact hab
      · exact ih u hu b (by simp)
    rw [key v hv, key w hw]

theorem edges_mem {α : Type} {l : List α} {e : α × α} (h : e ∈ edges l) : e.1 ∈ l ∧ e.2 ∈ l := by
  rw [edges_tail] at h
  exact ⟨(List.of_mem_zip h).1, List.mem_of_mem_tail (List.of_mem_zip h).2⟩

/-- the loop over segments without a common point with the ring -/
theorem loop_same {B k : ℕ} (hB : B + k ≤ 17) {ls ps : List (Point F)} {l d : List (ℚ × ℚ)} (hl : GridAll B k ls l)
    (hd : GridAll B k ps (d ++ d.take 1)) (hs : SimpleRing (d.map real)) (l0 : ∀ v ∈ l, v ≠ (0, 0))
    (hoff : ∀ e ∈ edges l, ∀ z, OnSeg (real e.1) (real e.2) z → ¬ OnRing (d.map real) z)
    (hn : ∀ e ∈ edges l, ∀ f ∈ sides d, ¬ (turn f.1 f.2 e.1 = 0 ∧ turn f.1 f.2 e.2 = 0)) (holes : List (List (Point F))) :
    ((∀ e ∈ edges ls, SegPolyRelation ⟨e.1, e.2⟩ (ps :: holes) = .contain) ∧ ∀ e ∈ edges l, ∀ z, OnSeg (real e.1) (real e.2) z → ¬ Escapes (d.map real) z) ∨
    ((∀ e ∈ edges ls, SegPolyRelation ⟨e.1, e.2⟩ (ps :: holes) = .disjoint) ∧ ∀ e ∈ edges l, ∀ z, OnSeg (real e.1) (real e.2) z → Escapes (d.map real) z) := by
  have one : ∀ e f, e ∈ edges ls → f ∈ edges l → (At e.1 f.1 ∧ OnGrid B k f.1) ∧ (At e.2 f.2 ∧ OnGrid B k f.2) →
      (SegPolyRelation ⟨e.1, e.2⟩ (ps :: holes) = .contain ∧ ∀ z, OnSeg (real f.1) (real f.2) z → ¬ Escapes (d.map real) z) ∨
      (SegPolyRelation ⟨e.1, e.2⟩ (ps :: holes) = .disjoint ∧ ∀ z, OnSeg (real f.1) (real f.2) z → Escapes (d.map real) z) := by
    rintro e f - hf ⟨r1, r2⟩
    exact C141_segment hB r1.1 r2.1 r1.2 r2.2 hd hs (l0 _ (edges_mem hf).1) (l0 _ (edges_mem hf).2) (hoff f hf) (hn f hf) holes
  have hE := edges_forall₂ hl
  have same := all_same (fun v => Escapes (d.map real) (real v)) l (by
    intro f hf
    obtain ⟨e, he, r⟩ := forall₂_mem_right hE hf
    rcases one e f he hf r with ⟨-, h⟩ | ⟨-, h⟩
    · exact iff_of_false (h _ (end_on _ _).1) (h _ (end_on _ _).2)
    · exact iff_of_true (h _ (end_on _ _).1) (h _ (end_on _ _).2))
  by_cases h : ∀ v ∈ l, Escapes (d.map real) (real v)
  · right
    constructor
    · intro e he
      obtain ⟨f, hf, r⟩ := forall₂_mem_left hE he
      rcases one e f he hf r with ⟨-, g⟩ | ⟨g, -⟩
      · exact absurd (h _ (edges_mem hf).1) (g _ (end_on _ _).1)
      · exact g
    · intro f hf
      obtain ⟨e, he, r⟩ := forall₂_mem_right hE hf
      rcases one e f he hf r with ⟨-, g⟩ | ⟨-, g⟩
      · exact absurd (h _ (edges_mem hf).1) (g _ (end_on _ _).1)
      · exact g
  · left
    push Not at h
    obtain ⟨v, hv, hno⟩ := h
    have h : ∀ w ∈ l, ¬ Escapes (d.map real) (real w) := fun w hw g => hno ((same v hv w hw).2 g)
    constructor
    · intro e he
      obtain ⟨f, hf, r⟩ := forall₂_mem_left hE he
      rcases one e f he hf r with ⟨g, -⟩ | ⟨-, g⟩
      · exact g
      · exact absurd (g _ (end_on _ _).1) (h _ (edges_mem hf).1)
    · intro f hf
      obtain ⟨e, he, r⟩ := forall₂_mem_right hE hf
      rcases one e f he hf r with ⟨-, g⟩ | ⟨-, g⟩
      · exact g
      · exact absurd (g _ (end_on _ _).1) (h _ (edges_mem hf).1)

/-- **C141 (lines).** The same for a line of at least two points: LinePolyRelation is CONTAIN and the whole line is shut in by the ring, or it is DISJOINT
and the whole line is outside. -/
theorem C141_line {B k : ℕ} (hB : B + k ≤ 17) {ls ps : List (Point F)} {l d : List (ℚ × ℚ)} (hl : GridAll B k ls l) (h2 : 2 ≤ l.length)
    (hd : GridAll B k ps (d ++ d.take 1)) (hs : SimpleRing (d.map real)) (l0 : ∀ v ∈ l, v ≠ (0, 0))
    (hoff : ∀ e ∈ segments l, ∀ z, OnSeg (real e.1) (real e.2) z → ¬ OnRing (d.map real) z)
    (hn : ∀ e ∈ segments l, ∀ f ∈ sides d, ¬ (turn f.1 f.2 e.1 = 0 ∧ turn f.1 f.2 e.2 = 0)) (holes : List (List (Point F))) :
    (LinePolyRelation ls (ps :: holes) = .contain ∧ ∀ e ∈ segments l, ∀ z, OnSeg (real e.1) (real e.2) z → ¬ Escapes (d.map real) z) ∨
    (LinePolyRelation ls (ps :: holes) = .disjoint ∧ ∀ e ∈ segments l, ∀ z, OnSeg (real e.1) (real e.2) z → Escapes (d.map real) z) := by
  have e : segments l = edges l := (edges_tail l).symm
  rw [e] at hoff hn ⊢
  have hne : edges ls ≠ [] := by
    have hl' := hl.length_eq
    match ls, hl' with
    | [], h => simp at h; omega
    | [_], h => simp at h; omega
    | a :: b :: m, _ => simp [edges]
  rcases loop_same hB hl hd hs l0 hoff hn holes with ⟨h, g⟩ | ⟨h, g⟩
  · exact Or.inl ⟨linePolyLoop_const _ .contain .unknown (Or.inl rfl) _ (Or.inr ⟨rfl, hne⟩) h, g⟩
  · exact Or.inr ⟨linePolyLoop_const _ .disjoint .unknown (Or.inr rfl) _ (Or.inr ⟨rfl, hne⟩) h, g⟩

/-- **C141 (polygons).** For two simple rings without a common point and with no side in line with a side of the other, PolyRelation is CONTAIN exactly if the region of
the first is part of the region of the second, and DISJOINT exactly if the regions have no common point or the second is part of the first; there is no other answer. -/
theorem C141_polygon {B k : ℕ} (hB : B + k ≤ 17) {qs ps : List (Point F)} {c d : List (ℚ × ℚ)} (hc : GridAll B k qs (c ++ c.take 1))
    (hd : GridAll B k ps (d ++ d.take 1)) (sc : SimpleRing (c.map real)) (sd : SimpleRing (d.map real)) (c0 : ∀ v ∈ c, v ≠ (0, 0))
    (hoff : ∀ z, OnRing (c.map real) z → ¬ OnRing (d.map real) z)
    (hn : ∀ e ∈ sides c, ∀ f ∈ sides d, ¬ (turn f.1 f.2 e.1 = 0 ∧ turn f.1 f.2 e.2 = 0)) (h1 h2 : List (List (Point F))) :
    (PolyRelation (qs :: h1) (ps :: h2) = .contain ↔ {z | EvenOdd (c.map real) z} ⊆ {z | EvenOdd (d.map real) z}) ∧
    (PolyRelation (qs :: h1) (ps :: h2) = .disjoint ↔
      Disjoint {z | EvenOdd (c.map real) z} {z | EvenOdd (d.map real) z} ∨ {z | EvenOdd (d.map real) z} ⊆ {z | EvenOdd (c.map real) z}) ∧
    (PolyRelation (qs :: h1) (ps :: h2) = .contain ∨ PolyRelation (qs :: h1) (ps :: h2) = .disjoint) := by
  have hE : edges (c ++ c.take 1) = sides c := edges_closed c
  have l0 : ∀ v ∈ c ++ c.take 1, v ≠ (0, 0) := by
    intro v hv
    rcases List.mem_append.1 hv with h | h
    · exact c0 v h
    · exact c0 v (List.mem_of_mem_take h)
  have hloop := loop_same hB hc hd sd l0 (by rw [hE]; exact fun e he z hz => hoff z (ring_real he hz)) (by rw [hE]; exact hn) h2
  have hl3 : 3 ≤ c.length := by simpa using sc.1
  have hne : (edges qs).dropLast ≠ [] := by
    intro e
    have l1 := congrArg List.length e
    have l2 := (edges_forall₂ hc).length_eq
    rw [hE] at l2
    rw [List.length_dropLast, l2] at l1
    simp [sides] at l1
    omega
  obtain ⟨g, hg⟩ : ∃ g, g ∈ sides c := by
    match c, hl3 with
    | a :: c, _ =>
      refine ⟨(sides (a :: c)).head (by simp [sides]), List.head_mem _⟩
  have hx : OnRing (c.map real) (real g.1) := ring_real hg (end_on _ _).1
  obtain ⟨r1, r2⟩ := regions sc sd hoff hx
  have hesc := evenOdd_escapes sd (hoff _ hx)
  have hP : PolyRelation (qs :: h1) (ps :: h2) = linePolyLoop (ps :: h2) .unknown (edges qs).dropLast := rfl
  rcases hloop with ⟨h, g'⟩ | ⟨h, g'⟩
  · have hv : PolyRelation (qs :: h1) (ps :: h2) = .contain :=
      linePolyLoop_const _ .contain .unknown (Or.inl rfl) _ (Or.inr ⟨rfl, hne⟩) fun e he => h e (List.dropLast_subset _ he)
    have hin : EvenOdd (d.map real) (real g.1) := hesc.2 (g' g (by rw [hE]; exact hg) _ (end_on _ _).1)
    rw [hv]
    refine ⟨iff_of_true rfl (r1.1 hin), iff_of_false (by simp) fun hh => r2.2 hh hin, Or.inl rfl⟩
  · have hv : PolyRelation (qs :: h1) (ps :: h2) = .disjoint :=
      linePolyLoop_const _ .disjoint .unknown (Or.inr rfl) _ (Or.inr ⟨rfl, hne⟩) fun e he => h e (List.dropLast_subset _ he)
    have hin : ¬ EvenOdd (d.map real) (real g.1) := fun hh => hesc.1 hh (g' g (by rw [hE]; exact hg) _ (end_on _ _).1)
    rw [hv]
    refine ⟨iff_of_false (by simp) fun hh => hin (r1.2 hh), iff_of_true rfl (r2.1 hin), Or.inr rfl⟩

end

/-- a small triangle and a dart around it -/
def exIn : List (ℚ × ℚ) := [(1, 1), (2, 1), (1, 2)]
def exOut : List (ℚ × ℚ) := [(0, 0), (8, 0), (2, 2), (0, 8)]

theorem exIn_real : exIn.map real = [(1, 1), (2, 1), (1, 2)] := by norm_num [real, exIn]
theorem exOut_real : exOut.map real = [(0, 0), (8, 0), (2, 2), (0, 8)] := by norm_num [real, exOut]

theorem exIn_simple : SimpleRing (exIn.map real) := by
  rw [exIn_real]
  refine ⟨by decide, by norm_num, ?_⟩
  intro e he f hf hef x hx hy
  simp only [sides, List.rotate_cons_succ, List.rotate_zero, List.cons_append, List.nil_append, List.zip_cons_cons, List.zip_nil_right,
    List.mem_cons, List.not_mem_nil, or_false] at he hf
  obtain ⟨s, s0, s1, rfl⟩ := hx
  obtain ⟨t, t0, t1, ht⟩ := hy
  rcases he with rfl | rfl | rfl <;> rcases hf with rfl | rfl | rfl <;> simp only [ne_eq, not_true] at hef <;>
    simp only [along, Prod.mk.injEq] at ht ⊢ <;> obtain ⟨h1, h2⟩ := ht
  all_goals
    norm_num at h1 h2
    first
      | (exfalso; linarith)
      | (left; have : s = 1 := by linarith
         have : t = 0 := by linarith
         subst s t; norm_num)
      | (right; have : s = 0 := by linarith
         have : t = 1 := by linarith
         subst s t; norm_num)

theorem exOut_simple : SimpleRing (exOut.map real) := by
  rw [exOut_real]
  refine ⟨by decide, by norm_num, ?_⟩
  intro e he f hf hef x hx hy
  simp only [sides, List.rotate_cons_succ, List.rotate_zero, List.cons_append, List.nil_append, List.zip_cons_cons, List.zip_nil_right,
    List.mem_cons, List.not_mem_nil, or_false] at he hf
  obtain ⟨s, s0, s1, rfl⟩ := hx
  obtain ⟨t, t0, t1, ht⟩ := hy
  rcases he with rfl | rfl | rfl | rfl <;> rcases hf with rfl | rfl | rfl | rfl <;> simp only [ne_eq, not_true] at hef <;>
    simp only [along, Prod.mk.injEq] at ht ⊢ <;> obtain ⟨h1, h2⟩ := ht
  all_goals
    norm_num at h1 h2
    first
      | (exfalso; linarith)
      | (left; have : s = 1 := by linarith
         have : t = 0 := by linarith
         subst s t; norm_num)
      | (right; have : s = 0 := by linarith
         have : t = 1 := by linarith
         subst s t; norm_num)

/-- non-vacuity: the triangle is in the dart -/
example : {z | EvenOdd (exIn.map real) z} ⊆ {z | EvenOdd (exOut.map real) z} := by
  have h1 := fpt_grid [(1, 1), (2, 1), (1, 2), (1, 1)] 17 (by norm_num) (by decide)
  have h2 := fpt_grid [(0, 0), (8, 0), (2, 2), (0, 8), (0, 0)] 17 (by norm_num) (by decide)
  refine (C141_polygon (F := Float) (B := 17) (k := 0) (c := exIn) (d := exOut) (by norm_num) (by simpa [exIn] using h1) (by simpa [exOut] using h2) exIn_simple exOut_simple
    (by simp [exIn]) ?_ (by decide +kernel) [] []).1.1 (by decide +kernel)
  rw [exIn_real, exOut_real]
  rintro z ⟨e, he, s, s0, s1, rfl⟩ ⟨f, hf, t, t0, t1, ht⟩
  simp only [sides, List.rotate_cons_succ, List.rotate_zero, List.cons_append, List.nil_append, List.zip_cons_cons, List.zip_nil_right,
    List.mem_cons, List.not_mem_nil, or_false] at he hf
  rcases he with rfl | rfl | rfl <;> rcases hf with rfl | rfl | rfl | rfl <;>
    simp only [along, Prod.mk.injEq] at ht <;> obtain ⟨h1, h2⟩ := ht <;> (try norm_num at h1 h2) <;> (try linarith)

/-- non-vacuity: a segment out of the dart -/
example : SegPolyRelation (F := Float) ⟨fpt 1 2, fpt 6 3⟩ [[fpt 0 0, fpt 8 0, fpt 2 2, fpt 0 8, fpt 0 0]] = .intersect := by
  have h2 := fpt_grid [(0, 0), (8, 0), (2, 2), (0, 8), (0, 0)] 17 (by norm_num) (by decide)
  have h3 := fpt_grid [(1, 2), (6, 3)] 17 (by norm_num) (by decide)
  simp [GridAll] at h3
  have hoff : ∀ a b : ℚ, (a, b) = (1, 2) ∨ (a, b) = (6, 3) → ¬ OnRing (exOut.map real) (real (a, b)) := by
    rw [exOut_real]
    rintro a b h ⟨f, hf, t, t0, t1, ht⟩
    simp only [sides, List.rotate_cons_succ, List.rotate_zero, List.cons_append, List.nil_append, List.zip_cons_cons, List.zip_nil_right,
      List.mem_cons, List.not_mem_nil, or_false] at hf
    rcases h with h | h <;> rw [Prod.mk.injEq] at h <;> obtain ⟨rfl, rfl⟩ := h <;> rcases hf with rfl | rfl | rfl | rfl <;>
      simp only [along, real, Prod.mk.injEq] at ht <;> norm_num at ht <;> linarith
  refine (C141_across (F := Float) (B := 17) (k := 0) (x := (1, 2)) (y := (6, 3)) (d := exOut) (by norm_num) ?_ ?_ ?_ ?_ (by simpa [exOut] using h2) exOut_simple
    (by norm_num) (by norm_num) (hoff 1 2 (Or.inl rfl)) (hoff 6 3 (Or.inr rfl)) ?_ []).2 ?_ ?_
  · exact h3.1.1
  · exact h3.2.1
  · exact h3.1.2
  · exact h3.2.2
  · have i1 := (C140_inside_grid (F := Float) (B := 17) (k := 0) (x := (1, 2)) (c := exOut) (by norm_num) h3.1.1 h3.1.2 (by simpa [exOut] using h2) exOut_simple
      (hoff 1 2 (Or.inl rfl)) (by norm_num) []).1
    have i2 := (C140_inside_grid (F := Float) (B := 17) (k := 0) (x := (6, 3)) (c := exOut) (by norm_num) h3.2.1 h3.2.2 (by simpa [exOut] using h2) exOut_simple
      (hoff 6 3 (Or.inr rfl)) (by norm_num) []).1
    have d1 := i1.1 (by decide +kernel)
    have d2 := (not_congr i2).1 (by decide +kernel)
    exact fun h => d2 fun h6 => d1 (h.2 h6)
  · simp only [exOut, List.mem_cons, List.not_mem_nil, or_false]
    rintro v hv ⟨t, t0, t1, ht⟩
    rcases hv with rfl | rfl | rfl | rfl <;>
      simp only [along, real, Prod.mk.injEq] at ht <;> obtain ⟨h1, h2⟩ := ht <;> norm_num at h1 h2 <;> linarith
  · intro e he
    have : e = ((0, 8), (0, 0)) := by simpa [exOut, sides] using he.symm
    subst this
    rintro ⟨z, ⟨s, s0, s1, rfl⟩, t, t0, t1, ht⟩
    simp only [along, real, Prod.mk.injEq] at ht
    obtain ⟨h1, h2⟩ := ht
    norm_num at h1 h2
    linarith

end GoGeo.Region
