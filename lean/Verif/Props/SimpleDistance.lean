import Verif.Props.JordanPair
import Verif.Props.RoundingDist

/-!
# C145: the distance of a point from a simple polygon is that from the region it shuts in
-/

namespace GoGeo.Region
open MeasureTheory Set Spec Real GoFloat FloatVal

/-- on the way from a point outside to a point shut in the ring is met -/
theorem way_meets {c : List (ℝ × ℝ)} (hc : SimpleRing c) {y z : ℝ × ℝ} (hy : ¬ OnRing c y) (hz : ¬ OnRing c z) (hne : ¬ (Escapes c y ↔ Escapes c z)) :
    ∃ w, OnSeg y z w ∧ OnRing c w := by
  by_contra h
  have hoff : ∀ w, OnSeg y z w → ¬ OnRing c w := fun w hw ho => h ⟨w, hw, ho⟩
  have hpre : IsPreconnected {w | OnSeg y z w} := by rw [seg_eq]; exact (convex_segment _ _).isPreconnected
  have := evenOdd_path c hpre hoff (end_on y z).1 (end_on y z).2
  rw [evenOdd_escapes hc hy, evenOdd_escapes hc hz] at this
  exact hne (not_iff_not.1 this)

theorem seg_nearer {y z w : ℝ × ℝ} (h : OnSeg y z w) : eucl y w ≤ eucl y z := by
  obtain ⟨t, t0, t1, rfl⟩ := h
  have e := eucl_along y z 0 t
  have : along y z 0 = y := by unfold along; simp
  rw [this, zero_sub, abs_neg, abs_of_nonneg t0] at e
  rw [e]
  exact mul_le_of_le_one_left (eucl_nonneg _ _) t1

/-- seen from outside, the nearest point of the boundary is the nearest point of the region -/
theorem region_least {c : List (ℝ × ℝ)} (hc : SimpleRing c) {y : ℝ × ℝ} (hy : ¬ OnRing c y) (he : Escapes c y) {δ : ℝ}
    (h : IsLeast {d | ∃ z, OnRing c z ∧ d = eucl y z} δ) : IsLeast {d | ∃ z, (OnRing c z ∨ ¬ Escapes c z) ∧ d = eucl y z} δ := by
  obtain ⟨⟨w, hw, e⟩, hl⟩ := h
  refine ⟨⟨w, Or.inl hw, e⟩, ?_⟩
  rintro d ⟨z, hz, rfl⟩
  by_cases hz' : OnRing c z
  · exact hl ⟨z, hz', rfl⟩
  have hz := hz.resolve_left hz'
  obtain ⟨v, hv, ho⟩ := way_meets hc hy hz' fun h => hz (h.1 he)
  exact (hl ⟨v, ho, rfl⟩).trans (seg_nearer hv)

theorem isDistance_ring {x : ℚ × ℚ} {c : List (ℚ × ℚ)} {δ : ℝ} (h : IsDistance x (sides c) δ) : IsLeast {d | ∃ z, OnRing (c.map real) z ∧ d = eucl (real x) z} δ := by
  have : {d | ∃ z, OnRing (c.map real) z ∧ d = eucl (real x) z} = {d | ∃ e ∈ sides c, ∃ t, OnSeg (real e.1) (real e.2) t ∧ d = eucl (real x) t} := by
    ext d
    constructor
    · rintro ⟨z, ⟨e, he, hz⟩, rfl⟩
      rw [sides_real] at he
      obtain ⟨f, hf, rfl⟩ := List.mem_map.1 he
      exact ⟨f, hf, z, hz, rfl⟩
    · rintro ⟨e, he, z, hz, rfl⟩
      exact ⟨z, ring_real he hz, rfl⟩
  rw [this]
  exact h

theorem simple_side_ne {c : List (ℚ × ℚ)} (hs : SimpleRing (c.map real)) : ∃ e ∈ sides c, e.1 ≠ e.2 := by
  obtain ⟨h3, hn, -⟩ := hs
  rw [List.length_map] at h3
  match c, h3 with
  | a :: b :: r :: l, _ =>
    refine ⟨(a, b), by simp [sides], ?_⟩
    rintro (h : a = b)
    subst h
    simp at hn

/-- **C145 (distance).** For a simple polygon with sides at least 2^-40 long and a point off its ring that is clear of it as in C140 (coordinates up to 2^26): PointPolygonDistance in float64
is zero if the point is shut in by the ring, and otherwise within 2^-20 of the least distance of the point from a point of the ring or shut in by it. -/
theorem C145_distance {p : Point Float} {ps : List (Point Float)} {x : ℚ × ℚ} {c : List (ℚ × ℚ)} (hp : At p x) (bx : Within (2 ^ 26) x)
    (hc : AtAll (2 ^ 26) ps (c ++ c.take 1)) (hs : SimpleRing (c.map real)) (hlong : LongSides (sides c)) (hoff : ¬ OnRing (c.map real) (real x))
    (hx : Clear2X c x) (hy : ClearY c x) (h0 : x ≠ (0, 0)) (holes : List (List (Point Float))) (srid : Int) (hsr : srid ≠ 4326) :
    (¬ Escapes (c.map real) (real x) → val (PointPolygonDistance p (ps :: holes) srid) = .fin (0 : ℚ)) ∧
    (Escapes (c.map real) (real x) → ∃ (d : ℚ) (δ : ℝ), val (PointPolygonDistance p (ps :: holes) srid) = .fin d ∧
      IsLeast {d | ∃ z, (OnRing (c.map real) z ∨ ¬ Escapes (c.map real) z) ∧ d = eucl (real x) z} δ ∧ |(d : ℝ) - δ| ≤ 1 / 2 ^ 20) := by
  have hin := C140_inside hp bx hc hs hoff hx hy h0 holes
  refine ⟨fun h => ?_, fun h => ?_⟩
  · rw [C73_polygon_inside p (ps :: holes) srid (Or.inl (hin.1.2 h))]
    exact val_lit0
  · obtain ⟨d, δ, h1, h2, h3⟩ := C105_polygon hp bx hc (by norm_num) (by norm_num) hlong (simple_side_ne hs) holes srid hsr (hin.2.2 h)
    refine ⟨d, δ, h1, region_least hs hoff h (isDistance_ring h2), h3.trans ?_⟩
    norm_num

/-- **C145 (distance, on a grid).** For coordinates that are multiples of `1 / 2^k` with numerators up to `2^B`, `B + k ≤ 17`, with no clearance and no condition on the sides, within 2^-29. -/
theorem C145_distance_grid {B k : ℕ} (hB : B + k ≤ 17) {p : Point Float} {ps : List (Point Float)} {x : ℚ × ℚ} {c : List (ℚ × ℚ)} (hp : At p x) (gx : OnGrid B k x)
    (hc : GridAll B k ps (c ++ c.take 1)) (hs : SimpleRing (c.map real)) (hoff : ¬ OnRing (c.map real) (real x)) (h0 : x ≠ (0, 0))
    (holes : List (List (Point Float))) (srid : Int) (hsr : srid ≠ 4326) :
    (¬ Escapes (c.map real) (real x) → val (PointPolygonDistance p (ps :: holes) srid) = .fin (0 : ℚ)) ∧
    (Escapes (c.map real) (real x) → ∃ (d : ℚ) (δ : ℝ), val (PointPolygonDistance p (ps :: holes) srid) = .fin d ∧
      IsLeast {d | ∃ z, (OnRing (c.map real) z ∨ ¬ Escapes (c.map real) z) ∧ d = eucl (real x) z} δ ∧ |(d : ℝ) - δ| ≤ 1 / 2 ^ 29) := by
  have hin := C140_inside_grid hB hp gx hc hs hoff h0 holes
  have w : ∀ {v : ℚ × ℚ}, OnGrid B k v → Within (2 ^ 17) v := by
    rintro v ⟨m, n, b1, b2, rfl⟩
    have q : ∀ j : ℤ, |j| ≤ 2 ^ B → |(j : ℚ) / 2 ^ k| ≤ 2 ^ 17 := by
      intro j hj
      rw [abs_div, abs_of_pos (by positivity : (0 : ℚ) < 2 ^ k)]
      have h1 : |(j : ℚ)| ≤ 2 ^ B := by exact_mod_cast hj
      have h2 : (2 : ℚ) ^ B ≤ 2 ^ 17 := pow_le_pow_right₀ (by norm_num) (by omega)
      exact (div_le_self (abs_nonneg _) (one_le_pow₀ (by norm_num))).trans (h1.trans h2)
    exact ⟨q m b1, q n b2⟩
  have hg : ∀ v ∈ c, OnGrid B k v := by
    intro v hv
    obtain ⟨p, -, -, h⟩ := forall₂_mem_right hc (List.mem_append_left _ hv)
    exact h
  have hlong : LongSides (sides c) := by
    intro e he
    by_cases hee : e.1 = e.2
    · exact Or.inl hee
    right
    obtain ⟨m, n, -, -, e1⟩ := hg _ (sides_mem_left he)
    obtain ⟨m', n', -, -, e2⟩ := hg _ (sides_mem_right he)
    have hk : (1 : ℝ) / 2 ^ 40 ≤ 1 / 2 ^ k := one_div_le_one_div_of_le (by positivity) (pow_le_pow_right₀ (by norm_num) (by omega))
    refine hk.trans ?_
    obtain ⟨a1, a2⟩ := abs_le_eucl (real e.1) (real e.2)
    rw [e1, e2] at hee a1 a2 ⊢
    have far : ∀ i j : ℤ, i ≠ j → (1 : ℝ) / 2 ^ k ≤ |(((j : ℚ) / 2 ^ k : ℚ) : ℝ) - (((i : ℚ) / 2 ^ k : ℚ) : ℝ)| := by
      intro i j h
      push_cast
      rw [← sub_div, abs_div, abs_of_pos (by positivity : (0 : ℝ) < 2 ^ k)]
      gcongr
      have : 1 ≤ |j - i| := Int.one_le_abs (sub_ne_zero.2 (Ne.symm h))
      exact_mod_cast this
    by_cases h1 : m = m'
    · by_cases h2 : n = n'
      · subst h1 h2; exact absurd rfl hee
      · exact (far n n' h2).trans a2
    · exact (far m m' h1).trans a1
  refine ⟨fun h => ?_, fun h => ?_⟩
  · rw [C73_polygon_inside p (ps :: holes) srid (Or.inl (hin.1.2 h))]
    exact val_lit0
  · obtain ⟨d, δ, h1, h2, h3⟩ := C105_polygon hp (w gx) (List.Forall₂.imp (fun _ _ h => ⟨h.1, w h.2⟩) hc) (by norm_num) (by norm_num) hlong (simple_side_ne hs) holes srid hsr (hin.2.2 h)
    refine ⟨d, δ, h1, region_least hs hoff h (isDistance_ring h2), h3.trans ?_⟩
    norm_num

/-- **C145 (room).** Two points of which the second is closer to the first than the ring is get the same answer from IsPointInPolygon. -/
theorem C145_room {B k : ℕ} (hB : B + k ≤ 17) {p q : Point Float} {ps : List (Point Float)} {x y : ℚ × ℚ} {c : List (ℚ × ℚ)} (hp : At p x) (hq : At q y)
    (gx : OnGrid B k x) (gy : OnGrid B k y) (hc : GridAll B k ps (c ++ c.take 1)) (hs : SimpleRing (c.map real)) (x0 : x ≠ (0, 0)) (y0 : y ≠ (0, 0))
    (hr : ∀ z, OnRing (c.map real) z → eucl (real x) (real y) < eucl (real x) z) (holes : List (List (Point Float))) :
    IsPointInPolygon p (ps :: holes) = IsPointInPolygon q (ps :: holes) ∧
    (IsPointInPolygon p (ps :: holes) = .contain ∨ IsPointInPolygon p (ps :: holes) = .disjoint) := by
  have hx : ¬ OnRing (c.map real) (real x) := fun h => by
    have := hr _ h
    rw [eucl_eq_zero.2 rfl] at this
    exact absurd this (not_lt.2 (eucl_nonneg _ _))
  have hy : ¬ OnRing (c.map real) (real y) := fun h => lt_irrefl _ (hr _ h)
  have a := C140_inside_grid hB hp gx hc hs hx x0 holes
  have b := C140_inside_grid hB hq gy hc hs hy y0 holes
  have same : Escapes (c.map real) (real x) ↔ Escapes (c.map real) (real y) := by
    by_contra h
    obtain ⟨w, hw, ho⟩ := way_meets hs hx hy h
    exact absurd (hr w ho) (not_lt.2 (seg_nearer hw))
  by_cases h : Escapes (c.map real) (real x)
  · rw [a.2.2 h, b.2.2 (same.1 h)]
    exact ⟨rfl, Or.inr rfl⟩
  · rw [a.1.2 h, b.1.2 fun g => h (same.2 g)]
    exact ⟨rfl, Or.inl rfl⟩

/-- non-vacuity: the distance of `(1,2)` from the dart `(0,0) (4,0) (1,1) (0,4)`, in whose notch it lies -/
example : ∃ (d : ℚ) (δ : ℝ), val (PointPolygonDistance (fpt 1 2) [[fpt 0 0, fpt 4 0, fpt 1 1, fpt 0 4, fpt 0 0]] 3857) = .fin d ∧
    IsLeast {d | ∃ z, (OnRing dart z ∨ ¬ Escapes dart z) ∧ d = eucl (1, 2) z} δ ∧ |(d : ℝ) - δ| ≤ 1 / 2 ^ 29 := by
  have h1 := fpt_grid [(0, 0), (4, 0), (1, 1), (0, 4), (0, 0)] 17 (by norm_num) (by decide)
  have hp : At (fpt 1 2) ((1 : ℚ), (2 : ℚ)) := by simpa using fpt_at 1 2 (by norm_num) (by norm_num)
  have hd : ([((0 : ℚ), (0 : ℚ)), (4, 0), (1, 1), (0, 4)] : List (ℚ × ℚ)).map real = dart := by norm_num [real, dart]
  have hx : real ((1 : ℚ), (2 : ℚ)) = (1, 2) := by norm_num [real]
  have gx : OnGrid 17 0 ((1 : ℚ), (2 : ℚ)) := ⟨1, 2, by norm_num, by norm_num, by norm_num⟩
  have hs : SimpleRing (([((0 : ℚ), (0 : ℚ)), (4, 0), (1, 1), (0, 4)] : List (ℚ × ℚ)).map real) := by rw [hd]; exact dart_simple
  have hoff : ¬ OnRing (([((0 : ℚ), (0 : ℚ)), (4, 0), (1, 1), (0, 4)] : List (ℚ × ℚ)).map real) (real ((1 : ℚ), (2 : ℚ))) := by
    rw [hd, hx]
    rintro ⟨e, he, t, t0, t1, ht⟩
    simp only [dart, sides, List.rotate_cons_succ, List.rotate_zero, List.cons_append, List.nil_append, List.zip_cons_cons, List.zip_nil_right,
      List.mem_cons, List.not_mem_nil, or_false] at he
    rcases he with rfl | rfl | rfl | rfl <;> simp only [along, Prod.mk.injEq] at ht <;> obtain ⟨h1, h2⟩ := ht <;> (try norm_num at h1 h2) <;> (try linarith)
  have hc : GridAll 17 0 [fpt 0 0, fpt 4 0, fpt 1 1, fpt 0 4, fpt 0 0]
      ([((0 : ℚ), (0 : ℚ)), (4, 0), (1, 1), (0, 4)] ++ [((0 : ℚ), (0 : ℚ)), (4, 0), (1, 1), (0, 4)].take 1) := by simpa using h1
  have he := (C140_inside_grid (by norm_num) hp gx hc hs hoff (by norm_num) []).2.1 (by decide +kernel)
  have := (C145_distance_grid (by norm_num) hp gx hc hs hoff (by norm_num) [] 3857 (by norm_num)).2 he
  rwa [hd, hx] at this

/-- non-vacuity: in the square of side 8 the points `(4,4)` and `(5,4)` get the same answer -/
example : IsPointInPolygon (fpt 4 4) [[fpt 0 0, fpt 8 0, fpt 8 8, fpt 0 8, fpt 0 0]] = IsPointInPolygon (fpt 5 4) [[fpt 0 0, fpt 8 0, fpt 8 8, fpt 0 8, fpt 0 0]] := by
  have h1 := fpt_grid [(0, 0), (8, 0), (8, 8), (0, 8), (0, 0)] 17 (by norm_num) (by decide)
  have hc : GridAll 17 0 [fpt 0 0, fpt 8 0, fpt 8 8, fpt 0 8, fpt 0 0]
      ([((0 : ℚ), (0 : ℚ)), (8, 0), (8, 8), (0, 8)] ++ [((0 : ℚ), (0 : ℚ)), (8, 0), (8, 8), (0, 8)].take 1) := by simpa using h1
  have hd : ([((0 : ℚ), (0 : ℚ)), (8, 0), (8, 8), (0, 8)] : List (ℚ × ℚ)).map real = [(0, 0), (8, 0), (8, 8), (0, 8)] := by norm_num [real]
  have hs : SimpleRing ([(0, 0), (8, 0), (8, 8), (0, 8)] : List (ℝ × ℝ)) := by
    apply convex_simple
    refine ⟨by simp, by simp, ?_⟩
    intro e he v hv h1 h2
    simp [sides] at he hv
    rcases he with rfl | rfl | rfl | rfl <;> rcases hv with rfl | rfl | rfl | rfl <;> first | exact absurd rfl h1 | exact absurd rfl h2 | norm_num [turn]
  refine (C145_room (x := (4, 4)) (y := (5, 4)) (k := 0) (B := 17) (by norm_num) ?_ ?_ ⟨4, 4, by norm_num, by norm_num, by norm_num⟩ ⟨5, 4, by norm_num, by norm_num, by norm_num⟩
    hc (by rw [hd]; exact hs) (by norm_num) (by norm_num) ?_ []).1
  · simpa using fpt_at 4 4 (by norm_num) (by norm_num)
  · simpa using fpt_at 5 4 (by norm_num) (by norm_num)
  · rw [hd]
    rintro z ⟨e, he, t, t0, t1, rfl⟩
    have a := abs_le_eucl (real (4, 4)) (along e.1 e.2 t)
    have b := eucl_le_abs (real (4, 4)) (real (5, 4))
    simp only [sides, List.rotate_cons_succ, List.rotate_zero, List.cons_append, List.nil_append, List.zip_cons_cons, List.zip_nil_right,
      List.mem_cons, List.not_mem_nil, or_false] at he
    have c1 := le_abs_self ((along e.1 e.2 t).1 - (real (4, 4)).1)
    have c2 := neg_abs_le ((along e.1 e.2 t).1 - (real (4, 4)).1)
    have c3 := le_abs_self ((along e.1 e.2 t).2 - (real (4, 4)).2)
    have c4 := neg_abs_le ((along e.1 e.2 t).2 - (real (4, 4)).2)
    rcases he with rfl | rfl | rfl | rfl <;> norm_num [along, real] at a b c1 c2 c3 c4 ⊢ <;> linarith [a.1, a.2]

end GoGeo.Region
