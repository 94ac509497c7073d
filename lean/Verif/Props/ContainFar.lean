import Verif.Props.ContainOrder
import Verif.Props.SimpleDistance

/-!
# C168: nothing is nearer to what is contained

If `PolyRelation` says that a polygon is contained in another, `PointPolygonDistance` of any point to the first is not smaller than to the second, up to the rounding error of
distances.  The distance to a polygon cut in two along a diagonal is the smaller one of the distances to the parts, up to rounding.
-/

namespace GoGeo.Region

open Set Spec FloatVal

/-- a ring and what it shuts in -/
def filled (c : List (ℝ × ℝ)) : Set (ℝ × ℝ) := {z | OnRing c z ∨ ¬ Escapes c z}

theorem filled_dist {B k : ℕ} (hB : B + k ≤ 17) {p : Point Float} {ps : List (Point Float)} {x : ℚ × ℚ} {c : List (ℚ × ℚ)} (hp : At p x) (gx : OnGrid B k x)
    (hc : GridAll B k ps (c ++ c.take 1)) (hs : SimpleRing (c.map real)) (hoff : ¬ OnRing (c.map real) (real x)) (h0 : x ≠ (0, 0))
    (holes : List (List (Point Float))) (srid : Int) (hsr : srid ≠ 4326) :
    ∃ (u : ℚ) (δ : ℝ), val (PointPolygonDistance p (ps :: holes) srid) = .fin u ∧ IsLeast {d | ∃ z, z ∈ filled (c.map real) ∧ d = eucl (real x) z} δ ∧ |(u : ℝ) - δ| ≤ 1 / 2 ^ 29 := by
  obtain ⟨c1, c2⟩ := C145_distance_grid hB hp gx hc hs hoff h0 holes srid hsr
  by_cases he : Escapes (c.map real) (real x)
  · exact c2 he
  · refine ⟨0, 0, c1 he, ⟨⟨real x, Or.inr he, by simp [eucl]⟩, ?_⟩, by simp⟩
    rintro d ⟨z, -, rfl⟩
    exact Real.sqrt_nonneg _

section

variable {B k : ℕ} {ps qs rs : List (Point Float)} {c d : List (ℚ × ℚ)}

theorem least_le {s t : Set (ℝ × ℝ)} {x : ℝ × ℝ} {δ ε : ℝ} (hs : IsLeast {d | ∃ z, z ∈ s ∧ d = eucl x z} δ) (ht : IsLeast {d | ∃ z, z ∈ t ∧ d = eucl x z} ε) (h : s ⊆ t) : ε ≤ δ := by
  obtain ⟨⟨z, hz, rfl⟩, -⟩ := hs
  exact ht.2 ⟨z, h hz, rfl⟩

theorem twice : (1 : ℝ) / 2 ^ 28 = 1 / 2 ^ 29 + 1 / 2 ^ 29 := by norm_num

/-- **C168.** No point is nearer to a contained polygon than to the one it is contained in. -/
theorem C168_contained (hB : B + k ≤ 17) (hp : GridRing B k ps c) (hq : GridRing B k qs d) (hm : Meetless c d) (hs : Skew c d) (h₁ h₂ : List (List (Point Float)))
    (h : PolyRelation (ps :: h₁) (qs :: h₂) = .contain) {p : Point Float} {x : ℚ × ℚ} (hx : At p x) (gx : OnGrid B k x) (x0 : x ≠ (0, 0))
    (oc : ¬ OnRing (c.map real) (real x)) (od : ¬ OnRing (d.map real) (real x)) (srid : Int) (hsr : srid ≠ 4326) :
    ∃ u v : ℚ, val (PointPolygonDistance p (ps :: h₁) srid) = .fin u ∧ val (PointPolygonDistance p (qs :: h₂) srid) = .fin v ∧ v ≤ u + 1 / 2 ^ 28 := by
  have hsub := (relation_regions hB hp hq hm hs h₁ h₂).1.1 h
  obtain ⟨u, δ, hu, lu, eu⟩ := filled_dist hB hx gx hp.grid hp.simple oc x0 h₁ srid hsr
  obtain ⟨v, ε, hv, lv, ev⟩ := filled_dist hB hx gx hq.grid hq.simple od x0 h₂ srid hsr
  refine ⟨u, v, hu, hv, ?_⟩
  have hle : ε ≤ δ := by
    refine least_le lu lv ?_
    intro z hz
    by_cases oz : OnRing (c.map real) z
    · exact Or.inr (ring_inside hp hq hm hsub oz).2
    · exact Or.inr (hsub ⟨oz, hz.resolve_left oz⟩).2
  have h1 := abs_le.1 eu
  have h2 := abs_le.1 ev
  refine (Rat.cast_le (K := ℝ)).1 ?_
  push_cast
  rw [twice]
  linarith [h1.1, h2.2]

end

theorem filled_cut (a b : ℝ × ℝ) (xs ys : List (ℝ × ℝ)) (hc : SimpleRing (a :: xs ++ b :: ys)) (hd : Diagonal (a :: xs ++ b :: ys) a b) :
    filled (a :: xs ++ b :: ys) = filled (a :: xs ++ [b]) ∪ filled (b :: ys ++ [a]) := by
  obtain ⟨s1, s2, -, hz⟩ := C160_parts a b xs ys hc hd
  obtain ⟨t1, -, -⟩ := C165_cut a b xs ys hc hd
  have seg : ∀ z, OnSeg a b z → z ∈ filled (a :: xs ++ b :: ys) := by
    intro z h
    rcases inSeg_or h with h | rfl | rfl
    · exact Or.inr (hd z h).2
    · exact Or.inl (corner_on (by simp))
    · exact Or.inl (corner_on (by simp))
  ext z
  constructor
  · intro h
    by_cases hs : OnSeg a b z
    · exact Or.inl (Or.inl ⟨(b, a), by rw [sides_part]; simp, onSeg_swap hs⟩)
    rcases h with ⟨e, he, ho⟩ | h
    · rw [sides_cut, List.mem_append] at he
      rcases he with he | he
      · exact Or.inl (Or.inl ⟨e, by rw [sides_part]; exact List.mem_append_left _ he, ho⟩)
      · exact Or.inr (Or.inl ⟨e, by rw [sides_part]; exact List.mem_append_left _ he, ho⟩)
    · by_cases ho : OnRing (a :: xs ++ b :: ys) z
      · obtain ⟨e, he, ho⟩ := ho
        rw [sides_cut, List.mem_append] at he
        rcases he with he | he
        · exact Or.inl (Or.inl ⟨e, by rw [sides_part]; exact List.mem_append_left _ he, ho⟩)
        · exact Or.inr (Or.inl ⟨e, by rw [sides_part]; exact List.mem_append_left _ he, ho⟩)
      · exact ((hz z ho hs).1.1 h).imp Or.inr Or.inr
  · rintro (h | h)
    · by_cases ho : OnRing (a :: xs ++ [b]) z
      · exact (onRing_cut ho).elim Or.inl (seg z)
      · exact Or.inr (t1 _ List.mem_cons_self ⟨ho, h.resolve_left ho⟩).2
    · by_cases ho : OnRing (b :: ys ++ [a]) z
      · exact (onRing_cut (ys := xs) ho).elim (fun g => Or.inl ((onRing_turned a b xs ys z).1 g)) fun g => seg z (onSeg_swap g)
      · exact Or.inr (t1 _ (List.mem_cons_of_mem _ List.mem_cons_self) ⟨ho, h.resolve_left ho⟩).2

/-- **C168 (parts).** The distance to a polygon cut along a diagonal is the smaller one of the distances to its parts, up to rounding. -/
theorem C168_cut {B k : ℕ} (hB : B + k ≤ 17) {p : Point Float} {ps qs rs : List (Point Float)} {x a b : ℚ × ℚ} {xs ys : List (ℚ × ℚ)} (hp : At p x) (gx : OnGrid B k x)
    (hps : GridAll B k ps (a :: xs ++ b :: ys ++ [a])) (hqs : GridAll B k qs (a :: xs ++ [b] ++ [a])) (hrs : GridAll B k rs (b :: ys ++ [a] ++ [b]))
    (hs : SimpleRing ((a :: xs ++ b :: ys).map real)) (hd : Diagonal ((a :: xs ++ b :: ys).map real) (real a) (real b))
    (hoff : ¬ OnRing ((a :: xs ++ b :: ys).map real) (real x)) (hdi : ¬ OnSeg (real a) (real b) (real x)) (h0 : x ≠ (0, 0)) (holes : List (List (Point Float)))
    (srid : Int) (hsr : srid ≠ 4326) :
    ∃ u v w : ℚ, val (PointPolygonDistance p (qs :: holes) srid) = .fin u ∧ val (PointPolygonDistance p (rs :: holes) srid) = .fin v ∧
      val (PointPolygonDistance p (ps :: holes) srid) = .fin w ∧ |w - min u v| ≤ 1 / 2 ^ 28 := by
  have m1 : real a :: xs.map real ++ [real b] = (a :: xs ++ [b]).map real := by simp
  have m2 : real b :: ys.map real ++ [real a] = (b :: ys ++ [a]).map real := by simp
  have m0 : real a :: xs.map real ++ real b :: ys.map real = (a :: xs ++ b :: ys).map real := by simp
  rw [← m0] at hs hd hoff
  obtain ⟨s1, s2, -, -⟩ := C160_parts _ _ _ _ hs hd
  have z1 : ¬ OnRing (real a :: xs.map real ++ [real b]) (real x) := fun h => (onRing_cut h).elim hoff hdi
  have z2 : ¬ OnRing (real b :: ys.map real ++ [real a]) (real x) := fun h =>
    (onRing_cut (ys := xs.map real) h).elim (fun g => hoff ((onRing_turned (real a) (real b) (xs.map real) (ys.map real) (real x)).1 g)) fun g => hdi (onSeg_swap g)
  have hf := filled_cut _ _ _ _ hs hd
  rw [m0] at hs hoff
  rw [m1] at s1 z1
  rw [m2] at s2 z2
  rw [m0, m1, m2] at hf
  obtain ⟨u, δ₁, hu, lu, eu⟩ := filled_dist hB hp gx (c := a :: xs ++ [b]) (by simpa using hqs) s1 z1 h0 holes srid hsr
  obtain ⟨v, δ₂, hv, lv, ev⟩ := filled_dist hB hp gx (c := b :: ys ++ [a]) (by simpa using hrs) s2 z2 h0 holes srid hsr
  obtain ⟨w, δ, hw, lw, ew⟩ := filled_dist hB hp gx (c := a :: xs ++ b :: ys) (by simpa using hps) hs hoff h0 holes srid hsr
  refine ⟨u, v, w, hu, hv, hw, ?_⟩
  have hmin : δ = min δ₁ δ₂ := by
    apply le_antisymm
    · exact le_min (least_le lu lw (by rw [hf]; exact subset_union_left)) (least_le lv lw (by rw [hf]; exact subset_union_right))
    · obtain ⟨⟨z, hz, rfl⟩, -⟩ := lw
      rw [hf] at hz
      rcases hz with hz | hz
      · exact (min_le_left _ _).trans (lu.2 ⟨z, hz, rfl⟩)
      · exact (min_le_right _ _).trans (lv.2 ⟨z, hz, rfl⟩)
  have h1 := abs_min_sub_min_le_max (u : ℝ) v δ₁ δ₂
  have h2 : |min (u : ℝ) v - min δ₁ δ₂| ≤ 1 / 2 ^ 29 := h1.trans (max_le eu ev)
  rw [← hmin] at h2
  refine (Rat.cast_le (K := ℝ)).1 ?_
  push_cast
  rw [twice]
  rw [abs_le] at ew h2 ⊢
  constructor <;> linarith [ew.1, ew.2, h2.1, h2.2]

/-- the hypotheses can be met: triangles in one another, and the dart -/
example : ∃ u v : ℚ, val (PointPolygonDistance (F := Float) (fpt 5 5) [[fpt 4 4, fpt 6 5, fpt 5 6, fpt 4 4]] 0) = .fin u ∧
    val (PointPolygonDistance (F := Float) (fpt 5 5) [[fpt 3 2, fpt 10 4, fpt 5 9, fpt 3 2]] 0) = .fin v ∧ v ≤ u + 1 / 2 ^ 28 := by
  have h := fpt_grid [(5, 5)] 17 (by norm_num) (by decide)
  simp [GridAll] at h
  refine C168_contained (B := 17) (k := 0) (by norm_num) ta_ring tb_ring meetless_ab (by unfold Skew; decide +kernel) [] [] (by decide +kernel) h.1 h.2 (by norm_num) mid_off ?_ 0 (by norm_num)
  rintro ⟨e, he, t, t0, t1, ht⟩
  simp only [tb, List.map_cons, List.map_nil, sides, List.rotate_cons_succ, List.rotate_zero, List.cons_append, List.nil_append, List.zip_cons_cons, List.zip_nil_right,
    List.mem_cons, List.not_mem_nil, or_false] at he
  rcases he with rfl | rfl | rfl <;> simp only [along, real, Prod.mk.injEq] at ht <;> obtain ⟨h1, h2⟩ := ht <;> (try norm_num at h1 h2) <;> (try linarith)

example : ∃ u v w : ℚ, val (PointPolygonDistance (F := Float) (fpt 5 3) [[fpt 0 0, fpt 4 0, fpt 1 1, fpt 0 0]] 0) = .fin u ∧
    val (PointPolygonDistance (F := Float) (fpt 5 3) [[fpt 1 1, fpt 0 4, fpt 0 0, fpt 1 1]] 0) = .fin v ∧
    val (PointPolygonDistance (F := Float) (fpt 5 3) [[fpt 0 0, fpt 4 0, fpt 1 1, fpt 0 4, fpt 0 0]] 0) = .fin w ∧ |w - min u v| ≤ 1 / 2 ^ 28 := by
  have h := fpt_grid [(5, 3)] 17 (by norm_num) (by decide)
  simp [GridAll] at h
  have h0 := fpt_grid [(0, 0), (4, 0), (1, 1), (0, 4), (0, 0)] 17 (by norm_num) (by decide)
  have h1 := fpt_grid [(0, 0), (4, 0), (1, 1), (0, 0)] 17 (by norm_num) (by decide)
  have h2 := fpt_grid [(1, 1), (0, 4), (0, 0), (1, 1)] 17 (by norm_num) (by decide)
  have hd : ([((0 : ℚ), (0 : ℚ)), (4, 0), (1, 1), (0, 4)] : List (ℚ × ℚ)).map real = dart := by norm_num [real, dart]
  refine C168_cut (B := 17) (k := 0) (a := (0, 0)) (b := (1, 1)) (xs := [(4, 0)]) (ys := [(0, 4)]) (by norm_num) h.1 h.2 (by simpa using h0) (by simpa using h1) (by simpa using h2)
    (by simpa [hd] using dart_simple) (by simpa [hd, real] using dart_diagonal) ?_ ?_ (by norm_num) [] 0 (by norm_num)
  · rintro ⟨e, he, t, t0, t1, ht⟩
    simp only [List.map_cons, List.map_nil, sides, List.rotate_cons_succ, List.rotate_zero, List.cons_append, List.nil_append, List.zip_cons_cons, List.zip_nil_right,
      List.mem_cons, List.not_mem_nil, or_false] at he
    rcases he with rfl | rfl | rfl | rfl <;> simp only [along, real, Prod.mk.injEq] at ht <;> obtain ⟨h1, h2⟩ := ht <;> (try norm_num at h1) <;> (try norm_num at h2) <;> (try linarith)
  · rintro ⟨t, t0, t1, ht⟩
    simp only [along, real, Prod.mk.injEq] at ht
    obtain ⟨h1, h2⟩ := ht
    norm_num at h1 h2
    linarith

end GoGeo.Region
