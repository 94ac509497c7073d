import Verif.Geo.DistanceLemmas
import Verif.Props.Relation
import Verif.Go.F64
import Verif.Go.F64Sq

/-!
# Properties of distances: C42 – C45, C72, C73
-/
set_option linter.unusedSectionVars false

namespace GoGeo
open GoFloat GoSqrt GoMath Spec

/-! ## C42 -/

/-- a segment of length zero has the foot factor 0/0 -/
theorem footFactor_nan (p a : ℝ × ℝ) : footFactor (pt p) (pt a) (pt a) = .nan := by
  unfold footFactor pt
  simp only [XR.fin_sub, XR.fin_mul, XR.fin_add, sub_self, mul_zero, add_zero]
  show XR.div _ _ = _
  simp [XR.div, XR.infSign]

theorem toSegment_nan (p a : ℝ × ℝ) {srid : Int} (hs : srid ≠ 4326) :
    PointToSegmentDistance (pt p) (pt a) (pt a) srid = (.nan, ⟨.nan, .nan⟩) := by
  unfold PointToSegmentDistance
  rw [footFactor_nan]
  have h1 : lt (XR.nan : XR ℝ) (lit 0) = false := rfl
  have h2 : gt (XR.nan : XR ℝ) (lit 1) = false := rfl
  have h3 : footPoint (pt a) (pt a) (XR.nan : XR ℝ) = ⟨.nan, .nan⟩ := rfl
  simp only [h1, h2, h3, Bool.false_eq_true, if_false]
  unfold PointDistance
  rw [if_neg hs]
  rfl

/-- **C42 is false.** For a segment of length zero, `PointToSegmentDistance` returns NaN for both coordinates of the
foot point and NaN for the distance, even if the point is the segment's only point. -/
theorem C42_toSegment_false (p a : ℝ × ℝ) :
    (PointToSegmentDistance (pt p) (pt a) (pt a) 0).1 = .nan ∧ (PointToSegmentDistance (pt a) (pt a) (pt a) 0).2.X = .nan := by
  rw [toSegment_nan _ _ (by decide), toSegment_nan _ _ (by decide)]
  exact ⟨rfl, rfl⟩

/-- **C42 is false in float64 too**: the foot point of (1,2) on the segment from (1,2) to (1,2) has the
coordinate NaN. -/
theorem C42_toSegment_float_false :
    (PointToSegmentDistance (F := Float) ⟨1, 2⟩ ⟨1, 2⟩ ⟨1, 2⟩ 0).2.X.isNaN = true := by decide +kernel

/-- **C42 (partial).** For a segment with different ends, the returned point is on the segment, the returned distance is
its distance from `p`, and no point of the segment is closer.  Missing: segments of length zero
(`C42_toSegment_false`). -/
theorem C42_toSegment_partial (p a b : ℝ × ℝ) (h : a ≠ b) (srid : Int) (hs : srid ≠ 4326) :
    ∃ q, PointToSegmentDistance (pt p) (pt a) (pt b) srid = (.fin (eucl p q), pt q) ∧ OnSeg a b q ∧
      ∀ x, OnSeg a b x → eucl p q ≤ eucl p x :=
  ⟨along a b (clampU p a b), toSegment_fin p a b h hs, ⟨_, (clampU_mem p a b).1, (clampU_mem p a b).2, rfl⟩,
    fun x hx => toSegment_least p a b h x hx⟩

/-- the minimiser is unique, so C42 determines the returned point -/
theorem C42_toSegment_unique (p a b : ℝ × ℝ) (h : a ≠ b) (srid : Int) (hs : srid ≠ 4326) (q : ℝ × ℝ) (hq : OnSeg a b q)
    (hmin : ∀ x, OnSeg a b x → eucl p q ≤ eucl p x) :
    PointToSegmentDistance (pt p) (pt a) (pt b) srid = (.fin (eucl p q), pt q) := by
  rw [toSegment_fin p a b h hs]
  have : along a b (clampU p a b) = q := by
    obtain ⟨t, h0, h1, rfl⟩ := hq
    have e1 := hmin _ ⟨_, (clampU_mem p a b).1, (clampU_mem p a b).2, rfl⟩
    unfold eucl at e1
    rw [Real.sqrt_le_sqrt_iff (by positivity), dist_along p a b h t, dist_along p a b h (clampU p a b)] at e1
    have e2 := clampU_best p a b h0 h1
    have e3 : (t - ufac p a b) ^ 2 = (clampU p a b - ufac p a b) ^ 2 :=
      le_antisymm (le_of_mul_le_mul_left (by linarith) (den_pos h)) e2
    congr 1
    have hm := clampU_mem p a b
    unfold clampU at e3 hm ⊢
    split_ifs at e3 hm ⊢ with g1 g2
    · nlinarith
    · nlinarith
    · rw [sub_self] at e3
      have := pow_eq_zero_iff (two_ne_zero) |>.1 (e3.trans (by norm_num : (0:ℝ)^2 = 0))
      linarith
  rw [this]

/-- C42 on a concrete point beside a segment: the foot of (1,1) on (0,0)–(4,0) is (1,0), at distance 1. -/
example : PointToSegmentDistance (pt ((1:ℝ),(1:ℝ))) (pt (0,0)) (pt (4,0)) 3857 = (.fin 1, pt (1,0)) := by
  rw [C42_toSegment_unique (1,1) (0,0) (4,0) (by simp) 3857 (by decide) (1,0) ⟨1/4, by norm_num, by norm_num, by simp [along]⟩]
  · simp [eucl]
  · rintro x ⟨t, _, _, rfl⟩
    unfold eucl along
    apply Real.sqrt_le_sqrt
    norm_num
    exact sq_nonneg _

/-! ## C72: the distance to the whole line -/

/-- **C72.** `PointToLineDistance` returns the foot of the perpendicular on the line through `a ≠ b`, its parameter
(0 at `a`, 1 at `b`), and the distance to it, which is the least distance to the line. -/
theorem C72_toLine (p a b : ℝ × ℝ) (h : a ≠ b) (srid : Int) (hs : srid ≠ 4326) :
    ∃ (q : ℝ × ℝ) (u : ℝ), PointToLineDistance (pt p) (pt a) (pt b) srid = (.fin (eucl p q), pt q, .fin u) ∧ q = along a b u ∧
      (p.1 - q.1) * (b.1 - a.1) + (p.2 - q.2) * (b.2 - a.2) = 0 ∧ ∀ t, eucl p q ≤ eucl p (along a b t) := by
  refine ⟨along a b (ufac p a b), ufac p a b, ?_, rfl, ?_, ?_⟩
  · unfold PointToLineDistance
    rw [footFactor_fin _ _ _ h]
    simp only [footPoint_fin, pointDistance_fin _ _ hs]
  · have hd := (den_pos h).ne'
    have hu : ufac p a b * ((b.1 - a.1) * (b.1 - a.1) + (b.2 - a.2) * (b.2 - a.2)) =
        (p.1 - a.1) * (b.1 - a.1) + (p.2 - a.2) * (b.2 - a.2) := by
      unfold ufac; rw [div_mul_cancel₀ _ hd]
    simp only [along]
    linear_combination -hu
  · intro t
    unfold eucl
    apply Real.sqrt_le_sqrt
    rw [dist_along p a b h t]
    have := mul_nonneg (den_pos h).le (sq_nonneg (t - ufac p a b))
    linarith

/-- C72 on a concrete point beyond the end of the segment (0,0)–(4,0): the parameter is 3/2. -/
example : PointToLineDistance (pt ((6:ℝ),(1:ℝ))) (pt (0,0)) (pt (4,0)) 3857 = (.fin 1, pt (6,0), .fin (3/2)) := by
  obtain ⟨q, u, h1, h2, h3, _⟩ := C72_toLine (6,1) (0,0) (4,0) (by simp) 3857 (by decide)
  have hu : u = 3/2 := by
    rw [h2] at h3; simp only [along] at h3; linarith
  have hq : q = (6, 0) := by rw [h2, hu]; simp [along]; norm_num
  rw [h1, hq, hu]
  simp [eucl]

/-! ## C43 -/

/-- **C43 (every arithmetic with an order on its non-NaN values, float64 included).** Either no segment is closer than 2^31 and the answer is the initial
one, or the returned index is that of a segment of the line whose distance and foot point are returned, no other segment has a
smaller distance, and no segment before it has a distance as small. -/
theorem C43_hit_first {F : Type} [GoMath F] [FloatOrd F] (p : Point F) (line : List (Point F)) (srid : Int) :
    let D := fun a b => PointToSegmentDistance p a b srid
    (PointHitLineString p line srid = (⟨lit 0, lit 0⟩, 0, INF) ∧
      ∀ (i : Nat) (a b : Point F), line[i]? = some a → line[i+1]? = some b → lt (D a b).1 INF = false) ∨
    ∃ (i : Nat) (a b : Point F), line[i]? = some a ∧ line[i+1]? = some b ∧ PointHitLineString p line srid = ((D a b).2, i, (D a b).1) ∧
      lt (D a b).1 INF = true ∧
      (∀ (j : Nat) (c d : Point F), line[j]? = some c → line[j+1]? = some d → lt (D c d).1 (D a b).1 = false) ∧
      (∀ (j : Nat) (c d : Point F), j < i → line[j]? = some c → line[j+1]? = some d → le (D c d).1 (D a b).1 = false) := by
  intro D
  unfold PointHitLineString
  have hm : ∀ (i : Nat) (a b : Point F), line[i]? = some a → line[i+1]? = some b → (a, b) ∈ edges line := by
    intro i a b h1 h2
    exact List.mem_of_getElem? ((edges_getElem? line i (a, b)).2 ⟨h1, h2⟩)
  rcases hitLoop_spec p srid (edges line) 0 (⟨lit 0, lit 0⟩, 0, INF) with ⟨h1, h2⟩ | ⟨k, e, h1, h2, h3, h4, h5⟩
  · left
    exact ⟨h1, fun i a b ha hb => h2 (a, b) (hm i a b ha hb)⟩
  · right
    obtain ⟨a, b⟩ := e
    obtain ⟨ha, hb⟩ := (edges_getElem? line k (a, b)).1 h1
    refine ⟨k, a, b, ha, hb, by rw [h2, Nat.zero_add], h3, ?_, ?_⟩
    · intro j c d hc hd
      exact h4 (c, d) (hm j c d hc hd)
    · intro j c d hj hc hd
      exact h5 j (c, d) hj ((edges_getElem? line j (c, d)).2 ⟨hc, hd⟩)

theorem float_not_lt {a b : Float} (h : GoFloat.lt a b = false) : ¬ a < b := fun h' => by
  have : GoFloat.lt a b = true := h'
  rw [h] at this; cases this

theorem float_not_le {a b : Float} (h : GoFloat.le a b = false) : ¬ a ≤ b := fun h' => by
  have : GoFloat.le a b = true := h'
  rw [h] at this; cases this

/-- **C43 (float64).** The instance of `C43_hit_first` for Go's numbers. -/
theorem C43_hit_first_float (p : Point Float) (line : List (Point Float)) (srid : Int) :
    let D := fun a b => PointToSegmentDistance p a b srid
    (PointHitLineString p line srid = (⟨0, 0⟩, 0, INF) ∧
      ∀ (i : Nat) (a b : Point Float), line[i]? = some a → line[i+1]? = some b → ¬ (D a b).1 < (INF : Float)) ∨
    ∃ (i : Nat) (a b : Point Float), line[i]? = some a ∧ line[i+1]? = some b ∧ PointHitLineString p line srid = ((D a b).2, i, (D a b).1) ∧
      (∀ (j : Nat) (c d : Point Float), line[j]? = some c → line[j+1]? = some d → ¬ (D c d).1 < (D a b).1) ∧
      (∀ (j : Nat) (c d : Point Float), j < i → line[j]? = some c → line[j+1]? = some d → ¬ (D c d).1 ≤ (D a b).1) := by
  intro D
  rcases C43_hit_first p line srid with ⟨h1, h2⟩ | ⟨i, a, b, ha, hb, h1, h2, h3, h4⟩
  · left
    exact ⟨h1, fun i a b ha hb => float_not_lt (h2 i a b ha hb)⟩
  · right
    exact ⟨i, a, b, ha, hb, h1, fun j c d hc hd => float_not_lt (h3 j c d hc hd),
      fun j c d hj hc hd => float_not_le (h4 j c d hj hc hd)⟩

theorem edge_of_mem {α : Type} {l : List α} {e : α × α} (h : e ∈ edges l) : ∃ i : Nat, l[i]? = some e.1 ∧ l[i+1]? = some e.2 := by
  obtain ⟨i, hi⟩ := List.mem_iff_getElem?.1 h
  exact ⟨i, (edges_getElem? l i e).1 hi⟩

theorem INF_fin : (INF : XR ℝ) = .fin (2 ^ 31) := by
  show (lit (2 ^ 31) : XR ℝ) = _
  rw [XR.fin_lit]; norm_num

/-- **C43 (exact arithmetic).** If some segment of the line is not degenerate and has a point closer than 2^31, the returned point is on the segment
with the returned index, the returned distance is its distance from `p`, no point of the line is closer, and
every point of an earlier segment is strictly farther unless it is shared with a degenerate segment. -/
theorem C43_hit_nearest (p : ℝ × ℝ) (line : List (ℝ × ℝ)) (srid : Int) (hs : srid ≠ 4326)
    (hnear : ∃ e ∈ segments line, e.1 ≠ e.2 ∧ ∃ x, OnSeg e.1 e.2 x ∧ eucl p x < 2 ^ 31) :
    ∃ (i : Nat) (a b q : ℝ × ℝ), line[i]? = some a ∧ line[i+1]? = some b ∧ OnSeg a b q ∧
      PointHitLineString (pt p) (line.map pt) srid = (pt q, i, .fin (eucl p q)) ∧
      (∀ e ∈ segments line, ∀ x, OnSeg e.1 e.2 x → eucl p q ≤ eucl p x) ∧
      (∀ (j : Nat) (c d : ℝ × ℝ), j < i → line[j]? = some c → line[j+1]? = some d → c ≠ d → ∀ x, OnSeg c d x → eucl p q < eucl p x) := by
  simp only [segments_eq] at *
  have hget : ∀ (i : Nat) (a : ℝ × ℝ), line[i]? = some a → (line.map pt)[i]? = some (pt a) := by
    intro i a h; rw [List.getElem?_map, h]; rfl
  have hget' : ∀ (i : Nat) (A : Point (XR ℝ)), (line.map pt)[i]? = some A → ∃ a, line[i]? = some a ∧ pt a = A := by
    intro i A h; rw [List.getElem?_map] at h; simpa using h
  rcases C43_hit_first (pt p) (line.map pt) srid with ⟨h1, h2⟩ | ⟨i, A, B, hA, hB, h1, h2, h3, h4⟩
  · exfalso
    obtain ⟨e, he, hne, x, hx, hxl⟩ := hnear
    obtain ⟨i, g1, g2⟩ := edge_of_mem he
    have := h2 i _ _ (hget _ _ g1) (hget _ _ g2)
    simp only [toSegment_fin p e.1 e.2 hne hs, INF_fin, XR.fin_lt, decide_eq_false_iff_not, not_lt] at this
    have := toSegment_least p e.1 e.2 hne x hx
    linarith
  · obtain ⟨a, ha, rfl⟩ := hget' _ _ hA
    obtain ⟨b, hb, rfl⟩ := hget' _ _ hB
    have hab : a ≠ b := by
      rintro rfl
      simp only [toSegment_nan _ _ hs] at h2
      cases h2
    simp only [toSegment_fin p a b hab hs] at h1 h2 h3 h4
    have hall : ∀ e ∈ edges line, e.1 ≠ e.2 → ∀ x, OnSeg e.1 e.2 x → eucl p (along a b (clampU p a b)) ≤ eucl p x := by
      intro e he hne x hx
      obtain ⟨j, g1, g2⟩ := edge_of_mem he
      have := h3 j _ _ (hget _ _ g1) (hget _ _ g2)
      simp only [toSegment_fin p e.1 e.2 hne hs, XR.fin_lt, decide_eq_false_iff_not, not_lt] at this
      exact this.trans (toSegment_least p e.1 e.2 hne x hx)
    refine ⟨i, a, b, along a b (clampU p a b), ha, hb, ⟨_, (clampU_mem p a b).1, (clampU_mem p a b).2, rfl⟩, h1, ?_, ?_⟩
    · intro e he x hx
      obtain ⟨f, hf, hfn, hfx⟩ := degenerate_covered line ⟨(a, b), List.mem_of_getElem? ((edges_getElem? line i (a, b)).2 ⟨ha, hb⟩), hab⟩ e he x hx
      exact hall f hf hfn x hfx
    · intro j c d hj hc hd hcd x hx
      have := h4 j _ _ hj (hget _ _ hc) (hget _ _ hd)
      simp only [toSegment_fin p c d hcd hs, XR.fin_le, decide_eq_false_iff_not, not_le] at this
      exact this.trans_le (toSegment_least p c d hcd x hx)

/-- the hypothesis of `C43_hit_nearest` on a line with a repeated vertex -/
example : ∃ e ∈ segments [((0:ℝ),(0:ℝ)), (0,0), (4,0)], e.1 ≠ e.2 ∧ ∃ x, OnSeg e.1 e.2 x ∧ eucl (1,1) x < 2 ^ 31 :=
  ⟨((0,0),(4,0)), by simp [segments], by simp, (1,0), ⟨1/4, by norm_num, by norm_num, by simp [along]⟩, by norm_num [eucl]⟩

/-! ## C44 -/

/-- **C44 (symmetry, float64).** `EuclideanDis` and `EuclideanDistance` return the very same float64 when the points are exchanged, for all points. -/
theorem C44_symm_float (p q : Point Float) : EuclideanDis p q = EuclideanDis q p ∧ EuclideanDistance p q = EuclideanDistance q p := by
  have h1 : (p.X - q.X) * (p.X - q.X) = (q.X - p.X) * (q.X - p.X) := float_sub_sq _ _
  have h2 : (p.Y - q.Y) * (p.Y - q.Y) = (q.Y - p.Y) * (q.Y - p.Y) := float_sub_sq _ _
  unfold EuclideanDis EuclideanDistance
  constructor <;> exact congrArg GoSqrt.sqrt (congrArg₂ (· + ·) h1 h2)

theorem euclidDis_fin (p q : ℝ × ℝ) : EuclideanDis (pt p) (pt q) = .fin (eucl p q) := euclid_fin p q

/-- **C44 (metric).** In exact arithmetic the distance of two points is the Euclidean distance; it is never negative, zero exactly for equal points,
symmetric, and satisfies the triangle inequality. -/
theorem C44_metric (p q r : ℝ × ℝ) :
    EuclideanDis (pt p) (pt q) = .fin (eucl p q) ∧ EuclideanDistance (pt p) (pt q) = .fin (eucl p q) ∧
    0 ≤ eucl p q ∧ (eucl p q = 0 ↔ p = q) ∧ eucl p q = eucl q p ∧ eucl p r ≤ eucl p q + eucl q r :=
  ⟨euclid_fin p q, euclid_fin p q, eucl_nonneg p q, eucl_eq_zero, eucl_comm p q, eucl_triangle p q r⟩

/-- C44 on concrete points. -/
example : EuclideanDis (pt ((1:ℝ),(1:ℝ))) (pt (4,5)) = .fin 5 := by
  rw [(C44_metric (1,1) (4,5) (0,0)).1]
  congr 1
  unfold eucl
  rw [show ((1:ℝ) - 4)^2 + (1 - 5)^2 = 5^2 by norm_num, Real.sqrt_sq (by norm_num)]

/-- **C44 is false for `EuclideanDisZ`**, whatever the arithmetic: the second point has no influence on the result, so it is no distance. -/
theorem C44_disZ_ignores_second {F : Type} [GoSqrt F] (p q r : PointZ F) : EuclideanDisZ p q = EuclideanDisZ p r := rfl

/-- **C44 is false for `EuclideanDisZ`**: (3,0,4) has the distance 5 from itself, and (0,0,0) has the distance 0 from (3,0,4). -/
theorem C44_disZ_false :
    EuclideanDisZ (F := XR ℝ) ⟨.fin 3, .fin 0, .fin 4⟩ ⟨.fin 3, .fin 0, .fin 4⟩ = .fin 5 ∧
    EuclideanDisZ (F := XR ℝ) ⟨.fin 0, .fin 0, .fin 0⟩ ⟨.fin 3, .fin 0, .fin 4⟩ = .fin 0 := by
  unfold EuclideanDisZ
  simp only [XR.fin_mul, XR.fin_add]
  constructor
  · show XR.sqrt _ = _
    unfold XR.sqrt
    simp only
    rw [if_neg (by norm_num), show (3:ℝ) * 3 + 0 * 0 + 4 * 4 = 5^2 by norm_num, Real.sqrt_sq (by norm_num)]
  · show XR.sqrt _ = _
    unfold XR.sqrt
    simp

/-- **C44 (partial, three dimensions).** `EuclideanDisZ` is the distance of the first point from the origin, so it is right when
the second point is the origin.  Missing: every other second point. -/
theorem C44_disZ_partial (x y z : ℝ) (q : PointZ (XR ℝ)) :
    EuclideanDisZ ⟨.fin x, .fin y, .fin z⟩ q = .fin √(x ^ 2 + y ^ 2 + z ^ 2) := by
  unfold EuclideanDisZ
  simp only [XR.fin_mul, XR.fin_add]
  show XR.sqrt _ = _
  unfold XR.sqrt
  simp only
  rw [if_neg (by nlinarith [mul_self_nonneg x, mul_self_nonneg y, mul_self_nonneg z]), ← pow_two, ← pow_two, ← pow_two]

/-! ## C45 -/

/-- the length of a line is the sum of the distances of consecutive points -/
theorem length_fin (l : List (ℝ × ℝ)) : LineLength (l.map pt) = .fin (((edges l).map fun e => eucl e.1 e.2).sum) := by
  induction l with
  | nil => show lit 0 = _; rw [XR.fin_lit]; simp [edges]
  | cons a l ih =>
    cases l with
    | nil => show lit 0 = _; rw [XR.fin_lit]; simp [edges]
    | cons b l =>
      have := length_cons_cons (pt a) (pt b) (l.map pt)
      rw [List.map_cons, List.map_cons, this, euclidDis_fin]
      rw [List.map_cons] at ih
      rw [ih, edges, List.map_cons, List.sum_cons]
      rfl

theorem length_ne_zero {l : List (ℝ × ℝ)} (h : ∃ e ∈ edges l, e.1 ≠ e.2) : eq (LineLength (l.map pt)) (lit 0) = false := by
  rw [length_fin, XR.fin_lit, XR.fin_eq]
  simp only [Nat.cast_zero, decide_eq_false_iff_not]
  obtain ⟨e, he, hne⟩ := h
  have hpos : 0 < eucl e.1 e.2 := lt_of_le_of_ne (eucl_nonneg _ _) (fun h => hne (eucl_eq_zero.1 h.symm))
  have : eucl e.1 e.2 ≤ ((edges l).map fun e => eucl e.1 e.2).sum :=
    List.single_le_sum (by
      intro x hx
      obtain ⟨f, _, rfl⟩ := List.mem_map.1 hx
      exact eucl_nonneg _ _) _ (List.mem_map.2 ⟨e, he, rfl⟩)
  linarith

/-- **C45.** For lines of any number of points that do not stay at one point, all of whose distances are below 2^31, `HausdorffDistance` is the discrete
Hausdorff distance of their points: the least `d` such that every point of each line is within `d` of a point of the other. -/
theorem C45_hausdorff (l m : List (ℝ × ℝ)) (srid : Int) (hs : srid ≠ 4326) (hl : ∃ e ∈ segments l, e.1 ≠ e.2)
    (hm : ∃ e ∈ segments m, e.1 ≠ e.2) (hlt : ∀ p ∈ l, ∀ q ∈ m, eucl p q < 2 ^ 31) :
    ∃ d, HausdorffDistance (l.map pt) (m.map pt) srid = .fin d ∧ IsHausdorff l m d := by
  simp only [segments_eq] at hl hm
  unfold HausdorffDistance
  rw [length_ne_zero hl, length_ne_zero hm]
  simp only [Bool.or_false, Bool.false_eq_true, if_false]
  have hl0 : l ≠ [] := by rintro rfl; simp [edges] at hl
  have hm0 : m ≠ [] := by rintro rfl; simp [edges] at hm
  obtain ⟨R, h1, h2, h3, h4⟩ := hausdorffPass_fin hs l m hm0 hlt 0
  obtain ⟨S, g1, g2, g3, g4⟩ := hausdorffPass_fin hs m l hl0 (fun q hq p hp => by rw [eucl_comm]; exact hlt p hp q hq) R
  rw [XR.fin_lit, Nat.cast_zero, h1, g1]
  refine ⟨S, rfl, ⟨by linarith, ?_, ?_⟩, ?_⟩
  · intro p hp
    obtain ⟨q, hq, h⟩ := h3 p hp
    exact ⟨q, hq, h.trans g2⟩
  · intro q hq
    obtain ⟨p, hp, h⟩ := g3 q hq
    exact ⟨p, hp, by rw [eucl_comm]; exact h⟩
  · rintro d ⟨hd0, hd1, hd2⟩
    have hR : R ≤ d := by
      rcases h4 with h4 | ⟨p, hp, h⟩
      · rw [h4]; exact hd0
      · obtain ⟨q, hq, hpq⟩ := hd1 p hp
        exact (h q hq).trans hpq
    rcases g4 with g4 | ⟨q, hq, h⟩
    · rw [g4]; exact hR
    · obtain ⟨p, hp, hpq⟩ := hd2 q hq
      rw [eucl_comm] at hpq
      exact (h p hp).trans hpq

/-- **C45 (symmetry).** -/
theorem C45_hausdorff_symm (l m : List (ℝ × ℝ)) (srid : Int) (hs : srid ≠ 4326) (hl : ∃ e ∈ segments l, e.1 ≠ e.2)
    (hm : ∃ e ∈ segments m, e.1 ≠ e.2) (hlt : ∀ p ∈ l, ∀ q ∈ m, eucl p q < 2 ^ 31) :
    HausdorffDistance (l.map pt) (m.map pt) srid = HausdorffDistance (m.map pt) (l.map pt) srid := by
  obtain ⟨d, h1, h2⟩ := C45_hausdorff l m srid hs hl hm hlt
  obtain ⟨d', h1', h2'⟩ := C45_hausdorff m l srid hs hm hl (fun q hq p hp => by rw [eucl_comm]; exact hlt p hp q hq)
  rw [h1, h1']
  have : {d | 0 ≤ d ∧ (∀ p ∈ l, ∃ q ∈ m, eucl p q ≤ d) ∧ (∀ q ∈ m, ∃ p ∈ l, eucl p q ≤ d)} =
      {d | 0 ≤ d ∧ (∀ p ∈ m, ∃ q ∈ l, eucl p q ≤ d) ∧ (∀ q ∈ l, ∃ p ∈ m, eucl p q ≤ d)} := by
    ext d
    constructor
    · rintro ⟨h0, h1, h2⟩
      exact ⟨h0, fun p hp => by obtain ⟨q, hq, h⟩ := h2 p hp; exact ⟨q, hq, by rw [eucl_comm]; exact h⟩,
        fun p hp => by obtain ⟨q, hq, h⟩ := h1 p hp; exact ⟨q, hq, by rw [eucl_comm]; exact h⟩⟩
    · rintro ⟨h0, h1, h2⟩
      exact ⟨h0, fun p hp => by obtain ⟨q, hq, h⟩ := h2 p hp; exact ⟨q, hq, by rw [eucl_comm]; exact h⟩,
        fun p hp => by obtain ⟨q, hq, h⟩ := h1 p hp; exact ⟨q, hq, by rw [eucl_comm]; exact h⟩⟩
  unfold IsHausdorff at h2 h2'
  rw [this] at h2
  rw [h2.unique h2']

/-- **C45 (zero).** The distance is zero exactly when the two lines have the same set of points. -/
theorem C45_hausdorff_zero (l m : List (ℝ × ℝ)) (srid : Int) (hs : srid ≠ 4326) (hl : ∃ e ∈ segments l, e.1 ≠ e.2)
    (hm : ∃ e ∈ segments m, e.1 ≠ e.2) (hlt : ∀ p ∈ l, ∀ q ∈ m, eucl p q < 2 ^ 31) :
    HausdorffDistance (l.map pt) (m.map pt) srid = .fin 0 ↔ ∀ p, p ∈ l ↔ p ∈ m := by
  obtain ⟨d, h1, ⟨h2, h3, h4⟩, h5⟩ := C45_hausdorff l m srid hs hl hm hlt
  rw [h1]
  constructor
  · intro h
    have hd : d = 0 := by injection h
    subst hd
    intro p
    constructor
    · intro hp
      obtain ⟨q, hq, h⟩ := h3 p hp
      rw [eucl_eq_zero.1 (le_antisymm h (eucl_nonneg _ _))]; exact hq
    · intro hp
      obtain ⟨q, hq, h⟩ := h4 p hp
      rw [← eucl_eq_zero.1 (le_antisymm h (eucl_nonneg _ _))]; exact hq
  · intro h
    have : d ≤ 0 := h5 ⟨le_rfl, fun p hp => ⟨p, (h p).1 hp, (eucl_eq_zero.2 rfl).le⟩, fun p hp => ⟨p, (h p).2 hp, (eucl_eq_zero.2 rfl).le⟩⟩
    rw [le_antisymm this h2]

/-- **C45 (triangle inequality).** -/
theorem C45_hausdorff_triangle (l m n : List (ℝ × ℝ)) (srid : Int) (hs : srid ≠ 4326) (hl : ∃ e ∈ segments l, e.1 ≠ e.2)
    (hm : ∃ e ∈ segments m, e.1 ≠ e.2) (hn : ∃ e ∈ segments n, e.1 ≠ e.2) (h1 : ∀ p ∈ l, ∀ q ∈ m, eucl p q < 2 ^ 31)
    (h2 : ∀ p ∈ m, ∀ q ∈ n, eucl p q < 2 ^ 31) (h3 : ∀ p ∈ l, ∀ q ∈ n, eucl p q < 2 ^ 31) :
    ∃ a b d, HausdorffDistance (l.map pt) (m.map pt) srid = .fin a ∧ HausdorffDistance (m.map pt) (n.map pt) srid = .fin b ∧
      HausdorffDistance (l.map pt) (n.map pt) srid = .fin d ∧ d ≤ a + b := by
  obtain ⟨a, ea, ⟨a0, al, am⟩, -⟩ := C45_hausdorff l m srid hs hl hm h1
  obtain ⟨b, eb, ⟨b0, bm, bn⟩, -⟩ := C45_hausdorff m n srid hs hm hn h2
  obtain ⟨d, ed, -, hd⟩ := C45_hausdorff l n srid hs hl hn h3
  refine ⟨a, b, d, ea, eb, ed, hd ⟨add_nonneg a0 b0, fun p hp => ?_, fun q hq => ?_⟩⟩
  · obtain ⟨x, hx, h⟩ := al p hp
    obtain ⟨q, hq, h'⟩ := bm x hx
    exact ⟨q, hq, (eucl_triangle p x q).trans (add_le_add h h')⟩
  · obtain ⟨x, hx, h⟩ := bn q hq
    obtain ⟨p, hp, h'⟩ := am x hx
    exact ⟨p, hp, (eucl_triangle p x q).trans (add_le_add h' h)⟩

/-- C45 on concrete lines: traversed in the opposite direction with a repeated point, the distance is zero. -/
example : HausdorffDistance ([((0:ℝ),(0:ℝ)), (1,0), (2,0)].map pt) ([((2:ℝ),(0:ℝ)), (1,0), (0,0), (1,0)].map pt) 3857 = .fin 0 := by
  rw [C45_hausdorff_zero _ _ _ (by decide) ⟨((0,0),(1,0)), by simp [segments], by simp⟩ ⟨((2,0),(1,0)), by simp [segments], by simp⟩]
  · intro p; simp; tauto
  · have h1 : ∀ x : ℝ, |x| ≤ 2 → √(x ^ 2) < 2 ^ 31 := by
      intro x hx; rw [Real.sqrt_sq_eq_abs]; linarith [show (2:ℝ) < 2 ^ 31 by norm_num]
    intro p hp q hq
    simp at hp hq
    unfold eucl
    rcases hp with rfl | rfl | rfl <;> rcases hq with rfl | rfl | rfl | rfl <;> norm_num <;>
      (rw [Real.sqrt_lt' (by norm_num)]; norm_num)

/-! ## C73: the distance to a polygon -/

theorem polyDist_fin (p : ℝ × ℝ) {srid : Int} (hs : srid ≠ 4326) (es : List ((ℝ × ℝ) × (ℝ × ℝ))) (M : ℝ) :
    ∃ r, polyDistLoop (pt p) srid (.fin M) (es.map (Prod.map pt pt)) = .fin r ∧
      (∀ e ∈ es, e.1 ≠ e.2 → ∀ x, OnSeg e.1 e.2 x → r ≤ eucl p x) ∧ r ≤ M ∧ (r = M ∨ ∃ e ∈ es, ∃ x, OnSeg e.1 e.2 x ∧ r = eucl p x) := by
  induction es generalizing M with
  | nil => exact ⟨M, rfl, by simp, le_rfl, Or.inl rfl⟩
  | cons e es ih =>
    obtain ⟨a, b⟩ := e
    rw [List.map_cons]
    show ∃ r, polyDistLoop (pt p) srid (if lt (PointToSegmentDistance (pt p) (pt a) (pt b) srid).1 (.fin M) then _ else _) _ = _ ∧ _
    by_cases hab : a = b
    · subst hab
      rw [toSegment_nan _ _ hs]
      obtain ⟨r, h1, h2, h3, h4⟩ := ih M
      refine ⟨r, h1, ?_, h3, ?_⟩
      · intro e he hne
        rcases List.mem_cons.1 he with rfl | he
        · exact absurd rfl hne
        · exact h2 e he hne
      · rcases h4 with h4 | ⟨e, he, h4⟩
        · exact Or.inl h4
        · exact Or.inr ⟨e, List.mem_cons_of_mem _ he, h4⟩
    · rw [toSegment_fin _ _ _ hab hs]
      simp only [XR.fin_lt, decide_eq_true_eq]
      by_cases h : eucl p (along a b (clampU p a b)) < M
      · rw [if_pos h]
        obtain ⟨r, h1, h2, h3, h4⟩ := ih (eucl p (along a b (clampU p a b)))
        refine ⟨r, h1, ?_, by linarith, ?_⟩
        · intro e he hne x hx
          rcases List.mem_cons.1 he with rfl | he
          · exact h3.trans (toSegment_least _ _ _ hab x hx)
          · exact h2 e he hne x hx
        · right
          rcases h4 with h4 | ⟨e, he, h4⟩
          · exact ⟨(a, b), List.mem_cons_self, _, ⟨_, (clampU_mem p a b).1, (clampU_mem p a b).2, rfl⟩, h4⟩
          · exact ⟨e, List.mem_cons_of_mem _ he, h4⟩
      · rw [if_neg h]
        obtain ⟨r, h1, h2, h3, h4⟩ := ih M
        refine ⟨r, h1, ?_, h3, ?_⟩
        · intro e he hne x hx
          rcases List.mem_cons.1 he with rfl | he
          · exact (h3.trans (not_lt.1 h)).trans (toSegment_least _ _ _ hab x hx)
          · exact h2 e he hne x hx
        · rcases h4 with h4 | ⟨e, he, h4⟩
          · exact Or.inl h4
          · exact Or.inr ⟨e, List.mem_cons_of_mem _ he, h4⟩

theorem cyc_ring (c : List (ℝ × ℝ)) (hc : c ≠ []) : cyc (ring c) = (sides c).map (Prod.map pt pt) := by
  obtain ⟨x, hx⟩ := ring_eq c hc
  rw [hx, cyc_append, ← List.map_rotate, List.zip_map]
  rfl

/-- **C73 (boundary).** If the polygon is reported to be disjoint from `p`, `PointPolygonDistance` is the least distance of `p` to a point of the
exterior boundary, provided the boundary has a side that is not a single point and comes closer than 2^31. -/
theorem C73_polygon_boundary (p : ℝ × ℝ) (c : List (ℝ × ℝ)) (holes : List (List (Point (XR ℝ)))) (srid : Int) (hs : srid ≠ 4326)
    (hd : IsPointInPolygon (pt p) (ring c :: holes) = .disjoint)
    (hnear : ∃ e ∈ sides c, e.1 ≠ e.2 ∧ ∃ x, OnSeg e.1 e.2 x ∧ eucl p x < 2 ^ 31) :
    ∃ d, PointPolygonDistance (pt p) (ring c :: holes) srid = .fin d ∧ IsLeast {d | ∃ e ∈ sides c, ∃ x, OnSeg e.1 e.2 x ∧ d = eucl p x} d := by
  unfold PointPolygonDistance
  rw [hd]
  have hc : c ≠ [] := by rintro rfl; simp [sides] at hnear
  have e1 : (Rela.disjoint == Rela.contain || Rela.disjoint == Rela.touch) = false := rfl
  rw [e1, INF_fin]
  simp only [Bool.false_eq_true, if_false, GetExteriorRing]
  show ∃ d, polyDistLoop (pt p) srid (.fin (2 ^ 31)) (cyc (ring c)) = _ ∧ _
  rw [cyc_ring c hc]
  obtain ⟨r, h1, h2, h3, h4⟩ := polyDist_fin p hs (sides c) (2 ^ 31)
  refine ⟨r, h1, ?_, ?_⟩
  · rcases h4 with h4 | h4
    · exfalso
      obtain ⟨e, he, hne, x, hx, hlt⟩ := hnear
      have := h2 e he hne x hx
      linarith
    · exact h4
  · rintro d ⟨e, he, x, hx, rfl⟩
    rw [← edges_closed] at he h2 hnear
    obtain ⟨e0, he0, hne0, _⟩ := hnear
    obtain ⟨f, hf, hfn, hfx⟩ := degenerate_covered _ ⟨e0, he0, hne0⟩ e he x hx
    exact h2 f hf hfn x hfx

/-- **C73 (inside).** If the polygon is reported to contain or touch `p`, the distance is zero. -/
theorem C73_polygon_inside {F : Type} [GoMath F] (p : Point F) (poly : List (List (Point F))) (srid : Int)
    (h : IsPointInPolygon p poly = .contain ∨ IsPointInPolygon p poly = .touch) : PointPolygonDistance p poly srid = lit 0 := by
  unfold PointPolygonDistance
  rcases h with h | h <;> rw [h] <;> rfl

/-- **C73 (convex polygons).** For a strictly convex ring and a point other than the origin, clear of the boundary by 1e-6, the distance is zero
if the point is inside, and otherwise the distance to the nearest boundary point. -/
theorem C73_convex (c : List (ℝ × ℝ)) (hc : StrictlyConvex c) (p : ℝ × ℝ) (holes : List (List (Point (XR ℝ)))) (srid : Int) (hs : srid ≠ 4326)
    (hx : ClearX c p) (hy : ClearY c p) (h0 : p ≠ (0, 0)) (hnear : ∃ e ∈ sides c, e.1 ≠ e.2 ∧ ∃ x, OnSeg e.1 e.2 x ∧ eucl p x < 2 ^ 31) :
    (InsideConvex c p → PointPolygonDistance (pt p) (ring c :: holes) srid = .fin 0) ∧
    (OutsideConvex c p → ∃ d, PointPolygonDistance (pt p) (ring c :: holes) srid = .fin d ∧
      IsLeast {d | ∃ e ∈ sides c, ∃ x, OnSeg e.1 e.2 x ∧ d = eucl p x} d) := by
  have h := C38_convex_partial c hc p hx hy h0 holes
  refine ⟨fun hp => ?_, fun hp => C73_polygon_boundary p c holes srid hs (h.2 hp) hnear⟩
  rw [C73_polygon_inside _ _ _ (Or.inl (h.1 hp)), XR.fin_lit, Nat.cast_zero]

/-- C73 on a concrete square and a point to its right. -/
example : ∃ d, PointPolygonDistance (pt ((5:ℝ),(1:ℝ))) [ring [(1,0), (3,0), (3,2), (1,2)]] 3857 = .fin d ∧ d ≤ 2 := by
  have hs : sides [((1:ℝ),(0:ℝ)), (3,0), (3,2), (1,2)] = [((1,0),(3,0)), ((3,0),(3,2)), ((3,2),(1,2)), ((1,2),(1,0))] := rfl
  have hon : OnSeg ((3:ℝ),(0:ℝ)) (3,2) (3,1) := ⟨1/2, by norm_num, by norm_num, by simp [along]⟩
  have hd : eucl (5,1) (3,1) = 2 := by
    unfold eucl; rw [show ((5:ℝ) - 3)^2 + (1 - 1)^2 = 2^2 by norm_num, Real.sqrt_sq (by norm_num)]
  have hin : IsPointInPolygon (pt ((5:ℝ),(1:ℝ))) [ring [(1,0), (3,0), (3,2), (1,2)]] = .disjoint := by
    rw [C38_rectangle 1 3 0 2 (by norm_num) (by norm_num) (5,1) (by simp)]
    rw [if_neg]
    rintro ⟨_, h, _⟩
    simp only [eps] at h; norm_num at h
  obtain ⟨d, h1, h2⟩ := C73_polygon_boundary (5,1) [(1,0), (3,0), (3,2), (1,2)] [] 3857 (by decide) hin
    ⟨((3,0),(3,2)), by rw [hs]; simp, by simp, (3,1), hon, by rw [hd]; norm_num⟩
  exact ⟨d, h1, by rw [← hd]; exact h2.2 ⟨((3,0),(3,2)), by rw [hs]; simp, (3,1), hon, rfl⟩⟩

end GoGeo
