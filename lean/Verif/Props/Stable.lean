import Verif.Props.SimpleDistance
import Verif.Props.SimplifyCurve

/-!
# C152: small movements make small changes

Float64, planar SRIDs. Distances and lengths change by no more than the points are moved, apart from the rounding errors of C103–C105 and C145.
-/

set_option linter.unusedSectionVars false

namespace GoGeo
open GoFloat Spec FloatVal

namespace Spec

/-- the two lists have the same length, and the points at equal places are at most `ε` apart -/
def Moved (ε : ℝ) (l m : List (ℚ × ℚ)) : Prop := List.Forall₂ (fun x y => eucl (real x) (real y) ≤ ε) l m

end Spec

theorem Spec.Moved.symm {ε : ℝ} {l m : List (ℚ × ℚ)} (h : Moved ε l m) : Moved ε m l := by
  unfold Moved at *
  exact List.Forall₂.flip (h.imp fun x y hxy => by rwa [eucl_comm] at hxy)

/-- one half of the comparison of two values computed with errors -/
theorem abs_of_close {d d' δ δ' e m : ℝ} (h : |d - δ| ≤ e) (h' : |d' - δ'| ≤ e) (h1 : δ ≤ δ' + m) (h2 : δ' ≤ δ + m) : |d - d'| ≤ m + 2 * e := by
  rw [abs_le] at *
  constructor <;> linarith [h.1, h.2, h'.1, h'.2]

/-- the distance to a segment: the point by `μ`, the ends by `ε` -/
theorem seg_moved {μ ε : ℝ} {x x' y y' z z' t : ℝ × ℝ} (hx : eucl x x' ≤ μ) (hy : eucl y y' ≤ ε) (hz : eucl z z' ≤ ε) (ht : OnSeg y z t) :
    ∃ t', OnSeg y' z' t' ∧ eucl x' t' ≤ eucl x t + (μ + ε) := by
  obtain ⟨s, s0, s1, rfl⟩ := ht
  refine ⟨along y' z' s, ⟨s, s0, s1, rfl⟩, ?_⟩
  have h1 := eucl_along_le s0 s1 hy hz
  have h2 := eucl_triangle x' x (along y z s)
  have h3 := eucl_triangle x' (along y z s) (along y' z' s)
  rw [eucl_comm x' x] at h2
  linarith

/-- **C152, distance to a segment.** If the point moves by at most `μ` and the ends of the segment by at most `ε`, the computed distance changes by at most
`μ + ε`, up to the rounding errors of the two computations. -/
theorem C152_toSegment {p a b p' a' b' : Point Float} {x y z x' y' z' : ℚ × ℚ} {M : ℚ} {μ ε : ℝ} (hp : At p x) (ha : At a y) (hb : At b z)
    (hp' : At p' x') (ha' : At a' y') (hb' : At b' z') (bx : Within M x) (by' : Within M y) (bz : Within M z) (bx' : Within M x') (byy : Within M y') (bzz : Within M z')
    (h1 : 1 ≤ M) (h2 : M ≤ 2 ^ 99) (hL : 1 / 2 ^ 40 ≤ eucl (real y) (real z)) (hL' : 1 / 2 ^ 40 ≤ eucl (real y') (real z'))
    (mx : eucl (real x) (real x') ≤ μ) (my : eucl (real y) (real y') ≤ ε) (mz : eucl (real z) (real z') ≤ ε) (srid : Int) (hs : srid ≠ 4326) :
    ∃ d d' : ℚ, val (PointToSegmentDistance p a b srid).1 = .fin d ∧ val (PointToSegmentDistance p' a' b' srid).1 = .fin d' ∧
      |(d : ℝ) - d'| ≤ μ + ε + 2 * (M / 2 ^ 46) := by
  obtain ⟨q, c, d, hq, hmin, -, -, hd, he⟩ := C104_toSegment hp ha hb bx by' bz h1 h2 hL srid hs
  obtain ⟨q', c', d', hq', hmin', -, -, hd', he'⟩ := C104_toSegment hp' ha' hb' bx' byy bzz h1 h2 hL' srid hs
  refine ⟨d, d', hd, hd', abs_of_close he he' ?_ ?_⟩
  · obtain ⟨t, ht, g⟩ := seg_moved ((eucl_comm _ _).trans_le mx) ((eucl_comm _ _).trans_le my) ((eucl_comm _ _).trans_le mz) hq'
    exact (hmin t ht).trans g
  · obtain ⟨t, ht, g⟩ := seg_moved mx my mz hq
    exact (hmin' t ht).trans g

theorem line_moved {μ ε : ℝ} {x x' : ℚ × ℚ} {l l' : List (ℚ × ℚ)} (mx : eucl (real x) (real x') ≤ μ) (ml : Moved ε l l') {δ δ' : ℝ}
    (h : IsDistance x (segments l) δ) (h' : IsDistance x' (segments l') δ') : δ' ≤ δ + (μ + ε) := by
  obtain ⟨e, he, t, ht, rfl⟩ := h.1
  rw [segments_eq] at he
  have hF := edges_forall₂ ml
  obtain ⟨e', he', g1, g2⟩ : ∃ e' ∈ edges l', eucl (real e.1) (real e'.1) ≤ ε ∧ eucl (real e.2) (real e'.2) ≤ ε := by
    clear h h'
    generalize edges l = es, edges l' = es' at he hF
    induction hF with
    | nil => simp at he
    | cons a b ih =>
      rcases List.mem_cons.1 he with rfl | he
      · exact ⟨_, List.mem_cons_self, a⟩
      · obtain ⟨e', h1, h2⟩ := ih he
        exact ⟨e', List.mem_cons_of_mem _ h1, h2⟩
  obtain ⟨t', ht', g⟩ := seg_moved mx g1 g2 ht
  exact (h'.2 ⟨e', by rwa [segments_eq], t', ht', rfl⟩).trans g

/-- **C152, distance to a line.** If the point moves by at most `μ` and every vertex of the line by at most `ε`, the distance returned by `PointHitLineString`
changes by at most `μ + ε`, up to rounding. -/
theorem C152_hit {M : ℚ} {μ ε : ℝ} {p p' : Point Float} {ps ps' : List (Point Float)} {x x' : ℚ × ℚ} {l l' : List (ℚ × ℚ)} (hp : At p x) (hp' : At p' x')
    (bx : Within M x) (bx' : Within M x') (hl : AtAll M ps l) (hl' : AtAll M ps' l') (h1 : 1 ≤ M) (h2 : M ≤ 2 ^ 28) (hlong : LongSides (segments l))
    (hlong' : LongSides (segments l')) (hne : ∃ e ∈ segments l, e.1 ≠ e.2) (hne' : ∃ e ∈ segments l', e.1 ≠ e.2)
    (mx : eucl (real x) (real x') ≤ μ) (ml : Moved ε l l') (srid : Int) (hs : srid ≠ 4326) :
    ∃ d d' : ℚ, val (PointHitLineString p ps srid).2.2 = .fin d ∧ val (PointHitLineString p' ps' srid).2.2 = .fin d' ∧
      |(d : ℝ) - d'| ≤ μ + ε + 2 * (M / 2 ^ 46) := by
  obtain ⟨-, -, -, -, d, δ, -, -, -, -, -, hd, hδ, he, -, -⟩ := C105_hit hp bx hl h1 h2 hlong hne srid hs
  obtain ⟨-, -, -, -, d', δ', -, -, -, -, -, hd', hδ', he', -, -⟩ := C105_hit hp' bx' hl' h1 h2 hlong' hne' srid hs
  exact ⟨d, d', hd, hd', abs_of_close he he' (line_moved (by rwa [eucl_comm]) ml.symm hδ' hδ) (line_moved mx ml hδ hδ')⟩

theorem moved_mem {ε : ℝ} {l l' : List (ℚ × ℚ)} (h : Moved ε l l') {p : ℝ × ℝ} (hp : p ∈ l.map real) : ∃ q ∈ l'.map real, eucl p q ≤ ε := by
  induction h with
  | nil => simp at hp
  | cons a b ih =>
    rcases List.mem_cons.1 hp with rfl | hp
    · exact ⟨_, List.mem_cons_self, a⟩
    · obtain ⟨q, h1, h2⟩ := ih hp
      exact ⟨q, List.mem_cons_of_mem _ h1, h2⟩

theorem hausdorff_moved {μ ε δ δ' : ℝ} {l l' m m' : List (ℚ × ℚ)} (hl : Moved μ l l') (hm : Moved ε m m') (h0 : 0 ≤ μ + ε)
    (h : IsHausdorff (l.map real) (m.map real) δ) (h' : IsHausdorff (l'.map real) (m'.map real) δ') : δ' ≤ δ + (μ + ε) := by
  obtain ⟨d0, g1, g2⟩ := h.1
  refine h'.2 ⟨by linarith, fun p' hp' => ?_, fun q' hq' => ?_⟩
  · obtain ⟨p, hp, e1⟩ := moved_mem hl.symm hp'
    obtain ⟨q, hq, e2⟩ := g1 p hp
    obtain ⟨q', hq', e3⟩ := moved_mem hm hq
    exact ⟨q', hq', by linarith [eucl_triangle p' p q', eucl_triangle p q q']⟩
  · obtain ⟨q, hq, e1⟩ := moved_mem hm.symm hq'
    obtain ⟨p, hp, e2⟩ := g2 q hq
    obtain ⟨p', hp', e3⟩ := moved_mem hl hp
    exact ⟨p', hp', by linarith [eucl_triangle p' p q', eucl_triangle p q q', eucl_comm q q', eucl_comm p p']⟩

/-- **C152, Hausdorff distance.** If the vertices of one line move by at most `μ` and those of the other by at most `ε`, the Hausdorff distance changes by at most
`μ + ε`, up to rounding. -/
theorem C152_hausdorff {M : ℚ} {μ ε : ℝ} {ps qs ps' qs' : List (Point Float)} {l m l' m' : List (ℚ × ℚ)} (hl : AtAll M ps l) (hm : AtAll M qs m)
    (hl' : AtAll M ps' l') (hm' : AtAll M qs' m') (h1 : 1 ≤ M) (h2 : M ≤ 2 ^ 28)
    (hl0 : ∃ e ∈ segments l, 1 / 2 ^ 40 ≤ eucl (real e.1) (real e.2)) (hm0 : ∃ e ∈ segments m, 1 / 2 ^ 40 ≤ eucl (real e.1) (real e.2))
    (hl0' : ∃ e ∈ segments l', 1 / 2 ^ 40 ≤ eucl (real e.1) (real e.2)) (hm0' : ∃ e ∈ segments m', 1 / 2 ^ 40 ≤ eucl (real e.1) (real e.2))
    (ml : Moved μ l l') (mm : Moved ε m m') (h0 : 0 ≤ μ + ε) (srid : Int) (hs : srid ≠ 4326) :
    ∃ d d' : ℚ, val (HausdorffDistance ps qs srid) = .fin d ∧ val (HausdorffDistance ps' qs' srid) = .fin d' ∧ |(d : ℝ) - d'| ≤ μ + ε + 2 * (M / 2 ^ 47) := by
  obtain ⟨d, δ, hd, hδ, he⟩ := C105_hausdorff hl hm h1 h2 hl0 hm0 srid hs
  obtain ⟨d', δ', hd', hδ', he'⟩ := C105_hausdorff hl' hm' h1 h2 hl0' hm0' srid hs
  exact ⟨d, d', hd, hd', abs_of_close he he' (hausdorff_moved ml.symm mm.symm h0 hδ' hδ) (hausdorff_moved ml mm h0 hδ hδ')⟩

theorem length_moved {ε : ℝ} {l l' : List (ℚ × ℚ)} (h : Moved ε l l') :
    ((edges l').map fun e => eucl (real e.1) (real e.2)).sum ≤ ((edges l).map fun e => eucl (real e.1) (real e.2)).sum + 2 * (edges l).length * ε := by
  have hF := edges_forall₂ h
  clear h
  generalize edges l = es, edges l' = es' at hF ⊢
  induction hF with
  | nil => simp
  | @cons e e' es es' a b ih =>
    simp only [List.map_cons, List.sum_cons, List.length_cons, Nat.cast_add, Nat.cast_one]
    have t1 := eucl_triangle (real e'.1) (real e.1) (real e'.2)
    have t2 := eucl_triangle (real e.1) (real e.2) (real e'.2)
    rw [eucl_comm (real e'.1) (real e.1)] at t1
    have e3 : 2 * ((es.length : ℝ) + 1) * ε = 2 * es.length * ε + 2 * ε := by ring
    linarith [a.1, a.2]

/-- **C152, lengths.** If every vertex of a line of `n` segments moves by at most `ε`, its length changes by at most `2 n ε`, up to rounding. -/
theorem C152_length {M : ℚ} {ε : ℝ} {ps ps' : List (Point Float)} {l l' : List (ℚ × ℚ)} (h : AtAll M ps l) (h' : AtAll M ps' l') (h1 : 1 ≤ M) (h2 : M ≤ 2 ^ 100)
    (hn : l.length ≤ 2 ^ 20) (ml : Moved ε l l') :
    ∃ d d' : ℚ, val (LineLength ps) = .fin d ∧ val (LineLength ps') = .fin d' ∧
      |(d : ℝ) - d'| ≤ 2 * (segments l).length * ε + 2 * ((segments l).length * (4 * (segments l).length + 50) * M / 2 ^ 53) := by
  have hlen : l'.length = l.length := (List.Forall₂.length_eq ml).symm
  obtain ⟨d, hd, he⟩ := C103_length h h1 h2 hn
  obtain ⟨d', hd', he'⟩ := C103_length h' h1 h2 (by omega)
  simp only [segments_eq] at *
  have hk : (edges l').length = (edges l).length := by rw [edges_length, edges_length, hlen]
  rw [hk] at he'
  have g := length_moved ml.symm
  rw [hk] at g
  exact ⟨d, d', hd, hd', abs_of_close he he' g (length_moved ml)⟩

/-- non-vacuity: the middle vertex of a line of two segments is moved by 1 -/
example : ∃ d d' : ℚ, val (LineLength [fpt 0 0, fpt 3 4, fpt 6 0]) = .fin d ∧ val (LineLength [fpt 0 0, fpt 3 3, fpt 6 0]) = .fin d' ∧ |(d : ℝ) - d'| ≤ 4 + 1 / 2 ^ 30 := by
  have h1 := fpt_all 6 (by norm_num) [(0, 0), (3, 4), (6, 0)] (by decide)
  have h2 := fpt_all 6 (by norm_num) [(0, 0), (3, 3), (6, 0)] (by decide)
  obtain ⟨d, d', hd, hd', h⟩ := C152_length (ε := 1) h1 h2 (by norm_num) (by norm_num) (by norm_num) (by
    refine .cons ?_ (.cons ?_ (.cons ?_ .nil)) <;> simp only [eucl, real] <;> norm_num)
  refine ⟨d, d', hd, hd', h.trans ?_⟩
  norm_num [segments]

end GoGeo

namespace GoGeo.Region
open GoFloat Spec FloatVal

/-- **C152, distance to a polygon.** For a simple polygon on the grid of C145 the distance of a point changes by no more than the point moves, up to rounding, also
when it moves into the polygon or out of it: the distance does not jump at the ring. -/
theorem C152_polygon {B k : ℕ} (hB : B + k ≤ 17) {p q : Point Float} {ps : List (Point Float)} {x y : ℚ × ℚ} {c : List (ℚ × ℚ)} (hp : At p x) (hq : At q y)
    (gx : OnGrid B k x) (gy : OnGrid B k y) (hc : GridAll B k ps (c ++ c.take 1)) (hs : SimpleRing (c.map real)) (hx : ¬ OnRing (c.map real) (real x))
    (hy : ¬ OnRing (c.map real) (real y)) (x0 : x ≠ (0, 0)) (y0 : y ≠ (0, 0)) (holes : List (List (Point Float))) (srid : Int) (hsr : srid ≠ 4326) :
    ∃ d d' : ℚ, val (PointPolygonDistance p (ps :: holes) srid) = .fin d ∧ val (PointPolygonDistance q (ps :: holes) srid) = .fin d' ∧
      |(d : ℝ) - d'| ≤ eucl (real x) (real y) + 2 * (1 / 2 ^ 29) := by
  have key : ∀ {p : Point Float} {x : ℚ × ℚ}, At p x → OnGrid B k x → ¬ OnRing (c.map real) (real x) → x ≠ (0, 0) →
      ∃ (d : ℚ) (δ : ℝ), val (PointPolygonDistance p (ps :: holes) srid) = .fin d ∧
        IsLeast {d | ∃ z, (OnRing (c.map real) z ∨ ¬ Escapes (c.map real) z) ∧ d = eucl (real x) z} δ ∧ |(d : ℝ) - δ| ≤ 1 / 2 ^ 29 := by
    intro p x hp gx hx x0
    obtain ⟨h1, h2⟩ := C145_distance_grid hB hp gx hc hs hx x0 holes srid hsr
    by_cases he : Escapes (c.map real) (real x)
    · exact h2 he
    · refine ⟨0, 0, h1 he, ⟨⟨real x, Or.inr he, (eucl_eq_zero.2 rfl).symm⟩, ?_⟩, by norm_num⟩
      rintro _ ⟨z, -, rfl⟩
      exact eucl_nonneg _ _
  obtain ⟨d, δ, hd, hδ, he⟩ := key hp gx hx x0
  obtain ⟨d', δ', hd', hδ', he'⟩ := key hq gy hy y0
  refine ⟨d, d', hd, hd', abs_of_close he he' ?_ ?_⟩
  · obtain ⟨z, hz, e⟩ := hδ'.1
    have := hδ.2 ⟨z, hz, rfl⟩
    linarith [eucl_triangle (real x) (real y) z]
  · obtain ⟨z, hz, e⟩ := hδ.1
    have := hδ'.2 ⟨z, hz, rfl⟩
    linarith [eucl_triangle (real y) (real x) z, eucl_comm (real x) (real y)]

/-- non-vacuity: from `(4,4)` in the square of side 8 to `(9,4)` outside -/
example : ∃ d d' : ℚ, val (PointPolygonDistance (fpt 4 4) [[fpt 0 0, fpt 8 0, fpt 8 8, fpt 0 8, fpt 0 0]] 3857) = .fin d ∧
    val (PointPolygonDistance (fpt 9 4) [[fpt 0 0, fpt 8 0, fpt 8 8, fpt 0 8, fpt 0 0]] 3857) = .fin d' ∧ |(d : ℝ) - d'| ≤ eucl (real (4, 4)) (real (9, 4)) + 2 * (1 / 2 ^ 29) := by
  have h1 := fpt_grid [(0, 0), (8, 0), (8, 8), (0, 8), (0, 0)] 17 (by norm_num) (by decide)
  have hc : GridAll 17 0 [fpt 0 0, fpt 8 0, fpt 8 8, fpt 0 8, fpt 0 0]
      ([((0 : ℚ), (0 : ℚ)), (8, 0), (8, 8), (0, 8)] ++ [((0 : ℚ), (0 : ℚ)), (8, 0), (8, 8), (0, 8)].take 1) := by simpa using h1
  have hd : ([((0 : ℚ), (0 : ℚ)), (8, 0), (8, 8), (0, 8)] : List (ℚ × ℚ)).map real = [(0, 0), (8, 0), (8, 8), (0, 8)] := by norm_num [real]
  have hs : SimpleRing ([(0, 0), (8, 0), (8, 8), (0, 8)] : List (ℝ × ℝ)) := by
    apply convex_simple
    refine ⟨by simp, by simp, ?_⟩
    intro e he v hv h1 h2
    simp [sides] at he hv
    rcases he with rfl | rfl | rfl | rfl <;> rcases hv with rfl | rfl | rfl | rfl <;> first | exact absurd rfl h1 | exact absurd rfl h2 | norm_num [turn]
  have off : ∀ x : ℚ, x = 4 ∨ x = 9 → ¬ OnRing ([(0, 0), (8, 0), (8, 8), (0, 8)] : List (ℝ × ℝ)) (real (x, 4)) := by
    rintro x hx ⟨e, he, t, t0, t1, ht⟩
    simp only [sides, List.rotate_cons_succ, List.rotate_zero, List.cons_append, List.nil_append, List.zip_cons_cons, List.zip_nil_right,
      List.mem_cons, List.not_mem_nil, or_false] at he
    rcases hx with rfl | rfl <;> rcases he with rfl | rfl | rfl | rfl <;> simp only [along, real, Prod.mk.injEq] at ht <;> obtain ⟨h1, h2⟩ := ht <;>
      push_cast at h1 h2 <;> linarith
  refine C152_polygon (k := 0) (B := 17) (by norm_num) ?_ ?_ ⟨4, 4, by norm_num, by norm_num, by norm_num⟩ ⟨9, 4, by norm_num, by norm_num, by norm_num⟩
    hc (by rw [hd]; exact hs) (by rw [hd]; exact off 4 (Or.inl rfl)) (by rw [hd]; exact off 9 (Or.inr rfl)) (by norm_num) (by norm_num) [] 3857 (by norm_num)
  · simpa using fpt_at 4 4 (by norm_num) (by norm_num)
  · simpa using fpt_at 9 4 (by norm_num) (by norm_num)

end GoGeo.Region
