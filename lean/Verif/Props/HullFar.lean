import Verif.Props.RoundingHull
import Verif.Props.RoundingDist
import Verif.Props.RoundingNear
import Verif.Props.Distance

/-!
# The farthest point is a corner of the hull: C162
-/

namespace GoGeo
open GoFloat FloatVal Spec

section
variable {K : Type} [Field K] [LinearOrder K] [IsStrictOrderedRing K]

/-- the corner of a hull that goes farthest in a direction goes at least as far as every point -/
theorem hull_extreme {pts v : List (K × K)} (h : HullOf pts v) (d : K × K) :
    ∃ c ∈ v, ∀ y ∈ pts, y.1 * d.1 + y.2 * d.2 ≤ c.1 * d.1 + c.2 * d.2 := by
  have hv0 : v ≠ [] := by rintro rfl; simpa using h.three
  obtain ⟨c, hc, hmax⟩ := (List.finite_toSet v).exists_maximalFor (fun y : K × K => y.1 * d.1 + y.2 * d.2) _ (by obtain ⟨y, hy⟩ := List.exists_mem_of_ne_nil v hv0; exact ⟨y, hy⟩)
  refine ⟨c, hc, fun y hy => ?_⟩
  have hle : ∀ x ∈ v, x.1 * d.1 + x.2 * d.2 ≤ c.1 * d.1 + c.2 * d.2 := fun x hx => by
    rcases le_total (x.1 * d.1 + x.2 * d.2) (c.1 * d.1 + c.2 * d.2) with g | g
    · exact g
    · exact hmax hx g
  have := h.tight c (c.1 - d.2, c.2 + d.1) (fun x hx => by have := hle x hx; unfold turn; nlinarith) y hy
  unfold turn at this
  nlinarith

/-- some corner of a hull is at least as far from `x` as the point `y` -/
theorem hull_far {pts v : List (K × K)} (h : HullOf pts v) (x : K × K) {y : K × K} (hy : y ∈ pts) :
    ∃ c ∈ v, (x.1 - y.1) ^ 2 + (x.2 - y.2) ^ 2 ≤ (x.1 - c.1) ^ 2 + (x.2 - c.2) ^ 2 := by
  obtain ⟨c, hc, hm⟩ := hull_extreme h (y.1 - x.1, y.2 - x.2)
  refine ⟨c, hc, ?_⟩
  have := hm y hy
  simp only at this
  nlinarith [sq_nonneg (c.1 - y.1), sq_nonneg (c.2 - y.2)]

end

theorem hull_eucl {pts v : List (ℝ × ℝ)} (h : HullOf pts v) (x : ℝ × ℝ) {y : ℝ × ℝ} (hy : y ∈ pts) : ∃ c ∈ v, eucl x y ≤ eucl x c := by
  obtain ⟨c, hc, hle⟩ := hull_far h x hy
  exact ⟨c, hc, Real.sqrt_le_sqrt hle⟩

theorem hull_eucl_rat {pts v : List (ℚ × ℚ)} (h : HullOf pts v) (x : ℚ × ℚ) {y : ℚ × ℚ} (hy : y ∈ pts) : ∃ c ∈ v, eucl (real x) (real y) ≤ eucl (real x) (real c) := by
  obtain ⟨c, hc, hle⟩ := hull_far h x hy
  refine ⟨c, hc, Real.sqrt_le_sqrt ?_⟩
  simp only [real]
  exact_mod_cast hle

theorem mem_ring_iff {K : Type} {v : List (K × K)} {p : Point (XR K)} : p ∈ ring v ↔ ∃ c ∈ v, pt c = p := by
  simp only [ring, List.mem_map, List.mem_append]
  constructor
  · rintro ⟨c, h | h, e⟩
    · exact ⟨c, h, e⟩
    · exact ⟨c, List.mem_of_mem_take h, e⟩
  · rintro ⟨c, h, e⟩
    exact ⟨c, Or.inl h, e⟩

/-- **C162 (from anywhere).** For any three or more points, no two within 1e-6 of each other: from any place `x`, some corner of the ring ConvexHull returns is at least as
far, by EuclideanDis, as any given one of the points. (So a circle around `x` that holds the corners holds all the points.) -/
theorem C162_distance (sortPts : List (Point (XR ℝ)) → List (Point (XR ℝ))) (hs : HullSort sortPts) (pts : List (ℝ × ℝ))
    (hd : pts.Pairwise fun a b => ¬ Close a b) (h3 : 3 ≤ pts.length) :
    ∃ after r, ConvexHull sortPts (pts.map pt) = .ok (after, some r) ∧ (∀ p ∈ r, p ∈ pts.map pt) ∧
      ∀ x : ℝ × ℝ, ∀ y ∈ pts, ∃ c ∈ r, ∃ d d', EuclideanDis (pt x) (pt y) = .fin d ∧ EuclideanDis (pt x) c = .fin d' ∧ d ≤ d' := by
  obtain ⟨after, v, h, hv⟩ := C48_hull_apart sortPts hs pts hd h3
  refine ⟨after, _, h, ?_, fun x y hy => ?_⟩
  · intro p hp
    obtain ⟨c, hc, rfl⟩ := mem_ring_iff.1 hp
    exact List.mem_map_of_mem (hv.corners c hc)
  · obtain ⟨c, hc, hle⟩ := hull_eucl hv x hy
    exact ⟨pt c, mem_ring_iff.2 ⟨c, hc, rfl⟩, _, _, euclidDis_fin x y, euclidDis_fin x c, hle⟩

/-- **C162 (diameter).** The greatest distance between two of the points is a distance between two corners of the ring: for any two points there are two corners at least
as far apart. -/
theorem C162_diameter (sortPts : List (Point (XR ℝ)) → List (Point (XR ℝ))) (hs : HullSort sortPts) (pts : List (ℝ × ℝ))
    (hd : pts.Pairwise fun a b => ¬ Close a b) (h3 : 3 ≤ pts.length) :
    ∃ after r, ConvexHull sortPts (pts.map pt) = .ok (after, some r) ∧
      ∀ x ∈ pts, ∀ y ∈ pts, ∃ c ∈ r, ∃ c' ∈ r, c ∈ pts.map pt ∧ c' ∈ pts.map pt ∧
        ∃ d d', EuclideanDis (pt x) (pt y) = .fin d ∧ EuclideanDis c c' = .fin d' ∧ d ≤ d' := by
  obtain ⟨after, v, h, hv⟩ := C48_hull_apart sortPts hs pts hd h3
  refine ⟨after, _, h, fun x hx y hy => ?_⟩
  obtain ⟨c, hc, hle⟩ := hull_eucl hv x hy
  obtain ⟨c', hc', hle'⟩ := hull_eucl hv c hx
  have hsym : eucl c x = eucl x c := by unfold eucl; congr 1; ring
  rw [hsym] at hle'
  exact ⟨pt c, mem_ring_iff.2 ⟨c, hc, rfl⟩, pt c', mem_ring_iff.2 ⟨c', hc', rfl⟩, List.mem_map_of_mem (hv.corners c hc), List.mem_map_of_mem (hv.corners c' hc'),
    _, _, euclidDis_fin x y, euclidDis_fin c c', hle.trans hle'⟩

/-- distances computed in float64 keep their order up to the rounding -/
theorem far_float {q p c' c : Point Float} {x y w z : ℚ × ℚ} (hq : At q x) (hp : At p y) (hw : At c' w) (hc : At c z) (bx : Within (2 ^ 100) x) (by' : Within (2 ^ 100) y)
    (bw : Within (2 ^ 100) w) (bz : Within (2 ^ 100) z) (h : eucl (real x) (real y) ≤ eucl (real w) (real z)) :
    ∃ d d' : ℚ, val (EuclideanDis q p) = .fin d ∧ val (EuclideanDis c' c) = .fin d' ∧ d ≤ d' + d' / 2 ^ 47 + 1 / 2 ^ 118 := by
  obtain ⟨d, e, _, d0, hd⟩ := C103_distance hq hp bx by'
  obtain ⟨d', e', _, d0', hd'⟩ := C103_distance hw hc bw bz
  refine ⟨d, d', e, e', ?_⟩
  have h0 : 0 ≤ eucl (real x) (real y) := Real.sqrt_nonneg _
  have d0r : (0 : ℝ) ≤ d' := by exact_mod_cast d0'
  have k : (d : ℝ) ≤ d' + d' / 2 ^ 47 + 1 / 2 ^ 118 := by
    have a1 := (abs_le.1 hd).2
    have a2 := (abs_le.1 hd').1
    generalize eucl (real x) (real y) = E at *
    generalize eucl (real w) (real z) = E' at *
    norm_num at *
    linarith
  have k' : ((d : ℚ) : ℝ) ≤ ((d' + d' / 2 ^ 47 + 1 / 2 ^ 118 : ℚ) : ℝ) := by push_cast; exact k
  exact Rat.cast_le.1 k'

theorem far_of_hull {ps r : List (Point Float)} {pts v : List (ℚ × ℚ)} (hat : AtAll (2 ^ 100 : ℚ) ps pts) (hv : HullOf pts v) (hr : List.Forall₂ At r (v ++ v.take 1)) :
    (∀ q x, At q x → Within (2 ^ 100) x → ∀ p ∈ ps, ∃ c ∈ r, ∃ d d' : ℚ, val (EuclideanDis q p) = .fin d ∧ val (EuclideanDis q c) = .fin d' ∧ d ≤ d' + d' / 2 ^ 47 + 1 / 2 ^ 118) ∧
    (∀ p ∈ ps, ∀ q ∈ ps, ∃ c ∈ r, ∃ c' ∈ r, ∃ d d' : ℚ, val (EuclideanDis p q) = .fin d ∧ val (EuclideanDis c c') = .fin d' ∧ d ≤ d' + d' / 2 ^ 47 + 1 / 2 ^ 118) := by
  have hb : ∀ x ∈ pts, Within (2 ^ 100) x := fun x hx => by
    obtain ⟨p, _, h⟩ := forall₂_mem_right hat hx
    exact h.2
  refine ⟨fun q x hq bx p hp => ?_, fun p hp q hq => ?_⟩
  · obtain ⟨y, hy, hpy⟩ := forall₂_mem_left hat hp
    obtain ⟨c, hc, hle⟩ := hull_eucl_rat hv x hy
    obtain ⟨c', hc', h'⟩ := forall₂_mem_right hr (List.mem_append_left _ hc)
    exact ⟨c', hc', far_float hq hpy.1 hq h' bx hpy.2 bx (hb c (hv.corners c hc)) hle⟩
  · obtain ⟨x, hx, hpx⟩ := forall₂_mem_left hat hp
    obtain ⟨y, hy, hqy⟩ := forall₂_mem_left hat hq
    obtain ⟨c, hc, hle⟩ := hull_eucl_rat hv x hy
    obtain ⟨c', hc', hle'⟩ := hull_eucl_rat hv c hx
    have hsym : eucl (real c) (real x) = eucl (real x) (real c) := by unfold eucl; congr 1; ring
    rw [hsym] at hle'
    obtain ⟨f, hf, h'⟩ := forall₂_mem_right hr (List.mem_append_left _ hc)
    obtain ⟨f', hf', h''⟩ := forall₂_mem_right hr (List.mem_append_left _ hc')
    refine ⟨f, hf, f', hf', ?_⟩
    exact far_float hpx.1 hqy.1 h' h'' hpx.2 hqy.2 (hb c (hv.corners c hc)) (hb c' (hv.corners c' hc')) (hle.trans hle')

/-- **C162 (float64, grid).** Float64 points that are whole multiples of a power of two in at most 25 bits: the ring computed in float64 has, from any place `q`, a corner at
least as far by the computed distance as any of the points, and two corners as far apart as any two of the points, up to a relative 2^-47 (and 2^-118) for the rounding. -/
theorem C162_grid {k : ℕ} (hk : k ≤ 500) {ps : List (Point Float)} {pts : List (ℚ × ℚ)} (hat : List.Forall₂ At ps pts) (hg : ∀ x ∈ pts, OnGrid 25 k x)
    (hd : pts.Pairwise fun a b => ¬ Close a b) (h3 : 3 ≤ pts.length) (sortPts : List (Point Float) → List (Point Float)) (hs : HullSort sortPts) :
    ∃ after r, ConvexHull sortPts ps = .ok (after, some r) ∧
      (∀ q x, At q x → Within (2 ^ 100 : ℚ) x → ∀ p ∈ ps, ∃ c ∈ r, ∃ d d' : ℚ, val (EuclideanDis q p) = .fin d ∧ val (EuclideanDis q c) = .fin d' ∧
        d ≤ d' + d' / 2 ^ 47 + 1 / 2 ^ 118) ∧
      (∀ p ∈ ps, ∀ q ∈ ps, ∃ c ∈ r, ∃ c' ∈ r, ∃ d d' : ℚ, val (EuclideanDis p q) = .fin d ∧ val (EuclideanDis c c') = .fin d' ∧
        d ≤ d' + d' / 2 ^ 47 + 1 / 2 ^ 118) := by
  obtain ⟨after, r, v, g1, g2, g3⟩ := C113_grid hk hat hg hd h3 sortPts hs
  refine ⟨after, r, g1, far_of_hull ?_ g2 g3⟩
  have : ∀ {l : List (Point Float)} {m : List (ℚ × ℚ)}, List.Forall₂ At l m → (∀ x ∈ m, OnGrid 25 k x) → AtAll (2 ^ 100 : ℚ) l m := by
    intro l m h
    induction h with
    | nil => intro _; exact .nil
    | cons h _ ih =>
      intro hg
      have w := onGrid_within (hg _ List.mem_cons_self)
      exact .cons ⟨h, w.1.trans (by norm_num), w.2.trans (by norm_num)⟩ (ih fun x hx => hg x (by simp [hx]))
  exact this hat hg

/-- **C162 (float64, general position).** The same for points as in `C113_clear`. -/
theorem C162_clear {M : ℚ} (h1 : 1 ≤ M) (h2 : M ≤ 2 ^ 100) {ps : List (Point Float)} {pts : List (ℚ × ℚ)} (hat : AtAll M ps pts)
    (hd : pts.Pairwise fun a b => ¬ Close a b) (h3 : 3 ≤ pts.length)
    (hcl : ∀ x ∈ pts, ∀ y ∈ pts, ∀ z ∈ pts, x ≠ y → x ≠ z → y ≠ z → M * M / 2 ^ 48 ≤ |turn x y z| / 2)
    (sortPts : List (Point Float) → List (Point Float)) (hs : HullSort sortPts) :
    ∃ after r, ConvexHull sortPts ps = .ok (after, some r) ∧
      (∀ q x, At q x → Within (2 ^ 100 : ℚ) x → ∀ p ∈ ps, ∃ c ∈ r, ∃ d d' : ℚ, val (EuclideanDis q p) = .fin d ∧ val (EuclideanDis q c) = .fin d' ∧
        d ≤ d' + d' / 2 ^ 47 + 1 / 2 ^ 118) ∧
      (∀ p ∈ ps, ∀ q ∈ ps, ∃ c ∈ r, ∃ c' ∈ r, ∃ d d' : ℚ, val (EuclideanDis p q) = .fin d ∧ val (EuclideanDis c c') = .fin d' ∧
        d ≤ d' + d' / 2 ^ 47 + 1 / 2 ^ 118) := by
  obtain ⟨after, r, v, g1, g2, g3⟩ := C113_clear h1 h2 hat hd h3 hcl sortPts hs
  exact ⟨after, r, g1, far_of_hull (hat.imp fun _ _ h => ⟨h.1, h.2.1.trans h2, h.2.2.trans h2⟩) g2 g3⟩

/-- a triangle with a point inside it -/
example : ∃ after r, ConvexHull goSort12 ([((0 : ℝ), (0 : ℝ)), (4, 0), (0, 4), (1, 1)].map pt) = .ok (after, some r) ∧
    ∀ x ∈ [((0 : ℝ), (0 : ℝ)), (4, 0), (0, 4), (1, 1)], ∀ y ∈ [((0 : ℝ), (0 : ℝ)), (4, 0), (0, 4), (1, 1)], ∃ c ∈ r, ∃ c' ∈ r,
      c ∈ [((0 : ℝ), (0 : ℝ)), (4, 0), (0, 4), (1, 1)].map pt ∧ c' ∈ [((0 : ℝ), (0 : ℝ)), (4, 0), (0, 4), (1, 1)].map pt ∧
        ∃ d d', EuclideanDis (pt x) (pt y) = .fin d ∧ EuclideanDis c c' = .fin d' ∧ d ≤ d' :=
  C162_diameter goSort12 goSort12_hullSort _ (by
    simp only [List.pairwise_cons, List.mem_cons, List.not_mem_nil, or_false, forall_eq_or_imp, forall_eq, Close]
    norm_num) (by simp)

/-- and in float64 -/
example (q : Point Float) (x : ℚ × ℚ) (hq : At q x) (hx : Within (2 ^ 100 : ℚ) x) : ∃ after r, ConvexHull goSort12 [fpt 0 0, fpt 4 0, fpt 0 4, fpt 1 1] = .ok (after, some r) ∧
    ∃ c ∈ r, ∃ d d' : ℚ, val (EuclideanDis q (fpt 1 1)) = .fin d ∧ val (EuclideanDis q c) = .fin d' ∧ d ≤ d' + d' / 2 ^ 47 + 1 / 2 ^ 118 := by
  have h := fpt_all 4 (by norm_num) [(0, 0), (4, 0), (0, 4), (1, 1)] (by decide)
  obtain ⟨after, r, h1, h2, _⟩ := C162_clear (M := 4) (by norm_num) (by norm_num) (by simpa using h) (by unfold Close; norm_num [abs_lt]) (by simp) (by decide +kernel) goSort12 goSort12_hullSort
  exact ⟨after, r, h1, h2 q x hq hx _ (by simp)⟩

end GoGeo
