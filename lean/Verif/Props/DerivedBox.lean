import Verif.Props.Contained
import Verif.Props.RoundingHull
import Verif.Props.Simplify
import Verif.Props.Around
import Verif.Props.AreaBox
import Verif.Props.ContainSearch
import Verif.Props.SimplifyCurve

/-!
# C171: boxes of hulls and of simplified lines

`ConvexHull` keeps the bounding box, so an index search with the box of the hull gives the same answer as with the box of the points.  `DouglasPeuckerSimplify` never makes the bounding
box larger, so a search with the box of the simplified line returns only what a search with the box of the line returns.
-/

namespace GoGeo.Spec

/-- every side of each of the boxes is within `t` of that side of the other -/
def BoxesWithin (t : ℝ) (a b : Box (XR ℝ)) : Prop := ∃ m n M N m' n' M' N' : ℝ, a = ⟨.fin m, .fin n, .fin M, .fin N⟩ ∧ b = ⟨.fin m', .fin n', .fin M', .fin N'⟩ ∧
  |m - m'| ≤ t ∧ |n - n'| ≤ t ∧ |M - M'| ≤ t ∧ |N - N'| ≤ t

end GoGeo.Spec

namespace GoGeo

open GoFloat Spec FloatVal Rtree

section

variable {K : Type} [Field K] [LinearOrder K] [IsStrictOrderedRing K]

/-- the corners of the hull reach as far as the points on all four sides -/
theorem hull_between {pts v : List (K × K)} (h : HullOf pts v) {x : K × K} (hx : x ∈ pts) :
    (∃ y ∈ v, y.1 ≤ x.1) ∧ (∃ y ∈ v, x.1 ≤ y.1) ∧ (∃ y ∈ v, y.2 ≤ x.2) ∧ (∃ y ∈ v, x.2 ≤ y.2) := by
  classical
  have hne : v.toFinset.Nonempty := by
    obtain ⟨y, hy⟩ := List.exists_mem_of_length_pos (l := v) (by have := h.three; omega)
    exact ⟨y, List.mem_toFinset.2 hy⟩
  obtain ⟨y1, m1, l1⟩ := v.toFinset.exists_min_image Prod.fst hne
  obtain ⟨y2, m2, l2⟩ := v.toFinset.exists_max_image Prod.fst hne
  obtain ⟨y3, m3, l3⟩ := v.toFinset.exists_min_image Prod.snd hne
  obtain ⟨y4, m4, l4⟩ := v.toFinset.exists_max_image Prod.snd hne
  simp only [List.mem_toFinset] at m1 m2 m3 m4 l1 l2 l3 l4
  refine ⟨⟨y1, m1, ?_⟩, ⟨y2, m2, ?_⟩, ⟨y3, m3, ?_⟩, ⟨y4, m4, ?_⟩⟩
  · have := h.tight (y1.1, 1) (y1.1, 0) (fun z hz => by have := l1 z hz; simp only [turn]; linarith) x hx
    simp only [turn] at this
    linarith
  · have := h.tight (y2.1, 0) (y2.1, 1) (fun z hz => by have := l2 z hz; simp only [turn]; linarith) x hx
    simp only [turn] at this
    linarith
  · have := h.tight (0, y3.2) (1, y3.2) (fun z hz => by have := l3 z hz; simp only [turn]; linarith) x hx
    simp only [turn] at this
    linarith
  · have := h.tight (1, y4.2) (0, y4.2) (fun z hz => by have := l4 z hz; simp only [turn]; linarith) x hx
    simp only [turn] at this
    linarith

variable {F : Type} [GoFloat F] [FloatOrd F] [FloatVal F K]

omit [FloatOrd F] in
theorem at_num {p : Point F} {x : K × K} (h : At p x) : IsNum p.X ∧ IsNum p.Y := by
  constructor
  · unfold IsNum; rw [val_isNaN (K := K), h.1]; rfl
  · unfold IsNum; rw [val_isNaN (K := K), h.2]; rfl

theorem at_box {ps qs : List (Point F)} {c d : List (K × K)} (hp : List.Forall₂ At ps c) (hq : List.Forall₂ At qs d)
    (h : ∀ x ∈ d, (∃ y ∈ c, y.1 ≤ x.1) ∧ (∃ y ∈ c, x.1 ≤ y.1) ∧ (∃ y ∈ c, y.2 ≤ x.2) ∧ (∃ y ∈ c, x.2 ≤ y.2)) : Inside (calBox qs) (calBox ps) := by
  refine (contain_iff (calBox_num ps) (calBox_num qs)).1 (Region.box_between ps qs (fun p hm => ?_) fun q hm => ?_)
  · obtain ⟨y, -, ha⟩ := Region.forall₂_left hp hm
    exact at_num ha
  · obtain ⟨x, hx, ax, ay⟩ := Region.forall₂_left hq hm
    obtain ⟨⟨y1, m1, l1⟩, ⟨y2, m2, l2⟩, ⟨y3, m3, l3⟩, ⟨y4, m4, l4⟩⟩ := h x hx
    obtain ⟨p1, n1, a1⟩ := Region.forall₂_left (R := fun (a : K × K) b => At b a) hp.flip m1
    obtain ⟨p2, n2, a2⟩ := Region.forall₂_left (R := fun (a : K × K) b => At b a) hp.flip m2
    obtain ⟨p3, n3, a3⟩ := Region.forall₂_left (R := fun (a : K × K) b => At b a) hp.flip m3
    obtain ⟨p4, n4, a4⟩ := Region.forall₂_left (R := fun (a : K × K) b => At b a) hp.flip m4
    refine ⟨⟨p1, n1, ?_⟩, ⟨p2, n2, ?_⟩, ⟨p3, n3, ?_⟩, ⟨p4, n4, ?_⟩⟩ <;> unfold Spec.Le <;> rw [val_le (K := K)]
    · rw [a1.1, ax]; exact decide_eq_true l1
    · rw [a2.1, ax]; exact decide_eq_true l2
    · rw [a3.2, ay]; exact decide_eq_true l3
    · rw [a4.2, ay]; exact decide_eq_true l4

theorem hull_box {ps r : List (Point F)} {pts v : List (K × K)} (hp : List.Forall₂ At ps pts) (hr : List.Forall₂ At r (v ++ v.take 1)) (h : HullOf pts v) :
    SameBox (calBox r) (calBox ps) := by
  constructor
  · refine at_box hp hr fun x hx => ?_
    have hx' : x ∈ pts := h.corners x ((List.mem_append.1 hx).elim id fun h => List.mem_of_mem_take h)
    exact ⟨⟨x, hx', le_rfl⟩, ⟨x, hx', le_rfl⟩, ⟨x, hx', le_rfl⟩, ⟨x, hx', le_rfl⟩⟩
  · refine at_box hr hp fun x hx => ?_
    obtain ⟨⟨y1, m1, l1⟩, ⟨y2, m2, l2⟩, ⟨y3, m3, l3⟩, ⟨y4, m4, l4⟩⟩ := hull_between h hx
    exact ⟨⟨y1, List.mem_append_left _ m1, l1⟩, ⟨y2, List.mem_append_left _ m2, l2⟩, ⟨y3, List.mem_append_left _ m3, l3⟩, ⟨y4, List.mem_append_left _ m4, l4⟩⟩

theorem at_pts (l : List (K × K)) : List.Forall₂ At (l.map (pt (K := K))) l := by
  induction l with
  | nil => exact .nil
  | cons a l ih => exact .cons ⟨rfl, rfl⟩ ih

end

/-- **C171 (hulls, exact).** The bounding box of the convex hull of points is the bounding box of the points. -/
theorem C171_hull_exact {K : Type} [Field K] [LinearOrder K] [IsStrictOrderedRing K] (sortPts : List (Point (XR K)) → List (Point (XR K))) (hs : HullSort sortPts) (pts : List (K × K))
    (hd : pts.Pairwise fun a b => ¬ Close a b) (h3 : 3 ≤ pts.length) :
    ∃ after r, ConvexHull sortPts (pts.map pt) = .ok (after, some r) ∧ SameBox (BoundingBox (.polygon [r])) (BoundingBox (.multiPoint (pts.map pt))) := by
  obtain ⟨after, v, h1, h2⟩ := C48_hull_apart sortPts hs pts hd h3
  exact ⟨after, ring v, h1, hull_box (at_pts pts) (at_pts _) h2⟩

/-- **C171 (hulls, float64).** The same in float64 for points on a grid; and so every search in the index with the one box gives the answer of a search with the other. -/
theorem C171_hull {k : ℕ} (hk : k ≤ 500) {ps : List (Point Float)} {pts : List (ℚ × ℚ)} (hat : List.Forall₂ At ps pts) (hg : ∀ x ∈ pts, OnGrid 25 k x)
    (hd : pts.Pairwise fun a b => ¬ Close a b) (h3 : 3 ≤ pts.length) (sortPts : List (Point Float) → List (Point Float)) (hs : HullSort sortPts) :
    ∃ after r, ConvexHull sortPts ps = .ok (after, some r) ∧ SameBox (BoundingBox (.polygon [r])) (BoundingBox (.multiPoint ps)) ∧
      ∀ (grow : Nat → Nat) (min max : Int) (s : RState Float), 2 ≤ max → Reached grow min max s →
        ∃ res, SearchIntersect s (some (BoundingBox (.polygon [r]))) = .ok res ∧ SearchIntersect s (some (BoundingBox (.multiPoint ps))) = .ok res := by
  obtain ⟨after, r, v, h1, h2, h3⟩ := C113_grid hk hat hg hd h3 sortPts hs
  have hb : SameBox (BoundingBox (.polygon [r])) (BoundingBox (.multiPoint ps)) := hull_box hat h3 h2
  refine ⟨after, r, h1, hb, fun grow min max s hmax hs' => ⟨_, C02_search_exact grow min max hmax s hs' _, ?_⟩⟩
  rw [C02_search_exact grow min max hmax s hs']
  congr 1
  refine List.filter_congr fun o _ => ?_
  unfold Meets
  rw [C22_intersect_symm, C22_intersect_symm (BoundingBox o.Geom), Bool.eq_iff_iff]
  exact ⟨C22_intersect_mono _ _ _ hb.2, C22_intersect_mono _ _ _ hb.1⟩

section

variable {F : Type} [GoMath F] [FloatOrd F]

omit [GoMath F] [FloatOrd F] in
theorem simplifies_mem {α : Type} {near : α → α → α → Prop} {l r : List α} (h : Simplifies near l r) {x : α} (hx : x ∈ r) : x ∈ l := by
  obtain ⟨ks, -, -, -, h, -⟩ := h
  have : some x ∈ ks.map (l[·]?) := by rw [h]; exact List.mem_map_of_mem hx
  obtain ⟨i, -, hi⟩ := List.mem_map.1 this
  exact List.mem_of_getElem? hi

/-- **C171 (simplified lines).** The bounding box of a simplified line lies in that of the line; and a search in the index with it returns only objects that
a search with the box of the line returns. -/
theorem C171_simplify (srt : GoSort) (hsrt : SortOk srt) (grow : Nat → Nat → Nat) (m : Mem (Point F)) (line : Slice) (hv : m.Valid line) (threshold : F)
    (srid : Int) (hth : lt threshold (lit 0) = false) (hlen : 2 ≤ (m.read line).length) (hnum : ∀ p ∈ m.read line, IsNum p.X ∧ IsNum p.Y) :
    ∃ n, ∀ fuel, n ≤ fuel → ∃ m' line', DouglasPeuckerSimplify srt grow fuel m line threshold srid = .ok (m', line') ∧
      (BoundingBox (.lineString (m.read line))).Contain (BoundingBox (.lineString (m'.read line'))) = true ∧
      ∀ (grow : Nat → Nat) (min max : Int) (s : RState F), 2 ≤ max → Reached grow min max s →
        ∃ res res', SearchIntersect s (some (BoundingBox (.lineString (m.read line)))) = .ok res ∧
          SearchIntersect s (some (BoundingBox (.lineString (m'.read line')))) = .ok res' ∧ res'.Sublist res := by
  obtain ⟨n, h⟩ := C46_simplify srt hsrt grow m line hv threshold srid hth hlen
  refine ⟨n, fun fuel hf => ?_⟩
  obtain ⟨m', line', h1, -, h2, -⟩ := h fuel hf
  have hb : (BoundingBox (.lineString (m.read line))).Contain (BoundingBox (.lineString (m'.read line'))) = true := by
    refine Region.box_between _ _ hnum fun q hq => ?_
    have hq' := simplifies_mem h2 hq
    have hn := hnum q hq'
    exact ⟨⟨q, hq', Le.refl hn.1⟩, ⟨q, hq', Le.refl hn.1⟩, ⟨q, hq', Le.refl hn.2⟩, ⟨q, hq', Le.refl hn.2⟩⟩
  refine ⟨m', line', h1, hb, fun grow min max s hmax hs => ⟨_, _, C02_search_exact grow min max hmax s hs _, C02_search_exact grow min max hmax s hs _, ?_⟩⟩
  have hi := (contain_iff (C19_boundingBox_num _) (C19_boundingBox_num _)).1 hb
  refine List.monotone_filter_right _ fun o ho => ?_
  unfold Meets at ho ⊢
  rw [C22_intersect_symm] at ho ⊢
  exact C22_intersect_mono _ _ _ hi ho

end

section

/-- the box over exact points within ±2^31 -/
theorem line_box {l : List (ℝ × ℝ)} (hne : l ≠ []) (hb : ∀ v ∈ l, |v.1| ≤ 2 ^ 31 ∧ |v.2| ≤ 2 ^ 31) : ∃ m n M N : ℝ, calBox (l.map pt) = ⟨.fin m, .fin n, .fin M, .fin N⟩ ∧
    (∀ v ∈ l, m ≤ v.1 ∧ v.1 ≤ M ∧ n ≤ v.2 ∧ v.2 ≤ N) ∧ (∃ v ∈ l, v.1 = m) ∧ (∃ v ∈ l, v.2 = n) ∧ (∃ v ∈ l, v.1 = M) ∧ (∃ v ∈ l, v.2 = N) := by
  obtain ⟨m, n, M, N, h⟩ := Region.calBox_fin l ⟨INF, INF, -INF, -INF⟩ ⟨2 ^ 31, 2 ^ 31, -2 ^ 31, -2 ^ 31, by
    simp only [INF, XR.fin_lit, XR.fin_neg]; norm_num⟩
  have hc := (foldl_calBox (l.map pt) _ (start_num (F := XR ℝ))).2.2
  obtain ⟨⟨p1, m1, e1⟩, ⟨p2, m2, e2⟩, ⟨p3, m3, e3⟩, ⟨p4, m4, e4⟩⟩ := calBox_tight (l.map (pt (K := ℝ))) (by simpa using hne) (by
    intro p hp
    obtain ⟨v, hv, rfl⟩ := List.mem_map.1 hp
    obtain ⟨g1, g2⟩ := hb v hv
    rw [abs_le] at g1 g2
    unfold Bounded31 Le
    rw [XR.fin_lit, XR.fin_neg]
    simp only [pt, XR.fin_le, decide_eq_true_eq]
    norm_num at g1 g2 ⊢
    exact ⟨g1, g2⟩)
  obtain ⟨v1, n1, rfl⟩ := List.mem_map.1 m1
  obtain ⟨v2, n2, rfl⟩ := List.mem_map.1 m2
  obtain ⟨v3, n3, rfl⟩ := List.mem_map.1 m3
  obtain ⟨v4, n4, rfl⟩ := List.mem_map.1 m4
  have hb' : calBox (l.map (pt (K := ℝ))) = ⟨.fin m, .fin n, .fin M, .fin N⟩ := h
  rw [hb'] at e1 e2 e3 e4
  rw [h] at hc
  refine ⟨m, n, M, N, hb', fun v hv => ?_, ⟨v1, n1, ?_⟩, ⟨v2, n2, ?_⟩, ⟨v3, n3, ?_⟩, ⟨v4, n4, ?_⟩⟩
  · have hx := (hc (pt v) (List.mem_map_of_mem hv)).x rfl
    have hy := (hc (pt v) (List.mem_map_of_mem hv)).y rfl
    exact ⟨of_decide_eq_true hx.1, of_decide_eq_true hx.2, of_decide_eq_true hy.1, of_decide_eq_true hy.2⟩
  · exact le_antisymm (of_decide_eq_true e1.2) (of_decide_eq_true e1.1)
  · exact le_antisymm (of_decide_eq_true e2.2) (of_decide_eq_true e2.1)
  · exact le_antisymm (of_decide_eq_true e3.2) (of_decide_eq_true e3.1)
  · exact le_antisymm (of_decide_eq_true e4.2) (of_decide_eq_true e4.1)

theorem coord_le {p q : ℝ × ℝ} {t : ℝ} (h : eucl p q ≤ t) : |p.1 - q.1| ≤ t ∧ |p.2 - q.2| ≤ t := by
  constructor
  · exact (Real.abs_le_sqrt (by nlinarith [sq_nonneg (p.2 - q.2)])).trans h
  · exact (Real.abs_le_sqrt (by nlinarith [sq_nonneg (p.1 - q.1)])).trans h

/-- boxes of lists of points each of which is near a place that the box of the other list contains -/
theorem boxes_near {l r : List (ℝ × ℝ)} {t : ℝ} (hl : l ≠ []) (hr : r ≠ []) (bl : ∀ v ∈ l, |v.1| ≤ 2 ^ 31 ∧ |v.2| ≤ 2 ^ 31) (br : ∀ v ∈ r, |v.1| ≤ 2 ^ 31 ∧ |v.2| ≤ 2 ^ 31)
    (h : ∀ v ∈ l, ∃ q, (∀ m n M N : ℝ, (∀ w ∈ r, m ≤ w.1 ∧ w.1 ≤ M ∧ n ≤ w.2 ∧ w.2 ≤ N) → m ≤ q.1 ∧ q.1 ≤ M ∧ n ≤ q.2 ∧ q.2 ≤ N) ∧ eucl v q ≤ t)
    (h' : ∀ v ∈ r, ∃ q, (∀ m n M N : ℝ, (∀ w ∈ l, m ≤ w.1 ∧ w.1 ≤ M ∧ n ≤ w.2 ∧ w.2 ≤ N) → m ≤ q.1 ∧ q.1 ≤ M ∧ n ≤ q.2 ∧ q.2 ≤ N) ∧ eucl v q ≤ t) :
    BoxesWithin t (calBox (l.map pt)) (calBox (r.map pt)) := by
  obtain ⟨m, n, M, N, e, c, ⟨v1, i1, a1⟩, ⟨v2, i2, a2⟩, ⟨v3, i3, a3⟩, ⟨v4, i4, a4⟩⟩ := line_box hl bl
  obtain ⟨m', n', M', N', e', c', ⟨w1, j1, b1⟩, ⟨w2, j2, b2⟩, ⟨w3, j3, b3⟩, ⟨w4, j4, b4⟩⟩ := line_box hr br
  refine ⟨m, n, M, N, m', n', M', N', e, e', ?_⟩
  have k : ∀ v ∈ l, m' - t ≤ v.1 ∧ v.1 ≤ M' + t ∧ n' - t ≤ v.2 ∧ v.2 ≤ N' + t := by
    intro v hv
    obtain ⟨q, hq, hd⟩ := h v hv
    obtain ⟨q1, q2, q3, q4⟩ := hq _ _ _ _ c'
    obtain ⟨d1, d2⟩ := coord_le hd
    rw [abs_le] at d1 d2
    exact ⟨by linarith, by linarith, by linarith, by linarith⟩
  have k' : ∀ v ∈ r, m - t ≤ v.1 ∧ v.1 ≤ M + t ∧ n - t ≤ v.2 ∧ v.2 ≤ N + t := by
    intro v hv
    obtain ⟨q, hq, hd⟩ := h' v hv
    obtain ⟨q1, q2, q3, q4⟩ := hq _ _ _ _ c
    obtain ⟨d1, d2⟩ := coord_le hd
    rw [abs_le] at d1 d2
    exact ⟨by linarith, by linarith, by linarith, by linarith⟩
  simp only [abs_le]
  have := k v1 i1
  have := k v2 i2
  have := k v3 i3
  have := k v4 i4
  have := k' w1 j1
  have := k' w2 j2
  have := k' w3 j3
  have := k' w4 j4
  refine ⟨⟨?_, ?_⟩, ⟨?_, ?_⟩, ⟨?_, ?_⟩, ⟨?_, ?_⟩⟩ <;> linarith

theorem seg_between {a b q : ℝ × ℝ} (h : OnSeg a b q) {m n M N : ℝ} (ha : m ≤ a.1 ∧ a.1 ≤ M ∧ n ≤ a.2 ∧ a.2 ≤ N) (hb : m ≤ b.1 ∧ b.1 ≤ M ∧ n ≤ b.2 ∧ b.2 ≤ N) :
    m ≤ q.1 ∧ q.1 ≤ M ∧ n ≤ q.2 ∧ q.2 ≤ N := by
  obtain ⟨t, t0, t1, rfl⟩ := h
  obtain ⟨a1, a2, a3, a4⟩ := ha
  obtain ⟨b1, b2, b3, b4⟩ := hb
  simp only [along]
  refine ⟨?_, ?_, ?_, ?_⟩ <;> nlinarith

/-- **C171 (Hausdorff distance).** The sides of the bounding boxes of two lines are not farther apart than their HausdorffDistance. -/
theorem C171_hausdorff (l m : List (ℝ × ℝ)) (srid : Int) (hs : srid ≠ 4326) (hl : ∃ e ∈ segments l, e.1 ≠ e.2) (hm : ∃ e ∈ segments m, e.1 ≠ e.2)
    (bl : ∀ v ∈ l, |v.1| ≤ 2 ^ 29 ∧ |v.2| ≤ 2 ^ 29) (bm : ∀ v ∈ m, |v.1| ≤ 2 ^ 29 ∧ |v.2| ≤ 2 ^ 29) :
    ∃ d, HausdorffDistance (l.map pt) (m.map pt) srid = .fin d ∧ BoxesWithin d (BoundingBox (.lineString (l.map pt))) (BoundingBox (.lineString (m.map pt))) := by
  have far : ∀ p ∈ l, ∀ q ∈ m, eucl p q < 2 ^ 31 := by
    intro p hp q hq
    obtain ⟨a1, a2⟩ := bl p hp
    obtain ⟨b1, b2⟩ := bm q hq
    rw [abs_le] at a1 a2 b1 b2
    unfold eucl
    rw [Real.sqrt_lt' (by norm_num)]
    have u1 : |p.1 - q.1| ≤ 2 ^ 30 := abs_le.2 ⟨by linarith, by linarith⟩
    have u2 : |p.2 - q.2| ≤ 2 ^ 30 := abs_le.2 ⟨by linarith, by linarith⟩
    have s1 := sq_le_sq' (abs_le.1 u1).1 (abs_le.1 u1).2
    have s2 := sq_le_sq' (abs_le.1 u2).1 (abs_le.1 u2).2
    norm_num at s1 s2 ⊢
    linarith
  obtain ⟨d, h1, ⟨-, h2, h3⟩, -⟩ := C45_hausdorff l m srid hs hl hm far
  have big : ∀ x : ℝ, x ≤ 2 ^ 29 → x ≤ 2 ^ 31 := fun x h => h.trans (by norm_num)
  refine ⟨d, h1, boxes_near ?_ ?_ (fun v hv => ⟨big _ (bl v hv).1, big _ (bl v hv).2⟩) (fun v hv => ⟨big _ (bm v hv).1, big _ (bm v hv).2⟩) (fun v hv => ?_) (fun v hv => ?_)⟩
  · rintro rfl; obtain ⟨e, he, -⟩ := hl; simp [segments] at he
  · rintro rfl; obtain ⟨e, he, -⟩ := hm; simp [segments] at he
  · obtain ⟨q, hq, hd⟩ := h2 v hv
    exact ⟨q, fun _ _ _ _ hw => hw q hq, hd⟩
  · obtain ⟨q, hq, hd⟩ := h3 v hv
    exact ⟨q, fun _ _ _ _ hw => hw q hq, by rw [eucl_comm]; exact hd⟩

/-- **C171 (simplified lines, exact).** No side of the bounding box of a line moves by more than the threshold when the line is simplified. -/
theorem C171_sides (srt : GoSort) (hsrt : SortOk srt) (grow : Nat → Nat → Nat) (m : Mem (Point (XR ℝ))) (line : Slice) (hv : m.Valid line)
    (t : ℝ) (ht : 0 ≤ t) (srid : Int) (hs : srid ≠ 4326) (l : List (ℝ × ℝ)) (hl : m.read line = l.map pt) (hlen : 2 ≤ l.length)
    (hopen : l.head? ≠ l.getLast?) (bl : ∀ v ∈ l, |v.1| ≤ 2 ^ 31 ∧ |v.2| ≤ 2 ^ 31) :
    ∃ n, ∀ fuel, n ≤ fuel → ∃ m' line', DouglasPeuckerSimplify srt grow fuel m line (.fin t) srid = .ok (m', line') ∧
      BoxesWithin t (BoundingBox (.lineString (m.read line))) (BoundingBox (.lineString (m'.read line'))) := by
  obtain ⟨n1, h1⟩ := C46_simplify_exact srt hsrt grow m line hv t ht srid hs l hl hlen hopen
  obtain ⟨n2, h2⟩ := C146_exact srt hsrt grow m line hv t ht srid hs l hl hlen hopen
  refine ⟨n1 + n2, fun fuel hf => ?_⟩
  obtain ⟨m', line', r, a1, a2, a3⟩ := h1 fuel (by omega)
  obtain ⟨_, _, r', b1, b2, b3, -⟩ := h2 fuel (by omega)
  rw [a1] at b1
  simp only [Except.ok.injEq, Prod.mk.injEq] at b1
  obtain ⟨rfl, rfl⟩ := b1
  have e : r = r' := by
    rw [a2] at b2
    refine List.map_injective_iff.2 (fun x y h => ?_) b2
    simp only [pt, Point.mk.injEq, XR.fin.injEq] at h
    exact Prod.ext h.1 h.2
  subst e
  have hsub : ∀ x ∈ r, x ∈ l := fun x hx => simplifies_mem a3 hx
  have cov : ∀ v ∈ l, ∃ w, OnCurve r w ∧ eucl v w ≤ t := by
    intro v hv
    obtain ⟨f, hf, h⟩ := Region.mem_segments_of hlen hv
    refine b3 v ⟨f, hf, ?_⟩
    rcases h with rfl | rfl
    · exact (Region.end_on _ _).1
    · exact (Region.end_on _ _).2
  have hne : l ≠ [] := by rintro rfl; simp at hlen
  have hrne : r ≠ [] := by
    rintro rfl
    obtain ⟨v, hv⟩ := List.exists_mem_of_ne_nil l hne
    obtain ⟨w, ⟨f, hf, -⟩, -⟩ := cov v hv
    simp [segments] at hf
  refine ⟨m', line', a1, ?_⟩
  rw [hl, a2]
  refine boxes_near hne hrne bl (fun v hv => bl v (hsub v hv)) (fun v hv => ?_) (fun v hv => ⟨v, fun _ _ _ _ hw => hw v (hsub v hv), by rw [eucl_same]; exact ht⟩)
  obtain ⟨w, ⟨f, hf, ho⟩, hd⟩ := cov v hv
  exact ⟨w, fun _ _ _ _ hw => seg_between ho (hw _ (Region.segments_mem hf).1) (hw _ (Region.segments_mem hf).2), hd⟩

end

/-- the hypotheses can be met: the hull of six points of a grid -/
example : ∃ after r, ConvexHull goSort12 [fpt 0 0, fpt 1 1, fpt 2 0, fpt 1 0, fpt 2 2, fpt 0 2] = .ok (after, some r) ∧
    SameBox (BoundingBox (.polygon [r])) (BoundingBox (.multiPoint [fpt 0 0, fpt 1 1, fpt 2 0, fpt 1 0, fpt 2 2, fpt 0 2])) := by
  have h := fpt_all 2 (by norm_num) [(0, 0), (1, 1), (2, 0), (1, 0), (2, 2), (0, 2)] (by decide)
  norm_num at h
  obtain ⟨after, r, h1, h2, -⟩ := C171_hull (k := 0) (by norm_num) (List.Forall₂.imp (fun _ _ h => h.1) h) (by
    intro x hx
    simp only [List.mem_cons, List.not_mem_nil, or_false] at hx
    rcases hx with rfl | rfl | rfl | rfl | rfl | rfl
    · exact ⟨0, 0, by norm_num, by norm_num, by norm_num⟩
    · exact ⟨1, 1, by norm_num, by norm_num, by norm_num⟩
    · exact ⟨2, 0, by norm_num, by norm_num, by norm_num⟩
    · exact ⟨1, 0, by norm_num, by norm_num, by norm_num⟩
    · exact ⟨2, 2, by norm_num, by norm_num, by norm_num⟩
    · exact ⟨0, 2, by norm_num, by norm_num, by norm_num⟩) (by unfold Close; norm_num [abs_lt]) (by decide) goSort12 goSort12_hullSort
  exact ⟨after, r, h1, h2⟩

/-- two lines -/
example : ∃ d, HausdorffDistance (F := XR ℝ) ([((0 : ℝ), (0 : ℝ)), (3, 1)].map pt) ([((0 : ℝ), (1 : ℝ)), (4, 1)].map pt) 0 = .fin d ∧
    BoxesWithin d (BoundingBox (.lineString ([((0 : ℝ), (0 : ℝ)), (3, 1)].map pt))) (BoundingBox (.lineString ([((0 : ℝ), (1 : ℝ)), (4, 1)].map pt))) := by
  refine C171_hausdorff _ _ 0 (by norm_num) ⟨_, List.mem_cons_self, by norm_num⟩ ⟨_, List.mem_cons_self, by norm_num⟩ ?_ ?_ <;>
    · intro v hv
      simp only [List.mem_cons, List.not_mem_nil, or_false] at hv
      rcases hv with rfl | rfl <;> norm_num

/-- a line that is simplified -/
example : ∃ n, ∀ fuel, n ≤ fuel → ∃ m' line', DouglasPeuckerSimplify (F := XR ℝ) insSort (fun _ _ => 0) fuel ⟨[[((0 : ℝ), (0 : ℝ)), (1, 2), (2, 5), (4, 0)].map pt]⟩ ⟨0, 0, 4, 4⟩ (.fin 1) 0 = .ok (m', line') ∧
    BoxesWithin 1 (BoundingBox (.lineString ([((0 : ℝ), (0 : ℝ)), (1, 2), (2, 5), (4, 0)].map pt))) (BoundingBox (.lineString (m'.read line'))) := by
  refine C171_sides insSort insSort_ok _ ⟨[[((0 : ℝ), (0 : ℝ)), (1, 2), (2, 5), (4, 0)].map pt]⟩ ⟨0, 0, 4, 4⟩ ?_ 1 (by norm_num) 0 (by norm_num) [((0 : ℝ), (0 : ℝ)), (1, 2), (2, 5), (4, 0)] rfl (by simp) (by simp) ?_
  · constructor <;> simp [Mem.arr]
  · intro v hv
    simp only [List.mem_cons, List.not_mem_nil, or_false] at hv
    rcases hv with rfl | rfl | rfl | rfl <;> norm_num

end GoGeo
