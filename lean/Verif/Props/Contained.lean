import Verif.Props.AreaMeasure
import Verif.Props.HullMono
import Verif.Props.AreaBox
import Verif.Props.HullFar

/-!
# C166: what is contained has the smaller box and the smaller hull

When everything one simple polygon shuts in is shut in by another, the bounding box of the second contains that of the first, so that
boxes can be compared before polygons are; the hull of the first is no larger and no longer than that of the second, and no polygon
is larger than its hull.  A convex polygon is no longer than any polygon round it.
-/

namespace GoGeo.Region

open MeasureTheory Set Spec Real

theorem interior_hull {c : List (ℝ × ℝ)} (hc : SimpleRing c) : Interior c ⊆ convexHull ℝ {x | x ∈ c} := by
  have hcl : IsClosed (convexHull ℝ {x : ℝ × ℝ | x ∈ c}) := (List.finite_toSet c).isClosed_convexHull ℝ
  have ho : IsOpen (Interior c \ convexHull ℝ {x | x ∈ c}) := (interior_open hc).sdiff hcl
  by_contra hn
  obtain ⟨z, hz, hz'⟩ := Set.not_subset.1 hn
  have hp := ho.measure_pos volume ⟨z, hz, hz'⟩
  have h0 : volume (Interior c \ convexHull ℝ {x | x ∈ c}) = 0 := by
    rw [measure_eq_zero_iff_ae_notMem]
    filter_upwards [winding_hull c] with y hy
    rintro ⟨h1, h2⟩
    apply h2
    apply hy
    intro hw
    have := (evenOdd_iff c y).1 ((interior_iff hc y).1 h1).2
    rw [hw] at this; simp at this
  exact hp.ne' h0

theorem corner_on {c : List (ℝ × ℝ)} {x : ℝ × ℝ} (hx : x ∈ c) : OnRing c x := by
  obtain ⟨i, hi, rfl⟩ := List.getElem_of_mem hx
  refine ⟨(c[i], (c.rotate 1)[i]'(by simpa using hi)), ?_, 0, le_refl _, zero_le_one, by simp [along]⟩
  unfold sides
  rw [List.mem_iff_getElem]
  exact ⟨i, by simpa using hi, by simp⟩

/-- the corners of what is inside are in the hull of what is round it -/
theorem nested_corners {c d : List (ℝ × ℝ)} (hc : SimpleRing c) (hd : SimpleRing d) (hin : Interior c ⊆ Interior d) :
    ∀ x ∈ c, x ∈ convexHull ℝ {y | y ∈ d} := by
  intro x hx
  have hcl : IsClosed (convexHull ℝ {x : ℝ × ℝ | x ∈ d}) := (List.finite_toSet d).isClosed_convexHull ℝ
  rw [← hcl.closure_eq, Metric.mem_closure_iff]
  intro δ hδ
  obtain ⟨y, hy, y1, y2⟩ := (C140_boundary c hc x (corner_on hx) δ hδ).1
  refine ⟨y, interior_hull hd (hin ((interior_iff hc y).2 ⟨y1, y2⟩)), ?_⟩
  rw [dist_comm]; exact hy

theorem simple_turn {c : List (ℝ × ℝ)} (hc : SimpleRing c) : ∃ a ∈ c, ∃ b ∈ c, ∃ x ∈ c, turn a b x ≠ 0 := by
  by_contra hn
  push Not at hn
  obtain ⟨A, p, -, h, -⟩ := C140_area c hc []
  have hl := hc.1
  match c, hl with
  | a :: l, _ =>
    rw [(C32_area_fan a _ []).1] at h
    injection h with h
    have : fanArea a (a :: l) = 0 := by
      unfold fanArea cycSum
      rw [← List.map_uncurry_zip_eq_zipWith]
      apply List.sum_eq_zero
      intro t ht
      obtain ⟨e, he, rfl⟩ := List.mem_map.1 ht
      simp only [Function.uncurry, hn a (by simp) e.1 (sides_mem_left he) e.2 (sides_mem_right he), zero_div]
    rw [this, abs_zero] at h
    linarith

section

variable {F : Type} [GoFloat F]

theorem foldl_inside (l : List (Point F)) (b d : Box F) (hb : Inside b d) (hl : ∀ p ∈ l, InBox p d) : Inside (l.foldl calBoxStep b) d := by
  induction l generalizing b with
  | nil => exact hb
  | cons p l ih =>
    refine ih _ ?_ fun q hq => hl q (List.mem_cons_of_mem _ hq)
    have hp := hl p List.mem_cons_self
    unfold calBoxStep
    refine ⟨?_, ?_, ?_, ?_⟩ <;> dsimp only <;> split
    · exact hp.minX
    · exact hb.minX
    · exact hp.minY
    · exact hb.minY
    · exact hp.maxX
    · exact hb.maxX
    · exact hp.maxY
    · exact hb.maxY

variable [FloatOrd F]

/-- one list of points has its box in the box of another when each of its coordinates lies between coordinates of the other -/
theorem box_between (ps qs : List (Point F)) (hps : ∀ p ∈ ps, IsNum p.X ∧ IsNum p.Y)
    (h : ∀ q ∈ qs, (∃ p ∈ ps, Le p.X q.X) ∧ (∃ p ∈ ps, Le q.X p.X) ∧ (∃ p ∈ ps, Le p.Y q.Y) ∧ (∃ p ∈ ps, Le q.Y p.Y)) :
    (calBox ps).Contain (calBox qs) = true := by
  obtain ⟨n, i, cov⟩ := foldl_calBox ps _ (start_num (F := F))
  refine (contain_iff n (calBox_num qs)).2 ?_
  refine foldl_inside qs _ _ i fun q hq => ?_
  obtain ⟨⟨p1, m1, l1⟩, ⟨p2, m2, l2⟩, ⟨p3, m3, l3⟩, ⟨p4, m4, l4⟩⟩ := h q hq
  exact ⟨((cov p1 m1).x (hps p1 m1).1).1.trans l1, l2.trans ((cov p2 m2).x (hps p2 m2).1).2, ((cov p3 m3).y (hps p3 m3).2).1.trans l3,
    l4.trans ((cov p4 m4).y (hps p4 m4).2).2⟩

end

theorem between {d : List (ℝ × ℝ)} {x : ℝ × ℝ} (h : x ∈ convexHull ℝ {y | y ∈ d}) :
    (∃ y ∈ d, y.1 ≤ x.1) ∧ (∃ y ∈ d, x.1 ≤ y.1) ∧ (∃ y ∈ d, y.2 ≤ x.2) ∧ (∃ y ∈ d, x.2 ≤ y.2) := by
  have k := fun u => hull_max u h
  simp only [proj] at k
  refine ⟨(k (-1, 0)).imp fun y hy => ⟨hy.1, ?_⟩, (k (1, 0)).imp fun y hy => ⟨hy.1, ?_⟩, (k (0, -1)).imp fun y hy => ⟨hy.1, ?_⟩, (k (0, 1)).imp fun y hy => ⟨hy.1, ?_⟩⟩
  all_goals
    have := hy.2
    simp only at this
    linarith

/-- **C166 (boxes).** The bounding box of what is inside is in the bounding box of what is round it. -/
theorem C166_box (c d : List (ℝ × ℝ)) (hc : SimpleRing c) (hd : SimpleRing d) (hin : Interior c ⊆ Interior d) (h₁ h₂ : List (List (Point (XR ℝ)))) :
    (BoundingBox (.polygon (ring d :: h₂))).Contain (BoundingBox (.polygon (ring c :: h₁))) = true := by
  refine box_between (ring d) (ring c) (fun p hp => ?_) fun q hq => ?_
  · obtain ⟨y, hy, rfl⟩ := mem_ring_iff.1 hp
    exact ⟨rfl, rfl⟩
  · obtain ⟨x, hx, rfl⟩ := mem_ring_iff.1 hq
    obtain ⟨⟨y1, m1, l1⟩, ⟨y2, m2, l2⟩, ⟨y3, m3, l3⟩, ⟨y4, m4, l4⟩⟩ := between (nested_corners hc hd hin x hx)
    exact ⟨⟨_, mem_ring_iff.2 ⟨y1, m1, rfl⟩, decide_eq_true l1⟩, ⟨_, mem_ring_iff.2 ⟨y2, m2, rfl⟩, decide_eq_true l2⟩,
      ⟨_, mem_ring_iff.2 ⟨y3, m3, rfl⟩, decide_eq_true l3⟩, ⟨_, mem_ring_iff.2 ⟨y4, m4, rfl⟩, decide_eq_true l4⟩⟩

/-- **C166 (hulls).** A simple polygon is no larger than its hull, and its hull no larger and no longer than the hull of a polygon round it, which is no longer than that polygon. -/
theorem C166_hull (s s' : List (Point (XR ℝ)) → List (Point (XR ℝ))) (hs : HullSort s) (hs' : HullSort s') (c d : List (ℝ × ℝ)) (hc : SimpleRing c) (hd : SimpleRing d)
    (ac : c.Pairwise fun a b => ¬ Close a b) (ad : d.Pairwise fun a b => ¬ Close a b) (hin : Interior c ⊆ Interior d) (holes : List (List (Point (XR ℝ)))) :
    ∃ after r after' r' A₀ A A' L L' L₀, ConvexHull s (c.map pt) = .ok (after, some r) ∧ ConvexHull s' (d.map pt) = .ok (after', some r') ∧
      GetArea (.polygon (ring c :: holes)) = .fin A₀ ∧ GetArea (.polygon [r]) = .fin A ∧ GetArea (.polygon [r']) = .fin A' ∧ A₀ ≤ A ∧ A ≤ A' ∧
      LineLength r = .fin L ∧ LineLength r' = .fin L' ∧ LineLength (ring d) = .fin L₀ ∧ L ≤ L' ∧ L' ≤ L₀ := by
  have hcd := nested_corners hc hd hin
  obtain ⟨after, r, after', r', A, A', h1, h2, h3, h4, h5⟩ := C156_area s s' hs hs' c d ac ad hc.1 hd.1 hcd
  obtain ⟨_, _, _, _, L, L', k1, k2, k3, k4, k5⟩ := C156_length s s' hs hs' c d ac ad hc.1 hd.1 (simple_turn hc) hcd
  obtain ⟨_, _, _, L₀, j1, j2, j3, j4⟩ := C147_polygon s' hs' d ad hd.1 (simple_turn hd)
  obtain ⟨_, _, B, i1, i2, i3, i4⟩ := C136_area s hs c ac hc.1
  obtain ⟨A₀, p0, v0, e0, -⟩ := C140_area c hc holes
  rw [h1] at k1 i1
  rw [h2] at k2 j1
  simp only [Except.ok.injEq, Prod.mk.injEq, Option.some.injEq] at k1 k2 j1 i1
  obtain ⟨rfl, rfl⟩ := k1
  obtain ⟨rfl, rfl⟩ := k2
  obtain ⟨-, rfl⟩ := j1
  obtain ⟨-, rfl⟩ := i1
  rw [k4] at j2
  rw [h3] at i2
  injection j2 with j2
  injection i2 with i2
  subst j2 i2
  refine ⟨after, r, after', r', A₀, A, A', L, L', L₀, h1, h2, e0, h3, h4, ?_, h5, k3, k4, j3, k5, j4⟩
  have : volume {z | EvenOdd c z} ≤ volume (convexHull ℝ {x | x ∈ c}) := by
    rw [← measure_congr (interior_ae hc)]
    exact measure_mono (interior_hull hc)
  rw [v0, i4] at this
  exact (ENNReal.ofReal_le_ofReal_iff i3).1 this

theorem convex_hullOf {c : List (ℝ × ℝ)} (hc : StrictlyConvex c) : HullOf c c := by
  refine ⟨fun x hx => hx, hc.2.1, hc.1, fun e he x hx => convex_nonneg hc he hx, fun a b h => h, ?_⟩
  intro x y z hs
  obtain ⟨p, q, rfl, hq⟩ : ∃ p q, c = p ++ x :: q ∧ [y, z].Sublist q := by
    obtain ⟨r1, r2, rfl, h1, h2⟩ := List.cons_sublist_iff.1 hs
    obtain ⟨p, q, rfl⟩ := List.append_of_mem h1
    exact ⟨p, q ++ r2, by simp, h2.trans (List.sublist_append_right _ _)⟩
  have hr : StrictlyConvex (x :: q ++ p) := by
    obtain ⟨h1, h2, h3⟩ := hc
    refine ⟨by simp at h1 ⊢; omega, (List.perm_append_comm (l₁ := p) (l₂ := x :: q)).nodup_iff.1 h2, ?_⟩
    intro e he v hv
    refine h3 e ?_ v ((List.perm_append_comm (l₁ := p) (l₂ := x :: q)).mem_iff.2 hv)
    match p, he with
    | [], he => simpa using he
    | a :: p, he => exact (cut_perm a x p q).mem_iff.1 he
  match q, hq, hr with
  | b :: q, hq, hr =>
    have := convex_fan (a := x) (b := b) (l := q ++ p) (by simpa using hr)
    exact (List.pairwise_iff_forall_sublist.1 this (by simpa using hq.trans (List.sublist_append_left (b :: q) p))).le

/-- **C166 (convex).** A convex polygon is no longer than any simple polygon round it. -/
theorem C166_convex (c d : List (ℝ × ℝ)) (hv : StrictlyConvex c) (hd : SimpleRing d) (hin : Interior c ⊆ Interior d) :
    ∃ L L' : ℝ, LineLength (ring c) = .fin L ∧ LineLength (ring d) = .fin L' ∧ L ≤ L' :=
  ⟨_, _, ring_length c (by rintro rfl; simpa using hv.1), ring_length d (by rintro rfl; simpa using hd.1),
    hull_shortest (convex_hullOf hv) (simple_turn (convex_simple hv)) (nested_corners (convex_simple hv) hd hin)⟩

section

open FloatVal

theorem forall₂_left {α β : Type} {R : α → β → Prop} {l : List α} {m : List β} (h : List.Forall₂ R l m) {a : α} (ha : a ∈ l) : ∃ b ∈ m, R a b := by
  induction h with
  | nil => simp at ha
  | cons h _ ih =>
    rcases List.mem_cons.1 ha with rfl | ha
    · exact ⟨_, List.mem_cons_self, h⟩
    · obtain ⟨b, hb, hr⟩ := ih ha
      exact ⟨b, List.mem_cons_of_mem _ hb, hr⟩

/-- **C166 (float64).** When the code says that one polygon contains another, for corners on a grid float64 computes on exactly, the box it computes for the one contains the box of the other. -/
theorem C166_contain {B k : ℕ} (hB : B + k ≤ 17) {qs ps : List (Point Float)} {c d : List (ℚ × ℚ)} (hc : GridAll B k qs (c ++ c.take 1))
    (hd : GridAll B k ps (d ++ d.take 1)) (sc : SimpleRing (c.map real)) (sd : SimpleRing (d.map real)) (c0 : ∀ v ∈ c, v ≠ (0, 0))
    (hoff : ∀ z, OnRing (c.map real) z → ¬ OnRing (d.map real) z)
    (hn : ∀ e ∈ sides c, ∀ f ∈ sides d, ¬ (turn f.1 f.2 e.1 = 0 ∧ turn f.1 f.2 e.2 = 0)) (h1 h2 : List (List (Point Float)))
    (hr : PolyRelation (qs :: h1) (ps :: h2) = .contain) :
    (BoundingBox (.polygon (ps :: h2))).Contain (BoundingBox (.polygon (qs :: h1))) = true := by
  have hsub := (C141_polygon hB hc hd sc sd c0 hoff hn h1 h2).1.1 hr
  have hin : Interior (c.map real) ⊆ Interior (d.map real) := by
    intro z hz
    have hz' := (interior_iff sc z).1 hz
    refine (interior_iff sd z).2 ⟨fun hon => ?_, hsub hz'.2⟩
    obtain ⟨δ, hδ, hb⟩ := evenOdd_near hz'.1
    obtain ⟨y, hy, -, hn⟩ := (C140_boundary _ sd z hon δ hδ).2
    exact hn (hsub ((hb y hy).2.2 hz'.2))
  refine box_between ps qs (fun p hp => ?_) fun q hq => ?_
  · obtain ⟨y, -, ⟨ax, ay⟩, -⟩ := forall₂_left hd hp
    exact ⟨by unfold IsNum; rw [val_isNaN, ax]; rfl, by unfold IsNum; rw [val_isNaN, ay]; rfl⟩
  · obtain ⟨x, hx, ⟨ax, ay⟩, -⟩ := forall₂_left hc hq
    have hx' : x ∈ c := (List.mem_append.1 hx).elim id fun h => List.mem_of_mem_take h
    have key : ∀ y ∈ d.map real, ∃ p ∈ ps, ∃ y' : ℚ × ℚ, At p y' ∧ real y' = y := by
      intro y hy
      obtain ⟨y', hy', rfl⟩ := List.mem_map.1 hy
      obtain ⟨p, hp, ha, -⟩ := forall₂_left (R := fun a b => At b a ∧ OnGrid B k a) hd.flip (List.mem_append_left _ hy')
      exact ⟨p, hp, y', ha, rfl⟩
    obtain ⟨⟨y1, m1, l1⟩, ⟨y2, m2, l2⟩, ⟨y3, m3, l3⟩, ⟨y4, m4, l4⟩⟩ := between (nested_corners sc sd hin (real x) (List.mem_map_of_mem hx'))
    obtain ⟨p1, n1, z1, a1, rfl⟩ := key y1 m1
    obtain ⟨p2, n2, z2, a2, rfl⟩ := key y2 m2
    obtain ⟨p3, n3, z3, a3, rfl⟩ := key y3 m3
    obtain ⟨p4, n4, z4, a4, rfl⟩ := key y4 m4
    simp only [real] at l1 l2 l3 l4
    refine ⟨⟨p1, n1, ?_⟩, ⟨p2, n2, ?_⟩, ⟨p3, n3, ?_⟩, ⟨p4, n4, ?_⟩⟩ <;> unfold Spec.Le <;> rw [val_le]
    · rw [a1.1, ax]; exact decide_eq_true (by exact_mod_cast l1)
    · rw [a2.1, ax]; exact decide_eq_true (by exact_mod_cast l2)
    · rw [a3.2, ay]; exact decide_eq_true (by exact_mod_cast l3)
    · rw [a4.2, ay]; exact decide_eq_true (by exact_mod_cast l4)

end

/-- the hypotheses can be met: a part of the dart and the dart -/
example : (BoundingBox (.polygon [ring dart])).Contain (BoundingBox (.polygon [ring [((0 : ℝ), (0 : ℝ)), (4, 0), (1, 1)]])) = true :=
  C166_box _ _ (dart_parts _ List.mem_cons_self) dart_simple (dart_tiles.1 _ List.mem_cons_self) [] []

example : ∃ after r after' r' A₀ A A' L L' L₀, ConvexHull goSort12 ([((0 : ℝ), (0 : ℝ)), (4, 0), (1, 1)].map pt) = .ok (after, some r) ∧ ConvexHull goSort12 (dart.map pt) = .ok (after', some r') ∧
    GetArea (.polygon [ring [((0 : ℝ), (0 : ℝ)), (4, 0), (1, 1)]]) = .fin A₀ ∧ GetArea (.polygon [r]) = .fin A ∧ GetArea (.polygon [r']) = .fin A' ∧ A₀ ≤ A ∧ A ≤ A' ∧
    LineLength r = .fin L ∧ LineLength r' = .fin L' ∧ LineLength (ring dart) = .fin L₀ ∧ L ≤ L' ∧ L' ≤ L₀ :=
  C166_hull goSort12 goSort12 goSort12_hullSort goSort12_hullSort _ _ (dart_parts _ List.mem_cons_self) dart_simple (by unfold Close; norm_num [abs_lt])
    (by unfold Close dart; norm_num [abs_lt]) (dart_tiles.1 _ List.mem_cons_self) []

example : ∃ L L' : ℝ, LineLength (ring [((0 : ℝ), (0 : ℝ)), (4, 0), (1, 1)]) = .fin L ∧ LineLength (ring dart) = .fin L' ∧ L ≤ L' := by
  refine C166_convex _ _ ?_ dart_simple (dart_tiles.1 _ List.mem_cons_self)
  refine ⟨by decide, by norm_num, ?_⟩
  intro e he v hv h1 h2
  simp only [sides, List.rotate_cons_succ, List.rotate_zero, List.cons_append, List.nil_append, List.zip_cons_cons, List.zip_nil_right,
    List.mem_cons, List.not_mem_nil, or_false] at he hv
  rcases he with rfl | rfl | rfl <;> rcases hv with rfl | rfl | rfl <;> simp [turn] at h1 h2 ⊢ <;> norm_num

example : (BoundingBox (F := Float) (.polygon [[fpt 0 0, fpt 8 0, fpt 2 2, fpt 0 8, fpt 0 0]])).Contain (BoundingBox (.polygon [[fpt 1 1, fpt 2 1, fpt 1 2, fpt 1 1]])) = true := by
  have h1 := fpt_grid [(1, 1), (2, 1), (1, 2), (1, 1)] 17 (by norm_num) (by decide)
  have h2 := fpt_grid [(0, 0), (8, 0), (2, 2), (0, 8), (0, 0)] 17 (by norm_num) (by decide)
  exact C166_contain (B := 17) (k := 0) (c := exIn) (d := exOut) (by norm_num) (by simpa [exIn] using h1) (by simpa [exOut] using h2)
    exIn_simple exOut_simple (by simp [exIn]) exIn_off (by decide +kernel) [] [] (by decide +kernel)

end GoGeo.Region
