import Verif.Props.Contained

/-!
# C167: CONTAIN orders polygons

For polygons on a grid whose boundaries do not meet, what `PolyRelation` answers in float64 fits together: never is each of two polygons
said to be contained in the other; what is contained in a polygon is contained in what that one is contained in; and what is contained in one of two
polygons apart is apart from the other.  One answer alone does not tell that polygons are apart: a polygon is DISJOINT from those
it contains.  Asking in both orders does.
-/

namespace GoGeo.Spec

/-- the points `ps` are, in float64, the closed simple ring with corners `c` on the grid, none of them the origin -/
structure GridRing (B k : ℕ) (ps : List (Point Float)) (c : List (ℚ × ℚ)) : Prop where
  grid : GridAll B k ps (c ++ c.take 1)
  simple : SimpleRing (c.map real)
  origin : ∀ v ∈ c, v ≠ (0, 0)

/-- no side of one ring is on the line of a side of the other -/
def Skew (c d : List (ℚ × ℚ)) : Prop := ∀ e ∈ sides c, ∀ f ∈ sides d, ¬ (turn f.1 f.2 e.1 = 0 ∧ turn f.1 f.2 e.2 = 0) ∧ ¬ (turn e.1 e.2 f.1 = 0 ∧ turn e.1 e.2 f.2 = 0)

/-- the rings have no common point -/
def Meetless (c d : List (ℚ × ℚ)) : Prop := ∀ z, OnRing (c.map real) z → ¬ OnRing (d.map real) z

end GoGeo.Spec

namespace GoGeo.Region

open Set Spec

theorem _root_.GoGeo.Spec.Skew.symm {c d : List (ℚ × ℚ)} (h : Skew c d) : Skew d c := fun e he f hf => ⟨(h f hf e he).2, (h f hf e he).1⟩

theorem _root_.GoGeo.Spec.Meetless.symm {c d : List (ℚ × ℚ)} (h : Meetless c d) : Meetless d c := fun z h1 h2 => h z h2 h1

section

variable {B k : ℕ} {ps qs rs : List (Point Float)} {c d e : List (ℚ × ℚ)}

theorem relation_regions (hB : B + k ≤ 17) (hp : GridRing B k ps c) (hq : GridRing B k qs d) (hm : Meetless c d) (hs : Skew c d) (h₁ h₂ : List (List (Point Float))) :
    (PolyRelation (ps :: h₁) (qs :: h₂) = .contain ↔ Interior (c.map real) ⊆ Interior (d.map real)) ∧
    (PolyRelation (ps :: h₁) (qs :: h₂) = .contain ∨ PolyRelation (ps :: h₁) (qs :: h₂) = .disjoint) := by
  obtain ⟨h1, -, h3⟩ := C141_polygon hB hp.grid hq.grid hp.simple hq.simple hp.origin hm (fun e he f hf => (hs e he f hf).1) h₁ h₂
  refine ⟨h1.trans ⟨fun hsub z hz => ?_, fun hin => ?_⟩, h3⟩
  · have hz' := (interior_iff hp.simple z).1 hz
    refine (interior_iff hq.simple z).2 ⟨fun hon => ?_, hsub hz'.2⟩
    obtain ⟨δ, hδ, hb⟩ := evenOdd_near hz'.1
    obtain ⟨y, hy, -, hn⟩ := (C140_boundary _ hq.simple z hon δ hδ).2
    exact hn (hsub ((hb y hy).2.2 hz'.2))
  · obtain ⟨x, hx⟩ : ∃ x, OnRing (c.map real) x := by
      have hl := hp.simple.1
      match c.map real, hl with
      | a :: l, _ => exact ⟨a, corner_on List.mem_cons_self⟩
    refine (regions hp.simple hq.simple hm hx).1.1 ?_
    obtain ⟨δ, hδ, hb⟩ := evenOdd_near (hm x hx)
    obtain ⟨y, hy, y1, y2⟩ := (C140_boundary _ hp.simple x hx δ hδ).1
    exact (hb y hy).2.1 ((interior_iff hq.simple y).1 (hin ((interior_iff hp.simple y).2 ⟨y1, y2⟩))).2

theorem ring_inside (hp : GridRing B k ps c) (hq : GridRing B k qs d) (hm : Meetless c d) (hin : Interior (c.map real) ⊆ Interior (d.map real)) {z : ℝ × ℝ}
    (hz : OnRing (c.map real) z) : z ∈ Interior (d.map real) := by
  obtain ⟨δ, hδ, hb⟩ := evenOdd_near (hm z hz)
  obtain ⟨y, hy, y1, y2⟩ := (C140_boundary _ hp.simple z hz δ hδ).1
  exact (interior_iff hq.simple z).2 ⟨hm z hz, (hb y hy).2.1 ((interior_iff hq.simple y).1 (hin ((interior_iff hp.simple y).2 ⟨y1, y2⟩))).2⟩

/-- **C167 (both orders).** If one polygon is said to be contained in another, that one is said to be DISJOINT from it. -/
theorem C167_asymm (hB : B + k ≤ 17) (hp : GridRing B k ps c) (hq : GridRing B k qs d) (hm : Meetless c d) (hs : Skew c d) (h₁ h₂ : List (List (Point Float)))
    (h : PolyRelation (ps :: h₁) (qs :: h₂) = .contain) : PolyRelation (qs :: h₂) (ps :: h₁) = .disjoint := by
  obtain ⟨i1, -⟩ := relation_regions hB hp hq hm hs h₁ h₂
  obtain ⟨i2, i3⟩ := relation_regions hB hq hp hm.symm hs.symm h₂ h₁
  refine i3.resolve_left fun h' => ?_
  have a := i1.1 h
  have b := i2.1 h'
  obtain ⟨A, A', e1, e2, -, hlt⟩ := C165_strict _ _ hp.simple hq.simple a hm [] []
  obtain ⟨B', B'', e3, e4, -, hlt'⟩ := C165_strict _ _ hq.simple hp.simple b hm.symm [] []
  rw [e1] at e4
  rw [e2] at e3
  injection e4 with e4
  injection e3 with e3
  linarith

/-- **C167 (order).** What is contained in a polygon is contained in what that one is contained in. -/
theorem C167_trans (hB : B + k ≤ 17) (hp : GridRing B k ps c) (hq : GridRing B k qs d) (hr : GridRing B k rs e) (hm : Meetless c d) (hm' : Meetless d e)
    (hs : Skew c d) (hs' : Skew d e) (hs'' : Skew c e) (h₁ h₂ h₃ : List (List (Point Float)))
    (h : PolyRelation (ps :: h₁) (qs :: h₂) = .contain) (h' : PolyRelation (qs :: h₂) (rs :: h₃) = .contain) : PolyRelation (ps :: h₁) (rs :: h₃) = .contain := by
  have a := (relation_regions hB hp hq hm hs h₁ h₂).1.1 h
  have b := (relation_regions hB hq hr hm' hs' h₂ h₃).1.1 h'
  have hm'' : Meetless c e := fun z hz => (b (ring_inside hp hq hm a hz)).1
  exact (relation_regions hB hp hr hm'' hs'' h₁ h₃).1.2 (a.trans b)

/-- **C167 (apart).** Both orders answer DISJOINT exactly if no point is shut in by both polygons. -/
theorem C167_apart (hB : B + k ≤ 17) (hp : GridRing B k ps c) (hq : GridRing B k qs d) (hm : Meetless c d) (hs : Skew c d) (h₁ h₂ : List (List (Point Float))) :
    (PolyRelation (ps :: h₁) (qs :: h₂) = .disjoint ∧ PolyRelation (qs :: h₂) (ps :: h₁) = .disjoint) ↔ Disjoint (Interior (c.map real)) (Interior (d.map real)) := by
  obtain ⟨i1, j1⟩ := relation_regions hB hp hq hm hs h₁ h₂
  obtain ⟨i2, j2⟩ := relation_regions hB hq hp hm.symm hs.symm h₂ h₁
  have ne : ∀ {c : List (ℚ × ℚ)}, SimpleRing (c.map real) → (Interior (c.map real)).Nonempty := by
    intro c sc
    obtain ⟨x, hx⟩ : ∃ x, OnRing (c.map real) x := by
      have hl := sc.1
      match c.map real, hl with
      | a :: l, _ => exact ⟨a, corner_on List.mem_cons_self⟩
    obtain ⟨y, -, y1, y2⟩ := (C140_boundary _ sc x hx 1 one_pos).1
    exact ⟨y, (interior_iff sc y).2 ⟨y1, y2⟩⟩
  constructor
  · rintro ⟨d1, d2⟩
    have o := ((C141_polygon hB hp.grid hq.grid hp.simple hq.simple hp.origin hm (fun e he f hf => (hs e he f hf).1) h₁ h₂).2.1.1 d1)
    have o' := (C141_polygon hB hq.grid hp.grid hq.simple hp.simple hq.origin hm.symm (fun e he f hf => (hs.symm e he f hf).1) h₂ h₁).1
    rcases o with o | o
    · exact o.mono (fun z hz => ((interior_iff hp.simple z).1 hz).2) fun z hz => ((interior_iff hq.simple z).1 hz).2
    · rw [o'.2 o] at d2; cases d2
  · intro hd
    refine ⟨j1.resolve_left fun h => ?_, j2.resolve_left fun h => ?_⟩
    · obtain ⟨y, hy⟩ := ne hp.simple
      exact Set.disjoint_left.1 hd hy (i1.1 h hy)
    · obtain ⟨y, hy⟩ := ne hq.simple
      exact Set.disjoint_left.1 hd (i2.1 h hy) hy

/-- **C167 (three cases).** One of the polygons is contained in the other or both orders answer DISJOINT, and only one of these holds. -/
theorem C167_three (hB : B + k ≤ 17) (hp : GridRing B k ps c) (hq : GridRing B k qs d) (hm : Meetless c d) (hs : Skew c d) (h₁ h₂ : List (List (Point Float))) :
    (PolyRelation (ps :: h₁) (qs :: h₂) = .contain ∧ PolyRelation (qs :: h₂) (ps :: h₁) = .disjoint) ∨
    (PolyRelation (ps :: h₁) (qs :: h₂) = .disjoint ∧ PolyRelation (qs :: h₂) (ps :: h₁) = .contain) ∨
    (PolyRelation (ps :: h₁) (qs :: h₂) = .disjoint ∧ PolyRelation (qs :: h₂) (ps :: h₁) = .disjoint) := by
  rcases (relation_regions hB hp hq hm hs h₁ h₂).2 with h | h
  · exact Or.inl ⟨h, C167_asymm hB hp hq hm hs h₁ h₂ h⟩
  · rcases (relation_regions hB hq hp hm.symm hs.symm h₂ h₁).2 with h' | h'
    · exact Or.inr (Or.inl ⟨h, h'⟩)
    · exact Or.inr (Or.inr ⟨h, h'⟩)

/-- **C167 (inside one of two polygons apart).** What is contained in one of two polygons apart is apart from the other. -/
theorem C167_inside (hB : B + k ≤ 17) (hp : GridRing B k ps c) (hq : GridRing B k qs d) (hr : GridRing B k rs e) (hm : Meetless c d) (hm' : Meetless d e)
    (hs : Skew c d) (hs' : Skew d e) (hs'' : Skew c e) (h₁ h₂ h₃ : List (List (Point Float)))
    (h : PolyRelation (ps :: h₁) (qs :: h₂) = .contain) (h' : PolyRelation (qs :: h₂) (rs :: h₃) = .disjoint) (h'' : PolyRelation (rs :: h₃) (qs :: h₂) = .disjoint) :
    PolyRelation (ps :: h₁) (rs :: h₃) = .disjoint ∧ PolyRelation (rs :: h₃) (ps :: h₁) = .disjoint := by
  have a := (relation_regions hB hp hq hm hs h₁ h₂).1.1 h
  have b := (C167_apart hB hq hr hm' hs' h₂ h₃).1 ⟨h', h''⟩
  have hm'' : Meetless c e := by
    intro z hz hz'
    obtain ⟨δ, hδ, hb⟩ := Metric.isOpen_iff.1 (interior_open hq.simple) z (ring_inside hp hq hm a hz)
    obtain ⟨y, hy, y1, y2⟩ := (C140_boundary _ hr.simple z hz' δ hδ).1
    exact Set.disjoint_left.1 b (hb hy) ((interior_iff hr.simple y).2 ⟨y1, y2⟩)
  exact (C167_apart hB hp hr hm'' hs'' h₁ h₃).2 (b.mono_left a)

/-- **C167 (points).** A point said to be in a polygon is said to be in every polygon that one is contained in, and outside of every polygon apart from it. -/
theorem C167_point (hB : B + k ≤ 17) (hp : GridRing B k ps c) (hq : GridRing B k qs d) (hm : Meetless c d) (hs : Skew c d) (h₁ h₂ : List (List (Point Float)))
    {p : Point Float} {x : ℚ × ℚ} (hx : At p x) (gx : OnGrid B k x) (x0 : x ≠ (0, 0)) (hoff : ¬ OnRing (c.map real) (real x)) (hin : IsPointInPolygon p (ps :: h₁) = .contain) :
    (PolyRelation (ps :: h₁) (qs :: h₂) = .contain → IsPointInPolygon p (qs :: h₂) = .contain) ∧
    (PolyRelation (ps :: h₁) (qs :: h₂) = .disjoint → PolyRelation (qs :: h₂) (ps :: h₁) = .disjoint → IsPointInPolygon p (qs :: h₂) = .disjoint) := by
  have i : real x ∈ Interior (c.map real) := ⟨hoff, (C140_inside_grid hB hx gx hp.grid hp.simple hoff x0 h₁).1.1 hin⟩
  constructor
  · intro h
    obtain ⟨q1, q2⟩ := (relation_regions hB hp hq hm hs h₁ h₂).1.1 h i
    exact (C140_inside_grid hB hx gx hq.grid hq.simple q1 x0 h₂).1.2 q2
  · intro h h'
    have b := (C167_apart hB hp hq hm hs h₁ h₂).1 ⟨h, h'⟩
    have hoff' : ¬ OnRing (d.map real) (real x) := by
      intro ho
      obtain ⟨δ, hδ, hb⟩ := Metric.isOpen_iff.1 (interior_open hp.simple) _ i
      obtain ⟨y, hy, y1, y2⟩ := (C140_boundary _ hq.simple _ ho δ hδ).1
      exact Set.disjoint_left.1 b (hb hy) ((interior_iff hq.simple y).2 ⟨y1, y2⟩)
    refine (C140_inside_grid hB hx gx hq.grid hq.simple hoff' x0 h₂).2.2 ?_
    by_contra hn
    exact Set.disjoint_left.1 b i ⟨hoff', hn⟩

/-- **C167 (lines).** A line that does not touch a polygon and is said to be in it is said to be in every polygon that one is contained in. -/
theorem C167_line (hB : B + k ≤ 17) (hp : GridRing B k ps c) (hq : GridRing B k qs d) (hm : Meetless c d) (hs : Skew c d) (h₁ h₂ : List (List (Point Float)))
    {ls : List (Point Float)} {l : List (ℚ × ℚ)} (hl : GridAll B k ls l) (h2 : 2 ≤ l.length) (l0 : ∀ v ∈ l, v ≠ (0, 0))
    (hoff : ∀ e ∈ segments l, ∀ z, OnSeg (real e.1) (real e.2) z → ¬ OnRing (c.map real) z)
    (hn : ∀ e ∈ segments l, ∀ f ∈ sides c ++ sides d, ¬ (turn f.1 f.2 e.1 = 0 ∧ turn f.1 f.2 e.2 = 0))
    (hin : LinePolyRelation ls (ps :: h₁) = .contain) (h : PolyRelation (ps :: h₁) (qs :: h₂) = .contain) : LinePolyRelation ls (qs :: h₂) = .contain := by
  have hsub := (relation_regions hB hp hq hm hs h₁ h₂).1.1 h
  rcases C141_line hB hl h2 hp.grid hp.simple l0 hoff (fun e he f hf => hn e he f (List.mem_append_left _ hf)) h₁ with ⟨-, hz⟩ | ⟨hd, -⟩
  · have i : ∀ e ∈ segments l, ∀ z, OnSeg (real e.1) (real e.2) z → z ∈ Interior (d.map real) := fun e he z ho => hsub ⟨hoff e he z ho, hz e he z ho⟩
    rcases C141_line hB hl h2 hq.grid hq.simple l0 (fun e he z ho => (i e he z ho).1) (fun e he f hf => hn e he f (List.mem_append_right _ hf)) h₂ with ⟨ha, -⟩ | ⟨-, hz'⟩
    · exact ha
    · obtain ⟨e, he⟩ : ∃ e, e ∈ segments l := by
        match l, h2 with
        | a :: b :: l, _ => exact ⟨(a, b), by simp [segments]⟩
      exact absurd (hz' e he _ (end_on _ _).1) (i e he _ (end_on _ _).1).2
  · rw [hd] at hin; cases hin

end

/-! four triangles: each of the first three round the one before, the last apart -/

def ta : List (ℚ × ℚ) := [(4, 4), (6, 5), (5, 6)]
def tb : List (ℚ × ℚ) := [(3, 2), (10, 4), (5, 9)]
def tc : List (ℚ × ℚ) := [(1, 1), (30, 3), (2, 25)]
def td : List (ℚ × ℚ) := [(40, 41), (45, 42), (43, 47)]

theorem tri_simple {a b c : ℚ × ℚ} (h : 0 < turn a b c) : SimpleRing ([a, b, c].map real) := by
  apply convex_simple
  have h' : 0 < turn (real a) (real b) (real c) := by rw [turn_real]; exact_mod_cast h
  have n1 : real a ≠ real b := by intro e; rw [e] at h'; simp [turn] at h'
  have n2 : real a ≠ real c := by intro e; rw [e] at h'; simp [turn] at h'
  have n3 : real b ≠ real c := by
    intro e; rw [e] at h'; unfold turn at h'; linarith
  refine ⟨by simp, by simp [n1, n2, n3], ?_⟩
  intro e he v hv h1 h2
  simp only [List.map_cons, List.map_nil, sides, List.rotate_cons_succ, List.rotate_zero, List.cons_append, List.nil_append, List.zip_cons_cons, List.zip_nil_right,
    List.mem_cons, List.not_mem_nil, or_false] at he hv
  rcases he with rfl | rfl | rfl <;> rcases hv with rfl | rfl | rfl <;> simp only [ne_eq, not_true] at h1 h2 <;> unfold turn at h' ⊢ <;> simp only <;> linarith

theorem ta_ring : GridRing 17 0 [fpt 4 4, fpt 6 5, fpt 5 6, fpt 4 4] ta :=
  ⟨by simpa [ta] using fpt_grid [(4, 4), (6, 5), (5, 6), (4, 4)] 17 (by norm_num) (by decide), tri_simple (by norm_num [turn]), by simp [ta]⟩
theorem tb_ring : GridRing 17 0 [fpt 3 2, fpt 10 4, fpt 5 9, fpt 3 2] tb :=
  ⟨by simpa [tb] using fpt_grid [(3, 2), (10, 4), (5, 9), (3, 2)] 17 (by norm_num) (by decide), tri_simple (by norm_num [turn]), by simp [tb]⟩
theorem tc_ring : GridRing 17 0 [fpt 1 1, fpt 30 3, fpt 2 25, fpt 1 1] tc :=
  ⟨by simpa [tc] using fpt_grid [(1, 1), (30, 3), (2, 25), (1, 1)] 17 (by norm_num) (by decide), tri_simple (by norm_num [turn]), by simp [tc]⟩
theorem td_ring : GridRing 17 0 [fpt 40 41, fpt 45 42, fpt 43 47, fpt 40 41] td :=
  ⟨by simpa [td] using fpt_grid [(40, 41), (45, 42), (43, 47), (40, 41)] 17 (by norm_num) (by decide), tri_simple (by norm_num [turn]), by simp [td]⟩

theorem meetless_ab : Meetless ta tb := by
  rintro z ⟨e, he, s, s0, s1, rfl⟩ ⟨f, hf, t, t0, t1, ht⟩
  simp only [ta, tb, List.map_cons, List.map_nil, sides, List.rotate_cons_succ, List.rotate_zero, List.cons_append, List.nil_append, List.zip_cons_cons, List.zip_nil_right,
    List.mem_cons, List.not_mem_nil, or_false] at he hf
  rcases he with rfl | rfl | rfl <;> rcases hf with rfl | rfl | rfl <;>
    simp only [along, real, Prod.mk.injEq] at ht <;> obtain ⟨h1, h2⟩ := ht <;> (try norm_num at h1 h2) <;> (try linarith)

theorem meetless_bc : Meetless tb tc := by
  rintro z ⟨e, he, s, s0, s1, rfl⟩ ⟨f, hf, t, t0, t1, ht⟩
  simp only [tb, tc, List.map_cons, List.map_nil, sides, List.rotate_cons_succ, List.rotate_zero, List.cons_append, List.nil_append, List.zip_cons_cons, List.zip_nil_right,
    List.mem_cons, List.not_mem_nil, or_false] at he hf
  rcases he with rfl | rfl | rfl <;> rcases hf with rfl | rfl | rfl <;>
    simp only [along, real, Prod.mk.injEq] at ht <;> obtain ⟨h1, h2⟩ := ht <;> (try norm_num at h1 h2) <;> (try linarith)

theorem meetless_bd : Meetless tb td := by
  rintro z ⟨e, he, s, s0, s1, rfl⟩ ⟨f, hf, t, t0, t1, ht⟩
  simp only [tb, td, List.map_cons, List.map_nil, sides, List.rotate_cons_succ, List.rotate_zero, List.cons_append, List.nil_append, List.zip_cons_cons, List.zip_nil_right,
    List.mem_cons, List.not_mem_nil, or_false] at he hf
  rcases he with rfl | rfl | rfl <;> rcases hf with rfl | rfl | rfl <;>
    simp only [along, real, Prod.mk.injEq] at ht <;> obtain ⟨h1, h2⟩ := ht <;> (try norm_num at h1 h2) <;> (try linarith)

/-- the hypotheses can be met -/
example : PolyRelation (F := Float) [[fpt 4 4, fpt 6 5, fpt 5 6, fpt 4 4]] [[fpt 1 1, fpt 30 3, fpt 2 25, fpt 1 1]] = .contain :=
  C167_trans (by norm_num) ta_ring tb_ring tc_ring meetless_ab meetless_bc (by unfold Skew; decide +kernel) (by unfold Skew; decide +kernel) (by unfold Skew; decide +kernel) [] [] []
    (by decide +kernel) (by decide +kernel)

example : PolyRelation (F := Float) [[fpt 3 2, fpt 10 4, fpt 5 9, fpt 3 2]] [[fpt 4 4, fpt 6 5, fpt 5 6, fpt 4 4]] = .disjoint :=
  C167_asymm (by norm_num) ta_ring tb_ring meetless_ab (by unfold Skew; decide +kernel) [] [] (by decide +kernel)

example : PolyRelation (F := Float) [[fpt 4 4, fpt 6 5, fpt 5 6, fpt 4 4]] [[fpt 40 41, fpt 45 42, fpt 43 47, fpt 40 41]] = .disjoint ∧
    PolyRelation (F := Float) [[fpt 40 41, fpt 45 42, fpt 43 47, fpt 40 41]] [[fpt 4 4, fpt 6 5, fpt 5 6, fpt 4 4]] = .disjoint :=
  C167_inside (by norm_num) ta_ring tb_ring td_ring meetless_ab meetless_bd (by unfold Skew; decide +kernel) (by unfold Skew; decide +kernel) (by unfold Skew; decide +kernel) [] [] []
    (by decide +kernel) (by decide +kernel) (by decide +kernel)

theorem mid_off : ¬ OnRing (ta.map real) (real (5, 5)) := by
  rintro ⟨e, he, t, t0, t1, ht⟩
  simp only [ta, List.map_cons, List.map_nil, sides, List.rotate_cons_succ, List.rotate_zero, List.cons_append, List.nil_append, List.zip_cons_cons, List.zip_nil_right,
    List.mem_cons, List.not_mem_nil, or_false] at he
  rcases he with rfl | rfl | rfl <;> simp only [along, real, Prod.mk.injEq] at ht <;> obtain ⟨h1, h2⟩ := ht <;> (try norm_num at h1 h2) <;> (try linarith)

example : IsPointInPolygon (F := Float) (fpt 5 5) [[fpt 3 2, fpt 10 4, fpt 5 9, fpt 3 2]] = .contain := by
  have h := fpt_grid [(5, 5)] 17 (by norm_num) (by decide)
  simp [GridAll] at h
  exact (C167_point (B := 17) (k := 0) (by norm_num) ta_ring tb_ring meetless_ab (by unfold Skew; decide +kernel) [] [] h.1 h.2 (by norm_num) mid_off (by decide +kernel)).1 (by decide +kernel)

example : LinePolyRelation (F := Float) [fpt 5 5, fpt 6 4, fpt 7 5] [[fpt 1 1, fpt 30 3, fpt 2 25, fpt 1 1]] = .contain := by
  have h := fpt_grid [(5, 5), (6, 4), (7, 5)] 17 (by norm_num) (by decide)
  refine C167_line (B := 17) (k := 0) (l := [(5, 5), (6, 4), (7, 5)]) (by norm_num) tb_ring tc_ring meetless_bc (by unfold Skew; decide +kernel) [] [] (by simpa using h) (by simp) (by simp) ?_
    (by decide +kernel) (by decide +kernel) (by decide +kernel)
  rintro e he z ⟨s, s0, s1, rfl⟩ ⟨f, hf, t, t0, t1, ht⟩
  simp only [tb, segments, List.tail_cons, List.map_cons, List.map_nil, sides, List.rotate_cons_succ, List.rotate_zero, List.cons_append, List.nil_append, List.zip_cons_cons, List.zip_nil_right,
    List.mem_cons, List.not_mem_nil, or_false] at he hf
  rcases he with rfl | rfl <;> rcases hf with rfl | rfl | rfl <;>
    simp only [along, real, Prod.mk.injEq] at ht <;> obtain ⟨h1, h2⟩ := ht <;> (try norm_num at h1 h2) <;> (try linarith)

end GoGeo.Region
