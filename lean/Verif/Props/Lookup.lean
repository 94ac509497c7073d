import Verif.Spec.Lookup
import Verif.Props.Box
import Verif.Props.Rounding
import Verif.Props.RtreeDelete
import Verif.Props.Bulk64
import Verif.Props.Grid

/-!
# Spatial lookups with the R-tree: C120, C121
-/
set_option linter.unusedSectionVars false

namespace GoGeo
open GoFloat FloatVal Spec

section
variable {F K : Type} [GoFloat F] [FloatOrd F] [Field K] [LinearOrder K] [IsStrictOrderedRing K] [FloatVal F K]

theorem XR.le_fin {a b : K} : XR.le (.fin a) (.fin b : XR K) = true ↔ a ≤ b := by simp [XR.le]

theorem placeIn_of_covers {b : Box F} {p : Point F} {z : K × K} (h : Covers b p) (hp : At p z) : PlaceIn z b := by
  have nx : IsNum p.X := by unfold IsNum; rw [val_isNaN, hp.1]; rfl
  have ny : IsNum p.Y := by unfold IsNum; rw [val_isNaN, hp.2]; rfl
  obtain ⟨a1, a2⟩ := h.x nx
  obtain ⟨a3, a4⟩ := h.y ny
  unfold Le at a1 a2 a3 a4
  rw [val_le, hp.1] at a1 a2
  rw [val_le, hp.2] at a3 a4
  exact ⟨a1, a2, a3, a4⟩

/-- a box is convex, direction by direction -/
theorem placeIn_between {b : Box F} {z w w' v v' : K × K} (hw : PlaceIn w b) (hw' : PlaceIn w' b) (hv : PlaceIn v b) (hv' : PlaceIn v' b)
    (h1 : w.1 ≤ z.1) (h2 : z.1 ≤ w'.1) (h3 : v.2 ≤ z.2) (h4 : z.2 ≤ v'.2) : PlaceIn z b :=
  ⟨XR.le_trans _ _ _ hw.minX (XR.le_fin.2 h1), XR.le_trans _ _ _ (XR.le_fin.2 h2) hw'.maxX,
   XR.le_trans _ _ _ hv.minY (XR.le_fin.2 h3), XR.le_trans _ _ _ (XR.le_fin.2 h4) hv'.maxY⟩

theorem placeIn_seg {b : Box F} {x y z : K × K} (hx : PlaceIn x b) (hy : PlaceIn y b) (h : OnSeg x y z) : PlaceIn z b := by
  obtain ⟨t, t0, t1, rfl⟩ := h
  have key : ∀ u v : K, (u ≤ u + t * (v - u) ∧ u + t * (v - u) ≤ v) ∨ (v ≤ u + t * (v - u) ∧ u + t * (v - u) ≤ u) := by
    intro u v
    rcases le_total u v with h | h
    · exact Or.inl ⟨by nlinarith, by nlinarith⟩
    · exact Or.inr ⟨by nlinarith, by nlinarith⟩
  rcases key x.1 y.1 with a | a <;> rcases key x.2 y.2 with c | c
  · exact placeIn_between hx hy hx hy a.1 a.2 c.1 c.2
  · exact placeIn_between hx hy hy hx a.1 a.2 c.1 c.2
  · exact placeIn_between hy hx hx hy a.1 a.2 c.1 c.2
  · exact placeIn_between hy hx hy hx a.1 a.2 c.1 c.2

/-- a place inside a ring by the even-odd rule has corners on all four sides -/
theorem evenOdd_sides {c : List (K × K)} {z : K × K} (h : EvenOdd c z) :
    (∃ v ∈ c, v.1 ≤ z.1) ∧ (∃ v ∈ c, z.1 ≤ v.1) ∧ (∃ v ∈ c, v.2 ≤ z.2) ∧ ∃ v ∈ c, z.2 ≤ v.2 := by
  classical
  unfold EvenOdd at h
  have hpos : 0 < (Spec.sides c).countP (fun e => decide (HitsRight z e ∧ ¬ (z.2 < e.1.2 ↔ z.2 < e.2.2))) := by
    rcases Nat.eq_zero_or_pos ((Spec.sides c).countP (fun e => decide (HitsRight z e ∧ ¬ (z.2 < e.1.2 ↔ z.2 < e.2.2)))) with h0 | h0
    · exfalso
      have e : ∀ [∀ e, Decidable (HitsRight z e ∧ ¬ (z.2 < e.1.2 ↔ z.2 < e.2.2))], (Spec.sides c).countP (fun e => decide (HitsRight z e ∧ ¬ (z.2 < e.1.2 ↔ z.2 < e.2.2))) % 2 = 1 → False := by
        intro i hi
        rw [show (Spec.sides c).countP (fun e => @decide _ (i e)) = 0 by convert h0] at hi
        omega
      exact e (by convert h)
    · exact h0
  obtain ⟨e, he, hd⟩ := List.countP_pos_iff.1 hpos
  simp only [decide_eq_true_eq] at hd
  obtain ⟨⟨u, hu, t, t0, t1, ht⟩, hs⟩ := hd
  have l := sides_mem_left he
  have r := sides_mem_right he
  have e1 := congrArg Prod.fst ht
  simp only [along] at e1
  refine ⟨?_, ?_, ?_, ?_⟩
  · by_contra hcon
    push Not at hcon
    have hall : ∀ e ∈ Spec.sides c, (¬ (z.2 < e.1.2 ↔ z.2 < e.2.2)) → HitsRight z e := by
      intro e he hs
      have hst : (e.1.2 ≤ z.2 ∧ z.2 < e.2.2) ∨ (z.2 < e.1.2 ∧ e.2.2 ≤ z.2) := by
        by_cases h1 : z.2 < e.1.2 <;> by_cases h2 : z.2 < e.2.2
        · exact absurd ⟨fun _ => h2, fun _ => h1⟩ hs
        · exact Or.inr ⟨h1, not_lt.1 h2⟩
        · exact Or.inl ⟨not_lt.1 h1, h2⟩
        · exact absurd ⟨fun h => absurd h h1, fun h => absurd h h2⟩ hs
      refine ⟨xAt z.2 e.1 e.2, ?_, xAt_onSeg hst⟩
      obtain ⟨t, t0, t1, ht⟩ := xAt_onSeg hst
      have e1 := congrArg Prod.fst ht
      simp only [along] at e1
      have a1 := hcon _ (sides_mem_left he)
      have a2 := hcon _ (sides_mem_right he)
      rw [e1]
      rcases t1.eq_or_lt with rfl | t1
      · linarith
      have m1 := mul_pos (sub_pos.2 t1) (sub_pos.2 a1)
      have m2 := mul_nonneg t0 (sub_nonneg.2 a2.le)
      nlinarith
    have hE := up_eq_down (abv z) c
    have hcount : (Spec.sides c).countP (fun e => decide (HitsRight z e ∧ ¬ (z.2 < e.1.2 ↔ z.2 < e.2.2))) =
        (Spec.sides c).countP (fun e => !abv z e.1 && abv z e.2) + (Spec.sides c).countP (fun e => abv z e.1 && !abv z e.2) := by
      have hc2 : (Spec.sides c).countP (fun e => decide (HitsRight z e ∧ ¬ (z.2 < e.1.2 ↔ z.2 < e.2.2))) =
          (Spec.sides c).countP (fun e => (!abv z e.1 && abv z e.2) || (abv z e.1 && !abv z e.2)) := by
        apply List.countP_congr
        intro e he
        have := hall e he
        simp only [abv, decide_eq_true_eq, Bool.or_eq_true, Bool.and_eq_true, Bool.not_eq_true', decide_eq_false_iff_not]
        tauto
      rw [hc2]
      generalize Spec.sides c = L
      induction L with
      | nil => rfl
      | cons e L ih =>
        simp only [List.countP_cons]
        rw [ih]
        cases abv z e.1 <;> cases abv z e.2 <;> simp <;> omega
    have h' : (Spec.sides c).countP (fun e => decide (HitsRight z e ∧ ¬ (z.2 < e.1.2 ↔ z.2 < e.2.2))) % 2 = 1 := by convert h
    rw [hcount, hE] at h'
    omega
  · by_contra hcon
    push Not at hcon
    have a1 := hcon _ l
    have a2 := hcon _ r
    have m1 := mul_nonneg (sub_nonneg.2 t1) (sub_nonneg.2 a1.le)
    have m2 := mul_nonneg t0 (sub_nonneg.2 a2.le)
    nlinarith
  · by_cases h1 : z.2 < e.1.2
    · exact ⟨_, r, not_lt.1 fun h2 => hs ⟨fun _ => h2, fun _ => h1⟩⟩
    · exact ⟨_, l, not_lt.1 h1⟩
  · by_cases h1 : z.2 < e.1.2
    · exact ⟨_, l, h1.le⟩
    · refine ⟨_, r, ?_⟩
      by_contra h2
      exact hs ⟨fun h => absurd h h1, fun h => absurd h.le h2⟩

theorem placeIn_points {b : Box F} {ps : List (Point F)} (hb : ∀ p ∈ ps, Covers b p) {z : K × K} (h : AmongPoints ps z) : PlaceIn z b := by
  obtain ⟨p, hp, hz⟩ := h
  exact placeIn_of_covers (hb p hp) hz

theorem placeIn_path {b : Box F} {ps : List (Point F)} (hb : ∀ p ∈ ps, Covers b p) {z : K × K} (h : OnPath ps z) : PlaceIn z b := by
  rcases h with h | ⟨p, q, x, y, hm, hx, hy, hz⟩
  · exact placeIn_points hb h
  · have := List.of_mem_zip hm
    exact placeIn_seg (placeIn_of_covers (hb p this.1) hx) (placeIn_of_covers (hb q (List.mem_of_mem_tail this.2)) hy) hz

theorem placeIn_ring {b : Box F} {ps : List (Point F)} (hb : ∀ p ∈ ps, Covers b p) {z : K × K} (h : InRing ps z) : PlaceIn z b := by
  rcases h with h | ⟨c, hc, he⟩
  · exact placeIn_path hb h
  · have hv : ∀ v ∈ c, PlaceIn v b := by
      intro v hv
      obtain ⟨p, hp, ha⟩ : ∃ p ∈ ps, At p v := by
        have : ∀ {ps : List (Point F)} {cs : List (K × K)}, List.Forall₂ At ps cs → v ∈ cs → ∃ p ∈ ps, At p v := by
          intro ps cs h
          induction h with
          | nil => intro h; cases h
          | cons h t ih =>
            intro hm
            rcases List.mem_cons.1 hm with rfl | hm
            · exact ⟨_, List.mem_cons_self, h⟩
            · obtain ⟨p, hp, ha⟩ := ih hm
              exact ⟨p, List.mem_cons_of_mem _ hp, ha⟩
        exact this hc (List.mem_append_left _ hv)
      exact placeIn_of_covers (hb p hp) ha
    obtain ⟨⟨v1, m1, h1⟩, ⟨v2, m2, h2⟩, ⟨v3, m3, h3⟩, v4, m4, h4⟩ := evenOdd_sides he
    exact placeIn_between (hv v1 m1) (hv v2 m2) (hv v3 m3) (hv v4 m4) h1 h2 h3 h4

/-- **C120 (boxes).** The bounding box of a geometry contains every place the geometry occupies: the segments of lines
and the inside of rings as well as the vertices. -/
theorem C120_box (g : Geometry F) (z : K × K) (h : Occupies g z) : PlaceIn z (BoundingBox g) := by
  have cov : ∀ (g : Geometry F), (∀ rs, g ≠ .polygon rs) → ∀ p ∈ vertices g, Covers (BoundingBox g) p := fun g hg p hp =>
    ⟨fun hx => (C19_boundingBox_covers g hg p hp).1 hx, fun hy => (C19_boundingBox_covers g hg p hp).2 hy⟩
  cases g with
  | point p => exact placeIn_of_covers (cov (.point p) (by simp) p (by simp [vertices])) h
  | multiPoint ps => exact placeIn_points (cov (.multiPoint ps) (by simp)) h
  | lineString ps => exact placeIn_path (cov (.lineString ps) (by simp)) h
  | multiLineString ls =>
    obtain ⟨l, hl, h⟩ := h
    exact placeIn_path (fun p hp => cov (.multiLineString ls) (by simp) p (List.mem_flatten.2 ⟨l, hl, hp⟩)) h
  | polygon rs =>
    obtain ⟨ext, holes, rfl, h⟩ := h
    exact placeIn_ring (fun p hp => ⟨fun hx => (C19_boundingBox_covers_exterior ext holes p hp).1 hx, fun hy => (C19_boundingBox_covers_exterior ext holes p hp).2 hy⟩) h
  | multiPolygon ps =>
    obtain ⟨rs, hrs, ext, holes, rfl, h⟩ := h
    exact placeIn_ring (fun p hp => cov (.multiPolygon ps) (by simp) p
      (List.mem_flatten.2 ⟨ext, List.mem_flatten.2 ⟨_, hrs, by simp⟩, hp⟩)) h
  | _ => exact absurd h id

theorem meets_of_place {q : Box F} {o : Spatial F} {z : K × K} (h : Occupies o.Geom z) (hq : PlaceIn z q) : Meets q o = true := by
  have hb := C120_box o.Geom z h
  have key : ∀ {a b : F} {u : K}, XR.le (val a) (.fin u) = true → XR.le (.fin u) (val b) = true → lt b a = false := by
    intro a b u h1 h2
    rw [val_lt]
    have := XR.le_trans _ _ _ h1 h2
    cases ha : val a <;> cases hb : val b <;> simp_all [XR.le, XR.lt]
  unfold Meets Box.Intersect
  rw [key hq.minX hb.maxX, show gt (BoundingBox o.Geom).MinX q.MaxX = false from key hb.minX hq.maxX,
    show gt (BoundingBox o.Geom).MinY q.MaxY = false from key hb.minY hq.maxY, key hq.minY hb.maxY]
  rfl

/-- **C120.** After any history of calls, a window search returns every stored object whose geometry occupies a place
in the window. -/
theorem C120_window (grow : Nat → Nat) (min max : Int) (hmax : 2 ≤ max) (s : RState F) (hs : Reached grow min max s) (q : Box F) :
    ∃ res, SearchIntersect s (some q) = .ok res ∧ ∀ o, StoredIn s o → (∃ z : K × K, Occupies o.Geom z ∧ PlaceIn z q) → o ∈ res := by
  refine ⟨_, C02_search_exact grow min max hmax s hs q, ?_⟩
  rintro o ho ⟨z, h1, h2⟩
  exact List.mem_filter.2 ⟨(C02_contents_stored grow min max hmax s hs o).1 ho, meets_of_place h1 h2⟩

/-- **C120 (two geometries).** Searching with the bounding box of a geometry returns every stored object that has a
place in common with it. -/
theorem C120_common (grow : Nat → Nat) (min max : Int) (hmax : 2 ≤ max) (s : RState F) (hs : Reached grow min max s) (g : Geometry F) :
    ∃ res, SearchIntersect s (some (BoundingBox g)) = .ok res ∧ ∀ o, StoredIn s o → (∃ z : K × K, Occupies o.Geom z ∧ Occupies g z) → o ∈ res := by
  obtain ⟨res, h, hr⟩ := C120_window (K := K) grow min max hmax s hs (BoundingBox g)
  exact ⟨res, h, fun o ho ⟨z, h1, h2⟩ => hr o ho ⟨z, h1, C120_box g z h2⟩⟩

end

/-- **C120 (bulk loading).** The same for a tree built from many objects at once, in float64. -/
theorem C120_bulk (lib : Math64) (hl : Math64Ok lib) (grow : Nat → Nat) (min max : Int) (hmax : 2 ≤ max)
    (objs : List (Spatial Float)) (hn : max < objs.length) (hN : objs.length ≤ 2 ^ 40) :
    ∃ s : RState Float, NewMinMaxTree64 lib goSort grow min max objs = .ok s ∧
      ∀ g : Geometry Float, ∃ res, SearchIntersect s (some (BoundingBox g)) = .ok res ∧ ∀ o ∈ objs, (∃ z : ℚ × ℚ, Occupies o.Geom z ∧ Occupies g z) → o ∈ res := by
  obtain ⟨s, h1, -, -, -, -, h⟩ := C12_float64 lib hl grow min max hmax objs hn hN
  refine ⟨s, h1, fun g => ?_⟩
  obtain ⟨res, h2, hp⟩ := h (BoundingBox g)
  exact ⟨res, h2, fun o ho ⟨z, h3, h4⟩ => hp.mem_iff.2 (List.mem_filter.2 ⟨ho, meets_of_place h3 (C120_box g z h4)⟩)⟩

section
variable {F K : Type} [GoFloat F] [FloatOrd F] [Field K] [LinearOrder K] [IsStrictOrderedRing K] [FloatVal F K] [FloatErr F K]

/-- **C101 (even-odd rule).** Under the hypotheses of C101 the float64 answer is CONTAIN exactly when the point is inside by
the even-odd rule, and DISJOINT otherwise, also when corners are at the height of the point. -/
theorem C101_inPolygon_evenOdd {p : Point F} {ps : List (Point F)} {x : K × K} {c : List (K × K)} (hp : At p x) (bx : Within (2 ^ 26) x)
    (hc : AtAll (2 ^ 26) ps (c ++ c.take 1)) (hx : Clear2X c x) (hy : ClearY c x) (h0 : x ≠ (0, 0)) (holes : List (List (Point F))) :
    (EvenOdd c x → IsPointInPolygon p (ps :: holes) = .contain) ∧ (¬ EvenOdd c x → IsPointInPolygon p (ps :: holes) = .disjoint) := by
  classical
  have hE := edges_forall₂ hc
  rw [edges_closed] at hE
  unfold IsPointInPolygon
  have g1 : GetExteriorRing (ps :: holes) = ps := rfl
  rw [g1, inPolyLoop_eq]
  have any1 : ((edges ps).any fun e => IsPointOnSegment e.1 e.2 p) = false := by simp [onSegment_origin hp h0]
  rw [any1, forall₂_countP hE (fun e => crossesRay p e.1 e.2) (fun e => decide (HitsRight x e ∧ ¬ (x.2 < e.1.2 ↔ x.2 < e.2.2)))]
  · have e : EvenOdd c x ↔ (sides c).countP (fun e => decide (HitsRight x e ∧ ¬ (x.2 < e.1.2 ↔ x.2 < e.2.2))) % 2 = 1 := by
      unfold EvenOdd
      constructor <;> intro h <;> convert h
    rw [e]
    generalize (sides c).countP (fun e => decide (HitsRight x e ∧ ¬ (x.2 < e.1.2 ↔ x.2 < e.2.2))) = n
    constructor <;> intro h <;> simp [h]
  · rintro ⟨a, b⟩ ⟨y, z⟩ hm ⟨⟨r1, w1⟩, r2, w2⟩
    have y1 := hy _ (sides_mem_left hm)
    have z1 := hy _ (sides_mem_right hm)
    rw [Bool.eq_iff_iff, crosses_iff hp r1 r2 bx w1 w2 y1 z1 (hx _ hm), decide_eq_true_eq]
    simp only at y1 z1 ⊢
    constructor
    · rintro ⟨h, h'⟩
      refine ⟨⟨_, h', xAt_onSeg ?_⟩, h⟩
      by_cases h1 : x.2 < y.2 <;> by_cases h2 : x.2 < z.2
      · exact absurd ⟨fun _ => h2, fun _ => h1⟩ h
      · exact Or.inr ⟨h1, not_lt.1 h2⟩
      · exact Or.inl ⟨not_lt.1 h1, h2⟩
      · exact absurd ⟨fun h => absurd h h1, fun h => absurd h h2⟩ h
    · rintro ⟨⟨u, hu, t, t0, t1, he⟩, hs⟩
      refine ⟨hs, ?_⟩
      have e1 : u = y.1 + t * (z.1 - y.1) := congrArg Prod.fst he
      have e2 : x.2 = y.2 + t * (z.2 - y.2) := congrArg Prod.snd he
      have hz : z.2 - y.2 ≠ 0 := by
        intro h
        apply hs
        rw [show z.2 = y.2 by linarith]
      have ht : t = (x.2 - y.2) / (z.2 - y.2) := by rw [eq_div_iff hz]; linarith
      have hxa : xAt x.2 y z = u := by
        rw [e1, ht]; unfold xAt
        rw [show y.1 - z.1 = -(z.1 - y.1) by ring, show y.2 - z.2 = -(z.2 - y.2) by ring, mul_neg, neg_div_neg_eq]
        ring
      rw [hxa]; exact hu

/-- **C121 (partial).** Searching with the box of a point returns every stored polygon for which
`IsPointInPolygon` answers CONTAIN, for points clear of the boundary as in C101.
Missing: that clearance, which `C121_false` shows to be needed. -/
theorem C121_lookup_partial (grow : Nat → Nat) (min max : Int) (hmax : 2 ≤ max) (s : RState F) (hs : Reached grow min max s) (p : Point F) (x : K × K)
    (hp : At p x) (bx : Within (2 ^ 26) x) (h0 : x ≠ (0, 0)) :
    ∃ res, SearchIntersect s (some (BoundingBox (.point p))) = .ok res ∧
      ∀ (o : Spatial F) (ps : List (Point F)) (holes : List (List (Point F))) (c : List (K × K)), StoredIn s o → o.Geom = .polygon (ps :: holes) →
        AtAll (2 ^ 26) ps (c ++ c.take 1) → Clear2X c x → ClearY c x → IsPointInPolygon p (ps :: holes) = .contain → o ∈ res := by
  obtain ⟨res, h, hr⟩ := C120_common (K := K) grow min max hmax s hs (.point p)
  refine ⟨res, h, fun o ps holes c ho hg hc hx hy hin => hr o ho ⟨x, ?_, hp⟩⟩
  rw [hg]
  refine ⟨ps, holes, rfl, Or.inr ⟨c, hc.imp fun _ _ h => h.1, ?_⟩⟩
  by_contra hcon
  rw [(C101_inPolygon_evenOdd hp bx hc hx hy h0 holes).2 hcon] at hin
  cases hin

theorem edges_tail {α : Type} : ∀ l : List α, edges l = l.zip l.tail
  | [] => rfl
  | [_] => rfl
  | a :: b :: l => by
    have := edges_tail (b :: l)
    simp only [edges, List.tail_cons, List.zip_cons_cons] at this ⊢
    rw [this]

/-- **C121 (grid).** When the coordinates are multiples of `1 / 2^k` with numerators up to `2^B`, `B + k ≤ 17`, no clearance
is needed: for every such point but the origin, the search with its box returns every stored polygon (on the grid)
for which `IsPointInPolygon` answers CONTAIN, and every one with the point on its boundary. -/
theorem C121_grid (grow : Nat → Nat) (min max : Int) (hmax : 2 ≤ max) (s : RState F) (hs : Reached grow min max s) (p : Point F) (x : K × K)
    {B k : ℕ} (hB : B + k ≤ 17) (hp : At p x) (gx : OnGrid B k x) (h0 : x ≠ (0, 0)) :
    ∃ res, SearchIntersect s (some (BoundingBox (.point p))) = .ok res ∧
      ∀ (o : Spatial F) (ps : List (Point F)) (holes : List (List (Point F))) (c : List (K × K)), StoredIn s o → o.Geom = .polygon (ps :: holes) →
        GridAll B k ps (c ++ c.take 1) → (IsPointInPolygon p (ps :: holes) = .contain ∨ ∃ e ∈ sides c, OnSeg e.1 e.2 x) → o ∈ res := by
  obtain ⟨res, h, hr⟩ := C120_common (K := K) grow min max hmax s hs (.point p)
  refine ⟨res, h, fun o ps holes c ho hg hc hin => hr o ho ⟨x, ?_, hp⟩⟩
  rw [hg]
  refine ⟨ps, holes, rfl, ?_⟩
  have hat : List.Forall₂ At ps (c ++ c.take 1) := hc.imp fun _ _ h => h.1
  by_cases hon : ∃ e ∈ sides c, OnSeg e.1 e.2 x
  · obtain ⟨e, he, hs⟩ := hon
    rw [← edges_closed] at he
    obtain ⟨e', he', h1, h2⟩ := forall₂_mem_right (edges_forall₂ hc) he
    rw [edges_tail] at he'
    exact Or.inl (Or.inr ⟨e'.1, e'.2, e.1, e.2, he', h1.1, h2.1, hs⟩)
  · have hin := hin.resolve_right hon
    push Not at hon
    have w : ∀ {v : K × K}, OnGrid B k v → Within (2 ^ 26) v := by
      rintro v ⟨m, n, b1, b2, rfl⟩
      have q : ∀ j : ℤ, |j| ≤ 2 ^ B → |(j : K) / 2 ^ k| ≤ 2 ^ 26 := by
        intro j hj
        rw [abs_div, abs_of_pos (by positivity : (0 : K) < 2 ^ k)]
        have h1 : |(j : K)| ≤ 2 ^ B := by exact_mod_cast hj
        have h2 : (2 : K) ^ B ≤ 2 ^ 26 := pow_le_pow_right₀ (by norm_num) (by omega)
        exact (div_le_self (abs_nonneg _) (one_le_pow₀ (by norm_num))).trans (h1.trans h2)
      exact ⟨q m b1, q n b2⟩
    have gc : ∀ v ∈ c, OnGrid B k v := by
      intro v hv
      obtain ⟨p, -, -, h⟩ := forall₂_mem_right hc (List.mem_append_left _ hv)
      exact h
    refine Or.inr ⟨c, hat, ?_⟩
    by_contra hcon
    rw [(C101_inPolygon_evenOdd hp (w gx) (List.Forall₂.imp (fun _ _ h => ⟨h.1, w h.2⟩) hc) (grid_clear2X hB gc gx hon) (grid_clearY hB gc gx) h0 holes).2 hcon] at hin
    cases hin

end

/-- the triangle of `C37_outside_box_false`, in a tree -/
def exLookup : Go (RState Float) :=
  insertAll (fun _ => 8) (NewEmptyTree 2 10) [⟨"a", .nil, .polygon [[⟨0, 0.000001⟩, ⟨10, 0.0000009⟩, ⟨5, -5⟩, ⟨0, 0.000001⟩]]⟩]

/-- **C121 is false.** Without the clearance the two disagree: the only stored polygon is reported to
contain (50,0), and the search with the box of that point returns nothing. -/
theorem C121_false :
    (match exLookup with
      | .ok s => (match SearchIntersect s (some (BoundingBox (.point ⟨50, 0⟩))) with | .ok [] => true | _ => false)
      | .error _ => false) = true ∧
    IsPointInPolygon (F := Float) ⟨50, 0⟩ [[⟨0, 0.000001⟩, ⟨10, 0.0000009⟩, ⟨5, -5⟩, ⟨0, 0.000001⟩]] = .contain := by
  decide +kernel

/-- a line occupies the middle of its segment, and its box contains it -/
example : Occupies (.lineString [fpt 0 0, fpt 4 2] : Geometry Float) ((2 : ℚ), (1 : ℚ)) := by
  have h0 : At (fpt 0 0) ((0 : ℚ), (0 : ℚ)) := by simpa using fpt_at 0 0 (by norm_num) (by norm_num)
  have h1 : At (fpt 4 2) ((4 : ℚ), (2 : ℚ)) := by simpa using fpt_at 4 2 (by norm_num) (by norm_num)
  exact Or.inr ⟨fpt 0 0, fpt 4 2, (0, 0), (4, 2), by simp, h0, h1, 1 / 2, by norm_num, by norm_num, by norm_num [along]⟩

end GoGeo
