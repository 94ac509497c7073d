import Verif.Props.Lookup

/-!
# Boxes around a point: C128
-/
set_option linter.unusedSectionVars false

namespace GoGeo
open GoFloat FloatVal Spec

section
variable {K : Type} [Field K] [LinearOrder K] [IsStrictOrderedRing K]

/-- **C128 (exact).** In exact arithmetic `NewRectBox(p, rx, ry)` contains exactly the points at most `rx` away from `p` along x and at
most `ry` along y. -/
theorem C128_exact (p q : K × K) (rx ry : K) :
    IsPointInBox (NewRectBox (pt p) (.fin rx) (.fin ry)) (pt q) = true ↔ |q.1 - p.1| ≤ rx ∧ |q.2 - p.2| ≤ ry := by
  unfold IsPointInBox NewRectBox pt
  simp only [XR.fin_sub, XR.fin_add, XR.fin_le, Bool.and_eq_true, decide_eq_true_eq, abs_le]
  constructor
  · rintro ⟨⟨⟨h1, h2⟩, h3⟩, h4⟩
    exact ⟨⟨by linarith, by linarith⟩, by linarith, by linarith⟩
  · rintro ⟨⟨h1, h2⟩, h3, h4⟩
    exact ⟨⟨⟨by linarith, by linarith⟩, by linarith⟩, by linarith⟩
end

section
variable {F K : Type} [GoFloat F] [Field K] [LinearOrder K] [IsStrictOrderedRing K] [FloatVal F K]

/-- a computed number at most `x - r` is at most the rounded difference, and similarly for sums -/
theorem around_sides {a c r : F} {x rr u : K} (hc : val c = .fin x) (hr : val r = .fin rr) (h : |u - x| ≤ rr) :
    (XR.le (.fin u) (val a) = true → XR.le (val (c - r)) (val a) = true) ∧ (XR.le (val a) (.fin u) = true → XR.le (val a) (val (c + r)) = true) := by
  rw [abs_le] at h
  constructor
  · intro ha
    rw [val_sub, hc, hr, ← rnd_val a]
    refine rnd_mono _ _ (XR.le_trans _ _ _ ?_ ha)
    rw [show XR.sub (.fin x) (.fin rr) = (.fin (x - rr) : XR K) from XR.fin_sub x rr]
    exact XR.le_fin.2 (by linarith)
  · intro ha
    rw [val_add, hc, hr, ← rnd_val a]
    refine rnd_mono _ _ (XR.le_trans _ _ _ ha ?_)
    show XR.le (.fin u) (.fin (x + rr)) = true
    exact XR.le_fin.2 (by linarith)

/-- **C128 (points).** Whatever the rounding, every point within the distances is in the box, its centre in particular. -/
theorem C128_points (p q : Point F) (rx ry : F) {x z : K × K} {dx dy : K} (hp : At p x) (hq : At q z)
    (hx : val rx = .fin dx) (hy : val ry = .fin dy) (h1 : |z.1 - x.1| ≤ dx) (h2 : |z.2 - x.2| ≤ dy) :
    IsPointInBox (NewRectBox p rx ry) q = true := by
  unfold IsPointInBox NewRectBox
  have r1 : XR.le (.fin z.1) (val q.X) = true := by rw [hq.1]; exact XR.le_fin.2 (_root_.le_refl _)
  have r2 : XR.le (val q.X) (.fin z.1) = true := by rw [hq.1]; exact XR.le_fin.2 (_root_.le_refl _)
  have r3 : XR.le (.fin z.2) (val q.Y) = true := by rw [hq.2]; exact XR.le_fin.2 (_root_.le_refl _)
  have r4 : XR.le (val q.Y) (.fin z.2) = true := by rw [hq.2]; exact XR.le_fin.2 (_root_.le_refl _)
  simp only [Bool.and_eq_true]
  rw [val_le (F := F) (K := K), val_le (F := F) (K := K), val_le (F := F) (K := K), val_le (F := F) (K := K)]
  exact ⟨⟨⟨(around_sides hp.1 hx h1).1 r1, (around_sides hp.1 hx h1).2 r2⟩, (around_sides hp.2 hy h2).1 r3⟩, (around_sides hp.2 hy h2).2 r4⟩

theorem meets_around {p : Point F} {rx ry : F} {o : Spatial F} {x z : K × K} {dx dy : K} (hp : At p x)
    (hx : val rx = .fin dx) (hy : val ry = .fin dy) (ho : Occupies o.Geom z) (h1 : |z.1 - x.1| ≤ dx) (h2 : |z.2 - x.2| ≤ dy) :
    Meets (NewRectBox p rx ry) o = true := by
  have hb := C120_box o.Geom z ho
  have key : ∀ {a b : F}, XR.le (val a) (val b) = true → lt b a = false := by
    intro a b h
    rw [val_lt]
    cases ha : val a <;> cases hb : val b <;> simp_all [XR.le, XR.lt]
  unfold Meets Box.Intersect
  rw [show lt (BoundingBox o.Geom).MaxX (NewRectBox p rx ry).MinX = false from key ((around_sides hp.1 hx h1).1 hb.maxX),
    show lt (BoundingBox o.Geom).MaxY (NewRectBox p rx ry).MinY = false from key ((around_sides hp.2 hy h2).1 hb.maxY),
    show gt (BoundingBox o.Geom).MinX (NewRectBox p rx ry).MaxX = false from key ((around_sides hp.1 hx h1).2 hb.minX),
    show gt (BoundingBox o.Geom).MinY (NewRectBox p rx ry).MaxY = false from key ((around_sides hp.2 hy h2).2 hb.minY)]
  rfl

/-- **C128 (search).** After any history of calls, searching with `NewRectBox(p, rx, ry)` returns every stored object whose geometry has a
place within the distances from `p`, although the box is computed with rounding. -/
theorem C128_search (grow : Nat → Nat) (min max : Int) (hmax : 2 ≤ max) (s : RState F) (hs : Reached grow min max s) (p : Point F) (rx ry : F)
    {x : K × K} {dx dy : K} (hp : At p x) (hx : val rx = .fin dx) (hy : val ry = .fin dy) :
    ∃ res, SearchIntersect s (some (NewRectBox p rx ry)) = .ok res ∧
      ∀ o, StoredIn s o → (∃ z : K × K, Occupies o.Geom z ∧ |z.1 - x.1| ≤ dx ∧ |z.2 - x.2| ≤ dy) → o ∈ res := by
  refine ⟨_, C02_search_exact grow min max hmax s hs _, ?_⟩
  rintro o ho ⟨z, h1, h2, h3⟩
  exact List.mem_filter.2 ⟨(C02_contents_stored grow min max hmax s hs o).1 ho, meets_around hp hx hy h1 h2 h3⟩

theorem abs_le_of_distSq {x z : K × K} {r : K} (hr : 0 ≤ r) (h : distSq x z ≤ r ^ 2) : |z.1 - x.1| ≤ r ∧ |z.2 - x.2| ≤ r := by
  unfold distSq at h
  exact ⟨abs_le_of_sq_le_sq (by nlinarith [sq_nonneg (x.2 - z.2)]) hr, abs_le_of_sq_le_sq (by nlinarith [sq_nonneg (x.1 - z.1)]) hr⟩

/-- **C128 (radius).** In particular the search with `NewRectBox(p, r, r)` returns every stored object with a place at distance at most
`r` from `p`. -/
theorem C128_radius (grow : Nat → Nat) (min max : Int) (hmax : 2 ≤ max) (s : RState F) (hs : Reached grow min max s) (p : Point F) (r : F)
    {x : K × K} {d : K} (hp : At p x) (hr : val r = .fin d) (hd : 0 ≤ d) :
    ∃ res, SearchIntersect s (some (NewRectBox p r r)) = .ok res ∧
      ∀ o, StoredIn s o → (∃ z : K × K, Occupies o.Geom z ∧ distSq x z ≤ d ^ 2) → o ∈ res := by
  obtain ⟨res, h1, h2⟩ := C128_search grow min max hmax s hs p r r hp hr hr
  exact ⟨res, h1, fun o ho ⟨z, h3, h4⟩ => h2 o ho ⟨z, h3, abs_le_of_distSq hd h4⟩⟩
end

/-- **C128 (bulk loading).** The same for a tree built from many objects at once, in float64. -/
theorem C128_bulk (lib : Math64) (hl : Math64Ok lib) (grow : Nat → Nat) (min max : Int) (hmax : 2 ≤ max)
    (objs : List (Spatial Float)) (hn : max < objs.length) (hN : objs.length ≤ 2 ^ 40) :
    ∃ s : RState Float, NewMinMaxTree64 lib goSort grow min max objs = .ok s ∧
      ∀ (p : Point Float) (rx ry : Float) (x : ℚ × ℚ) (dx dy : ℚ), At p x → val rx = .fin dx → val ry = .fin dy →
        ∃ res, SearchIntersect s (some (NewRectBox p rx ry)) = .ok res ∧
          ∀ o ∈ objs, (∃ z : ℚ × ℚ, Occupies o.Geom z ∧ |z.1 - x.1| ≤ dx ∧ |z.2 - x.2| ≤ dy) → o ∈ res := by
  obtain ⟨s, h1, -, -, -, -, h⟩ := C12_float64 lib hl grow min max hmax objs hn hN
  refine ⟨s, h1, fun p rx ry x dx dy hp hx hy => ?_⟩
  obtain ⟨res, h2, hm⟩ := h (NewRectBox p rx ry)
  exact ⟨res, h2, fun o ho ⟨z, h3, h4, h5⟩ => hm.mem_iff.2 (List.mem_filter.2 ⟨ho, meets_around hp hx hy h3 h4 h5⟩)⟩

/-- **C128 is only one way in float64**: at 2^53 + 2 the box of half-width 1 also contains 2^53 + 4. -/
theorem C128_wider_false :
    IsPointInBox (NewRectBox (F := Float) ⟨9007199254740994, 0⟩ 1 1) ⟨9007199254740996, 0⟩ = true := by decide +kernel

/-- C128 on concrete values with unequal distances -/
example : IsPointInBox (NewRectBox (F := Float) ⟨10, 20⟩ 1 5) ⟨11, 15⟩ = true ∧
    IsPointInBox (NewRectBox (F := Float) ⟨10, 20⟩ 1 5) ⟨14, 20⟩ = false := by decide +kernel

end GoGeo
