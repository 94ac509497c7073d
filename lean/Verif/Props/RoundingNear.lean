import Verif.Props.Lookup
import Verif.Props.Near
import Verif.Props.Grid

/-!
# Nearest neighbours as computed with rounding: C122
-/
set_option linter.unusedSectionVars false
set_option exponentiation.threshold 2000

namespace GoGeo
open GoFloat FloatVal Spec

section
variable {F K : Type} [GoFloat F] [FloatOrd F] [Field K] [LinearOrder K] [IsStrictOrderedRing K] [FloatVal F K]

/-- the sides of the box of a located geometry -/
theorem located_box {g : Geometry F} (h : Located (2 ^ 31 : K) g) : ∃ a b c d : K, val (BoundingBox g).MinX = .fin a ∧ val (BoundingBox g).MinY = .fin b ∧
    val (BoundingBox g).MaxX = .fin c ∧ val (BoundingBox g).MaxY = .fin d ∧ a ≤ c ∧ b ≤ d ∧ |a| ≤ 2 ^ 31 ∧ |b| ≤ 2 ^ 31 ∧ |c| ≤ 2 ^ 31 ∧ |d| ≤ 2 ^ 31 ∧
    (∃ v ∈ boxedVertices g, val v.X = .fin a) ∧ (∃ v ∈ boxedVertices g, val v.Y = .fin b) ∧ (∃ v ∈ boxedVertices g, val v.X = .fin c) ∧ (∃ v ∈ boxedVertices g, val v.Y = .fin d) ∧
    ProperGeom g := by
  have v31 : val (lit (2 ^ 31) : F) = .fin (2 ^ 31 : K) := by
    have := fval_nat (F := F) (K := K) (2 ^ 31) (by norm_num)
    rw [this]; congr 1; norm_num
  have b31 : ∀ {f : F} {x : K}, val f = .fin x → |x| ≤ 2 ^ 31 → Bounded31 f := by
    intro f x hf hx
    have := abs_le.1 hx
    unfold Bounded31 Le
    rw [val_le, val_le, val_neg, v31, hf]
    simp only [XR.neg, XR.le, decide_eq_true_eq]
    exact this
  have hb : ∀ p ∈ boxedVertices g, Bounded31 p.X ∧ Bounded31 p.Y := by
    intro p hp
    obtain ⟨z, hz, w⟩ := h.2 p hp
    exact ⟨b31 hz.1 w.1, b31 hz.2 w.2⟩
  obtain ⟨⟨p1, m1, s1⟩, ⟨p2, m2, s2⟩, ⟨p3, m3, s3⟩, ⟨p4, m4, s4⟩⟩ := C20_boundingBox_attained g h.1 hb
  have same : ∀ {f f' : F} {x : K}, Same f f' → val f' = .fin x → val f = .fin x := by
    intro f f' x hs hx
    obtain ⟨h1, h2⟩ := hs
    unfold Le at h1 h2
    rw [val_le, hx] at h1 h2
    cases hv : val f <;> rw [hv] at h1 h2 <;> simp [XR.le] at h1 h2
    rw [le_antisymm h1 h2]
  obtain ⟨z1, a1, w1⟩ := h.2 p1 m1
  obtain ⟨z2, a2, w2⟩ := h.2 p2 m2
  obtain ⟨z3, a3, w3⟩ := h.2 p3 m3
  obtain ⟨z4, a4, w4⟩ := h.2 p4 m4
  have e1 := same s1 a1.1
  have e2 := same s2 a2.2
  have e3 := same s3 a3.1
  have e4 := same s4 a4.2
  have hin := (C20_boundingBox_least g h.1 hb).1 p1 m1
  have hx := hin.minX.trans hin.maxX
  have hy := hin.minY.trans hin.maxY
  have hx' := hx
  have hy' := hy
  unfold Le at hx' hy'
  rw [val_le, e1, e3] at hx'
  rw [val_le, e2, e4] at hy'
  exact ⟨z1.1, z2.2, z3.1, z4.2, e1, e2, e3, e4, XR.le_fin.1 hx', XR.le_fin.1 hy', w1.1, w2.2, w3.1, w4.2,
    ⟨p1, m1, a1.1⟩, ⟨p2, m2, a2.2⟩, ⟨p3, m3, a3.1⟩, ⟨p4, m4, a4.2⟩, hx, hy⟩

/-- the box of a point is that point -/
theorem placeIn_point {q : Point F} {y w : K × K} (hq : At q y) (hy : Within (2 ^ 31) y) (h : PlaceIn w (BoundingBox (.point q))) : w = y := by
  obtain ⟨a, b, c, d, ea, eb, ec, ed, -, -, -, -, -, -, ⟨v1, m1, e1⟩, ⟨v2, m2, e2⟩, ⟨v3, m3, e3⟩, ⟨v4, m4, e4⟩, -⟩ := located_box (K := K) (g := .point q)
    ⟨by simp [boxedVertices, vertices], by
      intro v hv
      simp only [boxedVertices, vertices, List.mem_singleton] at hv
      subst hv
      exact ⟨y, hq, hy⟩⟩
  simp only [boxedVertices, vertices, List.mem_singleton] at m1 m2 m3 m4
  subst m1 m2 m3 m4
  rw [hq.1] at e1 e3
  rw [hq.2] at e2 e4
  obtain ⟨h1, h2, h3, h4⟩ := h
  rw [ea, ← e1] at h1
  rw [ec, ← e3] at h2
  rw [eb, ← e2] at h3
  rw [ed, ← e4] at h4
  exact Prod.ext (le_antisymm (XR.le_fin.1 h2) (XR.le_fin.1 h1)) (le_antisymm (XR.le_fin.1 h4) (XR.le_fin.1 h3))

theorem at_unique {q : Point F} {y y' : K × K} (h : At q y) (h' : At q y') : y = y' := by
  have e1 : XR.fin y.1 = XR.fin y'.1 := by rw [← h'.1, ← h.1]
  have e2 : XR.fin y.2 = XR.fin y'.2 := by rw [← h'.2, ← h.2]
  injection e1 with e1
  injection e2 with e2
  exact Prod.ext e1 e2

/-- which of the three cases of `axisDist` applies -/
theorem axisDist_cases {f g h : F} {x a c : K} (hf : val f = .fin x) (hg : val g = .fin a) (hh : val h = .fin c) (hac : a ≤ c) :
    ∃ u : K, a ≤ u ∧ u ≤ c ∧ (∀ w, a ≤ w → w ≤ c → (x - u) ^ 2 ≤ (x - w) ^ 2) ∧
      ((u = a ∧ axisDist f g h = (f - g) * (f - g)) ∨ (u = c ∧ axisDist f g h = (f - h) * (f - h)) ∨ (u = x ∧ axisDist f g h = lit 0)) := by
  unfold axisDist
  by_cases h1 : x < a
  · refine ⟨a, le_rfl, hac, fun w hw _ => by nlinarith, Or.inl ⟨rfl, ?_⟩⟩
    rw [if_pos (by rw [val_lt, hf, hg]; simpa [XR.lt] using h1)]
  · have e1 : lt f g = false := by rw [val_lt, hf, hg]; simpa [XR.lt] using h1
    by_cases h2 : c < x
    · refine ⟨c, hac, le_rfl, fun w _ hw => by nlinarith, Or.inr (Or.inl ⟨rfl, ?_⟩)⟩
      have e2 : gt f h = true := by show lt h f = true; rw [val_lt, hf, hh]; simpa [XR.lt] using h2
      simp [e1, e2]
    · refine ⟨x, le_of_not_gt h1, le_of_not_gt h2, fun w _ _ => by rw [sub_self, zero_pow two_ne_zero]; exact sq_nonneg _, Or.inr (Or.inr ⟨rfl, ?_⟩)⟩
      have e2 : gt f h = false := by show lt h f = false; rw [val_lt, hf, hh]; simpa [XR.lt] using h2
      simp [e1, e2]

end

section
variable {F K : Type} [GoFloat F] [FloatOrd F] [Field K] [LinearOrder K] [IsStrictOrderedRing K] [FloatVal F K] [FloatErr F K]

theorem axisSq_near {f g : F} {x a : K} (hf : val f = .fin x) (hg : val g = .fin a) (hx : |x| ≤ 2 ^ 31) (ha : |a| ≤ 2 ^ 31) :
    ∃ m : K, val ((f - g) * (f - g)) = .fin m ∧ |m - (x - a) ^ 2| ≤ (x - a) ^ 2 * (4 / 2 ^ 53) + 1 / 2 ^ 1030 := by
  have he : |x - a| ≤ 2 ^ 32 := (abs_sub x a).trans (by norm_num at *; linarith)
  obtain ⟨e', h1, h2⟩ := FloatErr.rnd_err (F := F) (x - a) (he.trans (by norm_num))
  have hv : val (f - g) = .fin e' := by rw [val_sub_fin hf hg, h1]
  generalize hx : x - a = e at *
  obtain ⟨t, ht⟩ : ∃ t : K, t = 1 / 2 ^ 1075 := ⟨_, rfl⟩
  have t0 : 0 < t := by rw [ht]; positivity
  have t1 : t ≤ 1 := by rw [ht]; norm_num
  rw [← ht] at h2
  have e0 := abs_nonneg e
  have b1 : |e' + e| ≤ 2 * |e| + |e| / 2 ^ 53 + t := by
    have : e' + e = (e' - e) + 2 * e := by ring
    rw [this]
    refine (abs_add_le _ _).trans ?_
    rw [abs_mul, abs_two]; linarith
  have b2 : |e' ^ 2 - e ^ 2| ≤ (|e| / 2 ^ 53 + t) * (2 * |e| + |e| / 2 ^ 53 + t) := by
    have : e' ^ 2 - e ^ 2 = (e' - e) * (e' + e) := by ring
    rw [this, abs_mul]
    exact mul_le_mul h2 b1 (abs_nonneg _) (by positivity)
  have sq : |e| * |e| = e ^ 2 := by rw [← sq, sq_abs]
  have te : t * |e| ≤ t * 2 ^ 32 := mul_le_mul_of_nonneg_left he t0.le
  have tt : t * t ≤ t := by nlinarith
  have b3 : |e' ^ 2 - e ^ 2| ≤ e ^ 2 * (5 / 2 / 2 ^ 53) + t * 2 ^ 34 := by
    refine b2.trans ?_
    have : (|e| / 2 ^ 53 + t) * (2 * |e| + |e| / 2 ^ 53 + t) = (|e| * |e|) * ((2 + 1 / 2 ^ 53) / 2 ^ 53) + (t * |e|) * (2 + 2 / 2 ^ 53) + t * t := by ring
    rw [this, sq]
    have s0 := sq_nonneg e
    generalize e ^ 2 = s at *
    norm_num at *
    linarith
  have s0 := sq_nonneg e
  have s1 : e ^ 2 ≤ 2 ^ 64 := by
    rw [← sq]
    calc |e| * |e| ≤ 2 ^ 32 * 2 ^ 32 := mul_le_mul he he e0 (by positivity)
      _ = 2 ^ 64 := by norm_num
  have s2 : e' ^ 2 ≤ e ^ 2 + (e ^ 2 * (5 / 2 / 2 ^ 53) + t * 2 ^ 34) := by linarith [(abs_le.1 b3).2]
  have s3 := sq_nonneg e'
  obtain ⟨m, h3, h4⟩ := FloatErr.rnd_err (F := F) (e' * e') (by
    rw [← pow_two, abs_of_nonneg s3]
    refine s2.trans ?_
    generalize e ^ 2 = s at *
    have : (2 : K) ^ 64 * 4 + 2 ^ 35 ≤ 2 ^ 1023 := by norm_num
    refine le_trans ?_ this
    norm_num at *
    linarith)
  refine ⟨m, by rw [val_mul, hv]; exact h3, ?_⟩
  have tri := abs_add_le (m - e' * e') (e' ^ 2 - e ^ 2)
  rw [show m - e' * e' + (e' ^ 2 - e ^ 2) = m - e ^ 2 by ring] at tri
  rw [← ht, ← pow_two, abs_of_nonneg s3] at h4
  rw [← pow_two] at tri
  have big : (1 : K) / 2 ^ 1030 = t * 2 ^ 45 := by rw [ht]; norm_num
  rw [big]
  refine tri.trans ((add_le_add h4 b3).trans ?_)
  clear h4 b3 tri b2 h3 h2
  generalize e ^ 2 = s at *
  generalize e' ^ 2 = s' at *
  norm_num at *
  linarith

/-- the computed squared distance to the box of a located geometry, and the nearest place of the box -/
theorem objDist_near {p : Point F} {x : K × K} (hp : At p x) (hx : Within (2 ^ 31) x) {o : Spatial F} (h : Located (2 ^ 31 : K) o.Geom) :
    ∃ (m : K) (w : K × K), val (objDist p o) = .fin m ∧ PlaceIn w (BoundingBox o.Geom) ∧ (∀ z, PlaceIn z (BoundingBox o.Geom) → distSq x w ≤ distSq x z) ∧
      |m - distSq x w| ≤ distSq x w * (6 / 2 ^ 53) + 1 / 2 ^ 1020 := by
  obtain ⟨a, b, c, d, ea, eb, ec, ed, hac, hbd, wa, wb, wc, wd, -⟩ := located_box h
  have axis : ∀ {f g h : F} {x a c : K}, val f = .fin x → val g = .fin a → val h = .fin c → a ≤ c → |x| ≤ 2 ^ 31 → |a| ≤ 2 ^ 31 → |c| ≤ 2 ^ 31 →
      ∃ u m : K, a ≤ u ∧ u ≤ c ∧ (∀ w, a ≤ w → w ≤ c → (x - u) ^ 2 ≤ (x - w) ^ 2) ∧ val (axisDist f g h) = .fin m ∧
        |m - (x - u) ^ 2| ≤ (x - u) ^ 2 * (4 / 2 ^ 53) + 1 / 2 ^ 1030 ∧ (x - u) ^ 2 ≤ 2 ^ 64 := by
    intro f g h x a c hf hg hh hac hx ha hc
    obtain ⟨u, u1, u2, hu, hcase⟩ := axisDist_cases hf hg hh hac
    have hu' : |u| ≤ 2 ^ 31 := abs_le.2 ⟨(abs_le.1 ha).1.trans u1, u2.trans (abs_le.1 hc).2⟩
    have h64 : (x - u) ^ 2 ≤ 2 ^ 64 := by
      have he : |x - u| ≤ 2 ^ 32 := (abs_sub x u).trans (by norm_num at *; linarith)
      rw [← sq_abs, pow_two]
      calc |x - u| * |x - u| ≤ 2 ^ 32 * 2 ^ 32 := mul_le_mul he he (abs_nonneg _) (by positivity)
        _ = 2 ^ 64 := by norm_num
    rcases hcase with ⟨rfl, e⟩ | ⟨rfl, e⟩ | ⟨rfl, e⟩
    · obtain ⟨m, h1, h2⟩ := axisSq_near hf hg hx ha
      exact ⟨u, m, u1, u2, hu, by rw [e, h1], h2, h64⟩
    · obtain ⟨m, h1, h2⟩ := axisSq_near hf hh hx hc
      exact ⟨u, m, u1, u2, hu, by rw [e, h1], h2, h64⟩
    · exact ⟨u, 0, u1, u2, hu, by rw [e, val_lit0], by rw [sub_self]; norm_num, h64⟩
  obtain ⟨u, m, u1, u2, u3, um, ue, ub⟩ := axis hp.1 ea ec hac hx.1 wa wc
  obtain ⟨v, n, v1, v2, v3, vn, ve, vb⟩ := axis hp.2 eb ed hbd hx.2 wb wd
  have hsum : val (lit 0 + axisDist p.X (BoundingBox o.Geom).MinX (BoundingBox o.Geom).MaxX) = .fin m := by
    rw [val_add, val_lit0, um]
    have := rnd_val (F := F) (K := K) (axisDist p.X (BoundingBox o.Geom).MinX (BoundingBox o.Geom).MaxX)
    rw [um] at this
    rw [← this]
    simp [XR.add, this]
  have d1 := sq_nonneg (x.1 - u)
  have d2 := sq_nonneg (x.2 - v)
  have hmn : |m + n - ((x.1 - u) ^ 2 + (x.2 - v) ^ 2)| ≤ ((x.1 - u) ^ 2 + (x.2 - v) ^ 2) * (4 / 2 ^ 53) + 2 / 2 ^ 1030 := by
    rw [show m + n - ((x.1 - u) ^ 2 + (x.2 - v) ^ 2) = (m - (x.1 - u) ^ 2) + (n - (x.2 - v) ^ 2) by ring]
    refine (abs_add_le _ _).trans ?_
    have : (2 : K) / 2 ^ 1030 = 1 / 2 ^ 1030 + 1 / 2 ^ 1030 := by ring
    rw [this]; linarith
  have hD : (x.1 - u) ^ 2 + (x.2 - v) ^ 2 = distSq x (u, v) := rfl
  rw [hD] at hmn
  have D0 : 0 ≤ distSq x (u, v) := by rw [← hD]; linarith
  have D1 : distSq x (u, v) ≤ 2 ^ 65 := by rw [← hD]; norm_num at *; linarith
  have absmn : |m + n| ≤ distSq x (u, v) + (distSq x (u, v) * (4 / 2 ^ 53) + 2 / 2 ^ 1030) := by
    have := abs_sub_abs_le_abs_sub (m + n) (distSq x (u, v))
    rw [abs_of_nonneg D0] at this
    linarith
  have small : (2 : K) / 2 ^ 1030 ≤ 1 := by norm_num
  obtain ⟨r, h1, h2⟩ := FloatErr.rnd_err (F := F) (m + n) (by
    refine absmn.trans ?_
    have : (2 : K) ^ 65 * 2 + 1 ≤ 2 ^ 1023 := by norm_num
    refine le_trans ?_ this
    generalize (2 : K) / 2 ^ 1030 = q at *
    norm_num at *
    linarith)
  refine ⟨r, (u, v), ?_, ⟨?_, ?_, ?_, ?_⟩, ?_, ?_⟩
  · unfold objDist
    rw [minDist_eq, val_add, hsum, vn]
    exact h1
  · rw [ea]; exact XR.le_fin.2 u1
  · rw [ec]; exact XR.le_fin.2 u2
  · rw [eb]; exact XR.le_fin.2 v1
  · rw [ed]; exact XR.le_fin.2 v2
  · intro z hz
    obtain ⟨z1, z2, z3, z4⟩ := hz
    rw [ea] at z1
    rw [ec] at z2
    rw [eb] at z3
    rw [ed] at z4
    have := u3 z.1 (XR.le_fin.1 z1) (XR.le_fin.1 z2)
    have := v3 z.2 (XR.le_fin.1 z3) (XR.le_fin.1 z4)
    unfold distSq
    linarith
  · have tri := abs_add_le (r - (m + n)) (m + n - distSq x (u, v))
    rw [sub_add_sub_cancel] at tri
    refine tri.trans ((add_le_add h2 hmn).trans ?_)
    have c1 : (1 : K) / 2 ^ 1075 + 2 / 2 ^ 1030 + (2 / 2 ^ 1030) / 2 ^ 53 ≤ 1 / 2 ^ 1020 := by norm_num
    have c2 : |m + n| / 2 ^ 53 ≤ (distSq x (u, v) + (distSq x (u, v) * (4 / 2 ^ 53) + 2 / 2 ^ 1030)) / 2 ^ 53 := div_le_div_of_nonneg_right absmn (by positivity)
    have c3 : (distSq x (u, v) + (distSq x (u, v) * (4 / 2 ^ 53) + 2 / 2 ^ 1030)) / 2 ^ 53 = distSq x (u, v) * ((1 + 4 / 2 ^ 53) / 2 ^ 53) + (2 / 2 ^ 1030) / 2 ^ 53 := by ring
    rw [c3] at c2
    have c4 : distSq x (u, v) * ((1 + 4 / 2 ^ 53) / 2 ^ 53) ≤ distSq x (u, v) * (2 / 2 ^ 53) := mul_le_mul_of_nonneg_left (by norm_num) D0
    have c5 : distSq x (u, v) * (6 / 2 ^ 53) = distSq x (u, v) * (4 / 2 ^ 53) + distSq x (u, v) * (2 / 2 ^ 53) := by ring
    rw [c5]
    linarith

/-- what the order of the computed distances says of the places -/
theorem closer_of_le {p : Point F} {x : K × K} (hp : At p x) (hx : Within (2 ^ 31) x) {r o : Spatial F} (lr : Located (2 ^ 31 : K) r.Geom) (lo : Located (2 ^ 31 : K) o.Geom)
    (h : Le (objDist p r) (objDist p o)) (z : K × K) (hz : PlaceIn z (BoundingBox o.Geom)) :
    ∃ w, PlaceIn w (BoundingBox r.Geom) ∧ distSq x w ≤ (1 + 1 / 2 ^ 48) * distSq x z + 1 / 2 ^ 1000 := by
  obtain ⟨m, w, em, pw, -, hw⟩ := objDist_near hp hx lr
  obtain ⟨n, v, en, pv, hv, hw'⟩ := objDist_near hp hx lo
  unfold Le at h
  rw [val_le, em, en] at h
  have hle := XR.le_fin.1 h
  refine ⟨w, pw, ?_⟩
  have hz' := hv z hz
  have d0 : 0 ≤ distSq x v := by unfold distSq; positivity
  have a1 := (abs_le.1 hw).1
  have a2 := (abs_le.1 hw').2
  have T : (1 : K) / 2 ^ 1020 * 4 ≤ 1 / 2 ^ 1000 := by norm_num
  have T0 : (0 : K) < 1 / 2 ^ 1020 := by positivity
  clear hw hw' h em en pw pv
  generalize (1 : K) / 2 ^ 1000 = T1 at *
  generalize (1 : K) / 2 ^ 1020 = T2 at *
  generalize distSq x w = W at *
  generalize distSq x v = V at *
  generalize distSq x z = Z at *
  norm_num at *
  linarith

/-- **C122.** On every tree reached by any history of calls, when every stored geometry has vertices at finite places of
coordinates at most 2^31, `NearestNeighbors(k, p)` returns `min k size` of the stored objects.  For every object
`o` left out, every place `z` of `o` and every object `r` returned, the box of `r` has a place `w` that is, up to a
factor of 1+2^-48 in the squared distance (and 2^-1000), at least as close to `p` as `z`; and so it is for `r`
returned before `o` and every place `z` of the box of `o`. -/
theorem C122_nearest (srt : GoSort) (hsrt : SortOk srt) (grow : Nat → Nat) (min max : Int) (hmax : 2 ≤ max)
    (s : RState F) (hs : Reached grow min max s) (hloc : ∀ o ∈ contents s, Located (2 ^ 31 : K) o.Geom)
    (k : Nat) (hk : 1 ≤ k) (p : Point F) (x : K × K) (hp : At p x) (hx : Within (2 ^ 31) x) :
    ∃ res rest, NearestNeighbors srt s k p = .ok res ∧ (contents s).Perm (res ++ rest) ∧ res.length = Min.min k (contents s).length ∧
      (∀ r ∈ res, ∀ o ∈ rest, ∀ z, Occupies o.Geom z →
        ∃ w, PlaceIn w (BoundingBox r.Geom) ∧ distSq x w ≤ (1 + 1 / 2 ^ 48) * distSq x z + 1 / 2 ^ 1000) ∧
      res.Pairwise fun r o => ∀ z, PlaceIn z (BoundingBox o.Geom) →
        ∃ w, PlaceIn w (BoundingBox r.Geom) ∧ distSq x w ≤ (1 + 1 / 2 ^ 48) * distSq x z + 1 / 2 ^ 1000 := by
  obtain ⟨res, h1, rest, h2, h3⟩ := C07_nearest (K := K) srt hsrt grow min max hmax s hs (fun o ho => by
    obtain ⟨_, _, _, _, _, _, _, _, _, _, _, _, _, _, _, _, _, _, h⟩ := located_box (hloc o ho)
    exact h) k hk p
  have lr : ∀ r ∈ res, Located (2 ^ 31 : K) r.Geom := fun r hr => hloc r (h2.perm.mem_iff.2 (List.mem_append_left _ hr))
  have lo : ∀ o ∈ rest, Located (2 ^ 31 : K) o.Geom := fun o ho => hloc o (h2.perm.mem_iff.2 (List.mem_append_right _ ho))
  refine ⟨res, rest, h1, h2.perm, h2.count, fun r hr o ho z hz => closer_of_le hp hx (lr r hr) (lo o ho) (h3 o ho r hr) z (C120_box o.Geom z hz), ?_⟩
  exact List.Pairwise.imp_of_mem (fun {a b} ha hb h z hz => closer_of_le hp hx (lr a ha) (lr b hb) h z hz) h2.sorted

/-- **C122 (points).** A returned point at `y` is, up to that factor, at least as close to `p` as every place of every
object left out. -/
theorem C122_points (srt : GoSort) (hsrt : SortOk srt) (grow : Nat → Nat) (min max : Int) (hmax : 2 ≤ max)
    (s : RState F) (hs : Reached grow min max s) (hloc : ∀ o ∈ contents s, Located (2 ^ 31 : K) o.Geom)
    (k : Nat) (hk : 1 ≤ k) (p : Point F) (x : K × K) (hp : At p x) (hx : Within (2 ^ 31) x) :
    ∃ res rest, NearestNeighbors srt s k p = .ok res ∧ (contents s).Perm (res ++ rest) ∧ res.length = Min.min k (contents s).length ∧
      ∀ r ∈ res, ∀ q y, r.Geom = .point q → At q y → ∀ o ∈ rest, ∀ z, Occupies o.Geom z →
        distSq x y ≤ (1 + 1 / 2 ^ 48) * distSq x z + 1 / 2 ^ 1000 := by
  obtain ⟨res, rest, h1, h2, h3, h4, -⟩ := C122_nearest (K := K) srt hsrt grow min max hmax s hs hloc k hk p x hp hx
  refine ⟨res, rest, h1, h2, h3, fun r hr q y hg hq o ho z hz => ?_⟩
  obtain ⟨w, pw, hw⟩ := h4 r hr o ho z hz
  have lr := hloc r (h2.mem_iff.2 (List.mem_append_left _ hr))
  rw [hg] at pw lr
  obtain ⟨y', hy', wy⟩ := lr.2 q (by simp [boxedVertices, vertices])
  rw [at_unique hq hy']
  rw [placeIn_point hy' wy pw] at hw
  exact hw

end

section
variable {F K : Type} [GoFloat F] [FloatOrd F] [Field K] [LinearOrder K] [IsStrictOrderedRing K] [FloatVal F K]

theorem onGrid_within {k : ℕ} {z : K × K} (h : OnGrid 25 k z) : Within (2 ^ 31) z := by
  obtain ⟨m, n, hm, hn, rfl⟩ := h
  have : ∀ a : ℤ, |a| ≤ 2 ^ 25 → |(a : K) / 2 ^ k| ≤ 2 ^ 31 := by
    intro a ha
    have h1 : |(a : K)| ≤ 2 ^ 25 := by exact_mod_cast ha
    rw [abs_div, abs_of_pos (show (0 : K) < 2 ^ k by positivity)]
    calc |(a : K)| / 2 ^ k ≤ |(a : K)| := div_le_self (abs_nonneg _) (one_le_pow₀ (by norm_num))
      _ ≤ 2 ^ 25 := h1
      _ ≤ 2 ^ 31 := by norm_num
  exact ⟨this m hm, this n hn⟩

theorem gridded_located {k : ℕ} {g : Geometry F} (h : Gridded K 25 k g) : Located (2 ^ 31 : K) g :=
  ⟨h.1, fun v hv => by obtain ⟨z, a, b⟩ := h.2 v hv; exact ⟨z, a, onGrid_within b⟩⟩

/-- on a grid of few bits the computed squared distance is exact -/
theorem objDist_grid {k : ℕ} (hk : k ≤ 500) {p : Point F} {x : K × K} (hp : At p x) (hx : OnGrid 25 k x) {o : Spatial F} (h : Gridded K 25 k o.Geom) :
    ∃ w : K × K, val (objDist p o) = .fin (distSq x w) ∧ PlaceIn w (BoundingBox o.Geom) ∧ ∀ z, PlaceIn z (BoundingBox o.Geom) → distSq x w ≤ distSq x z := by
  obtain ⟨a, b, c, d, ea, eb, ec, ed, hac, hbd, -, -, -, -, ⟨q1, m1, e1⟩, ⟨q2, m2, e2⟩, ⟨q3, m3, e3⟩, ⟨q4, m4, e4⟩, -⟩ := located_box (gridded_located h)
  have key : ∀ q ∈ boxedVertices o.Geom, ∃ i j : ℤ, |i| ≤ 2 ^ 25 ∧ |j| ≤ 2 ^ 25 ∧ (∀ t : K, val q.X = .fin t → t = i / 2 ^ k) ∧ (∀ t : K, val q.Y = .fin t → t = j / 2 ^ k) := by
    intro q hq
    obtain ⟨z, hz, i, j, hi, hj, rfl⟩ := h.2 q hq
    refine ⟨i, j, hi, hj, fun t ht => ?_, fun t ht => ?_⟩
    · rw [hz.1] at ht; injection ht with ht; exact ht.symm
    · rw [hz.2] at ht; injection ht with ht; exact ht.symm
  obtain ⟨i1, -, b1, -, f1, -⟩ := key q1 m1
  obtain ⟨-, i2, -, b2, -, f2⟩ := key q2 m2
  obtain ⟨i3, -, b3, -, f3, -⟩ := key q3 m3
  obtain ⟨-, i4, -, b4, -, f4⟩ := key q4 m4
  obtain ⟨X, Y, bX, bY, rfl⟩ := hx
  have axis : ∀ {f g h : F} {x a c : ℤ}, val f = .fin ((x : K) / 2 ^ k) → val g = .fin ((a : K) / 2 ^ k) → val h = .fin ((c : K) / 2 ^ k) → (a : K) / 2 ^ k ≤ c / 2 ^ k →
      |x| ≤ 2 ^ 25 → |a| ≤ 2 ^ 25 → |c| ≤ 2 ^ 25 →
      ∃ (u : K) (n : ℤ), (a : K) / 2 ^ k ≤ u ∧ u ≤ (c : K) / 2 ^ k ∧ (∀ w, (a : K) / 2 ^ k ≤ w → w ≤ (c : K) / 2 ^ k → ((x : K) / 2 ^ k - u) ^ 2 ≤ ((x : K) / 2 ^ k - w) ^ 2) ∧
        val (axisDist f g h) = .fin ((n : K) / 2 ^ (k + k)) ∧ (n : K) / 2 ^ (k + k) = ((x : K) / 2 ^ k - u) ^ 2 ∧ |n| ≤ 2 ^ 52 := by
    intro f g h x a c hf hg hh hac hx ha hc
    obtain ⟨u, u1, u2, hu, hcase⟩ := axisDist_cases hf hg hh hac
    have sq : ∀ {g : F} {a : ℤ}, val g = .fin ((a : K) / 2 ^ k) → |a| ≤ 2 ^ 25 → val ((f - g) * (f - g)) = .fin ((((x - a) * (x - a) : ℤ) : K) / 2 ^ (k + k)) ∧
        (((x - a) * (x - a) : ℤ) : K) / 2 ^ (k + k) = ((x : K) / 2 ^ k - a / 2 ^ k) ^ 2 ∧ |(x - a) * (x - a)| ≤ 2 ^ 52 := by
      intro g a hg ha
      have hd : |x - a| ≤ 2 ^ 26 := (abs_sub x a).trans (by norm_num at *; omega)
      have hb : |(x - a) * (x - a)| ≤ 2 ^ 52 := by
        rw [abs_mul]
        calc |x - a| * |x - a| ≤ 2 ^ 26 * 2 ^ 26 := mul_le_mul hd hd (abs_nonneg _) (by positivity)
          _ = 2 ^ 52 := by norm_num
      have s := grid_sub hf hg (hd.trans (by norm_num)) (by omega)
      refine ⟨grid_mul s s (hb.trans (by norm_num)) (by omega), ?_, hb⟩
      push_cast; rw [pow_add]; field_simp
    rcases hcase with ⟨rfl, e⟩ | ⟨rfl, e⟩ | ⟨rfl, e⟩
    · exact ⟨_, _, u1, u2, hu, by rw [e]; exact (sq hg ha).1, (sq hg ha).2⟩
    · exact ⟨_, _, u1, u2, hu, by rw [e]; exact (sq hh hc).1, (sq hh hc).2⟩
    · exact ⟨_, 0, u1, u2, hu, by rw [e, val_lit0]; simp, by simp, by norm_num⟩
  rw [e1] at *
  have ea' := ea
  have eb' := eb
  have ec' := ec
  have ed' := ed
  rw [f1 a e1] at ea' hac
  rw [f2 b e2] at eb' hbd
  rw [f3 c e3] at ec' hac
  rw [f4 d e4] at ed' hbd
  obtain ⟨u, m, u1, u2, u3, um, ue, ub⟩ := axis hp.1 ea' ec' hac bX b1 b3
  obtain ⟨v, n, v1, v2, v3, vn, ve, vb⟩ := axis hp.2 eb' ed' hbd bY b2 b4
  have v0 : val (lit 0 : F) = .fin (((0 : ℤ) : K) / 2 ^ (k + k)) := by rw [val_lit0]; simp
  have hs1 := grid_add v0 um (by rw [zero_add]; exact ub.trans (by norm_num)) (by omega)
  rw [zero_add] at hs1
  have hs2 := grid_add hs1 vn ((abs_add_le _ _).trans (by norm_num at *; omega)) (by omega)
  refine ⟨(u, v), ?_, ⟨?_, ?_, ?_, ?_⟩, ?_⟩
  · unfold objDist
    rw [minDist_eq, hs2]
    congr 1
    unfold distSq
    push_cast
    rw [add_div, ue, ve]
  · rw [ea']; exact XR.le_fin.2 u1
  · rw [ec']; exact XR.le_fin.2 u2
  · rw [eb']; exact XR.le_fin.2 v1
  · rw [ed']; exact XR.le_fin.2 v2
  · intro z hz
    obtain ⟨z1, z2, z3, z4⟩ := hz
    rw [ea'] at z1
    rw [ec'] at z2
    rw [eb'] at z3
    rw [ed'] at z4
    have := u3 z.1 (XR.le_fin.1 z1) (XR.le_fin.1 z2)
    have := v3 z.2 (XR.le_fin.1 z3) (XR.le_fin.1 z4)
    unfold distSq
    linarith

/-- **C122 (grid).** When the coordinates are multiples of `1 / 2^k` with numerators up to 2^25, the answer in float64 is
exact: no place of an object left out is closer to `p` than the nearest place of the box of an object returned, and
the objects are returned in the order of that exact distance. -/
theorem C122_grid (srt : GoSort) (hsrt : SortOk srt) (grow : Nat → Nat) (min max : Int) (hmax : 2 ≤ max)
    (s : RState F) (hs : Reached grow min max s) (j : ℕ) (hj : j ≤ 500) (hloc : ∀ o ∈ contents s, Gridded K 25 j o.Geom)
    (k : Nat) (hk : 1 ≤ k) (p : Point F) (x : K × K) (hp : At p x) (hx : OnGrid 25 j x) :
    ∃ res rest, NearestNeighbors srt s k p = .ok res ∧ (contents s).Perm (res ++ rest) ∧ res.length = Min.min k (contents s).length ∧
      (∀ r ∈ res, ∀ o ∈ rest, ∀ z, Occupies o.Geom z → ∃ w, PlaceIn w (BoundingBox r.Geom) ∧ distSq x w ≤ distSq x z) ∧
      (res.Pairwise fun r o => ∀ z, PlaceIn z (BoundingBox o.Geom) → ∃ w, PlaceIn w (BoundingBox r.Geom) ∧ distSq x w ≤ distSq x z) ∧
      ∀ r ∈ res, ∀ q y, r.Geom = .point q → At q y → ∀ o ∈ rest, ∀ z, Occupies o.Geom z → distSq x y ≤ distSq x z := by
  obtain ⟨res, h1, rest, h2, h3⟩ := C07_nearest (K := K) srt hsrt grow min max hmax s hs (fun o ho => by
    obtain ⟨_, _, _, _, _, _, _, _, _, _, _, _, _, _, _, _, _, _, h⟩ := located_box (gridded_located (hloc o ho))
    exact h) k hk p
  have lr : ∀ r ∈ res, Gridded K 25 j r.Geom := fun r hr => hloc r (h2.perm.mem_iff.2 (List.mem_append_left _ hr))
  have lo : ∀ o ∈ rest, Gridded K 25 j o.Geom := fun o ho => hloc o (h2.perm.mem_iff.2 (List.mem_append_right _ ho))
  have cl : ∀ {r o : Spatial F}, Gridded K 25 j r.Geom → Gridded K 25 j o.Geom → Le (objDist p r) (objDist p o) → ∀ z, PlaceIn z (BoundingBox o.Geom) →
      ∃ w, PlaceIn w (BoundingBox r.Geom) ∧ distSq x w ≤ distSq x z := by
    intro r o gr go h z hz
    obtain ⟨w, em, pw, -⟩ := objDist_grid hj hp hx gr
    obtain ⟨v, en, pv, hv⟩ := objDist_grid hj hp hx go
    unfold Le at h
    rw [val_le, em, en] at h
    exact ⟨w, pw, (XR.le_fin.1 h).trans (hv z hz)⟩
  have all : ∀ r ∈ res, ∀ o ∈ rest, ∀ z, Occupies o.Geom z → ∃ w, PlaceIn w (BoundingBox r.Geom) ∧ distSq x w ≤ distSq x z :=
    fun r hr o ho z hz => cl (lr r hr) (lo o ho) (h3 o ho r hr) z (C120_box o.Geom z hz)
  refine ⟨res, rest, h1, h2.perm, h2.count, all, List.Pairwise.imp_of_mem (fun {a b} ha hb h => cl (lr a ha) (lr b hb) h) h2.sorted, ?_⟩
  intro r hr q y hg hq o ho z hz
  obtain ⟨w, pw, hw⟩ := all r hr o ho z hz
  have gr := lr r hr
  rw [hg] at pw gr
  obtain ⟨y', hy', wy⟩ := gr.2 q (by simp [boxedVertices, vertices])
  rw [at_unique hq hy']
  rw [placeIn_point hy' (onGrid_within wy) pw] at hw
  exact hw

end

/-- the vertices have whole coordinates below 16 -/
def smallGrid (g : Geometry Float) : Bool :=
  !(boxedVertices g).isEmpty && (boxedVertices g).all fun v => (List.range 16).any fun i => (List.range 16).any fun j =>
    decide (val v.X = .fin (i : ℚ)) && decide (val v.Y = .fin (j : ℚ))

theorem smallGrid_gridded {g : Geometry Float} (h : smallGrid g = true) : Gridded ℚ 25 0 g := by
  simp only [smallGrid, Bool.and_eq_true, Bool.not_eq_true', List.isEmpty_eq_false_iff, List.all_eq_true, List.any_eq_true, List.mem_range, decide_eq_true_eq] at h
  refine ⟨h.1, fun v hv => ?_⟩
  obtain ⟨i, hi, j, hj, e1, e2⟩ := h.2 v hv
  refine ⟨(i, j), ⟨e1, e2⟩, i, j, ?_, ?_, by simp⟩
  · rw [abs_of_nonneg (by positivity)]; norm_num; omega
  · rw [abs_of_nonneg (by positivity)]; norm_num; omega

/-- the five objects of `nearOps` in a tree of three levels are on a grid: the three nearest to (4, 4), exactly -/
example : ∃ s : RState Float, Depth s = 3 ∧ ∃ res rest, NearestNeighbors insSort s 3 ⟨4, 4⟩ = .ok res ∧ (contents s).Perm (res ++ rest) ∧ res.length = 3 ∧
    ∀ r ∈ res, ∀ o ∈ rest, ∀ z : ℚ × ℚ, Occupies o.Geom z → ∃ w, PlaceIn w (BoundingBox r.Geom) ∧ distSq (4, 4) w ≤ distSq (4, 4) z := by
  have h : (runAll id nearOps (NewEmptyTree 1 2)).map (fun r => (Depth r.1, (contents r.1).length, (contents r.1).all fun o => smallGrid o.Geom)) = .ok (3, 5, true) := by
    decide +kernel
  obtain ⟨⟨s, bs⟩, h1, h2⟩ := ok_of_map h
  simp only [Prod.mk.injEq, List.all_eq_true] at h2
  obtain ⟨res, rest, e, p, c, hr, -⟩ := C122_grid (K := ℚ) insSort insSort_ok id 1 2 (by norm_num) s ⟨_, bs, h1⟩ 0 (by norm_num)
    (fun o ho => smallGrid_gridded (h2.2.2 o ho)) 3 (by norm_num) ⟨4, 4⟩ (4, 4) ⟨by decide +kernel, by decide +kernel⟩ ⟨4, 4, by norm_num, by norm_num, by norm_num⟩
  rw [h2.2.1] at c
  exact ⟨s, h2.1, res, rest, e, p, c, hr⟩

/-- a diagonal line and a point -/
def diagOps : List (Op Float) :=
  [.insert ⟨"line", .nil, .lineString [⟨0, 0⟩, ⟨10, 10⟩]⟩, .insert ⟨"point", .nil, .point ⟨0, 9⟩⟩]

/-- **C122 is about boxes**: asked for the one nearest neighbour of (1, 9), the tree answers with the line from (0, 0) to
(10, 10), whose box contains (1, 9), and leaves out the point (0, 9), although every place of the line is at least 5
times as far away as that point. -/
theorem C122_false : (∃ s : RState Float, Reached id 1 2 s ∧ (NearestNeighbors insSort s 1 ⟨1, 9⟩).map (·.map (·.ID)) = .ok ["line"] ∧
      (contents s).map (·.ID) = ["line", "point"]) ∧
    (∀ w : ℚ × ℚ, Occupies (.lineString [⟨0, 0⟩, ⟨10, 10⟩] : Geometry Float) w → 32 * distSq (1, 9) ((0, 9) : ℚ × ℚ) ≤ distSq (1, 9) w) := by
  refine ⟨?_, ?_⟩
  · have h : (runAll id diagOps (NewEmptyTree 1 2)).map (fun r => ((NearestNeighbors insSort r.1 1 ⟨1, 9⟩).map (·.map (·.ID)), (contents r.1).map (·.ID))) = .ok (.ok ["line"], ["line", "point"]) := by
      decide +kernel
    obtain ⟨⟨s, bs⟩, h1, h2⟩ := ok_of_map h
    exact ⟨s, ⟨_, bs, h1⟩, (Prod.ext_iff.1 h2).1, (Prod.ext_iff.1 h2).2⟩
  · have a0 : At (⟨0, 0⟩ : Point Float) ((0, 0) : ℚ × ℚ) := ⟨by decide +kernel, by decide +kernel⟩
    have a1 : At (⟨10, 10⟩ : Point Float) ((10, 10) : ℚ × ℚ) := ⟨by decide +kernel, by decide +kernel⟩
    have far : ∀ t : ℚ, 32 * distSq (1, 9) ((0, 9) : ℚ × ℚ) ≤ distSq (1, 9) ((10 * t, 10 * t) : ℚ × ℚ) := by
      intro t
      unfold distSq
      nlinarith [sq_nonneg (2 * t - 1)]
    rintro w (⟨q, hq, hw⟩ | ⟨a, b, y, z, hab, ha, hb, t, h0, h1, e⟩)
    · simp only [List.mem_cons, List.not_mem_nil, or_false] at hq
      rcases hq with rfl | rfl
      · rw [at_unique hw a0]; simpa using far 0
      · rw [at_unique hw a1]; simpa using far 1
    · simp only [List.tail_cons, List.zip_cons_cons, List.zip_nil_right, List.mem_singleton, Prod.mk.injEq] at hab
      obtain ⟨rfl, rfl⟩ := hab
      rw [at_unique ha a0, at_unique hb a1] at e
      have : w = (10 * t, 10 * t) := by rw [e]; simp [along, mul_comm]
      rw [this]
      exact far t

end GoGeo
