import Verif.Props.Cut

/-!
# C165: areas of polygons behave like a measure

A polygon whose boundary does not meet itself encloses a region of the plane.  When the region of one polygon lies in the region of
another, `GetArea` of the first is not larger, and it is smaller when the boundaries do not meet.  Polygons without common interior
points inside one polygon have, as a multipolygon, no larger area than it, and exactly its area when they tile it.  The centroid of
the whole is then the mean of the centroids of the tiles weighted with their areas.
-/

namespace GoGeo.Spec

/-- the points a ring shuts in: no path that avoids the ring leads from them far away -/
def Interior (c : List (ℝ × ℝ)) : Set (ℝ × ℝ) := {z | ¬ OnRing c z ∧ ¬ Escapes c z}

/-- rings without common interior points -/
def Apart (cs : List (List (ℝ × ℝ))) : Prop := cs.Pairwise fun c d => Disjoint (Interior c) (Interior d)

/-- the rings `cs` tile `d`: they are inside `d`, have no common interior points, and every point of `d` that is on none of them is in one of them -/
def Tiles (cs : List (List (ℝ × ℝ))) (d : List (ℝ × ℝ)) : Prop :=
  (∀ c ∈ cs, Interior c ⊆ Interior d) ∧ Apart cs ∧ ∀ z ∈ Interior d, (∀ c ∈ cs, ¬ OnRing c z) → ∃ c ∈ cs, z ∈ Interior c

end GoGeo.Spec

namespace GoGeo.Region

open MeasureTheory Set Spec Real

section

theorem interior_iff {c : List (ℝ × ℝ)} (hc : SimpleRing c) (z : ℝ × ℝ) : z ∈ Interior c ↔ ¬ OnRing c z ∧ EvenOdd c z := by
  constructor
  · rintro ⟨h1, h2⟩; exact ⟨h1, (evenOdd_escapes hc h1).2 h2⟩
  · rintro ⟨h1, h2⟩; exact ⟨h1, (evenOdd_escapes hc h1).1 h2⟩

theorem interior_open {c : List (ℝ × ℝ)} (hc : SimpleRing c) : IsOpen (Interior c) := by
  rw [Metric.isOpen_iff]
  intro z hz
  obtain ⟨h1, h2⟩ := (interior_iff hc z).1 hz
  obtain ⟨δ, hδ, h⟩ := evenOdd_near h1
  exact ⟨δ, hδ, fun y hy => (interior_iff hc y).2 ⟨(h y hy).1, (h y hy).2.2 h2⟩⟩

theorem interior_ae {c : List (ℝ × ℝ)} (hc : SimpleRing c) : (Interior c : Set (ℝ × ℝ)) =ᵐ[volume] {z | EvenOdd c z} := by
  filter_upwards [ring_null c] with z hz
  apply propext
  constructor
  · intro h; exact ((interior_iff hc z).1 h).2
  · intro h; exact (interior_iff hc z).2 ⟨hz, h⟩

/-- affine functions are integrable on the interior -/
theorem interior_int {c : List (ℝ × ℝ)} (hc : SimpleRing c) {f : ℝ × ℝ → ℝ} (α β γ : ℝ) (hf : f = fun p => α + β * p.1 + γ * p.2) :
    IntegrableOn f (Interior c) := by
  obtain ⟨s, hs, hz⟩ := simple_sign hc
  have h := ((winding_affine 0 c α β γ hf).1.const_mul s).integrableOn (s := Interior c)
  refine h.congr_fun (fun z hi => ?_) (interior_open hc).measurableSet
  obtain ⟨h1, h2⟩ := (interior_iff hc z).1 hi
  have hw : (winding c z : ℝ) = s := by
    rcases hz z h1 with h | h
    · have := (evenOdd_iff c z).1 h2
      rw [h] at this; simp at this
    · exact h
  show s * (f z * (winding c z : ℝ)) = f z
  rw [hw]
  rcases hs with rfl | rfl <;> ring

theorem interior_winding {c : List (ℝ × ℝ)} (hc : SimpleRing c) :
    ∃ s : ℝ, (s = 1 ∨ s = -1) ∧ ∀ f : ℝ × ℝ → ℝ, ∫ z, f z * (winding c z : ℝ) = s * ∫ z in Interior c, f z := by
  obtain ⟨s, hs, hz⟩ := simple_sign hc
  exact ⟨s, hs, fun f => by rw [winding_inside c hs hz f, setIntegral_congr_set (interior_ae hc)]⟩

/-- what the code computes for one ring: the area and the centroid of the interior -/
theorem interior_area {c : List (ℝ × ℝ)} (hc : SimpleRing c) (holes : List (List (Point (XR ℝ)))) : 0 < (∫ _ in Interior c, (1 : ℝ)) ∧
    GetArea (.polygon (ring c :: holes)) = .fin (∫ _ in Interior c, (1 : ℝ)) ∧
    Centroid (.polygon (ring c :: holes)) = .ok (pt ((∫ z in Interior c, z.1) / ∫ _ in Interior c, (1 : ℝ), (∫ z in Interior c, z.2) / ∫ _ in Interior c, (1 : ℝ))) := by
  obtain ⟨A, pA, hA, hg, -⟩ := C140_area c hc holes
  have e : (∫ _ in Interior c, (1 : ℝ)) = A := by
    rw [setIntegral_congr_set (interior_ae hc)]
    simp [Measure.real, hA, ENNReal.toReal_ofReal pA.le]
  refine ⟨e ▸ pA, by rw [e]; exact hg, ?_⟩
  obtain ⟨s, hs, hw⟩ := interior_winding hc
  have s0 : s ≠ 0 := by rcases hs with rfl | rfl <;> norm_num
  have h1 := hw fun _ => 1
  simp only [one_mul] at h1
  have n0 : ∫ z, (winding c z : ℝ) ≠ 0 := by rw [h1, e]; exact mul_ne_zero s0 pA.ne'
  rw [C135_centroid c n0 holes, hw (fun z => z.1), hw (fun z => z.2), h1, mul_div_mul_left _ _ s0, mul_div_mul_left _ _ s0]

theorem area_fan {c : List (ℝ × ℝ)} (hc : SimpleRing c) (o : ℝ × ℝ) : |fanArea o c| = ∫ _ in Interior c, (1 : ℝ) := by
  have h := (interior_area hc []).2.1
  rw [(C32_area_fan o c []).1] at h
  injection h

theorem interior_sum {f : ℝ × ℝ → ℝ} (hf : ∀ c : List (ℝ × ℝ), SimpleRing c → IntegrableOn f (Interior c)) :
    ∀ cs : List (List (ℝ × ℝ)), (∀ c ∈ cs, SimpleRing c) → Apart cs →
      MeasurableSet {z | ∃ c ∈ cs, z ∈ Interior c} ∧ IntegrableOn f {z | ∃ c ∈ cs, z ∈ Interior c} ∧
      ∫ z in {z | ∃ c ∈ cs, z ∈ Interior c}, f z = (cs.map fun c => ∫ z in Interior c, f z).sum := by
  intro cs
  induction cs with
  | nil => intro _ _; simp
  | cons c cs ih =>
    intro hs ha
    obtain ⟨h1, h2⟩ := List.pairwise_cons.1 ha
    obtain ⟨m, i, e⟩ := ih (fun d hd => hs d (List.mem_cons_of_mem _ hd)) h2
    have hc := hs c List.mem_cons_self
    have hu : {z | ∃ d ∈ c :: cs, z ∈ Interior d} = Interior c ∪ {z | ∃ d ∈ cs, z ∈ Interior d} := by
      ext z; simp
    have hd : Disjoint (Interior c) {z | ∃ d ∈ cs, z ∈ Interior d} := by
      rw [Set.disjoint_left]
      rintro z hz ⟨d, hd, hzd⟩
      exact Set.disjoint_left.1 (h1 d hd) hz hzd
    rw [hu]
    refine ⟨(interior_open hc).measurableSet.union m, (hf c hc).union i, ?_⟩
    rw [setIntegral_union hd m (hf c hc) i, e, List.map_cons, List.sum_cons]

/-- **C165 (nested).** A polygon inside another has no larger area. -/
theorem C165_nested (c d : List (ℝ × ℝ)) (hc : SimpleRing c) (hd : SimpleRing d) (hin : Interior c ⊆ Interior d) (h₁ h₂ : List (List (Point (XR ℝ)))) :
    ∃ A B : ℝ, GetArea (.polygon (ring c :: h₁)) = .fin A ∧ GetArea (.polygon (ring d :: h₂)) = .fin B ∧ 0 < A ∧ A ≤ B := by
  obtain ⟨p1, e1, -⟩ := interior_area hc h₁
  obtain ⟨-, e2, -⟩ := interior_area hd h₂
  refine ⟨_, _, e1, e2, p1, ?_⟩
  exact setIntegral_mono_set (interior_int hd 1 0 0 (by funext p; simp)) (Filter.Eventually.of_forall fun _ => zero_le_one) hin.eventuallyLE

/-- **C165 (strictly nested).** When the boundaries do not meet either, its area is smaller. -/
theorem C165_strict (c d : List (ℝ × ℝ)) (hc : SimpleRing c) (hd : SimpleRing d) (hin : Interior c ⊆ Interior d) (hoff : ∀ z, OnRing c z → ¬ OnRing d z)
    (h₁ h₂ : List (List (Point (XR ℝ)))) :
    ∃ A B : ℝ, GetArea (.polygon (ring c :: h₁)) = .fin A ∧ GetArea (.polygon (ring d :: h₂)) = .fin B ∧ 0 < A ∧ A < B := by
  obtain ⟨p1, e1, -⟩ := interior_area hc h₁
  obtain ⟨-, e2, -⟩ := interior_area hd h₂
  refine ⟨_, _, e1, e2, p1, ?_⟩
  obtain ⟨x, hx⟩ : ∃ x, OnRing d x := by
    obtain ⟨hl, -⟩ := hd
    match d, hl with
    | a :: b :: l, _ =>
      exact ⟨a, (a, b), by simp [sides], 0, le_refl _, zero_le_one, by simp [along]⟩
  have xc : ¬ OnRing c x := fun h => hoff x h hx
  have xn : ¬ EvenOdd c x := fun h => ((interior_iff hd x).1 (hin ((interior_iff hc x).2 ⟨xc, h⟩))).1 hx
  obtain ⟨δ, hδ, hb⟩ := evenOdd_near xc
  obtain ⟨y, hy, y1, y2⟩ := (C140_boundary d hd x hx δ hδ).1
  set V : Set (ℝ × ℝ) := Interior d ∩ Metric.ball x δ with hV
  have oV : IsOpen V := (interior_open hd).inter Metric.isOpen_ball
  have dV : Disjoint (Interior c) V := by
    rw [Set.disjoint_left]
    rintro z hz ⟨-, hz'⟩
    exact xn ((hb z hz').2.1 ((interior_iff hc z).1 hz).2)
  have iD := interior_int hd (f := fun _ => (1 : ℝ)) 1 0 0 (by funext p; simp)
  have iC := interior_int hc (f := fun _ => (1 : ℝ)) 1 0 0 (by funext p; simp)
  have iV : IntegrableOn (fun _ => (1 : ℝ)) V := iD.mono_set inter_subset_left
  have hle : (∫ _ in Interior c ∪ V, (1 : ℝ)) ≤ ∫ _ in Interior d, (1 : ℝ) :=
    setIntegral_mono_set iD (Filter.Eventually.of_forall fun _ => zero_le_one) (union_subset hin inter_subset_left).eventuallyLE
  rw [setIntegral_union dV oV.measurableSet iC iV] at hle
  have vp : 0 < ∫ _ in V, (1 : ℝ) := by
    have h1 : 0 < volume V := oV.measure_pos volume ⟨y, (interior_iff hd y).2 ⟨y1, y2⟩, hy⟩
    have h2 : volume V < ⊤ := lt_of_le_of_lt (measure_mono fun z hz => ((interior_iff hd z).1 hz.1).2) (evenOdd_finite d)
    simp only [integral_const, smul_eq_mul, mul_one, measureReal_restrict_apply_univ]
    exact ENNReal.toReal_pos h1.ne' h2.ne
  linarith

/-- **C165 (parts).** Polygons inside one polygon and without common interior points have, taken together, no larger area than it. -/
theorem C165_parts (cs : List (List (ℝ × ℝ))) (d : List (ℝ × ℝ)) (hcs : ∀ c ∈ cs, SimpleRing c) (hd : SimpleRing d)
    (hin : ∀ c ∈ cs, Interior c ⊆ Interior d) (ha : Apart cs) (holes : List (List (Point (XR ℝ)))) :
    ∃ S B : ℝ, GetArea (.multiPolygon (cs.map fun c => [ring c])) = .fin S ∧ GetArea (.polygon (ring d :: holes)) = .fin B ∧ S ≤ B := by
  obtain ⟨-, e2, -⟩ := interior_area hd holes
  obtain ⟨m, i, e⟩ := interior_sum (f := fun _ => (1 : ℝ)) (fun c hc => interior_int hc 1 0 0 (by funext p; simp)) cs hcs ha
  refine ⟨_, _, C32_multi cs 0, e2, ?_⟩
  rw [List.map_congr_left fun c hc => area_fan (hcs c hc) 0, ← e]
  refine setIntegral_mono_set (interior_int hd 1 0 0 (by funext p; simp)) (Filter.Eventually.of_forall fun _ => zero_le_one) (LE.le.eventuallyLE ?_)
  rintro z ⟨c, hc, hz⟩
  exact hin c hc hz

theorem rings_null (cs : List (List (ℝ × ℝ))) : ∀ᵐ z ∂(volume : Measure (ℝ × ℝ)), ∀ c ∈ cs, ¬ OnRing c z := by
  induction cs with
  | nil => simp
  | cons c cs ih =>
    filter_upwards [ring_null c, ih] with z h1 h2
    intro d hd
    rcases List.mem_cons.1 hd with rfl | hd
    · exact h1
    · exact h2 d hd

theorem tiles_ae {cs : List (List (ℝ × ℝ))} {d : List (ℝ × ℝ)} (h : Tiles cs d) :
    ({z | ∃ c ∈ cs, z ∈ Interior c} : Set (ℝ × ℝ)) =ᵐ[volume] Interior d := by
  obtain ⟨h1, -, h3⟩ := h
  filter_upwards [rings_null cs] with z hz
  apply propext
  constructor
  · rintro ⟨c, hc, hz⟩; exact h1 c hc hz
  · intro h; exact h3 z h hz

/-- **C165 (tiles).** Polygons that tile a polygon have, as a multipolygon, exactly its area. -/
theorem C165_tiles (cs : List (List (ℝ × ℝ))) (d : List (ℝ × ℝ)) (hcs : ∀ c ∈ cs, SimpleRing c) (hd : SimpleRing d) (ht : Tiles cs d)
    (holes : List (List (Point (XR ℝ)))) :
    GetArea (.multiPolygon (cs.map fun c => [ring c])) = GetArea (.polygon (ring d :: holes)) := by
  obtain ⟨-, e2, -⟩ := interior_area hd holes
  obtain ⟨m, i, e⟩ := interior_sum (f := fun _ => (1 : ℝ)) (fun c hc => interior_int hc 1 0 0 (by funext p; simp)) cs hcs ht.2.1
  rw [C32_multi cs 0, e2, List.map_congr_left fun c hc => area_fan (hcs c hc) 0, ← e, setIntegral_congr_set (tiles_ae ht)]

/-- **C165 (centroid of tiles).** The centroid of the whole is the mean of the centroids of the tiles, weighted with their areas. -/
theorem C165_centroid (cs : List (List (ℝ × ℝ))) (d : List (ℝ × ℝ)) (hcs : ∀ c ∈ cs, SimpleRing c) (hd : SimpleRing d) (ht : Tiles cs d) :
    ∃ (A : List (ℝ × ℝ) → ℝ) (g : List (ℝ × ℝ) → ℝ × ℝ),
      (∀ c ∈ d :: cs, 0 < A c ∧ GetArea (.polygon [ring c]) = .fin (A c) ∧ Centroid (.polygon [ring c]) = .ok (pt (g c))) ∧
      A d = (cs.map A).sum ∧ A d • g d = (cs.map fun c => A c • g c).sum := by
  refine ⟨fun c => ∫ _ in Interior c, (1 : ℝ), fun c => ((∫ z in Interior c, z.1) / ∫ _ in Interior c, (1 : ℝ), (∫ z in Interior c, z.2) / ∫ _ in Interior c, (1 : ℝ)), ?_, ?_, ?_⟩
  · intro c hc
    rcases List.mem_cons.1 hc with rfl | hc
    · exact interior_area hd []
    · exact interior_area (hcs c hc) []
  · obtain ⟨-, -, e⟩ := interior_sum (f := fun _ => (1 : ℝ)) (fun c hc => interior_int hc 1 0 0 (by funext p; simp)) cs hcs ht.2.1
    show (∫ _ in Interior d, (1 : ℝ)) = _
    rw [← setIntegral_congr_set (tiles_ae ht), e]
  · have key : ∀ c, SimpleRing c → (∫ _ in Interior c, (1 : ℝ)) • ((∫ z in Interior c, z.1) / ∫ _ in Interior c, (1 : ℝ), (∫ z in Interior c, z.2) / ∫ _ in Interior c, (1 : ℝ)) =
        (∫ z in Interior c, z.1, ∫ z in Interior c, z.2) := by
      intro c hc
      have p := (interior_area hc []).1.ne'
      rw [Prod.smul_mk, smul_eq_mul, smul_eq_mul, mul_div_cancel₀ _ p, mul_div_cancel₀ _ p]
    obtain ⟨-, -, ex⟩ := interior_sum (f := fun z => z.1) (fun c hc => interior_int hc 0 1 0 (by funext p; simp)) cs hcs ht.2.1
    obtain ⟨-, -, ey⟩ := interior_sum (f := fun z => z.2) (fun c hc => interior_int hc 0 0 1 (by funext p; simp)) cs hcs ht.2.1
    show (∫ _ in Interior d, (1 : ℝ)) • _ = _
    rw [key d hd, List.map_congr_left fun c hc => key c (hcs c hc), ← setIntegral_congr_set (tiles_ae ht), ← setIntegral_congr_set (tiles_ae ht), ex, ey]
    clear ex ey hcs ht
    induction cs with
    | nil => simp
    | cons c cs ih => simp only [List.map_cons, List.sum_cons, ← ih, Prod.mk_add_mk]

end

section

open FloatVal GoFloat

/-- **C165 (float64).** When the code says that one polygon contains another, for corners on a grid float64 computes on exactly, the area it
computes for the one inside is smaller. -/
theorem C165_contain {B k : ℕ} (hB : B + k ≤ 17) {qs ps : List (Point Float)} {c d : List (ℚ × ℚ)} (hc : GridAll B k qs (c ++ c.take 1))
    (hd : GridAll B k ps (d ++ d.take 1)) (lc : c.length * 2 ^ (2 * B + 1) ≤ 2 ^ 53) (ld : d.length * 2 ^ (2 * B + 1) ≤ 2 ^ 53)
    (sc : SimpleRing (c.map real)) (sd : SimpleRing (d.map real)) (c0 : ∀ v ∈ c, v ≠ (0, 0))
    (hoff : ∀ z, OnRing (c.map real) z → ¬ OnRing (d.map real) z)
    (hn : ∀ e ∈ sides c, ∀ f ∈ sides d, ¬ (turn f.1 f.2 e.1 = 0 ∧ turn f.1 f.2 e.2 = 0)) (h1 h2 : List (List (Point Float)))
    (hr : PolyRelation (qs :: h1) (ps :: h2) = .contain) :
    lt (GetArea (.polygon (qs :: h1))) (GetArea (.polygon (ps :: h2))) = true := by
  have hsub := (C141_polygon hB hc hd sc sd c0 hoff hn h1 h2).1.1 hr
  have hin : Interior (c.map real) ⊆ Interior (d.map real) := by
    intro z hz
    have hz' := (interior_iff sc z).1 hz
    refine (interior_iff sd z).2 ⟨fun hon => ?_, hsub hz'.2⟩
    obtain ⟨δ, hδ, hb⟩ := evenOdd_near hz'.1
    obtain ⟨y, hy, -, hn⟩ := (C140_boundary _ sd z hon δ hδ).2
    exact hn (hsub ((hb y hy).2.2 hz'.2))
  obtain ⟨X, Y, e1, e2, -, hlt⟩ := C165_strict _ _ sc sd hin hoff [] []
  rw [(C32_area_fan (real (0, 0)) _ []).1, fanArea_real] at e1 e2
  injection e1 with e1
  injection e2 with e2
  have a1 := C114_area (by omega) hc lc (0, 0) h1
  have a2 := C114_area (by omega) hd ld (0, 0) h2
  rw [val_lt, a1, a2]
  rw [← e1, ← e2] at hlt
  have hlt' : |fanArea (0, 0) c| < |fanArea (0, 0) d| := by exact_mod_cast hlt
  exact (XR.fin_lt _ _).trans (decide_eq_true hlt')

end

/-- cutting a simple ring along a diagonal tiles it -/
theorem C165_cut (a b : ℝ × ℝ) (xs ys : List (ℝ × ℝ)) (hc : SimpleRing (a :: xs ++ b :: ys)) (hd : Diagonal (a :: xs ++ b :: ys) a b) :
    Tiles [a :: xs ++ [b], b :: ys ++ [a]] (a :: xs ++ b :: ys) := by
  obtain ⟨s1, s2, -, hz⟩ := C160_parts a b xs ys hc hd
  have o1 : ∀ z, OnSeg a b z → OnRing (a :: xs ++ [b]) z := fun z h => ⟨(b, a), by rw [sides_part]; simp, onSeg_swap h⟩
  have o2 : ∀ z, OnSeg a b z → OnRing (b :: ys ++ [a]) z := fun z h => ⟨(a, b), by rw [sides_part]; simp, h⟩
  have sub : ∀ c, SimpleRing c → (∀ z, OnSeg a b z → OnRing c z) → (∀ z, ¬ OnRing (a :: xs ++ b :: ys) z → ¬ OnSeg a b z → ¬ Escapes c z → ¬ Escapes (a :: xs ++ b :: ys) z) →
      Interior c ⊆ Interior (a :: xs ++ b :: ys) := by
    intro c sc oc hsub z hi
    have hoff : ¬ OnRing (a :: xs ++ b :: ys) z := by
      intro hon
      obtain ⟨δ, hδ, hball⟩ := Metric.isOpen_iff.1 (interior_open sc) z hi
      obtain ⟨y, hy, y1, y2⟩ := (C140_boundary _ hc z hon δ hδ).2
      obtain ⟨q1, q2⟩ := hball hy
      exact y2 ((evenOdd_escapes hc y1).2 (hsub y y1 (fun h => q1 (oc y h)) q2))
    exact ⟨hoff, hsub z hoff (fun h => hi.1 (oc z h)) hi.2⟩
  have i1 := sub _ s1 o1 fun z h1 h2 h3 => (hz z h1 h2).1.2 (Or.inl h3)
  have i2 := sub _ s2 o2 fun z h1 h2 h3 => (hz z h1 h2).1.2 (Or.inr h3)
  refine ⟨?_, ?_, ?_⟩
  · intro c hc
    simp only [List.mem_cons, List.not_mem_nil, or_false] at hc
    rcases hc with rfl | rfl
    · exact i1
    · exact i2
  · refine List.pairwise_pair.2 (Set.disjoint_left.2 fun z h1 h2 => ?_)
    rcases (hz z (i1 h1).1 (fun h => h1.1 (o1 z h))).2 with h | h
    · exact h1.2 h
    · exact h2.2 h
  · intro z hi hoff
    have f1 := hoff _ List.mem_cons_self
    have f2 := hoff _ (List.mem_cons_of_mem _ List.mem_cons_self)
    rcases (hz z hi.1 (fun h => f1 (o1 z h))).1.1 hi.2 with h | h
    · exact ⟨_, List.mem_cons_self, f1, h⟩
    · exact ⟨_, List.mem_cons_of_mem _ List.mem_cons_self, f2, h⟩

/-- the hypotheses can be met: the dart is tiled by two triangles -/
theorem dart_tiles : Tiles [[(0, 0), (4, 0), (1, 1)], [(1, 1), (0, 4), (0, 0)]] dart :=
  C165_cut (0, 0) (1, 1) [(4, 0)] [(0, 4)] dart_simple dart_diagonal

theorem dart_parts : ∀ c ∈ [[((0 : ℝ), (0 : ℝ)), (4, 0), (1, 1)], [(1, 1), (0, 4), (0, 0)]], SimpleRing c := by
  obtain ⟨h1, h2, -⟩ := C160_parts (0, 0) (1, 1) [(4, 0)] [(0, 4)] dart_simple dart_diagonal
  intro c hc
  simp only [List.mem_cons, List.not_mem_nil, or_false] at hc
  rcases hc with rfl | rfl
  · exact h1
  · exact h2

example : GetArea (.multiPolygon [[ring [((0 : ℝ), (0 : ℝ)), (4, 0), (1, 1)]], [ring [((1 : ℝ), (1 : ℝ)), (0, 4), (0, 0)]]]) = GetArea (.polygon [ring dart]) :=
  C165_tiles _ _ dart_parts dart_simple dart_tiles []

example : ∃ A B : ℝ, GetArea (.polygon [ring [((0 : ℝ), (0 : ℝ)), (4, 0), (1, 1)]]) = .fin A ∧ GetArea (.polygon [ring dart]) = .fin B ∧ 0 < A ∧ A ≤ B :=
  C165_nested _ _ (dart_parts _ List.mem_cons_self) dart_simple (dart_tiles.1 _ List.mem_cons_self) [] []

theorem exIn_off : ∀ z, OnRing (exIn.map real) z → ¬ OnRing (exOut.map real) z := by
  rw [exIn_real, exOut_real]
  rintro z ⟨e, he, s, s0, s1, rfl⟩ ⟨f, hf, t, t0, t1, ht⟩
  simp only [sides, List.rotate_cons_succ, List.rotate_zero, List.cons_append, List.nil_append, List.zip_cons_cons, List.zip_nil_right,
    List.mem_cons, List.not_mem_nil, or_false] at he hf
  rcases he with rfl | rfl | rfl <;> rcases hf with rfl | rfl | rfl | rfl <;>
    simp only [along, Prod.mk.injEq] at ht <;> obtain ⟨h1, h2⟩ := ht <;> (try norm_num at h1 h2) <;> (try linarith)

/-- a triangle in a dart, in float64 -/
example : GoFloat.lt (GetArea (F := Float) (.polygon [[fpt 1 1, fpt 2 1, fpt 1 2, fpt 1 1]])) (GetArea (.polygon [[fpt 0 0, fpt 8 0, fpt 2 2, fpt 0 8, fpt 0 0]])) = true := by
  have h1 := fpt_grid [(1, 1), (2, 1), (1, 2), (1, 1)] 17 (by norm_num) (by decide)
  have h2 := fpt_grid [(0, 0), (8, 0), (2, 2), (0, 8), (0, 0)] 17 (by norm_num) (by decide)
  exact C165_contain (B := 17) (k := 0) (c := exIn) (d := exOut) (by norm_num) (by simpa [exIn] using h1) (by simpa [exOut] using h2) (by norm_num [exIn]) (by norm_num [exOut])
    exIn_simple exOut_simple (by simp [exIn]) exIn_off (by decide +kernel) [] [] (by decide +kernel)

end GoGeo.Region
