import Verif.Props.Affine
import Verif.Props.Distance
import Verif.Props.SimplifyTwice

/-!
# Changing the frame: C150 and C151, distances and simplification

Exact arithmetic over the reals.
-/

set_option linter.unusedSectionVars false

namespace GoGeo
open GoFloat Spec

theorem eucl_rigid {T : Aff ℝ} (h : T.Rigid) (p q : ℝ × ℝ) : eucl (T.at p) (T.at q) = eucl p q := by
  obtain ⟨h1, h2, h3⟩ := h
  unfold eucl Aff.at
  congr 1
  simp only
  linear_combination (p.1 - q.1) ^ 2 * h1 + (p.2 - q.2) ^ 2 * h2 + 2 * (p.1 - q.1) * (p.2 - q.2) * h3

theorem rigid_inj {T : Aff ℝ} (h : T.Rigid) {p q : ℝ × ℝ} (e : T.at p = T.at q) : p = q := by
  rw [← eucl_eq_zero, ← eucl_rigid h, e, eucl_eq_zero]

theorem ufac_rigid {T : Aff ℝ} (h : T.Rigid) (p a b : ℝ × ℝ) : ufac (T.at p) (T.at a) (T.at b) = ufac p a b := by
  obtain ⟨h1, h2, h3⟩ := h
  unfold ufac Aff.at
  congr 1
  · simp only
    linear_combination (p.1 - a.1) * (b.1 - a.1) * h1 + (p.2 - a.2) * (b.2 - a.2) * h2 + ((p.1 - a.1) * (b.2 - a.2) + (p.2 - a.2) * (b.1 - a.1)) * h3
  · simp only
    linear_combination (b.1 - a.1) ^ 2 * h1 + (b.2 - a.2) ^ 2 * h2 + 2 * (b.1 - a.1) * (b.2 - a.2) * h3

theorem along_aff {K : Type} [Field K] (T : Aff K) (a b : K × K) (t : K) : along (T.at a) (T.at b) t = T.at (along a b t) := by
  unfold along Aff.at
  ext <;> simp only <;> ring

/-- **C150, distance to a segment.** A rigid motion changes neither the distance from a point to a segment nor, up to the motion, the nearest point. -/
theorem C150_toSegment (T : Aff ℝ) (h : T.Rigid) (p a b : ℝ × ℝ) {srid : Int} (hs : srid ≠ 4326) :
    (PointToSegmentDistance (pt (T.at p)) (pt (T.at a)) (pt (T.at b)) srid).1 = (PointToSegmentDistance (pt p) (pt a) (pt b) srid).1 ∧
    (a ≠ b → ∃ q, (PointToSegmentDistance (pt p) (pt a) (pt b) srid).2 = pt q ∧
      (PointToSegmentDistance (pt (T.at p)) (pt (T.at a)) (pt (T.at b)) srid).2 = pt (T.at q)) := by
  by_cases hab : a = b
  · subst hab
    rw [toSegment_nan _ _ hs, toSegment_nan _ _ hs]
    exact ⟨rfl, fun h => absurd rfl h⟩
  · have hab' : T.at a ≠ T.at b := fun e => hab (rigid_inj h e)
    have hc : clampU (T.at p) (T.at a) (T.at b) = clampU p a b := by unfold clampU; rw [ufac_rigid h]
    rw [toSegment_fin _ _ _ hab hs, toSegment_fin _ _ _ hab' hs, hc, along_aff, eucl_rigid h]
    exact ⟨rfl, fun _ => ⟨_, rfl, rfl⟩⟩

/-- **C150, lengths.** A rigid motion does not change the length of a line. -/
theorem C150_length (T : Aff ℝ) (h : T.Rigid) (l : List (ℝ × ℝ)) : LineLength ((l.map T.at).map pt) = LineLength (l.map pt) := by
  rw [length_fin, length_fin, edges_map, List.map_map]
  congr 3
  funext e
  exact eucl_rigid h e.1 e.2

/-- **C150, Hausdorff distance.** Nor the Hausdorff distance of two lines. -/
theorem C150_hausdorff (T : Aff ℝ) (h : T.Rigid) (l m : List (ℝ × ℝ)) {srid : Int} (hs : srid ≠ 4326) :
    HausdorffDistance ((l.map T.at).map pt) ((m.map T.at).map pt) srid = HausdorffDistance (l.map pt) (m.map pt) srid := by
  have e1 : ∀ (p : ℝ × ℝ) (m : List (ℝ × ℝ)), minDisTo (pt (T.at p)) srid ((m.map T.at).map pt) = minDisTo (pt p) srid (m.map pt) := by
    intro p m
    unfold minDisTo
    generalize (INF : XR ℝ) = M
    induction m generalizing M with
    | nil => rfl
    | cons q m ih =>
      simp only [List.map_cons, List.foldl_cons, pointDistance_fin _ _ hs, eucl_rigid h]
      exact ih _
  have e2 : ∀ (l m : List (ℝ × ℝ)) (M : XR ℝ), hausdorffPass srid M ((l.map T.at).map pt) ((m.map T.at).map pt) = hausdorffPass srid M (l.map pt) (m.map pt) := by
    intro l m
    unfold hausdorffPass
    induction l with
    | nil => intro M; rfl
    | cons p l ih =>
      intro M
      rw [List.map_cons, List.map_cons, List.map_cons, List.foldl_cons, List.foldl_cons, e1]
      exact ih _
  unfold HausdorffDistance
  rw [C150_length T h, C150_length T h, e2, e2]

/-- **C150, the nearest point of a line.** A rigid motion changes neither the index nor the distance that `PointHitLineString` returns; the point is moved along,
unless no segment is nearer than 2^31 and the answer is the one for no segment at all. -/
theorem C150_hit (T : Aff ℝ) (h : T.Rigid) (p : ℝ × ℝ) (l : List (ℝ × ℝ)) {srid : Int} (hs : srid ≠ 4326) :
    (PointHitLineString (pt (T.at p)) ((l.map T.at).map pt) srid).2 = (PointHitLineString (pt p) (l.map pt) srid).2 ∧
    ((PointHitLineString (pt (T.at p)) ((l.map T.at).map pt) srid = (⟨lit 0, lit 0⟩, 0, INF) ∧ PointHitLineString (pt p) (l.map pt) srid = (⟨lit 0, lit 0⟩, 0, INF)) ∨
      ∃ q, (PointHitLineString (pt p) (l.map pt) srid).1 = pt q ∧ (PointHitLineString (pt (T.at p)) ((l.map T.at).map pt) srid).1 = pt (T.at q)) := by
  have key : ∀ (es : List ((ℝ × ℝ) × (ℝ × ℝ))) (i : Nat) (b b' : Point (XR ℝ) × Nat × XR ℝ), b'.2 = b.2 →
      ((b' = (⟨lit 0, lit 0⟩, 0, INF) ∧ b = (⟨lit 0, lit 0⟩, 0, INF)) ∨ ∃ q, b.1 = pt q ∧ b'.1 = pt (T.at q)) →
      (hitLoop (pt (T.at p)) srid i b' (es.map fun e => (pt (T.at e.1), pt (T.at e.2)))).2 = (hitLoop (pt p) srid i b (es.map fun e => (pt e.1, pt e.2))).2 ∧
      ((hitLoop (pt (T.at p)) srid i b' (es.map fun e => (pt (T.at e.1), pt (T.at e.2))) = (⟨lit 0, lit 0⟩, 0, INF) ∧
          hitLoop (pt p) srid i b (es.map fun e => (pt e.1, pt e.2)) = (⟨lit 0, lit 0⟩, 0, INF)) ∨
        ∃ q, (hitLoop (pt p) srid i b (es.map fun e => (pt e.1, pt e.2))).1 = pt q ∧
          (hitLoop (pt (T.at p)) srid i b' (es.map fun e => (pt (T.at e.1), pt (T.at e.2)))).1 = pt (T.at q)) := by
    intro es
    induction es with
    | nil => intro i b b' h1 h2; exact ⟨h1, h2⟩
    | cons e es ih =>
      intro i b b' h1 h2
      simp only [List.map_cons, hitLoop]
      obtain ⟨g1, g2⟩ := C150_toSegment T h p e.1 e.2 hs
      rw [g1, h1]
      by_cases hlt : lt (PointToSegmentDistance (pt p) (pt e.1) (pt e.2) srid).1 b.2.2 = true
      · rw [if_pos hlt, if_pos hlt]
        have hne : e.1 ≠ e.2 := by
          intro he
          rw [he, toSegment_nan _ _ hs] at hlt
          cases hlt
        exact ih _ _ _ rfl (Or.inr (g2 hne))
      · rw [if_neg hlt, if_neg hlt]
        exact ih _ _ _ h1 h2
  have e := key (edges l) 0 (⟨lit 0, lit 0⟩, 0, INF) (⟨lit 0, lit 0⟩, 0, INF) rfl (Or.inl ⟨rfl, rfl⟩)
  unfold PointHitLineString
  rw [List.map_map, edges_map, edges_map]
  exact e

/-- **C151 (partial), distance to a polygon.** A translation does not change the distance from a point to a polygon, if the point is not the origin before or after. -/
theorem C151_distance_partial (v p : ℝ × ℝ) (c : List (ℝ × ℝ)) (holes holes' : List (List (Point (XR ℝ)))) {srid : Int} (hs : srid ≠ 4326) (hc : c ≠ [])
    (hp : p ≠ (0, 0)) (hp' : (Aff.shift v).at p ≠ (0, 0)) :
    PointPolygonDistance (pt ((Aff.shift v).at p)) (ring (c.map (Aff.shift v).at) :: holes') srid = PointPolygonDistance (pt p) (ring c :: holes) srid := by
  have hr : (Aff.shift v).Rigid := by unfold Aff.Rigid Aff.shift; norm_num
  have hring : ring (c.map (Aff.shift v).at) = ((c ++ c.take 1).map (Aff.shift v).at).map pt := by
    unfold ring; simp [List.map_take]
  have e1 : IsPointInPolygon (pt ((Aff.shift v).at p)) (ring (c.map (Aff.shift v).at) :: holes') = IsPointInPolygon (pt p) (ring c :: holes) := by
    have := C151_inside_partial v p [c ++ c.take 1] hp hp'
    rw [hring]
    exact this
  unfold PointPolygonDistance
  rw [e1]
  simp only [GetExteriorRing]
  rw [cyc_ring c hc, cyc_ring (c.map (Aff.shift v).at) (by simpa using hc)]
  have hsd : (sides (c.map (Aff.shift v).at)) = (sides c).map fun e => ((Aff.shift v).at e.1, (Aff.shift v).at e.2) := by
    unfold sides
    rw [← List.map_rotate, List.zip_map]
    rfl
  rw [hsd, List.map_map]
  have key : ∀ (es : List ((ℝ × ℝ) × (ℝ × ℝ))) (M : XR ℝ), polyDistLoop (pt ((Aff.shift v).at p)) srid M (es.map (Prod.map pt pt ∘ fun e => ((Aff.shift v).at e.1, (Aff.shift v).at e.2))) =
      polyDistLoop (pt p) srid M (es.map (Prod.map pt pt)) := by
    intro es
    induction es with
    | nil => intro M; rfl
    | cons e es ih =>
      intro M
      simp only [List.map_cons, Function.comp, Prod.map_apply', polyDistLoop]
      rw [(C150_toSegment _ hr p e.1 e.2 hs).1]
      exact ih _
  rw [key]

theorem dpMax_rigid (T : Aff ℝ) (h : T.Rigid) (l : List (ℝ × ℝ)) {srid : Int} (hs : srid ≠ 4326) (s e : Nat) :
    dpMax ((l.map T.at).map pt) srid s e = dpMax (l.map pt) srid s e := by
  unfold dpMax
  congr 1
  funext best i
  unfold dpMaxStep idx
  simp only [List.getElem?_map]
  cases l[i]? with
  | none => rfl
  | some p =>
    cases l[s]? with
    | none => rfl
    | some a =>
      cases l[e]? with
      | none => rfl
      | some b =>
        simp only [Option.map_some]
        show (pure _ : Go _) = pure _
        rw [(C150_toSegment T h p a b hs).1]

theorem splits_rigid (T : Aff ℝ) (h : T.Rigid) (l : List (ℝ × ℝ)) {srid : Int} (hs : srid ≠ 4326) {t : XR ℝ} {s e : Nat} {ks : List Nat}
    (hk : Splits (l.map pt) t srid s e ks) : Splits ((l.map T.at).map pt) t srid s e ks := by
  induction hk with
  | stop h1 h2 => exact .stop (by rw [dpMax_rigid T h l hs]; exact h1) h2
  | split h1 h2 h3 h4 _ _ i1 i2 => exact .split (by rw [dpMax_rigid T h l hs]; exact h1) h2 h3 h4 i1 i2

/-- **C150, simplification.** A line that has been moved by a rigid motion is simplified to the moved simplification. -/
theorem C150_simplify (T : Aff ℝ) (h : T.Rigid) (srt srt' : GoSort) (hsrt : SortOk srt) (hsrt' : SortOk srt') (grow grow' : Nat → Nat → Nat)
    (m m' : Mem (Point (XR ℝ))) (line line' : Slice) (hv : m.Valid line) (hv' : m'.Valid line') (l : List (ℝ × ℝ)) (hl : m.read line = l.map pt)
    (hl' : m'.read line' = (l.map T.at).map pt) (t : XR ℝ) {srid : Int} (hs : srid ≠ 4326) (ht : lt t (lit 0) = false) (hlen : 2 ≤ l.length) :
    ∃ (n : Nat) (r : List (ℝ × ℝ)), ∀ fuel, n ≤ fuel → ∃ m₁ l₁ m₂ l₂, DouglasPeuckerSimplify srt grow fuel m line t srid = .ok (m₁, l₁) ∧
      DouglasPeuckerSimplify srt' grow' fuel m' line' t srid = .ok (m₂, l₂) ∧ m₁.read l₁ = r.map pt ∧ m₂.read l₂ = (r.map T.at).map pt := by
  obtain ⟨n, hn⟩ := dp_run srt hsrt grow m line hv t srid ht (by rw [hl]; simpa using hlen) (fun _ _ => True) (fun _ _ _ _ _ _ _ _ => ⟨trivial, trivial⟩) trivial
  obtain ⟨n', hn'⟩ := dp_run srt' hsrt' grow' m' line' hv' t srid ht (by rw [hl']; simpa using hlen) (fun _ _ => True) (fun _ _ _ _ _ _ _ _ => ⟨trivial, trivial⟩) trivial
  obtain ⟨m₁, l₁, K, a1, a2, a3, a4, a5, a6, -, -, ks, a9, a10⟩ := hn n le_rfl
  obtain ⟨m₂, l₂, K', b1, b2, b3, b4, b5, b6, -, -, ks', b9, b10⟩ := hn' n' le_rfl
  have hll : (m'.read line').length = (m.read line).length := by rw [hl, hl']; simp
  have hKK : K' = K := by
    have e10 : Splits ((l.map T.at).map pt) t srid 0 ((m.read line).length - 1) ks := splits_rigid T h l hs (hl ▸ a10)
    rw [hl', List.length_map, List.length_map] at b10
    rw [hl, List.length_map] at e10
    have : ks' = ks := splits_unique b10 e10
    rw [a9, b9, this, hll]
  subst hKK
  have hr : ∃ r : List (ℝ × ℝ), K'.map (l[·]?) = r.map some := by
    have : ∀ i ∈ K', ∃ x, l[i]? = some x := by
      intro i hi
      have hm : (m.read line)[i]? ∈ K'.map ((m.read line)[·]?) := List.mem_map.2 ⟨i, hi, rfl⟩
      rw [a6] at hm
      obtain ⟨x, _, hx⟩ := List.mem_map.1 hm
      rw [hl, List.getElem?_map] at hx
      cases hx' : l[i]? with
      | none => rw [hx'] at hx; simp at hx
      | some y => exact ⟨y, rfl⟩
    clear a1 a2 a3 a4 a5 a6 a9 b1 b2 b3 b4 b5 b6 b9
    induction K' with
    | nil => exact ⟨[], rfl⟩
    | cons i K' ih =>
      obtain ⟨r, hr⟩ := ih fun j hj => this j (by simp [hj])
      obtain ⟨x, hx⟩ := this i (by simp)
      exact ⟨x :: r, by rw [List.map_cons, List.map_cons, hr, hx]⟩
  obtain ⟨r, hr⟩ := hr
  have hinj : Function.Injective (List.map (some : Point (XR ℝ) → Option (Point (XR ℝ)))) := List.map_injective_iff.2 (Option.some_injective _)
  have push : ∀ f : ℝ × ℝ → Point (XR ℝ), K'.map ((l.map f)[·]?) = (r.map f).map some := by
    intro f
    have := congrArg (List.map (Option.map f)) hr
    rw [List.map_map, List.map_map] at this
    rw [List.map_map]
    refine Eq.trans ?_ this
    congr 1
    funext i
    simp
  have r1 : m₁.read l₁ = r.map pt := hinj (by rw [← a6, hl, push])
  have r2 : m₂.read l₂ = (r.map T.at).map pt := hinj (by rw [← b6, hl', List.map_map, push]; simp)
  refine ⟨max n n', r, fun fuel hf => ⟨m₁, l₁, m₂, l₂, simplify_mono _ _ _ _ _ _ (le_trans (le_max_left _ _) hf) _ a1,
    simplify_mono _ _ _ _ _ _ (le_trans (le_max_right _ _) hf) _ b1, r1, r2⟩⟩

/-- there are rigid motions that are not translations: a quarter turn about (1, 2) -/
example : (⟨0, -1, 1, 0, 3, 1⟩ : Aff ℝ).Rigid ∧ (⟨0, -1, 1, 0, 3, 1⟩ : Aff ℝ).at (1, 2) = (1, 2) := by
  unfold Aff.Rigid Aff.at; norm_num

end GoGeo
