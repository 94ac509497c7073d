import Verif.Props.JordanCurve
import Verif.Props.CentroidIn
import Verif.Spec.Distance

/-!
# C140: simple polygons and what is inside them
-/

namespace GoGeo.Region
open MeasureTheory Set Spec Real

/-! ### paths -/

theorem evenOdd_path (c : List (ℝ × ℝ)) {S : Set (ℝ × ℝ)} (hS : IsPreconnected S) (hoff : ∀ x ∈ S, ¬ OnRing c x) {p q : ℝ × ℝ} (hp : p ∈ S)
    (hq : q ∈ S) : EvenOdd c p ↔ EvenOdd c q := by
  rw [evenOdd_iff, evenOdd_iff, winding_path c hS hoff hp hq]

theorem turn_real (a b z : ℚ × ℚ) : turn (real a) (real b) (real z) = ((turn a b z : ℚ) : ℝ) := by
  unfold turn real
  push_cast
  ring

theorem crosses_real (z : ℚ × ℚ) (e : (ℚ × ℚ) × (ℚ × ℚ)) :
    (HitsRight (real z) (real e.1, real e.2) ∧ ¬ ((real z).2 < (real e.1).2 ↔ (real z).2 < (real e.2).2)) ↔
      (HitsRight z e ∧ ¬ (z.2 < e.1.2 ↔ z.2 < e.2.2)) := by
  have lt : ∀ a : ℚ × ℚ, (real z).2 < (real a).2 ↔ z.2 < a.2 := fun a => by simp [real]
  rw [lt, lt]
  obtain ⟨u, v⟩ := e
  by_cases h1 : z.2 < u.2 <;> by_cases h2 : z.2 < v.2
  · simp [h1, h2]
  · simp only [h1, h2, iff_false, not_true, not_false_iff, and_true]
    rw [hits_down h1 h2, hits_down ((lt u).2 h1) (fun h => h2 ((lt v).1 h)), turn_real]
    exact_mod_cast Iff.rfl
  · simp only [h1, h2, false_iff, not_true, not_false_iff, and_true]
    rw [hits_up h1 h2, hits_up (fun h => h1 ((lt u).1 h)) ((lt v).2 h2), turn_real]
    exact_mod_cast Iff.rfl
  · simp [h1, h2]

theorem sides_real (c : List (ℚ × ℚ)) : sides (c.map real) = (sides c).map fun e => (real e.1, real e.2) := by
  unfold sides
  rw [← List.map_rotate, List.zip_map]
  rfl

theorem evenOdd_real (c : List (ℚ × ℚ)) (z : ℚ × ℚ) : EvenOdd (c.map real) (real z) ↔ EvenOdd c z := by
  classical
  unfold EvenOdd
  rw [sides_real, List.countP_map]
  have : ((fun e : (ℝ × ℝ) × (ℝ × ℝ) => decide (HitsRight (real z) e ∧ ¬ ((real z).2 < e.1.2 ↔ (real z).2 < e.2.2))) ∘
      fun e : (ℚ × ℚ) × (ℚ × ℚ) => (real e.1, real e.2)) = fun e => decide (HitsRight z e ∧ ¬ (z.2 < e.1.2 ↔ z.2 < e.2.2)) := by
    funext e
    exact decide_eq_decide.2 (crosses_real z e)
  rw [this]

section
variable {F : Type} [GoFloat F] [FloatOrd F] [FloatVal F ℚ] [FloatErr F ℚ]

/-- **C140 (inside).** In float64, for a point off a simple ring and clear of it as C101 asks, the answer is CONTAIN exactly when the point is
shut in by the ring, and DISJOINT exactly when a path that does not touch the ring leads away from it. -/
theorem C140_inside {p : Point F} {ps : List (Point F)} {x : ℚ × ℚ} {c : List (ℚ × ℚ)} (hp : At p x) (bx : Within (2 ^ 26) x)
    (hc : AtAll (2 ^ 26) ps (c ++ c.take 1)) (hs : SimpleRing (c.map real)) (hoff : ¬ OnRing (c.map real) (real x))
    (hx : Clear2X c x) (hy : ClearY c x) (h0 : x ≠ (0, 0)) (holes : List (List (Point F))) :
    (IsPointInPolygon p (ps :: holes) = .contain ↔ ¬ Escapes (c.map real) (real x)) ∧
    (IsPointInPolygon p (ps :: holes) = .disjoint ↔ Escapes (c.map real) (real x)) := by
  obtain ⟨h1, h2⟩ := C101_inPolygon_evenOdd hp bx hc hx hy h0 holes
  have hE := evenOdd_escapes hs hoff
  rw [evenOdd_real] at hE
  by_cases h : EvenOdd c x
  · simp [h1 h, hE.1 h]
  · have : Escapes (c.map real) (real x) := by_contra fun g => h (hE.2 g)
    simp [h2 h, this]

theorem seg_real {u v x : ℚ × ℚ} (h : OnSeg u v x) : OnSeg (real u) (real v) (real x) := by
  obtain ⟨t, t0, t1, rfl⟩ := h
  refine ⟨t, by exact_mod_cast t0, by exact_mod_cast t1, ?_⟩
  unfold real along
  ext <;> push_cast <;> rfl

/-- **C140 (inside, on a grid).** The same with no clearance, for coordinates that are multiples of `1 / 2^k` with numerators up to `2^B`, `B + k ≤ 17`:
for every such point off the ring except the origin. -/
theorem C140_inside_grid {B k : ℕ} (hB : B + k ≤ 17) {p : Point F} {ps : List (Point F)} {x : ℚ × ℚ} {c : List (ℚ × ℚ)} (hp : At p x) (gx : OnGrid B k x)
    (hc : GridAll B k ps (c ++ c.take 1)) (hs : SimpleRing (c.map real)) (hoff : ¬ OnRing (c.map real) (real x)) (h0 : x ≠ (0, 0))
    (holes : List (List (Point F))) :
    (IsPointInPolygon p (ps :: holes) = .contain ↔ ¬ Escapes (c.map real) (real x)) ∧
    (IsPointInPolygon p (ps :: holes) = .disjoint ↔ Escapes (c.map real) (real x)) := by
  have w : ∀ {v : ℚ × ℚ}, OnGrid B k v → Within (2 ^ 26) v := by
    rintro v ⟨m, n, b1, b2, rfl⟩
    have q : ∀ j : ℤ, |j| ≤ 2 ^ B → |(j : ℚ) / 2 ^ k| ≤ 2 ^ 26 := by
      intro j hj
      rw [abs_div, abs_of_pos (by positivity : (0 : ℚ) < 2 ^ k)]
      have h1 : |(j : ℚ)| ≤ 2 ^ B := by exact_mod_cast hj
      have h2 : (2 : ℚ) ^ B ≤ 2 ^ 26 := pow_le_pow_right₀ (by norm_num) (by omega)
      exact (div_le_self (abs_nonneg _) (one_le_pow₀ (by norm_num))).trans (h1.trans h2)
    exact ⟨q m b1, q n b2⟩
  have hg : ∀ v ∈ c, OnGrid B k v := by
    intro v hv
    obtain ⟨p, -, -, h⟩ := forall₂_mem_right hc (List.mem_append_left _ hv)
    exact h
  have hoff' : ∀ e ∈ sides c, ¬ OnSeg e.1 e.2 x := by
    intro e he hon
    refine hoff ⟨(real e.1, real e.2), ?_, seg_real hon⟩
    rw [sides_real]
    exact List.mem_map.2 ⟨e, he, rfl⟩
  exact C140_inside hp (w gx) (List.Forall₂.imp (fun _ _ h => ⟨h.1, w h.2⟩) hc) hs hoff (grid_clear2X hB hg gx hoff') (grid_clearY hB hg gx) h0 holes

end

/-! ### area and centroid -/

/-- an off-ring point with odd winding number: the region is open there -/
theorem inside_pos {c : List (ℝ × ℝ)} (hc : SimpleRing c) : 0 < volume {z | EvenOdd c z} := by
  obtain ⟨x, hx⟩ := simple_some hc
  obtain ⟨y, -, z, -, hy, hz, hlt⟩ := cross_ring hc hx one_pos
  have : ∃ w, ¬ OnRing c w ∧ Odd (winding c w) := by
    rcases simple_winding hc with h | h
    · refine ⟨z, hz, ?_⟩
      rcases h y hy with a | a <;> rcases h z hz with b | b <;> rw [a, b] at hlt <;> simp at hlt
      rw [b]; simp
    · refine ⟨y, hy, ?_⟩
      rcases h y hy with a | a <;> rcases h z hz with b | b <;> rw [a, b] at hlt <;> simp at hlt
      rw [a]; simp
  obtain ⟨w, hw, ho⟩ := this
  have hopen : IsOpen ({x | ¬ OnRing c x} ∩ winding c ⁻¹' {n | Odd n}) :=
    (winding_cont c).isOpen_inter_preimage (off_open c) (isOpen_discrete _)
  refine lt_of_lt_of_le (hopen.measure_pos volume ⟨w, hw, ho⟩) (measure_mono ?_)
  rintro v ⟨-, hv⟩
  exact (evenOdd_iff c v).2 hv

theorem simple_sign {c : List (ℝ × ℝ)} (hc : SimpleRing c) : ∃ s : ℝ, (s = 1 ∨ s = -1) ∧ (∀ z, ¬ OnRing c z → winding c z = 0 ∨ (winding c z : ℝ) = s) := by
  rcases simple_winding hc with h | h
  · exact ⟨1, Or.inl rfl, fun z hz => (h z hz).imp id fun h => by rw [h]; simp⟩
  · exact ⟨-1, Or.inr rfl, fun z hz => (h z hz).imp id fun h => by rw [h]; simp⟩

theorem inside_toReal {c : List (ℝ × ℝ)} (hc : SimpleRing c) : 0 < (volume {z | EvenOdd c z}).toReal :=
  ENNReal.toReal_pos (inside_pos hc).ne' (evenOdd_finite c).ne

/-- **C140 (area).** GetArea of a simple polygon is the Lebesgue measure of the set of points inside it, and is positive, whichever way the
corners run. -/
theorem C140_area (c : List (ℝ × ℝ)) (hc : SimpleRing c) (holes : List (List (Point (XR ℝ)))) : ∃ A : ℝ, 0 < A ∧
    volume {z | EvenOdd c z} = ENNReal.ofReal A ∧ GetArea (.polygon (ring c :: holes)) = .fin A ∧
    GetArea (.polygon ((ring c).reverse :: holes)) = .fin A := by
  obtain ⟨A, -, hA, hg⟩ := C135_region c (simple_winding hc) holes
  refine ⟨A, ?_, hA, hg, by rw [C31_area_reverse, hg]⟩
  have := inside_pos hc
  rw [hA] at this
  exact ENNReal.ofReal_pos.1 this

/-- **C140 (centroid).** Centroid of a simple polygon is the centre of mass of the set of points inside it. -/
theorem C140_centroid (c : List (ℝ × ℝ)) (hc : SimpleRing c) (holes : List (List (Point (XR ℝ)))) :
    Centroid (.polygon (ring c :: holes)) = .ok (pt (⨍ z in {z | EvenOdd c z}, z.1, ⨍ z in {z | EvenOdd c z}, z.2)) := by
  obtain ⟨s, hs, hz⟩ := simple_sign hc
  have hv := winding_volume c hs hz
  have hp := inside_toReal hc
  have hs0 : s ≠ 0 := by rcases hs with rfl | rfl <;> norm_num
  have key : ∀ f : ℝ × ℝ → ℝ, (∫ z, f z * (winding c z : ℝ)) / ∫ z, (winding c z : ℝ) = ⨍ z in {z | EvenOdd c z}, f z := by
    intro f
    rw [winding_inside c hs hz f, hv, setAverage_eq, smul_eq_mul, Measure.real]
    field_simp
  rw [C135_centroid c (by rw [hv]; exact mul_ne_zero hs0 hp.ne') holes, key, key]

/-- **C140 (orientation).** IsCCW of a simple polygon says whether the ring goes round the points inside it counter-clockwise: once round
each of them, and not round the others. -/
theorem C140_ccw (c : List (ℝ × ℝ)) (hc : SimpleRing c) (holes : List (List (Point (XR ℝ)))) (z : ℝ × ℝ) (hz : ¬ OnRing c z) :
    (EvenOdd c z → winding c z = if IsCCW (ring c :: holes) then 1 else -1) ∧ (¬ EvenOdd c z → winding c z = 0) := by
  obtain ⟨-, -, hi⟩ := C135_area c holes
  have hp := inside_toReal hc
  have h01 : ∀ n : ℤ, n = 0 → ¬ Odd n := by rintro n rfl; simp
  rcases simple_winding hc with h | h
  · have hv := winding_volume c (s := 1) (Or.inl rfl) fun z hz => (h z hz).imp id fun h => by rw [h]; simp
    have ht : IsCCW (ring c :: holes) = true := hi.2 (by rw [hv, one_mul]; exact hp)
    rw [ht]
    by_cases he : EvenOdd c z
    · rcases h z hz with a | a
      · exact absurd ((evenOdd_iff c z).1 he) (h01 _ a)
      · simp [he, a]
    · rcases h z hz with a | a
      · simp [he, a]
      · exact absurd ((evenOdd_iff c z).2 (by rw [a]; simp)) he
  · have hv := winding_volume c (s := -1) (Or.inr rfl) fun z hz => (h z hz).imp id fun h => by rw [h]; simp
    have ht : ¬ IsCCW (ring c :: holes) = true := by
      rw [hi, hv]
      linarith
    rw [if_neg ht]
    by_cases he : EvenOdd c z
    · rcases h z hz with a | a
      · exact absurd ((evenOdd_iff c z).1 he) (h01 _ a)
      · simp [he, a]
    · rcases h z hz with a | a
      · simp [he, a]
      · exact absurd ((evenOdd_iff c z).2 (by rw [a]; simp)) he

/-- **C140 (boundary).** The ring of a simple polygon is the boundary of its region: every point of it has points inside and points
outside arbitrarily near. -/
theorem C140_boundary (c : List (ℝ × ℝ)) (hc : SimpleRing c) (x : ℝ × ℝ) (hx : OnRing c x) (δ : ℝ) (hδ : 0 < δ) :
    (∃ y ∈ Metric.ball x δ, ¬ OnRing c y ∧ EvenOdd c y) ∧ (∃ y ∈ Metric.ball x δ, ¬ OnRing c y ∧ ¬ EvenOdd c y) := by
  obtain ⟨y, by', z, bz, hy, hz, hlt⟩ := cross_ring hc hx hδ
  have one : ∀ w, winding c w = 0 → ¬ EvenOdd c w := fun w h => by rw [evenOdd_iff, h]; simp
  rcases simple_winding hc with h | h
  · rcases h y hy with a | a <;> rcases h z hz with b | b <;> rw [a, b] at hlt <;> simp at hlt
    exact ⟨⟨z, bz, hz, by rw [evenOdd_iff, b]; simp⟩, y, by', hy, one y a⟩
  · rcases h y hy with a | a <;> rcases h z hz with b | b <;> rw [a, b] at hlt <;> simp at hlt
    exact ⟨⟨y, by', hy, by rw [evenOdd_iff, a]; simp⟩, z, bz, hz, one z b⟩

/-- **C140 (two parts).** The points off a simple ring are in two parts: those inside can be joined with each other by paths that do not
touch the ring, those outside too, and no such path leads from inside to outside; those inside are within the bounds of the corners. -/
theorem C140_parts (c : List (ℝ × ℝ)) (hc : SimpleRing c) :
    (∃ z, ¬ OnRing c z ∧ EvenOdd c z) ∧ (∃ z, ¬ OnRing c z ∧ ¬ EvenOdd c z) ∧
    (∀ y z, ¬ OnRing c y → ¬ OnRing c z → (JoinedIn {x | ¬ OnRing c x} y z ↔ (EvenOdd c y ↔ EvenOdd c z))) ∧
    (∀ R, (∀ v ∈ c, |v.1| ≤ R ∧ |v.2| ≤ R) → ∀ z, EvenOdd c z → |z.1| ≤ R ∧ |z.2| ≤ R) := by
  obtain ⟨x, hx⟩ := simple_some hc
  obtain ⟨⟨y, -, hy⟩, z, -, hz⟩ := C140_boundary c hc x hx 1 one_pos
  refine ⟨⟨y, hy⟩, ⟨z, hz⟩, fun y z oy oz => ?_, fun R hR z hz => ?_⟩
  · rw [← linked_joined, linked_iff hc oy oz, evenOdd_iff, evenOdd_iff]
    rcases simple_winding hc with h | h <;> rcases h y oy with a | a <;> rcases h z oz with b | b <;> rw [a, b] <;> simp
  · by_contra hn
    have h0 := (winding_out hR (z := z) (by by_contra hc; rw [not_or, not_lt, not_lt] at hc; exact hn hc)).2
    rw [evenOdd_iff, h0] at hz
    simp at hz

/-- **C140 (centroid, half planes).** The centroid of a simple polygon is on the left of every line that has all corners on its left. -/
theorem C140_left (c : List (ℝ × ℝ)) (hc : SimpleRing c) (holes : List (List (Point (XR ℝ)))) :
    ∃ g, Centroid (.polygon (ring c :: holes)) = .ok (pt g) ∧ ∀ a b : ℝ × ℝ, (∀ v ∈ c, 0 ≤ turn a b v) → 0 ≤ turn a b g := by
  obtain ⟨A, hA, -, hg, -⟩ := C140_area c hc holes
  refine C137_left c ?_ holes ?_
  · rcases simple_winding hc with h | h
    · exact Or.inl fun z hz => by rcases h z hz with e | e <;> simp [e]
    · exact Or.inr fun z hz => by rcases h z hz with e | e <;> simp [e]
  · rw [hg]
    intro e
    cases e
    exact lt_irrefl _ hA

theorem simple_cross {c : List (ℝ × ℝ)} (hc : SimpleRing c) : ¬ ∃ (i j : Nat) (e d : (ℝ × ℝ) × (ℝ × ℝ)), i < j ∧ j + 1 < c.length ∧
    (sides c)[i]? = some e ∧ (sides c)[j]? = some d ∧ ProperCross e.1 e.2 d.1 d.2 := by
  rintro ⟨i, j, e, d, hij, -, he, hd, -, x, ⟨⟨s, s0, s1, hx⟩, ⟨t, t0, t1, hy⟩⟩, -⟩
  have me := List.mem_of_getElem? he
  have md := List.mem_of_getElem? hd
  have hne : e ≠ d := by
    rintro rfl
    obtain ⟨h1, h1'⟩ := List.getElem?_eq_some_iff.1 he
    obtain ⟨h2, h2'⟩ := List.getElem?_eq_some_iff.1 hd
    have := (List.Nodup.getElem_inj_iff (sides_nodup hc.2.1)).1 (h1'.trans h2'.symm)
    omega
  have huv := sides_ne hc.1 hc.2.1 me
  have a0 : along e.1 e.2 0 = e.1 := by simp [along]
  have a1 : along e.1 e.2 1 = e.2 := by simp [along]
  rcases hc.2.2 e me d md hne x ⟨s, s0.le, s1.le, hx⟩ ⟨t, t0.le, t1.le, hy⟩ with ⟨h, -⟩ | ⟨h, -⟩
  · exact s1.ne (along_inj huv (hx.symm.trans (h.trans a1.symm)))
  · exact s0.ne' (along_inj huv (hx.symm.trans (h.trans a0.symm)))

/-- **C140 (validity).** A simple ring is not reported to cross itself, and `Verify` accepts it if the corners
are in the ranges the code checks and the region has at least area 1e-10. -/
theorem C140_verify (c : List (ℝ × ℝ)) (hc : SimpleRing c) (holes : List (List (Point (XR ℝ)))) :
    SelfIntersect (ring c :: holes) = false ∧
    ((∀ v ∈ c, |v.1| ≤ 90 ∧ |v.2| ≤ 180) → ENNReal.ofReal (1 / 10 ^ 10) ≤ volume {z | EvenOdd c z} → PolyVerify (ring c :: holes) = none) := by
  constructor
  · rw [← Bool.not_eq_true, C41_selfIntersect_partial]
    exact simple_cross hc
  · intro h1 h2
    rw [C71_verify_partial]
    refine ⟨hc.1, h1, ?_, simple_cross hc⟩
    obtain ⟨A, hA, hv, hg, -⟩ := C140_area c hc holes
    rw [hv, ENNReal.ofReal_le_ofReal_iff hA.le] at h2
    rw [(C32_area_fan (0, 0) c holes).1] at hg
    cases hg
    exact h2

/-! ### convex rings are simple -/

theorem sides_last {c : List (ℝ × ℝ)} (h : c.Nodup) {e f : (ℝ × ℝ) × (ℝ × ℝ)} (he : e ∈ sides c) (hf : f ∈ sides c) (hef : e.2 = f.2) : e = f := by
  have hs : (sides c).map Prod.snd = c.rotate 1 := by
    unfold sides
    rw [List.map_snd_zip (by simp)]
  have hn : ((sides c).map Prod.snd).Nodup := by rw [hs]; exact List.nodup_rotate.2 h
  exact List.inj_on_of_nodup_map hn he hf hef

theorem convex_simple {c : List (ℝ × ℝ)} (hc : StrictlyConvex c) : SimpleRing c := by
  obtain ⟨hl, hd, hs⟩ := hc
  refine ⟨hl, hd, fun e he f hf hef x hx hy => ?_⟩
  have h0 := seg_turn hx
  have mem : ∀ g ∈ sides c, g.1 ∈ c ∧ g.2 ∈ c := fun g hg => ⟨side_fst_mem hg, sides_mem_right hg⟩
  have t1 : ∀ v ∈ c, 0 ≤ turn e.1 e.2 v ∧ (turn e.1 e.2 v = 0 → v = e.1 ∨ v = e.2) := by
    intro v hv
    by_cases a : v = e.1
    · refine ⟨?_, fun _ => Or.inl a⟩
      rw [a]; unfold turn; nlinarith
    by_cases b : v = e.2
    · refine ⟨?_, fun _ => Or.inr b⟩
      rw [b]; unfold turn; nlinarith
    · have := hs e he v hv a b
      exact ⟨this.le, fun h => absurd h this.ne'⟩
  obtain ⟨a1, a2⟩ := t1 f.1 (mem f hf).1
  obtain ⟨b1, b2⟩ := t1 f.2 (mem f hf).2
  obtain ⟨t, t0, t1', rfl⟩ := hy
  have hx' : turn e.1 e.2 (along f.1 f.2 t) = (1 - t) * turn e.1 e.2 f.1 + t * turn e.1 e.2 f.2 := by unfold turn along; ring
  rw [hx'] at h0
  have f1 : f.1 ≠ e.1 := fun h => hef (sides_first hd he hf h.symm)
  have f2 : f.2 ≠ e.2 := fun h => hef (sides_last hd he hf h.symm)
  have al0 : along f.1 f.2 0 = f.1 := by simp [along]
  have al1 : along f.1 f.2 1 = f.2 := by simp [along]
  rcases eq_or_lt_of_le t0 with z | z
  · left
    rw [← z] at h0 ⊢
    have := (a2 (by linarith)).resolve_left f1
    rw [al0]; exact ⟨this, rfl⟩
  rcases eq_or_lt_of_le t1' with y | y
  · right
    rw [y] at h0 ⊢
    have := (b2 (by linarith)).resolve_right f2
    rw [al1]; exact ⟨this, rfl⟩
  exfalso
  have n1 := mul_nonneg (sub_pos.2 y).le a1
  have n2 := mul_nonneg z.le b1
  have z1 : turn e.1 e.2 f.1 = 0 := (mul_eq_zero.1 (by linarith : (1 - t) * turn e.1 e.2 f.1 = 0)).resolve_left (by linarith)
  have z2 : turn e.1 e.2 f.2 = 0 := (mul_eq_zero.1 (by linarith : t * turn e.1 e.2 f.2 = 0)).resolve_left (by linarith)
  have g1 := (a2 z1).resolve_left f1
  have g2 := (b2 z2).resolve_right f2
  obtain ⟨v, hv, v1, v2⟩ : ∃ v ∈ c, v ≠ e.1 ∧ v ≠ e.2 := by
    match c, hl, hd with
    | p :: q :: r :: _, _, hd =>
      simp only [List.nodup_cons, List.mem_cons, not_or] at hd
      obtain ⟨⟨pq, pr, -⟩, ⟨qr, -⟩, -⟩ := hd
      by_cases p1 : p ≠ e.1 ∧ p ≠ e.2
      · exact ⟨p, by simp, p1⟩
      by_cases q1 : q ≠ e.1 ∧ q ≠ e.2
      · exact ⟨q, by simp, q1⟩
      refine ⟨r, by simp, ?_, ?_⟩
      · rintro rfl
        have p2 : p = e.2 := by_contra fun h => p1 ⟨pr, h⟩
        have q2 : q = e.2 := by_contra fun h => q1 ⟨qr, h⟩
        exact pq (p2.trans q2.symm)
      · rintro rfl
        have p2 : p = e.1 := by_contra fun h => p1 ⟨h, pr⟩
        have q2 : q = e.1 := by_contra fun h => q1 ⟨h, qr⟩
        exact pq (p2.trans q2.symm)
  have k1 := hs e he v hv v1 v2
  have k2 := hs f hf v hv (by rw [g1]; exact v2) (by rw [g2]; exact v1)
  rw [g1, g2, turn_swap] at k2
  linarith

theorem convex_ring {c : List (ℝ × ℝ)} (hc : StrictlyConvex c) {z : ℝ × ℝ} (hz : OnRing c z) {e} (he : e ∈ sides c) : 0 ≤ turn e.1 e.2 z := by
  have t1 : ∀ v ∈ c, 0 ≤ turn e.1 e.2 v := by
    intro v hv
    by_cases a : v = e.1
    · rw [a]; unfold turn; nlinarith
    by_cases b : v = e.2
    · rw [b]; unfold turn; nlinarith
    · exact (hc.2.2 e he v hv a b).le
  obtain ⟨f, hf, t, t0, t1', rfl⟩ := hz
  have hx' : turn e.1 e.2 (along f.1 f.2 t) = (1 - t) * turn e.1 e.2 f.1 + t * turn e.1 e.2 f.2 := by unfold turn along; ring
  rw [hx']
  exact add_nonneg (mul_nonneg (by linarith) (t1 _ (side_fst_mem hf))) (mul_nonneg t0 (t1 _ (sides_mem_right hf)))

/-- **C140 (convex).** A strictly convex ring is simple, and off the ring the points it shuts in are those to the left of every side. -/
theorem C140_convex (c : List (ℝ × ℝ)) (hc : StrictlyConvex c) : SimpleRing c ∧ ∀ z, ¬ OnRing c z → (EvenOdd c z ↔ InsideConvex c z) := by
  have hs := convex_simple hc
  have hin : ∀ z, InsideConvex c z → ¬ OnRing c z := by
    rintro z hz ⟨e, he, hon⟩
    exact (hz e he).ne' (seg_turn hon)
  have hout : ∀ z, ¬ OnRing c z → EvenOdd c z → ∀ e ∈ sides c, 0 ≤ turn e.1 e.2 z := by
    intro z hz hE e he
    by_contra hn
    rw [not_le] at hn
    refine (evenOdd_escapes hs hz).1 hE fun R => ?_
    -- the ray from `z` to the right of the side
    have huv := sides_ne hs.1 hs.2.1 he
    set n : ℝ × ℝ := (e.2.2 - e.1.2, e.1.1 - e.2.1) with hnd
    have hn0 : n.1 ≠ 0 ∨ n.2 ≠ 0 := by
      by_contra hh
      rw [not_or, not_not, not_not] at hh
      exact huv (Prod.ext (by have := hh.2; simp only [hnd] at this; linarith) (by have := hh.1; simp only [hnd] at this; linarith))
    have hray : ∀ s : ℝ, 0 ≤ s → ¬ OnRing c (z.1 + s * n.1, z.2 + s * n.2) := by
      intro s hs' hon
      have := convex_ring hc hon he
      have e1 : turn e.1 e.2 (z.1 + s * n.1, z.2 + s * n.2) = turn e.1 e.2 z - s * (n.1 ^ 2 + n.2 ^ 2) := by
        simp only [turn, hnd]; ring
      rw [e1] at this
      have := mul_nonneg hs' (by positivity : 0 ≤ n.1 ^ 2 + n.2 ^ 2)
      linarith
    have far : ∃ s : ℝ, 0 ≤ s ∧ (R < |z.1 + s * n.1| ∨ R < |z.2 + s * n.2|) := by
      have one : ∀ a b : ℝ, b ≠ 0 → ∃ s : ℝ, 0 ≤ s ∧ R < |a + s * b| := by
        intro a b hb
        have hb' : 0 < |b| := abs_pos.2 hb
        refine ⟨(|R| + |a| + 1) / |b|, by positivity, ?_⟩
        have h1 : |(|R| + |a| + 1) / |b| * b| = |R| + |a| + 1 := by
          rw [abs_mul, abs_div, abs_abs, div_mul_cancel₀ _ hb'.ne', abs_of_pos (by positivity)]
        have h2 := abs_sub_abs_le_abs_sub ((|R| + |a| + 1) / |b| * b) (-a)
        rw [h1, abs_neg, sub_neg_eq_add, add_comm _ a] at h2
        have := le_abs_self R
        linarith
      rcases hn0 with h | h
      · obtain ⟨s, h0, h1⟩ := one z.1 n.1 h
        exact ⟨s, h0, Or.inl h1⟩
      · obtain ⟨s, h0, h1⟩ := one z.2 n.2 h
        exact ⟨s, h0, Or.inr h1⟩
    obtain ⟨s, s0, hs1⟩ := far
    refine ⟨_, hs1, linked_joined.1 ⟨(fun s : ℝ => (z.1 + s * n.1, z.2 + s * n.2)) '' Icc 0 s, isPreconnected_Icc.image _ (by fun_prop), ?_, ⟨0, ⟨le_rfl, s0⟩, by simp⟩,
      ⟨s, ⟨s0, le_rfl⟩, rfl⟩⟩⟩
    rintro _ ⟨r, hr, rfl⟩
    exact hray r hr.1
  have hstrict : ∀ z, ¬ OnRing c z → EvenOdd c z → InsideConvex c z := by
    intro z hz hE e he
    refine lt_of_le_of_ne (hout z hz hE e he) fun h0 => ?_
    have hopen : IsOpen ({x | ¬ OnRing c x} ∩ winding c ⁻¹' {winding c z}) := (winding_cont c).isOpen_inter_preimage (off_open c) (isOpen_discrete _)
    have huv := sides_ne hs.1 hs.2.1 he
    have hcn : Continuous fun s : ℝ => (z.1 + s * (e.2.2 - e.1.2), z.2 + s * (e.1.1 - e.2.1)) := by fun_prop
    have hnb := hcn.continuousAt.preimage_mem_nhds (x := 0) (hopen.mem_nhds (by simpa using hz))
    obtain ⟨η, hη, hsub⟩ := Metric.mem_nhds_iff.1 hnb
    obtain ⟨o, w⟩ := hsub (show η / 2 ∈ Metric.ball (0 : ℝ) η by rw [Metric.mem_ball, Real.dist_eq, sub_zero, abs_of_pos (by positivity)]; linarith)
    have := hout _ o (by rw [evenOdd_iff] at hE ⊢; rw [show winding c _ = winding c z from w]; exact hE) e he
    have e1 : turn e.1 e.2 (z.1 + η / 2 * (e.2.2 - e.1.2), z.2 + η / 2 * (e.1.1 - e.2.1)) =
        turn e.1 e.2 z - η / 2 * ((e.2.2 - e.1.2) ^ 2 + (e.1.1 - e.2.1) ^ 2) := by simp only [turn]; ring
    have hp : 0 < (e.2.2 - e.1.2) ^ 2 + (e.1.1 - e.2.1) ^ 2 := by
      rcases eq_or_ne (e.2.2 - e.1.2) 0 with a | a
      · rcases eq_or_ne (e.1.1 - e.2.1) 0 with b | b
        · exact absurd (Prod.ext (by linarith) (by linarith)) huv
        · positivity
      · positivity
    rw [e1, ← h0] at this
    have := mul_pos (half_pos hη) hp
    linarith
  refine ⟨hs, fun z hz => ⟨hstrict z hz, fun h => ?_⟩⟩
  obtain ⟨y, oy, ey⟩ := (C140_parts c hs).1
  have hconv : Convex ℝ {p | InsideConvex c p} := by
    have : {p | InsideConvex c p} = ⋂ e ∈ {e | e ∈ sides c}, {p | 0 < turn e.1 e.2 p} := by
      ext p; simp [InsideConvex]
    rw [this]
    exact convex_iInter₂ fun e _ => side_convex e.1 e.2
  exact (evenOdd_path c hconv.isPreconnected (fun x hx => hin x hx) (hstrict y oy ey) h).1 ey

/-- a dart: not convex -/
def dart : List (ℝ × ℝ) := [(0, 0), (4, 0), (1, 1), (0, 4)]

theorem dart_simple : SimpleRing dart := by
  refine ⟨by decide, by norm_num [dart], ?_⟩
  intro e he f hf hef x hx hy
  simp only [dart, sides, List.rotate_cons_succ, List.rotate_zero, List.cons_append, List.nil_append, List.zip_cons_cons, List.zip_nil_right,
    List.mem_cons, List.not_mem_nil, or_false] at he hf
  obtain ⟨s, s0, s1, rfl⟩ := hx
  obtain ⟨t, t0, t1, ht⟩ := hy
  rcases he with rfl | rfl | rfl | rfl <;> rcases hf with rfl | rfl | rfl | rfl <;> simp only [ne_eq, not_true] at hef <;>
    simp only [along, Prod.mk.injEq] at ht ⊢ <;> obtain ⟨h1, h2⟩ := ht
  all_goals
    norm_num at h1 h2
    first
      | (exfalso; linarith)
      | (left; have : s = 1 := by linarith
         have : t = 0 := by linarith
         subst s t; norm_num)
      | (right; have : s = 0 := by linarith
         have : t = 1 := by linarith
         subst s t; norm_num)

/-- non-vacuity of `C140_inside_grid`: the point (1,2) and the dart, as float64 values -/
example : IsPointInPolygon (fpt 1 2) [[fpt 0 0, fpt 4 0, fpt 1 1, fpt 0 4, fpt 0 0]] = .disjoint ∧ Escapes dart (1, 2) := by
  have h1 := fpt_grid [(0, 0), (4, 0), (1, 1), (0, 4), (0, 0)] 17 (by norm_num) (by decide)
  have hp : At (fpt 1 2) ((1 : ℚ), (2 : ℚ)) := by simpa using fpt_at 1 2 (by norm_num) (by norm_num)
  have hd : ([((0 : ℚ), (0 : ℚ)), (4, 0), (1, 1), (0, 4)] : List (ℚ × ℚ)).map real = dart := by norm_num [real, dart]
  have hx : real ((1 : ℚ), (2 : ℚ)) = (1, 2) := by norm_num [real]
  have h := (C140_inside_grid (B := 17) (k := 0) (c := [((0 : ℚ), (0 : ℚ)), (4, 0), (1, 1), (0, 4)]) (by norm_num) hp ⟨1, 2, by norm_num, by norm_num, by norm_num⟩
    (by simpa using h1) (by rw [hd]; exact dart_simple) ?_ (by norm_num) []).2
  · rw [hd, hx] at h
    have e : IsPointInPolygon (fpt 1 2) [[fpt 0 0, fpt 4 0, fpt 1 1, fpt 0 4, fpt 0 0]] = .disjoint := by decide +kernel
    exact ⟨e, h.1 e⟩
  · rw [hd, hx]
    rintro ⟨e, he, t, t0, t1, ht⟩
    simp only [dart, sides, List.rotate_cons_succ, List.rotate_zero, List.cons_append, List.nil_append, List.zip_cons_cons, List.zip_nil_right,
      List.mem_cons, List.not_mem_nil, or_false] at he
    rcases he with rfl | rfl | rfl | rfl <;> simp only [along, Prod.mk.injEq] at ht <;> obtain ⟨h1, h2⟩ := ht <;> (try norm_num at h1 h2) <;> (try linarith)

end GoGeo.Region
