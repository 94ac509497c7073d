import Verif.Props.Simplify
import Verif.Props.RoundingDist

/-!
# Float64 line simplification against exact geometry: C112

`At p x`: the float64 point `p` has finite coordinates with the rational values `x`; `real x` is the same point of the real plane.
-/

namespace GoGeo
open GoFloat FloatVal Spec

/-- a computed distance from a chord with ends at least 2^-40 apart -/
theorem chord_near {M : ℚ} {ps : List (Point Float)} {l : List (ℚ × ℚ)} (h : AtAll M ps l) (h1 : 1 ≤ M) (h2 : M ≤ 2 ^ 99) {srid : Int} (hs : srid ≠ 4326) {s e i : ℕ}
    {x y z : ℚ × ℚ} (hx : l[i]? = some x) (hy : l[s]? = some y) (hz : l[e]? = some z) (hL : 1 / 2 ^ 40 ≤ eucl (real y) (real z)) :
    ∃ (q : ℝ × ℝ) (d : ℚ), OnSeg (real y) (real z) q ∧ (∀ t, OnSeg (real y) (real z) t → eucl (real x) q ≤ eucl (real x) t) ∧
      val (chord ps srid s e i) = .fin d ∧ |(d : ℝ) - eucl (real x) q| ≤ M / 2 ^ 46 := by
  have get : ∀ {k : ℕ} {x : ℚ × ℚ}, l[k]? = some x → At (ps.getD k default) x ∧ Within M x := by
    intro k x hk
    obtain ⟨hkl, hk⟩ := List.getElem?_eq_some_iff.1 hk
    have hlen := h.length_eq
    have hkp : k < ps.length := by omega
    have := (List.forall₂_iff_get.1 h).2 k hkp hkl
    rw [List.getD_eq_getElem?_getD, List.getElem?_eq_getElem hkp, Option.getD_some, ← hk]
    exact this
  obtain ⟨q, c, d, g1, g2, _, _, g5, g6⟩ := C104_toSegment (get hx).1 (get hy).1 (get hz).1 (get hx).2 (get hy).2 (get hz).2 h1 h2 hL srid hs
  exact ⟨q, d, g1, g2, g5, g6⟩

/-- **C112 (partial).** An open line of at least two points with finite coordinates up to `M` (`1 ≤ M ≤ 2^99`), any two of its points equal or at least 2^-40 apart, and a
finite threshold `t ≥ 0`; moreover no point occurs twice, or `t` is at least `M/2^46`.  Then `DouglasPeuckerSimplify` in float64 returns a subsequence with both end points,
and every dropped point is truly within `t + M/2^46` of the segment joining its kept neighbours.
Missing: small thresholds on lines that visit a point twice, where the claim is false (`C112_false`). -/
theorem C112_simplify_partial (srt : GoSort) (hsrt : SortOk srt) (grow : Nat → Nat → Nat) (m : Mem (Point Float)) (line : Slice) (hv : m.Valid line) {M : ℚ}
    {l : List (ℚ × ℚ)} (hl : AtAll M (m.read line) l) (h1 : 1 ≤ M) (h2 : M ≤ 2 ^ 99) (hlen : 2 ≤ l.length) (hopen : l.head? ≠ l.getLast?)
    (hsep : ∀ x ∈ l, ∀ y ∈ l, x = y ∨ 1 / 2 ^ 40 ≤ eucl (real x) (real y)) {threshold : Float} {t : ℚ} (ht : val threshold = .fin t) (ht0 : 0 ≤ t)
    (hdup : l.Nodup ∨ M / 2 ^ 46 ≤ t) (srid : Int) (hs : srid ≠ 4326) :
    ∃ n, ∀ fuel, n ≤ fuel → ∃ m' line' r, DouglasPeuckerSimplify srt grow fuel m line threshold srid = .ok (m', line') ∧ m'.Valid line' ∧
      AtAll M (m'.read line') r ∧
      Simplifies (fun p a b => ∃ q, OnSeg (real a) (real b) q ∧ eucl (real p) q ≤ t + M / 2 ^ 46) l r := by
  have vl : ∀ a b : Float, lt a b = XR.lt (val a) (val b) := val_lt
  have hlen' : (m.read line).length = l.length := hl.length_eq
  have sep : ∀ {i j : ℕ} {x y : ℚ × ℚ}, l[i]? = some x → l[j]? = some y → x ≠ y → 1 / 2 ^ 40 ≤ eucl (real x) (real y) := fun hi hj hne =>
    (hsep _ (List.mem_of_getElem? hi) _ (List.mem_of_getElem? hj)).resolve_left hne
  have hQ : ∀ s e i, l[s]? ≠ l[e]? → s < i → i < e → e < (m.read line).length → gt (chord (m.read line) srid s e i) threshold = true →
      l[s]? ≠ l[i]? ∧ l[i]? ≠ l[e]? := by
    intro s e i hne hsi hie he hg
    rw [hlen'] at he
    have gs := List.getElem?_eq_getElem (show s < l.length by omega)
    have gi := List.getElem?_eq_getElem (show i < l.length by omega)
    have ge := List.getElem?_eq_getElem he
    rcases hdup with hnd | hdup
    · rw [gs, gi, ge]
      refine ⟨fun h => ?_, fun h => ?_⟩
      · have := (List.Nodup.getElem_inj_iff hnd).1 (Option.some.inj h); omega
      · have := (List.Nodup.getElem_inj_iff hnd).1 (Option.some.inj h); omega
    · have hne' : l[s] ≠ l[e] := fun h => hne (by rw [gs, ge, h])
      obtain ⟨q, d, g1, g2, g3, g4⟩ := chord_near hl h1 h2 hs gi gs ge (sep gs ge hne')
      have hg' : t < d := by
        unfold GoFloat.gt at hg
        rw [vl, ht, g3] at hg
        exact of_decide_eq_true hg
      have hd : ((M : ℝ) / 2 ^ 46) < d := by exact_mod_cast lt_of_le_of_lt hdup hg'
      have hpos : 0 < eucl (real l[i]) q := by
        have := (abs_le.1 g4).2
        linarith
      rw [gs, gi, ge]
      refine ⟨fun h => ?_, fun h => ?_⟩
      · have h := Option.some.inj h
        have := g2 (real l[s]) ⟨0, le_rfl, zero_le_one, by simp [along]⟩
        have e0 : eucl (real l[i]) (real l[s]) = 0 := eucl_eq_zero.2 (by rw [h])
        linarith
      · have h := Option.some.inj h
        have := g2 (real l[e]) ⟨1, zero_le_one, le_rfl, by simp [along]⟩
        have e0 : eucl (real l[i]) (real l[e]) = 0 := eucl_eq_zero.2 (by rw [h])
        linarith
  have hq : l[0]? ≠ l[(m.read line).length - 1]? := by
    rw [hlen', ← List.head?_eq_getElem?, ← List.getLast?_eq_getElem?]
    exact hopen
  have hth : gt (lit 0 : Float) threshold = false := by
    unfold GoFloat.gt
    rw [vl, ht, val_lit0]
    exact decide_eq_false (not_lt.2 ht0)
  obtain ⟨n, h⟩ := dp_run srt hsrt grow m line hv threshold srid hth (by omega) (fun s e => l[s]? ≠ l[e]?) hQ hq
  refine ⟨n, fun fuel hf => ?_⟩
  obtain ⟨m', line', ks, k1, k2, k3, k4, k5, k6, k7, k8⟩ := h fuel hf
  have hks : ∀ k ∈ ks, k < l.length := by
    intro k hk
    have hm : (m.read line)[k]? ∈ (m'.read line').map some := by rw [← k6]; exact List.mem_map.2 ⟨k, hk, rfl⟩
    obtain ⟨x, _, hx⟩ := List.mem_map.1 hm
    obtain ⟨hlt, _⟩ := List.getElem?_eq_some_iff.1 hx.symm
    omega
  have hr : ks.map (l[·]?) = (ks.map fun k => l.getD k (0, 0)).map some := by
    rw [List.map_map]
    apply List.map_congr_left
    intro k hk
    show l[k]? = some (l.getD k (0, 0))
    rw [List.getD_eq_getElem?_getD, List.getElem?_eq_getElem (hks k hk)]
    rfl
  refine ⟨m', line', ks.map fun k => l.getD k (0, 0), k1, k2, ?_, ks, k3, k4, by rw [k5, hlen'], hr, ?_⟩
  · have e : m'.read line' = ks.map fun k => (m.read line).getD k default := by
      have : (m'.read line').map some = (ks.map fun k => (m.read line).getD k default).map some := by
        rw [← k6, List.map_map]
        apply List.map_congr_left
        intro k hk
        show (m.read line)[k]? = some ((m.read line).getD k default)
        rw [List.getD_eq_getElem?_getD, List.getElem?_eq_getElem (by rw [hlen']; exact hks k hk)]
        rfl
      exact List.map_injective_iff.2 (Option.some_injective _) this
    rw [e]
    unfold AtAll
    rw [List.forall₂_map_left_iff, List.forall₂_map_right_iff, List.forall₂_same]
    intro k hk
    have hkl := hks k hk
    have hkp : k < (m.read line).length := by omega
    have := (List.forall₂_iff_get.1 hl).2 k hkp hkl
    rw [List.getD_eq_getElem?_getD, List.getElem?_eq_getElem hkp, List.getD_eq_getElem?_getD, List.getElem?_eq_getElem hkl]
    exact this
  · intro s e hse i a p b hsi hie ha hp hb
    obtain ⟨hne, hg⟩ := k7 s e hse
    have hg := hg i hsi hie
    rw [ha, hb] at hne
    obtain ⟨q, d, g1, g2, g3, g4⟩ := chord_near hl h1 h2 hs hp ha hb (sep ha hb fun h => hne (by rw [h]))
    refine ⟨q, g1, ?_⟩
    unfold GoFloat.gt at hg
    rw [vl, ht, g3] at hg
    have hd : d ≤ t := not_lt.1 (of_decide_eq_false hg)
    have hd : (d : ℝ) ≤ t := by exact_mod_cast hd
    have := (abs_le.1 g4).1
    linarith

/-- **C112 is false (a point visited twice, threshold 0).** The line (24,0), (-7.3,0), (14.8,0), (-7.3,0) is open.  In float64 the second point, which equals the last, has a
computed distance of 8.9e-16 from the segment of the first and the last point, so it is kept; the chord from it to the last point is degenerate, its distances are NaN, and
(14.8,0) is dropped although it is more than 22 away from its kept neighbours, which are equal. -/
theorem C112_false :
    (DouglasPeuckerSimplify (F := Float) insSort (fun _ _ => 0) 10 ⟨[[⟨24,0⟩, ⟨-7.3,0⟩, ⟨14.8,0⟩, ⟨-7.3,0⟩]]⟩ ⟨0,0,4,4⟩ 0 0).map (fun r => r.1.read r.2) =
      .ok [⟨24,0⟩, ⟨-7.3,0⟩, ⟨-7.3,0⟩] ∧ lt (22 : Float) (EuclideanDis (⟨14.8,0⟩ : Point Float) ⟨-7.3,0⟩) = true := by decide +kernel

/-- C112 on a line of five points, threshold 1 -/
example : ∃ n, ∀ fuel, n ≤ fuel → ∃ m' line' r, DouglasPeuckerSimplify insSort (fun _ _ => 0) fuel ⟨[[fpt 0 0, fpt 1 2, fpt 2 5, fpt 3 2, fpt 4 0]]⟩ ⟨0,0,5,5⟩ (lit 1 : Float) 0 =
      .ok (m', line') ∧ m'.Valid line' ∧ AtAll 5 (m'.read line') r ∧
      Simplifies (fun p a b => ∃ q, OnSeg (real a) (real b) q ∧ eucl (real p) q ≤ (1 : ℚ) + (5 : ℚ) / 2 ^ 46) [(0, 0), (1, 2), (2, 5), (3, 2), (4, 0)] r := by
  have h := fpt_all 5 (by norm_num) [(0, 0), (1, 2), (2, 5), (3, 2), (4, 0)] (by decide)
  refine C112_simplify_partial insSort insSort_ok _ _ _ ⟨by decide, by decide⟩ (l := [(0, 0), (1, 2), (2, 5), (3, 2), (4, 0)]) (by norm_num at h ⊢; exact h) (by norm_num) (by norm_num)
    (by simp) (by simp) ?_ val_lit1 zero_le_one (.inl (by norm_num)) 0 (by decide)
  intro x hx y hy
  simp only [List.mem_cons, List.not_mem_nil, or_false] at hx hy
  rcases hx with rfl | rfl | rfl | rfl | rfl <;> rcases hy with rfl | rfl | rfl | rfl | rfl <;>
    first | exact .inl rfl | exact .inr (long_of_apart (by norm_num))

end GoGeo
