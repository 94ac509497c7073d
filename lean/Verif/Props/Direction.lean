import Verif.Props.SimplifyTwice
import Verif.Props.Distance

/-!
# C153: the direction of a line

Exact arithmetic over the reals, planar SRIDs, unless a theorem says otherwise.
-/

set_option linter.unusedSectionVars false

namespace GoGeo
open GoFloat Spec

namespace Spec
variable {F : Type} [GoMath F]

/-- no two points between two points of the line are at the same distance from the segment that joins these, if that distance is more than `t` -/
def NoTies (t : F) (srid : Int) (l : List (Point F)) : Prop :=
  ∀ (i j k k' : Nat) (a b p q : Point F), i < k → k < j → i < k' → k' < j → k ≠ k' → l[i]? = some a → l[j]? = some b → l[k]? = some p → l[k']? = some q →
    gt (PointToSegmentDistance p a b srid).1 t = true → eq (PointToSegmentDistance p a b srid).1 (PointToSegmentDistance q a b srid).1 = false

end Spec

theorem along_turned {K : Type} [Field K] (a b : K × K) (t : K) : along b a (1 - t) = along a b t := by
  unfold along; ext <;> simp only <;> ring

theorem onSeg_swap {K : Type} [Field K] [LinearOrder K] [IsStrictOrderedRing K] {a b x : K × K} (h : OnSeg a b x) : OnSeg b a x := by
  obtain ⟨t, t0, t1, rfl⟩ := h
  exact ⟨1 - t, by linarith, by linarith, (along_turned a b t).symm⟩

/-- **C153, segments.** Exchanging the ends of a segment changes neither the distance of a point nor the nearest point. -/
theorem C153_toSegment (p a b : ℝ × ℝ) {srid : Int} (hs : srid ≠ 4326) :
    PointToSegmentDistance (pt p) (pt b) (pt a) srid = PointToSegmentDistance (pt p) (pt a) (pt b) srid := by
  by_cases h : a = b
  · rw [h]
  · obtain ⟨q, e, hq, hmin⟩ := C42_toSegment_partial p a b h srid hs
    rw [e]
    exact C42_toSegment_unique p b a (fun c => h c.symm) srid hs q (onSeg_swap hq) fun x hx => hmin x (onSeg_swap hx)

theorem segments_reverse {α : Type} {l : List α} {e : α × α} : e ∈ edges l.reverse ↔ (e.2, e.1) ∈ edges l := by
  have key : ∀ (l : List α) (e : α × α), e ∈ edges l.reverse → (e.2, e.1) ∈ edges l := by
    intro l e he
    obtain ⟨i, hi⟩ := List.getElem?_of_mem he
    obtain ⟨h1, h2⟩ := (edges_getElem? _ _ _).1 hi
    have l2 : i + 1 < l.length := by simpa using (List.getElem?_eq_some_iff.1 h2).1
    rw [List.getElem?_reverse (by omega)] at h1 h2
    refine List.mem_of_getElem? ((edges_getElem? _ (l.length - 1 - (i + 1)) _).2 ⟨h2, ?_⟩)
    rw [show l.length - 1 - (i + 1) + 1 = l.length - 1 - i by omega]
    exact h1
  refine ⟨key l e, fun h => ?_⟩
  have := key l.reverse (e.2, e.1) (by rwa [List.reverse_reverse])
  exact this

/-- **C153, distance to a line.** The distance from a point to a line does not depend on its direction. -/
theorem C153_hit (p : ℝ × ℝ) (line : List (ℝ × ℝ)) {srid : Int} (hs : srid ≠ 4326)
    (hnear : ∃ e ∈ segments line, e.1 ≠ e.2 ∧ ∃ x, OnSeg e.1 e.2 x ∧ eucl p x < 2 ^ 31) :
    (PointHitLineString (pt p) (line.reverse.map pt) srid).2.2 = (PointHitLineString (pt p) (line.map pt) srid).2.2 := by
  have hnear' : ∃ e ∈ segments line.reverse, e.1 ≠ e.2 ∧ ∃ x, OnSeg e.1 e.2 x ∧ eucl p x < 2 ^ 31 := by
    obtain ⟨e, he, hne, x, hx, hl⟩ := hnear
    rw [segments_eq] at he
    exact ⟨(e.2, e.1), by rw [segments_eq]; exact segments_reverse.2 he, fun c => hne c.symm, x, onSeg_swap hx, hl⟩
  obtain ⟨i, a, b, q, h1, h2, h3, h4, h5, -⟩ := C43_hit_nearest p line srid hs hnear
  obtain ⟨i', a', b', q', h1', h2', h3', h4', h5', -⟩ := C43_hit_nearest p line.reverse srid hs hnear'
  rw [h4, h4']
  simp only [segments_eq] at h5 h5'
  have m : (a, b) ∈ edges line := List.mem_of_getElem? ((edges_getElem? _ i (a, b)).2 ⟨h1, h2⟩)
  have m' : (a', b') ∈ edges line.reverse := List.mem_of_getElem? ((edges_getElem? _ i' (a', b')).2 ⟨h1', h2'⟩)
  have g := h5 (b', a') (segments_reverse.1 m') q' (onSeg_swap h3')
  have g' := h5' (b, a) (segments_reverse.2 m) q (onSeg_swap h3)
  exact congrArg XR.fin (le_antisymm g' g)

/-- **C153, Hausdorff distance.** The Hausdorff distance depends on the sets of vertices alone: neither on the direction of the lines nor on the order or
the repetition of their vertices. -/
theorem C153_hausdorff (l m l' m' : List (ℝ × ℝ)) (srid : Int) (hs : srid ≠ 4326) (hl : ∃ e ∈ segments l, e.1 ≠ e.2) (hm : ∃ e ∈ segments m, e.1 ≠ e.2)
    (hl' : ∃ e ∈ segments l', e.1 ≠ e.2) (hm' : ∃ e ∈ segments m', e.1 ≠ e.2) (el : ∀ p, p ∈ l' ↔ p ∈ l) (em : ∀ p, p ∈ m' ↔ p ∈ m)
    (hlt : ∀ p ∈ l, ∀ q ∈ m, eucl p q < 2 ^ 31) :
    HausdorffDistance (l'.map pt) (m'.map pt) srid = HausdorffDistance (l.map pt) (m.map pt) srid := by
  obtain ⟨d, h, hd⟩ := C45_hausdorff l m srid hs hl hm hlt
  obtain ⟨d', h', hd'⟩ := C45_hausdorff l' m' srid hs hl' hm' fun p hp q hq => hlt p ((el p).1 hp) q ((em q).1 hq)
  rw [h, h']
  have : IsHausdorff l' m' d := by
    unfold IsHausdorff at hd ⊢
    simpa only [el, em] using hd
  exact congrArg XR.fin (hd'.unique this)

section
variable {F : Type} [GoMath F] [FloatOrd F]

theorem chord_reverse (line : List (Point F)) (srid : Int)
    (hsym : ∀ p ∈ line, ∀ a ∈ line, ∀ b ∈ line, (PointToSegmentDistance p b a srid).1 = (PointToSegmentDistance p a b srid).1) (s e i : Nat) (hs : s < line.length) (he : e < line.length)
    (hi : i < line.length) : chord line.reverse srid (line.length - 1 - e) (line.length - 1 - s) (line.length - 1 - i) = chord line srid s e i := by
  have g : ∀ j, j < line.length → line.reverse.getD (line.length - 1 - j) default = line[j]! := by
    intro j hj
    rw [List.getD_eq_getElem?_getD, List.getElem?_reverse (by omega), show line.length - 1 - (line.length - 1 - j) = j by omega]
    simp [hj]
  have g' : ∀ j, j < line.length → line.getD j default = line[j]! := by
    intro j hj; simp [List.getD_eq_getElem?_getD, hj]
  have mem : ∀ j, j < line.length → line[j]! ∈ line := by
    intro j hj; simp [hj]
  unfold chord
  rw [g _ hs, g _ he, g _ hi, g' _ hs, g' _ he, g' _ hi]
  exact hsym _ (mem _ hi) _ (mem _ hs) _ (mem _ he)

/-- processing the reversed line keeps the mirrored positions -/
theorem splits_reverse (line : List (Point F)) (t : F) (srid : Int) (hth : gt (lit 0) t = false) (hn : NoTies t srid line)
    (hsym : ∀ p ∈ line, ∀ a ∈ line, ∀ b ∈ line, (PointToSegmentDistance p b a srid).1 = (PointToSegmentDistance p a b srid).1) {s e : Nat} {ks : List Nat}
    (h : Splits line t srid s e ks) (hse : s < e) (he : e < line.length) :
    Splits line.reverse t srid (line.length - 1 - e) (line.length - 1 - s) (ks.map (line.length - 1 - ·)).reverse := by
  have hc : ∀ s e i : Nat, s < i → i < e → e < line.length →
      chord line.reverse srid (line.length - 1 - e) (line.length - 1 - s) (line.length - 1 - i) = chord line srid s e i :=
    fun s e i h1 h2 h3 => chord_reverse line srid hsym s e i (by omega) h3 (by omega)
  have hr : ∀ s e i : Nat, e < line.length → line.length - 1 - e < i → i < line.length - 1 - s →
      s < line.length - 1 - i ∧ line.length - 1 - i < e ∧ chord line.reverse srid (line.length - 1 - e) (line.length - 1 - s) i = chord line srid s e (line.length - 1 - i) := by
    intro s e i h1 h2 h3
    refine ⟨by omega, by omega, ?_⟩
    rw [← hc s e (line.length - 1 - i) (by omega) (by omega) h1, show line.length - 1 - (line.length - 1 - i) = i by omega]
  induction h with
  | @stop s e M k h1 h2 =>
    obtain ⟨M', k', g1, g2, g3⟩ := dpMax_spec line.reverse t srid hth (line.length - 1 - e) (line.length - 1 - s) (by simp; omega) (by simp; omega)
    obtain ⟨M₀, k₀, f1, f2, f3⟩ := dpMax_spec line t srid hth s e he (by omega)
    rw [h1] at f1
    cases f1
    refine .stop g1 ?_
    by_contra hM
    obtain ⟨c1, c2, c3⟩ := g2 (by simpa using hM)
    obtain ⟨d1, d2, d3⟩ := hr s e k' he c1 c2
    rw [d3, f3 h2 _ d1 d2] at c3
    cases c3
  | @split s e M k ks₁ ks₂ h1 h2 hsk hke _ _ ih1 ih2 =>
    obtain ⟨g1, g2, g3, g4⟩ := dpMax_first line t srid hth s e (by omega) he M k h1 h2
    have hmax : dpMax line.reverse srid (line.length - 1 - e) (line.length - 1 - s) = .ok (M, line.length - 1 - k) := by
      rw [g1, ← hc s e k hsk hke he]
      apply dpMax_of_first
      · simp; omega
      · simp; omega
      · omega
      · omega
      · rw [hc s e k hsk hke he, ← g1]; exact g2
      · intro i i1 i2
        obtain ⟨d1, d2, d3⟩ := hr s e i he i1 i2
        rw [hc s e k hsk hke he, ← g1, d3]
        exact g3 _ d1 d2
      · intro i i1 i2
        obtain ⟨d1, d2, d3⟩ := hr s e i he i1 (by omega)
        rw [hc s e k hsk hke he, d3]
        have get : ∀ j, j < line.length → line[j]? = some (line.getD j default) := by
          intro j hj; simp [List.getD_eq_getElem?_getD, hj]
        have ne := hn s e k (line.length - 1 - i) _ _ _ _ hsk hke d1 d2 (by omega) (get s (by omega)) (get e he) (get k (by omega)) (get _ (by omega)) (by
          have := h2; rw [g1] at this; exact this)
        change eq (chord line srid s e k) (chord line srid s e (line.length - 1 - i)) = false at ne
        by_contra hle
        rw [Bool.not_eq_false] at hle
        have hlt := g3 _ d1 d2
        rw [g1] at hlt
        have hge := (lt_false_iff (FloatOrd.le_left _ _ hle) (FloatOrd.le_right _ _ hle)).1 hlt
        have := (FloatOrd.eq_iff _ _).2 ⟨hle, hge⟩
        rw [ne] at this
        cases this
    rw [List.map_append, List.map_cons, List.reverse_append, List.reverse_cons, List.append_assoc, List.singleton_append]
    exact .split hmax h2 (by omega) (by omega) (ih2 hke he) (ih1 hsk (by omega))

/-- simplifying the reversed line, for any arithmetic in which distances do not depend on the order of the ends of a segment -/
theorem simplify_reverse (srt : GoSort) (hsrt : SortOk srt) (grow : Nat → Nat → Nat) (m m' : Mem (Point F)) (line line' : Slice) (hv : m.Valid line)
    (hv' : m'.Valid line') (t : F) (srid : Int) (ht : lt t (lit 0) = false) (hlen : 2 ≤ (m.read line).length) (hr : m'.read line' = (m.read line).reverse)
    (hsym : ∀ p ∈ m.read line, ∀ a ∈ m.read line, ∀ b ∈ m.read line, (PointToSegmentDistance p b a srid).1 = (PointToSegmentDistance p a b srid).1)
    (hn : NoTies t srid (m.read line)) :
    ∃ n, ∀ fuel, n ≤ fuel → ∃ m₁ l₁ m₂ l₂, DouglasPeuckerSimplify srt grow fuel m line t srid = .ok (m₁, l₁) ∧
      DouglasPeuckerSimplify srt grow fuel m' line' t srid = .ok (m₂, l₂) ∧ m₂.read l₂ = (m₁.read l₁).reverse := by
  obtain ⟨n, h⟩ := dp_run srt hsrt grow m line hv t srid ht hlen (fun _ _ => True) (fun _ _ _ _ _ _ _ _ => ⟨trivial, trivial⟩) trivial
  obtain ⟨m₁, l₁, K, a1, a2, a3, a4, a5, a6, -, -, ks, a9, a10⟩ := h n le_rfl
  obtain ⟨n', h'⟩ := dp_run srt hsrt grow m' line' hv' t srid ht (by rw [hr]; simpa using hlen) (fun _ _ => True) (fun _ _ _ _ _ _ _ _ => ⟨trivial, trivial⟩) trivial
  obtain ⟨m₂, l₂, K₂, b1, b2, b3, b4, b5, b6, -, -, ks₂, b9, b10⟩ := h' n' le_rfl
  have key := splits_reverse (m.read line) t srid ht hn hsym a10 (by omega) (by omega)
  rw [hr, List.length_reverse] at b10 b9
  have e : ks₂ = (ks.map ((m.read line).length - 1 - ·)).reverse := by
    apply splits_unique b10
    simpa using key
  refine ⟨max n n', fun fuel hf => ⟨m₁, l₁, m₂, l₂, simplify_mono srt grow m line t srid (by omega) _ a1, simplify_mono srt grow m' line' t srid (by omega) _ b1, ?_⟩⟩
  have hinj : Function.Injective (List.map (some : Point F → Option (Point F))) := List.map_injective_iff.2 (Option.some_injective _)
  apply hinj
  rw [← b6, List.map_reverse, ← a6, b9, a9, hr, e]
  have hk : ∀ i ∈ ks, i < (m.read line).length := by
    intro i hi
    rw [a9, List.cons_append, List.pairwise_cons, List.pairwise_append] at a3
    have := a3.2.2.2 i hi _ (List.mem_singleton.2 rfl)
    omega
  simp only [List.map_append, List.map_cons, List.map_nil, List.cons_append, List.reverse_append, List.reverse_cons, List.reverse_nil, List.nil_append, ← List.map_reverse,
    List.map_map]
  congr 1
  · rw [List.getElem?_reverse (by omega)]; congr 1
  congr 1
  · apply List.map_congr_left
    intro j hj
    have := hk j (List.mem_reverse.1 hj)
    simp only [Function.comp]
    rw [List.getElem?_reverse (by omega)]
    congr 1
    omega
  · rw [List.getElem?_reverse (by omega)]
    congr 2
    omega

end

/-- **C153 (partial), simplification.** Simplifying a line backwards gives the simplified line backwards, if no two points between two others are equally far from
the segment that joins these (farther than the threshold). -/
theorem C153_simplify_partial (srt : GoSort) (hsrt : SortOk srt) (grow : Nat → Nat → Nat) (m m' : Mem (Point (XR ℝ))) (line line' : Slice) (hv : m.Valid line)
    (hv' : m'.Valid line') (l : List (ℝ × ℝ)) (hl : m.read line = l.map pt) (hl' : m'.read line' = l.reverse.map pt) (hlen : 2 ≤ l.length) (t : ℝ) (ht : 0 ≤ t)
    (srid : Int) (hs : srid ≠ 4326) (hn : NoTies (.fin t) srid (l.map pt)) :
    ∃ n, ∀ fuel, n ≤ fuel → ∃ m₁ l₁ m₂ l₂, DouglasPeuckerSimplify srt grow fuel m line (.fin t) srid = .ok (m₁, l₁) ∧
      DouglasPeuckerSimplify srt grow fuel m' line' (.fin t) srid = .ok (m₂, l₂) ∧ m₂.read l₂ = (m₁.read l₁).reverse := by
  refine simplify_reverse srt hsrt grow m m' line line' hv hv' (.fin t) srid ?_ ?_ ?_ ?_ ?_
  · rw [XR.fin_lit, XR.fin_lt]; simpa using ht
  · rw [hl]; simpa using hlen
  · rw [hl, hl', List.map_reverse]
  · rw [hl]
    intro p hp a ha b hb
    obtain ⟨p, -, rfl⟩ := List.mem_map.1 hp
    obtain ⟨a, -, rfl⟩ := List.mem_map.1 ha
    obtain ⟨b, -, rfl⟩ := List.mem_map.1 hb
    rw [C153_toSegment p a b hs]
  · rw [hl]; exact hn

/-- non-vacuity: a line without ties -/
example : NoTies (XR.fin (2 : ℝ)) 0 ([((0 : ℝ), (0 : ℝ)), (1, 3), (2, 1), (4, 0)].map pt) := by
  have d1 : PointToSegmentDistance (pt ((1 : ℝ), (3 : ℝ))) (pt (0, 0)) (pt (4, 0)) 0 = (.fin (eucl (1, 3) (1, 0)), pt (1, 0)) :=
    C42_toSegment_unique _ _ _ (by norm_num) 0 (by norm_num) _ ⟨1 / 4, by norm_num, by norm_num, by norm_num [along]⟩ (by
      rintro x ⟨t, t0, t1, rfl⟩
      apply Real.sqrt_le_sqrt
      norm_num [along]
      nlinarith [sq_nonneg (1 - t * 4)])
  have d2 : PointToSegmentDistance (pt ((2 : ℝ), (1 : ℝ))) (pt (0, 0)) (pt (4, 0)) 0 = (.fin (eucl (2, 1) (2, 0)), pt (2, 0)) :=
    C42_toSegment_unique _ _ _ (by norm_num) 0 (by norm_num) _ ⟨1 / 2, by norm_num, by norm_num, by norm_num [along]⟩ (by
      rintro x ⟨t, t0, t1, rfl⟩
      apply Real.sqrt_le_sqrt
      norm_num [along]
      nlinarith [sq_nonneg (2 - t * 4)])
  have e1 : eucl (1, 3) (1, 0) = 3 := by
    rw [eucl, show ((1 : ℝ) - 1) ^ 2 + (3 - 0) ^ 2 = 3 ^ 2 by norm_num, Real.sqrt_sq (by norm_num)]
  have e2 : eucl (2, 1) (2, 0) = 1 := by norm_num [eucl]
  intro i j k k' a b p q h1 h2 h3 h4 hne ha hb hp hq hgt
  have hj : j < 4 := by simpa using (List.getElem?_eq_some_iff.1 hb).1
  obtain rfl : i = 0 := by omega
  obtain rfl : j = 3 := by omega
  simp only [List.map_cons, List.map_nil, List.getElem?_cons_zero, Option.some.injEq] at ha
  simp only [List.map_cons, List.map_nil, List.getElem?_cons_succ, List.getElem?_cons_zero, Option.some.injEq] at hb
  subst ha hb
  rcases (show k = 1 ∧ k' = 2 ∨ k = 2 ∧ k' = 1 by omega) with ⟨rfl, rfl⟩ | ⟨rfl, rfl⟩ <;>
    simp only [List.map_cons, List.map_nil, List.getElem?_cons_succ, List.getElem?_cons_zero, Option.some.injEq] at hp hq <;> subst hp hq
  · rw [d1, d2, e1, e2]
    show decide ((3 : ℝ) = 1) = false
    norm_num
  · rw [d2, d1, e1, e2]
    show decide ((1 : ℝ) = 3) = false
    norm_num

/-- **C153 is false for `DouglasPeuckerSimplify` with ties**: of `(0,0) (1,1) (2,1) (3,0)` it keeps `(1,1)`, of the same line backwards it keeps `(2,1)`. -/
theorem C153_simplify_false :
    (DouglasPeuckerSimplify (F := Float) insSort (fun _ _ => 0) 10 ⟨[[⟨0,0⟩, ⟨1,1⟩, ⟨2,1⟩, ⟨3,0⟩]]⟩ ⟨0,0,4,4⟩ 0.9 0).map (fun r => r.1.read r.2) =
      .ok [⟨0,0⟩, ⟨1,1⟩, ⟨3,0⟩] ∧
    (DouglasPeuckerSimplify (F := Float) insSort (fun _ _ => 0) 10 ⟨[[⟨3,0⟩, ⟨2,1⟩, ⟨1,1⟩, ⟨0,0⟩]]⟩ ⟨0,0,4,4⟩ 0.9 0).map (fun r => r.1.read r.2) =
      .ok [⟨3,0⟩, ⟨2,1⟩, ⟨0,0⟩] := by
  constructor <;> decide +kernel

end GoGeo
