import Verif.Geo.SimplifyLemmas
import Verif.Props.Distance
import Verif.Go.F64
import Mathlib.Data.List.Sort

/-!
# Properties of line simplification: C46, C47
-/
set_option linter.unusedSectionVars false

namespace GoGeo
open GoFloat GoSqrt GoMath Spec

section
variable {F : Type} [GoMath F] [FloatOrd F]

/-- the sorted deletion list is strictly decreasing -/
theorem sorted_desc {srt : GoSort} (hsrt : SortOk srt) (dl : List Nat) (hnd : dl.Nodup) :
    (srt Nat (fun a b => decide (b < a)) dl).Pairwise (· > ·) := by
  have hp := hsrt.perm Nat (fun a b => decide (b < a)) dl
  have hs := hsrt.sorted Nat (fun a b => decide (b < a)) dl
    ⟨by simp, by simp only [decide_eq_true_eq]; intros; omega, by simp only [decide_eq_false_iff_not]; intros; omega⟩
  have hn : (srt Nat (fun a b => decide (b < a)) dl).Nodup := hp.nodup_iff.2 hnd
  refine (hs.and hn).imp ?_
  rintro a b ⟨h1, h2⟩
  simp only [decide_eq_false_iff_not] at h1
  omega

/-- everything about a run with a threshold that is not negative; `Q` is any relation between kept neighbours preserved by splitting -/
theorem dp_run (srt : GoSort) (hsrt : SortOk srt) (grow : Nat → Nat → Nat) (m : Mem (Point F)) (line : Slice) (hv : m.Valid line) (threshold : F)
    (srid : Int) (hth : gt (lit 0) threshold = false) (hlen : 2 ≤ (m.read line).length) (Q : Nat → Nat → Prop)
    (hQ : ∀ s e i, Q s e → s < i → i < e → e < (m.read line).length → gt (chord (m.read line) srid s e i) threshold = true → Q s i ∧ Q i e)
    (hq : Q 0 ((m.read line).length - 1)) :
    ∃ n, ∀ fuel, n ≤ fuel → ∃ m' line' ks, DouglasPeuckerSimplify srt grow fuel m line threshold srid = .ok (m', line') ∧ m'.Valid line' ∧
      ks.Pairwise (· < ·) ∧ ks.head? = some 0 ∧ ks.getLast? = some ((m.read line).length - 1) ∧
      ks.map ((m.read line)[·]?) = (m'.read line').map some ∧
      (∀ a b, (a, b) ∈ neighbours ks → Q a b ∧ ∀ i, a < i → i < b → gt (chord (m.read line) srid a b i) threshold = false) ∧
      (∀ t, m.Valid t → t.arr ≠ line.arr → m'.Valid t ∧ m'.read t = m.read t) ∧
      ∃ ks', ks = 0 :: ks' ++ [(m.read line).length - 1] ∧ Splits (m.read line) threshold srid 0 ((m.read line).length - 1) ks' := by
  obtain ⟨n, ks, dl, h1, h2, h3, h4, h5, h6⟩ := dpLoop_pair (m.read line) threshold srid hth Q hQ _ 0 ((m.read line).length - 1) rfl (by omega) (by omega) hq
  refine ⟨n, fun fuel hf => ?_⟩
  have hperm := hsrt.perm Nat (fun a b => decide (b < a)) dl
  obtain ⟨m', line', g1, g2, g3, g4⟩ := delLoop_spec grow (srt Nat (fun a b => decide (b < a)) dl) m line hv (sorted_desc hsrt dl h3) (by
    intro d hd
    have := (h4 d).1 (hperm.mem_iff.1 hd)
    omega)
  refine ⟨m', line', 0 :: ks ++ [(m.read line).length - 1], ?_, g2, h2, rfl, by rw [List.getLast?_append]; rfl, ?_, h5, g4, ks, rfl, h6⟩
  · unfold DouglasPeuckerSimplify dpWorker
    have := h1 (fuel - n) [] []
    rw [show n + (fuel - n) = fuel by omega] at this
    rw [this, List.nil_append]
    have e : dpLoop (m.read line) threshold srid (fuel - n) [] dl = .ok dl := by unfold dpLoop; rfl
    rw [e, bind_ok']
    exact g1
  · rw [g3, foldl_deleteAt _ _ (sorted_desc hsrt dl h3) (by
      intro d hd
      have := (h4 d).1 (hperm.mem_iff.1 hd)
      omega)]
    congr 1
    apply List.Pairwise.eq_of_mem_iff (r := (· < ·)) h2 (List.pairwise_lt_range.filter _)
    intro i
    have hks : ∀ i ∈ ks, 0 < i ∧ i < (m.read line).length - 1 := by
      intro i hi
      have h := h2
      rw [List.cons_append, List.pairwise_cons, List.pairwise_append] at h
      exact ⟨h.1 i (by simp [hi]), h.2.2.2 i hi _ (by simp)⟩
    rw [List.mem_filter, List.mem_range]
    simp only [decide_eq_true_eq, hperm.mem_iff, h4, List.cons_append, List.mem_cons, List.mem_append, List.not_mem_nil, or_false]
    constructor
    · rintro (rfl | h | rfl)
      · exact ⟨by omega, by omega⟩
      · have := hks i h
        exact ⟨by omega, fun c => c.2.2 h⟩
      · exact ⟨by omega, by omega⟩
    · rintro ⟨c1, c2⟩
      by_cases hi : i ∈ ks
      · exact Or.inr (Or.inl hi)
      · by_cases h0 : i = 0
        · exact Or.inl h0
        · right; right
          by_contra hn
          exact c2 ⟨by omega, by omega, hi⟩

/-- **C46 (every arithmetic with an order on its non-NaN values, float64 included).** For a threshold that is not below zero and a line of at
least two points, `DouglasPeuckerSimplify` terminates without a panic; the result has the first and the last point and otherwise a
subsequence of the points, and no dropped point has a computed distance from the segment of its kept neighbours that exceeds the
threshold.  Lines in other arrays are not changed. -/
theorem C46_simplify (srt : GoSort) (hsrt : SortOk srt) (grow : Nat → Nat → Nat) (m : Mem (Point F)) (line : Slice) (hv : m.Valid line) (threshold : F)
    (srid : Int) (hth : lt threshold (lit 0) = false) (hlen : 2 ≤ (m.read line).length) :
    ∃ n, ∀ fuel, n ≤ fuel → ∃ m' line', DouglasPeuckerSimplify srt grow fuel m line threshold srid = .ok (m', line') ∧ m'.Valid line' ∧
      Simplifies (fun p a b => gt (PointToSegmentDistance p a b srid).1 threshold = false) (m.read line) (m'.read line') ∧
      (∀ t, m.Valid t → t.arr ≠ line.arr → m'.Valid t ∧ m'.read t = m.read t) := by
  obtain ⟨n, h⟩ := dp_run srt hsrt grow m line hv threshold srid hth hlen (fun _ _ => True) (fun _ _ _ _ _ _ _ _ => ⟨trivial, trivial⟩) trivial
  refine ⟨n, fun fuel hf => ?_⟩
  obtain ⟨m', line', ks, h1, h2, h3, h4, h5, h6, h7, h8, _⟩ := h fuel hf
  refine ⟨m', line', h1, h2, ⟨ks, h3, h4, h5, h6, ?_⟩, h8⟩
  intro s e hse i a p b hsi hie ha hp hb
  have := (h7 s e hse).2 i hsi hie
  unfold chord at this
  simp only [List.getD_eq_getElem?_getD, ha, hp, hb, Option.getD_some] at this
  exact this

end

/-- **C46 (float64).** The instance of `C46_simplify` for Go's numbers. -/
theorem C46_simplify_float (srt : GoSort) (hsrt : SortOk srt) (grow : Nat → Nat → Nat) (m : Mem (Point Float)) (line : Slice) (hv : m.Valid line)
    (threshold : Float) (srid : Int) (hth : 0 ≤ threshold) (hlen : 2 ≤ (m.read line).length) :
    ∃ n, ∀ fuel, n ≤ fuel → ∃ m' line', DouglasPeuckerSimplify srt grow fuel m line threshold srid = .ok (m', line') ∧ m'.Valid line' ∧
      Simplifies (fun p a b => ¬ threshold < (PointToSegmentDistance p a b srid).1) (m.read line) (m'.read line') := by
  have hle : le (lit 0 : Float) threshold = true := hth
  have hth' : lt threshold (lit 0) = false := (lt_false_iff (FloatOrd.le_right _ _ hle) (FloatOrd.le_left _ _ hle)).2 hle
  obtain ⟨n, h⟩ := C46_simplify srt hsrt grow m line hv threshold srid hth' hlen
  refine ⟨n, fun fuel hf => ?_⟩
  obtain ⟨m', line', h1, h2, ⟨ks, h3, h4, h5, h6, h7⟩, _⟩ := h fuel hf
  exact ⟨m', line', h1, h2, ks, h3, h4, h5, h6, fun s e hse i a p b hsi hie ha hp hb => float_not_lt (h7 s e hse i a p b hsi hie ha hp hb)⟩

/-- **C46 (exact arithmetic).** For an open line (different first and last point) and a threshold `t ≥ 0` every dropped point
is within `t` of a point of the segment joining its kept neighbours. -/
theorem C46_simplify_exact (srt : GoSort) (hsrt : SortOk srt) (grow : Nat → Nat → Nat) (m : Mem (Point (XR ℝ))) (line : Slice) (hv : m.Valid line)
    (t : ℝ) (ht : 0 ≤ t) (srid : Int) (hs : srid ≠ 4326) (l : List (ℝ × ℝ)) (hl : m.read line = l.map pt) (hlen : 2 ≤ l.length)
    (hopen : l.head? ≠ l.getLast?) :
    ∃ n, ∀ fuel, n ≤ fuel → ∃ m' line' r, DouglasPeuckerSimplify srt grow fuel m line (.fin t) srid = .ok (m', line') ∧
      m'.read line' = r.map pt ∧ Simplifies (fun p a b => ∃ x, OnSeg a b x ∧ eucl p x ≤ t) l r := by
  have hget : ∀ i < l.length, (m.read line).getD i default = pt (l.getD i (0, 0)) := by
    intro i hi
    rw [hl, List.getD_eq_getElem?_getD, List.getElem?_map, List.getElem?_eq_getElem hi, List.getD_eq_getElem?_getD, List.getElem?_eq_getElem hi]
    rfl
  have hlen' : (m.read line).length = l.length := by rw [hl, List.length_map]
  have hQ : ∀ s e i, l.getD s (0, 0) ≠ l.getD e (0, 0) → s < i → i < e → e < (m.read line).length →
      gt (chord (m.read line) srid s e i) (.fin t) = true → l.getD s (0, 0) ≠ l.getD i (0, 0) ∧ l.getD i (0, 0) ≠ l.getD e (0, 0) := by
    intro s e i hne hsi hie he hg
    rw [hlen'] at he
    unfold chord at hg
    rw [hget s (by omega), hget e he, hget i (by omega), toSegment_fin _ _ _ hne hs] at hg
    simp only [GoFloat.gt, XR.fin_lt, decide_eq_true_eq] at hg
    constructor
    · intro heq
      have := toSegment_least (l.getD i (0, 0)) _ _ hne (l.getD s (0, 0)) ⟨0, le_rfl, zero_le_one, by simp [along]⟩
      rw [eucl_eq_zero.2 heq.symm] at this
      linarith
    · intro heq
      have := toSegment_least (l.getD i (0, 0)) _ _ hne (l.getD e (0, 0)) ⟨1, zero_le_one, le_rfl, by simp [along]⟩
      rw [eucl_eq_zero.2 heq] at this
      linarith
  have hq : l.getD 0 (0, 0) ≠ l.getD ((m.read line).length - 1) (0, 0) := by
    rw [hlen']
    intro h
    apply hopen
    rw [List.head?_eq_getElem?, List.getLast?_eq_getElem?]
    rw [List.getD_eq_getElem?_getD, List.getD_eq_getElem?_getD, List.getElem?_eq_getElem (show 0 < l.length by omega),
      List.getElem?_eq_getElem (show l.length - 1 < l.length by omega)] at h
    rw [List.getElem?_eq_getElem (show 0 < l.length by omega), List.getElem?_eq_getElem (show l.length - 1 < l.length by omega)]
    exact congrArg some h
  have hth : gt (lit 0 : XR ℝ) (.fin t) = false := by
    rw [XR.fin_lit]
    simp only [GoFloat.gt, XR.fin_lt, Nat.cast_zero, decide_eq_false_iff_not, not_lt]
    exact ht
  obtain ⟨n, h⟩ := dp_run srt hsrt grow m line hv (.fin t) srid hth (by omega) (fun s e => l.getD s (0, 0) ≠ l.getD e (0, 0)) hQ hq
  refine ⟨n, fun fuel hf => ?_⟩
  obtain ⟨m', line', ks, h1, h2, h3, h4, h5, h6, h7, h8, _⟩ := h fuel hf
  have hks : ∀ k ∈ ks, k < l.length := by
    intro k hk
    have hm : (m.read line)[k]? ∈ (m'.read line').map some := by rw [← h6]; exact List.mem_map.2 ⟨k, hk, rfl⟩
    obtain ⟨x, _, hx⟩ := List.mem_map.1 hm
    obtain ⟨hlt, _⟩ := List.getElem?_eq_some_iff.1 hx.symm
    rw [hlen'] at hlt
    exact hlt
  have hr : ks.map (l[·]?) = (ks.map fun k => l.getD k (0, 0)).map some := by
    rw [List.map_map]
    apply List.map_congr_left
    intro k hk
    show l[k]? = some (l.getD k (0, 0))
    rw [List.getD_eq_getElem?_getD, List.getElem?_eq_getElem (hks k hk)]
    rfl
  refine ⟨m', line', ks.map fun k => l.getD k (0, 0), h1, ?_, ks, h3, h4, by rw [h5, hlen'], hr, ?_⟩
  · have : (m'.read line').map some = ((ks.map fun k => l.getD k (0, 0)).map pt).map some := by
      rw [← h6, List.map_map, List.map_map]
      apply List.map_congr_left
      intro k hk
      show (m.read line)[k]? = some (pt (l.getD k (0, 0)))
      rw [← hget k (hks k hk), List.getD_eq_getElem?_getD, List.getElem?_eq_getElem (by rw [hlen']; exact hks k hk)]
      rfl
    exact List.map_injective_iff.2 (Option.some_injective _) this
  · intro s e hse i a p b hsi hie ha hp hb
    obtain ⟨hne, hg⟩ := h7 s e hse
    have hg := hg i hsi hie
    have hsl := (List.getElem?_eq_some_iff.1 ha).1
    have hel := (List.getElem?_eq_some_iff.1 hb).1
    have hil := (List.getElem?_eq_some_iff.1 hp).1
    unfold chord at hg
    rw [hget s hsl, hget e hel, hget i hil, toSegment_fin _ _ _ hne hs] at hg
    simp only [GoFloat.gt, XR.fin_lt, decide_eq_false_iff_not, not_lt] at hg
    simp only [List.getD_eq_getElem?_getD, ha, hp, hb, Option.getD_some] at hg
    exact ⟨_, ⟨_, (clampU_mem p a b).1, (clampU_mem p a b).2, rfl⟩, hg⟩

/-- C46 on a concrete line in float64: (1,0) and (3,0) are dropped, (2,5) is kept; and a sort meeting the contract exists. -/
example : (DouglasPeuckerSimplify (F := Float) insSort (fun _ _ => 0) 10 ⟨[[⟨0,0⟩, ⟨1,2.5⟩, ⟨2,5⟩, ⟨3,2.5⟩, ⟨4,0⟩]]⟩ ⟨0,0,5,5⟩ 1 0).map (fun r => r.1.read r.2) =
    .ok [⟨0,0⟩, ⟨2,5⟩, ⟨4,0⟩] := by decide +kernel

/-! ## C47 -/

/-- **C47 is false (termination).** For a negative threshold the work list never becomes empty, whatever the line: no number of iterations suffices. -/
theorem C47_negative_false {F : Type} [GoMath F] [FloatOrd F] (srt : GoSort) (grow : Nat → Nat → Nat) (m : Mem (Point F)) (line : Slice) (threshold : F)
    (srid : Int) (hth : lt threshold (lit 0) = true) (hne : m.read line ≠ []) (fuel : Nat) :
    DouglasPeuckerSimplify srt grow fuel m line threshold srid = .error .fuel := by
  have hpos : 0 < (m.read line).length := List.length_pos_of_ne_nil hne
  have key : ∀ (fuel : Nat) (st : List (Nat × Nat)) (s e : Nat) (del : List Nat), s < (m.read line).length → e < (m.read line).length →
      dpLoop (m.read line) threshold srid fuel ((s, e) :: st) del = .error .fuel := by
    intro fuel
    induction fuel with
    | zero => intro st s e del _ _; rfl
    | succ n ih =>
      intro st s e del hs he
      have hz : isNaN (lit 0 : F) = false := FloatOrd.dec_not_nan _ _
      obtain ⟨M, k, h1, h2, h3, h4, h5⟩ := dpMax_fold (m.read line) srid s e hs he (between s e) (fun i hi => by have := mem_between.1 hi; omega) (lit 0, 0) hz
      have hk : k < (m.read line).length := by
        rcases h5 with h5 | ⟨h5, _⟩
        · cases h5; exact hpos
        · have := mem_between.1 h5; omega
      have hM : gt M threshold = true := lt_of_lt_of_le' hth h3
      rw [dpLoop]
      show (dpMax _ _ _ _ >>= _) = _
      unfold dpMax
      rw [h1, bind_ok']
      simp only [hM, if_true]
      exact ih _ _ _ _ hk he
  unfold DouglasPeuckerSimplify dpWorker
  rw [key fuel [] 0 _ [] hpos (by omega)]
  rfl

/-- **C47 is false (closed lines).** A closed square of side 10 collapses to two equal points at threshold 1: the distance from the
degenerate chord is NaN and NaN never exceeds the threshold.  (float64) -/
theorem C47_closed_false :
    (DouglasPeuckerSimplify (F := Float) insSort (fun _ _ => 0) 10 ⟨[[⟨0,0⟩, ⟨10,0⟩, ⟨10,10⟩, ⟨0,10⟩, ⟨0,0⟩]]⟩ ⟨0,0,5,5⟩ 1 0).map (fun r => r.1.read r.2) =
      .ok [⟨0,0⟩, ⟨0,0⟩] := by decide +kernel

/-- **C47 is false (aliasing).** The caller's line (0,0), (1,0), (2,0) has become (0,0), (2,0), (2,0) after the call.  (float64) -/
theorem C47_alias_false :
    (DouglasPeuckerSimplify (F := Float) insSort (fun _ _ => 0) 10 ⟨[[⟨0,0⟩, ⟨1,0⟩, ⟨2,0⟩]]⟩ ⟨0,0,3,3⟩ 1 0).map (fun r => (r.1.read r.2, r.1.read ⟨0,0,3,3⟩)) =
      .ok ([⟨0,0⟩, ⟨2,0⟩], [⟨0,0⟩, ⟨2,0⟩, ⟨2,0⟩]) := by decide +kernel

/-- the result of deletions is a shorter header on the same array -/
theorem delLoop_header {α : Type} [Inhabited α] (grow : Nat → Nat → Nat) (ds : List Nat) : ∀ (m : Mem α) (line : Slice), m.Valid line → ∀ m' line',
    delLoop grow m line ds = .ok (m', line') → line' = { line with len := line.len - ds.length } ∧ ds.length ≤ line.len ∧ m'.Valid line' := by
  induction ds with
  | nil => intro m line h m' line' e; cases e; exact ⟨rfl, Nat.zero_le _, h⟩
  | cons d ds ih =>
    intro m line h m' line' e
    have hc := h.len
    rw [delLoop] at e
    by_cases hd : d < line.len
    · obtain ⟨hd', e1, q1, v1, r1⟩ := Mem.sub_spec h 0 d (Nat.zero_le _) (by omega)
      obtain ⟨tl, e2, q2, v2, r2⟩ := Mem.sub_spec h (d + 1) line.len (by omega) hc
      obtain ⟨g1, g2, g3, g4⟩ := Mem.append_spec grow v1 (m.read tl)
      have e1' : Mem.sub line 0 (d : Int) = .ok hd' := e1
      have e2' : Mem.sub line ((d : Int) + 1) (line.len : Int) = .ok tl := by rw [← e2]; norm_cast
      simp only [e1', e2', bind_ok'] at e
      have hl : (m.read tl).length = line.len - (d + 1) := by rw [v2.length, q2]
      have hap : (m.append grow hd' (m.read tl)).2 = { line with len := line.len - 1 } := by
        unfold Mem.append
        rw [if_pos (by rw [hl, q1]; simp only; omega)]
        simp only [q1, hl, Nat.add_zero, Nat.sub_zero]
        congr 1
        omega
      obtain ⟨k1, k2, k3⟩ := ih _ _ g2 m' line' e
      rw [hap] at k1 k2
      refine ⟨?_, ?_, k3⟩
      · rw [k1, List.length_cons]
        simp only
        congr 1
        omega
      · rw [List.length_cons]
        simp only at k2
        omega
    · exfalso
      have e2' : Mem.sub line ((d : Int) + 1) (line.len : Int) = .error .slice := by
        unfold Mem.sub
        rw [if_neg (by omega)]
      cases h1 : Mem.sub line 0 (d : Int) with
      | error x => rw [h1] at e; cases e
      | ok x => rw [h1, bind_ok', e2'] at e; cases e

/-- **C47 (sharing).** Whenever the call returns, the result is a header on the caller's array: its points are the first points of what is now
the caller's line. -/
theorem C47_shares {F : Type} [GoMath F] (srt : GoSort) (grow : Nat → Nat → Nat) (m : Mem (Point F)) (line : Slice) (hv : m.Valid line) (threshold : F)
    (srid : Int) (fuel : Nat) (m' : Mem (Point F)) (line' : Slice) (h : DouglasPeuckerSimplify srt grow fuel m line threshold srid = .ok (m', line')) :
    line'.arr = line.arr ∧ line'.off = line.off ∧ m'.read line' = (m'.read line).take (m'.read line').length ∧
    ((m'.read line').length = (m.read line).length → m' = m ∧ line' = line) := by
  unfold DouglasPeuckerSimplify at h
  cases hw : dpWorker fuel (m.read line) threshold srid with
  | error x => rw [hw] at h; cases h
  | ok dl =>
    rw [hw, bind_ok'] at h
    obtain ⟨h1, h2, h3⟩ := delLoop_header grow _ m line hv m' line' h
    refine ⟨by rw [h1], by rw [h1], ?_, ?_⟩
    · rw [h3.length, h1]
      unfold Mem.read
      simp only
      rw [List.take_take]
      congr 1
      omega
    · rw [h3.length, hv.length]
      intro hlen
      have hnil : srt Nat (fun a b => decide (b < a)) dl = [] := by
        rw [h1] at hlen
        simp only at hlen
        rw [← List.length_eq_zero_iff]
        omega
      rw [hnil] at h
      cases h
      exact ⟨rfl, rfl⟩

/-- **C47 (partial).** For a threshold that is not below zero (NaN included) and any line, the call terminates without a panic, every line in
another array is unchanged, and nothing at all is changed if no point is dropped.  Missing: negative thresholds, closed lines,
and the caller's own line when a point is dropped (see the `_false` theorems). -/
theorem C47_terminates_partial {F : Type} [GoMath F] [FloatOrd F] (srt : GoSort) (hsrt : SortOk srt) (grow : Nat → Nat → Nat) (m : Mem (Point F)) (line : Slice)
    (hv : m.Valid line) (threshold : F) (srid : Int) (hth : lt threshold (lit 0) = false) :
    ∃ n, ∀ fuel, n ≤ fuel → ∃ m' line', DouglasPeuckerSimplify srt grow fuel m line threshold srid = .ok (m', line') ∧
      (∀ t, m.Valid t → t.arr ≠ line.arr → m'.Valid t ∧ m'.read t = m.read t) ∧
      ((m'.read line').length = (m.read line).length → m' = m ∧ line' = line) := by
  by_cases hlen : 2 ≤ (m.read line).length
  · obtain ⟨n, h⟩ := C46_simplify srt hsrt grow m line hv threshold srid hth hlen
    refine ⟨n, fun fuel hf => ?_⟩
    obtain ⟨m', line', h1, _, _, h4⟩ := h fuel hf
    exact ⟨m', line', h1, h4, (C47_shares srt grow m line hv threshold srid fuel m' line' h1).2.2.2⟩
  · refine ⟨1, fun fuel hf => ⟨m, line, ?_, fun t ht _ => ⟨ht, rfl⟩, fun _ => ⟨rfl, rfl⟩⟩⟩
    obtain ⟨k, rfl⟩ : ∃ k, fuel = k + 1 := ⟨fuel - 1, by omega⟩
    unfold DouglasPeuckerSimplify dpWorker
    have e0 : (m.read line).length - 1 = 0 := by omega
    rw [e0, dpLoop]
    have e1 : dpMax (m.read line) srid 0 0 = .ok (lit 0, 0) := rfl
    have e2 : gt (lit 0) threshold = false := hth
    have e3 : between 0 0 = [] := rfl
    have e4 : dpLoop (m.read line) threshold srid k [] [] = .ok [] := by unfold dpLoop; rfl
    rw [e1, bind_ok']
    simp only [e2, e3, List.append_nil]
    show (dpLoop (m.read line) threshold srid k [] [] >>= _) = _
    rw [e4, bind_ok']
    have := (hsrt.perm Nat (fun a b => decide (b < a)) []).eq_nil
    rw [this]
    rfl

end GoGeo
