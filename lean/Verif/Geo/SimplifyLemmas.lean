import Verif.Geo.Simplify
import Verif.Geo.DistanceLemmas
import Verif.Geo.LineLemmas
import Verif.Props.Line
import Verif.Spec.Simplify

set_option linter.unusedSectionVars false

namespace GoGeo
open GoFloat GoSqrt GoMath Spec

/-! ### neighbours -/

theorem neighbours_cons {α : Type} (a b : α) (l : List α) : neighbours (a :: b :: l) = (a, b) :: neighbours (b :: l) := rfl

theorem neighbours_append {α : Type} (l₁ : List α) (x : α) (l₂ : List α) :
    neighbours (l₁ ++ x :: l₂) = neighbours (l₁ ++ [x]) ++ neighbours (x :: l₂) := by
  induction l₁ with
  | nil => simp [neighbours]
  | cons a l ih =>
    cases l with
    | nil => simp [neighbours]
    | cons b l =>
      simp only [List.cons_append] at ih ⊢
      rw [neighbours_cons, neighbours_cons, ih]; rfl

section
variable {F : Type} [GoMath F]

theorem idx_ok {α : Type} {l : List α} {i : Nat} {x : α} (h : l[i]? = some x) : idx l i = .ok x := by
  unfold idx; rw [h]

theorem mem_between {s e i : Nat} : i ∈ between s e ↔ s < i ∧ i < e := by
  unfold between; rw [List.mem_range'_1]; omega

/-- the distance of point `i` from the chord `(s, e)` -/
def chord (line : List (Point F)) (srid : Int) (s e i : Nat) : F :=
  (PointToSegmentDistance (line.getD i default) (line.getD s default) (line.getD e default) srid).1

theorem dpMaxStep_ok (line : List (Point F)) (srid : Int) (s e : Nat) (hs : s < line.length) (he : e < line.length) (best : F × Nat) (i : Nat)
    (hi : i < line.length) : dpMaxStep line srid s e best i = .ok (if gt (chord line srid s e i) best.1 then (chord line srid s e i, i) else best) := by
  unfold dpMaxStep chord
  rw [idx_ok (List.getElem?_eq_getElem hi), idx_ok (List.getElem?_eq_getElem hs), idx_ok (List.getElem?_eq_getElem he)]
  simp only [bind_ok', List.getD_eq_getElem?_getD, List.getElem?_eq_getElem hi, List.getElem?_eq_getElem hs, List.getElem?_eq_getElem he,
    Option.getD_some]
  rfl

variable [FloatOrd F]

theorem dpMax_fold (line : List (Point F)) (srid : Int) (s e : Nat) (hs : s < line.length) (he : e < line.length) (is : List Nat)
    (his : ∀ i ∈ is, i < line.length) (b : F × Nat) (hb : isNaN b.1 = false) :
    ∃ M k, is.foldlM (dpMaxStep line srid s e) b = .ok (M, k) ∧ isNaN M = false ∧ le b.1 M = true ∧ (∀ i ∈ is, lt M (chord line srid s e i) = false) ∧
      ((M, k) = b ∨ (k ∈ is ∧ M = chord line srid s e k ∧ lt b.1 M = true)) := by
  induction is generalizing b with
  | nil => exact ⟨b.1, b.2, rfl, hb, le_refl' hb, by simp, Or.inl rfl⟩
  | cons i is ih =>
    rw [List.foldlM_cons, dpMaxStep_ok line srid s e hs he b i (his i List.mem_cons_self), bind_ok']
    have his' : ∀ i ∈ is, i < line.length := fun i hi => his i (List.mem_cons_of_mem _ hi)
    by_cases h : gt (chord line srid s e i) b.1 = true
    · rw [if_pos h]
      have hlt : lt b.1 (chord line srid s e i) = true := h
      obtain ⟨M, k, h1, h2, h3, h4, h5⟩ := ih his' (chord line srid s e i, i) (lt_iff'.1 hlt).2.1
      refine ⟨M, k, h1, h2, le_trans' (le_of_lt' hlt) h3, ?_, ?_⟩
      · intro j hj
        rcases List.mem_cons.1 hj with rfl | hj
        · exact (lt_false_iff h2 (lt_iff'.1 hlt).2.1).2 h3
        · exact h4 j hj
      · right
        rcases h5 with h5 | ⟨h5, h6, h7⟩
        · cases h5; exact ⟨List.mem_cons_self, rfl, hlt⟩
        · exact ⟨List.mem_cons_of_mem _ h5, h6, lt_of_lt_of_le' hlt (le_of_lt' h7)⟩
    · rw [if_neg h]
      obtain ⟨M, k, h1, h2, h3, h4, h5⟩ := ih his' b hb
      refine ⟨M, k, h1, h2, h3, ?_, ?_⟩
      · intro j hj
        rcases List.mem_cons.1 hj with rfl | hj
        · by_contra hn
          have hlt : lt M (chord line srid s e j) = true := by simpa using hn
          exact h (show lt b.1 _ = true from lt_of_le_of_lt' h3 hlt)
        · exact h4 j hj
      · rcases h5 with h5 | ⟨h5, h6, h7⟩
        · exact Or.inl h5
        · exact Or.inr ⟨List.mem_cons_of_mem _ h5, h6, h7⟩

/-- the farthest point of a chord: if it is farther than a threshold that is not negative, it is strictly between the ends; otherwise no point is farther -/
theorem dpMax_spec (line : List (Point F)) (threshold : F) (srid : Int) (hth : gt (lit 0) threshold = false) (s e : Nat) (he : e < line.length) :
    s < line.length → ∃ M k, dpMax line srid s e = .ok (M, k) ∧
      (gt M threshold = true → s < k ∧ k < e ∧ gt (chord line srid s e k) threshold = true) ∧
      (gt M threshold = false → ∀ i, s < i → i < e → gt (chord line srid s e i) threshold = false) := by
  intro hs
  have hz : isNaN (lit 0 : F) = false := FloatOrd.dec_not_nan _ _
  obtain ⟨M, k, h1, h2, h3, h4, h5⟩ := dpMax_fold line srid s e hs he (between s e) (fun i hi => by have := mem_between.1 hi; omega) (lit 0, 0) hz
  refine ⟨M, k, h1, ?_, ?_⟩
  · intro hM
    rcases h5 with h5 | ⟨h5, h6, h7⟩
    · cases h5; rw [hM] at hth; cases hth
    · exact ⟨(mem_between.1 h5).1, (mem_between.1 h5).2, by rw [← h6]; exact hM⟩
  · intro hM i h6 h7
    by_contra hn
    have hlt : lt threshold (chord line srid s e i) = true := by
      have : gt (chord line srid s e i) threshold = true := by simpa using hn
      exact this
    have := h4 i (mem_between.2 ⟨h6, h7⟩)
    have hc : isNaN (chord line srid s e i) = false := (lt_iff'.1 hlt).2.1
    have hle := (lt_false_iff h2 hc).1 this
    have : lt threshold M = true := lt_of_lt_of_le' hlt hle
    have : gt M threshold = true := this
    rw [hM] at this; cases this

/-! ### the work list -/

/-- the points `ks` that the work list keeps strictly between `s` and `e` -/
inductive Splits (line : List (Point F)) (threshold : F) (srid : Int) : Nat → Nat → List Nat → Prop
  | stop {s e : Nat} {M : F} {k : Nat} : dpMax line srid s e = .ok (M, k) → gt M threshold = false → Splits line threshold srid s e []
  | split {s e : Nat} {M : F} {k : Nat} {ks₁ ks₂ : List Nat} : dpMax line srid s e = .ok (M, k) → gt M threshold = true → s < k → k < e →
      Splits line threshold srid s k ks₁ → Splits line threshold srid k e ks₂ → Splits line threshold srid s e (ks₁ ++ k :: ks₂)

/-- processing a pair removes the points of the chain `s :: ks ++ [e]` from the work list and records the others for deletion -/
theorem dpLoop_pair (line : List (Point F)) (threshold : F) (srid : Int) (hth : gt (lit 0) threshold = false) (Q : Nat → Nat → Prop)
    (hQ : ∀ s e i, Q s e → s < i → i < e → e < line.length → gt (chord line srid s e i) threshold = true → Q s i ∧ Q i e) :
    ∀ (d s e : Nat), e - s = d → s < e → e < line.length → Q s e → ∃ (n : Nat) (ks dl : List Nat),
      (∀ fuel st del, dpLoop line threshold srid (n + fuel) ((s, e) :: st) del = dpLoop line threshold srid fuel st (del ++ dl)) ∧
      (s :: ks ++ [e]).Pairwise (· < ·) ∧ dl.Nodup ∧ (∀ i, i ∈ dl ↔ s < i ∧ i < e ∧ i ∉ ks) ∧
      (∀ a b, (a, b) ∈ neighbours (s :: ks ++ [e]) → Q a b ∧ ∀ i, a < i → i < b → gt (chord line srid a b i) threshold = false) ∧
      Splits line threshold srid s e ks := by
  intro d
  induction d using Nat.strong_induction_on with
  | _ d ih =>
  intro s e hd hse he hq
  obtain ⟨M, k, h1, h2, h3⟩ := dpMax_spec line threshold srid hth s e he (by omega)
  by_cases hM : gt M threshold = true
  · obtain ⟨hsk, hke, hk⟩ := h2 hM
    obtain ⟨hq1, hq2⟩ := hQ s e k hq hsk hke he hk
    obtain ⟨n1, ks1, dl1, a1, a2, a3, a4, a5, a6⟩ := ih (e - k) (by omega) k e rfl hke he hq2
    obtain ⟨n2, ks2, dl2, b1, b2, b3, b4, b5, b6⟩ := ih (k - s) (by omega) s k rfl hsk (by omega) hq1
    have hb : (s :: ks2 ++ [k]).Pairwise (· < ·) := b2
    have ha : (k :: ks1 ++ [e]).Pairwise (· < ·) := a2
    have hks2 : ∀ i ∈ ks2, s < i ∧ i < k := by
      intro i hi
      have h := b2
      rw [List.cons_append, List.pairwise_cons, List.pairwise_append] at h
      exact ⟨h.1 i (by simp [hi]), h.2.2.2 i hi k (by simp)⟩
    have hks1 : ∀ i ∈ ks1, k < i ∧ i < e := by
      intro i hi
      have h := a2
      rw [List.cons_append, List.pairwise_cons, List.pairwise_append] at h
      exact ⟨h.1 i (by simp [hi]), h.2.2.2 i hi e (by simp)⟩
    refine ⟨n1 + n2 + 1, ks2 ++ k :: ks1, dl1 ++ dl2, ?_, ?_, ?_, ?_, ?_, .split h1 hM hsk hke b6 a6⟩
    · intro fuel st del
      have e1 : n1 + n2 + 1 + fuel = (n1 + (n2 + fuel)) + 1 := by omega
      rw [e1, dpLoop, h1, bind_ok']
      simp only [hM, if_true]
      rw [a1, b1, List.append_assoc]
    · have e1 : s :: (ks2 ++ k :: ks1) ++ [e] = (s :: ks2) ++ (k :: ks1 ++ [e]) := by simp
      rw [e1, List.pairwise_append]
      refine ⟨?_, a2, ?_⟩
      · have := b2
        rw [List.pairwise_append] at this
        exact this.1
      · intro x hx y hy
        have hx' : x < k := by
          rcases List.mem_cons.1 hx with rfl | hx
          · exact hsk
          · exact (hks2 x hx).2
        have hy' : k ≤ y := by
          rw [List.cons_append] at hy
          rcases List.mem_cons.1 hy with rfl | hy
          · exact le_rfl
          · rcases List.mem_append.1 hy with hy | hy
            · exact (hks1 y hy).1.le
            · rw [List.mem_singleton.1 hy]; exact hke.le
        omega
    · rw [List.nodup_append]
      refine ⟨a3, b3, ?_⟩
      intro x hx y hy
      have := (a4 x).1 hx
      have := (b4 y).1 hy
      omega
    · intro i
      rw [List.mem_append, a4, b4, List.mem_append, List.mem_cons]
      constructor
      · rintro (⟨c1, c2, c3⟩ | ⟨c1, c2, c3⟩)
        · refine ⟨by omega, by omega, ?_⟩
          rintro (c | c | c)
          · have := hks2 i c; omega
          · omega
          · exact c3 c
        · refine ⟨by omega, by omega, ?_⟩
          rintro (c | c | c)
          · exact c3 c
          · omega
          · have := hks1 i c; omega
      · rintro ⟨c1, c2, c3⟩
        rcases Nat.lt_trichotomy i k with h | h | h
        · exact Or.inr ⟨c1, h, fun c => c3 (Or.inl c)⟩
        · exact absurd (Or.inr (Or.inl h)) c3
        · exact Or.inl ⟨h, c2, fun c => c3 (Or.inr (Or.inr c))⟩
    · intro a b hab
      have e1 : s :: (ks2 ++ k :: ks1) ++ [e] = (s :: ks2) ++ k :: (ks1 ++ [e]) := by simp
      rw [e1, neighbours_append, List.mem_append] at hab
      rcases hab with hab | hab
      · exact b5 a b hab
      · exact a5 a b hab
  · refine ⟨1, [], between s e, ?_, by simpa using hse, List.nodup_range', ?_, ?_, .stop h1 (by simpa using hM)⟩
    · intro fuel st del
      rw [Nat.add_comm 1 fuel, dpLoop, h1, bind_ok']
      simp only [hM]
      rfl
    · intro i; rw [mem_between]; simp
    · intro a b hab
      have : a = s ∧ b = e := by simpa [neighbours] using hab
      obtain ⟨rfl, rfl⟩ := this
      exact ⟨hq, h3 (by simpa using hM)⟩

end

/-! ### deleting positions from the back -/

theorem delLoop_spec {α : Type} [Inhabited α] (grow : Nat → Nat → Nat) (ds : List Nat) : ∀ (m : Mem α) (line : Slice), m.Valid line →
    ds.Pairwise (· > ·) → (∀ d ∈ ds, d < (m.read line).length) →
    ∃ m' line', delLoop grow m line ds = .ok (m', line') ∧ m'.Valid line' ∧ m'.read line' = ds.foldl deleteAt (m.read line) ∧
      (∀ t, m.Valid t → t.arr ≠ line.arr → m'.Valid t ∧ m'.read t = m.read t) := by
  induction ds with
  | nil => intro m line h _ _; exact ⟨m, line, rfl, h, rfl, fun t ht _ => ⟨ht, rfl⟩⟩
  | cons d ds ih =>
    intro m line h hp hlt
    obtain ⟨h1, h2⟩ := List.pairwise_cons.1 hp
    have hd : d < (m.read line).length := hlt d List.mem_cons_self
    have hl := h.length
    have hc := h.len
    obtain ⟨hd', e1, q1, v1, r1⟩ := Mem.sub_spec h 0 d (Nat.zero_le _) (by omega)
    obtain ⟨tl, e2, q2, v2, r2⟩ := Mem.sub_spec h (d + 1) line.len (by omega) hc
    obtain ⟨g1, g2, g3, g4⟩ := Mem.append_spec grow v1 (m.read tl)
    have e1' : Mem.sub line 0 (d : Int) = .ok hd' := e1
    have e2' : Mem.sub line ((d : Int) + 1) (line.len : Int) = .ok tl := by rw [← e2]; norm_cast
    have hread : (m.append grow hd' (m.read tl)).1.read (m.append grow hd' (m.read tl)).2 = deleteAt (m.read line) d := by
      rw [g1, r1 (by omega), r2 (Nat.le_refl _)]
      unfold deleteAt
      rw [List.drop_zero, List.take_of_length_le (l := m.read line) (i := line.len) (by omega)]
    have harr : (m.append grow hd' (m.read tl)).2.arr = line.arr := by
      unfold Mem.append
      rw [if_pos]
      · rw [q1]
      · rw [r2 (Nat.le_refl _)]
        simp only [q1, List.length_drop, List.length_take]
        omega
    obtain ⟨m', line', k1, k2, k3, k4⟩ := ih (m.append grow hd' (m.read tl)).1 (m.append grow hd' (m.read tl)).2 g2 h2 (by
      intro x hx
      rw [hread]
      have := h1 x hx
      unfold deleteAt
      simp only [List.length_append, List.length_take, List.length_drop]
      omega)
    refine ⟨m', line', ?_, k2, by rw [k3, hread]; rfl, ?_⟩
    · rw [delLoop]
      simp only [e1', e2', bind_ok']
      exact k1
    · intro t ht hne
      obtain ⟨w1, w2⟩ := k4 t (g3 t ht) (by rw [harr]; exact hne)
      exact ⟨w1, by rw [w2, g4 t ht (by rw [q1]; exact fun e => absurd e hne)]⟩

theorem foldl_deleteAt_append {α : Type} (ds : List Nat) (A B : List α) (hp : ds.Pairwise (· > ·)) (h : ∀ d ∈ ds, d < A.length) :
    ds.foldl deleteAt (A ++ B) = ds.foldl deleteAt A ++ B := by
  induction ds generalizing A with
  | nil => rfl
  | cons d ds ih =>
    rw [List.foldl_cons, List.foldl_cons]
    have hd := h d List.mem_cons_self
    obtain ⟨h1, h2⟩ := List.pairwise_cons.1 hp
    have : deleteAt (A ++ B) d = deleteAt A d ++ B := by
      unfold deleteAt
      rw [List.take_append_of_le_length (by omega), List.drop_append_of_le_length (by omega), List.append_assoc]
    rw [this, ih _ h2]
    intro x hx
    have := h1 x hx
    unfold deleteAt
    simp only [List.length_append, List.length_take, List.length_drop]
    omega

/-- deleting the positions `ds` from the back leaves the elements at the other positions -/
theorem foldl_deleteAt {α : Type} (ds : List Nat) (l : List α) (hp : ds.Pairwise (· > ·)) (h : ∀ d ∈ ds, d < l.length) :
    (ds.foldl deleteAt l).map some = ((List.range l.length).filter (fun i => i ∉ ds)).map (l[·]?) := by
  induction ds generalizing l with
  | nil =>
    simp only [List.foldl_nil, List.not_mem_nil, not_false_eq_true, decide_true, List.filter_true]
    apply List.ext_getElem?
    intro i
    simp only [List.getElem?_map]
    by_cases hi : i < l.length
    · rw [List.getElem?_range hi, List.getElem?_eq_getElem hi]; simp [hi]
    · rw [List.getElem?_eq_none (by omega), List.getElem?_eq_none (by simp; omega)]; rfl
  | cons d ds ih =>
    obtain ⟨h1, h2⟩ := List.pairwise_cons.1 hp
    have hd := h d List.mem_cons_self
    rw [List.foldl_cons]
    have htake : (l.take d).length = d := by rw [List.length_take]; omega
    have e0 : deleteAt l d = l.take d ++ l.drop (d + 1) := rfl
    rw [e0, foldl_deleteAt_append ds _ _ h2 (by intro x hx; rw [htake]; exact h1 x hx), List.map_append,
      ih (l.take d) h2 (by intro x hx; rw [htake]; exact h1 x hx), htake]
    have e1 : List.range l.length = List.range d ++ d :: List.range' (d + 1) (l.length - (d + 1)) := by
      have : l.length = d + (1 + (l.length - (d + 1))) := by omega
      conv_lhs => rw [this]
      rw [List.range_eq_range', List.range_eq_range', ← List.range'_append, Nat.add_comm 1 (l.length - (d + 1)), List.range'_succ]
      simp
    rw [e1, List.filter_append, List.filter_cons_of_neg (by simp), List.map_append]
    congr 1
    · have e2 : (List.range d).filter (fun i => decide (i ∉ d :: ds)) = (List.range d).filter (fun i => decide (i ∉ ds)) := by
        apply List.filter_congr
        intro x hx
        have := List.mem_range.1 hx
        simp [List.mem_cons, this.ne]
      rw [e2]
      apply List.map_congr_left
      intro x hx
      have := List.mem_range.1 (List.mem_of_mem_filter hx)
      rw [List.getElem?_take_of_lt this]
    · have e2 : (List.range' (d + 1) (l.length - (d + 1))).filter (fun i => decide (i ∉ d :: ds)) = List.range' (d + 1) (l.length - (d + 1)) := by
        rw [List.filter_eq_self]
        intro x hx
        have := List.mem_range'_1.1 hx
        simp only [List.mem_cons, not_or, decide_eq_true_eq]
        refine ⟨by omega, fun hx' => ?_⟩
        have := h1 x hx'
        omega
      rw [e2]
      apply List.ext_getElem?
      intro i
      simp only [List.getElem?_map, List.getElem?_drop]
      by_cases hi : i < l.length - (d + 1)
      · rw [List.getElem?_range' hi, List.getElem?_eq_getElem (by omega)]
        simp only [Option.map_some]
        rw [show d + 1 + 1 * i = d + 1 + i by omega, List.getElem?_eq_getElem (by omega)]
      · rw [List.getElem?_eq_none (by omega), List.getElem?_eq_none (by simp; omega)]; rfl

end GoGeo
