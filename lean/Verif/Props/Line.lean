import Verif.Geo.LengthLemmas
import Verif.Go.F64

/-!
# Properties of lines and rings: C24 – C30

`m.Valid line` says that the slice header `line` lies inside its backing array, as every Go slice does.
`m.read line` is the list of points of the line.
-/
set_option linter.unusedSectionVars false

namespace GoGeo
open GoFloat Spec

section
variable {α : Type} [Inhabited α] (grow : Nat → Nat → Nat)

/-! ## C24 -/

/-- **C24 (SetPoint).** For a position inside the line or at its end the position is replaced (or the
point appended) without error; other lines that do not share the array keep their points. -/
theorem C24_setPoint (m : Mem α) (line : Slice) (h : m.Valid line) (i : Nat) (hi : i ≤ (m.read line).length) (p : α) :
    ∃ m' line', SetPoint grow m line i p = .ok (m', line', none) ∧ m'.Valid line' ∧
      m'.read line' = putAt (m.read line) i p ∧
      (∀ t, m.Valid t → t.arr ≠ line.arr → m'.Valid t ∧ m'.read t = m.read t) := by
  have hl := h.length
  rw [hl] at hi
  unfold SetPoint
  rw [if_neg (by omega)]
  by_cases he : i = line.len
  · subst he
    rw [if_pos rfl]
    obtain ⟨h1, h2, h3, h4⟩ := Mem.append_spec grow h [p]
    obtain ⟨h5, h6⟩ := Mem.append_arrs grow m line [p]
    have hlt : line.len < (m.append grow line [p]).2.len := by
      rw [← h2.length, h1, List.length_append, hl]; simp
    obtain ⟨m', s, r, hm, v, f, -⟩ := Mem.set_spec h2 line.len hlt p
    refine ⟨m', _, by simp only [LineAppend]; rw [s]; rfl, v _ h2, ?_, fun t ht hne => ⟨v _ (h3 t ht), ?_⟩⟩
    · rw [r, h1, List.set_append_right _ _ (by omega), hl]
      simp only [Nat.sub_self, List.set_cons_zero]
      rw [← hl, put_end]
    · rw [← h4 t ht (fun e => absurd e hne)]
      rcases h6 with h6 | h6
      · exact f t (Or.inl (by rw [h6]; exact hne))
      · by_cases ht' : t.arr < m.arrs.length
        · exact f t (Or.inl (by omega))
        · have h0 := ht.cap; rw [m.arr_ge _ ht'] at h0; have := ht.len
          have : t.len = 0 := by simp at h0; omega
          simp [Mem.read, this]
  · rw [if_neg (by omega)]
    obtain ⟨m', s, r, hm, v, f, -⟩ := Mem.set_spec h i (by omega) p
    exact ⟨m', line, by simp only []; rw [s]; rfl, v _ h, by rw [r, put_list _ _ (by omega)],
      fun t ht hne => ⟨v _ ht, f t (Or.inl hne)⟩⟩

/-- **C24 (out of range).** A position beyond the end is an error for `SetPoint` and `InsertPoint`, a
position at or beyond the end for `DelPoint`, and then nothing changes. -/
theorem C24_out_of_range (m : Mem α) (line : Slice) (h : m.Valid line) (i : Int) (p : α) :
    (((m.read line).length : Int) < i → ∃ e, SetPoint grow m line i p = .ok (m, line, some e)) ∧
    (((m.read line).length : Int) < i → ∃ e, InsertPoint grow m line i p = .ok (m, line, some e)) ∧
    (((m.read line).length : Int) ≤ i → ∃ e, DelPoint grow m line i = .ok (m, line, some e)) := by
  rw [h.length]
  refine ⟨fun hi => ?_, fun hi => ?_, fun hi => ?_⟩
  · unfold SetPoint; rw [if_pos hi]; exact ⟨_, rfl⟩
  · unfold InsertPoint; rw [if_pos hi]; exact ⟨_, rfl⟩
  · unfold DelPoint; rw [if_pos hi]; exact ⟨_, rfl⟩

/-- **C24 (DelPoint).** Exactly the given position is dropped. -/
theorem C24_delPoint (m : Mem α) (line : Slice) (h : m.Valid line) (i : Nat) (hi : i < (m.read line).length) :
    ∃ m' line', DelPoint grow m line i = .ok (m', line', none) ∧ m'.Valid line' ∧
      m'.read line' = deleteAt (m.read line) i ∧
      (∀ t, m.Valid t → t.arr ≠ line.arr → m'.Valid t ∧ m'.read t = m.read t) := by
  have hl := h.length
  have hc := h.len
  rw [hl] at hi
  unfold DelPoint
  rw [if_neg (by omega)]
  obtain ⟨hd, e1, q1, v1, r1⟩ := Mem.sub_spec h 0 i (Nat.zero_le _) (by omega)
  obtain ⟨tl, e2, q2, v2, r2⟩ := Mem.sub_spec h (i + 1) line.len (by omega) hc
  obtain ⟨h1, h2, h3, h4⟩ := Mem.append_spec grow v1 (m.read tl)
  refine ⟨(m.append grow hd (m.read tl)).1, (m.append grow hd (m.read tl)).2, ?_, h2, ?_, fun t ht hne => ⟨h3 t ht, h4 t ht ?_⟩⟩
  · have e1' : Mem.sub line 0 (i : Int) = .ok hd := e1
    have e2' : Mem.sub line ((i : Int) + 1) (line.len : Int) = .ok tl := by rw [← e2]; norm_cast
    simp only [e1', e2', bind_ok']; rfl
  · rw [h1, r1 (by omega), r2 (Nat.le_refl _)]
    unfold deleteAt
    rw [List.drop_zero, List.take_of_length_le (l := m.read line) (i := line.len) (by omega)]
  · intro e; exact absurd (by rw [e, q1]) hne

/-- **C24 (InsertPoint), partial.** Inserting at a position inside the line (not at its end) gives the
line with the point inserted.  Missing: the position just past the end, see `C24_insert_end_false`. -/
theorem C24_insertPoint_partial (m : Mem α) (line : Slice) (h : m.Valid line) (i : Nat)
    (hi : i < (m.read line).length) (p : α) :
    ∃ m' line', InsertPoint grow m line i p = .ok (m', line', none) ∧ m'.Valid line' ∧
      m'.read line' = insertAt (m.read line) i p ∧
      (∀ t, m.Valid t → t.arr ≠ line.arr → m'.Valid t ∧ m'.read t = m.read t) := by
  have hl := h.length
  have hc := h.len
  rw [hl] at hi
  unfold InsertPoint
  rw [if_neg (by omega), if_neg (by omega)]
  obtain ⟨hd, e1, q1, v1, r1⟩ := Mem.sub_spec h 0 (i + 1) (Nat.zero_le _) (by omega)
  obtain ⟨tl, e2, q2, v2, r2⟩ := Mem.sub_spec h i line.len (by omega) hc
  obtain ⟨h1, h2, h3, h4⟩ := Mem.append_spec grow v1 (m.read tl)
  obtain ⟨h5, h6⟩ := Mem.append_arrs grow m hd (m.read tl)
  have hhd : m.read hd = (m.read line).take (i + 1) := by rw [r1 (by omega)]; simp
  have htl : m.read tl = (m.read line).drop i := by
    rw [r2 (Nat.le_refl _), List.take_of_length_le (l := m.read line) (i := line.len) (by omega)]
  have hlt : i < (m.append grow hd (m.read tl)).2.len := by
    rw [← h2.length, h1, List.length_append, hhd, List.length_take]; omega
  obtain ⟨m', s, r, hm, v, f, -⟩ := Mem.set_spec h2 i hlt p
  refine ⟨m', (m.append grow hd (m.read tl)).2, ?_, v _ h2, ?_, fun t ht hne => ⟨v _ (h3 t ht), ?_⟩⟩
  · have e1' : Mem.sub line 0 ((i : Int) + 1) = .ok hd := by rw [← e1]; norm_cast
    have e2' : Mem.sub line (i : Int) (line.len : Int) = .ok tl := e2
    simp only [e1', e2', bind_ok']; rw [s]; rfl
  · rw [r, h1, hhd, htl, insert_list _ _ (by omega)]
  · have hne' : t.arr ≠ hd.arr := by rw [q1]; exact hne
    rw [← h4 t ht (fun e => absurd e hne')]
    rcases h6 with h6 | h6
    · exact f t (Or.inl (by rw [h6]; exact hne'))
    · by_cases ht' : t.arr < m.arrs.length
      · exact f t (Or.inl (by omega))
      · have h0 := ht.cap; rw [m.arr_ge _ ht'] at h0; have := ht.len
        have : t.len = 0 := by simp at h0; omega
        simp [Mem.read, this]

/-- **C24 is false at the end**: `InsertPoint` at the position just past the end inserts the point
twice, for every line. -/
theorem C24_insert_end_false (m : Mem α) (line : Slice) (h : m.Valid line) (p : α) :
    ∃ m' line', InsertPoint grow m line (m.read line).length p = .ok (m', line', none) ∧
      m'.read line' = m.read line ++ [p, p] ∧ m'.read line' ≠ insertAt (m.read line) (m.read line).length p := by
  have hl := h.length
  rw [hl]
  unfold InsertPoint
  rw [if_neg (by omega), if_pos rfl]
  obtain ⟨a1, a2, a3, a4⟩ := Mem.append_spec grow h [p]
  have key : ∀ (m₁ : Mem α) (l₁ : Slice), m₁.Valid l₁ → m₁.read l₁ = m.read line ++ [p] →
      ∃ m' line', (do
        let head ← Mem.sub l₁ 0 ((line.len : Int) + 1)
        let tail ← Mem.sub l₁ (line.len : Int) l₁.len
        let m₂ ← (m₁.append grow head (m₁.read tail)).1.set (m₁.append grow head (m₁.read tail)).2 (line.len : Int) p
        Except.ok (m₂, (m₁.append grow head (m₁.read tail)).2, (none : GoError))) = (.ok (m', line', none) : Go _) ∧
        m'.read line' = m.read line ++ [p, p] := by
    intro m₁ l₁ h hr
    have hlen : l₁.len = line.len + 1 := by rw [← h.length, hr]; simp [hl]
    have hc := h.len
    obtain ⟨hd, e1, q1, v1, r1⟩ := Mem.sub_spec h 0 (line.len + 1) (Nat.zero_le _) (by omega)
    obtain ⟨tl, e2, q2, v2, r2⟩ := Mem.sub_spec h line.len l₁.len (by omega) hc
    obtain ⟨h1, h2, h3, h4⟩ := Mem.append_spec grow v1 (m₁.read tl)
    have hhd : m₁.read hd = m.read line ++ [p] := by
      rw [r1 (by omega), hr, List.take_of_length_le (by simp; omega)]; rfl
    have htl : m₁.read tl = [p] := by
      rw [r2 (Nat.le_refl _), hr, List.take_of_length_le (by simp; omega), List.drop_left' hl]
    have hlt : line.len < (m₁.append grow hd (m₁.read tl)).2.len := by
      rw [← h2.length, h1, List.length_append, hhd]; simp; omega
    obtain ⟨m', s, r, hm, v, f, -⟩ := Mem.set_spec h2 line.len hlt p
    refine ⟨m', (m₁.append grow hd (m₁.read tl)).2, ?_, ?_⟩
    · have e1' : Mem.sub l₁ 0 ((line.len : Int) + 1) = .ok hd := by rw [← e1]; norm_cast
      have e2' : Mem.sub l₁ (line.len : Int) (l₁.len : Int) = .ok tl := e2
      simp only [e1', e2', bind_ok']; rw [s]; rfl
    · rw [r, h1, hhd, htl, List.append_assoc, List.set_append_right _ _ (by omega), hl]; simp
  obtain ⟨m', line', e, hr⟩ := key _ _ a2 a1
  refine ⟨m', line', e, hr, ?_⟩
  rw [hr]
  intro e
  have := congrArg List.length e
  simp [insertAt, hl] at this

/-- **C24 is false for negative positions**: they panic instead of being reported as errors. -/
theorem C24_negative_false (m : Mem α) (line : Slice) (i : Int) (hi : i < 0) (p : α) :
    SetPoint grow m line i p = .error .index ∧ InsertPoint grow m line i p = .error .slice ∧
    DelPoint grow m line i = .error .slice := by
  refine ⟨?_, ?_, ?_⟩
  · unfold SetPoint
    rw [if_neg (by omega), if_neg (by omega)]
    simp only []
    rw [Mem.set_error _ _ _ (Or.inl hi)]; rfl
  · unfold InsertPoint
    rw [if_neg (by omega), if_neg (by omega)]
    simp only []
    by_cases h1 : (0 : Int) ≤ i + 1 ∧ i + 1 ≤ line.cap
    · have e1 : ∃ s, Mem.sub line 0 (i + 1) = .ok s := by unfold Mem.sub; rw [if_pos ⟨by omega, by omega, by omega⟩]; exact ⟨_, rfl⟩
      have e2 : Mem.sub line i line.len = .error .slice := by unfold Mem.sub; rw [if_neg (by omega)]
      obtain ⟨s, e1⟩ := e1
      rw [e1, e2]; rfl
    · have e1 : Mem.sub line 0 (i + 1) = .error .slice := by unfold Mem.sub; rw [if_neg (by omega)]
      rw [e1]; rfl
  · unfold DelPoint
    rw [if_neg (by omega)]
    have e1 : Mem.sub line 0 i = .error .slice := by unfold Mem.sub; rw [if_neg (by omega)]
    rw [e1]; rfl

/-- C24 on concrete lines: an array of five numbers, the line being its middle three. -/
def demoMem : Mem Nat := ⟨[[9, 1, 2, 3, 8]]⟩
def demoLine : Slice := ⟨0, 1, 3, 4⟩

example : demoMem.Valid demoLine ∧ demoMem.read demoLine = [1, 2, 3] := ⟨⟨by decide, by decide⟩, by decide⟩
example : (InsertPoint (fun _ _ => 0) demoMem demoLine 1 7).map (fun r => r.1.read r.2.1) = .ok [1, 7, 2, 3] := by decide
example : (DelPoint (fun _ _ => 0) demoMem demoLine 1).map (fun r => r.1.read r.2.1) = .ok [1, 3] := by decide
example : (SetPoint (fun _ _ => 0) demoMem demoLine 3 7).map (fun r => r.1.read r.2.1) = .ok [1, 2, 3, 7] := by decide
example : (InsertPoint (fun _ _ => 0) demoMem demoLine 3 7).map (fun r => r.1.read r.2.1) = .ok [1, 2, 3, 7, 7] := by decide

/-! ## C25 -/

/-- **C25 (Reverse).** `Reverse` reverses the order of the points, in place, and leaves lines in other arrays alone. -/
theorem C25_reverse (m : Mem α) (line : Slice) (h : m.Valid line) :
    ∃ m', LineReverse m line = .ok m' ∧ m'.Valid line ∧ m'.read line = (m.read line).reverse ∧
      (∀ t, m.Valid t → t.arr ≠ line.arr → m'.Valid t ∧ m'.read t = m.read t) := by
  obtain ⟨m', e, hr, -, hv, hf⟩ := reverseLoop_spec (m.read line) h.length (line.len / 2) 0 m h (by omega) (by
    intro k hk
    rw [if_neg (by omega)])
  exact ⟨m', e, hv _ h, hr, fun t ht hne => ⟨hv _ ht, hf t hne⟩⟩

/-- **C25 (involution).** Reversing twice restores the points. -/
theorem C25_reverse_twice (m : Mem α) (line : Slice) (h : m.Valid line) :
    ∃ m' m'', LineReverse m line = .ok m' ∧ LineReverse m' line = .ok m'' ∧ m''.read line = m.read line := by
  obtain ⟨m', e, hv, hr, -⟩ := C25_reverse m line h
  obtain ⟨m'', e', hv', hr', -⟩ := C25_reverse m' line hv
  exact ⟨m', m'', e, e', by rw [hr', hr, List.reverse_reverse]⟩

example : (LineReverse demoMem demoLine).map (fun m => m.read demoLine) = .ok [3, 2, 1] := by decide

end

/-- **C25 (Length).** Over exact arithmetic a line and its reversal have the same length — also with
infinite or NaN coordinates. -/
theorem C25_length_reverse (m : Mem (Point (XR ℝ))) (line : Slice) (h : m.Valid line) :
    ∃ m', LineReverse m line = .ok m' ∧ LineLength (m'.read line) = LineLength (m.read line) := by
  obtain ⟨m', e, -, hr, -⟩ := C25_reverse m line h
  exact ⟨m', e, by rw [hr, length_reverse_xr]⟩

/-! ## C26 -/

section
variable {F K : Type} [GoFloat F] [Field K] [LinearOrder K] [IsStrictOrderedRing K] [V : FloatVal F K]
open FloatVal

include V in
theorem abs_sub_comm_val (a b : F) : val (abs (a - b)) = val (abs (b - a)) := by
  rw [val_abs, val_abs, val_sub, val_sub]
  have : XR.sub (val b) (val a) = XR.neg (XR.sub (val a) (val b)) := by
    cases val a <;> cases val b <;> simp [XR.sub, XR.add, XR.neg]
  rw [this, rnd_neg]
  cases rnd F (XR.sub (val a) (val b)) <;> simp [XR.abs, XR.neg]
  rename_i k
  rcases lt_trichotomy k 0 with h | h | h
  · rw [if_pos h, if_neg (by linarith)]
  · subst h; simp
  · rw [if_neg (by linarith), if_pos h]

include V in
theorem near_comm (a b : F) : lt (abs (a - b)) (COORDPRESION : F) = lt (abs (b - a)) COORDPRESION := by
  rw [val_lt, val_lt, abs_sub_comm_val a b]

include V in
/-- `Point.Equal` and `PointZ.Equal` are symmetric for all float64 values, NaN and infinities included. -/
theorem C26_point_symm (p q : Point F) : p.Equal q = q.Equal p := by
  unfold Point.Equal; rw [near_comm p.X, near_comm p.Y]

include V in
theorem C26_pointZ_symm (p q : PointZ F) : p.Equal q = q.Equal p := by
  unfold PointZ.Equal; rw [near_comm p.X, near_comm p.Y, near_comm p.Z]

include V in
theorem near_self (hp : lt (lit 0) (COORDPRESION : F) = true) (a : F) (ha : IsFin a) :
    lt (abs (a - a)) (COORDPRESION : F) = true := by
  obtain ⟨h1, h2⟩ := ha
  rw [val_lt, val_inf] at h2
  rw [val_lt, val_neg, val_inf] at h1
  have : val (abs (a - a)) = val (lit 0 : F) := by
    rw [val_abs, val_sub, val_lit0]
    cases hv : val a with
    | fin k => simp [XR.sub, XR.neg, XR.add, rnd_zero, XR.abs]
    | nan => rw [hv] at h2; simp [XR.lt] at h2
    | pinf => rw [hv] at h2; simp [XR.lt] at h2
    | ninf => rw [hv] at h1; simp [XR.lt, XR.neg] at h1
  rw [val_lt, this, ← val_lt]; exact hp

include V in
theorem C26_point_refl (hp : lt (lit 0) (COORDPRESION : F) = true) (p : Point F) (h : FinPt p) : p.Equal p = true := by
  unfold Point.Equal; rw [near_self hp _ h.1, near_self hp _ h.2]; rfl

include V in
theorem C26_pointZ_refl (hp : lt (lit 0) (COORDPRESION : F) = true) (p : PointZ F) (h : FinPtZ p) : p.Equal p = true := by
  unfold PointZ.Equal; rw [near_self hp _ h.1, near_self hp _ h.2.1, near_self hp _ h.2.2]; rfl

/-- the tolerance is positive, in binary64 and in exact arithmetic -/
theorem prec_pos_float : lt (lit 0) (COORDPRESION : Float) = true := by decide +kernel
theorem prec_pos_xr : lt (lit 0) (COORDPRESION : XR K) = true := by
  show decide (((0 : ℕ) : K) / 10 ^ 0 < ((1 : ℕ) : K) / 10 ^ 6) = true
  simp
end

/-- **C26, exact.** What `Equal` computes for a point equality: it panics exactly when the second line
is a proper prefix of the first up to the tolerance, and is true exactly when the first is a prefix of the second. -/
theorem C26_equal_exact {α : Type} (eq : α → α → Bool) (l₁ l₂ : List α) :
    (LineEqual eq l₁ l₂ = .ok true ↔ l₁.length ≤ l₂.length ∧ ∀ (i : Nat) (a b : α), l₁[i]? = some a → l₂[i]? = some b → eq a b = true) ∧
    (LineEqual eq l₁ l₂ = .error .index ↔ l₂.length < l₁.length ∧ ∀ (i : Nat) (a b : α), l₁[i]? = some a → l₂[i]? = some b → eq a b = true) ∧
    (LineEqual eq l₁ l₂ = .ok false ↔ ∃ (i : Nat) (a b : α), l₁[i]? = some a ∧ l₂[i]? = some b ∧ eq a b = false) := by
  induction l₁ generalizing l₂ with
  | nil => simp [LineEqual]
  | cons a as ih =>
    cases l₂ with
    | nil => simp [LineEqual]
    | cons b bs =>
      unfold LineEqual
      obtain ⟨i1, i2, i3⟩ := ih bs
      have hall : (∀ (i : Nat) (x y : α), (a :: as)[i]? = some x → (b :: bs)[i]? = some y → eq x y = true) ↔
          eq a b = true ∧ ∀ (i : Nat) (x y : α), as[i]? = some x → bs[i]? = some y → eq x y = true := by
        constructor
        · intro h; exact ⟨h 0 a b rfl rfl, fun i x y hx hy => h (i + 1) x y hx hy⟩
        · rintro ⟨h0, h⟩ i x y hx hy
          cases i with
          | zero => cases hx; cases hy; exact h0
          | succ i => exact h i x y hx hy
      have hex : (∃ (i : Nat) (x y : α), (a :: as)[i]? = some x ∧ (b :: bs)[i]? = some y ∧ eq x y = false) ↔
          eq a b = false ∨ ∃ (i : Nat) (x y : α), as[i]? = some x ∧ bs[i]? = some y ∧ eq x y = false := by
        constructor
        · rintro ⟨i, x, y, hx, hy, h⟩
          cases i with
          | zero => cases hx; cases hy; exact Or.inl h
          | succ i => exact Or.inr ⟨i, x, y, hx, hy, h⟩
        · rintro (h | ⟨i, x, y, hx, hy, h⟩)
          · exact ⟨0, a, b, rfl, rfl, h⟩
          · exact ⟨i + 1, x, y, hx, hy, h⟩
      rw [hall, hex]
      simp only [List.length_cons, Nat.add_le_add_iff_right, Nat.add_lt_add_iff_right]
      cases hab : eq a b
      · simp
      · simpa only [true_and, if_true, Bool.true_eq_false, false_or] using ⟨i1, i2, i3⟩

section
variable {F K : Type} [GoFloat F] [Field K] [LinearOrder K] [IsStrictOrderedRing K] [V : FloatVal F K]

include V in
/-- **C26, partial.** On lines of the same length `Equal` never panics, is symmetric, and is reflexive on
finite points (for float64 as for exact arithmetic).  Missing: lines of different lengths, see
`C26_prefix_false` and `C26_panic_false`. -/
theorem C26_equal_partial (hp : lt (lit 0) (COORDPRESION : F) = true) (l₁ l₂ : List (Point F)) (hl : l₁.length = l₂.length) :
    (∃ b, LineEqual Point.Equal l₁ l₂ = .ok b ∧ LineEqual Point.Equal l₂ l₁ = .ok b) ∧
    ((∀ p ∈ l₁, FinPt p) → LineEqual Point.Equal l₁ l₁ = .ok true) := by
  constructor
  · induction l₁ generalizing l₂ with
    | nil => cases l₂ with
      | nil => exact ⟨true, rfl, rfl⟩
      | cons => simp at hl
    | cons a as ih =>
      cases l₂ with
      | nil => simp at hl
      | cons b bs =>
        obtain ⟨r, h1, h2⟩ := ih bs (by simpa using hl)
        unfold LineEqual
        rw [C26_point_symm b a, h1, h2]
        cases a.Equal b
        · exact ⟨false, rfl, rfl⟩
        · exact ⟨r, rfl, rfl⟩
  · intro hf
    refine ((C26_equal_exact _ _ _).1).2 ⟨Nat.le_refl _, fun i a b ha hb => ?_⟩
    rw [ha] at hb; cases hb
    exact C26_point_refl hp _ (hf _ (List.mem_of_getElem? ha))

end

/-- **C26 is false**: a line equals any extension of itself. -/
theorem C26_prefix_false : ∃ l₁ l₂ : List (Point Float), l₁.length ≠ l₂.length ∧
    LineEqual Point.Equal l₁ l₂ = .ok true :=
  ⟨[⟨1, 2⟩], [⟨1, 2⟩, ⟨3, 4⟩], by decide, by decide +kernel⟩

/-- **C26 is false**: comparing a line with a shorter prefix of it panics. -/
theorem C26_panic_false : ∃ l₁ l₂ : List (Point Float), LineEqual Point.Equal l₁ l₂ = .error .index :=
  ⟨[⟨1, 2⟩, ⟨3, 4⟩], [⟨1, 2⟩], by decide +kernel⟩

example : ∀ p ∈ [(⟨1, 2⟩ : Point Float), ⟨3, 4⟩], FinPt p := by
  unfold FinPt IsFin; decide +kernel

/-! ## C27 -/

section
variable {α : Type} [Inhabited α] (grow : Nat → Nat → Nat)

/-- **C27 (NewLineString), partial.** The new line holds copies of the points in an array of its own:
nothing appended to it later changes a line the caller already had, and nothing appended to such a line
changes it. -/
theorem C27_newLineString_partial (m : Mem α) (pts : List α) (t : Slice) (ht : m.Valid t) (xs : List α) :
    ∃ m' line, NewLineString grow m pts = (m', line) ∧ m'.Valid line ∧ m'.read line = pts ∧
      m'.read t = m.read t ∧
      (m'.append grow line xs).1.read t = m.read t ∧
      (m'.append grow t xs).1.read line = pts := by
  obtain ⟨m', line, e, hv, hr, hl, hk, ha, hf⟩ := copyLoop_spec grow pts m Slice.nil (nil_valid m)
  have hr' : m'.read line = pts := by rw [hr]; simp [Mem.read, Slice.nil]
  have hft : m'.read t = m.read t := hf t ht (fun _ => Or.inr (by simp [Slice.nil]))
  have hempty : ∀ s, m.Valid s → ¬ s.arr < m.arrs.length → s.len = 0 ∧ s.cap = 0 ∧ s.off = 0 := by
    intro s hs hn
    have h0 := hs.cap; rw [m.arr_ge _ hn] at h0; have := hs.len
    simp at h0; omega
  obtain ⟨-, -, -, f1⟩ := Mem.append_spec grow hv xs
  obtain ⟨-, -, -, f2⟩ := Mem.append_spec grow (hk t ht) xs
  refine ⟨m', line, e, hv, hr', hft, ?_, ?_⟩
  · rw [f1 t (hk t ht), hft]
    intro heq
    cases pts with
    | nil =>
      have : line = Slice.nil := by simp [copyLoop] at e; exact e.2.symm
      right; rw [this]; simp [Slice.nil]
    | cons v vs =>
      have hfr := copyLoop_fresh grow m v vs
      rw [e] at hfr
      have hlt : ¬ t.arr < m.arrs.length := by rw [heq]; exact Nat.not_lt.2 hfr
      obtain ⟨a, b, c⟩ := hempty t ht hlt
      left; omega
  · rw [f2 line hv, hr']
    intro heq
    cases pts with
    | nil =>
      have : line = Slice.nil := by simp [copyLoop] at e; exact e.2.symm
      left; rw [this]; simp [Slice.nil]
    | cons v vs =>
      have hfr := copyLoop_fresh grow m v vs
      rw [e] at hfr
      have hlt : ¬ t.arr < m.arrs.length := by rw [← heq]; exact Nat.not_lt.2 hfr
      obtain ⟨a, b, c⟩ := hempty t ht hlt
      right; omega

/-- **C27 (SplitByIndex, second part), partial.** Appending to the second part changes neither the
original line nor the first part. -/
theorem C27_split_second_partial (m : Mem α) (line : Slice) (h : m.Valid line) (i : Nat) (hi : i < (m.read line).length)
    (xs : List α) : ∃ l₁ l₂, SplitByIndex line i = .ok (l₁, l₂) ∧
      (m.append grow l₂ xs).1.read line = m.read line ∧ (m.append grow l₂ xs).1.read l₁ = m.read l₁ := by
  have hl := h.length
  have hc := h.len
  rw [hl] at hi
  obtain ⟨hd, e1, q1, v1, r1⟩ := Mem.sub_spec h 0 (i + 1) (Nat.zero_le _) (by omega)
  obtain ⟨tl, e2, q2, v2, r2⟩ := Mem.sub_spec h i line.len (by omega) hc
  obtain ⟨-, -, -, f⟩ := Mem.append_spec grow v2 xs
  refine ⟨hd, tl, ?_, f line h (fun _ => Or.inl ?_), f hd v1 (fun _ => Or.inl ?_)⟩
  · unfold SplitByIndex
    have e1' : Mem.sub line 0 ((i : Int) + 1) = .ok hd := by rw [← e1]; norm_cast
    have e2' : Mem.sub line (i : Int) (line.len : Int) = .ok tl := e2
    simp only [e1', e2', bind_ok']; rfl
  · subst q2; dsimp only; omega
  · subst q1 q2; dsimp only; omega

/-- **C27 is false (SplitByIndex, first part)**: appending a point to the first part overwrites the next
point of the original line and of the second part — for every line, every inner split position, every point. -/
theorem C27_split_first_false (m : Mem α) (line : Slice) (h : m.Valid line) (i : Nat) (hi : i + 1 < (m.read line).length)
    (x : α) : ∃ l₁ l₂, SplitByIndex line i = .ok (l₁, l₂) ∧
      (LineAppend grow m l₁ x).1.read line = putAt (m.read line) (i + 1) x ∧
      (LineAppend grow m l₁ x).1.read l₂ = putAt (m.read l₂) 1 x := by
  have hl := h.length
  have hc := h.len
  have hcap := h.cap
  rw [hl] at hi
  obtain ⟨hd, e1, q1, v1, r1⟩ := Mem.sub_spec h 0 (i + 1) (Nat.zero_le _) (by omega)
  obtain ⟨tl, e2, q2, v2, r2⟩ := Mem.sub_spec h i line.len (by omega) hc
  have hlt := h.lt (by omega)
  have hpk : (LineAppend grow m hd x).1 = m.poke hd hd.len [x] := by
    unfold LineAppend Mem.append; rw [if_pos (by subst q1; simp; omega)]
  have hb : hd.off + hd.len + [x].length ≤ (m.arr hd.arr).length := by subst q1; simp; omega
  have hll : hd.arr < m.arrs.length := by subst q1; exact hlt
  refine ⟨hd, tl, ?_, ?_, ?_⟩
  · unfold SplitByIndex
    have e1' : Mem.sub line 0 ((i : Int) + 1) = .ok hd := by rw [← e1]; norm_cast
    have e2' : Mem.sub line (i : Int) (line.len : Int) = .ok tl := e2
    simp only [e1', e2', bind_ok']; rfl
  · rw [hpk, Mem.read_poke_same m hd line hd.len [x] hll hb h (by subst q1; rfl) (i + 1) (by subst q1; simp) (by simp; omega)]
    simp [putAt]
  · rw [hpk, Mem.read_poke_same m hd tl hd.len [x] hll hb v2 (by subst q1 q2; rfl) 1 (by subst q1 q2; simp; omega) (by subst q2; simp; omega)]
    simp [putAt]

/-- **C27 is false (ToRing)**: closing the first part of a split line into a ring overwrites the next
point of the original line. -/
theorem C27_toRing_false : ∃ (m : Mem Nat) (line l₁ l₂ r : Slice) (m' : Mem Nat),
    m.Valid line ∧ m.read line = [1, 2, 3, 4] ∧ SplitByIndex line 1 = .ok (l₁, l₂) ∧
    ToRing (fun _ _ => 0) (fun a b => a == b) m l₁ = .ok (m', r) ∧ m'.read r = [1, 2, 1] ∧ m'.read line = [1, 2, 1, 4] :=
  ⟨⟨[[1, 2, 3, 4]]⟩, ⟨0, 0, 4, 4⟩, ⟨0, 0, 2, 4⟩, ⟨0, 1, 3, 3⟩, ⟨0, 0, 3, 4⟩, ⟨[[1, 2, 1, 4]]⟩,
    ⟨by decide, by decide⟩, by decide, by decide, by decide, by decide, by decide⟩

/-! ## C28 -/

theorem ring_core (eq : α → α → Bool) (m : Mem α) (line : Slice) (h : m.Valid line) (a b : α)
    (ha : (m.read line).head? = some a) (hb : (m.read line).getLast? = some b) :
    ∃ m' r, NewRingFromLineZ grow eq m line = .ok (m', some r) ∧ m'.Valid r ∧
      m'.read r = m.read line ++ (if eq a b then [] else [a]) := by
  have hl := h.length
  have hne : 0 < line.len := by
    rw [← hl]; cases hr : m.read line with
    | nil => rw [hr] at ha; simp at ha
    | cons => simp
  have g1 : m.get line 0 = .ok a := get_ok 0 a (by rw [← List.head?_eq_getElem?]; exact ha)
  have g2 : m.get line ((line.len : Int) - 1) = .ok b := by
    have : (line.len : Int) - 1 = ((line.len - 1 : Nat) : Int) := by omega
    rw [this]
    exact get_ok _ b (by rw [← hl, ← List.getLast?_eq_getElem?]; exact hb)
  unfold NewRingFromLineZ
  rw [g1, g2]
  simp only [bind_ok']
  obtain ⟨h1, h2, -, -⟩ := Mem.append_spec grow h [a]
  cases eq a b
  · exact ⟨_, _, rfl, h2, by rw [h1]; rfl⟩
  · exact ⟨_, _, rfl, h, by simp⟩

/-- **C28 (rings).** From at least two points `NewRingFromLine` and `NewLinearRing` build a ring of the
given points, closed by repeating the first point unless first and last already agree. -/
theorem C28_ring (eq : α → α → Bool) (m : Mem α) (line : Slice) (h : m.Valid line) (a b : α) (mid : List α)
    (hr : m.read line = a :: mid ++ [b]) :
    ∃ m' r, NewRingFromLine grow eq m line = .ok (m', some r) ∧ m'.Valid r ∧
      m'.read r = (a :: mid ++ [b]) ++ (if eq a b then [] else [a]) := by
  obtain ⟨m', r, e, hv, h'⟩ := ring_core grow eq m line h a b (by rw [hr]; rfl) (by rw [hr, List.getLast?_concat])
  refine ⟨m', r, ?_, hv, by rw [h', hr]⟩
  unfold NewRingFromLine
  have : LineVerify line = none := by
    have := h.length
    rw [hr] at this
    unfold LineVerify
    rw [if_neg (by simp at this; omega), if_neg (by simp at this; omega)]
  rw [this, if_neg (by simp)]
  exact e

theorem C28_newLinearRing (eq : α → α → Bool) (m : Mem α) (a b : α) (mid : List α) :
    ∃ m' r, NewLinearRing grow eq m (a :: mid ++ [b]) = .ok (m', some r) ∧ m'.Valid r ∧
      m'.read r = (a :: mid ++ [b]) ++ (if eq a b then [] else [a]) := by
  obtain ⟨m', line, e, hv, hr, -⟩ := copyLoop_spec grow (a :: mid ++ [b]) m Slice.nil (nil_valid m)
  have hr' : m'.read line = a :: mid ++ [b] := by rw [hr]; simp [Mem.read, Slice.nil]
  unfold NewLinearRing
  rw [e]
  exact C28_ring grow eq m' line hv a b mid hr'

/-- **C28 is false for fewer than two points**: `ToRing` and `NewPolygonFromPois` then panic (nil dereference);
the three-dimensional variants panic exactly on empty input. -/
theorem C28_short_false (eq : α → α → Bool) (m : Mem α) (line : Slice) (h : m.Valid line) (hs : (m.read line).length < 2) :
    ToRing grow eq m line = .error .nilDeref ∧ NewPolygonFromPois grow eq m (m.read line) = .error .nilDeref ∧
    (m.read line = [] → ToRingZ grow eq m line = .error .index ∧ NewPolygonZFromPois grow eq m (m.read line) = .error .index) := by
  have hl := h.length
  have hver : ∀ s : Slice, s.len < 2 → LineVerify s ≠ none := by
    intro s hs
    unfold LineVerify
    by_cases h0 : s.len = 0
    · rw [if_pos h0]; simp
    · rw [if_neg h0, if_pos (by omega)]; simp
  refine ⟨?_, ?_, fun h0 => ⟨?_, ?_⟩⟩
  · unfold ToRing NewRingFromLine
    rw [if_pos (hver _ (by omega))]; rfl
  · obtain ⟨m', s', e, hv, hr, -⟩ := copyLoop_spec grow (m.read line) m Slice.nil (nil_valid m)
    have hlen : s'.len < 2 := by rw [← hv.length, hr]; simpa [Mem.read, Slice.nil] using hs
    unfold NewPolygonFromPois NewLinearRing NewRingFromLine
    rw [e]
    rw [if_pos (hver _ hlen)]; rfl
  · unfold ToRingZ NewRingFromLineZ
    rw [get_error _ (by rw [h0]; simp)]; rfl
  · rw [h0]
    have hz : NewLinearRingZ grow eq m [] = .error .index := by
      show NewRingFromLineZ grow eq m Slice.nil = _
      unfold NewRingFromLineZ
      rw [get_error _ (by simp [Mem.read, Slice.nil])]; rfl
    unfold NewPolygonZFromPois
    rw [hz]; rfl

/-- **C28, partial.** From two points on `ToRing` and `NewPolygonFromPois` do not panic and give the closed ring. -/
theorem C28_toRing_partial (eq : α → α → Bool) (m : Mem α) (line : Slice) (h : m.Valid line) (a b : α) (mid : List α)
    (hr : m.read line = a :: mid ++ [b]) :
    (∃ m' r, ToRing grow eq m line = .ok (m', r) ∧ m'.read r = (a :: mid ++ [b]) ++ (if eq a b then [] else [a])) ∧
    (∃ m' r, NewPolygonFromPois grow eq m (a :: mid ++ [b]) = .ok (m', r) ∧
      m'.read r = (a :: mid ++ [b]) ++ (if eq a b then [] else [a])) := by
  constructor
  · obtain ⟨m', r, e, -, h'⟩ := C28_ring grow eq m line h a b mid hr
    exact ⟨m', r, by unfold ToRing; rw [e]; rfl, h'⟩
  · obtain ⟨m', r, e, -, h'⟩ := C28_newLinearRing grow eq m a b mid
    exact ⟨m', r, by unfold NewPolygonFromPois; rw [e]; rfl, h'⟩

example : (NewLinearRing (fun _ _ => 0) (fun a b => a == b) (⟨[]⟩ : Mem Nat) [1, 2, 3]).map
    (fun r => (r.2.map r.1.read)) = .ok (some [1, 2, 3, 1]) := by decide

section
variable {F K : Type} [GoFloat F] [Field K] [LinearOrder K] [IsStrictOrderedRing K] [V : FloatVal F K]

include V in
/-- **C28 (closed).** Every ring built from finite points has a first and a last point that agree within
1e-6 — in float64 as in exact arithmetic. -/
theorem C28_closed (hp : lt (lit 0) (COORDPRESION : F) = true) (m : Mem (Point F)) (pts : List (Point F))
    (hf : ∀ p ∈ pts, FinPt p) (m' : Mem (Point F)) (r : Slice)
    (h : NewLinearRing grow Point.Equal m pts = .ok (m', some r)) :
    ∃ f l, (m'.read r).head? = some f ∧ (m'.read r).getLast? = some l ∧ Near f.X l.X ∧ Near f.Y l.Y := by
  match pts, hf, h with
  | [], _, h =>
    unfold NewLinearRing NewRingFromLine at h
    simp [copyLoop, LineVerify, Slice.nil] at h
  | [a], _, h =>
    unfold NewLinearRing NewRingFromLine at h
    simp [copyLoop, LineVerify, Slice.nil, Mem.append] at h
  | a :: c :: rest, hf, h =>
    obtain ⟨mid, b, hb⟩ : ∃ mid b, c :: rest = mid ++ [b] := by
      refine ⟨(c :: rest).dropLast, (c :: rest).getLast (by simp), (List.dropLast_append_getLast _).symm⟩
    rw [hb] at h hf
    obtain ⟨m'', r'', e, -, hr⟩ := C28_newLinearRing grow Point.Equal m a b mid
    have e' : NewLinearRing grow Point.Equal m (a :: (mid ++ [b])) = _ := e
    rw [h] at e'
    cases e'
    rw [hr]
    cases hab : a.Equal b
    · refine ⟨a, a, rfl, by rw [if_neg (by simp), List.getLast?_concat], ?_⟩
      have := C26_point_refl hp a (hf a (by simp))
      unfold Point.Equal at this
      exact Bool.and_eq_true_iff.1 this
    · refine ⟨a, b, rfl, by rw [if_pos rfl, List.append_nil, List.getLast?_concat], ?_⟩
      unfold Point.Equal at hab
      exact Bool.and_eq_true_iff.1 hab

end

/-! ## C29 -/

/-- **C29 (cut).** For a position inside the line the two parts share exactly that point and concatenate
to the line. -/
theorem C29_split (m : Mem α) (line : Slice) (h : m.Valid line) (i : Nat) (hi : i < (m.read line).length) :
    ∃ l₁ l₂, SplitByIndex line i = .ok (l₁, l₂) ∧ m.read l₁ = (m.read line).take (i + 1) ∧
      m.read l₂ = (m.read line).drop i ∧ (m.read l₁).dropLast ++ m.read l₂ = m.read line ∧
      (m.read l₁).getLast? = (m.read line)[i]? ∧ (m.read l₂).head? = (m.read line)[i]? := by
  have hl := h.length
  have hc := h.len
  rw [hl] at hi
  obtain ⟨hd, e1, q1, v1, r1⟩ := Mem.sub_spec h 0 (i + 1) (Nat.zero_le _) (by omega)
  obtain ⟨tl, e2, q2, v2, r2⟩ := Mem.sub_spec h i line.len (by omega) hc
  have hhd : m.read hd = (m.read line).take (i + 1) := by rw [r1 (by omega)]; simp
  have htl : m.read tl = (m.read line).drop i := by
    rw [r2 (Nat.le_refl _), List.take_of_length_le (l := m.read line) (i := line.len) (by omega)]
  refine ⟨hd, tl, ?_, hhd, htl, ?_, ?_, ?_⟩
  · unfold SplitByIndex
    have e1' : Mem.sub line 0 ((i : Int) + 1) = .ok hd := by rw [← e1]; norm_cast
    have e2' : Mem.sub line (i : Int) (line.len : Int) = .ok tl := e2
    simp only [e1', e2', bind_ok']; rfl
  · rw [hhd, htl, List.take_succ_eq_append_getElem (by omega), List.dropLast_concat, List.take_append_drop]
  · rw [hhd, List.take_succ_eq_append_getElem (by omega), List.getLast?_concat, List.getElem?_eq_getElem]
  · rw [htl, List.head?_drop]

end

/-- **C29 (lengths).** Over exact arithmetic the lengths of the two parts add up to the length of the line. -/
theorem C29_lengths (m : Mem (Point (XR ℝ))) (line : Slice) (h : m.Valid line) (i : Nat)
    (hi : i < (m.read line).length) :
    ∃ l₁ l₂, SplitByIndex line i = .ok (l₁, l₂) ∧
      LineLength (m.read l₁) + LineLength (m.read l₂) = LineLength (m.read line) := by
  obtain ⟨l₁, l₂, e, h1, h2, h3, -⟩ := C29_split m line h i hi
  refine ⟨l₁, l₂, e, ?_⟩
  have hs : m.read line = (m.read line).take i ++ (m.read line)[i] :: (m.read line).drop (i + 1) := by
    rw [List.cons_getElem_drop_succ, List.take_append_drop]
  rw [h1, h2, List.take_succ_eq_append_getElem hi]
  conv => rhs; rw [hs]
  conv => rhs; unfold LineLength
  rw [lengthLoop_split, lengthLoop_acc, ← List.cons_getElem_drop_succ (h := hi)]
  rfl

example : (SplitByIndex demoLine 1).map (fun r => (demoMem.read r.1, demoMem.read r.2)) = .ok ([1, 2], [2, 3]) := by decide

/-! ## C93: the accessors -/

/-- the variable at an address (array, index) -/
def Mem.load {α : Type} [Inhabited α] (m : Mem α) (a : Nat × Nat) : Option α := (m.arr a.1)[a.2]?

/-- writing the variable at an address -/
def Mem.store {α : Type} [Inhabited α] (m : Mem α) (a : Nat × Nat) (v : α) : Mem α :=
  ⟨m.arrs.modify a.1 fun arr => arr.set a.2 v⟩

section
variable {α : Type} [Inhabited α]

theorem Mem.load_read {m : Mem α} {line : Slice} (i : Nat) (hi : i < line.len) :
    m.load (line.arr, line.off + i) = (m.read line)[i]? := by
  unfold Mem.load Mem.read
  simp [hi]

/-- **C93 (GetPoint).** Position `i` of the line gives a pointer to point `i`; a position at or past the end gives nil. -/
theorem C93_getPoint (m : Mem α) (line : Slice) (h : m.Valid line) (i : Nat) :
    (i < (m.read line).length → ∃ a, GetPoint line i = .ok (some a) ∧ m.load a = (m.read line)[i]?) ∧
    ((m.read line).length ≤ i → GetPoint line i = .ok none) := by
  rw [h.length]
  unfold GetPoint
  constructor
  · intro hi
    refine ⟨(line.arr, line.off + i), ?_, Mem.load_read i hi⟩
    rw [if_neg (by omega), if_neg (by omega), Int.toNat_natCast]
  · intro hi; rw [if_pos (by omega)]

/-- **C93 (negative).** A negative position panics. -/
theorem C93_getPoint_negative (line : Slice) (i : Int) (hi : i < 0) : GetPoint line i = .error .index := by
  unfold GetPoint; rw [if_neg (by omega), if_pos hi]

/-- **C93 (ends).** A line of two or more points gives pointers to its first and its last point; a shorter one gives nil
for both, also when it has one point. -/
theorem C93_ends (m : Mem α) (line : Slice) (h : m.Valid line) :
    (2 ≤ (m.read line).length → ∃ a b, GetFirstPoint line = some a ∧ GetEndPoint line = some b ∧
      m.load a = (m.read line).head? ∧ m.load b = (m.read line).getLast?) ∧
    ((m.read line).length < 2 → GetFirstPoint line = none ∧ GetEndPoint line = none) := by
  rw [h.length]
  unfold GetFirstPoint GetEndPoint
  constructor
  · intro h2
    refine ⟨_, _, if_neg (by omega), if_neg (by omega), ?_, ?_⟩
    · rw [← Nat.add_zero line.off, Mem.load_read 0 (by omega), List.head?_eq_getElem?]
    · rw [Mem.load_read _ (by omega), List.getLast?_eq_getElem?, h.length]
  · intro h2; exact ⟨if_pos h2, if_pos h2⟩

/-- **C93 (aliasing).** The pointer is into the line: writing through what `GetPoint(i)` returned replaces point `i` of the line. -/
theorem C93_write (m : Mem α) (line : Slice) (h : m.Valid line) (i : Nat) (hi : i < (m.read line).length) (v : α) :
    ∃ a, GetPoint line i = .ok (some a) ∧ (m.store a v).read line = (m.read line).set i v := by
  have hl := h.length
  refine ⟨(line.arr, line.off + i), ?_, ?_⟩
  · unfold GetPoint
    rw [if_neg (by omega), if_neg (by omega), Int.toNat_natCast]
  · have h0 := h.cap; have h1 := h.len
    by_cases ha : line.arr < m.arrs.length
    · unfold Mem.store Mem.read
      have e : Mem.arr ⟨m.arrs.modify line.arr fun arr => arr.set (line.off + i) v⟩ line.arr = (m.arr line.arr).set (line.off + i) v := by
        unfold Mem.arr
        simp [List.getD, List.getElem?_modify, ha]
      rw [e]
      apply List.ext_getElem?
      intro k
      simp only [List.getElem?_take, List.getElem?_drop, List.getElem?_set, List.length_take, List.length_drop]
      by_cases hk : k < line.len
      · by_cases he : i = k
        · subst he
          have a1 : line.off + i < (m.arr line.arr).length := by omega
          have a2 : i < (m.arr line.arr).length - line.off := by omega
          simp [hk, a1, a2]
        · have : line.off + i ≠ line.off + k := by omega
          simp [he, hk, this]
      · have : i ≠ k := by omega
        simp [hk, this]
    · rw [m.arr_ge _ ha] at h0; simp at h0; omega

end

/-- C93 on the middle three of an array of five. -/
example : demoMem.Valid demoLine ∧ demoMem.read demoLine = [1, 2, 3] ∧ (GetEndPoint demoLine).bind demoMem.load = some 3 ∧
    (GetPoint demoLine 1).map (fun a => a.bind demoMem.load) = .ok (some 2) ∧ GetPoint demoLine 3 = .ok none := by
  refine ⟨⟨by decide, by decide⟩, by decide, by decide, by decide, by decide⟩

/-! ## C30 -/

/-- **C30 is false**: with the package's map as declared (nil), `SetSrid` always panics. -/
theorem C30_setSrid_panics_false (next : Nat) (srid : UInt64) : SetSrid none next srid = .error .nilMap := rfl

/-- **C30 is false** even if the caller creates the map: the value stays zero under every address that
existed before the call, in particular that of the caller's geometry; only the address `next` of the method's own
copy, which nobody else has, gets the srid. -/
theorem C30_setSrid_unobservable_false (es : List (Nat × UInt64)) (next : Nat) (srid : UInt64) :
    ∃ sm', SetSrid (some es) next srid = .ok (sm', next + 1) ∧ sridOf sm' next = srid ∧
      ∀ key, key < next → sridOf sm' key = sridOf (some es) key := by
  refine ⟨_, rfl, by simp [sridOf], fun key hk => ?_⟩
  unfold sridOf
  simp only [List.lookup_cons]
  rw [show (key == next) = false from beq_false_of_ne (by omega)]

end GoGeo
