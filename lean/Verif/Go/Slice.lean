import Verif.Go.Panic
import Verif.Rtree.Heap
import Mathlib.Data.List.Basic
import Mathlib.Tactic.SplitIfs

/-!
# Slices over shared backing arrays

`Slice` (from the R-tree heap) is a slice header; `Mem α` is the list of all backing arrays with
elements of type `α`.  Go's growth policy for `append` is left open (`grow`).
-/

namespace GoGeo

/-- all backing arrays with elements of type `α` -/
structure Mem (α : Type) where
  arrs : List (List α)
deriving DecidableEq, Repr

/-- the nil slice -/
def Slice.nil : Slice := ⟨0, 0, 0, 0⟩

namespace Mem
variable {α : Type}

def arr (m : Mem α) (a : Nat) : List α := m.arrs.getD a []

/-- the elements of a slice -/
def read (m : Mem α) (s : Slice) : List α := ((m.arr s.arr).drop s.off).take s.len

/-- the slice lies inside its array -/
structure Valid (m : Mem α) (s : Slice) : Prop where
  len : s.len ≤ s.cap
  cap : s.off + s.cap ≤ (m.arr s.arr).length

/-- overwrite the array of a slice from `pos` (relative to the slice) with `xs` -/
def poke (m : Mem α) (s : Slice) (pos : Nat) (xs : List α) : Mem α :=
  ⟨m.arrs.modify s.arr fun a => a.take (s.off + pos) ++ xs ++ a.drop (s.off + pos + xs.length)⟩

/-- `append(s, xs...)`: in place when the capacity suffices, otherwise into a new array with
`grow oldcap newlen` spare zero elements -/
def append [Inhabited α] (grow : Nat → Nat → Nat) (m : Mem α) (s : Slice) (xs : List α) : Mem α × Slice :=
  if s.len + xs.length ≤ s.cap then (m.poke s s.len xs, { s with len := s.len + xs.length })
  else (⟨m.arrs ++ [m.read s ++ xs ++ List.replicate (grow s.cap (s.len + xs.length)) default]⟩,
    ⟨m.arrs.length, 0, s.len + xs.length, s.len + xs.length + grow s.cap (s.len + xs.length)⟩)

/-- `s[i] = x` -/
def set (m : Mem α) (s : Slice) (i : Int) (x : α) : Go (Mem α) :=
  if 0 ≤ i ∧ i < s.len then .ok (m.poke s i.toNat [x]) else .error .index

/-- `s[i]` -/
def get (m : Mem α) (s : Slice) (i : Int) : Go α :=
  if i < 0 then .error .index
  else match (m.read s)[i.toNat]? with
    | none => .error .index
    | some x => .ok x

/-- `s[i:j]` -/
def sub (s : Slice) (i j : Int) : Go Slice :=
  if 0 ≤ i ∧ i ≤ j ∧ j ≤ s.cap then .ok ⟨s.arr, s.off + i.toNat, (j - i).toNat, s.cap - i.toNat⟩ else .error .slice

/-! ### lemmas -/

theorem arr_ge (m : Mem α) (a : Nat) (h : ¬ a < m.arrs.length) : m.arr a = [] := by
  unfold arr
  rw [List.getD, List.getElem?_eq_none (by omega)]
  rfl

theorem read_getElem? (m : Mem α) (s : Slice) (i : Nat) :
    (m.read s)[i]? = if i < s.len then (m.arr s.arr)[s.off + i]? else none := by
  unfold read
  rw [List.getElem?_take]
  split_ifs
  · rw [List.getElem?_drop]
  · rfl

theorem Valid.length {m : Mem α} {s : Slice} (h : m.Valid s) : (m.read s).length = s.len := by
  have := h.len; have := h.cap
  unfold read
  rw [List.length_take, List.length_drop]; omega

theorem Valid.lt {m : Mem α} {s : Slice} (h : m.Valid s) (hc : 0 < s.cap) : s.arr < m.arrs.length := by
  by_contra hn
  have := h.cap
  have h0 := m.arr_ge _ hn
  rw [h0] at this
  simp at this; omega

theorem arr_poke (m : Mem α) (s : Slice) (pos : Nat) (xs : List α) (hl : s.arr < m.arrs.length) (b : Nat) :
    (m.poke s pos xs).arr b = if b = s.arr then
      (m.arr s.arr).take (s.off + pos) ++ xs ++ (m.arr s.arr).drop (s.off + pos + xs.length) else m.arr b := by
  unfold poke arr
  simp only [List.getD, List.getElem?_modify]
  by_cases h : b = s.arr
  · subst h
    rw [if_pos rfl]
    simp [List.getElem?_eq_getElem hl]
  · rw [if_neg h]
    simp only [if_neg (Ne.symm h)]
    cases m.arrs[b]? <;> rfl

theorem arr_poke_getElem? (m : Mem α) (s : Slice) (pos : Nat) (xs : List α) (hl : s.arr < m.arrs.length)
    (hb : s.off + pos + xs.length ≤ (m.arr s.arr).length) (b i : Nat) :
    ((m.poke s pos xs).arr b)[i]? =
      if b = s.arr ∧ s.off + pos ≤ i ∧ i < s.off + pos + xs.length then xs[i - (s.off + pos)]? else (m.arr b)[i]? := by
  rw [arr_poke m s pos xs hl]
  by_cases h : b = s.arr
  · subst h
    rw [if_pos rfl]
    have lt : ((m.arr s.arr).take (s.off + pos)).length = s.off + pos := by rw [List.length_take]; omega
    rw [List.getElem?_append, List.getElem?_append, List.length_append, lt]
    by_cases h1 : i < s.off + pos
    · rw [if_pos (by omega), if_pos h1, if_neg (by omega), List.getElem?_take, if_pos h1]
    · by_cases h2 : i < s.off + pos + xs.length
      · rw [if_pos h2, if_neg h1, if_pos ⟨rfl, by omega, h2⟩]
      · rw [if_neg h2, if_neg (by omega), List.getElem?_drop]
        congr 1; omega
  · rw [if_neg h, if_neg (fun e => h e.1)]

theorem length_poke (m : Mem α) (s : Slice) (pos : Nat) (xs : List α) (hl : s.arr < m.arrs.length)
    (hb : s.off + pos + xs.length ≤ (m.arr s.arr).length) (b : Nat) :
    ((m.poke s pos xs).arr b).length = (m.arr b).length := by
  rw [arr_poke m s pos xs hl]
  by_cases h : b = s.arr
  · subst h
    rw [if_pos rfl, List.length_append, List.length_append, List.length_take, List.length_drop]; omega
  · rw [if_neg h]

theorem Valid.poke {m : Mem α} {s t : Slice} (ht : m.Valid t) (pos : Nat) (xs : List α) (hl : s.arr < m.arrs.length)
    (hb : s.off + pos + xs.length ≤ (m.arr s.arr).length) : (m.poke s pos xs).Valid t :=
  ⟨ht.len, by rw [length_poke m s pos xs hl hb]; exact ht.cap⟩

/-- another slice that does not meet the written part is unchanged -/
theorem read_poke_other (m : Mem α) (s t : Slice) (pos : Nat) (xs : List α) (hl : s.arr < m.arrs.length)
    (hb : s.off + pos + xs.length ≤ (m.arr s.arr).length)
    (hd : t.arr ≠ s.arr ∨ t.off + t.len ≤ s.off + pos ∨ s.off + pos + xs.length ≤ t.off) :
    (m.poke s pos xs).read t = m.read t := by
  apply List.ext_getElem?
  intro i
  rw [read_getElem?, read_getElem?]
  split_ifs with hi
  · rw [arr_poke_getElem? m s pos xs hl hb, if_neg]
    rintro ⟨h1, h2, h3⟩
    rcases hd with h | h | h
    · exact h h1
    · omega
    · omega
  · rfl

/-- a slice sharing the array sees the written part -/
theorem read_poke_same (m : Mem α) (s t : Slice) (pos : Nat) (xs : List α) (hl : s.arr < m.arrs.length)
    (hb : s.off + pos + xs.length ≤ (m.arr s.arr).length) (hv : m.Valid t) (ht : t.arr = s.arr)
    (q : Nat) (hq : t.off + q = s.off + pos) (hq2 : q + xs.length ≤ t.len) :
    (m.poke s pos xs).read t = (m.read t).take q ++ xs ++ (m.read t).drop (q + xs.length) := by
  have hlen := hv.length
  apply List.ext_getElem?
  intro i
  have l1 : ((m.read t).take q).length = q := by rw [List.length_take]; omega
  rw [read_getElem? _ t i, arr_poke_getElem? m s pos xs hl hb, List.getElem?_append, List.getElem?_append, List.length_append, l1]
  by_cases h1 : i < q
  · have hn : ¬ (t.arr = s.arr ∧ s.off + pos ≤ t.off + i ∧ t.off + i < s.off + pos + xs.length) := by omega
    rw [if_neg hn, if_pos (show i < q + xs.length by omega), if_pos h1, if_pos (show i < t.len by omega), List.getElem?_take, if_pos h1, read_getElem?, if_pos (by omega)]
  · by_cases h2 : i < q + xs.length
    · rw [if_pos (show i < t.len by omega), if_pos h2, if_neg h1, if_pos ⟨ht, by omega, by omega⟩]
      congr 1; omega
    · have hn : ¬ (t.arr = s.arr ∧ s.off + pos ≤ t.off + i ∧ t.off + i < s.off + pos + xs.length) := by omega
      rw [if_neg h2, if_neg hn, List.getElem?_drop, read_getElem?]
      have : q + xs.length + (i - (q + xs.length)) = i := by omega
      rw [this]

theorem arr_push (m : Mem α) (x : List α) (b : Nat) (hb : b < m.arrs.length) :
    (⟨m.arrs ++ [x]⟩ : Mem α).arr b = m.arr b := by
  unfold arr
  simp only [List.getD]
  rw [List.getElem?_append_left hb]

theorem Valid.push {m : Mem α} {t : Slice} (ht : m.Valid t) (x : List α) : (⟨m.arrs ++ [x]⟩ : Mem α).Valid t := by
  refine ⟨ht.len, ?_⟩
  by_cases hb : t.arr < m.arrs.length
  · rw [arr_push m x _ hb]; exact ht.cap
  · have := ht.cap
    have h0 := m.arr_ge _ hb
    rw [h0] at this
    exact le_trans this (Nat.zero_le _)

theorem read_push {m : Mem α} {t : Slice} (ht : m.Valid t) (x : List α) : (⟨m.arrs ++ [x]⟩ : Mem α).read t = m.read t := by
  by_cases hb : t.arr < m.arrs.length
  · unfold read; rw [arr_push m x _ hb]
  · have := ht.len; have := ht.cap
    have h0 := m.arr_ge _ hb
    rw [h0] at this
    have hl : t.len = 0 := by simp at this; omega
    unfold read; rw [hl]; simp

section
variable [Inhabited α]

theorem append_spec (grow : Nat → Nat → Nat) {m : Mem α} {s : Slice} (hs : m.Valid s) (xs : List α) :
    (m.append grow s xs).1.read (m.append grow s xs).2 = m.read s ++ xs ∧
    (m.append grow s xs).1.Valid (m.append grow s xs).2 ∧
    (∀ t, m.Valid t → (m.append grow s xs).1.Valid t) ∧
    (∀ t, m.Valid t → (t.arr = s.arr → t.off + t.len ≤ s.off + s.len ∨ s.off + s.cap ≤ t.off) →
      (m.append grow s xs).1.read t = m.read t) := by
  have hlen := hs.len
  have hcap := hs.cap
  unfold append
  by_cases hc : s.len + xs.length ≤ s.cap
  · rw [if_pos hc]
    by_cases hx : xs = []
    · subst hx
      have hp : m.poke s s.len [] = m := by
        unfold poke
        simp only [List.append_nil, List.length_nil, Nat.add_zero, List.take_append_drop]
        show (⟨m.arrs.modify s.arr fun a => a⟩ : Mem α) = m
        congr 1
        apply List.ext_getElem?
        intro i
        rw [List.getElem?_modify]
        simp
      rw [hp]
      exact ⟨by simp, hs, fun t ht => ht, fun t _ _ => rfl⟩
    · have hpos : 0 < xs.length := List.length_pos_iff.2 hx
      have hl := hs.lt (by omega)
      have hb : s.off + s.len + xs.length ≤ (m.arr s.arr).length := by omega
      refine ⟨?_, ⟨hc, by show _ ≤ ((m.poke s s.len xs).arr s.arr).length; rw [length_poke m s _ xs hl hb]; exact hcap⟩,
        fun t ht => ht.poke _ _ hl hb, fun t ht hd => ?_⟩
      · apply List.ext_getElem?
        intro i
        rw [read_getElem?, List.getElem?_append, hs.length, arr_poke_getElem? m s _ xs hl hb, read_getElem?]
        show (if i < s.len + xs.length then _ else none) = _
        by_cases h1 : i < s.len
        · rw [if_pos (by omega), if_neg (by dsimp only; omega), if_pos h1, if_pos h1]
        · by_cases h2 : i < s.len + xs.length
          · rw [if_pos h2, if_pos ⟨rfl, by dsimp only; omega, by dsimp only; omega⟩, if_neg h1]
            congr 1; dsimp only; omega
          · rw [if_neg h2, if_neg h1]
            symm; apply List.getElem?_eq_none; omega
      · apply read_poke_other m s t _ xs hl hb
        by_cases h : t.arr = s.arr
        · rcases hd h with h1 | h1
          · right; left; omega
          · right; right; omega
        · exact Or.inl h
  · rw [if_neg hc]
    refine ⟨?_, ⟨by dsimp only; omega, ?_⟩, fun t ht => ht.push _, fun t ht _ => read_push ht _⟩
    · unfold read arr
      simp only [List.getD, List.getElem?_concat_length, Option.getD_some, List.drop_zero]
      have : (m.read s ++ xs).length = s.len + xs.length := by rw [List.length_append, hs.length]
      show List.take (s.len + xs.length) (m.read s ++ xs ++ _) = m.read s ++ xs
      rw [← this, List.take_left']
      rfl
    · show 0 + (s.len + xs.length + grow s.cap (s.len + xs.length)) ≤ _
      unfold arr
      simp [List.getD, hs.length]; omega

/-- an append that exceeds the capacity goes to an array that did not exist before -/
theorem append_fresh (grow : Nat → Nat → Nat) (m : Mem α) (s : Slice) (xs : List α) (h : s.cap < s.len + xs.length) :
    (m.append grow s xs).2.arr = m.arrs.length := by
  unfold append; rw [if_neg (by omega)]

theorem append_arrs (grow : Nat → Nat → Nat) (m : Mem α) (s : Slice) (xs : List α) :
    m.arrs.length ≤ (m.append grow s xs).1.arrs.length ∧
    ((m.append grow s xs).2.arr = s.arr ∨ m.arrs.length ≤ (m.append grow s xs).2.arr) := by
  unfold append
  split_ifs
  · exact ⟨by simp [poke], Or.inl rfl⟩
  · exact ⟨by simp, Or.inr (Nat.le_refl _)⟩

end

theorem set_spec {m : Mem α} {s : Slice} (hs : m.Valid s) (i : Nat) (hi : i < s.len) (x : α) :
    ∃ m', m.set s i x = .ok m' ∧ m'.read s = (m.read s).set i x ∧ m'.arrs.length = m.arrs.length ∧
      (∀ t, m.Valid t → m'.Valid t) ∧
      (∀ t, (t.arr ≠ s.arr ∨ t.off + t.len ≤ s.off + i ∨ s.off + i < t.off) → m'.read t = m.read t) ∧
      (∀ t j, m.Valid t → t.arr = s.arr → t.off + j = s.off + i → j < t.len → m'.read t = (m.read t).set j x) := by
  have h1 := hs.len; have h2 := hs.cap
  have hl := hs.lt (by omega)
  have hb : s.off + i + [x].length ≤ (m.arr s.arr).length := by simp; omega
  refine ⟨m.poke s i [x], ?_, ?_, ?_, fun t ht => ht.poke _ _ hl hb, fun t hd => ?_, fun t j ht ha hj hjl => ?_⟩
  · unfold set
    rw [if_pos ⟨by omega, by omega⟩]; rfl
  · rw [read_poke_same m s s i [x] hl hb hs rfl i rfl (by simp; omega), List.set_eq_take_append_cons_drop,
      if_pos (by rw [hs.length]; exact hi)]
    simp
  · simp [poke]
  · exact read_poke_other m s t i [x] hl hb (by simpa [Nat.succ_le_iff] using hd)
  · rw [read_poke_same m s t i [x] hl hb ht ha j hj (by simp; omega), List.set_eq_take_append_cons_drop,
      if_pos (by rw [ht.length]; exact hjl)]
    simp

theorem set_error (m : Mem α) (s : Slice) (i : Int) (h : i < 0 ∨ (s.len : Int) ≤ i) (x : α) : m.set s i x = .error .index := by
  unfold set; rw [if_neg (by omega)]

theorem sub_spec {m : Mem α} {s : Slice} (hs : m.Valid s) (i j : Nat) (hij : i ≤ j) (hj : j ≤ s.cap) :
    ∃ t, sub s i j = .ok t ∧ t = ⟨s.arr, s.off + i, j - i, s.cap - i⟩ ∧ m.Valid t ∧
      (j ≤ s.len → m.read t = ((m.read s).take j).drop i) := by
  have h1 := hs.len; have h2 := hs.cap
  refine ⟨⟨s.arr, s.off + i, j - i, s.cap - i⟩, ?_, rfl, ⟨by dsimp only; omega, by dsimp only; omega⟩, fun hjl => ?_⟩
  · unfold sub
    rw [if_pos ⟨by omega, by omega, by omega⟩]
    simp
  · apply List.ext_getElem?
    intro k
    rw [read_getElem?, List.getElem?_drop, List.getElem?_take, read_getElem?]
    by_cases h : i + k < j
    · rw [if_pos h, if_pos (show k < j - i by omega), if_pos (show i + k < s.len by omega)]
      congr 1; dsimp only; omega
    · rw [if_neg h, if_neg (by dsimp only; omega)]

end Mem
end GoGeo
