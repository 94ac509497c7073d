import Verif.Geo.Line
import Verif.Spec.Line
import Verif.Go.Val

set_option linter.unusedSectionVars false

namespace GoGeo
open GoFloat Spec

theorem bind_ok' {α β : Type} (a : α) (f : α → Go β) : (Except.ok a >>= f) = f a := rfl

section
variable {α : Type} [Inhabited α] (grow : Nat → Nat → Nat)

theorem insert_list (l : List α) (i : Nat) (hi : i < l.length) (x : α) :
    (l.take (i + 1) ++ l.drop i).set i x = insertAt l i x := by
  unfold insertAt
  rw [List.set_append_left _ _ (by rw [List.length_take]; omega), List.take_succ_eq_append_getElem hi,
    List.set_append_right _ _ (by rw [List.length_take]; omega)]
  have : i - (List.take i l).length = 0 := by rw [List.length_take]; omega
  rw [this]
  simp

theorem put_list (l : List α) (i : Nat) (hi : i < l.length) (x : α) : l.set i x = putAt l i x := by
  rw [List.set_eq_take_append_cons_drop, if_pos hi]; rfl

theorem put_end (l : List α) (x : α) : putAt l l.length x = l ++ [x] := by
  unfold putAt; simp

theorem copyLoop_spec (vs : List α) : ∀ (m : Mem α) (s : Slice), m.Valid s →
    ∃ m' s', copyLoop grow m s vs = (m', s') ∧ m'.Valid s' ∧ m'.read s' = m.read s ++ vs ∧ m.arrs.length ≤ m'.arrs.length ∧
      (∀ t, m.Valid t → m'.Valid t) ∧ (s'.arr = s.arr ∨ m.arrs.length ≤ s'.arr) ∧
      (∀ t, m.Valid t → (t.arr = s.arr → t.off + t.len ≤ s.off + s.len ∨ s.off + s.cap ≤ t.off) → m'.read t = m.read t) := by
  induction vs with
  | nil => intro m s hs; exact ⟨m, s, rfl, hs, by simp, Nat.le_refl _, fun t ht => ht, Or.inl rfl, fun t _ _ => rfl⟩
  | cons v vs ih =>
    intro m s hs
    obtain ⟨h1, h2, h3, h4⟩ := Mem.append_spec grow hs [v]
    obtain ⟨h5, h6⟩ := Mem.append_arrs grow m s [v]
    obtain ⟨m', s', e, hv, hr, hl, hk, ha, hf⟩ := ih _ _ h2
    refine ⟨m', s', e, hv, by rw [hr, h1]; simp, by omega, fun t ht => hk t (h3 t ht), ?_, fun t ht hd => ?_⟩
    · rcases ha with h | h
      · rw [h]; exact h6
      · exact Or.inr (by omega)
    · rw [hf t (h3 t ht), h4 t ht hd]
      intro h
      unfold Mem.append at h ⊢
      by_cases hc : s.len + [v].length ≤ s.cap
      · rw [if_pos hc] at h ⊢
        rcases hd h with h | h
        · left; show _ ≤ s.off + (s.len + [v].length); omega
        · exact Or.inr h
      · rw [if_neg hc] at h ⊢
        left
        have hb : ¬ t.arr < m.arrs.length := by show ¬ _; rw [h]; exact Nat.lt_irrefl _
        have := ht.len
        have h0 := ht.cap
        rw [m.arr_ge _ hb] at h0
        simp at h0
        show _ ≤ 0 + (s.len + 1)
        omega

theorem nil_valid (m : Mem α) : m.Valid Slice.nil := ⟨Nat.le_refl _, Nat.zero_le _⟩

theorem copyLoop_fresh (m : Mem α) (v : α) (vs : List α) :
    m.arrs.length ≤ (copyLoop grow m Slice.nil (v :: vs)).2.arr := by
  have hs := nil_valid m
  have hf := Mem.append_fresh grow m Slice.nil [v] (by simp [Slice.nil])
  obtain ⟨h1, h2, h3, h4⟩ := Mem.append_spec grow hs [v]
  have h5 := (Mem.append_arrs grow m Slice.nil [v]).1
  obtain ⟨m', s', e, -, -, -, -, ha, -⟩ := copyLoop_spec grow vs _ _ h2
  show m.arrs.length ≤ (copyLoop grow _ _ vs).2.arr
  rw [e]
  rcases ha with h | h
  · show _ ≤ s'.arr; rw [h, hf]
  · exact h5.trans h

theorem get_ok {m : Mem α} {s : Slice} (i : Nat) (x : α) (h : (m.read s)[i]? = some x) : m.get s i = .ok x := by
  unfold Mem.get
  rw [if_neg (by omega)]
  simp only [Int.toNat_natCast, h]

theorem get_error {m : Mem α} {s : Slice} (i : Int) (h : (m.read s).length ≤ i) : m.get s i = .error .index := by
  unfold Mem.get
  by_cases h0 : i < 0
  · rw [if_pos h0]
  · rw [if_neg h0, List.getElem?_eq_none (by omega)]

theorem reverseLoop_spec {line : Slice} (l : List α) (hl : l.length = line.len) : ∀ (n i : Nat) (m : Mem α),
    m.Valid line → i + n = line.len / 2 →
    (∀ k, k < line.len → (m.read line)[k]? = if k < i ∨ line.len - i ≤ k then l[line.len - 1 - k]? else l[k]?) →
    ∃ m', reverseLoop line n i m = .ok m' ∧ m'.read line = l.reverse ∧ m'.arrs.length = m.arrs.length ∧
      (∀ t, m.Valid t → m'.Valid t) ∧ (∀ t, t.arr ≠ line.arr → m'.read t = m.read t) := by
  intro n
  induction n with
  | zero =>
    intro i m hv hi h
    refine ⟨m, rfl, ?_, rfl, fun t ht => ht, fun t _ => rfl⟩
    apply List.ext_getElem?
    intro k
    by_cases hk : k < line.len
    · rw [h k hk, List.getElem?_reverse (by omega), hl]
      split_ifs with hc
      · rfl
      · have : k = line.len - 1 - k := by omega
        rw [← this]
    · rw [List.getElem?_eq_none (by rw [hv.length]; omega), List.getElem?_eq_none (by rw [List.length_reverse]; omega)]
  | succ n ih =>
    intro i m hv hi h
    have hi1 : i < line.len := by omega
    have hi2 : line.len - 1 - i < line.len := by omega
    have hne : line.len - 1 - i ≠ i := by omega
    have e1 := h i hi1
    have e2 := h (line.len - 1 - i) hi2
    have n1 : ¬ (i < i ∨ line.len - i ≤ i) := by omega
    have n2 : ¬ (line.len - 1 - i < i ∨ line.len - i ≤ line.len - 1 - i) := by omega
    rw [if_neg n1, List.getElem?_eq_getElem (show i < l.length by omega)] at e1
    rw [if_neg n2, List.getElem?_eq_getElem (show line.len - 1 - i < l.length by omega)] at e2
    have hc : (line.len : Int) - 1 - i = ((line.len - 1 - i : Nat) : Int) := by omega
    obtain ⟨m1, s1, r1, l1, v1, f1, -⟩ := Mem.set_spec hv i hi1 (l[line.len - 1 - i])
    obtain ⟨m2, s2, r2, l2, v2, f2, -⟩ := Mem.set_spec (v1 _ hv) (line.len - 1 - i) hi2 (l[i])
    have hstep : reverseLoop line (n + 1) i m = reverseLoop line n (i + 1) m2 := by
      conv => lhs; unfold reverseLoop
      rw [hc, get_ok _ _ e2, get_ok _ _ e1]
      simp only [bind_ok']
      rw [s1]; simp only [bind_ok']
      rw [s2]; rfl
    obtain ⟨m', e, hr, hl', hk, hf⟩ := ih (i + 1) m2 (v2 _ (v1 _ hv)) (by omega) (by
      intro k hk
      rw [r2, r1, List.getElem?_set, List.getElem?_set]
      have hlen := hv.length
      simp only [List.length_set, hlen, if_pos hi1, if_pos hi2]
      by_cases ha : line.len - 1 - i = k
      · rw [if_pos ha, if_pos (by omega), ← ha]
        have : line.len - 1 - (line.len - 1 - i) = i := by omega
        rw [this, List.getElem?_eq_getElem (by omega)]
      · rw [if_neg ha]
        by_cases hb : i = k
        · subst hb
          rw [if_pos rfl, if_pos (by omega), List.getElem?_eq_getElem (by omega)]
        · rw [if_neg hb, h k hk]
          by_cases hd : k < i ∨ line.len - i ≤ k
          · rw [if_pos hd, if_pos (by omega)]
          · rw [if_neg hd, if_neg (by omega)])
    refine ⟨m', by rw [hstep, e], hr, by omega, fun t ht => hk t (v2 t (v1 t ht)), fun t ht => ?_⟩
    rw [hf t ht, f2 t (Or.inl ht), f1 t (Or.inl ht)]

end

end GoGeo
