import Mathlib.Data.List.Basic

/-!
# Package strings, on lists of characters

Simplification: a Go string is a list of characters; strings that are not valid UTF-8 are not modelled.
-/

namespace GoGeo.Str

/-- `strings.TrimLeft` for a cutset -/
def trimLeft (p : Char → Bool) (s : List Char) : List Char := s.dropWhile p

/-- `strings.TrimRight` for a cutset -/
def trimRight (p : Char → Bool) (s : List Char) : List Char := (s.reverse.dropWhile p).reverse

/-- `strings.Trim` for a cutset -/
def trim (p : Char → Bool) (s : List Char) : List Char := trimRight p (trimLeft p s)

/-- `strings.Split` for a separator of one character -/
def split (sep : Char) : List Char → List (List Char)
  | [] => [[]]
  | c :: s =>
    if c = sep then [] :: split sep s
    else match split sep s with
      | [] => [[c]]
      | w :: ws => (c :: w) :: ws

/-- `strings.Join` for a separator of one character -/
def join (sep : Char) : List (List Char) → List Char
  | [] => []
  | [w] => w
  | w :: ws => w ++ sep :: join sep ws

/-- `strings.Replace(s, ", ", ",", -1)` -/
def unspace : List Char → List Char
  | ',' :: ' ' :: s => ',' :: unspace s
  | c :: s => c :: unspace s
  | [] => []

theorem split_ne_nil (sep : Char) (s : List Char) : split sep s ≠ [] := by
  cases s with
  | nil => simp [split]
  | cons c s =>
    unfold split
    split_ifs
    · simp
    · split <;> simp

theorem split_word (sep : Char) (w : List Char) (h : sep ∉ w) : split sep w = [w] := by
  induction w with
  | nil => rfl
  | cons c w ih =>
    rw [List.mem_cons, not_or] at h
    unfold split
    rw [if_neg (Ne.symm h.1), ih h.2]

theorem split_append (sep : Char) (w s : List Char) (h : sep ∉ w) : split sep (w ++ sep :: s) = w :: split sep s := by
  induction w with
  | nil => simp [split]
  | cons c w ih =>
    rw [List.mem_cons, not_or] at h
    rw [List.cons_append]
    rw [split, if_neg (Ne.symm h.1), ih h.2]

/-- splitting undoes joining words without the separator -/
theorem split_join (sep : Char) : ∀ ws : List (List Char), ws ≠ [] → (∀ w ∈ ws, sep ∉ w) → split sep (join sep ws) = ws
  | [], h, _ => absurd rfl h
  | [w], _, h => split_word sep w (h w (by simp))
  | w :: v :: ws, _, h => by
    show split sep (w ++ sep :: join sep (v :: ws)) = _
    rw [split_append sep w _ (h w (by simp)), split_join sep (v :: ws) (by simp) (fun x hx => h x (by simp [hx]))]

theorem mem_join {sep c : Char} : ∀ {ws : List (List Char)}, c ∈ join sep ws → c = sep ∨ ∃ w ∈ ws, c ∈ w
  | [], h => by simp [join] at h
  | [w], h => Or.inr ⟨w, by simp, h⟩
  | w :: v :: ws, h => by
    have h' : c ∈ w ++ sep :: join sep (v :: ws) := h
    rw [List.mem_append, List.mem_cons] at h'
    rcases h' with h | h | h
    · exact Or.inr ⟨w, by simp, h⟩
    · exact Or.inl h
    · rcases mem_join h with h | ⟨x, hx, hc⟩
      · exact Or.inl h
      · exact Or.inr ⟨x, by simp at hx ⊢; exact Or.inr hx, hc⟩

theorem trimLeft_id (p : Char → Bool) (s : List Char) (h : ∀ c, s.head? = some c → p c = false) : trimLeft p s = s := by
  unfold trimLeft
  cases s with
  | nil => rfl
  | cons c s => rw [List.dropWhile_cons, if_neg (by rw [h c rfl]; simp)]

theorem trimRight_id (p : Char → Bool) (s : List Char) (h : ∀ c, s.getLast? = some c → p c = false) : trimRight p s = s := by
  have := trimLeft_id p s.reverse (by rw [List.head?_reverse]; exact h)
  unfold trimLeft at this
  unfold trimRight
  rw [this, List.reverse_reverse]

theorem trim_id (p : Char → Bool) (s : List Char) (h : ∀ c ∈ s, p c = false) : trim p s = s := by
  unfold trim
  rw [trimLeft_id p s fun c hc => h c (List.mem_of_head? hc), trimRight_id p s fun c hc => h c (List.mem_of_getLast? hc)]

/-- `unspace` leaves alone a string in which no space follows a comma -/
theorem unspace_id : ∀ s : List Char, (∀ u v, s ≠ u ++ ',' :: ' ' :: v) → unspace s = s
  | [], _ => rfl
  | [c], _ => by unfold unspace; split <;> simp_all [unspace]
  | a :: b :: s, h => by
    have ih := unspace_id (b :: s) (fun u v e => h (a :: u) v (by rw [e]; rfl))
    unfold unspace
    split
    · rename_i s' e
      cases e
      exact absurd rfl (h [] s)
    · rename_i c s' _ e
      cases e
      rw [ih]
    · rename_i e; cases e

end GoGeo.Str
