import Verif.Go.JsonTextOk

/-! # The reader of JSON text: numbers, values and documents -/

namespace GoGeo.JsonText
open Rfc8259

/-! ### numbers -/

theorem mem_takeWhile {p : Char → Bool} : ∀ {s : List Char} {c : Char}, c ∈ s.takeWhile p → p c = true
  | [], c, h => by simp at h
  | d :: s, c, h => by
    rw [List.takeWhile_cons] at h
    split at h
    · rename_i hd
      rcases List.mem_cons.1 h with rfl | h
      · exact hd
      · exact mem_takeWhile h
    · simp at h

theorem dropWhile_digits {ds r : List Char} (h : ∀ c ∈ ds, c.isDigit = true) (hr : ∀ c, r.head? = some c → c.isDigit = false) :
    (ds ++ r).dropWhile Char.isDigit = r := by
  rw [List.dropWhile_append_of_pos h]
  cases r with
  | nil => rfl
  | cons c r => rw [List.dropWhile_cons, if_neg (by rw [hr c rfl]; decide)]

/-- an exponent, or nothing -/
def Exp (ep : List Char) : Prop :=
  ep = [] ∨ ∃ e sg ds, ep = e :: (sg ++ ds) ∧ (e = 'e' ∨ e = 'E') ∧ (sg = [] ∨ sg = ['+'] ∨ sg = ['-']) ∧ Digits ds
/-- a fraction, or nothing -/
def Frac (fp : List Char) : Prop := fp = [] ∨ ∃ ds, fp = '.' :: ds ∧ Digits ds

theorem not_digit_of {c d : Char} (h : c = d) (hd : d.isDigit = false) : c.isDigit = false := h ▸ hd

theorem exp_head {ep : List Char} (h : Exp ep) : ∀ c, ep.head? = some c → c.isDigit = false := by
  rcases h with rfl | ⟨e, sg, ds, rfl, he, -, -⟩
  · simp
  · intro c hc
    injection hc with hc
    subst hc
    rcases he with rfl | rfl <;> rfl

theorem signless (t : List Char) : ∃ sg, (sg = [] ∨ sg = ['+'] ∨ sg = ['-']) ∧ t = sg ++ unsignExp t := by
  unfold unsignExp
  split
  · exact ⟨['+'], .inr (.inl rfl), rfl⟩
  · exact ⟨['-'], .inr (.inr rfl), rfl⟩
  · exact ⟨[], .inl rfl, rfl⟩

theorem unsignExp_digits {sg ds : List Char} (hs : sg = [] ∨ sg = ['+'] ∨ sg = ['-']) (h : Digits ds) : unsignExp (sg ++ ds) = ds := by
  rcases hs with rfl | rfl | rfl
  · rw [List.nil_append]
    unfold unsignExp
    split
    · exact absurd (h.2 '+' (by simp)) (by decide)
    · exact absurd (h.2 '-' (by simp)) (by decide)
    · rfl
  · rfl
  · rfl

theorem digits_iff (t : List Char) : (!t.isEmpty && t.all Char.isDigit) = true ↔ Digits t := by
  simp only [Digits, Bool.and_eq_true, Bool.not_eq_true', List.isEmpty_eq_false_iff, List.all_eq_true]

theorem validExp_iff (t : List Char) : validExp t = true ↔ Exp t := by
  cases t with
  | nil => exact iff_of_true rfl (.inl rfl)
  | cons c s =>
    rw [validExp]
    constructor
    · intro h
      split at h
      · rename_i hc
        obtain ⟨sg, h1, h2⟩ := signless s
        exact .inr ⟨c, sg, unsignExp s, by rw [← h2], hc, h1, (digits_iff _).1 h⟩
      · cases h
    · rintro (h | ⟨e, sg, ds, h, he, hs, hd⟩)
      · cases h
      · injection h with h1 h2
        subst h1 h2
        rw [if_pos he, unsignExp_digits hs hd]
        exact (digits_iff _).2 hd

theorem takeDrop_digits (s : List Char) : ∃ ds, (∀ c ∈ ds, c.isDigit = true) ∧ s = ds ++ s.dropWhile Char.isDigit :=
  ⟨s.takeWhile Char.isDigit, fun c hc => mem_takeWhile hc, (List.takeWhile_append_dropWhile).symm⟩

theorem validFrac_iff (t : List Char) : validFrac t = true ↔ ∃ fp ep, t = fp ++ ep ∧ Frac fp ∧ Exp ep := by
  constructor
  · intro h
    unfold validFrac at h
    split at h
    · rename_i d s
      split at h
      · rename_i hd
        obtain ⟨ds, h1, h2⟩ := takeDrop_digits s
        refine ⟨'.' :: d :: ds, s.dropWhile Char.isDigit, ?_, .inr ⟨d :: ds, rfl, by simp, ?_⟩, (validExp_iff _).1 h⟩
        · simp only [List.cons_append]; rw [← h2]
        · intro c hc
          rcases List.mem_cons.1 hc with rfl | hc
          · exact hd
          · exact h1 c hc
      · cases h
    · exact ⟨[], t, rfl, .inl rfl, (validExp_iff _).1 h⟩
  · rintro ⟨fp, ep, rfl, hf, he⟩
    rcases hf with rfl | ⟨ds, rfl, hne, hd⟩
    · rw [List.nil_append]
      unfold validFrac
      split
      · rcases he with he | ⟨e, sg, ds, he, h2, -⟩
        · cases he
        · injection he with he _
          subst he
          exact absurd h2 (by decide)
      · exact (validExp_iff _).2 he
    · cases ds with
      | nil => exact absurd rfl hne
      | cons d ds =>
        show (if d.isDigit = true then validExp ((ds ++ ep).dropWhile Char.isDigit) else false) = true
        rw [if_pos (hd d (by simp)), dropWhile_digits (fun c hc => hd c (by simp [hc])) (exp_head he)]
        exact (validExp_iff _).2 he

theorem frac_head {fp ep : List Char} (hf : Frac fp) (he : Exp ep) : ∀ c, (fp ++ ep).head? = some c → c.isDigit = false := by
  rcases hf with rfl | ⟨ds, rfl, -⟩
  · exact exp_head he
  · intro c hc
    injection hc with hc
    subst hc; rfl

theorem validInt_iff (t : List Char) : validInt t = true ↔
    ∃ ip fp ep, t = ip ++ (fp ++ ep) ∧ (ip = ['0'] ∨ (Digits ip ∧ ip.head? ≠ some '0')) ∧ Frac fp ∧ Exp ep := by
  constructor
  · intro h
    cases t with
    | nil => cases h
    | cons c s =>
      rw [validInt] at h
      split at h
      · rename_i hc
        subst hc
        obtain ⟨fp, ep, h1, h2, h3⟩ := (validFrac_iff _).1 h
        exact ⟨['0'], fp, ep, by rw [h1]; rfl, .inl rfl, h2, h3⟩
      · rename_i hc
        split at h
        · rename_i hd
          obtain ⟨fp, ep, h1, h2, h3⟩ := (validFrac_iff _).1 h
          obtain ⟨ds, h4, h5⟩ := takeDrop_digits s
          refine ⟨c :: ds, fp, ep, ?_, .inr ⟨⟨by simp, ?_⟩, by simpa using hc⟩, h2, h3⟩
          · rw [← h1, List.cons_append, ← h5]
          · intro x hx
            rcases List.mem_cons.1 hx with rfl | hx
            · exact hd
            · exact h4 x hx
        · cases h
  · rintro ⟨ip, fp, ep, rfl, hi, hf, he⟩
    rcases hi with rfl | ⟨⟨hne, hd⟩, hz⟩
    · show validInt ('0' :: (fp ++ ep)) = true
      rw [validInt, if_pos rfl]
      exact (validFrac_iff _).2 ⟨fp, ep, rfl, hf, he⟩
    · cases ip with
      | nil => exact absurd rfl hne
      | cons c ip =>
        rw [List.cons_append, validInt, if_neg (by simpa using hz), if_pos (hd c (by simp)),
          dropWhile_digits (fun x hx => hd x (by simp [hx])) (frac_head hf he)]
        exact (validFrac_iff _).2 ⟨fp, ep, rfl, hf, he⟩

/-- the grammar used by the reader is that of RFC 8259 -/
theorem validNum_iff (t : List Char) : validNum t = true ↔ Number t := by
  constructor
  · intro h
    unfold validNum at h
    split at h
    · rename_i s
      obtain ⟨ip, fp, ep, rfl, h1, h2, h3⟩ := (validInt_iff _).1 h
      exact ⟨['-'], ip, fp, ep, rfl, .inr rfl, h1, h2, h3⟩
    · obtain ⟨ip, fp, ep, rfl, h1, h2, h3⟩ := (validInt_iff _).1 h
      exact ⟨[], ip, fp, ep, rfl, .inl rfl, h1, h2, h3⟩
  · rintro ⟨sg, ip, fp, ep, rfl, hs, h1, h2, h3⟩
    have h := (validInt_iff _).2 ⟨ip, fp, ep, rfl, h1, h2, h3⟩
    rcases hs with rfl | rfl
    · rw [List.nil_append]
      unfold validNum
      split
      · rename_i heq
        rcases h1 with rfl | ⟨⟨hne, hd⟩, -⟩
        · injection heq with heq; exact absurd heq (by decide)
        · cases ip with
          | nil => exact absurd rfl hne
          | cons c ip =>
            injection heq with heq
            subst heq
            exact absurd (hd '-' (by simp)) (by decide)
      · exact h
    · exact h

theorem numChar_digit {c : Char} (h : c.isDigit = true) : numChar c = true := by simp [numChar, h]

theorem exp_chars {ep : List Char} (h : Exp ep) : ∀ c ∈ ep, numChar c = true := by
  rcases h with rfl | ⟨e, sg, ds, rfl, he, hs, -, hd⟩
  · simp
  · intro c hc
    rw [List.mem_cons, List.mem_append] at hc
    rcases hc with rfl | hc | hc
    · rcases he with rfl | rfl <;> rfl
    · rcases hs with rfl | rfl | rfl
      · simp at hc
      · rw [List.mem_singleton] at hc; subst hc; rfl
      · rw [List.mem_singleton] at hc; subst hc; rfl
    · exact numChar_digit (hd c hc)

theorem frac_chars {fp : List Char} (h : Frac fp) : ∀ c ∈ fp, numChar c = true := by
  rcases h with rfl | ⟨ds, rfl, -, hd⟩
  · simp
  · intro c hc
    rcases List.mem_cons.1 hc with rfl | hc
    · rfl
    · exact numChar_digit (hd c hc)

theorem number_chars {t : List Char} (h : Number t) : ∀ c ∈ t, numChar c = true := by
  obtain ⟨sg, ip, fp, ep, rfl, hs, hi, hf, he⟩ := h
  intro c hc
  rw [List.mem_append, List.mem_append, List.mem_append] at hc
  rcases hc with hc | hc | hc | hc
  · rcases hs with rfl | rfl
    · simp at hc
    · rw [List.mem_singleton] at hc; subst hc; rfl
  · rcases hi with rfl | ⟨⟨-, hd⟩, -⟩
    · rw [List.mem_singleton] at hc; subst hc; rfl
    · exact numChar_digit (hd c hc)
  · exact frac_chars hf c hc
  · exact exp_chars he c hc

/-- a number starts with a minus sign or a digit -/
theorem number_head {t : List Char} (h : Number t) : ∃ c s, t = c :: s ∧ (c = '-' ∨ c.isDigit = true) := by
  obtain ⟨sg, ip, fp, ep, rfl, hs, hi, -⟩ := h
  rcases hs with rfl | rfl
  · rcases hi with rfl | ⟨⟨hne, hd⟩, -⟩
    · exact ⟨'0', _, rfl, .inr rfl⟩
    · cases ip with
      | nil => exact absurd rfl hne
      | cons c ip => exact ⟨c, _, rfl, .inr (hd c (by simp))⟩
  · exact ⟨'-', _, rfl, .inl rfl⟩

/-- the text goes on with something that is not part of a number -/
def Stop (r : List Char) : Prop := ∀ c, r.head? = some c → numChar c = false

theorem takeWhile_stop {t r : List Char} (h : ∀ c ∈ t, numChar c = true) (hr : Stop r) :
    (t ++ r).takeWhile numChar = t ∧ (t ++ r).dropWhile numChar = r := by
  constructor
  · rw [List.takeWhile_append_of_pos h]
    cases r with
    | nil => simp
    | cons c r => rw [List.takeWhile_cons, if_neg (by rw [hr c rfl]; decide), List.append_nil]
  · rw [List.dropWhile_append_of_pos h]
    cases r with
    | nil => rfl
    | cons c r => rw [List.dropWhile_cons, if_neg (by rw [hr c rfl]; decide)]

/-! ### white space -/

theorem isSpace_iff (c : Char) : isSpace c = true ↔ c = ' ' ∨ c = '\t' ∨ c = '\n' ∨ c = '\r' := by
  simp only [isSpace, Bool.or_eq_true, beq_iff_eq]
  tauto

theorem skip_ws {w : List Char} (h : Ws w) (s : List Char) : skip (w ++ s) = skip s :=
  List.dropWhile_append_of_pos fun c hc => (isSpace_iff c).2 (h c hc)

theorem skip_cons {c : Char} (h : isSpace c = false) (s : List Char) : skip (c :: s) = c :: s := by
  rw [skip, List.dropWhile_cons, if_neg (by rw [h]; decide)]

theorem skip_split (s : List Char) : ∃ w, Ws w ∧ s = w ++ skip s :=
  ⟨s.takeWhile isSpace, fun c hc => (isSpace_iff c).1 (mem_takeWhile hc), (List.takeWhile_append_dropWhile).symm⟩

theorem skip_nil {w : List Char} (h : Ws w) : skip w = [] := by
  have := skip_ws h []
  rwa [List.append_nil] at this

theorem ws_nil : Ws [] := by simp [Ws]

theorem stop_ws {w r : List Char} (h : Ws w) (hr : Stop r) : Stop (w ++ r) := by
  cases w with
  | nil => exact hr
  | cons c w =>
    intro d hd
    injection hd with hd
    subst hd
    rcases h c (by simp) with rfl | rfl | rfl | rfl <;> rfl

theorem stop_cons {c : Char} (h : numChar c = false) (r : List Char) : Stop (c :: r) := by
  intro d hd
  injection hd with hd
  subst hd; exact h

/-! ### what is read is a text of the grammar -/

section
variable {F : Type} (rd : List Char → Option F)

/-- the reading of numbers as a relation -/
def Reads : F → List Char → Prop := fun x t => rd t = some x

theorem number_sound {s : List Char} {j : Json F} {r : List Char} (h : number rd s = some (j, r)) :
    ∃ t, Text (Reads rd) j t ∧ s = t ++ r ∧ nesting j = 0 := by
  unfold number at h
  split at h
  · rename_i hv
    simp only [Option.map_eq_some_iff, Prod.mk.injEq] at h
    obtain ⟨x, h1, rfl, rfl⟩ := h
    exact ⟨_, by simp only [Text]; exact ⟨(validNum_iff _).1 hv, h1⟩, (List.takeWhile_append_dropWhile).symm, by simp only [nesting]⟩
  · cases h

theorem word_sound {w : List Char} {j0 j : Json F} {s r : List Char} (h : word w j0 s = some (j, r)) : j = j0 ∧ s = w ++ r := by
  unfold word at h
  split at h
  · rename_i hp
    simp only [Option.some.injEq, Prod.mk.injEq] at h
    obtain ⟨rfl, rfl⟩ := h
    refine ⟨rfl, ?_⟩
    obtain ⟨u, rfl⟩ := List.isPrefixOf_iff_prefix.1 hp
    simp
  · cases h

theorem sound (n : ℕ) :
    (∀ dep s j r, value rd n dep s = some (j, r) → ∃ w t, Ws w ∧ Text (Reads rd) j t ∧ s = w ++ (t ++ r) ∧ nesting j ≤ dep) ∧
    (∀ dep s l r, elems rd n dep s = some (l, r) → ∃ j js b, l = j :: js ∧ Elems (Reads rd) l b ∧ s = b ++ ']' :: r ∧ nestingList l ≤ dep) ∧
    (∀ dep s m r, members rd n dep s = some (m, r) → ∃ e ms b, m = e :: ms ∧ Members (Reads rd) m b ∧ s = b ++ '}' :: r ∧ nestingMembers m ≤ dep) := by
  induction n with
  | zero =>
    refine ⟨?_, ?_, ?_⟩
    · intro dep s j r h; rw [value] at h; cases h
    · intro dep s j r h; rw [elems] at h; cases h
    · intro dep s j r h; rw [members] at h; cases h
  | succ n ih =>
    obtain ⟨ihv, ihe, ihm⟩ := ih
    refine ⟨?_, ?_, ?_⟩
    · intro dep s j r h
      obtain ⟨w, hw, hs⟩ := skip_split s
      rw [value] at h
      cases hk : skip s with
      | nil => rw [hk] at h; cases h
      | cons c u =>
        rw [hk] at h hs
        simp only at h
        suffices ∃ t, Text (Reads rd) j t ∧ c :: u = t ++ r ∧ nesting j ≤ dep by
          obtain ⟨t, h1, h2, h3⟩ := this
          exact ⟨w, t, hw, h1, by rw [hs, h2], h3⟩
        by_cases c1 : c = '"'
        · rw [if_pos c1] at h
          subst c1
          simp only [Option.map_eq_some_iff, Prod.mk.injEq, Prod.exists] at h
          obtain ⟨k, r', h1, rfl, rfl⟩ := h
          obtain ⟨b, h2, rfl⟩ := (str_iff _ _ _).1 h1
          refine ⟨'"' :: (b ++ ['"']), ?_, by simp, by simp [nesting]⟩
          simp only [Text]
          exact ⟨b, h2, rfl⟩
        rw [if_neg c1] at h
        by_cases c2 : c = '['
        · rw [if_pos c2] at h
          subst c2
          cases dep with
          | zero => cases h
          | succ dep =>
            simp only at h
            obtain ⟨w', hw', hs'⟩ := skip_split u
            cases hk' : skip u with
            | nil => rw [hk'] at h; cases h
            | cons c' v =>
              rw [hk'] at h hs'
              simp only at h
              split at h
              · rename_i hc
                simp only [Option.some.injEq, Prod.mk.injEq] at h
                obtain ⟨rfl, rfl⟩ := h
                subst hc
                refine ⟨'[' :: (w' ++ [']']), ?_, by rw [hs']; simp, by simp [nesting, nestingList]⟩
                simp only [Text, Elems]
                exact ⟨w', hw', rfl⟩
              · simp only [Option.map_eq_some_iff, Prod.mk.injEq, Prod.exists] at h
                obtain ⟨l, r', h1, rfl, rfl⟩ := h
                obtain ⟨j, js, b, rfl, h2, h3, h4⟩ := ihe _ _ _ _ h1
                refine ⟨'[' :: (w' ++ b ++ [']']), ?_, by rw [hs', h3]; simp, by simp only [nesting]; omega⟩
                simp only [Text]
                refine ⟨w' ++ b, ?_, rfl⟩
                simp only [Elems] at h2 ⊢
                obtain ⟨w0, t, w1, r0, p1, p2, p3, p4, rfl⟩ := h2
                refine ⟨w' ++ w0, t, w1, r0, ?_, p2, p3, p4, by simp⟩
                intro x hx
                rcases List.mem_append.1 hx with hx | hx
                · exact hw' x hx
                · exact p1 x hx
        rw [if_neg c2] at h
        by_cases c3 : c = '{'
        · rw [if_pos c3] at h
          subst c3
          cases dep with
          | zero => cases h
          | succ dep =>
            simp only at h
            obtain ⟨w', hw', hs'⟩ := skip_split u
            cases hk' : skip u with
            | nil => rw [hk'] at h; cases h
            | cons c' v =>
              rw [hk'] at h hs'
              simp only at h
              split at h
              · rename_i hc
                simp only [Option.some.injEq, Prod.mk.injEq] at h
                obtain ⟨rfl, rfl⟩ := h
                subst hc
                refine ⟨'{' :: (w' ++ ['}']), ?_, by rw [hs']; simp, by simp [nesting, nestingMembers]⟩
                simp only [Text, Members]
                exact ⟨w', hw', rfl⟩
              · simp only [Option.map_eq_some_iff, Prod.mk.injEq, Prod.exists] at h
                obtain ⟨l, r', h1, rfl, rfl⟩ := h
                obtain ⟨⟨k, j⟩, js, b, rfl, h2, h3, h4⟩ := ihm _ _ _ _ h1
                refine ⟨'{' :: (w' ++ b ++ ['}']), ?_, by rw [hs', h3]; simp, by simp only [nesting]; omega⟩
                simp only [Text]
                refine ⟨w' ++ b, ?_, rfl⟩
                simp only [Members] at h2 ⊢
                obtain ⟨w0, tk, w1, w2, t, w3, r0, p1, p2, p3, p4, p5, p6, p7, rfl⟩ := h2
                refine ⟨w' ++ w0, tk, w1, w2, t, w3, r0, ?_, p2, p3, p4, p5, p6, p7, by simp⟩
                intro x hx
                rcases List.mem_append.1 hx with hx | hx
                · exact hw' x hx
                · exact p1 x hx
        rw [if_neg c3] at h
        split at h
        · rename_i hc
          obtain ⟨rfl, rfl⟩ := word_sound h
          subst hc
          exact ⟨"null".toList, by simp only [Text], rfl, by simp [nesting]⟩
        · split at h
          · rename_i hc
            obtain ⟨rfl, rfl⟩ := word_sound h
            subst hc
            exact ⟨"true".toList, by simp only [Text]; rfl, rfl, by simp [nesting]⟩
          · split at h
            · rename_i hc
              obtain ⟨rfl, rfl⟩ := word_sound h
              subst hc
              exact ⟨"false".toList, by simp only [Text]; rfl, rfl, by simp [nesting]⟩
            · obtain ⟨t, h1, h2, h3⟩ := number_sound rd h
              exact ⟨t, h1, h2, by omega⟩
    · intro dep s l r h
      rw [elems] at h
      cases hv : value rd n dep s with
      | none => rw [hv] at h; cases h
      | some p =>
        obtain ⟨j, u⟩ := p
        rw [hv] at h
        simp only at h
        obtain ⟨w, t, h1, h2, h3, h4⟩ := ihv _ _ _ _ hv
        obtain ⟨w', hw', hs'⟩ := skip_split u
        cases hk' : skip u with
        | nil => rw [hk'] at h; cases h
        | cons c' v =>
          rw [hk'] at h hs'
          simp only at h
          split at h
          · rename_i hc
            subst hc
            simp only [Option.map_eq_some_iff, Prod.mk.injEq, Prod.exists] at h
            obtain ⟨l', r', p1, rfl, rfl⟩ := h
            obtain ⟨j', js, b, rfl, p2, rfl, p4⟩ := ihe _ _ _ _ p1
            refine ⟨j, j' :: js, w ++ (t ++ (w' ++ ',' :: b)), rfl, ?_, by rw [h3, hs']; simp, by rw [nestingList]; exact Nat.max_le.2 ⟨h4, p4⟩⟩
            rw [Elems]
            refine ⟨w, t, w', ',' :: b, h1, h2, hw', ?_, rfl⟩
            rw [Elems] at p2
            rw [MoreElems]
            obtain ⟨a1, a2, a3, a4, b1, b2, b3, b4, rfl⟩ := p2
            exact ⟨a1, a2, a3, a4, b1, b2, b3, b4, rfl⟩
          · split at h
            · rename_i hc
              subst hc
              simp only [Option.some.injEq, Prod.mk.injEq] at h
              obtain ⟨rfl, rfl⟩ := h
              refine ⟨j, [], w ++ (t ++ (w' ++ [])), rfl, ?_, by rw [h3, hs']; simp, by rw [nestingList, nestingList]; exact Nat.max_le.2 ⟨h4, by omega⟩⟩
              rw [Elems]
              exact ⟨w, t, w', [], h1, h2, hw', by rw [MoreElems], rfl⟩
            · cases h
    · intro dep s l r h
      obtain ⟨w0, hw0, hs0⟩ := skip_split s
      rw [members] at h
      cases hk : skip s with
      | nil => rw [hk] at h; cases h
      | cons c u =>
        rw [hk] at h hs0
        simp only at h
        split at h
        · rename_i hc
          subst hc
          cases hq : str u with
          | none => rw [hq] at h; cases h
          | some p =>
            obtain ⟨k, u1⟩ := p
            rw [hq] at h
            simp only at h
            obtain ⟨b0, q1, rfl⟩ := (str_iff _ _ _).1 hq
            obtain ⟨w1, hw1, hs1⟩ := skip_split u1
            cases hk1 : skip u1 with
            | nil => rw [hk1] at h; cases h
            | cons c1 u2 =>
              rw [hk1] at h hs1
              simp only at h
              split at h
              · rename_i hc1
                subst hc1
                cases hv : value rd n dep u2 with
                | none => rw [hv] at h; cases h
                | some p =>
                  obtain ⟨j, u3⟩ := p
                  rw [hv] at h
                  simp only at h
                  obtain ⟨w, t, h1, h2, h3, h4⟩ := ihv _ _ _ _ hv
                  obtain ⟨w', hw', hs'⟩ := skip_split u3
                  cases hk' : skip u3 with
                  | nil => rw [hk'] at h; cases h
                  | cons c' v =>
                    rw [hk'] at h hs'
                    simp only at h
                    split at h
                    · rename_i hc
                      subst hc
                      simp only [Option.map_eq_some_iff, Prod.mk.injEq, Prod.exists] at h
                      obtain ⟨l', r', p1, rfl, rfl⟩ := h
                      obtain ⟨⟨k', j'⟩, js, b, rfl, p2, rfl, p4⟩ := ihm _ _ _ _ p1
                      refine ⟨(k, j), (k', j') :: js, w0 ++ ('"' :: (b0 ++ ['"']) ++ (w1 ++ ':' :: (w ++ (t ++ (w' ++ ',' :: b))))), rfl, ?_,
                        by rw [hs0, hs1, h3, hs']; simp, by rw [nestingMembers]; exact Nat.max_le.2 ⟨h4, p4⟩⟩
                      rw [Members]
                      refine ⟨w0, _, w1, w, t, w', ',' :: b, hw0, ⟨b0, q1, rfl⟩, hw1, h1, h2, hw', ?_, rfl⟩
                      rw [Members] at p2
                      rw [MoreMembers]
                      obtain ⟨a1, a2, a3, a4, a5, a6, a7, b1, b2, b3, b4, b5, b6, b7, rfl⟩ := p2
                      exact ⟨a1, a2, a3, a4, a5, a6, a7, b1, b2, b3, b4, b5, b6, b7, rfl⟩
                    · split at h
                      · rename_i hc
                        subst hc
                        simp only [Option.some.injEq, Prod.mk.injEq] at h
                        obtain ⟨rfl, rfl⟩ := h
                        refine ⟨(k, j), [], w0 ++ ('"' :: (b0 ++ ['"']) ++ (w1 ++ ':' :: (w ++ (t ++ (w' ++ []))))), rfl, ?_,
                          by rw [hs0, hs1, h3, hs']; simp, by rw [nestingMembers, nestingMembers]; exact Nat.max_le.2 ⟨h4, by omega⟩⟩
                        rw [Members]
                        exact ⟨w0, _, w1, w, t, w', [], hw0, ⟨b0, q1, rfl⟩, hw1, h1, h2, hw', by rw [MoreMembers], rfl⟩
                      · cases h
              · cases h
        · cases h

end

end GoGeo.JsonText
