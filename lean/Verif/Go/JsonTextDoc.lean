import Verif.Go.JsonTextRead

/-! # Every text of the grammar is read -/

namespace GoGeo.JsonText
open Rfc8259

section
variable {F : Type} (rd : List Char → Option F)

theorem str_text {k : String} {t : List Char} (h : Str k t) : ∃ b, t = '"' :: (b ++ ['"']) ∧ ∀ r, str (b ++ '"' :: r) = some (k, r) := by
  obtain ⟨b, h1, rfl⟩ := h
  exact ⟨b, rfl, fun r => (str_iff _ _ _).2 ⟨b, h1, rfl⟩⟩

theorem word_ok (w : List Char) (j : Json F) (r : List Char) : word w j (w ++ r) = some (j, r) := by
  unfold word
  rw [if_pos (List.isPrefixOf_iff_prefix.2 ⟨r, rfl⟩)]
  simp

theorem number_ok {x : F} {t r : List Char} (h : Number t) (hx : rd t = some x) (hr : Stop r) : number rd (t ++ r) = some (.num x, r) := by
  obtain ⟨h1, h2⟩ := takeWhile_stop (number_chars h) hr
  unfold number
  rw [h1, h2, if_pos ((validNum_iff t).2 h), hx]
  rfl

/-- a document starts with a character that is neither white space nor a closing bracket -/
theorem text_head {j : Json F} {t : List Char} (h : Text (Reads rd) j t) :
    ∃ c s, t = c :: s ∧ isSpace c = false ∧ c ≠ ']' := by
  cases j with
  | null => simp only [Text] at h; subst h; exact ⟨_, _, rfl, rfl, by decide⟩
  | bool b => simp only [Text] at h; subst h; cases b <;> exact ⟨_, _, rfl, rfl, by decide⟩
  | num x =>
    simp only [Text] at h
    obtain ⟨c, s, rfl, hc⟩ := number_head h.1
    refine ⟨c, s, rfl, ?_, ?_⟩
    · rw [Bool.eq_false_iff, Ne, isSpace_iff]
      rintro (rfl | rfl | rfl | rfl) <;> exact absurd hc (by decide)
    · rintro rfl; exact absurd hc (by decide)
  | str s => simp only [Text] at h; obtain ⟨b, -, rfl⟩ := h; exact ⟨_, _, rfl, rfl, by decide⟩
  | arr l => simp only [Text] at h; obtain ⟨b, -, rfl⟩ := h; exact ⟨_, _, rfl, rfl, by decide⟩
  | obj m => simp only [Text] at h; obtain ⟨b, -, rfl⟩ := h; exact ⟨_, _, rfl, rfl, by decide⟩

theorem moreElems_stop {js : List (Json F)} {b : List Char} (h : MoreElems (Reads rd) js b) (r : List Char) : Stop (b ++ ']' :: r) := by
  cases js with
  | nil => simp only [MoreElems] at h; subst h; exact stop_cons rfl _
  | cons j js => simp only [MoreElems] at h; obtain ⟨w, t, w', r', -, -, -, -, rfl⟩ := h; exact stop_cons rfl _

theorem moreMembers_stop {ms : List (String × Json F)} {b : List Char} (h : MoreMembers (Reads rd) ms b) (r : List Char) : Stop (b ++ '}' :: r) := by
  cases ms with
  | nil => simp only [MoreMembers] at h; subst h; exact stop_cons rfl _
  | cons e ms => obtain ⟨k, j⟩ := e; simp only [MoreMembers] at h; obtain ⟨w0, tk, w1, w, t, w', r', -, -, -, -, -, -, -, rfl⟩ := h; exact stop_cons rfl _

set_option maxHeartbeats 1000000 in
theorem complete (n : ℕ) :
    (∀ j t dep w r, Text (Reads rd) j t → Ws w → Stop r → nesting j ≤ dep → 2 * (w ++ (t ++ r)).length + 2 ≤ n →
      value rd n dep (w ++ (t ++ r)) = some (j, r)) ∧
    (∀ j js b dep r, Elems (Reads rd) (j :: js) b → nestingList (j :: js) ≤ dep → 2 * (b ++ ']' :: r).length + 3 ≤ n →
      elems rd n dep (b ++ ']' :: r) = some (j :: js, r)) ∧
    (∀ e ms b dep r, Members (Reads rd) (e :: ms) b → nestingMembers (e :: ms) ≤ dep → 2 * (b ++ '}' :: r).length + 3 ≤ n →
      members rd n dep (b ++ '}' :: r) = some (e :: ms, r)) := by
  induction n with
  | zero =>
    refine ⟨?_, ?_, ?_⟩
    · intros; omega
    · intros; omega
    · intros; omega
  | succ n ih =>
    obtain ⟨ihv, ihe, ihm⟩ := ih
    refine ⟨?_, ?_, ?_⟩
    · intro j t dep w r ht hw hr hn hl
      rw [value, skip_ws hw]
      rw [List.length_append] at hl
      cases j with
      | null =>
        simp only [Text] at ht
        rw [show "null".toList = 'n' :: ['u', 'l', 'l'] by decide] at ht
        subst ht
        rw [List.cons_append, skip_cons rfl]
        simp only
        rw [if_neg (by decide), if_neg (by decide), if_neg (by decide), if_pos (by decide), word_ok]
      | bool b =>
        simp only [Text] at ht
        cases b with
        | true =>
          rw [if_pos (by decide), show "true".toList = 't' :: ['r', 'u', 'e'] by decide] at ht
          subst ht
          rw [List.cons_append, skip_cons rfl]
          simp only
          rw [if_neg (by decide), if_neg (by decide), if_neg (by decide), if_neg (by decide), if_pos (by decide), word_ok]
        | false =>
          rw [if_neg (by decide), show "false".toList = 'f' :: ['a', 'l', 's', 'e'] by decide] at ht
          subst ht
          rw [List.cons_append, skip_cons rfl]
          simp only
          rw [if_neg (by decide), if_neg (by decide), if_neg (by decide), if_neg (by decide), if_neg (by decide), if_pos (by decide), word_ok]
      | num x =>
        have ht' := ht
        simp only [Text] at ht
        have hno := number_ok rd ht.1 ht.2 hr
        obtain ⟨c, s, rfl, hc⟩ := number_head ht.1
        obtain ⟨c', s', e, hsp, -⟩ := text_head rd ht'
        injection e with e1 e2
        subst e1 e2
        have hne : ∀ d : Char, d.isDigit = false → d ≠ '-' → c ≠ d := by
          rintro d h1 h2 rfl
          rcases hc with hc | hc
          · exact h2 hc
          · rw [h1] at hc; cases hc
        rw [List.cons_append] at hno ⊢
        rw [skip_cons hsp]
        simp only
        rw [if_neg (hne _ rfl (by decide)), if_neg (hne _ rfl (by decide)), if_neg (hne _ rfl (by decide)), if_neg (hne _ rfl (by decide)),
          if_neg (hne _ rfl (by decide)), if_neg (hne _ rfl (by decide)), hno]
      | str s =>
        simp only [Text] at ht
        obtain ⟨b, rfl, hb⟩ := str_text ht
        rw [List.cons_append, List.append_assoc, List.singleton_append, skip_cons rfl]
        simp only
        rw [if_pos (by decide), hb]
        rfl
      | arr l =>
        simp only [Text] at ht
        obtain ⟨b, hb, rfl⟩ := ht
        simp only [nesting] at hn
        obtain ⟨dep, rfl⟩ : ∃ d, dep = d + 1 := ⟨dep - 1, by omega⟩
        simp only [List.cons_append, List.append_assoc, List.nil_append, List.length_append, List.length_cons] at hl ⊢
        rw [skip_cons rfl]
        simp only
        rw [if_neg (by decide), if_pos (by decide)]
        cases l with
        | nil =>
          simp only [Elems] at hb
          rw [skip_ws hb, skip_cons rfl]
          simp only [if_true]
        | cons j js =>
          have hb' := hb
          simp only [Elems] at hb
          obtain ⟨w0, t, w', r0, p1, p2, p3, p4, rfl⟩ := hb
          obtain ⟨c, s, rfl, hsp, hcl⟩ := text_head rd p2
          simp only [List.length_append, List.length_cons] at hl
          have hgo := ihe j js ([] ++ (c :: s ++ (w' ++ r0))) dep r (by simp only [Elems]; exact ⟨[], c :: s, w', r0, ws_nil, p2, p3, p4, rfl⟩) (by omega)
            (by simp only [List.length_append, List.length_cons, List.length_nil]; omega)
          simp only [List.nil_append, List.cons_append, List.append_assoc] at hgo ⊢
          rw [skip_ws p1, skip_cons hsp]
          simp only
          rw [if_neg hcl, hgo]
          rfl
      | obj m =>
        simp only [Text] at ht
        obtain ⟨b, hb, rfl⟩ := ht
        simp only [nesting] at hn
        obtain ⟨dep, rfl⟩ : ∃ d, dep = d + 1 := ⟨dep - 1, by omega⟩
        simp only [List.cons_append, List.append_assoc, List.nil_append, List.length_append, List.length_cons] at hl ⊢
        rw [skip_cons rfl]
        simp only
        rw [if_neg (by decide), if_neg (by decide), if_pos (by decide)]
        cases m with
        | nil =>
          simp only [Members] at hb
          rw [skip_ws hb, skip_cons rfl]
          simp only [if_true]
        | cons e ms =>
          obtain ⟨k, j⟩ := e
          have hb' := hb
          simp only [Members] at hb
          obtain ⟨w0, tk, w1, w2, t, w', r0, p1, pk, pw1, pw2, p2, p3, p4, rfl⟩ := hb
          obtain ⟨bk, hbk, rfl⟩ := pk
          simp only [List.length_append, List.length_cons] at hl
          have hgo := ihm (k, j) ms ([] ++ ('"' :: (bk ++ ['"']) ++ (w1 ++ ':' :: (w2 ++ (t ++ (w' ++ r0)))))) dep r
            (by simp only [Members]; exact ⟨[], _, w1, w2, t, w', r0, ws_nil, ⟨bk, hbk, rfl⟩, pw1, pw2, p2, p3, p4, rfl⟩) (by omega)
            (by simp only [List.length_append, List.length_cons, List.length_nil]; omega)
          simp only [List.nil_append, List.cons_append, List.append_assoc] at hgo ⊢
          rw [skip_ws p1, skip_cons rfl]
          simp only
          rw [if_neg (by decide), hgo]
          rfl
    · intro j js b dep r hb hn hl
      simp only [Elems] at hb
      obtain ⟨w0, t, w', r0, p1, p2, p3, p4, rfl⟩ := hb
      rw [nestingList] at hn
      have hn1 := le_trans (Nat.le_max_left _ _) hn
      have hn2 := le_trans (Nat.le_max_right _ _) hn
      rw [elems]
      have h1 := ihv j t dep w0 (w' ++ (r0 ++ ']' :: r)) p2 p1 (stop_ws p3 (moreElems_stop rd p4 r)) hn1
        (by simp only [List.length_append, List.length_cons] at hl ⊢; omega)
      simp only [List.append_assoc] at h1 ⊢
      rw [h1]
      simp only
      rw [skip_ws p3]
      cases js with
      | nil =>
        simp only [MoreElems] at p4
        subst p4
        rw [List.nil_append, skip_cons rfl]
        simp only
        rw [if_neg (by decide), if_pos (by decide)]
      | cons j' js =>
        simp only [MoreElems] at p4
        obtain ⟨v0, t', v', r1, q1, q2, q3, q4, rfl⟩ := p4
        rw [List.cons_append, skip_cons rfl]
        simp only
        rw [if_pos (by decide), ihe j' js (v0 ++ (t' ++ (v' ++ r1))) dep r (by simp only [Elems]; exact ⟨v0, t', v', r1, q1, q2, q3, q4, rfl⟩) hn2
          (by simp only [List.length_append, List.length_cons] at hl ⊢; omega)]
        rfl
    · intro e ms b dep r hb hn hl
      obtain ⟨k, j⟩ := e
      simp only [Members] at hb
      obtain ⟨w0, tk, w1, w2, t, w', r0, p1, pk, pw1, pw2, p2, p3, p4, rfl⟩ := hb
      obtain ⟨bk, rfl, hbk⟩ := str_text pk
      rw [nestingMembers] at hn
      have hn1 := le_trans (Nat.le_max_left _ _) hn
      have hn2 := le_trans (Nat.le_max_right _ _) hn
      rw [members]
      have h1 := ihv j t dep w2 (w' ++ (r0 ++ '}' :: r)) p2 pw2 (stop_ws p3 (moreMembers_stop rd p4 r)) hn1
        (by simp only [List.length_append, List.length_cons] at hl ⊢; omega)
      simp only [List.append_assoc, List.cons_append, List.nil_append] at h1 ⊢
      rw [skip_ws p1, skip_cons rfl]
      simp only
      rw [if_pos (by decide), hbk]
      simp only
      rw [skip_ws pw1, skip_cons rfl]
      simp only
      rw [if_pos (by decide), h1]
      simp only
      rw [skip_ws p3]
      cases ms with
      | nil =>
        simp only [MoreMembers] at p4
        subst p4
        rw [List.nil_append, skip_cons rfl]
        simp only
        rw [if_neg (by decide), if_pos (by decide)]
      | cons e' ms =>
        obtain ⟨k', j'⟩ := e'
        simp only [MoreMembers] at p4
        obtain ⟨v0, tk', v1, v2, t', v', r1, q1, q2, q3, q4, q5, q6, q7, rfl⟩ := p4
        rw [List.cons_append, skip_cons rfl]
        simp only
        rw [if_pos (by decide), ihm (k', j') ms (v0 ++ (tk' ++ (v1 ++ ':' :: (v2 ++ (t' ++ (v' ++ r1)))))) dep r
          (by simp only [Members]; exact ⟨v0, tk', v1, v2, t', v', r1, q1, q2, q3, q4, q5, q6, q7, rfl⟩) hn2
          (by simp only [List.length_append, List.length_cons] at hl ⊢; omega)]
        rfl

/-- The reader accepts exactly the texts of RFC 8259 with at most 10000 levels and numbers that `rd` reads, and gives the document. -/
theorem read_iff (s : List Char) (j : Json F) : read rd s = some j ↔ Doc (Reads rd) j s ∧ nesting j ≤ maxNesting := by
  unfold read
  constructor
  · intro h
    cases hv : value rd (2 * s.length + 2) maxNesting s with
    | none => rw [hv] at h; cases h
    | some p =>
      obtain ⟨j', r⟩ := p
      rw [hv] at h
      simp only at h
      split at h
      · rename_i hr
        injection h with h
        subst h
        obtain ⟨w, t, h1, h2, h3, h4⟩ := (sound rd _).1 _ _ _ _ hv
        obtain ⟨w', h5, h6⟩ := skip_split r
        rw [hr, List.append_nil] at h6
        exact ⟨⟨w, t, r, h1, h2, by rw [h6]; exact h5, h3⟩, h4⟩
      · cases h
  · rintro ⟨⟨w, t, w', h1, h2, h3, rfl⟩, h4⟩
    have hs : Stop w' := by
      have := stop_ws h3 (r := []) (by intro c hc; cases hc)
      rwa [List.append_nil] at this
    rw [(complete rd _).1 j t maxNesting w w' h2 h1 hs h4 le_rfl]
    simp only
    rw [if_pos (skip_nil h3)]

/-- a text has at most one document -/
theorem doc_unique {s : List Char} {j j' : Json F} (h : Doc (Reads rd) j s) (h' : Doc (Reads rd) j' s) : j = j' := by
  obtain ⟨w, t, r, h1, h2, h3, e⟩ := h
  obtain ⟨w', t', r', h1', h2', h3', e'⟩ := h'
  have st : ∀ {u}, Ws u → Stop u := fun {u} hu => by
    have := stop_ws hu (r := []) (by intro c hc; cases hc)
    rwa [List.append_nil] at this
  have a := (complete rd (2 * s.length + 2)).1 j t (Nat.max (nesting j) (nesting j')) w r h2 h1 (st h3) (Nat.le_max_left _ _) (by rw [← e])
  have b := (complete rd (2 * s.length + 2)).1 j' t' (Nat.max (nesting j) (nesting j')) w' r' h2' h1' (st h3') (Nat.le_max_right _ _) (by rw [← e'])
  rw [← e] at a
  rw [← e', a] at b
  injection b with b
  injection b

end

end GoGeo.JsonText
