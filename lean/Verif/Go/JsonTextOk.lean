import Verif.Go.JsonText
import Verif.Spec.JsonText
import Mathlib.Tactic.IntervalCases

/-! # The reader of JSON text accepts exactly the texts of RFC 8259 (with at most 10000 levels) -/

namespace GoGeo.JsonText
open Rfc8259

/-! ### strings -/

theorem char_eq_ofNat {c : Char} {n : ℕ} (h : c.toNat = n) : c = Char.ofNat n := by
  subst h; exact (Char.ofNat_toNat c).symm

theorem digitVal_hex (c : Char) (v : ℕ) : Strconv.digitVal true c = some v ↔ hexDigit c v := by
  constructor
  · intro h
    unfold Strconv.digitVal at h
    split at h
    · rename_i hd
      have h1 : 48 ≤ c.toNat ∧ c.toNat ≤ 57 := by
        simp only [Char.isDigit, Bool.and_eq_true, decide_eq_true_eq, ge_iff_le] at hd
        exact ⟨UInt32.le_iff_toNat_le.1 hd.1, UInt32.le_iff_toNat_le.1 hd.2⟩
      injection h with h
      have h2 : c.toNat = 48 + v := by omega
      have h3 : v < 10 := by omega
      rw [char_eq_ofNat h2]
      interval_cases v <;> exact .inl (by decide)
    · rw [if_pos rfl] at h
      split at h
      · injection h with h
        have h2 : c.toNat = 87 + v := by omega
        have h3 : 10 ≤ v ∧ v < 16 := by omega
        obtain ⟨h3, h4⟩ := h3
        rw [char_eq_ofNat h2]
        interval_cases v <;> exact .inl (by decide)
      · split at h
        · injection h with h
          have h2 : c.toNat = 55 + v := by omega
          have h3 : 10 ≤ v ∧ v < 16 := by omega
          obtain ⟨h3, h4⟩ := h3
          rw [char_eq_ofNat h2]
          interval_cases v <;> exact .inr (by decide)
        · cases h
  · intro h
    have hv : v < 16 := by
      rcases h with h | h <;> · rw [List.getElem?_eq_some_iff] at h; exact h.1
    rcases h with h | h <;> interval_cases v <;> (injection h with h; subst h; decide)

theorem hex4_iff (a b c d : Char) (u : ℕ) :
    hex4 a b c d = some u ↔ ∃ va vb vc vd, hexDigit a va ∧ hexDigit b vb ∧ hexDigit c vc ∧ hexDigit d vd ∧ u = va * 4096 + vb * 256 + vc * 16 + vd := by
  simp only [← digitVal_hex]
  unfold hex4
  constructor
  · intro h
    split at h
    · rename_i va vb vc vd h1 h2 h3 h4
      injection h with h
      exact ⟨va, vb, vc, vd, h1, h2, h3, h4, by omega⟩
    · cases h
  · rintro ⟨va, vb, vc, vd, h1, h2, h3, h4, rfl⟩
    rw [h1, h2, h3, h4]
    simp only [Option.some.injEq]
    ring

theorem escape_iff (e x : Char) : escape e = some x ↔ Letter e x := by
  unfold Letter
  constructor
  · intro h
    unfold escape at h
    split_ifs at h with h1 h2 h3 h4 h5 h6
    · injection h with h; subst h
      rcases h1 with rfl | rfl | rfl <;> decide
    all_goals injection h with h; subst h; subst_vars; decide
  · intro h
    simp only [List.mem_cons, Prod.mk.injEq, List.not_mem_nil, or_false] at h
    rcases h with ⟨rfl, rfl⟩ | ⟨rfl, rfl⟩ | ⟨rfl, rfl⟩ | ⟨rfl, rfl⟩ | ⟨rfl, rfl⟩ | ⟨rfl, rfl⟩ | ⟨rfl, rfl⟩ | ⟨rfl, rfl⟩ <;> decide

/-- texts of a list of characters and escapes -/
inductive UnitsText : List (Char ⊕ ℕ) → List Char → Prop where
  | nil : UnitsText [] []
  | plain {c us t} : 0x20 ≤ c.toNat → c ≠ '"' → c ≠ '\\' → UnitsText us t → UnitsText (.inl c :: us) (c :: t)
  | letter {e x us t} : Letter e x → UnitsText us t → UnitsText (.inl x :: us) ('\\' :: e :: t)
  | unit {u w us t} : Escape u w → UnitsText us t → UnitsText (.inr u :: us) (w ++ t)

theorem letter_ne_u {e x : Char} (h : Letter e x) : e ≠ 'u' := by
  rintro rfl
  rw [← escape_iff] at h
  exact absurd h (by simp [escape])

theorem units_cons (c : Char) (s : List Char) : units (c :: s) =
    if c = '"' then some ([], s)
    else if c = '\\' then
      match s with
      | [] => none
      | [_] => none
      | e :: a :: s =>
        if e = 'u' then
          match s with
          | b :: c :: d :: s =>
            match hex4 a b c d with
            | some u => (units s).map fun p => (.inr u :: p.1, p.2)
            | none => none
          | _ => none
        else match escape e with
          | some x => (units (a :: s)).map fun p => (.inl x :: p.1, p.2)
          | none => none
    else if c.toNat < 32 then none
    else (units s).map fun p => (.inl c :: p.1, p.2) := by
  rw [units.eq_def]; rfl

theorem units_complete {us : List (Char ⊕ ℕ)} {t : List Char} (h : UnitsText us t) (r : List Char) : units (t ++ '"' :: r) = some (us, r) := by
  induction h with
  | nil => rw [List.nil_append, units_cons, if_pos rfl]
  | @plain c us t h1 h2 h3 _ ih =>
    rw [List.cons_append, units_cons, if_neg h2, if_neg h3, if_neg (by omega), ih]
    rfl
  | @letter e x us t h1 _ ih =>
    rw [List.cons_append, List.cons_append, units_cons, if_neg (by decide), if_pos rfl]
    cases hr : t ++ '"' :: r with
    | nil => simp at hr
    | cons a s =>
      rw [hr] at ih
      simp only
      rw [if_neg (letter_ne_u h1), (escape_iff e x).2 h1]
      simp only [ih]
      rfl
  | @unit u w us t h1 _ ih =>
    obtain ⟨a, b, c, d, va, vb, vc, vd, p1, p2, p3, p4, p5, rfl⟩ := h1
    have h4 := (hex4_iff a b c d u).2 ⟨va, vb, vc, vd, p1, p2, p3, p4, p5⟩
    show units ('\\' :: 'u' :: a :: b :: c :: d :: (t ++ '"' :: r)) = _
    rw [units_cons, if_neg (by decide), if_pos rfl]
    simp only [if_true, h4, ih]
    rfl

theorem units_sound : ∀ (n : ℕ) (s : List Char) (us : List (Char ⊕ ℕ)) (r : List Char), s.length ≤ n → units s = some (us, r) →
    ∃ t, UnitsText us t ∧ s = t ++ '"' :: r := by
  intro n
  induction n with
  | zero =>
    intro s us r hl h
    rw [List.length_eq_zero_iff.1 (by omega : s.length = 0)] at h
    simp [units] at h
  | succ n ih =>
    intro s us r hl h
    cases s with
    | nil => simp [units] at h
    | cons c s =>
      rw [List.length_cons] at hl
      rw [units_cons] at h
      by_cases h1 : c = '"'
      · rw [if_pos h1] at h
        injection h with h
        injection h with ha hb
        subst ha hb h1
        exact ⟨[], .nil, rfl⟩
      rw [if_neg h1] at h
      by_cases h2 : c = '\\'
      · rw [if_pos h2] at h
        subst h2
        match s, h with
        | e :: a :: s, h =>
          simp only at h
          simp only [List.length_cons] at hl
          by_cases hu : e = 'u'
          · subst hu
            rw [if_pos rfl] at h
            match s, h with
            | b :: c :: d :: s, h =>
              simp only at h
              simp only [List.length_cons] at hl
              cases h4 : hex4 a b c d with
              | none => rw [h4] at h; cases h
              | some u =>
                rw [h4] at h
                simp only [Option.map_eq_some_iff] at h
                obtain ⟨⟨us', r'⟩, h5, h6⟩ := h
                injection h6 with h6 h7
                subst h6 h7
                obtain ⟨t, ht, rfl⟩ := ih s us' r' (by omega) h5
                obtain ⟨va, vb, vc, vd, p1, p2, p3, p4, p5⟩ := (hex4_iff a b c d u).1 h4
                exact ⟨_, .unit ⟨a, b, c, d, va, vb, vc, vd, p1, p2, p3, p4, p5, rfl⟩ ht, rfl⟩
            | [], h => cases h
            | [_], h => cases h
            | [_, _], h => cases h
          · rw [if_neg hu] at h
            cases h4 : escape e with
            | none => rw [h4] at h; cases h
            | some x =>
              rw [h4] at h
              simp only [Option.map_eq_some_iff] at h
              obtain ⟨⟨us', r'⟩, h5, h6⟩ := h
              injection h6 with h6 h7
              subst h6 h7
              obtain ⟨t, ht, e'⟩ := ih (a :: s) us' r' (by simp only [List.length_cons]; omega) h5
              exact ⟨_, .letter ((escape_iff e x).1 h4) ht, by rw [e']; rfl⟩
        | [], h => cases h
        | [_], h => cases h
      · rw [if_neg h2] at h
        by_cases h3 : c.toNat < 32
        · rw [if_pos h3] at h; cases h
        · rw [if_neg h3] at h
          simp only [Option.map_eq_some_iff] at h
          obtain ⟨⟨us', r'⟩, h5, h6⟩ := h
          injection h6 with h6 h7
          subst h6 h7
          obtain ⟨t, ht, rfl⟩ := ih s us' r' (by omega) h5
          exact ⟨_, .plain (by omega) h1 h2 ht, rfl⟩

theorem isPair_iff (u v : ℕ) : isPair u v = true ↔ High u ∧ Low v := by
  unfold isPair High Low
  simp only [Bool.and_eq_true, decide_eq_true_eq]
  omega

theorem surrogate_iff (u : ℕ) : surrogate u = true ↔ High u ∨ Low u := by
  unfold surrogate High Low
  simp only [Bool.and_eq_true, decide_eq_true_eq]
  omega

theorem join_single {u : ℕ} {us : List (Char ⊕ ℕ)} (h : ∀ v us', us = .inr v :: us' → isPair u v = false) :
    join (.inr u :: us) = unitChar u :: join us := by
  match us, h with
  | [], _ => rfl
  | .inl c :: us, _ => rfl
  | .inr v :: us, h => rw [join, if_neg (by rw [h v us rfl]; decide)]

theorem unitsText_head {v : ℕ} {us : List (Char ⊕ ℕ)} {t : List Char} (h : UnitsText (.inr v :: us) t) :
    ∃ w' t', Escape v w' ∧ t = w' ++ t' := by
  cases h with
  | unit h1 h2 => exact ⟨_, _, h1, rfl⟩

theorem strBody_iff (s t : List Char) : StrBody s t ↔ ∃ us, UnitsText us t ∧ s = join us := by
  constructor
  · intro h
    induction h with
    | nil => exact ⟨[], .nil, rfl⟩
    | plain h1 h2 h3 _ ih =>
      obtain ⟨us, hu, rfl⟩ := ih
      exact ⟨_, .plain h1 h2 h3 hu, rfl⟩
    | letter h1 _ ih =>
      obtain ⟨us, hu, rfl⟩ := ih
      exact ⟨_, .letter h1 hu, rfl⟩
    | @unit u w s t h1 h2 h3 _ ih =>
      obtain ⟨us, hu, rfl⟩ := ih
      refine ⟨_, .unit h1 hu, ?_⟩
      rw [join_single, unitChar, if_neg]
      · rw [surrogate_iff]; exact fun h => h.elim h2 h3
      · intro v us' _
        rw [Bool.eq_false_iff, Ne, isPair_iff]
        exact fun h => h2 h.1
    | @pair u v w w' s t h1 h2 h3 h4 _ ih =>
      obtain ⟨us, hu, rfl⟩ := ih
      refine ⟨_, .unit h1 (.unit h3 hu), ?_⟩
      rw [join, if_pos ((isPair_iff u v).2 ⟨h2, h4⟩)]
      rw [show 0x10000 + (u - 0xD800) * 0x400 + (v - 0xDC00) = (u - 0xD800) * 1024 + (v - 0xDC00) + 0x10000 by omega]
    | @lone u w s t h1 h2 h3 _ ih =>
      obtain ⟨us, hu, rfl⟩ := ih
      refine ⟨_, .unit h1 hu, ?_⟩
      rw [join_single, unitChar, if_pos ((surrogate_iff u).2 h2)]
      rintro v us' rfl
      rw [Bool.eq_false_iff, Ne, isPair_iff]
      rintro ⟨a, b⟩
      obtain ⟨w', t', e1, e2⟩ := unitsText_head hu
      exact h3 a v w' t' b e1 e2
  · rintro ⟨us, hu, rfl⟩
    suffices ∀ n us t, us.length ≤ n → UnitsText us t → StrBody (join us) t from this _ us t le_rfl hu
    clear hu us t
    intro n
    induction n with
    | zero =>
      intro us t hl hu
      rw [List.length_eq_zero_iff.1 (by omega : us.length = 0)] at hu ⊢
      cases hu
      exact .nil
    | succ n ih =>
      intro us t hl hu
      cases hu with
      | nil => exact .nil
      | plain h1 h2 h3 hu => exact .plain h1 h2 h3 (ih _ _ (by simpa using hl) hu)
      | letter h1 hu => exact .letter h1 (ih _ _ (by simpa using hl) hu)
      | @unit u w us t h1 hu =>
        by_cases hp : ∃ v us', us = .inr v :: us' ∧ isPair u v = true
        · obtain ⟨v, us', rfl, hp⟩ := hp
          cases hu with
          | unit h2 hu =>
            have hp' := (isPair_iff u v).1 hp
            rw [join, if_pos hp]
            have := StrBody.pair h1 hp'.1 h2 hp'.2 (ih _ _ (by simp at hl; omega) hu)
            rw [show 0x10000 + (u - 0xD800) * 0x400 + (v - 0xDC00) = (u - 0xD800) * 1024 + (v - 0xDC00) + 0x10000 by omega] at this
            exact this
        · push Not at hp
          rw [join_single (fun v us' e => Bool.eq_false_iff.2 (hp v us' e)), unitChar]
          have hb := ih _ _ (by simpa using hl) hu
          by_cases hs : surrogate u = true
          · rw [if_pos hs]
            refine .lone h1 ((surrogate_iff u).1 hs) ?_ hb
            rintro hh v w' t' hv he rfl
            cases us with
            | nil =>
              obtain ⟨a, b, c, d, va, vb, vc, vd, -, -, -, -, -, rfl⟩ := he
              cases hu
            | cons x us =>
              cases x with
              | inr v' =>
                obtain ⟨w2, t2, e1, e2⟩ := unitsText_head hu
                obtain ⟨a, b, c, d, va, vb, vc, vd, p1, p2, p3, p4, p5, rfl⟩ := he
                obtain ⟨a', b', c', d', va', vb', vc', vd', q1, q2, q3, q4, q5, rfl⟩ := e1
                simp only [List.cons_append, List.cons.injEq, true_and, List.nil_append] at e2
                obtain ⟨rfl, rfl, rfl, rfl, -⟩ := e2
                have k1 := (hex4_iff a b c d v).2 ⟨_, _, _, _, p1, p2, p3, p4, p5⟩
                rw [(hex4_iff a b c d v').2 ⟨_, _, _, _, q1, q2, q3, q4, q5⟩] at k1
                injection k1 with k1
                subst k1
                exact hp v' us rfl ((isPair_iff u v').2 ⟨hh, hv⟩)
              | inl x =>
                obtain ⟨a, b, c, d, va, vb, vc, vd, p1, p2, p3, p4, p5, rfl⟩ := he
                cases hu with
                | plain h1 h2 h3 hu => exact h3 rfl
                | letter h1 hu => exact letter_ne_u h1 rfl
          · rw [if_neg hs]
            rw [surrogate_iff, not_or] at hs
            exact .unit h1 hs.1 hs.2 hb

theorem str_iff (s : List Char) (k : String) (r : List Char) : str s = some (k, r) ↔ ∃ b, StrBody k.toList b ∧ s = b ++ '"' :: r := by
  unfold str
  simp only [Option.map_eq_some_iff, Prod.mk.injEq, Prod.exists]
  constructor
  · rintro ⟨us, r', h1, rfl, rfl⟩
    obtain ⟨t, h2, rfl⟩ := units_sound _ s us r' le_rfl h1
    exact ⟨t, (strBody_iff _ _).2 ⟨us, h2, by simp⟩, rfl⟩
  · rintro ⟨b, h1, rfl⟩
    obtain ⟨us, h2, h3⟩ := (strBody_iff _ _).1 h1
    exact ⟨us, r, units_complete h2 r, by rw [← h3]; simp, rfl⟩

end GoGeo.JsonText
