import Verif.Go.JsonTextDoc
import Verif.Go.StrconvE

/-! # What the printer writes is a text of the document -/

namespace GoGeo.JsonText
open Rfc8259 Strconv F64

/-! ### strings -/

theorem hexChar_ok {n : ℕ} (h : n < 16) : hexDigit (hexChar n) n := by
  interval_cases n <;> exact .inl (by decide)

theorem strBody_esc {c : Char} {s t : List Char} (h : StrBody s t) : StrBody (c :: s) (escChar c ++ t) := by
  unfold escChar
  split
  · rename_i hc
    rcases hc with rfl | rfl <;> exact .letter ((escape_iff _ _).1 (by decide)) h
  split
  · rename_i hc; subst hc; exact .letter ((escape_iff _ _).1 (by decide)) h
  split
  · rename_i hc; subst hc; exact .letter ((escape_iff _ _).1 (by decide)) h
  split
  · rename_i hc; subst hc; exact .letter ((escape_iff _ _).1 (by decide)) h
  split
  · rename_i hc
    have hn : c.toNat < 256 := by
      rcases hc with hc | rfl | rfl | rfl
      · omega
      all_goals decide
    have := StrBody.unit (u := c.toNat) (w := ['\\', 'u', '0', '0', hexChar (c.toNat / 16), hexChar (c.toNat % 16)])
      ⟨'0', '0', _, _, 0, 0, c.toNat / 16, c.toNat % 16, .inl (by decide), .inl (by decide), hexChar_ok (by omega), hexChar_ok (by omega), by omega, rfl⟩
      (by unfold High; omega) (by unfold Low; omega) h
    rwa [Char.ofNat_toNat] at this
  split
  · rename_i hc
    have := StrBody.unit (u := c.toNat) (w := ['\\', 'u', '2', '0', '2', hexChar (c.toNat % 16)])
      ⟨'2', '0', '2', _, 2, 0, 2, c.toNat % 16, .inl (by decide), .inl (by decide), .inl (by decide), hexChar_ok (by omega), by omega, rfl⟩
      (by unfold High; omega) (by unfold Low; omega) h
    rwa [Char.ofNat_toNat] at this
  · rename_i h1 _ _ _ h2 _
    rw [not_or] at h1 h2
    exact .plain (by omega) h1.1 h1.2 h

theorem encStr_ok (s : String) : Str s (encStr s) := by
  refine ⟨s.toList.flatMap escChar, ?_, rfl⟩
  induction s.toList with
  | nil => exact .nil
  | cons c l ih => rw [List.flatMap_cons]; exact strBody_esc ih

/-! ### documents -/

section
variable {F : Type}

mutual
/-- every number of the document is one of `P` -/
def Nums (P : F → Prop) : Json F → Prop
  | .num x => P x
  | .arr l => NumsList P l
  | .obj m => NumsMembers P m
  | _ => True
/-- every number in a list of documents -/
def NumsList (P : F → Prop) : List (Json F) → Prop
  | [] => True
  | j :: js => Nums P j ∧ NumsList P js
/-- every number in the members of an object -/
def NumsMembers (P : F → Prop) : List (String × Json F) → Prop
  | [] => True
  | (_, j) :: ms => Nums P j ∧ NumsMembers P ms
end

variable {P : F → Prop} {num : F → List Char} {N : F → List Char → Prop} (hN : ∀ x, P x → Number (num x) ∧ N x (num x))
include hN

mutual
theorem enc_text : ∀ j : Json F, Nums P j → Text N j (enc num j)
  | .null, _ => by simp only [Text, enc]; decide
  | .bool true, _ => by simp only [Text, enc]; decide
  | .bool false, _ => by simp only [Text, enc]; decide
  | .num x, h => by
    simp only [Nums] at h
    simp only [Text, enc]
    exact hN x h
  | .str s, _ => by
    simp only [Text, enc]
    exact encStr_ok s
  | .arr l, h => by
    simp only [Nums] at h
    simp only [Text, enc]
    exact ⟨_, encList_text l h, rfl⟩
  | .obj m, h => by
    simp only [Nums] at h
    simp only [Text, enc]
    exact ⟨_, encMembers_text m h, rfl⟩
theorem encList_text : ∀ l : List (Json F), NumsList P l → Elems N l (encList num l)
  | [], _ => by simp only [Elems, encList]; exact ws_nil
  | j :: js, h => by
    simp only [NumsList] at h
    simp only [Elems, encList]
    exact ⟨[], _, [], _, ws_nil, enc_text j h.1, ws_nil, encMore_text js h.2, rfl⟩
theorem encMore_text : ∀ l : List (Json F), NumsList P l → MoreElems N l (match l with | [] => [] | _ :: _ => ',' :: encList num l)
  | [], _ => by simp only [MoreElems]
  | j :: js, h => by
    simp only [NumsList] at h
    simp only [MoreElems, encList]
    exact ⟨[], _, [], _, ws_nil, enc_text j h.1, ws_nil, encMore_text js h.2, rfl⟩
theorem encMembers_text : ∀ m : List (String × Json F), NumsMembers P m → Members N m (encMembers num m)
  | [], _ => by simp only [Members, encMembers]; exact ws_nil
  | (k, j) :: ms, h => by
    simp only [NumsMembers] at h
    simp only [Members, encMembers]
    exact ⟨[], _, [], [], _, [], _, ws_nil, encStr_ok k, ws_nil, ws_nil, enc_text j h.1, ws_nil, encMoreMembers_text ms h.2, rfl⟩
theorem encMoreMembers_text : ∀ m : List (String × Json F), NumsMembers P m →
    MoreMembers N m (match m with | [] => [] | _ :: _ => ',' :: encMembers num m)
  | [], _ => by simp only [MoreMembers]
  | (k, j) :: ms, h => by
    simp only [NumsMembers] at h
    simp only [MoreMembers, encMembers]
    exact ⟨[], _, [], [], _, [], _, ws_nil, encStr_ok k, ws_nil, ws_nil, enc_text j h.1, ws_nil, encMoreMembers_text ms h.2, rfl⟩
end

end

/-! ### numbers -/

theorem toDigits_head (n : ℕ) : Nat.toDigits 10 n = ['0'] ∨ (Digits (Nat.toDigits 10 n) ∧ (Nat.toDigits 10 n).head? ≠ some '0') := by
  rcases Nat.eq_zero_or_pos n with rfl | hn
  · exact .inl rfl
  · refine .inr ⟨⟨Nat.toDigits_ne_nil, toDigits_isDigit n⟩, ?_⟩
    induction n using Nat.strong_induction_on with
    | _ n ih =>
      rw [Nat.toDigits_eq_if (by norm_num)]
      split
      · rename_i h
        interval_cases n <;> decide
      · rename_i h
        have := ih (n / 10) (by omega) (by omega)
        cases hd : Nat.toDigits 10 (n / 10) with
        | nil => exact absurd hd Nat.toDigits_ne_nil
        | cons c s => rw [hd] at this; exact this

theorem number_of_value {t : List Char} {q : ℚ} (h : NumberValue t q) : Number t := by
  obtain ⟨sg, ip, fp, ep, h1, h2, h3, h4, h5, -⟩ := h
  exact ⟨sg, ip, fp, ep, h1, h2, h3, h4, h5⟩

theorem number_fixed (m k : ℕ) : (∃ q, NumberValue (fixed m k) q) ∧ ∃ q, NumberValue ('-' :: fixed m k) q := by
  suffices ∃ ip fp, fixed m k = ip ++ (fp ++ []) ∧ (ip = ['0'] ∨ (Digits ip ∧ ip.head? ≠ some '0')) ∧ (fp = [] ∨ ∃ ds, fp = '.' :: ds ∧ Digits ds) by
    obtain ⟨ip, fp, h1, h2, h3⟩ := this
    exact ⟨⟨_, [], ip, fp, [], by rw [h1]; rfl, .inl rfl, h2, h3, .inl rfl, by simp [expValue], rfl⟩,
      ⟨_, ['-'], ip, fp, [], by rw [h1]; rfl, .inr rfl, h2, h3, .inl rfl, by simp [expValue], rfl⟩⟩
  unfold fixed
  split
  · exact ⟨_, [], by simp, toDigits_head m, .inl rfl⟩
  · refine ⟨_, _, by rw [List.append_nil], toDigits_head _, .inr ⟨_, rfl, ?_, ?_⟩⟩
    · simp [Nat.toDigits_ne_nil]
    · intro c hc
      simp only [List.mem_append, List.mem_replicate] at hc
      rcases hc with ⟨-, rfl⟩ | hc
      · rfl
      · exact toDigits_isDigit _ c hc

theorem number_eTok {d : Char} {ds xs : List Char} {sg : Char} (hd : d.isDigit = true) (hds : ∀ c ∈ ds, c.isDigit = true)
    (hs : sg = '+' ∨ sg = '-') (hx : Digits xs) (hb : Nat.ofDigitChars 10 xs 0 < 10000) :
    (∃ q, NumberValue (eTok d ds (sg :: xs)) q) ∧ ∃ q, NumberValue ('-' :: eTok d ds (sg :: xs)) q := by
  have hi : [d] = ['0'] ∨ (Digits [d] ∧ [d].head? ≠ some '0') := by
    by_cases h : d = '0'
    · exact .inl (by rw [h])
    · exact .inr ⟨⟨by simp, by simpa using hd⟩, by simpa using h⟩
  have hf : (if ds = [] then [] else '.' :: ds) = [] ∨ ∃ ds', (if ds = [] then [] else '.' :: ds) = '.' :: ds' ∧ Digits ds' := by
    split
    · exact .inl rfl
    · rename_i h; exact .inr ⟨ds, rfl, h, hds⟩
  have he : ('e' :: sg :: xs) = [] ∨ ∃ e sg' ds, 'e' :: sg :: xs = e :: (sg' ++ ds) ∧ (e = 'e' ∨ e = 'E') ∧ (sg' = [] ∨ sg' = ['+'] ∨ sg' = ['-']) ∧ Digits ds :=
    .inr ⟨'e', [sg], xs, rfl, .inl rfl, by rcases hs with rfl | rfl <;> simp, hx⟩
  have hv : |expValue ('e' :: sg :: xs)| < 10000 := by
    rcases hs with rfl | rfl
    · show |(Nat.ofDigitChars 10 xs 0 : ℤ)| < 10000
      rw [abs_lt]; omega
    · show |-(Nat.ofDigitChars 10 xs 0 : ℤ)| < 10000
      rw [abs_lt]; omega
  exact ⟨⟨_, [], [d], _, _, rfl, .inl rfl, hi, hf, he, hv, rfl⟩, ⟨_, ['-'], [d], _, _, rfl, .inr rfl, hi, hf, he, hv, rfl⟩⟩

/-- dropping a zero from the exponent does not change it -/
theorem cleanExp_eq (p : List Char) (sg : Char) {xs : List Char} (hx : ∀ c ∈ xs, c.isDigit = true) (h2 : ∃ a b t, xs = a :: b :: t) :
    ∃ xs', Digits xs' ∧ expDigits xs' = expDigits xs ∧ Nat.ofDigitChars 10 xs' 0 = Nat.ofDigitChars 10 xs 0 ∧ cleanExp (p ++ 'e' :: sg :: xs) = p ++ 'e' :: sg :: xs' := by
  obtain ⟨a, b, t, rfl⟩ := h2
  have same : ∃ xs', Digits xs' ∧ expDigits xs' = expDigits (a :: b :: t) ∧
      Nat.ofDigitChars 10 xs' 0 = Nat.ofDigitChars 10 (a :: b :: t) 0 ∧ p ++ 'e' :: sg :: (a :: b :: t) = p ++ 'e' :: sg :: xs' :=
    ⟨_, ⟨by simp, hx⟩, rfl, rfl, rfl⟩
  unfold cleanExp
  split
  · rename_i d r heq
    have e1 : (p ++ 'e' :: sg :: a :: b :: t).reverse = t.reverse ++ (b :: a :: sg :: 'e' :: p.reverse) := by simp
    rw [e1] at heq
    have hr : ∀ c ∈ t.reverse, c.isDigit = true := fun c hc => hx c (by simp at hc; simp [hc])
    have hb : b.isDigit = true := hx b (by simp)
    have ha : a.isDigit = true := hx a (by simp)
    match ht : t.reverse, heq, hr with
    | [], heq, _ =>
      simp only [List.nil_append, List.cons.injEq] at heq
      obtain ⟨rfl, rfl, rfl, -, rfl⟩ := heq
      have : t = [] := by simpa using ht
      subst this
      refine ⟨[b], ⟨by simp, by simpa using hb⟩, ?_, by simp [Nat.ofDigitChars_cons], by simp⟩
      unfold expDigits
      simp only
      rw [if_pos hb, if_pos ha]
      rfl
    | [c1], heq, _ =>
      simp only [List.cons_append, List.nil_append, List.cons.injEq] at heq
      obtain ⟨-, -, h3, -⟩ := heq
      subst h3
      exact absurd ha (by decide)
    | [c1, c2], heq, hr =>
      simp only [List.cons_append, List.nil_append, List.cons.injEq] at heq
      obtain ⟨-, -, h3, -⟩ := heq
      subst h3
      exact absurd hb (by decide)
    | c1 :: c2 :: c3 :: l, heq, hr =>
      simp only [List.cons_append, List.cons.injEq] at heq
      obtain ⟨-, -, h3, -⟩ := heq
      subst h3
      exact absurd (hr '-' (by simp)) (by decide)
  · exact same

/-- a number text with an exponent, cleaned up: it is a JSON number and is read as before -/
theorem cleanExp_ok {t : List Char} (h : IsE t) :
    ((∃ q, NumberValue (cleanExp t) q) ∧ parseFloat (cleanExp t) = readFloat t) ∧
    ((∃ q, NumberValue (cleanExp ('-' :: t)) q) ∧ parseFloat (cleanExp ('-' :: t)) = (readFloat t).map fun v => -v) := by
  obtain ⟨d, ds, n, hd, hds, hn, rfl⟩ := h
  have hx := expDs_digit n
  have hsg : (if n < 0 then '-' else '+') = '+' ∨ (if n < 0 then '-' else '+') = '-' := by split <;> simp
  rw [expText_eq]
  generalize hsgn : (if n < 0 then '-' else '+') = sg at hsg
  have key : ∀ p, ∃ xs', Digits xs' ∧ expDigits xs' = expDigits (expDs n) ∧ Nat.ofDigitChars 10 xs' 0 = Nat.ofDigitChars 10 (expDs n) 0 ∧
      cleanExp (p ++ 'e' :: sg :: expDs n) = p ++ 'e' :: sg :: xs' :=
    fun p => cleanExp_eq p sg hx (expDs_two n)
  have us : ∀ xs : List Char, (∀ c ∈ xs, c.isDigit = true) → (sg :: xs).contains '_' = false := fun xs h => by
    have := digits_us h n
    rwa [hsgn] at this
  have rdEq : ∀ xs', Digits xs' → expDigits xs' = expDigits (expDs n) → readFloat (eTok d ds (sg :: xs')) = readFloat (eTok d ds (sg :: expDs n)) := by
    intro xs' h1 h2
    rw [readFloat_eTok_bind hd hds (us _ h1.2), readFloat_eTok_bind hd hds (us _ hx)]
    have : expVal (sg :: xs') = expVal (sg :: expDs n) := by
      rcases hsg with rfl | rfl
      · show (expDigits xs').map _ = (expDigits (expDs n)).map _
        rw [h2]
      · show (expDigits xs').map _ = (expDigits (expDs n)).map _
        rw [h2]
    rw [this]
  have sh : ∀ ex, eTok d ds ex = (d :: (if ds = [] then [] else '.' :: ds)) ++ 'e' :: ex := fun ex => rfl
  constructor
  · obtain ⟨xs', h1, h2, h4, h3⟩ := key (d :: (if ds = [] then [] else '.' :: ds))
    rw [sh, h3, ← sh, ← sh]
    refine ⟨(number_eTok hd hds hsg h1 (by rw [h4, expDs_val]; exact hn)).1, ?_⟩
    rw [← rdEq xs' h1 h2]
    exact (parse_digit hd).1
  · obtain ⟨xs', h1, h2, h4, h3⟩ := key ('-' :: d :: (if ds = [] then [] else '.' :: ds))
    rw [show '-' :: eTok d ds (sg :: expDs n) = ('-' :: d :: (if ds = [] then [] else '.' :: ds)) ++ 'e' :: sg :: expDs n from rfl, h3,
      show ('-' :: d :: (if ds = [] then [] else '.' :: ds)) ++ 'e' :: sg :: xs' = '-' :: eTok d ds (sg :: xs') from rfl]
    refine ⟨(number_eTok hd hds hsg h1 (by rw [h4, expDs_val]; exact hn)).2, ?_⟩
    rw [← rdEq xs' h1 h2]
    exact (parse_digit hd).2

/-- The text of a finite `float64` is a JSON number, and reads back. -/
theorem encFloat_ok {x : Float} (hx : ∃ q, valF x = .fin q) : (∃ q, NumberValue (encFloat x) q) ∧ parseFloat (encFloat x) = some x := by
  have plain : (∃ q, NumberValue (formatFloat x) q) ∧ parseFloat (formatFloat x) = some x := by
    obtain ⟨m, k, h1, h2⟩ := formatFloat_fixed hx
    refine ⟨?_, h2⟩
    rcases h1 with h1 | h1 <;> rw [h1]
    · exact (number_fixed m k).1
    · exact (number_fixed m k).2
  unfold encFloat
  simp only
  split
  · rename_i hc
    obtain ⟨q, hx⟩ := hx
    unfold valF at hx
    cases hu : x.toModel.unpack with
    | notANumber => rw [hu] at hx; cases hx
    | infinity s => rw [hu] at hx; cases s <;> cases hx
    | zero s =>
      exfalso
      have hz : x = ⟨.pack (.zero s)⟩ := float_ext_zero (s := s) hu (by cases s <;> rfl)
      subst hz
      cases s <;> revert hc <;> decide +kernel
    | finite s m e h =>
      obtain ⟨t, ht, h1 | h1⟩ := formatE_isE hu
      · obtain ⟨h1, h2⟩ := h1
        rw [h1, ← h2]
        exact (cleanExp_ok ht).1
      · obtain ⟨h1, h2, h3⟩ := h1
        rw [h1]
        refine ⟨(cleanExp_ok ht).2.1, ?_⟩
        rw [(cleanExp_ok ht).2.2, h2, Option.map_some, h3]
  · exact plain

/-- What is printed is read as the document. -/
theorem read_enc {j : Json Float} (hj : Nums (fun x => ∃ q, valF x = .fin q) j) (hn : nesting j ≤ maxNesting) :
    read parseFloat (enc encFloat j) = some j := by
  rw [read_iff]
  exact ⟨⟨[], _, [], ws_nil, enc_text (fun x hx => ⟨(encFloat_ok hx).1.elim fun _ => number_of_value, (encFloat_ok hx).2⟩) j hj, ws_nil, by simp⟩, hn⟩

end GoGeo.JsonText
