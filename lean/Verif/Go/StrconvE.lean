import Verif.Go.StrconvOk

/-! # The text written by `FormatFloat(x, 'e', -1, 64)` reads back -/

namespace GoGeo.Strconv
open GoFloat F64

theorem le_ofDigitChars : ∀ (ds : List Char) (a : ℕ), a ≤ Nat.ofDigitChars 10 ds a
  | [], a => by simp
  | c :: ds, a => by
    rw [Nat.ofDigitChars_cons]
    exact le_trans (by omega) (le_ofDigitChars ds _)

theorem scanExp_digits : ∀ (ds : List Char) (e : ℕ), (∀ c ∈ ds, c.isDigit = true) → Nat.ofDigitChars 10 ds e < 10000 →
    scanExp ds e = (Nat.ofDigitChars 10 ds e, [])
  | [], e, _, _ => by simp [scanExp]
  | c :: ds, e, h, hb => by
    have hc := h c (by simp)
    rw [Nat.ofDigitChars_cons] at hb ⊢
    have h1 := le_ofDigitChars ds (10 * e + (c.toNat - '0'.toNat))
    rw [scanExp, if_neg (isDigit_ne hc (by decide)), if_pos hc, if_pos (by omega), mul_comm e 10]
    exact scanExp_digits ds _ (fun d hd => h d (by simp [hd])) hb

/-- the exponent that a text of sign and digits stands for -/
def expVal : List Char → Option ℤ
  | '+' :: t => (expDigits t).map fun n : ℕ => (n : ℤ)
  | '-' :: t => (expDigits t).map fun n : ℕ => -(n : ℤ)
  | t => (expDigits t).map fun n : ℕ => (n : ℤ)

theorem readExp_e (t : List Char) : readExp false ('e' :: t) = expVal t := rfl

theorem scanMant_e (t : List Char) (m fd : ℕ) (dot dg : Bool) : scanMant false ('e' :: t) m fd dot dg = (m, fd, dg, 'e' :: t) := by
  rw [scanMant, if_neg (by decide), if_neg (by decide)]
  rfl

theorem scanMant_eTok {d : Char} {ds : List Char} (ex : List Char) (hd : d.isDigit = true) (hds : ∀ c ∈ ds, c.isDigit = true) :
    scanMant false (eTok d ds ex) 0 0 false false = (Nat.ofDigitChars 10 (d :: ds) 0, ds.length, true, 'e' :: ex) := by
  have h1 := scanMant_digits ((if ds = [] then [] else '.' :: ds) ++ 'e' :: ex) [d] 0 0 false false (by simpa using hd)
  unfold eTok
  rw [List.singleton_append] at h1
  rw [h1]
  by_cases h : ds = []
  · subst h
    simp only [if_true, List.nil_append, scanMant_e]
    rfl
  · rw [if_neg h, List.cons_append, scanMant, if_neg (by decide), if_pos rfl, if_neg (by decide), scanMant_digits _ _ _ _ _ _ hds, scanMant_e,
      Nat.ofDigitChars_cons, Nat.ofDigitChars_cons]
    simp

/-- what a text with an exponent is read as -/
theorem readFloat_eTok_bind {d : Char} {ds ex : List Char} (hd : d.isDigit = true) (hds : ∀ c ∈ ds, c.isDigit = true)
    (hu : ex.contains '_' = false) :
    readFloat (eTok d ds ex) = (expVal ex).bind fun e => if decVal (Nat.ofDigitChars 10 (d :: ds) 0) (e - ds.length) = inf then none
      else some (decVal (Nat.ofDigitChars 10 (d :: ds) 0) (e - ds.length)) := by
  have h1 : unsign (eTok d ds ex) = (false, eTok d ds ex) := unsign_digit hd
  have h2 : hexPrefix (eTok d ds ex) = (false, eTok d ds ex) := by
    generalize hg : eTok d ds ex = w
    unfold hexPrefix
    split
    · rename_i c d' t
      rw [if_neg]
      intro hx
      have heq := hg
      unfold eTok at heq
      injection heq with _ heq
      have : c = '.' ∨ c = 'e' := by
        by_cases h : ds = []
        · rw [if_pos h] at heq
          injection heq with heq _
          exact .inr heq.symm
        · rw [if_neg h] at heq
          injection heq with heq _
          exact .inl heq.symm
      rcases this with rfl | rfl <;> exact absurd hx (by decide)
    · rfl
  have h3 : (eTok d ds ex).contains '_' = false := by
    rw [Bool.eq_false_iff] at hu ⊢
    intro hc
    apply hu
    rw [List.contains_iff_mem] at hc ⊢
    unfold eTok at hc
    rw [List.mem_cons, List.mem_append, List.mem_cons] at hc
    rcases hc with hc | hc | hc | hc
    · exact absurd hc (isDigit_ne hd (by decide)).symm
    · split at hc
      · simp at hc
      · rcases List.mem_cons.1 hc with hc | hc
        · exact absurd hc (by decide)
        · exact absurd (hds _ hc) (by decide)
    · exact absurd hc (by decide)
    · exact hc
  unfold readFloat
  simp only [h1, h2, scanMant_eTok ex hd hds, readExp_e, h3]
  cases expVal ex <;> rfl

/-- reading a text with an exponent gives the nearest number -/
theorem readFloat_eTok {d : Char} {ds ex : List Char} {e : ℤ} (hd : d.isDigit = true) (hds : ∀ c ∈ ds, c.isDigit = true)
    (hu : ex.contains '_' = false) (he : expVal ex = some e) :
    readFloat (eTok d ds ex) = if decVal (Nat.ofDigitChars 10 (d :: ds) 0) (e - ds.length) = inf then none
      else some (decVal (Nat.ofDigitChars 10 (d :: ds) 0) (e - ds.length)) := by
  rw [readFloat_eTok_bind hd hds hu, he]; rfl

/-- a sign in front of a text that starts with a digit -/
theorem readFloat_neg {d : Char} {t : List Char} (hd : d.isDigit = true) : readFloat ('-' :: d :: t) = (readFloat (d :: t)).map fun v => -v := by
  have h1 : unsign (d :: t) = (false, d :: t) := unsign_digit hd
  have h2 : unsign ('-' :: d :: t) = (true, d :: t) := rfl
  have h3 : ('-' :: d :: t).contains '_' = (d :: t).contains '_' := by
    rw [List.contains_cons]; rfl
  have h4 : underscoreOK ('-' :: d :: t) = underscoreOK (d :: t) := by
    unfold underscoreOK
    rw [h1, h2]
  unfold readFloat
  simp only [h1, h2, h3, h4]
  split
  · rfl
  · split
    · rfl
    · split
      · rfl
      · simp only [Bool.false_eq_true, if_false, if_true]
        generalize (if (hexPrefix (d :: t)).1 = true then _ else _ : Float) = v
        by_cases hv : v = inf
        · rw [if_pos hv, if_pos hv]; rfl
        · rw [if_neg hv, if_neg hv]; rfl

theorem special_digit {d : Char} {t : List Char} (hd : d.isDigit = true) : special (d :: t) = none ∧ special ('-' :: d :: t) = none := by
  have h1 : unsign (d :: t) = (false, d :: t) := unsign_digit hd
  have h2 : unsign ('-' :: d :: t) = (true, d :: t) := rfl
  have h3 : ∀ c r, c.isDigit = false → lowerAll (d :: t) ≠ c :: r := fun c r hc he => by
    simp only [lowerAll, List.map_cons, toLower_digit hd] at he
    injection he with he
    exact isDigit_ne hd hc he
  have h4 : lowerAll ('-' :: d :: t) ≠ ['n', 'a', 'n'] := fun he => by
    injection he with he
    exact absurd he (by decide)
  constructor
  · unfold special
    simp only [h1]
    rw [if_neg, if_neg (h3 _ _ (by decide))]
    simp only [Bool.or_eq_true, decide_eq_true_eq, not_or]
    exact ⟨h3 _ _ (by decide), h3 _ _ (by decide)⟩
  · unfold special
    simp only [h2]
    rw [if_neg, if_neg h4]
    simp only [Bool.or_eq_true, decide_eq_true_eq, not_or]
    exact ⟨h3 _ _ (by decide), h3 _ _ (by decide)⟩

theorem parse_digit {d : Char} {t : List Char} (hd : d.isDigit = true) :
    parseFloat (d :: t) = readFloat (d :: t) ∧ parseFloat ('-' :: d :: t) = (readFloat (d :: t)).map fun v => -v := by
  constructor
  · unfold parseFloat; rw [(special_digit hd).1]
  · unfold parseFloat; rw [(special_digit hd).2, ← readFloat_neg hd]

/-! ### the exponent -/

/-- the digits of an exponent, at least two of them -/
def expDs (n : ℤ) : List Char := if n.natAbs < 10 then '0' :: Nat.toDigits 10 n.natAbs else Nat.toDigits 10 n.natAbs

theorem expDs_digit (n : ℤ) : ∀ c ∈ expDs n, c.isDigit = true := by
  intro c hc
  unfold expDs at hc
  split at hc
  · rcases List.mem_cons.1 hc with rfl | hc
    · rfl
    · exact toDigits_isDigit _ c hc
  · exact toDigits_isDigit _ c hc

theorem expDs_val (n : ℤ) : Nat.ofDigitChars 10 (expDs n) 0 = n.natAbs := by
  unfold expDs
  split
  · rw [Nat.ofDigitChars_cons]
    exact Nat.ofDigitChars_ten_toDigits
  · exact Nat.ofDigitChars_ten_toDigits

theorem expDs_two (n : ℤ) : ∃ a b t, expDs n = a :: b :: t := by
  unfold expDs
  split
  · cases h : Nat.toDigits 10 n.natAbs with
    | nil => exact absurd h Nat.toDigits_ne_nil
    | cons b t => exact ⟨_, b, t, rfl⟩
  · rename_i hn
    cases h : Nat.toDigits 10 n.natAbs with
    | nil => exact absurd h Nat.toDigits_ne_nil
    | cons a t =>
      cases t with
      | cons b t => exact ⟨a, b, t, rfl⟩
      | nil =>
        have := (Nat.length_toDigits_le_iff (b := 10) (n := n.natAbs) (k := 1) (by norm_num) (by norm_num)).1 (by rw [h]; simp)
        omega

theorem expText_eq (n : ℤ) : expText n = (if n < 0 then '-' else '+') :: expDs n := rfl

theorem expDigits_val {ds : List Char} (hne : ds ≠ []) (h : ∀ c ∈ ds, c.isDigit = true) (hb : Nat.ofDigitChars 10 ds 0 < 10000) :
    expDigits ds = some (Nat.ofDigitChars 10 ds 0) := by
  cases ds with
  | nil => exact absurd rfl hne
  | cons c ds =>
    unfold expDigits
    dsimp only
    rw [if_pos (h c (by simp)), scanExp_digits _ _ h hb]

theorem expVal_sign {n : ℤ} {ds : List Char} (hne : ds ≠ []) (h : ∀ c ∈ ds, c.isDigit = true) (hv : Nat.ofDigitChars 10 ds 0 = n.natAbs)
    (hb : n.natAbs < 10000) : expVal ((if n < 0 then '-' else '+') :: ds) = some n := by
  have h1 := expDigits_val hne h (by rw [hv]; exact hb)
  rw [hv] at h1
  by_cases hn : n < 0
  · rw [if_pos hn]
    show (expDigits ds).map (fun n : ℕ => -(n : ℤ)) = _
    rw [h1, Option.map_some]
    congr 1; omega
  · rw [if_neg hn]
    show (expDigits ds).map (fun n : ℕ => (n : ℤ)) = _
    rw [h1, Option.map_some]
    congr 1; omega

theorem digits_us {ds : List Char} (h : ∀ c ∈ ds, c.isDigit = true) (n : ℤ) : ((if n < 0 then '-' else '+') :: ds).contains '_' = false := by
  rw [Bool.eq_false_iff]
  intro hc
  rw [List.contains_iff_mem] at hc
  rcases List.mem_cons.1 hc with hc | hc
  · split at hc <;> exact absurd hc (by decide)
  · exact absurd (h _ hc) (by decide)

/-- the exact decimal expansion with an exponent reads as the number -/
theorem readFloat_eText {M k : ℕ} {x : Float} (hM : M < 10 ^ 5000) (hk : k < 5000) (hx : readFloat (fixed M k) = some x) :
    readFloat (eText M (0 - k)) = some x := by
  rw [readFloat_fixed] at hx
  unfold eText
  cases h : Nat.toDigits 10 M with
  | nil => exact absurd h Nat.toDigits_ne_nil
  | cons d ds =>
    have hd : ∀ c ∈ d :: ds, c.isDigit = true := fun c hc => toDigits_isDigit M c (by rw [h]; exact hc)
    have hl : (d :: ds).length ≤ 5000 := by
      rw [← h, Nat.length_toDigits_le_iff (by norm_num) (by norm_num)]
      exact hM
    rw [List.length_cons] at hl
    have he := expDs_digit (0 - (k : ℤ) + ds.length)
    simp only
    rw [expText_eq, readFloat_eTok (e := 0 - (k : ℤ) + ds.length) (hd d (by simp)) (fun c hc => hd c (by simp [hc])) (digits_us he _)
      (expVal_sign (by obtain ⟨a, b, t, e⟩ := expDs_two (0 - (k : ℤ) + ds.length); rw [e]; simp) he (expDs_val _) (by omega)), ← h,
      Nat.ofDigitChars_ten_toDigits, add_sub_cancel_right]
    exact hx

theorem exactDec_lt {m : ℕ} {e : ℤ} (hc : Canon m e) (he : e ≤ 971) : (exactDec m e).1 < 10 ^ 5000 ∧ (exactDec m e).2 < 5000 := by
  have hm := hc.lt
  have hg := hc.ge
  unfold exactDec
  split
  · refine ⟨?_, by simp⟩
    calc m * 2 ^ e.toNat ≤ 2 ^ 53 * 2 ^ 971 := Nat.mul_le_mul hm.le (Nat.pow_le_pow_right (by norm_num) (by omega))
      _ < 10 ^ 5000 := by decide +kernel
  · refine ⟨?_, by show (-e).toNat < 5000; omega⟩
    calc m * 5 ^ (-e).toNat ≤ 2 ^ 53 * 5 ^ 1074 := Nat.mul_le_mul hm.le (Nat.pow_le_pow_right (by norm_num) (by omega))
      _ < 10 ^ 5000 := by decide +kernel

/-- a number text with an exponent, as `fmtE` writes it -/
def IsE (t : List Char) : Prop :=
  ∃ (d : Char) (ds : List Char) (n : ℤ), d.isDigit = true ∧ (∀ c ∈ ds, c.isDigit = true) ∧ n.natAbs < 10000 ∧ t = eTok d ds (expText n)

theorem eText_isE {c : ℕ} {e : ℤ} (h : ∃ l, c < 10 ^ l ∧ 0 < l ∧ e.natAbs + l < 10000) : IsE (eText c e) := by
  obtain ⟨l, hl, hl0, hb⟩ := h
  unfold eText
  have hd := toDigits_isDigit c
  have hlen : (Nat.toDigits 10 c).length ≤ l := (Nat.length_toDigits_le_iff (by norm_num) hl0).2 hl
  cases h : Nat.toDigits 10 c with
  | nil => exact absurd h Nat.toDigits_ne_nil
  | cons d ds =>
    rw [h] at hd hlen
    rw [List.length_cons] at hlen
    exact ⟨d, ds, _, hd d (by simp), fun c hc => hd c (by simp [hc]), by omega, rfl⟩

theorem trimZeros_le : ∀ (k m : ℕ), (trimZeros m k).1 ≤ m
  | 0, m => le_rfl
  | k + 1, m => by
    rw [trimZeros]
    split
    · exact (trimZeros_le k _).trans (Nat.div_le_self _ _)
    · exact le_rfl

theorem candNums_lt {M n : ℕ} {p : ℕ × ℕ} (hM : M < 10 ^ 5000) (hn : n < 17) (hp : p ∈ candNums M (n + 1)) : p.1 < 10 ^ 18 ∧ p.2 ≤ 5000 := by
  have hlen : (Nat.toDigits 10 M).length ≤ 5000 := (Nat.length_toDigits_le_iff (by norm_num) (by norm_num)).2 hM
  have hM' : M < 10 ^ (Nat.toDigits 10 M).length :=
    (Nat.length_toDigits_le_iff (by norm_num) (List.length_pos_iff.2 Nat.toDigits_ne_nil)).1 le_rfl
  have hlo : M / 10 ^ ((Nat.toDigits 10 M).length - (n + 1)) < 10 ^ 17 := by
    rw [Nat.div_lt_iff_lt_mul (by positivity), ← pow_add]
    exact hM'.trans_le (Nat.pow_le_pow_right (by norm_num) (by omega))
  have h18 : (10 : ℕ) ^ 17 < 10 ^ 18 := by norm_num
  have hmem : (p.1 = M / 10 ^ ((Nat.toDigits 10 M).length - (n + 1)) ∨ p.1 = M / 10 ^ ((Nat.toDigits 10 M).length - (n + 1)) + 1) ∧
      p.2 = (Nat.toDigits 10 M).length - (n + 1) := by
    unfold candNums at hp
    simp only at hp
    split at hp
    · simp only [List.mem_singleton] at hp; subst hp; exact ⟨.inl rfl, rfl⟩
    · split at hp <;> simp only [List.mem_cons, List.not_mem_nil, or_false] at hp <;> rcases hp with rfl | rfl
      · exact ⟨.inr rfl, rfl⟩
      · exact ⟨.inl rfl, rfl⟩
      · exact ⟨.inl rfl, rfl⟩
      · exact ⟨.inr rfl, rfl⟩
  obtain ⟨h1 | h1, h2⟩ := hmem
  · exact ⟨by omega, by omega⟩
  · exact ⟨by omega, by omega⟩

theorem candE_isE {k : ℕ} {p : ℕ × ℕ} (hk : k < 5000) (hp : p.1 < 10 ^ 18 ∧ p.2 ≤ 5000) : IsE (candE k p.1 p.2) := by
  unfold candE
  have hlen : (Nat.toDigits 10 p.1).length ≤ 18 := (Nat.length_toDigits_le_iff (by norm_num) (by norm_num)).2 hp.1
  refine eText_isE ⟨18, (trimZeros_le _ _).trans_lt hp.1, by norm_num, ?_⟩
  omega

/-- the text chosen has an exponent, and reads back if the exact text does -/
theorem shortestE_isE (x : Float) (M k : ℕ) (hM : M < 10 ^ 5000) (hk : k < 5000) (hx : readFloat (eText M (0 - k)) = some x) :
    IsE (shortestE x M k) ∧ readFloat (shortestE x M k) = some x := by
  unfold shortestE
  cases h : ((List.range 17).flatMap fun n => (candNums M (n + 1)).map fun p => candE k p.1 p.2).find? fun t => readFloat t = some x with
  | none => exact ⟨eText_isE ⟨5000, hM, by norm_num, by omega⟩, hx⟩
  | some t =>
    have h1 := List.find?_some h
    have h2 := List.mem_of_find?_eq_some h
    simp only [List.mem_flatMap, List.mem_map] at h2
    obtain ⟨n, hn, p, hp, rfl⟩ := h2
    exact ⟨candE_isE hk (candNums_lt hM (List.mem_range.1 hn) hp), by simpa using h1⟩

/-- the text with an exponent of a number which is not zero, and that it reads back -/
theorem formatE_isE {x : Float} {s m e h} (hx : x.toModel.unpack = .finite s m e h) :
    ∃ t, IsE t ∧ ((formatE x = t ∧ readFloat t = some x) ∨ (formatE x = '-' :: t ∧ readFloat t = some (-x) ∧ - -x = x)) := by
  have hg := good_f x
  rw [hx] at hg
  obtain ⟨l1, l2⟩ := exactDec_lt hg.1 hg.2
  cases s with
  | positive =>
    obtain ⟨a, b⟩ := shortestE_isE x _ _ l1 l2 (readFloat_eText l1 l2 (readFloat_exact hx))
    refine ⟨_, a, .inl ⟨?_, b⟩⟩
    unfold formatE
    rw [hx]
  | negative =>
    have hn : (-x).toModel.unpack = .finite .positive m e h := by rw [float_neg_unpack, hx]; rfl
    obtain ⟨a, b⟩ := shortestE_isE (-x) _ _ l1 l2 (readFloat_eText l1 l2 (readFloat_exact hn))
    refine ⟨_, a, .inr ⟨?_, b, neg_neg_finite hx⟩⟩
    unfold formatE
    rw [hx]

/-- the text without an exponent of a finite number, and that it reads back -/
theorem formatFloat_fixed {x : Float} (hx : ∃ q, valF x = .fin q) :
    ∃ m k, (formatFloat x = fixed m k ∨ formatFloat x = '-' :: fixed m k) ∧ parseFloat (formatFloat x) = some x := by
  have hr : parseFloat (formatFloat x) = some x := (readsBack_float x hx).1
  obtain ⟨q, hx⟩ := hx
  unfold valF at hx
  cases hu : x.toModel.unpack with
  | notANumber => rw [hu] at hx; cases hx
  | infinity s => rw [hu] at hx; cases s <;> cases hx
  | zero s =>
    refine ⟨0, 0, ?_, hr⟩
    cases s
    · right; unfold formatFloat; rw [hu]; rfl
    · left; unfold formatFloat; rw [hu]; rfl
  | finite s m e h =>
    cases s with
    | positive =>
      obtain ⟨m', k', e1, e2⟩ := shortest_fixed x _ _ (readFloat_exact hu)
      exact ⟨m', k', .inl (by unfold formatFloat; rw [hu]; exact e1), hr⟩
    | negative =>
      have hn : (-x).toModel.unpack = .finite .positive m e h := by rw [float_neg_unpack, hu]; rfl
      obtain ⟨m', k', e1, e2⟩ := shortest_fixed (-x) _ _ (readFloat_exact hn)
      exact ⟨m', k', .inr (by unfold formatFloat; rw [hu]; exact congrArg _ e1), hr⟩

end GoGeo.Strconv
