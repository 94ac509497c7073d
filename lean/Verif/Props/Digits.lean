import Verif.Go.StrconvShort
import Verif.Props.Wkt64

/-! # C115: the fewest digits

`FormatFloat(x, 'f', -1, 64)` writes the fewest digits from which the number is read back, and a text with at most 15 digits survives reading and writing. -/

namespace GoGeo
open FloatVal F64 Strconv GoFloat Wkt

/-! ### rows of digits -/

theorem of_digits : ∀ cs : List Char, (∀ c ∈ cs, c.isDigit = true) → ∃ ds : List (Fin 10), cs = ds.map digitChar
  | [], _ => ⟨[], rfl⟩
  | c :: cs, h => by
    obtain ⟨ds, hd⟩ := of_digits cs fun x hx => h x (by simp [hx])
    have hc := h c (by simp)
    have h1 : 48 ≤ c.toNat ∧ c.toNat ≤ 57 := by
      simp only [Char.isDigit, Bool.and_eq_true, decide_eq_true_eq, UInt32.le_iff_toNat_le] at hc
      exact hc
    refine ⟨⟨c.toNat - 48, by omega⟩ :: ds, ?_⟩
    rw [List.map_cons, ← hd]
    congr 1
    unfold digitChar
    show c = Char.ofNat (48 + (c.toNat - 48))
    rw [show 48 + (c.toNat - 48) = c.toNat by omega, Char.ofNat_toNat]

theorem row_of (ds : List (Fin 10)) : Nat.ofDigitChars 10 (ds.map digitChar) 0 = rowValue ds := ofDigitChars_row ds 0

theorem row_snoc (ds : List (Fin 10)) (d : Fin 10) : rowValue (ds ++ [d]) = 10 * rowValue ds + d.val := by
  simp [rowValue]

theorem row_append (as bs : List (Fin 10)) : rowValue (as ++ bs) = rowValue as * 10 ^ bs.length + rowValue bs := by
  induction bs using List.reverseRecOn with
  | nil => simp [rowValue]
  | append_singleton bs d ih =>
    rw [← List.append_assoc, row_snoc, row_snoc, ih, List.length_append, List.length_singleton, pow_succ]
    ring

theorem row_lt (ds : List (Fin 10)) : rowValue ds < 10 ^ ds.length := by
  induction ds using List.reverseRecOn with
  | nil => simp [rowValue]
  | append_singleton ds d ih =>
    rw [row_snoc, List.length_append, List.length_singleton, pow_succ]
    have := d.isLt
    omega

theorem row_ge {d : Fin 10} {ds : List (Fin 10)} (h : d ≠ 0) : 10 ^ ds.length ≤ rowValue (d :: ds) := by
  rw [← List.singleton_append, row_append]
  have : 1 ≤ rowValue [d] := by
    have : d.val ≠ 0 := fun h' => h (Fin.ext h')
    simp [rowValue]; omega
  calc 10 ^ ds.length = 1 * 10 ^ ds.length := (one_mul _).symm
    _ ≤ rowValue [d] * 10 ^ ds.length := Nat.mul_le_mul_right _ this
    _ ≤ _ := Nat.le_add_right _ _

theorem row_inj : ∀ as bs : List (Fin 10), as.length = bs.length → rowValue as = rowValue bs → as = bs := by
  intro as
  induction as using List.reverseRecOn with
  | nil => intro bs h _; exact (List.length_eq_zero_iff.1 h.symm).symm
  | append_singleton as a ih =>
    intro bs h1 h2
    induction bs using List.reverseRecOn with
    | nil => simp at h1
    | append_singleton bs b _ =>
      rw [row_snoc, row_snoc] at h2
      have ha := a.isLt
      have hb := b.isLt
      rw [ih bs (by simpa using h1) (by omega), Fin.ext (show a.val = b.val by omega)]

theorem last_mod {ds : List (Fin 10)} {d : Fin 10} (h : ds.getLast? = some d) (ws : List (Fin 10)) : rowValue (ws ++ ds) % 10 = d.val := by
  induction ds using List.reverseRecOn with
  | nil => simp at h
  | append_singleton ds b _ =>
    simp at h
    subst h
    rw [← List.append_assoc, row_snoc]
    have := b.isLt
    omega

/-- the digits of a number -/
theorem digits_whole {ws : List (Fin 10)} (h1 : ws ≠ []) (h2 : ws.head? = some 0 → ws = [0]) : Nat.toDigits 10 (rowValue ws) = ws.map digitChar := by
  cases ws with
  | nil => exact absurd rfl h1
  | cons d ds =>
    by_cases hd : d = 0
    · subst hd
      have := h2 rfl
      rw [this]
      rfl
    · obtain ⟨cs, hcs⟩ := of_digits _ (toDigits_isDigit (rowValue (d :: ds)))
      have hr : rowValue cs = rowValue (d :: ds) := by
        rw [← row_of, ← hcs, Nat.ofDigitChars_ten_toDigits]
      have hge := row_ge (ds := ds) hd
      have hlt := row_lt (d :: ds)
      have hpos : 0 < rowValue (d :: ds) := lt_of_lt_of_le (by positivity) hge
      obtain ⟨b1, b2⟩ := len_bounds hpos
      have l1 : ds.length < (Nat.toDigits 10 (rowValue (d :: ds))).length := (Nat.pow_lt_pow_iff_right (by norm_num)).1 (hge.trans_lt b2)
      have l2 : (Nat.toDigits 10 (rowValue (d :: ds))).length - 1 < (d :: ds).length := (Nat.pow_lt_pow_iff_right (by norm_num)).1 (b1.trans_lt hlt)
      have hl : cs.length = (d :: ds).length := by
        have : cs.length = (Nat.toDigits 10 (rowValue (d :: ds))).length := by rw [hcs]; simp
        rw [this]
        simp only [List.length_cons] at l2 ⊢
        omega
      rw [hcs, row_inj cs _ hl hr]

/-- the digits behind the point -/
theorem digits_frac {ds : List (Fin 10)} (h : ds ≠ []) :
    List.replicate (ds.length - (Nat.toDigits 10 (rowValue ds)).length) '0' ++ Nat.toDigits 10 (rowValue ds) = ds.map digitChar := by
  obtain ⟨cs, hcs⟩ := of_digits _ (toDigits_isDigit (rowValue ds))
  have hr : rowValue cs = rowValue ds := by
    rw [← row_of, ← hcs, Nat.ofDigitChars_ten_toDigits]
  have hlen : (Nat.toDigits 10 (rowValue ds)).length ≤ ds.length :=
    (Nat.length_toDigits_le_iff (by norm_num) (List.length_pos_of_ne_nil h)).2 (row_lt ds)
  have hcl : (Nat.toDigits 10 (rowValue ds)).length = cs.length := by rw [hcs]; simp
  have hz : ∀ n, rowValue (List.replicate n (0 : Fin 10)) = 0 := by
    intro n
    induction n with
    | zero => rfl
    | succ n ih => rw [List.replicate_succ', row_snoc, ih]; rfl
  have := row_inj (List.replicate (ds.length - cs.length) 0 ++ cs) ds (by simp; omega) (by rw [row_append, hz, hr]; simp)
  rw [hcl, hcs, ← this]
  simp
  right; rfl

/-! ### numerals without needless zeros -/

theorem Numeral.Plain.valid {n : Numeral} (h : n.Plain) : n.Valid := fun h' => h.1 (List.append_eq_nil_iff.1 h').1

theorem text_body (n : Numeral) : n.text = (if n.neg then ['-'] else []) ++ n.body := rfl

/-- the text of a plain numeral is the text of a decimal without zeros at the end -/
theorem plain_fixed {n : Numeral} (h : n.Plain) : n.body = fixed (rowValue (n.whole ++ n.fdigits)) n.fdigits.length ∧
    (n.fdigits.length = 0 ∨ rowValue (n.whole ++ n.fdigits) % 10 ≠ 0) := by
  obtain ⟨h1, h2, h3⟩ := h
  unfold Numeral.body fixed
  cases hf : n.frac with
  | none =>
    have e : n.fdigits = [] := by unfold Numeral.fdigits; rw [hf]; rfl
    rw [e]
    refine ⟨?_, .inl rfl⟩
    rw [if_pos List.length_nil, List.append_nil, List.append_nil, digits_whole h1 h2]
  | some ds =>
    have e : n.fdigits = ds := by unfold Numeral.fdigits; rw [hf]; rfl
    obtain ⟨d, hd, d0⟩ := h3 ds hf
    have hne : ds ≠ [] := by rintro rfl; simp at hd
    rw [e]
    refine ⟨?_, .inr ?_⟩
    · rw [if_neg (by simpa using hne), row_append]
      have hlt := row_lt ds
      have e1 : (rowValue n.whole * 10 ^ ds.length + rowValue ds) / 10 ^ ds.length = rowValue n.whole := by
        rw [add_comm, Nat.add_mul_div_right _ _ (by positivity), Nat.div_eq_of_lt hlt, zero_add]
      have e2 : (rowValue n.whole * 10 ^ ds.length + rowValue ds) % 10 ^ ds.length = rowValue ds := by
        rw [add_comm, Nat.add_mul_mod_self_right, Nat.mod_eq_of_lt hlt]
      rw [e1, e2, digits_whole h1 h2, digits_frac hne]
    · rw [last_mod hd]
      exact fun h' => d0 (Fin.ext h')

/-- the text of a decimal without zeros at the end is the text of a plain numeral -/
theorem fixed_plainNumeral (b : Bool) {m k : ℕ} (h : k = 0 ∨ m % 10 ≠ 0) : ∃ n : Numeral, n.neg = b ∧ n.Plain ∧ n.body = fixed m k ∧
    rowValue (n.whole ++ n.fdigits) = m ∧ n.fdigits.length = k := by
  have headOk : ∀ (a : ℕ) (ws : List (Fin 10)), Nat.toDigits 10 a = ws.map digitChar → rowValue ws = a ∧ ws ≠ [] ∧ (ws.head? = some 0 → ws = [0]) := by
    intro a ws hw
    have hr : rowValue ws = a := by rw [← row_of, ← hw, Nat.ofDigitChars_ten_toDigits]
    refine ⟨hr, ?_, ?_⟩
    · rintro rfl
      exact Nat.toDigits_ne_nil hw
    · intro hh
      cases ws with
      | nil => simp at hh
      | cons d ds =>
        simp at hh
        subst hh
        rcases Nat.eq_zero_or_pos a with ha | ha
        · subst ha
          have := congrArg List.length hw
          rw [Nat.toDigits_zero] at this
          simp at this
          rw [this]
        · exfalso
          have b1 := (len_bounds ha).1
          have hl : (Nat.toDigits 10 a).length = ds.length + 1 := by rw [hw]; simp
          rw [hl, Nat.add_sub_cancel, ← hr, ← List.singleton_append, row_append] at b1
          have := row_lt ds
          simp [rowValue] at b1 this
          omega
  rcases Nat.eq_zero_or_pos k with hk | hk
  · subst hk
    obtain ⟨ws, hw⟩ := of_digits _ (toDigits_isDigit m)
    obtain ⟨w1, w2, w3⟩ := headOk m ws hw
    refine ⟨⟨b, ws, none⟩, rfl, ⟨w2, w3, by simp⟩, ?_, ?_, rfl⟩
    · unfold Numeral.body fixed; simp [hw]
    · simpa [Numeral.fdigits] using w1
  · have hm : m % 10 ≠ 0 := h.resolve_left (by omega)
    obtain ⟨ws, hw⟩ := of_digits _ (toDigits_isDigit (m / 10 ^ k))
    obtain ⟨w1, w2, w3⟩ := headOk _ ws hw
    obtain ⟨ds, hd⟩ := of_digits (List.replicate (k - (Nat.toDigits 10 (m % 10 ^ k)).length) '0' ++ Nat.toDigits 10 (m % 10 ^ k)) (by
      intro c hc
      rcases List.mem_append.1 hc with hc | hc
      · rw [List.eq_of_mem_replicate hc]; rfl
      · exact toDigits_isDigit _ c hc)
    have hml : (Nat.toDigits 10 (m % 10 ^ k)).length ≤ k := (Nat.length_toDigits_le_iff (by norm_num) hk).2 (Nat.mod_lt _ (by positivity))
    have hlen : ds.length = k := by
      have := congrArg List.length hd
      simp at this
      omega
    have hrow : rowValue ds = m % 10 ^ k := by
      obtain ⟨cs, hcs⟩ := of_digits _ (toDigits_isDigit (m % 10 ^ k))
      have hr : rowValue cs = m % 10 ^ k := by rw [← row_of, ← hcs, Nat.ofDigitChars_ten_toDigits]
      have hz : ∀ n, Nat.ofDigitChars 10 (List.replicate n '0') 0 = 0 := by
        intro n
        induction n with
        | zero => rfl
        | succ n ih => rw [List.replicate_succ, Nat.ofDigitChars_cons]; exact ih
      rw [← row_of, ← hd, Nat.ofDigitChars_append, hz, Nat.ofDigitChars_ten_toDigits]
    have hdne : ds ≠ [] := by rintro rfl; simp at hlen; omega
    have hall : rowValue (ws ++ ds) = m := by
      rw [row_append, w1, hrow, hlen, mul_comm]
      exact Nat.div_add_mod m (10 ^ k)
    refine ⟨⟨b, ws, some ds⟩, rfl, ⟨w2, w3, ?_⟩, ?_, hall, hlen⟩
    · intro ds' he
      injection he with he
      subst he
      obtain ⟨d, hl⟩ : ∃ d, ds.getLast? = some d := ⟨_, List.getLast?_eq_some_getLast hdne⟩
      refine ⟨d, hl, fun h0 => hm ?_⟩
      rw [← hall, last_mod hl, h0]
      rfl
    · unfold Numeral.body fixed
      rw [if_neg (by omega)]
      simp [hw, hd]

/-- decimals without zeros at the end are equal if their values are -/
theorem trimmed_unique {m k m' k' : ℕ} (h : k = 0 ∨ m % 10 ≠ 0) (h' : k' = 0 ∨ m' % 10 ≠ 0) (he : (m : ℚ) / 10 ^ k = (m' : ℚ) / 10 ^ k') : m = m' ∧ k = k' := by
  have key : ∀ {m k m' k' : ℕ}, (k' = 0 ∨ m' % 10 ≠ 0) → (m : ℚ) / 10 ^ k = (m' : ℚ) / 10 ^ k' → ¬ k < k' := by
    intro m k m' k' h' he hlt
    rw [div_eq_div_iff (by positivity) (by positivity)] at he
    obtain ⟨j, rfl⟩ := Nat.exists_eq_add_of_lt hlt
    have : m * 10 ^ (k + j + 1) = m' * 10 ^ k := by exact_mod_cast he
    have h2 : (m * 10 ^ j * 10) * 10 ^ k = m' * 10 ^ k := by rw [← this]; ring
    have h3 := Nat.eq_of_mul_eq_mul_right (by positivity) h2
    omega
  have hk : k = k' := by
    rcases lt_trichotomy k k' with h1 | h1 | h1
    · exact absurd h1 (key h' he)
    · exact h1
    · exact absurd h1 (key h he.symm)
  subst hk
  rw [div_left_inj' (by positivity)] at he
  exact ⟨by exact_mod_cast he, rfl⟩

theorem abs_value (n : Numeral) : |n.value| = (rowValue (n.whole ++ n.fdigits) : ℚ) / 10 ^ n.fdigits.length := by
  have h0 : (0 : ℚ) ≤ (rowValue (n.whole ++ n.fdigits) : ℚ) / 10 ^ n.fdigits.length := by positivity
  rw [numeral_value]
  split
  · rw [abs_neg, abs_of_nonneg h0]
  · rw [abs_of_nonneg h0]

/-- a numeral read as a number that is not zero -/
theorem numeral_reads {n : Numeral} (hn : n.Valid) {x : Float} {s m e h} (hx : x.toModel.unpack = .finite s m e h) (hp : parseFloat n.text = some x) :
    rnP |n.value| = (m : ℚ) * 2 ^ e := by
  have hg := good_f x
  rw [hx] at hg
  have hpos := fval_pos hg.1.pos e
  rw [parse_numeral n hn] at hp
  have hv := decVal_val (rowValue (n.whole ++ n.fdigits)) n.fdigits.length
  rw [← abs_value, rndX_pos (abs_nonneg _)] at hv
  have h0 := rnP_nonneg (abs_nonneg n.value)
  generalize decVal (rowValue (n.whole ++ n.fdigits)) (0 - n.fdigits.length) = d at *
  split at hp
  · cases hp
  · injection hp with hp
    have hvx : valF x = .fin (match s with | .positive => (m : ℚ) * 2 ^ e | .negative => -((m : ℚ) * 2 ^ e)) := by
      unfold valF; simp only [hx]; cases s <;> rfl
    have hvn : valF x = if n.neg then XR.neg (valF d) else valF d := by
      rw [← hp]
      split
      · exact val_neg d
      · rfl
    rw [hvn, hv] at hvx
    unfold ovf at hvx
    cases hneg : n.neg <;> simp only [hneg, if_true, Bool.false_eq_true, if_false] at hvx
    · split at hvx
      · cases hvx
      · injection hvx with hvx
        cases s <;> simp only at hvx <;> linarith
    · split at hvx
      · cases hvx
      · injection hvx with hvx
        cases s <;> simp only at hvx <;> linarith

/-- `FormatFloat` for a number that is not zero -/
theorem format_spec {x : Float} {s m e h} (hx : x.toModel.unpack = .finite s m e h) :
    ∃ (m' k' n : ℕ) (c : ℕ) (i : ℤ), formatFloat x = (if s == .negative then ['-'] else []) ++ fixed m' k' ∧ (k' = 0 ∨ m' % 10 ≠ 0) ∧ 0 < m' ∧ (m' : ℚ) / 10 ^ k' = c * 10 ^ i ∧ c < 10 ^ (n + 1) ∧ n < 17 ∧
      rnP ((m' : ℚ) / 10 ^ k') = (m : ℚ) * 2 ^ e ∧
      ∀ (n' c' : ℕ) (i' : ℤ), c' < 10 ^ (n' + 1) → rnP ((c' : ℚ) * 10 ^ i') = (m : ℚ) * 2 ^ e → n ≤ n' := by
  unfold formatFloat
  simp only [hx]
  cases s with
  | positive =>
    obtain ⟨m', k', n, c, i, h1, h2⟩ := shortest_spec hx (exactDec_val m e)
    exact ⟨m', k', n, c, i, h1, h2⟩
  | negative =>
    have hx' : (-x).toModel.unpack = .finite .positive m e h := by rw [float_neg_unpack, hx]; rfl
    obtain ⟨m', k', n, c, i, h1, h2⟩ := shortest_spec hx' (exactDec_val m e)
    exact ⟨m', k', n, c, i, by simp only [h1]; rfl, h2⟩

theorem hasDigits_abs {n : ℕ} {q : ℚ} : HasDigits n q ↔ ∃ (c : ℕ) (i : ℤ), c < 10 ^ n ∧ |q| = (c : ℚ) * 10 ^ i := by
  have p10 : ∀ i : ℤ, (0 : ℚ) < 10 ^ i := fun i => zpow_pos (by norm_num) i
  constructor
  · rintro ⟨c, e, h1, h2⟩
    refine ⟨c.natAbs, e, ?_, ?_⟩
    · rw [Int.abs_eq_natAbs] at h1; exact_mod_cast h1
    · rw [h2, abs_mul, abs_of_pos (p10 e), Nat.cast_natAbs, Int.cast_abs]
  · rintro ⟨c, e, h1, h2⟩
    rcases abs_choice q with h | h
    · exact ⟨c, e, by rw [Nat.abs_cast]; exact_mod_cast h1, by rw [← h, h2]; simp⟩
    · refine ⟨-c, e, by rw [abs_neg, Nat.abs_cast]; exact_mod_cast h1, ?_⟩
      have : q = -|q| := by rw [h, neg_neg]
      rw [this, h2]; push_cast; ring

/-- C115: a finite `float64` is written as a decimal without needless zeros, with at most 17 significant digits; no numeral with fewer significant digits is read as the same number -/
theorem C115_shortest (x : Float) (hx : FiniteNum x) : ∃ (n : Numeral) (d : ℕ), float64Text.fmt x = n.text ∧ n.Plain ∧ HasDigits d n.value ∧ d ≤ 17 ∧
    (∀ (n' : Numeral) (d' : ℕ), n'.Valid → float64Text.parse n'.text = some x → HasDigits d' n'.value → d ≤ d') ∧ float64Text.parse n.text = some x := by
  have hrb := (FiniteNum.reads hx).1
  obtain ⟨q, hq⟩ := hx.val
  suffices H : ∃ (n : Numeral) (d : ℕ), float64Text.fmt x = n.text ∧ n.Plain ∧ HasDigits d n.value ∧ d ≤ 17 ∧
      (∀ (n' : Numeral) (d' : ℕ), n'.Valid → float64Text.parse n'.text = some x → HasDigits d' n'.value → d ≤ d') by
    obtain ⟨n, d, h1, h2⟩ := H
    exact ⟨n, d, h1, h2.1, h2.2.1, h2.2.2.1, h2.2.2.2, by rw [← h1]; exact hrb⟩
  have hf : float64Text.fmt x = formatFloat x := rfl
  cases hu : x.toModel.unpack with
  | notANumber => unfold valF at hq; rw [hu] at hq; cases hq
  | infinity s => unfold valF at hq; rw [hu] at hq; cases s <;> cases hq
  | zero s =>
    refine ⟨⟨s == .negative, [0], none⟩, 0, ?_, ⟨by simp, by simp, by simp⟩, ⟨0, 0, by norm_num, ?_⟩, by omega, fun _ _ _ _ _ => Nat.zero_le _⟩
    · rw [hf]
      unfold formatFloat
      simp only [hu]
      cases s <;> rfl
    · rw [numeral_value]
      cases s <;> simp [Numeral.fdigits, rowValue]
  | finite s m e h =>
    obtain ⟨m', k', n, c, i, h1, h2, h3, h4, h5, h6, h7, h8⟩ := format_spec hu
    obtain ⟨N, n1, n2, n3, n4, n5⟩ := fixed_plainNumeral (s == .negative) h2
    refine ⟨N, n + 1, ?_, n2, ?_, by omega, ?_⟩
    · rw [hf, h1, text_body, n1, n3]
    · rw [hasDigits_abs]
      exact ⟨c, i, h5, by rw [abs_value, n4, n5, h4]⟩
    · intro n' d' hv hp hd
      have hr := numeral_reads hv hu hp
      obtain ⟨c', i', g1, g2⟩ := hasDigits_abs.1 hd
      cases d' with
      | zero =>
        have : c' = 0 := by simpa using g1
        rw [g2, this] at hr
        have hg := good_f x
        rw [hu] at hg
        have := fval_pos hg.1.pos e
        rw [Nat.cast_zero, zero_mul, rnP_zero] at hr
        linarith
      | succ d' =>
        rw [g2] at hr
        have := h8 d' c' i' g1 hr
        omega

/-- a text with at most 15 significant digits survives -/
theorem keep {n : Numeral} (hn : n.Plain) (hd : HasDigits 15 n.value) (h0 : n.value = 0 ∨ 1 / 10 ^ 307 ≤ |n.value|) (hr : InRange n.value) :
    ∃ x, parseFloat n.text = some x ∧ IsNearest x n.value ∧ formatFloat x = n.text := by
  obtain ⟨x, hx, hnear⟩ := (parse_nearest n hn.valid).1 hr
  refine ⟨x, hx, hnear, ?_⟩
  obtain ⟨pf1, pf2⟩ := plain_fixed hn
  rcases h0 with h0 | h0
  · -- zero
    have hz : |n.value| = 0 := by rw [h0, abs_zero]
    rw [abs_value, div_eq_zero_iff] at hz
    have hz : rowValue (n.whole ++ n.fdigits) = 0 := by
      rcases hz with hz | hz
      · exact_mod_cast hz
      · exact absurd hz (by positivity)
    have hl : n.fdigits.length = 0 := pf2.resolve_right (by rw [hz]; simp)
    rw [hz, hl] at pf1
    rw [text_body, pf1] at hx ⊢
    cases hneg : n.neg with
    | false =>
      rw [hneg] at hx
      have : parseFloat (fixed 0 0) = some (0 : Float) := by decide +kernel
      simp only [Bool.false_eq_true, if_false, List.nil_append] at hx ⊢
      rw [this] at hx
      injection hx with hx
      rw [← hx]
      decide +kernel
    | true =>
      rw [hneg] at hx
      have : parseFloat ('-' :: fixed 0 0) = some (-0 : Float) := by decide +kernel
      simp only [if_true, List.singleton_append] at hx ⊢
      rw [this] at hx
      injection hx with hx
      rw [← hx]
      decide +kernel
  · have hqpos : 0 < |n.value| := lt_of_lt_of_le (by positivity) h0
    obtain ⟨c, i, c1, c2⟩ := hasDigits_abs.1 hd
    have lt3 : (3 : ℚ) / 10 ^ 308 < 1 / 10 ^ 307 := by
      rw [div_lt_div_iff₀ (by positivity) (by positivity), one_mul]
      have : 3 * 10 ^ 307 < 10 ^ 308 := by decide +kernel
      exact_mod_cast this
    have big : (3 : ℚ) / 10 ^ 308 ≤ |n.value| := lt3.le.trans h0
    have e3 : ((3 : ℕ) : ℚ) * 10 ^ (-308 : ℤ) = 3 / 10 ^ 308 := by
      rw [zpow_neg, show (308 : ℤ) = ((308 : ℕ) : ℤ) from rfl, zpow_natCast, div_eq_mul_inv]; rfl
    have e1 : ((1 : ℕ) : ℚ) * 10 ^ (-307 : ℤ) = 1 / 10 ^ 307 := by
      rw [zpow_neg, show (307 : ℤ) = ((307 : ℕ) : ℤ) from rfl, zpow_natCast, div_eq_mul_inv, Nat.cast_one]
    have strict : rnP (3 / 10 ^ 308) < rnP (1 / 10 ^ 307) := by
      refine lt_of_le_of_ne (rnP_mono (by positivity) lt3.le) fun he => ?_
      have := rnP_inj15 (c := 3) (c' := 1) (i := -308) (i' := -307) (by norm_num) (by norm_num) (by rw [e3]) (by rw [e1]; exact lt3.le) (by rw [e3, e1]; exact he)
      rw [e3, e1] at this
      exact lt3.ne this
    -- the number is not zero
    obtain ⟨v, hv, -⟩ := hnear
    have hv : valF x = .fin v := hv
    have hrpos : 0 < rnP |n.value| := lt_of_le_of_lt (rnP_nonneg (by positivity)) (strict.trans_le (rnP_mono (by positivity) h0))
    have hp := hx
    rw [parse_numeral n hn.valid] at hp
    have hdv := decVal_val (rowValue (n.whole ++ n.fdigits)) n.fdigits.length
    rw [← abs_value, rndX_pos (abs_nonneg _)] at hdv
    split at hp
    · cases hp
    rename_i hninf
    injection hp with hp
    have hdfin : valF (decVal (rowValue (n.whole ++ n.fdigits)) (0 - n.fdigits.length)) = .fin (rnP |n.value|) := by
      rw [hdv]
      unfold ovf at hdv ⊢
      split
      · rename_i h
        rw [if_pos h] at hdv
        exact absurd ((eq_inf_iff _).2 hdv) hninf
      · rfl
    generalize decVal (rowValue (n.whole ++ n.fdigits)) (0 - n.fdigits.length) = d at *
    obtain ⟨m, e, h, hdu⟩ : ∃ m e h, d.toModel.unpack = .finite .positive m e h := by
      unfold valF at hdfin
      cases hu : d.toModel.unpack with
      | notANumber => rw [hu] at hdfin; cases hdfin
      | infinity s => rw [hu] at hdfin; cases s <;> cases hdfin
      | zero s =>
        rw [hu] at hdfin
        injection hdfin with hdfin
        linarith
      | finite s m e h =>
        cases s with
        | positive => exact ⟨m, e, h, rfl⟩
        | negative =>
          rw [hu] at hdfin
          have hg := good_f d
          rw [hu] at hg
          have hpos := fval_pos hg.1.pos e
          have : -((m : ℚ) * 2 ^ e) = rnP |n.value| := by injection hdfin
          linarith
    have hxu : x.toModel.unpack = .finite (if n.neg then .negative else .positive) m e h := by
      rw [← hp]
      split
      · rw [float_neg_unpack, hdu]; rfl
      · exact hdu
    have hrd := numeral_reads hn.valid hxu hx
    obtain ⟨m', k', N, c', i', h1, h2, h3, h4, h5, h6, h7, h8⟩ := format_spec hxu
    have hN := h8 14 c i c1 (by rw [← c2, hrd])
    have hc' : c' < 10 ^ 15 := h5.trans_le (Nat.pow_le_pow_right (by norm_num) (by omega))
    have big' : (3 : ℚ) / 10 ^ 308 ≤ (c' : ℚ) * 10 ^ i' := by
      by_contra hlt
      have := rnP_mono (by rw [← h4]; positivity) (not_le.1 hlt).le
      rw [← h4, h7, ← hrd] at this
      have := rnP_mono (by positivity) h0
      linarith
    have huniq := rnP_inj15 c1 hc' (by rw [← c2]; exact big) big' (by rw [← c2, hrd, ← h4, h7])
    rw [← c2, ← h4, abs_value] at huniq
    obtain ⟨u1, u2⟩ := trimmed_unique pf2 h2 huniq
    rw [h1, text_body, pf1, u1, u2]
    cases n.neg <;> rfl

theorem finite_of_val {x : Float} {q : ℚ} (h : val x = .fin q) : FiniteNum x := by
  refine ⟨?_, ?_, ?_⟩
  · rw [FloatVal.val_isNaN (K := ℚ), h]; rfl
  · rw [FloatVal.val_eq (K := ℚ), val_inf, h]; rfl
  · rw [FloatVal.val_eq (K := ℚ), val_neg, val_inf, h]; rfl

theorem usual {n : Numeral} (hn : n.Usual) : ∃ x : Float, FiniteNum x ∧ IsNearest x n.value ∧ float64Text.fmt x = n.text := by
  obtain ⟨x, -, h2, h3⟩ := keep hn.1 hn.2.1 hn.2.2.1 hn.2.2.2
  obtain ⟨v, hv, h2'⟩ := h2
  exact ⟨x, finite_of_val hv, ⟨v, hv, h2'⟩, h3⟩

theorem usual_path : ∀ ps : List (Numeral × Numeral), (∀ p ∈ ps, p.1.Usual ∧ p.2.Usual) → ∃ qs : List (Point Float),
    qs.map (xyText float64Text) = ps.map numeralPos ∧ (∀ q ∈ qs, FiniteNum q.X ∧ FiniteNum q.Y)
  | [], _ => ⟨[], rfl, by simp⟩
  | p :: ps, h => by
    obtain ⟨qs, h1, h2⟩ := usual_path ps fun x hx => h x (by simp [hx])
    obtain ⟨x, fx, -, tx⟩ := usual (h p (by simp)).1
    obtain ⟨y, fy, -, ty⟩ := usual (h p (by simp)).2
    refine ⟨⟨x, y⟩ :: qs, ?_, ?_⟩
    · rw [List.map_cons, List.map_cons, h1]
      unfold xyText numeralPos
      simp only [tx, ty]
    · intro q hq
      rcases List.mem_cons.1 hq with rfl | hq
      · exact ⟨fx, fy⟩
      · exact h2 q hq

/-- C115: a point whose coordinates have at most 15 digits is decoded and encoded to the same text -/
theorem C115_point (x y : Numeral) (hx : x.Usual) (hy : y.Usual) :
    ∃ g, Decode float64Text ("POINT(".toList ++ numeralPos (x, y) ++ ")".toList) = .ok (some g) ∧ Encode float64Text g = "POINT(".toList ++ numeralPos (x, y) ++ ")".toList := by
  obtain ⟨a, fa, -, ta⟩ := usual hx
  obtain ⟨b, fb, -, tb⟩ := usual hy
  have he : Encode float64Text (.point ⟨a, b⟩) = "POINT(".toList ++ numeralPos (x, y) ++ ")".toList := by
    unfold Encode xyText numeralPos
    simp only [ta, tb]
    simp
  exact ⟨_, by rw [← he]; exact C53_float64 _ ⟨fa, fb⟩, he⟩

/-- C115: the same for lines -/
theorem C115_line (ps : List (Numeral × Numeral)) (h0 : ps ≠ []) (h : ∀ p ∈ ps, p.1.Usual ∧ p.2.Usual) :
    ∃ g, Decode float64Text ("LINESTRING(".toList ++ Str.join ',' (ps.map numeralPos) ++ ")".toList) = .ok (some g) ∧
      Encode float64Text g = "LINESTRING(".toList ++ Str.join ',' (ps.map numeralPos) ++ ")".toList := by
  obtain ⟨qs, h1, h2⟩ := usual_path ps h
  have hq : qs ≠ [] := by
    rintro rfl
    exact h0 (by simpa using h1.symm)
  have he : Encode float64Text (.lineString qs) = "LINESTRING(".toList ++ Str.join ',' (ps.map numeralPos) ++ ")".toList := by
    unfold Encode pathText paren
    simp only [h1]
    simp
  exact ⟨_, by rw [← he]; exact C53_float64 _ ⟨hq, h2⟩, he⟩

/-- C115: the same for multipoints -/
theorem C115_multiPoint (ps : List (Numeral × Numeral)) (h0 : ps ≠ []) (h : ∀ p ∈ ps, p.1.Usual ∧ p.2.Usual) :
    ∃ g, Decode float64Text ("MULTIPOINT(".toList ++ Str.join ',' (ps.map numeralPos) ++ ")".toList) = .ok (some g) ∧
      Encode float64Text g = "MULTIPOINT(".toList ++ Str.join ',' (ps.map numeralPos) ++ ")".toList := by
  obtain ⟨qs, h1, h2⟩ := usual_path ps h
  have hq : qs ≠ [] := by
    rintro rfl
    exact h0 (by simpa using h1.symm)
  have he : Encode float64Text (.multiPoint qs) = "MULTIPOINT(".toList ++ Str.join ',' (ps.map numeralPos) ++ ")".toList := by
    unfold Encode pathText paren
    simp only [h1]
    simp
  exact ⟨_, by rw [← he]; exact C53_float64 _ ⟨hq, h2⟩, he⟩

/-- C115: and for points in three dimensions -/
theorem C115_pointZ (x y z : Numeral) (hx : x.Usual) (hy : y.Usual) (hz : z.Usual) :
    ∃ g, Decode float64Text ("POINT(".toList ++ x.text ++ ' ' :: (y.text ++ ' ' :: (z.text ++ ")".toList))) = .ok (some g) ∧
      Encode float64Text g = "POINT(".toList ++ x.text ++ ' ' :: (y.text ++ ' ' :: (z.text ++ ")".toList)) := by
  obtain ⟨a, fa, -, ta⟩ := usual hx
  obtain ⟨b, fb, -, tb⟩ := usual hy
  obtain ⟨c, fc, -, tc⟩ := usual hz
  have he : Encode float64Text (.pointZ ⟨a, b, c⟩) = "POINT(".toList ++ x.text ++ ' ' :: (y.text ++ ' ' :: (z.text ++ ")".toList)) := by
    unfold Encode xyzText
    simp only [ta, tb, tc]
    simp
  exact ⟨_, by rw [← he]; exact C53_float64 _ ⟨fa, fb, fc⟩, he⟩

/-- C115: with 16 digits the text may change -/
theorem C115_sixteen : ∃ g, Decode float64Text "POINT(9007199254740993 0)".toList = .ok (some g) ∧ Encode float64Text g = "POINT(9007199254740992 0)".toList := by
  have h : (match Decode float64Text "POINT(9007199254740993 0)".toList with | .ok (some g) => decide (Encode float64Text g = "POINT(9007199254740992 0)".toList) | _ => false) = true := by decide +kernel
  revert h
  cases Decode float64Text "POINT(9007199254740993 0)".toList with
  | error e => intro h; cases h
  | ok o =>
    cases o with
    | none => intro h; cases h
    | some g => intro h; exact ⟨g, rfl, of_decide_eq_true h⟩

/-- `116.3974799` is usual -/
example : (Numeral.mk false [1, 1, 6] (some [3, 9, 7, 4, 7, 9, 9])).Usual ∧ (Numeral.mk false [1, 1, 6] (some [3, 9, 7, 4, 7, 9, 9])).text = "116.3974799".toList := by
  have hv : (Numeral.mk false [1, 1, 6] (some [3, 9, 7, 4, 7, 9, 9])).value = 1163974799 / 10 ^ 7 := by
    norm_num [Numeral.value, rowValue, Numeral.fdigits]
  refine ⟨⟨⟨by simp, by simp, ?_⟩, ⟨1163974799, -7, by norm_num, ?_⟩, .inr ?_, ?_⟩, by decide⟩
  · intro ds h; injection h with h; subst h; exact ⟨9, rfl, by decide⟩
  · rw [hv]; norm_num
  · rw [hv]
    calc (1 : ℚ) / 10 ^ 307 ≤ 1 / 1 := by
          apply one_div_le_one_div_of_le (by norm_num)
          exact one_le_pow₀ (by norm_num)
      _ ≤ _ := by norm_num
  · rw [hv]
    unfold InRange
    have : (2 : ℚ) ^ 1024 - 2 ^ 970 = (2 ^ 54 - 1) * 2 ^ 970 := by
      rw [show 1024 = 54 + 970 by norm_num, pow_add]; ring
    rw [this]
    have h1 : (1 : ℚ) ≤ 2 ^ 970 := one_le_pow₀ (by norm_num)
    have := mul_le_mul_of_nonneg_left h1 (by norm_num : (0 : ℚ) ≤ 2 ^ 54 - 1)
    refine lt_of_lt_of_le ?_ this
    norm_num

/-- 0.1 + 0.2 needs 17 digits -/
example : FiniteNum (0.1 + 0.2 : Float) ∧ float64Text.fmt (0.1 + 0.2) = "0.30000000000000004".toList := by
  refine ⟨?_, by decide +kernel⟩
  unfold FiniteNum
  decide +kernel

end GoGeo
