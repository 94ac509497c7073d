import Verif.Go.Strconv
import Verif.Go.F64Sqrt
import Verif.Go.F64Sq
import Verif.Spec.Text

/-! # What `FormatFloat` writes, `ParseFloat` reads back, for every finite `float64` -/

namespace GoGeo.F64
open Float.Model Float.Model.UnpackedFloat

theorem bits_ext {a b : BitVec Format.binary64.numBits} (hs : unpackSign a = unpackSign b) (he : unpackExponent a = unpackExponent b)
    (hm : unpackMantissa a = unpackMantissa b) : a = b := by
  apply BitVec.eq_of_toNat_eq
  have hs := congrArg BitVec.toNat hs
  have he := congrArg BitVec.toNat he
  have hm := congrArg BitVec.toNat hm
  simp only [unpackSign, unpackExponent, unpackMantissa, BitVec.toNat_cast, BitVec.extractLsb_toNat, Nat.shiftRight_eq_div_pow] at hs he hm
  have ha := a.isLt
  have hb := b.isLt
  simp only [Format.binary64, Format.numBits] at *
  norm_num at *
  omega

theorem sign_inj {a b : BitVec 1} (h : Sign.ofBitVec a = Sign.ofBitVec b) : a = b := by
  have key : ∀ a b : BitVec 1, Sign.ofBitVec a = Sign.ofBitVec b → a = b := by
    intro a b h
    have ha := a.isLt
    have hb := b.isLt
    have ea : a = 0#1 ∨ a = 1#1 := by
      rcases (by omega : a.toNat = 0 ∨ a.toNat = 1) with h | h
      · exact .inl (BitVec.eq_of_toNat_eq h)
      · exact .inr (BitVec.eq_of_toNat_eq h)
    have eb : b = 0#1 ∨ b = 1#1 := by
      rcases (by omega : b.toNat = 0 ∨ b.toNat = 1) with h | h
      · exact .inl (BitVec.eq_of_toNat_eq h)
      · exact .inr (BitVec.eq_of_toNat_eq h)
    rcases ea with rfl | rfl <;> rcases eb with rfl | rfl <;> first | rfl | cases h
  exact key a b h

theorem unpack_finite_bits {b : BitVec Format.binary64.numBits} {s m e h}
    (hu : UnpackedFloat.unpack Format.binary64 b = .finite s m e h) :
    Sign.ofBitVec (unpackSign b) = s ∧
    ((m < 2 ^ 52 ∧ (unpackExponent b).toNat = 0 ∧ (unpackMantissa b).toNat = m) ∨
     (2 ^ 52 ≤ m ∧ ((unpackExponent b).toNat : ℤ) = e + 1075 ∧ (unpackMantissa b).toNat + 2 ^ 52 = m)) := by
  rw [unpack_eq] at hu
  have hm := (unpackMantissa b).isLt
  simp only [Format.binary64] at hm
  split at hu
  · split at hu <;> cases hu
  · split at hu
    · rename_i h0
      split at hu
      · cases hu
      · injection hu with h1 h2 h3
        have : (unpackExponent b).toNat = 0 := by rw [h0]; rfl
        exact ⟨h1, .inl ⟨by omega, this, h2⟩⟩
    · injection hu with h1 h2 h3
      rw [BitVec.toNat_append] at h2
      have h4 : m = 2 ^ 52 + (unpackMantissa b).toNat := by
        rw [← h2, ← Nat.shiftLeft_add_eq_or_of_lt hm]; rfl
      exact ⟨h1, .inr ⟨by omega, by omega, by omega⟩⟩

theorem unpack_zero_bits {b : BitVec Format.binary64.numBits} {s}
    (hu : UnpackedFloat.unpack Format.binary64 b = .zero s) :
    Sign.ofBitVec (unpackSign b) = s ∧ unpackExponent b = 0#11 ∧ unpackMantissa b = 0#52 := by
  rw [unpack_eq] at hu
  split at hu
  · split at hu <;> cases hu
  · split at hu
    · rename_i h0
      split at hu
      · rename_i h1
        injection hu with h2
        exact ⟨h2, h0, h1⟩
      · cases hu
    · cases hu

theorem float_bits_ext {f g : Float} (h : f.toModel.toBits.toBitVec = g.toModel.toBits.toBitVec) : f = g := by
  obtain ⟨⟨⟨a⟩, ha⟩⟩ := f
  obtain ⟨⟨⟨b⟩, hb⟩⟩ := g
  cases (show a = b from h)
  rfl

/-- finite `float64` numbers are determined by sign, mantissa and exponent -/
theorem float_ext_finite {f g : Float} {s m e h h'} (hf : f.toModel.unpack = .finite s m e h) (hg : g.toModel.unpack = .finite s m e h') : f = g := by
  apply float_bits_ext
  obtain ⟨s1, c1⟩ := unpack_finite_bits (b := f.toModel.toBits.toBitVec) hf
  obtain ⟨s2, c2⟩ := unpack_finite_bits (b := g.toModel.toBits.toBitVec) hg
  refine bits_ext (sign_inj (s1.trans s2.symm)) (BitVec.eq_of_toNat_eq ?_) (BitVec.eq_of_toNat_eq ?_)
  · rcases c1 with c1 | c1 <;> rcases c2 with c2 | c2 <;> omega
  · rcases c1 with c1 | c1 <;> rcases c2 with c2 | c2 <;> omega

theorem float_ext_zero {f g : Float} {s} (hf : f.toModel.unpack = .zero s) (hg : g.toModel.unpack = .zero s) : f = g := by
  apply float_bits_ext
  obtain ⟨s1, c1, d1⟩ := unpack_zero_bits (b := f.toModel.toBits.toBitVec) hf
  obtain ⟨s2, c2, d2⟩ := unpack_zero_bits (b := g.toModel.toBits.toBitVec) hg
  exact bits_ext (sign_inj (s1.trans s2.symm)) (c1.trans c2.symm) (d1.trans d2.symm)

theorem unpack_inf_bits {b : BitVec Format.binary64.numBits} {s}
    (hu : UnpackedFloat.unpack Format.binary64 b = .infinity s) :
    Sign.ofBitVec (unpackSign b) = s ∧ unpackExponent b = -1#11 ∧ unpackMantissa b = 0#52 := by
  rw [unpack_eq] at hu
  split at hu
  · rename_i h0
    split at hu
    · rename_i h1
      injection hu with h2
      exact ⟨h2, h0, h1⟩
    · cases hu
  · split at hu
    · split at hu <;> cases hu
    · cases hu

theorem float_ext_inf {f g : Float} {s} (hf : f.toModel.unpack = .infinity s) (hg : g.toModel.unpack = .infinity s) : f = g := by
  apply float_bits_ext
  obtain ⟨s1, c1, d1⟩ := unpack_inf_bits (b := f.toModel.toBits.toBitVec) hf
  obtain ⟨s2, c2, d2⟩ := unpack_inf_bits (b := g.toModel.toBits.toBitVec) hg
  exact bits_ext (sign_inj (s1.trans s2.symm)) (c1.trans c2.symm) (d1.trans d2.symm)

theorem eq_inf_iff (f : Float) : f = GoFloat.inf ↔ valF f = .pinf := by
  constructor
  · rintro rfl; rfl
  · intro h
    unfold valF at h
    cases hu : f.toModel.unpack with
    | notANumber => rw [hu] at h; cases h
    | zero s => rw [hu] at h; cases h
    | finite s m e hm => rw [hu] at h; cases s <;> cases h
    | infinity s =>
      rw [hu] at h
      cases s with
      | negative => cases h
      | positive => exact float_ext_inf hu rfl

/-- a positive value determines the number -/
theorem unpack_of_val {f : Float} {m : ℕ} {e : ℤ} (hc : Canon m e) (hv : valF f = .fin ((m : ℚ) * 2 ^ e)) :
    ∃ h, f.toModel.unpack = .finite .positive m e h := by
  have hp := fval_pos hc.pos e
  have hg := good_f f
  unfold valF at hv
  cases hu : f.toModel.unpack with
  | notANumber => rw [hu] at hv; cases hv
  | infinity s => rw [hu] at hv; cases s <;> cases hv
  | zero s => rw [hu] at hv; simp only [valU, XR.fin.injEq] at hv; exact absurd hv hp.ne
  | finite s m' e' h' =>
    rw [hu] at hv hg
    have hq := fval_pos h' e'
    cases s with
    | negative => simp only [valU, sgnX, XR.neg, XR.fin.injEq] at hv; exact absurd hv (by linarith : _ < _).ne
    | positive =>
      simp only [valU, sgnX, XR.fin.injEq] at hv
      obtain ⟨rfl, rfl⟩ := canon_unique hg.1 hc hv
      exact ⟨h', rfl⟩

theorem float_neg_unpack (f : Float) : (-f).toModel.unpack = f.toModel.unpack.neg := by
  change repack f.toModel.unpack.neg = _
  exact repack_good (good_neg (good_f f))

end GoGeo.F64

namespace GoGeo.Strconv
open F64 GoFloat Float.Model

/-! ### reading decimal text -/

theorem isDigit_ne {c d : Char} (h : c.isDigit = true) (hd : d.isDigit = false) : c ≠ d := by
  rintro rfl; rw [h] at hd; cases hd

theorem digitVal_digit {hex : Bool} {c : Char} (h : c.isDigit = true) : digitVal hex c = some (c.toNat - 48) := by
  simp [digitVal, h]

theorem scanMant_digits (r : List Char) : ∀ (ds : List Char) (m fd : ℕ) (dot dg : Bool), (∀ c ∈ ds, c.isDigit = true) →
    scanMant false (ds ++ r) m fd dot dg = scanMant false r (Nat.ofDigitChars 10 ds m) (if dot then fd + ds.length else fd) dot (dg || !ds.isEmpty)
  | [], m, fd, dot, dg, _ => by simp
  | c :: ds, m, fd, dot, dg, h => by
    have hc := h c (by simp)
    rw [List.cons_append, scanMant, if_neg (isDigit_ne hc (by decide)), if_neg (isDigit_ne hc (by decide)), digitVal_digit hc]
    simp only [Bool.false_eq_true, if_false]
    rw [scanMant_digits r ds _ _ _ _ (fun d hd => h d (by simp [hd])), Nat.ofDigitChars_cons]
    cases dot <;> simp; congr 1; omega

theorem toDigits_isDigit (n : ℕ) : ∀ c ∈ Nat.toDigits 10 n, c.isDigit = true := fun c hc => Nat.isDigit_of_mem_toDigits (by norm_num) (by norm_num) hc

theorem fixed_plain (m k : ℕ) : ∀ c ∈ fixed m k, c.isDigit = true ∨ c = '.' := by
  unfold fixed
  split
  · exact fun c hc => .inl (toDigits_isDigit m c hc)
  · intro c hc
    simp only [List.mem_append, List.mem_cons, List.mem_replicate] at hc
    rcases hc with hc | rfl | ⟨-, rfl⟩ | hc
    · exact .inl (toDigits_isDigit _ c hc)
    · exact .inr rfl
    · exact .inl (by decide)
    · exact .inl (toDigits_isDigit _ c hc)

/-- the text starts with a digit -/
theorem fixed_head (m k : ℕ) : ∃ c t, fixed m k = c :: t ∧ c.isDigit = true := by
  have key : ∀ n r, ∃ c t, Nat.toDigits 10 n ++ r = c :: t ∧ c.isDigit = true := fun n r => by
    have h := toDigits_isDigit n
    cases hd : Nat.toDigits 10 n with
    | nil => exact absurd hd Nat.toDigits_ne_nil
    | cons c t => exact ⟨c, t ++ r, rfl, h c (by rw [hd]; simp)⟩
  unfold fixed
  split
  · have := key m []
    rwa [List.append_nil] at this
  · exact key _ _

theorem scanMant_fixed (m k : ℕ) : scanMant false (fixed m k) 0 0 false false = (m, k, true, []) := by
  have h0 : ∀ n, (Nat.toDigits 10 n).isEmpty = false := fun n => by
    have := @Nat.toDigits_ne_nil n 10
    cases h : Nat.toDigits 10 n with
    | nil => exact absurd h this
    | cons _ _ => rfl
  unfold fixed
  split
  · rename_i hk
    have := scanMant_digits [] (Nat.toDigits 10 m) 0 0 false false (toDigits_isDigit m)
    rw [List.append_nil] at this
    rw [this, h0, Nat.ofDigitChars_ten_toDigits, hk]
    rfl
  · rename_i hk
    rw [scanMant_digits _ _ _ _ _ _ (toDigits_isDigit _), h0, Nat.ofDigitChars_ten_toDigits, scanMant, if_neg (by decide), if_pos rfl, if_neg (by decide)]
    have hd : ∀ c ∈ List.replicate (k - (Nat.toDigits 10 (m % 10 ^ k)).length) '0' ++ Nat.toDigits 10 (m % 10 ^ k), c.isDigit = true := by
      intro c hc
      simp only [List.mem_append, List.mem_replicate] at hc
      rcases hc with ⟨-, rfl⟩ | hc
      · decide
      · exact toDigits_isDigit _ c hc
    have := scanMant_digits [] _ (m / 10 ^ k) 0 true true hd
    rw [List.append_nil] at this
    have hl : (Nat.toDigits 10 (m % 10 ^ k)).length ≤ k := by
      rw [Nat.length_toDigits_le_iff (by norm_num) (by omega)]
      exact Nat.mod_lt _ (by positivity)
    simp only [Bool.false_eq_true, if_false, Bool.not_false, Bool.or_true]
    rw [this, Nat.ofDigitChars_append, Nat.ofDigitChars_replicate_zero, Nat.ofDigitChars_eq_ofDigitChars_zero, Nat.ofDigitChars_ten_toDigits]
    simp only [scanMant, if_true, List.length_append, List.length_replicate, zero_add, Bool.true_or, Prod.mk.injEq, and_true]
    refine ⟨?_, by omega⟩
    rw [← mul_assoc, ← pow_add, show (Nat.toDigits 10 (m % 10 ^ k)).length + (k - (Nat.toDigits 10 (m % 10 ^ k)).length) = k by omega]
    exact Nat.div_add_mod _ _

theorem hexPrefix_plain {t : List Char} (h : ∀ c ∈ t, c.isDigit = true ∨ c = '.') : hexPrefix t = (false, t) := by
  unfold hexPrefix
  split
  · rename_i c d t
    rw [if_neg]
    intro hx
    simp only [isLetter, Bool.or_eq_true, beq_iff_eq] at hx
    rcases h c (by simp) with hc | hc
    · rcases hx with rfl | rfl <;> exact absurd hc (by decide)
    · rcases hx with rfl | rfl <;> exact absurd hc (by decide)
  · rfl

theorem unsign_digit {c : Char} {t : List Char} (h : c.isDigit = true) : unsign (c :: t) = (false, c :: t) := by
  unfold unsign
  split
  · rename_i heq
    injection heq with h1; subst h1
    exact absurd h (by decide)
  · rename_i heq
    injection heq with h1; subst h1
    exact absurd h (by decide)
  · rfl

theorem plain_us {t : List Char} (h : ∀ c ∈ t, c.isDigit = true ∨ c = '.') : t.contains '_' = false := by
  rw [Bool.eq_false_iff]
  intro hc
  rw [List.contains_iff_mem] at hc
  rcases h _ hc with h | h <;> exact absurd h (by decide)

theorem unsign_plain {t : List Char} (h : ∀ c ∈ t, c.isDigit = true ∨ c = '.') : unsign t = (false, t) := by
  unfold unsign
  split
  · rcases h '+' (by simp) with h | h <;> exact absurd h (by decide)
  · rcases h '-' (by simp) with h | h <;> exact absurd h (by decide)
  · rfl

theorem fixed_us (m k : ℕ) : (fixed m k).contains '_' = false := by
  rw [Bool.eq_false_iff]
  intro h
  rw [List.contains_iff_mem] at h
  rcases fixed_plain m k _ h with h | h <;> exact absurd h (by decide)

/-- reading a decimal text gives the nearest number -/
theorem readFloat_fixed (m k : ℕ) : readFloat (fixed m k) = if decVal m (0 - k) = inf then none else some (decVal m (0 - k)) := by
  obtain ⟨c, t, e, hc⟩ := fixed_head m k
  have h1 : unsign (fixed m k) = (false, fixed m k) := by rw [e]; exact unsign_digit hc
  unfold readFloat
  simp only [h1, hexPrefix_plain (fixed_plain m k), scanMant_fixed, readExp, fixed_us]
  rfl

theorem readFloat_neg_fixed (m k : ℕ) : readFloat ('-' :: fixed m k) = (readFloat (fixed m k)).map fun v => -v := by
  rw [readFloat_fixed]
  have h1 : unsign ('-' :: fixed m k) = (true, fixed m k) := rfl
  have h2 : ('-' :: fixed m k).contains '_' = false := by
    rw [List.contains_cons, fixed_us]; rfl
  unfold readFloat
  simp only [h1, hexPrefix_plain (fixed_plain m k), scanMant_fixed, readExp, h2]
  simp only [Bool.true_eq_false, if_false, Bool.false_and, Bool.false_eq_true, if_true]
  split <;> rfl

/-! ### the texts written by `FormatFloat` -/

theorem candText_fixed (m j k : ℕ) : ∃ m' k', candText m j k = fixed m' k' := by
  unfold candText
  split
  · exact ⟨_, _, rfl⟩
  · exact ⟨_, _, rfl⟩

theorem cands_fixed {M k n : ℕ} {t : List Char} (h : t ∈ cands M k n) : ∃ m' k', t = fixed m' k' := by
  obtain ⟨p, -, rfl⟩ := List.mem_map.1 h
  exact candText_fixed _ _ _

/-- the text chosen is decimal, and reads back if the exact text does -/
theorem shortest_fixed (x : Float) (M k : ℕ) (hx : readFloat (fixed M k) = some x) :
    ∃ m' k', shortest x M k = fixed m' k' ∧ readFloat (fixed m' k') = some x := by
  unfold shortest
  cases h : ((List.range 17).flatMap fun n => cands M k (n + 1)).find? fun t => readFloat t = some x with
  | none => exact ⟨M, k, rfl, hx⟩
  | some t =>
    have h1 := List.find?_some h
    have h2 := List.mem_of_find?_eq_some h
    simp only [List.mem_flatMap] at h2
    obtain ⟨n, -, h2⟩ := h2
    obtain ⟨m', k', rfl⟩ := cands_fixed h2
    exact ⟨m', k', rfl, by simpa using h1⟩

theorem decVal_val (m k : ℕ) : valF (decVal m (0 - k)) = rndX (.fin ((m : ℚ) / 10 ^ k)) := by
  unfold decVal
  by_cases hk : k = 0
  · subst hk
    rw [if_pos (by simp)]
    have : valF (dec (m * 10 ^ 0) 0) = _ := dec_val (m * 10 ^ 0) 0
    simpa using this
  · rw [if_neg (by omega), show (-(0 - (k : ℤ))).toNat = k by omega]
    exact dec_val m k

theorem exactDec_val (m : ℕ) (e : ℤ) : ((exactDec m e).1 : ℚ) / 10 ^ (exactDec m e).2 = (m : ℚ) * 2 ^ e := by
  unfold exactDec
  split
  · rename_i h
    simp only [pow_zero, div_one]
    push_cast
    rw [← zpow_natCast, show ((e.toNat : ℕ) : ℤ) = e by omega]
  · rename_i h
    have h2 : e = -((-e).toNat : ℤ) := by omega
    generalize (-e).toNat = k at h2
    subst h2
    push_cast
    rw [zpow_neg, zpow_natCast, show (10 : ℚ) = 2 * 5 by norm_num, mul_pow]
    field_simp

/-- the exact decimal text of a positive number reads back -/
theorem readFloat_exact {x : Float} {m : ℕ} {e : ℤ} {h} (hx : x.toModel.unpack = .finite .positive m e h) :
    readFloat (fixed (exactDec m e).1 (exactDec m e).2) = some x := by
  have hg := good_f x
  rw [hx] at hg
  have hv : valF (decVal (exactDec m e).1 (0 - (exactDec m e).2)) = .fin ((m : ℚ) * 2 ^ e) := by
    rw [decVal_val, exactDec_val]
    have := rndX_valU (u := .finite .positive m e h) hg
    exact this
  obtain ⟨h', hu⟩ := unpack_of_val hg.1 hv
  rw [readFloat_fixed, float_ext_finite hu hx, if_neg]
  rintro rfl
  cases (show Float.Model.UnpackedFloat.infinity .positive = _ from hx)

theorem neg_neg_finite {x : Float} {s m e h} (hx : x.toModel.unpack = .finite s m e h) : - -x = x := by
  have h1 := float_neg_unpack x
  have h2 := float_neg_unpack (-x)
  rw [h1, hx] at h2
  refine float_ext_finite (s := s) (m := m) (e := e) (h := h) (h' := h) ?_ hx
  rw [h2]
  cases s <;> rfl

theorem toLower_digit {c : Char} (h : c.isDigit = true) : c.toLower = c := by
  simp only [Char.isDigit, Bool.and_eq_true, decide_eq_true_eq, ge_iff_le] at h
  unfold Char.toLower
  rw [dif_neg]
  rintro ⟨h1, h2⟩
  have a := h.2
  have := UInt32.le_trans h1 a
  revert this; decide

theorem special_plain {t : List Char} (h : ∀ c ∈ t, c.isDigit = true ∨ c = '.') (b : Bool) :
    special ((if b then ['-'] else []) ++ t) = none := by
  have h3 : ∀ d r, d.isDigit = false → d ≠ '.' → lowerAll t ≠ d :: r := fun d r hd hd' he => by
    cases t with
    | nil => cases he
    | cons c t =>
      simp only [lowerAll, List.map_cons] at he
      injection he with he _
      rcases h c (by simp) with hc | rfl
      · rw [toLower_digit hc] at he
        exact isDigit_ne hc hd he
      · exact hd' (he.symm.trans (by decide))
  cases b with
  | false =>
    unfold special
    simp only [Bool.false_eq_true, if_false, List.nil_append, unsign_plain h, h3 'i' _ (by decide) (by decide), h3 'n' _ (by decide) (by decide)]
    rfl
  | true =>
    have h2 : unsign ('-' :: t) = (true, t) := rfl
    have h4 : lowerAll ('-' :: t) ≠ ['n', 'a', 'n'] := fun he => by
      simp only [lowerAll, List.map_cons] at he
      injection he with he _
      exact absurd he (by decide)
    unfold special
    simp only [if_true, List.singleton_append, h2, h3 'i' _ (by decide) (by decide), h4]
    rfl

theorem special_fixed (m k : ℕ) : special (fixed m k) = none ∧ special ('-' :: fixed m k) = none := by
  obtain ⟨c, t, e, hc⟩ := fixed_head m k
  have h1 : unsign (c :: t) = (false, c :: t) := unsign_digit hc
  have h2 : unsign ('-' :: c :: t) = (true, c :: t) := rfl
  have h3 : ∀ d r, d.isDigit = false → lowerAll (c :: t) ≠ d :: r := fun d r hd he => by
    simp only [lowerAll, List.map_cons, toLower_digit hc] at he
    injection he with he _
    exact isDigit_ne hc hd he
  have h4 : lowerAll ('-' :: c :: t) ≠ ['n', 'a', 'n'] := fun he => by
    simp only [lowerAll, List.map_cons] at he
    injection he with he _
    exact absurd he (by decide)
  rw [e]
  unfold special
  simp only [h1, h2, h3 'i' _ (by decide), h3 'n' _ (by decide), h4]
  exact ⟨rfl, rfl⟩

theorem parse_fixed (m k : ℕ) : parseFloat (fixed m k) = readFloat (fixed m k) := by
  unfold parseFloat; rw [(special_fixed m k).1]
theorem parse_neg_fixed (m k : ℕ) : parseFloat ('-' :: fixed m k) = (readFloat (fixed m k)).map fun v => -v := by
  unfold parseFloat; rw [(special_fixed m k).2, ← readFloat_neg_fixed]

/-- `ParseFloat(FormatFloat(x, 'f', -1, 64), 64)` is `x` for every finite `float64` -/
theorem readsBack_float (x : Float) (hx : ∃ q, valF x = .fin q) : ReadsBack float64Text x := by
  obtain ⟨q, hx⟩ := hx
  unfold valF at hx
  have plain : ∀ m k, ∀ c ∈ fixed m k, c.isDigit = true ∨ c = '-' ∨ c = '.' := fun m k c hc => by
    rcases fixed_plain m k c hc with h | h
    · exact .inl h
    · exact .inr (.inr h)
  have ne : ∀ m k, fixed m k ≠ [] := fun m k he => by
    obtain ⟨c, t, e, -⟩ := fixed_head m k
    rw [he] at e; cases e
  cases hu : x.toModel.unpack with
  | notANumber => rw [hu] at hx; cases hx
  | infinity s => rw [hu] at hx; cases s <;> cases hx
  | zero s =>
    cases s with
    | positive =>
      have e : formatFloat x = ['0'] := by unfold formatFloat; rw [hu]
      have p : parseFloat ['0'] = some (⟨.pack (.zero .positive)⟩ : Float) := by decide +kernel
      refine ⟨?_, ?_, ?_⟩
      · show parseFloat (formatFloat x) = some x
        rw [e, p]
        exact congrArg some (float_ext_zero (s := .positive) rfl hu)
      · show formatFloat x ≠ []
        rw [e]; simp
      · show ∀ c ∈ formatFloat x, _
        rw [e]; decide
    | negative =>
      have e : formatFloat x = ['-', '0'] := by unfold formatFloat; rw [hu]
      have p : parseFloat ['-', '0'] = some (⟨.pack (.zero .negative)⟩ : Float) := by decide +kernel
      refine ⟨?_, ?_, ?_⟩
      · show parseFloat (formatFloat x) = some x
        rw [e, p]
        exact congrArg some (float_ext_zero (s := .negative) rfl hu)
      · show formatFloat x ≠ []
        rw [e]; simp
      · show ∀ c ∈ formatFloat x, _
        rw [e]; decide
  | finite s m e h =>
    cases s with
    | positive =>
      obtain ⟨m', k', e1, e2⟩ := shortest_fixed x _ _ (readFloat_exact hu)
      have e3 : formatFloat x = fixed m' k' := by unfold formatFloat; rw [hu]; exact e1
      refine ⟨?_, ?_, ?_⟩
      · show parseFloat (formatFloat x) = some x
        rw [e3, parse_fixed, e2]
      · show formatFloat x ≠ []
        rw [e3]; exact ne _ _
      · show ∀ c ∈ formatFloat x, _
        rw [e3]; exact plain _ _
    | negative =>
      have hn : (-x).toModel.unpack = .finite .positive m e h := by rw [float_neg_unpack, hu]; rfl
      obtain ⟨m', k', e1, e2⟩ := shortest_fixed (-x) _ _ (readFloat_exact hn)
      have e3 : formatFloat x = '-' :: fixed m' k' := by unfold formatFloat; rw [hu]; exact congrArg _ e1
      refine ⟨?_, ?_, ?_⟩
      · show parseFloat (formatFloat x) = some x
        rw [e3, parse_neg_fixed, e2, Option.map_some, neg_neg_finite hu]
      · show formatFloat x ≠ []
        rw [e3]; simp
      · show ∀ c ∈ formatFloat x, _
        rw [e3]
        intro c hc
        rcases List.mem_cons.1 hc with rfl | hc
        · exact .inr (.inl rfl)
        · exact plain _ _ c hc

/-! ### text that `ParseFloat` rejects -/

theorem digitVal_ok {hex : Bool} {c : Char} (h : (digitVal hex c).isSome = true) : ¬ notInNumber c := by
  rintro (rfl | rfl | rfl | rfl | rfl | rfl | rfl | rfl) <;> cases hex <;> exact absurd h (by decide)

theorem scanMant_rest (hex : Bool) : ∀ (s : List Char) (m fd : ℕ) (dot dg : Bool) (c : Char), c ∈ s → notInNumber c → c ∈ (scanMant hex s m fd dot dg).2.2.2
  | [], _, _, _, _, c, h, _ => absurd h (by simp)
  | d :: s, m, fd, dot, dg, c, h, hc => by
    have keep : ¬ notInNumber d → c ∈ s := fun hd => by
      rcases List.mem_cons.1 h with rfl | h
      · exact absurd hc hd
      · exact h
    rw [scanMant]
    split
    · rename_i hd
      exact scanMant_rest hex s _ _ _ _ c (keep (by subst hd; unfold notInNumber; decide)) hc
    · split
      · rename_i hd
        split
        · exact h
        · exact scanMant_rest hex s _ _ _ _ c (keep (by subst hd; unfold notInNumber; decide)) hc
      · split
        · rename_i hd
          exact scanMant_rest hex s _ _ _ _ c (keep (digitVal_ok (hex := hex) (by rw [hd]; rfl))) hc
        · exact h

theorem isDigit_ok {c : Char} (h : c.isDigit = true) : ¬ notInNumber c := by
  rintro (rfl | rfl | rfl | rfl | rfl | rfl | rfl | rfl) <;> exact absurd h (by decide)

theorem scanExp_rest : ∀ (s : List Char) (e : ℕ) (c : Char), c ∈ s → notInNumber c → (scanExp s e).2 ≠ []
  | [], _, c, h, _ => absurd h (by simp)
  | d :: s, e, c, h, hc => by
    have keep : ¬ notInNumber d → c ∈ s := fun hd => by
      rcases List.mem_cons.1 h with rfl | h
      · exact absurd hc hd
      · exact h
    rw [scanExp]
    split
    · rename_i hd
      exact scanExp_rest s _ c (keep (by subst hd; unfold notInNumber; decide)) hc
    · split
      · rename_i hd
        exact scanExp_rest s _ c (keep (isDigit_ok hd)) hc
      · simp

theorem expDigits_none {s : List Char} {c : Char} (h : c ∈ s) (hc : notInNumber c) : expDigits s = none := by
  unfold expDigits
  split
  · rfl
  · split
    · have := scanExp_rest _ 0 c h hc
      split
      · rename_i he
        rw [he] at this
        exact absurd rfl this
      · rfl
    · rfl

theorem readExp_none {hex : Bool} {s : List Char} {c : Char} (h : c ∈ s) (hc : notInNumber c) : readExp hex s = none := by
  cases s with
  | nil => simp at h
  | cons d t =>
    unfold readExp
    dsimp only
    by_cases hd : (if hex = true then isLetter 'p' 'P' d else isLetter 'e' 'E' d) = true
    · rw [if_pos hd]
      have ht : c ∈ t := by
        rcases List.mem_cons.1 h with rfl | h
        · exfalso
          rcases hc with rfl | rfl | rfl | rfl | rfl | rfl | rfl | rfl <;> cases hex <;> exact absurd hd (by decide)
        · exact h
      have sgn : ∀ {d : Char} {u : List Char}, c ∈ d :: u → ¬ notInNumber d → c ∈ u := fun h hd => by
        rcases List.mem_cons.1 h with rfl | h
        · exact absurd hc hd
        · exact h
      split
      · rw [expDigits_none (sgn ht (by unfold notInNumber; decide)) hc]; rfl
      · rw [expDigits_none (sgn ht (by unfold notInNumber; decide)) hc]; rfl
      · rw [expDigits_none ht hc]; rfl
    · rw [if_neg hd]

theorem unsign_rest {s : List Char} {c : Char} (h : c ∈ s) (hc : notInNumber c) : c ∈ (unsign s).2 := by
  have sgn : ∀ {d : Char} {u : List Char}, c ∈ d :: u → ¬ notInNumber d → c ∈ u := fun h hd => by
    rcases List.mem_cons.1 h with rfl | h
    · exact absurd hc hd
    · exact h
  unfold unsign
  split
  · exact sgn h (by unfold notInNumber; decide)
  · exact sgn h (by unfold notInNumber; decide)
  · exact h

theorem hexPrefix_rest {s : List Char} {c : Char} (h : c ∈ s) (hc : notInNumber c) : c ∈ (hexPrefix s).2 := by
  have sgn : ∀ {d : Char} {u : List Char}, c ∈ d :: u → ¬ notInNumber d → c ∈ u := fun h hd => by
    rcases List.mem_cons.1 h with rfl | h
    · exact absurd hc hd
    · exact h
  unfold hexPrefix
  split
  · rename_i d e t
    split
    · rename_i hd
      refine sgn (sgn h (by unfold notInNumber; decide)) ?_
      rintro (rfl | rfl | rfl | rfl | rfl | rfl | rfl | rfl) <;> exact absurd hd (by decide)
    · exact h
  · exact h

theorem lowerAll_ok {s w : List Char} {c : Char} (h : c ∈ s) (hc : notInNumber c) (hw : ∀ d ∈ w, ¬ notInNumber d) : lowerAll s ≠ w := by
  rintro rfl
  have hl : c.toLower = c := by rcases hc with rfl | rfl | rfl | rfl | rfl | rfl | rfl | rfl <;> decide
  exact hw c (by rw [← hl]; exact List.mem_map_of_mem h) hc

/-- `ParseFloat` rejects the empty text and text with white space, commas or round brackets in it -/
theorem rejects_float : Rejects float64Text := by
  refine ⟨by decide +kernel, fun s c h hc => ?_⟩
  show parseFloat s = none
  have h1 : special s = none := by
    unfold special
    have hu := unsign_rest h hc
    simp only [lowerAll_ok hu hc (w := ['i', 'n', 'f']) (by unfold notInNumber; decide), lowerAll_ok hu hc (w := ['i', 'n', 'f', 'i', 'n', 'i', 't', 'y']) (by unfold notInNumber; decide),
      lowerAll_ok h hc (w := ['n', 'a', 'n']) (by unfold notInNumber; decide)]
    rfl
  unfold parseFloat
  rw [h1]
  have h2 := scanMant_rest (hexPrefix (unsign s).2).1 _ 0 0 false false c (hexPrefix_rest (unsign_rest h hc) hc) hc
  unfold readFloat
  simp only [readExp_none h2 hc, ite_self]

end GoGeo.Strconv
