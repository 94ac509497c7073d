import Verif.Go.StrconvE
import Verif.Spec.JsonText
import Verif.Spec.Numeral
import Verif.Props.Wkt64

/-! # `ParseFloat` on the numbers of RFC 8259 -/

namespace GoGeo.Strconv
open GoFloat F64 FloatVal Rfc8259

theorem decVal_valZ (m : ℕ) (e : ℤ) : valF (decVal m e) = rndX (.fin ((m : ℚ) * 10 ^ e)) := by
  by_cases he : 0 ≤ e
  · obtain ⟨n, rfl⟩ := Int.eq_ofNat_of_zero_le he
    unfold decVal
    rw [if_pos he]
    have : valF (dec (m * 10 ^ (n : ℤ).toNat) 0) = _ := dec_val (m * 10 ^ (n : ℤ).toNat) 0
    simpa using this
  · obtain ⟨k, hk⟩ : ∃ k : ℕ, e = 0 - k := ⟨(-e).toNat, by omega⟩
    rw [hk, decVal_val, zero_sub, zpow_neg, zpow_natCast, div_eq_mul_inv]

/-- the number nearest to `m · 10^e` -/
theorem decVal_nearest (m : ℕ) (e : ℤ) (neg : Bool) (q : ℚ) (hq : q = (if neg then -1 else 1) * ((m : ℚ) * 10 ^ e)) :
    (InRange q → decVal m e ≠ inf ∧ IsNearest (if neg then -decVal m e else decVal m e) q) ∧ (¬ InRange q → decVal m e = inf) := by
  have hv := decVal_valZ m e
  obtain ⟨p, hp⟩ : ∃ p : ℚ, p = (m : ℚ) * 10 ^ e := ⟨_, rfl⟩
  rw [← hp] at hv hq
  have hp0 : 0 ≤ p := by rw [hp]; exact mul_nonneg (Nat.cast_nonneg m) (zpow_nonneg (by norm_num) e)
  generalize decVal m e = v at *
  have hr : InRange q ↔ |p| < ovfBound := by
    unfold InRange ovfBound
    rw [hq]
    split <;> simp
  constructor
  · intro h
    obtain ⟨r, hrr⟩ := (rndX_fin_iff p).2 (hr.1 h)
    refine ⟨by rw [ne_eq, eq_inf_iff, hv, hrr]; simp, ?_⟩
    rw [hq]
    cases neg with
    | false =>
      refine ⟨r, hv.trans hrr, fun y w hy => ?_⟩
      have := rndX_nearest hrr y hy
      simpa using this
    | true =>
      refine ⟨-r, ?_, fun y w hy => ?_⟩
      · have : val (-v) = XR.neg (val v) := val_neg v
        show val (-v) = _
        rw [this]
        show XR.neg (valF v) = _
        rw [hv, hrr]; rfl
      · have h2 : rndX (.fin (-p)) = .fin (-r) := by
          have := rndX_neg (.fin p)
          rw [hrr] at this
          exact this
        have := rndX_nearest h2 y hy
        simpa using this
  · intro h
    rw [eq_inf_iff, hv]
    have h1 : ¬ ∃ r, rndX (.fin p) = .fin r := fun h' => h (hr.2 ((rndX_fin_iff p).1 h'))
    have h2 : rndX (.fin p) = ovf (rnP p) := by
      unfold rndX; simp only; rw [if_neg (by linarith)]; rfl
    rw [h2] at h1 ⊢
    unfold ovf at h1 ⊢
    split
    · rfl
    · rename_i h3
      rw [if_neg h3] at h1
      exact absurd ⟨_, rfl⟩ h1

/-- an exponent, or nothing -/
def ExpPart (ep : List Char) : Prop :=
  ep = [] ∨ ∃ e sg ds, ep = e :: (sg ++ ds) ∧ (e = 'e' ∨ e = 'E') ∧ (sg = [] ∨ sg = ['+'] ∨ sg = ['-']) ∧ Digits ds

theorem expValue_digits {e : Char} {ds : List Char} (h : Digits ds) : expValue (e :: ds) = (Nat.ofDigitChars 10 ds 0 : ℤ) := by
  cases ds with
  | nil => exact absurd rfl h.1
  | cons c ds =>
    have hc := h.2 c (by simp)
    unfold expValue
    split
    · rename_i heq; cases heq
    · rename_i heq; cases heq; exact absurd hc (by decide)
    · rename_i heq; cases heq; exact absurd hc (by decide)
    · rename_i heq; cases heq; rfl

theorem readExp_value {ep : List Char} (h : ExpPart ep) (hb : |expValue ep| < 10000) : readExp false ep = some (expValue ep) := by
  rcases h with rfl | ⟨e, sg, ds, rfl, he, hs, hd⟩
  · rfl
  · have h1 : readExp false (e :: (sg ++ ds)) = expVal (sg ++ ds) := by
      rcases he with rfl | rfl <;> rfl
    rw [h1]
    rcases hs with rfl | rfl | rfl
    · rw [List.nil_append] at hb ⊢
      rw [expValue_digits hd] at hb ⊢
      have h2 := expDigits_val hd.1 hd.2 (by have := abs_lt.1 hb; omega)
      obtain ⟨c, ds', rfl⟩ := List.exists_cons_of_ne_nil hd.1
      have hc := hd.2 c (by simp)
      unfold expVal
      split
      · rename_i heq; cases heq; exact absurd hc (by decide)
      · rename_i heq; cases heq; exact absurd hc (by decide)
      · rw [h2]; rfl
    · change |(Nat.ofDigitChars 10 ds 0 : ℤ)| < 10000 at hb
      show (expDigits ds).map (fun n : ℕ => (n : ℤ)) = some (Nat.ofDigitChars 10 ds 0 : ℤ)
      rw [expDigits_val hd.1 hd.2 (by have := abs_lt.1 hb; omega)]; rfl
    · change |-(Nat.ofDigitChars 10 ds 0 : ℤ)| < 10000 at hb
      show (expDigits ds).map (fun n : ℕ => -(n : ℤ)) = some (-(Nat.ofDigitChars 10 ds 0 : ℤ))
      rw [expDigits_val hd.1 hd.2 (by have := abs_lt.1 hb; omega)]; rfl

theorem scanMant_exp {ep : List Char} (h : ExpPart ep) (m fd : ℕ) (dot dg : Bool) : scanMant false ep m fd dot dg = (m, fd, dg, ep) := by
  rcases h with rfl | ⟨e, sg, ds, rfl, he, -, -⟩
  · rfl
  · rcases he with rfl | rfl
    · exact scanMant_e _ _ _ _ _
    · rw [scanMant, if_neg (by decide), if_neg (by decide)]
      rfl

theorem expPart_us {ep : List Char} (h : ExpPart ep) : '_' ∉ ep := by
  rcases h with rfl | ⟨e, sg, ds, rfl, he, hs, hd⟩
  · simp
  · intro hm
    rcases List.mem_cons.1 hm with hm | hm
    · subst hm; rcases he with he | he <;> exact absurd he (by decide)
    · rcases List.mem_append.1 hm with hm | hm
      · rcases hs with rfl | rfl | rfl <;> simp at hm
      · exact absurd (hd.2 _ hm) (by decide)

/-- reading the text of a number gives the nearest `float64`, or an error if it is out of range -/
theorem parse_number {t : List Char} {q : ℚ} (h : NumberValue t q) :
    (InRange q → ∃ x, parseFloat t = some x ∧ IsNearest x q) ∧ (¬ InRange q → parseFloat t = none) := by
  obtain ⟨sg, ip, fp, ep, rfl, hs, hi, hf, he, hb, hq⟩ := h
  have hep : ExpPart ep := he
  have hip : Digits ip := by
    rcases hi with rfl | hi
    · exact ⟨by simp, by simp⟩
    · exact hi.1
  obtain ⟨fd, hfd, hfdd⟩ : ∃ fd, fp.tail = fd ∧ ∀ c ∈ fd, c.isDigit = true := by
    rcases hf with rfl | ⟨ds, rfl, hd⟩
    · exact ⟨[], rfl, by simp⟩
    · exact ⟨ds, rfl, hd.2⟩
  have hfp : fp = [] ∨ fp = '.' :: fd := by
    rcases hf with rfl | ⟨ds, rfl, hd⟩
    · exact .inl rfl
    · right; rw [← hfd]; rfl
  have hmant : scanMant false (ip ++ (fp ++ ep)) 0 0 false false = (Nat.ofDigitChars 10 (ip ++ fd) 0, fd.length, true, ep) := by
    rw [scanMant_digits _ _ _ _ _ _ hip.2]
    have h1 : (false || !ip.isEmpty) = true := by
      cases ip with
      | nil => exact absurd rfl hip.1
      | cons _ _ => rfl
    rw [h1]
    rcases hfp with rfl | rfl
    · subst hfd
      rw [List.nil_append, scanMant_exp hep]
      simp
    · rw [List.cons_append, scanMant, if_neg (by decide), if_pos rfl, if_neg (by decide), scanMant_digits _ _ _ _ _ _ hfdd, scanMant_exp hep,
        Nat.ofDigitChars_append]
      simp
  have hexp := readExp_value hep hb
  have hus : (ip ++ (fp ++ ep)).contains '_' = false := by
    rw [Bool.eq_false_iff, ne_eq, List.contains_iff_mem]
    intro hm
    rcases List.mem_append.1 hm with hm | hm
    · exact absurd (hip.2 _ hm) (by decide)
    · rcases List.mem_append.1 hm with hm | hm
      · rcases hfp with rfl | rfl
        · simp at hm
        · rcases List.mem_cons.1 hm with hm | hm
          · exact absurd hm (by decide)
          · exact absurd (hfdd _ hm) (by decide)
      · exact expPart_us hep hm
  have hhex : hexPrefix (ip ++ (fp ++ ep)) = (false, ip ++ (fp ++ ep)) := by
    generalize hg : ip ++ (fp ++ ep) = w
    unfold hexPrefix
    split
    · rename_i c d t
      rw [if_neg]
      intro hx
      rcases hi with rfl | hi
      · rcases hfp with rfl | rfl
        · rcases he with rfl | ⟨e, sg', ds, rfl, he, -, -⟩
          · simp at hg
          · simp only [List.nil_append, List.cons_append, List.cons.injEq] at hg
            rw [← hg.2.1] at hx
            rcases he with rfl | rfl <;> exact absurd hx (by decide)
        · simp only [List.nil_append, List.cons_append, List.cons.injEq] at hg
          rw [← hg.2.1] at hx
          exact absurd hx (by decide)
      · obtain ⟨a, l, rfl⟩ := List.exists_cons_of_ne_nil hip.1
        rw [List.cons_append, List.cons.injEq] at hg
        apply hi.2
        rw [hg.1]; rfl
    · rfl
  obtain ⟨a, l, hal⟩ := List.exists_cons_of_ne_nil hip.1
  have ha : a.isDigit = true := hip.2 a (by rw [hal]; simp)
  have hcons : ip ++ (fp ++ ep) = a :: (l ++ (fp ++ ep)) := by rw [hal]; rfl
  have hread : readFloat (ip ++ (fp ++ ep)) = if decVal (Nat.ofDigitChars 10 (ip ++ fd) 0) (expValue ep - fd.length) = inf then none
      else some (decVal (Nat.ofDigitChars 10 (ip ++ fd) 0) (expValue ep - fd.length)) := by
    have hu : unsign (ip ++ (fp ++ ep)) = (false, ip ++ (fp ++ ep)) := by rw [hcons]; exact unsign_digit ha
    unfold readFloat
    simp only [hu, hhex, hmant, hexp, hus]
    rfl
  rw [hfd] at hq
  have hq' : q = (if decide (sg = ['-']) then -1 else 1) * ((Nat.ofDigitChars 10 (ip ++ fd) 0 : ℚ) * 10 ^ (expValue ep - fd.length)) := by
    rw [hq, zpow_sub₀ (by norm_num), zpow_natCast]
    simp only [decide_eq_true_eq]
    ring
  have hN := decVal_nearest _ _ _ _ hq'
  have hp := parse_digit (d := a) (t := l ++ (fp ++ ep)) ha
  rw [← hcons] at hp
  rcases hs with rfl | rfl
  · rw [List.nil_append, hp.1, hread]
    constructor
    · intro h
      obtain ⟨h1, h2⟩ := hN.1 h
      rw [if_neg h1]
      exact ⟨_, rfl, h2⟩
    · intro h
      rw [if_pos (hN.2 h)]
  · rw [List.singleton_append, hp.2, hread]
    constructor
    · intro h
      obtain ⟨h1, h2⟩ := hN.1 h
      rw [if_neg h1]
      exact ⟨_, rfl, h2⟩
    · intro h
      rw [if_pos (hN.2 h)]; rfl

end GoGeo.Strconv
