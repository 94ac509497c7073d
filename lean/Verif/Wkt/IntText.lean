import Verif.Wkt.Lemmas
import Verif.Go.Val
import Mathlib.Data.Rat.Floor

/-! # A number text for examples: integers in decimal notation -/

namespace GoGeo.Wkt

/-- decimal digits -/
def parseNat (s : List Char) : Option ℕ := if s ≠ [] ∧ s.all Char.isDigit then some (Nat.ofDigitChars 10 s 0) else none

/-- decimal notation of the integers among the exact numbers -/
def intText : NumText (XR ℚ) where
  fmt x := match x with
    | .fin q => if q.num < 0 then '-' :: Nat.toDigits 10 q.num.natAbs else Nat.toDigits 10 q.num.natAbs
    | _ => ['N', 'a', 'N']
  parse s := match s with
    | '-' :: t => (parseNat t).map fun n : ℕ => XR.fin (-(n : ℚ))
    | t => (parseNat t).map fun n : ℕ => XR.fin (n : ℚ)

theorem parseNat_toDigits (n : ℕ) : parseNat (Nat.toDigits 10 n) = some n := by
  unfold parseNat
  rw [if_pos, Nat.ofDigitChars_ten_toDigits]
  refine ⟨Nat.toDigits_ne_nil, ?_⟩
  rw [List.all_eq_true]
  exact fun c hc => Nat.isDigit_of_mem_toDigits (by norm_num) (by norm_num) hc

theorem good_int (n : ℤ) : Good intText (XR.fin (n : ℚ)) := by
  have hn : ((n : ℚ)).num = n := rfl
  have hd : ∀ c ∈ Nat.toDigits 10 n.natAbs, Char.isDigit c = true := fun c hc => Nat.isDigit_of_mem_toDigits (by norm_num) (by norm_num) hc
  by_cases h : n < 0
  · have e : intText.fmt (XR.fin (n : ℚ)) = '-' :: Nat.toDigits 10 n.natAbs := by
      show (if ((n : ℚ)).num < 0 then _ else _) = _
      rw [hn, if_pos h]
    constructor
    · rw [e]
      show (parseNat (Nat.toDigits 10 n.natAbs)).map _ = _
      rw [parseNat_toDigits]
      have : ((n.natAbs : ℕ) : ℤ) = -n := by omega
      have h2 : ((n.natAbs : ℕ) : ℚ) = -(n : ℚ) := by
        have := congrArg (Int.cast (R := ℚ)) this
        rwa [Int.cast_natCast, Int.cast_neg] at this
      simp [h2]
    · rw [e]; simp
    · rw [e]; intro c hc
      rcases List.mem_cons.mp hc with rfl | hc
      · decide
      · simp [isNum, hd c hc]
  · have e : intText.fmt (XR.fin (n : ℚ)) = Nat.toDigits 10 n.natAbs := by
      show (if ((n : ℚ)).num < 0 then _ else _) = _
      rw [hn, if_neg h]
    constructor
    · rw [e]
      have hne : ∀ t, Nat.toDigits 10 n.natAbs ≠ '-' :: t := fun t ht => by
        have := hd '-' (by rw [ht]; simp)
        revert this; decide
      have : intText.parse (Nat.toDigits 10 n.natAbs) = (parseNat (Nat.toDigits 10 n.natAbs)).map fun n : ℕ => XR.fin (n : ℚ) := by
        unfold intText
        simp only
      rw [this, parseNat_toDigits]
      have : ((n.natAbs : ℕ) : ℤ) = n := by omega
      have h2 : ((n.natAbs : ℕ) : ℚ) = (n : ℚ) := by
        have := congrArg (Int.cast (R := ℚ)) this
        rwa [Int.cast_natCast] at this
      simp [h2]
    · rw [e]; exact Nat.toDigits_ne_nil
    · rw [e]; intro c hc; simp [isNum, hd c hc]

theorem intText_bad (s : List Char) (c : Char) (h : c ∈ s) (hc : c.isDigit = false ∧ c ≠ '-') : intText.parse s = none := by
  have key : ∀ t : List Char, c ∈ t → parseNat t = none := fun t ht => by
    unfold parseNat
    rw [if_neg]
    rintro ⟨-, h2⟩
    rw [List.all_eq_true] at h2
    have := h2 c ht
    rw [hc.1] at this; cases this
  unfold intText
  simp only
  split
  · rename_i t
    rw [key t (by
      rcases List.mem_cons.mp h with h | h
      · exact absurd h hc.2
      · exact h)]; rfl
  · rw [key _ h]; rfl

end GoGeo.Wkt
