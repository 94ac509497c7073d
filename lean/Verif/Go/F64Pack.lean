import Verif.Go.Val
import Mathlib.Tactic.IntervalCases
import Mathlib.Algebra.Order.Floor.Ring
import Mathlib.Data.Int.Log

/-!
# Packing and unpacking of Lean core's binary64 model
-/
set_option linter.unusedSectionVars false

namespace GoGeo.F64
open Float.Model Float.Model.UnpackedFloat

/-- mantissa/exponent pairs in canonical binary64 form (no upper bound on the exponent) -/
structure Canon (m : Nat) (e : Int) : Prop where
  pos : 0 < m
  lt : m < 2 ^ 53
  ge : -1074 ≤ e
  norm : 2 ^ 52 ≤ m ∨ e = -1074

theorem unpackSign_packComponents {spec : Format} {sign exponent mantissa} :
    unpackSign (packComponents spec sign exponent mantissa) = sign.toBitVec := by
  ext i hi
  have hi0 : i = 0 := by omega
  subst hi0
  simp [unpackSign, packComponents, BitVec.getLsbD_append]
  rw [BitVec.getElem_append]; simp

theorem ofBitVec_toBitVec (s : Sign) : Sign.ofBitVec s.toBitVec = s := by
  cases s <;> rfl

/-- binary64 bits of an unpacked float -/
theorem unpack_eq (b : BitVec Format.binary64.numBits) :
    UnpackedFloat.unpack Format.binary64 b =
    (if unpackExponent b = -1#11 then
      if unpackMantissa b = 0#52 then .infinity (Sign.ofBitVec (unpackSign b)) else .notANumber
    else if unpackExponent b = 0#11 then
      if h : unpackMantissa b = 0#52 then .zero (Sign.ofBitVec (unpackSign b))
      else .finite (Sign.ofBitVec (unpackSign b)) (unpackMantissa b).toNat
        (((unpackExponent b).toNat : Int) - 1075 + 1)
        (by rcases Nat.eq_zero_or_pos (unpackMantissa b).toNat with h' | h'
            · exact absurd (BitVec.eq_of_toNat_eq (by simpa using h')) h
            · exact h')
    else .finite (Sign.ofBitVec (unpackSign b)) (1#1 ++ unpackMantissa b).toNat
        (((unpackExponent b).toNat : Int) - 1075)
        (by rw [BitVec.toNat_append]; exact Nat.lt_of_lt_of_le (by decide : 0 < (1#1).toNat <<< 52) Nat.left_le_or)) := by
  rfl

theorem unpack_canon {b : BitVec Format.binary64.numBits} {s m e h}
    (hu : UnpackedFloat.unpack Format.binary64 b = .finite s m e h) : Canon m e ∧ e ≤ 971 := by
  rw [unpack_eq] at hu
  have hx := (unpackExponent b).isLt
  have hm := (unpackMantissa b).isLt
  simp only [Format.binary64] at hx hm
  split at hu
  · split at hu <;> cases hu
  · rename_i hne
    have hne' : (unpackExponent b).toNat ≠ 2047 := by
      intro h'; apply hne; apply BitVec.eq_of_toNat_eq; rw [h']; rfl
    split at hu
    · rename_i h0
      split at hu
      · cases hu
      · injection hu with h1 h2 h3
        have : (unpackExponent b).toNat = 0 := by rw [h0]; rfl
        rw [this] at h3
        refine ⟨⟨h, by omega, by omega, ?_⟩, by omega⟩
        right; omega
    · rename_i h0
      injection hu with h1 h2 h3
      have h0' : (unpackExponent b).toNat ≠ 0 := by
        intro h'; apply h0; apply BitVec.eq_of_toNat_eq; rw [h']; rfl
      rw [BitVec.toNat_append] at h2
      have h4 : m = 2 ^ 52 + (unpackMantissa b).toNat := by
        rw [← h2, ← Nat.shiftLeft_add_eq_or_of_lt hm]; rfl
      refine ⟨⟨h, by omega, by omega, ?_⟩, by omega⟩
      left; omega

theorem pack_finite (s : Sign) (m : Nat) (e : Int) (h : 0 < m) :
    UnpackedFloat.pack Format.binary64 (.finite s m e h) =
    if 2048 ≤ (e + 1075).toNat + 1 then packedInfinity Format.binary64 s
    else if m.log2 + 1 = 53 then
      packComponents Format.binary64 s (BitVec.ofNat _ (e + 1075).toNat) (BitVec.ofNat _ m)
    else packComponents Format.binary64 s 0#_ (BitVec.ofNat _ m) := by
  have : e + (Format.binary64.exponentBias : Int) + (Format.binary64.mantissaBitsWithoutImplicit : Int)
      = e + 1075 := by
    have h1 : Format.binary64.exponentBias = 1023 := by decide
    rw [h1]; simp; omega
  simp only [UnpackedFloat.pack, this]
  rfl

theorem unpack_pack_special :
    (∀ s, UnpackedFloat.unpack Format.binary64 (UnpackedFloat.pack Format.binary64 (.infinity s)) = .infinity s) ∧
    (∀ s, UnpackedFloat.unpack Format.binary64 (UnpackedFloat.pack Format.binary64 (.zero s)) = .zero s) ∧
    UnpackedFloat.unpack Format.binary64 (UnpackedFloat.pack Format.binary64 .notANumber) = .notANumber := by
  refine ⟨fun s => by cases s <;> rfl, fun s => by cases s <;> rfl, rfl⟩

/-- Packing a canonical float and unpacking it again is the identity up to overflow. -/
theorem unpack_pack_finite {s : Sign} {m : Nat} {e : Int} {h : 0 < m} (hc : Canon m e) :
    UnpackedFloat.unpack Format.binary64 (UnpackedFloat.pack Format.binary64 (.finite s m e h)) =
    if 971 < e then .infinity s else .finite s m e h := by
  rw [pack_finite]
  have hge := hc.ge
  have hlt := hc.lt
  by_cases he : 971 < e
  · rw [if_pos (by omega), if_pos he]
    cases s <;> rfl
  · rw [if_neg (by omega), if_neg he]
    by_cases hl : m.log2 + 1 = 53
    · rw [if_pos hl]
      have hm : 2 ^ 52 ≤ m := by
        have := Nat.log2_self_le (n := m) (by omega)
        have h52 : m.log2 = 52 := by omega
        rw [h52] at this; exact this
      rw [unpack_eq]
      simp only [unpackMantissa_packComponents, unpackExponent_packComponents,
        unpackSign_packComponents, ofBitVec_toBitVec]
      have hx : (BitVec.ofNat 11 (e + 1075).toNat).toNat = (e + 1075).toNat := by
        rw [BitVec.toNat_ofNat, Nat.mod_eq_of_lt (by omega)]
      rw [if_neg, if_neg]
      · congr 1
        · rw [BitVec.toNat_append]
          have hlt' : (BitVec.ofNat 52 m).toNat < 2 ^ 52 := (BitVec.ofNat 52 m).isLt
          rw [← Nat.shiftLeft_add_eq_or_of_lt hlt', BitVec.toNat_ofNat (x := m)]
          have : m % 2 ^ 52 = m - 2 ^ 52 := by
            rw [Nat.mod_eq_sub_mod hm, Nat.mod_eq_of_lt (by omega)]
          rw [this]
          simp only [BitVec.toNat_ofNat, Nat.shiftLeft_eq]
          omega
        · rw [hx]; omega
      · intro h0
        have := congrArg BitVec.toNat h0
        rw [hx] at this
        simp at this; omega
      · intro h0
        have := congrArg BitVec.toNat h0
        rw [hx] at this
        simp at this; omega
    · rw [if_neg hl]
      have hm : m < 2 ^ 52 := by
        by_contra hge'
        have h1 : m.log2 < 53 := (Nat.log2_lt (by omega)).2 hlt
        have h2 : ¬ m.log2 < 52 := fun h' => by
          have := (Nat.log2_lt (by omega)).1 h'; omega
        omega
      have he' : e = -1074 := by
        rcases hc.norm with h' | h'
        · omega
        · exact h'
      rw [unpack_eq]
      simp only [unpackMantissa_packComponents, unpackExponent_packComponents,
        unpackSign_packComponents, ofBitVec_toBitVec]
      have hx : (BitVec.ofNat 52 m).toNat = m := by
        rw [BitVec.toNat_ofNat, Nat.mod_eq_of_lt hm]
      rw [if_neg (by decide), if_pos trivial, dif_neg]
      · subst he'
        congr 1
      · intro h0
        have := congrArg BitVec.toNat h0
        rw [hx] at this
        simp at this; omega

end GoGeo.F64
