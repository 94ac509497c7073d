import Verif.Rtree.Bulk64
import Mathlib.Analysis.SpecialFunctions.Log.Base

/-!
# What is assumed of package math by the theorems about bulk loading
-/

namespace GoGeo.Spec
open FloatVal GoFloat

/-- `math.Log2` of an integer is within a relative error of `2^(-47)` (32 units in the last place), `math.Ceil` is exact, and `math.Pow` of integers is
exact as long as the result has 53 bits; nothing is assumed of `math.Floor` -/
structure Math64Ok (lib : Math64) : Prop where
  log2 : ∀ n : Nat, 2 ≤ n → n ≤ 2 ^ 40 → NearR (lib.log2 (ofInt n)) (Real.logb 2 n) (Real.logb 2 n / 2 ^ 47)
  ceil : ∀ (f : Float) (q : ℚ), val f = .fin q → 0 ≤ q → q ≤ 2 ^ 52 → val (lib.ceil f) = .fin (⌈q⌉ : ℚ)
  pow : ∀ (f g : Float) (m k : Nat), val f = .fin (m : ℚ) → val g = .fin (k : ℚ) → 1 ≤ m → m ^ k ≤ 2 ^ 53 → val (lib.pow f g) = .fin ((m : ℚ) ^ k)

end GoGeo.Spec
