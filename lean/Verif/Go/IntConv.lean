import Verif.Go.Val
import Verif.Go.F64
import Mathlib.Algebra.Order.Floor.Ring
import Mathlib.Data.Rat.Floor
import Mathlib.Data.Real.Archimedean

/-!
# The conversion `int(x)` of a `float64`

Truncation of the exact value towards zero.  The result for NaN, infinities and values outside the range of `int` is
implementation-defined in Go; the model gives 0 for the first two and the exact integer otherwise.  No theorem uses these values.
-/

namespace GoGeo

/-- truncation towards zero -/
def truncX {K : Type} [Field K] [LinearOrder K] [IsStrictOrderedRing K] [FloorRing K] : XR K → Int
  | .fin q => if q < 0 then ⌈q⌉ else ⌊q⌋
  | _ => 0

class GoInt (F : Type) where
  /-- `int(x)` -/
  toInt : F → Int

instance : GoInt Float where
  toInt x := truncX (F64.valF x)

noncomputable instance : GoInt (XR ℝ) where
  toInt := truncX

/-- `int(x)` truncates the exact value -/
class GoIntVal (F : Type) [GoFloat F] [GoInt F] (K : outParam Type) [Field K] [LinearOrder K] [IsStrictOrderedRing K] [FloorRing K]
    [FloatVal F K] : Prop where
  toInt_val : ∀ x : F, GoInt.toInt x = truncX (FloatVal.val x)

instance : GoIntVal Float ℚ := ⟨fun _ => rfl⟩
instance : GoIntVal (XR ℝ) ℝ := ⟨fun _ => rfl⟩

end GoGeo
