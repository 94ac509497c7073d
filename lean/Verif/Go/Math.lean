import Verif.Go.Num
import Mathlib.Data.Real.Sqrt

/-!
# `math.Sqrt`

`GoSqrt F` adds the square root.  On `Float` it is Lean core's (correctly rounded, modelled) square
root; on `XR ℝ` the exact one.
-/

namespace GoGeo

class GoSqrt (F : Type) extends GoFloat F where
  /-- `math.Sqrt` -/
  sqrt : F → F

instance : GoSqrt Float where
  sqrt := Float.sqrt

/-- exact square root: NaN on negative numbers -/
noncomputable def XR.sqrt : XR ℝ → XR ℝ
  | .nan => .nan
  | .ninf => .nan
  | .fin a => if a < 0 then .nan else .fin (Real.sqrt a)
  | .pinf => .pinf

noncomputable instance : GoSqrt (XR ℝ) where
  sqrt := XR.sqrt

end GoGeo
