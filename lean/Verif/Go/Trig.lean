import Verif.Go.Math
import Mathlib.Analysis.SpecialFunctions.Trigonometric.Inverse
import Mathlib.Analysis.SpecialFunctions.Complex.Arg

/-!
# `math.Sin`, `math.Cos`, … and `math.Pi`

`GoMath F` adds the transcendental functions.  On `Float` they are Lean core's opaque library calls: no
theorem depends on what they return.  On `XR ℝ` they are the exact real functions; of a non-finite
argument they are NaN (simplification: Go's `Atan2` and `Pow` have finite values for some infinite arguments).
-/

namespace GoGeo

class GoMath (F : Type) extends GoSqrt F where
  sin : F → F
  cos : F → F
  asin : F → F
  acos : F → F
  /-- `math.Atan2(y, x)` -/
  atan2 : F → F → F
  /-- `math.Pow(x, n)` for an integer constant `n` -/
  powNat : F → Nat → F
  /-- the constant expression `a * math.Pi / b`, evaluated exactly and then rounded -/
  piFrac : Nat → Nat → F
  /-- `math.Trunc` -/
  trunc : F → F

/-- the digits of `math.Pi`, times `10^62` -/
def piDigits : Nat := 314159265358979323846264338327950288419716939937510582097494459

instance : GoMath Float where
  sin := Float.sin
  cos := Float.cos
  asin := Float.asin
  acos := Float.acos
  atan2 := Float.atan2
  powNat x n := Float.pow x (GoFloat.lit n)
  piFrac a b := GoFloat.dec (a * piDigits * 10 ^ 20 / b) 82
  trunc x := if x < 0 then Float.ceil x else Float.floor x

namespace XR

/-- a real function on finite arguments -/
noncomputable def lift (f : ℝ → ℝ) : XR ℝ → XR ℝ
  | .fin a => .fin (f a)
  | _ => .nan

/-- a real function on the finite arguments in `[-1, 1]` -/
noncomputable def liftUnit (f : ℝ → ℝ) : XR ℝ → XR ℝ
  | .fin a => if -1 ≤ a ∧ a ≤ 1 then .fin (f a) else .nan
  | _ => .nan

/-- the angle of the point `(x, y)`, in `(-π, π]`, 0 for the origin -/
noncomputable def atan2 : XR ℝ → XR ℝ → XR ℝ
  | .fin y, .fin x => .fin (Complex.arg ⟨x, y⟩)
  | _, _ => .nan

/-- truncation towards zero -/
noncomputable def truncR (x : ℝ) : ℝ := if x < 0 then (⌈x⌉ : ℝ) else (⌊x⌋ : ℝ)

end XR

noncomputable instance : GoMath (XR ℝ) where
  sin := XR.lift Real.sin
  cos := XR.lift Real.cos
  asin := XR.liftUnit Real.arcsin
  acos := XR.liftUnit Real.arccos
  atan2 := XR.atan2
  powNat x n := XR.lift (· ^ n) x
  piFrac a b := .fin (a * Real.pi / b)
  trunc := XR.lift XR.truncR

/-- `math.Mod`, only for exact arithmetic -/
class GoMod (F : Type) extends GoMath F where
  /-- `math.Mod(x, y)`: the remainder with the sign of `x` -/
  mod : F → F → F

noncomputable instance : GoMod (XR ℝ) where
  mod
    | .fin x, .fin y => if y = 0 then .nan else .fin (x - y * XR.truncR (x / y))
    | _, _ => .nan

end GoGeo
