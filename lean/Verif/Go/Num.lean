import Mathlib.Algebra.Order.Field.Rat
import Mathlib.Algebra.Order.Field.Basic

/-!
# `float64` operations

The model of the code is polymorphic in the number type.  `GoFloat F` is the interface: the raw
operations Go code uses on `float64`.  Instances:

* `Float` — Lean core's binary64.  `+ - * / neg abs < <= ==` are the bit-level IEEE-754 model of
  Lean core (`Init/Data/Float/Model`), i.e. Go's `float64`.
* `XR K` — exact arithmetic over an ordered field extended by `NaN`, `+Inf`, `-Inf` (one zero).
-/

namespace GoGeo

/-- Raw `float64` operations used by the Go code. -/
class GoFloat (F : Type) extends Add F, Sub F, Mul F, Div F, Neg F where
  /-- `a < b` -/
  lt : F → F → Bool
  /-- `a <= b` -/
  le : F → F → Bool
  /-- `a == b` -/
  eq : F → F → Bool
  /-- `math.Abs` -/
  abs : F → F
  /-- `math.IsNaN` -/
  isNaN : F → Bool
  /-- `math.Signbit` -/
  signbit : F → Bool
  /-- `math.NaN()` -/
  nan : F
  /-- `math.Inf(1)` -/
  inf : F
  /-- the constant `m * 10^(-e)` converted to `float64` -/
  dec : Nat → Nat → F
  /-- `float64(i)` of an `int` -/
  ofInt : Int → F

namespace GoFloat
variable {F : Type} [GoFloat F]

/-- `a != b` -/
@[reducible] def ne (a b : F) : Bool := !(eq a b)
/-- `a > b` -/
@[reducible] def gt (a b : F) : Bool := lt b a
/-- `a >= b` -/
@[reducible] def ge (a b : F) : Bool := le b a

/-- integer constant -/
@[reducible] def lit (n : Nat) : F := dec n 0

/-- Go `math.Min` (`src/math/dim.go`): special cases `-Inf`, NaN, signed zeros, then `<`. -/
def min (x y : F) : F :=
  if eq x (-inf) || eq y (-inf) then -inf
  else if isNaN x || isNaN y then nan
  else if eq x (lit 0) && eq x y then (if signbit x then x else y)
  else if lt x y then x else y

/-- Go `math.Max` (`src/math/dim.go`). -/
def max (x y : F) : F :=
  if eq x inf || eq y inf then inf
  else if isNaN x || isNaN y then nan
  else if eq x (lit 0) && eq x y then (if signbit x then y else x)
  else if gt x y then x else y

/-- `math.MaxFloat64 = (2^53-1) * 2^971` -/
def maxFloat64 : F := lit ((2 ^ 53 - 1) * 2 ^ 971)

end GoFloat

/-! ## binary64 -/

instance : GoFloat Float where
  lt a b := Float.lt a b
  le a b := Float.le a b
  eq a b := Float.beq a b
  abs := Float.abs
  isNaN := Float.isNaN
  signbit a := a.toModel.toBits.toBitVec.msb
  nan := ⟨.pack .notANumber⟩
  inf := ⟨.pack (.infinity .positive)⟩
  dec m e := ⟨.ofScientific m (-(e : Int))⟩
  ofInt i := ⟨.ofInt i⟩

/-! ## exact extended numbers -/

/-- An ordered field extended with NaN and two infinities. -/
inductive XR (K : Type) where
  | nan
  | ninf
  | fin (k : K)
  | pinf
deriving DecidableEq, Repr

namespace XR
variable {K : Type}

section
variable [Field K] [LinearOrder K]

def neg : XR K → XR K
  | nan => nan
  | ninf => pinf
  | fin a => fin (-a)
  | pinf => ninf

def add : XR K → XR K → XR K
  | nan, _ => nan
  | _, nan => nan
  | fin a, fin b => fin (a + b)
  | ninf, pinf => nan
  | pinf, ninf => nan
  | ninf, _ => ninf
  | pinf, _ => pinf
  | fin _, ninf => ninf
  | fin _, pinf => pinf

def sub (a b : XR K) : XR K := add a (neg b)

/-- an infinity with the sign of `k`, NaN when `k = 0` (`0 * Inf`, `0 / 0`) -/
def infSign (k : K) : XR K := if 0 < k then pinf else if k < 0 then ninf else nan

def mul : XR K → XR K → XR K
  | nan, _ => nan
  | _, nan => nan
  | fin a, fin b => fin (a * b)
  | pinf, fin b => infSign b
  | ninf, fin b => infSign (-b)
  | fin a, pinf => infSign a
  | fin a, ninf => infSign (-a)
  | pinf, pinf => pinf
  | pinf, ninf => ninf
  | ninf, pinf => ninf
  | ninf, ninf => pinf

/-- Division.  The single zero counts as `+0`: `x / 0` is an infinity with the sign of `x`. -/
def div : XR K → XR K → XR K
  | nan, _ => nan
  | _, nan => nan
  | fin a, fin b => if b = 0 then infSign a else fin (a / b)
  | fin _, _ => fin 0
  | pinf, fin b => if b < 0 then ninf else pinf
  | ninf, fin b => if b < 0 then pinf else ninf
  | _, _ => nan

def abs : XR K → XR K
  | nan => nan
  | ninf => pinf
  | fin a => fin (if a < 0 then -a else a)
  | pinf => pinf

def lt : XR K → XR K → Bool
  | fin a, fin b => decide (a < b)
  | ninf, fin _ => true
  | ninf, pinf => true
  | fin _, pinf => true
  | _, _ => false

def le : XR K → XR K → Bool
  | fin a, fin b => decide (a ≤ b)
  | ninf, ninf => true
  | ninf, fin _ => true
  | ninf, pinf => true
  | fin _, pinf => true
  | pinf, pinf => true
  | _, _ => false

def eq : XR K → XR K → Bool
  | fin a, fin b => decide (a = b)
  | ninf, ninf => true
  | pinf, pinf => true
  | _, _ => false

def isNaN : XR K → Bool
  | nan => true
  | _ => false

def signbit : XR K → Bool
  | ninf => true
  | fin a => decide (a < 0)
  | _ => false

instance : GoFloat (XR K) where
  add := add
  sub := sub
  mul := mul
  div := div
  neg := neg
  lt := lt
  le := le
  eq := eq
  abs := abs
  isNaN := isNaN
  signbit := signbit
  nan := nan
  inf := pinf
  dec m e := fin ((m : K) / (10 : K) ^ e)
  ofInt i := fin (i : K)

end
end XR

end GoGeo
