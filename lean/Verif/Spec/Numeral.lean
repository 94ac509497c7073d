import Verif.Go.F64
import Verif.Spec.Text

/-! # Decimal numerals, their value, and the `float64` nearest to it -/

namespace GoGeo
open FloatVal

/-- a decimal numeral such as `12`, `-0.5`, `.5` or `7.` -/
structure Numeral where
  neg : Bool
  whole : List (Fin 10)
  /-- the digits behind the decimal point, if there is one -/
  frac : Option (List (Fin 10))

/-- the character of a digit -/
def digitChar (d : Fin 10) : Char := Char.ofNat (48 + d.val)

/-- the digits behind the point -/
def Numeral.fdigits (n : Numeral) : List (Fin 10) := n.frac.getD []

/-- the numeral as text -/
def Numeral.text (n : Numeral) : List Char :=
  (if n.neg then ['-'] else []) ++ (n.whole.map digitChar ++
    match n.frac with
    | none => []
    | some ds => '.' :: ds.map digitChar)

/-- there is at least one digit -/
def Numeral.Valid (n : Numeral) : Prop := n.whole ++ n.fdigits ≠ []

/-- the number written by a row of digits -/
def rowValue (ds : List (Fin 10)) : ℕ := ds.foldl (fun a d => 10 * a + d.val) 0

/-- the exact value of a numeral -/
def Numeral.value (n : Numeral) : ℚ :=
  (if n.neg then -1 else 1) * ((rowValue (n.whole ++ n.fdigits) : ℚ) / 10 ^ n.fdigits.length)

/-- `q` is written with at most `n` significant digits: it is an integer of at most `n` digits, moved by a power of ten -/
def HasDigits (n : ℕ) (q : ℚ) : Prop := ∃ (c : ℤ) (e : ℤ), |c| < 10 ^ n ∧ q = c * 10 ^ e

/-- no needless zeros: at least one digit before the point, no zero in front of other digits, and, if there is a point, digits behind it which do not end with a zero -/
def Numeral.Plain (n : Numeral) : Prop :=
  n.whole ≠ [] ∧ (n.whole.head? = some 0 → n.whole = [0]) ∧ ∀ ds, n.frac = some ds → ∃ d, ds.getLast? = some d ∧ d ≠ 0

/-- no `float64` is closer to `q` than `x` -/
def IsNearest (x : Float) (q : ℚ) : Prop :=
  ∃ v : ℚ, val x = .fin v ∧ ∀ (y : Float) (w : ℚ), val y = .fin w → |v - q| ≤ |w - q|

/-- numbers which are closer to the largest `float64`, `2^1024 - 2^971`, than to `2^1024` -/
def InRange (q : ℚ) : Prop := |q| < 2 ^ 1024 - 2 ^ 970

/-- a number as it is usually written: no needless zeros, at most 15 significant digits, zero or between `10^-307` and the largest `float64` -/
def Numeral.Usual (n : Numeral) : Prop := n.Plain ∧ HasDigits 15 n.value ∧ (n.value = 0 ∨ 1 / 10 ^ 307 ≤ |n.value|) ∧ InRange n.value

/-- a position in two dimensions, as text -/
def numeralPos (p : Numeral × Numeral) : List Char := p.1.text ++ ' ' :: p.2.text

/-- neither NaN nor an infinity -/
def FiniteNum {F : Type} [GoFloat F] (x : F) : Prop := GoFloat.isNaN x = false ∧ GoFloat.eq x GoFloat.inf = false ∧ GoFloat.eq x (-GoFloat.inf) = false

/-- points, and not empty lines and multipoints, all of whose coordinates are finite -/
def SimpleFinite {F : Type} [GoFloat F] : Geometry F → Prop
  | .point p => FiniteNum p.X ∧ FiniteNum p.Y
  | .pointZ p => FiniteNum p.X ∧ FiniteNum p.Y ∧ FiniteNum p.Z
  | .lineString ps => ps ≠ [] ∧ ∀ p ∈ ps, FiniteNum p.X ∧ FiniteNum p.Y
  | .lineStringZ ps => ps ≠ [] ∧ ∀ p ∈ ps, FiniteNum p.X ∧ FiniteNum p.Y ∧ FiniteNum p.Z
  | .multiPoint ps => ps ≠ [] ∧ ∀ p ∈ ps, FiniteNum p.X ∧ FiniteNum p.Y
  | .multiPointZ ps => ps ≠ [] ∧ ∀ p ∈ ps, FiniteNum p.X ∧ FiniteNum p.Y ∧ FiniteNum p.Z
  | _ => False

end GoGeo
