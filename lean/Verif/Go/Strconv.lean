import Verif.Wkt.Model
import Verif.Go.Num

/-!
# Package strconv for `float64` (Go 1.15)

`ParseFloat(s, 64)` and `FormatFloat(x, 'f', -1, 64)`, the two library functions through which the WKT codec
reads and writes coordinates (wkt/encode.go:12-16, wkt/decode.go:14-23, 41-50, 76-85).

The syntax accepted by `ParseFloat` is transcribed from `readFloat`, `special` and `underscoreOK` in strconv/atof.go and
strconv/atoi.go. Simplifications: text is a list of characters, not of UTF-8 bytes (every byte which is not ASCII is
rejected, and so is every character which is not ASCII); the *value* is computed exactly and rounded once to nearest even,
which is the documented contract of the function, not by the Eisel-Lemire, extended and decimal algorithms in it;
a value which is too large, for which Go returns an infinity together with an error, is an error.
`FormatFloat` is its documented contract too: the shortest digits that read back, and among these the closest.
-/

namespace GoGeo.Strconv

/-- `lower(c)` compared with a letter (strconv/atoi.go: `c | ('x' - 'X')`) -/
def isLetter (l u c : Char) : Bool := c == l || c == u

/-- decimal digits, and in base 16 also a to f in both cases (strconv/atof.go `readFloat`, the two digit cases) -/
def digitVal (hex : Bool) (c : Char) : Option ℕ :=
  if c.isDigit then some (c.toNat - 48)
  else if hex then
    if 97 ≤ c.toNat ∧ c.toNat ≤ 102 then some (c.toNat - 87)
    else if 65 ≤ c.toNat ∧ c.toNat ≤ 70 then some (c.toNat - 55)
    else none
  else none

/-- the digits loop of `readFloat` (strconv/atof.go): the mantissa without its point, the number of digits behind the point,
whether any digit was seen, and the text where the loop stopped. Go keeps the first 19 digits and drops the rest into a
second, slower, algorithm; here all digits count. -/
def scanMant (hex : Bool) : List Char → ℕ → ℕ → Bool → Bool → ℕ × ℕ × Bool × List Char
  | [], m, fd, _, dg => (m, fd, dg, [])
  | c :: s, m, fd, dot, dg =>
    if c = '_' then scanMant hex s m fd dot dg
    else if c = '.' then if dot then (m, fd, dg, c :: s) else scanMant hex s m fd true dg
    else match digitVal hex c with
      | some d => scanMant hex s ((if hex then 16 else 10) * m + d) (if dot then fd + 1 else fd) dot true
      | none => (m, fd, dg, c :: s)

/-- the exponent loop of `readFloat` (strconv/atof.go): `if e < 10000 { e = e*10 + int(s[i]) - '0' }` -/
def scanExp : List Char → ℕ → ℕ × List Char
  | [], e => (e, [])
  | c :: s, e =>
    if c = '_' then scanExp s e
    else if c.isDigit then scanExp s (if e < 10000 then e * 10 + (c.toNat - 48) else e)
    else (e, c :: s)

/-- the digits of the exponent: there must be one at the start, and nothing may follow (strconv/atof.go `readFloat`) -/
def expDigits : List Char → Option ℕ
  | [] => none
  | c :: s => if c.isDigit then (match scanExp (c :: s) 0 with | (e, []) => some e | _ => none) else none

/-- the exponent part up to the end of the text; it is required in base 16 (strconv/atof.go `readFloat`) -/
def readExp (hex : Bool) : List Char → Option ℤ
  | [] => if hex then none else some 0
  | c :: s =>
    if (if hex then isLetter 'p' 'P' c else isLetter 'e' 'E' c) then
      match s with
      | '+' :: t => (expDigits t).map fun n : ℕ => (n : ℤ)
      | '-' :: t => (expDigits t).map fun n : ℕ => -(n : ℤ)
      | t => (expDigits t).map fun n : ℕ => (n : ℤ)
    else none

/-- the loop of `underscoreOK` (strconv/atoi.go): `saw` is `'0'` after a digit, `'_'` after an underscore, anything else otherwise -/
def usLoop (hex : Bool) : Char → List Char → Bool
  | saw, [] => saw != '_'
  | saw, c :: s =>
    if (digitVal hex c).isSome then usLoop hex '0' s
    else if c = '_' then if saw = '0' then usLoop hex '_' s else false
    else if saw = '_' then false
    else usLoop hex '!' s

/-- strip an optional sign -/
def unsign : List Char → Bool × List Char
  | '+' :: t => (false, t)
  | '-' :: t => (true, t)
  | t => (false, t)

/-- `underscoreOK` (strconv/atoi.go) -/
def underscoreOK (s : List Char) : Bool :=
  match (unsign s).2 with
  | '0' :: c :: t =>
    if isLetter 'b' 'B' c || isLetter 'o' 'O' c || isLetter 'x' 'X' c then usLoop (isLetter 'x' 'X' c) '0' t
    else usLoop false '^' ('0' :: c :: t)
  | t => usLoop false '^' t

/-- the prefix `0x`, if something follows it: `i+2 < len(s) && s[i] == '0' && lower(s[i+1]) == 'x'` (strconv/atof.go `readFloat`) -/
def hexPrefix : List Char → Bool × List Char
  | '0' :: c :: d :: t => if isLetter 'x' 'X' c then (true, d :: t) else (false, '0' :: c :: d :: t)
  | t => (false, t)

/-- the nearest `float64` to `m · 10^e` -/
def decVal (m : ℕ) (e : ℤ) : Float := if 0 ≤ e then GoFloat.dec (m * 10 ^ e.toNat) 0 else GoFloat.dec m (-e).toNat
/-- the nearest `float64` to `m · 2^e` -/
def binVal (m : ℕ) (e : ℤ) : Float := if 0 ≤ e then GoFloat.dec (m * 2 ^ e.toNat) 0 else GoFloat.dec (m * 5 ^ (-e).toNat) (-e).toNat

/-- `readFloat` and the rounding of its result (strconv/atof.go `readFloat`, `atof64`) -/
def readFloat (s : List Char) : Option Float :=
  let (neg, t) := unsign s
  let (hex, t) := hexPrefix t
  let (m, fd, dg, r) := scanMant hex t 0 0 false false
  if dg = false then none else
  match readExp hex r with
  | none => none
  | some e =>
    if s.contains '_' && !underscoreOK s then none else
    let v := if hex then binVal m (e - 4 * fd) else decVal m (e - fd)
    if v = GoFloat.inf then none else some (if neg then -v else v)

/-- the text without case -/
def lowerAll (s : List Char) : List Char := s.map Char.toLower

/-- `special` (strconv/atof.go): infinities with an optional sign, NaN without one -/
def special (s : List Char) : Option Float :=
  let (neg, t) := unsign s
  if lowerAll t = ['i', 'n', 'f'] || lowerAll t = ['i', 'n', 'f', 'i', 'n', 'i', 't', 'y'] then some (if neg then -GoFloat.inf else GoFloat.inf)
  else if lowerAll s = ['n', 'a', 'n'] then some GoFloat.nan
  else none

/-- `ParseFloat(s, 64)` (strconv/atof.go); `none` is an error -/
def parseFloat (s : List Char) : Option Float :=
  match special s with
  | some x => some x
  | none => readFloat s

/-! ### FormatFloat -/

/-- the digits of `m` with a point `k` places from the right (strconv/ftoa.go `fmtF`) -/
def fixed (m k : ℕ) : List Char :=
  if k = 0 then Nat.toDigits 10 m
  else Nat.toDigits 10 (m / 10 ^ k) ++ '.' :: (List.replicate (k - (Nat.toDigits 10 (m % 10 ^ k)).length) '0' ++ Nat.toDigits 10 (m % 10 ^ k))

/-- drop zeros at the end of the digits behind the point -/
def trimZeros : ℕ → ℕ → ℕ × ℕ
  | m, 0 => (m, 0)
  | m, k + 1 => if m % 10 = 0 then trimZeros (m / 10) k else (m, k + 1)

/-- the text of `m · 10^j / 10^k` -/
def candText (m j k : ℕ) : List Char :=
  if j ≤ k then fixed (trimZeros m (k - j)).1 (trimZeros m (k - j)).2 else fixed (m * 10 ^ (j - k)) 0

/-- the two numbers `m · 10^j` with `n` digits next to `M`, as pairs of `m` and `j`: the closer one first, and of two at the same
distance the even one (strconv/ftoa.go `roundShortest`, strconv/decimal.go `shouldRoundUp`) -/
def candNums (M n : ℕ) : List (ℕ × ℕ) :=
  let j := (Nat.toDigits 10 M).length - n
  let lo := M / 10 ^ j
  let r := M % 10 ^ j
  if r = 0 then [(lo, j)]
  else if 10 ^ j < 2 * r ∨ (2 * r = 10 ^ j ∧ lo % 2 = 1) then [(lo + 1, j), (lo, j)]
  else [(lo, j), (lo + 1, j)]

/-- their texts, for `M / 10^k` -/
def cands (M k n : ℕ) : List (List Char) := (candNums M n).map fun p => candText p.1 p.2 k

/-- the digits of a positive number `M / 10^k`: the fewest digits that read back as `x`, at most 17 of them, otherwise all digits.
(17 digits are always enough for a `float64`; the model does not depend on that.) -/
def shortest (x : Float) (M k : ℕ) : List Char :=
  (((List.range 17).flatMap fun n => cands M k (n + 1)).find? fun t => readFloat t = some x).getD (fixed M k)

/-- the exact decimal expansion `M / 10^k` of `m · 2^e` -/
def exactDec (m : ℕ) (e : ℤ) : ℕ × ℕ := if 0 ≤ e then (m * 2 ^ e.toNat, 0) else (m * 5 ^ (-e).toNat, (-e).toNat)

/-- `FormatFloat(x, 'f', -1, 64)` (strconv/ftoa.go) -/
def formatFloat (x : Float) : List Char :=
  match x.toModel.unpack with
  | .notANumber => ['N', 'a', 'N']
  | .infinity .positive => ['+', 'I', 'n', 'f']
  | .infinity .negative => ['-', 'I', 'n', 'f']
  | .zero .positive => ['0']
  | .zero .negative => ['-', '0']
  | .finite .positive m e _ => shortest x (exactDec m e).1 (exactDec m e).2
  | .finite .negative m e _ => '-' :: shortest (-x) (exactDec m e).1 (exactDec m e).2

/-! ### FormatFloat with an exponent -/

/-- the exponent: a sign and at least two digits (strconv/ftoa.go `fmtE`) -/
def expText (n : ℤ) : List Char :=
  (if n < 0 then '-' else '+') :: (if n.natAbs < 10 then '0' :: Nat.toDigits 10 n.natAbs else Nat.toDigits 10 n.natAbs)

/-- one digit, a point if more digits follow, the other digits, and the exponent (strconv/ftoa.go `fmtE`) -/
def eTok (d : Char) (ds : List Char) (ex : List Char) : List Char := d :: ((if ds = [] then [] else '.' :: ds) ++ 'e' :: ex)

/-- the text of `c · 10^e` (strconv/ftoa.go `fmtE`) -/
def eText (c : ℕ) (e : ℤ) : List Char :=
  match Nat.toDigits 10 c with
  | [] => []
  | d :: ds => eTok d ds (expText (e + ds.length))

/-- the text of `m · 10^j / 10^k` without zeros at the end of its digits -/
def candE (k m j : ℕ) : List Char :=
  let n := (Nat.toDigits 10 m).length
  let t := trimZeros m n
  eText t.1 ((j : ℤ) - k + (n - t.2 : ℕ))

/-- the fewest digits of `M / 10^k` that read back as `x`, with an exponent -/
def shortestE (x : Float) (M k : ℕ) : List Char :=
  (((List.range 17).flatMap fun n => (candNums M (n + 1)).map fun p => candE k p.1 p.2).find? fun t => readFloat t = some x).getD (eText M (0 - k))

/-- `FormatFloat(x, 'e', -1, 64)` (strconv/ftoa.go) -/
def formatE (x : Float) : List Char :=
  match x.toModel.unpack with
  | .notANumber => ['N', 'a', 'N']
  | .infinity .positive => ['+', 'I', 'n', 'f']
  | .infinity .negative => ['-', 'I', 'n', 'f']
  | .zero .positive => ['0', 'e', '+', '0', '0']
  | .zero .negative => ['-', '0', 'e', '+', '0', '0']
  | .finite .positive m e _ => shortestE x (exactDec m e).1 (exactDec m e).2
  | .finite .negative m e _ => '-' :: shortestE (-x) (exactDec m e).1 (exactDec m e).2

/-- the number text of `float64` in Go -/
def float64Text : NumText Float := ⟨formatFloat, parseFloat⟩

example : formatE 1e-7 = "1e-07".toList := by decide +kernel
example : formatE (-1.25e21) = "-1.25e+21".toList := by decide +kernel
example : formatE 1e23 = "1e+23".toList := by decide +kernel
example : formatE 5e-324 = "5e-324".toList := by decide +kernel
example : formatE 1.7976931348623157e308 = "1.7976931348623157e+308".toList := by decide +kernel
example : formatFloat 0.1 = "0.1".toList := by decide +kernel
example : formatFloat (-12.5) = "-12.5".toList := by decide +kernel
example : formatFloat 1e23 = "100000000000000000000000".toList := by decide +kernel
example : formatFloat (0.1 + 0.2) = "0.30000000000000004".toList := by decide +kernel
example : formatFloat 0.001 = "0.001".toList := by decide +kernel
example : formatFloat 116.3974799 = "116.3974799".toList := by decide +kernel
example : formatFloat 100 = "100".toList := by decide +kernel
example : formatFloat 5e-324 = ("0." ++ String.ofList (List.replicate 323 '0') ++ "5").toList := by decide +kernel
example : formatFloat 1.7976931348623157e308 = ("17976931348623157" ++ String.ofList (List.replicate 292 '0')).toList := by decide +kernel
example : (parseFloat "1_23.50_0_0e+1_2".toList) = some 1.235e14 := by decide +kernel
example : (parseFloat "-0x1.8p1".toList) = some (-3) := by decide +kernel
example : (parseFloat "1e309".toList) = none := by decide +kernel
example : (parseFloat "+Inf".toList) = some (1/0) := by decide +kernel
example : (parseFloat "-_123.5e+12".toList) = none := by decide +kernel
example : (parseFloat ".".toList) = none ∧ (parseFloat "".toList) = none ∧ (parseFloat "1e".toList) = none ∧ parseFloat "0x1".toList = none ∧ parseFloat ".5".toList = some 0.5 := by decide +kernel

end GoGeo.Strconv
