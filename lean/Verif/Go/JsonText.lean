import Verif.Go.Json
import Verif.Go.Strconv

/-!
# The text of JSON documents (package encoding/json of Go 1.15)

`Verif.Go.Json` treats a document as a tree.  Here is the text: the compact printer of `json.Marshal` and the reader that
`json.Unmarshal` uses.  Text is a list of characters, not of UTF-8 bytes (Go replaces bytes that are not UTF-8 by U+FFFD).
Simplifications: an `int` is printed as the `float64` it is read as; the reader makes the tree in one pass, where Go first checks the syntax (encoding/json/scanner.go `checkValid`) and then fills in the values, so that a
failure leaves nothing behind here.
-/

namespace GoGeo.JsonText

/-! ### printing -/

/-- "clean up e-09 to e-9": `n >= 4 && b[n-4] == 'e' && b[n-3] == '-' && b[n-2] == '0'` (encoding/json/encode.go `floatEncoder.encode`) -/
def cleanExp (s : List Char) : List Char :=
  match s.reverse with
  | d :: '0' :: '-' :: 'e' :: r => (d :: '-' :: 'e' :: r).reverse
  | _ => s

/-- the text of a number: with an exponent if it is less than 1e-6 or not less than 1e21 (encoding/json/encode.go `floatEncoder.encode`) -/
def encFloat (x : Float) : List Char :=
  let a := GoFloat.abs x
  if GoFloat.ne a (GoFloat.lit 0) && (GoFloat.lt a (GoFloat.dec 1 6) || GoFloat.ge a (GoFloat.lit (10 ^ 21))) then cleanExp (Strconv.formatE x)
  else Strconv.formatFloat x

/-- `hex[n]` (encoding/json/encode.go `hex`) -/
def hexChar (n : ℕ) : Char := Char.ofNat (if n < 10 then 48 + n else 87 + n)

/-- one character of a string (encoding/json/encode.go `encodeState.string` with `escapeHTML`, encoding/json/tables.go `htmlSafeSet`) -/
def escChar (c : Char) : List Char :=
  if c = '"' ∨ c = '\\' then ['\\', c]
  else if c = '\n' then ['\\', 'n']
  else if c = '\r' then ['\\', 'r']
  else if c = '\t' then ['\\', 't']
  else if c.toNat < 32 ∨ c = '<' ∨ c = '>' ∨ c = '&' then ['\\', 'u', '0', '0', hexChar (c.toNat / 16), hexChar (c.toNat % 16)]
  else if c.toNat = 0x2028 ∨ c.toNat = 0x2029 then ['\\', 'u', '2', '0', '2', hexChar (c.toNat % 16)]
  else [c]

/-- a string (encoding/json/encode.go `encodeState.string`) -/
def encStr (s : String) : List Char := '"' :: (s.toList.flatMap escChar ++ ['"'])

section
variable {F : Type} (num : F → List Char)

mutual
/-- a document (encoding/json/encode.go `newTypeEncoder`) -/
def enc : Json F → List Char
  | .null => ['n', 'u', 'l', 'l']
  | .bool true => ['t', 'r', 'u', 'e']
  | .bool false => ['f', 'a', 'l', 's', 'e']
  | .num x => num x
  | .str s => encStr s
  | .arr l => '[' :: (encList l ++ [']'])
  | .obj m => '{' :: (encMembers m ++ ['}'])
/-- the elements of an array (encoding/json/encode.go `arrayEncoder.encode`) -/
def encList : List (Json F) → List Char
  | [] => []
  | j :: js => enc j ++ match js with | [] => [] | _ :: _ => ',' :: encList js
/-- the members of an object (encoding/json/encode.go `mapEncoder.encode`, `structEncoder.encode`) -/
def encMembers : List (String × Json F) → List Char
  | [] => []
  | (k, j) :: ms => encStr k ++ ':' :: (enc j ++ match ms with | [] => [] | _ :: _ => ',' :: encMembers ms)
end

end

/-! ### reading -/

/-- encoding/json/scanner.go `isSpace` -/
def isSpace (c : Char) : Bool := c == ' ' || c == '\t' || c == '\r' || c == '\n'
/-- drop white space -/
def skip (s : List Char) : List Char := s.dropWhile isSpace

/-- four hexadecimal digits (encoding/json/decode.go `getu4`) -/
def hex4 (a b c d : Char) : Option ℕ :=
  match Strconv.digitVal true a, Strconv.digitVal true b, Strconv.digitVal true c, Strconv.digitVal true d with
  | some a, some b, some c, some d => some (((a * 16 + b) * 16 + c) * 16 + d)
  | _, _, _, _ => none

/-- the escapes of one letter (encoding/json/decode.go `unquoteBytes`) -/
def escape (c : Char) : Option Char :=
  if c = '"' ∨ c = '\\' ∨ c = '/' then some c
  else if c = 'b' then some (Char.ofNat 8)
  else if c = 'f' then some (Char.ofNat 12)
  else if c = 'n' then some '\n'
  else if c = 'r' then some '\r'
  else if c = 't' then some '\t'
  else none

/-- the characters of a string up to the closing quote, and the text behind it; `\u` escapes are kept as numbers
(encoding/json/scanner.go `stateInString` and following, encoding/json/decode.go `unquoteBytes`) -/
def units : List Char → Option (List (Char ⊕ ℕ) × List Char)
  | [] => none
  | c :: s =>
    if c = '"' then some ([], s)
    else if c = '\\' then
      match s with
      | [] => none
      | [e] => none
      | e :: a :: s =>
        if e = 'u' then
          match s with
          | b :: c :: d :: s =>
            match hex4 a b c d with
            | some u => (units s).map fun p => (.inr u :: p.1, p.2)
            | none => none
          | _ => none
        else match escape e with
          | some x => (units (a :: s)).map fun p => (.inl x :: p.1, p.2)
          | none => none
    else if c.toNat < 32 then none
    else (units s).map fun p => (.inl c :: p.1, p.2)

/-- `utf16.IsSurrogate` -/
def surrogate (u : ℕ) : Bool := 0xD800 ≤ u && u < 0xE000
/-- the two halves of a pair: `utf16.DecodeRune` succeeds -/
def isPair (u v : ℕ) : Bool := 0xD800 ≤ u && u < 0xDC00 && 0xDC00 ≤ v && v < 0xE000
/-- the character of an escape that is not part of a pair -/
def unitChar (u : ℕ) : Char := if surrogate u then Char.ofNat 0xFFFD else Char.ofNat u

/-- put together the escapes for two halves of a character (encoding/json/decode.go `unquoteBytes`) -/
def join : List (Char ⊕ ℕ) → List Char
  | [] => []
  | .inl c :: l => c :: join l
  | .inr u :: [] => [unitChar u]
  | .inr u :: .inl c :: l => unitChar u :: c :: join l
  | .inr u :: .inr v :: l =>
    if isPair u v then Char.ofNat ((u - 0xD800) * 1024 + (v - 0xDC00) + 0x10000) :: join l
    else unitChar u :: join (.inr v :: l)

/-- a string, behind the opening quote -/
def str (s : List Char) : Option (String × List Char) := (units s).map fun p => (String.ofList (join p.1), p.2)

/-- an optional sign -/
def unsignExp : List Char → List Char
  | '+' :: t => t
  | '-' :: t => t
  | t => t
/-- the grammar of numbers: `isValidNumber` (encoding/json/decode.go), the same as the states of encoding/json/scanner.go;
here the exponent -/
def validExp : List Char → Bool
  | [] => true
  | c :: s => if c = 'e' ∨ c = 'E' then !(unsignExp s).isEmpty && (unsignExp s).all Char.isDigit else false
/-- a fraction and an exponent -/
def validFrac : List Char → Bool
  | '.' :: d :: s => if d.isDigit then validExp (s.dropWhile Char.isDigit) else false
  | s => validExp s
/-- what follows the sign -/
def validInt : List Char → Bool
  | [] => false
  | c :: s => if c = '0' then validFrac s else if c.isDigit then validFrac (s.dropWhile Char.isDigit) else false
/-- a number -/
def validNum : List Char → Bool
  | '-' :: s => validInt s
  | s => validInt s

/-- the characters that a number goes on with -/
def numChar (c : Char) : Bool := c.isDigit || c == '+' || c == '-' || c == '.' || c == 'e' || c == 'E'

section
variable {F : Type} (rd : List Char → Option F)

/-- a number, and the text behind it -/
def number (s : List Char) : Option (Json F × List Char) :=
  if validNum (s.takeWhile numChar) then (rd (s.takeWhile numChar)).map fun x => (.num x, s.dropWhile numChar) else none

/-- the rest of a word -/
def word (w : List Char) (j : Json F) (s : List Char) : Option (Json F × List Char) := if w.isPrefixOf s then some (j, s.drop w.length) else none

mutual
/-- a value and the text behind it (encoding/json/decode.go `valueInterface`).  The first argument bounds the number of calls;
`read` gives enough.  The second is the number of levels of nesting that are left (encoding/json/scanner.go `pushParseState`). -/
def value : ℕ → ℕ → List Char → Option (Json F × List Char)
  | 0, _, _ => none
  | n + 1, dep, s =>
    match skip s with
    | [] => none
    | c :: r =>
      if c = '"' then (str r).map fun p => (.str p.1, p.2)
      else if c = '[' then
        match dep with
        | 0 => none
        | dep + 1 =>
          match skip r with
          | [] => none
          | c :: t => if c = ']' then some (.arr [], t) else (elems n dep (c :: t)).map fun p => (.arr p.1, p.2)
      else if c = '{' then
        match dep with
        | 0 => none
        | dep + 1 =>
          match skip r with
          | [] => none
          | c :: t => if c = '}' then some (.obj [], t) else (members n dep (c :: t)).map fun p => (.obj p.1, p.2)
      else if c = 'n' then word ['u', 'l', 'l'] .null r
      else if c = 't' then word ['r', 'u', 'e'] (.bool true) r
      else if c = 'f' then word ['a', 'l', 's', 'e'] (.bool false) r
      else number rd (c :: r)
/-- the elements of an array and the closing bracket (encoding/json/decode.go `arrayInterface`) -/
def elems : ℕ → ℕ → List Char → Option (List (Json F) × List Char)
  | 0, _, _ => none
  | n + 1, dep, s =>
    match value n dep s with
    | none => none
    | some (j, r) =>
      match skip r with
      | [] => none
      | c :: t =>
        if c = ',' then (elems n dep t).map fun p => (j :: p.1, p.2)
        else if c = ']' then some ([j], t) else none
/-- the members of an object and the closing brace (encoding/json/decode.go `objectInterface`) -/
def members : ℕ → ℕ → List Char → Option (List (String × Json F) × List Char)
  | 0, _, _ => none
  | n + 1, dep, s =>
    match skip s with
    | [] => none
    | c :: r =>
      if c = '"' then
        match str r with
        | none => none
        | some (k, r) =>
          match skip r with
          | [] => none
          | c :: r =>
            if c = ':' then
              match value n dep r with
              | none => none
              | some (j, r) =>
                match skip r with
                | [] => none
                | c :: t =>
                  if c = ',' then (members n dep t).map fun p => ((k, j) :: p.1, p.2)
                  else if c = '}' then some ([(k, j)], t) else none
            else none
      else none
end

/-- encoding/json/scanner.go `maxNestingDepth` -/
def maxNesting : ℕ := 10000

/-- a whole text (encoding/json/decode.go `Unmarshal`); `none` is an error -/
def read (s : List Char) : Option (Json F) :=
  match value rd (2 * s.length + 2) maxNesting s with
  | none => none
  | some (j, r) => if skip r = [] then some j else none

end

example : encFloat 1e-7 = "1e-7".toList := by decide +kernel
example : encFloat 1e-6 = "0.000001".toList := by decide +kernel
example : encFloat 1e-10 = "1e-10".toList := by decide +kernel
example : encFloat 1e21 = "1e+21".toList := by decide +kernel
example : encFloat (-123456789012345678901) = "-123456789012345680000".toList := by decide +kernel
example : encStr "a<b>\"\n\x01é " = "\"a\\u003cb\\u003e\\\"\\n\\u0001é\\u2028\"".toList := by decide +kernel
example : enc encFloat (.obj [("type", .str "Point"), ("coordinates", .arr [.num 1.5, .num (-2)])])
    = "{\"type\":\"Point\",\"coordinates\":[1.5,-2]}".toList := by decide +kernel

end GoGeo.JsonText
