import Verif.Go.Json

/-!
# RFC 8259: which texts a JSON document has

Nothing here refers to the printer or the reader of the model.
-/

namespace GoGeo.Rfc8259

/-- insignificant white space -/
def Ws (w : List Char) : Prop := ∀ c ∈ w, c = ' ' ∨ c = '\t' ∨ c = '\n' ∨ c = '\r'

/-- the value of a hexadecimal digit -/
def hexDigit (c : Char) (v : ℕ) : Prop :=
  ("0123456789abcdef".toList[v]? = some c) ∨ ("0123456789ABCDEF".toList[v]? = some c)

/-- `t` is the escape `\uXXXX` of `u` -/
def Escape (u : ℕ) (t : List Char) : Prop :=
  ∃ a b c d va vb vc vd, hexDigit a va ∧ hexDigit b vb ∧ hexDigit c vc ∧ hexDigit d vd ∧ u = va * 4096 + vb * 256 + vc * 16 + vd ∧
    t = ['\\', 'u', a, b, c, d]

/-- the escapes of one letter -/
def Letter (e x : Char) : Prop :=
  (e, x) ∈ [('"', '"'), ('\\', '\\'), ('/', '/'), ('b', Char.ofNat 8), ('f', Char.ofNat 12), ('n', '\n'), ('r', '\r'), ('t', '\t')]

/-- the first half of a character above U+FFFF -/
def High (u : ℕ) : Prop := 0xD800 ≤ u ∧ u ≤ 0xDBFF
/-- the second half -/
def Low (u : ℕ) : Prop := 0xDC00 ≤ u ∧ u ≤ 0xDFFF

/-- `StrBody s t`: between its quotes, a string of the characters `s` may be written as `t` -/
inductive StrBody : List Char → List Char → Prop where
  | nil : StrBody [] []
  /-- a character which is no control character, quote or backslash stands for itself -/
  | plain {c s t} : 0x20 ≤ c.toNat → c ≠ '"' → c ≠ '\\' → StrBody s t → StrBody (c :: s) (c :: t)
  | letter {e x s t} : Letter e x → StrBody s t → StrBody (x :: s) ('\\' :: e :: t)
  | unit {u w s t} : Escape u w → ¬ High u → ¬ Low u → StrBody s t → StrBody (Char.ofNat u :: s) (w ++ t)
  | pair {u v w w' s t} : Escape u w → High u → Escape v w' → Low v → StrBody s t →
      StrBody (Char.ofNat (0x10000 + (u - 0xD800) * 0x400 + (v - 0xDC00)) :: s) (w ++ (w' ++ t))
  /-- RFC 8259 leaves open what half a character is read as; in Go it is U+FFFD -/
  | lone {u w s t} : Escape u w → High u ∨ Low u → (High u → ∀ v w' t', Low v → Escape v w' → t ≠ w' ++ t') → StrBody s t →
      StrBody (Char.ofNat 0xFFFD :: s) (w ++ t)

/-- a string with its quotes -/
def Str (s : String) (t : List Char) : Prop := ∃ b, StrBody s.toList b ∧ t = '"' :: (b ++ ['"'])

/-- one or more digits -/
def Digits (t : List Char) : Prop := t ≠ [] ∧ ∀ c ∈ t, c.isDigit = true

/-- the grammar of numbers: `[minus] int [frac] [exp]` -/
def Number (t : List Char) : Prop :=
  ∃ sg ip fp ep, t = sg ++ (ip ++ (fp ++ ep)) ∧ (sg = [] ∨ sg = ['-']) ∧
    (ip = ['0'] ∨ (Digits ip ∧ ip.head? ≠ some '0')) ∧
    (fp = [] ∨ ∃ ds, fp = '.' :: ds ∧ Digits ds) ∧
    (ep = [] ∨ ∃ e sg ds, ep = e :: (sg ++ ds) ∧ (e = 'e' ∨ e = 'E') ∧ (sg = [] ∨ sg = ['+'] ∨ sg = ['-']) ∧ Digits ds)

/-- the exponent of a number: `ep` is empty, or a letter, an optional sign and digits -/
def expValue : List Char → ℤ
  | [] => 0
  | _ :: '-' :: ds => -(Nat.ofDigitChars 10 ds 0 : ℤ)
  | _ :: '+' :: ds => (Nat.ofDigitChars 10 ds 0 : ℤ)
  | _ :: ds => (Nat.ofDigitChars 10 ds 0 : ℤ)

/-- `q` is the exact value of the number text `t`, whose exponent is less than 10000 -/
def NumberValue (t : List Char) (q : ℚ) : Prop :=
  ∃ sg ip fp ep, t = sg ++ (ip ++ (fp ++ ep)) ∧ (sg = [] ∨ sg = ['-']) ∧
    (ip = ['0'] ∨ (Digits ip ∧ ip.head? ≠ some '0')) ∧
    (fp = [] ∨ ∃ ds, fp = '.' :: ds ∧ Digits ds) ∧
    (ep = [] ∨ ∃ e sg ds, ep = e :: (sg ++ ds) ∧ (e = 'e' ∨ e = 'E') ∧ (sg = [] ∨ sg = ['+'] ∨ sg = ['-']) ∧ Digits ds) ∧
    |expValue ep| < 10000 ∧
    q = (if sg = ['-'] then -1 else 1) * ((Nat.ofDigitChars 10 (ip ++ fp.tail) 0 : ℚ) / 10 ^ fp.tail.length) * (10 : ℚ) ^ expValue ep

section
variable {F : Type}
-- `N x t`: a text `t` that follows the grammar stands for the number `x`
variable (N : F → List Char → Prop)

mutual
/-- `t` is a text of the document -/
def Text : Json F → List Char → Prop
  | .null, t => t = "null".toList
  | .bool b, t => t = (if b then "true" else "false").toList
  | .num x, t => Number t ∧ N x t
  | .str s, t => Str s t
  | .arr l, t => ∃ b, Elems l b ∧ t = '[' :: (b ++ [']'])
  | .obj m, t => ∃ b, Members m b ∧ t = '{' :: (b ++ ['}'])
/-- `[ value *( "," value ) ]` -/
def Elems : List (Json F) → List Char → Prop
  | [], b => Ws b
  | j :: js, b => ∃ w t w' r, Ws w ∧ Text j t ∧ Ws w' ∧ MoreElems js r ∧ b = w ++ (t ++ (w' ++ r))
/-- `*( "," value )` -/
def MoreElems : List (Json F) → List Char → Prop
  | [], b => b = []
  | j :: js, b => ∃ w t w' r, Ws w ∧ Text j t ∧ Ws w' ∧ MoreElems js r ∧ b = ',' :: (w ++ (t ++ (w' ++ r)))
/-- `[ member *( "," member ) ]` where a member is `string ":" value` -/
def Members : List (String × Json F) → List Char → Prop
  | [], b => Ws b
  | (k, j) :: ms, b => ∃ w0 tk w1 w t w' r, Ws w0 ∧ Str k tk ∧ Ws w1 ∧ Ws w ∧ Text j t ∧ Ws w' ∧ MoreMembers ms r ∧
      b = w0 ++ (tk ++ (w1 ++ ':' :: (w ++ (t ++ (w' ++ r)))))
/-- `*( "," member )` -/
def MoreMembers : List (String × Json F) → List Char → Prop
  | [], b => b = []
  | (k, j) :: ms, b => ∃ w0 tk w1 w t w' r, Ws w0 ∧ Str k tk ∧ Ws w1 ∧ Ws w ∧ Text j t ∧ Ws w' ∧ MoreMembers ms r ∧
      b = ',' :: (w0 ++ (tk ++ (w1 ++ ':' :: (w ++ (t ++ (w' ++ r))))))
end

/-- a whole text: a value with white space around it -/
def Doc (j : Json F) (s : List Char) : Prop := ∃ w t w', Ws w ∧ Text N j t ∧ Ws w' ∧ s = w ++ (t ++ w')

end

mutual
/-- how deeply arrays and objects are nested -/
def nesting {F : Type} : Json F → ℕ
  | .arr l => nestingList l + 1
  | .obj m => nestingMembers m + 1
  | _ => 0
def nestingList {F : Type} : List (Json F) → ℕ
  | [] => 0
  | j :: js => Nat.max (nesting j) (nestingList js)
def nestingMembers {F : Type} : List (String × Json F) → ℕ
  | [] => 0
  | (_, j) :: ms => Nat.max (nesting j) (nestingMembers ms)
end

end GoGeo.Rfc8259
