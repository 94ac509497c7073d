import Mathlib.Data.List.Basic

/-! # Characters of printed documents (C127) -/

namespace GoGeo.Spec

/-- a character that cannot end a line, a string or a script in HTML or JavaScript: no control character, none of `<`, `>`, `&`, and neither
of the line separators U+2028 and U+2029 -/
def Harmless (c : Char) : Prop := 32 ≤ c.toNat ∧ c ≠ '<' ∧ c ≠ '>' ∧ c ≠ '&' ∧ c.toNat ≠ 0x2028 ∧ c.toNat ≠ 0x2029

/-- a string of characters that need no escape -/
def Ordinary (s : String) : Prop := ∀ c ∈ s.toList, Harmless c ∧ c ≠ '"' ∧ c ≠ '\\'

mutual
/-- the characters of a text that are not between quotes; a backslash protects the next character -/
def outside : List Char → List Char
  | [] => []
  | c :: s => if c = '"' then inside s else c :: outside s
/-- the same from a place between quotes -/
def inside : List Char → List Char
  | [] => []
  | [_] => []
  | c :: d :: s => if c = '\\' then inside s else if c = '"' then outside (d :: s) else inside (d :: s)
end

end GoGeo.Spec
