import Verif.Spec.Text

/-! # Positions as lists of words -/

namespace GoGeo

/-- a word: not empty, without white space, commas and round brackets -/
def Word (w : List Char) : Prop := w ≠ [] ∧ ∀ c ∈ w, ¬ notInNumber c

/-- the words of a position: one or more -/
def Fields (ws : List (List Char)) : Prop := ws ≠ [] ∧ ∀ w ∈ ws, Word w

/-- `TAG(a b,c d,…)`: the words of a position with spaces between them, the positions with commas between them -/
def wordsText (tag : String) (ps : List (List (List Char))) : List Char :=
  tag.toList ++ '(' :: (Str.join ',' (ps.map (Str.join ' ')) ++ [')'])

section
variable {F : Type} (T : NumText F)

/-- two numbers and no third field, or two numbers and two or more further fields, whatever they are -/
def IsXY (ws : List (List Char)) (p : Point F) : Prop :=
  ∃ a b rest, ws = a :: b :: rest ∧ rest.length ≠ 1 ∧ T.parse a = some p.X ∧ T.parse b = some p.Y

/-- three numbers -/
def IsXYZ (ws : List (List Char)) (p : PointZ F) : Prop :=
  ∃ a b c, ws = [a, b, c] ∧ T.parse a = some p.X ∧ T.parse b = some p.Y ∧ T.parse c = some p.Z

/-- the fields that are looked at are numbers, two of them or three -/
def ReadablePos (ws : List (List Char)) : Prop := (∃ p, IsXY T ws p) ∨ ∃ p, IsXYZ T ws p

/-- a single number -/
def LonePos (ws : List (List Char)) : Prop := ∃ w x, ws = [w] ∧ T.parse w = some x

end

/-- points, and not empty lines and multipoints, all of whose coordinates satisfy `P` -/
def SimpleWith {F : Type} (P : F → Prop) : Geometry F → Prop
  | .point p => P p.X ∧ P p.Y
  | .pointZ p => P p.X ∧ P p.Y ∧ P p.Z
  | .lineString ps => ps ≠ [] ∧ ∀ p ∈ ps, P p.X ∧ P p.Y
  | .lineStringZ ps => ps ≠ [] ∧ ∀ p ∈ ps, P p.X ∧ P p.Y ∧ P p.Z
  | .multiPoint ps => ps ≠ [] ∧ ∀ p ∈ ps, P p.X ∧ P p.Y
  | .multiPointZ ps => ps ≠ [] ∧ ∀ p ∈ ps, P p.X ∧ P p.Y ∧ P p.Z
  | _ => False

end GoGeo
