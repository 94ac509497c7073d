import Verif.Wkt.Model

/-! # When is a number written so that it can be read back? -/

namespace GoGeo

/-- the text of `x` consists of digits, minus signs and points, is not empty, and reads back as `x`.
This is what package strconv promises of `FormatFloat(x, 'f', -1, 64)` for every finite `x`. -/
structure ReadsBack {F : Type} (T : NumText F) (x : F) : Prop where
  parse_fmt : T.parse (T.fmt x) = some x
  ne : T.fmt x ≠ []
  plain : ∀ c ∈ T.fmt x, c.isDigit ∨ c = '-' ∨ c = '.'

/-- all coordinates of a point read back -/
def PointReads {F : Type} (T : NumText F) (p : Point F) : Prop := ReadsBack T p.X ∧ ReadsBack T p.Y
/-- all coordinates of a point read back -/
def PointZReads {F : Type} (T : NumText F) (p : PointZ F) : Prop := ReadsBack T p.X ∧ ReadsBack T p.Y ∧ ReadsBack T p.Z

/-- points, and not empty lines and multipoints, whose coordinates read back -/
def SimpleText {F : Type} (T : NumText F) : Geometry F → Prop
  | .point p => PointReads T p
  | .pointZ p => PointZReads T p
  | .lineString ps => ps ≠ [] ∧ ∀ p ∈ ps, PointReads T p
  | .lineStringZ ps => ps ≠ [] ∧ ∀ p ∈ ps, PointZReads T p
  | .multiPoint ps => ps ≠ [] ∧ ∀ p ∈ ps, PointReads T p
  | .multiPointZ ps => ps ≠ [] ∧ ∀ p ∈ ps, PointZReads T p
  | _ => False

/-- spaces, tabs, line ends, commas and round brackets -/
def notInNumber (c : Char) : Prop := c = ' ' ∨ c = '\t' ∨ c = '\n' ∨ c = '\r' ∨ c = '\x0c' ∨ c = ',' ∨ c = '(' ∨ c = ')'

/-- `ParseFloat` rejects the empty text and text with white space, commas or round brackets in it -/
structure Rejects {F : Type} (T : NumText F) : Prop where
  empty : T.parse [] = none
  other : ∀ s, ∀ c ∈ s, notInNumber c → T.parse s = none

/-- cut a text at its commas and round brackets -/
def cut : List Char → List (List Char)
  | [] => [[]]
  | c :: s =>
    if c = ',' ∨ c = '(' ∨ c = ')' then [] :: cut s
    else match cut s with
      | [] => [[c]]
      | w :: ws => (c :: w) :: ws

/-- remove white space at both ends -/
def strip (s : List Char) : List Char :=
  Str.trim (fun c => c == ' ' || c == '\t' || c == '\n' || c == '\r' || c == '\x0c') s

/-- some part of the text between commas and brackets is a single number -/
def HasLoneNumber {F : Type} (T : NumText F) (s : List Char) : Prop := ∃ w ∈ cut s, T.parse (strip w) ≠ none

/-- words with a comma and a space between them -/
def spacedList : List (List Char) → List Char
  | [] => []
  | [w] => w
  | w :: ws => w ++ ',' :: ' ' :: spacedList ws

/-- a point as `x y` -/
def posText {F : Type} (T : NumText F) (p : Point F) : List Char := T.fmt p.X ++ ' ' :: T.fmt p.Y
/-- a point as `x y z` -/
def posZText {F : Type} (T : NumText F) (p : PointZ F) : List Char := T.fmt p.X ++ ' ' :: (T.fmt p.Y ++ ' ' :: T.fmt p.Z)

/-- the usual way to write WKT by hand, as in `LINESTRING (1 2, 3 4)`; `sp` is the space behind the keyword -/
def handWritten {F : Type} (T : NumText F) (sp : List Char) : Geometry F → List Char
  | .point p => "POINT".toList ++ (sp ++ '(' :: (posText T p ++ [')']))
  | .pointZ p => "POINT".toList ++ (sp ++ '(' :: (posZText T p ++ [')']))
  | .lineString ps => "LINESTRING".toList ++ (sp ++ '(' :: (spacedList (ps.map (posText T)) ++ [')']))
  | .lineStringZ ps => "LINESTRING".toList ++ (sp ++ '(' :: (spacedList (ps.map (posZText T)) ++ [')']))
  | .multiPoint ps => "MULTIPOINT".toList ++ (sp ++ '(' :: (spacedList (ps.map (posText T)) ++ [')']))
  | .multiPointZ ps => "MULTIPOINT".toList ++ (sp ++ '(' :: (spacedList (ps.map (posZText T)) ++ [')']))
  | _ => []

end GoGeo
