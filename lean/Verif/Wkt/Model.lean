import Verif.Go.Strings
import Verif.Go.Regex
import Verif.Geo.Measure
import Verif.Geo.Line

/-!
# Package wkt

The text of numbers is a parameter: `NumText` stands for `strconv.FormatFloat(x, 'f', -1, 64)` and `strconv.ParseFloat(s, 64)`.
-/

namespace GoGeo

/-- the functions of package strconv that the codec uses -/
structure NumText (F : Type) where
  /-- `strconv.FormatFloat(x, 'f', -1, 64)` -/
  fmt : F → List Char
  /-- `strconv.ParseFloat(s, 64)`; `none` is a non-nil error -/
  parse : List Char → Option F

namespace Wkt
open GoFloat Regex

variable {F : Type} [GoFloat F] (T : NumText F)

/-! ### encode.go -/

/-- `GeometryToWktString` (wkt/encode.go:11-13) -/
def xyText (p : Point F) : List Char := T.fmt p.X ++ ' ' :: T.fmt p.Y

/-- `GeometryToWktStringZ` (wkt/encode.go:15-17) -/
def xyzText (p : PointZ F) : List Char := T.fmt p.X ++ ' ' :: (T.fmt p.Y ++ ' ' :: T.fmt p.Z)

/-- `"(" + strings.Join(res, ",") + ")"` (the end of the functions in wkt/encode.go:19-103) -/
def paren (res : List (List Char)) : List Char := '(' :: (Str.join ',' res ++ [')'])

/-- `PathToWktString` (wkt/encode.go:19-27) -/
def pathText (ps : List (Point F)) : List Char := paren (ps.map (xyText T))

/-- `PathZToWktString` (wkt/encode.go:29-37) -/
def pathZText (ps : List (PointZ F)) : List Char := paren (ps.map (xyzText T))

/-- `PolygonToWktString` and `PolygonToWktString2` (wkt/encode.go:39-47, 59-67) -/
def polyText (ls : List (List (Point F))) : List Char := paren (ls.map (pathText T))

/-- `PolygonZToWktString` and `PolygonZToWktString2` (wkt/encode.go:49-57, 69-77) -/
def polyZText (ls : List (List (PointZ F))) : List Char := paren (ls.map (pathZText T))

/-- `MultiPolygonToWktString` (wkt/encode.go:79-87) -/
def multiPolyText (ps : List (List (List (Point F)))) : List Char := paren (ps.map (polyText T))

/-- `MultiPolygonZToWktString` (wkt/encode.go:89-97) -/
def multiPolyZText (ps : List (List (List (PointZ F)))) : List Char := paren (ps.map (polyZText T))

/-- `Encode` (wkt/encode.go:99-128) -/
def Encode : Geometry F → List Char
  | .point p => "POINT".toList ++ '(' :: (xyText T p ++ [')'])
  | .pointZ p => "POINT".toList ++ '(' :: (xyzText T p ++ [')'])
  | .multiPoint ps => "MULTIPOINT".toList ++ pathText T ps
  | .multiPointZ ps => "MULTIPOINT".toList ++ pathZText T ps
  | .lineString ps => "LINESTRING".toList ++ pathText T ps
  | .lineStringZ ps => "LINESTRING".toList ++ pathZText T ps
  | .multiLineString ls => "MULTILINESTRING".toList ++ polyText T ls
  | .multiLineStringZ ls => "MULTILINESTRING".toList ++ polyZText T ls
  | .polygon rs => "POLYGON".toList ++ polyText T rs
  | .polygonZ rs => "POLYGON".toList ++ polyZText T rs
  | .multiPolygon ps => "MULTIPOLYGON".toList ++ multiPolyText T ps
  | .multiPolygonZ ps => "MULTIPOLYGON".toList ++ multiPolyZText T ps
  | .collection _ => []
  | .ptr _ _ => []
  | .nil => []

/-! ### decode.go

The result is `none` when the error is not nil; the geometry that comes with an error is not modelled. -/


/-- two or three coordinates -/
inductive Pos (F : Type) where
  | xy (p : Point F)
  | xyz (p : PointZ F)
  /-- neither two nor three fields -/
  | other (p : Point F)

/-- the parsing of the fields of a position, which is the same in three places (wkt/decode.go:14-29, 41-56, 79-94) -/
def parsePos (strs : List (List Char)) : Go (Option (Pos F)) :=
  match strs[0]? with
  | none => .error .index
  | some s0 =>
    match T.parse s0 with
    | none => .ok none
    | some x =>
      match strs[1]? with
      | none => .error .index
      | some s1 =>
        match T.parse s1 with
        | none => .ok none
        | some y =>
          match strs with
          | [_, _] => .ok (some (.xy ⟨x, y⟩))
          | [_, _, s2] =>
            match T.parse s2 with
            | none => .ok none
            | some z => .ok (some (.xyz ⟨x, y, z⟩))
          | _ => .ok (some (.other ⟨x, y⟩))

/-- `PointFromWKT` (wkt/decode.go:12-30) -/
def PointFromWKT (wkt : List Char) : Go (Option (Geometry F)) := do
  match ← parsePos T (Str.split ' ' (Str.trim (· == ' ') wkt)) with
  | none => .ok none
  | some (.xyz p) => .ok (some (.pointZ p))
  | some (.xy p) => .ok (some (.point p))
  | some (.other p) => .ok (some (.point p))

/-- the loop over the terms; positions of all terms, `none` at the first error -/
def parseTerms (strip : List Char → List Char) : List (List Char) → Go (Option (List (Pos F)))
  | [] => .ok (some [])
  | t :: ts => do
    match ← parsePos T (Str.split ' ' (strip t)) with
    | none => .ok none
    | some p =>
      match ← parseTerms strip ts with
      | none => .ok none
      | some ps => .ok (some (p :: ps))

/-- what `mp` holds after the loop of `MultiPointFromWKT` -/
def Pos.mp : Pos F → Option (Point F)
  | .xy p => some p
  | .xyz _ => none
  | .other p => some p

/-- what `linestring` holds after the loop of `LineStringFromWKT` -/
def Pos.ls : Pos F → Option (Point F)
  | .xy p => some p
  | _ => none

/-- what `mpz` and `linestringZ` hold -/
def Pos.z : Pos F → Option (PointZ F)
  | .xyz p => some p
  | _ => none

/-- `strings.TrimRight(strings.TrimLeft(s, "("), ")")` -/
def unparen (s : List Char) : List Char := Str.trimRight (· == ')') (Str.trimLeft (· == '(') s)

/-- `MultiPointFromWKT` (wkt/decode.go:32-65) -/
def MultiPointFromWKT (wkt : List Char) : Go (Option (Geometry F)) := do
  match ← parseTerms T unparen (Str.split ',' (Str.trim (· == ' ') (unparen wkt))) with
  | none => .ok none
  | some ps =>
    if ps.filterMap Pos.mp ≠ [] then .ok (some (.multiPoint (ps.filterMap Pos.mp)))
    else if ps.filterMap Pos.z ≠ [] then .ok (some (.multiPointZ (ps.filterMap Pos.z)))
    else .ok none

/-- `LineStringFromWKT` (wkt/decode.go:67-104) -/
def LineStringFromWKT (wkt : List Char) : Go (Option (Geometry F)) := do
  match ← parseTerms T (Str.trim (· == ' ')) (Str.split ',' (unparen wkt)) with
  | none => .ok none
  | some ps =>
    if ps.filterMap Pos.ls ≠ [] then .ok (some (.lineString (ps.filterMap Pos.ls)))
    else if ps.filterMap Pos.z ≠ [] then .ok (some (.lineStringZ (ps.filterMap Pos.z)))
    else .ok none

/-- a class of one character -/
def one (c : Char) : Re := .chr (· == c)
/-- `\ *` -/
def spaces : Re := .star (one ' ')
/-- `[, ]*` -/
def seps : Re := .star (.chr fun c => c == ',' || c == ' ')
/-- `[0-9-.]` -/
def isNum (c : Char) : Bool := c.isDigit || c == '-' || c == '.'
/-- `[0-9-.Ee]` -/
def isNumE (c : Char) : Bool := isNum c || c == 'E' || c == 'e'

/-- `\ *(?:N+[ ]+N+)[, ]*\ *` -/
def pairRe (N : Char → Bool) : Re :=
  .seq spaces (.seq (plus (.chr N)) (.seq (plus (one ' ')) (.seq (plus (.chr N)) (.seq seps spaces))))

/-- `\ *[(]\ *(?:\ *(?:N+[ ]+N+)[, ]*\ *)*\ *[)]` -/
def ringRe (N : Char → Bool) : Re :=
  .seq spaces (.seq (one '(') (.seq spaces (.seq (.star (pairRe N)) (.seq spaces (one ')')))))

/-- the expression of `MultiLineStringFromWKT` and `PolygonFromWKT` (wkt/decode.go:107, 134) -/
def ringsRe : Re := .seq (.cap (ringRe isNumE)) seps

/-- the expression of `MultiPolygonFromWKT` (wkt/decode.go:159) -/
def polysRe : Re := .cap (.seq (one '(') (.seq (.star (.seq (ringRe isNum) seps)) (one ')')))

/-- run a parser over all matches, `none` at the first error -/
def parseAll (f : List Char → Go (Option (Geometry F))) : List (List Char) → Go (Option (List (Geometry F)))
  | [] => .ok (some [])
  | t :: ts => do
    match ← f t with
    | none => .ok none
    | some g =>
      match ← parseAll f ts with
      | none => .ok none
      | some gs => .ok (some (g :: gs))

/-- what `ml` holds after the loop of `MultiLineStringFromWKT` -/
def asLine : Geometry F → Option (List (Point F))
  | .lineString l => some l
  | _ => none

/-- what `mlz` holds -/
def asLineZ : Geometry F → Option (List (PointZ F))
  | .lineStringZ l => some l
  | _ => none

/-- `MultiLineStringFromWKT` (wkt/decode.go:106-131) -/
def MultiLineStringFromWKT (wkt : List Char) : Go (Option (Geometry F)) := do
  match ← parseAll (LineStringFromWKT T) ((ringsRe.find wkt).getD []) with
  | none => .ok none
  | some gs =>
    if gs.filterMap asLine ≠ [] then .ok (some (.multiLineString (gs.filterMap asLine)))
    else if gs.filterMap asLineZ ≠ [] then .ok (some (.multiLineStringZ (gs.filterMap asLineZ)))
    else .ok none

/-- `LineString.ToRing` (lineString.go:128-130): dereferences nil for fewer than two points -/
def toRing (l : List (Point F)) : Go (List (Point F)) :=
  match closeRing l with
  | none => .error .nilDeref
  | some r => .ok r

/-- `LineStringZ.ToRing` (lineStringZ.go:57-59, linearRingZ.go:14-25) -/
def toRingZ (l : List (PointZ F)) : Go (List (PointZ F)) :=
  match l with
  | [] => .error .index
  | a :: rest => if a.Equal ((a :: rest).getLast (by simp)) then .ok l else .ok (l ++ [a])

/-- a line of `PolygonFromWKT` and its ring, in one step of the loop (wkt/decode.go:138-151) -/
def RingFromWKT (wkt : List Char) : Go (Option (Geometry F)) := do
  match ← LineStringFromWKT T wkt with
  | none => .ok none
  | some (.lineString l) => do let r ← toRing l; .ok (some (.lineString r))
  | some (.lineStringZ l) => do let r ← toRingZ l; .ok (some (.lineStringZ r))
  | some g => .ok (some g)

/-- `PolygonFromWKT` (wkt/decode.go:133-156) -/
def PolygonFromWKT (wkt : List Char) : Go (Option (Geometry F)) := do
  match ← parseAll (RingFromWKT T) ((ringsRe.find wkt).getD []) with
  | none => .ok none
  | some gs =>
    if gs.filterMap asLine ≠ [] then .ok (some (.polygon (gs.filterMap asLine)))
    else if gs.filterMap asLineZ ≠ [] then .ok (some (.polygonZ (gs.filterMap asLineZ)))
    else .ok none

/-- what `multiPoly` holds after the loop of `MultiPolygonFromWKT` -/
def asPoly : Geometry F → Option (List (List (Point F)))
  | .polygon l => some l
  | _ => none

/-- what `multiPolyZ` holds -/
def asPolyZ : Geometry F → Option (List (List (PointZ F)))
  | .polygonZ l => some l
  | _ => none

/-- `MultiPolygonFromWKT` (wkt/decode.go:158-184) -/
def MultiPolygonFromWKT (wkt : List Char) : Go (Option (Geometry F)) := do
  match ← parseAll (PolygonFromWKT T) ((polysRe.find wkt).getD []) with
  | none => .ok none
  | some gs =>
    if gs.filterMap asPoly ≠ [] then .ok (some (.multiPolygon (gs.filterMap asPoly)))
    else if gs.filterMap asPolyZ ≠ [] then .ok (some (.multiPolygonZ (gs.filterMap asPolyZ)))
    else .ok none

/-- `\s` -/
def isWs (c : Char) : Bool := c == ' ' || c == '\t' || c == '\n' || c == '\r' || c == '\x0c'
/-- `[A-Z]` -/
def isAZ (c : Char) : Bool := 'A' ≤ c && c ≤ 'Z'
/-- `\s*` -/
def ws : Re := .star (.chr isWs)
/-- `\(*.+\)*` -/
def bodyRe : Re := .seq (.star (one '(')) (.seq (plus (.chr fun c => c != '\n')) (.star (one ')')))

/-- `([A-Z]+)\s*[(]\s*(\(*.+\)*)\s*[)]` (wkt/decode.go:189) -/
def wktRe : Re := .seq (.cap (plus (.chr isAZ))) (.seq ws (.seq (one '(') (.seq ws (.seq (.cap bodyRe) (.seq ws (one ')'))))))

/-- `Decode` (wkt/decode.go:186-209) -/
def Decode (wkt : List Char) : Go (Option (Geometry F)) :=
  match wktRe.find (Str.unspace (Str.trim (· == ' ') wkt)) with
  | some [_, tag, body] =>
    if tag = "MULTIPOLYGON".toList then MultiPolygonFromWKT T body
    else if tag = "POLYGON".toList then PolygonFromWKT T body
    else if tag = "MULTILINESTRING".toList then MultiLineStringFromWKT T body
    else if tag = "LINESTRING".toList then LineStringFromWKT T body
    else if tag = "MULTIPOINT".toList then MultiPointFromWKT T body
    else if tag = "POINT".toList then PointFromWKT T body
    else .ok none
  | _ => .ok none

end Wkt
end GoGeo
