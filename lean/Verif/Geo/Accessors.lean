import Verif.Geo.Line
import Verif.Geo.Measure
import Verif.Geo.Relation

/-!
# Constructors, setters and views of the geometry types

A pointer to a new variable is the value of the variable; a method with a pointer receiver returns the
receiver after the call.  Receivers are non-nil.
-/

namespace GoGeo
open GoFloat

section
variable {F : Type}

/-- `NewBox` (box.go:14-16) -/
def NewBox (minX minY maxX maxY : F) : Box F := { MinX := minX, MinY := minY, MaxX := maxX, MaxY := maxY }

/-- `NewPoint` (point.go:13-15) -/
def NewPoint (x y : F) : Point F := ⟨x, y⟩

/-- `(*Point).SetX` (point.go:17-19) -/
def Point.SetX (p : Point F) (x : F) : Point F := { p with X := x }

/-- `(*Point).SetY` (point.go:21-23) -/
def Point.SetY (p : Point F) (y : F) : Point F := { p with Y := y }

/-- `NewPointZ` (pointZ.go:13-15) -/
def NewPointZ (x y z : F) : PointZ F := ⟨x, y, z⟩

/-- `(*PointZ).SetX` (pointZ.go:17-19) -/
def PointZ.SetX (p : PointZ F) (x : F) : PointZ F := { p with X := x }

/-- `(*PointZ).SetY` (pointZ.go:21-23) -/
def PointZ.SetY (p : PointZ F) (y : F) : PointZ F := { p with Y := y }

/-- `(*PointZ).SetZ` (pointZ.go:25-27) -/
def PointZ.SetZ (p : PointZ F) (z : F) : PointZ F := { p with Z := z }

/-- `NewVector2` (vector.go:22-24) -/
def NewVector2 (x y : F) : Vector2 F := ⟨x, y⟩

variable [GoFloat F]

/-- `(*Vector2).Equal` (vector.go:26-28) -/
def Vector2.Equal (vec1 vec2 : Vector2 F) : Bool := eq vec1.X vec2.X && eq vec1.Y vec2.Y

/-- `(*Vector2).Clone` (vector.go:31-33) -/
def Vector2.Clone (vec1 : Vector2 F) : Vector2 F := NewVector2 vec1.X vec1.Y

/-- `LineStringZ.GetFirstPoint` (lineStringZ.go:19-24); the index is in range -/
def LineStringZ.GetFirstPoint (line : List (PointZ F)) : PointZ F :=
  if line.length < 2 then ⟨lit 0, lit 0, lit 0⟩ else line.headD ⟨lit 0, lit 0, lit 0⟩

/-- `LineStringZ.GetEndPoint` (lineStringZ.go:27-32); the index is in range -/
def LineStringZ.GetEndPoint (line : List (PointZ F)) : PointZ F :=
  if line.length < 2 then ⟨lit 0, lit 0, lit 0⟩ else line.getLastD ⟨lit 0, lit 0, lit 0⟩

/-- `LinearCentroid` (calcaulation.go:186-188) -/
def LinearCentroid (ring : List (Point F)) : Point F := polyCentroid [ring]
end

section
variable {α : Type}

/-- `GetPointCount` (lineString.go:23-25, lineStringZ.go:14-16, linearRing.go:31-33, linearRingZ.go:27-29) -/
def GetPointCount (line : Slice) : Nat := line.len

/-- `GetPointSet` (lineString.go:132-134, lineStringZ.go:61-63, linearRing.go:43-45, linearRingZ.go:31-33,
multipoint.go:22-24, multipointZ.go:17-19) and `ToLineString` (linearRing.go:47-49, linearRingZ.go:35-37): the
same slice header under another type -/
def GetPointSet (line : Slice) : Slice := line

/-- `GetExteriorRing` (polygon.go:27-32, polygonZ.go:20-25) and `GetExteriorPoints` (polygon.go:100-102,
polygonZ.go:51-53), where a polygon is the list of its rings' slice headers -/
def ExteriorSlice (poly : List Slice) : Slice := poly.headD Slice.nil

/-- `Polygon.SetSRID` (polygon.go:48-50): the receiver after the call -/
def Polygon.SetSRID (poly : List Slice) (_srid : Int) : List Slice := poly
end

end GoGeo
