import Verif.Geo.Types

/-!
# box.go
-/

namespace GoGeo
open GoFloat
variable {F : Type} [GoFloat F]

/-- `INF = float64(1 << 31)` (const.go:5) -/
def INF : F := lit (2 ^ 31)

/-- `COORDPRESION = 0.000001` (const.go:4) -/
def COORDPRESION : F := dec 1 6

/-- The zero value `Box{}`. -/
def Box.zero : Box F := ⟨lit 0, lit 0, lit 0, lit 0⟩

/-- `NewRectBox` (box.go:18-20) -/
def NewRectBox (p : Point F) (lengthX lengthY : F) : Box F :=
  ⟨p.X - lengthX, p.Y - lengthY, p.X + lengthX, p.Y + lengthY⟩

/-- `IsPointInBox` (box.go:23-28) for a non-nil box -/
def IsPointInBox (b : Box F) (p : Point F) : Bool :=
  le b.MinX p.X && le p.X b.MaxX && le b.MinY p.Y && le p.Y b.MaxY

/-- `Point.Equal` (point.go:39-41) -/
def Point.Equal (p1 p2 : Point F) : Bool :=
  lt (abs (p1.X - p2.X)) COORDPRESION && lt (abs (p1.Y - p2.Y)) COORDPRESION

/-- `BoxToGeo` (box.go:30-47) -/
def BoxToGeo (b : Box F) : Geometry F :=
  let p1 : Point F := ⟨b.MinX, b.MinY⟩
  let p2 : Point F := ⟨b.MinX, b.MaxY⟩
  let p3 : Point F := ⟨b.MaxX, b.MaxY⟩
  let p4 : Point F := ⟨b.MaxX, b.MinY⟩
  if p1.Equal p3 then .point p1
  else if p1.Equal p2 then .lineString [p1, p3]
  else if p2.Equal p3 then .lineString [p1, p2]
  else .polygon [[p1, p2, p3, p4]]

/-- one iteration of the loop of `calBox` (box.go:51-64) -/
def calBoxStep (b : Box F) (v : Point F) : Box F :=
  ⟨if gt b.MinX v.X then v.X else b.MinX,
   if gt b.MinY v.Y then v.Y else b.MinY,
   if lt b.MaxX v.X then v.X else b.MaxX,
   if lt b.MaxY v.Y then v.Y else b.MaxY⟩

/-- `calBox` (box.go:49-66) -/
def calBox (points : List (Point F)) : Box F :=
  points.foldl calBoxStep ⟨INF, INF, -INF, -INF⟩

/-- `Polygon.GetExteriorRing` (polygon.go:26-31); nil is the empty ring -/
def GetExteriorRing (poly : List (List (Point F))) : List (Point F) :=
  match poly with
  | [] => []
  | r :: _ => r

/-- `BoundingBox` (box.go:68-98): a type switch on value types; everything else (pointers, Z types,
collections, nil) falls through to the zero box. -/
def BoundingBox (geom : Geometry F) : Box F :=
  match geom with
  | .point p => calBox [p]
  | .multiPoint ps => calBox ps
  | .lineString ps => calBox ps
  | .multiLineString ls => calBox ls.flatten
  | .polygon rs => calBox (GetExteriorRing rs)
  | .multiPolygon ps => calBox ps.flatten.flatten
  | _ => Box.zero

/-- `(*Box).Intersect` (box.go:100-108) on non-nil receivers -/
def Box.Intersect (b1 b2 : Box F) : Bool :=
  if lt b1.MaxX b2.MinX || gt b1.MinX b2.MaxX || gt b1.MinY b2.MaxY || lt b1.MaxY b2.MinY then false
  else true

/-- `(*Box).Intersect` (box.go:100-108) with possibly nil pointers -/
def Box.IntersectPtr (b1 b2 : Option (Box F)) : Bool :=
  match b1, b2 with
  | some b1, some b2 => b1.Intersect b2
  | _, _ => false

/-- `(*Box).Union` (box.go:110-114) -/
def Box.Union (b1 b2 : Box F) : Box F :=
  ⟨GoFloat.min b1.MinX b2.MinX, GoFloat.min b1.MinY b2.MinY,
   GoFloat.max b1.MaxX b2.MaxX, GoFloat.max b1.MaxY b2.MaxY⟩

/-- `BoxUnion` (box.go:116-125) -/
def BoxUnion (boxs : List (Box F)) : Box F :=
  match boxs with
  | [] => Box.zero
  | b :: bs => bs.foldl Box.Union b

/-- `(*Box).Size` (box.go:128-130) -/
def Box.Size (b : Box F) : F := (b.MaxX - b.MinX) * (b.MaxY - b.MinY)

/-- `(*Box).Contain` (box.go:132-140) -/
def Box.Contain (b1 b2 : Box F) : Bool :=
  if gt b1.MinX b2.MinX || gt b2.MaxX b1.MaxX then false
  else if gt b1.MinY b2.MinY || gt b2.MaxY b1.MaxY then false
  else true

end GoGeo
