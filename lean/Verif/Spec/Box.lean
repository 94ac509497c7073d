import Verif.Go.Laws
import Verif.Geo.Types

/-!
# Specification vocabulary for boxes

What a user means by "inside the box", "covers", "smallest box".  Only comparisons of coordinates
are used.
-/

namespace GoGeo.Spec
open GoFloat
variable {F : Type} [GoFloat F]

/-- `a <= b` as a proposition (false when either is NaN) -/
def Le (a b : F) : Prop := le a b = true

/-- `a` and `b` are the same number (`a == b`; +0 and -0 are the same number) -/
def Same (a b : F) : Prop := Le a b ∧ Le b a

/-- not NaN -/
def IsNum (a : F) : Prop := isNaN a = false

/-- no side of the box is NaN -/
structure NumBox (b : Box F) : Prop where
  minX : IsNum b.MinX
  minY : IsNum b.MinY
  maxX : IsNum b.MaxX
  maxY : IsNum b.MaxY

/-- the box is not inverted -/
structure ProperBox (b : Box F) : Prop where
  x : Le b.MinX b.MaxX
  y : Le b.MinY b.MaxY

/-- the point lies in the closed box -/
structure InBox (p : Point F) (b : Box F) : Prop where
  minX : Le b.MinX p.X
  maxX : Le p.X b.MaxX
  minY : Le b.MinY p.Y
  maxY : Le p.Y b.MaxY

/-- the box `a` lies inside the box `b`, side by side -/
structure Inside (a b : Box F) : Prop where
  minX : Le b.MinX a.MinX
  minY : Le b.MinY a.MinY
  maxX : Le a.MaxX b.MaxX
  maxY : Le a.MaxY b.MaxY

/-- the two boxes are the same set of numbers -/
def SameBox (a b : Box F) : Prop := Inside a b ∧ Inside b a

/-- every vertex of a two-dimensional geometry value (all rings of polygons) -/
def vertices : Geometry F → List (Point F)
  | .point p => [p]
  | .multiPoint ps => ps
  | .lineString ps => ps
  | .multiLineString ls => ls.flatten
  | .polygon rs => rs.flatten
  | .multiPolygon ps => ps.flatten.flatten
  | _ => []

/-- a coordinate within ±2^31 -/
def Bounded31 (x : F) : Prop := Le (-lit (2 ^ 31)) x ∧ Le x (lit (2 ^ 31))

/-- the vertices the bounding box is computed from: all vertices, for a polygon those of the first ring -/
def boxedVertices : Geometry F → List (Point F)
  | .polygon (r :: _) => r
  | .polygon [] => []
  | g => vertices g

end GoGeo.Spec
