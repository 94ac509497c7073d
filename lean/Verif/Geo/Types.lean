import Verif.Go.Num
import Verif.Go.Panic

/-!
# Geometry values
-/

namespace GoGeo

/-- `Point` (point.go:7-11) -/
structure Point (F : Type) where
  X : F
  Y : F
deriving DecidableEq, Repr

/-- `PointZ` (pointZ.go:7-11) -/
structure PointZ (F : Type) where
  X : F
  Y : F
  Z : F
deriving DecidableEq, Repr

/-- `Box` (box.go:7-12) -/
structure Box (F : Type) where
  MinX : F
  MinY : F
  MaxX : F
  MaxY : F
deriving DecidableEq, Repr

/-- `LineSegment` (lineString.go:9-12) -/
structure LineSegment (F : Type) where
  Start : Point F
  End : Point F
deriving DecidableEq, Repr

/-- A value of the interface type `Geometry` (geometry.go:3-25, type.go:3-53, collection.go:3): its
dynamic type and value.  Slices are their lists of elements (their backing arrays are modelled
separately where aliasing matters).  `ptr a g` is a pointer (at address `a`) to a variable holding
`g`: since `Type` has value receivers, `*T` implements `Geometry` too.  `nil` is the nil interface. -/
inductive Geometry (F : Type) where
  | point (p : Point F)
  | multiPoint (ps : List (Point F))
  | lineString (ps : List (Point F))
  | multiLineString (ls : List (List (Point F)))
  | polygon (rs : List (List (Point F)))
  | multiPolygon (ps : List (List (List (Point F))))
  | pointZ (p : PointZ F)
  | multiPointZ (ps : List (PointZ F))
  | lineStringZ (ps : List (PointZ F))
  | multiLineStringZ (ls : List (List (PointZ F)))
  | polygonZ (rs : List (List (PointZ F)))
  | multiPolygonZ (ps : List (List (List (PointZ F))))
  | collection (gs : List (Geometry F))
  | ptr (addr : Nat) (g : Geometry F)
  | nil

end GoGeo
