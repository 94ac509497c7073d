import Verif.Geo.Line

/-!
# The rings of a polygon in memory: polygon.go, polygonZ.go

A polygon is a slice of rings, a multi-polygon a slice of polygons; `ρ` is the type of the elements.
-/

namespace GoGeo.Poly
variable {ρ : Type} [Inhabited ρ] (grow : Nat → Nat → Nat)

/-- `GetExteriorRing` (polygon.go:26-31, polygonZ.go:20-25); `default` is the nil ring -/
def GetExteriorRing (m : Mem ρ) (poly : Slice) : Go ρ :=
  if poly.len = 0 then .ok default else m.get poly 0

/-- `SetExteriorRing` (polygon.go:33-39, polygonZ.go:27-33) -/
def SetExteriorRing (m : Mem ρ) (poly : Slice) (line : ρ) : Go (Mem ρ × Slice) :=
  if poly.len = 0 then .ok (m.append grow poly [line])
  else do
    let m ← m.set poly 0 line
    return (m, poly)

/-- `GetInteriorRing` (polygon.go:41-46, polygonZ.go:35-40) -/
def GetInteriorRing (poly : Slice) : Go Slice :=
  if poly.len = 0 then .ok Slice.nil else Mem.sub poly 1 poly.len

/-- `AddInteriorRing` (polygon.go:53-55, polygonZ.go:43-45), `AddPolygon` (polygon.go:57-59), `AddPolygonZ`
(polygonZ.go:47-49) -/
def AddInteriorRing (m : Mem ρ) (poly : Slice) (line : ρ) : Mem ρ × Slice := m.append grow poly [line]

end GoGeo.Poly
