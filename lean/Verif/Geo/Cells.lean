import Verif.Geo.Measure

/-!
# geohash.go, googleS2.go: the wrappers

The libraries `github.com/mmcloughlin/geohash` and `github.com/golang/geo/s2` are not part of the code:
they are arguments of the model, records of the functions the wrappers call.  Simplification: library
calls are pure functions that do not panic.
-/

namespace GoGeo
open GoFloat
variable {F : Type} [GoFloat F]

/-- `geohash.Box` -/
structure HashBox (F : Type) where
  MinLat : F
  MaxLat : F
  MinLng : F
  MaxLng : F

/-- the part of package `geohash` used in geohash.go:8-23; positions are `lat, lng` -/
structure GeohashLib (F : Type) where
  EncodeWithPrecision : F → F → Nat → String
  DecodeCenter : String → F × F
  BoundingBox : String → HashBox F
  Neighbors : String → List String

/-- `GeohashEncode` (geohash.go:7-9) -/
def GeohashEncode (lib : GeohashLib F) (pt : Point F) (Precision : Nat) (_srid : Int) : String :=
  lib.EncodeWithPrecision pt.Y pt.X Precision

/-- `GeohashGetCenter` (geohash.go:11-14) -/
def GeohashGetCenter (lib : GeohashLib F) (hash : String) (_srid : Int) : Point F :=
  let (lat, lng) := lib.DecodeCenter hash
  ⟨lng, lat⟩

/-- `GeohashGetBoundary` (geohash.go:16-19) -/
def GeohashGetBoundary (lib : GeohashLib F) (hash : String) (_srid : Int) : Box F :=
  let box := lib.BoundingBox hash
  { MinX := box.MinLng, MinY := box.MinLat, MaxX := box.MaxLng, MaxY := box.MaxLat }

/-- `GeohashGetAllNeighbors` (geohash.go:22-25) -/
def GeohashGetAllNeighbors (lib : GeohashLib F) (hash : String) (_srid : Int) : List String := lib.Neighbors hash

/-- the part of package `s2` used in googleS2.go; `LL` is `s2.LatLng`, `P` is `s2.Point`, cell ids are
natural numbers (`uint64`) -/
structure S2Lib (F LL P : Type) where
  LatLngFromDegrees : F → F → LL
  /-- `ll.Lat.Degrees()` -/
  latDegrees : LL → F
  /-- `ll.Lng.Degrees()` -/
  lngDegrees : LL → F
  CellIDFromLatLng : LL → Nat
  Parent : Nat → Int → Nat
  Level : Nat → Int
  /-- `cellID.LatLng()` -/
  LatLng : Nat → LL
  /-- `LoopFromCell(CellFromCellID(id)).Vertices()` -/
  cellVertices : Nat → List P
  LatLngFromPoint : P → LL
  PointFromLatLng : LL → P
  AllNeighbors : Nat → Int → List Nat
  /-- `SimpleRegionCovering(PolygonFromLoops([]*Loop{LoopFromPoints(pts)}), start, level)` -/
  covering : List P → P → Int → List Nat

variable {LL P : Type}

/-- `S2GetCellID` (googleS2.go:7-13) -/
def S2GetCellID (lib : S2Lib F LL P) (p : Point F) (level : Int) (srid : Int) : Nat :=
  if srid = 4326 then lib.Parent (lib.CellIDFromLatLng (lib.LatLngFromDegrees p.Y p.X)) level else 0

/-- `S2GetCenter` (googleS2.go:15-22); `none` is nil -/
def S2GetCenter (lib : S2Lib F LL P) (cellID : Nat) (srid : Int) : Option (Point F) :=
  if srid = 4326 then
    let coord := lib.LatLng cellID
    some ⟨lib.lngDegrees coord, lib.latDegrees coord⟩
  else none

/-- `S2GetBoundary` (googleS2.go:24-35); `none` is nil -/
def S2GetBoundary (lib : S2Lib F LL P) (cellID : Nat) (srid : Int) : Option (List (Point F)) :=
  if srid = 4326 then
    some ((lib.cellVertices cellID).map fun v =>
      ⟨lib.lngDegrees (lib.LatLngFromPoint v), lib.latDegrees (lib.LatLngFromPoint v)⟩)
  else none

/-- `S2GetAllNeighbors` (googleS2.go:37-49) -/
def S2GetAllNeighbors (lib : S2Lib F LL P) (cellID : Nat) (srid : Int) : List Nat :=
  if srid = 4326 then lib.AllNeighbors cellID (lib.Level cellID) else []

/-- the vertices `toLoop` (googleS2.go:72-81) gives to `LoopFromPoints` -/
def toLoop (lib : S2Lib F LL P) (points : List (Point F)) : List P :=
  (points.map fun pt => lib.PointFromLatLng (lib.LatLngFromDegrees pt.Y pt.X)).reverse

/-- `poly.GetExteriorRing()` (polygon.go:26-31) of rings in memory -/
def exteriorSlice (poly : List Slice) : Slice := poly.headD Slice.nil

/-- `S2RegionCoverer` (googleS2.go:51-70); the rings of the polygon are slices of `m`, and the memory
after the call is returned.  The loop at 54-56 swaps the points of the ring in place, as
`LineString.Reverse` does. -/
def S2RegionCoverer (grow : Nat → Nat → Nat) (lib : S2Lib F LL P) (m : Mem (Point F)) (poly : List Slice)
    (level : Int) (_srid : Int) : Go (Mem (Point F) × List Nat) := do
  let (m, poly) ← (if IsCCW (poly.map m.read) then do
      let pois := exteriorSlice poly
      let m ← LineReverse m pois
      let (m, ring) ← NewPolygonFromPois grow Point.Equal m (m.read pois)
      .ok (m, [ring])
    else .ok (m, poly) : Go (Mem (Point F) × List Slice))
  let loop := toLoop lib (m.read (exteriorSlice poly))
  let first ← m.get (exteriorSlice poly) 0
  let latlng := lib.LatLngFromDegrees first.Y first.X
  .ok (m, lib.covering loop (lib.PointFromLatLng latlng) level)

end GoGeo
