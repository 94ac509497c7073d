import Verif.Geo.Relation
import Verif.Geo.Line
import Verif.Go.Trig

/-!
# Distances: calcaulation.go, point.go
-/

namespace GoGeo
open GoFloat GoSqrt GoMath

section
variable {F : Type} [GoMath F]

/-- `math.Pi` as a `float64` -/
def pi : F := piFrac 1 1

/-- `CoordDistance` (point.go:44-51) -/
def CoordDistance (p1 p2 : Point F) : F :=
  let lat1 := p1.Y * pi / lit 180
  let lng1 := p1.X * pi / lit 180
  let lat2 := p2.Y * pi / lit 180
  let lng2 := p2.X * pi / lit 180
  let a := powNat (sin ((lat2 - lat1) / lit 2)) 2 + cos lat1 * cos lat2 * powNat (sin ((lng2 - lng1) / lit 2)) 2
  lit 2 * atan2 (sqrt a) (sqrt (lit 1 - a)) * lit 6371000

/-- `CoordGreateCircle` (point.go:53-59) -/
def CoordGreateCircle (p1 p2 : Point F) : F :=
  let lat1 := p1.Y * pi / lit 180
  let lng1 := p1.X * pi / lit 180
  let lat2 := p2.Y * pi / lit 180
  let lng2 := p2.X * pi / lit 180
  acos (sin lat1 * sin lat2 + cos lat1 * cos lat2 * cos (lng2 - lng1)) * lit 6371000

/-- `EuclideanDistance` (calcaulation.go:123-125) -/
def EuclideanDistance (p1 p2 : Point F) : F :=
  sqrt ((p1.X - p2.X) * (p1.X - p2.X) + (p1.Y - p2.Y) * (p1.Y - p2.Y))

/-- `PointDistance` (calcaulation.go:115-121); `SRID_WGS84_GPS` is 4326 -/
def PointDistance (p1 p2 : Point F) (srid : Int) : F :=
  if srid = 4326 then CoordDistance p1 p2 else EuclideanDistance p1 p2

/-- the factor `u` of the foot point (calcaulation.go:129-132, 149-151) -/
def footFactor (point p1 p2 : Point F) : F :=
  let xDelta := p2.X - p1.X
  let yDelta := p2.Y - p1.Y
  ((point.X - p1.X) * xDelta + (point.Y - p1.Y) * yDelta) / (xDelta * xDelta + yDelta * yDelta)

/-- `Point{p1.X + u*xDelta, p1.Y + u*yDelta}` (calcaulation.go:140) -/
def footPoint (p1 p2 : Point F) (u : F) : Point F := ⟨p1.X + u * (p2.X - p1.X), p1.Y + u * (p2.Y - p1.Y)⟩

/-- `PointToSegmentDistance` (calcaulation.go:128-143) -/
def PointToSegmentDistance (point p1 p2 : Point F) (srid : Int) : F × Point F :=
  let u := footFactor point p1 p2
  let closest := if lt u (lit 0) then p1 else if gt u (lit 1) then p2 else footPoint p1 p2 u
  (PointDistance point closest srid, closest)

/-- `PointToLineDistance` (calcaulation.go:148-164); the three branches are the same -/
def PointToLineDistance (point p1 p2 : Point F) (srid : Int) : F × Point F × F :=
  let u := footFactor point p1 p2
  let closest := footPoint p1 p2 u
  (PointDistance point closest srid, closest, u)

/-- the loop of `PointPolygonDistance` (calcaulation.go:220-231) -/
def polyDistLoop (p : Point F) (srid : Int) (distance : F) : List (Point F × Point F) → F
  | [] => distance
  | (a, b) :: rest =>
    let d := (PointToSegmentDistance p a b srid).1
    polyDistLoop p srid (if lt d distance then d else distance) rest

/-- `PointPolygonDistance` (calcaulation.go:213-233); `cyc` are the pairs `lr[i], lr[(i+1)%ptCount]`, `i < ptCount` -/
def PointPolygonDistance (p : Point F) (poly : List (List (Point F))) (srid : Int) : F :=
  if IsPointInPolygon p poly == .contain || IsPointInPolygon p poly == .touch then lit 0
  else polyDistLoop p srid INF (cyc (GetExteriorRing poly))

/-- the loop of `PointHitLineString` (calcaulation.go:240-251) from index `i` -/
def hitLoop (p : Point F) (srid : Int) (i : Nat) (best : Point F × Nat × F) : List (Point F × Point F) → Point F × Nat × F
  | [] => best
  | (a, b) :: rest =>
    let (d, q) := PointToSegmentDistance p a b srid
    hitLoop p srid (i + 1) (if lt d best.2.2 then (q, i, d) else best) rest

/-- `PointHitLineString` (calcaulation.go:237-253) -/
def PointHitLineString (p : Point F) (line : List (Point F)) (srid : Int) : Point F × Nat × F :=
  hitLoop p srid 0 (⟨lit 0, lit 0⟩, 0, INF) (edges line)

/-- the inner loop of `HausdorffDistance` (calcaulation.go:285-291) -/
def minDisTo (pt1 : Point F) (srid : Int) (line : List (Point F)) : F :=
  line.foldl (fun minDis pt2 => if gt minDis (PointDistance pt1 pt2 srid) then PointDistance pt1 pt2 srid else minDis) INF

/-- one outer loop of `HausdorffDistance` (calcaulation.go:284-295, 296-307) -/
def hausdorffPass (srid : Int) (maxDis : F) (line1 line2 : List (Point F)) : F :=
  line1.foldl (fun maxDis pt1 =>
    let minDis := minDisTo pt1 srid line2
    if lt maxDis minDis && ne minDis INF then minDis else maxDis) maxDis

/-- `HausdorffDistance` (calcaulation.go:279-309) -/
def HausdorffDistance (line1 line2 : List (Point F)) (srid : Int) : F :=
  if eq (LineLength line1) (lit 0) || eq (LineLength line2) (lit 0) then INF
  else hausdorffPass srid (hausdorffPass srid (lit 0) line1 line2) line2 line1

end
end GoGeo
