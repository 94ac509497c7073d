import Verif.Geo.Distance
import Verif.Geo.Hull

/-!
# calcaulation.go: angles and rotation; angle.go; buffer.go; vector.go; point.go: DestinationPoint; mbr.go
-/

namespace GoGeo
open GoFloat GoSqrt GoMath GoMod

section
variable {F : Type} [GoMath F]

/-- `(*Vector2).Length` (vector.go:75-77) -/
def Vector2.Length (v : Vector2 F) : F := sqrt (v.X * v.X + v.Y * v.Y)

/-- `(*Vector2).LengthSq` (vector.go:80-82) -/
def Vector2.LengthSq (v : Vector2 F) : F := v.X * v.X + v.Y * v.Y

/-- `Vector2.Add` (vector.go:37-41), `Add` (vector.go:90-92) -/
def Vector2.Add (a b : Vector2 F) : Vector2 F := ⟨a.X + b.X, a.Y + b.Y⟩

/-- `Vector2.Sub` (vector.go:45-49) -/
def Vector2.Sub (a b : Vector2 F) : Vector2 F := ⟨a.X - b.X, a.Y - b.Y⟩

/-- `(*Vector2).Multiply` (vector.go:52-55): the receiver after the call -/
def Vector2.Multiply (v : Vector2 F) (scalar : F) : Vector2 F := ⟨v.X * scalar, v.Y * scalar⟩

/-- `(*Vector2).Divide` (vector.go:57-62): the receiver after the call -/
def Vector2.Divide (v : Vector2 F) (scalar : F) : Go (Vector2 F) :=
  if eq scalar (lit 0) then .error .explicit else .ok (v.Multiply (lit 1 / scalar))

/-- `(*Vector2).Normalize` (vector.go:85-87): the receiver after the call; `Normalize` (vector.go:95-99) on a copy -/
def Vector2.Normalize (v : Vector2 F) : Go (Vector2 F) := v.Divide v.Length

/-- `CacAngle` (calcaulation.go:10-30) -/
def CacAngle (point1 centerPoint point2 : Point F) : F × GoError :=
  let v := ConvertPointToVector point1 centerPoint
  let u := ConvertPointToVector point2 centerPoint
  if eq (v.Length * u.Length) (lit 0) then (lit 0, some "some points is repeat")
  else
    let theta := atan2 u.Y u.X - atan2 v.Y v.X
    (if lt theta (lit 0) then theta + piFrac 2 1 else theta, none)

/-- `CacQuadrantAngle` (calcaulation.go:32-35) -/
def CacQuadrantAngle (point1 point2 : Point F) : F × GoError := CacAngle ⟨point1.X + dec 1 7, point1.Y⟩ point1 point2

/-- `CacConvex` (calcaulation.go:99-112) -/
def CacConvex (p1 p2 p3 : Point F) : Int × GoError :=
  let r := CacAngle p1 p2 p3
  match r.2 with
  | some err => (-1, some err)
  | none =>
    let res := sin r.1
    if lt res (lit 0) then (0, none) else if gt res (lit 0) then (1, none) else (2, none)

/-- `RotateCW` of a point, before truncation (calcaulation.go:260-261) -/
def rotateExact (p center : Point F) (angle : F) : Point F :=
  ⟨(p.X - center.X) * cos angle + (p.Y - center.Y) * sin angle + center.X,
   (center.X - p.X) * sin angle + (p.Y - center.Y) * cos angle + center.Y⟩

/-- `math.Trunc(x*10000) / 10000` (calcaulation.go:262) -/
def trunc4 (x : F) : F := trunc (x * lit 10000) / lit 10000

/-- `RotateCW` of a point (calcaulation.go:257-262) -/
def rotatePoint (p center : Point F) (angle : F) : Point F :=
  let q := rotateExact p center angle
  ⟨trunc4 q.X, trunc4 q.Y⟩

/-- `RotateCW` (calcaulation.go:255-273).  `Type` of the nil interface is a nil dereference; of a pointer it is the type of the variable,
but the assertion to the value type fails; a polygon without points makes `NewPolygonFromPois` dereference a nil ring. -/
def RotateCW (g : Geometry F) (center : Point F) (angle : F) : Go (Geometry F) :=
  match g with
  | .nil => .error .nilDeref
  | .point p => .ok (.point (rotatePoint p center angle))
  | .polygon rs =>
    match closeRing ((GetExteriorRing rs).map fun v => rotatePoint v center angle) with
    | none => .error .nilDeref
    | some r => .ok (.polygon [r])
  | .ptr _ (.point _) => .error .typeAssert
  | .ptr _ (.polygon _) => .error .typeAssert
  | _ => .ok .nil

/-- `RotateCCW` (calcaulation.go:275-277) -/
def RotateCCW (g : Geometry F) (center : Point F) (angle : F) : Go (Geometry F) := RotateCW g center (-angle)

/-- the values of `phi` in `for phi := startRadian; phi <= endRadian; phi += gamma` (buffer.go:26) -/
def radians (gamma endRadian : F) : Nat → F → Go (List F)
  | 0, _ => .error .fuel
  | fuel + 1, phi =>
    if le phi endRadian then do
      let rest ← radians gamma endRadian fuel (phi + gamma)
      return phi :: rest
    else .ok []

/-- `getBufferCoordsByRadian` (buffer.go:20-31) -/
def getBufferCoordsByRadian (fuel : Nat) (center : Point F) (startRadian endRadian radius : F) : Go (List (Point F)) :=
  if lt radius (lit 0) then .ok []
  else do
    let phis ← radians (piFrac 2 24) endRadian fuel startRadian
    return phis.map fun phi => ⟨center.X + radius * cos phi, center.Y + radius * sin phi⟩

/-- `pointBuffer` (buffer.go:10-18), `Point.Buffer` (point.go:25-27); `none` is the nil polygon -/
def pointBuffer (fuel : Nat) (p1 : Point F) (bufferDis : F) : Go (Option (List (Point F))) :=
  if lt bufferDis (lit 0) then .ok none
  else do
    let pts ← getBufferCoordsByRadian fuel p1 (lit 0) (piFrac 2 1) bufferDis
    match closeRing pts with
    | none => .error .nilDeref
    | some r => return some r

end

section
variable {F : Type} [GoMod F]

/-- `GetAzimuth` (angle.go:7-23) -/
def GetAzimuth (p1 p2 : Point F) (srid : Int) : F :=
  if srid ≠ 4326 then lit 0
  else
    let lon1 := p1.X * pi / lit 180
    let lon2 := p2.X * pi / lit 180
    let lat1 := p1.Y * pi / lit 180
    let lat2 := p2.Y * pi / lit 180
    let y := sin (lon2 - lon1) * cos lat2
    let x := cos lat1 * sin lat2 - sin lat1 * cos lat2 * cos (lon2 - lon1)
    let brng := atan2 y x * lit 180 / pi
    mod (brng + lit 360) (lit 360)

/-- `DestinationPoint` (point.go:62-83): latitude and longitude -/
def DestinationPoint (lat lon distance bearing : F) : F × F :=
  let δ := distance / lit 6371000
  let θ := bearing * pi / lit 180
  let φ1 := lat * pi / lit 180
  let l1 := lon * pi / lit 180
  let sinφ2 := sin φ1 * cos δ + cos φ1 * sin δ * cos θ
  let φ2 := asin sinφ2
  let y := sin θ * sin δ * cos φ1
  let x := cos δ - sin φ1 * sin φ2
  let l2 := l1 + atan2 y x
  (φ2 * lit 180 / pi, mod (l2 * lit 180 / pi + lit 540) (lit 360) - lit 180)

end

section
variable {F : Type} [GoMath F]

/-- the points `Mbr` collects (mbr.go:6-24); `none` for a `Point` -/
def mbrCoords (g : Geometry F) : Option (List (Point F)) :=
  match g with
  | .point _ => none
  | .multiPoint ps => some ps
  | .lineString ps => some ps
  | .multiLineString ls => some ls.flatten
  | .polygon rs => some (GetExteriorRing rs)
  | .multiPolygon ps => some (ps.map GetExteriorRing).flatten
  | _ => some []

/-- one round of the loop of `Mbr` (mbr.go:37-47) for the edge from `ci` to `cii`; the state is `(minArea, minAngle, ssr)` -/
def mbrStep (hull : List (Point F)) (cpt : Point F) (st : F × F × Geometry F) (e : Point F × Point F) : Go (F × F × Geometry F) := do
  let angle := atan2 (e.2.Y - e.1.Y) (e.2.X - e.1.X)
  let rot ← RotateCW (.polygon [hull]) cpt angle
  let rect := BoxToGeo (BoundingBox rot)
  let area := GetArea rect
  return if lt area st.1 then (area, angle, rect) else st

/-- `Mbr` (mbr.go:5-53).  `ConvexHull(coords...)` reorders `coords`, over whose consecutive pairs the loop goes.  The last assertion fails
when the rotated geometry is not a polygon. -/
def Mbr (sortPts : List (Point F) → List (Point F)) (g : Geometry F) : Go (Option (List (List (Point F)))) :=
  match mbrCoords g with
  | none => .ok (some [])
  | some coords => do
    let (coords, convexHull) ← ConvexHull sortPts coords
    match convexHull with
    | none => return none
    | some hull =>
      let cpt := polyCentroid [hull]
      if isNaN cpt.X || isNaN cpt.Y then return none
      else do
        let (_, minAngle, ssr) ← (edges coords).foldlM (mbrStep hull cpt) (maxFloat64, lit 0, .nil)
        match ← RotateCCW ssr cpt minAngle with
        | .nil => return none
        | .polygon rs => return some rs
        | _ => .error .typeAssert

end
end GoGeo
