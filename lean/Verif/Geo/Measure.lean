import Verif.Geo.Line

/-!
# calcaulation.go: areas and centroids; polygon.go: IsCCW

Indices of the loops below are always in range, so no panic can occur in them.
-/

namespace GoGeo
open GoFloat
variable {F : Type} [GoFloat F]

/-- the pairs `(lr[i], lr[(i+1)%ptCount])`, `i = 0 .. ptCount-1`, `ptCount = len(lr)-1`, visited by
`relativeArea` (calcaulation.go:55-57), `polyCentroid` (198-200) and `PointPolygonDistance` (220-224) -/
def cyc (lr : List (Point F)) : List (Point F × Point F) :=
  (List.range (lr.length - 1)).map fun i => (lr.getD i default, lr.getD ((i + 1) % (lr.length - 1)) default)

/-- loop body of `relativeArea` (calcaulation.go:58-59) -/
def areaStep (area : F) (pq : Point F × Point F) : F := area + pq.1.X * pq.2.Y - pq.1.Y * pq.2.X

/-- `relativeArea` (calcaulation.go:48-63); a nil ring and an empty ring both give zero -/
def relativeArea (poly : List (List (Point F))) : F :=
  match poly with
  | [] => lit 0
  | lr :: _ => (cyc lr).foldl areaStep (lit 0) / lit 2

/-- `polyArea` (calcaulation.go:65-67) -/
def polyArea (poly : List (List (Point F))) : F := abs (relativeArea poly)

/-- `MultiPolyArea` (calcaulation.go:69-75) -/
def MultiPolyArea (mp : List (List (List (Point F)))) : F := mp.foldl (fun s v => s + polyArea v) (lit 0)

/-- `GetArea` (calcaulation.go:38-46): a type switch on `Polygon` and `MultiPolygon` values -/
def GetArea (g : Geometry F) : F :=
  match g with
  | .polygon rs => polyArea rs
  | .multiPolygon ps => MultiPolyArea ps
  | _ => lit 0

/-- `IsCCW` (polygon.go:104-106) -/
def IsCCW (poly : List (List (Point F))) : Bool := gt (relativeArea poly) (lit 0)

/-- `pointsCenteriod` (calcaulation.go:78-96) -/
def pointsCenteriod (points : List (Point F)) : Point F :=
  if points.length = 0 then ⟨lit 0, lit 0⟩
  else ⟨points.foldl (fun s p => s + p.X) (lit 0) / ofInt points.length,
        points.foldl (fun s p => s + p.Y) (lit 0) / ofInt points.length⟩

/-- loop body of `polyCentroid` (calcaulation.go:201-203): `(centroidX, centroidY, signArea)` -/
def centroidStep (acc : F × F × F) (pq : Point F × Point F) : F × F × F :=
  (acc.1 + (pq.1.X + pq.2.X) * (pq.1.X * pq.2.Y - pq.2.X * pq.1.Y),
   acc.2.1 + (pq.1.Y + pq.2.Y) * (pq.1.X * pq.2.Y - pq.2.X * pq.1.Y),
   acc.2.2 + (pq.1.X * pq.2.Y - pq.2.X * pq.1.Y))

/-- `polyCentroid` (calcaulation.go:191-211); a nil ring and an empty ring both give NaN -/
def polyCentroid (poly : List (List (Point F))) : Point F :=
  match poly with
  | [] => ⟨nan, nan⟩
  | lr :: _ =>
    let r := (cyc lr).foldl centroidStep (lit 0, lit 0, lit 0)
    if eq r.2.2 (lit 0) then ⟨nan, nan⟩
    else ⟨r.1 * (lit 1 / (lit 6 * r.2.2 / lit 2)), r.2.1 * (lit 1 / (lit 6 * r.2.2 / lit 2))⟩

/-- the points of the ring `NewRingFromLine` makes of a line (linearRing.go:14-29); see `NewRingFromLine`
for the version on shared arrays -/
def closeRing (line : List (Point F)) : Option (List (Point F)) :=
  match line with
  | [] => none
  | [_] => none
  | a :: b :: rest => if a.Equal ((b :: rest).getLast (by simp)) then some line else some (line ++ [a])

/-- `lineCentroid` (calcaulation.go:182-184): dereferences a nil ring for fewer than two points.
Simplification: the write into the caller's spare capacity (see `NewRingFromLine`) is left out -/
def lineCentroid (line : List (Point F)) : Go (Point F) :=
  match closeRing line with
  | none => .error .nilDeref
  | some r => .ok (polyCentroid [r])

/-- `Centroid` (calcaulation.go:167-179) -/
def Centroid (g : Geometry F) : Go (Point F) :=
  match g with
  | .point p => .ok p
  | .multiPoint ps => .ok (pointsCenteriod ps)
  | .lineString l => lineCentroid l
  | .polygon rs => .ok (polyCentroid rs)
  | _ => .ok ⟨lit 0, lit 0⟩

end GoGeo
