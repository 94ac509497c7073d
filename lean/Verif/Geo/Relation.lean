import Verif.Geo.Measure

/-!
# vector.go, contain.go, relation.go, polygon.go: SelfIntersect and Verify

Indices of the loops below are always in range, so no panic can occur in them.
-/

namespace GoGeo
open GoFloat

/-- `GeometryRealation` (const.go:10-21) -/
inductive Rela where
  | unknown | disjoint | contain | equal | touch | cover | intersect
deriving DecidableEq, Repr

variable {F : Type} [GoFloat F]

/-- `Vector2` (vector.go:8-11) -/
structure Vector2 (F : Type) where
  X : F
  Y : F
deriving DecidableEq, Repr

/-- `ConvertPointToVector` (vector.go:13-15) -/
def ConvertPointToVector (p1 p2 : Point F) : Vector2 F := ⟨p2.X - p1.X, p2.Y - p1.Y⟩

/-- `ConvertSegToVector` (vector.go:17-19) -/
def ConvertSegToVector (seg : LineSegment F) : Vector2 F := ConvertPointToVector seg.Start seg.End

/-- `Cross` (vector.go:70-72) -/
def Vector2.Cross (v1 v2 : Vector2 F) : F := v1.X * v2.Y - v1.Y * v2.X

/-- `Dot` (vector.go:65-67) -/
def Vector2.Dot (v1 v2 : Vector2 F) : F := v1.X * v2.X + v1.Y * v2.Y

/-- `dcmp` (contain.go:7-16) -/
def dcmp (x : F) : Int :=
  if lt (abs x) COORDPRESION then 0
  else if gt x (lit 0) then 1
  else if lt x (lit 0) then -1
  else 0

/-- `IsPointOnSegment` (relation.go:113-120).  The box is that of the pointer `NewLineString(p1, p2)`. -/
def IsPointOnSegment (p1 p2 point : Point F) : Bool :=
  if eq ((point.X - p1.X) * (p2.Y - p1.Y)) ((p2.X - p1.X) * (point.Y - p1.Y)) &&
      IsPointInBox (BoundingBox (.ptr 0 (.lineString [p1, p2]))) point then true
  else false

/-- the pairs `(lr[i], lr[i+1])` -/
def edges {α : Type} : List α → List (α × α)
  | a :: b :: rest => (a, b) :: edges (b :: rest)
  | _ => []

/-- the crossing test of one edge (contain.go:32) -/
def crossesRay (point p1 p2 : Point F) : Bool :=
  (decide (dcmp (p1.Y - point.Y) > 0) != decide (dcmp (p2.Y - point.Y) > 0)) &&
    decide (dcmp (point.X - (point.Y - p1.Y) * (p1.X - p2.X) / (p1.Y - p2.Y) - p1.X) < 0)

/-- the loop of `IsPointInPolygon` (contain.go:23-40) over the edges, with the flag `isIn` -/
def inPolyLoop (point : Point F) (isIn : Bool) : List (Point F × Point F) → Rela
  | [] => if isIn then .contain else .disjoint
  | (p1, p2) :: rest =>
    if IsPointOnSegment p1 p2 point then .touch
    else inPolyLoop point (if crossesRay point p1 p2 then !isIn else isIn) rest

/-- `IsPointInPolygon` (contain.go:19-41) -/
def IsPointInPolygon (point : Point F) (poly : List (List (Point F))) : Rela :=
  inPolyLoop point false (edges (GetExteriorRing poly))

/-- `SegmentRelation` (relation.go:5-27) -/
def SegmentRelation (seg1 seg2 : LineSegment F) : Rela :=
  let r := ConvertSegToVector seg1
  let s := ConvertSegToVector seg2
  let q_p := ConvertPointToVector seg1.Start seg2.Start
  let crss1 := r.Cross s
  let crss2 := q_p.Cross r
  if eq crss1 (lit 0) && eq crss2 (lit 0) then .touch
  else if eq crss1 (lit 0) && ne crss2 (lit 0) then .disjoint
  else if ne crss1 (lit 0) then
    let res1 := q_p.Cross s / r.Cross s
    let res2 := q_p.Cross r / r.Cross s
    if gt res1 (lit 0) && lt res1 (lit 1) && gt res2 (lit 0) && lt res2 (lit 1) then .intersect
    else if (eq res1 (lit 0) || eq res1 (lit 1)) && (eq res2 (lit 0) || eq res2 (lit 1)) then .touch
    else .disjoint
  else .disjoint

/-- the loop of `SegPolyRelation` (relation.go:33-42): `none` for an early `RELA_INTERSECT`, otherwise `isPointOnBoundary` -/
def segPolyLoop (seg : LineSegment F) (onB : Bool) : List (Point F × Point F) → Option Bool
  | [] => some onB
  | (a, b) :: rest =>
    match SegmentRelation ⟨a, b⟩ seg with
    | .intersect => none
    | .touch => segPolyLoop seg true rest
    | _ => segPolyLoop seg onB rest

/-- `SegPolyRelation` (relation.go:29-56): the last edge of the ring is not visited -/
def SegPolyRelation (seg : LineSegment F) (poly : List (List (Point F))) : Rela :=
  match segPolyLoop seg false (edges (GetExteriorRing poly)).dropLast with
  | none => .intersect
  | some onB =>
    let flag1 := IsPointInPolygon seg.Start poly == .contain || IsPointInPolygon seg.Start poly == .touch
    let flag2 := IsPointInPolygon seg.End poly == .contain || IsPointInPolygon seg.End poly == .touch
    if flag1 && flag2 && !onB then .contain
    else if flag1 && flag2 && onB then .cover
    else if !flag1 && !flag2 && onB then .touch
    else if !flag1 && !flag2 && !onB then .disjoint
    else .unknown

/-- the loops of `LinePolyRelation` (relation.go:61-71) and `LinearPolyRelation` (relation.go:79-89) -/
def linePolyLoop (poly : List (List (Point F))) (cur : Rela) : List (Point F × Point F) → Rela
  | [] => cur
  | (a, b) :: rest =>
    let relation := SegPolyRelation ⟨a, b⟩ poly
    if relation == .intersect then .intersect
    else linePolyLoop poly (if cur == .unknown || cur == .contain || cur == .disjoint then relation else cur) rest

/-- `LinePolyRelation` (relation.go:58-73); `(i+1)%pointCount` is `i+1` there -/
def LinePolyRelation (line : List (Point F)) (poly : List (List (Point F))) : Rela :=
  linePolyLoop poly .unknown (edges line)

/-- `LinearPolyRelation` (relation.go:75-91): the last edge is not visited -/
def LinearPolyRelation (line : List (Point F)) (poly : List (List (Point F))) : Rela :=
  linePolyLoop poly .unknown (edges line).dropLast

/-- `PolyRelation` (relation.go:93-96) -/
def PolyRelation (poly1 poly2 : List (List (Point F))) : Rela := LinearPolyRelation (GetExteriorRing poly1) poly2

/-- `IsPointOnLine` (relation.go:98-111): the edges, then the segment from the first to the last point -/
def IsPointOnLine (point : Point F) (line : List (Point F)) : Bool :=
  match line with
  | [] => false
  | a :: rest => (edges line).any (fun e => IsPointOnSegment e.1 e.2 point) ||
      IsPointOnSegment a ((a :: rest).getLast (by simp)) point

/-- `LineRelation` (relation.go:122-132) -/
def LineRelation (line1 line2 : List (Point F)) : Rela :=
  if (edges line1).any fun e1 => (edges line2).any fun e2 => SegmentRelation ⟨e1.1, e1.2⟩ ⟨e2.1, e2.2⟩ != .disjoint
  then .intersect else .disjoint

/-- `SelfIntersect` (polygon.go:82-98): the pairs `i < j < pointCount-2` of edges -/
def selfIntersectLoop : List (Point F × Point F) → Bool
  | [] => false
  | e :: rest => (rest.any fun d => SegmentRelation ⟨e.1, e.2⟩ ⟨d.1, d.2⟩ == .intersect) || selfIntersectLoop rest

/-- `SelfIntersect` (polygon.go:82-98): the inner loop stops before the last edge; the outer loop's last
edge then has an empty inner loop, as has the last of `dropLast` here -/
def SelfIntersect (poly : List (List (Point F))) : Bool := selfIntersectLoop (edges (GetExteriorRing poly)).dropLast

/-- the range check of `Verify` (polygon.go:68) -/
def verifyOut (p : Point F) : Bool :=
  gt p.X (lit 90) || lt p.X (-lit 90) || gt p.Y (lit 180) || lt p.Y (-lit 180)

/-- `Polygon.Verify` (polygon.go:61-80): `none` is the nil error -/
def PolyVerify (poly : List (List (Point F))) : Option String :=
  let extring := GetExteriorRing poly
  let ptCount : Int := (extring.length : Int) - 1
  if ptCount < 3 then some "polygon invaild, point less than 3"
  else if extring.dropLast.any verifyOut then some "lnglat invaild, lat[-90,90] lng[-180,180]"
  else if lt (GetArea (.polygon poly)) (dec 1 10) then some "polygon invaild, area equal 0"
  else if SelfIntersect poly then some "polygon self-intersect"
  else none

end GoGeo
