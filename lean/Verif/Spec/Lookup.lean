import Verif.Spec.Float
import Verif.Spec.Box

/-!
# Specification vocabulary: the points of the plane a geometry occupies

Coordinates are numbers of an ordered field `K`; a geometry of computed points `F` occupies exact places.
-/

namespace GoGeo.Spec
variable {F K : Type} [GoFloat F] [Field K] [LinearOrder K] [IsStrictOrderedRing K] [FloatVal F K]

/-- one of the points is at `z` -/
def AmongPoints (ps : List (Point F)) (z : K × K) : Prop := ∃ p ∈ ps, At p z

/-- `z` is on the path through the points: at one of them or between two consecutive ones -/
def OnPath (ps : List (Point F)) (z : K × K) : Prop :=
  AmongPoints ps z ∨ ∃ a b : Point F, ∃ x y : K × K, (a, b) ∈ ps.zip ps.tail ∧ At a x ∧ At b y ∧ OnSeg x y z

/-- `z` is inside the closed polygon with corners `c` by the even-odd rule: going right from `z`, an odd number of sides
is met (a side counts if one end is above `z` and the other is not) -/
def EvenOdd (c : List (K × K)) (z : K × K) : Prop :=
  open Classical in (sides c).countP (fun e => decide (HitsRight z e ∧ ¬ (z.2 < e.1.2 ↔ z.2 < e.2.2))) % 2 = 1

/-- `z` is on the closed ring through the points or, by the even-odd rule, inside it -/
def InRing (ps : List (Point F)) (z : K × K) : Prop :=
  OnPath ps z ∨ ∃ c : List (K × K), List.Forall₂ At ps (c ++ c.take 1) ∧ EvenOdd c z

/-- the geometry has a point at `z`; polygons are taken with their holes filled -/
def Occupies : Geometry F → K × K → Prop
  | .point p, z => At p z
  | .multiPoint ps, z => AmongPoints ps z
  | .lineString ps, z => OnPath ps z
  | .multiLineString ls, z => ∃ l ∈ ls, OnPath l z
  | .polygon rs, z => ∃ ext holes, rs = ext :: holes ∧ InRing ext z
  | .multiPolygon ps, z => ∃ rs ∈ ps, ∃ ext holes, rs = ext :: holes ∧ InRing ext z
  | _, _ => False

/-- the place `z` is in the closed box -/
structure PlaceIn (z : K × K) (b : Box F) : Prop where
  minX : XR.le (FloatVal.val b.MinX) (.fin z.1) = true
  maxX : XR.le (.fin z.1) (FloatVal.val b.MaxX) = true
  minY : XR.le (FloatVal.val b.MinY) (.fin z.2) = true
  maxY : XR.le (.fin z.2) (FloatVal.val b.MaxY) = true

/-- squared distance of two places -/
def distSq (x z : K × K) : K := (x.1 - z.1) ^ 2 + (x.2 - z.2) ^ 2

/-- the geometry has vertices (a polygon: in its first ring), and they are at finite places of coordinates at most `M` -/
def Located (M : K) (g : Geometry F) : Prop :=
  boxedVertices g ≠ [] ∧ ∀ v ∈ boxedVertices g, ∃ z : K × K, At v z ∧ Within M z

/-- the geometry has vertices (a polygon: in its first ring), and their coordinates are multiples of `1 / 2^k` with numerators up to `2^B` -/
def Gridded (K : Type) [Field K] [LinearOrder K] [IsStrictOrderedRing K] [FloatVal F K] (B k : ℕ) (g : Geometry F) : Prop :=
  boxedVertices g ≠ [] ∧ ∀ v ∈ boxedVertices g, ∃ z : K × K, At v z ∧ OnGrid B k z

end GoGeo.Spec
