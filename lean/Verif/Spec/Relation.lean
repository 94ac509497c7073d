import Verif.Spec.Measure
import Mathlib.Algebra.Order.Field.Basic

/-!
# Specification vocabulary for spatial relations: points, segments and rings of the plane `K × K`
-/

namespace GoGeo.Spec
variable {K : Type} [Field K] [LinearOrder K]

/-- the point at parameter `t` of the line through `a` (`t = 0`) and `b` (`t = 1`) -/
def along (a b : K × K) (t : K) : K × K := (a.1 + t * (b.1 - a.1), a.2 + t * (b.2 - a.2))

/-- `x` lies on the closed segment `ab` -/
def OnSeg (a b x : K × K) : Prop := ∃ t, 0 ≤ t ∧ t ≤ 1 ∧ x = along a b t

/-- `x` lies on the segment `ab` strictly between its ends -/
def InSeg (a b x : K × K) : Prop := ∃ t, 0 < t ∧ t < 1 ∧ x = along a b t

/-- the vectors `ab` and `cd` are parallel -/
def Parallel (a b c d : K × K) : Prop := (b.1 - a.1) * (d.2 - c.2) = (b.2 - a.2) * (d.1 - c.1)

/-- the segments cross properly: not parallel, one common point, interior to both -/
def ProperCross (a b c d : K × K) : Prop := ¬ Parallel a b c d ∧ ∃! x, InSeg a b x ∧ InSeg c d x

/-- the sides `(c0,c1), (c1,c2), …, (cn,c0)` of the closed ring with corners `c` -/
def sides {α : Type} (c : List α) : List (α × α) := c.zip (c.rotate 1)

/-- the segments `(p0,p1), (p1,p2), …` of the line through the points -/
def segments {α : Type} (l : List α) : List (α × α) := l.zip l.tail

/-- the tolerance of the code, 1e-6 -/
def eps : K := 1 / 10 ^ 6

/-- at least three distinct corners, in counter-clockwise strictly convex position: every corner is
strictly to the left of every side it is not an end of -/
def StrictlyConvex (c : List (K × K)) : Prop :=
  3 ≤ c.length ∧ c.Nodup ∧ ∀ e ∈ sides c, ∀ v ∈ c, v ≠ e.1 → v ≠ e.2 → 0 < turn e.1 e.2 v

/-- strictly inside a convex ring: to the left of every side -/
def InsideConvex (c : List (K × K)) (p : K × K) : Prop := ∀ e ∈ sides c, 0 < turn e.1 e.2 p

/-- strictly outside a convex ring: to the right of some side -/
def OutsideConvex (c : List (K × K)) (p : K × K) : Prop := ∃ e ∈ sides c, turn e.1 e.2 p < 0

/-- at least 1e-6 away from the boundary, measured horizontally -/
def ClearX (c : List (K × K)) (p : K × K) : Prop :=
  ∀ e ∈ sides c, ∀ q, OnSeg e.1 e.2 q → q.2 = p.2 → eps ≤ |q.1 - p.1|

/-- no corner lies above `p` by less than 1e-6 -/
def ClearY (c : List (K × K)) (p : K × K) : Prop := ∀ v ∈ c, v.2 ≤ p.2 ∨ p.2 + eps ≤ v.2

end GoGeo.Spec
