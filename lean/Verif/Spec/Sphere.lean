import Mathlib.Analysis.InnerProductSpace.PiL2
import Mathlib.Geometry.Euclidean.Angle.Unoriented.Basic

/-! # Specification vocabulary for geography: points of the unit sphere -/

namespace GoGeo.Spec
open Real

/-- degrees to radians -/
noncomputable def rad (d : ℝ) : ℝ := d * π / 180

/-- the point of the unit sphere with the given longitude and latitude in degrees -/
noncomputable def onSphere (p : ℝ × ℝ) : EuclideanSpace ℝ (Fin 3) :=
  !₂[cos (rad p.2) * cos (rad p.1), cos (rad p.2) * sin (rad p.1), sin (rad p.2)]

/-- the unit vector pointing east at a point -/
noncomputable def east (p : ℝ × ℝ) : EuclideanSpace ℝ (Fin 3) := !₂[-sin (rad p.1), cos (rad p.1), 0]

/-- the unit vector pointing north at a point -/
noncomputable def north (p : ℝ × ℝ) : EuclideanSpace ℝ (Fin 3) :=
  !₂[-(sin (rad p.2) * cos (rad p.1)), -(sin (rad p.2) * sin (rad p.1)), cos (rad p.2)]

/-- the point reached from `p` on the great circle with bearing `b` (radians, clockwise from north) after the angle `d` (radians) -/
noncomputable def travel (p : ℝ × ℝ) (b d : ℝ) : EuclideanSpace ℝ (Fin 3) :=
  cos d • onSphere p + sin d • (cos b • north p + sin b • east p)

/-- the angle at the centre between two points, in radians -/
noncomputable def central (p q : ℝ × ℝ) : ℝ := InnerProductGeometry.angle (onSphere p) (onSphere q)

end GoGeo.Spec
