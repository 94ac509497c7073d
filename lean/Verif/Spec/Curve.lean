import Verif.Spec.Distance
import Verif.Spec.Relation

/-! # Specification vocabulary: lines as sets of points -/

namespace GoGeo.Spec

/-- `z` lies on the polyline through the points of `l` -/
def OnCurve (l : List (ℝ × ℝ)) (z : ℝ × ℝ) : Prop := ∃ e ∈ segments l, OnSeg e.1 e.2 z

/-- the (continuous) Hausdorff distance of the polylines `l` and `r` is at most `t`: every point of each, vertex or not, is within `t`
of some point of the other -/
def CurvesWithin (t : ℝ) (l r : List (ℝ × ℝ)) : Prop :=
  (∀ z, OnCurve l z → ∃ w, OnCurve r w ∧ eucl z w ≤ t) ∧ (∀ w, OnCurve r w → ∃ z, OnCurve l z ∧ eucl w z ≤ t)

end GoGeo.Spec
