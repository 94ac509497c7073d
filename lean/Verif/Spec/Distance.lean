import Verif.Spec.Relation
import Mathlib.Data.Real.Sqrt

/-! # Specification vocabulary for distances in the real plane -/

namespace GoGeo.Spec

/-- Euclidean distance -/
noncomputable def eucl (p q : ℝ × ℝ) : ℝ := √((p.1 - q.1) ^ 2 + (p.2 - q.2) ^ 2)

/-- `d` is the discrete Hausdorff distance of the points of `l` and `m`: the least `d` such that every
point of each list is within `d` of some point of the other -/
def IsHausdorff (l m : List (ℝ × ℝ)) (d : ℝ) : Prop :=
  IsLeast {d | 0 ≤ d ∧ (∀ p ∈ l, ∃ q ∈ m, eucl p q ≤ d) ∧ (∀ q ∈ m, ∃ p ∈ l, eucl p q ≤ d)} d

/-- the point of the real plane with the rational coordinates `x` -/
noncomputable def real (x : ℚ × ℚ) : ℝ × ℝ := ((x.1 : ℝ), (x.2 : ℝ))

/-- the segments of positive length are not shorter than 2^-40 -/
def LongSides (es : List ((ℚ × ℚ) × (ℚ × ℚ))) : Prop := ∀ e ∈ es, e.1 = e.2 ∨ 1 / 2 ^ 40 ≤ eucl (real e.1) (real e.2)

/-- `d` is the distance of `x` from the union of the segments `es` -/
def IsDistance (x : ℚ × ℚ) (es : List ((ℚ × ℚ) × (ℚ × ℚ))) (d : ℝ) : Prop :=
  IsLeast {d | ∃ e ∈ es, ∃ t, OnSeg (real e.1) (real e.2) t ∧ d = eucl (real x) t} d

end GoGeo.Spec
