import Verif.Spec.Relation

/-! # Specification vocabulary for convex hulls -/

namespace GoGeo.Spec
variable {K : Type} [Field K] [LinearOrder K]

/-- `v` are the corners of the convex hull of `pts`, in counter-clockwise order: at least three different points of `pts`; every
point of `pts` is on or to the left of every side of the ring, the closing side included; no line leaves all the corners on
its left and a point of `pts` on its right; and any three corners, in the order of the ring, are in line or turn left. -/
structure HullOf (pts v : List (K × K)) : Prop where
  corners : ∀ x ∈ v, x ∈ pts
  distinct : v.Nodup
  three : 3 ≤ v.length
  left : ∀ e ∈ sides v, ∀ x ∈ pts, 0 ≤ turn e.1 e.2 x
  tight : ∀ a b, (∀ x ∈ v, 0 ≤ turn a b x) → ∀ x ∈ pts, 0 ≤ turn a b x
  turns : ∀ a b c, [a, b, c].Sublist v → 0 ≤ turn a b c

end GoGeo.Spec
