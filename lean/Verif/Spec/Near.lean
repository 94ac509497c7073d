import Verif.Spec.RtreeOps
import Verif.Rtree.Near

/-!
# Specification vocabulary for nearest-neighbour queries
-/

namespace GoGeo.Spec
open GoFloat
variable {F : Type} [GoFloat F]

/-- squared distance from `p` to the bounding box of `o`, computed in `float64`
(`C07_minDist_exact` says what it is in exact arithmetic) -/
def objDist (p : Point F) (o : Spatial F) : F := minDist p (BoundingBox o.Geom)

/-- `res` are `min k |stored|` of the stored objects (with multiplicity), by non-decreasing distance -/
structure KSorted (k : Nat) (p : Point F) (stored res rest : List (Spatial F)) : Prop where
  perm : stored.Perm (res ++ rest)
  count : res.length = min k stored.length
  sorted : res.Pairwise fun a b => Le (objDist p a) (objDist p b)

/-- moreover no object left out is closer than one returned -/
structure KNearest (k : Nat) (p : Point F) (stored res : List (Spatial F)) : Prop where
  best : ∃ rest, KSorted k p stored res rest ∧ ∀ o ∈ rest, ∀ r ∈ res, Le (objDist p r) (objDist p o)

end GoGeo.Spec
