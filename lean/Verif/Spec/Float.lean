import Verif.Go.Val
import Verif.Geo.Types
import Verif.Spec.Relation

/-!
# Specification vocabulary for statements about computed (rounded) results

`p` stands for the point `x`: both coordinates are finite numbers with these values.
-/

namespace GoGeo.Spec
variable {F K : Type} [GoFloat F] [Field K] [LinearOrder K] [IsStrictOrderedRing K] [FloatVal F K]

/-- the point with coordinates of value `x` -/
def At (p : Point F) (x : K × K) : Prop := FloatVal.val p.X = .fin x.1 ∧ FloatVal.val p.Y = .fin x.2

/-- both coordinates at most `M` in size -/
def Within (M : K) (x : K × K) : Prop := |x.1| ≤ M ∧ |x.2| ≤ M

/-- at least 2e-6 away from the boundary, measured horizontally -/
def Clear2X (c : List (K × K)) (p : K × K) : Prop :=
  ∀ e ∈ sides c, ∀ q, OnSeg e.1 e.2 q → q.2 = p.2 → 2 * eps ≤ |q.1 - p.1|

/-- the side `e` has a point straight to the right of `p` -/
def HitsRight (p : K × K) (e : (K × K) × (K × K)) : Prop := ∃ u, p.1 < u ∧ OnSeg e.1 e.2 (u, p.2)

/-- both coordinates are multiples of 2^-k, at most 2^B of them -/
def OnGrid (B k : ℕ) (x : K × K) : Prop := ∃ m n : ℤ, |m| ≤ 2 ^ B ∧ |n| ≤ 2 ^ B ∧ x = ((m : K) / 2 ^ k, (n : K) / 2 ^ k)

end GoGeo.Spec
