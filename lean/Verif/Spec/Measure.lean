import Verif.Geo.Types
import Mathlib.Algebra.Field.Basic
import Mathlib.Data.List.Rotate
import Mathlib.Algebra.BigOperators.Group.List.Basic

/-!
# Specification vocabulary for areas and centroids: plane vectors over a field
-/

namespace GoGeo.Spec
variable {K : Type}

/-- the point with finite exact coordinates -/
def pt (p : K × K) : Point (XR K) := ⟨.fin p.1, .fin p.2⟩

/-- the closed ring through the corners `c` (first corner repeated at the end) -/
def ring (c : List (K × K)) : List (Point (XR K)) := (c ++ c.take 1).map pt

variable [Field K]

/-- sum over the cyclically consecutive pairs of a list: `(c0,c1), (c1,c2), …, (cn,c0)` -/
def cycSum (f : K × K → K × K → K) (c : List (K × K)) : K := (List.zipWith f c (c.rotate 1)).sum

/-- cross product of the vectors `o→p` and `o→q`: twice the signed area of the triangle `o p q` -/
def turn (o p q : K × K) : K := (p.1 - o.1) * (q.2 - o.2) - (p.2 - o.2) * (q.1 - o.1)

/-- signed area of the polygon with corners `c`: the signed areas of the triangles of the fan from `o` -/
def fanArea (o : K × K) (c : List (K × K)) : K := cycSum (fun p q => turn o p q / 2) c

/-- first moment of the polygon with corners `c`: areas of the fan triangles times their centroids -/
def fanMomentX (o : K × K) (c : List (K × K)) : K := cycSum (fun p q => turn o p q / 2 * ((o.1 + p.1 + q.1) / 3)) c
def fanMomentY (o : K × K) (c : List (K × K)) : K := cycSum (fun p q => turn o p q / 2 * ((o.2 + p.2 + q.2) / 3)) c

end GoGeo.Spec
