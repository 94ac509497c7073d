import Verif.Spec.Relation

/-! # Lines that do not meet themselves -/

namespace GoGeo.Spec
variable {K : Type} [Field K] [LinearOrder K]

/-- two segments of the line have a point in common only if they follow each other, and then only the vertex between them -/
def SelfAvoiding (l : List (K × K)) : Prop :=
  ∀ (i j : Nat) (a b c d x : K × K), i < j → l[i]? = some a → l[i+1]? = some b → l[j]? = some c → l[j+1]? = some d →
    OnSeg a b x → OnSeg c d x → j = i + 1 ∧ x = b

/-- the points of the line advance in the direction `u` -/
def Advances (u : K × K) (l : List (K × K)) : Prop := l.Pairwise fun p q => u.1 * p.1 + u.2 * p.2 < u.1 * q.1 + u.2 * q.2

end GoGeo.Spec
