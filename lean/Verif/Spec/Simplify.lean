import Verif.Spec.Distance

/-! # Specification vocabulary for line simplification -/

namespace GoGeo.Spec

/-- the pairs of neighbours of a list -/
def neighbours {α : Type} (l : List α) : List (α × α) := l.zip (l.drop 1)

/-- `r` consists of the elements of `l` at the increasing positions `ks`, the first and the last position among them, and every dropped
element `p` between two neighbouring kept elements `a`, `b` satisfies `near p a b`. -/
def SimplifiesAt {α : Type} (near : α → α → α → Prop) (l r : List α) (ks : List Nat) : Prop :=
  ks.Pairwise (· < ·) ∧ ks.head? = some 0 ∧ ks.getLast? = some (l.length - 1) ∧ ks.map (l[·]?) = r.map some ∧
  ∀ s e, (s, e) ∈ neighbours ks → ∀ (i : Nat) (a p b : α), s < i → i < e → l[s]? = some a → l[i]? = some p → l[e]? = some b → near p a b

def Simplifies {α : Type} (near : α → α → α → Prop) (l r : List α) : Prop := ∃ ks, SimplifiesAt near l r ks

end GoGeo.Spec
