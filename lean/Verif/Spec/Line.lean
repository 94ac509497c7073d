import Verif.Spec.Box

/-!
# Specification vocabulary for lines: plain list edits
-/

namespace GoGeo.Spec
open GoFloat

/-- `l` with `x` inserted before position `i` (at the end when `i` is the length) -/
def insertAt {α : Type} (l : List α) (i : Nat) (x : α) : List α := l.take i ++ x :: l.drop i

/-- `l` without position `i` -/
def deleteAt {α : Type} (l : List α) (i : Nat) : List α := l.take i ++ l.drop (i + 1)

/-- `l` with position `i` replaced by `x`; `i = length` appends -/
def putAt {α : Type} (l : List α) (i : Nat) (x : α) : List α := l.take i ++ x :: l.drop (i + 1)

variable {F : Type} [GoFloat F]

/-- neither NaN nor infinite -/
def IsFin (a : F) : Prop := lt (-inf) a = true ∧ lt a inf = true

/-- both coordinates finite -/
def FinPt (p : Point F) : Prop := IsFin p.X ∧ IsFin p.Y

/-- all three coordinates finite -/
def FinPtZ (p : PointZ F) : Prop := IsFin p.X ∧ IsFin p.Y ∧ IsFin p.Z

/-- the numbers differ by less than 1e-6, as computed in `F` -/
def Near (a b : F) : Prop := lt (GoFloat.abs (a - b)) (dec 1 6) = true

/-- `r'` is the line `r` of two or more points, closed: `r` itself if its ends agree within 1e-6, else `r` with its first point added -/
def ClosedUp (r r' : List (Point F)) : Prop :=
  ∃ a mid b, r = a :: (mid ++ [b]) ∧ ((Near a.X b.X ∧ Near a.Y b.Y) ∧ r' = r ∨ ¬ (Near a.X b.X ∧ Near a.Y b.Y) ∧ r' = r ++ [a])

end GoGeo.Spec
