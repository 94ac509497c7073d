/-!
# Go run-time panics as values

A Go call that may panic is modelled as a value of `Go α := Except Panic α`.
-/

namespace GoGeo

/-- The run-time panics that can occur in the modelled code. -/
inductive Panic where
  /-- nil pointer dereference -/
  | nilDeref
  /-- index out of range -/
  | index
  /-- slice bounds out of range -/
  | slice
  /-- assignment to an entry of a nil map -/
  | nilMap
  /-- failed type assertion `x.(T)` -/
  | typeAssert
  /-- run-time error: comparing uncomparable type -/
  | uncomparable
  /-- explicit `panic(...)` -/
  | explicit
  /-- `make` with a negative length or capacity -/
  | makeNeg
  /-- integer division by zero -/
  | divZero
  /-- not a Go panic: the fuel given to a loop of the model ran out -/
  | fuel
deriving DecidableEq, Repr

/-- Result of a Go call that may panic. -/
abbrev Go (α : Type) := Except Panic α

instance {α : Type} [DecidableEq α] : DecidableEq (Go α) := fun a b =>
  match a, b with
  | .ok a, .ok b => if h : a = b then isTrue (by rw [h]) else isFalse (by intro e; cases e; exact h rfl)
  | .error a, .error b =>
    if h : a = b then isTrue (by rw [h]) else isFalse (by intro e; cases e; exact h rfl)
  | .ok _, .error _ => isFalse (by intro e; cases e)
  | .error _, .ok _ => isFalse (by intro e; cases e)

end GoGeo
