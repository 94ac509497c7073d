import Verif.Spec.Lookup
import Mathlib.Topology.Connected.PathConnected
import Mathlib.Topology.Instances.Real.Lemmas

/-!
# Specification vocabulary for winding numbers
-/

namespace GoGeo.Spec
variable {K : Type} [Field K] [LinearOrder K]

open Classical in
/-- how often the closed ring with corners `c` goes round `z`, counter-clockwise: going right from `z`, the sides met that
go up minus the sides met that go down (a side goes up if it ends above `z` and does not start above it) -/
noncomputable def winding (c : List (K × K)) (z : K × K) : ℤ :=
  (sides c).countP (fun e => decide (HitsRight z e ∧ ¬ z.2 < e.1.2 ∧ z.2 < e.2.2)) -
  (sides c).countP (fun e => decide (HitsRight z e ∧ z.2 < e.1.2 ∧ ¬ z.2 < e.2.2))

/-- `z` is on the closed ring with corners `c` -/
def OnRing (c : List (K × K)) (z : K × K) : Prop := ∃ e ∈ sides c, OnSeg e.1 e.2 z

/-- a simple ring: at least three distinct corners, and two sides have no point in common except the corner where one ends and
the other starts -/
def SimpleRing (c : List (K × K)) : Prop :=
  3 ≤ c.length ∧ c.Nodup ∧ ∀ e ∈ sides c, ∀ f ∈ sides c, e ≠ f → ∀ x, OnSeg e.1 e.2 x → OnSeg f.1 f.2 x →
    (x = e.2 ∧ x = f.1) ∨ (x = e.1 ∧ x = f.2)

/-- paths that do not touch the ring lead from `z` as far away as one likes -/
def Escapes (c : List (ℝ × ℝ)) (z : ℝ × ℝ) : Prop := ∀ R : ℝ, ∃ y : ℝ × ℝ, (R < |y.1| ∨ R < |y.2|) ∧ JoinedIn {x | ¬ OnRing c x} z y

end GoGeo.Spec
