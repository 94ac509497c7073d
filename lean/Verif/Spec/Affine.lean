import Mathlib.Algebra.Field.Basic
import Mathlib.Data.Real.Basic

/-!
# Specification vocabulary for changes of the frame

An affine map of the plane, its determinant, and the maps that keep distances.
-/

namespace GoGeo.Spec

/-- the affine map `(x, y) ↦ (a x + b y + e, c x + d y + f)` -/
structure Aff (K : Type) where
  (a b c d e f : K)

variable {K : Type} [Field K]

/-- the image of a point -/
def Aff.at (T : Aff K) (x : K × K) : K × K := (T.a * x.1 + T.b * x.2 + T.e, T.c * x.1 + T.d * x.2 + T.f)

/-- the factor by which areas change -/
def Aff.det (T : Aff K) : K := T.a * T.d - T.b * T.c

/-- the translation by `v` -/
def Aff.shift (v : K × K) : Aff K := ⟨1, 0, 0, 1, v.1, v.2⟩

/-- rotations, reflections, translations and what is put together of them: the columns of the matrix are orthogonal unit vectors -/
def Aff.Rigid (T : Aff ℝ) : Prop := T.a ^ 2 + T.c ^ 2 = 1 ∧ T.b ^ 2 + T.d ^ 2 = 1 ∧ T.a * T.b + T.c * T.d = 0

end GoGeo.Spec
