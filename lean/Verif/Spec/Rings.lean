import Verif.Geo.Rings

/-!
# Specification vocabulary for the rings of a polygon: plain list edits, and a program that makes them
-/

namespace GoGeo.Spec
variable {ρ : Type}

/-- one edit of a polygon -/
inductive RingEdit (ρ : Type)
  | setExterior (r : ρ)
  | addInterior (r : ρ)

/-- what the edit means: the first ring is replaced (or becomes the only one), or a ring is added at the end -/
def RingEdit.onList : RingEdit ρ → List ρ → List ρ
  | .setExterior r, [] => [r]
  | .setExterior r, _ :: rest => r :: rest
  | .addInterior r, rings => rings ++ [r]

/-- the edits one after the other, as plain lists -/
def editList (es : List (RingEdit ρ)) (rings : List ρ) : List ρ := es.foldl (fun l e => e.onList l) rings

variable [Inhabited ρ]

/-- the call that makes the edit -/
def RingEdit.call (grow : Nat → Nat → Nat) (m : Mem ρ) (poly : Slice) : RingEdit ρ → Go (Mem ρ × Slice)
  | .setExterior r => Poly.SetExteriorRing grow m poly r
  | .addInterior r => .ok (Poly.AddInteriorRing grow m poly r)

/-- a program that makes the edits on one polygon variable -/
def editPolygon (grow : Nat → Nat → Nat) (m : Mem ρ) (poly : Slice) : List (RingEdit ρ) → Go (Mem ρ × Slice)
  | [] => .ok (m, poly)
  | e :: es => do
    let (m, poly) ← e.call grow m poly
    editPolygon grow m poly es

end GoGeo.Spec
