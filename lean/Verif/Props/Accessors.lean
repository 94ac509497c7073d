import Verif.Geo.Accessors
import Verif.Go.F64
import Verif.Props.Line

/-!
# Constructors, setters and views: C99
-/

namespace GoGeo
open GoFloat

section
variable {F : Type}

/-- **C99 (points).** The constructors store their arguments in order, and a setter changes its coordinate and no other. -/
theorem C99_setters (x y z v : F) :
    ((NewPoint x y).X = x ∧ (NewPoint x y).Y = y) ∧
    (∀ p : Point F, (p.SetX v).X = v ∧ (p.SetX v).Y = p.Y ∧ (p.SetY v).X = p.X ∧ (p.SetY v).Y = v) ∧
    ((NewPointZ x y z).X = x ∧ (NewPointZ x y z).Y = y ∧ (NewPointZ x y z).Z = z) ∧
    (∀ p : PointZ F, ((p.SetX v).X = v ∧ (p.SetX v).Y = p.Y ∧ (p.SetX v).Z = p.Z) ∧
      ((p.SetY v).X = p.X ∧ (p.SetY v).Y = v ∧ (p.SetY v).Z = p.Z) ∧
      ((p.SetZ v).X = p.X ∧ (p.SetZ v).Y = p.Y ∧ (p.SetZ v).Z = v)) := by
  refine ⟨⟨rfl, rfl⟩, fun p => ⟨rfl, rfl, rfl, rfl⟩, ⟨rfl, rfl, rfl⟩, fun p => ⟨⟨rfl, rfl, rfl⟩, ⟨rfl, rfl, rfl⟩, rfl, rfl, rfl⟩⟩

variable [GoFloat F]

/-- **C99 (boxes).** `NewBox(a, b, c, d)` contains exactly the points with `a ≤ x ≤ c` and `b ≤ y ≤ d`. -/
theorem C99_newBox (a b c d : F) (p : Point F) :
    IsPointInBox (NewBox a b c d) p = true ↔
      (le a p.X = true ∧ le p.X c = true) ∧ le b p.Y = true ∧ le p.Y d = true := by
  simp [IsPointInBox, NewBox, and_assoc]

/-- **C99 (vectors).** `Equal` is exact equality of the coordinates, so that a vector equals its `Clone` exactly when no coordinate is NaN;
it is symmetric. -/
theorem C99_vector [FloatOrd F] (v w : Vector2 F) :
    (v.Equal v.Clone = true ↔ isNaN v.X = false ∧ isNaN v.Y = false) ∧ v.Equal w = w.Equal v := by
  have hs : ∀ a b : F, eq a b = eq b a := fun a b => by
    rw [Bool.eq_iff_iff, FloatOrd.eq_iff, FloatOrd.eq_iff, and_comm]
  have hr : ∀ a : F, eq a a = true ↔ isNaN a = false := fun a => by
    rw [FloatOrd.eq_iff]
    exact ⟨fun h => FloatOrd.le_left _ _ h.1, fun h => ⟨le_refl' h, le_refl' h⟩⟩
  refine ⟨?_, ?_⟩
  · show (eq v.X v.X && eq v.Y v.Y) = true ↔ _
    rw [Bool.and_eq_true, hr, hr]
  · unfold Vector2.Equal; rw [hs v.X, hs v.Y]

/-- **C99 (ends of Z lines).** A line of two or more points gives its first and last point. -/
theorem C99_endsZ (a b : PointZ F) (l : List (PointZ F)) :
    LineStringZ.GetFirstPoint (a :: (l ++ [b])) = a ∧ LineStringZ.GetEndPoint (a :: (l ++ [b])) = b := by
  unfold LineStringZ.GetFirstPoint LineStringZ.GetEndPoint
  rw [if_neg (by simp), if_neg (by simp)]
  refine ⟨rfl, ?_⟩
  rw [List.getLastD_cons]
  simp

/-- **C99 is false** for Z lines of one point: both ends are said to be the origin. -/
theorem C99_short_false (a : PointZ F) :
    LineStringZ.GetFirstPoint [a] = ⟨lit 0, lit 0, lit 0⟩ ∧ LineStringZ.GetEndPoint [a] = ⟨lit 0, lit 0, lit 0⟩ := ⟨rfl, rfl⟩
end

section
variable {α : Type} [Inhabited α]

/-- **C99 (views).** `GetPointSet` and `ToLineString` give the line's own points: as many as `GetPointCount` says, the same ones, and still
the same ones after any write to memory, in particular through either of them.  So do `GetExteriorRing` and `GetExteriorPoints` for the first ring of a polygon;
without rings the result has no points. -/
theorem C99_views (line : Slice) (rest : List Slice) :
    (∀ m : Mem α, m.read (GetPointSet line) = m.read line ∧ (m.Valid line → GetPointCount line = (m.read line).length)) ∧
    (∀ m : Mem α, m.read (ExteriorSlice (line :: rest)) = m.read line) ∧
    (∀ m : Mem α, m.read (ExteriorSlice []) = []) := by
  refine ⟨fun m => ⟨rfl, fun h => h.length.symm⟩, fun m => rfl, fun m => ?_⟩
  simp [ExteriorSlice, Mem.read, Slice.nil]

/-- **C99 (SetSRID).** `Polygon.SetSRID` changes nothing. -/
theorem C99_setSRID (poly : List Slice) (srid : Int) : Polygon.SetSRID poly srid = poly := rfl
end

/-- C99 on concrete values. -/
example : IsPointInBox (NewBox (0 : Float) 10 5 20) ⟨5, 12⟩ = true ∧ IsPointInBox (NewBox (0 : Float) 10 5 20) ⟨12, 5⟩ = false ∧
    (NewVector2 (0.5 : Float) 2).Equal (NewVector2 0.5 2).Clone = true := by decide +kernel

end GoGeo
