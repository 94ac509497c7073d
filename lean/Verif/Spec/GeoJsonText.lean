import Verif.Spec.GeoJson
import Verif.Spec.JsonText
import Verif.Spec.Numeral

/-! # Vocabulary for GeoJSON as text -/

namespace GoGeo.GeoJson
variable {F : Type}

mutual
/-- every `int` in the value is one of Go, with 64 bits -/
def Ints : Val F → Prop
  | .int i => -2 ^ 63 ≤ i ∧ i < 2 ^ 63
  | .slice l => IntsList l
  | .map m => IntsMap m
  | _ => True
/-- the same for all elements -/
def IntsList : List (Val F) → Prop
  | [] => True
  | v :: vs => Ints v ∧ IntsList vs
/-- the same for all values of a map -/
def IntsMap : List (String × Val F) → Prop
  | [] => True
  | (_, v) :: vs => Ints v ∧ IntsMap vs
end

/-- the same for all fields of a `GeoJson` -/
def Obj.Ints (o : Obj F) : Prop := GeoJson.Ints o.Coordinates ∧ GeoJson.Ints o.Geometries ∧ IntsMap o.CRS

/-- the same for all fields of a `Feature` -/
def Feature.Ints (f : Feature F) : Prop :=
  GeoJson.Ints f.ID ∧ (∀ o, f.GeometryJson = some o → o.Ints) ∧ (∀ m, f.Properties = some m → IntsMap m) ∧ IntsMap f.CRS

/-- the same for all fields of a `FeatureCollection` -/
def FeatureCollection.Ints (fc : FeatureCollection F) : Prop := IntsMap fc.CRS ∧ ∀ l, fc.Features = some l → ∀ f, some f ∈ l → f.Ints

/-- the text is a number to which no `float64` is closer than `x` -/
def Stands (x : Float) (t : List Char) : Prop := ∃ q, Rfc8259.NumberValue t q ∧ IsNearest x q

section rel
variable {A B : Type} (R : A → B → Prop)

/-- the same point up to `R` on coordinates -/
def PointRel (p : Point A) (p' : Point B) : Prop := R p.X p'.X ∧ R p.Y p'.Y
/-- the same point up to `R` on coordinates -/
def PointZRel (p : PointZ A) (p' : PointZ B) : Prop := R p.X p'.X ∧ R p.Y p'.Y ∧ R p.Z p'.Z

/-- the same geometry up to `R` on coordinates -/
def GeomRel : Geometry A → Geometry B → Prop
  | .point p, .point p' => PointRel R p p'
  | .pointZ p, .pointZ p' => PointZRel R p p'
  | .multiPoint ps, .multiPoint ps' => List.Forall₂ (PointRel R) ps ps'
  | .multiPointZ ps, .multiPointZ ps' => List.Forall₂ (PointZRel R) ps ps'
  | .lineString ps, .lineString ps' => List.Forall₂ (PointRel R) ps ps'
  | .lineStringZ ps, .lineStringZ ps' => List.Forall₂ (PointZRel R) ps ps'
  | .multiLineString ls, .multiLineString ls' => List.Forall₂ (List.Forall₂ (PointRel R)) ls ls'
  | .multiLineStringZ ls, .multiLineStringZ ls' => List.Forall₂ (List.Forall₂ (PointZRel R)) ls ls'
  | .polygon rs, .polygon rs' => List.Forall₂ (List.Forall₂ (PointRel R)) rs rs'
  | .polygonZ rs, .polygonZ rs' => List.Forall₂ (List.Forall₂ (PointZRel R)) rs rs'
  | .multiPolygon ps, .multiPolygon ps' => List.Forall₂ (List.Forall₂ (List.Forall₂ (PointRel R))) ps ps'
  | .multiPolygonZ ps, .multiPolygonZ ps' => List.Forall₂ (List.Forall₂ (List.Forall₂ (PointZRel R))) ps ps'
  | _, _ => False

end rel

end GoGeo.GeoJson
