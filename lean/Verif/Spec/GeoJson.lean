import Verif.GeoJson.Model
import Mathlib.Data.List.Forall2

/-! # Vocabulary for the GeoJSON properties -/

namespace GoGeo.GeoJson
open GoFloat
variable {F : Type}

/-- neither NaN nor infinite -/
def Finite [GoFloat F] (x : F) : Prop := isNaN x = false ∧ eq x inf = false ∧ eq x (-inf) = false

/-- all coordinates of a point -/
def xy (p : Point F) : List F := [p.X, p.Y]
/-- all coordinates of a point -/
def xyz (p : PointZ F) : List F := [p.X, p.Y, p.Z]

/-- all coordinates of a geometry -/
def coords : Geometry F → List F
  | .point p => xy p
  | .multiPoint ps => ps.flatMap xy
  | .lineString ps => ps.flatMap xy
  | .multiLineString ls => ls.flatten.flatMap xy
  | .polygon rs => rs.flatten.flatMap xy
  | .multiPolygon ps => ps.flatten.flatten.flatMap xy
  | .pointZ p => xyz p
  | .multiPointZ ps => ps.flatMap xyz
  | .lineStringZ ps => ps.flatMap xyz
  | .multiLineStringZ ls => ls.flatten.flatMap xyz
  | .polygonZ rs => rs.flatten.flatMap xyz
  | .multiPolygonZ ps => ps.flatten.flatten.flatMap xyz
  | .collection _ => []
  | .ptr _ _ => []
  | .nil => []

/-- the geometry has vertices, and so has each of its parts -/
def NoEmptyPart : Geometry F → Prop
  | .point _ => True
  | .pointZ _ => True
  | .multiPoint ps => ps ≠ []
  | .multiPointZ ps => ps ≠ []
  | .lineString ps => ps ≠ []
  | .lineStringZ ps => ps ≠ []
  | .multiLineString ls => ls ≠ [] ∧ ∀ l ∈ ls, l ≠ []
  | .multiLineStringZ ls => ls ≠ [] ∧ ∀ l ∈ ls, l ≠ []
  | .polygon rs => rs ≠ [] ∧ ∀ r ∈ rs, r ≠ []
  | .polygonZ rs => rs ≠ [] ∧ ∀ r ∈ rs, r ≠ []
  | .multiPolygon ps => ps ≠ [] ∧ ∀ p ∈ ps, p ≠ [] ∧ ∀ r ∈ p, r ≠ []
  | .multiPolygonZ ps => ps ≠ [] ∧ ∀ p ∈ ps, p ≠ [] ∧ ∀ r ∈ p, r ≠ []
  | _ => False

/-- the types that `MarshalGeo` is able to write -/
def Writable : Geometry F → Prop
  | .polygonZ _ => False
  | .collection _ => False
  | .ptr _ _ => False
  | .nil => False
  | _ => True

/-- the types that `UnmarshalGeo` is able to read -/
def Readable : Geometry F → Prop
  | .point _ => True
  | .pointZ _ => True
  | .lineString _ => True
  | .lineStringZ _ => True
  | .polygon _ => True
  | .polygonZ _ => True
  | _ => False

/-- the types that the two functions do not support on input -/
def Multi : Geometry F → Prop
  | .multiPoint _ => True
  | .multiPointZ _ => True
  | .multiLineString _ => True
  | .multiLineStringZ _ => True
  | .multiPolygon _ => True
  | .multiPolygonZ _ => True
  | _ => False

/-! ### RFC 7946 -/

/-- a position -/
def position (p : Point F) : Json F := .arr [.num p.X, .num p.Y]
/-- a position with altitude -/
def positionZ (p : PointZ F) : Json F := .arr [.num p.X, .num p.Y, .num p.Z]

/-- an array -/
def array {α : Type} (f : α → Json F) (l : List α) : Json F := .arr (l.map f)

/-- the members of the geometry object of RFC 7946: its type and its coordinates -/
def rfc7946 : Geometry F → Option (String × Json F)
  | .point p => some ("Point", position p)
  | .pointZ p => some ("Point", positionZ p)
  | .multiPoint ps => some ("MultiPoint", array position ps)
  | .multiPointZ ps => some ("MultiPoint", array positionZ ps)
  | .lineString ps => some ("LineString", array position ps)
  | .lineStringZ ps => some ("LineString", array positionZ ps)
  | .multiLineString ls => some ("MultiLineString", array (array position) ls)
  | .multiLineStringZ ls => some ("MultiLineString", array (array positionZ) ls)
  | .polygon rs => some ("Polygon", array (array position) rs)
  | .polygonZ rs => some ("Polygon", array (array positionZ) rs)
  | .multiPolygon ps => some ("MultiPolygon", array (array (array position)) ps)
  | .multiPolygonZ ps => some ("MultiPolygon", array (array (array positionZ)) ps)
  | _ => none

/-! ### shapes of coordinates -/

/-- an array that starts with the two coordinates of `p` -/
def At2 (v : Val F) (p : Point F) : Prop := ∃ rest, v = .slice (.float p.X :: .float p.Y :: rest)
/-- an array that starts with the three coordinates of `p` -/
def At3 (v : Val F) (p : PointZ F) : Prop := ∃ rest, v = .slice (.float p.X :: .float p.Y :: .float p.Z :: rest)
/-- an array of exactly three values -/
def Triple (v : Val F) : Prop := ∃ a b c, v = .slice [a, b, c]

/-- what a point is read as -/
def ReadsPoint (v : Val F) (g : Geometry F) : Prop :=
  (Triple v ∧ ∃ p, At3 v p ∧ g = .pointZ p) ∨ (¬ Triple v ∧ ∃ p, At2 v p ∧ g = .point p)

/-- what a line is read as: with altitudes if any position has exactly three values -/
def ReadsLine (v : Val F) (g : Geometry F) : Prop :=
  ∃ vs, v = .slice vs ∧
    (((∃ w ∈ vs, Triple w) ∧ ∃ ps, List.Forall₂ At3 vs ps ∧ g = .lineStringZ ps) ∨
      ((∀ w ∈ vs, ¬ Triple w) ∧ ∃ ps, List.Forall₂ At2 vs ps ∧ g = .lineString ps))

/-- what a polygon is read as: with altitudes if any position of any ring has exactly three values -/
def ReadsPolygon (v : Val F) (g : Geometry F) : Prop :=
  ∃ vss : List (List (Val F)), v = .slice (vss.map .slice) ∧
    (((∃ vs ∈ vss, ∃ w ∈ vs, Triple w) ∧ ∃ rs, List.Forall₂ (List.Forall₂ At3) vss rs ∧ g = .polygonZ rs) ∨
      ((∀ vs ∈ vss, ∀ w ∈ vs, ¬ Triple w) ∧ ∃ rs, List.Forall₂ (List.Forall₂ At2) vss rs ∧ g = .polygon rs))

/-- what the coordinates of a geometry object of type `t` are read as -/
def Reads (t : String) (v : Val F) (g : Geometry F) : Prop :=
  (t = "Point" ∧ ReadsPoint v g) ∨ (t = "LineString" ∧ ReadsLine v g) ∨ (t = "Polygon" ∧ ReadsPolygon v g)

/-! ### member names -/

/-- `k` is `n` up to the case of letters; encoding/json also takes the long s and the Kelvin sign for s and k -/
def CaseVariant (n k : String) : Prop :=
  List.Forall₂ (fun a b => b = a ∨ b = a.toUpper ∨ (a = 's' ∧ b = 'ſ') ∨ (a = 'k' ∧ b = '\u212A')) n.toList k.toList

/-- the members that are read of a geometry object -/
def geometryNames : List String := ["type", "coordinates", "geometries", "crs"]
/-- the members that are read of a feature -/
def featureNames : List String := ["id", "type", "bbox", "geometry", "properties", "crs"]
/-- the members that are read of a feature collection -/
def collectionNames : List String := ["type", "bbox", "features", "crs"]

/-- `x` is the value of a member that is read of the geometry object -/
inductive KeptGeometry {A : Type} : Json A → Json A → Prop
  | member {m : List (String × Json A)} {n k x} : n ∈ geometryNames → CaseVariant n k → (k, x) ∈ m → KeptGeometry (.obj m) x

/-- `x` is the value of a member that is read of the feature or of its geometry -/
inductive KeptFeature {A : Type} : Json A → Json A → Prop
  | member {m : List (String × Json A)} {n k x} : n ∈ featureNames → n ≠ "geometry" → CaseVariant n k → (k, x) ∈ m → KeptFeature (.obj m) x
  | geometry {m : List (String × Json A)} {k g x} : CaseVariant "geometry" k → (k, g) ∈ m → KeptGeometry g x → KeptFeature (.obj m) x

/-- `x` is the value of a member that is read of the feature collection or of its features -/
inductive KeptCollection {A : Type} : Json A → Json A → Prop
  | member {m : List (String × Json A)} {n k x} : n ∈ collectionNames → n ≠ "features" → CaseVariant n k → (k, x) ∈ m → KeptCollection (.obj m) x
  | feature {m : List (String × Json A)} {k l f x} : CaseVariant "features" k → (k, .arr l) ∈ m → f ∈ l → KeptFeature f x → KeptCollection (.obj m) x

/-! ### values that survive a round trip through JSON -/

/-- the entries of a Go map: each key once; a map has no order of its own, the entries are listed by key -/
def IsMap {α : Type} (m : List (String × α)) : Prop := (m.map Prod.fst).Pairwise (· < ·)

/-- nil, booleans, finite numbers, strings, and slices and maps of such values -/
inductive Plain [GoFloat F] : Val F → Prop where
  | nil : Plain .nil
  | bool (b) : Plain (.bool b)
  | float (x) : Finite x → Plain (.float x)
  | str (s) : Plain (.str s)
  | slice (l) : (∀ v ∈ l, Plain v) → Plain (.slice l)
  | map (m : List (String × Val F)) : IsMap m → (∀ e ∈ m, Plain e.2) → Plain (.map m)

/-- a map of such values -/
def PlainMap [GoFloat F] (m : List (String × Val F)) : Prop := IsMap m ∧ ∀ e ∈ m, Plain e.2

def Obj.Plain [GoFloat F] (o : Obj F) : Prop := GeoJson.Plain o.Coordinates ∧ GeoJson.Plain o.Geometries ∧ PlainMap o.CRS

def Feature.Plain [GoFloat F] (f : Feature F) : Prop :=
  GeoJson.Plain f.ID ∧ (∀ x ∈ f.BoundingBox, Finite x) ∧ (∀ o, f.GeometryJson = some o → o.Plain) ∧
    (∀ m, f.Properties = some m → PlainMap m) ∧ PlainMap f.CRS

/-- what a round trip keeps of a feature: everything but `Geometry`; no properties come back as nil -/
def Feature.kept (f : Feature F) : Feature F :=
  { f with Typ := "Feature", Geometry := .nil, Properties := match f.Properties with | some [] => none | p => p }

/-- the value last stored under `k` by a series of assignments -/
def lastSet (k : String) : List (String × Val F) → Option (Val F)
  | [] => none
  | (k', v) :: ops =>
    match lastSet k ops with
    | some w => some w
    | none => if k' = k then some v else none

end GoGeo.GeoJson
