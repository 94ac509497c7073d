import Verif.GeoJson.Model
import Verif.Go.Slice

/-!
# Features and collections in memory

`Verif/GeoJson/Model.lean` stores a feature in a collection as it is at the time of the call.  Here a `*Feature` is a pointer, the map of
properties is a pointer, and `Features` is a slice over a backing array that copies of the collection share.
-/

set_option linter.unusedSectionVars false

namespace GoGeo.GeoJson
open GoFloat Json

/-- a `Feature` in memory (geojson/feature.go:9-17): `rest` holds the fields other than `Properties`, which is nil or the number of a map.
Simplification: `GeometryJson`, `CRS` and `BoundingBox`, which no function of the package changes in place, are values -/
structure Cell (F : Type) where
  rest : Feature F
  props : Option Nat

/-- a `FeatureCollection` in memory (geojson/feature_collection.go:13-18); simplification: `CRS` and `BoundingBox` are values -/
structure CollCell (F : Type) where
  Typ : String
  BoundingBox : List F
  Features : Option Slice
  CRS : List (String × Val F)

/-- the maps, the features, the backing arrays of slices of `*Feature` and the collections -/
structure Store (F : Type) where
  maps : List (List (String × Val F))
  feats : List (Cell F)
  mem : Mem (Option Nat)
  colls : List (CollCell F)

variable {F : Type} [GoFloat F]

namespace Store

def empty : Store F := ⟨[], [], ⟨[]⟩, []⟩

/-- the feature that a pointer shows -/
def feature (s : Store F) (i : Nat) : Feature F :=
  match s.feats[i]? with
  | none => Feature.zero
  | some c => { c.rest with Properties := c.props.map fun p => s.maps.getD p [] }

/-- the collection that a pointer shows: what `MarshalJSON` (geojson/feature_collection.go:37-58) is called on -/
def collection (s : Store F) (c : Nat) : FeatureCollection F :=
  match s.colls[c]? with
  | none => ⟨"", [], none, []⟩
  | some c => ⟨c.Typ, c.BoundingBox, c.Features.map fun t => (s.mem.read t).map fun p => p.map s.feature, c.CRS⟩

/-- `NewFeature` (geojson/feature.go:20-30), `UnmarshalFeature` (geojson/feature.go:63-71) or a composite literal: a feature with a map of
its own, if any -/
def newFeature (s : Store F) (f : Feature F) : Store F :=
  match f.Properties with
  | none => { s with feats := s.feats ++ [⟨f, none⟩] }
  | some m => { s with maps := s.maps ++ [m], feats := s.feats ++ [⟨f, some s.maps.length⟩] }

/-- `g := *f`, the caller's copy of a feature: the map is shared -/
def copyFeature (s : Store F) (i : Nat) : Store F :=
  match s.feats[i]? with
  | none => s
  | some c => { s with feats := s.feats ++ [c] }

/-- `SetProperty` (geojson/properties.go:10-15) -/
def setProperty (s : Store F) (i : Nat) (key : String) (value : Val F) : Store F :=
  match s.feats[i]? with
  | none => s
  | some c =>
    match c.props with
    | none => { s with maps := s.maps ++ [setKey key value []], feats := s.feats.set i { c with props := some s.maps.length } }
    | some p => { s with maps := s.maps.modify p (setKey key value) }

/-- `NewFeatureCollection` (geojson/feature_collection.go:21-26) -/
def newCollection (s : Store F) : Store F :=
  { s with colls := s.colls ++ [⟨"FeatureCollection", [], some Slice.nil, []⟩] }

/-- `d := *c`, the caller's copy of a collection: the backing array is shared -/
def copyCollection (s : Store F) (c : Nat) : Store F :=
  match s.colls[c]? with
  | none => s
  | some d => { s with colls := s.colls ++ [d] }

/-- `AddFeature` (geojson/feature_collection.go:29-32) -/
def addFeature (grow : Nat → Nat → Nat) (s : Store F) (c : Nat) (feature : Option Nat) : Store F :=
  match s.colls[c]? with
  | none => s
  | some d =>
    let (m, t) := s.mem.append grow (d.Features.getD Slice.nil) [feature]
    { s with mem := m, colls := s.colls.set c { d with Features := some t } }

end Store
end GoGeo.GeoJson
