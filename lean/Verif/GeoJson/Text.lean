import Verif.GeoJson.Lemmas
import Verif.Go.JsonText

/-!
# Package geojson with the text of the documents

`Verif.GeoJson.Model` gives the documents as trees; here the text that `json.Marshal` writes and `json.Unmarshal` reads is put
around it (`Verif.Go.JsonText`), for `float64`.
-/

namespace GoGeo.GeoJson
open Json JsonText

/-- the bytes of a document that was built without an error (`json.Marshal`) -/
def text (r : Except String (Json Float)) : Except String (List Char) :=
  match r with
  | .error e => .error e
  | .ok j => .ok (enc encFloat j)

mutual
/-- the numbers of a document, which are converted when it is stored (encoding/json/decode.go `literalStore`, `convertNumber`); `none` is a
number out of range -/
def conv : Json (List Char) → Option (Json Float)
  | .null => some .null
  | .bool b => some (.bool b)
  | .num t => (Strconv.parseFloat t).map .num
  | .str s => some (.str s)
  | .arr l => (convList l).map .arr
  | .obj m => (convMembers m).map .obj
def convList : List (Json (List Char)) → Option (List (Json Float))
  | [] => some []
  | j :: js => (conv j).bind fun k => (convList js).map fun ks => k :: ks
def convMembers : List (String × Json (List Char)) → Option (List (String × Json Float))
  | [] => some []
  | (n, j) :: js => (conv j).bind fun k => (convMembers js).map fun ks => (n, k) :: ks
end

/-- the members of an object read into a struct: a member without a field is passed over, its numbers are not looked at
(encoding/json/decode.go `object`) -/
def convFields (fields : List String) (g : String → Json (List Char) → Option (Json Float)) :
    List (String × Json (List Char)) → Option (List (String × Json Float))
  | [] => some []
  | (k, j) :: m =>
    match fieldOf fields k with
    | none => convFields fields g m
    | some n => (g n j).bind fun j' => (convFields fields g m).map fun m' => (k, j') :: m'

/-- the numbers of a document that are looked at when it is read into a `GeoJson` -/
def convObj : Json (List Char) → Option (Json Float)
  | .obj m => (convFields objFields (fun _ => conv) m).map .obj
  | j => conv j

/-- the numbers of a document that are looked at when it is read into a `Feature` -/
def convFeature : Json (List Char) → Option (Json Float)
  | .obj m => (convFields featureFields (fun n => if n = "geometry" then convObj else conv) m).map .obj
  | j => conv j

/-- the elements of `features` -/
def convFeatures : List (Json (List Char)) → Option (List (Json Float))
  | [] => some []
  | j :: js => (convFeature j).bind fun k => (convFeatures js).map fun ks => k :: ks

/-- the member `features` -/
def convArr : Json (List Char) → Option (Json Float)
  | .arr l => (convFeatures l).map .arr
  | j => conv j

/-- the numbers of a document that are looked at when it is read into a `FeatureCollection` -/
def convCollection : Json (List Char) → Option (Json Float)
  | .obj m => (convFields collectionFields (fun n => if n = "features" then convArr else conv) m).map .obj
  | j => conv j

/-- `json.Unmarshal(data, v)`: the syntax of the whole text is checked first; then the numbers are converted (`cv`) and the document is stored
into `v` (`f`) -/
def ofText {α : Type} (cv : Json (List Char) → Option (Json Float)) (f : Json Float → Except String α) (data : List Char) : Except String α :=
  match JsonText.read some data with
  | none => .error "json: syntax error"
  | some t =>
    match cv t with
    | none => .error "json: cannot unmarshal number into Go value of type float64"
    | some j => f j

/-- `MarshalGeo` (geojson/geojson.go:18-98) -/
def MarshalGeoText (geom : Geometry Float) : Except String (List Char) := text (MarshalGeo geom)

/-- `json.Unmarshal` into a `GeoJson` (as in geojson/feature.go:20-30) -/
def UnmarshalObjText (data : List Char) : Except String (Obj Float) := ofText convObj Obj.zero.unmarshal data

/-- `NewFeature` (geojson/feature.go:20-30): the text written by `MarshalGeo` is read into a `GeoJson`; errors leave the zero `GeoJson` -/
def NewFeatureText (geometry : Geometry Float) : Feature Float :=
  let geoj := match MarshalGeoText geometry with
    | .ok t => match UnmarshalObjText t with
      | .ok o => o
      | .error _ => Obj.zero
    | .error _ => Obj.zero
  ⟨.nil, "Feature", [], some geoj, some [], [], geometry⟩

/-- `Feature.MarshalJSON` (geojson/feature.go:40-59) -/
def Feature.MarshalText (f : Feature Float) : Except String (List Char) := text f.MarshalJSON

/-- `UnmarshalFeature` (geojson/feature.go:63-71) -/
def UnmarshalFeatureText (data : List Char) : Except String (Feature Float) := ofText convFeature UnmarshalFeature data

/-- `FeatureCollection.MarshalJSON` (geojson/feature_collection.go:37-58) -/
def FeatureCollection.MarshalText (fc : FeatureCollection Float) : Except String (List Char) := text fc.MarshalJSON

/-- `UnmarshalFeatureCollection` (geojson/feature_collection.go:62-70) -/
def UnmarshalFeatureCollectionText (data : List Char) : Except String (FeatureCollection Float) := ofText convCollection UnmarshalFeatureCollection data

end GoGeo.GeoJson
