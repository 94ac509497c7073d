import Verif.Go.Json
import Verif.Geo.Box

/-!
# Package geojson

`Except String` is a Go result with an error; a JSON text is the tree it stands for, see `Verif.Go.Json`.
-/

namespace GoGeo.GeoJson
open GoFloat Json
variable {F : Type} [GoFloat F]

/-! ### geojson.go -/

/-- `GeoJson` (geojson/geojson.go:11-16); nil and empty `CRS` are not told apart -/
structure Obj (F : Type) where
  Typ : String
  Coordinates : Val F
  Geometries : Val F
  CRS : List (String × Val F)

/-- the zero `GeoJson` -/
def Obj.zero : Obj F := ⟨"", .nil, .nil, []⟩

/-- `ConvertPoi` (geojson/geojson.go:134-136) -/
def ConvertPoi (p : Point F) : Except String (List F) := .ok [p.X, p.Y]

/-- `ConvertPoiZ` (geojson/geojson.go:138-140) -/
def ConvertPoiZ (p : PointZ F) : Except String (List F) := .ok [p.X, p.Y, p.Z]

/-- `ConvertPoiSet` (geojson/geojson.go:143-162) -/
def ConvertPoiSet (g : Geometry F) : Except String (List (List F)) :=
  match g with
  | .lineString pts => mapE ConvertPoi pts
  | .multiPoint pts => mapE ConvertPoi pts
  | _ => .error "could not parsing geometry besides linesting and multipoint"

/-- `ConvertPoiZSet` (geojson/geojson.go:165-184) -/
def ConvertPoiZSet (g : Geometry F) : Except String (List (List F)) :=
  match g with
  | .lineStringZ pts => mapE ConvertPoiZ pts
  | .multiPointZ pts => mapE ConvertPoiZ pts
  | _ => .error "could not parsing geometry besides linesting and multipoint"

/-- `ConvertPathSet` (geojson/geojson.go:187-210) -/
def ConvertPathSet (g : Geometry F) : Except String (List (List (List F))) :=
  match g with
  | .multiLineString lines => mapE (fun line => ConvertPoiSet (.lineString line)) lines
  | .polygon rings => mapE (fun line => ConvertPoiSet (.lineString line)) rings
  | _ => .error "could not parsing geometry besides multilinestring and polygon"

/-- `ConvertPathZSet` (geojson/geojson.go:213-236) -/
def ConvertPathZSet (g : Geometry F) : Except String (List (List (List F))) :=
  match g with
  | .multiLineStringZ lines => mapE (fun line => ConvertPoiZSet (.lineStringZ line)) lines
  | .polygonZ rings => mapE (fun line => ConvertPoiZSet (.lineStringZ line)) rings
  | _ => .error "could not parsing geometry besides multilinestring and polygon"

/-- `ConvertPolygonSet` (geojson/geojson.go:239-258) -/
def ConvertPolygonSet (g : Geometry F) : Except String (List (List (List (List F)))) :=
  match g with
  | .multiPolygon polys => mapE (fun poly => ConvertPathSet (.polygon poly)) polys
  | _ => .error "could not parsing geometry besides multipolygon"

/-- `ConvertPolygonZSet` (geojson/geojson.go:261-280) -/
def ConvertPolygonZSet (g : Geometry F) : Except String (List (List (List (List F)))) :=
  match g with
  | .multiPolygonZ polys => mapE (fun poly => ConvertPathZSet (.polygonZ poly)) polys
  | _ => .error "could not parsing geometry besides multipolygon"

/-- the member `name` unless the interface value is nil (`omitempty`) -/
def optAny (name : String) (v : Val F) : Except String (List (String × Json F)) :=
  match v with
  | .nil => .ok []
  | v => do return [(name, ← marshal v)]

/-- the member `name` unless the map is empty (`omitempty`) -/
def optMap (name : String) (m : List (String × Val F)) : Except String (List (String × Json F)) :=
  match m with
  | [] => .ok []
  | m => do return [(name, .obj (← marshalMembers m))]

/-- the member `name` unless the slice is empty (`omitempty`) -/
def optNums (name : String) (l : List F) : Except String (List (String × Json F)) :=
  match l with
  | [] => .ok []
  | l => do return [(name, ← nums1 l)]

/-- `json.Marshal` of a `GeoJson` (struct tags at geojson/geojson.go:11-16) -/
def Obj.marshal (o : Obj F) : Except String (Json F) := do
  let c ← optAny "coordinates" o.Coordinates
  let g ← optAny "geometries" o.Geometries
  let crs ← optMap "crs" o.CRS
  return .obj (("type", .str o.Typ) :: (c ++ g ++ crs))

/-- the `GeoJson` that `MarshalGeo` builds (geojson/geojson.go:19-96) -/
def build (geom : Geometry F) : Except String (Obj F) :=
  match geom with
  | .point p => do return ⟨"Point", .nums (← ConvertPoi p), .nil, []⟩
  | .pointZ p => do return ⟨"Point", .nums (← ConvertPoiZ p), .nil, []⟩
  | .multiPoint _ => do return ⟨"MultiPoint", .nums2 (← ConvertPoiSet geom), .nil, []⟩
  | .multiPointZ _ => do return ⟨"MultiPoint", .nums2 (← ConvertPoiZSet geom), .nil, []⟩
  | .lineString _ => do return ⟨"LineString", .nums2 (← ConvertPoiSet geom), .nil, []⟩
  | .lineStringZ _ => do return ⟨"LineString", .nums2 (← ConvertPoiZSet geom), .nil, []⟩
  | .multiLineString _ => do return ⟨"MultiLineString", .nums3 (← ConvertPathSet geom), .nil, []⟩
  | .multiLineStringZ _ => do return ⟨"MultiLineString", .nums3 (← ConvertPathZSet geom), .nil, []⟩
  | .polygon _ => do return ⟨"Polygon", .nums3 (← ConvertPathSet geom), .nil, []⟩
  | .polygonZ _ => do return ⟨"Polygon", .nums3 (← ConvertPathSet geom), .nil, []⟩
  | .multiPolygon _ => do return ⟨"MultiPolygon", .nums4 (← ConvertPolygonSet geom), .nil, []⟩
  | .multiPolygonZ _ => do return ⟨"MultiPolygon", .nums4 (← ConvertPolygonZSet geom), .nil, []⟩
  | _ => .error "no such type"

/-- `MarshalGeo` (geojson/geojson.go:18-98) -/
def MarshalGeo (geom : Geometry F) : Except String (Json F) := do
  let geoj ← build geom
  geoj.marshal

/-- `interface2D` (geojson/geojson.go:355-357) -/
def interface2D (data : Val F) : Go (List (Val F)) :=
  match data with
  | .slice l => .ok l
  | _ => .error .typeAssert

/-- `vI[i].(float64)` -/
def coord (vI : List (Val F)) (i : Nat) : Go F :=
  match vI[i]? with
  | none => .error .index
  | some (.float x) => .ok x
  | some _ => .error .typeAssert

/-- `inter2Point` (geojson/geojson.go:359-365) -/
def inter2Point (data : Val F) : Go (Point F) := do
  let vI ← interface2D data
  let x ← coord vI 0
  let y ← coord vI 1
  return ⟨x, y⟩

/-- `inter2PointZ` (geojson/geojson.go:367-374) -/
def inter2PointZ (data : Val F) : Go (PointZ F) := do
  let vI ← interface2D data
  let x ← coord vI 0
  let y ← coord vI 1
  let z ← coord vI 2
  return ⟨x, y, z⟩

/-- `for _, v := range l { out = append(out, f(v)) }` -/
def eachV {β : Type} (f : Val F → Go β) : List (Val F) → Go (List β)
  | [] => .ok []
  | v :: vs => do
    let b ← f v
    let bs ← eachV f vs
    return b :: bs

/-- `inter2LineString` and `inter2LinearRing` (geojson/geojson.go:376-383, 394-401) -/
def inter2LineString (data : Val F) : Go (List (Point F)) := do eachV inter2Point (← interface2D data)

/-- `inter2LineStringZ` and `inter2LinearRingZ` (geojson/geojson.go:385-392, 403-410) -/
def inter2LineStringZ (data : Val F) : Go (List (PointZ F)) := do eachV inter2PointZ (← interface2D data)

/-- `inter2Polygon` (geojson/geojson.go:412-419) -/
def inter2Polygon (data : Val F) : Go (List (List (Point F))) := do eachV inter2LineString (← interface2D data)

/-- `inter2PolygonZ` (geojson/geojson.go:421-428) -/
def inter2PolygonZ (data : Val F) : Go (List (List (PointZ F))) := do eachV inter2LineStringZ (← interface2D data)

/-- `isInterPointZ` (geojson/geojson.go:431-437) -/
def isInterPointZ (data : Val F) : Go Bool := do
  let vI ← interface2D data
  return vI.length == 3

/-- a loop that returns true at the first element for which `f` does -/
def anyV (f : Val F → Go Bool) : List (Val F) → Go Bool
  | [] => .ok false
  | v :: vs => do
    let b ← f v
    if b then return true else anyV f vs

/-- `isInterLineZ` (geojson/geojson.go:440-448) -/
def isInterLineZ (data : Val F) : Go Bool := do anyV isInterPointZ (← interface2D data)

/-- `isInterPolygonZ` (geojson/geojson.go:451-461) -/
def isInterPolygonZ (data : Val F) : Go Bool := do anyV isInterLineZ (← interface2D data)

/-- `UnmarshalGeo` (geojson/geojson.go:100-128); `none` is the nil pointer -/
def UnmarshalGeo (gjson : Option (Obj F)) : Go (Except String (Geometry F)) :=
  match gjson with
  | none => .error .nilDeref
  | some o =>
    if o.Typ = "Point" then do
      if ← isInterPointZ o.Coordinates then return .ok (.pointZ (← inter2PointZ o.Coordinates))
      else return .ok (.point (← inter2Point o.Coordinates))
    else if o.Typ = "MultiPoint" then .ok (.error "Not Support MultiPoint (TODO)")
    else if o.Typ = "LineString" then do
      if ← isInterLineZ o.Coordinates then return .ok (.lineStringZ (← inter2LineStringZ o.Coordinates))
      else return .ok (.lineString (← inter2LineString o.Coordinates))
    else if o.Typ = "MultiLineString" then .ok (.error "Not Support MultiLineString (TODO)")
    else if o.Typ = "Polygon" then do
      if ← isInterPolygonZ o.Coordinates then return .ok (.polygonZ (← inter2PolygonZ o.Coordinates))
      else return .ok (.polygon (← inter2Polygon o.Coordinates))
    else if o.Typ = "MultiPolygon" then .ok (.error "Not Support MultiPolygon (TODO)")
    else .ok (.ok .nil)

/-- the value of a field of a `GeoJson` -/
def Obj.set (o : Obj F) (k : String) (j : Json F) : Except String (Obj F) :=
  if k = "type" then do return { o with Typ := ← toStr o.Typ j }
  else if k = "coordinates" then .ok { o with Coordinates := decode j }
  else if k = "geometries" then .ok { o with Geometries := decode j }
  else if k = "crs" then do return { o with CRS := (← toMap (some o.CRS) j).getD [] }
  else .ok o

/-- the names of the fields of a `GeoJson` (geojson/geojson.go:11-16) -/
def objFields : List String := ["type", "coordinates", "geometries", "crs"]

/-- one member of a document read into a `GeoJson` -/
def Obj.member (o : Obj F) (k : String) (j : Json F) : Except String (Obj F) :=
  match fieldOf objFields k with
  | some n => o.set n j
  | none => .ok o

/-- the members of a document read into a struct, one by one -/
def members {σ : Type} (f : σ → String → Json F → Except String σ) : σ → List (String × Json F) → Except String σ
  | s, [] => .ok s
  | s, (k, j) :: m => do members f (← f s k j) m

/-- `json.Unmarshal` into a `GeoJson` -/
def Obj.unmarshal (o : Obj F) (j : Json F) : Except String (Obj F) :=
  match j with
  | .null => .ok o
  | .obj m => members Obj.member o m
  | _ => .error "json: cannot unmarshal into Go value of type geojson.GeoJson"

/-! ### feature.go -/

/-- `Feature` (geojson/feature.go:9-17); nil and empty `BoundingBox` and `CRS` are not told apart -/
structure Feature (F : Type) where
  ID : Val F
  Typ : String
  BoundingBox : List F
  GeometryJson : Option (Obj F)
  Properties : Option (List (String × Val F))
  CRS : List (String × Val F)
  Geometry : Geometry F

/-- the zero `Feature` -/
def Feature.zero : Feature F := ⟨.nil, "", [], none, none, [], .nil⟩

/-- `NewFeature` (geojson/feature.go:20-30): an error of `MarshalGeo` leaves the zero `GeoJson` -/
def NewFeature (geometry : Geometry F) : Feature F :=
  let geoj := match MarshalGeo geometry with
    | .ok j => match Obj.zero.unmarshal j with
      | .ok o => o
      | .error _ => Obj.zero
    | .error _ => Obj.zero
  ⟨.nil, "Feature", [], some geoj, some [], [], geometry⟩

/-- `SetBoundingBox` (geojson/feature.go:32-35): the caller's feature after the call; the assignment is to the copy -/
def SetBoundingBox (f : Feature F) : Feature F :=
  let box := GoGeo.BoundingBox f.Geometry
  let _copy := { f with BoundingBox := [box.MinX, box.MinY, box.MaxX, box.MaxY] }
  f

/-- a pointer to a `GeoJson`: nil is printed as null -/
def ptrMarshal (o : Option (Obj F)) : Except String (Json F) :=
  match o with
  | none => .ok .null
  | some o => o.marshal

/-- a map without `omitempty`: nil is printed as null -/
def mapMarshal (m : Option (List (String × Val F))) : Except String (Json F) :=
  match m with
  | none => .ok .null
  | some m => do return .obj (← marshalMembers m)

/-- `json.Marshal` of the struct `feature` (struct tags at geojson/feature.go:9-17) -/
def Feature.print (f : Feature F) : Except String (Json F) := do
  let id ← optAny "id" f.ID
  let bbox ← optNums "bbox" f.BoundingBox
  let g ← ptrMarshal f.GeometryJson
  let p ← mapMarshal f.Properties
  let crs ← optMap "crs" f.CRS
  return .obj (id ++ [("type", .str f.Typ)] ++ bbox ++ [("geometry", g), ("properties", p)] ++ crs)

/-- `Feature.MarshalJSON` (geojson/feature.go:40-59) -/
def Feature.MarshalJSON (f : Feature F) : Except String (Json F) :=
  let fea : Feature F := { Feature.zero with ID := f.ID, Typ := "Feature", GeometryJson := f.GeometryJson }
  let fea := if f.BoundingBox ≠ [] then { fea with BoundingBox := f.BoundingBox } else fea
  let fea := match f.Properties with
    | some (p :: ps) => { fea with Properties := some (p :: ps) }
    | _ => fea
  let fea := match f.CRS with
    | c :: cs => { fea with CRS := c :: cs }
    | [] => fea
  fea.print

/-- the value of a field of a `Feature` -/
def Feature.set (f : Feature F) (k : String) (j : Json F) : Except String (Feature F) :=
  if k = "id" then .ok { f with ID := decode j }
  else if k = "type" then do return { f with Typ := ← toStr f.Typ j }
  else if k = "bbox" then do return { f with BoundingBox := ← toNums j }
  else if k = "geometry" then
    match j with
    | .null => .ok { f with GeometryJson := none }
    | j => do return { f with GeometryJson := some (← (f.GeometryJson.getD Obj.zero).unmarshal j) }
  else if k = "properties" then do return { f with Properties := ← toMap f.Properties j }
  else if k = "crs" then do return { f with CRS := (← toMap (some f.CRS) j).getD [] }
  else .ok f

/-- the names of the fields of a `Feature` (geojson/feature.go:9-17) -/
def featureFields : List String := ["id", "type", "bbox", "geometry", "properties", "crs"]

/-- one member of a document read into a `Feature` -/
def Feature.member (f : Feature F) (k : String) (j : Json F) : Except String (Feature F) :=
  match fieldOf featureFields k with
  | some n => f.set n j
  | none => .ok f

/-- `json.Unmarshal` into a `Feature` -/
def Feature.unmarshal (f : Feature F) (j : Json F) : Except String (Feature F) :=
  match j with
  | .null => .ok f
  | .obj m => members Feature.member f m
  | _ => .error "json: cannot unmarshal into Go value of type geojson.Feature"

/-- `UnmarshalFeature` (geojson/feature.go:63-71) -/
def UnmarshalFeature (j : Json F) : Except String (Feature F) := Feature.zero.unmarshal j

/-! ### properties.go

Receivers are non-nil. -/

/-- `f.Properties[key]`: nil when absent -/
def Feature.prop (f : Feature F) (key : String) : Val F :=
  match f.Properties with
  | none => .nil
  | some m => (m.lookup key).getD .nil

/-- `SetProperty` (geojson/properties.go:10-15) -/
def SetProperty (f : Feature F) (key : String) (value : Val F) : Feature F :=
  { f with Properties := some (setKey key value (f.Properties.getD [])) }

/-- `PropertyBool` (geojson/properties.go:18-23) -/
def PropertyBool (f : Feature F) (key : String) : Except String Bool :=
  match f.prop key with
  | .bool b => .ok b
  | _ => .error ("type assertion of `" ++ key ++ "` to bool failed")

/-- `PropertyInt` (geojson/properties.go:26-36); `toInt` is Go's conversion `int(x)` -/
def PropertyInt (toInt : F → Int) (f : Feature F) (key : String) : Except String Int :=
  match f.prop key with
  | .int i => .ok i
  | .float x => .ok (toInt x)
  | _ => .error "type assertion of `%s` to int failed"

/-- `PropertyFloat64` (geojson/properties.go:39-44) -/
def PropertyFloat64 (f : Feature F) (key : String) : Except String F :=
  match f.prop key with
  | .float x => .ok x
  | _ => .error ("type assertion of `" ++ key ++ "` to float64 failed")

/-- `PropertyString` (geojson/properties.go:47-52) -/
def PropertyString (f : Feature F) (key : String) : Except String String :=
  match f.prop key with
  | .str s => .ok s
  | _ => .error ("type assertion of `" ++ key ++ "` to string failed")

/-- the value, or the first default, or the zero value (the bodies of the four functions below) -/
def must {α : Type} (zero : α) (r : Except String α) (defs : List α) : α :=
  match r with
  | .ok b => b
  | .error _ =>
    match defs with
    | [] => zero
    | d :: _ => d

/-- `PropertyMustBool` (geojson/properties.go:58-71) -/
def PropertyMustBool (f : Feature F) (key : String) (defs : List Bool) : Bool := must false (PropertyBool f key) defs

/-- `PropertyMustInt` (geojson/properties.go:77-90) -/
def PropertyMustInt (toInt : F → Int) (f : Feature F) (key : String) (defs : List Int) : Int := must 0 (PropertyInt toInt f key) defs

/-- `PropertyMustFloat64` (geojson/properties.go:96-109) -/
def PropertyMustFloat64 (f : Feature F) (key : String) (defs : List F) : F := must (lit 0) (PropertyFloat64 f key) defs

/-- `PropertyMustString` (geojson/properties.go:115-128) -/
def PropertyMustString (f : Feature F) (key : String) (defs : List String) : String := must "" (PropertyString f key) defs

/-! ### feature_collection.go -/

/-- `FeatureCollection` (geojson/feature_collection.go:13-18); `Features` is nil or a slice of pointers, of which nil ones are `none` -/
structure FeatureCollection (F : Type) where
  Typ : String
  BoundingBox : List F
  Features : Option (List (Option (Feature F)))
  CRS : List (String × Val F)

/-- `NewFeatureCollection` (geojson/feature_collection.go:21-26) -/
def NewFeatureCollection : FeatureCollection F := ⟨"FeatureCollection", [], some [], []⟩

/-- `AddFeature` (geojson/feature_collection.go:29-32).  Simplification: a feature is stored as it is now; see
`Verif/GeoJson/Share.lean` for the pointers -/
def AddFeature (fc : FeatureCollection F) (feature : Option (Feature F)) : FeatureCollection F :=
  { fc with Features := some (fc.Features.getD [] ++ [feature]) }

/-- a pointer to a `Feature`: nil is printed as null -/
def featMarshal (f : Option (Feature F)) : Except String (Json F) :=
  match f with
  | none => .ok .null
  | some f => f.MarshalJSON

/-- `json.Marshal` of the struct `featureCollection` (struct tags at geojson/feature_collection.go:13-18) -/
def FeatureCollection.print (fc : FeatureCollection F) : Except String (Json F) := do
  let bbox ← optNums "bbox" fc.BoundingBox
  let fs ← (match fc.Features with
    | none => .ok .null
    | some l => do return .arr (← mapE featMarshal l) : Except String (Json F))
  let crs ← optMap "crs" fc.CRS
  return .obj ([("type", .str fc.Typ)] ++ bbox ++ [("features", fs)] ++ crs)

/-- `FeatureCollection.MarshalJSON` (geojson/feature_collection.go:37-58) -/
def FeatureCollection.MarshalJSON (fc : FeatureCollection F) : Except String (Json F) :=
  let fcol : FeatureCollection F := ⟨"FeatureCollection", [], none, []⟩
  let fcol := if fc.BoundingBox ≠ [] then { fcol with BoundingBox := fc.BoundingBox } else fcol
  let fcol := { fcol with Features := fc.Features }
  let fcol := match fcol.Features with
    | none => { fcol with Features := some [] }
    | some _ => fcol
  let fcol := match fc.CRS with
    | c :: cs => { fcol with CRS := c :: cs }
    | [] => fcol
  fcol.print

/-- an element of `features` -/
def toFeature : Json F → Except String (Option (Feature F))
  | .null => .ok none
  | j => do return some (← Feature.zero.unmarshal j)

/-- the value of a field of a `FeatureCollection` -/
def FeatureCollection.set (fc : FeatureCollection F) (k : String) (j : Json F) : Except String (FeatureCollection F) :=
  if k = "type" then do return { fc with Typ := ← toStr fc.Typ j }
  else if k = "bbox" then do return { fc with BoundingBox := ← toNums j }
  else if k = "features" then
    match j with
    | .null => .ok { fc with Features := none }
    | .arr l => do return { fc with Features := some (← mapE toFeature l) }
    | _ => .error "json: cannot unmarshal into Go value of type []*geojson.Feature"
  else if k = "crs" then do return { fc with CRS := (← toMap (some fc.CRS) j).getD [] }
  else .ok fc

/-- the names of the fields of a `FeatureCollection` (geojson/feature_collection.go:13-18) -/
def collectionFields : List String := ["type", "bbox", "features", "crs"]

/-- one member of a document read into a `FeatureCollection` -/
def FeatureCollection.member (fc : FeatureCollection F) (k : String) (j : Json F) : Except String (FeatureCollection F) :=
  match fieldOf collectionFields k with
  | some n => fc.set n j
  | none => .ok fc

/-- `UnmarshalFeatureCollection` (geojson/feature_collection.go:62-70) -/
def UnmarshalFeatureCollection (j : Json F) : Except String (FeatureCollection F) :=
  match j with
  | .null => .ok ⟨"", [], none, []⟩
  | .obj m => members FeatureCollection.member ⟨"", [], none, []⟩ m
  | _ => .error "json: cannot unmarshal into Go value of type geojson.FeatureCollection"

end GoGeo.GeoJson
