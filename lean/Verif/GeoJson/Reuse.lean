import Verif.GeoJson.Model

/-!
# Package geojson: reading with the old elements of slices

encoding/json reads an array into the backing array that the field already has, so a repeated member finds the elements of the earlier one.
`Verif/GeoJson/Model.lean` reads every array into a new slice; here the cells are kept.
-/

namespace GoGeo.GeoJson.Reuse
open GoFloat Json
variable {F : Type} [GoFloat F]

/-- a slice: the cells of its backing array from its first element on, and how many of them belong to it -/
structure Buf (α : Type) where
  cells : List α
  len : Nat

/-- the nil slice -/
def Buf.nil {α : Type} : Buf α := ⟨[], 0⟩

/-- the elements of a slice -/
def Buf.elems {α : Type} (b : Buf α) : List α := b.cells.take b.len

/-- room for element `i`: `newcap := v.Cap() + v.Cap()/2`, at least four (encoding/json/decode.go `array`) -/
def Buf.grow {α : Type} (zero : α) (b : Buf α) (i : Nat) : List α :=
  if b.cells.length ≤ i then b.elems ++ List.replicate (max 4 (b.cells.length + b.cells.length / 2) - b.len) zero else b.cells

/-- the elements of an array from number `i` on, read into a slice (encoding/json/decode.go `array`): every element is read into its old cell -/
def readFrom {α : Type} (zero : α) (dec : α → Json F → Except String α) : List (Json F) → Nat → Buf α → Except String (Buf α)
  | [], i, b => .ok (if i = 0 then .nil else ⟨b.cells, i⟩)
  | j :: js, i, b =>
    let cells := b.grow zero i
    do
      let x ← dec (cells.getD i zero) j
      readFrom zero dec js (i + 1) ⟨cells.set i x, max b.len (i + 1)⟩

/-- `json.Unmarshal` into a `float64`: null leaves it alone -/
def numInto (old : F) : Json F → Except String F
  | .null => .ok old
  | .num x => .ok x
  | _ => .error "json: cannot unmarshal into Go value of type float64"

/-- `json.Unmarshal` into a `[]float64` -/
def numsInto (b : Buf F) : Json F → Except String (Buf F)
  | .null => .ok .nil
  | .arr l => readFrom (lit 0) numInto l 0 b
  | _ => .error "json: cannot unmarshal into Go value of type []float64"

/-- a `Feature` (geojson/feature.go:9-17) with the slice of its `BoundingBox` -/
structure Feat (F : Type) where
  f : Feature F
  bbox : Buf F

/-- the zero `Feature` -/
def Feat.zero : Feat F := ⟨Feature.zero, .nil⟩

/-- the value of a field of a `Feature` -/
def Feat.set (s : Feat F) (k : String) (j : Json F) : Except String (Feat F) :=
  if k = "bbox" then do
    let b ← numsInto s.bbox j
    return ⟨{ s.f with BoundingBox := b.elems }, b⟩
  else do return ⟨← s.f.set k j, s.bbox⟩

/-- one member of a document read into a `Feature` -/
def Feat.member (s : Feat F) (k : String) (j : Json F) : Except String (Feat F) :=
  match fieldOf featureFields k with
  | some n => s.set n j
  | none => .ok s

/-- `json.Unmarshal` into a `Feature` -/
def Feat.unmarshal (s : Feat F) (j : Json F) : Except String (Feat F) :=
  match j with
  | .null => .ok s
  | .obj m => members Feat.member s m
  | _ => .error "json: cannot unmarshal into Go value of type geojson.Feature"

/-- `UnmarshalFeature` (geojson/feature.go:63-71) -/
def UnmarshalFeature (j : Json F) : Except String (Feature F) := do
  let s ← Feat.zero.unmarshal j
  return s.f

/-- `json.Unmarshal` into a `*Feature`: an object is read into the feature the pointer already points to, if any -/
def featInto (old : Option (Feat F)) : Json F → Except String (Option (Feat F))
  | .null => .ok none
  | j => do return some (← (old.getD Feat.zero).unmarshal j)

/-- a `FeatureCollection` (geojson/feature_collection.go:13-18) with its two slices -/
structure Coll (F : Type) where
  fc : FeatureCollection F
  bbox : Buf F
  features : Buf (Option (Feat F))

/-- the zero `FeatureCollection` -/
def Coll.zero : Coll F := ⟨⟨"", [], none, []⟩, .nil, .nil⟩

/-- the value of a field of a `FeatureCollection` -/
def Coll.set (s : Coll F) (k : String) (j : Json F) : Except String (Coll F) :=
  if k = "bbox" then do
    let b ← numsInto s.bbox j
    return { s with fc := { s.fc with BoundingBox := b.elems }, bbox := b }
  else if k = "features" then
    match j with
    | .null => .ok { s with fc := { s.fc with Features := none }, features := .nil }
    | .arr l => do
      let b ← readFrom none featInto l 0 s.features
      return { s with fc := { s.fc with Features := some (b.elems.map fun p => p.map Feat.f) }, features := b }
    | _ => .error "json: cannot unmarshal into Go value of type []*geojson.Feature"
  else do return { s with fc := ← s.fc.set k j }

/-- one member of a document read into a `FeatureCollection` -/
def Coll.member (s : Coll F) (k : String) (j : Json F) : Except String (Coll F) :=
  match fieldOf collectionFields k with
  | some n => s.set n j
  | none => .ok s

/-- `UnmarshalFeatureCollection` (geojson/feature_collection.go:62-70) -/
def UnmarshalFeatureCollection (j : Json F) : Except String (FeatureCollection F) :=
  match j with
  | .null => .ok Coll.zero.fc
  | .obj m => do
    let s ← members Coll.member Coll.zero m
    return s.fc
  | _ => .error "json: cannot unmarshal into Go value of type geojson.FeatureCollection"

end GoGeo.GeoJson.Reuse
