import Verif.Geo.Cells
import Verif.Spec.Box
import Verif.Spec.Measure

/-!
# What is assumed of the geohash and S2 libraries

Nothing here mentions the wrappers; positions are `lat, lng`, as in the libraries.
-/

namespace GoGeo.Spec
open GoFloat
variable {F : Type} [GoFloat F]

/-- a position in degrees, `-90 ≤ lat < 90` and `-180 ≤ lng < 180` -/
def OnGlobe (lat lng : F) : Prop :=
  Le (-lit 90) lat ∧ lt lat (lit 90) = true ∧ Le (-lit 180) lng ∧ lt lng (lit 180) = true

/-- the documented behaviour of package `geohash`, for codes of at most twelve characters -/
structure GeohashOk (lib : GeohashLib F) : Prop where
  /-- the code has the length asked for -/
  length : ∀ lat lng n, OnGlobe lat lng → n ≤ 12 → (lib.EncodeWithPrecision lat lng n).length = n
  /-- a position lies in the box of its code -/
  box : ∀ lat lng n, OnGlobe lat lng → n ≤ 12 →
    let b := lib.BoundingBox (lib.EncodeWithPrecision lat lng n)
    Le b.MinLat lat ∧ Le lat b.MaxLat ∧ Le b.MinLng lng ∧ Le lng b.MaxLng
  /-- the centre of a code lies in its box -/
  center : ∀ lat lng n, OnGlobe lat lng → n ≤ 12 →
    let h := lib.EncodeWithPrecision lat lng n
    let b := lib.BoundingBox h
    let c := lib.DecodeCenter h
    Le b.MinLat c.1 ∧ Le c.1 b.MaxLat ∧ Le b.MinLng c.2 ∧ Le c.2 b.MaxLng
  /-- the code of the centre of a code is that code -/
  recode : ∀ lat lng n, OnGlobe lat lng → n ≤ 12 →
    let h := lib.EncodeWithPrecision lat lng n
    let c := lib.DecodeCenter h
    lib.EncodeWithPrecision c.1 c.2 n = h
  /-- the eight neighbours, from north clockwise: the codes of the centre moved by the size of the box -/
  neighbors : ∀ h : String,
    let b := lib.BoundingBox h
    let c := lib.DecodeCenter h
    let dlat := b.MaxLat - b.MinLat
    let dlng := b.MaxLng - b.MinLng
    lib.Neighbors h =
      [lib.EncodeWithPrecision (c.1 + dlat) c.2 h.length,
       lib.EncodeWithPrecision (c.1 + dlat) (c.2 + dlng) h.length,
       lib.EncodeWithPrecision c.1 (c.2 + dlng) h.length,
       lib.EncodeWithPrecision (c.1 - dlat) (c.2 + dlng) h.length,
       lib.EncodeWithPrecision (c.1 - dlat) c.2 h.length,
       lib.EncodeWithPrecision (c.1 - dlat) (c.2 - dlng) h.length,
       lib.EncodeWithPrecision c.1 (c.2 - dlng) h.length,
       lib.EncodeWithPrecision (c.1 + dlat) (c.2 - dlng) h.length]

variable {LL P : Type}

/-- what is assumed of package `s2`: the centre of a cell, read off in degrees and looked up again at the
level of the cell, is in the cell; the centre is on the globe; a parent has the level asked for and parents
of parents are parents; cells have four corners -/
structure S2Ok (lib : S2Lib F LL P) (isCell : Nat → Prop) : Prop where
  cell : ∀ lat lng level, OnGlobe lat lng → 0 ≤ level → level ≤ 30 →
    isCell (lib.Parent (lib.CellIDFromLatLng (lib.LatLngFromDegrees lat lng)) level) ∧
    lib.Level (lib.Parent (lib.CellIDFromLatLng (lib.LatLngFromDegrees lat lng)) level) = level
  center : ∀ id, isCell id →
    lib.Parent (lib.CellIDFromLatLng (lib.LatLngFromDegrees (lib.latDegrees (lib.LatLng id)) (lib.lngDegrees (lib.LatLng id))))
      (lib.Level id) = id
  corners : ∀ id, isCell id → (lib.cellVertices id).length = 4
  nonzero : ∀ id, isCell id → id ≠ 0

/-- the library's point for a position -/
def s2Point (lib : S2Lib F LL P) (lat lng : F) : P := lib.PointFromLatLng (lib.LatLngFromDegrees lat lng)

end GoGeo.Spec
