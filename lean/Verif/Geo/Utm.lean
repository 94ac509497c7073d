import Verif.Go.Trig
import Verif.Go.IntConv
import Verif.Go.Panic

/-!
# utm.go

Strings are lists of bytes.
-/

namespace GoGeo.Utm
open GoFloat GoSqrt GoMath GoInt

section
variable {F : Type} [GoMath F]

/-! ### constants and package variables (utm.go:10-36, 43)

Go evaluates constant expressions exactly and rounds once: `e * e` is `dec 448147235844 16`, `1 - e/4` is `dec 998326405 9`, and
quotients of integers below 2^53 are single divisions. -/

/-- `k0` (utm.go:11) -/
def k0 : F := dec 9996 4
/-- `e` (utm.go:12) -/
def e : F := dec 669438 8
/-- `r` (utm.go:13) -/
def r : F := lit 6378137
/-- `e2` (utm.go:16) -/
def e2 : F := dec 448147235844 16
/-- `e3` (utm.go:17) -/
def e3 : F := e2 * e
/-- `eP2` (utm.go:18) -/
def eP2 : F := lit 669438 / lit 99330562
/-- `sqrtE` (utm.go:20) -/
def sqrtE : F := sqrt (dec 99330562 8)
/-- `fe` (utm.go:22) -/
def fe : F := (lit 1 - sqrtE) / (lit 1 + sqrtE)
/-- `fe2` (utm.go:23) -/
def fe2 : F := fe * fe
/-- `fe3` (utm.go:24) -/
def fe3 : F := fe2 * fe
/-- `fe4` (utm.go:25) -/
def fe4 : F := fe3 * fe
/-- `fe5` (utm.go:26) -/
def fe5 : F := fe4 * fe
/-- `m1` (utm.go:28) -/
def m1 : F := dec 998326405 9 - lit 3 * e2 / lit 64 - lit 5 * e3 / lit 256
/-- `m2` (utm.go:29) -/
def m2 : F := dec 25103925 10 + lit 3 * e2 / lit 32 + lit 45 * e3 / lit 1024
/-- `m3` (utm.go:30) -/
def m3 : F := lit 15 * e2 / lit 256 + lit 45 * e3 / lit 1024
/-- `m4` (utm.go:31) -/
def m4 : F := lit 35 * e3 / lit 3072
/-- `p2` (utm.go:33) -/
def p2 : F := lit 3 / lit 2 * fe - lit 27 / lit 32 * fe3 + lit 269 / lit 512 * fe5
/-- `p3` (utm.go:34) -/
def p3 : F := lit 21 / lit 16 * fe2 - lit 55 / lit 32 * fe4
/-- `p4` (utm.go:35) -/
def p4 : F := lit 151 / lit 96 * fe3 - lit 417 / lit 128 * fe5
/-- `p5` (utm.go:36) -/
def p5 : F := lit 1097 / lit 512 * fe4

/-- `rad` (utm.go:45) -/
def rad (d : F) : F := d * piFrac 1 180
/-- `deg` (utm.go:46) -/
def deg (r : F) : F := r / piFrac 1 180

end

/-- the bytes of an ASCII string -/
def ascii (s : String) : List Nat := s.toList.map Char.toNat

/-- `zoneLetters` (utm.go:48-70) -/
def zoneLetters : List (Int × String) :=
  [(84, " "), (72, "X"), (64, "W"), (56, "V"), (48, "U"), (40, "T"), (32, "S"), (24, "R"), (16, "Q"), (8, "P"), (0, "N"), (-8, "M"), (-16, "L"),
    (-24, "K"), (-32, "J"), (-40, "H"), (-48, "G"), (-56, "F"), (-64, "E"), (-72, "D"), (-80, "C")]

/-- `zoneNumberToCentralLongitude` (utm.go:272-274) -/
def zoneNumberToCentralLongitude (zoneNumber : Int) : Int := (zoneNumber - 1) * 6 - 180 + 3

/-- `unicode.ToUpper(rune(b))` of a byte, as far as the ASCII range is concerned: the code points from 128 to 255 are mapped to code points
from 128 on, here to themselves -/
def upper (b : Nat) : Nat := if 97 ≤ b ∧ b ≤ 122 then b - 32 else b

section
variable {F : Type} [GoFloat F]

/-- the loop of `latitudeToZoneLetter` (utm.go:244-248) -/
def letterLoop (latitude : F) : List (Int × String) → String
  | [] => " "
  | (zone, letter) :: rest => if ge latitude (ofInt zone) then letter else letterLoop latitude rest

/-- `latitudeToZoneLetter` (utm.go:243-250) -/
def latitudeToZoneLetter (latitude : F) : String := letterLoop latitude zoneLetters

/-- `ValidateLatLone` (utm.go:173-181) -/
def ValidateLatLone (latitude longitude : F) : Option String :=
  if !(le (-(lit 80)) latitude && le latitude (lit 84)) then
    some "latitude out of range (must be between 80 deg S and 84 deg N)"
  else if !(le (-(lit 180)) longitude && le longitude (lit 180)) then
    some "longitude out of range (must be between 180 deg W and 180 deg E)"
  else none

/-- `latLonToZoneNumber` (utm.go:252-270) -/
def latLonToZoneNumber [GoInt F] (latitude longitude : F) : Int :=
  if le (lit 56) latitude && le latitude (lit 64) && le (lit 3) longitude && le longitude (lit 12) then 32
  else if (le (lit 72) latitude && le latitude (lit 84) && ge longitude (lit 0)) && le longitude (lit 9) then 31
  else if (le (lit 72) latitude && le latitude (lit 84) && ge longitude (lit 0)) && le longitude (lit 21) then 33
  else if (le (lit 72) latitude && le latitude (lit 84) && ge longitude (lit 0)) && le longitude (lit 33) then 35
  else if (le (lit 72) latitude && le latitude (lit 84) && ge longitude (lit 0)) && le longitude (lit 42) then 37
  else toInt ((longitude + lit 180) / lit 6) + 1

end

section
variable {F : Type} [GoMath F]

/-- the conversion in `ToLatLon`, after the checks (utm.go:115-166): latitude and longitude -/
def inverse (easting northing : F) (zoneNumber : Int) (northernValue : Bool) : F × F :=
  let x := easting - lit 500000
  let y := northing
  let y := if !northernValue then y - lit 10000000 else y
  let m := y / k0
  let mu := m / (r * m1)
  let pRad := mu + p2 * sin (lit 2 * mu) + p3 * sin (lit 4 * mu) + p4 * sin (lit 6 * mu) + p5 * sin (lit 8 * mu)
  let pSin := sin pRad
  let pSin2 := pSin * pSin
  let pCos := cos pRad
  let pTan := pSin / pCos
  let pTan2 := pTan * pTan
  let pTan4 := pTan2 * pTan2
  let epSin := lit 1 - e * pSin2
  let epSinSqrt := sqrt (lit 1 - e * pSin2)
  let n := r / epSinSqrt
  let rad := dec 99330562 8 / epSin
  let c := fe * pCos * pCos
  let c2 := c * c
  let d := x / (n * k0)
  let d2 := d * d
  let d3 := d2 * d
  let d4 := d3 * d
  let d5 := d4 * d
  let d6 := d5 * d
  let latitude := pRad - (pTan / rad) *
      (d2 / lit 2 - d4 / lit 24 * (lit 5 + lit 3 * pTan2 + lit 10 * c - lit 4 * c2 - lit 9 * eP2)) +
    d6 / lit 720 * (lit 61 + lit 90 * pTan2 + lit 298 * c + lit 45 * pTan4 - lit 252 * eP2 - lit 3 * c2)
  let longitude := (d - d3 / lit 6 * (lit 1 + lit 2 * pTan2 + c) +
    d5 / lit 120 * (lit 5 - lit 2 * c + lit 28 * pTan2 - lit 3 * c2 + lit 8 * eP2 + lit 24 * pTan4)) / pCos
  (deg latitude, deg longitude + ofInt (zoneNumberToCentralLongitude zoneNumber))

/-- `ToLatLon` (utm.go:77-170) -/
def ToLatLon (easting northing : F) (zoneNumber : Int) (zoneLetter : List Nat) (northern : List Bool) : Go (Except String (F × F)) :=
  let northernExist := decide (northern.length > 0)
  let zoneLetterExist := !(zoneLetter == [])
  if !zoneLetterExist && !northernExist then .ok (.error "either ZoneLetter or northern needs to be set")
  else if zoneLetterExist && northernExist then .ok (.error "set either ZoneLetter or northern, but not both")
  else if !(le (lit 100000) easting && lt easting (lit 1000000)) then
    .ok (.error "easting out of range (must be between 100.000 m and 999.999 m")
  else if !(le (lit 0) northing && le northing (lit 10000000)) then
    .ok (.error "northing out of range (must be between 0 m and 10.000.000 m)")
  else if !(1 ≤ zoneNumber && zoneNumber ≤ 60) then .ok (.error "zone number out of range (must be between 1 and 60)")
  else if zoneLetterExist then
    match zoneLetter with
    | [] => .error .index
    | b :: _ =>
      let zoneLetter := upper b
      if !(67 ≤ zoneLetter && zoneLetter ≤ 88) || zoneLetter == 73 || zoneLetter == 79 then
        .ok (.error "zone letter out of range (must be between C and X)")
      else .ok (.ok (inverse easting northing zoneNumber (decide (zoneLetter ≥ 78))))
  else
    match northern with
    | [] => .error .index
    | northernValue :: _ => .ok (.ok (inverse easting northing zoneNumber northernValue))

/-- the results of `FromLatLon` -/
structure Coord (F : Type) where
  easting : F
  northing : F
  zoneNumber : Int
  zoneLetter : String

/-- easting and northing (utm.go:191-197, 212-238) -/
def forward (latitude longitude : F) (zoneNumber : Int) : F × F :=
  let latRad := rad latitude
  let latSin := sin latRad
  let latCos := cos latRad
  let latTan := latSin / latCos
  let latTan2 := latTan * latTan
  let latTan4 := latTan2 * latTan2
  let lonRad := rad longitude
  let centralLon := zoneNumberToCentralLongitude zoneNumber
  let centralLonRad := rad (ofInt centralLon)
  let n := r / sqrt (lit 1 - e * latSin * latSin)
  let c := eP2 * latCos * latCos
  let a := latCos * (lonRad - centralLonRad)
  let a2 := a * a
  let a3 := a2 * a
  let a4 := a3 * a
  let a5 := a4 * a
  let a6 := a5 * a
  let m := r * (m1 * latRad - m2 * sin (lit 2 * latRad) + m3 * sin (lit 4 * latRad) - m4 * sin (lit 6 * latRad))
  let easting := k0 * n * (a + a3 / lit 6 * (lit 1 - latTan2 + c) +
    a5 / lit 120 * (lit 5 - lit 18 * latTan2 + latTan4 + lit 72 * c - lit 58 * eP2)) + lit 500000
  let northing := k0 * (m + n * latTan * (a2 / lit 2 + a4 / lit 24 * (lit 5 - latTan2 + lit 9 * c + lit 4 * c * c) +
    a6 / lit 720 * (lit 61 - lit 58 * latTan2 + latTan4 + lit 600 * c - lit 330 * eP2)))
  let northing := if lt latitude (lit 0) then northing + lit 10000000 else northing
  (easting, northing)

/-- `FromLatLon` (utm.go:184-241) -/
def FromLatLon [GoInt F] (latitude longitude : F) (northern : Bool) : Except String (Coord F) :=
  match ValidateLatLone latitude longitude with
  | some err => .error err
  | none =>
    let zoneNumber := latLonToZoneNumber latitude longitude
    let zoneLetter := latitudeToZoneLetter latitude
    let zoneLetter := if northern then (if gt latitude (lit 0) then "N" else "S") else zoneLetter
    let en := forward latitude longitude zoneNumber
    .ok ⟨en.1, en.2, zoneNumber, zoneLetter⟩

end
end GoGeo.Utm
