import Verif.Go.Trig

/-!
# lonlat.go

Constant expressions are evaluated exactly and rounded once, as in Go: `1 - OFFSET` is `dec 99330657837703405677 20`.
-/

namespace GoGeo.Lonlat
open GoFloat GoSqrt GoMath

section
variable {F : Type} [GoMath F]

/-- `X_PI` (lonlat.go:12) -/
def X_PI : F := piFrac 3000 180
/-- `OFFSET` (lonlat.go:13) -/
def OFFSET : F := dec 669342162296594323 20
/-- `AXIS` (lonlat.go:14) -/
def AXIS : F := lit 6378245
/-- the constant expression `AXIS * (1 - OFFSET)` (lonlat.go:85) -/
def AXIS1 : F := dec (6378245 * 99330657837703405677) 20

/-- `BD09toGCJ02` (lonlat.go:18-29) -/
def BD09toGCJ02 (lon lat : F) : F × F :=
  let x := lon - dec 65 4
  let y := lat - dec 6 3
  let z := sqrt (x * x + y * y) - dec 2 5 * sin (y * X_PI)
  let theta := atan2 y x - dec 3 6 * cos (x * X_PI)
  (z * cos theta, z * sin theta)

/-- `GCJ02toBD09` (lonlat.go:32-40) -/
def GCJ02toBD09 (lon lat : F) : F × F :=
  let z := sqrt (lon * lon + lat * lat) + dec 2 5 * sin (lat * X_PI)
  let theta := atan2 lat lon + dec 3 6 * cos (lon * X_PI)
  (z * cos theta + dec 65 4, z * sin theta + dec 6 3)

/-- `isOutOFChina` (lonlat.go:110-112) -/
def isOutOFChina (lon lat : F) : Bool :=
  !(gt lon (dec 7366 2) && lt lon (dec 13505 2) && gt lat (dec 386 2) && lt lat (dec 5355 2))

/-- `transformlat` (lonlat.go:94-100) -/
def transformlat (lon lat : F) : F :=
  let ret := -(lit 100) + lit 2 * lon + lit 3 * lat + dec 2 1 * lat * lat + dec 1 1 * lon * lat + dec 2 1 * sqrt (abs lon)
  let ret := ret + (lit 20 * sin (lit 6 * lon * piFrac 1 1) + lit 20 * sin (lit 2 * lon * piFrac 1 1)) * lit 2 / lit 3
  let ret := ret + (lit 20 * sin (lat * piFrac 1 1) + lit 40 * sin (lat / lit 3 * piFrac 1 1)) * lit 2 / lit 3
  ret + (lit 160 * sin (lat / lit 12 * piFrac 1 1) + lit 320 * sin (lat * piFrac 1 1 / lit 30)) * lit 2 / lit 3

/-- `transformlng` (lonlat.go:102-108) -/
def transformlng (lon lat : F) : F :=
  let ret := lit 300 + lon + lit 2 * lat + dec 1 1 * lon * lon + dec 1 1 * lon * lat + dec 1 1 * sqrt (abs lon)
  let ret := ret + (lit 20 * sin (lit 6 * lon * piFrac 1 1) + lit 20 * sin (lit 2 * lon * piFrac 1 1)) * lit 2 / lit 3
  let ret := ret + (lit 20 * sin (lon * piFrac 1 1) + lit 40 * sin (lon / lit 3 * piFrac 1 1)) * lit 2 / lit 3
  ret + (lit 150 * sin (lon / lit 12 * piFrac 1 1) + lit 300 * sin (lon / lit 30 * piFrac 1 1)) * lit 2 / lit 3

/-- `delta` (lonlat.go:76-92) -/
def delta (lon lat : F) : F × F :=
  let dlat := transformlat (lon - lit 105) (lat - lit 35)
  let dlon := transformlng (lon - lit 105) (lat - lit 35)
  let radlat := lat / lit 180 * piFrac 1 1
  let magic := sin radlat
  let magic := lit 1 - OFFSET * magic * magic
  let sqrtmagic := sqrt magic
  let dlat := (dlat * lit 180) / (AXIS1 / (magic * sqrtmagic) * piFrac 1 1)
  let dlon := (dlon * lit 180) / (AXIS / sqrtmagic * cos radlat * piFrac 1 1)
  let mgLat := lat + dlat
  let mgLon := lon + dlon
  (mgLon, mgLat)

/-- `WGS84toGCJ02` (lonlat.go:43-51) -/
def WGS84toGCJ02 (lon lat : F) : F × F :=
  if isOutOFChina lon lat then (lon, lat) else delta lon lat

/-- `GCJ02toWGS84` (lonlat.go:54-62) -/
def GCJ02toWGS84 (lon lat : F) : F × F :=
  if isOutOFChina lon lat then (lon, lat)
  else
    let mg := delta lon lat
    (lon * lit 2 - mg.1, lat * lit 2 - mg.2)

/-- `BD09toWGS84` (lonlat.go:65-68) -/
def BD09toWGS84 (lon lat : F) : F × F :=
  let p := BD09toGCJ02 lon lat
  GCJ02toWGS84 p.1 p.2

/-- `WGS84toBD09` (lonlat.go:71-74) -/
def WGS84toBD09 (lon lat : F) : F × F :=
  let p := WGS84toGCJ02 lon lat
  GCJ02toBD09 p.1 p.2

end
end GoGeo.Lonlat
