import Verif.Geo.UtmTM

/-! # The tables of the UTM round trip -/

namespace GoGeo.Utm
open PB

/-- outside the exceptions: 3.001 degrees from the central meridian at any latitude -/
def parA : Par where
  a := 1 / 2
  X := 27458 / 10 ^ 7
  gB := 13838 / 10 ^ 7
  nk0 := 406 / 10 ^ 10
  ns0 := 41 / 10 ^ 10
  nK := 427 / 10 ^ 10
  nnu := 95 / 10 ^ 10
  nD := 951 / 10 ^ 11
  n2 := 132 / 10 ^ 9
  n3k := 203 / 10 ^ 9
  n4 := 279 / 10 ^ 9
  n6 := 132 / 10 ^ 7
  n3 := 185 / 10 ^ 9
  n5 := 289 / 10 ^ 7
  lon := 68 / 10 ^ 9
  nsg := 87 / 10 ^ 10
  ng := 188 / 10 ^ 11
  mnu := 10001 / 10 ^ 4
  msp := 1003 / 10 ^ 3
  mDp := 1002 / 10 ^ 3
  mK2 := 1003 / 10 ^ 3
  nW := 19 / 10 ^ 8
  nV1 := 2 / 10 ^ 7
  nV2 := 468 / 10 ^ 7
  lat := 33 / 10 ^ 9
  k1 := 15 / 10 ^ 4

set_option maxRecDepth 100000 in
set_option maxHeartbeats 0 in
theorem parA_ok : parA.Ok where
  g := by decide +kernel
  K := by decide +kernel
  nu := by decide +kernel
  D := by decide +kernel
  K2 := by decide +kernel
  K3 := by decide +kernel
  K4 := by decide +kernel
  T1 := by decide +kernel
  D3 := by decide +kernel
  D5 := by decide +kernel
  lon := by decide +kernel
  sg := by decide +kernel
  gg := by decide +kernel
  mnu := by decide +kernel
  msp := by decide +kernel
  mDp := by decide +kernel
  mK2 := by decide +kernel
  W := by decide +kernel
  V1 := by decide +kernel
  V2 := by decide +kernel
  lat := by decide +kernel
  nu1 := by decide +kernel
  K1 := by decide +kernel


/-- the exceptions of Norway and Svalbard: six degrees from the central meridian, north of 56 degrees -/
def parB : Par where
  a := 1565 / 10 ^ 4
  X := 1097 / 10 ^ 5
  gB := 55017 / 10 ^ 7
  nk0 := 43 / 10 ^ 8
  ns0 := 431 / 10 ^ 10
  nK := 45 / 10 ^ 8
  nnu := 23 / 10 ^ 9
  nD := 231 / 10 ^ 10
  n2 := 108 / 10 ^ 8
  n3k := 192 / 10 ^ 8
  n4 := 33 / 10 ^ 7
  n6 := 607 / 10 ^ 7
  n3 := 42 / 10 ^ 8
  n5 := 876 / 10 ^ 7
  lon := 75 / 10 ^ 8
  nsg := 27 / 10 ^ 9
  ng := 221 / 10 ^ 10
  mnu := 10001 / 10 ^ 4
  msp := 1003 / 10 ^ 3
  mDp := 1005 / 10 ^ 3
  mK2 := 1012 / 10 ^ 3
  nW := 13 / 10 ^ 7
  nV1 := 3 / 10 ^ 7
  nV2 := 85 / 10 ^ 6
  lat := 23 / 10 ^ 8
  k1 := 6 / 10 ^ 3

set_option maxRecDepth 100000 in
set_option maxHeartbeats 0 in
theorem parB_ok : parB.Ok where
  g := by decide +kernel
  K := by decide +kernel
  nu := by decide +kernel
  D := by decide +kernel
  K2 := by decide +kernel
  K3 := by decide +kernel
  K4 := by decide +kernel
  T1 := by decide +kernel
  D3 := by decide +kernel
  D5 := by decide +kernel
  lon := by decide +kernel
  sg := by decide +kernel
  gg := by decide +kernel
  mnu := by decide +kernel
  msp := by decide +kernel
  mDp := by decide +kernel
  mK2 := by decide +kernel
  W := by decide +kernel
  V1 := by decide +kernel
  V2 := by decide +kernel
  lat := by decide +kernel
  nu1 := by decide +kernel
  K1 := by decide +kernel


end GoGeo.Utm
