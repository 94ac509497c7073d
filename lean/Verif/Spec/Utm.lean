import Verif.Geo.Utm
import Verif.Go.Val

/-! # Vocabulary for the UTM properties -/

namespace GoGeo.Utm
open GoFloat

/-- the latitude bands of the UTM grid: southern and northern bound, letter.  Band X has 12 degrees. -/
def bands : List (Int × Int × String) :=
  [(-80, -72, "C"), (-72, -64, "D"), (-64, -56, "E"), (-56, -48, "F"), (-48, -40, "G"), (-40, -32, "H"), (-32, -24, "J"), (-24, -16, "K"),
    (-16, -8, "L"), (-8, 0, "M"), (0, 8, "N"), (8, 16, "P"), (16, 24, "Q"), (24, 32, "R"), (32, 40, "S"), (40, 48, "T"), (48, 56, "U"),
    (56, 64, "V"), (64, 72, "W"), (72, 84, "X")]

/-- the first bytes of a zone letter that are allowed: C to X without I and O, in either case -/
def letters : List Nat := ascii "CDEFGHJKLMNPQRSTUVWXcdefghjklmnpqrstuvwx"

section
variable {K : Type} [Field K] [LinearOrder K]

/-- south-west Norway (zone 32V) -/
def Norway (φ l : K) : Prop := 56 ≤ φ ∧ φ ≤ 64 ∧ 3 ≤ l ∧ l ≤ 12
instance (φ l : K) : Decidable (Norway φ l) := by unfold Norway; infer_instance
/-- Svalbard (zones 31X to 37X) -/
def Svalbard (φ l : K) : Prop := 72 ≤ φ ∧ φ ≤ 84 ∧ 0 ≤ l ∧ l ≤ 42

instance (φ l : K) : Decidable (Svalbard φ l) := by unfold Svalbard; infer_instance

/-- the zone of the UTM grid: zones of six degrees from 180 W on, except in Norway and Svalbard; each zone and band has its western and
southern edge -/
def GridZone (φ l : K) (z : Int) : Prop :=
  if 56 ≤ φ ∧ φ < 64 ∧ 3 ≤ l ∧ l < 12 then z = 32
  else if 72 ≤ φ ∧ 0 ≤ l ∧ l < 9 then z = 31
  else if 72 ≤ φ ∧ 9 ≤ l ∧ l < 21 then z = 33
  else if 72 ≤ φ ∧ 21 ≤ l ∧ l < 33 then z = 35
  else if 72 ≤ φ ∧ 33 ≤ l ∧ l < 42 then z = 37
  else 6 * ((z - 1 : Int) : K) - 180 ≤ l ∧ l < 6 * (z : K) - 180

end

/-- the conditions under which the arguments of `ToLatLon` are valid -/
structure Valid {F : Type} [GoFloat F] (easting northing : F) (zone : Int) (letter : List Nat) (northern : List Bool) : Prop where
  one : letter = [] ↔ northern ≠ []
  easting : le (lit 100000) easting = true ∧ lt easting (lit 1000000) = true
  northing : le (lit 0) northing = true ∧ le northing (lit 10000000) = true
  zone : 1 ≤ zone ∧ zone ≤ 60
  letter : ∀ b rest, letter = b :: rest → b ∈ letters

end GoGeo.Utm
