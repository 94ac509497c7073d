import Verif.Spec.Sphere
import Mathlib.Analysis.SpecialFunctions.Complex.Arg

/-! # The published formulas of the coordinate systems, over the reals

Angles are in radians unless they are called `lon` and `lat`, which are in degrees. -/

namespace GoGeo.Spec
open Real

/-! ### the ellipsoid with equatorial radius `a` and squared eccentricity `e` -/

/-- the radius of curvature across the meridian -/
noncomputable def normalRadius (a e φ : ℝ) : ℝ := a / √(1 - e * sin φ ^ 2)
/-- the radius of curvature of the meridian -/
noncomputable def meridianRadius (a e φ : ℝ) : ℝ := a * (1 - e) / √(1 - e * sin φ ^ 2) ^ 3

/-! ### the transverse Mercator projection (J. P. Snyder, Map Projections - A Working Manual, 1987, pages 61 to 64) -/

/-- the length of the meridian from the equator (3-21) -/
noncomputable def meridian (a e φ : ℝ) : ℝ :=
  a * ((1 - e / 4 - 3 * e ^ 2 / 64 - 5 * e ^ 3 / 256) * φ - (3 * e / 8 + 3 * e ^ 2 / 32 + 45 * e ^ 3 / 1024) * sin (2 * φ) +
    (15 * e ^ 2 / 256 + 45 * e ^ 3 / 1024) * sin (4 * φ) - 35 * e ^ 3 / 3072 * sin (6 * φ))

/-- the square of the second eccentricity (8-12) -/
noncomputable def second (e : ℝ) : ℝ := e / (1 - e)

/-- the distance from the central meridian on the map (8-9); `l` is the longitude from it and `k` the scale -/
noncomputable def tmEast (k a e φ l : ℝ) : ℝ :=
  let T := tan φ ^ 2
  let C := second e * cos φ ^ 2
  let A := l * cos φ
  k * normalRadius a e φ * (A + (1 - T + C) * A ^ 3 / 6 + (5 - 18 * T + T ^ 2 + 72 * C - 58 * second e) * A ^ 5 / 120)

/-- the distance from the equator on the map (8-10) -/
noncomputable def tmNorth (k a e φ l : ℝ) : ℝ :=
  let T := tan φ ^ 2
  let C := second e * cos φ ^ 2
  let A := l * cos φ
  k * (meridian a e φ + normalRadius a e φ * tan φ * (A ^ 2 / 2 + (5 - T + 9 * C + 4 * C ^ 2) * A ^ 4 / 24 +
    (61 - 58 * T + T ^ 2 + 600 * C - 330 * second e) * A ^ 6 / 720))

/-- the latitude of the point of the central meridian as far up the map (3-26), with the terms of fifth order -/
noncomputable def footLatitude (k a e y : ℝ) : ℝ :=
  let μ := y / k / (a * (1 - e / 4 - 3 * e ^ 2 / 64 - 5 * e ^ 3 / 256))
  let n := (1 - √(1 - e)) / (1 + √(1 - e))
  μ + (3 * n / 2 - 27 * n ^ 3 / 32 + 269 * n ^ 5 / 512) * sin (2 * μ) + (21 * n ^ 2 / 16 - 55 * n ^ 4 / 32) * sin (4 * μ) +
    (151 * n ^ 3 / 96 - 417 * n ^ 5 / 128) * sin (6 * μ) + 1097 * n ^ 4 / 512 * sin (8 * μ)

/-- the latitude of the point `(x, y)` of the map (8-17) -/
noncomputable def tmLatitude (k a e x y : ℝ) : ℝ :=
  let φ := footLatitude k a e y
  let T := tan φ ^ 2
  let C := second e * cos φ ^ 2
  let D := x / (normalRadius a e φ * k)
  φ - normalRadius a e φ * tan φ / meridianRadius a e φ * (D ^ 2 / 2 - (5 + 3 * T + 10 * C - 4 * C ^ 2 - 9 * second e) * D ^ 4 / 24 +
    (61 + 90 * T + 298 * C + 45 * T ^ 2 - 252 * second e - 3 * C ^ 2) * D ^ 6 / 720)

/-- the longitude of the point `(x, y)` of the map from the central meridian (8-18) -/
noncomputable def tmLongitude (k a e x y : ℝ) : ℝ :=
  let φ := footLatitude k a e y
  let T := tan φ ^ 2
  let C := second e * cos φ ^ 2
  let D := x / (normalRadius a e φ * k)
  (D - (1 + 2 * T + C) * D ^ 3 / 6 + (5 - 2 * C + 28 * T - 3 * C ^ 2 + 8 * second e + 24 * T ^ 2) * D ^ 5 / 120) / cos φ

/-! ### GCJ02: the shift in metres is turned into degrees on the ellipsoid of Krasovsky -/

/-- the shift to the north in metres; `x`, `y` are degrees from (105, 35) -/
noncomputable def gcjNorth (x y : ℝ) : ℝ :=
  -100 + 2 * x + 3 * y + 0.2 * y ^ 2 + 0.1 * x * y + 0.2 * √|x| +
    2 / 3 * (20 * sin (6 * π * x) + 20 * sin (2 * π * x) + 20 * sin (π * y) + 40 * sin (π * y / 3) + 160 * sin (π * y / 12) + 320 * sin (π * y / 30))

/-- the shift to the east in metres -/
noncomputable def gcjEast (x y : ℝ) : ℝ :=
  300 + x + 2 * y + 0.1 * x ^ 2 + 0.1 * x * y + 0.1 * √|x| +
    2 / 3 * (20 * sin (6 * π * x) + 20 * sin (2 * π * x) + 20 * sin (π * x) + 40 * sin (π * x / 3) + 150 * sin (π * x / 12) + 300 * sin (π * x / 30))

/-- radians as degrees -/
noncomputable def degrees (r : ℝ) : ℝ := r * 180 / π

/-- the shift of the latitude -/
noncomputable def gcjLat (lon lat : ℝ) : ℝ :=
  degrees (gcjNorth (lon - 105) (lat - 35) / meridianRadius 6378245 0.00669342162296594323 (rad lat))
/-- the shift of the longitude -/
noncomputable def gcjLon (lon lat : ℝ) : ℝ :=
  degrees (gcjEast (lon - 105) (lat - 35) / (normalRadius 6378245 0.00669342162296594323 (rad lat) * cos (rad lat)))

/-! ### BD09: a wobble in polar coordinates -/

/-- the point with the given distance and direction from the origin -/
noncomputable def polar (r θ : ℝ) : ℝ × ℝ := (r * cos θ, r * sin θ)

/-- degrees to the angle of the wobble -/
noncomputable def wobble (d : ℝ) : ℝ := d * (3000 * π / 180)

/-- GCJ02 to BD09 -/
noncomputable def bd09 (lon lat : ℝ) : ℝ × ℝ :=
  polar (√(lon ^ 2 + lat ^ 2) + 0.00002 * sin (wobble lat)) (Complex.arg ⟨lon, lat⟩ + 0.000003 * cos (wobble lon)) + (0.0065, 0.006)

/-- BD09 to GCJ02: the wobble is taken at the arrival and undone -/
noncomputable def bd09Back (lon lat : ℝ) : ℝ × ℝ :=
  let x := lon - 0.0065
  let y := lat - 0.006
  polar (√(x ^ 2 + y ^ 2) - 0.00002 * sin (wobble y)) (Complex.arg ⟨x, y⟩ - 0.000003 * cos (wobble x))

end GoGeo.Spec
