# Formal model of hzw456/go-geo in Lean 4 — design

Everything below refers to the pinned source in `/repo` (root package `geo`, packages `wkt`
and `geojson`).  The code is read as text; it is never built or run.

## 1. What the model is

The Lean project in `lean/` contains

* `Verif/Go/*` — the pieces of Go's semantics and library that matter here: panics as values,
  `float64`, slices with a shared backing array (`append`, reslicing, in-place writes), sort
  contracts and Go 1.15's `sort.Sort`, regular-expression matching with Go's leftmost-first
  priority, JSON trees.
* `Verif/Geo/*`, `Verif/Rtree/*`, `Verif/Wkt/*`, `Verif/GeoJson/*` — the code, function by function.
  Every definition that models code cites the Go file and lines it models.  Files called
  `…Lemmas` (and `Wkt/Panics`, `Wkt/Rings`, `GeoJson/Trip`, `Geo/UtmFoot`, `UtmNear`, `UtmOff`,
  `UtmTM`, `UtmPoly`, `UtmTable`, `UtmReal`, and the R-tree files on representation) only contain
  proofs; definitions in them are proof devices.
* `Verif/Spec/*` — small independent specifications (what a user means by "contains", "the stored
  objects", "on the segment", ...). They do not mention model helpers.
* `Verif/Props/*` — the property theorems, one file per area, named after the property
  (`C01_...`), each with a concrete non-trivial instance of its hypotheses beside it.
* `Verif/Util/PolyBound.lean` — a checked polynomial-bound calculator used in the UTM proofs
  (kernel `decide`, no compiled code).

### Numbers

The model is written once, over a type class `GoFloat F` of raw operations (`+ - * /`, negation,
absolute value, `<`, `<=`, `==`, `math.Min`, `math.Max`, decimal literals). Two instances:

* `Float`, Lean core's binary64. In Lean 4.33 `Float` is not opaque: its
  `+ - * / sqrt neg abs < <= ==` are defined in the logic by a bit-level IEEE-754 model with
  round-to-nearest-even (`Init/Data/Float/Model`), so the kernel can compute with it and theorems
  can be proved about it. This instance is Go's `float64` bit for bit for those operations
  (amd64: no fused multiply-add; the one canonical NaN of Lean's model stands for all Go NaNs).
  `Verif/Go/F64*.lean` prove that each operation is the correctly rounded exact one.
* `XR K`: exact arithmetic over a linear ordered field `K` (ℚ or ℝ) extended with `+Inf`, `-Inf`
  and `NaN`, used for geometric statements that are false under rounding
  (for example invariance of the area under translation). It has one zero.

Statements which only need order and monotone rounding are proved for *every* instance satisfying
the law classes `FloatOrd` / `FloatArith` / `FloatVal`, and these laws are proved for `Float` and
for `XR K`; so those theorems hold for real binary64 arithmetic. Quantitative statements about
rounded results (C100 and after) use one more class, `FloatErr`: the relative error of a rounding is
at most 2^-53 plus 2^-1075. It too is proved for `Float`.

`math.Sin`, `math.Cos`, `math.Atan2`, … (`GoMath`) are opaque on `Float`: no theorem depends on
what they return there. On `XR ℝ` they are the real functions. Every statement about
trigonometry (angles, haversine, UTM, datum shifts) is therefore about real arithmetic; where the
`float64` program can be shown to differ, a witness theorem says so.

### Panics, nil, aliasing

A Go call that can panic is modelled in `Except Panic`; nil pointers are explicit; slices are
`(array id, offset, len, cap)` over a heap of backing arrays wherever aliasing is observable
(line editing, R-tree leaves after bulk load, in-place simplification, hull, S2 covering). `append`'s
growth policy is an arbitrary function. Loops whose termination is not structural take fuel and the
theorems prove enough fuel exists and that the result does not depend on it.

"Heap model" of the R-tree = the literal model: nodes with parent pointers, entries as slices, fuel
for pointer recursion. The proofs attach a ghost tree to the heap (representation predicate) and
show Hoare-style specifications of each function.

## 2. Plan per property

Status and theorem names are those of `MANIFEST.json`, the statements those of `properties.jsonl`.

| id | title | what is modelled | how proved | status |
|---|---|---|---|---|
| C01 | R-tree window search is exact over insert histories | heap model of Insert and search | representation invariant, induction over the history | proved |
| C02 | R-tree window search is exact over mixed insert/delete histories | + condenseTree, delete, upsert | same, for histories that do not panic | proved |
| C03 | Size counts the stored objects | size field | same invariant | proved |
| C04 | Delete removes one matching object and nothing else | findLeaf, DeleteWithComparator | specification of findLeaf, multiset of leaf entries | proved |
| C05 | DeleteBySpatialID removes every object with the id | DeleteBySpatialID | false with duplicate ids (witness); distinct ids proved | partial |
| C06 | Upsert gives map semantics | UpsertBySpatialID | map specification by induction | partial |
| C07 | NearestNeighbors returns the k nearest, in order | nearestNeighbors with its buffers, insertNearest, sort as any sorting permutation | invariant of the bounded best list; monotone rounding for pruning | proved |
| C08 | NearestNeighbors accepts every k | same | k = 0 and negative k characterised exactly; witness; k >= 1 proved | partial |
| C09 | The R-tree stays balanced and its boxes stay exact | as C01 | representation invariant | proved |
| C10 | Insert never panics | as C01, panics explicit | invariant; bounded coordinates give a finite enlargement | proved |
| C11 | Deleting never leaves the tree unusable | as C02 | witness histories; exact condition for insertions; deletions for MinChildren one, two levels, or two children under the root | partial |
| C12 | Bulk loading indexes every object | bulkLoad, omt, walkPartitions on slices of one array | induction on level and length; float64 height: error bound of the quotient of logarithms against the gap of log at powers of max | proved |
| C13 | Inserting into a bulk-loaded tree loses nothing | same + append into the shared array | witness; proved for constructors that do not bulk load; for bulk-loaded trees a simulation by a heap in which no two nodes share an array gives what every sequence of insertions keeps, and that none panics | partial |
| C14 | Deleting from a bulk-loaded tree affects only the deleted object | same + delete | disjoint extents invariant | proved |
| C15 | SearchBySpatialID finds every object with the id | SearchBySpatialID | false for inverted boxes (witness); proper boxes proved | partial |
| C16 | A search condition only filters | search with optional condition | induction | proved |
| C17 | Delete works for every geometry that can be stored | interface equality with uncomparable dynamic types | witness; comparable objects proved | partial |
| C18 | GetAllBoundingBoxes lists one covering box per non-root node | getAllBoundingBoxes | induction on the ghost tree | proved |
| C19 | BoundingBox covers every vertex | calBox, BoundingBox | fold invariant over FloatOrd | proved |
| C20 | BoundingBox is tight | same | same | proved |
| C21 | BoundingBox treats pointers like values and covers holes and Z geometries | type switch of BoundingBox | witnesses; the cases that hold | partial |
| C22 | Box algebra is a lattice | Box methods | order laws | proved |
| C23 | BoxToGeo describes the box | BoxToGeo, relativeArea | false: area is half (proved for every box), ring not closed; bounding box proved | partial |
| C24 | Line edits behave like list edits | line edits on slices with capacity | slice lemmas; witnesses for the false cases | partial |
| C25 | Reverse is an involution preserving length | Reverse, Length | slice lemmas; algebra | proved |
| C26 | Line equality is an equivalence up to tolerance | Equal | exact characterisation; witnesses | partial |
| C27 | Derived lines do not overwrite each other | aliasing of parts | slice lemmas; witness for every line | partial |
| C28 | Rings are closed | ring construction | list induction; witnesses | partial |
| C29 | SplitByIndex cuts a line into two whose lengths add up | SplitByIndex | slice lemmas; additivity of length | proved |
| C30 | SetSrid records the srid | package map of srids | nil map panics; witness | partial |
| C31 | Area is invariant under reversal, rotation of the start vertex and translation | shoelace fold | algebra over a field, induction on the ring | proved |
| C32 | Area of a triangle/rectangle/fan is the geometric one, and multipolygon area is the sum | same | same | proved |
| C33 | GetArea accounts for holes | GetArea | exact statement and witness | partial |
| C34 | Centroid is translation equivariant and reversal invariant | Centroid | algebra over a field, induction on the ring | proved |
| C35 | IsPointOnSegment decides membership in the closed segment | IsPointOnSegment | exact characterisation, witness | partial |
| C36 | IsPointInPolygon does not depend on orientation or start vertex | IsPointInPolygon | parity of crossings, rotations and reversals of the edge list | proved |
| C37 | IsPointInPolygon is false outside the bounding box | same | order arguments on the crossing abscissa; witness | partial |
| C38 | IsPointInPolygon is right for axis-parallel rectangles and convex rings | same | exactly one right-hand crossing of a strictly convex ring | partial |
| C39 | SegmentRelation detects proper crossings exactly | SegmentRelation | sign algebra of cross products | proved |
| C40 | SegmentRelation distinguishes touching from disjoint | same | same; witnesses | partial |
| C41 | SelfIntersect detects every proper crossing of ring edges | SelfIntersect | loop characterisation over pairs of edges; witness | partial |
| C42 | PointToSegmentDistance is the minimum distance | PointToSegmentDistance | projection algebra over the reals | partial |
| C43 | PointHitLineString finds the nearest segment | PointHitLineString | fold invariant | proved |
| C44 | Distances are metrics | EuclideanDis, EuclideanDisZ | bit-level float64 symmetry; metric laws over the reals; witness | partial |
| C45 | HausdorffDistance is the discrete Hausdorff distance | HausdorffDistance | fold invariants of max and min | proved |
| C46 | Douglas-Peucker keeps a subsequence within tolerance | dpWorker work list | invariant of the stack, measure for termination | proved |
| C47 | Douglas-Peucker terminates and does not modify its argument | same, on slices | frame lemmas; witnesses | partial |
| C48 | ConvexHull returns a convex ring through input points containing all of them | Graham scan | stack invariant, sort as a contract | proved |
| C49 | ConvexHull and Mbr do not modify their argument | same, on slices | permutation; witness | partial |
| C50 | Haversine distance is a bounded symmetric distance agreeing with the great-circle formula | Haversine | spherical trigonometry over the reals | proved |
| C51 | Angles are in range | angle functions | Mathlib argument lemmas | proved |
| C52 | Rotation keeps distances and buffers are circles | rotation, buffers | algebra of rotations, truncation error | proved |
| C53 | WKT round trip for points, lines and multipoints | Encode, Decode with the actual regular expressions; ParseFloat and FormatFloat of strconv on Float | matcher with leftmost-first semantics, induction over the text; exact decimal expansions read back by uniqueness of the binary64 form | proved |
| C54 | WKT round trip for polygons and multi-geometries | same | exact result of the matcher; witnesses | partial |
| C55 | WKT decoding of untrusted text never panics | same | case analysis of every panic site | partial |
| C56 | GeoJSON round trip | MarshalGeo, UnmarshalGeo on JSON trees | structural induction | proved |
| C57 | Every geometry can be marshalled | same | exact characterisation; witnesses | partial |
| C58 | UnmarshalGeo of malformed input is an error, not a panic | same | exact panic condition; witnesses | partial |
| C59 | Feature.SetBoundingBox sets the box | Feature.SetBoundingBox | value receiver; witness | partial |
| C60 | Feature properties behave like a map with typed reads | typed property reads | map laws | proved |
| C61 | Feature collections marshal to valid members | feature collections | induction over the members; witnesses | partial |
| C62 | UTM zone of a valid coordinate is a valid zone | zone and letter of FromLatLon | floor arithmetic with rounding; witnesses | partial |
| C63 | UTM central meridian is within 3 degrees | central meridian | same | proved |
| C64 | UTM letter encodes the hemisphere | letter | table lookup loop; witness | partial |
| C65 | ToLatLon rejects exactly the invalid inputs | checks of ToLatLon | case analysis | proved |
| C66 | Datum shifts are the identity outside China | out-of-China test | order laws | proved |
| C67 | SegmentRelation's verdict does not depend on order or direction | SegmentRelation | sign algebra; witness | partial |
| C68 | LineRelation tells lines with a common point from lines without | LineRelation | loop characterisation over C39/C40; witnesses | partial |
| C69 | PolyRelation is INTERSECT iff the boundaries cross | PolyRelation | same; witness | partial |
| C70 | PolyRelation is DISJOINT for polygons that a line separates | PolyRelation | separating functional; witness | partial |
| C71 | Polygon.Verify accepts exactly the valid polygons | Polygon.Verify | consequences of acceptance; witness | partial |
| C72 | PointToLineDistance returns the perpendicular foot | PointToLineDistance | projection algebra | proved |
| C73 | PointPolygonDistance is zero inside and the boundary distance outside | PointPolygonDistance | fold invariant over the rings + C38 | proved |
| C74 | ConvexHull is right for every finite list of points | ConvexHull with Go 1.15 sort.Sort | computed witnesses | partial |
| C75 | CacConvex tells left turns from right turns | CacConvex | sign of the sine of the angle | proved |
| C76 | DestinationPoint follows the great circle | DestinationPoint | spherical trigonometry; witness at the pole | partial |
| C77 | Mbr is the least bounding rectangle | Mbr | covering up to truncation; witnesses | partial |
| C78 | Normalize gives unit vectors | Normalize | algebra | proved |
| C79 | WKT spacing | Decode | matcher on text with extra spaces | proved |
| C80 | WKT decoding loses no position | Decode | witness | partial |
| C81 | The R-tree stays balanced and its boxes stay exact under deletions too | as C02 | representation invariant | proved |
| C82 | MarshalGeo writes RFC 7946 | MarshalGeo | separate RFC 7946 grammar of trees | proved |
| C83 | UTM zone agrees with the standard grid | zone and letter | tables of the standard grid; witnesses on the edges | partial |
| C84 | Central meridian | UTM series on the central meridian | algebra over the reals | proved |
| C85 | UTM is symmetric | UTM series | parity of the series | proved |
| C86 | Northing grows with latitude | meridian length | derivative bound | proved |
| C87 | ToLatLon accepts what FromLatLon returns | FromLatLon into ToLatLon | range bounds of the series | partial |
| C88 | GCJ02 shift is small | GCJ02 shift | interval bounds over the reals | proved |
| C89 | GCJ02 round trip | GCJ02 round trip | Lipschitz bound of the shift | proved |
| C90 | BD09 shift and round trip | BD09 | polar form | proved |
| C91 | WGS84 to BD09 and back | WGS84 to BD09 | C89 + C90 | proved |
| C92 | Segments, lines and polygons against a convex polygon | relations to a convex polygon | half-plane description of convex rings | proved |
| C93 | Point accessors point into the line | GetFirstPoint, GetPoint, … | slice lemmas | proved |
| C94 | UTM round trip is within a metre | FromLatLon then ToLatLon | Taylor remainders of every stage, polynomial bounds decided in the kernel | proved |
| C95 | Every geometry in a random-id tree has its own id | NewRandomIDTree, InsertWithRandomId, clock as argument | decimal notation is injective; witness | partial |
| C96 | Geohash cells contain their points | geohash.go over an arbitrary library | contract GeohashOk, met by a reference library | proved |
| C97 | S2 cells contain their centres | googleS2.go over an arbitrary library | contract S2Ok, met by a reference library | proved |
| C98 | S2RegionCoverer does not depend on orientation and leaves the polygon alone | S2RegionCoverer on slices | slice lemmas, C31 sign of the area; witness | partial |
| C99 | Constructors, setters and views do what they say | constructors, setters, views | unfolding on slices; refuted part: views of lines shorter than expected, see note | partial |
| C100 | The float64 crossing predicates are exact away from degenerate positions | the same SegmentRelation, LineRelation, SelfIntersect and PolyRelation over any arithmetic with the rounding error of binary64 (class FloatErr, instance Float) | forward error analysis: |computed cross − exact| ≤ 33·M²/2^53, then a sign and quotient argument | proved |
| C101 | The float64 point-in-polygon answer is exact away from the boundary | IsPointInPolygon over the same arithmetics | error of the computed crossing abscissa (quotient and product), then the comparison with tolerance agrees side by side with exact arithmetic; C38 for the exact verdict | proved |
| C102 | The float64 area and orientation are close to exact | GetArea, IsCCW over the same arithmetics | error recurrence along the fold of the shoelace sum | proved |
| C103 | The float64 distance and length are close to exact | EuclideanDis, EuclideanDistance, Length on Float | error of the bit-level square root of Lean core (Go/F64Sqrt.lean), then forward error analysis; recurrence along the line | proved |
| C104 | The float64 distance to a segment is close to exact | PointToSegmentDistance on Float | error of the foot factor, clamping is 1-Lipschitz, C103 for the distance | proved |
| C105 | Nearest-point searches and Hausdorff distance in float64 are close to exact | PointPolygonDistance, PointHitLineString, HausdorffDistance on Float | loop invariants with tolerance; 0/0 is NaN for single-point sides; C43, C45, C73, C101 | proved |
| C106 | WKT coordinates are read to the nearest float64 | Decode with ParseFloat on Float | syntax scan computes the exact value; rounding is nearest by the grid argument, overflow bound computed exactly | proved |
| C107 | GeoJSON text round trip in float64 | MarshalGeo, NewFeature, Feature and FeatureCollection as text on Float | printer and parser of encoding/json; parser = RFC 8259 grammar; shortest digits read back; finite numbers and depth of what is marshalled | partial |
| C108 | GeoJSON text from elsewhere is read for what it says | json.Unmarshal of any text into GeoJson, Feature, FeatureCollection | parser accepts exactly the grammar; relation between documents with the same text; exact value of number texts and nearest rounding | proved |
| C109 | Foreign members have no effect | reading of members with other names | field lookup of encoding/json; induction over the members; refuted by a run | partial |
| C110 | The last of repeated members decides | repeated members; for bbox and features a second model (GeoJson/Reuse) that keeps the cells of the slices | simulation of the two runs up to the overwritten field; the two models agree when nothing is repeated; refuted by runs | partial |
| C111 | The text of a feature does not depend on the order in which properties were set | SetProperty in any order, then marshal | maps as sorted lists, extensionality; C60 | proved |
| C112 | Simplification in float64 stays within the threshold up to rounding | DouglasPeuckerSimplify on Float | run invariant of C46 with "ends of the chord differ"; error bound of C104 for every chord; refuted for small thresholds by a run | partial |
| C113 | ConvexHull in float64 is the true hull | ConvexHull on Float | simulation by the exact run when the predicates agree (then C48); they agree by exactness on grids, by the error bound of the cross product in general position | proved |
| C114 | On a grid, relations, areas and containment in float64 are exact | SegmentRelation, LineRelation, SelfIntersect, PolyRelation, GetArea, IsCCW, IsPointInPolygon on Float | integers over a power of two: sums and products of few bits are not rounded; the quotient of two 52-bit integers is rounded to the right side of 0 and 1; a grid point off the boundary is 2e-6 away from it, then C101 | proved |
| C115 | Numbers are written with the fewest digits, and texts of up to 15 digits are kept | FormatFloat and ParseFloat on Float, Encode, Decode, MarshalGeo and UnmarshalGeo on texts | the candidates with n digits enclose the number, so if any numeral of n digits rounds to it, by monotone rounding a candidate does; 17 digits are closer than half a unit in the last place; two numerals of 15 digits are farther apart than two roundings | proved |
| C116 | The depth of a tree is logarithmic in the number of its objects | NewEmptyTree, Insert, Delete and the other calls; NewMinMaxTree on Float | the invariants of C09 and C02 count entries per node; induction over levels multiplies them; the float64 logarithm is within 2^-45 of the true one, and the gap between log n and log (n+1) is wider for n up to 2^40; refuted after deletions by two runs | partial |
| C117 | Vectors obey the laws of plane vector algebra | the methods of Vector2 | exact reals: ring identities, the Lagrange identity and Cauchy-Schwarz; float64: correct rounding of the single operations, integers over a power of two on a grid; the laws of inverses refuted in float64 by two runs | partial |
| C118 | Malformed points, lines and multipoints are rejected | Decode with the actual regular expressions | the three ways to read the fields of a position are exhaustive and exclusive; induction over the positions; refuted by texts with words behind two numbers | partial |
| C119 | Centroids in float64 are close to the exact ones | Centroid of polygons and multipoints in float64 | error propagation through the three sums, then relative errors of the scaling factor; refuted for small polygons far from the origin by runs | partial |
| C120 | A window search misses no geometry that reaches into the window | SearchIntersect, BoundingBox and the point set of each geometry | boxes are convex; a place inside by the even-odd rule has corners on all four sides because as many sides go up as down; then C02 and C12 | proved |
| C121 | The index and IsPointInPolygon agree on which polygons contain a point | SearchIntersect against IsPointInPolygon | C120 with the even-odd form of C101; refuted by a run | partial |
| C122 | NearestNeighbors finds the nearest objects in float64, up to rounding | NearestNeighbors and the squared box distance in float64 | error bound of the squared box distance; then C07 and C120; on a grid the distance is exact; that the distance is to the box and not to the geometry is shown by a run | proved |
| C123 | PointToLineDistance in float64 is close to exact | PointToLineDistance in float64 | error bounds of the foot factor (C104) carried through an unclamped foot point, which is no farther from the first point than the query | proved |
| C124 | A search condition may have effects | The searches as sequences of single memory accesses (Verif/Rtree/Prog.lean), where the condition is a program of its own that may access and change the memory. | By induction over the recursion and the loop: the state of the tree is the same after each call, so the accesses give what they give without condition; C124_deleting_false is a concrete run. | proved |
| C125 | Queries may run in several goroutines at once | All queries as sequences of single memory accesses; goroutines are interleaved by an arbitrary schedule (Verif/Spec/Concurrent.lean). Go's memory model adds nothing as long as nobody writes; local variables and scratch arrays are private. | No step of a query writes, so each step of a goroutine leaves what the others are going to return unchanged and brings it one step closer to its end; run alone, the accesses give the answers of the model. C125_insert_false is a schedule with a writer. | proved |
| C126 | Collections show their features as they are now | Features, maps of properties, backing arrays and collections in a store with pointers (`Verif/GeoJson/Share.lean`); a history is the list of calls, and what a program is to see of it is defined by recursion on the history (`Verif/Spec/Share.lean`). | Invariant over histories: two features have the same map pointer exactly if `shares` says so, every map pointer is allocated, and a collection that is no copy owns the tail of its backing array. The failures for copies that are written to are computed for every pair of features. | proved |
| C127 | Printed GeoJSON is one compact line that is safe inside HTML | The text of documents as in C107 (`Verif/Go/JsonText.lean`); `outside` cuts the strings out of a text (`Verif/Spec/Html.lean`). | Mutual induction over the printed tree: every piece consists of harmless characters and what is left of it outside strings has no blanks; the grammar of numbers bounds their characters. | proved |
| C128 | A box around a point misses nothing within its distances | `NewRectBox`, `IsPointInBox` and the R-tree search, over any rounding arithmetic (`FloatVal`). | Exact arithmetic: unfolding. Rounded: rounding is monotone and keeps computed numbers, so a computed side cannot pass a computed coordinate; with C02, C12 and C120 for the search. `C128_wider_false`: in float64 the box may be wider than asked. | proved |
| C129 | IsPointOnLine decides whether a point is on the line | `IsPointOnLine` and `IsPointOnSegment`. | False of the code (`C129_false`): the box of a pointer is the zero box. `C129_only_origin` for float64, `C129_exact` and `C129_closed` say what is decided, `C129_onLine_partial` where it is right. | partial |
| C130 | Ring edits of a polygon behave like list edits | The ring accessors and edits on slices of rings in shared memory (`Verif/Geo/Rings.lean`). | Induction over the edits with the laws of `append` and element assignment; the two copy claims are refuted for every polygon (`C130_copy_set_false`, `C130_copy_add_false`). | partial |
| C131 | GCJ02 and BD09 conversions are the published ones | lonlat.go over the reals | the closed forms of C88 and C90 against a specification with radii of curvature and polar coordinates | proved |
| C132 | UTM conversions compute the transverse Mercator series | utm.go over the reals | the closed forms of C84 against the series of the manual; on the equator the inverse has a term too many, which refutes the second half | partial |
| C133 | Northing measures the meridian | FromLatLon over the reals | C132; the derivative of the series is the Taylor polynomial of the radius of curvature up to the fourth power of the eccentricity, bounded on both sides; integral of the difference | proved |
| C134 | Area and centroid of a convex polygon are those of the region it bounds | GetArea and Centroid on exact reals | C32, C34; the region is, up to lines of measure zero, the disjoint union of the triangles of the fan from the first corner; integral of an affine function over a triangle by the linear change of variables | proved |
| C135 | Area, orientation and centroid of any ring are given by its winding number | GetArea, IsCCW and Centroid on exact reals | C32, C34; the winding number is almost everywhere the signed sum of the indicators of the triangles of a fan (case analysis for one triangle, telescoping for the ring); integral of an affine function over each triangle | proved |
| C136 | ConvexHull returns a polygon with the area and the centroid of the convex hull | ConvexHull, GetArea and Centroid on exact reals | C48 (with the turns of any three corners); between the union of the fan triangles and the intersection of the half planes left of the sides, which differ by lines of measure zero, lies the convex hull; C135 for polygons | proved |
| C137 | The centroid of a polygon is where a balance point can be | GetArea and Centroid on exact reals | the moments are integrals of affine functions over the region (C134) or against the winding number (C135), which vanishes almost everywhere outside the hull (C136); the integral of a positive function is positive | proved |
| C138 | Simplifying a simplified line changes nothing, and simplifying does not make lines longer or larger | DouglasPeuckerSimplify in any arithmetic whose order on the non-NaN values is total | the search returns the first of the farthest points; induction over the tree of splits shows that the second run makes the same splits and deletes nothing; length by the triangle inequality along a subsequence; box by C20 | proved |
| C139 | The buffer of a point is a regular polygon inscribed in the disk | Point.Buffer over the reals (C52) | product formula for the turns of three points of a circle; polar coordinates; the sums over the fan from the centre with C32 and C34; Taylor bounds of the sine | proved |
| C140 | For simple polygons, inside, area, centroid and orientation are those of the region shut in by the ring | IsPointInPolygon in float64 (C101, C114), GetArea, Centroid and IsCCW on exact reals; Spec/Winding.lean defines simple rings and Escapes | the winding number is the sum of the angles of the sides, so it is locally constant off the ring; near a point of a simple ring there are two sides and the winding numbers on them differ by one; the ring is connected, so there are two values overall and points with the same value can be joined; far away the value is 0; then C135 and C101 | proved |
| C141 | Lines and polygons that do not touch a simple polygon are reported on the right side of it | SegPolyRelation, LinePolyRelation and PolyRelation in float64 on a grid (C114) | segments are connected, so all their points are on one side (C140); a ring that does not meet another is on one side of it, and then so is its region: a path out of the region would have to cross the ring | proved |
| C142 | Convex hulls and buffers are simple polygons | ConvexHull (C48) and Point.Buffer (C139) with the region of C140 | all points of a side of a strictly convex ring are on the left of every other side, on its line only at a shared corner; the half planes give a ray out for each point not in them | proved |
| C143 | A simple polygon is no larger than its bounding box, and its centroid lies in the box | GetArea, Centroid and BoundingBox in exact arithmetic | the region lies in the convex hull of the corners, hence in the box; C140 for area and half planes | proved |
| C144 | Area, orientation and centroid of simple polygons in float64 are those of the region, up to a stated rounding error | relativeArea, polyCentroid and IsCCW over float64 values with a rounding operator | C102 and C119 for the rounding errors, C140 for the region | proved |
| C145 | Distance from a point to a simple polygon is measured to the region the polygon shuts in | PointPolygonDistance (C73, C104) and IsPointInPolygon in float64 | a segment from a point outside to a point shut in meets the ring, so the least distance is to the ring (C104); the segment between two points nearer to each other than to the ring misses the ring (C140) | proved |
| C146 | A line and its simplification are within the threshold of each other as curves, and HausdorffDistance measures curves up to half a segment | DouglasPeuckerSimplify (C46, C112) and HausdorffDistance (C45, C105); Spec/Curve.lean defines the distance of lines as sets of points | distance is convex along two segments run through at the same pace; the fractions of the nearest points on the chord go from 0 to 1, so every fraction is passed in some step; a point of a segment is within half its length of an end | proved |
| C147 | ConvexHull returns the shortest way round the points | ConvexHull (C48) and LineString.Length in exact arithmetic | lengths are integrals over all directions of lengths of projections; the sides of the hull that go up in a direction have disjoint projections, so they cover the width once, and those of any ring round the points cover it at least once | proved |
| C148 | Levels of detail are nested: simplifying in steps gives the same line as simplifying at once | DouglasPeuckerSimplify in any arithmetic whose order on the non-NaN values is total | induction over the tree of splits of the smaller threshold: the first of the farthest points is kept and stays the first of the farthest among the kept points, so the larger threshold makes the same splits until it stops | proved |
| C149 | ConvexHull does not depend on the order of the points | ConvexHull over exact arithmetic and float64 | the lowest point depends on the set alone; seen from it, the sort order is antisymmetric on points, so sorted permutations are equal and the scan starts from the same list; corners without right turns are never popped | proved |
| C150 | Verdicts and measurements do not depend on the frame of coordinates | the relations, measures, distances, simplification and hull over exact arithmetic | cross products are multiplied by the determinant and quotients of them stay; distances and foot parameters are kept by rigid motions, so loops and splits take the same branches; the sorted order seen from the lowest point is kept by translations | proved |
| C151 | Point-in-polygon answers do not depend on the origin | IsPointInPolygon and the relations with polygons over exact arithmetic | the ray test depends on differences alone; the boundary test (whose box is that of a pointer, all zero) can only succeed at the origin, so it is excluded before and after; counterexample at the origin | partial |
| C152 | Small movements make small changes | Float64 values of the five functions before and after a movement of their arguments | The error bounds of C103-C105 and C145 tie both values to true distances; the triangle inequality and the fact that points of two segments at the same parameter are no farther apart than the ends bound the change of the true distances. For the polygon the distance is that from the ring together with all it shuts in, which is zero exactly there. | proved |
| C153 | The direction of a line does not matter | The distance functions and the work list of DouglasPeuckerSimplify over exact arithmetic | Distances are minima over sets of points that do not change. For simplification the splits of the reversed line mirror those of the line by induction, as the first farthest point is the only one when there are no ties; a tie gives a counterexample in float64. | partial |
| C154 | Simplification does not make a line cross itself | DouglasPeuckerSimplify in float64; lines that do not meet themselves as a relation of all pairs of segments | False in general (a line of six points, threshold 1.5). Proved for lines that advance in some direction: the result is a subsequence, which advances too, and a line that advances does not meet itself. | partial |
| C155 | Answers depend on the stored objects, not on how they came into the tree | The heap model of the tree and all its calls; two arbitrary histories | Window search by C02 on both sides. For nearest neighbours each returned object is mapped to the number of strictly closer stored objects; both answers give the first k of the sorted list of these numbers, and equal numbers mean equal distances. | proved |
| C156 | The hull grows with the points and hulls can be merged | ConvexHull, GetArea, LineLength and Centroid as modelled for C48, C136 and C147 | Area: C136 and monotonicity of Lebesgue measure. Length: C147 with the corners of the larger hull, which span all its points by separation of convex sets. Merging and dropping points: both inclusions. The box by C147 with its four corners. | proved |
| C157 | Small movements of the corners change area and orientation little | GetArea, IsCCW and Length as modelled for C32, C102 and C103 | Each side and its moved copy bound a quadrilateral whose signed area is at most e times half the sum of their lengths (Cauchy-Schwarz); the connecting terms cancel round the ring. In float64 with C102 and C103. | proved |
| C158 | Compactness never exceeds one | GetArea and Length as modelled for C32, C102 and C103 | Schmidt's proof: each side is compared with the arc of the circle over the same strip (mean value theorem, Cauchy-Schwarz); summed from the leftmost corner to the rightmost and back this gives A + pi r^2 <= r L. In float64 with C102 and C103. | proved |
| C159 | Points inside make no difference to the convex hull | ConvexHull with an abstract correct sort over the exact numbers and over float64 (model of C48 and C113) | the scan drops a point only if it makes a right turn between two input points; a corner makes none between any two points left of all sides; so the corners are determined by the points, and adding points strictly inside changes neither the lowest point, nor the turns at the corners, nor adds a corner; float64 by simulation as for C113/C149 | proved |
| C160 | Cutting a polygon along a diagonal loses nothing and counts nothing twice | exact real arithmetic and float64 models of IsPointInPolygon, GetArea, Centroid and IsCCW (C36, C31, C34, C114) | the sides of the whole are those of the parts without the diagonal, which the parts run through in opposite directions, so winding numbers add; near the middle of the diagonal the parts lie on different sides (C140), so their signs agree; the rest follows from C135 and C140 | proved |
| C161 | Rings read from WKT are closed | wkt.Decode and everything below it, with the regular expressions as backtracking matchers; ToRing of both kinds of line | every list of rings is built by the loops from rings read by LineStringFromWKT from matches, and matches are infixes of the text; case analysis of closing | proved |
| C162 | The farthest point is a corner of the hull | ConvexHull and EuclideanDis | a half plane that holds the corners holds the points (C48), applied to the line across the direction of the point; squares of distances compared in the field, roots afterwards; float64 by the error of the distance (C103) and the exactness of the hull (C113) | proved |
| C163 | Lines and rings with heights written to WKT come back doubled or not at all | The encoder, the regular expressions and the decoder of `Wkt/Model.lean`, as for C53, C54 and C161. | The leftmost search is shown to find something whenever something matches (`find_complete`). The text has one pair of brackets, so a match is the whole text. A term `x y z` is matched by two pairs, `x y1` and `y2 z`, exactly if `y` has two characters or more: `terms_match`, `terms_of`, both by induction on the points. | proved |
| C164 | Multipolygons with heights written to WKT come back as one polygon doubled or not at all | The encoder, the regular expressions and the decoder of `Wkt/Model.lean`, as for C54 and C163. | Rings matched up to a closing bracket are the polygon's paths, by induction (`rings_at`), and wide paths are matched (`rings_match`); with the completeness of the search this decides what is found at each opening bracket. Polygons that are not wide are passed over by induction on the list. | proved |
| C165 | Areas agree with containment and with tilings | `GetArea`, `Centroid` and `PolyRelation` of `Geo`, over the real numbers and over float64; `Spec.Interior` is the set of points from which no path leads out. | By C140 the area is the measure of the interior and the centroid its mean; the interior is open and the ring is a null set. Sums over tiles are by induction on the list, and strictness from a small disc at the outer boundary. The float64 theorem combines C141 and C114. | proved |
| C166 | What is contained has the smaller box, the smaller hull and, if convex, the shorter boundary | `BoundingBox`, `Box.Contain`, `ConvexHull`, `GetArea`, `LineLength` and `PolyRelation` of `Geo`; `Spec.Interior` as for C165. | The interior of a ring is open and almost all of it lies in the closed convex hull of the corners, so all of it does. Corners are limits of interior points by C140. So the corners of the inner ring lie in the hull of the outer one; boxes follow by induction over the corners, areas and lengths with C136, C147 and C156. | proved |
| C167 | CONTAIN answers of PolyRelation are an order | `PolyRelation` of `Geo/Relation` over float64. | By C141 CONTAIN is inclusion of the regions; the boundary of what is contained lies in the open interior, so boundaries of the first and the third polygon cannot meet. Asymmetry by comparing areas (C165). | proved |
| C168 | Nothing is nearer to a polygon than to the one it is contained in | `PointPolygonDistance` and `PolyRelation` of `Geo` over float64. | By C145 the distance is within 2^-29 of the distance to the ring and what it shuts in. That set grows with containment (C167), and for a polygon that is cut it is the union of those of the parts (`filled_cut`). | proved |
| C169 | A search with the box of a line or polygon finds the polygons round it and what is in it | `SearchIntersect` on the heap model of the tree, `PolyRelation` and `BoundingBox` over float64. | By C166 the box of the inner polygon is in that of the outer one, and it is not empty, so the boxes intersect (C22). By C02, and C12 for bulk loading, the search returns exactly what is stored and has a box that intersects. | proved |
| C170 | Buffers of points fit their boxes, grow with their width and overlap as distances say | `pointBuffer`, `BoundingBox`, `NewRectBox`, `GetArea` and `SearchIntersect` over `XR ℝ`. | The interior of the buffer is what is left of its 24 sides (C139, C142), between the disks of radius w cos 7.5 degrees and w; the triangle inequality does the rest. The corners at 0, 90, 180 and 270 degrees make the box; the search is C128. | proved |
| C171 | Hulls keep the bounding box, simplification moves it little, and boxes are as near as lines | `ConvexHull`, `DouglasPeuckerSimplify`, `HausdorffDistance`, `BoundingBox` and `SearchIntersect` of `Geo` and `Rtree`. | The hull reaches as far as the points in the four directions of the axes (C48, C113). A simplified line is a part of the list (C46) and within the threshold of the line as a curve (C146). The vertex that makes a side of one box is near a place in the other box. | proved |
| C172 | The district of a point can be looked up | `SearchIntersect` on the heap model of the tree, `IsPointInPolygon` and `BoundingBox` over float64; the caller's filter is `Spec.Answers`, a tiling is `Spec.Tiles`. | By C140 the answers are those of the regions, of which exactly one contains the point. A polygon that contains the point has a box that meets the box of the point (C120), so that the search, which is exact (C02, C12), returns it. | proved |
| C173 | Reading GeoJSON adds nothing that the text does not say | The reading of documents into `GeoJson`, `Feature` and `FeatureCollection` member by member, and the reading of texts (Verif/GeoJson/Text.lean). | Induction over the members: a member changes only the field that its name stands for, so a field without a member keeps its first value. C108 gives the document of a text. | proved |
| C174 | Exactly the documents with members of the right kind are read | The reading of documents into `GeoJson`, `Feature` and `FeatureCollection`, in both models (with and without the kept cells of slices); what is right is `Spec.FeatureDoc` and `Spec.CollectionDoc`. | Induction over the members and over the elements of arrays: whether a member is accepted depends on its name and value only, not on what was read before. | proved |
| C175 | Typed reads give the properties that the text says | `UnmarshalFeature` on documents and texts, the map of the properties as the entries in the order of their keys, and the typed reads. `Spec.LastOf` says which member counts. | Only the member `properties` changes the properties (C173); reading an object into a map keeps the last value of each key, by induction over its members. | proved |
| C176 | Parts of a document are read like documents of their own | `UnmarshalFeatureCollection` and `UnmarshalFeature` on documents and texts. | Only the member itself changes its field (C173), which is at its zero value before; the elements of an array are read one by one into new features. | proved |
| C177 | Exactly the features and collections with finite numbers and JSON values can be printed | `Feature.MarshalJSON` and `FeatureCollection.MarshalJSON` with the values as an inductive type; what can be printed is `Spec.Printable`. | Mutual structural induction over values, lists and members; a printed struct needs all its members. The geometry object of `NewFeature` is either what was read back from a printed text or empty. | proved |
| C178 | Reading GeoJSON and printing it again is stable | The readers and printers of features and collections; that two features say the same is `Spec.SameFeature`, and `Spec.SameCollection` for collections. | An invariant over the members read: whatever is stored is a JSON value with finite numbers (mutual induction over documents). Then the round trips of C61 and C107 apply, and printing twice is printing once. | proved |

## 3. What is modelled, file by file

| Go file | modelled in | not modelled / simplified |
|---|---|---|
| rtree.go | `Rtree/Heap`, `Rtree/Model`, `Rtree/Ops`, `Rtree/Near`, `Rtree/NearBuf` (with the scratch arrays), `Rtree/Prog` (queries as single memory accesses), `Rtree/Bulk`, `Rtree/Bulk64`, `Rtree/RandomId` | `String` methods. User comparators are pure functions that may panic; conditions are pure in `Rtree/Model` and arbitrary programs in `Rtree/Prog`. In `Rtree/Bulk` the tree height is any number with n <= max^height and `nsub`, `s` are computed exactly; `Rtree/Bulk64` computes them in float64 as Go does, from a package math with contract `Math64Ok`, and is shown to be an instance for up to 2^40 objects. The clock of the random ids is an argument. |
| box.go, mbr.go | `Geo/Box`, `Geo/Angle` | — |
| point.go, pointZ.go, lineString*.go, linearRing*.go, multi*.go, polygon*.go, collection.go, srid.go | `Geo/Types`, `Geo/Line`, `Geo/Relation`, `Geo/Measure`, `Geo/Distance`, `Geo/Accessors` | receivers are non-nil; the value model (lists) is used where aliasing is not observable. Error texts are not modelled in the line functions, only whether there is an error. |
| calcaulation.go, angle.go, buffer.go, vector.go | `Geo/Measure`, `Geo/Distance`, `Geo/Angle`, `Geo/Relation` | trigonometry as described under Numbers |
| contain.go, relation.go | `Geo/Relation` | rounding errors of the same definitions: `Go/Err`, `Go/ErrReal`, `Go/F64Sqrt`, `Geo/ErrLemmas`, `Geo/ErrRay`, `Geo/ErrSeg`, `Geo/ErrDist` |
| simplify.go | `Geo/Simplify` | `sort.Sort` is any function meeting its contract (Go 1.15's is one, `goSort_ok`) |
| convexhull.go | `Geo/Hull`, `Go/QuickSort` | the effect of `sort.Sort` is a parameter with contract `HullSort`; Go 1.15's sort, written from its published text, is used for the witnesses and shown to meet the contract for at most 12 points |
| lonlat.go | `Geo/Lonlat` | numerical statements in real arithmetic |
| utm.go | `Geo/Utm` | strings are bytes, `unicode.ToUpper` on ASCII; `int(x)` outside the range of `int` is not used by any theorem; series in real arithmetic |
| geohash.go, googleS2.go | `Geo/Cells` | the two external libraries are parameters; what is assumed of them is `GeohashOk` and `S2Ok` in `Spec/Cells`, each met by a reference library (`RefHash`, `RefGrid`) |
| wkt/encode.go, wkt/decode.go | `Wkt/Model`, `Go/Regex`, `Go/Strings` | strings are lists of characters (valid UTF-8 only); `strconv` is a parameter `NumText` with contract `ReadsBack`; `Go/Strconv` is Go 1.15's `ParseFloat` syntax with correct rounding and `FormatFloat` as shortest digits that read back, and meets the contract for every finite `float64` (`readsBack_float`, `rejects_float`); `regexp` is a backtracking matcher for the constructs used, the expressions themselves are those of the code |
| geojson/*.go | `GeoJson/Model`, `GeoJson/Share` (pointers to features, shared maps and slices), `GeoJson/Reuse` (old slice elements when `bbox` or `features` is repeated), `Go/Json`, `GeoJson/Text`, `Go/JsonText` | the functions work on JSON trees; `GeoJson/Text` puts the text around them, with `encoding/json`'s printer and parser in `Go/JsonText` (strings, escapes, surrogates, numbers, nesting limit), with numbers converted only where they are stored; the parser is proved to be the grammar of RFC 8259 (`read_iff`) and inverse to each other (`read_enc`). Member names match up to case as in Go; maps are kept and printed in key order. Not modelled: invalid UTF-8. `GeoJson/Model` reads every array into a new slice; `GeoJson/Reuse` keeps the old elements and is proved to agree with it when `bbox` and `features` are not repeated in one object |
| const.go, geometry.go, type.go | `Geo/Types` | — |

Out of the model altogether: schedules with writers (C125 covers schedules of queries and one refutation; the library starts no goroutines and promises no thread
safety), code no exported function reaches (`sortEntries` and the `entrySlice` methods, geojson's
`decodePosition…` helpers on their own), running out of memory or stack, fused multiply-add on architectures other than amd64, and the
tests in `/repo/tests`.

## 4. Properties found false of the code

The statements in `properties.jsonl` are what a user would rely on. Where the code does not keep
them, the manifest says *partial*, a theorem named `…_false` (or `…_panics`) refutes the statement with a
concrete run — evaluated by the kernel, not by running Go — and the theorems named `…_partial` (or, when
the exact behaviour could be determined, the characterisation theorems) say what does hold. The most
consequential ones:

* C13: inserting into a bulk-loaded tree silently overwrites an object of a neighbouring leaf.
* C11: after some deletions the next insertion panics.
* C05: `DeleteBySpatialID` leaves further objects of the id in the tree.
* C17: deleting a stored line, polygon, … panics.
* C08: `NearestNeighbors` panics for k = 0 on a tree of depth two, and for negative k.
* C24, C27, C47, C49, C98: edits that duplicate a point, and functions that overwrite their argument.
* C30: `SetSrid` always panics.
* C33, C23: holes are never subtracted; the area of a box polygon is half the box's.
* C35: `IsPointOnSegment` is false for every point other than the origin.
* C41, C69: the last edge of a ring is never compared.
* C42: distance to a segment of length zero is NaN.
* C54, C55: no polygon survives WKT; short input panics.
* C57, C58: `PolygonZ` cannot be marshalled, malformed GeoJSON panics, unknown types give nil.
* C109, C110: `Coordinates` (any case) overrides `coordinates`; two `geometry` members are merged.
* C62: 84 N and 180 E give a zone that `ToLatLon` rejects.
* C74: `ConvexHull` of 13 points can leave points outside, because `Less` looks at a moving `p[0]`.
* C119: the centroid of a building two metres wide, in degrees, can be kilometres away from it.
* C95: two insertions within one clock tick get the same "random" id.

## 5. Trusted base

* Lean's kernel, and at most the axioms `propext`, `Classical.choice`, `Quot.sound`. No axiom is
  added, there is no `sorry`, `native_decide` or `bv_decide`. The axioms of each theorem named in the
  manifest are listed in section 6.
* That the Lean definitions say what the cited Go code says (each is cited, simplifications are said
  there and in section 3).
* Lean core's definition of binary64 (`Float.Model`) as a description of Go's `float64`.
* Library contracts. They are hypotheses of the theorems using them, not axioms, and each is shown
  to be satisfiable beside the theorem: `sort.Sort` returns a permutation, sorted when `Less` is a strict
  weak order (`SortOk`, `HullSort`; `SortOk` is proved of Go 1.15's algorithm, `goSort_ok` in `Go/QuickSortOk`, for every
  size); `math.Log2`, `Ceil`, `Pow` (`Math64Ok`); `strconv` (`ReadsBack`; the value of a number text is its correctly rounded value, the written digits are the shortest that read back, see `Go/Strconv`); `encoding/json` (transcribed in
  `Verif/Go/Json` and `Verif/Go/JsonText`); geohash and S2 (`GeohashOk`, `S2Ok`).

## 6. Axioms per theorem

As printed by `#print axioms` for every theorem of the manifest (namespace `GoGeo`).

**none** (9): `C22_intersect_symm`, `C30_setSrid_panics_false`, `C44_disZ_ignores_second`, `C51_azimuth_other`, `C96_srid_ignored`, `C97_srid`, `C99_setters`, `C99_short_false`, `C99_setSRID`

**propext Quot.sound** (21): `C06_assoc_mem`, `C19_boundingBox_num`, `C19_boundingBox_covers`, `C19_boundingBox_covers_exterior`, `C20_boundingBox_attained`, `C20_boundingBox_least`, `C22_union_lub`, `C22_boxUnion`, `C22_boxUnion_order`, `C23_boundingBox_partial`, `C24_out_of_range`, `C29_split`, `C93_getPoint`, `C93_getPoint_negative`, `C93_ends`, `C97_axes`, `C98_cw`, `C98_empty_panics`, `C99_views`, `C124_condition_any`, `C129_only_origin`

**propext** (23): `C16_condition_filters`, `C21_partial`, `C22_contain`, `C22_contain_points`, `C22_intersect_mono`, `C22_intersect_points`, `C27_toRing_false`, `C33_holes_ignored`, `C34_short_line_panics`, `C48_few`, `C52_buffer_negative`, `C57_polygonZ_false`, `C58_multi_partial`, `C58_false`, `C58_unknown_false`, `C59_unchanged_false`, `C60_must`, `C66_outside`, `C73_polygon_inside`, `C82_empty_false`, `C97_cell`, `C99_newBox`, `C99_vector`

**propext Classical.choice Quot.sound** (627): `C01_search_exact`, `C01_search_exact_any`, `C01_search_nil_box`, `C02_search_exact`, `C02_step`, `C02_contents_stored`, `C03_size`, `C03_size_net`, `C03_size_search`, `C03_size_insert`, `C04_delete`, `C04_delete_same`, `C05_deleteID_partial`, `C05_deleteID_sound`, `C05_deleteID_returns`, `C05_deleteID_repeat`, `C05_deleteID_false`, `C06_upsert_partial`, `C06_upsert_false`, `C07_nearest`, `C07_nearest_sorted`, `C07_buffers`, `C07_nearest_memory`, `C07_minDist_exact`, `C07_inverted_missed`, `goSort_ok`, `C08_nearest_partial`, `C08_nonpositive`, `C08_nearest_false`, `C09_balanced`, `C10_insert_total`, `C11_history_partial`, `C11_insert_partial`, `C11_insert_exact`, `C11_delete_partial`, `C11_delete_total_partial`, `C11_history_min1`, `C11_history_false`, `C11_delete_false`, `C12_bulk`, `C12_newTree`, `C12_float64`, `C12_newTree_float64`, `C12_few_float64`, `C12_newTree_few_float64`, `C13_insert_partial`, `C13_insert_after_bulk_false`, `C13_insert_after_bulk_partial`, `C13_inserts_after_bulk_partial`, `C13_inserts_return_partial`, `C14_step`, `C14_search`, `C15_searchID_partial`, `C15_searchID_sound`, `C15_searchID_false`, `C17_delete_partial`, `C17_delete_false`, `C18_all_boxes`, `C20_bound_needed`, `C21_pointer_false`, `C21_z_false`, `C21_hole_false`, `C23_area_false`, `C23_thin_false`, `C24_setPoint`, `C24_delPoint`, `C24_insertPoint_partial`, `C24_insert_end_false`, `C24_negative_false`, `C25_reverse`, `C25_reverse_twice`, `C25_length_reverse`, `C26_equal_exact`, `C26_equal_partial`, `C26_point_symm`, `C26_pointZ_symm`, `C26_point_refl`, `C26_pointZ_refl`, `C26_prefix_false`, `C26_panic_false`, `C27_newLineString_partial`, `C27_split_second_partial`, `C27_split_first_false`, `C28_ring`, `C28_newLinearRing`, `C28_closed`, `C28_toRing_partial`, `C28_short_false`, `C29_lengths`, `C29_lengths_close`, `C30_setSrid_unobservable_false`, `C31_area_reverse`, `C31_ccw_reverse`, `C31_area_rotate`, `C31_area_translate`, `C32_area_fan`, `C32_triangle`, `C32_rectangle`, `C32_multi`, `C32_area_nonneg`, `C33_holes_false`, `C34_centroid_fan`, `C34_centroid_translate`, `C34_centroid_invariant`, `C34_centroid_triangle`, `C34_centroid_points`, `C34_centroid_line`, `C34_linearCentroid`, `C35_onSegment_false`, `C35_onSegment_exact`, `C35_onSegment_partial`, `C36_inPolygon_rotate`, `C36_inPolygon_reverse`, `C37_outside_box_false`, `C37_outside_box_partial`, `C37_outside_y`, `C38_convex_false`, `C38_convex_partial`, `C38_rectangle`, `C39_intersect_iff`, `C39_intersect_symm`, `C40_disjoint_false`, `C40_disjoint_partial`, `C40_touch_exact`, `C41_selfIntersect_false`, `C41_selfIntersect_partial`, `C42_toSegment_partial`, `C42_toSegment_unique`, `C42_toSegment_false`, `C42_toSegment_float_false`, `C43_hit_first`, `C43_hit_first_float`, `C43_hit_nearest`, `C44_symm_float`, `C44_metric`, `C44_disZ_partial`, `C44_disZ_false`, `C45_hausdorff`, `C45_hausdorff_symm`, `C45_hausdorff_zero`, `C45_hausdorff_triangle`, `C46_simplify`, `C46_simplify_float`, `C46_simplify_exact`, `C47_terminates_partial`, `C47_shares`, `C47_negative_false`, `C47_closed_false`, `C47_alias_false`, `C48_hull`, `C48_hull_apart`, `goSort12_hullSort`, `C49_alias_false`, `C49_permutes_partial`, `C50_value`, `C50_distance`, `C50_zero`, `C50_triangle`, `C51_angle`, `C51_angle_error`, `C51_quadrant`, `C51_azimuth`, `C51_underflow_false`, `C51_quadrant_false`, `C52_isometry`, `C52_rotate_point`, `C52_rotateCCW_point`, `C52_trunc_false`, `C52_buffer`, `C52_buffer_radius`, `C52_buffer_float`, `C53_roundtrip`, `C53_float64`, `C53_words`, `C53_float64_all`, `C54_one_ring_partial`, `C54_polygon_false`, `C54_holes_false`, `C54_multiline_false`, `C54_multipolygon_false`, `C54_multipolygon_never_false`, `Wkt.C54_multipolygon_holes_false`, `C54_polygonZ_false`, `C54_example_false`, `C55_panics_partial`, `C55_float64_partial`, `C55_point_false`, `C55_polygon_false`, `C118_point`, `C118_line`, `C118_multiPoint`, `C56_roundtrip`, `C56_rfc`, `C57_marshal_partial`, `C57_back_partial`, `C57_multi_false`, `C57_empty_false`, `C58_reads_partial`, `C58_panics_partial`, `C59_partial`, `C59_false`, `C60_last`, `C60_others`, `C60_new`, `C60_frame`, `C61_members`, `C61_roundtrip_partial`, `C61_feature_partial`, `C61_geometry_false`, `C61_geometries_partial`, `C62_accepted`, `C62_partial`, `C62_roundtrip_partial`, `C62_zone_false`, `C62_letter_false`, `C63_meridian`, `C64_partial`, `C64_flag_false`, `C65_valid`, `C65_invalid`, `C65_iff`, `C67_symm_false`, `C67_symm_partial`, `C67_direction`, `C68_lineRelation_false`, `C68_lineRelation_partial`, `C68_lineRelation_exact`, `C69_polyRelation_false`, `C69_polyRelation_partial`, `C70_polyRelation_false`, `C70_polyRelation_partial`, `C70_apart_partial`, `C71_verify_false`, `C71_verify_partial`, `C114_verify`, `C72_toLine`, `C73_polygon_boundary`, `C73_convex`, `C74_duplicate_false`, `C74_many_false`, `C74_nan_false`, `C75_convex`, `C76_destination`, `C76_distance`, `C76_roundtrip`, `C76_pole_false`, `C77_covers_partial`, `C77_minimal_false`, `C77_smaller_false`, `C77_tiny_panics_false`, `C78_normalize`, `C78_zero`, `C79_spacing`, `C79_float64`, `C80_mixed_false`, `C81_shaped`, `C81_all_boxes`, `C82_rfc`, `C83_grid_partial`, `C83_edges_false`, `C84_forward`, `C84_back`, `C85_meridian`, `C85_equator`, `C85_back`, `C86_mono`, `C86_equator`, `C87_range`, `C87_accepted_partial`, `C88_toGCJ`, `C88_toWGS`, `C89_roundtrip`, `C89_roundtrip'`, `C89_everywhere`, `C90_shift`, `C90_roundtrip`, `C90_roundtrip'`, `C90_valid`, `C91_roundtrip`, `C92_segment_inside`, `C92_segment_across`, `C92_segment_outside`, `C92_line_inside`, `C92_polygon_inside`, `C93_write`, `C94_trip`, `C94_sharp`, `C94_meridian`, `C94_equator`, `C95_new`, `C95_insert_partial`, `C95_same_time_false`, `C96_cell`, `C96_neighbors`, `RefHash.lib_ok`, `RefGrid.lib_ok`, `C98_ccw`, `C98_orientation`, `C98_argument_false`, `C99_endsZ`, `C100_segments`, `C100_consecutive`, `C100_lines`, `C100_selfIntersect`, `C100_polyRelation`, `C101_inPolygon_exact`, `C101_inPolygon_parity`, `C101_inPolygon_evenOdd`, `C101_inPolygon_convex`, `C102_area`, `C102_ccw`, `C102_area_reverse`, `C103_distance`, `C103_length`, `C104_toSegment`, `C105_polygon`, `C105_convex`, `C105_hit`, `C105_hausdorff`, `C106_line`, `C106_point`, `C106_out_of_range`, `GeoJson.C107_text`, `GeoJson.C107_roundtrip`, `GeoJson.C107_newFeature`, `GeoJson.C107_feature_partial`, `GeoJson.C107_collection_partial`, `GeoJson.C107_geometries_partial`, `GeoJson.C108_syntax`, `GeoJson.C108_layout`, `GeoJson.C108_nearest`, `GeoJson.C108_out_of_range`, `GeoJson.C109_foreign_partial`, `GeoJson.C109_text_partial`, `GeoJson.C109_variant`, `GeoJson.C109_false`, `GeoJson.C110_geometry_partial`, `GeoJson.C110_feature_partial`, `GeoJson.C110_false`, `GeoJson.Reuse.C110_once_feature`, `GeoJson.Reuse.C110_once_collection`, `GeoJson.Reuse.C110_bbox_partial`, `GeoJson.Reuse.C110_bbox_false`, `GeoJson.Reuse.C110_features_false`, `GeoJson.C111_order`, `C112_simplify_partial`, `C112_false`, `C113_grid`, `C113_clear`, `C114_segments`, `C114_lines`, `C114_selfIntersect`, `C114_polyRelation`, `C114_area`, `C114_ccw`, `C114_inPolygon`, `C114_inPolygon_parity`, `C114_false`, `C115_shortest`, `C115_point`, `C115_line`, `C115_multiPoint`, `C115_pointZ`, `C115_sixteen`, `C115_geojson_point`, `C115_geojson_polygon`, `C116_capacity`, `C116_insert`, `C116_insert_log`, `C116_bulk`, `C116_false`, `C116_delete_deeper`, `C117_space`, `C117_inverse`, `C117_length`, `C117_products`, `C117_triangle`, `C117_float`, `C117_grid`, `C117_false`, `C118_junk_false`, `C119_polygon`, `C119_multiPoint`, `C119_false`, `C120_box`, `C120_window`, `C120_common`, `C120_bulk`, `C121_lookup_partial`, `C121_grid`, `C121_false`, `C122_nearest`, `C122_points`, `C122_grid`, `C122_false`, `C123_toLine`, `C124_condition`, `C124_deleting_false`, `C125_schedule`, `C125_finish`, `C125_bulk`, `C125_insert_false`, `C126_feature`, `C126_collection`, `C126_late`, `C126_snapshot`, `C126_copy_false`, `C126_feature_copy_false`, `C127_geometry`, `C127_feature`, `C127_collection`, `C127_verbatim`, `C128_exact`, `C128_points`, `C128_search`, `C128_radius`, `C128_bulk`, `C128_wider_false`, `C129_exact`, `C129_closed`, `C129_onLine_partial`, `C129_false`, `C130_edits_partial`, `C130_reads`, `C130_set_get`, `C130_copy_set_false`, `C130_copy_add_false`, `C131_gcj`, `C131_bd`, `C131_composed`, `Utm.C132_forward`, `Utm.C132_back_partial`, `Utm.C132_back_false`, `Utm.C133_northing`, `Region.C134_area`, `Region.C134_centroid`, `Region.C135_area`, `Region.C135_region`, `Region.C135_centroid`, `Region.C136_area`, `Region.C136_centroid`, `Region.C136_polygon_le`, `Region.C137_convex`, `Region.C137_left`, `C138_again`, `C138_length`, `C138_box`, `C139_area`, `C139_region`, `C139_disk`, `Region.C140_inside`, `Region.C140_inside_grid`, `Region.C140_parts`, `Region.C140_area`, `Region.C140_centroid`, `Region.C140_ccw`, `Region.C140_boundary`, `Region.C140_left`, `Region.C140_verify`, `Region.C141_segment`, `Region.C141_across`, `Region.C141_line`, `Region.C141_polygon`, `Region.C140_convex`, `Region.C142_hull`, `Region.C142_hull_le`, `Region.C142_buffer`, `Region.C143_area`, `Region.C143_centroid`, `Region.C144_area`, `Region.C144_ccw`, `Region.C144_centroid`, `Region.C145_distance`, `Region.C145_distance_grid`, `Region.C145_room`, `C146_exact`, `C146_float64`, `C146_hausdorff`, `C146_hausdorff_float64`, `Region.C147_hull`, `Region.C147_polygon`, `C148_twice`, `C148_float64`, `C149_order`, `C149_slice`, `C149_again`, `C149_grid`, `C149_clear`, `C150_segments`, `C150_lines`, `C150_self`, `C150_area`, `C150_ccw`, `C150_centroid`, `C150_hull`, `C150_toSegment`, `C150_length`, `C150_hausdorff`, `C150_hit`, `C150_simplify`, `C151_inside_false`, `C151_inside_partial`, `C151_segPoly_partial`, `C151_linePoly_partial`, `C151_distance_partial`, `C152_toSegment`, `C152_hit`, `C152_hausdorff`, `C152_length`, `Region.C152_polygon`, `C153_toSegment`, `C153_hit`, `C153_hausdorff`, `C153_simplify_partial`, `C153_simplify_false`, `C154_advances_partial`, `C154_crossing_false`, `C155_search`, `C155_order`, `C155_nearest`, `C155_noTies`, `C155_ties`, `Region.C156_area`, `Region.C156_length`, `Region.C156_same`, `Region.C156_merge`, `Region.C156_box`, `Region.C157_exact`, `Region.C157_float`, `Region.C158_exact`, `Region.C158_float`, `C159_inside`, `C159_grid`, `C159_clear`, `Region.C160_parts`, `Region.C160_area`, `Region.C160_centroid`, `Region.C160_point`, `Region.C160_point_simple`, `Region.C160_area_grid`, `C161_rings`, `C161_ringsZ`, `C161_ends`, `C162_distance`, `C162_diameter`, `C162_grid`, `C162_clear`, `Wkt.C163_lines`, `Wkt.C163_rings`, `Wkt.C163_never`, `Wkt.C163_multiLineZ`, `Wkt.C163_polygonZ`, `Wkt.C163_example`, `Wkt.C163_example_digit`, `Wkt.C163_example_rings`, `Wkt.C164_found`, `Wkt.C164_none`, `Wkt.C164_never`, `Wkt.C164_example`, `Region.C165_nested`, `Region.C165_strict`, `Region.C165_parts`, `Region.C165_tiles`, `Region.C165_centroid`, `Region.C165_cut`, `Region.C165_contain`, `Region.C166_box`, `Region.C166_hull`, `Region.C166_convex`, `Region.C166_contain`, `Region.C167_asymm`, `Region.C167_trans`, `Region.C167_apart`, `Region.C167_inside`, `Region.C167_three`, `Region.C167_point`, `Region.C167_line`, `Region.C168_contained`, `Region.C168_cut`, `Region.C169_search`, `Region.C169_bulk`, `Region.C169_lineBox`, `Region.C169_line`, `Region.C170_box`, `Region.C170_search`, `Region.C170_wider`, `Region.C170_within`, `Region.C170_overlap`, `C171_hull_exact`, `C171_hull`, `C171_simplify`, `C171_sides`, `C171_hausdorff`, `Region.C172_lookup`, `Region.C172_bulk`, `GeoJson.C173_feature`, `GeoJson.C173_collection`, `GeoJson.C173_geometry`, `GeoJson.C173_repeated`, `GeoJson.C173_empty`, `GeoJson.C173_text`, `GeoJson.C174_geometry`, `GeoJson.C174_feature`, `GeoJson.C174_collection`, `GeoJson.C174_repeated`, `GeoJson.C174_text`, `GeoJson.C175_typed`, `GeoJson.C175_absent`, `GeoJson.C175_text`, `GeoJson.C176_geometry`, `GeoJson.C176_features`, `GeoJson.C176_text`, `GeoJson.C177_feature`, `GeoJson.C177_collection`, `GeoJson.C177_built`, `GeoJson.C177_text`, `GeoJson.C178_feature`, `GeoJson.C178_collection`, `GeoJson.C178_text`
