{"id": "C01", "title": "R-tree window search is exact over insert histories", "statement": "After any sequence of Insert calls on a tree made by NewMinMaxTree(min,max) with 1<=min<=max/2 (max>=2) and no initial objects, SearchIntersect(q) returns, up to order, exactly the inserted objects whose BoundingBox intersects q: no object is lost, none is duplicated, none is invented.", "quantifier": "all finite insert histories, all geometries with coordinates of magnitude at most 2^500 (incl. empty, pointer and Z geometries), all query boxes (incl. NaN/inverted)", "why_tests_cant": "Losing an entry depends on a particular split/propagation path; the histories and trees are unbounded.", "anchors": ["rtree.go:Insert", "rtree.go:insert", "rtree.go:chooseNode", "rtree.go:split", "rtree.go:adjustTree", "rtree.go:searchIntersectWithCond"]}
{"id": "C02", "title": "R-tree window search is exact over mixed insert/delete histories", "statement": "After any history of Insert, Delete, DeleteWithComparator, DeleteBySpatialID and UpsertBySpatialID that did not panic, SearchIntersect(q) returns exactly the currently stored objects whose bounding box intersects q.", "quantifier": "all histories that complete without panic, all query boxes", "why_tests_cant": "Unbounded interleavings of deletions, condensations and splits.", "anchors": ["rtree.go:DeleteWithComparator", "rtree.go:condenseTree", "rtree.go:findLeaf"]}
{"id": "C03", "title": "Size counts the stored objects", "statement": "Size() equals the number of objects inserted minus the number of successful deletions, and equals the number of results of an all-covering search.", "quantifier": "all histories", "why_tests_cant": "Counter drift only shows after particular histories.", "anchors": ["rtree.go:Size", "rtree.go:Insert", "rtree.go:DeleteWithComparator"]}
{"id": "C04", "title": "Delete removes one matching object and nothing else", "statement": "DeleteWithComparator(obj,cond) returns true exactly when it removed one stored object satisfying cond(.,obj); every other stored object remains, with multiplicity; when it returns false the stored objects are unchanged. If a stored object has obj's bounding box and matches, the call returns true.", "quantifier": "all reachable trees on which the call does not panic, all objects, all (pure) comparators", "why_tests_cant": "Depends on tree shape and on which leaf holds the object.", "anchors": ["rtree.go:Delete", "rtree.go:DeleteWithComparator", "rtree.go:findLeaf"]}
{"id": "C05", "title": "DeleteBySpatialID removes every object with the id", "statement": "After DeleteBySpatialID(id) no stored object has that id and all others remain; it returns true iff some object was removed.", "quantifier": "all reachable trees, all ids", "why_tests_cant": "Fails only for duplicate ids spread over leaves (condition search uses stale geometry) or for objects with an inverted box.", "anchors": ["rtree.go:DeleteBySpatialID", "rtree.go:SearchBySpatialID"]}
{"id": "C06", "title": "Upsert gives map semantics", "statement": "After UpsertBySpatialID(objs...) on a tree whose ids are distinct, each id is stored once, with the last value given for it, and objects with other ids are untouched.", "quantifier": "all trees reachable by upserts, all object lists", "why_tests_cant": "Unbounded histories.", "anchors": ["rtree.go:UpsertBySpatialID"]}
{"id": "C07", "title": "NearestNeighbors returns the k nearest, in order", "statement": "For k>=1, NearestNeighbors(k,p) returns min(k,Size()) stored objects (with multiplicity) in non-decreasing order of squared distance from p to their boxes, and no object left out is strictly closer than one returned.", "quantifier": "all trees reached by any history of calls and holding objects whose bounding box is not inverted (every geometry with a vertex with numeric coordinates), all query points (incl. NaN and infinite), all k>=1, any correct sort", "why_tests_cant": "Correctness of pruning depends on rounding of float64 distances and on tree shape.", "anchors": ["rtree.go:NearestNeighbors", "rtree.go:nearestNeighbors", "rtree.go:insertNearest", "rtree.go:pruneEntriesMinDist"]}
{"id": "C08", "title": "NearestNeighbors accepts every k", "statement": "NearestNeighbors(k,p) does not panic for any k (in particular k=0 returns no objects).", "quantifier": "all trees, all integers k", "why_tests_cant": "k=0 panics only once the tree has depth at least two.", "anchors": ["rtree.go:nearestNeighbors"]}
{"id": "C09", "title": "The R-tree stays balanced and its boxes stay exact", "statement": "In every tree reachable by Insert: all leaves are at depth Depth(), each node has at most MaxChildren entries, every non-root node has at least MinChildren, parent links agree with child links and each entry's box is the union of its child's boxes.", "quantifier": "all insert histories", "why_tests_cant": "Structural invariant over unbounded histories.", "anchors": ["rtree.go:split", "rtree.go:adjustTree", "rtree.go:Depth"]}
{"id": "C10", "title": "Insert never panics", "statement": "Insert completes without a run-time panic on every tree reachable by Insert calls whose coordinates have magnitude at most 2^500.", "quantifier": "all insert histories, all geometries", "why_tests_cant": "Panic needs an entry list for which no child is chosen or a parent that lost its child.", "anchors": ["rtree.go:chooseNode", "rtree.go:getEntry", "rtree.go:split"]}
{"id": "C11", "title": "Deleting never leaves the tree unusable", "statement": "Any history of Insert and Delete completes without a panic.", "quantifier": "all histories", "why_tests_cant": "Needs a specific sequence of deletions leaving a one-child root above level 2.", "anchors": ["rtree.go:DeleteWithComparator", "rtree.go:condenseTree", "rtree.go:chooseNode"]}
{"id": "C12", "title": "Bulk loading indexes every object", "statement": "NewTree/NewMinMaxTree with more objects than MaxChildren builds a tree in which SearchIntersect(q) returns exactly the given objects whose box intersects q, Size() is their number, and all leaves are at the same depth.", "quantifier": "all object lists, all max>=2, any correct sort", "why_tests_cant": "Recursion over unbounded lists; depends on sort tie-breaking.", "anchors": ["rtree.go:bulkLoad", "rtree.go:omt", "rtree.go:walkPartitions"]}
{"id": "C13", "title": "Inserting into a bulk-loaded tree loses nothing", "statement": "After bulk loading, Insert adds its object and every earlier object is still found.", "quantifier": "all bulk-loaded trees", "why_tests_cant": "The loss comes from two leaves sharing one backing array, seen only when a leaf with spare capacity is chosen.", "anchors": ["rtree.go:omt", "rtree.go:insert"]}
{"id": "C14", "title": "Deleting from a bulk-loaded tree affects only the deleted object", "statement": "After bulk loading, deletions and searches behave as on the multiset of stored objects although leaves share a backing array.", "quantifier": "all bulk-loaded trees, all delete histories that do not panic", "why_tests_cant": "Aliasing between leaves.", "anchors": ["rtree.go:omt", "rtree.go:DeleteWithComparator"]}
{"id": "C15", "title": "SearchBySpatialID finds every object with the id", "statement": "SearchBySpatialID(id) returns exactly the stored objects with that id.", "quantifier": "all reachable trees, all ids", "why_tests_cant": "Misses objects whose box is inverted (empty geometry).", "anchors": ["rtree.go:SearchBySpatialID"]}
{"id": "C16", "title": "A search condition only filters", "statement": "SearchIntersectWithCond(q,c) equals SearchIntersect(q) filtered by c, in the same order; searches do not change the tree.", "quantifier": "all trees, boxes, conditions", "why_tests_cant": "Quantifies over all predicates.", "anchors": ["rtree.go:SearchIntersectWithCond"]}
{"id": "C17", "title": "Delete works for every geometry that can be stored", "statement": "Delete(obj) of a stored object never panics and removes it, whatever its geometry type.", "quantifier": "all geometry types", "why_tests_cant": "Interface comparison panics only for slice-based dynamic types whose ids and properties agree.", "anchors": ["rtree.go:Delete"]}
{"id": "C18", "title": "GetAllBoundingBoxes lists one covering box per non-root node", "statement": "GetAllBoundingBoxes returns one box per non-root node; every stored object's box is contained in one of them per level.", "quantifier": "all insertion-built trees", "why_tests_cant": "Unbounded trees.", "anchors": ["rtree.go:GetAllBoundingBoxes"]}
{"id": "C19", "title": "BoundingBox covers every vertex", "statement": "For every Point, MultiPoint, LineString, MultiLineString and MultiPolygon value, and the exterior ring of a Polygon, every non-NaN vertex coordinate lies within BoundingBox, whatever its magnitude.", "quantifier": "all geometries over float64, including NaN, infinities and huge values", "why_tests_cant": "Quantifies over all float64 vertex lists.", "anchors": ["box.go:BoundingBox", "box.go:calBox"]}
{"id": "C20", "title": "BoundingBox is tight", "statement": "For a non-empty vertex list with coordinates within +-2^31 each side of BoundingBox is attained by a vertex, so it is the least box covering the vertices.", "quantifier": "all non-empty vertex lists", "why_tests_cant": "The INF=2^31 start value makes it wrong only for rare magnitudes.", "anchors": ["box.go:calBox", "const.go:INF"]}
{"id": "C21", "title": "BoundingBox treats pointers like values and covers holes and Z geometries", "statement": "BoundingBox(&g) equals BoundingBox(g), and Z geometries get the box of their X/Y coordinates.", "quantifier": "all geometries", "why_tests_cant": "Silent zero box rather than an error.", "anchors": ["box.go:BoundingBox"]}
{"id": "C22", "title": "Box algebra is a lattice", "statement": "Contain is a preorder; Union is the least upper bound; Intersect is symmetric and monotone and holds for two non-empty boxes iff they share a point; BoxUnion contains each argument and does not depend on order.", "quantifier": "all boxes without NaN over float64", "why_tests_cant": "Algebraic laws over all float64 quadruples, incl. signed zero and infinities.", "anchors": ["box.go:Union", "box.go:Contain", "box.go:Intersect", "box.go:BoxUnion"]}
{"id": "C23", "title": "BoxToGeo describes the box", "statement": "BoxToGeo(b) is a closed polygon with GetArea equal to Size and BoundingBox equal to b.", "quantifier": "all proper boxes", "why_tests_cant": "Off-by-one-vertex area.", "anchors": ["box.go:BoxToGeo", "calcaulation.go:relativeArea"]}
{"id": "C24", "title": "Line edits behave like list edits", "statement": "InsertPoint(i,p) makes the line l[:i]+[p]+l[i:], SetPoint(i,p) replaces position i (appends at the end), DelPoint(i) drops position i; out-of-range positions are errors and change nothing.", "quantifier": "all lines, positions, points", "why_tests_cant": "The boundary position len(l) differs.", "anchors": ["lineString.go:InsertPoint", "lineString.go:SetPoint", "lineString.go:DelPoint"]}
{"id": "C25", "title": "Reverse is an involution preserving length", "statement": "Reverse reverses the order of points in place; applying it twice restores the line; Length is unchanged up to rounding (exactly over exact arithmetic).", "quantifier": "all lines", "why_tests_cant": "All lengths and contents.", "anchors": ["lineString.go:Reverse", "lineString.go:Length"]}
{"id": "C26", "title": "Line equality is an equivalence up to tolerance", "statement": "LineString.Equal is reflexive (on finite points), symmetric, false for different lengths and never panics.", "quantifier": "all pairs of lines", "why_tests_cant": "Prefix case and panic case.", "anchors": ["lineString.go:Equal", "lineStringZ.go:Equal"]}
{"id": "C27", "title": "Derived lines do not overwrite each other", "statement": "Appending to a line returned by SplitByIndex, NewLineString or NewRingFromLine never changes another line the caller holds.", "quantifier": "all lines, all capacities, all later appends", "why_tests_cant": "Depends on hidden slice capacity.", "anchors": ["lineString.go:SplitByIndex", "lineString.go:Append", "linearRing.go:NewRingFromLine"]}
{"id": "C28", "title": "Rings are closed", "statement": "NewLinearRing/NewRingFromLine on at least two points returns a ring whose first and last points agree within 1e-6 and whose points are the input, plus at most one closing point; ToRing/NewPolygonFromPois never panic.", "quantifier": "all point lists", "why_tests_cant": "Panics only for fewer than two points.", "anchors": ["linearRing.go:NewRingFromLine", "lineString.go:ToRing", "polygon.go:NewPolygonFromPois"]}
{"id": "C29", "title": "SplitByIndex cuts a line into two whose lengths add up", "statement": "For 0<=i<len, the two parts overlap exactly in point i, concatenate to the line, and over exact arithmetic their lengths add to the line's length.", "quantifier": "all lines and indices", "why_tests_cant": "All lines.", "anchors": ["lineString.go:SplitByIndex", "lineString.go:Length"]}
{"id": "C30", "title": "SetSrid records the srid", "statement": "SetSrid on a polygon or multi-geometry completes and records the srid.", "quantifier": "all geometries and srids", "why_tests_cant": "Global nil map makes every call panic.", "anchors": ["srid.go:SridMap", "polygon.go:SetSrid"]}
{"id": "C31", "title": "Area is invariant under reversal, rotation of the start vertex and translation", "statement": "For a closed ring, GetArea is unchanged by reversing the ring, by starting at another vertex and by translating; IsCCW flips under reversal when the area is non-zero.", "quantifier": "all closed rings over exact arithmetic; reversal also bit-exactly over float64 is not claimed", "why_tests_cant": "All vertex lists.", "anchors": ["calcaulation.go:relativeArea", "polygon.go:IsCCW"]}
{"id": "C32", "title": "Area of a triangle/rectangle/fan is the geometric one, and multipolygon area is the sum", "statement": "GetArea of a triangle is half the absolute cross product; the signed area of any ring is the sum of the signed areas of the triangles of a fan from any point; GetArea of a multipolygon is the sum over its polygons and never negative.", "quantifier": "all rings, all apex points", "why_tests_cant": "All vertex counts.", "anchors": ["calcaulation.go:GetArea", "calcaulation.go:MultiPolyArea"]}
{"id": "C33", "title": "GetArea accounts for holes", "statement": "GetArea of a polygon with interior rings is the exterior area minus the area of the holes.", "quantifier": "all polygons", "why_tests_cant": "Silent over-estimate.", "anchors": ["calcaulation.go:polyArea"]}
{"id": "C34", "title": "Centroid is translation equivariant and reversal invariant", "statement": "Centroid of a closed ring with non-zero area moves with the ring, does not depend on orientation, and for points is the mean.", "quantifier": "all rings with non-zero area", "why_tests_cant": "All vertex lists.", "anchors": ["calcaulation.go:polyCentroid", "calcaulation.go:pointsCenteriod"]}
{"id": "C35", "title": "IsPointOnSegment decides membership in the closed segment", "statement": "IsPointOnSegment(a,b,p) is true iff p lies on the closed segment ab.", "quantifier": "all point triples", "why_tests_cant": "A pointer passed to a type switch silently yields a zero box.", "anchors": ["relation.go:IsPointOnSegment", "box.go:BoundingBox"]}
{"id": "C36", "title": "IsPointInPolygon does not depend on orientation or start vertex", "statement": "IsPointInPolygon gives the same answer for a closed ring, its reversal and its rotations.", "quantifier": "all closed rings and points (exact arithmetic)", "why_tests_cant": "Tolerance and asymmetric formula in (p1,p2).", "anchors": ["contain.go:IsPointInPolygon"]}
{"id": "C37", "title": "IsPointInPolygon is false outside the bounding box", "statement": "If p is outside BoundingBox(poly) (by more than the 1e-6 tolerance) IsPointInPolygon is DISJOINT (origin excepted).", "quantifier": "all rings, all points", "why_tests_cant": "All rings.", "anchors": ["contain.go:IsPointInPolygon"]}
{"id": "C38", "title": "IsPointInPolygon is right for axis-parallel rectangles and convex rings", "statement": "For a counter-clockwise convex ring, points inside (by a margin) are CONTAIN and points outside (by a margin) are DISJOINT.", "quantifier": "all convex rings and points off the boundary", "why_tests_cant": "All vertex counts.", "anchors": ["contain.go:IsPointInPolygon"]}
{"id": "C39", "title": "SegmentRelation detects proper crossings exactly", "statement": "SegmentRelation(a,b) is INTERSECT iff the open segments cross in exactly one point and are not parallel; it is symmetric in its arguments and does not depend on segment direction.", "quantifier": "all segment pairs over exact arithmetic", "why_tests_cant": "All quadruples of points.", "anchors": ["relation.go:SegmentRelation"]}
{"id": "C40", "title": "SegmentRelation distinguishes touching from disjoint", "statement": "SegmentRelation is DISJOINT iff the closed segments have no common point.", "quantifier": "all segment pairs", "why_tests_cant": "Collinear far-apart segments and T-junctions.", "anchors": ["relation.go:SegmentRelation"]}
{"id": "C41", "title": "SelfIntersect detects every proper crossing of ring edges", "statement": "SelfIntersect is true iff two edges of the closed exterior ring cross properly; the answer does not depend on the start vertex.", "quantifier": "all closed rings", "why_tests_cant": "The last edge is never tested.", "anchors": ["polygon.go:SelfIntersect"]}
{"id": "C42", "title": "PointToSegmentDistance is the minimum distance", "statement": "PointToSegmentDistance(p,a,b,srid!=4326) returns a point on segment ab and a distance that no point of the segment beats.", "quantifier": "all p,a,b (exact arithmetic)", "why_tests_cant": "a=b divides by zero.", "anchors": ["calcaulation.go:PointToSegmentDistance"]}
{"id": "C43", "title": "PointHitLineString finds the nearest segment", "statement": "PointHitLineString returns the first segment attaining the least distance to p, with that distance and foot point.", "quantifier": "all lines with a segment at distance below 2^31", "why_tests_cant": "All vertex counts.", "anchors": ["calcaulation.go:PointHitLineString"]}
{"id": "C44", "title": "Distances are metrics", "statement": "EuclideanDistance/EuclideanDis are symmetric (bit-exactly), zero exactly on equal points, and satisfy the triangle inequality (exact arithmetic); EuclideanDisZ is the 3-D Euclidean distance.", "quantifier": "all points", "why_tests_cant": "All triples.", "anchors": ["point.go:EuclideanDis", "pointZ.go:EuclideanDisZ", "calcaulation.go:EuclideanDistance"]}
{"id": "C45", "title": "HausdorffDistance is the discrete Hausdorff distance", "statement": "For lines of non-zero length with distances below 2^31, HausdorffDistance is the classical discrete Hausdorff distance of the vertex sets; it is symmetric, zero iff the vertex sets coincide, and satisfies the triangle inequality.", "quantifier": "all pairs of lines", "why_tests_cant": "All vertex counts.", "anchors": ["calcaulation.go:HausdorffDistance"]}
{"id": "C46", "title": "Douglas-Peucker keeps a subsequence within tolerance", "statement": "For threshold>=0 and an open line, DouglasPeuckerSimplify terminates and returns a subsequence keeping both end points, and every removed point is within threshold of the segment joining its kept neighbours.", "quantifier": "all lines, all thresholds >= 0", "why_tests_cant": "Work-list recursion over all lines.", "anchors": ["simplify.go:DouglasPeuckerSimplify", "simplify.go:dpWorker"]}
{"id": "C47", "title": "Douglas-Peucker terminates and does not modify its argument", "statement": "DouglasPeuckerSimplify terminates for every threshold, handles closed lines, and leaves the caller's line unchanged.", "quantifier": "all lines, all thresholds", "why_tests_cant": "Negative threshold loops forever; closed lines divide by zero; in-place deletion.", "anchors": ["simplify.go:DouglasPeuckerSimplify"]}
{"id": "C48", "title": "ConvexHull returns a convex ring through input points containing all of them", "statement": "For points in general position handed over by a correct angular sort, ConvexHull's vertices are input points, consecutive turns are not clockwise, and every input point is left of or on every hull edge.", "quantifier": "all point lists with >=3 points", "why_tests_cant": "Stack algorithm over all lists.", "anchors": ["convexhull.go:ConvexHull"]}
{"id": "C49", "title": "ConvexHull and Mbr do not modify their argument", "statement": "ConvexHull(pts...) leaves the caller's slice unchanged.", "quantifier": "all slices", "why_tests_cant": "In-place sort through variadic aliasing.", "anchors": ["convexhull.go:ConvexHull", "mbr.go:Mbr"]}
{"id": "C50", "title": "Haversine distance is a bounded symmetric distance agreeing with the great-circle formula", "statement": "Over exact real arithmetic CoordDistance is symmetric, non-negative, zero on equal points, at most pi*R, and equals CoordGreateCircle.", "quantifier": "all coordinate pairs (real arithmetic)", "why_tests_cant": "Trigonometric identity over all reals.", "anchors": ["point.go:CoordDistance", "point.go:CoordGreateCircle"]}
{"id": "C51", "title": "Angles are in range", "statement": "CacAngle returns an angle in [0,2pi) or an error for coincident points; GetAzimuth returns a value in [0,360) for srid 4326 and 0 otherwise.", "quantifier": "all point triples (real arithmetic)", "why_tests_cant": "All inputs.", "anchors": ["calcaulation.go:CacAngle", "angle.go:GetAzimuth"]}
{"id": "C52", "title": "Rotation keeps distances and buffers are circles", "statement": "Before truncation to four decimals, RotateCW is an isometry fixing the centre and inverse to RotateCCW; the vertices of Point.Buffer(w) are at distance w from the centre and a negative width gives nil.", "quantifier": "all points, centres, angles, widths (real arithmetic)", "why_tests_cant": "All reals.", "anchors": ["calcaulation.go:RotateCW", "buffer.go:pointBuffer"]}
{"id": "C53", "title": "WKT round trip for points, lines and multipoints", "statement": "Decode(Encode(g)) returns g, without error, for every Point, PointZ, non-empty LineString, LineStringZ, MultiPoint and MultiPointZ with finite coordinates.", "quantifier": "all geometries of these types, all vertex counts", "why_tests_cant": "Grammar-level claim over unbounded strings through a regular expression.", "anchors": ["wkt/encode.go:Encode", "wkt/decode.go:Decode"]}
{"id": "C54", "title": "WKT round trip for polygons and multi-geometries", "statement": "Decode(Encode(g)) returns g for every Polygon, MultiLineString and MultiPolygon.", "quantifier": "all such geometries", "why_tests_cant": "FindStringSubmatch returns the whole match and the group, not all rings.", "anchors": ["wkt/decode.go:PolygonFromWKT", "wkt/decode.go:MultiLineStringFromWKT", "wkt/decode.go:MultiPolygonFromWKT"]}
{"id": "C55", "title": "WKT decoding of untrusted text never panics", "statement": "Decode(s) returns a geometry or an error for every string s.", "quantifier": "all strings", "why_tests_cant": "Index panics on one-token coordinates.", "anchors": ["wkt/decode.go:Decode", "wkt/decode.go:PointFromWKT"]}
{"id": "C56", "title": "GeoJSON round trip", "statement": "For every Point, PointZ, LineString, LineStringZ and Polygon with finite coordinates and no empty part, marshalling, parsing the JSON value and UnmarshalGeo gives the geometry back.", "quantifier": "all such geometries", "why_tests_cant": "Nested interface conversions over unbounded data.", "anchors": ["geojson/geojson.go:MarshalGeo", "geojson/geojson.go:UnmarshalGeo"]}
{"id": "C57", "title": "Every geometry can be marshalled", "statement": "MarshalGeo succeeds for every geometry type with finite coordinates, and UnmarshalGeo accepts what MarshalGeo produced.", "quantifier": "all geometries", "why_tests_cant": "Wrong helper for PolygonZ; Multi* are rejected on input.", "anchors": ["geojson/geojson.go:MarshalGeo"]}
{"id": "C58", "title": "UnmarshalGeo of malformed input is an error, not a panic", "statement": "UnmarshalGeo returns an error for every document whose coordinates have the wrong shape.", "quantifier": "all JSON values", "why_tests_cant": "Unchecked type assertions.", "anchors": ["geojson/geojson.go:UnmarshalGeo", "geojson/geojson.go:inter2Point"]}
{"id": "C59", "title": "Feature.SetBoundingBox sets the box", "statement": "After f.SetBoundingBox() the marshalled feature has a bbox member equal to BoundingBox(f.Geometry).", "quantifier": "all features", "why_tests_cant": "Value receiver.", "anchors": ["geojson/feature.go:SetBoundingBox"]}
{"id": "C60", "title": "Feature properties behave like a map with typed reads", "statement": "SetProperty then a typed read of the same key returns the value (or the type-mismatch error) and leaves other keys alone; PropertyMust* return the value or the default and never fail.", "quantifier": "all features, keys, values", "why_tests_cant": "All histories.", "anchors": ["geojson/properties.go"]}
{"id": "C61", "title": "Feature collections marshal to valid members", "statement": "The marshalled feature collection always has type FeatureCollection and a features array (never null) with the added features in order; empty bbox/crs are omitted; unmarshalling gives the same features back.", "quantifier": "all collections", "why_tests_cant": "nil versus empty.", "anchors": ["geojson/feature_collection.go"]}
{"id": "C62", "title": "UTM zone of a valid coordinate is a valid zone", "statement": "FromLatLon of any accepted latitude/longitude returns a zone number in 1..60 and a zone letter that ToLatLon accepts.", "quantifier": "all latitudes in [-80,84], longitudes in [-180,180]", "why_tests_cant": "Boundary values 180 and 84.", "anchors": ["utm.go:latLonToZoneNumber", "utm.go:latitudeToZoneLetter", "utm.go:ToLatLon"]}
{"id": "C63", "title": "UTM central meridian is within 3 degrees", "statement": "Outside the Norway/Svalbard exceptions the zone's central meridian is within 3 degrees of the longitude; inside them within 6 degrees; both up to 2^-44 degrees, the rounding of the zone computation.", "quantifier": "all valid coordinates", "why_tests_cant": "All reals.", "anchors": ["utm.go:zoneNumberToCentralLongitude"]}
{"id": "C64", "title": "UTM letter encodes the hemisphere", "statement": "The letter returned by FromLatLon tells ToLatLon the right hemisphere, with northern=true as with false.", "quantifier": "all valid coordinates", "why_tests_cant": "S means south in one convention and a northern band in the other.", "anchors": ["utm.go:FromLatLon", "utm.go:ToLatLon"]}
{"id": "C65", "title": "ToLatLon rejects exactly the invalid inputs", "statement": "ToLatLon errs iff both or neither of letter/northern are given, or easting, northing, zone or letter is out of range, and never panics.", "quantifier": "all inputs", "why_tests_cant": "Decision table over all inputs.", "anchors": ["utm.go:ToLatLon"]}
{"id": "C66", "title": "Datum shifts are the identity outside China", "statement": "WGS84toGCJ02 and GCJ02toWGS84 return their argument bit-exactly outside the China box (and for NaN).", "quantifier": "all float64 pairs", "why_tests_cant": "All inputs.", "anchors": ["lonlat.go:WGS84toGCJ02", "lonlat.go:GCJ02toWGS84"]}
{"id": "C67", "title": "SegmentRelation's verdict does not depend on order or direction", "statement": "SegmentRelation(s,t) = SegmentRelation(t,s), and reversing either segment does not change the verdict (INTERSECT, TOUCH or DISJOINT).", "quantifier": "all segment pairs over exact arithmetic", "why_tests_cant": "All quadruples of points; degenerate segments.", "anchors": ["relation.go:SegmentRelation"]}
{"id": "C68", "title": "LineRelation tells lines with a common point from lines without", "statement": "LineRelation(l,m) is INTERSECT iff the two line strings have a common point, otherwise DISJOINT.", "quantifier": "all pairs of line strings of any length", "why_tests_cant": "All lengths; T-junctions and collinear pieces.", "anchors": ["relation.go:LineRelation"]}
{"id": "C69", "title": "PolyRelation is INTERSECT iff the boundaries cross", "statement": "PolyRelation(p,q) is INTERSECT iff an edge of p's exterior ring properly crosses an edge of q's exterior ring.", "quantifier": "all pairs of closed rings", "why_tests_cant": "The loops stop one edge early in both rings.", "anchors": ["relation.go:PolyRelation", "relation.go:LinearPolyRelation", "relation.go:SegPolyRelation"]}
{"id": "C70", "title": "PolyRelation is DISJOINT for polygons that a line separates", "statement": "If two polygons lie strictly on different sides of a line (for instance have disjoint bounding boxes) PolyRelation is DISJOINT.", "quantifier": "all pairs of closed rings and separating lines", "why_tests_cant": "Edges on a common line are reported TOUCH at any distance.", "anchors": ["relation.go:PolyRelation"]}
{"id": "C71", "title": "Polygon.Verify accepts exactly the valid polygons", "statement": "Verify returns nil iff the exterior ring has at least three corners, every longitude X is in [-180,180] and latitude Y in [-90,90], the area is at least 1e-10 and no two edges cross.", "quantifier": "all closed rings", "why_tests_cant": "All rings; the range test has X and Y exchanged.", "anchors": ["polygon.go:Verify"]}
{"id": "C72", "title": "PointToLineDistance returns the perpendicular foot", "statement": "For a != b and a planar srid, PointToLineDistance(p,a,b) returns the foot of the perpendicular from p on the line ab, its parameter (0 at a, 1 at b, unclamped), and the least distance from p to the line.", "quantifier": "all points p and lines ab with a != b (exact arithmetic)", "why_tests_cant": "All positions of the point including beyond both ends.", "anchors": ["calcaulation.go:PointToLineDistance"]}
{"id": "C73", "title": "PointPolygonDistance is zero inside and the boundary distance outside", "statement": "PointPolygonDistance(p,poly) is 0 when the polygon is reported to contain or touch p; otherwise it is the least distance of p to a point of the exterior ring (closer than 2^31), also when the ring has repeated vertices.", "quantifier": "all points and all closed exterior rings of any size with a non-degenerate side (exact arithmetic)", "why_tests_cant": "Ring sizes are unbounded and degenerate sides give NaN distances that must not win.", "anchors": ["calcaulation.go:PointPolygonDistance"]}
{"id": "C74", "title": "ConvexHull is right for every finite list of points", "statement": "For every list of at least three points with finite coordinates - repeated points and long lists included - ConvexHull returns the convex hull of the points.", "quantifier": "all lists of points, of any length, with any repetitions", "why_tests_cant": "The sort's behaviour changes at 13 elements and depends on the order of the input; repeated points only matter in certain positions.", "anchors": ["convexhull.go:ConvexHull", "convexhull.go:hullPts.Less"]}
{"id": "C75", "title": "CacConvex tells left turns from right turns", "statement": "CacConvex(p1,p2,p3) returns 0 iff p1,p2,p3 turn left (a convex corner of an anticlockwise ring), 1 iff they turn right, 2 iff they are on a line, and an error iff p1 or p3 equals p2.", "quantifier": "all triples of points (real arithmetic)", "why_tests_cant": "All triples, through atan2 and a reduction modulo 2 pi.", "anchors": ["calcaulation.go:CacConvex"]}
{"id": "C76", "title": "DestinationPoint follows the great circle", "statement": "DestinationPoint(lat,lon,d,b) is the point reached from (lat,lon) along the great circle with bearing b after distance d, with latitude in [-90,90] and longitude in [-180,180); for 0<=d<=pi*R its CoordDistance from the start is d; and going from p for CoordDistance(p,q) with bearing GetAzimuth(p,q) leads to q.", "quantifier": "all start points, distances and bearings (real arithmetic)", "why_tests_cant": "Spherical trigonometry over all reals; poles and the date line.", "anchors": ["point.go:DestinationPoint", "point.go:CoordDistance", "angle.go:GetAzimuth"]}
{"id": "C77", "title": "Mbr is the least bounding rectangle", "statement": "Mbr(g) returns the rectangle of least area that contains all the points of g.", "quantifier": "all geometries with at least three points not on a line", "why_tests_cant": "All point sets; the loop over the sides and the truncation to four decimals.", "anchors": ["mbr.go:Mbr"]}
{"id": "C78", "title": "Normalize gives unit vectors", "statement": "Vector2.Normalize scales a non-zero vector to length one without changing its direction; the zero vector panics.", "quantifier": "all vectors (real arithmetic)", "why_tests_cant": "All reals.", "anchors": ["vector.go:Normalize", "vector.go:Divide"]}
{"id": "C79", "title": "WKT spacing", "statement": "Decode accepts the usual hand-written spacing: spaces around the text, between the keyword and the bracket, and after commas do not change the decoded Point(Z), LineString(Z) or MultiPoint(Z).", "quantifier": "all geometries of these types, all amounts of space in those places", "why_tests_cant": "Unbounded texts through trimming, replacing and a regular expression.", "anchors": ["wkt/decode.go:Decode"]}
{"id": "C80", "title": "WKT decoding loses no position", "statement": "When Decode accepts a LINESTRING text, the decoded line has one position per comma-separated term.", "quantifier": "all texts", "why_tests_cant": "Terms of different dimension are collected in two lists, of which one is dropped.", "anchors": ["wkt/decode.go:LineStringFromWKT"]}
{"id": "C81", "title": "The R-tree stays balanced and its boxes stay exact under deletions too", "statement": "In every tree reached by any history of Insert, Delete, DeleteWithComparator, DeleteBySpatialID and UpsertBySpatialID: all leaves are at depth Depth(), each node has at most MaxChildren entries, parent links agree with child links, each entry's box is exactly the union of its child's boxes, and GetAllBoundingBoxes lists one covering box per non-root node.", "quantifier": "all histories of calls, all MaxChildren >= 2", "why_tests_cant": "Condensing and re-insertion after deletions over unbounded histories.", "anchors": ["rtree.go:condenseTree", "rtree.go:DeleteWithComparator", "rtree.go:GetAllBoundingBoxes", "rtree.go:Depth"]}
{"id": "C82", "title": "MarshalGeo writes RFC 7946", "statement": "For every geometry type it supports, with finite coordinates, MarshalGeo writes exactly the geometry object of RFC 7946: the type, and the coordinates as arrays of positions nested as the RFC says, every vertex in order.", "quantifier": "all geometries without empty parts", "why_tests_cant": "All types, nesting depths and lengths; empty parts become null instead of an empty array.", "anchors": ["geojson/geojson.go:MarshalGeo", "geojson/geojson.go:ConvertPathSet", "geojson/geojson.go:ConvertPolygonSet"]}
{"id": "C83", "title": "UTM zone agrees with the standard grid", "statement": "FromLatLon returns the zone number of the standard UTM grid, in which every zone and band contains its western and southern edge.", "quantifier": "all valid coordinates", "why_tests_cant": "The edges of the Norway and Svalbard exceptions and rounding next to every edge.", "anchors": ["utm.go:latLonToZoneNumber"]}
{"id": "C84", "title": "Central meridian", "statement": "A point on the central meridian of its zone gets easting 500000, and ToLatLon takes easting 500000 back to the central meridian.", "quantifier": "all latitudes and zones, exact arithmetic", "why_tests_cant": "All reals.", "anchors": ["utm.go:FromLatLon", "utm.go:ToLatLon"]}
{"id": "C85", "title": "UTM is symmetric", "statement": "Mirroring a point at the central meridian mirrors its easting about 500000 and keeps its northing; mirroring it at the equator keeps the easting and mirrors the northing (10000000 minus it). ToLatLon does the same in reverse.", "quantifier": "all coordinates, exact arithmetic", "why_tests_cant": "All reals.", "anchors": ["utm.go:FromLatLon", "utm.go:ToLatLon"]}
{"id": "C86", "title": "Northing grows with latitude", "statement": "Along the central meridian the northing grows strictly with the latitude on each hemisphere, and the equator has northing 0.", "quantifier": "all pairs of latitudes, exact arithmetic", "why_tests_cant": "All pairs of reals.", "anchors": ["utm.go:FromLatLon"]}
{"id": "C87", "title": "ToLatLon accepts what FromLatLon returns", "statement": "Easting, northing, zone number and letter returned by FromLatLon are accepted by ToLatLon.", "quantifier": "all valid coordinates, exact arithmetic", "why_tests_cant": "Bounds of a series over all reals.", "anchors": ["utm.go:FromLatLon", "utm.go:ToLatLon"]}
{"id": "C88", "title": "GCJ02 shift is small", "statement": "WGS84toGCJ02 and GCJ02toWGS84 move no point by more than 0.0161 degrees of longitude or 0.0052 degrees of latitude.", "quantifier": "all coordinates, exact arithmetic", "why_tests_cant": "Maximum of a trigonometric function over a region.", "anchors": ["lonlat.go:WGS84toGCJ02", "lonlat.go:GCJ02toWGS84"]}
{"id": "C89", "title": "GCJ02 round trip", "statement": "Converting WGS84 to GCJ02 and back (or the reverse) returns a point inside China to within 0.00015 degrees of longitude and 0.00006 degrees of latitude, and points outside China exactly.", "quantifier": "all coordinates, exact arithmetic", "why_tests_cant": "Bound over a region.", "anchors": ["lonlat.go:WGS84toGCJ02", "lonlat.go:GCJ02toWGS84"]}
{"id": "C90", "title": "BD09 shift and round trip", "statement": "GCJ02toBD09 moves a point by (0.0065, 0.006) up to 0.00002 degrees plus 0.000003 times its distance to the origin; converting there and back, or back and there, returns every point up to 53 times the square of that, 0.000021 degrees at most for valid coordinates.", "quantifier": "all coordinates, exact arithmetic", "why_tests_cant": "Bound over the plane.", "anchors": ["lonlat.go:GCJ02toBD09", "lonlat.go:BD09toGCJ02"]}
{"id": "C91", "title": "WGS84 to BD09 and back", "statement": "Converting WGS84 to BD09 and back returns a point inside China to within 0.00018 degrees of longitude and 0.00009 degrees of latitude.", "quantifier": "all coordinates inside China, exact arithmetic", "why_tests_cant": "Bound over a region.", "anchors": ["lonlat.go:WGS84toBD09", "lonlat.go:BD09toWGS84"]}
{"id": "C92", "title": "Segments, lines and polygons against a convex polygon", "statement": "For a strictly convex polygon, SegPolyRelation is CONTAIN for a segment with both ends inside, INTERSECT or UNKNOWN with one end inside and one outside, DISJOINT when the segment lies beyond one side; LinePolyRelation and PolyRelation are CONTAIN when every vertex is inside.", "quantifier": "all strictly convex polygons with any number of corners, all segments, lines and polygons clear of the boundary by 1e-6 (exact arithmetic)", "why_tests_cant": "Combines an unbounded crossing count with a loop over all sides.", "anchors": ["relation.go:SegPolyRelation", "relation.go:LinePolyRelation", "relation.go:PolyRelation"]}
{"id": "C93", "title": "Point accessors point into the line", "statement": "GetPoint(i) is a pointer to point i of the line, through which point i can be changed, and nil at or past the end; a negative index panics; GetFirstPoint and GetEndPoint point at the first and last point of a line of two or more points and are nil for shorter lines.", "quantifier": "all lines in memory, all indices", "why_tests_cant": "Ranges over all lines and sharing of backing arrays.", "anchors": ["lineString.go:GetPoint", "lineString.go:GetFirstPoint", "lineString.go:GetEndPoint"]}
{"id": "C94", "title": "UTM round trip is within a metre", "statement": "For every position FromLatLon accepts (away from the date line and the top edge), ToLatLon with the returned easting, northing, zone and letter succeeds and gives the latitude back within 1.5e-6 degrees and the longitude within 7.5e-6 degrees; in the widened zones of Norway and Svalbard both come back within 1.1e-5 degrees. (Errors above 6.8e-6 degrees do occur.)", "quantifier": "all accepted latitudes below 84 and longitudes up to 180 - 2^-44, exact arithmetic", "why_tests_cant": "A round trip of two truncated series over a continuum of positions; samples cannot bound the worst error.", "anchors": ["utm.go:FromLatLon", "utm.go:ToLatLon"]}
{"id": "C95", "title": "Every geometry in a random-id tree has its own id", "statement": "NewRandomIDTree stores every geometry it is given, each under an id different from all others in the tree, and window searches return exactly the geometries that meet the window. InsertWithRandomId adds a geometry under an id that no other object of the tree has.", "quantifier": "all lists of geometries, all clock readings at which the calls are made, all sequences of insertions", "why_tests_cant": "The ids are built from the system clock: whether two calls collide depends on the clock's resolution and steps, which a test run does not control.", "anchors": ["rtree.go: NewRandomIDTree, InsertWithRandomId"]}
{"id": "C96", "title": "Geohash cells contain their points", "statement": "For a point with X = longitude and Y = latitude in degrees, GeohashEncode returns a code of the requested length whose GeohashGetBoundary contains the point and GeohashGetCenter; encoding the centre again gives the same code; GeohashGetAllNeighbors lists the codes of the eight cells around it in the order N, NE, E, SE, S, SW, W, NW. The srid has no influence.", "quantifier": "all points with -180 <= X < 180, -90 <= Y < 90, all precisions up to 12, all srids, every geohash library that satisfies its documentation", "why_tests_cant": "An axis swapped in one of the wrappers goes unnoticed near the diagonal and for symmetric samples; the statement ranges over all points.", "anchors": ["geohash.go: GeohashEncode, GeohashGetCenter, GeohashGetBoundary, GeohashGetAllNeighbors"]}
{"id": "C97", "title": "S2 cells contain their centres", "statement": "For a point with X = longitude and Y = latitude in degrees and srid 4326, S2GetCellID returns a non-zero cell id; S2GetCenter of it is a point whose S2GetCellID at the same level is the same id; S2GetBoundary has four corners; centre and corners have the longitude in X. With any other srid the results are 0, nil, nil and empty.", "quantifier": "all points on the globe, all levels 0..30, all cell ids, all srids, every S2 library that satisfies the stated contract", "why_tests_cant": "Axis order and srid handling must be right for all inputs; a sample near the diagonal hides a swap.", "anchors": ["googleS2.go: S2GetCellID, S2GetCenter, S2GetBoundary, S2GetAllNeighbors"]}
{"id": "C98", "title": "S2RegionCoverer does not depend on orientation and leaves the polygon alone", "statement": "S2RegionCoverer hands the library the exterior ring in counter-clockwise order whichever way it is given, so a polygon and its reversal are covered by the same cells, and it does not modify the polygon.", "quantifier": "all polygons with a closed exterior ring of non-zero area, all levels, all memory layouts of the rings", "why_tests_cant": "The modification is a side effect on memory shared with the caller, invisible in the returned ids; orientation must be handled for every ring.", "anchors": ["googleS2.go: S2RegionCoverer, toLoop", "polygon.go: IsCCW"]}
{"id": "C99", "title": "Constructors, setters and views do what they say", "statement": "NewPoint, NewPointZ and NewBox store their arguments in order; SetX, SetY and SetZ change that coordinate only; a Vector2 equals its Clone; GetPointSet, ToLineString and GetExteriorPoints show the same points as the line or ring itself, at all times; GetFirstPoint and GetEndPoint of a non-empty Z line are its first and last point.", "quantifier": "all values including NaN, all lines in memory", "why_tests_cant": "Ranges over all values, lines and later writes through shared arrays.", "anchors": ["point.go:SetX", "pointZ.go:SetZ", "box.go:NewBox", "vector.go:Equal", "vector.go:Clone", "lineString.go:GetPointSet", "lineStringZ.go:GetFirstPoint", "linearRing.go:ToLineString", "polygon.go:GetExteriorPoints"]}
{"id": "C100", "title": "The float64 crossing predicates are exact away from degenerate positions", "statement": "For finite coordinates up to M (1 \u2264 M \u2264 2^100), if no end of one segment is within a tiny distance of the line of the other (the parallelogram they span has area over M\u00b2/2^46), SegmentRelation as computed in float64 returns INTERSECT exactly when the segments truly cross and DISJOINT exactly when they have no common point; and under the same condition on the sides involved LineRelation, SelfIntersect and PolyRelation in float64 give the verdict of exact geometry. Two consecutive segments of a path are never reported INTERSECT, whatever the coordinates.", "quantifier": "all float64 coordinates within the size bound meeting the clearance condition, all lines and rings of any length, every rounding of every operation", "why_tests_cant": "Rounding depends on every bit of every coordinate; no sample covers the space of float64 inputs, and the bound must hold for all of them.", "anchors": ["relation.go:SegmentRelation", "relation.go:LineRelation", "polygon.go:SelfIntersect", "relation.go:PolyRelation", "vector.go:Cross"]}
{"id": "C101", "title": "The float64 point-in-polygon answer is exact away from the boundary", "statement": "For finite coordinates up to 2^26, a point other than the origin that is at least 2e-6 away from the boundary horizontally and not less than 1e-6 below any corner gets from IsPointInPolygon in float64 the verdict of exact arithmetic; this verdict follows the even-odd rule on the ray to the right, so for a strictly convex ring it is CONTAIN strictly inside and DISJOINT strictly outside.", "quantifier": "all float64 points and rings of any number of corners within the size bound and clearances, every rounding of every operation", "why_tests_cant": "Rounding depends on every bit of every coordinate and rings have any length; a sample of inputs says nothing about the rest.", "anchors": ["contain.go:IsPointInPolygon"]}
{"id": "C102", "title": "The float64 area and orientation are close to exact", "statement": "For a closed ring of n \u2264 2^20 finite corners with coordinates up to M (1 \u2264 M \u2264 2^100), GetArea in float64 differs from the true area of the exterior ring by at most n(n+5)M\u00b2/2^53; whenever the true area exceeds that bound IsCCW is right; and reversing the ring changes the computed area by at most twice the bound.", "quantifier": "all float64 rings within the size bounds, every rounding of every operation", "why_tests_cant": "The rounding errors of n additions accumulate in ways that depend on all bits of all corners.", "anchors": ["calcaulation.go:GetArea", "polygon.go:IsCCW"]}
{"id": "C103", "title": "The float64 distance and length are close to exact", "statement": "For finite coordinates up to 2^100 the distance of two points computed by EuclideanDis, Point.Distance or EuclideanDistance in float64 is finite, not negative and within the fraction 2^-49 (plus 2^-120) of the true distance; the length of a line of n \u2264 2^20 segments with coordinates up to M is within n(4n+50)M/2^53 of the true length.", "quantifier": "all float64 points and lines within the size bounds, every rounding of every operation, square root included", "why_tests_cant": "Rounding depends on every bit of every coordinate, errors accumulate over lines of any length; a sample of float64 inputs says nothing about the rest.", "anchors": ["point.go:EuclideanDis", "calcaulation.go:EuclideanDistance", "lineString.go:Length"]}
{"id": "C104", "title": "The float64 distance to a segment is close to exact", "statement": "For finite coordinates up to M (1 \u2264 M \u2264 2^99) and a segment whose ends are at least 2^-40 apart, PointToSegmentDistance in float64 returns a point within M/2^46 of the point of the segment truly nearest and a distance within M/2^46 of the true one (planar SRID).", "quantifier": "all float64 points and segments within the size bounds, every rounding of every operation", "why_tests_cant": "Rounding depends on every bit of every coordinate, errors accumulate over lines of any length; a sample of float64 inputs says nothing about the rest.", "anchors": ["calcaulation.go:PointToSegmentDistance", "calcaulation.go:PointDistance"]}
{"id": "C105", "title": "Nearest-point searches and Hausdorff distance in float64 are close to exact", "statement": "For finite coordinates up to M (1 \u2264 M \u2264 2^28) and segments that are single points or at least 2^-40 long: PointPolygonDistance of a point reported disjoint is within M/2^46 of the true distance to the exterior boundary; PointHitLineString returns a distance within M/2^46 of the true distance to the line and a point within M/2^46 of the segment it names; HausdorffDistance is within M/2^47 of the true discrete Hausdorff distance. For a strictly convex ring and a point 2e-6 clear of it, PointPolygonDistance is 0 inside and close to the true distance outside (planar SRID).", "quantifier": "all float64 points, lines and rings of any length within the bounds, every rounding of every operation", "why_tests_cant": "Rounding depends on every bit of every coordinate, errors accumulate over lines of any length; a sample of float64 inputs says nothing about the rest.", "anchors": ["calcaulation.go:PointPolygonDistance", "calcaulation.go:PointHitLineString", "calcaulation.go:HausdorffDistance"]}
{"id": "C106", "title": "WKT coordinates are read to the nearest float64", "statement": "Decode of a POINT or LINESTRING text whose coordinates are decimal numerals (optional minus, digits, optional point, any number of digits) returns a geometry with one position per term, in order, whose coordinates are the float64 numbers nearest to the written values. If a value is too large (at least 2^1024 - 2^970 in magnitude) Decode returns an error; it never returns an infinity for such a text.", "quantifier": "all numerals of any length, all lines of any length", "why_tests_cant": "Unbounded digit strings; correct rounding of every one of them.", "anchors": ["wkt/decode.go:Decode", "wkt/decode.go:PointFromWKT", "wkt/decode.go:LineStringFromWKT"]}
{"id": "C107", "title": "GeoJSON text round trip in float64", "statement": "The bytes MarshalGeo returns for a geometry with finite coordinates and no empty part are a JSON text (RFC 8259) of its RFC 7946 object, in which every coordinate is written as a number whose nearest float64 is that coordinate. Reading the bytes with json.Unmarshal and UnmarshalGeo gives a Point, PointZ, LineString, LineStringZ or Polygon back to the last bit. The same holds for features and feature collections of plain values (nil, booleans, finite numbers, strings, slices and maps of them) up to what C61 says is lost. NewFeature, which goes through the text, keeps the object of every geometry that MarshalGeo accepts.", "quantifier": "all geometries, features and collections of any size with any finite float64 coordinates, including subnormal and very large ones", "why_tests_cant": "All 2^64 float64 values, any number of positions, any property values; the decimal notation switches between plain and exponent form and must be shortest and read back in every case.", "anchors": ["geojson/geojson.go:MarshalGeo", "geojson/geojson.go:UnmarshalGeo", "geojson/feature.go:NewFeature", "geojson/feature.go:Feature.MarshalJSON", "geojson/feature.go:UnmarshalFeature", "geojson/feature_collection.go:FeatureCollection.MarshalJSON", "geojson/feature_collection.go:UnmarshalFeatureCollection"]}
{"id": "C108", "title": "GeoJSON text from elsewhere is read for what it says", "statement": "json.Unmarshal into a GeoJson, UnmarshalFeature and UnmarshalFeatureCollection accept only JSON texts of at most 10000 levels of nesting; white space, escapes in strings and the notation of numbers make no difference. A text of an RFC 7946 Point, LineString or Polygon with decimal coordinates of any number of digits, with or without an exponent (of magnitude below 10000), is read as that geometry with every coordinate replaced by a nearest float64. A text with a number out of range (magnitude at least 2^1024 - 2^970) in a member that is read is rejected.", "quantifier": "all texts, all documents, all numbers", "why_tests_cant": "Unbounded texts, digits, white space and nesting; a parser must be right on every one.", "anchors": ["geojson/geojson.go:UnmarshalGeo", "geojson/feature.go:UnmarshalFeature", "geojson/feature_collection.go:UnmarshalFeatureCollection"]}
{"id": "C109", "title": "Foreign members have no effect", "statement": "A member whose name is not one that RFC 7946 (with crs) defines for the object can be added anywhere to a GeoJSON geometry object, feature or feature collection without changing what json.Unmarshal into a GeoJson, UnmarshalFeature or UnmarshalFeatureCollection returns. (False as stated: a name that differs from a standard name only in case takes its place.)", "quantifier": "all documents, all member names, all member values, all positions", "why_tests_cant": "Any name and value at any position of any document; case variants include the non-ASCII long s and Kelvin sign.", "anchors": ["geojson/geojson.go:GeoJson", "geojson/feature.go:UnmarshalFeature", "geojson/feature_collection.go:UnmarshalFeatureCollection"]}
{"id": "C110", "title": "The last of repeated members decides", "statement": "When a member name occurs more than once in a GeoJSON geometry object or feature, the result is the same as if only its last occurrence were there. (False for geometry, properties and crs, whose occurrences are merged; true for coordinates, geometries, id, and type with strings.)", "quantifier": "all documents with repeated members at any positions", "why_tests_cant": "Unbounded documents and any members in between.", "anchors": ["geojson/geojson.go:GeoJson", "geojson/feature.go:UnmarshalFeature"]}
{"id": "C111", "title": "The text of a feature does not depend on the order in which properties were set", "statement": "Two series of SetProperty calls on a new feature that leave the same value under every key give byte-for-byte the same MarshalJSON text (or both an error).", "quantifier": "all geometries, all series of calls of any length, all values", "why_tests_cant": "All interleavings of any number of calls; Go map iteration is randomised.", "anchors": ["geojson/properties.go:SetProperty", "geojson/feature.go:NewFeature", "geojson/feature.go:Feature.MarshalJSON"]}
{"id": "C112", "title": "Simplification in float64 stays within the threshold up to rounding", "statement": "For an open line with finite coordinates up to M (1 <= M <= 2^99) whose points are equal or at least 2^-40 apart, and a finite threshold t >= 0, DouglasPeuckerSimplify run in float64 returns a subsequence with both end points, and every removed point is truly within t + M/2^46 of the segment joining its kept neighbours.", "quantifier": "all such lines, all thresholds >= 0, every growth policy of append and every correct sort", "why_tests_cant": "The bound on the accumulated rounding error must hold for every line; degenerate chords appear only through rounding.", "anchors": ["simplify.go:DouglasPeuckerSimplify", "simplify.go:dpWorker", "calcaulation.go:PointToSegmentDistance"]}
{"id": "C113", "title": "ConvexHull in float64 is the true hull", "statement": "For at least three float64 points, no two within 1e-6 of each other, ConvexHull returns the closed ring through the corners of their true convex hull if the coordinates are multiples of a power of two with at most 25 bits (integers up to 2^25, for instance, collinear points included), or if any three points span a triangle of area at least M^2/2^48, M the largest coordinate.", "quantifier": "all such lists of points, every sort that meets its contract (Go 1.15's for up to 12 points)", "why_tests_cant": "Every turn predicate of every run must have the right sign in spite of rounding, for all inputs.", "anchors": ["convexhull.go:ConvexHull", "convexhull.go:hullPts.Less", "convexhull.go:Area2", "convexhull.go:isLeft"]}
{"id": "C114", "title": "On a grid, relations, areas and containment in float64 are exact", "statement": "For coordinates that are multiples of a power of two with at most 24 bits (integers up to 2^24, for instance), the relation of two segments and of two lines, SelfIntersect and PolyRelation give in float64 the answers of exact arithmetic, in touching and collinear positions too. The area and the orientation of a ring of n corners with B-bit coordinates are exact if n times 2^(2B+1) is at most 2^53. With at most 17 bits, before and after the binary point together, a point other than the origin that is on no side of a ring gets the exact answer of IsPointInPolygon. Polygon.Verify accepts the polygons it accepts in exact arithmetic, under both limits and with at most 20 bits after the binary point.", "quantifier": "all segments, lines, rings of any size and points on such a grid", "why_tests_cant": "Degenerate positions are where rounding usually goes wrong; that it never does on a grid ranges over about 2^200 pairs of segments.", "anchors": ["relation.go:SegmentRelation", "relation.go:LineRelation", "relation.go:PolyRelation", "polygon.go:SelfIntersect", "calcaulation.go:GetArea", "contain.go:IsPointInPolygon"]}
{"id": "C115", "title": "Numbers are written with the fewest digits, and texts of up to 15 digits are kept", "statement": "Encode writes a finite float64 as a decimal without needless zeros and with at most 17 significant digits, which is read back as the same number; no numeral with fewer significant digits is read as that number. Hence a WKT point, line or multipoint, or a GeoJSON point or polygon, whose coordinates are written without needless zeros and with at most 15 significant digits (zero, or between 1e-307 and the largest float64; in GeoJSON between 1e-6 and 1e21) is decoded and encoded to the very same text. With 16 digits this fails.", "quantifier": "all finite float64 values; all numerals as described; lists of positions and rings of any length", "why_tests_cant": "That no shorter numeral exists ranges over all numerals for each of 2^64 values; the texts are about 10^15 per coordinate and unboundedly many.", "anchors": ["wkt/encode.go:Encode", "wkt/encode.go:GeometryToWktString", "wkt/decode.go:Decode", "geojson/geojson.go:MarshalGeo", "geojson/geojson.go:UnmarshalGeo"]}
{"id": "C116", "title": "The depth of a tree is logarithmic in the number of its objects", "statement": "Depth, the number of levels a search goes through, is at least 1, and a tree of depth d holds at most max^d objects, whatever calls have been made. A tree of depth d > 1 built by Insert with 1 <= min and 2*min <= max holds at least 2*min^(d-1) objects, so for min >= 2 its depth is at most log_min(n/2)+1. A tree bulk-loaded by NewMinMaxTree with n > max objects has max^(d-1) <= n <= max^d. Deletions should keep such a bound; they do not: a deletion can leave a tree far deeper than its size allows, and can even increase Depth.", "quantifier": "all parameters min and max, all lists of objects, all histories of calls; up to 2^40 objects for bulk loading in float64", "why_tests_cant": "It relates the depth to the number of objects for trees of every size and after every history; tests see a few trees.", "anchors": ["rtree.go:Insert", "rtree.go:Delete", "rtree.go:condenseTree", "rtree.go:bulkLoad", "rtree.go:NewMinMaxTree", "rtree.go:Depth", "rtree.go:Size"]}
{"id": "C117", "title": "Vectors obey the laws of plane vector algebra", "statement": "Add, Sub, Multiply and Divide of Vector2 are the sum, the difference and the multiples by k and 1/k, so that (a+b)-b = a, sums do not depend on order or grouping, and dividing by k and multiplying by k changes nothing; Divide by zero panics. Length is the distance from the origin, LengthSq its square and the dot product of the vector with itself; the dot product is zero exactly for perpendicular vectors, the cross product exactly for parallel ones, and Dot^2 + Cross^2 is the product of the squared lengths; the length of a sum is at most the sum of the lengths. In float64 the coordinates of sums, differences and multiples are the nearest numbers, everything is exact on a grid of 26-bit coordinates, and the laws of inverses fail in general.", "quantifier": "all vectors and scalars, in exact arithmetic and in float64", "why_tests_cant": "The laws relate all pairs of vectors; where rounding breaks them cannot be seen on integer examples.", "anchors": ["vector.go:Add", "vector.go:Sub", "vector.go:Multiply", "vector.go:Divide", "vector.go:Dot", "vector.go:Cross", "vector.go:Length", "vector.go:LengthSq"]}
{"id": "C118", "title": "Malformed points, lines and multipoints are rejected", "statement": "Decode of POINT(...), LINESTRING(...) or MULTIPOINT(...) with any words between the brackets returns a geometry only if every word is a number and every position has two, or every position has three of them; the geometry then has exactly these positions. In all other cases it returns an error.", "quantifier": "all lists of positions, each a list of arbitrary words without white space, commas and brackets, for any syntax of numbers", "why_tests_cant": "It ranges over all malformed texts, of which tests hold a few.", "anchors": ["wkt/decode.go:Decode", "wkt/decode.go:PointFromWKT", "wkt/decode.go:LineStringFromWKT", "wkt/decode.go:MultiPointFromWKT"]}
{"id": "C119", "title": "Centroids in float64 are close to the exact ones", "statement": "Centroid of a polygon computed in float64 differs from the exact area-weighted centroid of its outer ring only by rounding: by a bounded small number of units in the last place of the coordinates, whatever the size and place of the polygon. Centroid of a multipoint differs from the exact mean of its points by at most (n+3) units of 2^-53 of the largest coordinate.", "quantifier": "all closed rings and all non-empty multipoints of float64 coordinates (bounded in size so that nothing overflows)", "why_tests_cant": "Rounding errors accumulate over every vertex and depend on the place of the polygon; tests hold a few polygons.", "anchors": ["calcaulation.go:Centroid", "calcaulation.go:polyCentroid", "calcaulation.go:pointsCenteriod"]}
{"id": "C120", "title": "A window search misses no geometry that reaches into the window", "statement": "After any history of calls SearchIntersect(box) returns every stored object whose geometry (points, paths of lines, boundary and inside of polygon rings) has a place in the box; SearchIntersect(BoundingBox(g)) returns every stored object that has a place in common with g. The same holds for bulk-loaded trees.", "quantifier": "all histories, all windows, all stored two-dimensional geometries, all places of the plane, in float64 and exactly", "why_tests_cant": "The places of a geometry are infinitely many and the histories unbounded.", "anchors": ["rtree.go:Rtree.SearchIntersect", "box.go:BoundingBox", "box.go:Box.Intersect", "rtree.go:Rtree.Insert"]}
{"id": "C121", "title": "The index and IsPointInPolygon agree on which polygons contain a point", "statement": "If IsPointInPolygon(p, poly) answers CONTAIN for a stored polygon, then SearchIntersect(BoundingBox(p)) returns that polygon.", "quantifier": "all histories, all stored polygons, all points", "why_tests_cant": "It relates two algorithms on all polygons and points.", "anchors": ["rtree.go:Rtree.SearchIntersect", "contain.go:IsPointInPolygon", "box.go:BoundingBox"]}
{"id": "C122", "title": "NearestNeighbors finds the nearest objects in float64, up to rounding", "statement": "NearestNeighbors(k, p) returns min(k, size) of the stored objects; in terms of exact distances, the box of a returned object reaches at least as close to p as any point of an object left out, up to a relative error of 2^-48 in the squared distance, and not at all in error when the coordinates are multiples of a power of two of at most 25 bits; a returned point itself is that close.", "quantifier": "all histories, all k \u2265 1, all query points and stored geometries with finite coordinates up to 2^31, all behaviours of the sort", "why_tests_cant": "The pruning and the sorting act on rounded squared distances; that no rounding lets a nearer object be dropped concerns all trees and coordinates.", "anchors": ["rtree.go:Rtree.NearestNeighbors", "box.go:BoundingBox", "rtree.go:minDist"]}
{"id": "C123", "title": "PointToLineDistance in float64 is close to exact", "statement": "For finite coordinates of at most M (1 \u2264 M \u2264 2^97) and two points at least 2^-40 apart, PointToLineDistance with a planar srid returns a point within M/2^46 of the foot of the perpendicular on the line through them, a distance within M/2^46 of the least distance to the line, and the parameter of the foot up to M/2^47 divided by the distance of the two points.", "quantifier": "all points, all lines through two points that far apart, all planar srids", "why_tests_cant": "It bounds the rounding of four subtractions, a quotient of sums of products and a square root for all inputs.", "anchors": ["calcaulation.go:PointToLineDistance", "calcaulation.go:PointDistance"]}
{"id": "C124", "title": "A search condition may have effects", "statement": "SearchIntersectWithCond calls a condition that does not change the tree exactly once for each object that the search without condition returns, in that order, keeps those for which it says yes, and panics exactly when one of these calls does. (A condition that deletes objects of the tree makes the search miss some and return others twice.)", "quantifier": "all trees reached by insertions, deletions and upserts, all windows, all conditions with any private state, effects and panics", "why_tests_cant": "Conditions are arbitrary code; a test runs a few of them on a few trees.", "anchors": ["rtree.go:SearchIntersectWithCond", "rtree.go:searchIntersectWithCond", "rtree.go:Condition"]}
{"id": "C125", "title": "Queries may run in several goroutines at once", "statement": "When any number of goroutines call SearchIntersect, SearchIntersectWithCond, SearchBySpatialID, NearestNeighbors, GetAllBoundingBoxes, Size and Depth on one tree at the same time, every call returns what it returns when it runs alone, the tree does not change, and every call ends. (An insertion at the same time, even under a lock that the queries do not take, can make a search miss an object that is in the tree all the time.)", "quantifier": "all trees, all numbers of goroutines and queries, all schedules of their single memory accesses", "why_tests_cant": "The number of schedules grows exponentially with the accesses; a test sees a few of them.", "anchors": ["rtree.go:SearchIntersect", "rtree.go:SearchIntersectWithCond", "rtree.go:SearchBySpatialID", "rtree.go:NearestNeighbors", "rtree.go:GetAllBoundingBoxes", "rtree.go:Size", "rtree.go:Depth"]}
{"id": "C126", "title": "Collections show their features as they are now", "statement": "AddFeature stores a pointer and Feature.Properties is a map, so after any calls of NewFeature, UnmarshalFeature, SetProperty, NewFeatureCollection, AddFeature and any copies of the structs, in any order: a feature is what it was created as with the properties set on it, or on a copy that shares its map (copies made while the map is not nil do, others do not); a collection holds the features added to it, in order, in their present state, so properties set after AddFeature are printed; a collection that was copied keeps what it had when the original is added to. In a program that copies no structs the order of AddFeature and SetProperty does not matter. The limits of this are part of the claim: adding to a copy of a collection can replace features of the original (they share the backing array), and SetProperty on a copy of a feature changes the original.", "quantifier": "all histories of calls on existing features and collections, all features, keys and values, all growth policies of append; for collections, all histories in which nothing is added to a copy", "why_tests_cant": "aliasing depends on the whole history of copies, on whether a map was nil at the time of a copy and on the spare capacity append left", "anchors": ["geojson/feature_collection.go:AddFeature", "geojson/feature_collection.go:NewFeatureCollection", "geojson/feature.go:NewFeature", "geojson/properties.go:SetProperty"]}
{"id": "C127", "title": "Printed GeoJSON is one compact line that is safe inside HTML", "statement": "Whatever geometry, feature or collection is printed, with whatever strings in its properties, the text contains no control character (so no line break), none of <, > and &, and neither of the line separators U+2028 and U+2029, so it can be written on one line and put inside a script element; outside its strings it contains no blanks. A string property whose name and value have no such characters, quotes or backslashes stands in the text exactly as it is.", "quantifier": "all geometries, features and collections of float64 that are printed without an error (integers in properties in the range of int), all strings", "why_tests_cant": "properties hold arbitrary Unicode strings at arbitrary depth; a single unescaped character breaks the guarantee", "anchors": ["geojson/geojson.go:MarshalGeo", "geojson/feature.go:MarshalJSON", "geojson/feature_collection.go:MarshalJSON"]}
{"id": "C128", "title": "A box around a point misses nothing within its distances", "statement": "NewRectBox(p, rx, ry) contains every point at most rx away from p along x and ry along y (in exact arithmetic exactly those), although its sides are rounded; searching an R-tree with it returns every stored object whose geometry has a place within these distances, so the search with NewRectBox(p, r, r) returns every object with a place at distance at most r.", "quantifier": "all finite centres and distances, all points, all histories of insertions and deletions and all bulk loads, all stored two-dimensional geometries, in float64 and exactly", "why_tests_cant": "The sides are rounded sums; a miss would need one particular rounding, and the places of a geometry are infinitely many.", "anchors": ["box.go:NewRectBox", "box.go:IsPointInBox", "rtree.go:Rtree.SearchIntersect"]}
{"id": "C129", "title": "IsPointOnLine decides whether a point is on the line", "statement": "IsPointOnLine(p, line) is true iff p lies on one of the segments of the line.", "quantifier": "all points and lines", "why_tests_cant": "Ranges over all lines and points; the one point for which the code may answer true is the origin.", "anchors": ["relation.go:IsPointOnLine", "relation.go:IsPointOnSegment", "box.go:BoundingBox"]}
{"id": "C130", "title": "Ring edits of a polygon behave like list edits", "statement": "Any sequence of SetExteriorRing and AddInteriorRing calls (AddPolygon for multi-polygons) on a polygon runs without a panic and leaves the rings that the same edits of a plain list give; GetExteriorRing is the first ring, GetInteriorRing the others; polygons in other arrays, and copies of the polygon, are unaffected.", "quantifier": "all polygons in memory with any capacity, all sequences of edits, all growth policies of append", "why_tests_cant": "Depends on capacities and on which slices share an array.", "anchors": ["polygon.go:SetExteriorRing", "polygon.go:AddInteriorRing", "polygon.go:GetInteriorRing", "polygon.go:AddPolygon", "polygonZ.go:SetExteriorRing"]}
{"id": "C131", "title": "GCJ02 and BD09 conversions are the published ones", "statement": "Inside China WGS84toGCJ02 adds, and GCJ02toWGS84 subtracts, the published GCJ-02 shift: the metre-valued polynomials and sines about (105, 35), turned into degrees with the radii of curvature of the Krasovsky ellipsoid. GCJ02toBD09 and BD09toGCJ02 are the published changes of distance and direction from the origin, everywhere. WGS84toBD09 is their composition.", "quantifier": "all coordinates (exact arithmetic)", "why_tests_cant": "A test compares a few positions; a wrong coefficient of a term that is small there goes unnoticed. The claim is about every position.", "anchors": ["lonlat.go:WGS84toGCJ02", "lonlat.go:GCJ02toWGS84", "lonlat.go:GCJ02toBD09", "lonlat.go:BD09toGCJ02", "lonlat.go:WGS84toBD09", "lonlat.go:delta", "lonlat.go:transformlat", "lonlat.go:transformlng"]}
{"id": "C132", "title": "UTM conversions compute the transverse Mercator series", "statement": "FromLatLon computes easting and northing by the series of Snyder's Map Projections (8-9, 8-10, 3-21) on the WGS84 ellipsoid with scale 0.9996, false easting 500000 and false northing 10000000 in the south, from the central meridian of the returned zone; ToLatLon computes the inverse series (8-17, 8-18, 3-26).", "quantifier": "all accepted coordinates (exact arithmetic)", "why_tests_cant": "A round-trip test does not see an error that both directions share, and known positions exercise few terms of the series.", "anchors": ["utm.go:FromLatLon", "utm.go:ToLatLon"]}
{"id": "C133", "title": "Northing measures the meridian", "statement": "For a point on the central meridian of its zone, the northing FromLatLon returns is 0.9996 times the length of the meridian of the WGS84 ellipsoid from the equator to the point (negative in the south, plus 10000000), to within a centimetre.", "quantifier": "all accepted latitudes on all central meridians (exact arithmetic)", "why_tests_cant": "The true length is an elliptic integral; tests compare with tables for a few latitudes.", "anchors": ["utm.go:FromLatLon"]}
{"id": "C134", "title": "Area and centroid of a convex polygon are those of the region it bounds", "statement": "GetArea of a polygon whose ring is strictly convex is the Lebesgue measure of the region inside it, whichever way round the ring is written, and Centroid is the mean position over that region.", "quantifier": "all strictly convex rings with any number of corners, exact arithmetic on real coordinates", "why_tests_cant": "A test compares the result of the shoelace sum with a few known areas. That the sum is the measure of the region, and the centroid its centre of mass, is a statement about every convex ring.", "anchors": ["calcaulation.go:GetArea", "calcaulation.go:MultiPolyArea", "calcaulation.go:polyCentroid", "calcaulation.go:pointsCenteriod"]}
{"id": "C135", "title": "Area, orientation and centroid of any ring are given by its winding number", "statement": "For every ring, whether or not it is convex or crosses itself, GetArea is the absolute value of the integral of the winding number over the plane, the ring is reported counter-clockwise exactly if that integral is positive, and Centroid is the mean position weighted by the winding number if the integral is not zero. If the ring goes round no point off it more than once and always in the same direction, GetArea is the Lebesgue measure of the points inside by the even-odd rule, the rule IsPointInPolygon uses.", "quantifier": "all rings, exact arithmetic on real coordinates", "why_tests_cant": "Rings can have any shape and number of corners; the claim ties the sum over the corners to an integral over the plane.", "anchors": ["calcaulation.go:GetArea", "calcaulation.go:MultiPolyArea", "calcaulation.go:polyCentroid", "calcaulation.go:pointsCenteriod"]}
{"id": "C136", "title": "ConvexHull returns a polygon with the area and the centroid of the convex hull", "statement": "For at least three points, no two within 1e-6 of each other in both coordinates, the polygon that ConvexHull returns has as area (GetArea) the Lebesgue measure of the least convex set that contains the points and, if the points are not in line, as Centroid the mean position over that set. The hull of the corners of a polygon that does not go round any point off it twice has at least the area of the polygon.", "quantifier": "all lists of three or more points apart from each other, every sort that meets sort.Sort's contract, exact arithmetic on real coordinates", "why_tests_cant": "Areas of a few hulls can be compared with known values; that the area of the returned ring is the measure of the convex hull is a statement about all sets of points.", "anchors": ["convexhull.go:ConvexHull", "calcaulation.go:GetArea", "calcaulation.go:polyCentroid"]}
{"id": "C137", "title": "The centroid of a polygon is where a balance point can be", "statement": "The centroid of a strictly convex polygon lies strictly inside it. The centroid of any ring that has an area and goes round all points off it in the same direction lies on the left of every line that has all its corners on its left, that is in their convex hull.", "quantifier": "all strictly convex rings, and all rings of one direction with an area, with any number of corners, exact arithmetic on real coordinates", "why_tests_cant": "The claim is about every shape of ring; it follows only from the meaning of the shoelace sums as integrals over the region.", "anchors": ["calcaulation.go:Centroid", "calcaulation.go:polyCentroid", "calcaulation.go:pointsCenteriod"]}
{"id": "C138", "title": "Simplifying a simplified line changes nothing, and simplifying does not make lines longer or larger", "statement": "DouglasPeuckerSimplify with the same threshold, applied to its own result, returns the very same slice and leaves the memory as it is (in float64, for every threshold that is not negative, NaN included). The simplified line has at most the length of the line (exact arithmetic), and its BoundingBox lies within that of the line (float64).", "quantifier": "all lines of at least two points (whatever their coordinates, NaN included, for the first claim; of magnitude at most 2^31 for the last), all thresholds that are not negative, all spatial references", "why_tests_cant": "The second run splits the line at the points the first run found only because ties are resolved to the first farthest point and because dropping points does not change the others; this has to hold for every line and every tie.", "anchors": ["simplify.go:DouglasPeuckerSimplify", "simplify.go:dpWorker", "lineString.go:Length", "box.go:BoundingBox"]}
{"id": "C139", "title": "The buffer of a point is a regular polygon inscribed in the disk", "statement": "For a width w > 0, Point.Buffer(w) is a strictly convex counter-clockwise polygon with area 12 w^2 sin 15 degrees (between 98.8 and 100 per cent of the disk) and the point as its centroid. The region it bounds lies within the disk of radius w around the point and contains the disk of radius w cos 7.5 degrees.", "quantifier": "all centres and widths, exact arithmetic on real coordinates", "why_tests_cant": "That every point of the region is nearer than w, and every point nearer than w cos 7.5 degrees is in the region, is a statement about all points of the plane and all widths.", "anchors": ["point.go:Buffer", "buffer.go:pointBuffer", "buffer.go:getBufferCoordsByRadian", "calcaulation.go:GetArea", "calcaulation.go:Centroid"]}
{"id": "C140", "title": "For simple polygons, inside, area, centroid and orientation are those of the region shut in by the ring", "statement": "A simple ring (at least three distinct corners, sides meeting only where one ends and the next starts) divides the other points of the plane into exactly two parts: points of the same part can be joined by a path that does not touch the ring, points of different parts cannot, and one part lies within the bounds of the corners. IsPointInPolygon (float64) answers CONTAIN exactly for the points shut in by the ring and DISJOINT exactly for the points from which a path leads away, for points off the ring that are clear of it (on a grid of multiples of 1/2^k with numerators up to 2^B, B+k at most 17, without clearance), the origin excepted. In exact arithmetic GetArea is the Lebesgue measure of the part shut in and is positive, in both orders of the corners; Centroid is its centre of mass and is on the left of every line that has all corners on its left; IsCCW says whether the ring goes round that part counter-clockwise (once round each point); and every point of the ring has points of both parts arbitrarily near. SelfIntersect does not report a simple ring, and Verify accepts it if its corners are in the ranges checked and the region has at least area 1e-10.", "quantifier": "all simple rings with any number of corners, convex or not, and all points of the plane", "why_tests_cant": "It is the Jordan curve theorem for polygons joined to the code: every simple ring and every path in the plane.", "anchors": ["contain.go:IsPointInPolygon", "calcaulation.go:GetArea", "calcaulation.go:Centroid", "polygon.go:IsCCW", "polygon.go:SelfIntersect", "polygon.go:Verify"]}
{"id": "C141", "title": "Lines and polygons that do not touch a simple polygon are reported on the right side of it", "statement": "On a grid (multiples of 1/2^k with numerators up to 2^B, B+k at most 17), in float64, for a simple polygon: SegPolyRelation and LinePolyRelation answer CONTAIN if the whole segment or line is shut in by the ring and DISJOINT if it is wholly outside, for all segments and lines that have no point in common with the ring, no segment in line with a side, and no vertex at the origin. For a segment from a point shut in to a point outside SegPolyRelation is INTERSECT or UNKNOWN, and it is INTERSECT if no corner is on the segment and the segment does not meet the last side. PolyRelation of two simple polygons whose rings do not meet is CONTAIN exactly if the region of the first is part of the region of the second and DISJOINT exactly if the regions have no common point or the second is part of the first; there is no other answer.", "quantifier": "all simple rings and all lines with any number of points on the grid", "why_tests_cant": "Only two ends are tested by the code; that the rest of the segment, and of the region of the polygon, is on the same side is a fact about all points in between, for every simple polygon.", "anchors": ["relation.go:SegPolyRelation", "relation.go:LinePolyRelation", "relation.go:PolyRelation", "contain.go:IsPointInPolygon"]}
{"id": "C142", "title": "Convex hulls and buffers are simple polygons", "statement": "A strictly convex ring is simple and, off the ring, shuts in exactly the points to the left of all its sides. For at least three points, no three in line and no two within 1e-6 of each other in both coordinates, ConvexHull returns a simple, strictly convex, counter-clockwise polygon that is not reported to cross itself, and off its ring a point is inside it exactly when it is in the least convex set that contains the points. The hull of the corners of any simple polygon has at least its area. Point.Buffer(w), w > 0, is a simple polygon not reported to cross itself; off its ring, what is inside is within w of the point, and what is within w cos 7.5 degrees of the point is inside.", "quantifier": "all lists of points in general position, all simple polygons, all centres and widths, every sort that meets sort.Sort's contract, exact arithmetic on real coordinates", "why_tests_cant": "That no two of the sides meet is a statement about every pair of sides and every point on them, and that hull and region agree is one about all points of the plane.", "anchors": ["convexhull.go:ConvexHull", "point.go:Buffer", "polygon.go:SelfIntersect", "polygon.go:IsCCW"]}
{"id": "C143", "title": "A simple polygon is no larger than its bounding box, and its centroid lies in the box", "statement": "For a simple polygon GetArea is at most Size of its BoundingBox, and its Centroid is a point for which IsPointInBox with that box holds.", "quantifier": "all simple rings with any number of corners, exact arithmetic on real coordinates", "why_tests_cant": "An inequality between two different computations, over all simple polygons.", "anchors": ["calcaulation.go:GetArea", "box.go:BoundingBox", "box.go:Size", "box.go:IsPointInBox", "calcaulation.go:Centroid"]}
{"id": "C144", "title": "Area, orientation and centroid of simple polygons in float64 are those of the region, up to a stated rounding error", "statement": "For a simple polygon of n corners with float64 coordinates of size at most M, GetArea in float64 differs from the Lebesgue measure A of the set of points inside by at most n(n+5)M^2/2^53. If that bound is less than A, IsCCW tells which way the ring winds round the points inside. If n(n+8)M^2/2^50 is at most A, both coordinates of Centroid are finite and within 4n(n+8)M^3/(2^53 A) of the centre of mass of the set of points inside.", "quantifier": "all simple rings of n <= 2^20 finite float64 corners, 1 <= M <= 2^100 (2^60 for Centroid), whatever the holes", "why_tests_cant": "A worst-case bound on accumulated rounding over all polygons, measured against the region as a set of real points, which no test can compute.", "anchors": ["calcaulation.go:GetArea", "calcaulation.go:Centroid", "polygon.go:IsCCW"]}
{"id": "C145", "title": "Distance from a point to a simple polygon is measured to the region the polygon shuts in", "statement": "For a simple polygon in float64 PointPolygonDistance returns 0 for a point that no path joins to infinity without meeting the ring. For any other point off the ring it returns a value within a stated error of the least Euclidean distance from the point to the ring and all the points the ring shuts in. Two points that are closer to each other than the first is to the ring get the same answer of IsPointInPolygon, either CONTAIN or DISJOINT.", "quantifier": "all simple rings with corners on a dyadic grid with B + k <= 17 and all grid points off the ring other than the origin (error 2^-29), or coordinates up to 2^26 with sides that are not tiny and points that keep clear of the corners (error 2^-20); planar SRIDs; whatever the holes", "why_tests_cant": "The least distance is taken over all points of a region bounded by an arbitrary simple curve, and the rounding error over all float64 coordinates.", "anchors": ["calcaulation.go:PointPolygonDistance", "contain.go:IsPointInPolygon"]}
{"id": "C146", "title": "A line and its simplification are within the threshold of each other as curves, and HausdorffDistance measures curves up to half a segment", "statement": "Every point of an open line, vertex or not, is within the threshold of some point of the line returned by DouglasPeuckerSimplify, and every point of the returned line is within the threshold of some point of the original one; in float64 with coordinates up to M the same holds with M/2^46 added to the threshold. HausdorffDistance, which looks at vertices only, differs from the Hausdorff distance of the two lines as sets of points by at most half of the longest segment (plus M/2^47 in float64).", "quantifier": "all open lines and thresholds >= 0 (float64: points equal or 2^-40 apart, no repeated points or a threshold of at least M/2^46, M <= 2^99); for HausdorffDistance all pairs of lines of non-zero length and distances below 2^31 (float64: M <= 2^28); planar SRIDs", "why_tests_cant": "The claim is about all points of two curves, uncountably many, for every line and threshold.", "anchors": ["simplify.go:DouglasPeuckerSimplify", "calcaulation.go:HausdorffDistance"]}
{"id": "C147", "title": "ConvexHull returns the shortest way round the points", "statement": "The ring that ConvexHull returns for points that are not in line is no longer (by Length) than the ring of any polygon whose corners have all the points in their convex hull, so no longer than any closed line through the points or round them; in particular the hull of the corners of a polygon, simple or not, is no longer than the polygon's ring.", "quantifier": "all lists of three or more points, not in line and no two within 1e-6 of each other in both coordinates; all other rings round them, of any size; every sort that meets sort.Sort's contract; exact arithmetic on real coordinates", "why_tests_cant": "Compares the result with every other ring round the points, for every list of points.", "anchors": ["convexhull.go:ConvexHull", "lineString.go:Length"]}
{"id": "C148", "title": "Levels of detail are nested: simplifying in steps gives the same line as simplifying at once", "statement": "For thresholds 0 <= t <= t' applying DouglasPeuckerSimplify with t and then with t' returns the same points as applying it with t' to the original line, and the line simplified with t' is a subsequence of the line simplified with t.", "quantifier": "all lines of at least two points in float64 (whatever their coordinates, NaN included), all thresholds 0 <= t <= t', all spatial references, every growth policy of append and every correct sort", "why_tests_cant": "Relates three runs of an algorithm with data-dependent splits for every line and every pair of thresholds.", "anchors": ["simplify.go:DouglasPeuckerSimplify"]}
{"id": "C149", "title": "ConvexHull does not depend on the order of the points", "statement": "ConvexHull of the same points in another order, and with another correct sort, returns the same ring, corner by corner from the same start (or nil, or the same panic), and leaves the caller's slice in the same order. The corners of the ring, handed to ConvexHull again in any order, give the same ring.", "quantifier": "all lists of points with real coordinates (repeated and collinear points included), all their permutations, every sort meeting the contract of sort.Sort; in float64 at least three points, no two within 1e-6 of each other, on a grid of 25 bits or in general position as in C113 (equality bit for bit); the second sentence for at least three different points in exact arithmetic", "why_tests_cant": "n! orders of every point set; relates two runs of an unstable sort and a stack scan.", "anchors": ["convexhull.go:ConvexHull", "convexhull.go:FindLowestPoint", "convexhull.go:Less"]}
{"id": "C150", "title": "Verdicts and measurements do not depend on the frame of coordinates", "statement": "An affine map of the plane that is not degenerate changes no verdict of SegmentRelation, LineRelation and SelfIntersect, multiplies GetArea by the absolute value of its determinant, keeps or reverses IsCCW by the sign of the determinant and takes the Centroid along. A rigid motion changes neither Length, nor the distance from a point to a segment, nor HausdorffDistance, nor the index and distance of PointHitLineString, takes nearest points along, and a moved line is simplified to the moved simplification. The ConvexHull of translated points is the translated hull, corner by corner.", "quantifier": "all affine maps with non-zero determinant, all rigid motions (rotations, reflections, translations), all segments, lines, rings and point lists with real coordinates, all spatial references but WGS84 for distances, every correct sort and growth policy", "why_tests_cant": "Relates two runs of each function for every map and every geometry.", "anchors": ["relation.go:SegmentRelation", "relation.go:LineRelation", "polygon.go:SelfIntersect", "calcaulation.go:GetArea", "calcaulation.go:Centroid", "calcaulation.go:HausdorffDistance", "calcaulation.go:PointHitLineString", "simplify.go:DouglasPeuckerSimplify", "convexhull.go:ConvexHull"]}
{"id": "C151", "title": "Point-in-polygon answers do not depend on the origin", "statement": "Translating a point, segment or line together with a polygon changes no verdict of IsPointInPolygon, SegPolyRelation, LinePolyRelation and PolyRelation and no PointPolygonDistance.", "quantifier": "all translations, points, segments, lines and polygons with real coordinates", "why_tests_cant": "Relates two runs for every translation and every polygon; the verdict changes only for the one point at the origin.", "anchors": ["contain.go:IsPointInPolygon", "relation.go:SegPolyRelation", "relation.go:LinePolyRelation", "relation.go:PolyRelation", "calcaulation.go:PointPolygonDistance"]}
{"id": "C152", "title": "Small movements make small changes", "statement": "In float64, up to a stated rounding error: if a point moves by at most m and the ends of a segment (the vertices of a line) by at most e, PointToSegmentDistance (the distance of PointHitLineString) changes by at most m + e; if the vertices of two lines move by at most m and e, HausdorffDistance changes by at most m + e; if every vertex of a line of n segments moves by at most e, Length changes by at most 2 n e; and PointPolygonDistance to a simple polygon changes by no more than the point moves, also when the point crosses the ring, so it does not jump there.", "quantifier": "all points, segments and lines of any length (up to 2^20 vertices for Length) with coordinates up to M and segments that are not tiny; simple rings and points off the ring on a dyadic grid with B + k <= 17, other than the origin; planar SRIDs", "why_tests_cant": "A jump can sit between any two tested positions; a bound on the change for every movement is a statement about all pairs of inputs.", "anchors": ["calcaulation.go: PointToSegmentDistance, PointHitLineString, HausdorffDistance, PointPolygonDistance", "lineString.go: Length"]}
{"id": "C153", "title": "The direction of a line does not matter", "statement": "Exchanging the ends of a segment changes neither the distance nor the nearest point of PointToSegmentDistance; reversing a line does not change the distance returned by PointHitLineString; HausdorffDistance depends on the sets of vertices alone, not on their order or repetition; and DouglasPeuckerSimplify of the reversed line is the reversed simplified line.", "quantifier": "all points and lines of any length (exact arithmetic, planar SRIDs), all thresholds that are not negative, every growth policy of append and every correct sort", "why_tests_cant": "Relates two runs for every line; for simplification it fails exactly when two vertices are equally far from a chord, which random lines hardly ever show.", "anchors": ["calcaulation.go: PointToSegmentDistance, PointHitLineString, HausdorffDistance", "simplify.go: DouglasPeuckerSimplify"]}
{"id": "C154", "title": "Simplification does not make a line cross itself", "statement": "If a line does not meet itself, neither does the line returned by DouglasPeuckerSimplify.", "quantifier": "all lines with finite float64 coordinates that do not meet themselves, all thresholds that are not negative, all spatial references", "why_tests_cant": "A crossing needs a later part of the line to reach into the space between a removed bump and its chord; tests on usual lines do not show it, and its absence for whole classes of lines is a statement about all of them.", "anchors": ["simplify.go: DouglasPeuckerSimplify", "simplify.go: dpWorker"]}
{"id": "C155", "title": "Answers depend on the stored objects, not on how they came into the tree", "statement": "Two trees that hold the same objects, whatever calls led to them and whatever their parameters, have the same Size and give the same answer to every SearchIntersect up to order; inserting the same objects in any order succeeds and gives such trees. NearestNeighbors on the two trees returns objects that are pairwise equally far from the point, and the very same list if no two stored objects are equally far; the answer for k objects is as near as (without ties: is) the beginning of the answer for more than k.", "quantifier": "all pairs of histories and tree parameters that end in trees with the same stored objects, all query boxes, all query points, all k <= k', any correct sorts (NearestNeighbors: boxes that are not inverted)", "why_tests_cant": "Relates the results of all pairs of histories; the shape of the tree, which depends on the order of insertion, decides what is pruned and visited.", "anchors": ["rtree.go: Insert, SearchIntersect, NearestNeighbors, Size"]}
{"id": "C156", "title": "The hull grows with the points and hulls can be merged", "statement": "Adding points never makes the area or the length of the boundary of ConvexHull's polygon smaller, and points inside the hull of the others change neither these nor the centroid. More generally area, length and centroid depend on the convex set the points span alone: the hull of two sets of points measures the same as the hull of the corners of their two hulls. The hull is no larger, in area or boundary, than any box that contains the points.", "quantifier": "all pairs of lists of three or more points, no two within 1e-6 of each other in both coordinates and (for length and centroid) not in line, one inside what the other spans; all boxes; every sort that meets sort.Sort's contract; exact arithmetic on real coordinates", "why_tests_cant": "Relates two runs on all pairs of nested point sets; an added point can change the start corner, the order of the scan and every corner of the result.", "anchors": ["convexhull.go: ConvexHull", "calcaulation.go: GetArea, Centroid", "lineString.go: Length", "box.go: IsPointInBox, Size"]}
{"id": "C157", "title": "Small movements of the corners change area and orientation little", "statement": "If every corner of a polygon's exterior ring moves by at most e, GetArea changes by at most e times the mean of the two lengths of the ring, and if the area is larger than that IsCCW gives the same answer; in float64 up to a stated rounding error, with areas and lengths as computed.", "quantifier": "all pairs of rings with the same number of corners, simple or not, any holes; in float64 fewer than 2^20 corners with coordinates up to M <= 2^100", "why_tests_cant": "An error bound over all pairs of rings and, in float64, all roundings; a test sees single movements.", "anchors": ["calcaulation.go: GetArea", "polygon.go: IsCCW", "lineString.go: Length"]}
{"id": "C158", "title": "Compactness never exceeds one", "statement": "Four pi times GetArea of a polygon is at most the square of Length of its exterior ring, so the usual compactness score (Polsby-Popper, 4 pi A / L^2) computed from the two is at most one for every ring, simple or not; in float64 up to a stated rounding error.", "quantifier": "all rings of any number of corners and any holes; in float64 fewer than 2^20 corners with coordinates up to M <= 2^100", "why_tests_cant": "The isoperimetric inequality over all rings: a test computes single scores.", "anchors": ["calcaulation.go: GetArea", "lineString.go: Length"]}
{"id": "C159", "title": "Points inside make no difference to the convex hull", "statement": "If further points are added that lie strictly inside what the given points span, ConvexHull returns the same ring as before: the same corners, from the same start, in the same order, whatever the order of the points and whichever correct sort is used. The points may be in a line with corners. In exact arithmetic for at least three distinct points; in float64 for points on a grid or in general position.", "quantifier": "every list of at least three distinct points, every list of further points strictly inside, every order of both, every sort meeting the contract of sort.Slice; in float64 every grid 2^-k (k <= 500) with up to 2^25 steps, or every list in general position as in C113", "why_tests_cant": "There are infinitely many point sets and ways to add points; the scan visits the added points in between the corners and must drop each of them without dropping a corner, in every angular arrangement, including added points on the same ray from the start as a corner.", "anchors": ["convexhull.go: ConvexHull", "convexhull.go: FindLowestPoint", "convexhull.go: isLeft"]}
{"id": "C160", "title": "Cutting a polygon along a diagonal loses nothing and counts nothing twice", "statement": "Cut a simple polygon in two along the segment between two of its corners, where that segment runs inside the polygon. Both parts are simple polygons, reported with the same orientation as the whole. A point off the boundaries is shut in by the whole exactly if it is shut in by one of the parts, and never by both; IsPointInPolygon in float64 (on a grid, the origin excepted) says CONTAIN accordingly. The areas of the parts add up to the area of the whole, on grids also for the computed float64 values, and the centroid of the whole is the mean of the centroids of the parts weighted with their areas. For any ring, simple or crossing itself, cut along the segment between any two corners, IsPointInPolygon says CONTAIN for the ring exactly if it does so for exactly one of the parts.", "quantifier": "every simple ring of any number of corners, convex or not, every pair of corners joined by a diagonal, every point off the ring and the diagonal; in float64 every grid of B+k <= 17 bits (points), or as in C114 (areas)", "why_tests_cant": "It is a statement about every polygon, every diagonal and every point of the plane; a wrong boundary rule makes points near the cut be counted twice or not at all only for particular positions of ends of sides at the height of the point.", "anchors": ["contain.go: IsPointInPolygon", "calcaulation.go: GetArea", "calcaulation.go: Centroid", "polygon.go: IsCCW"]}
{"id": "C161", "title": "Rings read from WKT are closed", "statement": "Whatever text is given to wkt.Decode, every ring of a Polygon or MultiPolygon (with or without heights) that it returns is a line standing in the text, closed: the line itself if its first and last points agree within 1e-6, and that line with its first point added at the end otherwise. No other points are added, dropped or moved, and the first and last points of the ring are the same or agree within 1e-6.", "quantifier": "all texts, all number formats", "why_tests_cant": "The texts are unbounded; the regular expressions accept many spellings (open rings, runs of blanks, numbers that run into each other).", "anchors": ["wkt/decode.go: Decode, PolygonFromWKT, MultiPolygonFromWKT, LineStringFromWKT", "linearRing.go: NewRingFromLine", "linearRingZ.go: NewRingFromLineZ", "lineStringZ.go: ToRing"]}
{"id": "C162", "title": "The farthest point is a corner of the hull", "statement": "For points handed to ConvexHull: from any place, some corner of the ring it returns is at least as far, by EuclideanDis, as any one of the points, so a circle that holds the corners holds the points. The greatest distance between two of the points is the distance of two corners. Both also hold in float64, up to the rounding of the distances.", "quantifier": "all sets of three or more points, no two within 1e-6 of each other, in exact arithmetic; in float64 all such sets on a grid of 25 bits or in clear general position; all places to look from; all sorting routines", "why_tests_cant": "It ranges over all point sets and all places in the plane.", "anchors": ["convexhull.go: ConvexHull", "point.go: EuclideanDis"]}
{"id": "C163", "title": "Lines and rings with heights written to WKT come back doubled or not at all", "statement": "Write a multiline or a polygon with heights to WKT and decode the text. Call a line or ring wide if the text of every y coordinate has two characters or more. If the last line or ring is wide and the others are not, decoding succeeds and gives that line twice (for a ring: closed, as the exterior ring and as a hole), the others being lost. In every other case decoding fails. No multiline comes back as it was.", "quantifier": "every not empty list of not empty lines or rings with heights, every numeric text format whose numbers read back and that rejects text with brackets, commas or white space", "why_tests_cant": "whether the decoder's expression finds anything depends on how the text of each y coordinate can be cut in two; a test sees one text", "anchors": ["wkt/decode.go: MultiLineStringFromWKT, PolygonFromWKT, Decode", "wkt/encode.go: PolygonZToWktString, PolygonZToWktString2", "linearRingZ.go: NewRingFromLineZ"]}
{"id": "C164", "title": "Multipolygons with heights written to WKT come back as one polygon doubled or not at all", "statement": "Write a multipolygon with heights to WKT and decode the text. Call a ring wide if the text of each of its y coordinates has two characters or more. The decoder takes the first polygon all of whose rings are wide. If that polygon has one ring, the result is two copies of it, each with the ring, closed, as exterior ring and as hole; the other polygons are lost. If that polygon has holes, or if there is no such polygon, decoding fails. No multipolygon comes back as it was.", "quantifier": "every not empty list of polygons with heights, of any number of not empty rings; every numeric text format whose numbers read back and that rejects text with brackets, commas or white space", "why_tests_cant": "which polygon the decoder's expression finds depends on the text of every coordinate of all polygons in front of it", "anchors": ["wkt/decode.go: MultiPolygonFromWKT, PolygonFromWKT, Decode", "wkt/encode.go: MultiPolygonZToWktString", "linearRingZ.go: NewRingFromLineZ"]}
{"id": "C165", "title": "Areas agree with containment and with tilings", "statement": "When everything a simple polygon shuts in is shut in by another simple polygon, GetArea of the first is positive and not larger than that of the second, and it is smaller if the boundaries do not meet. Simple polygons without common interior points inside one simple polygon have, as a multipolygon, no larger area than it, and exactly its area if they tile it; its centroid is then the mean of the centroids of the tiles weighted with their areas. Cutting along a diagonal makes such a tiling. In float64: if PolyRelation says one polygon is contained in another, GetArea of the first is smaller.", "quantifier": "every pair and every list of simple rings with real corners, convex or not, in either direction, without common interior points where a list is compared; in float64 all simple rings on a grid of integers or binary fractions whose area sums are exact, with boundaries that do not meet no side on the line of a side of the other, and no corner of the inner one at the origin", "why_tests_cant": "it relates the area of one polygon to the areas of any number of polygons of any shape inside it", "anchors": ["calcaulation.go: GetArea, Centroid", "relation.go: PolyRelation"]}
{"id": "C166", "title": "What is contained has the smaller box, the smaller hull and, if convex, the shorter boundary", "statement": "When everything a simple polygon shuts in is shut in by another simple polygon, BoundingBox of the second contains (Box.Contain) BoundingBox of the first, so comparing boxes first misses no containment. GetArea of a simple polygon is at most that of its ConvexHull; the hull of the polygon inside has no larger area and no greater length than the hull of the other, whose hull is no longer than its ring. If the polygon inside is strictly convex its ring is no longer than the ring round it. In float64: if PolyRelation says one polygon is contained in another, the boxes are.", "quantifier": "every pair of simple rings with real corners of any size where one shuts in what the other does; for hulls no two corners of one ring within 1e-6 in both coordinates, and every sort that meets sort.Sort's contract; in float64 all simple rings on a grid of integers or binary fractions, with boundaries that do not meet, no side on the line of a side of the other, and no corner of the inner one at the origin", "why_tests_cant": "it is the assumption behind every search that compares boxes before polygons, and concerns all shapes at once", "anchors": ["box.go: BoundingBox, Box.Contain", "relation.go: PolyRelation", "convexhull.go: ConvexHull", "calcaulation.go: GetArea"]}
{"id": "C167", "title": "CONTAIN answers of PolyRelation are an order", "statement": "For simple polygons whose boundaries do not meet, the answers of PolyRelation fit together. Never is each of two polygons CONTAINed in the other: if p is CONTAINed in q, asking for q and p gives DISJOINT. If p is CONTAINed in q and q in r, then p is CONTAINed in r. Both orders answer DISJOINT exactly if no point is shut in by both. If p is CONTAINed in q and q and r are DISJOINT in both orders, so are p and r. One of the polygons is CONTAINed in the other or both orders answer DISJOINT. A point that IsPointInPolygon finds in p, and a line that does not touch p and that LinePolyRelation finds in p, is found in every polygon p is CONTAINed in; the point is found outside of every polygon that is DISJOINT from p in both orders.", "quantifier": "all pairs and triples of simple rings with any number of corners, convex or not, on a grid (multiples of 1/2^k with numerators up to 2^B, B+k at most 17), in float64, with boundaries that do not meet, no side on the line of a side of the other, and no corner at the origin; any holes; the points and lines on the grid too, off the boundary of p, not at the origin, no piece of the line on the line of a side", "why_tests_cant": "consistency of the answers for three polygons at a time is a statement about all triples, and rests on what a curve encloses", "anchors": ["relation.go: PolyRelation, LinearPolyRelation, SegPolyRelation", "contain.go: IsPointInPolygon"]}
{"id": "C168", "title": "Nothing is nearer to a polygon than to the one it is contained in", "statement": "If PolyRelation says that a simple polygon p is CONTAINed in a simple polygon q, PointPolygonDistance of a point to q is at most that to p, up to 2^-28. If a simple polygon is cut in two along a diagonal, PointPolygonDistance to it is the smaller one of the distances to the two parts, up to 2^-28.", "quantifier": "all simple rings with any number of corners and all points on a grid (multiples of 1/2^k with numerators up to 2^B, B+k at most 17), in float64, the point off the boundaries and not at the origin; for containment boundaries that do not meet, no side on the line of a side of the other and no corner at the origin; planar SRIDs; any holes", "why_tests_cant": "it compares the distances to two polygons of any shape from any point, inside or outside", "anchors": ["calcaulation.go: PointPolygonDistance, PointToSegmentDistance", "relation.go: PolyRelation"]}
{"id": "C169", "title": "A search with the box of a line or polygon finds the polygons round it and what is in it", "statement": "After any history of insertions and deletions, SearchIntersect with the BoundingBox of a simple polygon p returns a polygon q that PolyRelation says p is CONTAINed in, or that it says is CONTAINed in p, exactly when q is stored. The same holds for a tree built from many objects at once. A line that LinePolyRelation says is CONTAINed in a polygon it does not touch has its BoundingBox in that of the polygon, and each of the two is found by a search with the box of the other exactly when it is stored.", "quantifier": "all histories of the index and all objects in it; all simple rings with any number of corners on a grid (multiples of 1/2^k with numerators up to 2^B, B+k at most 17), in float64, whose boundaries do not meet, with no side on the line of a side of the other and no corner at the origin; any holes; bulk loads of more than max and at most 2^40 objects", "why_tests_cant": "it joins every history of the index with every pair of nested polygon shapes", "anchors": ["rtree.go:Rtree.SearchIntersect", "rtree.go:Rtree.Insert", "rtree.go:Rtree.DeleteWithComparator", "relation.go:PolyRelation", "relation.go:LinePolyRelation", "box.go:BoundingBox"]}
{"id": "C170", "title": "Buffers of points fit their boxes, grow with their width and overlap as distances say", "statement": "BoundingBox of Point.Buffer(w) is NewRectBox(p, w, w), and searching an R-tree with it returns every stored object with a place at distance at most w from p. The buffer of width w lies in the buffer of any larger width round the same point, and in the buffer of width w' round another point at distance D if D + w is at most w' cos 7.5 degrees; then its area is not larger and its box is in the other box. Two buffers have no point inside in common if D is at least w + w', and have one if D is less than (w + w') cos 7.5 degrees.", "quantifier": "all points and positive widths (for the box also zero, and coordinates up to 2^31), all histories of the index, all stored two-dimensional geometries, exact arithmetic on real coordinates", "why_tests_cant": "it compares the regions of any two buffers, and joins them with every history of the index", "anchors": ["point.go:Point.Buffer", "buffer.go:pointBuffer", "box.go:BoundingBox", "box.go:NewRectBox", "box.go:Box.Contain", "rtree.go:Rtree.SearchIntersect"]}
{"id": "C171", "title": "Hulls keep the bounding box, simplification moves it little, and boxes are as near as lines", "statement": "BoundingBox of ConvexHull(points) is BoundingBox of the points, so that an index search with either box returns the same. BoundingBox of the line returned by DouglasPeuckerSimplify lies in the BoundingBox of the line, so that a search with it returns only what a search with the box of the line returns, and no side of the box moves by more than the threshold. The sides of the BoundingBoxes of two lines are not farther apart than the HausdorffDistance of the lines.", "quantifier": "hulls: all lists of at least three points no two within 1e-6 in both coordinates, exactly and in float64 on a grid of 25 bits, every sort that meets its contract; simplification: all lines of numbers in float64, and for the sides all open lines with coordinates up to 2^31 in exact arithmetic; Hausdorff distance: all lines of non-zero length with coordinates up to 2^29 in exact arithmetic, planar SRIDs; all histories of the index", "why_tests_cant": "it holds for every shape and every content of the index", "anchors": ["convexhull.go:ConvexHull", "simplify.go:DouglasPeuckerSimplify", "calcaulation.go:HausdorffDistance", "box.go:BoundingBox", "rtree.go:Rtree.SearchIntersect"]}
{"id": "C172", "title": "The district of a point can be looked up", "statement": "If the stored objects are polygons that tile a region (they lie in it, have no points inside in common, and every point of the region is in one of them or on a boundary) and other objects that are not polygons, then among the objects SearchIntersect returns for the BoundingBox of a point there is exactly one for which IsPointInPolygon answers CONTAIN if the point is inside the region and on none of the boundaries, namely the polygon the point is in, and none if the point is outside the region. The same holds for a tree built from many objects at once.", "quantifier": "all tilings by any number of simple polygons with any number of corners, and all points, on a grid (multiples of 1/2^k with numerators up to 2^B, B+k at most 17), in float64, the point not at the origin; all histories of the index that leave these objects in it; bulk loads of more than max and at most 2^40 objects; any holes (the code ignores them)", "why_tests_cant": "it ranges over all tilings, all points and all histories of the index", "anchors": ["rtree.go:Rtree.SearchIntersect", "rtree.go:Rtree.Insert", "rtree.go:Rtree.DeleteWithComparator", "contain.go:IsPointInPolygon", "box.go:BoundingBox"]}
{"id": "C173", "title": "Reading GeoJSON adds nothing that the text does not say", "statement": "UnmarshalFeature and UnmarshalFeatureCollection accept only texts that hold a JSON object or null. A field of the result (id, type, bbox, geometry, properties, features, crs) for which the object has no member, in any mixture of cases, or only null, is left at its zero value: in particular the type is not filled in, and the Geometry of a feature is always nil. null and {} are both read as the empty feature and the empty collection. The same holds for the geometry objects that UnmarshalGeo is given.", "quantifier": "all documents and all texts, in float64 for texts", "why_tests_cant": "it ranges over all documents, with any members in any order and any nesting", "anchors": ["geojson/feature.go:UnmarshalFeature", "geojson/feature.go:Feature", "geojson/feature_collection.go:UnmarshalFeatureCollection", "geojson/feature_collection.go:FeatureCollection", "geojson/geojson.go:GeoJson"]}
{"id": "C174", "title": "Exactly the documents with members of the right kind are read", "statement": "UnmarshalFeature and UnmarshalFeatureCollection return without an error exactly when the document is null or an object in which every member that is read has a value of its kind or null: type a string, bbox an array of numbers (or nulls), properties and crs objects, geometry an object whose type is a string and whose crs is an object, features an array of such features. Everything else, at any depth that is looked at, is an error; id, coordinates and unknown members may be anything. Repeating members does not change this.", "quantifier": "all documents, with any members in any order, repeated or not and in any mixture of cases; all texts of at most 10000 levels with any layout whose numbers are in the range of float64", "why_tests_cant": "it is an equivalence over all documents", "anchors": ["geojson/feature.go:UnmarshalFeature", "geojson/feature_collection.go:UnmarshalFeatureCollection", "geojson/geojson.go:GeoJson"]}
{"id": "C175", "title": "Typed reads give the properties that the text says", "statement": "When a feature was read from a text with one member properties (in any mixture of cases) that is an object, PropertyBool, PropertyFloat64, PropertyString and PropertyInt of a key return a value exactly when the last member with that name in the object is of that type (a number for PropertyInt), and then they return that value; keys are compared exactly. If there is no such member, or there are no properties or they are null, they return an error.", "quantifier": "all documents and keys, with any other members in any order; texts of at most 10000 levels with any layout, with numbers as float64", "why_tests_cant": "it ranges over all documents and all keys", "anchors": ["geojson/feature.go:UnmarshalFeature", "geojson/properties.go:Feature.PropertyBool", "geojson/properties.go:Feature.PropertyInt", "geojson/properties.go:Feature.PropertyFloat64", "geojson/properties.go:Feature.PropertyString"]}
{"id": "C176", "title": "Parts of a document are read like documents of their own", "statement": "When UnmarshalFeatureCollection reads a document with one member features that is an array, the features of the result are, in order and one for each element, what UnmarshalFeature makes of the elements alone, and nil for null elements. The geometry of a feature is what its member geometry is when read alone, and nil for null, so that UnmarshalGeo gives the same for it.", "quantifier": "all documents with any other members in any order, any number of features; texts of at most 10000 levels with any layout, with numbers as float64", "why_tests_cant": "it ranges over all documents and all numbers of features", "anchors": ["geojson/feature_collection.go:UnmarshalFeatureCollection", "geojson/feature.go:UnmarshalFeature", "geojson/geojson.go:UnmarshalGeo"]}
{"id": "C177", "title": "Exactly the features and collections with finite numbers and JSON values can be printed", "statement": "Printing a feature or a feature collection (json.Marshal) succeeds exactly when all numbers in its bounding box, id, geometry object, properties and crs are finite and none of the values in them, at any depth of slices and maps, is of a type that JSON does not have; for a collection this must hold for every feature in it that is not nil. A feature made by NewFeature of any geometry, with any calls of SetProperty, can be printed exactly when the values set last for each key can; the geometry never prevents it.", "quantifier": "all features, collections, geometries, sequences of SetProperty calls and values of any depth", "why_tests_cant": "it is an equivalence over all values of any depth", "anchors": ["geojson/feature.go:Feature.MarshalJSON", "geojson/feature_collection.go:FeatureCollection.MarshalJSON", "geojson/feature.go:NewFeature", "geojson/properties.go:Feature.SetProperty"]}
{"id": "C178", "title": "Reading GeoJSON and printing it again is stable", "statement": "Whatever feature or feature collection was read from a document (all of whose numbers are finite) can be printed. What is printed is read back as a feature or collection that says the same: the same id, bounding box, geometry object, crs and value of every property, feature by feature, with type \"Feature\" or \"FeatureCollection\". Printing that one gives the same document, and the same text, again.", "quantifier": "all documents and texts with finite numbers, of any depth, member order and spelling, that are read as a feature or a collection (for the texts, of at most the 10000 levels that encoding/json reads)", "why_tests_cant": "it ranges over all documents that are read", "anchors": ["geojson/feature.go:UnmarshalFeature", "geojson/feature.go:Feature.MarshalJSON", "geojson/feature_collection.go:UnmarshalFeatureCollection", "geojson/feature_collection.go:FeatureCollection.MarshalJSON"]}
