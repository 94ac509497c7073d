{"claims": [
{"property": "C01", "status": "proved", "theorems": ["GoGeo.C01_search_exact", "GoGeo.C01_search_exact_any", "GoGeo.C01_search_nil_box"], "note": ""},
{"property": "C02", "status": "proved", "theorems": ["GoGeo.C02_search_exact", "GoGeo.C02_step", "GoGeo.C02_contents_stored"], "note": "Search returns exactly the members of contents meeting the query; C02_step says how each operation changes contents; both over every history that completes."},
{"property": "C03", "status": "proved", "theorems": ["GoGeo.C03_size", "GoGeo.C03_size_net", "GoGeo.C03_size_search", "GoGeo.C03_size_insert"], "note": "Size equals the stored count on every history, the net count of insertions and successful deletions, and the length of an all-covering search."},
{"property": "C04", "status": "proved", "theorems": ["GoGeo.C04_delete", "GoGeo.C04_delete_same"], "note": "All reachable trees and pure comparators; C04_delete_same says which object plain Delete removes, by an independent notion of sameness."},
{"property": "C05", "status": "partial", "theorems": ["GoGeo.C05_deleteID_partial", "GoGeo.C05_deleteID_sound", "GoGeo.C05_deleteID_returns", "GoGeo.C05_deleteID_repeat", "GoGeo.C05_deleteID_false"], "note": "The property is false of the code: C05_deleteID_false gives two objects of one id of which one survives. Proved when the objects with the id have one and the same proper box (in particular if there is one), that in general nothing else is removed, that the returned value tells whether there was such an object and at least one is removed, and that as many calls as there are such objects remove them all (C05_deleteID_repeat)."},
{"property": "C06", "status": "partial", "theorems": ["GoGeo.C06_upsert_partial", "GoGeo.C06_assoc_mem", "GoGeo.C06_upsert_false"], "note": "False for objects with empty geometries (C06_upsert_false). Proved for objects with a proper geometry."},
{"property": "C07", "status": "proved", "theorems": ["GoGeo.C07_nearest", "GoGeo.C07_nearest_sorted", "GoGeo.C07_buffers", "GoGeo.C07_nearest_memory", "GoGeo.C07_minDist_exact", "GoGeo.C07_inverted_missed", "GoGeo.goSort_ok"], "note": "Every reached tree; with inverted boxes the order and count still hold but a closer object can be missed (C07_inverted_missed). goSort_ok: the sort.Sort of Go 1.15 meets the assumed contract. C07_buffers, C07_nearest_memory: the same with the scratch arrays that all levels of the recursion share."},
{"property": "C08", "status": "partial", "theorems": ["GoGeo.C08_nearest_partial", "GoGeo.C08_nonpositive", "GoGeo.C08_nearest_false"], "note": "False: k=0 panics at depth two or more and negative k always (C08_nonpositive is the exact characterisation, C08_nearest_false a witness). Proved for k>=1."},
{"property": "C09", "status": "proved", "theorems": ["GoGeo.C09_balanced"], "note": ""},
{"property": "C10", "status": "proved", "theorems": ["GoGeo.C10_insert_total"], "note": ""},
{"property": "C100", "status": "proved", "theorems": ["GoGeo.C100_segments", "GoGeo.C100_consecutive", "GoGeo.C100_lines", "GoGeo.C100_selfIntersect", "GoGeo.C100_polyRelation"], "note": "Any arithmetic with binary64 rounding error (Go/Err.lean); instance for Lean's Float via the bit-level model in Go/F64*.lean"},
{"property": "C101", "status": "proved", "theorems": ["GoGeo.C101_inPolygon_exact", "GoGeo.C101_inPolygon_parity", "GoGeo.C101_inPolygon_evenOdd", "GoGeo.C101_inPolygon_convex"], "note": "Any arithmetic with binary64 rounding error; instance Lean's Float."},
{"property": "C102", "status": "proved", "theorems": ["GoGeo.C102_area", "GoGeo.C102_ccw", "GoGeo.C102_area_reverse"], "note": "Any arithmetic with binary64 rounding error; instance Lean's Float."},
{"property": "C103", "status": "proved", "theorems": ["GoGeo.C103_distance", "GoGeo.C103_length"], "note": "Lean's Float, binary64 at bit level; square root error proved from Lean core's model."},
{"property": "C104", "status": "proved", "theorems": ["GoGeo.C104_toSegment"], "note": "Lean's Float, binary64 at bit level; square root error proved from Lean core's model."},
{"property": "C105", "status": "proved", "theorems": ["GoGeo.C105_polygon", "GoGeo.C105_convex", "GoGeo.C105_hit", "GoGeo.C105_hausdorff"], "note": "Lean's Float, binary64 at bit level; square root error proved from Lean core's model."},
{"property": "C106", "status": "proved", "theorems": ["GoGeo.C106_line", "GoGeo.C106_point", "GoGeo.C106_out_of_range"], "note": "Over strconv's documented contract that ParseFloat rounds correctly (Go/Strconv); that the rounding used is nearest is proved (rndX_nearest)."},
{"property": "C107", "status": "partial", "theorems": ["GoGeo.GeoJson.C107_text", "GoGeo.GeoJson.C107_roundtrip", "GoGeo.GeoJson.C107_newFeature", "GoGeo.GeoJson.C107_feature_partial", "GoGeo.GeoJson.C107_collection_partial", "GoGeo.GeoJson.C107_geometries_partial"], "note": "Geometries are proved fully (C107_text, C107_roundtrip, C107_newFeature). For features and collections the geometry itself is lost (C61), so those theorems are partial; documents nested more than 10000 levels deep are written but not read."},
{"property": "C108", "status": "proved", "theorems": ["GoGeo.GeoJson.C108_syntax", "GoGeo.GeoJson.C108_layout", "GoGeo.GeoJson.C108_nearest", "GoGeo.GeoJson.C108_out_of_range"], "note": "Member names are matched as encoding/json does, up to case (see C109)."},
{"property": "C109", "status": "partial", "theorems": ["GoGeo.GeoJson.C109_foreign_partial", "GoGeo.GeoJson.C109_text_partial", "GoGeo.GeoJson.C109_variant", "GoGeo.GeoJson.C109_false"], "note": "C109_variant says exactly which names take the place of a standard one, C109_foreign_partial (trees) and C109_text_partial (texts, any value) that all others are ignored, C109_false refutes the full statement."},
{"property": "C11", "status": "partial", "theorems": ["GoGeo.C11_history_partial", "GoGeo.C11_insert_partial", "GoGeo.C11_insert_exact", "GoGeo.C11_delete_partial", "GoGeo.C11_delete_total_partial", "GoGeo.C11_history_min1", "GoGeo.C11_history_false", "GoGeo.C11_delete_false"], "note": "False of the code: C11_history_false is a history whose last insertion panics, C11_delete_false one whose last deletion panics. C11_insert_exact: after any calls an insertion panics exactly if the tree holds nothing and is more than one level deep; C11_history_min1: with MinChildren one the histories that panic are exactly those with such an insertion. Deletions do not panic with MinChildren one, at most two levels, or two children under the root (C11_delete_total_partial)."},
{"property": "C110", "status": "partial", "theorems": ["GoGeo.GeoJson.C110_geometry_partial", "GoGeo.GeoJson.C110_feature_partial", "GoGeo.GeoJson.C110_false", "GoGeo.GeoJson.Reuse.C110_once_feature", "GoGeo.GeoJson.Reuse.C110_once_collection", "GoGeo.GeoJson.Reuse.C110_bbox_partial", "GoGeo.GeoJson.Reuse.C110_bbox_false", "GoGeo.GeoJson.Reuse.C110_features_false"], "note": "False: geometry, properties and features are merged (C110_false, C110_features_false), null in a repeated bbox lets the old number through (C110_bbox_false). Proved for coordinates, geometries, id, (string) type and bbox of numbers. The last five theorems are about a model that keeps the cells of the slices (GeoJson/Reuse), which agrees with the other one when bbox and features are not repeated (C110_once_feature, C110_once_collection)."},
{"property": "C111", "status": "proved", "theorems": ["GoGeo.GeoJson.C111_order"], "note": ""},
{"property": "C112", "status": "partial", "theorems": ["GoGeo.C112_simplify_partial", "GoGeo.C112_false"], "note": "False as stated (C112_false: a line that visits a point twice, threshold 0). Proved when no point occurs twice or the threshold is at least M/2^46."},
{"property": "C113", "status": "proved", "theorems": ["GoGeo.C113_grid", "GoGeo.C113_clear"], "note": "Both cases proved for every sort meeting HullSort; the sort caveats of C48/C74 apply."},
{"property": "C114", "status": "proved", "theorems": ["GoGeo.C114_segments", "GoGeo.C114_lines", "GoGeo.C114_selfIntersect", "GoGeo.C114_polyRelation", "GoGeo.C114_area", "GoGeo.C114_ccw", "GoGeo.C114_inPolygon", "GoGeo.C114_inPolygon_parity", "GoGeo.C114_verify", "GoGeo.C114_false"], "note": "Exact on grids. C114_false: with 29-bit coordinates a proper crossing is answered DISJOINT."},
{"property": "C115", "status": "proved", "theorems": ["GoGeo.C115_shortest", "GoGeo.C115_point", "GoGeo.C115_line", "GoGeo.C115_multiPoint", "GoGeo.C115_pointZ", "GoGeo.C115_sixteen", "GoGeo.C115_geojson_point", "GoGeo.C115_geojson_polygon"], "note": "C115_shortest: fewest digits; C115_point, _line, _multiPoint, _pointZ: WKT texts are kept; C115_geojson_point, _polygon: GeoJSON texts are kept; C115_sixteen: the bound of 15 digits is sharp."},
{"property": "C116", "status": "partial", "theorems": ["GoGeo.C116_capacity", "GoGeo.C116_insert", "GoGeo.C116_insert_log", "GoGeo.C116_bulk", "GoGeo.C116_false", "GoGeo.C116_delete_deeper"], "note": "False of the code after deletions (C116_false, C116_delete_deeper): condenseTree re-inserts underfull nodes as a whole. Proved: the capacity bound after every history, both bounds for trees built by insertions, and both bounds for bulk-loaded trees in float64."},
{"property": "C117", "status": "partial", "theorems": ["GoGeo.C117_space", "GoGeo.C117_inverse", "GoGeo.C117_length", "GoGeo.C117_products", "GoGeo.C117_triangle", "GoGeo.C117_float", "GoGeo.C117_grid", "GoGeo.C117_false"], "note": "The full statement holds in exact arithmetic. In float64 the laws of inverses are false (C117_false: (1+2^53)-2^53, 49/49 by the reciprocal); there the single operations are correctly rounded (C117_float) and all of them exact on grids (C117_grid)."},
{"property": "C118", "status": "partial", "theorems": ["GoGeo.C118_point", "GoGeo.C118_line", "GoGeo.C118_multiPoint", "GoGeo.C118_junk_false"], "note": "False: extra words are accepted after two numbers, and positions of four words vanish from lines (C118_junk_false). The other theorems say exactly which texts are accepted, with which result, and which panic."},
{"property": "C119", "status": "partial", "theorems": ["GoGeo.C119_polygon", "GoGeo.C119_multiPoint", "GoGeo.C119_false"], "note": "False of the code for polygons that are small compared with their distance from the origin: the sums are taken about the origin, so a two-metre square in degrees gets a centroid five kilometres away, and others NaN (C119_false). Proved: for area A with n(n+8)M^2 <= 2^50 A the error in each coordinate is at most 2n(n+8)M^2(M+|C|)/A units of 2^-53 (C119_polygon); the multipoint claim in full (C119_multiPoint)."},
{"property": "C12", "status": "proved", "theorems": ["GoGeo.C12_bulk", "GoGeo.C12_newTree", "GoGeo.C12_float64", "GoGeo.C12_newTree_float64", "GoGeo.C12_few_float64", "GoGeo.C12_newTree_few_float64", "GoGeo.goSort_ok"], "note": "Bulk loading is total and exact for any sort meeting sort.Sort's contract and any height with n <= max^height; C12_float64 and C12_newTree_float64 are the program as it runs: float64 arithmetic (Math64Ok) and Go 1.15's sort, up to 2^40 objects. C12_few_float64 and C12_newTree_few_float64 cover the small trees (at most max objects), which are built by insertion."},
{"property": "C120", "status": "proved", "theorems": ["GoGeo.C120_box", "GoGeo.C120_window", "GoGeo.C120_common", "GoGeo.C120_bulk"], "note": "Holes count as filled (the box of a polygon is that of its first ring). Z geometries, collections and pointers have no proper box, see C21."},
{"property": "C121", "status": "partial", "theorems": ["GoGeo.C121_lookup_partial", "GoGeo.C121_grid", "GoGeo.C121_false"], "note": "False of the code: for (50,0) and a triangle forty units away IsPointInPolygon answers CONTAIN, the search returns nothing (C121_false). Proved for points clear of the boundary and of the heights of corners (C121_lookup_partial) and, without any clearance, for all points but the origin when the coordinates have at most 17 bits (C121_grid)."},
{"property": "C122", "status": "proved", "theorems": ["GoGeo.C122_nearest", "GoGeo.C122_points", "GoGeo.C122_grid", "GoGeo.C122_false"], "note": "Distances are to the box of a geometry, as in the code; C122_false shows that the line whose box is nearest need not be the nearest. For points box and geometry agree (C122_points)."},
{"property": "C123", "status": "proved", "theorems": ["GoGeo.C123_toLine"], "note": "Real-number bounds for all finite inputs in range; geographic srid 4326 (haversine) is excluded."},
{"property": "C124", "status": "proved", "theorems": ["GoGeo.C124_condition", "GoGeo.C124_condition_any", "GoGeo.C124_deleting_false"], "note": "C124_condition_any for any memory whose slices are in bounds. C124_deleting_false: the tree must be left alone."},
{"property": "C125", "status": "proved", "theorems": ["GoGeo.C125_schedule", "GoGeo.C125_finish", "GoGeo.C125_bulk", "GoGeo.C125_insert_false"], "note": "C125_insert_false: a writer must be kept out, a lock around the writer alone is not enough."},
{"property": "C126", "status": "proved", "theorems": ["GoGeo.C126_feature", "GoGeo.C126_collection", "GoGeo.C126_late", "GoGeo.C126_snapshot", "GoGeo.C126_copy_false", "GoGeo.C126_feature_copy_false"], "note": "What holds for all histories; the two failures for written copies are theorems too."},
{"property": "C127", "status": "proved", "theorems": ["GoGeo.C127_geometry", "GoGeo.C127_feature", "GoGeo.C127_collection", "GoGeo.C127_verbatim"], "note": ""},
{"property": "C128", "status": "proved", "theorems": ["GoGeo.C128_exact", "GoGeo.C128_points", "GoGeo.C128_search", "GoGeo.C128_radius", "GoGeo.C128_bulk", "GoGeo.C128_wider_false"], "note": "In float64 the box may also contain points beyond the distances, by rounding (C128_wider_false)."},
{"property": "C129", "status": "partial", "theorems": ["GoGeo.C129_only_origin", "GoGeo.C129_exact", "GoGeo.C129_closed", "GoGeo.C129_onLine_partial", "GoGeo.C129_false"], "note": "False of the code: only the origin is ever reported. Proved: what is decided, for all lines; missing: every point but the origin."},
{"property": "C13", "status": "partial", "theorems": ["GoGeo.C13_insert_partial", "GoGeo.C13_insert_after_bulk_false", "GoGeo.C13_insert_after_bulk_partial", "GoGeo.C13_inserts_after_bulk_partial", "GoGeo.C13_inserts_return_partial"], "note": "False for bulk-loaded trees: C13_insert_after_bulk_false exhibits a lost object (leaves share a backing array). Proved: trees whose constructor does not bulk load lose nothing (C13_insert_partial); exactly what one insertion after bulk loading and deletions does - it is right, or exactly one earlier object is replaced by a second copy of the new one - and that searches still find everything stored (C13_insert_after_bulk_partial); after any number of insertions the size, the number of objects, their origin, the soundness of searches and the presence of the last object inserted are right (C13_inserts_after_bulk_partial); insertions never panic for bounded coordinates (C13_inserts_return_partial). Missing because false: that no earlier object is overwritten."},
{"property": "C130", "status": "partial", "theorems": ["GoGeo.C130_edits_partial", "GoGeo.C130_reads", "GoGeo.C130_set_get", "GoGeo.C130_copy_set_false", "GoGeo.C130_copy_add_false"], "note": "List semantics proved for every sequence of edits and every capacity; the part about copies is false of the code (refuted for every polygon)."},
{"property": "C131", "status": "proved", "theorems": ["GoGeo.C131_gcj", "GoGeo.C131_bd", "GoGeo.C131_composed"], "note": "Exact arithmetic; the specification is written in terms of radii of curvature and polar coordinates."},
{"property": "C132", "status": "partial", "theorems": ["GoGeo.Utm.C132_forward", "GoGeo.Utm.C132_back_partial", "GoGeo.Utm.C132_back_false"], "note": "FromLatLon: proved. ToLatLon: proved on the central meridian; false elsewhere (the sixth-order term is outside the bracket and n stands for the second eccentricity): on the equator the result is north of the equator for every easting but 500000 (C132_back_false)."},
{"property": "C133", "status": "proved", "theorems": ["GoGeo.Utm.C133_northing"], "note": "The length is the integral of the radius of curvature of the meridian."},
{"property": "C134", "status": "proved", "theorems": ["GoGeo.Region.C134_area", "GoGeo.Region.C134_centroid"], "note": "exact real arithmetic; Lebesgue measure on the plane"},
{"property": "C135", "status": "proved", "theorems": ["GoGeo.Region.C135_area", "GoGeo.Region.C135_region", "GoGeo.Region.C135_centroid"], "note": "exact real arithmetic; that a ring which does not cross itself goes round every point at most once is a hypothesis of C135_region (the Jordan curve theorem for polygons is not proved)"},
{"property": "C136", "status": "proved", "theorems": ["GoGeo.Region.C136_area", "GoGeo.Region.C136_centroid", "GoGeo.Region.C136_polygon_le"], "note": "exact real arithmetic; the sort is assumed to meet its contract as in C48; points apart from each other as in C48_hull_apart; for the polygon, the winding-number hypothesis of C135"},
{"property": "C137", "status": "proved", "theorems": ["GoGeo.Region.C137_convex", "GoGeo.Region.C137_left"], "note": "Convex: strictly inside. One direction: in every half plane that contains the corners."},
{"property": "C138", "status": "proved", "theorems": ["GoGeo.C138_again", "GoGeo.C138_length", "GoGeo.C138_box"], "note": "Idempotence in every ordered arithmetic, float64 included; length in exact arithmetic; box in float64 for coordinates up to 2^31."},
{"property": "C139", "status": "proved", "theorems": ["GoGeo.C139_area", "GoGeo.C139_region", "GoGeo.C139_disk"], "note": "Exact arithmetic over the reals; in float64 the number of corners depends on rounding (C52_buffer_float)."},
{"property": "C14", "status": "proved", "theorems": ["GoGeo.C14_step", "GoGeo.C14_search"], "note": ""},
{"property": "C140", "status": "proved", "theorems": ["GoGeo.Region.C140_inside", "GoGeo.Region.C140_inside_grid", "GoGeo.Region.C140_parts", "GoGeo.Region.C140_area", "GoGeo.Region.C140_centroid", "GoGeo.Region.C140_ccw", "GoGeo.Region.C140_boundary", "GoGeo.Region.C140_left", "GoGeo.Region.C140_verify"], "note": "IsPointInPolygon in float64 under C101's clearance (or on a grid, without it); area, centroid, orientation and validity in exact real arithmetic."},
{"property": "C141", "status": "proved", "theorems": ["GoGeo.Region.C141_segment", "GoGeo.Region.C141_across", "GoGeo.Region.C141_line", "GoGeo.Region.C141_polygon"], "note": "Float64 on a grid; for CONTAIN and DISJOINT the lines must not meet the ring and no side may be in line with a side. UNKNOWN for crossing segments is possible because the last side is not visited and a crossing at a corner is not counted."},
{"property": "C142", "status": "proved", "theorems": ["GoGeo.Region.C140_convex", "GoGeo.Region.C142_hull", "GoGeo.Region.C142_hull_le", "GoGeo.Region.C142_buffer"], "note": "Exact real arithmetic. The convex-ring fact is C140_convex; the hull's corners need general position, as collinear corners may be kept."},
{"property": "C143", "status": "proved", "theorems": ["GoGeo.Region.C143_area", "GoGeo.Region.C143_centroid"], "note": "Exact real arithmetic; the box has no bound on the coordinates since every corner is compared."},
{"property": "C144", "status": "proved", "theorems": ["GoGeo.Region.C144_area", "GoGeo.Region.C144_ccw", "GoGeo.Region.C144_centroid"], "note": "Float64 error bounds for GetArea, IsCCW and Centroid of simple polygons against the region they shut in."},
{"property": "C145", "status": "proved", "theorems": ["GoGeo.Region.C145_distance", "GoGeo.Region.C145_distance_grid", "GoGeo.Region.C145_room"], "note": "holes are ignored by the code (C38)"},
{"property": "C146", "status": "proved", "theorems": ["GoGeo.C146_exact", "GoGeo.C146_float64", "GoGeo.C146_hausdorff", "GoGeo.C146_hausdorff_float64"], "note": ""},
{"property": "C147", "status": "proved", "theorems": ["GoGeo.Region.C147_hull", "GoGeo.Region.C147_polygon"], "note": "points in line are left out"},
{"property": "C148", "status": "proved", "theorems": ["GoGeo.C148_twice", "GoGeo.C148_float64"], "note": ""},
{"property": "C149", "status": "proved", "theorems": ["GoGeo.C149_order", "GoGeo.C149_slice", "GoGeo.C149_again", "GoGeo.C149_grid", "GoGeo.C149_clear"], "note": "Exact arithmetic for every list; float64 on the 25 bit grid and in general position (bit for bit). C149_again: hull of the corners of the hull."},
{"property": "C15", "status": "partial", "theorems": ["GoGeo.C15_searchID_partial", "GoGeo.C15_searchID_sound", "GoGeo.C15_searchID_false"], "note": "False for objects with an empty geometry (C15_searchID_false). Proved for proper geometries; what is returned is always right."},
{"property": "C150", "status": "proved", "theorems": ["GoGeo.C150_segments", "GoGeo.C150_lines", "GoGeo.C150_self", "GoGeo.C150_area", "GoGeo.C150_ccw", "GoGeo.C150_centroid", "GoGeo.C150_hull", "GoGeo.C150_toSegment", "GoGeo.C150_length", "GoGeo.C150_hausdorff", "GoGeo.C150_hit", "GoGeo.C150_simplify"], "note": "Exact arithmetic."},
{"property": "C151", "status": "partial", "theorems": ["GoGeo.C151_inside_false", "GoGeo.C151_inside_partial", "GoGeo.C151_segPoly_partial", "GoGeo.C151_linePoly_partial", "GoGeo.C151_distance_partial"], "note": "False at the origin (C151_inside_false): the boundary test uses the bounding box of a pointer, which is the zero box, so only the origin can be reported as touching. Proved when the points asked about are not the origin before or after the translation."},
{"property": "C152", "status": "proved", "theorems": ["GoGeo.C152_toSegment", "GoGeo.C152_hit", "GoGeo.C152_hausdorff", "GoGeo.C152_length", "GoGeo.Region.C152_polygon"], "note": "float64 with explicit rounding errors; polygons on the dyadic grid of C145"},
{"property": "C153", "status": "partial", "theorems": ["GoGeo.C153_toSegment", "GoGeo.C153_hit", "GoGeo.C153_hausdorff", "GoGeo.C153_simplify_partial", "GoGeo.C153_simplify_false"], "note": "False for DouglasPeuckerSimplify when two points are equally far from a chord (C153_simplify_false); proved without ties (C153_simplify_partial) and for the distances."},
{"property": "C154", "status": "partial", "theorems": ["GoGeo.C154_advances_partial", "GoGeo.C154_crossing_false"], "note": "False in general (C154_crossing_false); proved for lines that advance in some direction."},
{"property": "C155", "status": "proved", "theorems": ["GoGeo.C155_search", "GoGeo.C155_order", "GoGeo.C155_nearest", "GoGeo.C155_noTies", "GoGeo.C155_ties"], "note": "Which of several equally far objects is returned depends on the order of insertion (C155_ties)."},
{"property": "C156", "status": "proved", "theorems": ["GoGeo.Region.C156_area", "GoGeo.Region.C156_length", "GoGeo.Region.C156_same", "GoGeo.Region.C156_merge", "GoGeo.Region.C156_box"], "note": "Exact arithmetic on real coordinates; points pairwise apart by 1e-6 in some coordinate."},
{"property": "C157", "status": "proved", "theorems": ["GoGeo.Region.C157_exact", "GoGeo.Region.C157_float"], "note": "Exact arithmetic and float64."},
{"property": "C158", "status": "proved", "theorems": ["GoGeo.Region.C158_exact", "GoGeo.Region.C158_float"], "note": "Exact arithmetic and float64."},
{"property": "C159", "status": "proved", "theorems": ["GoGeo.C159_inside", "GoGeo.C159_grid", "GoGeo.C159_clear"], "note": "exact arithmetic: any distinct points; float64: grids and general position"},
{"property": "C16", "status": "proved", "theorems": ["GoGeo.C16_condition_filters"], "note": ""},
{"property": "C160", "status": "proved", "theorems": ["GoGeo.Region.C160_parts", "GoGeo.Region.C160_area", "GoGeo.Region.C160_centroid", "GoGeo.Region.C160_point", "GoGeo.Region.C160_point_simple", "GoGeo.Region.C160_area_grid"], "note": "exact arithmetic for all simple rings; float64 on grids"},
{"property": "C161", "status": "proved", "theorems": ["GoGeo.C161_rings", "GoGeo.C161_ringsZ", "GoGeo.C161_ends"], "note": "Found through a wrong program (open rings with heights) that no theorem caught before. The theorems hold for every NumText, i.e. whatever numbers are accepted."},
{"property": "C162", "status": "proved", "theorems": ["GoGeo.C162_distance", "GoGeo.C162_diameter", "GoGeo.C162_grid", "GoGeo.C162_clear"], "note": "In float64 the comparison is up to a relative 2^-47, since distances are rounded."},
{"property": "C163", "status": "proved", "theorems": ["GoGeo.Wkt.C163_lines", "GoGeo.Wkt.C163_rings", "GoGeo.Wkt.C163_never", "GoGeo.Wkt.C163_multiLineZ", "GoGeo.Wkt.C163_polygonZ", "GoGeo.Wkt.C163_example", "GoGeo.Wkt.C163_example_digit", "GoGeo.Wkt.C163_example_rings"], "note": "Exact: what is decoded, for all such multilines and polygons. The property describes a defect: see C54."},
{"property": "C164", "status": "proved", "theorems": ["GoGeo.Wkt.C164_found", "GoGeo.Wkt.C164_none", "GoGeo.Wkt.C164_never", "GoGeo.Wkt.C164_example"], "note": "Exact: what is decoded, for all such multipolygons. The property describes a defect: see C54."},
{"property": "C165", "status": "proved", "theorems": ["GoGeo.Region.C165_nested", "GoGeo.Region.C165_strict", "GoGeo.Region.C165_parts", "GoGeo.Region.C165_tiles", "GoGeo.Region.C165_centroid", "GoGeo.Region.C165_cut", "GoGeo.Region.C165_contain"], "note": "over the real numbers without restriction on the simple rings; in float64 on the grid the quantifier names"},
{"property": "C166", "status": "proved", "theorems": ["GoGeo.Region.C166_box", "GoGeo.Region.C166_hull", "GoGeo.Region.C166_convex", "GoGeo.Region.C166_contain"], "note": "boxes, hulls and convex rings over the real numbers; boxes also in float64 on the grid the quantifier names"},
{"property": "C167", "status": "proved", "theorems": ["GoGeo.Region.C167_asymm", "GoGeo.Region.C167_trans", "GoGeo.Region.C167_apart", "GoGeo.Region.C167_inside", "GoGeo.Region.C167_three", "GoGeo.Region.C167_point", "GoGeo.Region.C167_line"], "note": "on the grid the quantifier names"},
{"property": "C168", "status": "proved", "theorems": ["GoGeo.Region.C168_contained", "GoGeo.Region.C168_cut"], "note": "on the grid the quantifier names"},
{"property": "C169", "status": "proved", "theorems": ["GoGeo.Region.C169_search", "GoGeo.Region.C169_bulk", "GoGeo.Region.C169_lineBox", "GoGeo.Region.C169_line"], "note": "After any history and after bulk loading; grid rings and lines in float64 whose boundaries do not meet."},
{"property": "C17", "status": "partial", "theorems": ["GoGeo.C17_delete_partial", "GoGeo.C17_delete_false"], "note": "False: deleting a stored line panics (C17_delete_false). Proved for objects that Go can compare."},
{"property": "C170", "status": "proved", "theorems": ["GoGeo.Region.C170_box", "GoGeo.Region.C170_search", "GoGeo.Region.C170_wider", "GoGeo.Region.C170_within", "GoGeo.Region.C170_overlap"], "note": "Exact arithmetic on real coordinates; box and search for coordinates up to 2^31."},
{"property": "C171", "status": "proved", "theorems": ["GoGeo.C171_hull_exact", "GoGeo.C171_hull", "GoGeo.C171_simplify", "GoGeo.C171_sides", "GoGeo.C171_hausdorff"], "note": "Hulls exactly and on a float64 grid; simplification in float64 and, for the sides, exactly; Hausdorff distance exactly."},
{"property": "C172", "status": "proved", "theorems": ["GoGeo.Region.C172_lookup", "GoGeo.Region.C172_bulk"], "note": "After any history and after bulk loading, float64 on a grid."},
{"property": "C173", "status": "proved", "theorems": ["GoGeo.GeoJson.C173_feature", "GoGeo.GeoJson.C173_collection", "GoGeo.GeoJson.C173_geometry", "GoGeo.GeoJson.C173_repeated", "GoGeo.GeoJson.C173_empty", "GoGeo.GeoJson.C173_text"], "note": "Documents over any number type, repeated members included; texts in float64."},
{"property": "C174", "status": "proved", "theorems": ["GoGeo.GeoJson.C174_geometry", "GoGeo.GeoJson.C174_feature", "GoGeo.GeoJson.C174_collection", "GoGeo.GeoJson.C174_repeated", "GoGeo.GeoJson.C174_text"], "note": "Documents over any number type; texts in float64."},
{"property": "C175", "status": "proved", "theorems": ["GoGeo.GeoJson.C175_typed", "GoGeo.GeoJson.C175_absent", "GoGeo.GeoJson.C175_text"], "note": "Documents over any number type; texts in float64."},
{"property": "C176", "status": "proved", "theorems": ["GoGeo.GeoJson.C176_geometry", "GoGeo.GeoJson.C176_features", "GoGeo.GeoJson.C176_text"], "note": "Documents over any number type; texts in float64."},
{"property": "C177", "status": "proved", "theorems": ["GoGeo.GeoJson.C177_feature", "GoGeo.GeoJson.C177_collection", "GoGeo.GeoJson.C177_built", "GoGeo.GeoJson.C177_text"], "note": "Any number type; the texts in float64."},
{"property": "C178", "status": "proved", "theorems": ["GoGeo.GeoJson.C178_feature", "GoGeo.GeoJson.C178_collection", "GoGeo.GeoJson.C178_text"], "note": "For texts: of at most 10000 levels (encoding/json reads no others) and without numbers out of range. Repeated members are read as UnmarshalFeature models them; the reuse of the old slice by a repeated member (Reuse) is not covered."},
{"property": "C18", "status": "proved", "theorems": ["GoGeo.C18_all_boxes"], "note": ""},
{"property": "C19", "status": "proved", "theorems": ["GoGeo.C19_boundingBox_num", "GoGeo.C19_boundingBox_covers", "GoGeo.C19_boundingBox_covers_exterior"], "note": ""},
{"property": "C20", "status": "proved", "theorems": ["GoGeo.C20_boundingBox_attained", "GoGeo.C20_boundingBox_least", "GoGeo.C20_bound_needed"], "note": ""},
{"property": "C21", "status": "partial", "theorems": ["GoGeo.C21_partial", "GoGeo.C21_pointer_false", "GoGeo.C21_z_false", "GoGeo.C21_hole_false"], "note": "false as stated; refuted, with the part that holds"},
{"property": "C22", "status": "proved", "theorems": ["GoGeo.C22_contain", "GoGeo.C22_contain_points", "GoGeo.C22_union_lub", "GoGeo.C22_intersect_symm", "GoGeo.C22_intersect_mono", "GoGeo.C22_intersect_points", "GoGeo.C22_boxUnion", "GoGeo.C22_boxUnion_order"], "note": ""},
{"property": "C23", "status": "partial", "theorems": ["GoGeo.C23_area_false", "GoGeo.C23_boundingBox_partial", "GoGeo.C23_thin_false"], "note": "False: area of the box polygon is half the box's (ring not closed), proved for every box; thin boxes lose a side. Bounding box equality proved for boxes at least 1e-6 wide, float64 included."},
{"property": "C24", "status": "partial", "theorems": ["GoGeo.C24_setPoint", "GoGeo.C24_out_of_range", "GoGeo.C24_delPoint", "GoGeo.C24_insertPoint_partial", "GoGeo.C24_insert_end_false", "GoGeo.C24_negative_false"], "note": "SetPoint, DelPoint and out-of-range errors exact; InsertPoint exact inside the line. False at the end (point inserted twice) and for negative positions (panic): witnesses proved for every line."},
{"property": "C25", "status": "proved", "theorems": ["GoGeo.C25_reverse", "GoGeo.C25_reverse_twice", "GoGeo.C25_length_reverse"], "note": "Reverse over slices with shared arrays; Length over exact reals incl. infinities and NaN."},
{"property": "C26", "status": "partial", "theorems": ["GoGeo.C26_equal_exact", "GoGeo.C26_equal_partial", "GoGeo.C26_point_symm", "GoGeo.C26_pointZ_symm", "GoGeo.C26_point_refl", "GoGeo.C26_pointZ_refl", "GoGeo.C26_prefix_false", "GoGeo.C26_panic_false"], "note": "Exact characterisation of Equal; symmetric/reflexive/no panic on equal lengths, bit-level float64 too. False for different lengths (prefix counts as equal; panics): witnesses."},
{"property": "C27", "status": "partial", "theorems": ["GoGeo.C27_newLineString_partial", "GoGeo.C27_split_second_partial", "GoGeo.C27_split_first_false", "GoGeo.C27_toRing_false"], "note": "NewLineString and the second part of a split are safe. False: appending to (or closing) the first part of a split overwrites the original line, for every line."},
{"property": "C28", "status": "partial", "theorems": ["GoGeo.C28_ring", "GoGeo.C28_newLinearRing", "GoGeo.C28_closed", "GoGeo.C28_toRing_partial", "GoGeo.C28_short_false"], "note": "Rings from >= 2 points are the points plus at most one closing point, closed within 1e-6. False: ToRing/NewPolygonFromPois panic for < 2 points."},
{"property": "C29", "status": "proved", "theorems": ["GoGeo.C29_split", "GoGeo.C29_lengths", "GoGeo.C29_lengths_close"], "note": "Cut exact on slices; lengths add over exact reals, and in float64 up to rounding."},
{"property": "C30", "status": "partial", "theorems": ["GoGeo.C30_setSrid_panics_false", "GoGeo.C30_setSrid_unobservable_false"], "note": "False as stated: SetSrid always panics on the package's nil map, and even with a map stores under an unreachable address."},
{"property": "C31", "status": "proved", "theorems": ["GoGeo.C31_area_reverse", "GoGeo.C31_ccw_reverse", "GoGeo.C31_area_rotate", "GoGeo.C31_area_translate"], "note": "Exact arithmetic over any ordered field, all rings."},
{"property": "C32", "status": "proved", "theorems": ["GoGeo.C32_area_fan", "GoGeo.C32_triangle", "GoGeo.C32_rectangle", "GoGeo.C32_multi", "GoGeo.C32_area_nonneg"], "note": "Exact arithmetic; non-negativity also for float64."},
{"property": "C33", "status": "partial", "theorems": ["GoGeo.C33_holes_ignored", "GoGeo.C33_holes_false"], "note": "False: holes are never subtracted; exact statement and witness proved."},
{"property": "C34", "status": "proved", "theorems": ["GoGeo.C34_centroid_fan", "GoGeo.C34_centroid_translate", "GoGeo.C34_centroid_invariant", "GoGeo.C34_centroid_triangle", "GoGeo.C34_centroid_points", "GoGeo.C34_centroid_line", "GoGeo.C34_short_line_panics", "GoGeo.C34_linearCentroid"], "note": "Exact arithmetic; the centroid is the area-weighted mean of a fan's triangle centroids from any apex."},
{"property": "C35", "status": "partial", "theorems": ["GoGeo.C35_onSegment_false", "GoGeo.C35_onSegment_exact", "GoGeo.C35_onSegment_partial"], "note": "False as stated: IsPointOnSegment asks for the box of a pointer, which is the zero box, so only the origin can be on a segment (witness in float64). Proved: the exact characterisation, and the statement for the origin."},
{"property": "C36", "status": "proved", "theorems": ["GoGeo.C36_inPolygon_rotate", "GoGeo.C36_inPolygon_reverse"], "note": "Rotation for every arithmetic including float64, reversal in exact arithmetic."},
{"property": "C37", "status": "partial", "theorems": ["GoGeo.C37_outside_box_false", "GoGeo.C37_outside_box_partial", "GoGeo.C37_outside_y"], "note": "False as stated (the 1e-6 tolerance extrapolates nearly horizontal edges): float64 witness 40 units outside. Proved for points with no corner less than 1e-6 above them, and unconditionally above and below the box."},
{"property": "C38", "status": "partial", "theorems": ["GoGeo.C38_convex_false", "GoGeo.C38_convex_partial", "GoGeo.C38_rectangle"], "note": "False as stated for the same reason as C37. Proved for strictly convex rings of any size for points with the stated clearances; exact characterisation for all rectangles."},
{"property": "C39", "status": "proved", "theorems": ["GoGeo.C39_intersect_iff", "GoGeo.C39_intersect_symm"], "note": "Exact arithmetic, all segments."},
{"property": "C40", "status": "partial", "theorems": ["GoGeo.C40_disjoint_false", "GoGeo.C40_disjoint_partial", "GoGeo.C40_touch_exact"], "note": "False as stated (T-junctions are DISJOINT, collinear far-apart segments TOUCH). Proved for all pairs without those two configurations, and the exact condition for TOUCH, which with C39 settles the verdict for all pairs."},
{"property": "C41", "status": "partial", "theorems": ["GoGeo.C41_selfIntersect_false", "GoGeo.C41_selfIntersect_partial"], "note": "False as stated (last edge never compared). Proved: exact characterisation over all other edges."},
{"property": "C42", "status": "partial", "theorems": ["GoGeo.C42_toSegment_partial", "GoGeo.C42_toSegment_unique", "GoGeo.C42_toSegment_false", "GoGeo.C42_toSegment_float_false"], "note": "Proved for segments with different ends in exact arithmetic (and the result is shown unique); false for segments of length zero, where distance and point are NaN."},
{"property": "C43", "status": "proved", "theorems": ["GoGeo.C43_hit_first", "GoGeo.C43_hit_first_float", "GoGeo.C43_hit_nearest"], "note": "Index, distance and first-minimality for every arithmetic incl. float64; nearest point of the whole line in exact arithmetic."},
{"property": "C44", "status": "partial", "theorems": ["GoGeo.C44_symm_float", "GoGeo.C44_metric", "GoGeo.C44_disZ_partial", "GoGeo.C44_disZ_false", "GoGeo.C44_disZ_ignores_second"], "note": "Bit-exact symmetry in float64 and all metric laws in exact arithmetic for EuclideanDis/EuclideanDistance; EuclideanDisZ ignores its second argument, so the 3-D part is false."},
{"property": "C45", "status": "proved", "theorems": ["GoGeo.C45_hausdorff", "GoGeo.C45_hausdorff_symm", "GoGeo.C45_hausdorff_zero", "GoGeo.C45_hausdorff_triangle"], "note": "Exact arithmetic, planar srid."},
{"property": "C46", "status": "proved", "theorems": ["GoGeo.C46_simplify", "GoGeo.C46_simplify_float", "GoGeo.C46_simplify_exact", "GoGeo.goSort_ok"], "note": "Termination, subsequence, end points and distance bound for every arithmetic (float64 included, computed distances) and for true distances in exact arithmetic; true distances in float64 are C112. sort.Sort is any function meeting its contract, goSort_ok: Go 1.15's does."},
{"property": "C47", "status": "partial", "theorems": ["GoGeo.C47_terminates_partial", "GoGeo.C47_shares", "GoGeo.C47_negative_false", "GoGeo.C47_closed_false", "GoGeo.C47_alias_false"], "note": "Proved: terminates without panic unless the threshold is below zero; other arrays untouched; nothing changed when no point is dropped. False: negative thresholds never terminate, closed lines collapse, the caller's line is overwritten."},
{"property": "C48", "status": "proved", "theorems": ["GoGeo.C48_hull", "GoGeo.C48_hull_apart", "GoGeo.C48_few", "GoGeo.goSort12_hullSort"], "note": "Exact arithmetic over any ordered field, points all different, any sort meeting HullSort (in particular Go 1.15's on at most 12 points). The closing point is left out when first and last corner are within 1e-6."},
{"property": "C49", "status": "partial", "theorems": ["GoGeo.C49_alias_false", "GoGeo.C49_permutes_partial"], "note": "False: the caller's slice is reordered (C49_alias_false). Proved: it is a permutation and nothing else changes."},
{"property": "C50", "status": "proved", "theorems": ["GoGeo.C50_value", "GoGeo.C50_distance", "GoGeo.C50_zero", "GoGeo.C50_triangle"], "note": "Real arithmetic; also zero iff the same point of the globe, and the triangle inequality"},
{"property": "C51", "status": "proved", "theorems": ["GoGeo.C51_angle", "GoGeo.C51_angle_error", "GoGeo.C51_quadrant", "GoGeo.C51_azimuth", "GoGeo.C51_azimuth_other", "GoGeo.C51_underflow_false", "GoGeo.C51_quadrant_false"], "note": "Real arithmetic, with what the angles mean: the rotation taking one ray to the other, and the bearing under which q is seen from p. Two witnesses show that in float64 the coincidence test misfires (underflow, and 1e-7 lost)"},
{"property": "C52", "status": "proved", "theorems": ["GoGeo.C52_isometry", "GoGeo.C52_rotate_point", "GoGeo.C52_rotateCCW_point", "GoGeo.C52_trunc_false", "GoGeo.C52_buffer", "GoGeo.C52_buffer_radius", "GoGeo.C52_buffer_negative", "GoGeo.C52_buffer_float"], "note": "Real arithmetic. The result after truncation is within 1e-4 of the exact rotation and not an isometry (C52_trunc_false). C52_buffer_float: 25 rounds also in float64"},
{"property": "C53", "status": "proved", "theorems": ["GoGeo.C53_roundtrip", "GoGeo.C53_float64", "GoGeo.C53_words", "GoGeo.C53_float64_all"], "note": "C53_float64: for float64, with strconv modelled (Go/Strconv: ParseFloat syntax of Go 1.15 with correct rounding, FormatFloat as the shortest digits that read back), every geometry with finite coordinates comes back bit by bit; C53_float64_all: also with infinite and NaN coordinates (one NaN in the model). C53_roundtrip, C53_words: the same over any arithmetic whose number text reads back."},
{"property": "C54", "status": "partial", "theorems": ["GoGeo.C54_one_ring_partial", "GoGeo.C54_polygon_false", "GoGeo.C54_holes_false", "GoGeo.C54_multiline_false", "GoGeo.C54_multipolygon_false", "GoGeo.C54_multipolygon_never_false", "GoGeo.Wkt.C54_multipolygon_holes_false", "GoGeo.C54_polygonZ_false", "GoGeo.C54_example_false"], "note": "False: FindStringSubmatch returns the match and its group, so one ring comes back twice and several are rejected; no polygon and no multipolygon at all survives (C54_polygon_false, C54_multipolygon_never_false). What remains: the exterior ring of a one-ring polygon is right (C54_one_ring_partial). With heights: C163, C164."},
{"property": "C55", "status": "partial", "theorems": ["GoGeo.C55_panics_partial", "GoGeo.C55_float64_partial", "GoGeo.C55_point_false", "GoGeo.C55_polygon_false", "GoGeo.C118_point", "GoGeo.C118_line", "GoGeo.C118_multiPoint"], "note": "False: POINT(1) and POLYGON((1 2)) panic. C55_panics_partial: those are the only ways to panic; C55_float64_partial: the same for float64 with strconv modelled. C118_point, C118_line and C118_multiPoint give the exact condition for these types."},
{"property": "C56", "status": "proved", "theorems": ["GoGeo.C56_roundtrip", "GoGeo.C56_rfc"], "note": "JSON documents are trees; encoding/json's text layer is assumed. C56_rfc adds documents from elsewhere, PolygonZ included."},
{"property": "C57", "status": "partial", "theorems": ["GoGeo.C57_marshal_partial", "GoGeo.C57_back_partial", "GoGeo.C57_polygonZ_false", "GoGeo.C57_multi_false", "GoGeo.C57_empty_false"], "note": "False as stated: PolygonZ is always an error, Multi* are written but never read back, empty lines are written as null and panic when read. Proved: exactly when MarshalGeo succeeds, and exactly which of the written geometries come back."},
{"property": "C58", "status": "partial", "theorems": ["GoGeo.C58_reads_partial", "GoGeo.C58_panics_partial", "GoGeo.C58_multi_partial", "GoGeo.C58_false", "GoGeo.C58_unknown_false"], "note": "False as stated: wrong shapes panic, unknown types give nil without an error. Proved: exact panic condition and exact result for the three types that are read."},
{"property": "C59", "status": "partial", "theorems": ["GoGeo.C59_partial", "GoGeo.C59_unchanged_false", "GoGeo.C59_false"], "note": "False: the value receiver makes SetBoundingBox a no-op. Proved: a box stored in the field is printed."},
{"property": "C60", "status": "proved", "theorems": ["GoGeo.C60_last", "GoGeo.C60_others", "GoGeo.C60_new", "GoGeo.C60_frame", "GoGeo.C60_must"], "note": "toInt is Go's int() conversion of a float64, left arbitrary."},
{"property": "C61", "status": "partial", "theorems": ["GoGeo.C61_members", "GoGeo.C61_roundtrip_partial", "GoGeo.C61_feature_partial", "GoGeo.C61_geometry_false", "GoGeo.C61_geometries_partial"], "note": "Members and order proved for every collection. 'The same features back' is false for the Geometry field (json:\"-\") and an empty property map; proved up to those, and that UnmarshalGeo of GeometryJson recovers the geometries of C56."},
{"property": "C62", "status": "partial", "theorems": ["GoGeo.C62_accepted", "GoGeo.C62_partial", "GoGeo.C62_roundtrip_partial", "GoGeo.C62_zone_false", "GoGeo.C62_letter_false"], "note": "Proved for latitudes below 84 and longitudes up to 180-2^-44; at 84 N the letter is blank and at 180 E (and its predecessor) the zone is 61, both rejected by ToLatLon: C62_letter_false, C62_zone_false."},
{"property": "C63", "status": "proved", "theorems": ["GoGeo.C63_meridian"], "note": "For float64 with rounding and for exact arithmetic."},
{"property": "C64", "status": "partial", "theorems": ["GoGeo.C64_partial", "GoGeo.C64_flag_false"], "note": "Holds with northern=false below 84 N; with northern=true a southern latitude is labelled S, which ToLatLon reads as a northern band: C64_flag_false."},
{"property": "C65", "status": "proved", "theorems": ["GoGeo.C65_valid", "GoGeo.C65_invalid", "GoGeo.C65_iff"], "note": "Over any number type, so with NaN and infinities."},
{"property": "C66", "status": "proved", "theorems": ["GoGeo.C66_outside"], "note": "For every number type with IEEE comparison; float64 in particular."},
{"property": "C67", "status": "partial", "theorems": ["GoGeo.C67_symm_false", "GoGeo.C67_symm_partial", "GoGeo.C67_direction"], "note": "Direction independence for all; order independence for non-degenerate segments, false for degenerate ones."},
{"property": "C68", "status": "partial", "theorems": ["GoGeo.C68_lineRelation_false", "GoGeo.C68_lineRelation_partial", "GoGeo.C68_lineRelation_exact"], "note": "False as stated (T-junction, collinear). Proved: proper crossings are found; without common points and collinear pieces DISJOINT; and the exact condition for all lines."},
{"property": "C69", "status": "partial", "theorems": ["GoGeo.C69_polyRelation_false", "GoGeo.C69_polyRelation_partial"], "note": "False as stated (last edges skipped). Proved: exact characterisation over the other edges."},
{"property": "C70", "status": "partial", "theorems": ["GoGeo.C70_polyRelation_false", "GoGeo.C70_polyRelation_partial", "GoGeo.C70_apart_partial"], "note": "False as stated: separated polygons with sides on a common line are TOUCH. Proved: separated polygons are never INTERSECT, and DISJOINT when no side of one is on the line of a side of the other."},
{"property": "C71", "status": "partial", "theorems": ["GoGeo.C71_verify_false", "GoGeo.C71_verify_partial", "GoGeo.C114_verify"], "note": "False as stated (X and Y ranges exchanged, last edge never compared). Proved: exactly which polygons are accepted, in exact arithmetic (C71_verify_partial) and in float64 on a grid (C114_verify)."},
{"property": "C72", "status": "proved", "theorems": ["GoGeo.C72_toLine"], "note": "Exact arithmetic, planar srid, a != b."},
{"property": "C73", "status": "proved", "theorems": ["GoGeo.C73_polygon_boundary", "GoGeo.C73_polygon_inside", "GoGeo.C73_convex"], "note": "Relative to the answer of IsPointInPolygon (see C36-C38), and unconditionally for strictly convex rings clear of the boundary."},
{"property": "C74", "status": "partial", "theorems": ["GoGeo.C74_duplicate_false", "GoGeo.C74_many_false", "GoGeo.C74_nan_false", "GoGeo.C48_hull"], "note": "False for repeated points (C74_duplicate_false), for 13 points with Go 1.15's sort, because Less refers to the p[0] the sort moves (C74_many_false), and for NaN (C74_nan_false). What holds is C48."},
{"property": "C75", "status": "proved", "theorems": ["GoGeo.C75_convex"], "note": "Real arithmetic"},
{"property": "C76", "status": "partial", "theorems": ["GoGeo.C76_destination", "GoGeo.C76_distance", "GoGeo.C76_roundtrip", "GoGeo.C76_pole_false"], "note": "False at the poles, where the bearing is ignored (C76_pole_false); proved for |latitude| < 90 and longitude >= -360"},
{"property": "C77", "status": "partial", "theorems": ["GoGeo.C77_covers_partial", "GoGeo.C77_minimal_false", "GoGeo.C77_smaller_false", "GoGeo.C77_tiny_panics_false"], "note": "False: not least (C77_minimal_false, C77_smaller_false), and a panic for geometries smaller than the truncation (C77_tiny_panics_false). Proved: the result covers the points up to 1e-4"},
{"property": "C78", "status": "proved", "theorems": ["GoGeo.C78_normalize", "GoGeo.C78_zero"], "note": "Real arithmetic"},
{"property": "C79", "status": "proved", "theorems": ["GoGeo.C79_spacing", "GoGeo.C79_float64"], "note": "C79_float64: for every finite float64 geometry, with strconv modelled; C79_spacing over any arithmetic whose number text reads back."},
{"property": "C80", "status": "partial", "theorems": ["GoGeo.C80_mixed_false", "GoGeo.C53_roundtrip"], "note": "False: terms with three fields vanish next to terms with two. For lines of one dimension see C53_roundtrip."},
{"property": "C81", "status": "proved", "theorems": ["GoGeo.C81_shaped", "GoGeo.C81_all_boxes"], "note": ""},
{"property": "C82", "status": "proved", "theorems": ["GoGeo.C82_rfc", "GoGeo.C82_empty_false"], "note": "Quantifier excludes empty parts; C82_empty_false shows why (null instead of an empty array)."},
{"property": "C83", "status": "partial", "theorems": ["GoGeo.C83_grid_partial", "GoGeo.C83_edges_false"], "note": "Away from latitude 64, longitudes 9, 12, 21, 33, 42 and the last 2^-44 degrees before an edge; fails on them: C83_edges_false."},
{"property": "C84", "status": "proved", "theorems": ["GoGeo.C84_forward", "GoGeo.C84_back"], "note": "Exact arithmetic over the reals; for ToLatLon away from the last 50 km of the northing range, which lie at or beyond the pole."},
{"property": "C85", "status": "proved", "theorems": ["GoGeo.C85_meridian", "GoGeo.C85_equator", "GoGeo.C85_back"], "note": "Exact arithmetic; ToLatLon as in C84."},
{"property": "C86", "status": "proved", "theorems": ["GoGeo.C86_mono", "GoGeo.C86_equator"], "note": "Exact arithmetic."},
{"property": "C87", "status": "partial", "theorems": ["GoGeo.C87_range", "GoGeo.C87_accepted_partial"], "note": "Easting and northing always, zone and letter south of 84 N and west of 180-2^-44 E; see C62 for the rest."},
{"property": "C88", "status": "proved", "theorems": ["GoGeo.C88_toGCJ", "GoGeo.C88_toWGS"], "note": "Exact arithmetic over the reals."},
{"property": "C89", "status": "proved", "theorems": ["GoGeo.C89_roundtrip", "GoGeo.C89_roundtrip'", "GoGeo.C89_everywhere"], "note": "Exact arithmetic; inside China means at least about 0.04 degrees inside the box."},
{"property": "C90", "status": "proved", "theorems": ["GoGeo.C90_shift", "GoGeo.C90_roundtrip", "GoGeo.C90_roundtrip'", "GoGeo.C90_valid"], "note": "Exact arithmetic."},
{"property": "C91", "status": "proved", "theorems": ["GoGeo.C91_roundtrip"], "note": "Exact arithmetic; inside China as in C89."},
{"property": "C92", "status": "proved", "theorems": ["GoGeo.C92_segment_inside", "GoGeo.C92_segment_across", "GoGeo.C92_segment_outside", "GoGeo.C92_line_inside", "GoGeo.C92_polygon_inside"], "note": "Exact arithmetic; ends clear of the boundary by 1e-6 as in C38, segments beyond a side not on the line of any side."},
{"property": "C93", "status": "proved", "theorems": ["GoGeo.C93_getPoint", "GoGeo.C93_getPoint_negative", "GoGeo.C93_ends", "GoGeo.C93_write"], "note": "For all element types and memories."},
{"property": "C94", "status": "proved", "theorems": ["GoGeo.C94_trip", "GoGeo.C94_sharp", "GoGeo.C94_meridian", "GoGeo.C94_equator"], "note": "C94_trip for every accepted position below 84 N and up to 180-2^-44 E, in exact real arithmetic; C94_meridian and C94_equator are sharper there; C94_sharp shows that the longitude bound cannot be much improved (ToLatLon uses the third flattening where the second eccentricity belongs)."},
{"property": "C95", "status": "partial", "theorems": ["GoGeo.C95_new", "GoGeo.C95_insert_partial", "GoGeo.C95_same_time_false"], "note": "Proved in full for NewRandomIDTree. For InsertWithRandomId the ids are different exactly when the clock readings are (the second number printed is the address of the method Size, a constant): false for two calls within one tick. Insertions into bulk-loaded trees are excluded (see C13)."},
{"property": "C96", "status": "proved", "theorems": ["GoGeo.C96_cell", "GoGeo.C96_neighbors", "GoGeo.C96_srid_ignored", "GoGeo.RefHash.lib_ok"], "note": "Parametric in the geohash library; its documented behaviour is the hypothesis GeohashOk, which the published algorithm in exact arithmetic (RefHash.lib) is proved to meet."},
{"property": "C97", "status": "proved", "theorems": ["GoGeo.C97_cell", "GoGeo.C97_axes", "GoGeo.C97_srid", "GoGeo.RefGrid.lib_ok"], "note": "Parametric in the S2 library; hypothesis S2Ok, met by a grid library (RefGrid.lib)."},
{"property": "C98", "status": "partial", "theorems": ["GoGeo.C98_ccw", "GoGeo.C98_cw", "GoGeo.C98_orientation", "GoGeo.C98_argument_false", "GoGeo.C98_empty_panics"], "note": "Same loop and same cells for both orientations: proved (exact arithmetic; for any arithmetic in terms of IsCCW). Leaves the polygon alone: true unless IsCCW, and then the caller's ring is reversed in place. Empty polygons panic."},
{"property": "C99", "status": "partial", "theorems": ["GoGeo.C99_setters", "GoGeo.C99_newBox", "GoGeo.C99_vector", "GoGeo.C99_endsZ", "GoGeo.C99_short_false", "GoGeo.C99_views", "GoGeo.C99_setSRID"], "note": "False for Z lines of one point, whose ends are said to be the origin (C99_short_false), and for vectors with NaN, which differ from their clones; proved otherwise. Polygon.SetSRID does nothing (C99_setSRID)."}
]}
