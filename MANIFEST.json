{
 "claims": [
  {
   "property": "C01",
   "status": "proved",
   "theorems": [
    "Kami.GA.C01_vector_mul_vector",
    "Kami.GA.C01_dot_plus_wedge",
    "Kami.GA.C01_unique"
   ],
   "note": ""
  },
  {
   "property": "C02",
   "status": "proved",
   "theorems": [
    "Kami.GA.C02_vector_mul_bivector",
    "Kami.GA.C02_bivector_mul_bivector",
    "Kami.GA.C02_rotor_mul_vector",
    "Kami.GA.C02_rotor_mul_rotor",
    "Kami.GA.C02_trivector_mul_trivector",
    "Kami.GA.C02_bivector_wedge_vector",
    "Kami.GA.C02_bivector_dot_wedge",
    "Kami.GA.C02_trivector_dot",
    "Kami.GA.C02_unique"
   ],
   "note": ""
  },
  {
   "property": "C03",
   "status": "proved",
   "theorems": [
    "Kami.GA.C03_rotate_mul",
    "Kami.GA.C03_mul_assoc",
    "Kami.GA.C03_identity"
   ],
   "note": ""
  },
  {
   "property": "C04",
   "status": "proved",
   "theorems": [
    "Kami.GA.C04_rotate_linear",
    "Kami.GA.C04_rotate_dot",
    "Kami.GA.C04_rotate_det",
    "Kami.GA.C04_unit_rotor",
    "Kami.GA.C04_norm_mul",
    "Kami.GA.C04_rotate_sandwich",
    "Kami.GA.C04_inverse_is_reverse"
   ],
   "note": ""
  },
  {
   "property": "C05",
   "status": "partial",
   "theorems": [
    "Kami.GA.C05_exact",
    "Kami.GA.C05_exact_direction",
    "Kami.GA.C05_from_vectors_general",
    "Kami.GA.C05_from_vectors_partial",
    "Kami.GA.C05_counterexample_length",
    "Kami.GA.C05_counterexample_opposite"
   ],
   "note": "Exact condition (C05_exact): u is rotated onto v if and only if u = v, or both are unit vectors and not opposite; up to length (C05_exact_direction) if and only if the directions agree already, or the lengths multiply to 1 and the directions are not opposite. C05_counterexample_length and C05_counterexample_opposite are instances of failure."
  },
  {
   "property": "C06",
   "status": "proved",
   "theorems": [
    "Kami.GA.C06_unit",
    "Kami.GA.C06_rotates_plane",
    "Kami.GA.C06_coordinate_planes",
    "Kami.GA.C06_angles_add"
   ],
   "note": ""
  },
  {
   "property": "C07",
   "status": "proved",
   "theorems": [
    "Kami.GA.C07_vector_inverse",
    "Kami.GA.C07_bivector_inverse",
    "Kami.GA.C07_trivector_inverse"
   ],
   "note": ""
  },
  {
   "property": "C08",
   "status": "partial",
   "theorems": [
    "Kami.GA.C08_inverse_mul_partial",
    "Kami.GA.C08_counterexample",
    "Kami.GA.C08_unit_rotor_undo_partial"
   ],
   "note": "Rotor3::inverse is the reverse without division by the squared norm: an inverse exactly for unit rotors; C08_counterexample."
  },
  {
   "property": "C09",
   "status": "proved",
   "theorems": [
    "Kami.GA.C09_normalize",
    "Kami.GA.C09_normalize_zero",
    "Kami.GA.C09_normalize_zero_f32"
   ],
   "note": ""
  },
  {
   "property": "C10",
   "status": "proved",
   "theorems": [
    "Kami.GA.C10_norm_nonneg",
    "Kami.GA.C10_wedge_area",
    "Kami.GA.C10_volume",
    "Kami.GA.C10_symmetries",
    "Kami.GA.C10_wedge_eq_zero"
   ],
   "note": ""
  },
  {
   "property": "C11",
   "status": "proved",
   "theorems": [
    "Kami.GA.C11_reflect",
    "Kami.GA.C11_reflect_properties"
   ],
   "note": ""
  },
  {
   "property": "C12",
   "status": "proved",
   "theorems": [
    "Kami.GA.C12_project"
   ],
   "note": ""
  },
  {
   "property": "C13",
   "status": "partial",
   "theorems": [
    "Kami.GA.C13_angle_partial",
    "Kami.GA.C13_counterexample_f32"
   ],
   "note": "All exact-arithmetic clauses proved; the f32 clause is false: (4,1,0).angle((4,1,0)) is NaN (C13_counterexample_f32)."
  },
  {
   "property": "C14",
   "status": "proved",
   "theorems": [
    "Kami.GA.C14_halves"
   ],
   "note": ""
  },
  {
   "property": "C15",
   "status": "proved",
   "theorems": [
    "Kami.GA.C15_assign",
    "Kami.GA.C15_componentwise",
    "Kami.GA.C15_zero",
    "Kami.GA.C15_zero_f32"
   ],
   "note": ""
  },
  {
   "property": "C16",
   "status": "proved",
   "theorems": [
    "Kami.GA.C16_componentwise",
    "Kami.GA.C16_symmetric",
    "Kami.GA.C16_reflexive"
   ],
   "note": ""
  },
  {
   "property": "C17",
   "status": "proved",
   "theorems": [
    "Kami.Blade.C17_number_of_basis_blades"
   ],
   "note": ""
  },
  {
   "property": "C18",
   "status": "partial",
   "theorems": [
    "Kami.Blade.C18_exact",
    "Kami.Blade.C18_total_partial",
    "Kami.Blade.C18_counterexample",
    "Kami.Blade.C18_beyond"
   ],
   "note": "Exact condition with overflow checks on (C18_exact): returns n choose k if and only if 1 <= k <= n and the falling factorial fits, or k = n+1 and k! fits; panics in every other case, for k = 0 wrongly (C18_counterexample)."
  },
  {
   "property": "C19",
   "status": "partial",
   "theorems": [
    "Kami.Blade.C19_exact",
    "Kami.Blade.C19_total_partial",
    "Kami.Blade.C19_counterexample",
    "Kami.Blade.C19_sum"
   ],
   "note": "Exact condition with overflow checks on (C19_exact): right if and only if dim < 2^32 or the low 32 bits of dim are at least 64 (C19_counterexample: 2^32, because of the truncating cast)."
  },
  {
   "property": "C20",
   "status": "proved",
   "theorems": [
    "Kami.LineThm.C20_contains_iff_f32",
    "Kami.LineThm.C20_contains_exact",
    "Kami.LineThm.C20_counterexample_f32"
   ],
   "note": "Proved in exact arithmetic as stated; additionally the exact meaning of the f32 test, and an f32 counterexample showing that rounding breaks the first half."
  },
  {
   "property": "C21",
   "status": "partial",
   "theorems": [
    "Kami.LineThm.C21_counterexample"
   ],
   "note": "Refuted: Line::intersect always returns None (C21_counterexample); there is nothing left to prove."
  },
  {
   "property": "C22",
   "status": "proved",
   "theorems": [
    "Kami.Pred.C22_orientation",
    "Kami.Pred.C22_trichotomy",
    "Kami.Pred.C22_invariance",
    "Kami.Pred.C22_collinear"
   ],
   "note": ""
  },
  {
   "property": "C23",
   "status": "proved",
   "theorems": [
    "Kami.Pred.C23_swap_f32",
    "Kami.Pred.C23_cyclic_fails_f32"
   ],
   "note": ""
  },
  {
   "property": "C24",
   "status": "partial",
   "theorems": [
    "Kami.Pred.C24_exact",
    "Kami.Pred.C24_between_partial",
    "Kami.Pred.C24_degenerate",
    "Kami.Pred.C24_counterexample",
    "Kami.Pred.C24_complete"
   ],
   "note": "Exact condition (C24_exact): true if and only if the point is on the closed segment, or the segment is a single point and the point is at its height (C24_counterexample); so it is right for segments with distinct end points and never answers false wrongly (C24_complete)."
  },
  {
   "property": "C25",
   "status": "proved",
   "theorems": [
    "Kami.Pred.C25_intersect_prop",
    "Kami.Pred.C25_symmetric"
   ],
   "note": ""
  },
  {
   "property": "C26",
   "status": "partial",
   "theorems": [
    "Kami.Pred.C26_exact",
    "Kami.Pred.C26_complete",
    "Kami.Pred.C26_intersect_partial",
    "Kami.Pred.C26_counterexample"
   ],
   "note": "Exact condition (C26_exact): true if and only if the segments have a common point, or one is a single point and an end of the other is at the same height. So it is right for segments with distinct end points and never answers false wrongly; C26_counterexample is a wrong true answer."
  },
  {
   "property": "C27",
   "status": "proved",
   "theorems": [
    "Kami.PolyThm.C27_new_vertices",
    "Kami.PolyThm.C27_new_ccw"
   ],
   "note": ""
  },
  {
   "property": "C28",
   "status": "proved",
   "theorems": [
    "Kami.PolyThm.C28_area",
    "Kami.PolyThm.C28_area_invariant",
    "Kami.PolyThm.C28_area_of_new"
   ],
   "note": ""
  },
  {
   "property": "C29",
   "status": "proved",
   "theorems": [
    "Kami.PolyThm.C29_area_orientation",
    "Kami.PolyThm.C29_vertices",
    "Kami.PolyThm.C29_center"
   ],
   "note": ""
  },
  {
   "property": "C30",
   "status": "proved",
   "theorems": [
    "Kami.PolyThm.C30_regular",
    "Kami.PolyThm.C30_panics"
   ],
   "note": ""
  },
  {
   "property": "C31",
   "status": "proved",
   "theorems": [
    "Kami.Tri.C31_diagonal_sound",
    "Kami.Tri.C31_symmetric",
    "Kami.Tri.C31_neighbors",
    "Kami.Tri.C31_interior_angle"
   ],
   "note": ""
  },
  {
   "property": "C32",
   "status": "proved",
   "theorems": [
    "Kami.Tri.C32_no_panic"
   ],
   "note": ""
  },
  {
   "property": "C33",
   "status": "proved",
   "theorems": [
    "Kami.Tri.C33_decomposition",
    "Kami.Tri.C33_triangles"
   ],
   "note": ""
  },
  {
   "property": "C34",
   "status": "proved",
   "theorems": [
    "Kami.Tri.C34_area"
   ],
   "note": ""
  },
  {
   "property": "C35",
   "status": "proved",
   "theorems": [
    "Kami.Simple.C35_terminates",
    "Kami.Simple.C35_terminates_ccw",
    "Kami.Tri.C35_diverges_collinear"
   ],
   "note": "C35_terminates: in exact arithmetic, for every simple polygon in either direction, Polygon::new succeeds and triangulate returns n-2 counter-clockwise triangles whose areas add up. C35_diverges_collinear shows the hypothesis is needed: the constructor accepts non-simple polygons on which triangulate runs forever. The result is about exact arithmetic, not f32."
  },
  {
   "property": "C36",
   "status": "proved",
   "theorems": [
    "Kami.UtilThm.C36_parallel"
   ],
   "note": ""
  },
  {
   "property": "C37",
   "status": "proved",
   "theorems": [
    "Kami.UtilThm.C37_degenerate"
   ],
   "note": ""
  },
  {
   "property": "C38",
   "status": "proved",
   "theorems": [
    "Kami.UtilThm.C38_incenter"
   ],
   "note": ""
  },
  {
   "property": "C39",
   "status": "proved",
   "theorems": [
    "Kami.UtilThm.C39_sound"
   ],
   "note": ""
  },
  {
   "property": "C40",
   "status": "partial",
   "theorems": [
    "Kami.UtilThm.C40_complete_partial",
    "Kami.UtilThm.C40_counterexample",
    "Kami.UtilThm.C40_exact"
   ],
   "note": "Exact condition (C40_exact): None if and only if the segments are parallel (or one is a point) or have no common point; so the claim fails exactly for parallel segments with a common point (C40_counterexample)."
  },
  {
   "property": "C41",
   "status": "proved",
   "theorems": [
    "Kami.UtilThm.C41_perpendicular"
   ],
   "note": ""
  },
  {
   "property": "C42",
   "status": "proved",
   "theorems": [
    "Kami.UtilThm.C42_midpoint",
    "Kami.UtilThm.C42_symmetric"
   ],
   "note": ""
  },
  {
   "property": "C43",
   "status": "partial",
   "theorems": [
    "Kami.UtilThm.C43_exact",
    "Kami.UtilThm.C43_bisector_partial",
    "Kami.UtilThm.C43_horizontal",
    "Kami.UtilThm.C43_counterexample"
   ],
   "note": "Exact condition (C43_exact): midpoint and a point of the perpendicular bisector at distance offset if and only if the segment is vertical, or the offset is 0 and the segment is not horizontal. In general the distance is offset*|ab|/|dy| (C43_bisector_partial, C43_counterexample); for horizontal segments the second point is not finite (C43_horizontal)."
  },
  {
   "property": "C44",
   "status": "partial",
   "theorems": [
    "Kami.UtilThm.C44_on_segment_partial",
    "Kami.UtilThm.C44_near_line",
    "Kami.UtilThm.C44_flag_ignored",
    "Kami.UtilThm.C44_counterexample"
   ],
   "note": "Exact meaning of the test proved; points off the segment by up to about sqrt(eps*length) are accepted (C44_near_line bounds them), the flag is ignored and end points are never reported (C44_flag_ignored, C44_counterexample)."
  },
  {
   "property": "C45",
   "status": "proved",
   "theorems": [
    "Kami.UtilsF32.C45_start_f32",
    "Kami.UtilThm.C45_closest",
    "Kami.UtilThm.C45_empty"
   ],
   "note": ""
  },
  {
   "property": "C46",
   "status": "proved",
   "theorems": [
    "Kami.UtilThm.C46_close",
    "Kami.UtilThm.C46_close_exact"
   ],
   "note": ""
  },
  {
   "property": "C47",
   "status": "partial",
   "theorems": [
    "Kami.UtilThm.C47_exact",
    "Kami.UtilThm.C47_unique_partial",
    "Kami.UtilThm.C47_nothing_dropped",
    "Kami.UtilThm.C47_counterexample",
    "Kami.UtilThm.C47_duplicates_lost"
   ],
   "note": "Sublist, characterisation of the kept points and separation proved. Exact condition for the last clause (C47_exact): every point has a close point in the result if and only if all points are finite and no two positions are close, and then nothing is filtered out; points occurring twice are dropped altogether (C47_counterexample, C47_duplicates_lost)."
  },
  {
   "property": "C48",
   "status": "partial",
   "theorems": [
    "Kami.UtilThm.C48_line_intersection_partial",
    "Kami.UtilThm.C48_counterexample"
   ],
   "note": "The function intersects the segments, not the lines: correct when the common point lies on both segments, None otherwise (C48_counterexample)."
  },
  {
   "property": "C49",
   "status": "partial",
   "theorems": [
    "Kami.Graph.C49_valid_partial",
    "Kami.Graph.C49_valid_release_partial",
    "Kami.Graph.C49_counterexample",
    "Kami.Graph.C49_exact_call",
    "Kami.Graph.C49_exact"
   ],
   "note": "Exact condition (C49_exact, in either build): the indices stay valid all the time if and only if no call removes node 0, or its edge, while that edge is a self-loop and the only edge at node 0 and some edge has an end at node 1; with overflow checks such a call panics, so every debug history is fine (C49_valid_partial); in release it wraps an index (C49_counterexample)."
  },
  {
   "property": "C50",
   "status": "partial",
   "theorems": [
    "Kami.Graph.C50_no_panic",
    "Kami.Graph.C50_history_partial",
    "Kami.Graph.C50_counterexample",
    "Kami.Graph.C50_exact_add_node",
    "Kami.Graph.C50_exact_add_edge",
    "Kami.Graph.C50_history_wraps"
   ],
   "note": "Proved from every graph whose edges refer to existing nodes, hence after every debug history (any arithmetic) and after every release history without add_edge(s,s) (f32 and exact), or without a removal that wraps an index (C50_history_wraps, any arithmetic). Exact conditions for a panic on any graph: C50_exact_add_node, C50_exact_add_edge; after a wrapping removal in a release build both calls panic (C50_counterexample)."
  },
  {
   "property": "C51",
   "status": "proved",
   "theorems": [
    "Kami.Graph.C51_separated"
   ],
   "note": ""
  },
  {
   "property": "C52",
   "status": "proved",
   "theorems": [
    "Kami.Graph.C52_add_node",
    "Kami.Graph.C52_twice",
    "Kami.Graph.C52_twice_f32"
   ],
   "note": ""
  },
  {
   "property": "C53",
   "status": "proved",
   "theorems": [
    "Kami.Graph.C53_nodes_stable"
   ],
   "note": ""
  },
  {
   "property": "C54",
   "status": "proved",
   "theorems": [
    "Kami.Graph.C54_connected"
   ],
   "note": ""
  },
  {
   "property": "C55",
   "status": "proved",
   "theorems": [
    "Kami.Graph.C55_rejects"
   ],
   "note": ""
  },
  {
   "property": "C56",
   "status": "proved",
   "theorems": [
    "Kami.Graph.C56_inherit"
   ],
   "note": ""
  },
  {
   "property": "C57",
   "status": "proved",
   "theorems": [
    "Kami.Graph.C57_changed_edges"
   ],
   "note": ""
  },
  {
   "property": "C58",
   "status": "partial",
   "theorems": [
    "Kami.Graph.C58_changed_partial",
    "Kami.Graph.C58_order_partial",
    "Kami.Graph.C58_counterexample",
    "Kami.Graph.C58_exact"
   ],
   "note": "Node list, validity of the reported slots and coverage of all changed or new slots other than the new edge's own proved. Exact condition for the new edge's slot in exact arithmetic (C58_exact): reported if and only if no edge was split or the new edge was; it goes unreported when the new edge stays whole and an older edge is split (C58_counterexample)."
  },
  {
   "property": "C59",
   "status": "proved",
   "theorems": [
    "Kami.Graph.C59_not_inside",
    "Kami.Graph.C59_exact"
   ],
   "note": ""
  },
  {
   "property": "C60",
   "status": "partial",
   "theorems": [
    "Kami.Graph.C60_planar_partial",
    "Kami.Graph.C60_counterexample_node",
    "Kami.Graph.C60_counterexample_concurrent",
    "Kami.Graph.C60_counterexample_overlap",
    "Kami.Graph.C60_exact"
   ],
   "note": "Exact condition in exact arithmetic, points of intersection clear up to the tolerance (C60_exact): the result can be drawn planarly if and only if every node on the segment other than its ends is the end of exactly one edge not parallel to the segment and no edge runs along the segment. So it holds in general position (C60_planar_partial) and fails when the segment runs through an isolated node, through a node shared by two edges, or along another edge (three counterexamples). In f32 it fails in general position too (C94_counterexample_crossing)."
  },
  {
   "property": "C61",
   "status": "partial",
   "theorems": [
    "Kami.Graph.C61_redundant_test",
    "Kami.Graph.C61_panics_iff_partial",
    "Kami.Graph.C61_counterexample"
   ],
   "note": "Exact condition for a panic proved; the claim itself is false (C61_counterexample)."
  },
  {
   "property": "C62",
   "status": "partial",
   "theorems": [
    "Kami.Graph.C62_exact",
    "Kami.Graph.C62_remove_edge_partial",
    "Kami.Graph.C62_counterexample"
   ],
   "note": "Exact condition (C62_exact): the result is right unless the edge is a self-loop, the only edge at its node, and some edge has an end behind that node, where the renumbering moves by two (C62_counterexample)."
  },
  {
   "property": "C63",
   "status": "partial",
   "theorems": [
    "Kami.Graph.C63_panics_iff_partial",
    "Kami.Graph.C63_counterexample"
   ],
   "note": "Exact condition for a panic proved; isolated nodes panic (C63_counterexample)."
  },
  {
   "property": "C64",
   "status": "proved",
   "theorems": [
    "Kami.Graph.C64_exact",
    "Kami.Graph.C64_remove_node"
   ],
   "note": ""
  },
  {
   "property": "C65",
   "status": "partial",
   "theorems": [
    "Kami.Graph.C65_remove_node_partial",
    "Kami.Graph.C65_remove_edge_partial",
    "Kami.Graph.C65_counterexample",
    "Kami.Graph.C65_exact_remove_node",
    "Kami.Graph.C65_exact_remove_any_node",
    "Kami.Graph.C65_exact_remove_edge"
   ],
   "note": "All changed nodes are reported; unreported edge slots keep data and label, but renumbered ends are not reported (C65_counterexample). C65_exact_remove_any_node and C65_exact_remove_edge give the reported slots and the exact condition: an unreported edge changes if and only if it has an end behind a deleted node; nothing goes unreported when both ends of a removed edge have other edges."
  },
  {
   "property": "C66",
   "status": "partial",
   "theorems": [
    "Kami.Graph.C66_has_index_partial",
    "Kami.Graph.C66_counterexample"
   ],
   "note": "Exact for every index except 0; index 0 is always answered false (C66_counterexample)."
  },
  {
   "property": "C67",
   "status": "proved",
   "theorems": [
    "Kami.Graph.C67_incident",
    "Kami.Graph.C67_handshake"
   ],
   "note": ""
  },
  {
   "property": "C68",
   "status": "partial",
   "theorems": [
    "Kami.Graph.C68_exact",
    "Kami.Graph.C68_twice_partial",
    "Kami.Graph.C68_counterexample"
   ],
   "note": "Exact condition (C68_exact): the second call changes nothing if and only if an index is invalid or the first call left an edge joining the two nodes; false when the first call split the new edge (C68_counterexample)."
  },
  {
   "property": "C69",
   "status": "proved",
   "theorems": [
    "Kami.Graph.C69_no_loops"
   ],
   "note": ""
  },
  {
   "property": "C70",
   "status": "partial",
   "theorems": [
    "Kami.Graph.C70_add_node_exact",
    "Kami.Graph.C70_add_edge_exact",
    "Kami.Graph.C70_remove_partial",
    "Kami.Graph.C70_add_node_partial",
    "Kami.Graph.C70_add_edge_partial",
    "Kami.Graph.C70_counterexample"
   ],
   "note": "Preserved by removal. For add_node that creates a node the condition is exact (C70_add_node_exact): parallel edges arise if and only if the point passes the test of two edges with a common end (C70_counterexample). For add_edge too (C70_add_edge_exact): if and only if at some splitting the node lies on an edge with an end u, and a second edge joins u to the node or has the end u and the node on it."
  },
  {
   "property": "C71",
   "status": "partial",
   "theorems": [
    "Kami.FoldFile.C71_serde_partial",
    "Kami.FoldFile.C71_roundtrip_partial",
    "Kami.FoldFile.C71_survives_partial",
    "Kami.FoldFile.C71_null_partial",
    "Kami.FoldFile.C71_counterexample"
   ],
   "note": "The exact result of a round trip is proved; edges_foldangles, faceorders, edgeorders and file_frames are lost (C71_counterexample), non-finite numbers are not read back."
  },
  {
   "property": "C72",
   "status": "proved",
   "theorems": [
    "Kami.FoldFile.C72_meaning",
    "Kami.FoldFile.C72_keys",
    "Kami.FoldFile.C72_empty_object",
    "Kami.FoldFile.C72_object",
    "Kami.FoldFile.C72_accepts_iff",
    "Kami.FoldFile.C72_order",
    "Kami.FoldFile.C72_unknown"
   ],
   "note": ""
  },
  {
   "property": "C73",
   "status": "partial",
   "theorems": [
    "Kami.FoldFile.C73_counterexample_text",
    "Kami.FoldFile.C73_from_file_partial",
    "Kami.FoldFile.C73_counterexample"
   ],
   "note": "Exact condition for a panic proved; malformed contents panic (C73_counterexample)."
  },
  {
   "property": "C74",
   "status": "partial",
   "theorems": [
    "Kami.FoldFile.C74_counterexample"
   ],
   "note": "Refuted: validate is constantly true (C74_counterexample); nothing is left to prove."
  },
  {
   "property": "C75",
   "status": "proved",
   "theorems": [
    "Kami.Svg.C75_points",
    "Kami.Svg.C75_spaces"
   ],
   "note": ""
  },
  {
   "property": "C76",
   "status": "proved",
   "theorems": [
    "Kami.Simple.C76_tiles"
   ],
   "note": ""
  },
  {
   "property": "C77",
   "status": "proved",
   "theorems": [
    "Kami.Simple.C77_diagonal_iff"
   ],
   "note": ""
  },
  {
   "property": "C78",
   "status": "proved",
   "theorems": [
    "Kami.FoldFile.C78_array",
    "Kami.FoldFile.C78_names",
    "Kami.FoldFile.C78_accepts_iff",
    "Kami.FoldFile.C78_scalar"
   ],
   "note": ""
  },
  {
   "property": "C79",
   "status": "proved",
   "theorems": [
    "Kami.Svg.C79_polygon",
    "Kami.Svg.C79_circle",
    "Kami.Svg.C79_line",
    "Kami.Svg.C79_injective"
   ],
   "note": ""
  },
  {
   "property": "C80",
   "status": "proved",
   "theorems": [
    "Kami.Tri.C80_iff",
    "Kami.Tri.C80_symm",
    "Kami.Tri.C80_empty"
   ],
   "note": ""
  },
  {
   "property": "C81",
   "status": "proved",
   "theorems": [
    "Kami.GA.C81_additive",
    "Kami.GA.C81_rotation"
   ],
   "note": ""
  },
  {
   "property": "C82",
   "status": "proved",
   "theorems": [
    "Kami.Simple.C82_predicates",
    "Kami.Simple.C82_diagonal",
    "Kami.Simple.C82_triangulate",
    "Kami.Simple.C82_new_triangulate",
    "Kami.Simple.C82_counterexample_wide"
   ],
   "note": "Proved in the softfloat model for every grid of spacing 2^-74..2^51. C82_new_triangulate additionally assumes that the signed area of every initial part fits the mantissa. C82_counterexample_wide proves the last sentence: a convex quadrilateral with integer coordinates below 2^18 on which f32 triangulate runs forever."
  },
  {
   "property": "C83",
   "status": "proved",
   "theorems": [
    "Kami.Graph.C83_exact",
    "Kami.Graph.C83_drawing"
   ],
   "note": "C83_drawing in general position; C83_exact without it: whenever the points of intersection are clear up to the tolerance, the set of points drawn is right, and nodes are created exactly where one edge is cut and no node is yet."
  },
  {
   "property": "C84",
   "status": "proved",
   "theorems": [
    "Kami.Graph.C84_add_node"
   ],
   "note": ""
  },
  {
   "property": "C85",
   "status": "proved",
   "theorems": [
    "Kami.Graph.C85_add_edge_free"
   ],
   "note": ""
  },
  {
   "property": "C86",
   "status": "proved",
   "theorems": [
    "Kami.Graph.C86_remove_node",
    "Kami.Graph.C86_remove_edge"
   ],
   "note": ""
  },
  {
   "property": "C87",
   "status": "proved",
   "theorems": [
    "Kami.Simple.C87_filter",
    "Kami.Simple.C87_counterexample",
    "Kami.Simple.C87_counterexample_rotation"
   ],
   "note": "Proved for the softfloat model, whose operations are proved correctly rounded (Verif/Num/F32Real.lean). C87_counterexample and C87_counterexample_rotation prove the last sentence."
  },
  {
   "property": "C88",
   "status": "proved",
   "theorems": [
    "Kami.Simple.C88_new_triangulate",
    "Kami.Simple.C88_triangulate",
    "Kami.Simple.C88_diagonal"
   ],
   "note": ""
  },
  {
   "property": "C89",
   "status": "proved",
   "theorems": [
    "Kami.Simple.C89_area",
    "Kami.Simple.C89_new"
   ],
   "note": ""
  },
  {
   "property": "C90",
   "status": "proved",
   "theorems": [
    "Kami.DistF32.C90_distance",
    "Kami.DistF32.C90_threshold"
   ],
   "note": ""
  },
  {
   "property": "C91",
   "status": "proved",
   "theorems": [
    "Kami.DistF32.C91_midpoint",
    "Kami.DistF32.C91_counterexample"
   ],
   "note": "C91_counterexample proves the overflow clause."
  },
  {
   "property": "C92",
   "status": "proved",
   "theorems": [
    "Kami.DistF32.C92_near_first",
    "Kami.DistF32.C92_crossing",
    "Kami.DistF32.C92_apart"
   ],
   "note": ""
  },
  {
   "property": "C93",
   "status": "proved",
   "theorems": [
    "Kami.DistF32.C93_on_segment",
    "Kami.DistF32.C93_counterexample"
   ],
   "note": "C93_counterexample proves the last sentence."
  },
  {
   "property": "C94",
   "status": "proved",
   "theorems": [
    "Kami.Graph.C94_separated",
    "Kami.Graph.C94_add_node",
    "Kami.Graph.C94_add_edge_free",
    "Kami.Graph.C94_counterexample_crossing",
    "Kami.Graph.C94_counterexample_node"
   ],
   "note": "C94_counterexample_crossing and C94_counterexample_node prove the last sentence: planarity is not maintained in f32, even in general position."
  },
  {
   "property": "C95",
   "status": "proved",
   "theorems": [
    "Kami.Draw.C95_shapes",
    "Kami.Draw.C95_panic",
    "Kami.Draw.C95_history",
    "Kami.Draw.C95_counterexample_release",
    "Kami.Draw.C95_demo"
   ],
   "note": "C95_counterexample_release proves the clause about release builds."
  },
  {
   "property": "C96",
   "status": "proved",
   "theorems": [
    "Kami.Draw.C96_count",
    "Kami.Draw.C96_lines",
    "Kami.Draw.C96_circles",
    "Kami.Draw.C96_exact",
    "Kami.Draw.C96_triangle",
    "Kami.Draw.C96_triangles_count"
   ],
   "note": ""
  },
  {
   "property": "C97",
   "status": "proved",
   "theorems": [
    "Kami.Draw.C97_triangulate",
    "Kami.Draw.C97_fills",
    "Kami.Draw.C97_hues"
   ],
   "note": ""
  },
  {
   "property": "C98",
   "status": "proved",
   "theorems": [
    "Kami.Simple.C98_scale",
    "Kami.Simple.C98_translate",
    "Kami.Simple.C98_diagonal",
    "Kami.Simple.C98_simple",
    "Kami.Simple.C98_counterexample_f32"
   ],
   "note": "C98_counterexample_f32 proves the last sentence."
  },
  {
   "property": "C99",
   "status": "proved",
   "theorems": [
    "Kami.Simple.C99_diagonal",
    "Kami.Simple.C99_fan",
    "Kami.Simple.C99_simple",
    "Kami.Simple.C99_fan_grid",
    "Kami.Simple.C99_fan_clear",
    "Kami.Simple.C99_regular",
    "Kami.Simple.C99_flat",
    "Kami.Simple.C99_regular_zero"
   ],
   "note": ""
  },
  {
   "property": "C100",
   "status": "proved",
   "theorems": [
    "Kami.GA.C100_units",
    "Kami.GA.C100_components"
   ],
   "note": ""
  },
  {
   "property": "C101",
   "status": "proved",
   "theorems": [
    "Kami.Graph.C101_client",
    "Kami.Graph.C101_step",
    "Kami.Graph.C101_history"
   ],
   "note": ""
  },
  {
   "property": "C102",
   "status": "proved",
   "theorems": [
    "Kami.Graph.C102_arrangement",
    "Kami.Graph.C102_edges",
    "Kami.Graph.C102_simple"
   ],
   "note": ""
  },
  {
   "property": "C103",
   "status": "proved",
   "theorems": [
    "Kami.Graph.C103_order",
    "Kami.Graph.C103_reorder",
    "Kami.Graph.C103_counterexample"
   ],
   "note": "Proved for requests in general position, as stated; C103_counterexample shows that the hypothesis is needed."
  },
  {
   "property": "C104",
   "status": "proved",
   "theorems": [
    "Kami.Graph.C104_counts",
    "Kami.Graph.C104_pieces",
    "Kami.Graph.C104_degree"
   ],
   "note": ""
  },
  {
   "property": "C105",
   "status": "proved",
   "theorems": [
    "Kami.Tri.C105_rounds",
    "Kami.Tri.C105_deterministic"
   ],
   "note": ""
  },
  {
   "property": "C106",
   "status": "proved",
   "theorems": [
    "Kami.C106_symmetric",
    "Kami.C106_wedge",
    "Kami.C106_signs",
    "Kami.C106_rotate",
    "Kami.C106_mirror",
    "Kami.C106_identity"
   ],
   "note": ""
  },
  {
   "property": "C107",
   "status": "proved",
   "theorems": [
    "Kami.GAF32.C107_dot",
    "Kami.GAF32.C107_wedge",
    "Kami.GAF32.C107_norm_vector",
    "Kami.GAF32.C107_norm_bivector",
    "Kami.GAF32.C107_norm_rotor",
    "Kami.GAF32.C107_normalize_vector",
    "Kami.GAF32.C107_normalize_bivector",
    "Kami.GAF32.C107_normalize_rotor",
    "Kami.GAF32.C107_rotate",
    "Kami.GAF32.C107_from_vectors"
   ],
   "note": ""
  },
  {
   "property": "C108",
   "status": "proved",
   "theorems": [
    "Kami.UtilsF32.C108_inradius",
    "Kami.UtilsF32.C108_closest",
    "Kami.UtilsF32.C108_close",
    "Kami.UtilsF32.C108_degenerate",
    "Kami.UtilsF32.C108_incenter",
    "Kami.UtilsF32.C108_foot",
    "Kami.UtilsF32.C108_line_near"
   ],
   "note": ""
  },
  {
   "property": "C109",
   "status": "partial",
   "theorems": [
    "Kami.Graph.C109_undo_partial",
    "Kami.Graph.C109_counterexample"
   ],
   "note": "False for every graph (C109_counterexample): remove_edge panics when both ends had edges before, and otherwise deletes the ends that had none. C109_undo_partial gives the exact outcome."
  },
  {
   "property": "C110",
   "status": "proved",
   "theorems": [
    "Kami.Graph.C110_walks",
    "Kami.Graph.C110_count"
   ],
   "note": ""
  },
  {
   "property": "C111",
   "status": "proved",
   "theorems": [
    "Kami.Graph.C111_drawing",
    "Kami.Graph.C111_nodes",
    "Kami.Graph.C111_few",
    "Kami.Graph.C111_exact"
   ],
   "note": ""
  },
  {
   "property": "C112",
   "status": "proved",
   "theorems": [
    "Kami.Graph.C112_provenance"
   ],
   "note": ""
  },
  {
   "property": "C113",
   "status": "proved",
   "theorems": [
    "Kami.Graph.C113_coordinates",
    "Kami.Graph.C113_few",
    "Kami.Graph.C113_edges",
    "Kami.Graph.C113_nodes",
    "Kami.Graph.C113_exact"
   ],
   "note": ""
  },
  {
   "property": "C114",
   "status": "proved",
   "theorems": [
    "Kami.Simple.C114_exact",
    "Kami.Simple.C114_area2",
    "Kami.Simple.C114_diagonal",
    "Kami.Simple.C114_triangulate",
    "Kami.Simple.C114_new",
    "Kami.Simple.C114_area",
    "Kami.Simple.C114_center",
    "Kami.Simple.C114_other_factors"
   ],
   "note": ""
  },
  {
   "property": "C115",
   "status": "proved",
   "theorems": [
    "Kami.Simple.C115_center",
    "Kami.Simple.C115_move",
    "Kami.Simple.C115_outside"
   ],
   "note": ""
  },
  {
   "property": "C116",
   "status": "proved",
   "theorems": [
    "Kami.Graph.C116_session",
    "Kami.Graph.C116_arrangement",
    "Kami.Graph.C116_counterexample_size"
   ],
   "note": "C116_counterexample_size proves the last sentence. C116_session is the comparison with exact arithmetic, C116_arrangement the description of the f32 graph."
  },
  {
   "property": "C117",
   "status": "proved",
   "theorems": [
    "Kami.Graph.C117_planar"
   ],
   "note": ""
  },
  {
   "property": "C118",
   "status": "proved",
   "theorems": [
    "Kami.GAF32.C118_inverse_vector",
    "Kami.GAF32.C118_inverse_bivector",
    "Kami.GAF32.C118_project",
    "Kami.GAF32.C118_reflect",
    "Kami.GAF32.C118_angle_cos",
    "Kami.GAF32.C118_rotor_product",
    "Kami.GAF32.C118_rotor_chain"
   ],
   "note": ""
  },
  {
   "property": "C119",
   "status": "proved",
   "theorems": [
    "Kami.TrigF32.C119_from_angle_plane",
    "Kami.TrigF32.C119_regular",
    "Kami.TrigF32.C119_regular_order"
   ],
   "note": ""
  },
  {
   "property": "C120",
   "status": "proved",
   "theorems": [
    "Kami.Graph.C120_agree",
    "Kami.Graph.C120_remove",
    "Kami.Graph.C120_remove_last",
    "Kami.Graph.C120_add",
    "Kami.Graph.C120_caught_valid",
    "Kami.Graph.C120_caught_valid_release"
   ],
   "note": ""
  },
  {
   "property": "C121",
   "status": "proved",
   "theorems": [
    "Kami.Graph.C121_order",
    "Kami.Graph.C121_size",
    "Kami.Graph.C121_rounding"
   ],
   "note": ""
  },
  {
   "property": "C122",
   "status": "proved",
   "theorems": [
    "Kami.UtilsF32.C122_symmetry",
    "Kami.UtilsF32.C122_cosine",
    "Kami.UtilsF32.C122_angle",
    "Kami.UtilsF32.C122_point",
    "Kami.UtilsF32.C122_not_reflexive"
   ],
   "note": ""
  },
  {
   "property": "C123",
   "status": "proved",
   "theorems": [
    "Kami.UtilsF32.C123_bisector",
    "Kami.UtilsF32.C123_vertical",
    "Kami.UtilsF32.C123_horizontal",
    "Kami.UtilsF32.C123_line",
    "Kami.UtilsF32.C123_on_line",
    "Kami.UtilsF32.C123_far_rejected"
   ],
   "note": ""
  },
  {
   "property": "C124",
   "status": "proved",
   "theorems": [
    "Kami.Graph.C124_history",
    "Kami.Graph.C124_erase",
    "Kami.Graph.C124_redraw"
   ],
   "note": ""
  },
  {
   "property": "C125",
   "status": "proved",
   "theorems": [
    "Kami.Utils.C125_on_segment",
    "Kami.Utils.C125_close_to",
    "Kami.Utils.C125_sharp_segment",
    "Kami.Utils.C125_sharp_close",
    "Kami.Graph.C125_add_node",
    "Kami.Graph.C125_sharp_node"
   ],
   "note": ""
  },
  {
   "property": "C126",
   "status": "proved",
   "theorems": [
    "Kami.Utils.C126_cross",
    "Kami.Graph.C126_streets",
    "Kami.Graph.C126_third_street"
   ],
   "note": ""
  },
  {
   "property": "C127",
   "status": "proved",
   "theorems": [
    "Kami.Utils.C127_off",
    "Kami.Utils.C127_sharp_test",
    "Kami.Graph.C127_add_node",
    "Kami.Graph.C127_add_edge",
    "Kami.Graph.C127_session",
    "Kami.Graph.C127_sharp"
   ],
   "note": ""
  },
  {
   "property": "C128",
   "status": "proved",
   "theorems": [
    "Kami.Utils.C128_meet",
    "Kami.Utils.C128_on",
    "Kami.Utils.C128_sharp_size",
    "Kami.Utils.C128_sharp_diagonal",
    "Kami.Graph.C128_history",
    "Kami.Graph.C128_redraw_exact",
    "Kami.Graph.C128_sharp_split"
   ],
   "note": ""
  },
  {
   "property": "C129",
   "status": "proved",
   "theorems": [
    "Kami.F32.C129_read_back",
    "Kami.F32.C129_shortest",
    "Kami.F32.C129_characters",
    "Kami.F32.C129_injective",
    "Kami.F32.C129_whole",
    "Kami.F32.C129_sharp_whole"
   ],
   "note": ""
  },
  {
   "property": "C130",
   "status": "proved",
   "theorems": [
    "Kami.Draw.C130_polygon",
    "Kami.Draw.C130_graph",
    "Kami.Draw.C130_demo",
    "Kami.Draw.C130_sharp_old_rust"
   ],
   "note": ""
  },
  {
   "property": "C131",
   "status": "proved",
   "theorems": [
    "Kami.Web.C131_draw_graph",
    "Kami.Web.C131_run",
    "Kami.Web.C131_run_panic",
    "Kami.Web.C131_template",
    "Kami.Web.C131_cast",
    "Kami.Web.C131_size",
    "Kami.Web.C131_sharp_size",
    "Kami.Web.C131_polygons",
    "Kami.Web.C131_polygons_end"
   ],
   "note": ""
  },
  {
   "property": "C132",
   "status": "proved",
   "theorems": [
    "Kami.Web.C132_clicks",
    "Kami.Web.C132_sharp_twice",
    "Kami.Web.C132_plain"
   ],
   "note": ""
  },
  {
   "property": "C133",
   "status": "proved",
   "theorems": [
    "Kami.Graph.C133_step",
    "Kami.Graph.C133_panics",
    "Kami.Graph.C133_session",
    "Kami.Graph.C133_same_picture",
    "Kami.Graph.C133_stays_plane",
    "Kami.Graph.C133_sharp_panic"
   ],
   "note": ""
  },
  {
   "property": "C134",
   "status": "proved",
   "theorems": [
    "Kami.FoldFile.C134_grammar",
    "Kami.FoldFile.C134_unambiguous",
    "Kami.FoldFile.C134_from_file"
   ],
   "note": ""
  },
  {
   "property": "C135",
   "status": "proved",
   "theorems": [
    "Kami.FoldFile.C135_tree",
    "Kami.FoldFile.C135_file"
   ],
   "note": ""
  },
  {
   "property": "C136",
   "status": "proved",
   "theorems": [
    "Kami.FoldFile.C136_truncated"
   ],
   "note": ""
  },
  {
   "property": "C137",
   "status": "partial",
   "theorems": [
    "Kami.FoldFile.C137_file_spec_partial",
    "Kami.FoldFile.C137_counterexample"
   ],
   "note": "Exactly the integer tokens in the range of i32 are accepted (C137_file_spec_partial); 1.1 and 1.0 make from_file panic (C137_counterexample)."
  },
  {
   "property": "C138",
   "status": "proved",
   "theorems": [
    "Kami.FoldFile.C138_roundtrip",
    "Kami.FoldFile.C138_written",
    "Kami.FoldFile.C138_file"
   ],
   "note": ""
  },
  {
   "property": "C139",
   "status": "partial",
   "theorems": [
    "Kami.FoldFile.C139_short_partial",
    "Kami.FoldFile.C139_exact_short",
    "Kami.FoldFile.C139_counterexample",
    "Kami.FoldFile.C139_counterexample_zero"
   ],
   "note": "Proved for numbers of at most eight digits, with exactly six exceptions (C139_exact_short); two counterexamples; for longer numbers see C140."
  },
  {
   "property": "C140",
   "status": "proved",
   "theorems": [
    "Kami.FoldFile.C140_accuracy",
    "Kami.FoldFile.C140_sign",
    "Kami.FoldFile.C140_infinite"
   ],
   "note": ""
  },
  {
   "property": "C141",
   "status": "proved",
   "theorems": [
    "Kami.FoldFile.C141_bytes",
    "Kami.FoldFile.C141_cut",
    "Kami.FoldFile.C141_mark",
    "Kami.FoldFile.C141_saved"
   ],
   "note": ""
  },
  {
   "property": "C142",
   "status": "proved",
   "theorems": [
    "Kami.Graph.C142_tests",
    "Kami.Graph.C142_node",
    "Kami.Graph.C142_edge",
    "Kami.Graph.C142_kept",
    "Kami.Graph.C142_box",
    "Kami.Graph.C142_finite",
    "Kami.Graph.C142_no_nan",
    "Kami.Graph.C142_sharp_max",
    "Kami.Graph.C142_sharp_square"
   ],
   "note": ""
  },
  {
   "property": "C143",
   "status": "proved",
   "theorems": [
    "Kami.Graph.C143_history",
    "Kami.Graph.C143_calls",
    "Kami.Graph.C143_tests",
    "Kami.Graph.C143_isometry",
    "Kami.Graph.C143_order",
    "Kami.Graph.C143_ends",
    "Kami.Graph.C143_sharp_order",
    "Kami.Graph.C143_sharp_ends",
    "Kami.Graph.C143_sharp_translate"
   ],
   "note": ""
  },
  {
   "property": "C144",
   "status": "proved",
   "theorems": [
    "Kami.Simple.C144_tests",
    "Kami.Simple.C144_tests_mirror",
    "Kami.Simple.C144_diagonal",
    "Kami.Simple.C144_triangulate",
    "Kami.Simple.C144_area",
    "Kami.Simple.C144_new",
    "Kami.Simple.C144_simple",
    "Kami.Simple.C144_sharp_repeated",
    "Kami.Simple.C144_sharp_flat",
    "Kami.PolySym.C144_tests_f32",
    "Kami.PolySym.C144_tests_mirror_f32",
    "Kami.PolySym.C144_between_f32",
    "Kami.PolySym.C144_sharp_quarter",
    "Kami.PolySym.C144_triangulate_f32",
    "Kami.PolySym.C144_diagonal_f32",
    "Kami.PolySym.C144_area_f32",
    "Kami.PolySym.C144_new_f32"
   ],
   "note": ""
  },
  {
   "property": "C145",
   "status": "proved",
   "theorems": [
    "Kami.Graph.C145_add_node",
    "Kami.Graph.C145_add_edge",
    "Kami.Graph.C145_remove_node",
    "Kami.Graph.C145_remove_edge",
    "Kami.Graph.C145_sharp",
    "Kami.Graph.C145_quadratic"
   ],
   "note": ""
  },
  {
   "property": "C146",
   "status": "proved",
   "theorems": [
    "Kami.GA.C146_products",
    "Kami.GA.C146_rotate",
    "Kami.GA.C146_measures",
    "Kami.GA.C146_quotients",
    "Kami.GA.C146_quotients_graded",
    "Kami.GA.C146_constructors",
    "Kami.GA.Flip.C146_products_f32",
    "Kami.GA.Flip.C146_rotate_f32",
    "Kami.GA.Flip.C146_measures_f32",
    "Kami.GA.Flip.C146_quotients_f32",
    "Kami.GA.Flip.C146_quotients_trivector_f32",
    "Kami.GA.Flip.C146_from_vectors_f32",
    "Kami.GA.Flip.C146_sharp_exchange"
   ],
   "note": ""
  },
  {
   "property": "C147",
   "status": "proved",
   "theorems": [
    "Kami.Graph.C147_left",
    "Kami.Graph.C147_order",
    "Kami.Graph.C147_sharp_double",
    "Kami.Graph.C147_sharp_panic"
   ],
   "note": "C147_left says what is left, C147_order that the order does not matter; C147_sharp_double shows that parallel edges must be excluded, C147_sharp_panic that panics do depend on the order."
  },
  {
   "property": "C148",
   "status": "proved",
   "theorems": [
    "Kami.Graph.C148_clear",
    "Kami.Graph.C148_bare_stays",
    "Kami.Graph.C148_sharp_last"
   ],
   "note": "C148_clear and C148_bare_stays; C148_sharp_last: the last slot would panic."
  },
  {
   "property": "C149",
   "status": "proved",
   "theorems": [
    "Kami.Graph.C149_drawn",
    "Kami.Graph.C149_order",
    "Kami.Graph.C149_sharp"
   ],
   "note": ""
  },
  {
   "property": "C150",
   "status": "proved",
   "theorems": [
    "Kami.Graph.C150_pierced",
    "Kami.Graph.C150_three",
    "Kami.Graph.C150_sharp"
   ],
   "note": ""
  },
  {
   "property": "C151",
   "status": "proved",
   "theorems": [
    "Kami.Graph.C151_planar",
    "Kami.Graph.C151_words",
    "Kami.Graph.C151_sharp"
   ],
   "note": ""
  },
  {
   "property": "C152",
   "status": "proved",
   "theorems": [
    "Kami.Graph.C152_arrangement",
    "Kami.Graph.C152_counts",
    "Kami.Graph.C152_order"
   ],
   "note": ""
  },
  {
   "property": "C153",
   "status": "proved",
   "theorems": [
    "Kami.Graph.C153_graph",
    "Kami.Graph.C153_counts"
   ],
   "note": ""
  },
  {
   "property": "C154",
   "status": "proved",
   "theorems": [
    "Kami.Graph.C154_degree",
    "Kami.Graph.C154_planar",
    "Kami.Graph.C154_skewered"
   ],
   "note": ""
  },
  {
   "property": "C155",
   "status": "proved",
   "theorems": [
    "Kami.Graph.C155_draw",
    "Kami.Graph.C155_exact",
    "Kami.Graph.C155_sharp"
   ],
   "note": ""
  },
  {
   "property": "C156",
   "status": "proved",
   "theorems": [
    "Kami.Graph.C156_order",
    "Kami.Graph.C156_best",
    "Kami.Graph.C156_exact",
    "Kami.Graph.C156_every_order",
    "Kami.Graph.C156_sorted"
   ],
   "note": ""
  },
  {
   "property": "C157",
   "status": "proved",
   "theorems": [
    "Kami.Graph.C157_drawn",
    "Kami.Graph.C157_planar",
    "Kami.Graph.C157_arrangement",
    "Kami.Graph.C157_order",
    "Kami.Graph.C157_streets",
    "Kami.Graph.C157_counts",
    "Kami.Graph.C157_same",
    "Kami.Graph.C157_sharp"
   ],
   "note": ""
  }
 ]
}