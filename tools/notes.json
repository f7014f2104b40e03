{
 "C05": {
  "note": "Exact condition (C05_exact): u is rotated onto v if and only if u = v, or both are unit vectors and not opposite; up to length (C05_exact_direction) if and only if the directions agree already, or the lengths multiply to 1 and the directions are not opposite. C05_counterexample_length and C05_counterexample_opposite are instances of failure."
 },
 "C08": {
  "note": "Rotor3::inverse is the reverse without division by the squared norm: an inverse exactly for unit rotors; C08_counterexample."
 },
 "C13": {
  "note": "All exact-arithmetic clauses proved; the f32 clause is false: (4,1,0).angle((4,1,0)) is NaN (C13_counterexample_f32)."
 },
 "C18": {
  "note": "Exact condition with overflow checks on (C18_exact): returns n choose k if and only if 1 <= k <= n and the falling factorial fits, or k = n+1 and k! fits; panics in every other case, for k = 0 wrongly (C18_counterexample)."
 },
 "C19": {
  "note": "Exact condition with overflow checks on (C19_exact): right if and only if dim < 2^32 or the low 32 bits of dim are at least 64 (C19_counterexample: 2^32, because of the truncating cast)."
 },
 "C20": {
  "status": "proved",
  "note": "Proved in exact arithmetic as stated; additionally the exact meaning of the f32 test, and an f32 counterexample showing that rounding breaks the first half."
 },
 "C21": {
  "note": "Refuted: Line::intersect always returns None (C21_counterexample); there is nothing left to prove."
 },
 "C24": {
  "note": "Exact condition (C24_exact): true if and only if the point is on the closed segment, or the segment is a single point and the point is at its height (C24_counterexample); so it is right for segments with distinct end points and never answers false wrongly (C24_complete)."
 },
 "C26": {
  "note": "Exact condition (C26_exact): true if and only if the segments have a common point, or one is a single point and an end of the other is at the same height. So it is right for segments with distinct end points and never answers false wrongly; C26_counterexample is a wrong true answer."
 },
 "C35": {
  "status": "proved",
  "note": "C35_terminates: in exact arithmetic, for every simple polygon in either direction, Polygon::new succeeds and triangulate returns n-2 counter-clockwise triangles whose areas add up. C35_diverges_collinear shows the hypothesis is needed: the constructor accepts non-simple polygons on which triangulate runs forever. The result is about exact arithmetic, not f32."
 },
 "C40": {
  "note": "Exact condition (C40_exact): None if and only if the segments are parallel (or one is a point) or have no common point; so the claim fails exactly for parallel segments with a common point (C40_counterexample)."
 },
 "C43": {
  "note": "Exact condition (C43_exact): midpoint and a point of the perpendicular bisector at distance offset if and only if the segment is vertical, or the offset is 0 and the segment is not horizontal. In general the distance is offset*|ab|/|dy| (C43_bisector_partial, C43_counterexample); for horizontal segments the second point is not finite (C43_horizontal)."
 },
 "C44": {
  "note": "Exact meaning of the test proved; points off the segment by up to about sqrt(eps*length) are accepted (C44_near_line bounds them), the flag is ignored and end points are never reported (C44_flag_ignored, C44_counterexample)."
 },
 "C47": {
  "note": "Sublist, characterisation of the kept points and separation proved. Exact condition for the last clause (C47_exact): every point has a close point in the result if and only if all points are finite and no two positions are close, and then nothing is filtered out; points occurring twice are dropped altogether (C47_counterexample, C47_duplicates_lost)."
 },
 "C48": {
  "note": "The function intersects the segments, not the lines: correct when the common point lies on both segments, None otherwise (C48_counterexample)."
 },
 "C49": {
  "note": "Exact condition (C49_exact, in either build): the indices stay valid all the time if and only if no call removes node 0, or its edge, while that edge is a self-loop and the only edge at node 0 and some edge has an end at node 1; with overflow checks such a call panics, so every debug history is fine (C49_valid_partial); in release it wraps an index (C49_counterexample)."
 },
 "C58": {
  "note": "Node list, validity of the reported slots and coverage of all changed or new slots other than the new edge's own proved. Exact condition for the new edge's slot in exact arithmetic (C58_exact): reported if and only if no edge was split or the new edge was; it goes unreported when the new edge stays whole and an older edge is split (C58_counterexample)."
 },
 "C61": {
  "note": "Exact condition for a panic proved; the claim itself is false (C61_counterexample)."
 },
 "C62": {
  "note": "Exact condition (C62_exact): the result is right unless the edge is a self-loop, the only edge at its node, and some edge has an end behind that node, where the renumbering moves by two (C62_counterexample)."
 },
 "C63": {
  "note": "Exact condition for a panic proved; isolated nodes panic (C63_counterexample)."
 },
 "C65": {
  "note": "All changed nodes are reported; unreported edge slots keep data and label, but renumbered ends are not reported (C65_counterexample). C65_exact_remove_any_node and C65_exact_remove_edge give the reported slots and the exact condition: an unreported edge changes if and only if it has an end behind a deleted node; nothing goes unreported when both ends of a removed edge have other edges."
 },
 "C66": {
  "note": "Exact for every index except 0; index 0 is always answered false (C66_counterexample)."
 },
 "C68": {
  "note": "Exact condition (C68_exact): the second call changes nothing if and only if an index is invalid or the first call left an edge joining the two nodes; false when the first call split the new edge (C68_counterexample)."
 },
 "C70": {
  "note": "Preserved by removal. For add_node that creates a node the condition is exact (C70_add_node_exact): parallel edges arise if and only if the point passes the test of two edges with a common end (C70_counterexample). For add_edge too (C70_add_edge_exact): if and only if at some splitting the node lies on an edge with an end u, and a second edge joins u to the node or has the end u and the node on it."
 },
 "C71": {
  "note": "The exact result of a round trip is proved; edges_foldangles, faceorders, edgeorders and file_frames are lost (C71_counterexample), non-finite numbers are not read back."
 },
 "C73": {
  "note": "Exact condition for a panic proved; malformed contents panic (C73_counterexample)."
 },
 "C74": {
  "note": "Refuted: validate is constantly true (C74_counterexample); nothing is left to prove."
 },
 "C60": {
  "note": "Exact condition in exact arithmetic, points of intersection clear up to the tolerance (C60_exact): the result can be drawn planarly if and only if every node on the segment other than its ends is the end of exactly one edge not parallel to the segment and no edge runs along the segment. So it holds in general position (C60_planar_partial) and fails when the segment runs through an isolated node, through a node shared by two edges, or along another edge (three counterexamples). In f32 it fails in general position too (C94_counterexample_crossing)."
 },
 "C82": {
  "status": "proved",
  "note": "Proved in the softfloat model for every grid of spacing 2^-74..2^51. C82_new_triangulate additionally assumes that the signed area of every initial part fits the mantissa. C82_counterexample_wide proves the last sentence: a convex quadrilateral with integer coordinates below 2^18 on which f32 triangulate runs forever."
 },
 "C87": {
  "status": "proved",
  "note": "Proved for the softfloat model, whose operations are proved correctly rounded (Verif/Num/F32Real.lean). C87_counterexample and C87_counterexample_rotation prove the last sentence."
 },
 "C91": {
  "status": "proved",
  "note": "C91_counterexample proves the overflow clause."
 },
 "C93": {
  "status": "proved",
  "note": "C93_counterexample proves the last sentence."
 },
 "C94": {
  "status": "proved",
  "note": "C94_counterexample_crossing and C94_counterexample_node prove the last sentence: planarity is not maintained in f32, even in general position."
 },
 "C95": {
  "status": "proved",
  "note": "C95_counterexample_release proves the clause about release builds."
 },
 "C98": {
  "status": "proved",
  "note": "C98_counterexample_f32 proves the last sentence."
 },
 "C103": {
  "status": "proved",
  "note": "Proved for requests in general position, as stated; C103_counterexample shows that the hypothesis is needed."
 },
 "C109": {
  "note": "False for every graph (C109_counterexample): remove_edge panics when both ends had edges before, and otherwise deletes the ends that had none. C109_undo_partial gives the exact outcome."
 },
 "C116": {
  "status": "proved",
  "note": "C116_counterexample_size proves the last sentence. C116_session is the comparison with exact arithmetic, C116_arrangement the description of the f32 graph."
 },
 "C50": {
  "note": "Proved from every graph whose edges refer to existing nodes, hence after every debug history (any arithmetic) and after every release history without add_edge(s,s) (f32 and exact), or without a removal that wraps an index (C50_history_wraps, any arithmetic). Exact conditions for a panic on any graph: C50_exact_add_node, C50_exact_add_edge; after a wrapping removal in a release build both calls panic (C50_counterexample)."
 },
 "C137": {
  "note": "Exactly the integer tokens in the range of i32 are accepted (C137_file_spec_partial); 1.1 and 1.0 make from_file panic (C137_counterexample)."
 },
 "C139": {
  "note": "Proved for numbers of at most eight digits, with exactly six exceptions (C139_exact_short); two counterexamples; for longer numbers see C140."
 },
 "C147": {
  "note": "C147_left says what is left, C147_order that the order does not matter; C147_sharp_double shows that parallel edges must be excluded, C147_sharp_panic that panics do depend on the order."
 },
 "C148": {
  "note": "C148_clear and C148_bare_stays; C148_sharp_last: the last slot would panic."
 },
 "C83": {
  "note": "C83_drawing in general position; C83_exact without it: whenever the points of intersection are clear up to the tolerance, the set of points drawn is right, and nodes are created exactly where one edge is cut and no node is yet."
 }
}