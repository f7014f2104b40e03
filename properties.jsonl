{"id": "C01", "title": "Vector * vector is the geometric product", "statement": "For all vectors u, v, `u * v` is the Clifford (geometric) product of u and v: a scalar part u.dot(v) and a bivector part u.wedge(v), with the signs of the e12, e13, e23 basis the documentation announces.", "quantifier": "all pairs of vectors over any commutative ring of scalars", "why_tests_cant": "an identity of polynomials in six unknowns; a test checks one sextuple", "anchors": ["src/math/vector.rs: Mul for Vector3, Contraction::dot, Exterior::wedge"]}
{"id": "C02", "title": "Mixed-grade products are the geometric product", "statement": "vector*bivector, bivector*bivector, rotor*vector, rotor*rotor, trivector*trivector and bivector.wedge(vector) all return exactly the graded parts of the Clifford product of their operands.", "quantifier": "all operands over any commutative ring", "why_tests_cant": "each is a family of polynomial identities with sign conventions", "anchors": ["src/math/vector.rs: Mul<Bivector3>", "src/math/bivector.rs: Mul for Bivector3, Exterior<Vector3>", "src/math/rotor.rs: Mul for Rotor3, Mul<Vector3>", "src/math/trivector.rs: Mul for Trivector3"]}
{"id": "C03", "title": "Products of rotors compose rotations", "statement": "(R1 * R2).rotate(u) equals R1.rotate(R2.rotate(u)) - the right factor acts first - and rotor multiplication is associative with `identity()` as unit.", "quantifier": "all rotors (normalised or not) and all vectors", "why_tests_cant": "polynomial identity in 11 unknowns", "anchors": ["src/math/rotor.rs: Mul for Rotor3, Rotor3::rotate, Rotor3::identity"]}
{"id": "C04", "title": "A unit rotor is a rotation", "statement": "R.rotate(u) is the sandwich R u R-reverse; it is linear, multiplies inner products by norm_squared(R)^2 and signed volumes by norm_squared(R)^3, hence a unit rotor preserves lengths, angles and handedness.", "quantifier": "all rotors, all vectors", "why_tests_cant": "holds for a 4-parameter family of rotors and all vectors", "anchors": ["src/math/rotor.rs: Rotor3::rotate, Norm for Rotor3"]}
{"id": "C05", "title": "from_vectors(u, v) rotates u onto v", "statement": "`Rotor3::from_vectors(u, v)` is the rotor that rotates from u to v: rotating u with it gives v (the documentation does not ask for unit vectors).", "quantifier": "all pairs of vectors", "why_tests_cant": "two-sphere times two-sphere of inputs; degenerate antipodal inputs", "anchors": ["src/math/rotor.rs: Rotor3::from_vectors"]}
{"id": "C06", "title": "from_angle_plane rotates by the given angle", "statement": "For every angle t and unit bivector B, from_angle_plane(t, B) is a unit rotor; for the coordinate planes it maps the first axis to cos t * first + sin t * second, fixes the normal axis; angles add under multiplication and inverse() is the rotor of the opposite angle.", "quantifier": "all real angles and all unit planes", "why_tests_cant": "continuum of angles", "anchors": ["src/math/rotor.rs: from_angle_plane, from_xy_rotation, from_xz_rotation, from_yz_rotation"]}
{"id": "C07", "title": "Vector, bivector and trivector inverses are two-sided", "statement": "x.inverse() * x and x * x.inverse() are the scalar 1 (with no other grade) for every non-zero vector, bivector and trivector.", "quantifier": "all non-zero blades", "why_tests_cant": "continuum", "anchors": ["src/math/vector.rs: Norm::inverse", "src/math/bivector.rs: Norm::inverse", "src/math/trivector.rs: Norm::inverse"]}
{"id": "C08", "title": "Rotor inverse is an inverse", "statement": "`R.inverse() * R` equals the identity rotor (documented without restriction).", "quantifier": "all rotors", "why_tests_cant": "the existing test only uses a rotor that from_vectors normalised", "anchors": ["src/math/rotor.rs: Norm::inverse for Rotor3"]}
{"id": "C09", "title": "normalize yields unit norm, and NaN for zero", "statement": "x.normalize() has norm 1 and the same direction for every non-zero vector, bivector, trivector and rotor; normalising zero yields NaN components, never a finite value.", "quantifier": "all non-zero operands, plus the zero operand", "why_tests_cant": "continuum", "anchors": ["src/math/vector.rs: normalize", "src/math/bivector.rs: normalize", "src/math/trivector.rs: normalize", "src/math/rotor.rs: normalize"]}
{"id": "C10", "title": "Norms measure length, area and volume", "statement": "norm() is non-negative and zero only for zero; norm_squared of u.wedge(v) is |u|^2|v|^2-(u.v)^2; u.wedge(v).wedge(w) is the determinant of (u,v,w); wedge is alternating and dot symmetric.", "quantifier": "all vectors", "why_tests_cant": "continuum", "anchors": ["src/math/vector.rs: Norm, wedge, dot", "src/math/bivector.rs: Norm, wedge", "src/math/trivector.rs: Norm"]}
{"id": "C11", "title": "reflect is reflection about v", "statement": "u.reflect(v) = 2(u.v/v.v)v - u for every non-zero v; the discarded trivector part is zero; reflecting twice is the identity, lengths are kept, v is fixed and vectors orthogonal to v are negated.", "quantifier": "all u and all non-zero v", "why_tests_cant": "continuum", "anchors": ["src/math/vector.rs: Vector3::reflect"]}
{"id": "C12", "title": "project is orthogonal projection", "statement": "u.project(v) is parallel to v, u - u.project(v) is orthogonal to v, and projecting twice changes nothing.", "quantifier": "all u and all non-zero v", "why_tests_cant": "continuum", "anchors": ["src/math/vector.rs: Vector3::project"]}
{"id": "C13", "title": "angle is the angle", "statement": "u.angle(v) lies in [0, pi], is symmetric, invariant under positive scaling of either vector, and |u||v|cos(angle) = u.v; for f32 vectors it is never NaN for non-zero finite u, v.", "quantifier": "all non-zero vectors", "why_tests_cant": "rounding can push the cosine above 1 for particular vectors only", "anchors": ["src/math/vector.rs: Vector3::angle"]}
{"id": "C14", "title": "dot and wedge are the halves of the geometric product", "statement": "(u*v + v*u)*0.5 is the scalar u.dot(v) with zero bivector part and (u*v - v*u)*0.5 is u.wedge(v) with zero scalar part.", "quantifier": "all vectors", "why_tests_cant": "existing tests check one pair", "anchors": ["src/math/vector.rs: dot, wedge, Mul", "src/math/rotor.rs: Add, Sub, Mul<T>"]}
{"id": "C15", "title": "Compound assignment and zero agree with the plain operators", "statement": "+=, -=, *=, /= give the same value as +, -, *, / for every algebra type; zero() is neutral for + and is_zero() holds exactly of zero().", "quantifier": "all operands, for any scalar type", "why_tests_cant": "a sign or component slip in one of 15 operators shows only for some inputs", "anchors": ["src/math/vector.rs: AddAssign, SubAssign, MulAssign, DivAssign, Zero", "src/math/bivector.rs: same", "src/math/trivector.rs: same", "src/math/rotor.rs: AddAssign, SubAssign, MulAssign, DivAssign"]}
{"id": "C16", "title": "Approximate equality is componentwise, reflexive and symmetric", "statement": "abs_diff_eq / relative_eq / ulps_eq of two algebra values hold exactly when they hold for every component; for f32 they are reflexive on finite values and symmetric.", "quantifier": "all values and tolerances", "why_tests_cant": "holds for all bit patterns", "anchors": ["src/math/vector.rs: AbsDiffEq, RelativeEq, UlpsEq", "src/math/bivector.rs: same", "src/math/rotor.rs: same", "src/math/trivector.rs: same"]}
{"id": "C17", "title": "number_of_basis_blades returns binomial coefficients", "statement": "Whenever number_of_basis_blades(n, k) returns for k >= 1 (overflow checks on), the value is n choose k.", "quantifier": "all n, k in usize", "why_tests_cant": "infinite domain, overflow boundaries", "anchors": ["src/math/blade.rs: number_of_basis_blades, binomial_coefficient, factorial"]}
{"id": "C18", "title": "number_of_basis_blades is total on 0 <= k <= n", "statement": "number_of_basis_blades(n, k) returns n choose k for every 0 <= k <= n whose intermediate products fit in usize.", "quantifier": "all n, k with k <= n", "why_tests_cant": "the k = 0 corner and overflow limits", "anchors": ["src/math/blade.rs: number_of_basis_blades"]}
{"id": "C19", "title": "total_number_of_basis_blades is 2^dim", "statement": "total_number_of_basis_blades(dim) returns 2^dim, the sum of the numbers of basis k-blades, for every dim for which that fits; for every other dim it panics (overflow checks on).", "quantifier": "all dim in usize", "why_tests_cant": "casts and overflow at 2^32 and 64", "anchors": ["src/math/blade.rs: total_number_of_basis_blades"]}
{"id": "C20", "title": "Line::contains accepts the points of the line", "statement": "Line::new(p, u).contains(p + t u) is true for every t, and a contained point is within a tolerance of the line: the area spanned by x - p and u has all components at most f32::EPSILON.", "quantifier": "all lines, all points (exact arithmetic)", "why_tests_cant": "continuum", "anchors": ["src/geometry/line.rs: Line::new, Line::contains"]}
{"id": "C21", "title": "Line::intersect finds the common point", "statement": "Line::intersect returns the common point of two lines that meet in exactly one point.", "quantifier": "all pairs of lines", "why_tests_cant": "continuum", "anchors": ["src/geometry/line.rs: Line::intersect"]}
{"id": "C22", "title": "left / left_on / collinear are the orientation tests", "statement": "left(a,b,c), collinear(a,b,c) and left(b,a,c) are mutually exclusive and exhaustive; left_on = left or collinear; all three are invariant under cyclic rotation of the arguments, translation, and negated by a swap; collinear holds exactly when c is on the line through a and b.", "quantifier": "all triples of points (exact arithmetic)", "why_tests_cant": "continuum", "anchors": ["src/geometry/polygon.rs: area2, left, left_on, collinear"]}
{"id": "C23", "title": "Swapping the last two arguments mirrors left, even in f32", "statement": "For f32 inputs including NaN and infinities, area2(a,c,b) is the exact negation of area2(a,b,c) up to the sign of zero, so left(a,b,c) and left(a,c,b) are never both true.", "quantifier": "all f32 bit patterns", "why_tests_cant": "2^192 inputs", "anchors": ["src/geometry/polygon.rs: area2, left"]}
{"id": "C24", "title": "between decides membership in the closed segment", "statement": "between(a,b,c) is true exactly when c is a point of the closed segment from a to b.", "quantifier": "all triples of points", "why_tests_cant": "degenerate segments, vertical segments", "anchors": ["src/geometry/polygon.rs: between"]}
{"id": "C25", "title": "intersect_prop decides proper crossing", "statement": "intersect_prop(a,b,c,d) is true exactly when the segments meet in exactly one point, interior to both, and is symmetric in the segments and in their orientation.", "quantifier": "all quadruples of points", "why_tests_cant": "continuum with measure-zero corner cases", "anchors": ["src/geometry/polygon.rs: intersect_prop"]}
{"id": "C26", "title": "intersect decides whether closed segments meet", "statement": "intersect(a,b,c,d) is true exactly when the closed segments ab and cd have a common point.", "quantifier": "all quadruples of points", "why_tests_cant": "collinear overlap, shared endpoints, degenerate segments", "anchors": ["src/geometry/polygon.rs: intersect"]}
{"id": "C27", "title": "Polygon::new keeps the vertices and makes them counter-clockwise", "statement": "Polygon::new fails exactly for fewer than 3 vertices; otherwise get_vertices() is the given list or its reverse, and its signed area is non-negative; building again from the result changes nothing.", "quantifier": "all vertex lists of any length", "why_tests_cant": "unbounded length", "anchors": ["src/geometry/polygon.rs: Polygon::new, get_vertices"]}
{"id": "C28", "title": "area is the shoelace area", "statement": "area() is the absolute shoelace sum over all edges divided by two; it does not depend on which vertex is listed first or on the orientation.", "quantifier": "all polygons of any size", "why_tests_cant": "unbounded length", "anchors": ["src/geometry/polygon.rs: Polygon::area, area_poly2"]}
{"id": "C29", "title": "translate and uniform_scale transform area and orientation correctly", "statement": "translate leaves area and orientation unchanged and shifts center() by t; uniform_scale(s) multiplies area by s^2 and center by s and keeps the orientation (also for negative s); both keep the number and order of vertices.", "quantifier": "all polygons, all t, all s", "why_tests_cant": "unbounded", "anchors": ["src/geometry/polygon.rs: translate, uniform_scale, center"]}
{"id": "C30", "title": "regular builds the regular polygon", "statement": "For sides >= 3 and non-zero radius, regular(sides, r, c) has `sides` vertices at distance |r| from c, vertex i at angle 2 pi i/sides (never reversed), centroid c, area sides/2 r^2 sin(2 pi/sides); for sides < 3 it panics.", "quantifier": "all sides, radii, centers", "why_tests_cant": "unbounded number of sides", "anchors": ["src/geometry/polygon.rs: Polygon::regular"]}
{"id": "C31", "title": "diagonal is sound and symmetric", "statement": "If diagonal(i,j) is true then the segment between the two vertices has no point in common with any polygon edge not incident to them; diagonal(i,j) = diagonal(j,i); it is false for i = j and for neighbouring vertices.", "quantifier": "all polygons and index pairs", "why_tests_cant": "unbounded", "anchors": ["src/geometry/polygon.rs: Polygon::diagonal, in_cone"]}
{"id": "C32", "title": "triangulate never panics", "statement": "triangulate never indexes out of range or underflows on any polygon, simple or not, whatever the coordinates (NaN included).", "quantifier": "all polygons with at least 3 vertices, any arithmetic", "why_tests_cant": "index juggling v0..v4 with wrap-around at every position", "anchors": ["src/geometry/polygon.rs: Polygon::triangulate"]}
{"id": "C33", "title": "triangulate returns n - 2 triangles cut from the polygon", "statement": "If triangulate returns, it returns exactly n-2 polygons of 3 vertices each, obtained by repeatedly cutting off the triangle of three consecutive remaining vertices, so every triangle corner is a polygon vertex and every polygon vertex is a corner of some triangle.", "quantifier": "all polygons for which it returns, any arithmetic", "why_tests_cant": "unbounded number of iterations", "anchors": ["src/geometry/polygon.rs: Polygon::triangulate"]}
{"id": "C34", "title": "triangulate conserves area", "statement": "The signed areas of the cut triangles add up to the signed area of the polygon, so the areas reported for the triangles sum to at least the polygon's area, with equality when no cut triangle is clockwise.", "quantifier": "all polygons for which it returns (exact arithmetic)", "why_tests_cant": "unbounded", "anchors": ["src/geometry/polygon.rs: Polygon::triangulate, area"]}
{"id": "C35", "title": "triangulate terminates", "statement": "triangulate returns for every simple polygon with at least 3 vertices.", "quantifier": "all simple polygons", "why_tests_cant": "the ear search loops forever if no ear is found: non-termination cannot be observed by a test", "anchors": ["src/geometry/polygon.rs: Polygon::triangulate (while loop, lines 283-336)"]}
{"id": "C36", "title": "parallel recognises parallel directions", "statement": "parallel(a,b,c,d) is true whenever the non-zero vectors ab and cd are exactly parallel or antiparallel, false whenever one of them is zero, and when true the sine of the angle between them is bounded by sqrt(2 eps).", "quantifier": "all quadruples (exact arithmetic)", "why_tests_cant": "continuum", "anchors": ["src/geometry/utils.rs: parallel"]}
{"id": "C37", "title": "is_degenerate_triangle detects collinear triples", "statement": "is_degenerate_triangle(a,b,c) is true exactly when the three points are collinear.", "quantifier": "all triples (exact arithmetic)", "why_tests_cant": "continuum", "anchors": ["src/geometry/utils.rs: is_degenerate_triangle"]}
{"id": "C38", "title": "calculate_triangle_incenter returns the incircle", "statement": "It returns None exactly for collinear points; otherwise the returned point is inside the triangle and its distance to each of the three side lines is the returned, positive radius.", "quantifier": "all triples (exact arithmetic)", "why_tests_cant": "continuum", "anchors": ["src/geometry/utils.rs: calculate_triangle_incenter"]}
{"id": "C39", "title": "calculate_line_segment_intersection is sound", "statement": "If it returns a point, that point lies on both closed segments, and the segments are not parallel and meet nowhere else.", "quantifier": "all quadruples (exact arithmetic)", "why_tests_cant": "continuum", "anchors": ["src/geometry/utils.rs: calculate_line_segment_intersection"]}
{"id": "C40", "title": "calculate_line_segment_intersection is complete", "statement": "It returns None only if the segments do not intersect.", "quantifier": "all quadruples (exact arithmetic)", "why_tests_cant": "parallel overlapping segments divide by zero", "anchors": ["src/geometry/utils.rs: calculate_line_segment_intersection"]}
{"id": "C41", "title": "calculate_perpendicular_point is the foot of the perpendicular", "statement": "For a != b the result q lies on line ab, pq is perpendicular to ab, and q is the point of the line nearest to p.", "quantifier": "all segments and points (exact arithmetic)", "why_tests_cant": "continuum", "anchors": ["src/geometry/utils.rs: calculate_perpendicular_point"]}
{"id": "C42", "title": "calculate_midpoint is the midpoint", "statement": "calculate_midpoint(a,b) is symmetric, equidistant from a and b and on the segment.", "quantifier": "all pairs (exact arithmetic)", "why_tests_cant": "continuum", "anchors": ["src/geometry/utils.rs: calculate_midpoint"]}
{"id": "C43", "title": "calculate_perpendicular_bisector returns two points of the bisector, the second `offset` away", "statement": "For all segments the result is the midpoint and a point of the perpendicular bisector at distance `offset` from ab.", "quantifier": "all segments and offsets (exact arithmetic)", "why_tests_cant": "slope computations break on axis-aligned segments", "anchors": ["src/geometry/utils.rs: calculate_perpendicular_bisector"]}
{"id": "C44", "title": "is_on_line_segment decides membership in a segment within tolerance", "statement": "It is true for every point of the segment farther than epsilon from both ends, false within epsilon of an end, and true only for points in the ellipse |ap|+|pb| < |ab| + eps; the `include_endpoints` flag adds the endpoints.", "quantifier": "all segments and points (exact arithmetic)", "why_tests_cant": "continuum; unused flag", "anchors": ["src/geometry/utils.rs: is_on_line_segment"]}
{"id": "C45", "title": "find_closest_to returns the nearest point", "statement": "For a non-empty list of points whose distances are below f32::MAX the returned index is the first index of minimal distance and the returned value is that distance; for an empty list it is (0, f32::MAX).", "quantifier": "all targets and lists, exact and f32 arithmetic", "why_tests_cant": "unbounded lists, NaN distances", "anchors": ["src/geometry/utils.rs: find_closest_to"]}
{"id": "C46", "title": "close_to is reflexive and symmetric", "statement": "close_to(a,a) for every finite a and close_to(a,b) = close_to(b,a) for all f32 points.", "quantifier": "all f32 points", "why_tests_cant": "2^128 inputs", "anchors": ["src/geometry/utils.rs: close_to"]}
{"id": "C47", "title": "unique_points_among keeps one representative of every cluster", "statement": "The result is a sublist of the input, its points are pairwise not close, and every input point has a close point in the result.", "quantifier": "all lists", "why_tests_cant": "unbounded lists", "anchors": ["src/geometry/utils.rs: unique_points_among"]}
{"id": "C48", "title": "calculate_line_intersection intersects infinite lines", "statement": "For non-parallel lines it returns their common point even if it lies outside the given segments.", "quantifier": "all quadruples (exact arithmetic)", "why_tests_cant": "continuum", "anchors": ["src/geometry/utils.rs: calculate_line_intersection"]}
{"id": "C49", "title": "Edges always refer to existing nodes", "statement": "After any sequence of add_node, add_edge, remove_edge and remove_node calls that did not panic, both node indices of every edge are valid for get_vertex.", "quantifier": "all histories of calls, any arithmetic", "why_tests_cant": "unbounded histories with renumbering", "anchors": ["src/graph/planar_graph.rs: add_node, add_edge, remove_edge, remove_node, get_vertex, get_edges"]}
{"id": "C50", "title": "add_node and add_edge never panic", "statement": "From any graph reached by a panic-free history, add_node with any position and add_edge with any indices return normally.", "quantifier": "all histories, all arguments, any arithmetic", "why_tests_cant": "unbounded histories", "anchors": ["src/graph/planar_graph.rs: add_node, add_edge, split_edges_at_node, split_edges_along_edge"]}
{"id": "C51", "title": "No two nodes are within epsilon of each other", "statement": "In every graph reachable through the public API the distance of two different nodes is never smaller than epsilon.", "quantifier": "all histories; exact and f32 arithmetic", "why_tests_cant": "unbounded histories", "anchors": ["src/graph/planar_graph.rs: add_node", "src/geometry/utils.rs: find_closest_to"]}
{"id": "C52", "title": "add_node returns a valid index at the requested place, once", "statement": "add_node(p) returns an existing index whose node is within epsilon of p (leaving the graph untouched) or a fresh index holding p and the data; adding the same finite position twice returns the same index and changes nothing.", "quantifier": "all valid graphs (every edge refers to existing nodes; by C49 every graph reached by a history, except after removing a self-loop in a release build), all positions", "why_tests_cant": "histories", "anchors": ["src/graph/planar_graph.rs: add_node"]}
{"id": "C53", "title": "Adding never renumbers or moves existing nodes", "statement": "add_node and add_edge only append nodes: every previously valid node index keeps its position, data and label.", "quantifier": "all graphs and arguments, any arithmetic", "why_tests_cant": "histories", "anchors": ["src/graph/planar_graph.rs: add_node, add_edge"]}
{"id": "C54", "title": "Adding never disconnects, and add_edge connects", "statement": "Nodes joined by a path stay joined by a path after add_node and add_edge; after add_edge(s,d) returns Ok, s and d are joined by a path.", "quantifier": "all graphs and arguments, any arithmetic", "why_tests_cant": "needs induction over paths and over the splits", "anchors": ["src/graph/planar_graph.rs: add_node, add_edge, split_edges_at_node"]}
{"id": "C55", "title": "add_edge rejects unknown nodes and ignores existing edges", "statement": "add_edge(s,d) returns Err and leaves the graph unchanged iff no s-d edge exists and s or d is not a node; if an s-d edge (in either direction) exists it returns Ok with empty lists and leaves the graph unchanged.", "quantifier": "all valid graphs (every edge refers to existing nodes; by C49 every graph reached by a history, except after removing a self-loop in a release build) and all index pairs", "why_tests_cant": "all graphs", "anchors": ["src/graph/planar_graph.rs: add_edge, has_edge_between_nodes"]}
{"id": "C56", "title": "Split edges inherit the data of the edge they came from", "statement": "Every edge after add_node lies in the slot of, or was split from, an old edge with the same data; after add_edge every edge carries the data of the old edge it came from or the new data; no old edge's data disappears.", "quantifier": "all graphs, any arithmetic", "why_tests_cant": "cascaded splits", "anchors": ["src/graph/planar_graph.rs: split_edges_at_node, add_edge"]}
{"id": "C57", "title": "add_node reports exactly the changed edges", "statement": "The returned edge list has no repetitions and consists exactly of the edge slots whose edge differs from before or is new.", "quantifier": "all valid graphs (every edge refers to existing nodes; by C49 every graph reached by a history, except after removing a self-loop in a release build) and all positions, any arithmetic", "why_tests_cant": "all graphs", "anchors": ["src/graph/planar_graph.rs: add_node"]}
{"id": "C58", "title": "add_edge reports all new nodes and all changed edges", "statement": "The returned node list is exactly the list of indices of created nodes, in order; every edge slot that is new or whose edge changed is in the returned edge list, and every returned edge index is valid.", "quantifier": "all valid graphs (every edge refers to existing nodes; by C49 every graph reached by a history, except after removing a self-loop in a release build) and all index pairs", "why_tests_cant": "all graphs", "anchors": ["src/graph/planar_graph.rs: add_edge, split_edges_along_edge"]}
{"id": "C59", "title": "A new node never lies inside an edge", "statement": "After add_node created a node, no edge passes the library's on-segment test for that node; in exact arithmetic no edge contains the node in its interior at more than epsilon from the edge's ends.", "quantifier": "all valid graphs (every edge refers to existing nodes; by C49 every graph reached by a history, except after removing a self-loop in a release build) and all positions", "why_tests_cant": "all graphs", "anchors": ["src/graph/planar_graph.rs: add_node, split_edges_at_node"]}
{"id": "C60", "title": "add_edge maintains planarity", "statement": "If in the drawing of the graph different edges meet only at common end nodes and no node lies inside an edge, the same holds after add_edge.", "quantifier": "all planar straight-line drawings and index pairs (exact arithmetic)", "why_tests_cant": "continuum of drawings, cascaded splits", "anchors": ["src/graph/planar_graph.rs: add_edge, split_edges_along_edge"]}
{"id": "C61", "title": "remove_edge never panics", "statement": "remove_edge(id) returns normally for every id in every valid graph.", "quantifier": "all valid graphs (every edge refers to existing nodes; by C49 every graph reached by a history, except after removing a self-loop in a release build) and all ids", "why_tests_cant": "swap-remove corner cases", "anchors": ["src/graph/planar_graph.rs: remove_edge"]}
{"id": "C62", "title": "remove_edge removes exactly that edge and nodes left stray", "statement": "When remove_edge(id) returns, the remaining edges are the other edges, joining the same nodes with the same data, and the removed nodes are exactly those end nodes of the edge that no other edge touches.", "quantifier": "all valid graphs (every edge refers to existing nodes; by C49 every graph reached by a history, except after removing a self-loop in a release build) and all ids", "why_tests_cant": "renumbering", "anchors": ["src/graph/planar_graph.rs: remove_edge, remove_node"]}
{"id": "C63", "title": "remove_node never panics", "statement": "remove_node(id) returns normally for every id in every reachable graph.", "quantifier": "all histories and ids", "why_tests_cant": "isolated nodes, self-loops", "anchors": ["src/graph/planar_graph.rs: remove_node"]}
{"id": "C64", "title": "remove_node removes the node, its edges and stray neighbours, and renumbers consistently", "statement": "When remove_node(id) returns on a graph without self-loops, the surviving nodes keep position, data and relative order; the surviving edges are exactly those that did not touch id, in order, with the same data, joining the same nodes as before; the removed nodes are id and its neighbours that had no other edge.", "quantifier": "all loop-free valid graphs (every edge refers to existing nodes; by C49 every graph reached by a history, except after removing a self-loop in a release build) and all ids, any arithmetic", "why_tests_cant": "renumbering for every combination of deleted indices", "anchors": ["src/graph/planar_graph.rs: remove_node, remove_edges_incident_to_node"]}
{"id": "C65", "title": "Removal reports every changed index", "statement": "Every node or edge index whose node or edge differs before and after remove_node / remove_edge is in the returned lists.", "quantifier": "all valid graphs (every edge refers to existing nodes; by C49 every graph reached by a history, except after removing a self-loop in a release build) and all ids", "why_tests_cant": "renumbering", "anchors": ["src/graph/planar_graph.rs: remove_node, remove_edge"]}
{"id": "C66", "title": "has_node_at_index / has_edge_at_index agree with get_vertex / get_edge", "statement": "has_node_at_index(i) is true exactly when get_vertex(i) is Some, and likewise for edges.", "quantifier": "all graphs and indices", "why_tests_cant": "all indices", "anchors": ["src/graph/planar_graph.rs: has_node_at_index, has_edge_at_index, get_vertex, get_edge"]}
{"id": "C67", "title": "Incidence counts obey the handshake identity", "statement": "number_of_edges_incident_to(i) is Some exactly for existing nodes and counts the edges touching i; summed over all nodes it is twice the number of edges minus the number of self-loops.", "quantifier": "all valid graphs (every edge refers to existing nodes; by C49 every graph reached by a history, except after removing a self-loop in a release build)", "why_tests_cant": "unbounded graphs", "anchors": ["src/graph/planar_graph.rs: number_of_edges_incident_to, node_count, edge_count"]}
{"id": "C68", "title": "add_edge is idempotent", "statement": "Calling add_edge(s,d) a second time changes nothing.", "quantifier": "all valid graphs (every edge refers to existing nodes; by C49 every graph reached by a history, except after removing a self-loop in a release build) and all index pairs", "why_tests_cant": "needs an edge that was split by the first call", "anchors": ["src/graph/planar_graph.rs: add_edge"]}
{"id": "C69", "title": "No self-loops unless requested", "statement": "In every history that never calls add_edge(s,s), no edge joins a node to itself.", "quantifier": "all histories; exact and f32 arithmetic", "why_tests_cant": "unbounded histories", "anchors": ["src/graph/planar_graph.rs: add_edge, split_edges_at_node", "src/geometry/utils.rs: is_on_line_segment"]}
{"id": "C70", "title": "At most one edge joins two nodes", "statement": "In every reachable graph two different edges never join the same pair of nodes.", "quantifier": "all histories", "why_tests_cant": "unbounded histories", "anchors": ["src/graph/planar_graph.rs: add_edge, has_edge_between_nodes"]}
{"id": "C71", "title": "FOLD values survive serialisation", "statement": "Serialising a Fold and deserialising the result yields the same Fold.", "quantifier": "all Fold values", "why_tests_cant": "all values; asymmetric renames", "anchors": ["src/fold/fold.rs: Fold (serde attributes)"]}
{"id": "C72", "title": "Missing and unknown FOLD keys are tolerated", "statement": "Deserialising a JSON object succeeds whenever the known keys present are distinct and well typed: missing keys give the default value and unknown keys are ignored, in any key order.", "quantifier": "all JSON objects", "why_tests_cant": "unbounded objects", "anchors": ["src/fold/fold.rs: Fold (serde(default))"]}
{"id": "C73", "title": "from_file reports bad input as Err", "statement": "Fold::from_file returns Err, and does not panic, for unreadable or malformed files.", "quantifier": "all file contents", "why_tests_cant": "all contents", "anchors": ["src/fold/fold.rs: Fold::from_file"]}
{"id": "C74", "title": "validate rejects inconsistent files", "statement": "validate() returns false when the per-vertex (per-edge, per-face) arrays have different non-zero lengths.", "quantifier": "all Fold values", "why_tests_cant": "all values", "anchors": ["src/fold/fold.rs: Fold::validate"]}
{"id": "C75", "title": "svg_polygon's points attribute lists every vertex", "statement": "The example helper's points attribute is the vertices as x,y separated by single spaces, with no leading or trailing space, for any number of vertices.", "quantifier": "all vertex lists", "why_tests_cant": "unbounded lists", "anchors": ["examples/simple_polygons/src/shared.rs: svg_polygon"]}
{"id": "C76", "title": "The triangles of triangulate tile the polygon", "statement": "For every simple polygon, the triangles returned by triangulate cover exactly the region enclosed by the polygon (even-odd rule), and their interiors are pairwise disjoint.", "quantifier": "all simple polygons, all points of the plane; exact arithmetic", "why_tests_cant": "a region is infinitely many points, and polygons are unboundedly large", "anchors": ["src/geometry/polygon.rs: Polygon::new, triangulate, diagonal, in_cone"]}
{"id": "C77", "title": "diagonal is true exactly for internal diagonals", "statement": "On a simple counter-clockwise polygon diagonal(i, j) is true exactly when i and j differ and every inner point of the segment between the two vertices lies strictly inside the polygon.", "quantifier": "all simple polygons and all index pairs; exact arithmetic", "why_tests_cant": "the right-hand side speaks about all points of a segment", "anchors": ["src/geometry/polygon.rs: diagonal, in_cone", "src/geometry/utils.rs: lines_intersect"]}
{"id": "C78", "title": "The array form of a FOLD value is read field by field", "statement": "A JSON array deserialises to a Fold exactly when it has at most one element per field, each well typed for the field at its position in declaration order (missing ones get defaults); anything that is neither an array nor an object is rejected.", "quantifier": "all JSON values", "why_tests_cant": "unbounded arrays", "anchors": ["src/fold/fold.rs: Fold (serde derive, visit_seq)"]}
{"id": "C79", "title": "svg_circle, svg_line and svg_polygon set the attributes they are given", "statement": "Each helper creates the right element and sets each argument under the right attribute name; different lines and circles give different elements.", "quantifier": "all arguments, any injective number formatting", "why_tests_cant": "an x/y or fill/stroke swap shows only for asymmetric arguments", "anchors": ["examples/simple_polygons/src/shared.rs: svg_polygon, svg_circle, svg_line"]}
{"id": "C80", "title": "are_neighbors is cyclic adjacency", "statement": "are_neighbors(i, j) holds exactly when one of the indices follows the other in the cyclic order of the vertices; it is symmetric and irreflexive.", "quantifier": "all polygons with at least two vertices and all indices", "why_tests_cant": "wrap-around at both ends; unboundedly many vertices", "anchors": ["src/geometry/polygon.rs: are_neighbors, get_neighbor_indices"]}
{"id": "C81", "title": "Negation, addition and subtraction are those of the algebra", "statement": "-x, x + y and x - y of vectors, bivectors, trivectors and rotors are the negation, sum and difference in the Clifford algebra; R and -R are the same rotation.", "quantifier": "all operands over any commutative ring", "why_tests_cant": "a sign slip in one component shows only for some inputs", "anchors": ["src/math/vector.rs: Neg, Add, Sub", "src/math/bivector.rs: Neg, Add, Sub", "src/math/trivector.rs: Neg, Add, Sub", "src/math/rotor.rs: Neg, Add, Sub"]}
{"id": "C82", "title": "On grid coordinates the f32 program is exact", "statement": "For polygons whose coordinates are multiples of a power of two (for instance integers) and span at most 4096 units, the f32 predicates answer as in exact arithmetic, diagonal decides inner diagonals, and triangulate in f32 terminates on every simple polygon with triangles that tile it. Beyond that span f32 triangulate can fail to terminate.", "quantifier": "all simple polygons with grid coordinates, any number of vertices", "why_tests_cant": "unboundedly many vertices and 2^24 positions each; rounding errors only show on special positions", "anchors": ["src/geometry/polygon.rs: Polygon::new, triangulate, diagonal", "src/geometry/utils.rs: left, collinear, between, lines_intersect"]}
{"id": "C83", "title": "add_edge adds exactly the new segment to the drawing", "statement": "For a planar drawing and a new edge in general position, the set of (point, edge data) pairs drawn after add_edge is the old set together with the new segment; the new nodes are exactly the crossing points, at distinct positions. Without general position, and for drawings that are not planar, the set drawn is still the old one with the new segment, as long as the points of intersection are clear up to the tolerance; the new nodes are then the points cut from exactly one edge.", "quantifier": "all graphs drawn with distinct positions and clear points of intersection; exact arithmetic", "why_tests_cant": "a drawing is infinitely many points and the edge may cross any number of others", "anchors": ["src/graph/planar_graph.rs: add_edge, split_edges_at_node, split_edges"]}
{"id": "C84", "title": "add_node changes exactly the edges through the new node", "statement": "When add_node creates a node it is appended, edges that fail the on-segment test stay in their slots, each edge a-b that passes it becomes a-new in place with b-new appended (same data, in slot order), and the reported indices are the split slots followed by the new slots.", "quantifier": "all well-formed graphs, any arithmetic", "why_tests_cant": "any number of edges may pass through the position", "anchors": ["src/graph/planar_graph.rs: add_node, split_edges_at_node"]}
{"id": "C85", "title": "add_edge with nothing in the way appends one edge", "statement": "If the segment intersection test finds no meeting with any existing edge, add_edge appends the edge, reports exactly its slot and leaves everything else as it was.", "quantifier": "all well-formed graphs, any arithmetic", "why_tests_cant": "unboundedly many existing edges", "anchors": ["src/graph/planar_graph.rs: add_edge, split_edges"]}
{"id": "C86", "title": "Removal reports exactly the shifted indices", "statement": "remove_node reports the old node indices from the smallest removed node on and the old edge indices from the first removed edge on; remove_edge either is remove_node of an end that has no other edge or moves the last edge into the slot and reports these two slots.", "quantifier": "all well-formed graphs and indices", "why_tests_cant": "the smallest removed node may be a neighbour; unbounded graphs", "anchors": ["src/graph/planar_graph.rs: remove_node, remove_edge"]}
{"id": "C87", "title": "f32 orientation tests are right outside an explicit error margin", "statement": "For points with coordinates up to 2^60, if the exact doubled signed area exceeds (|P|+|Q|)/2^22 + 2^-149, where P and Q are the two exact products of coordinate differences, then left, left_on and collinear in f32 answer as in exact arithmetic. Inside the margin left can be wrong and can depend on the order of its arguments.", "quantifier": "all triples of binary32 points", "why_tests_cant": "2^192 triples; wrong answers only occur for nearly collinear triples", "anchors": ["src/geometry/utils.rs: area2, left, left_on, collinear"]}
{"id": "C88", "title": "f32 triangulation is right for polygons in clear position", "statement": "If the coordinates are at most 2^60 and every vertex triple either exceeds the margin of C87 or has two equal members, then triangulate in f32 terminates on every simple counter-clockwise polygon with triangles that tile it, and diagonal decides inner diagonals. With coordinates at most 2^40, at most 2^20 vertices and an area above the bound of C89 this holds for either orientation after Polygon::new.", "quantifier": "all simple polygons in clear position, any coordinates in range", "why_tests_cant": "unboundedly many vertices, continuum-sized coordinate space", "anchors": ["src/geometry/polygon.rs: Polygon::new, triangulate, diagonal"]}
{"id": "C89", "title": "Accuracy of area() and of the orientation check in f32", "statement": "For at most 2^20 vertices with coordinates at most 2^40 the f32 area() is finite and within (2n+6)/2^24 * mass + 4n/2^150 of the exact area, where mass is the sum of the absolute values of the products summed; Polygon::new reverses exactly the clockwise lists whenever the exact signed area exceeds that bound.", "quantifier": "all vertex lists in range", "why_tests_cant": "rounding errors accumulate over up to a million additions", "anchors": ["src/geometry/polygon.rs: area_poly2, area, Polygon::new"]}
{"id": "C90", "title": "Accuracy of f32 distances", "statement": "For points with coordinates up to 2^60 the f32 distance is finite, non-negative and within d/2^21 + 2^-73 of the true distance d; the comparison with epsilon is right except within a relative 2^-20 of epsilon.", "quantifier": "all pairs of binary32 points in range", "why_tests_cant": "2^128 pairs of points", "anchors": ["nalgebra_glm::distance as used in src/geometry/utils.rs", "src/graph/planar_graph.rs: add_node"]}
{"id": "C91", "title": "Accuracy of f32 midpoints", "statement": "If the coordinate sums are at most 2^127, calculate_midpoint is finite and within a relative 2^-22 (plus 2^-150) of the true midpoint in each coordinate; for larger coordinates it can overflow, even for a point with itself.", "quantifier": "all pairs of finite binary32 points in range", "why_tests_cant": "2^128 pairs", "anchors": ["src/geometry/utils.rs: calculate_midpoint"]}
{"id": "C92", "title": "f32 segment intersection", "statement": "For coordinates up to 2^60: any returned point is next to the first segment (within B/2^21 + 2^-149 per coordinate, B bounding its coordinates); if the segments cross at parameters at least three error bounds inside both, the crossing is found, with an explicit error; if the lines meet more than three error bounds outside one segment, nothing is returned. The error bound is an explicit function of the points.", "quantifier": "all quadruples of binary32 points in range", "why_tests_cant": "2^256 quadruples; errors depend on the angle of the segments", "anchors": ["src/geometry/utils.rs: calculate_line_segment_intersection"]}
{"id": "C93", "title": "is_on_line_segment in f32", "statement": "For coordinates up to 2^60 an accepted point satisfies |ap|+|pb| <= (1+2^-18)|ab| + 2^-21, and on segments no longer than 1/32 every point of the segment at least 2^-22 from the ends is accepted. On longer segments exact points of the segment can be rejected: (1,2) on (0,0)-(3,6).", "quantifier": "all triples of binary32 points in range", "why_tests_cant": "2^192 triples", "anchors": ["src/geometry/utils.rs: is_on_line_segment"]}
{"id": "C94", "title": "What f32 graphs guarantee about true positions", "statement": "In every reachable f32 graph different nodes with coordinates up to 2^60 are truly at least (1-2^-20)*2^-23 apart; add_node returns a node truly within (1+2^-20)*2^-23 or appends one; an edge clearly apart from all others is simply appended. Splitting is not guaranteed: two edges with small integer coordinates crossing in general position can stay unsplit, and a node placed exactly on an edge need not split it.", "quantifier": "all histories, all binary32 positions in range", "why_tests_cant": "unbounded histories; 2^64 positions per node", "anchors": ["src/graph/planar_graph.rs: add_node, add_edge, split_edges_at_node, split_edges_along_edge"]}
{"id": "C95", "title": "draw_graph draws the graph", "statement": "On a graph whose edges have valid node indices draw_graph appends one circle per node and then one line per edge, in order, at the node positions and with titles that name the right indices. It panics exactly when some edge has an invalid node index, which cannot happen for graphs built with overflow checks on, but does happen in release after a self-loop and a removal. The program of the example ends with one edge and two nodes in both profiles.", "quantifier": "all graphs, all histories, any number printing", "why_tests_cant": "unbounded graphs and histories", "anchors": ["examples/simple_graph/src/lib.rs: draw_graph, draw"]}
{"id": "C96", "title": "The intersection count of the polygon example", "statement": "For every list of segments the loop of draw draws each segment once and one circle per pair i < j for which the intersection test gives a point, and the count it prints is the number of these pairs; in exact arithmetic these are the pairs of non-parallel segments with a common point. Triangles get their inscribed circle unless degenerate.", "quantifier": "all lists of segments and triangles, any arithmetic", "why_tests_cant": "unbounded lists of real points; the example itself uses random input", "anchors": ["examples/simple_polygons/src/lib.rs: draw"]}
{"id": "C97", "title": "The triangulation drawn by the polygon example", "statement": "The hard-coded polygon is simple, the scaled and moved vertices are computed in f32 without error, triangulate ends and its sixteen triangles tile the polygon. Each triangle is filled once, and for up to 2^20 triangles of any polygon the hues computed in f32 are in [0, 360) and strictly increasing, so no two triangles share a colour.", "quantifier": "the example polygon; all triangle counts up to 2^20", "why_tests_cant": "tiling is a statement about all points of the plane; 2^40 pairs of hues", "anchors": ["examples/simple_polygons/src/lib.rs: draw"]}
{"id": "C98", "title": "Triangulation commutes with translate and uniform_scale", "statement": "In exact arithmetic, for every polygon and every non-zero scale, triangulate ends on the moved or scaled polygon exactly when it ends on the polygon, with the moved or scaled triangles in the same order; diagonal answers alike, and simplicity is preserved. In f32 this fails: moving the dart by (2^26, 0) makes triangulate run forever.", "quantifier": "all polygons, all translations, all non-zero scales", "why_tests_cant": "infinitely many polygons, including ones on which the loop does not end", "anchors": ["src/geometry/polygon.rs: translate, uniform_scale, diagonal, triangulate"]}
{"id": "C99", "title": "Convex polygons are triangulated as a fan", "statement": "A strictly convex counter-clockwise polygon is simple with positive area and new keeps it (and turns around the clockwise listing); diagonal is true exactly for pairs of different non-neighbouring vertices; triangulate ends with the triangles between the last vertex and the edges of the others, in order. The same holds in f32 on a grid (C82) and in clear position (C88), and for regular polygons of any number of sides and any non-zero radius. A polygon of at least four vertices on one line, such as a regular polygon of radius 0, is never triangulated.", "quantifier": "all convex polygons, all numbers of sides, all radii and centres", "why_tests_cant": "infinitely many polygons; one case is non-termination", "anchors": ["src/geometry/polygon.rs: new, regular, diagonal, triangulate"]}
{"id": "C100", "title": "The unit constructors are the basis of the Clifford algebra", "statement": "unit_x, unit_y, unit_z are e1, e2, e3; unit_xy, unit_xz, unit_yz and unit_xyz are their products, the rotor identity is 1 and the zeros are 0. The unit bivectors and the unit trivector are wedge products of unit vectors, and the components of every value are its coefficients in the unit elements.", "quantifier": "all vectors, bivectors and trivectors over any commutative ring", "why_tests_cant": "statement about all values", "anchors": ["src/math/vector.rs: unit_x, unit_y, unit_z", "src/math/bivector.rs: unit_xy, unit_xz, unit_yz", "src/math/trivector.rs: unit_xyz", "src/math/rotor.rs: identity"]}
{"id": "C101", "title": "Planarity over whole histories", "statement": "In exact arithmetic and both build profiles, after every sequence of add_node, add_edge, remove_edge and remove_node calls that starts with the empty graph and does not panic, in which every addition is in general position with respect to the tolerance when it is made (removals are unrestricted), different edges meet only at common end nodes, no node lies on an edge it is not an end of, node positions are distinct, indices are valid and there are no self-loops.", "quantifier": "all histories with additions in general position", "why_tests_cant": "unbounded histories over real coordinates", "anchors": ["src/graph/planar_graph.rs: add_node, add_edge, remove_edge, remove_node, split_edges_at_node, split_edges_along_edge"]}
{"id": "C102", "title": "The graph is the arrangement of the requested segments", "statement": "In exact arithmetic, for every list of requested points and segments (between requested points) in general position: no call fails; the nodes are exactly the requested points, with their data at the returned indices, and the crossings of the segments, once each, with default data; two nodes are joined by an edge with data c if and only if they are on a requested segment with data c and no other node is between them; no two edges join the same nodes.", "quantifier": "all lists of requests in general position", "why_tests_cant": "unbounded lists of requests over real coordinates", "anchors": ["src/graph/planar_graph.rs: add_node, add_edge, split_edges_at_node, split_edges_along_edge"]}
{"id": "C103", "title": "The order of requests does not matter", "statement": "In exact arithmetic, two lists of requests in general position that ask for the same points and segments in different orders (and segments in either direction) give the same graph up to the numbering of nodes and the order and direction of edges: nodes have the same positions, data and labels, edges the same ends and data. Without general position the order matters.", "quantifier": "all pairs of lists of requests in general position", "why_tests_cant": "unbounded lists of requests, all their orders", "anchors": ["src/graph/planar_graph.rs: add_node, add_edge"]}
{"id": "C104", "title": "Numbers of nodes and edges and degrees of the arrangement", "statement": "In exact arithmetic, for every list of requested points and segments in general position: the number of nodes is the number of requested points plus the number of crossings; a segment is drawn by one edge more than there are crossings on it; the number of edges is the number of segments plus twice the number of crossings; number_of_edges_incident_to is 4 at a crossing and the number of requested segments ending there at a requested point.", "quantifier": "all lists of requests in general position", "why_tests_cant": "unbounded lists of requests over real coordinates", "anchors": ["src/graph/planar_graph.rs: add_node, add_edge, number_of_edges_incident_to, node_count, edge_count"]}
{"id": "C105", "title": "The loop of triangulate ends after n - 3 rounds or is stuck", "statement": "In any arithmetic, for every polygon of n >= 4 vertices: either the loop of triangulate runs exactly n - 3 rounds, each cutting off one triangle, and the call returns; or after fewer rounds, each of which removed one vertex, no ear is flagged, every further round leaves the state as it is and the call never returns. A call has at most one outcome.", "quantifier": "all polygons, any arithmetic (including f32 with NaN)", "why_tests_cant": "one of the cases is non-termination; all polygons over any arithmetic", "anchors": ["src/geometry/polygon.rs: triangulate"]}
{"id": "C106", "title": "Laws of the algebra that survive rounding", "statement": "In f32, for all inputs: inner products and the cosine of angle are symmetric bit by bit; exchanging the factors negates the wedge product, so v * u is the reverse of u * v; negating a vector leaves its norm and negates normalize and inverse bit by bit; a rotor and its negative rotate alike; rotating, reflecting or projecting the opposite vector gives the opposite result; reflecting about or projecting on v or -v is the same; for finite operands the identity rotor is neutral. Where not bit by bit, up to the sign of zero.", "quantifier": "all f32 inputs including NaN and infinities (finite ones for the identity)", "why_tests_cant": "2^192 pairs of f32 vectors", "anchors": ["src/math/vector.rs: dot, wedge, norm, normalize, inverse, angle, reflect, project, Mul, Neg", "src/math/rotor.rs: rotate, identity, Mul, Neg"]}
{"id": "C107", "title": "Accuracy of the algebra in f32", "statement": "For f32 values with components up to 2^60: the inner product has an error of at most 2^-22 of the sum of the absolute products, wedge components 3 * 2^-24, and the norms of vectors, bivectors and rotors are within a relative error of 5 * 2^-24 (plus explicit underflow terms). If the norm is at least 2^-40, the components of normalize are within 2^-21 of the true unit value, whose length is within 2^-20 of 1, and rotating a vector with components up to B by a normalised rotor gives the true rotation up to B * 2^-15 in each component. from_vectors of vectors with components up to 2 is within 2^-14 / L of the true rotor, if L, the length of 1 + v.u + v^u, is at least 2^-8.", "quantifier": "all f32 values in the stated ranges", "why_tests_cant": "2^128 rotors times 2^96 vectors; the reference is a real number", "anchors": ["src/math/vector.rs: dot, wedge, norm, normalize", "src/math/bivector.rs: norm, normalize", "src/math/rotor.rs: norm, normalize, rotate, from_vectors"]}
{"id": "C108", "title": "The remaining geometry helpers are accurate in f32", "statement": "For coordinates up to 2^60, find_closest_to on a list that is not empty returns a point no other point is nearer than by more than a factor 1 + 2^-19; close_to decides the threshold 2^-23 up to a factor 1 + 2^-20; a triangle taken for degenerate has one detour within a factor 1 + 2^-19 of the opposite side; a computed incentre is within 2^-19 of the largest coordinate of the true one; if half the perimeter is between 2^-20 and 2^30 and exceeds every side by at least the part theta >= 2^-10 of itself, a circle is found and its radius has relative error at most 2^-17 / theta; calculate_perpendicular_point is within 2^-18 of the largest coordinate of the true foot; a point returned by calculate_line_intersection is within 2^-21 of the first segment.", "quantifier": "all f32 points with coordinates up to 2^60; perimeter at least 2^-40, line through points at least 2^-30 apart", "why_tests_cant": "error bounds over all floats", "anchors": ["src/geometry/utils.rs: find_closest_to", "src/geometry/utils.rs: close_to", "src/geometry/utils.rs: is_degenerate_triangle", "src/geometry/utils.rs: calculate_triangle_incenter", "src/geometry/utils.rs: calculate_perpendicular_point", "src/geometry/utils.rs: calculate_line_intersection"]}
{"id": "C109", "title": "Removing the edge that was just added restores the graph", "statement": "If add_edge only appends an edge between two different nodes, then remove_edge of that edge gives back the old graph.", "quantifier": "all well-formed graphs and pairs of nodes, any arithmetic, both build profiles", "why_tests_cant": "the outcome depends on the edges at both ends of an arbitrary graph", "anchors": ["src/graph/planar_graph.rs: add_edge, remove_edge, remove_node"]}
{"id": "C110", "title": "The graph is made of walks, one for each accepted request", "statement": "After any calls of add_node and add_edge nothing has panicked and the edges of the graph are shared out among the accepted calls of add_edge: each owns a walk between its two nodes, and all edges of the walk carry its data.", "quantifier": "all histories of adding calls, any arithmetic (in particular f32, however its tests err)", "why_tests_cant": "unbounded histories; one point may split several edges of several walks at once", "anchors": ["src/graph/planar_graph.rs: add_node, add_edge, split_edges_at_node, split_edges_along_edge"]}
{"id": "C111", "title": "The f32 drawing follows the requested segments", "statement": "In f32 with coordinates up to 2^60, the walk of a request (C110) with m + 1 edges is at most (1 + 2^-18)^m (L + m 2^-21) long, L being the true distance of its nodes; every point of the walk is near the straight segment and every point of the segment is near the walk, within explicit bounds that follow from this length. Every node is exactly at a requested point or near the segment of a request. In exact arithmetic the length is at most L + m epsilon.", "quantifier": "all histories of adding calls with finite results", "why_tests_cant": "errors accumulate over unbounded histories of rounded crossings and tolerant splits", "anchors": ["src/graph/planar_graph.rs: add_node, add_edge, split_edges_at_node", "src/geometry/utils.rs: is_on_line_segment, calculate_line_segment_intersection"]}
{"id": "C112", "title": "Every node and edge has a provenance", "statement": "After any calls of the four methods that did not panic and never asked for a self-loop: every edge has an empty label, carries the data of an accepted call of add_edge, and its ends arise from the positions the two nodes had at that call by cutting, at most half as often as edge indices have been reported, at node positions that passed is_on_line_segment; every node has an empty label and was added by add_node with its position and data, or has default data and is the computed crossing of such a piece with the segment of an accepted call.", "quantifier": "all histories including removals, both build profiles, any lawful arithmetic including f32", "why_tests_cant": "unbounded histories in which nodes and edges are renumbered, moved and split", "anchors": ["src/graph/planar_graph.rs: add_node, add_edge, remove_edge, remove_node"]}
{"id": "C113", "title": "The f32 drawing stays near the requests when edges and nodes are removed", "statement": "In f32, with n calls of add_edge and requested coordinates up to B, all nodes that ever exist have finite coordinates up to (1 + 2^-21)^n (B + n 2^-149), as long as this is at most 2^60 (for B up to 2^58 and n up to 2^20 it is, and below 2 B + 2^-128). Every point of every edge is near the segment of one accepted request with the data of the edge: the way over it between the ends of the segment is at most (1 + 2^-18)^m (L + m 2^-21) long, where L is the length of the segment and m half the number of reported edge indices. Nodes that were not asked for are almost as near. In exact arithmetic the way is at most L + m epsilon.", "quantifier": "all histories including removals without requests for self-loops", "why_tests_cant": "errors accumulate over unbounded histories", "anchors": ["src/graph/planar_graph.rs: add_node, add_edge, remove_edge, remove_node", "src/geometry/utils.rs: is_on_line_segment, calculate_line_segment_intersection"]}
{"id": "C114", "title": "Scaling by a power of two commutes with the polygon code in f32", "statement": "If s is 2^k or -2^k and all coordinates are zero or of size between 2^-39 and 2^50, before and after multiplication by s, then in f32 uniform_scale is exact; area2, area and center of the scaled input are s^2, s^2 and s times those of the input, exactly; new turns the scaled vertices around if and only if it turns the vertices around; diagonal gives the same answers; triangulate ends on the scaled polygon if and only if it ends on the polygon, with the scaled triangles in the same order. For the factor 0.1 this fails.", "quantifier": "all polygons with such coordinates (up to 2^20 vertices for new and area, 2^24 for center), all factors that are powers of two", "why_tests_cant": "the rounded computation has no closed form; polygons of any size and a loop that may not end", "anchors": ["src/geometry/polygon.rs: uniform_scale, area2, area, center, new, diagonal, triangulate"]}
{"id": "C115", "title": "center, translate and uniform_scale are accurate in f32", "statement": "For 1 to 2^24 vertices with finite coordinates up to B <= 2^60, center is finite and each coordinate is within (n + 2) 2^-24 B + 2^-150 of the mean. Finite coordinates after translate are within 2^-24 of their exact value, after uniform_scale within 2^-24 of it plus 2^-150. The centre may lie outside the polygon: for a flat triangle of positive area it lies below all vertices.", "quantifier": "all polygons with such coordinates", "why_tests_cant": "error bounds over all floats, accumulated over a sum of any length", "anchors": ["src/geometry/polygon.rs: center, translate, uniform_scale"]}
{"id": "C116", "title": "In f32 a drawing with margins becomes the true arrangement", "statement": "A client asks for points and for segments between earlier points, in f32. Let all coordinates be at most B, let requested points and crossings be at least mu apart from each other and from segments they are not on, let no segment contain further requested points, no three segments cross in a point, no segment be requested twice, and let any two segments enclose an angle with a sine of at least theta unless the earlier one is on one side of the line of the later one, mu away from it. If N segments are requested, mu >= 2^-19, B <= 2^21 mu^2, (1024 + 4N) B <= theta and (16 + N) B <= 2^14 theta mu, then the f32 client gets the same indices and replies as a client in exact arithmetic, without panics or errors, the f32 graph has the same edges in the same order, its nodes have the same data and labels, the requested points are exactly in place and the crossings at most (256 + 16N) 2^-24 B / theta away. So the graph is the arrangement of the segments (C102). For coordinates up to 4 this fails.", "quantifier": "all sequences of requests with such margins, all f32 coordinates", "why_tests_cant": "errors accumulate over unbounded sequences of requests; every test of every insertion has to come out right", "anchors": ["src/graph/planar_graph.rs: add_node, add_edge, split_edges_at_node, split_edges_along_edge", "src/geometry/utils.rs: is_on_line_segment, calculate_line_segment_intersection, find_closest_to, unique_points_among"]}
{"id": "C117", "title": "The f32 drawing with margins is planar", "statement": "Under the hypotheses of C116 the f32 graph, drawn with straight segments between its rounded positions, is a planar drawing: different nodes are at different places, different edges have only common end nodes in common, and no edge contains a node other than its ends.", "quantifier": "all sequences of requests with the margins of C116", "why_tests_cant": "rounding moves every crossing off its segments; all pairs of edges of a graph of any size", "anchors": ["src/graph/planar_graph.rs: add_node, add_edge", "src/geometry/utils.rs: is_on_line_segment, calculate_line_segment_intersection"]}
{"id": "C118", "title": "Inverses, projections, reflections, angles and products of rotors are accurate in f32", "statement": "For f32 values with components up to 2^60 and a vector v of length L >= 2^-40: the components of inverse are within 2^-21 / L of those of v / L^2 (with opposite sign for bivectors); project(w, v) is within 2^-20 |w| + 2^-100 of (w.v / v.v) v in each component; reflect is within 2^-17 |w| + 2^-82 of 2 (w.v / v.v) v - w; the argument that angle passes to acos is within 2^-18 of the cosine of the angle. The product of rotors r and s is within 5 * 2^-24 |r| |s| + 2^-147 in each component. A product of a rotor and n <= 2^16 further rotors, all of a length within 2^-20 of 1, computed from left to right without normalising, is within n 2^-20 of the exact product and its length within (n + 1) 2^-18 of 1. All results are finite.", "quantifier": "all f32 values in the stated ranges; chains of up to 2^16 rotors", "why_tests_cant": "2^192 pairs of vectors, chains of rotors of any kind; the reference is a real number", "anchors": ["src/math/vector.rs: inverse, angle, project, reflect", "src/math/bivector.rs: inverse", "src/math/rotor.rs: impl Mul for Rotor3"]}
{"id": "C119", "title": "Rotors from angles and regular polygons are accurate in f32", "statement": "For every implementation of sin and cos within 2^-22 of the true values for arguments up to 8: from_angle_plane with an angle up to 14 and plane components up to 1.1 is within 2^-20 of cos(angle/2) in the scalar and within 2^-19 of -sin(angle/2) plane in the bivector. The polygon regular(n, r, c), 3 <= n <= 2^24, has n finite vertices, and each coordinate is within 2^-19 |r| + 2^-24 |c| + 2^-149 of the vertex of the regular polygon. For n <= 1024, 2^-40 <= |r| <= 2^30 and a centre with coordinates up to 32 |r|, the orientation check of new keeps the order of the vertices: vertex i is within 2^-17 |r| of c + r (cos 2 pi i/n, sin 2 pi i/n).", "quantifier": "all f32 angles, planes, radii and centres in the stated ranges; all numbers of sides; all implementations of sin and cos of that quality", "why_tests_cant": "the standard does not fix sin and cos; all floats and numbers of sides", "anchors": ["src/math/rotor.rs: from_angle_plane", "src/geometry/polygon.rs: regular, new"]}
{"id": "C120", "title": "A caught panic does not corrupt the graph", "statement": "Executed statement by statement on a mutable graph, add_node, add_edge, remove_edge and remove_node return what the functional model says. If remove_node panics the graph is unchanged. If remove_edge panics the graph is unchanged, or exactly the requested edge is gone (only when it is the last edge and both its ends have other edges). Whether add_node and add_edge return or panic, every earlier node keeps its index, position and data. A program that catches every panic and goes on with the same graph only ever sees edges whose two nodes exist: in debug builds always, in release builds if it never calls add_edge(s,s), and then no edge joins a node to itself.", "quantifier": "all graphs and arguments; all sequences of calls with any number of caught panics; any arithmetic, f32 included", "why_tests_cant": "panics in the middle of an update, at any point of a history", "anchors": ["src/graph/planar_graph.rs: add_node, add_edge, split_edges_at_node, split_edges_along_edge, remove_edge, remove_node"]}
{"id": "C121", "title": "In f32 the order of requests does not matter for drawings with margins", "statement": "Two sequences of f32 requests that ask for the same points and the same segments (with the same data, in different orders, segments in either direction) and both keep the margins of C116 give the same graph up to the numbering of nodes, the order and direction of edges, and a move of the crossings by at most twice the bound of C116: data and labels of the nodes agree, the requested points are in the same place, two nodes are joined by an edge with data c in one graph exactly when they are in the other, and there are as many nodes and edges. The f32 graph has one node per requested point and per crossing, one edge per segment and two more per crossing; number_of_edges_incident_to is the number of segments ending at a requested point and 4 at other nodes. The crossings do move: in an example the order changes a coordinate by one unit in the last place.", "quantifier": "all pairs of sequences of requests with the margins of C116", "why_tests_cant": "all orders of unboundedly many requests; rounding differs from order to order", "anchors": ["src/graph/planar_graph.rs: add_node, add_edge, number_of_edges_incident_to, node_count, edge_count", "src/geometry/utils.rs: calculate_line_segment_intersection"]}
{"id": "C122", "title": "parallel in f32", "statement": "In f32 the answer of parallel depends neither on the order of the segments nor on their directions; a segment without length is parallel to nothing; for coordinates up to 2^60 and lengths of at least 2^-40 the number compared with 1 is the cosine of the angle up to 55 * 2^-24, and if the answer is true, the sine of the angle is at most 2^-8.5. The test is not reflexive: the segment from (0, 0) to (1, 4) is not parallel to itself.", "quantifier": "all f32 points (for the symmetry), all segments in range (for the bounds)", "why_tests_cant": "all f32 bit patterns; error bounds over all floats", "anchors": ["src/geometry/utils.rs: parallel"]}
{"id": "C123", "title": "Perpendicular bisectors and Line::contains in f32", "statement": "For a segment that is neither horizontal nor vertical, coordinates and offset up to B <= 2^60 and a perpendicular slope s of size between 2^-40 and 2^40, calculate_perpendicular_bisector returns finite points: the midpoint up to 2^-21 B, and a point within 2^-21 B (first coordinate) and 2^-18 (1 + |s|) B (second coordinate) of the point of the bisector whose first coordinate is offset more than the midpoint's. For a vertical segment the second coordinates of the two points agree exactly; for a horizontal one the second coordinate is not finite. Line::contains accepts every point whose exact area components are at most 2^-23 - 7 * 2^-24 D U and rejects every point with one above 2^-23 + 7 * 2^-24 D U, where D bounds the coordinate differences to the line's point and U the components of the direction; a point exactly on the line but far away can be rejected.", "quantifier": "all f32 inputs in range", "why_tests_cant": "error bounds over all floats", "anchors": ["src/geometry/utils.rs: calculate_perpendicular_bisector", "src/geometry/line.rs: Line::contains"]}
{"id": "C124", "title": "Drawing and erasing in f32 with margins", "statement": "Take any sequence of add_node, add_edge, remove_edge and remove_node calls on an empty graph, with any indices, in which all requested points are among a list P, no edge from a node to itself is requested, and the segments ever drawn have their ends in P and keep the margins of C116 together, including those that were erased in between. Then the f32 calls and the exact calls either panic alike or get the same answers; in the second case the f32 graph has the edges of the exact graph and its nodes up to the bound of C116, every edge is a part of a drawn segment and carries its data, and the f32 graph is a planar drawing. Erasing alone keeps any planar f32 drawing without self-loops planar, with any coordinates. Drawing an erased segment again is not covered: it runs through the node of an old crossing without being split there.", "quantifier": "all sequences of calls whose points and segments keep the margins; all planar f32 graphs for erasing", "why_tests_cant": "additions and removals in any order, comparison with exact arithmetic", "anchors": ["src/graph/planar_graph.rs: add_node, add_edge, remove_edge, remove_node"]}
{"id": "C125", "title": "Which tolerance tests in f32 are exact tests", "statement": "If the computed length of a segment is finite and above 1, is_on_line_segment is true exactly if the computed distances to the two ends add up to the computed length bit for bit and both exceed the tolerance: the tolerance of the sum plays no role. On coordinates that are multiples of 2^-22 (all numbers of size 2 and more, for instance) close_to is true exactly for equal positions, and on multiples of 2^-23 (all of size 1 and more) add_node reuses a node exactly if one is at the requested position, the first such node. Each limit is sharp: segments of length 1, the grid of step 2^-23 for close_to and the one of step 2^-24 for add_node have counterexamples.", "quantifier": "all f32 points on the grid, all well-formed graphs", "why_tests_cant": "equivalence over all floats; the tests only use tolerances that happen to be met", "anchors": ["src/geometry/utils.rs: is_on_line_segment, close_to, find_closest_to", "src/graph/planar_graph.rs: add_node"]}
{"id": "C126", "title": "Crossing streets on the whole-number grid in f32", "statement": "For every horizontal and every vertical segment between points with whole coordinates of size at most 1024 whose interiors cross, calculate_line_segment_intersection in f32 returns a point in both orders of the arguments; the point lies on one of the segments exactly and within 3 * 2^-14 of the other, passes is_on_line_segment for both, and is more than the tolerance away from the four ends. So the graph drawn from the four points and the two segments has one more node and exactly the four pieces, whichever segment comes first. A third segment is not covered: with verticals at 27, 63 and 61 drawn in this order across (0,0)-(105,0), the third crossing becomes a node but the long segment is not split there.", "quantifier": "all whole-number positions and sizes in range, both drawing orders", "why_tests_cant": "every quotient is rounded; the exactness of the sum of the two distances has to be shown for all of them", "anchors": ["src/geometry/utils.rs: calculate_line_segment_intersection, is_on_line_segment", "src/graph/planar_graph.rs: add_node, add_edge, split_edges_along_edge, split_edges_at_node"]}
{"id": "C127", "title": "Plane drawings on a small whole-number grid are kept as they are in f32", "statement": "If all points requested have whole coordinates of a size of at most 2^22 within a square of side 40, no requested segment contains a requested point other than its ends, and different segments meet only in common ends, then the f32 client that adds the points and segments in any valid order never panics, and the graph, the returned indices and all replies are those of a reference without geometry: points with equal coordinates share an index, repeated segments are ignored, everything else is appended; no edge is ever split and no node is invented. is_on_line_segment accepts no whole-number point off such a segment, and the points reported by calculate_line_segment_intersection are exactly the common ends. The bound is close to sharp: at 49, the point (15,16) splits the segment from (0,0) to (46,49).", "quantifier": "for all call sequences with whole coordinates in a 40 by 40 square that ask for a plane drawing, in f32", "why_tests_cant": "The number of drawings on a 41 by 41 grid is astronomical, and is_on_line_segment compares two rounded sums of distances for equality: a wrong acceptance (such as the one at a distance of 49) differs from correct ones by one rounding step, so no sample shows where the safe range ends.", "anchors": ["src/geometry/utils.rs: is_on_line_segment, calculate_line_segment_intersection", "src/graph/planar_graph.rs: add_node, add_edge, split_edges_along_edge, split_edges_at_node"]}
{"id": "C128", "title": "Street maps on a small whole-number grid are exact in f32", "statement": "If every new point has whole coordinates in a square of side 12 (anywhere up to a size of 2^21) and every segment drawn is horizontal or vertical and joins different nodes, then any sequence of add_node, add_edge, remove_edge and remove_node, with any indices, does in f32 exactly what it does in exact arithmetic: the same answers or the same panic, the same edges, and every node exactly at its true position, crossings included. Streets may cross, touch, overlap and be drawn again. calculate_line_segment_intersection finds every whole-number crossing of segments of any directions with spans of at most 12 exactly; is_on_line_segment accepts exactly the inner points of streets. Sharp: over a length of 13 the crossing at (7,0) is found at (7+2^-21,0), and on the diagonal from (0,0) to (7,7) the point (1,1) is rejected. As the comparison is an equality it also transfers defects: a street drawn again over a crossing passes the node there without being split, in exact arithmetic too.", "quantifier": "for all call sequences with whole coordinates in a 12 by 12 square that draw only horizontal and vertical segments, both build profiles", "why_tests_cant": "The claim is an equality of two machines over all histories, one of which computes with real numbers and cannot be run. The safe size is decided by single roundings such as 7/13*13, which a sample of crossings does not meet.", "anchors": ["src/geometry/utils.rs: is_on_line_segment, calculate_line_segment_intersection, unique_points_among", "src/graph/planar_graph.rs: add_node, add_edge, remove_edge, remove_node"]}
{"id": "C129", "title": "Printed f32 numbers read back", "statement": "The text that the format string {} produces for a finite f32 (the only output of coordinates in the project) is a decimal numeral of digits, at most one point and at most one leading minus sign, without exponent. Read as a decimal and rounded to the nearest f32, it gives back the number it was printed from, the sign of zero included. It is as short as possible: at most nine significant digits, no decimal with fewer digits rounds to the number, and none with as many is closer. Different numbers have different texts. Whole numbers of a size below 2^24 are printed like integers; 16777217 is printed as 16777216.", "quantifier": "for all f32 values, NaN and the infinities included where stated", "why_tests_cant": "The claims are about all 2^32 values and compare each text with all shorter decimals.", "anchors": ["examples/simple_polygons/src/shared.rs: svg_polygon, svg_circle, svg_line", "examples/simple_graph/src/shared.rs: svg_main, svg_circle, svg_line"]}
{"id": "C130", "title": "A drawing determines what was drawn", "statement": "The points attribute written by svg_polygon determines the list of points bit for bit, and the elements written by draw_graph determine the positions of all nodes and the index pairs of all edges, for all f32 coordinates: no two different point lists or graphs give the same drawing. The text of the drawing of the example graph is the expected one. With a formatter that drops the sign of zero (Rust before 1.53) two different graphs have the same drawing.", "quantifier": "for all lists of f32 points and all f32 graphs", "why_tests_cant": "Injectivity compares all pairs of inputs.", "anchors": ["examples/simple_polygons/src/shared.rs: svg_polygon, svg_circle, svg_line", "examples/simple_graph/src/lib.rs: draw_graph"]}
{"id": "C131", "title": "The example programs put exactly their drawing on the page", "statement": "On any page with a body, run of the graph example ends normally for every sequence of calls that builds a graph with valid edges: the body gets four more children (heading, svg element, two paragraphs), the svg element gets one circle per node and one line per edge in order, each with its title as its only child and every circle with the click handler that has captured its node index, the console gets one line, and nothing else changes. It never returns an error, and it panics exactly if there is no body, if building the graph panics, or if an edge names a node that does not exist. The polygon example ends normally for all random triangles and segments, with its shapes in order and the true number of crossing pairs in its paragraph; the template adds the heading and an empty drawing. The cast in svg_main drops the fraction and saturates, so the view box is the size of the drawing for whole sizes below 2^24; half a pixel has an empty view box.", "quantifier": "for all pages (any tree of elements), all call sequences, all random inputs, both build profiles", "why_tests_cant": "The browser is not available to the tests, and the claim is about every page and every graph.", "anchors": ["examples/simple_graph/src/lib.rs: run, draw, draw_graph", "examples/simple_graph/src/shared.rs: svg_main, svg_title", "examples/simple_polygons/src/lib.rs: run, draw", "examples/_template/src/lib.rs: run"]}
{"id": "C132", "title": "Clicks on the drawing", "statement": "After run of the graph example on a page whose body is in the document and which has no click handlers and no elements with the ids main and clicked, any sequence of clicks on any elements ends without a panic or error; its only effect is the text of the paragraph clicked, which names the node of the last click on a circle or on its title (clicks on lines, paragraphs and everything else change nothing). Every text assigned to innerHTML by the program is displayed literally: none contains a character reference or the start of a tag, in particular the titles of edges, whose < is always followed by a digit. Running the program twice on one page is not covered: the handlers of the second drawing change the paragraph of the first.", "quantifier": "for all pages without these ids and handlers, all graphs, all click sequences", "why_tests_cant": "Sequences of events on arbitrary pages.", "anchors": ["examples/simple_graph/src/lib.rs: draw_graph"]}
{"id": "C133", "title": "Drawing and erasing on a small whole-number grid", "statement": "Consider a program that addresses points and segments by position: it looks up the indices and calls add_node, add_edge, remove_edge and remove_node. If all positions are whole, of a size of at most 2^22 and in a square of side 40, and the picture stays plane, then in f32 and in both build profiles the graph shows after every session without a panic exactly the picture the edits describe, one node per point and one edge per segment: marking adds the point if there is none, drawing adds the segment if both ends are marked and not joined, erasing a segment takes along the ends where no other segment is left, erasing a point takes its segments and the neighbours left without segments. So the picture does not depend on the order or on detours. Marking and drawing never panic; erasing a point panics exactly if it is marked and isolated; erasing a segment panics only if further segments end at both ends (the side of a triangle drawn last cannot be erased first).", "quantifier": "for all edit sequences on whole-number positions in a 40 by 40 square that keep the picture plane, both build profiles", "why_tests_cant": "Arbitrary interleavings of additions and removals with renumbered indices, compared with a set-level reference.", "anchors": ["src/graph/planar_graph.rs: add_node, add_edge, remove_edge, remove_node"]}
{"id": "C134", "title": "A FOLD file is read according to the JSON grammar", "statement": "serde_json's reader, as from_file uses it, accepts exactly the texts of the JSON grammar (RFC 8259: white space, number tokens, escapes and surrogate pairs, no trailing commas, nothing after the value) and gives each the one tree it stands for. from_file returns a value exactly for texts whose tree is well typed, and panics for all other readable files.", "quantifier": "for all texts", "why_tests_cant": "All character sequences; the grammar is recursive.", "anchors": ["src/fold/fold.rs: Fold::from_file"]}
{"id": "C135", "title": "A FOLD value written as text is read back", "statement": "The compact text that serde_json writes for a tree is a JSON text for this tree, whatever characters its strings contain, and is read back as the same tree. from_file on the text written for a Fold returns the Fold without the four fields of C71 exactly when its coordinates and lengths are finite, and panics otherwise (provided serde_json reads back the floats it writes and writes them with a point or an exponent).", "quantifier": "for all trees and all Fold values", "why_tests_cant": "All strings with all escapes, all nestings.", "anchors": ["src/fold/fold.rs: Fold (serde attributes)", "src/fold/fold.rs: Fold::from_file"]}
{"id": "C136", "title": "A truncated FOLD file is never loaded", "statement": "If from_file loads a file, then on the same file with its end missing it either loads the same value, when only white space is missing, or panics; it never returns a part of the drawing.", "quantifier": "for all files that are loaded and all places to cut them", "why_tests_cant": "All texts and all cut points.", "anchors": ["src/fold/fold.rs: Fold::from_file"]}
{"id": "C137", "title": "file_spec may be any number", "statement": "A file whose file_spec is a number, as the comment on the field says, is loaded.", "quantifier": "for all number tokens", "why_tests_cant": "All number tokens.", "anchors": ["src/fold/fold.rs: Fold (file_spec)"]}
{"id": "C138", "title": "Every finite f32 survives the text of a FOLD file", "statement": "serde_json writes each finite f32 as a JSON number with a point or an exponent, with the fewest digits that determine the number (at most nine) and as near to it as these allow; its reader, which computes in f64 with two roundings and then rounds to f32, returns exactly the same number with the same sign. NaN and the infinities have no text. So from_file on the text of a Fold returns the Fold without the four fields of C71, bit for bit, if its numbers are finite, and panics otherwise.", "quantifier": "for all f32 and all Fold values", "why_tests_cant": "2^32 numbers, and all Fold values; the fast reader is known to be off by one ulp on some decimals, so round trips need an argument for the decimals that the writer produces.", "anchors": ["src/fold/fold.rs: Fold::from_file", "src/fold/fold.rs: Fold (vertices_coords, edges_lengths)"]}
{"id": "C139", "title": "Every number in a file is read as the nearest f32", "statement": "A number in a file below 10^308 is loaded as the f32 nearest to it, ties to even.", "quantifier": "for all number tokens", "why_tests_cant": "Infinitely many tokens; the exceptions are very rare.", "anchors": ["src/fold/fold.rs: Fold::from_file", "src/fold/fold.rs: Fold (vertices_coords, edges_lengths)"]}
{"id": "C140", "title": "Numbers in a file are read accurately", "statement": "The f32 that is loaded for a number in a file, whatever the number of its digits and its exponent, is the one nearest to a real number that differs from the written one by at most one part in 2^50 (and 10^-200). Integers are read exactly rounded. Numbers below 10^308 are never refused, numbers from 10^309 on make the load fail (those between 2^128 and 10^308 silently become infinite, those up to the largest f32 never do). Numbers with a point or an exponent keep their sign.", "quantifier": "for all number tokens with at most 10^9 digits before and after the point", "why_tests_cant": "Infinitely many tokens, with arbitrarily many digits, which are cut off at 64 bits.", "anchors": ["src/fold/fold.rs: Fold::from_file", "src/fold/fold.rs: Fold (vertices_coords, edges_lengths)"]}
{"id": "C141", "title": "What from_file does with every sequence of bytes", "statement": "For every file: from_file returns Err exactly if the file cannot be opened or its bytes are not UTF-8, Ok(x) exactly if the bytes are UTF-8 of a JSON text whose tree is accepted as x, and panics in all other cases. If a file is loaded, the file with its last bytes missing is either loaded as the same value (only white space is missing), or gives Err (the cut is inside a character), or panics (all other cuts); it is never loaded as another value. A file written for a value with finite numbers is loaded as this value (without the four fields of C71), and no proper beginning of it is loaded at all. A file that begins with the byte order mark EF BB BF always panics, whatever text follows.", "quantifier": "for all files (unopenable, or any finite sequence of bytes) and all cuts", "why_tests_cant": "All sequences of bytes and all places to cut them; files of the tests are well formed.", "anchors": ["src/fold/fold.rs: Fold::from_file"]}
{"id": "C142", "title": "Non-finite coordinates split nothing, and the drawing does not leave its square", "statement": "In f32: add_node with a NaN or infinite coordinate appends the node and does nothing else (it is never merged); add_edge with an end at such a node appends the edge and does nothing else; an edge with such an end keeps its slot and ends whatever is added. Computed nodes never have a NaN coordinate unless one was given to add_node. If all coordinates given to add_node are at most 2^k in size (-126 <= k <= 127), so are those of all nodes after any history of additions and removals, the computed crossings included. If they are all smaller than f32::MAX, no node ever becomes infinite; with f32::MAX itself one can.", "quantifier": "for all graphs with valid indices, all positions and all histories of calls, debug and release", "why_tests_cant": "All bit patterns of positions; overflow and rounding at the edge of the drawing need particular coordinates.", "anchors": ["src/graph/planar_graph.rs: add_node", "src/graph/planar_graph.rs: add_edge", "src/geometry/utils.rs: calculate_line_segment_intersection", "src/geometry/utils.rs: is_on_line_segment", "src/geometry/utils.rs: find_closest_to"]}
{"id": "C143", "title": "Mirror images and quarter turns commute with the graph code bit for bit", "statement": "In f32: if all positions of a history of calls are moved by one of the eight symmetries of the square (exchange of the coordinates, change of sign of either), the history panics exactly when the original does; otherwise the edges and all reports of changed indices are the same and every node, computed crossings included, is at the moved position without any rounding error (up to the sign of a zero coordinate). In exact arithmetic this holds for every distance-preserving map of the plane. Whether calculate_line_segment_intersection finds a crossing does not depend on which segment comes first, and is_on_line_segment does not depend on the order of the ends, for all f32 values. The computed point does depend on the order, exchanging the ends of one segment can make a crossing disappear, and translations in f32 can merge nodes.", "quantifier": "for all histories of calls, all f32 values including NaN and infinities, debug and release; all isometries of the plane", "why_tests_cant": "A metamorphic law over pairs of histories and all bit patterns.", "anchors": ["src/graph/planar_graph.rs: add_node", "src/graph/planar_graph.rs: add_edge", "src/graph/planar_graph.rs: remove_edge", "src/graph/planar_graph.rs: remove_node", "src/geometry/utils.rs: calculate_line_segment_intersection", "src/geometry/utils.rs: is_on_line_segment", "src/geometry/utils.rs: find_closest_to", "src/geometry/utils.rs: unique_points_among"]}
{"id": "C144", "title": "The polygon code under affine maps and the symmetries of the square", "statement": "In exact arithmetic, for every affine map of positive determinant (rotation, stretch, shear, translation): the orientation tests are unchanged; for a polygon that lists no vertex twice, diagonal gives the same answers and triangulate ends exactly when it did, with the images of the triangles in the same order; Polygon::new commutes with the map. A map of negative determinant exchanges left and right and makes Polygon::new store the list backwards unless its area is 0. Every affine map multiplies area by the absolute value of the determinant, and invertible ones keep simple polygons simple. In f32 the orientation tests and Polygon::new follow the rotations and reflections of the square and area is unchanged bit for bit; diagonal and triangulate follow the half turn, for all values including NaN and infinities. A repeated vertex breaks the law for quarter turns already in exact arithmetic; in f32 between is not kept by a quarter turn.", "quantifier": "for all polygons and all affine maps (exact); for all f32 polygons and the eight symmetries of the square (f32)", "why_tests_cant": "A metamorphic law over all polygons and maps.", "anchors": ["src/geometry/polygon.rs: area2", "src/geometry/polygon.rs: left", "src/geometry/polygon.rs: left_on", "src/geometry/polygon.rs: collinear", "src/geometry/polygon.rs: between", "src/geometry/polygon.rs: Polygon::new", "src/geometry/polygon.rs: Polygon::area", "src/geometry/polygon.rs: Polygon::diagonal", "src/geometry/polygon.rs: Polygon::triangulate"]}
{"id": "C145", "title": "Sizes of the graph and lengths of the reports", "statement": "For any arithmetic, f32 included, and every graph whose edges refer to existing nodes: add_node creates at most one node, splits each edge into at most two pieces, and reports exactly two indices per split edge. add_edge creates at most as many nodes as there are drawn edges on which a crossing is computed (k), and reports exactly these; the number of edges grows by one for the new edge and one per splitting, two indices are reported per splitting, or just the new edge if nothing was split; the number of edges is at most doubled k times. If remove_node returns, exactly the edges of the node are gone and between one and 1 + degree nodes; if remove_edge returns, exactly one edge is gone and at most two nodes. In exact arithmetic n requested points and m requested segments in general position give at most n + m(m-1)/2 nodes and m^2 edges.", "quantifier": "for all graphs, positions and indices; for all lists of requests in general position", "why_tests_cant": "Counting identities over all graphs; the worst cases need many coincident crossings.", "anchors": ["src/graph/planar_graph.rs: add_node", "src/graph/planar_graph.rs: add_edge", "src/graph/planar_graph.rs: remove_edge", "src/graph/planar_graph.rs: remove_node", "src/graph/planar_graph.rs: split_edges_at_node", "src/graph/planar_graph.rs: split_edges_along_edge"]}
{"id": "C146", "title": "The algebra does not depend on the axes", "statement": "For every linear map of space that keeps lengths, rotations and reflections alike, acting on vectors, and on planes and volumes by its minors and its determinant: in exact arithmetic dot products, norms and angles are unchanged, and wedge and geometric products of all grades, rotate, normalize, inverses, project, reflect, from_vectors and from_angle_plane give the moved result for moved arguments. In f32 the same holds for the reversal of any of the axes without any rounding error (up to the sign of a zero, NaN and infinities included), for all of these except from_angle_plane and the final acos of angle; it does not hold for the exchange of two axes.", "quantifier": "for all orthogonal maps and all arguments (exact); for all eight reversals of axes and all f32 arguments (f32)", "why_tests_cant": "A metamorphic law over all maps and all bit patterns.", "anchors": ["src/math/vector.rs: Vector3", "src/math/bivector.rs: Bivector3", "src/math/trivector.rs: Trivector3", "src/math/rotor.rs: Rotor3::rotate", "src/math/rotor.rs: Rotor3::from_vectors", "src/math/rotor.rs: Rotor3::from_angle_plane", "src/math/rotor.rs: Mul for Rotor3"]}
{"id": "C147", "title": "The order in which nodes and edges are erased does not matter", "statement": "On a graph without self-loops and without two edges joining the same nodes, after any calls of remove_node and remove_edge that do not panic, exactly these edges are left, with their data, labels and end nodes: those not erased, of whose end nodes none was erased; and exactly these nodes, in the old order: those not erased that had no edge in the first place or still have one. So two series of calls that erase the same nodes and edges in different orders leave the same nodes with the same numbers and the same edges, at most in different slots. Whether a series panics may depend on the order.", "quantifier": "for all such graphs, all series of removals of any length, both build profiles and all arithmetics", "why_tests_cant": "Each call renumbers the nodes, moves edges to other slots and deletes nodes nobody asked for; the claim is about all interleavings.", "anchors": ["src/graph/planar_graph.rs: remove_node, remove_edge"]}
{"id": "C148", "title": "A drawing can be cleared", "statement": "On every graph with valid indices and without self-loops, calling remove_edge(0) once for every edge never panics, in debug and release builds, and leaves no edge and exactly the nodes that had no edge, in the old order. Nodes without edges survive every series of removals that does not panic.", "quantifier": "for all such graphs of any size, both build profiles, all series of removals", "why_tests_cant": "remove_edge panics for other slots depending on the graph (C61); the claim is about all graphs and a number of calls that is not bounded.", "anchors": ["src/graph/planar_graph.rs: remove_edge, remove_node"]}
{"id": "C149", "title": "The set of points drawn is right without general position", "statement": "In exact arithmetic, for every list of requests whose requested points and crossings are farther than the tolerance from each other and from the segments they are not on: no call panics or fails, every requested point is a node at the returned index, every edge is part of a requested segment and carries its data, and a point is on an edge exactly when it is on a requested segment. Segments may pass through points, meet three at a point, overlap, repeat, or be points. If parallel segments meet only in their ends, the nodes are exactly the requested points and the crossings, and edges meet only in nodes. The order of the requests does not matter for the points drawn.", "quantifier": "for all lists of requests of any length that are clear up to the tolerance, all data", "why_tests_cant": "The degenerate cases are a set of measure zero that random tests never hit, and the claim is about infinitely many points of drawings of any size.", "anchors": ["src/graph/planar_graph.rs: add_node, add_edge, split_edges_at_node, split_edges"]}
{"id": "C150", "title": "Three segments through a point are never drawn as a planar graph", "statement": "In exact arithmetic, for requests as in C149 in which parallel segments meet only in their ends and no segment is a point: if a segment passes through a point that two segments requested before contain, the three in different directions, the graph is not planar, because a node lies inside an edge, and no later request repairs it. Hence three segments crossing in a point inside all of them never become a planar graph, in any order of the requests.", "quantifier": "for all such lists of requests of any length and in any order", "why_tests_cant": "Whether a node is split off depends on how many edges meet there when the segment is added; tests of single calls do not show that no order of requests works.", "anchors": ["src/graph/planar_graph.rs: add_node, add_edge, split_edges_at_node, split_edges"]}
{"id": "C151", "title": "Which requests give a planar drawing", "statement": "In exact arithmetic, for requests as in C149 in which parallel segments meet only in their ends and no segment is a point, whether the drawing is planar is decided at every point separately, by the requests that concern the point and their order. A node ends up inside an edge exactly at the points that are requested and then passed by the only segment through them, at the points passed by a segment that is at least the third to contain them, and at the points that are passed by both of the first two segments containing them and are first requested between these two. If there is no such point the drawing is planar: different edges meet only in common end nodes and no node is on an edge it is not an end of. So a segment ending on another one is drawn right in every order, and a requested crossing of two segments exactly when the point is not first requested between them.", "quantifier": "for all such lists of requests of any length and in any order, and all points of the plane", "why_tests_cant": "The outcome depends on the order of all requests around a point, including later ones that repair earlier failures; tests sample a few orders and cannot show that the list of failures is complete.", "anchors": ["src/graph/planar_graph.rs: add_node, add_edge, split_edges_at_node, split_edges", "src/geometry/utils.rs: unique_points_among"]}
{"id": "C152", "title": "Without the failures of C151 the graph is the arrangement of the requested segments", "statement": "In exact arithmetic, for requests as in C151 without the failures described there (segments may end on each other, meet in common ends and cross in requested points): the nodes are exactly the requested points and the crossings; two points are joined by an edge with data c exactly when both are on a requested segment with data c and no node is between them, and then by one edge only. There is one node for every point and crossing and one edge for every segment and every point or crossing on it other than its first end. The result does not depend on the order of the requests: two such lists with the same points and segments give the same places, edges and data.", "quantifier": "for all such lists of requests of any length and in any order, all pairs of points and all data", "why_tests_cant": "C102 says this in general position only; crease patterns are not in general position, and there are infinitely many drawings and orders.", "anchors": ["src/graph/planar_graph.rs: add_node, add_edge, split_edges_at_node, split_edges", "src/geometry/utils.rs: unique_points_among"]}
{"id": "C153", "title": "The graph of all requests without general position, planar or not", "statement": "In exact arithmetic, for requests as in C151, also with the failures described there: the nodes are exactly the requested points and the crossings; two points are joined by an edge with data c exactly when they are neighbours among the points that divide a requested segment with data c, and then by one edge only. The ends of a segment divide it. A point or crossing inside a segment divides it except in two cases: the point is skewered in the end (requested first, and this is the only segment through it), or the segment is late (when it was requested, the edges at the point had all been divided there already or another late segment had passed). There is one edge for every segment and every point that divides it other than its first end.", "quantifier": "for all such lists of requests of any length and in any order, all pairs of points and all data", "why_tests_cant": "Which segments stay undivided depends on the whole history at each point; tests sample a few histories and cannot show that no other edge is missing or left over.", "anchors": ["src/graph/planar_graph.rs: add_node, add_edge, split_edges_at_node, split_edges", "src/geometry/utils.rs: unique_points_among"]}
{"id": "C154", "title": "Degrees of the nodes without general position", "statement": "In exact arithmetic, for requests as in C153: number_of_edges_incident_to gives for every node the number of requested segments that end there plus twice the number of segments that are divided there. So without the failures of C151 every segment through a node counts once if it ends there and twice if it passes, and a node that was requested and then passed by its only segment has no edges at all.", "quantifier": "for all such lists of requests of any length and in any order, and all nodes", "why_tests_cant": "C104 gives the degrees in general position, where they are 4 or the number of ends; here any number of segments may meet in a node, and the history decides which are divided.", "anchors": ["src/graph/planar_graph.rs: number_of_edges_incident_to, add_node, add_edge, split_edges_at_node, split_edges", "src/geometry/utils.rs: unique_points_among"]}
{"id": "C155", "title": "An order of drawing in which nothing fails", "statement": "In exact arithmetic, for segments that are not points, meet only in their ends if they are parallel, and of which at most two pass through any point, with points and crossings clear up to the tolerance: requesting first the ends, then the segments in an order where no segment passes an end of an earlier one (long creases before the ones that end on them), then any other points gives a planar drawing, and it is the arrangement of the segments as in C152. With the segments in any order, and any number of them through a point, the drawing is planar exactly when every segment is, at every point it passes, one of the first two segments through the point. In the opposite order a long segment can stay undivided where two others end on it, also in f32.", "quantifier": "for all such lists of segments and points of any length", "why_tests_cant": "C151 says which orders work but not how to find one; there are infinitely many drawings, and a drawing with n segments has n! orders.", "anchors": ["src/graph/planar_graph.rs: add_node, add_edge, split_edges_at_node, split_edges", "src/geometry/utils.rs: unique_points_among"]}
{"id": "C156", "title": "Which drawings can be drawn at all", "statement": "In exact arithmetic, with points and crossings clear up to the tolerance, segments that are not points and parallel segments that meet only in their ends: in whatever order points and segments are requested, if the drawing is planar then every segment is, at every point it passes, one of the first two segments through the point. If some requests give a planar drawing, then requesting the ends first, then the segments in the same order, then all points gives a planar drawing too, and it is the same: nodes at the same places, edges between the same places with the same data. So given segments and points can be drawn planarly by some requests if and only if the segments have an order in which each is, at every point it passes, one of the first two through the point. With the ends first every order of the segments works if and only if every point that a segment passes is on at most two segments. If at most two segments pass through any point and every segment that passes an end of another has a smaller number than that one, the segments sorted by these numbers give a planar drawing.", "quantifier": "for all lists of requests, all finite sets of segments and points and all orders of them", "why_tests_cant": "impossibility in every order of requests, including repeated points, cannot be observed by running some of the orders; there are infinitely many lists of requests for the same drawing.", "anchors": ["src/graph/planar_graph.rs: add_node, add_edge, split_edges_at_node, split_edges", "src/geometry/utils.rs: unique_points_among"]}
{"id": "C157", "title": "The f32 graph of a street map", "statement": "In f32, for points with whole coordinates in a square of side 12 (anywhere up to a size of 2^21) and horizontal or vertical segments between them that are not points, requested in any order: the calls do not panic; nodes are at different places; every requested point is exactly at the node returned for it and every other node exactly at a crossing; the edges cover exactly the streets, also where streets overlap or are drawn twice, and carry the data of a street they lie on. If parallel streets meet only in their ends, the graph is a planar drawing exactly when no point ends up skewered or broken in the sense of C151, and then it is the arrangement of the streets: nodes exactly at the points and crossings, edges between neighbours on a street with its data, no double edges. In a planar drawing every street is, at every point it passes, one of the first two streets through the point; with the ends requested first this is enough, and the drawing is planar exactly when no street passes the common end of two streets drawn before it. The numbers of nodes and edges are then the number of points and crossings and the number of pairs of a street and a point or crossing on it other than its first end, and two planar requests for the same points and streets, in any order, give the same nodes and edges. A street that is drawn last through the common end of two others stays whole. No condition on distances or tolerances is needed.", "quantifier": "for all lists of requests of a street map in a 12 by 12 square of whole numbers, in f32", "why_tests_cant": "There are astronomically many street maps, and the failures depend on the order of the calls; the statement is about the drawn set of points in the plane, not about some sample of it.", "anchors": ["src/graph/planar_graph.rs: add_node, add_edge, split_edges_at_node, split_edges", "src/geometry/utils.rs: is_on_line_segment, calculate_line_segment_intersection, unique_points_among"]}
