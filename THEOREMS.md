# Index of the theorems

Written by tools/gen_index.py from properties.jsonl, MANIFEST.json and the doc comments.

## C01 Vector * vector is the geometric product

Status: proved.

- `C01_vector_mul_vector` (Verif/GA/Clifford.lean:95). C01: `u * v` is the geometric product.
- `C01_dot_plus_wedge` (Verif/GA/Clifford.lean:127). C01: the scalar and the bivector part separately: `uv = u·v + u∧v`.
- `C01_unique` (Verif/GA/Clifford.lean:281). C01: over the reals `u * v` is the only rotor representing the Clifford product.

## C02 Mixed-grade products are the geometric product

Status: proved.

- `C02_vector_mul_bivector` (Verif/GA/Clifford.lean:100). C02: vector * bivector.
- `C02_bivector_mul_bivector` (Verif/GA/Clifford.lean:106). C02: bivector * bivector.
- `C02_rotor_mul_vector` (Verif/GA/Clifford.lean:111). C02: rotor * vector.
- `C02_rotor_mul_rotor` (Verif/GA/Clifford.lean:117). C02: rotor * rotor.
- `C02_trivector_mul_trivector` (Verif/GA/Clifford.lean:122). C02: trivector * trivector.
- `C02_bivector_wedge_vector` (Verif/GA/Clifford.lean:133). C02: `B.wedge(u)` is the trivector part of the geometric product of a bivector and a vector.
- `C02_bivector_dot_wedge` (Verif/GA/Clifford.lean:140). C02: `dot` and `wedge` of two bivectors are the scalar and the bivector part of their product.
- `C02_trivector_dot` (Verif/GA/Clifford.lean:146). C02: `dot` of two trivectors is their (scalar) product.
- `C02_unique` (Verif/GA/Clifford.lean:286). C02: over the reals the product operators are determined by the Clifford product.

## C03 Products of rotors compose rotations

Status: proved.

- `C03_rotate_mul` (Verif/GA/Algebra.lean:146). C03: the right factor acts first.
- `C03_mul_assoc` (Verif/GA/Algebra.lean:150). C03: associativity.
- `C03_identity` (Verif/GA/Algebra.lean:154). C03: `identity()` is a two-sided unit and rotates nothing.

## C04 A unit rotor is a rotation

Status: proved.

- `C04_rotate_linear` (Verif/GA/Algebra.lean:166). C04: linearity.
- `C04_rotate_dot` (Verif/GA/Algebra.lean:171). C04: inner products are multiplied by `|R|^4`.
- `C04_rotate_det` (Verif/GA/Algebra.lean:177). C04: signed volumes are multiplied by `|R|^6`.
- `C04_unit_rotor` (Verif/GA/Algebra.lean:188). C04: a unit rotor preserves inner products (hence lengths and angles) and signed volumes (handedness).
- `C04_norm_mul` (Verif/GA/Algebra.lean:201). norms of rotors multiply, so unit rotors are closed under composition
- `C04_rotate_sandwich` (Verif/GA/Clifford.lean:201). C04: `rotate` is the sandwich product `R u R†`.
- `C04_inverse_is_reverse` (Verif/GA/Clifford.lean:207). C04: `inverse()` of a rotor is the reversion of the Clifford algebra.

## C05 from_vectors(u, v) rotates u onto v

Status: partial. Exact condition (C05_exact): u is rotated onto v if and only if u = v, or both are unit vectors and not opposite; up to length (C05_exact_direction) if and only if the directions agree already, or the lengths multiply to 1 and the directions are not opposite. C05_counterexample_length and C05_counterexample_opposite are instances of failure.

- `C05_exact` (Verif/GA/FromVectors.lean:60). C05, exactly: `from_vectors(u, v)` rotates `u` onto `v` if and only if `u` and `v` are equal, or are unit vectors that are not opposite.
- `C05_exact_direction` (Verif/GA/FromVectors.lean:151). C05, exactly, up to length: for non-zero vectors, `from_vectors(u, v)` turns `u` into the direction of `v` if and only if `u` already has that direction, or the product of the two lengths is 1 and the directions are not opposite.
- `C05_from_vectors_general` (Verif/GA/Rotations.lean:48). What `from_vectors` computes for all vectors: it rotates `u` to `((1 - |u|²|v|²) u + 2|u|²(1 + u·v) v) / (1 + 2 u·v + |u|²|v|²)`.
- `C05_from_vectors_partial` (Verif/GA/Rotations.lean:71). C05, partial: for unit vectors that are not opposite, the rotor is a unit rotor, rotates `u` onto `v`, and fixes every vector orthogonal to both. Missing from the full claim: vectors that are not of unit length (`C05_counterexample_length`) and opposite vectors (`C05_counterexample_opposite`).
- `C05_counterexample_length` (Verif/GA/Rotations.lean:133). C05 fails for vectors that are not of unit length, even if they are equally long: `(2,0,0)` is not rotated onto `(0,2,0)`, nor onto any multiple of it.
- `C05_counterexample_opposite` (Verif/GA/Rotations.lean:147). C05 fails for opposite unit vectors: every component of the rotor is NaN.

## C06 from_angle_plane rotates by the given angle

Status: proved.

- `C06_unit` (Verif/GA/Rotations.lean:182). C06: `from_angle_plane(t, B)` for a unit bivector `B` is a unit rotor.
- `C06_rotates_plane` (Verif/GA/Rotations.lean:207). C06: rotation by angle `t` in the plane of the unit bivector `B`: the part of `u` orthogonal to the plane is kept, the part in the plane is turned by `t` in the orientation of `B`. `p` is the in-plane part of `u` (`p ∧ B = 0` and `u - p` is orthogonal to the plane, i.e. the vector part of `(u - p) B` vanishes), and the vector part of `p B` is `p` turned by a right angle.
- `C06_coordinate_planes` (Verif/GA/Rotations.lean:241). C06: the coordinate-plane constructors turn the first axis of the plane towards the second by `t`, the second towards the negative first, and fix the third axis.
- `C06_angles_add` (Verif/GA/Rotations.lean:273). C06: rotors of one plane multiply by adding angles, and `inverse` is the rotor of the opposite angle.

## C07 Vector, bivector and trivector inverses are two-sided

Status: proved.

- `C07_vector_inverse` (Verif/GA/Metric.lean:16). C07: `u⁻¹u = uu⁻¹ = 1` for every non-zero vector.
- `C07_bivector_inverse` (Verif/GA/Metric.lean:27). C07: the same for bivectors.
- `C07_trivector_inverse` (Verif/GA/Metric.lean:38). C07: the same for trivectors.

## C08 Rotor inverse is an inverse

Status: partial. Rotor3::inverse is the reverse without division by the squared norm: an inverse exactly for unit rotors; C08_counterexample.

- `C08_inverse_mul_partial` (Verif/GA/Algebra.lean:213). C08, partial: `R.inverse() * R` and `R * R.inverse()` are the scalar `|R|²`; it is the identity exactly for unit rotors. The full claim (for every non-zero rotor) is false, see `C08_counterexample`.
- `C08_counterexample` (Verif/GA/Algebra.lean:223). C08 fails as documented: the rotor `2` has `R⁻¹R = 4`.
- `C08_unit_rotor_undo_partial` (Verif/GA/Algebra.lean:228). unit rotors: `inverse` undoes the rotation

## C09 normalize yields unit norm, and NaN for zero

Status: proved.

- `C09_normalize` (Verif/GA/Metric.lean:66). C09: normalising a non-zero value divides it by its (positive) norm and the result has norm 1.
- `C09_normalize_zero` (Verif/GA/Metric.lean:121). C09: normalising zero gives NaN in every component.
- `C09_normalize_zero_f32` (Verif/GA/Ops.lean:171). C09 on `f32`: normalising the zero value gives NaN in every component.

## C10 Norms measure length, area and volume

Status: proved.

- `C10_norm_nonneg` (Verif/GA/Metric.lean:137). C10: norms are non-negative and zero only for zero.
- `C10_wedge_area` (Verif/GA/Metric.lean:150). C10: Lagrange's identity: the squared area of `u ∧ v`.
- `C10_volume` (Verif/GA/Metric.lean:155). C10: `u ∧ v ∧ w` is the determinant, and its norm the volume.
- `C10_symmetries` (Verif/GA/Metric.lean:170). C10: `wedge` is alternating, `dot` symmetric; a trivector wedged with a trivector is zero.
- `C10_wedge_eq_zero` (Verif/GA/Metric.lean:182). C10: the wedge of two vectors vanishes exactly when they are parallel.

## C11 reflect is reflection about v

Status: proved.

- `C11_reflect` (Verif/GA/Metric.lean:217). C11: `u.reflect(v) = 2 (u·v / v·v) v - u`, and the trivector part that the code drops is zero.
- `C11_reflect_properties` (Verif/GA/Metric.lean:224). C11: reflecting twice is the identity, lengths are kept, multiples of `v` are fixed, vectors orthogonal to `v` are negated.

## C12 project is orthogonal projection

Status: proved.

- `C12_project` (Verif/GA/Metric.lean:256). C12: `u.project(v)` is `(u·v / v·v) v`; the rest is orthogonal to `v`; projecting again changes nothing.

## C13 angle is the angle

Status: partial. All exact-arithmetic clauses proved; the f32 clause is false: (4,1,0).angle((4,1,0)) is NaN (C13_counterexample_f32).

- `C13_angle_partial` (Verif/GA/Metric.lean:327). C13, partial: in exact arithmetic the angle of two non-zero vectors is a number in `[0, π]` with `|u||v| cos(angle) = u·v`, symmetric, and unchanged by positive scaling. Missing: the claim that an f32 computation never returns NaN is false (`C13_counterexample_f32`).
- `C13_counterexample_f32` (Verif/GA/Ops.lean:180). C13 fails in `f32`: the vector (4, 1, 0) makes an angle with itself whose cosine is computed as a number above 1, so that every arc cosine following IEEE-754 (NaN outside [-1, 1]) returns NaN.

## C14 dot and wedge are the halves of the geometric product

Status: proved.

- `C14_halves` (Verif/GA/Metric.lean:277). C14: `(uv + vu)/2 = u·v` and `(uv - vu)/2 = u∧v`.

## C15 Compound assignment and zero agree with the plain operators

Status: proved.

- `C15_assign` (Verif/GA/Ops.lean:17). C15: compound assignment equals the plain operator, for any scalar type whatsoever.
- `C15_componentwise` (Verif/GA/Ops.lean:26). C15: what the plain operators are, componentwise, for any scalar type.
- `C15_zero` (Verif/GA/Ops.lean:40). C15: `zero()` is neutral in any additive monoid, and `is_zero()` recognises exactly `zero()` when the component type's does.
- `C15_zero_f32` (Verif/GA/Ops.lean:85). C15 on `f32`: `zero()` is neutral for `+` with respect to `==` for values without NaN components, and `is_zero` holds exactly of the values `== zero()`.

## C16 Approximate equality is componentwise, reflexive and symmetric

Status: proved.

- `C16_componentwise` (Verif/GA/Ops.lean:99). C16: the comparisons hold exactly when they hold for every component (for every comparison of components).
- `C16_symmetric` (Verif/GA/Ops.lean:140). C16: on `f32` all three comparisons of all four types are symmetric, whatever the values and tolerances.
- `C16_reflexive` (Verif/GA/Ops.lean:154). C16: on finite `f32` values they are reflexive.

## C17 number_of_basis_blades returns binomial coefficients

Status: proved.

- `C17_number_of_basis_blades` (Verif/Blade/Theorems.lean:131). C17: whatever `number_of_basis_blades` returns for `k ≥ 1` with overflow checks on is a binomial coefficient.

## C18 number_of_basis_blades is total on 0 <= k <= n

Status: partial. Exact condition with overflow checks on (C18_exact): returns n choose k if and only if 1 <= k <= n and the falling factorial fits, or k = n+1 and k! fits; panics in every other case, for k = 0 wrongly (C18_counterexample).

- `C18_exact` (Verif/Blade/Exact.lean:60). **C18, exactly** (overflow checks on). `number_of_basis_blades(n, k)` returns `n choose k` if and only if `1 ≤ k`, and either `k ≤ n` and the falling factorial of `n` of length `k` fits in `usize`, or `k = n + 1` and `k!` fits; in every other case it panics.
- `C18_total_partial` (Verif/Blade/Theorems.lean:163). C18, partial: for `1 ≤ k ≤ n` the function returns `n choose k` as soon as the falling factorial fits in `usize` (in either profile), and with overflow checks on it panics otherwise. Missing: the case `k = 0`, where the claim is false (`C18_counterexample`).
- `C18_counterexample` (Verif/Blade/Theorems.lean:203). C18 fails at `k = 0`: the call divides by `factorial(0)`, which the code computes as 0, for every `n`, in both profiles; the number of basis 0-blades is 1.
- `C18_beyond` (Verif/Blade/Theorems.lean:210). Beyond `k = n + 1` the subtraction `n - i` underflows with overflow checks on.

## C19 total_number_of_basis_blades is 2^dim

Status: partial. Exact condition with overflow checks on (C19_exact): right if and only if dim < 2^32 or the low 32 bits of dim are at least 64 (C19_counterexample: 2^32, because of the truncating cast).

- `C19_exact` (Verif/Blade/Exact.lean:143). **C19, exactly** (overflow checks on). `total_number_of_basis_blades(dim)` does what it should - return `2^dim` when that fits, panic otherwise - if and only if `dim < 2^32` or the 32 low bits of `dim` make a number of at least 64.
- `C19_total_partial` (Verif/Blade/Theorems.lean:231). C19, partial: for `dim < 64` the result is `2^dim`, in both profiles; for `64 ≤ dim < 2^32` the call panics with overflow checks on. Missing: from `2^32` on the claim is false (`C19_counterexample`), because `dim as u32` drops the high bits.
- `C19_counterexample` (Verif/Blade/Theorems.lean:242). C19 fails for `dim = 2^32`: the call returns 1.
- `C19_sum` (Verif/Blade/Theorems.lean:250). C19: the total is one scalar plus the numbers of basis k-blades for `1 ≤ k ≤ dim`, for all dimensions in which these calls do not overflow.

## C20 Line::contains accepts the points of the line

Status: proved. Proved in exact arithmetic as stated; additionally the exact meaning of the f32 test, and an f32 counterexample showing that rounding breaks the first half.

- `C20_contains_iff_f32` (Verif/Geom/LineTheorems.lean:103). C20 (second half, on f32 itself): a point is accepted exactly when each component of `(x - p) ∧ u`, as computed, is at most `f32::EPSILON` in absolute value.
- `C20_contains_exact` (Verif/Geom/LineTheorems.lean:112). C20, exact arithmetic: every point `p + t u` is accepted, and an accepted point spans with `u` an area whose components are at most `2^-23`.
- `C20_counterexample_f32` (Verif/Geom/LineTheorems.lean:142). C20 on f32: the points `p + t u` as computed in f32 are not always accepted; here `p = (1/5, 1/10, 0)`, `u = (1, 1, 0)`, `t = 4`.

## C21 Line::intersect finds the common point

Status: partial. Refuted: Line::intersect always returns None (C21_counterexample); there is nothing left to prove.

- `C21_counterexample` (Verif/Geom/LineTheorems.lean:149). C21 fails: `intersect` returns `None` for all lines, although, for instance, the two coordinate axes meet in the origin.

## C22 left / left_on / collinear are the orientation tests

Status: proved.

- `C22_orientation` (Verif/Geom/Predicates.lean:62). C22: `left`, `collinear` and `left_on` are the sign of the orientation determinant.
- `C22_trichotomy` (Verif/Geom/Predicates.lean:68). C22: exactly one of left of `ab`, on the line, left of `ba`; `left_on` is left or on the line.
- `C22_invariance` (Verif/Geom/Predicates.lean:87). C22: invariance under cyclic rotation and translation; a swap of two points mirrors the test.
- `C22_collinear` (Verif/Geom/Predicates.lean:109). C22: for distinct `a`, `b`: `collinear(a, b, c)` exactly when `c` is on the line through `a` and `b`.

## C23 Swapping the last two arguments mirrors left, even in f32

Status: proved.

- `C23_swap_f32` (Verif/Geom/Predicates.lean:132). C23: on f32, with NaN, infinities and rounding, swapping the last two arguments of `area2` negates it exactly, up to the sign of zero; hence the two strict tests are never both true.
- `C23_cyclic_fails_f32` (Verif/Geom/Predicates.lean:156). In f32 the other invariances do fail: `left` is not invariant under cyclic rotation of its arguments.

## C24 between decides membership in the closed segment

Status: partial. Exact condition (C24_exact): true if and only if the point is on the closed segment, or the segment is a single point and the point is at its height (C24_counterexample); so it is right for segments with distinct end points and never answers false wrongly (C24_complete).

- `C24_exact` (Verif/Geom/IntersectExact.lean:41). C24, exactly: `between a b c` answers `true` if and only if `c` lies on the closed segment, or the segment is a single point and `c` lies at its height.
- `C24_between_partial` (Verif/Geom/Predicates.lean:180). C24, partial: for a segment with distinct end points, `between` decides membership in the closed segment. Missing: for `a = b` the claim is false, see `C24_degenerate`.
- `C24_degenerate` (Verif/Geom/Predicates.lean:221). C24 for a degenerate segment `a = b`: `between` compares only the y coordinates, so it accepts every point at the height of `a`.
- `C24_counterexample` (Verif/Geom/Predicates.lean:236). C24 counterexample: the point (5, 0) is accepted as lying on the segment from (0, 0) to (0, 0).
- `C24_complete` (Verif/Geom/Predicates.lean:240). In every case the end points are accepted and membership implies `between`.

## C25 intersect_prop decides proper crossing

Status: proved.

- `C25_intersect_prop` (Verif/Geom/Predicates.lean:425). C25: `intersect_prop` holds exactly when the segments meet in exactly one point and that point is interior to both.
- `C25_symmetric` (Verif/Geom/Predicates.lean:462). C25: symmetric in the two segments and in the orientation of each.

## C26 intersect decides whether closed segments meet

Status: partial. Exact condition (C26_exact): true if and only if the segments have a common point, or one is a single point and an end of the other is at the same height. So it is right for segments with distinct end points and never answers false wrongly; C26_counterexample is a wrong true answer.

- `C26_exact` (Verif/Geom/IntersectExact.lean:51). C26, exactly: `intersect` answers `true` if and only if the two segments have a common point, or one of them is a single point and an end point of the other lies at the same height.
- `C26_complete` (Verif/Geom/Predicates.lean:555). C26, completeness: segments with a common point are always reported, degenerate or not.
- `C26_intersect_partial` (Verif/Geom/Predicates.lean:581). C26, partial: for segments with distinct end points, `intersect` decides whether the closed segments have a common point. Missing: for a degenerate segment it may answer `true` wrongly (`C26_counterexample`), never `false` wrongly (`C26_complete`).
- `C26_counterexample` (Verif/Geom/Predicates.lean:600). C26 counterexample: the degenerate segment at (0, 0) is reported to meet the segment from (5, 0) to (6, 1).

## C27 Polygon::new keeps the vertices and makes them counter-clockwise

Status: proved.

- `C27_new_vertices` (Verif/Geom/PolygonBasics.lean:84). C27, any arithmetic: construction fails exactly for fewer than three vertices, and otherwise keeps the vertices, in the given or in the reversed order.
- `C27_new_ccw` (Verif/Geom/PolygonBasics.lean:105). C27, exact arithmetic: the stored order is counter-clockwise (non-negative shoelace sum), it is the given one exactly when that was not clockwise, and building again changes nothing.

## C28 area is the shoelace area

Status: proved.

- `C28_area` (Verif/Geom/PolygonBasics.lean:134). C28: `area` is half the absolute shoelace sum over all edges.
- `C28_area_invariant` (Verif/Geom/PolygonBasics.lean:138). C28: it does not depend on the vertex listed first nor on the orientation.
- `C28_area_of_new` (Verif/Geom/PolygonBasics.lean:143). C28 at the API: the area of the polygon built from a vertex list is half the absolute shoelace sum of that list.

## C29 translate and uniform_scale transform area and orientation correctly

Status: proved.

- `C29_area_orientation` (Verif/Geom/PolygonBasics.lean:198). C29: `translate` keeps area and orientation, `uniform_scale(s)` multiplies the area by `s²` and keeps the orientation for `s ≠ 0` of either sign; both move vertex `i` to where it belongs.
- `C29_vertices` (Verif/Geom/PolygonBasics.lean:212). C29, any arithmetic: number and order of the vertices.
- `C29_center` (Verif/Geom/PolygonBasics.lean:248). C29: `center` is the mean of the vertices; it is moved by `translate` and scaled by `uniform_scale`.

## C30 regular builds the regular polygon

Status: proved.

- `C30_regular` (Verif/Geom/Regular.lean:111). C30: for at least 3 sides the regular polygon has its vertices, in this order, at the stated angles; each is at distance |r| from the centre, the centroid is the centre, and the area is `n/2 r² sin(2π/n)`.
- `C30_panics` (Verif/Geom/Regular.lean:174). C30: for fewer than 3 sides the call panics, for any arithmetic.

## C31 diagonal is sound and symmetric

Status: proved.

- `C31_diagonal_sound` (Verif/Geom/Diagonal.lean:113). C31: a diagonal has no point in common with any edge that does not touch its end points.
- `C31_symmetric` (Verif/Geom/Diagonal.lean:125). C31: `diagonal` is symmetric.
- `C31_neighbors` (Verif/Geom/Diagonal.lean:148). C31: neither a vertex with itself nor two neighbouring vertices form a diagonal.
- `C31_interior_angle` (Verif/Geom/Diagonal.lean:246). C31: at both of its ends a diagonal leaves strictly into the interior angle of the polygon.

## C32 triangulate never panics

Status: proved.

- `C32_no_panic` (Verif/Geom/Triangulate.lean:298). C32: `triangulate` never panics, on any polygon with at least three vertices (all that `Polygon::new` lets through), in any arithmetic: whatever it ends with is a list of triangles.

## C33 triangulate returns n - 2 triangles cut from the polygon

Status: proved.

- `C33_decomposition` (Verif/Geom/Triangulate.lean:312). C33: if `triangulate` ends, its triangles are those of a decomposition of the vertex list by repeated cuts of three consecutive vertices, each with the orientation possibly reversed.
- `C33_triangles` (Verif/Geom/Triangulate.lean:398). C33: exactly `n - 2` triangles of three vertices each; their corners are exactly the polygon's vertices.

## C34 triangulate conserves area

Status: proved.

- `C34_area` (Verif/Geom/TriArea.lean:280). C34: the triangles returned are, up to orientation, the triangles of a decomposition whose signed areas add up to the signed area of the polygon; the areas reported for them add up to at least the polygon's area, and to exactly that area when no cut triangle is clockwise.

## C35 triangulate terminates

Status: proved. C35_terminates: in exact arithmetic, for every simple polygon in either direction, Polygon::new succeeds and triangulate returns n-2 counter-clockwise triangles whose areas add up. C35_diverges_collinear shows the hypothesis is needed: the constructor accepts non-simple polygons on which triangulate runs forever. The result is about exact arithmetic, not f32.

- `C35_terminates` (Verif/Geom/Simple/Loop.lean:353). C35: `triangulate` returns on every simple polygon. `Polygon::new` accepts every simple polygon (in either direction), and the run of `triangulate` on the polygon it makes is finite, does not panic, and yields `n - 2` triangles, all of them counter-clockwise with positive area, whose areas add up to the area of the polygon.
- `C35_terminates_ccw` (Verif/Geom/Simple/Loop.lean:386). the same for a polygon value whose vertices already run counter-clockwise
- `C35_diverges_collinear` (Verif/Geom/TriArea.lean:329). C35 needs simplicity: on four collinear points `triangulate` runs forever.

## C36 parallel recognises parallel directions

Status: proved.

- `C36_parallel` (Verif/Geom/UtilsExact.lean:92). C36: zero vectors are parallel to nothing; parallel non-zero vectors are recognised; and whatever is recognised has a sine (cross product over the product of the lengths) below `sqrt (2 eps)`.

## C37 is_degenerate_triangle detects collinear triples

Status: proved.

- `C37_degenerate` (Verif/Geom/UtilsExact.lean:226). C37: `is_degenerate_triangle` is true exactly for three points on one line.

## C38 calculate_triangle_incenter returns the incircle

Status: proved.

- `C38_incenter` (Verif/Geom/UtilsExact.lean:293). C38: `None` exactly for collinear points; otherwise the returned point is a strict convex combination of the corners and its distance to each of the three side lines is the returned, positive radius.

## C39 calculate_line_segment_intersection is sound

Status: proved.

- `C39_sound` (Verif/Geom/UtilsExact2.lean:52). C39: a returned point lies on both closed segments; the segments are not parallel and share no other point.

## C40 calculate_line_segment_intersection is complete

Status: partial. Exact condition (C40_exact): None if and only if the segments are parallel (or one is a point) or have no common point; so the claim fails exactly for parallel segments with a common point (C40_counterexample).

- `C40_complete_partial` (Verif/Geom/UtilsExact2.lean:81). C40 for segments that are not parallel: `None` exactly when they share no point. Missing: parallel segments, for which the answer is always `None` (`C40_counterexample`).
- `C40_counterexample` (Verif/Geom/UtilsExact2.lean:98). C40 is false for parallel segments: two segments of one line that meet in a single end point.
- `C40_exact` (Verif/Geom/UtilsExact2.lean:105). **C40, exact form.** It returns None if and only if the segments are parallel (or one of them is a point) or have no point in common.

## C41 calculate_perpendicular_point is the foot of the perpendicular

Status: proved.

- `C41_perpendicular` (Verif/Geom/UtilsExact2.lean:129). C41: for `a ≠ b` the result is the point of the line `ab` where the perpendicular through `p` meets it, and no point of the line is nearer to `p`.

## C42 calculate_midpoint is the midpoint

Status: proved.

- `C42_midpoint` (Verif/Geom/UtilsExact2.lean:184). C42: the midpoint is symmetric in the end points, on the segment, and at half the distance from both ends.
- `C42_symmetric` (Verif/Geom/UtilsExact2.lean:200). C42, any arithmetic with commutative addition (f32 included): symmetry.

## C43 calculate_perpendicular_bisector returns two points of the bisector, the second `offset` away

Status: partial. Exact condition (C43_exact): midpoint and a point of the perpendicular bisector at distance offset if and only if the segment is vertical, or the offset is 0 and the segment is not horizontal. In general the distance is offset*|ab|/|dy| (C43_bisector_partial, C43_counterexample); for horizontal segments the second point is not finite (C43_horizontal).

- `C43_exact` (Verif/Geom/ExactMore.lean:75). **C43, exact condition.** The result is the midpoint and a point of the perpendicular bisector at distance `offset` if and only if the segment is vertical, or `offset` is 0 and the segment is not horizontal (a single point counts as horizontal).
- `C43_bisector_partial` (Verif/Geom/UtilsExact2.lean:238). C43 for segments that are not horizontal: the first point is the midpoint, the second a point of the perpendicular bisector; its distance from the midpoint is `|offset| * |ab| / |b.y - a.y|`, which is `|offset|` exactly for vertical segments (or `offset = 0`). Missing: the requested distance, and horizontal segments (`C43_counterexample`, `C43_horizontal`).
- `C43_horizontal` (Verif/Geom/UtilsExact2.lean:281). C43 fails for horizontal segments: the second point has no finite coordinate.
- `C43_counterexample` (Verif/Geom/UtilsExact2.lean:312). C43 is false: asked for a point at distance 1, the code returns one at distance √2.

## C44 is_on_line_segment decides membership in a segment within tolerance

Status: partial. Exact meaning of the test proved; points off the segment by up to about sqrt(eps*length) are accepted (C44_near_line bounds them), the flag is ignored and end points are never reported (C44_flag_ignored, C44_counterexample).

- `C44_on_segment_partial` (Verif/Geom/UtilsExact2.lean:333). C44 except for the flag: true for points of the segment farther than epsilon from both ends, false within epsilon of an end, true only inside the ellipse `|ap| + |pb| < |ab| + eps`. Missing: `include_endpoints` has no effect (`C44_counterexample`).
- `C44_near_line` (Verif/Geom/UtilsExact2.lean:355). C44: the accepted points are within `sqrt (eps * (|ab| + eps))` of the line through the segment.
- `C44_flag_ignored` (Verif/Geom/UtilsExact2.lean:390). the flag `include_endpoints` is ignored, in any arithmetic
- `C44_counterexample` (Verif/Geom/UtilsExact2.lean:394). C44 is false for the flag: an end point is rejected although end points are asked for.

## C45 find_closest_to returns the nearest point

Status: proved.

- `C45_start_f32` (Verif/Geom/UtilsF32.lean:45). the start value of the search is the largest finite number
- `C45_closest` (Verif/Geom/UtilsLists.lean:90). **C45.** If some point lies at a distance below `f32::MAX`, `find_closest_to` returns the position of a point of the list and that point's distance; no point is nearer, and every earlier point is strictly farther (points at NaN distance are passed over). Otherwise, in particular for the empty list, it returns `(0, f32::MAX)`.
- `C45_empty` (Verif/Geom/UtilsLists.lean:118). **C45**, the empty list

## C46 close_to is reflexive and symmetric

Status: proved.

- `C46_close` (Verif/Geom/UtilsLists.lean:245). **C46.** In f32, `close_to(a, a)` holds exactly for finite `a`, and `close_to` is symmetric for all points, NaN and infinities included.
- `C46_close_exact` (Verif/Geom/UtilsLists.lean:276). exact arithmetic: `close_to` is `dst ≤ 2⁻²³`

## C47 unique_points_among keeps one representative of every cluster

Status: partial. Sublist, characterisation of the kept points and separation proved. Exact condition for the last clause (C47_exact): every point has a close point in the result if and only if all points are finite and no two positions are close, and then nothing is filtered out; points occurring twice are dropped altogether (C47_counterexample, C47_duplicates_lost).

- `C47_exact` (Verif/Geom/ExactMore.lean:21). **C47, exact condition.** Every input point has a close point in the result of `unique_points_among` if and only if every point is close to itself (its coordinates are finite) and no two points at different positions are close; the result is then the whole input. So the function keeps a representative of every cluster only where there is nothing to filter out.
- `C47_unique_partial` (Verif/Geom/UtilsLists.lean:203). **C47, partial.** `unique_points_among` returns a sublist of the input, consisting of exactly those points that have no close point at another position; its points are pairwise not close. Missing from the full statement: every input point has a close point in the result. That is false (`C47_counterexample`).
- `C47_nothing_dropped` (Verif/Geom/UtilsLists.lean:226). **C47.** If no two input points at different positions are close, nothing is dropped.
- `C47_counterexample` (Verif/Geom/UtilsLists.lean:282). **C47, full statement refuted.** A point given twice disappears altogether: nothing in the result is close to it.
- `C47_duplicates_lost` (Verif/Geom/UtilsLists.lean:287). in every arithmetic satisfying the laws a duplicated pair with a proper distance is lost

## C48 calculate_line_intersection intersects infinite lines

Status: partial. The function intersects the segments, not the lines: correct when the common point lies on both segments, None otherwise (C48_counterexample).

- `C48_line_intersection_partial` (Verif/Geom/UtilsExact2.lean:408). C48, exactly: a point is returned if and only if the determinant exceeds epsilon in absolute value and the common point of the lines lies on both segments; it is then that common point. Missing: common points outside the segments, which the documentation promises (`C48_counterexample`), and lines with a small determinant.
- `C48_counterexample` (Verif/Geom/UtilsExact2.lean:451). C48 is false: the lines through these segments are perpendicular and meet in `(3, 0)`, outside the first segment.

## C49 Edges always refer to existing nodes

Status: partial. Exact condition (C49_exact, in either build): the indices stay valid all the time if and only if no call removes node 0, or its edge, while that edge is a self-loop and the only edge at node 0 and some edge has an end at node 1; with overflow checks such a call panics, so every debug history is fine (C49_valid_partial); in release it wraps an index (C49_counterexample).

- `C49_valid_partial` (Verif/Graph/Histories.lean:173). **C49, partial (overflow checks on).** After any sequence of calls that did not panic, in any arithmetic, both node indices of every edge are valid. Missing: the release profile with self-loops, where it is false (`C49_counterexample`); without self-loops it holds in release as well (`C49_valid_release_partial`).
- `C49_valid_release_partial` (Verif/Graph/Histories.lean:333). **C49, partial (release).** Histories that never call `add_edge(s, s)` keep all indices valid in both profiles, in f32 and exact arithmetic.
- `C49_counterexample` (Verif/Graph/Histories.lean:366). **C49 is false in release builds**: removing node 0, whose only edge is a self-loop, wraps the index of node 1 around to `2^64 - 1`.
- `C49_exact_call` (Verif/Graph/ValidExact.lean:190). **C49, exact condition for one call.** A call that returns leaves both node indices of every edge valid, if they were, unless it is a removal that wraps an index: of node 0, or of its edge, where that edge is a self-loop and the only edge at node 0 and some edge has an end at node 1. (With overflow checks such a call panics.)
- `C49_exact` (Verif/Graph/ValidExact.lean:214). **C49, exact condition.** Consider a sequence of calls on an empty graph, in either build, with never more than `2^64` nodes. The indices stay valid all the time if and only if no call is made that wraps an index.

## C50 add_node and add_edge never panic

Status: partial. Proved from every graph whose edges refer to existing nodes, hence after every debug history (any arithmetic) and after every release history without add_edge(s,s) (f32 and exact), or without a removal that wraps an index (C50_history_wraps, any arithmetic). Exact conditions for a panic on any graph: C50_exact_add_node, C50_exact_add_edge; after a wrapping removal in a release build both calls panic (C50_counterexample).

- `C50_no_panic` (Verif/Graph/Add.lean:265). **C50.** On every graph whose edges refer to existing nodes (see `C49` and `C50_history_partial` for the histories that lead there), `add_node` and `add_edge` return, and the resulting graph is of this kind again.
- `C50_history_partial` (Verif/Graph/Histories.lean:348). **C50, partial.** After every history that ran without a panic in a debug build, and after every history that never called `add_edge(s, s)` in either build, `add_node` with any position and `add_edge` with any indices return. Missing: release histories with a self-loop, where it is false (`C50_counterexample`).
- `C50_counterexample` (Verif/Graph/Histories.lean:374). **C50 is false in release builds**: after the history of `C49_counterexample`, adding a node anywhere near, or an edge between the two remaining nodes, reads node `2^64 - 1` and panics.
- `C50_exact_add_node` (Verif/Graph/PanicExact.lean:95). **C50, exact condition for `add_node`.** On any graph, `add_node` panics if and only if no node is nearer than epsilon to the new position and some edge has an end beyond the node list, even after the new node is appended.
- `C50_exact_add_edge` (Verif/Graph/PanicExact.lean:137). **C50, exact condition for `add_edge`.** On any graph, `add_edge` panics if and only if both nodes exist, no edge joins them yet and some edge has an index outside the node list.
- `C50_history_wraps` (Verif/Graph/ValidExact.lean:261). **C50, with self-loops, in either build.** After a sequence of calls without one that wraps an index, `add_node` and `add_edge` return for all arguments, self-loops or not.

## C51 No two nodes are within epsilon of each other

Status: proved.

- `C51_separated` (Verif/Graph/Queries.lean:249). **C51.** In every graph reached by any sequence of calls, debug or release, f32 or exact, the distance of two different nodes is never smaller than epsilon.

## C52 add_node returns a valid index at the requested place, once

Status: proved.

- `C52_add_node` (Verif/Graph/Queries.lean:268). **C52.** `add_node` returns an existing index whose node is closer than epsilon, leaving the graph untouched, or, if no node is that close, the fresh index of a node with exactly the given position and data.
- `C52_twice` (Verif/Graph/Queries.lean:291). **C52, second half.** Adding a position again (one that is close to itself, which in f32 means finite, see `C46_close`) returns the same index, reports nothing and leaves the graph untouched, whatever the data.
- `C52_twice_f32` (Verif/Graph/Queries.lean:332). **C52, f32.** Any finite f32 position may be added twice.

## C53 Adding never renumbers or moves existing nodes

Status: proved.

- `C53_nodes_stable` (Verif/Graph/Add.lean:285). **C53.** `add_node` and `add_edge` keep every existing node (position, data, label) at its index.

## C54 Adding never disconnects, and add_edge connects

Status: proved.

- `C54_connected` (Verif/Graph/Add.lean:343). **C54.** Nodes joined by a path stay joined after `add_node` and `add_edge`; after `add_edge(s, d)` returned `Ok`, the nodes `s` and `d` are joined by a path.

## C55 add_edge rejects unknown nodes and ignores existing edges

Status: proved.

- `C55_rejects` (Verif/Graph/Add.lean:368). **C55.** `add_edge(s, d)`: with an `s`-`d` edge present (in either direction) it returns `Ok` with empty lists and leaves the graph unchanged; it returns `Err` exactly if there is none and `s` or `d` is not a node, and then the graph is unchanged and the error is `NoSuchVertex`.

## C56 Split edges inherit the data of the edge they came from

Status: proved.

- `C56_inherit` (Verif/Graph/Add.lean:389). **C56.** After `add_node` every edge slot has an origin slot with the same data (old slots are their own origin) and the pieces of every old edge form a path between its ends. After `add_edge` the same holds relative to the old graph or to the old graph with the new edge appended.

## C57 add_node reports exactly the changed edges

Status: proved.

- `C57_changed_edges` (Verif/Graph/Add.lean:399). **C57.** The list returned by `add_node` has no repetitions and consists exactly of the edge slots whose content differs from before (new slots included).

## C58 add_edge reports all new nodes and all changed edges

Status: partial. Node list, validity of the reported slots and coverage of all changed or new slots other than the new edge's own proved. Exact condition for the new edge's slot in exact arithmetic (C58_exact): reported if and only if no edge was split or the new edge was; it goes unreported when the new edge stays whole and an older edge is split (C58_counterexample).

- `C58_changed_partial` (Verif/Graph/Add.lean:512). **C58, partial.** When `add_edge` returns `Ok (nodes, edges)`: `nodes` lists the indices of the created nodes in order; every index in `edges` is valid; every edge slot other than the one of the new edge whose content differs from before is in `edges`. If the graph changed, the slot of the new edge is in `edges` or still holds exactly the requested edge. Missing: that the slot of the new edge is always reported; it is not (`C58_counterexample`).
- `C58_order_partial` (Verif/Graph/Add.lean:579). **C58, order of the new nodes.** `add_edge` numbers the nodes it creates in the order of the slots of the edges they were found on: their positions are a sublist of the list of crossings of the new segment with the edges, slot by slot.
- `C58_counterexample` (Verif/Graph/Add.lean:621). **C58 is false**: nodes A = (0,0), B = (4,0), C = (2,0), D = (2,2) and the edge AB, which passes through C because `add_edge` does not split a new edge at existing nodes. Adding CD splits AB and creates CD in slot 1, but the reported slots are 0 and 2.
- `C58_exact` (Verif/Graph/ReportedAdd.lean:227). **C58, exactly** (exact arithmetic). When `add_edge` returns `Ok`, the slot of the new edge is reported if and only if the graph changed and either no edge at all was split (one edge more than before) or the new edge was (its slot no longer holds the requested edge). So it goes unreported exactly when the new edge stayed whole and an older edge was split, as in `C58_counterexample`.

## C59 A new node never lies inside an edge

Status: proved.

- `C59_not_inside` (Verif/Graph/Queries.lean:357). **C59.** After `add_node` created a node (the index is the old number of nodes), no edge passes the on-segment test for it.
- `C59_exact` (Verif/Graph/Queries.lean:392). **C59, exact arithmetic.** No edge contains the created node at more than epsilon from both of its ends.

## C60 add_edge maintains planarity

Status: partial. Exact condition in exact arithmetic, points of intersection clear up to the tolerance (C60_exact): the result can be drawn planarly if and only if every node on the segment other than its ends is the end of exactly one edge not parallel to the segment and no edge runs along the segment. So it holds in general position (C60_planar_partial) and fails when the segment runs through an isolated node, through a node shared by two edges, or along another edge (three counterexamples). In f32 it fails in general position too (C94_counterexample_crossing).

- `C60_planar_partial` (Verif/Graph/Planar.lean:1002). **C60, partial.** In exact arithmetic: let `g` be drawn planarly with distinct node positions and no self-loops, and let the segment from `s` to `d` be in general position up to the tolerance. Then `add_edge(s, d)` returns, old nodes keep their places, node positions stay distinct, and the resulting graph is drawn planarly. Missing: segments not in general position, for which the claim is false (`C60_counterexample_node`, `C60_counterexample_concurrent`, `C60_counterexample_overlap`).
- `C60_counterexample_node` (Verif/Graph/Planar.lean:1119). **C60 is false**: the edge from `(0,0)` to `(4,0)` is added right through the node at `(2,0)`.
- `C60_counterexample_concurrent` (Verif/Graph/Planar.lean:1136). **C60 is false**: `(2,0)` is joined to `(2,2)` and to `(2,-2)`; the edge from `(0,0)` to `(4,0)` meets both edges there, the duplicate removal drops *both* meet points, and the edge is added through the node.
- `C60_counterexample_overlap` (Verif/Graph/Planar.lean:1217). **C60 is false**: an edge is added over another one on the same line.
- `C60_exact` (Verif/Graph/PlanarExact.lean:650). **C60, exact condition** (exact arithmetic, points of intersection clear up to the tolerance). `add_edge(s, d)` of an edge that is not there yet returns `Ok`, and the resulting graph can be drawn planarly if and only if every node on the segment, other than `s` and `d`, is the end of exactly one edge that is not parallel to the segment, and no edge runs along the segment.

## C61 remove_edge never panics

Status: partial. Exact condition for a panic proved; the claim itself is false (C61_counterexample).

- `C61_redundant_test` (Verif/Graph/Remove.lean:428). **C61, the redundant test.** For every graph and index `remove_edge` does the same without the test whether there is more than one edge: the question in the comment is answered with yes.
- `C61_panics_iff_partial` (Verif/Graph/Remove.lean:456). **C61, exactly when it panics.** `remove_edge(id)` panics if and only if `id` is the last slot and both ends of its edge have another edge, or, with overflow checks, the edge is the only edge at node 0, joins it to itself and there are other nodes. (The full claim, that it never panics, is false: `C61_counterexample`.)
- `C61_counterexample` (Verif/Graph/Remove.lean:516). **C61 is false**: in a triangle, removing the edge in the last slot panics.

## C62 remove_edge removes exactly that edge and nodes left stray

Status: partial. Exact condition (C62_exact): the result is right unless the edge is a self-loop, the only edge at its node, and some edge has an end behind that node, where the renumbering moves by two (C62_counterexample).

- `C62_exact` (Verif/Graph/LoopExact.lean:256). **C62, exact condition.** If `remove_edge(id)` returns, the remaining edges are the others with their data and their ends, and the removed nodes are exactly the ends of the edge that no other edge touches, if and only if it is not the case that the edge is a self-loop, the only edge at its node, and some edge has an end behind that node.
- `C62_remove_edge_partial` (Verif/Graph/Remove.lean:561). **C62, partial.** If `remove_edge(id)` returns and the edge is not a self-loop that is the only edge at its node, the remaining edges are the edges in the other slots, with the same data and joining the same nodes, and the removed nodes are exactly those ends of the edge that no other edge touches. Missing: self-loops that are the only edge at their node; there the statement is false (`C62_counterexample`).
- `C62_counterexample` (Verif/Graph/Remove.lean:660). **C62 is false for self-loops**: nodes 0..3, a loop at 1 and an edge from 2 to 3. Removing the loop deletes node 1 but renumbers by two, so that the edge 2-3 now joins the nodes formerly numbered 0 and 2.

## C63 remove_node never panics

Status: partial. Exact condition for a panic proved; isolated nodes panic (C63_counterexample).

- `C63_panics_iff_partial` (Verif/Graph/Remove.lean:229). **C63, exactly when it panics.** `remove_node(id)` panics if and only if `id` is a node that no edge touches, or, with overflow checks, `id` is node 0 of a graph with at least two nodes and its only edge is a self-loop. (The full claim, that it never panics, is false: `C63_counterexample`.)
- `C63_counterexample` (Verif/Graph/Remove.lean:265). **C63 is false**: removing an isolated node panics.

## C64 remove_node removes the node, its edges and stray neighbours, and renumbers consistently

Status: proved.

- `C64_exact` (Verif/Graph/LoopExact.lean:292). **C64, exact condition.** If `remove_node(id)` returns, its result is as `C64_remove_node` says if and only if it is not the case that the only edge at `id` is a self-loop and some edge has an end behind `id`.
- `C64_remove_node` (Verif/Graph/Remove.lean:329). **C64.** If `remove_node(id)` returns and the only edge at `id` is not a self-loop (in particular on loop-free graphs), the surviving nodes are the others except the neighbours of `id` without another edge, in the old order; the surviving edges are those that did not touch `id`, in the old order, with the same data, joining the same nodes.

## C65 Removal reports every changed index

Status: partial. All changed nodes are reported; unreported edge slots keep data and label, but renumbered ends are not reported (C65_counterexample). C65_exact_remove_any_node and C65_exact_remove_edge give the reported slots and the exact condition: an unreported edge changes if and only if it has an end behind a deleted node; nothing goes unreported when both ends of a removed edge have other edges.

- `C65_remove_node_partial` (Verif/Graph/Remove.lean:670). **C65, partial (remove_node).** Every node index whose node changed is reported. An edge slot that is not reported holds an edge before and after, with the same data and label (and joining the same nodes in the cases of `C64_remove_node`), but its indices may have been renumbered without being reported (`C65_counterexample`).
- `C65_remove_edge_partial` (Verif/Graph/Remove.lean:732). **C65, partial (remove_edge).** The same for `remove_edge`.
- `C65_counterexample` (Verif/Graph/Remove.lean:768). **C65 is false**: removing node 0 renumbers the ends of the edge in slot 0, which is not reported (only slot 1 is).
- `C65_exact_remove_node` (Verif/Graph/Reported.lean:74). **C65, exact form for `remove_node`** (on graphs whose edges have ends, for a node whose only edge is not a self-loop). The reported nodes are the slots from the first deleted node on; the reported edges are the slots from the first edge at `id` on; and the edge in a slot that is not reported is unchanged if and only if no deleted node stands in front of one of its ends - otherwise the change of its ends goes unreported.
- `C65_exact_remove_any_node` (Verif/Graph/ReportedEdge.lean:21). **C65, exact form for `remove_node` of any node** (on graphs whose edges have ends). As in `C65_exact_remove_node`, without the condition that the only edge is no self-loop: there the ends behind the node get wrong numbers, and those that are not reported are the same ones.
- `C65_exact_remove_edge` (Verif/Graph/ReportedEdge.lean:126). **C65, exact form for `remove_edge`** (on graphs whose edges have ends). The reported nodes are the slots from the first loose end of the edge on. The reported edges are all slots from the removed one on if the edge has a loose end, otherwise the removed slot and the last one. The edge in a slot that is not reported is unchanged if and only if no loose end stands in front of one of its ends - otherwise the change of its ends goes unreported. So nothing goes unreported if both ends of the removed edge have other edges.

## C66 has_node_at_index / has_edge_at_index agree with get_vertex / get_edge

Status: partial. Exact for every index except 0; index 0 is always answered false (C66_counterexample).

- `C66_has_index_partial` (Verif/Graph/Queries.lean:407). **C66, partial.** For indices other than 0 the tests agree with the getters. Missing: index 0, for which both tests always answer no (`C66_counterexample`).
- `C66_counterexample` (Verif/Graph/Queries.lean:419). **C66 is false at index 0**, in every graph with a node (an edge).

## C67 Incidence counts obey the handshake identity

Status: proved.

- `C67_incident` (Verif/Graph/Queries.lean:428). **C67.** `number_of_edges_incident_to(i)` is `Some` exactly for existing nodes; it then counts the edge slots whose edge starts or ends at `i`.
- `C67_handshake` (Verif/Graph/Queries.lean:472). **C67, handshake.** Summed over all nodes, the incidence counts and the number of self-loops are twice the number of edges.

## C68 add_edge is idempotent

Status: partial. Exact condition (C68_exact): the second call changes nothing if and only if an index is invalid or the first call left an edge joining the two nodes; false when the first call split the new edge (C68_counterexample).

- `C68_exact` (Verif/Graph/ExactCases.lean:21). **C68, exactly.** After `add_edge(s, d)`, a second `add_edge(s, d)` leaves the graph as it is if and only if one of the two indices does not belong to a node, or the first call left an edge joining the two nodes.
- `C68_twice_partial` (Verif/Graph/Queries.lean:531). **C68, partial.** The second `add_edge(s, d)` leaves the graph untouched if the first one failed, or left an edge joining `s` and `d` directly; the latter is so in particular when the new edge met no other edge. Missing: the case that the first call split the new edge, where the claim is false (`C68_counterexample`).
- `C68_counterexample` (Verif/Graph/Queries.lean:581). **C68 is false**: the square with corners 0..3 and its diagonals 0-2 and 1-3. The first `add_edge(1, 3)` is split at the centre; the second one adds the unsplit edge 1-3, which passes through the node at the centre.

## C69 No self-loops unless requested

Status: proved.

- `C69_no_loops` (Verif/Graph/Histories.lean:323). **C69.** In every history that never calls `add_edge(s, s)`, debug or release, f32 or exact, no edge joins a node to itself.

## C70 At most one edge joins two nodes

Status: partial. Preserved by removal. For add_node that creates a node the condition is exact (C70_add_node_exact): parallel edges arise if and only if the point passes the test of two edges with a common end (C70_counterexample). For add_edge too (C70_add_edge_exact): if and only if at some splitting the node lies on an edge with an end u, and a second edge joins u to the node or has the end u and the node on it.

- `C70_add_node_exact` (Verif/Graph/ExactCases.lean:63). **C70, exactly (add_node).** On a graph without self-loops and parallel edges, an `add_node` that creates a node leads to parallel edges if and only if the new point passes the test of two edges with a common end.
- `C70_add_edge_exact` (Verif/Graph/ParallelExact.lean:256). **C70, exactly (add_edge).** Take a graph without self-loops and parallel edges and an `add_edge` for two different nodes that are not joined. It appends the edge and splits at one node after the other (`Splittings`); the result has parallel edges if and only if at some of these splittings the node lies on an edge with an end `u` and a second edge joins `u` to the node or has the end `u` and the node on it. Addition has to be commutative, as in `f32` and in exact arithmetic.
- `C70_remove_partial` (Verif/Graph/Queries.lean:622). **C70, partial (removal).** On graphs without self-loops removal creates no parallel edges.
- `C70_add_node_partial` (Verif/Graph/Queries.lean:658). **C70, partial (add_node).** On a graph without self-loops and parallel edges, a created node leads to parallel edges only if it lies on two edges with a common end. Missing: that case, where the claim is false (`C70_counterexample`).
- `C70_add_edge_partial` (Verif/Graph/Queries.lean:729). **C70, partial (add_edge).** An `add_edge` whose edge meets no other edge creates no parallel edges.
- `C70_counterexample` (Verif/Graph/Queries.lean:777). **C70 is false**: `A = (0,0)`, `B = (4,0)`, `C = (2,0)` with edges AB and AC; adding a node at `(1,0)` splits both and joins it to A twice.

## C71 FOLD values survive serialisation

Status: partial. The exact result of a round trip is proved; edges_foldangles, faceorders, edgeorders and file_frames are lost (C71_counterexample), non-finite numbers are not read back.

- `C71_serde_partial` (Verif/Fold/FloatRoundtrip.lean:224). **C71 for the numbers of serde_json**: the exact result of a round trip, without an assumption about the numbers. Missing: the four lost fields (`C71_counterexample`) and numbers that are not finite.
- `C71_roundtrip_partial` (Verif/Fold/Theorems.lean:621). **C71, exact result (the claim holds only partly).** If serde_json reads back the finite numbers it writes, then serialising `x` and deserialising the result yields `y` if and only if all vertex coordinates and edge lengths are finite and `y` is `x` with `file_frames`, `edges_foldangles`, `faceorders` and `edgeorders` emptied. Missing: those four fields (`C71_counterexample`) and non-finite numbers.
- `C71_survives_partial` (Verif/Fold/Theorems.lean:632). **C71, in particular**: values without the four fields and with finite numbers survive.
- `C71_null_partial` (Verif/Fold/Theorems.lean:646). **C71, numbers that are not finite.** JSON has no token for them: a length or coordinate that serde_json cannot write becomes `null` at its place, and the document cannot be read back.
- `C71_counterexample` (Verif/Fold/Theorems.lean:696). **C71 is false**, whatever the number format: a value with a layer order between two faces is read back without it.

## C72 Missing and unknown FOLD keys are tolerated

Status: proved.

- `C72_meaning` (Verif/Fold/Meaning.lean:261). **C72, meaning.** Deserialising an object yields `x` if and only if every field of `x` is empty (0, `""`, `[]`) with its key missing, or its key occurs exactly once with a JSON value that means the value of the field; `file_frames` is empty.
- `C72_keys` (Verif/Fold/Meaning.lean:266). the keys that are read and their types, in the order of the struct
- `C72_empty_object` (Verif/Fold/Meaning.lean:275). the empty object gives the empty value, in every field
- `C72_object` (Verif/Fold/Theorems.lean:328). **C72, exact result.** Deserialising an object yields `x` if and only if `file_frames` is empty and every other field has its default value when its key is missing, and the decoded value when its key occurs exactly once with a decodable value. (Unknown keys play no role.)
- `C72_accepts_iff` (Verif/Fold/Theorems.lean:375). **C72.** Deserialising an object succeeds exactly when every known key occurs at most once, and with a well-typed value if it occurs.
- `C72_order` (Verif/Fold/Theorems.lean:411). **C72, order.** The order of the keys does not matter.
- `C72_unknown` (Verif/Fold/Theorems.lean:420). **C72, unknown keys.** Entries whose key is not the key of a field have no effect, wherever they occur.

## C73 from_file reports bad input as Err

Status: partial. Exact condition for a panic proved; malformed contents panic (C73_counterexample).

- `C73_counterexample_text` (Verif/Fold/Files.lean:87). **C73 is false** for the actual reader: an empty file makes `from_file` panic.
- `C73_from_file_partial` (Verif/Fold/Theorems.lean:706). **C73, exactly when it panics.** `from_file` returns `Err` exactly for files that cannot be read, and panics exactly when the contents are not JSON or not a value accepted by `deserialize`. Missing: the claim for such contents is false.
- `C73_counterexample` (Verif/Fold/Theorems.lean:755). **C73 is false**: a readable file whose contents are not a JSON text makes `from_file` panic.

## C74 validate rejects inconsistent files

Status: partial. Refuted: validate is constantly true (C74_counterexample); nothing is left to prove.

- `C74_counterexample` (Verif/Fold/Theorems.lean:762). **C74 is false**: `validate` accepts everything, for example two vertices with coordinates and one vertex with neighbours.

## C75 svg_polygon's points attribute lists every vertex

Status: proved.

- `C75_points` (Verif/Examples/Svg.lean:63). **C75.** The `points` attribute is the vertices as `x,y`, separated by single spaces, for any number of vertices and any way of printing numbers.
- `C75_spaces` (Verif/Examples/Svg.lean:119). **C75, spaces.** If printed numbers contain no space, the attribute neither starts nor ends with a space, and contains exactly one space fewer than there are vertices.

## C76 The triangles of triangulate tile the polygon

Status: proved.

- `C76_tiles` (Verif/Geom/Simple/Tiling.lean:682). C76: the triangles returned for a simple polygon tile it. Their union is exactly the closed region bounded by the polygon (on an edge, or inside by the even-odd rule), and no inner point of one triangle belongs to another.

## C77 diagonal is true exactly for internal diagonals

Status: proved.

- `C77_diagonal_iff` (Verif/Geom/Simple/DiagSpec.lean:94). C77: on a counter-clockwise simple polygon, `diagonal(i, j)` is true exactly when the segment between the two vertices is an inner diagonal: the vertices differ and every other point of the segment lies strictly inside the polygon (on no edge, and with an odd number of edges crossed by the horizontal ray to the right).

## C78 The array form of a FOLD value is read field by field

Status: proved.

- `C78_array` (Verif/Fold/Arrays.lean:95). **C78.** An array of at most 24 values is read exactly like the object that gives these values to the first fields, in the order of the struct and under the names that are read; an array of more values is rejected.
- `C78_names` (Verif/Fold/Arrays.lean:133). the names, in order
- `C78_accepts_iff` (Verif/Fold/Arrays.lean:140). **C78, acceptance.** An array is accepted exactly when it has at most 24 elements and each is well typed for the field at its position.
- `C78_scalar` (Verif/Fold/Arrays.lean:195). **C78, other values.** Nothing but objects and arrays is accepted.

## C79 svg_circle, svg_line and svg_polygon set the attributes they are given

Status: proved.

- `C79_polygon` (Verif/Examples/Svg.lean:146). **C79, polygon.**
- `C79_circle` (Verif/Examples/Svg.lean:153). **C79, circle.** The centre, the radius and the colours are the arguments, each under the right name.
- `C79_line` (Verif/Examples/Svg.lean:161). **C79, line.** The line runs from the first argument to the second.
- `C79_injective` (Verif/Examples/Svg.lean:169). **C79, faithful.** If numbers are printed injectively, different lines (circles) give different elements.

## C80 are_neighbors is cyclic adjacency

Status: proved.

- `C80_iff` (Verif/Geom/Triangulate.lean:41). **C80.** For a polygon with `n ≥ 2` vertices and two vertex indices, `are_neighbors(i, j)` holds exactly when one index follows the other in the cyclic order.
- `C80_symm` (Verif/Geom/Triangulate.lean:60). **C80, symmetry.** `are_neighbors` is symmetric, and no vertex is its own neighbour.
- `C80_empty` (Verif/Geom/Triangulate.lean:74). **C80, empty polygon.** On an empty vertex list the index arithmetic underflows: a panic, in debug builds.

## C81 Negation, addition and subtraction are those of the algebra

Status: proved.

- `C81_additive` (Verif/GA/Clifford.lean:151). **C81.** Negation, addition and subtraction of every type are those of the Clifford algebra.
- `C81_rotation` (Verif/GA/Clifford.lean:163). **C81, rotations.** A rotor and its negative are the same rotation, and negation is an involution that cancels under addition.

## C82 On grid coordinates the f32 program is exact

Status: proved. Proved in the softfloat model for every grid of spacing 2^-74..2^51. C82_new_triangulate additionally assumes that the signed area of every initial part fits the mantissa. C82_counterexample_wide proves the last sentence: a convex quadrilateral with integer coordinates below 2^18 on which f32 triangulate runs forever.

- `C82_predicates` (Verif/Geom/Simple/GridF32.lean:217). **C82, predicates.** On a grid box the `f32` predicates give the exact answers.
- `C82_diagonal` (Verif/Geom/Simple/GridF32.lean:230). **C82, diagonal.** On a grid box the `f32` diagonal test of a counter-clockwise simple polygon is true exactly for inner diagonals.
- `C82_triangulate` (Verif/Geom/Simple/GridF32.lean:277). **C82, triangulate.** `triangulate` in `f32` terminates on every counter-clockwise simple polygon with grid coordinates (with any number of vertices), and its triangles tile the polygon exactly.
- `C82_new_triangulate` (Verif/Geom/Simple/GridF32.lean:376). **C82.** For every simple polygon with grid coordinates whose initial parts have small area, in either direction, `Polygon::new` in `f32` succeeds with a counter-clockwise polygon, and `triangulate` terminates with triangles that tile the given polygon exactly.
- `C82_counterexample_wide` (Verif/Geom/Simple/GridF32.lean:474). **C82, the hypothesis on the span cannot be dropped.** On this convex counter-clockwise quadrilateral, whose coordinates are integers below `2^18`, `Polygon::new` succeeds in `f32` and `triangulate` never returns, whereas it does in exact arithmetic.

## C83 add_edge adds exactly the new segment to the drawing

Status: proved. C83_drawing in general position; C83_exact without it: whenever the points of intersection are clear up to the tolerance, the set of points drawn is right, and nodes are created exactly where one edge is cut and no node is yet.

- `C83_exact` (Verif/Graph/DrawingExact.lean:110). **C83, exactly** (exact arithmetic, points of intersection clear up to the tolerance; any drawing with distinct positions, planar or not, and any segment). `add_edge(s, d)` of an edge that is not there yet returns `Ok`, old nodes stay as they are, and a point is on an edge with data `c` exactly when it was on an edge with data `c` before, or `c` is the new data and the point is on the segment from `s` to `d`. The new nodes have default data and are exactly at the points, no nodes yet, where the segment cuts exactly one edge that is not parallel to it.
- `C83_drawing` (Verif/Graph/Planar.lean:1022). **C83.** Under the same hypotheses, the drawing after a successful `add_edge(s, d)` is the old drawing plus the new segment, with the data in place: a point is on an edge with data `c` exactly when it was on an edge with data `c` before, or `c` is the new data and the point is on the segment from `s` to `d`. The new nodes are exactly the crossing points of the new segment with old edges, each represented once.

## C84 add_node changes exactly the edges through the new node

Status: proved.

- `C84_add_node` (Verif/Graph/Exact.lean:39). **C84.** When `add_node` creates a node, the result is exactly this: the node is appended; an edge that fails the on-segment test for the new position stays as it is in its slot; an edge `a → b` that passes the test is replaced in its slot by `a → new` and `b → new` is appended, with the same data; the appended halves are in the order of the slots of their edges, and there are no other edges. The reported edges are the slots of the split edges in order, followed by the new slots.

## C85 add_edge with nothing in the way appends one edge

Status: proved.

- `C85_add_edge_free` (Verif/Graph/Exact.lean:87). **C85.** If the new segment meets no edge (the library's segment intersection finds nothing), `add_edge` appends the edge, reports its slot and changes nothing else.

## C86 Removal reports exactly the shifted indices

Status: proved.

- `C86_remove_node` (Verif/Graph/Exact.lean:126). **C86 (remove_node).** On success the reported lists are exactly the old indices from the smallest removed one on: nodes from the smallest of `id` and the removed neighbours, edges from the first slot that touched `id`. For an index that is no node, nothing is reported and nothing changes.
- `C86_remove_edge` (Verif/Graph/Exact.lean:167). **C86 (remove_edge).** When both ends of the edge have other edges and the call returns, the last edge moves into the slot; the two slots are reported and no node. Otherwise the call is the removal of an end that has no other edge (of `src` if both have none).

## C87 f32 orientation tests are right outside an explicit error margin

Status: proved. Proved for the softfloat model, whose operations are proved correctly rounded (Verif/Num/F32Real.lean). C87_counterexample and C87_counterexample_rotation prove the last sentence.

- `C87_filter` (Verif/Geom/Simple/FilterF32.lean:213). **C87.** For finite coordinates up to `2^60`: if the exact signed area exceeds the margin, the `f32` orientation tests give the exact answers.
- `C87_counterexample` (Verif/Geom/Simple/FilterF32.lean:429). **C87, the margin cannot be dropped.** (0.6, 0.8), (0.2, 0.4), (0.1, 0.3): `f32` says left, the exact answer is right.
- `C87_counterexample_rotation` (Verif/Geom/Simple/FilterF32.lean:438). **C87, f32 is not invariant under rotation of the arguments.** For (0.1, 0.7), (0.5, 0.3), (0.6, 0.2), `left(b, c, a)` is true but `left(a, b, c)` is false. The opposite orientation `left(a, c, b)` is true at the same time as `left(b, c, a)`.

## C88 f32 triangulation is right for polygons in clear position

Status: proved.

- `C88_new_triangulate` (Verif/Geom/Simple/AreaF32.lean:348). **C88.** The whole pipeline in `f32`: for a simple polygon in clear position, listed in either direction, whose area exceeds the possible error, `Polygon::new` makes it counter-clockwise and `triangulate` terminates with triangles that tile it.
- `C88_triangulate` (Verif/Geom/Simple/FilterF32.lean:360). **C88.** `triangulate` in `f32` terminates on every counter-clockwise simple polygon in clear position, and its triangles tile the polygon.
- `C88_diagonal` (Verif/Geom/Simple/FilterF32.lean:366). **C88, diagonal.** In clear position the `f32` diagonal test is true exactly for inner diagonals.

## C89 Accuracy of area() and of the orientation check in f32

Status: proved.

- `C89_area` (Verif/Geom/Simple/AreaF32.lean:241). **C89.** For up to `2^20` vertices with coordinates up to `2^40`, the area computed in `f32` is a finite number within `areaError` of the exact area.
- `C89_new` (Verif/Geom/Simple/AreaF32.lean:322). **C89, orientation.** If the exact signed area exceeds the possible error, `Polygon::new` in `f32` keeps counter-clockwise vertex lists and reverses clockwise ones.

## C90 Accuracy of f32 distances

Status: proved.

- `C90_distance` (Verif/Geom/DistF32.lean:131). **C90.** For points with coordinates up to `2^60` the distance computed in `f32` is a finite number, within a relative error of `2^-21` and an absolute error of `2^-73` of the true distance.
- `C90_threshold` (Verif/Geom/DistF32.lean:181). **C90, threshold.** A computed distance below epsilon means a true distance below `(1 + 2^-20) * 2^-23`, one that is not below epsilon means a true distance of at least `(1 - 2^-20) * 2^-23`.

## C91 Accuracy of f32 midpoints

Status: proved. C91_counterexample proves the overflow clause.

- `C91_midpoint` (Verif/Geom/DistF32.lean:248). **C91.** For finite points whose coordinate sums do not exceed `2^127` the midpoint computed in `f32` is finite and each coordinate is within a relative error of `2^-22` and an absolute error of `2^-150` of the true midpoint's.
- `C91_counterexample` (Verif/Geom/DistF32.lean:260). **C91, overflow.** The midpoint of a point with itself can overflow to infinity.

## C92 f32 segment intersection

Status: proved.

- `C92_near_first` (Verif/Geom/DistF32.lean:373). **C92.** Whatever `calculate_line_segment_intersection` returns in `f32` for points with coordinates up to `2^60` is a finite point next to the first segment: both coordinates are within `B / 2^21 + 2^-149` of a point of the segment, where `B` bounds the coordinates of the segment's ends.
- `C92_crossing` (Verif/Geom/DistF32.lean:605). **C92, crossing segments.** If the two segments cross at a point that is not too close to an end of either (relative to the error bound), the code finds the crossing in `f32`, and each coordinate of the answer is accurate.
- `C92_apart` (Verif/Geom/DistF32.lean:657). **C92, separated segments.** If the lines of the two segments meet at a point clearly outside one of them, the code returns no point in `f32`.

## C93 is_on_line_segment in f32

Status: proved. C93_counterexample proves the last sentence.

- `C93_on_segment` (Verif/Geom/DistF32.lean:794). **C93.** For coordinates up to `2^60`: a point accepted in `f32` is in a slightly larger ellipse around the segment, and on edges of length at most `1/32` every point of the segment that is not within `2^-22` of an end is accepted.
- `C93_counterexample` (Verif/Geom/DistF32.lean:861). **C93, longer edges.** (1, 2) is exactly on the segment from (0, 0) to (3, 6), far from both ends, and is not accepted.

## C94 What f32 graphs guarantee about true positions

Status: proved. C94_counterexample_crossing and C94_counterexample_node prove the last sentence: planarity is not maintained in f32, even in general position.

- `C94_separated` (Verif/Graph/F32.lean:21). **C94.** In every `f32` graph reached by any calls, two different nodes with coordinates up to `2^60` are truly at least `(1 - 2^-20) * 2^-23` apart, hence at different positions.
- `C94_add_node` (Verif/Graph/F32.lean:34). **C94, add_node.** In `f32` with coordinates up to `2^60`, `add_node` returns an old node truly within `(1 + 2^-20) * 2^-23` of the requested position, leaving the graph as it was, or appends a node with that position, truly at least `(1 - 2^-20) * 2^-23` away from all others.
- `C94_add_edge_free` (Verif/Graph/F32.lean:54). **C94, add_edge.** If every edge of the graph is clearly apart from the new segment, `add_edge` in `f32` appends exactly the new edge.
- `C94_counterexample_crossing` (Verif/Graph/F32.lean:72). **C94, crossing edges.** Two edges in general position, (3, 4)-(1, 0) and (3, 2)-(1, 4), cross at (7/3, 8/3). After adding both in `f32` there is an isolated node near the crossing, but neither edge has been split: the drawing is not planar.
- `C94_counterexample_node` (Verif/Graph/F32.lean:84). **C94, node on an edge.** A node added in `f32` exactly on an edge need not split it: (1, 2) on the edge from (0, 0) to (3, 6).

## C95 draw_graph draws the graph

Status: proved. C95_counterexample_release proves the clause about release builds.

- `C95_shapes` (Verif/Examples/DrawGraph.lean:106). **C95, shapes.** On a graph whose edges have valid node indices, `draw_graph` draws one circle per node and then one line per edge, in order, at the positions of the nodes and with the right titles, and nothing else.
- `C95_panic` (Verif/Examples/DrawGraph.lean:129). **C95, panic.** `draw_graph` panics exactly when some edge has an invalid node index.
- `C95_history` (Verif/Examples/DrawGraph.lean:152). **C95, histories.** Every graph built by the library with overflow checks on can be drawn.
- `C95_counterexample_release` (Verif/Examples/DrawGraph.lean:159). **C95, counterexample in release.** A self-loop followed by a removal gives a graph that cannot be drawn.
- `C95_demo` (Verif/Examples/DrawGraph.lean:172). **C95, example program.** The program of the example ends, in debug and in release, with an edge between (150, 50) and (150, 100) and nothing else.

## C96 The intersection count of the polygon example

Status: proved.

- `C96_count` (Verif/Examples/DrawPolygons.lean:135). **C96, count.** For every list of segments and any arithmetic, the loop ends without a panic and the number it prints is the number of pairs of positions `i < j` for which the intersection test gives a point.
- `C96_lines` (Verif/Examples/DrawPolygons.lean:157). **C96, lines.** The lines drawn are the segments, each once and in order.
- `C96_circles` (Verif/Examples/DrawPolygons.lean:189). **C96, circles.** A circle is drawn at a point exactly when some pair of segments meets there.
- `C96_exact` (Verif/Examples/DrawPolygons.lean:261). **C96, exact.** In exact arithmetic the number printed is the number of pairs of segments that cross.
- `C96_triangle` (Verif/Examples/DrawPolygons.lean:288). **C96, triangle.** For a triangle whose corners are not on one line, the triangle, its inscribed circle (its distance to the three side lines is its radius) and three lines from the corners to the centre of the circle are drawn; for a degenerate one only the triangle.
- `C96_triangles_count` (Verif/Examples/DrawPolygons.lean:307). **C96, triangles.** The number of elements drawn for a list of triangles: one each, and four more for each with an incenter

## C97 The triangulation drawn by the polygon example

Status: proved.

- `C97_triangulate` (Verif/Examples/DemoPolygon.lean:54). **C97, triangulation.** The polygon of the example is simple; the program computes its vertices without rounding error, `triangulate` ends on it, and the sixteen triangles tile it exactly.
- `C97_fills` (Verif/Examples/DemoPolygon.lean:86). **C97, fills.** One polygon is filled per triangle of the triangulation, in order, with the vertices of the triangle.
- `C97_hues` (Verif/Examples/DemoPolygon.lean:212). **C97, hues.** For up to 2^20 triangles, all hues are between 0 and 360, and a later triangle has a greater hue: no two triangles get the same colour.

## C98 Triangulation commutes with translate and uniform_scale

Status: proved. C98_counterexample_f32 proves the last sentence.

- `C98_scale` (Verif/Geom/Simple/Transform.lean:70). **C98, scale.** For every polygon and every `s ≠ 0`: `triangulate` ends on the scaled polygon exactly when it ends on the polygon, and the triangles are the scaled triangles, in the same order.
- `C98_translate` (Verif/Geom/Simple/Transform.lean:76). **C98, translate.**
- `C98_diagonal` (Verif/Geom/Simple/Transform.lean:82). **C98, diagonal.**
- `C98_simple` (Verif/Geom/Simple/Transform.lean:123). **C98, simple.** The scaled and the moved polygon are simple exactly when the polygon is.
- `C98_counterexample_f32` (Verif/Geom/Simple/Transform.lean:136). **C98, counterexample in `f32`.** The dart triangulates, but moved by (2^26, 0) it has no ear and `triangulate` runs forever; scaled by 2^-149, likewise.

## C99 Convex polygons are triangulated as a fan

Status: proved.

- `C99_diagonal` (Verif/Geom/Simple/Convex.lean:275). **C99, diagonals.** In a convex polygon `diagonal(i, j)` is true for any two vertices that are not neighbours, and false for neighbours and for `i = j`.
- `C99_fan` (Verif/Geom/Simple/Convex.lean:460). **C99, triangulate.** `triangulate` of a convex polygon with vertices `m`, `z` (in this order) returns the triangles between `z` and the edges of `m`, in order.
- `C99_simple` (Verif/Geom/Simple/Convex.lean:468). **C99, construction.** A convex polygon is simple and has positive area; `Polygon::new` keeps its vertices, and turns them around when they are given clockwise.
- `C99_fan_grid` (Verif/Geom/Simple/ConvexMore.lean:55). **C99, `f32` on a grid.** On a grid (C82) the `f32` run of `triangulate` on a convex polygon returns the same fan.
- `C99_fan_clear` (Verif/Geom/Simple/ConvexMore.lean:62). **C99, `f32` in clear position.** In clear position (C88) the `f32` run of `triangulate` on a convex polygon returns the same fan.
- `C99_regular` (Verif/Geom/Simple/ConvexMore.lean:151). **C99, regular polygons.** For every number of sides from 3 on, every radius other than 0 (also negative) and every centre, `Polygon::regular` followed by `triangulate` ends, without a panic, with the fan around the last vertex.
- `C99_flat` (Verif/Geom/Simple/ConvexMore.lean:184). **C99, flat polygons.** A polygon of at least four vertices, all on one line, is never triangulated: the loop runs forever.
- `C99_regular_zero` (Verif/Geom/Simple/ConvexMore.lean:231). **C99, radius 0.** A regular polygon with radius 0 and at least four sides is built without a panic, but `triangulate` never ends on it.

## C100 The unit constructors are the basis of the Clifford algebra

Status: proved.

- `C100_units` (Verif/GA/Clifford.lean:175). **C100.** The unit constructors are the basis elements of the Clifford algebra: `e₁, e₂, e₃`, their products and `1`.
- `C100_components` (Verif/GA/Clifford.lean:188). **C100, components.** The components of a vector, bivector or trivector are its coefficients in the unit elements, in the arithmetic of the code, and the unit bivectors and trivector are the wedge products of the unit vectors.

## C101 Planarity over whole histories

Status: proved.

- `C101_client` (Verif/Graph/Arrangement.lean:586). **C101, histories of clients.** Requests in general position make a history in general position: the hypotheses of `C101_history` can be met by every such client.
- `C101_step` (Verif/Graph/PlanarHistory.lean:282). **C101, one call.** In exact arithmetic, in both build profiles: a mutating call whose request is in general position takes a graph drawn in the plane (valid indices, no self-loops, distinct finite positions, planar) to such a graph. Removals need no hypothesis.
- `C101_history` (Verif/Graph/PlanarHistory.lean:307). **C101.** In exact arithmetic, in both build profiles: after every history of additions and removals that starts with the empty graph, does not panic, and whose additions are in general position when they are made, the graph is drawn in the plane: different edges meet only at common end nodes, no node lies on an edge it is not an end of, positions are distinct and indices valid.

## C102 The graph is the arrangement of the requested segments

Status: proved.

- `C102_arrangement` (Verif/Graph/Arrangement.lean:602). **C102.** In exact arithmetic, for every list of requests in general position: no call panics or returns an error; every requested point is a node with its data, at the index the client got; the nodes are exactly the requested points and the crossings, one node each, and those at crossings carry default data; a point is on an edge with data `c` exactly when it is on a requested segment with data `c`; the drawing is planar.
- `C102_edges` (Verif/Graph/Arrangement.lean:777). **C102, edges.** The edges are exactly the pieces of the requested segments: two nodes are joined by an edge with data `c` if and only if they are on a requested segment with data `c` and no other node is between them.
- `C102_simple` (Verif/Graph/Arrangement.lean:788). **C102, no parallel edges.** In a graph drawn in the plane, different slots hold edges between different pairs of nodes.

## C103 The order of requests does not matter

Status: proved. Proved for requests in general position, as stated; C103_counterexample shows that the hypothesis is needed.

- `C103_order` (Verif/Graph/Arrangement.lean:982). **C103.** In exact arithmetic: two lists of requests in general position that ask for the same points with the same data and for the same segments with the same data (in any order, and segments in any direction) produce the same graph up to the numbering of nodes, the order of edges and the direction of edges.
- `C103_reorder` (Verif/Graph/Arrangement.lean:1028). **C103, reordering.** If one list of requests is in general position and another one asks for the same points and segments in another order, both produce the same graph up to numbering.
- `C103_counterexample` (Verif/Graph/Arrangement.lean:1127). **C103 needs general position**: the point (2, 0) on the segment from (0, 0) to (4, 0). Requested after the segment it splits it; requested before the segment it stays inside the edge.

## C104 Numbers of nodes and edges and degrees of the arrangement

Status: proved.

- `C104_counts` (Verif/Graph/Count.lean:452). **C104.** In exact arithmetic, for every list of requests in general position: there are finitely many crossings, the graph has one node per requested point and one per crossing, and one edge per requested segment and two more per crossing.
- `C104_pieces` (Verif/Graph/Count.lean:477). **C104, pieces.** A requested segment is drawn by one edge more than there are crossings on it.
- `C104_degree` (Verif/Graph/Count.lean:633). **C104, degrees.** `number_of_edges_incident_to` of a crossing is 4; of a requested point it is the number of requested segments that end there.

## C105 The loop of triangulate ends after n - 3 rounds or is stuck

Status: proved.

- `C105_rounds` (Verif/Geom/Rounds.lean:100). **C105.** In any arithmetic, for every polygon with `n` vertices, `n` at least 4, `triangulate` builds its initial state without a panic, and then either * runs exactly `n - 3` rounds, each of which cuts off one triangle, and returns `n - 2` triangles; or * after fewer than `n - 3` rounds, each of which removed one vertex, reaches a state in which no ear is flagged; every further round leaves this state as it is, and the call never returns.
- `C105_deterministic` (Verif/Geom/Rounds.lean:133). **C105, determinism.** A call has at most one outcome.

## C106 Laws of the algebra that survive rounding

Status: proved.

- `C106_symmetric` (Verif/GA/Rounded.lean:39). **C106, commutativity.** The inner product is commutative and the cosine of `angle` is symmetric, bit by bit.
- `C106_wedge` (Verif/GA/Rounded.lean:56). **C106, anticommutativity.** Exchanging the factors negates the wedge product, so `v * u` is the reverse of `u * v`.
- `C106_signs` (Verif/GA/Rounded.lean:71). **C106, signs.** Negating an argument negates the norm not at all, the normalised value and the inverse bit by bit, and the products up to the sign of zero.
- `C106_rotate` (Verif/GA/Rounded.lean:108). **C106, double cover.** A rotor and its negative rotate alike, and rotating the opposite vector gives the opposite vector.
- `C106_mirror` (Verif/GA/Rounded.lean:147). **C106, mirrors.** Reflecting about a vector or its negative is the same, and so is projecting.
- `C106_identity` (Verif/GA/Rounded.lean:212). **C106, identity.** The identity rotor is neutral for finite operands, on both sides and as a rotation.

## C107 Accuracy of the algebra in f32

Status: proved.

- `C107_dot` (Verif/GA/Accuracy.lean:106). **C107, inner product.** The computed inner product of two vectors is finite; its error is at most `2^-22` of the sum of the absolute products, plus `2^-148` for underflow.
- `C107_wedge` (Verif/GA/Accuracy.lean:119). **C107, outer product.** Each component of the computed wedge product of two vectors is finite, with an error of at most `3 * 2^-24` of the two absolute products, plus `2^-148`.
- `C107_norm_vector` (Verif/GA/Accuracy.lean:172). **C107, length of a vector.**
- `C107_norm_bivector` (Verif/GA/Accuracy.lean:208). **C107, area of a bivector.**
- `C107_norm_rotor` (Verif/GA/Accuracy.lean:223). **C107, length of a rotor.**
- `C107_normalize_vector` (Verif/GA/Accuracy.lean:359). **C107, normalize.** For a vector of length at least `2^-40`, each component of the computed `normalize` is within `2^-21` of the component of the true unit vector, and its length is within `2^-20` of 1.
- `C107_normalize_bivector` (Verif/GA/Accuracy.lean:395). **C107, normalize.** The same for bivectors.
- `C107_normalize_rotor` (Verif/GA/Accuracy.lean:464). **C107, normalize.** The same for rotors.
- `C107_rotate` (Verif/GA/Accuracy.lean:567). **C107, rotate.** Take a rotor of length at least `2^-40` and a vector with components of absolute value at most `B`. Normalising the rotor and rotating the vector by it, both in `f32`, gives the exact rotation by the exact unit rotor, with an error of at most `B * 2^-15` (and `2^-145` for underflow) in each component.
- `C107_from_vectors` (Verif/GA/Accuracy.lean:663). **C107, from_vectors.** For vectors with components of absolute value at most 2 for which the rotor `1 + v·u + v∧u` has a length `L` of at least `2^-8` (for unit vectors `L` is twice the cosine of half the angle between them), each component of the computed rotor is within `2^-14 / L` of the component of the exact rotor.

## C108 The remaining geometry helpers are accurate in f32

Status: proved.

- `C108_inradius` (Verif/Geom/InradiusF32.lean:278). **C108, inradius.** Let half the perimeter `P` lie between `2^-20` and `2^30` and exceed each side by at least `θ P`, `2^-10 ≤ θ` (the triangle is not too flat). Then the `f32` computation finds a circle, and its radius is the radius of the incircle up to a relative error of `2^-17 / θ`.
- `C108_closest` (Verif/Geom/UtilsF32.lean:61). **C108, nearest point.** For points with coordinates up to `2^60`, `find_closest_to` on a list that is not empty returns the index of a point and its distance up to `2^-21`; no point of the list is nearer by more than a factor `1 + 2^-19`, up to `2^-71`.
- `C108_close` (Verif/Geom/UtilsF32.lean:88). **C108, points taken for equal.** `close_to` says yes only for points less than `(1 + 2^-20) 2^-23` apart, and no only for points at least `(1 - 2^-20) 2^-23` apart.
- `C108_degenerate` (Verif/Geom/UtilsF32.lean:132). **C108, degenerate triangles.** If the triangle test of `calculate_triangle_incenter` says degenerate, then the detour over one corner is longer than the opposite side by at most a factor `1 + 2^-19`, up to `2^-70`. (So every triangle that is clearly not flat gets an incentre.)
- `C108_incenter` (Verif/Geom/UtilsF32.lean:344). **C108, incentre.** For a triangle with coordinates up to `R ≤ 2^60` and perimeter at least `2^-40`, an incentre computed in `f32` is within `2^-19 R` of the point inside the triangle that has the same distance from its three sides.
- `C108_foot` (Verif/Geom/UtilsF32.lean:556). **C108, foot of a perpendicular.** For points with coordinates up to `B ≤ 2^60` and a line through two points at least `2^-30` apart, the point computed in `f32` is finite and within `2^-18 B` of the foot of the perpendicular.
- `C108_line_near` (Verif/Geom/UtilsF32.lean:609). **C108, intersection.** A point returned by `calculate_line_intersection` in `f32` is finite and within `2^-21 B` of a point of the first segment.

## C109 Removing the edge that was just added restores the graph

Status: partial. False for every graph (C109_counterexample): remove_edge panics when both ends had edges before, and otherwise deletes the ends that had none. C109_undo_partial gives the exact outcome.

- `C109_undo_partial` (Verif/Graph/Undo.lean:55). **C109, exactly.** Suppose nothing is in the way of the new edge `s`-`d` (`C85`). Removing the edge that `add_edge` appended panics if both ends had edges before. Otherwise all edges of the old graph are there again, but each end without an edge is deleted. Missing: the graph is never restored (`C109_counterexample`).
- `C109_counterexample` (Verif/Graph/Undo.lean:130). **C109 is false, for every graph**: whenever nothing is in the way of the new edge, removing it again does not give the old graph back.

## C110 The graph is made of walks, one for each accepted request

Status: proved.

- `C110_walks` (Verif/Graph/Walks.lean:298). **C110.** Any sequence of `add_node` and `add_edge` from the empty graph runs without panic, in any arithmetic, and the edges of the final graph are shared out among the accepted calls of `add_edge`: each owns a walk of at least one edge between its two nodes, and all edges of the walk carry its data.
- `C110_count` (Verif/Graph/Walks.lean:336). **C110, counting.** There are at least as many edges as accepted requests, and every edge carries the data of one of them.

## C111 The f32 drawing follows the requested segments

Status: proved.

- `C111_drawing` (Verif/Graph/WalksF32.lean:50). **C111.** Take any sequence of `add_node` and `add_edge` in `f32` such that all nodes of the final graph have coordinates up to `2^60`. The edges of the final graph are shared out among the accepted requests. Each owns a walk between its nodes whose edges carry its data; if it has `m + 1` edges its true length is at most `(1 + 2^-18)^m (L + m 2^-21)`, where `L` is the true distance of the two nodes, and its drawing follows the segment between them accordingly.
- `C111_nodes` (Verif/Graph/WalksF32.lean:250). **C111, nodes.** Let `B` bound the coordinates of the nodes and `m + 1` be the number of edges (or more). Every node is exactly at a point asked for with `add_node`, or the detour through it between the two nodes of some accepted request is at most `(1 + 2^-18)^m (L + m 2^-21) + B/2^19 + 2^-147`, where `L` is their true distance.
- `C111_few` (Verif/Graph/WalksF32.lean:277). **C111, few splits.** With at most 17 edges in the walk: every point of it is within `L/64 + 1/256` of the segment between its ends, and every point of the segment is within half of that of the walk.
- `C111_exact` (Verif/Graph/WalksF32.lean:312). **C111, exact arithmetic.** If all nodes of the final graph have finite positions, the walk of a request with `m + 1` edges is at most `L + m ε` long, and its drawing follows the segment accordingly.

## C112 Every node and edge has a provenance

Status: proved.

- `C112_provenance` (Verif/Graph/Provenance.lean:353). **C112.** After any sequence of calls of the four methods that did not panic and never asked for a self-loop, debug or release, in any lawful arithmetic and so in `f32`: * every edge has an empty label and carries the data of an accepted request, and its two ends arise from the positions the two requested nodes had at that time by cutting at positions of nodes that passed the on-segment test; the number of cuts is at most half the number of edge indices reported so far; * every node has an empty label, and it has position and data of some call of `add_node`, or it has default data and is the computed crossing of such a piece of a request with a requested segment.

## C113 The f32 drawing stays near the requests when edges and nodes are removed

Status: proved.

- `C113_coordinates` (Verif/Graph/ProvenanceF32.lean:264). **C113, coordinates.** Take any sequence of calls in `f32` with `n` calls of `add_edge`, none for a self-loop, whose calls of `add_node` ask for finite coordinates of size at most `B`. All nodes that exist at any time, the crossings included, have finite coordinates of size at most `(1 + 2^-21)^n (B + n 2^-149)`, as long as this is at most `2^60`.
- `C113_few` (Verif/Graph/ProvenanceF32.lean:287). **C113, moderate sizes.** With up to `2^20` calls of `add_edge` and coordinates up to `B ≤ 2^58` the condition holds, and all coordinates stay below `2 B + 2^-128`.
- `C113_edges` (Verif/Graph/ProvenanceF32.lean:334). **C113, edges.** Take such a sequence of calls in `f32`, removals included. For every edge of the graph it leads to there is an accepted request with its data, such that every point of the drawn edge is so close to the requested segment that the way over it between the ends of the segment is at most `(1 + 2^-18)^m (L + m 2^-21)` long, where `L` is the true length of the segment and `m` half the number of edge indices reported so far.
- `C113_nodes` (Verif/Graph/ProvenanceF32.lean:360). **C113, nodes.** Every node of that graph has position and data of some call of `add_node`, or it has default data and is almost as close to some accepted request as the edges are.
- `C113_exact` (Verif/Graph/ProvenanceF32.lean:410). **C113, exact arithmetic.** If all nodes that exist at any time have finite positions, the way is at most `m ε` longer than the segment.

## C114 Scaling by a power of two commutes with the polygon code in f32

Status: proved.

- `C114_exact` (Verif/Geom/Simple/ScaleF32.lean:180). **C114, coordinates.** Multiplying a coordinate by the power of two is exact.
- `C114_area2` (Verif/Geom/Simple/ScaleF32.lean:192). **C114, area2.** The area function of three scaled points is the square of the factor times that of the points, without any rounding error of its own.
- `C114_diagonal` (Verif/Geom/Simple/ScaleF32.lean:198). **C114, diagonals.**
- `C114_triangulate` (Verif/Geom/Simple/ScaleF32.lean:205). **C114, triangles.** `triangulate` ends on the scaled polygon exactly when it ends on the polygon, with the scaled triangles in the same order.
- `C114_new` (Verif/Geom/Simple/ScaleF32.lean:260). **C114, new.** The constructor turns the scaled vertices around exactly when it turns the vertices around.
- `C114_area` (Verif/Geom/Simple/ScaleF32.lean:295). **C114, area.**
- `C114_center` (Verif/Geom/Simple/ScaleF32.lean:349). **C114, centre.**
- `C114_other_factors` (Verif/Geom/Simple/ScaleF32.lean:403). **C114, other factors.** For the factor 0.1 none of this holds: `area_poly2` of these three points on a line is zero, that of the scaled points is negative, and the constructor turns the scaled points around but not the points.

## C115 center, translate and uniform_scale are accurate in f32

Status: proved.

- `C115_center` (Verif/Geom/CenterF32.lean:135). **C115, centre.** For 1 to `2^24` vertices with coordinates up to `B ≤ 2^60`, the centre is finite and each coordinate is within `(n + 2) 2^-24 B` (and half the least subnormal number) of the mean of the coordinates.
- `C115_move` (Verif/Geom/CenterF32.lean:163). **C115, moving and scaling.** Every coordinate is off by at most `2^-24` of its exact value; scaling adds at most half the least subnormal number.
- `C115_outside` (Verif/Geom/CenterF32.lean:190). **C115, outside.** The bound cannot be replaced by "the centre lies in the polygon": the centre of this triangle of positive area lies strictly below its three vertices.

## C116 In f32 a drawing with margins becomes the true arrangement

Status: proved. C116_counterexample_size proves the last sentence. C116_session is the comparison with exact arithmetic, C116_arrangement the description of the f32 graph.

- `C116_session` (Verif/Graph/MarginF32.lean:473). **C116.** For all calls with finite coordinates whose points, crossings and segments keep the margins: the f32 client and the exact client get the same indices and the same replies, without panics and errors; the f32 graph has the edges of the exact graph, and its nodes are the nodes of the exact graph, the requested ones in place, the others not farther than `posBound` from their place.
- `C116_arrangement` (Verif/Graph/MarginF32.lean:499). **C116, the arrangement.** Under the same hypotheses the f32 graph is the arrangement of the requested segments: there are true places of its nodes, different for different nodes, and these are exactly the requested points and the crossings; the f32 positions are not farther than `posBound` from them; the indices kept by the client are those of nodes at the requested positions with the requested data; two nodes are joined by an edge with data `c` if and only if they are on a requested segment with data `c` and no other node is between them.
- `C116_counterexample_size` (Verif/Graph/MarginF32.lean:744). **C116 needs small coordinates.** Two segments with coordinates up to 4 that keep margins of 1/4 and enclose an angle with a sine of more than 1/2: all hypotheses but the bound on the coordinates are met, but the f32 client gets two edges, none of them split at the crossing, and an isolated node.

## C117 The f32 drawing with margins is planar

Status: proved.

- `C117_planar` (Verif/Graph/MarginPlanar.lean:342). **C117.** With the margins of C116 the f32 graph, drawn with its f32 positions, is a planar drawing.

## C118 Inverses, projections, reflections, angles and products of rotors are accurate in f32

Status: proved.

- `C118_inverse_vector` (Verif/GA/Accuracy2.lean:121). **C118, inverse.** For a vector of length `L` of at least `2^-40`, each component of the computed inverse is within `2^-21 / L` of the component of `v / L^2`.
- `C118_inverse_bivector` (Verif/GA/Accuracy2.lean:138). **C118, inverse.** The same for bivectors: the inverse is `-b / |b|^2`.
- `C118_project` (Verif/GA/Accuracy2.lean:220). **C118, project.** For `v` of length at least `2^-40`, each component of the computed projection of `w` onto `v` is within `2^-20` of the length of `w` (and `2^-100`) of the component of `(w·v / v·v) v`.
- `C118_reflect` (Verif/GA/Accuracy2.lean:359). **C118, reflect.** For `v` of length at least `2^-40`, each component of the computed reflection of `w` about `v` is within `2^-17` of the length of `w` (and `2^-82`) of the component of `2 (w·v / v·v) v - w`.
- `C118_angle_cos` (Verif/GA/Accuracy2.lean:439). **C118, angle.** For two vectors of length at least `2^-40`, the number that `angle` passes to `acos` is within `2^-18` of the cosine of the angle.
- `C118_rotor_product` (Verif/GA/Accuracy2.lean:592). **C118, product of rotors.** Each component of the computed product is within `5 * 2^-24` of the product of the lengths (and `2^-147`) of the exact component.
- `C118_rotor_chain` (Verif/GA/Accuracy2.lean:738). **C118, long products.** Multiply up to `2^16 + 1` rotors of `f32` components whose lengths are within `2^-20` of 1, as `normalize` returns them, from the left to the right. With `n` multiplications the computed rotor is finite, within `n * 2^-20` of the exact product of the given rotors, and of a length within `(n + 1) * 2^-18` of 1.

## C119 Rotors from angles and regular polygons are accurate in f32

Status: proved.

- `C119_from_angle_plane` (Verif/Geom/TrigF32.lean:92). **C119, from_angle_plane.** For an angle of at most 14 and a plane with components up to 1.1 (a bivector returned by `normalize` has them), the computed rotor is `cos(angle/2) - sin(angle/2) plane` up to `2^-20` in the scalar and `2^-19` in the bivector.
- `C119_regular` (Verif/Geom/TrigF32.lean:208). **C119, regular.** For 3 to `2^24` sides, `regular` returns a polygon of the points computed for the angles `2 π i / n`, in this or in the opposite order. Their coordinates are finite and within `2^-19` of the circumradius, `2^-24` of the coordinate of the centre and `2^-149` of the true ones.
- `C119_regular_order` (Verif/Geom/TrigF32.lean:393). **C119, order of the vertices.** For 3 to 1024 sides, a circumradius between `2^-40` and `2^30` and a centre whose coordinates are at most 32 times the circumradius, the orientation check of `Polygon::new` keeps the order of the vertices.

## C120 A caught panic does not corrupt the graph

Status: proved.

- `C120_agree` (Verif/Graph/Caught.lean:461). **C120.** Executed statement by statement on a mutable graph, the four methods give the results, graphs and panics of the functional model, for all graphs and arguments, in any arithmetic and both build profiles.
- `C120_remove` (Verif/Graph/Caught.lean:473). **C120.** A panic in `remove_node` leaves the graph as it was. A panic in `remove_edge` leaves the graph as it was, or without the requested edge and otherwise as it was; the latter only if the edge is the last one and both its ends have other edges.
- `C120_remove_last` (Verif/Graph/Caught.lean:491). **C120.** The panic in the middle of `remove_edge`: if the edge is the last one and both its ends have other edges, the call panics, and the edge is gone nevertheless.
- `C120_add` (Verif/Graph/Caught.lean:553). **C120.** Whether `add_node` or `add_edge` returns or panics, all earlier nodes are still there, unchanged and under the same index, and there are at least as many edges as before.
- `C120_caught_valid` (Verif/Graph/Caught.lean:639). **C120.** If every panic is caught and the program goes on with the graph that is left, both node indices of every edge stay valid: in debug builds for all sequences of calls and in any arithmetic.
- `C120_caught_valid_release` (Verif/Graph/Caught.lean:654). **C120.** The same in both build profiles for sequences that never call `add_edge(s, s)`, and then no edge ever joins a node to itself (f32 and exact arithmetic).

## C121 In f32 the order of requests does not matter for drawings with margins

Status: proved.

- `C121_order` (Verif/Graph/MarginOrder.lean:73). **C121.** Two sequences of f32 calls that ask for the same points with the same data and for the same segments with the same data, in different orders and segments in either direction, and that both keep the margins of C116, produce the same graph up to the numbering of nodes, the order and direction of edges, and the rounding of crossings.
- `C121_size` (Verif/Graph/MarginOrder.lean:129). **C121, size.** With the margins of C116 the f32 graph has one node per requested point and one per crossing, and one edge per requested segment and two more per crossing; a requested point has as many edges as segments end there, every other node has 4.
- `C121_rounding` (Verif/Graph/MarginOrder.lean:267). **C121, the positions do differ.** The crossing is rounded differently in the two orders.

## C122 parallel in f32

Status: proved.

- `C122_symmetry` (Verif/Geom/ParallelF32.lean:51). **C122, symmetry.** The answer of `parallel` depends neither on the order of the segments nor on their directions, for all f32 numbers including NaN and infinities.
- `C122_cosine` (Verif/Geom/ParallelF32.lean:102). **C122, the cosine.** The number that `parallel` compares with 1 is the cosine of the angle up to `55 * 2^-24`, for segments with coordinates up to `2^60` and lengths of at least `2^-40`.
- `C122_angle` (Verif/Geom/ParallelF32.lean:135). **C122, the angle.** If `parallel` answers `true` for such segments, then the sine of the angle between their lines is at most `2^-8.5`.
- `C122_point` (Verif/Geom/ParallelF32.lean:208). **C122, points.** A segment without length is parallel to nothing.
- `C122_not_reflexive` (Verif/Geom/ParallelF32.lean:221). **C122, not reflexive.** The segment from (0, 0) to (1, 4) is not parallel to itself, nor to the one from (0, 0) to (2, 8).

## C123 Perpendicular bisectors and Line::contains in f32

Status: proved.

- `C123_bisector` (Verif/Geom/BisectorF32.lean:126). **C123.** For a segment that is neither horizontal nor vertical, with coordinates and offset up to `B`, and whose perpendicular has a slope `σ` of size between `2^-40` and `2^40`: there is a point `q` of the perpendicular bisector with first coordinate `offset` to the right of the midpoint; the computed second point is finite, within `2^-21 B` of `q` in the first and within `2^-18 (1 + |σ|) B` of it in the second coordinate.
- `C123_vertical` (Verif/Geom/BisectorF32.lean:279). **C123, vertical segments.** When the first coordinates agree and the second do not, the computed points have the same second coordinate, that of the computed midpoint: the slope of the segment is an infinity and `-1` divided by it a zero.
- `C123_horizontal` (Verif/Geom/BisectorF32.lean:316). **C123, horizontal segments.** When the second coordinates agree and the first do not, the second coordinate of the second point is not finite, whatever the offset.
- `C123_line` (Verif/Geom/BisectorF32.lean:442). **C123, the line.** Let no coordinate of the point be further than `D` from that of the line's point, and the components of the direction at most `U`. A point whose true area components are at most `2^-23` less the error `7·2^-24·D·U` is accepted; an accepted point has true area components at most `2^-23` plus that error.
- `C123_on_line` (Verif/Geom/BisectorF32.lean:488). **C123, consequence.** A point exactly on the line, with `D · U` at most `2/7`, is accepted.
- `C123_far_rejected` (Verif/Geom/BisectorF32.lean:506). **C123, far points.** The point (16777216, 2019, 0) is on the line through (-1, 0, 0) in the direction (24929, 3, 0), at `t = 673`, and is rejected.

## C124 Drawing and erasing in f32 with margins

Status: proved.

- `C124_history` (Verif/Graph/MarginErase.lean:555). **C124.** Any calls of `add_node`, `add_edge`, `remove_edge` and `remove_node` on an empty graph, in any order and with any indices, such that points are among `P`, no segment from a node to itself is asked for, and the segments ever drawn have their ends in `P` and keep the margins of C116, whether or not they have been erased in between. Then the f32 calls and the exact calls panic alike, or they get the same answers; in this case the f32 graph has the edges of the exact graph and its nodes up to `posBound`, nodes at points of `P` being in place; every edge is a part of a drawn segment and carries its data; and the f32 graph is a planar drawing.
- `C124_erase` (Verif/Graph/MarginErase.lean:632). **C124, erasing alone.** A planar f32 drawing without self-loops stays one when edges and nodes are removed, with any coordinates and without margins.
- `C124_redraw` (Verif/Graph/MarginErase.lean:794). **C124 needs that no segment is drawn twice.** When one of two crossing segments is erased and drawn again, it runs through the node that the first crossing has left, and is not split there: the two halves of the other segment give the same intersection, and `unique_points_among` drops both.

## C125 Which tolerance tests in f32 are exact tests

Status: proved.

- `C125_on_segment` (Verif/Geom/SpacingF32.lean:130). **C125, `is_on_line_segment`.** For segments longer than 1 the tolerance plays no part: the answer is `true` exactly if the two computed distances add up to the computed length and each is above the tolerance.
- `C125_close_to` (Verif/Geom/SpacingF32.lean:351). **C125, `close_to`.** Points with coordinates on the grid of step `2^-22` (whole numbers, for instance, and all numbers of size 2 and more) are close exactly if they are at the same position.
- `C125_sharp_segment` (Verif/Geom/SpacingF32.lean:429). **C125 is sharp, `is_on_line_segment`.** On the segment from (0, 0) to (0.6, 0.8), whose computed length is exactly 1, the point (0.078, 0.104) is accepted although the two computed distances add up to less than 1.
- `C125_sharp_close` (Verif/Geom/SpacingF32.lean:443). **C125 is sharp, `close_to`.** Different points with coordinates on the grid of step `2^-23` can be close.
- `C125_add_node` (Verif/Graph/SpacingF32.lean:42). **C125, `add_node`.** With all coordinates on the grid of step `2^-23` (whole numbers, for instance, and all numbers of size 1 and more) `add_node` reuses a node exactly if one is at the given position, and then the first such node; otherwise it appends one.
- `C125_sharp_node` (Verif/Graph/SpacingF32.lean:120). **C125 is sharp, `add_node`.** On the grid of step `2^-24` two points at different positions become one node.

## C126 Crossing streets on the whole-number grid in f32

Status: proved.

- `C126_cross` (Verif/Geom/GridCross.lean:713). **C126.** A horizontal segment `a b` and a vertical segment `c d` with whole coordinates of size at most 1024 that cross inside both of them: in f32 the crossing is found from either side, it is off by at most `3 * 2^-14` along the segment it is computed on, it passes the on-segment test for both segments, and it is away from the four ends.
- `C126_streets` (Verif/Graph/GridCross.lean:115). **C126, on the graph.** A horizontal and a vertical street between whole-number points of size at most 1024 that cross are split at one new node, away from the given ones, whichever is drawn first: the new node has exactly the four pieces.
- `C126_third_street` (Verif/Graph/GridCross.lean:175). **C126 stops at two.** The third crossing makes a node (number 10) and splits the new street there, but the piece 4-7 of the long street, whose ends are at 27 and 63 up to rounding, is not split: the long street passes node 10 without a joint.

## C127 Plane drawings on a small whole-number grid are kept as they are in f32

Status: proved.

- `C127_off` (Verif/Geom/PlaneGrid.lean:193). **C127, the test.** For whole-number points, `a` and `b` at most 40 apart in each coordinate, `is_on_line_segment` accepts no point that is not on the segment (and, as always, no end point).
- `C127_sharp_test` (Verif/Geom/PlaneGrid.lean:294). **C127, the test, is close to sharp.** At a distance of 49 the point (15, 16), which is not on the segment from (0, 0) to (46, 49), is accepted.
- `C127_add_node` (Verif/Graph/PlaneGrid.lean:157). **C127, `add_node`.** At a free position off the edges, the node is appended and nothing else changes.
- `C127_add_edge` (Verif/Graph/PlaneGrid.lean:217). **C127, `add_edge`.** A segment between two nodes that contains no others and meets the edges only in common ends is appended and nothing else changes, unless the two are joined already; then nothing changes at all.
- `C127_session` (Verif/Graph/PlaneGrid.lean:483). **C127.** For all calls with whole coordinates (of a size of at most `2^22`) in a square of side 40 that ask for a plane drawing, in any order: the f32 client never panics, and the graph, the indices and the replies are those of the reference that does no geometry.
- `C127_sharp` (Verif/Graph/PlaneGrid.lean:576). **C127 is close to sharp.** At a distance of 49: the point (15, 16) is not on the segment from (0, 0) to (46, 49), but `add_node` splits the segment there.

## C128 Street maps on a small whole-number grid are exact in f32

Status: proved.

- `C128_meet` (Verif/Geom/StreetGrid.lean:153). **C128, the crossing.** Segments between whole-number points with differences of at most 12. If the point where they meet in exact arithmetic, if there is one, has whole coordinates, then f32 finds exactly this point, and none if there is none.
- `C128_on` (Verif/Geom/StreetGrid.lean:352). **C128, the test.** For whole-number points with differences of at most 12 and a horizontal or vertical segment, `is_on_line_segment` in f32 and in exact arithmetic accepts exactly the points on the segment that are not its ends.
- `C128_sharp_size` (Verif/Geom/StreetGrid.lean:492). **C128 is sharp for the size.** Over a length of 13 the crossing at (7, 0) is found next to it.
- `C128_sharp_diagonal` (Verif/Geom/StreetGrid.lean:501). **C128 is sharp for the directions.** On the diagonal from (0, 0) to (7, 7) the point (1, 1) is rejected in f32.
- `C128_history` (Verif/Graph/StreetGrid.lean:577). **C128.** Any calls of `add_node`, `add_edge`, `remove_edge` and `remove_node` on an empty graph, in any order and with any indices, such that new points have whole coordinates in a square of side 12 and the segments drawn are horizontal or vertical and join different nodes. Then the f32 calls do exactly what the calls in exact arithmetic do: they panic alike or get the same answers, and the nodes of the f32 graph are exactly where the nodes of the exact graph are.
- `C128_redraw_exact` (Verif/Graph/StreetGrid.lean:634). **C128, used.** What `townOps` leave in exact arithmetic, read off from f32. The street drawn last passes two nodes and lies over two edges: the point where it meets two edges at once is dropped.
- `C128_sharp_split` (Verif/Graph/StreetGrid.lean:656). **C128 is sharp for the directions.** A node put on a diagonal does not split it.

## C129 Printed f32 numbers read back

Status: proved.

- `C129_read_back` (Verif/Num/Display.lean:648). **C129, read back.** The decimal printed for a finite number has that number as the nearest `f32`.
- `C129_shortest` (Verif/Num/Display.lean:664). **C129, shortest.** No decimal that reads back as the number has fewer significant digits than the printed one, and none with the same number of digits is nearer.
- `C129_characters` (Verif/Num/Display.lean:799). **C129, characters.** A finite number is printed with digits, at most one point between digits, and at most one leading minus sign; in particular without spaces, commas or an exponent.
- `C129_injective` (Verif/Num/Display.lean:829). **C129, different numbers.** Different numbers are printed differently (up to the sign of zero in old versions of Rust).
- `C129_whole` (Verif/Num/Display.lean:1008). **C129, whole numbers.** A whole number below `2^24` is printed as that integer, without a point.
- `C129_sharp_whole` (Verif/Num/Display.lean:1048). from `2^24` on this is no longer so for every integer: 16777217 is printed as 16777216

## C130 A drawing determines what was drawn

Status: proved.

- `C130_polygon` (Verif/Examples/SvgF32.lean:84). **C130, polygons.** The `points` attribute determines the list of vertices, so different polygons give different elements.
- `C130_graph` (Verif/Examples/SvgF32.lean:221). **C130, graphs.** Two graphs with the same drawing have the same node positions (bit by bit) and the same edges, in the same order: nothing but labels and attached data is lost in the drawing.
- `C130_demo` (Verif/Examples/SvgF32.lean:255). **C130, example program.** The text of the attributes of the graph example: whole coordinates are printed without a fraction.
- `C130_sharp_old_rust` (Verif/Examples/SvgF32.lean:280). A version of Rust before 1.53 drops the sign of zero: two graphs with the same drawing.

## C131 The example programs put exactly their drawing on the page

Status: proved.

- `C131_draw_graph` (Verif/Examples/Page.lean:373). **C131, draw_graph.** On any page, for any graph whose edges have valid indices, `draw_graph` appends exactly the shapes of `Draw.drawGraph`, each with its title as its only child, at the end of the `svg` element; the circle of node `i` gets the handler that has captured `i`, lines get none; nothing else on the page changes.
- `C131_run` (Verif/Examples/Page.lean:547). **C131, run.** On any page with a body, for any calls that build a graph with valid edges, `run` succeeds; the body gets four more children at the end, the `svg` element among them has the shapes of the drawing (C95) with their titles and handlers as its children in order, and the console gets one line. Nothing else on the page changes.
- `C131_run_panic` (Verif/Examples/Page.lean:612). **C131, panics.** `run` never throws. It panics exactly if there is no body, if building the graph panics (then the page has the heading and the empty `svg` element), or if the graph has an edge whose node does not exist (in release builds only, `C95_history`).
- `C131_template` (Verif/Examples/Page.lean:1168). **C131, template.** The template adds the heading and an empty drawing.
- `C131_cast` (Verif/Examples/Page.lean:1194). **C131, `as i32`.** The cast drops the fraction and saturates.
- `C131_size` (Verif/Examples/Page.lean:1241). **C131, size.** For a whole number of pixels the view box of `svg_main` is the size of the drawing.
- `C131_sharp_size` (Verif/Examples/Page.lean:1261). a size of half a pixel has an empty view box
- `C131_polygons` (Verif/Examples/PagePolygons.lean:329). **C131, polygons.** On any page with a body, whatever the random triangles and segments, the program ends without a panic or an error; the drawing has the triangles and segments with the crossings found (C96), then the polygon and its triangles (C97), in this order, and the paragraph says how many pairs of segments cross.
- `C131_polygons_end` (Verif/Examples/PagePolygons.lean:401). **C131, polygons, with the triangulation.** The loop `triangulate` ends on the polygon of the example with sixteen triangles (C97), and with them the program ends normally on every page with a body.

## C132 Clicks on the drawing

Status: proved.

- `C132_clicks` (Verif/Examples/Page.lean:1120). **C132, clicks.** `run` on a page whose body is in the document, without click handlers and without the ids `main` and `clicked`, followed by any clicks on any elements of the page (or outside): no click panics or throws, and the only change is the text of `#clicked`, which names the node of the last click on the circle of a node or on its title, "No node selected" before the first.
- `C132_sharp_twice` (Verif/Examples/Page.lean:1161). **C132, limit.** Running the program twice on one page is not covered: the handlers of the second drawing find the paragraph of the first one (both have the id `clicked`), the text below the second drawing never changes.
- `C132_plain` (Verif/Examples/Page.lean:1360). **C132, text.** After `run` and any clicks, the markup of every element that was added is a text that is shown as it is. (The `<` in the title of an edge is not the start of a tag because a digit follows.)

## C133 Drawing and erasing on a small whole-number grid

Status: proved.

- `C133_step` (Verif/Graph/Editor.lean:695). **C133, one edit.** On a graph that shows a picture: marking and drawing never panic; whatever the edit, if it does not panic the graph shows the picture after the edit, provided that picture is plane.
- `C133_panics` (Verif/Graph/Editor.lean:714). **C133, panics.** Erasing a point panics exactly if the point is marked and no segment ends there; erasing a segment panics only if it is there and further segments end at both of its ends.
- `C133_session` (Verif/Graph/Editor.lean:816). **C133.** For all edits with whole coordinates (of a size of at most `2^22`) in a square of side 40 that keep the picture plane, in both build profiles: if no call panics, the f32 graph shows exactly the picture that the edits describe, with one node for each point and one edge for each segment.
- `C133_same_picture` (Verif/Graph/Editor.lean:831). **C133, order and detours do not matter.** Two sessions of edits that describe the same picture leave graphs that show the same, whatever was drawn and erased in between.
- `C133_stays_plane` (Verif/Graph/Editor.lean:851). **C133, a sufficient condition.** The picture stays plane if all that is ever drawn is one plane picture.
- `C133_sharp_panic` (Verif/Graph/Editor.lean:955). **C133, a panic that happens.** The side drawn last cannot be erased first, whatever its place in the picture.

## C134 A FOLD file is read according to the JSON grammar

Status: proved.

- `C134_grammar` (Verif/Fold/Reader.lean:434). **C134.** The reader accepts exactly the JSON texts, and gives each the tree it stands for.
- `C134_unambiguous` (Verif/Fold/Reader.lean:460). **C134, no ambiguity.** A JSON text stands for one tree.
- `C134_from_file` (Verif/Fold/Writer.lean:308). **C134, files.** `from_file` returns `x` exactly for files whose contents are a JSON text whose tree is accepted as `x`, and panics exactly for readable files that are no JSON text or whose tree is not accepted.

## C135 A FOLD value written as text is read back

Status: proved.

- `C135_tree` (Verif/Fold/Writer.lean:211). **C135, trees.** What serde_json writes for a tree is a JSON text for this tree, and is read back as this tree.
- `C135_file` (Verif/Fold/Writer.lean:274). **C135, files.** If the text that serde_json writes for `x` is put into a file, then `from_file` returns `y` if and only if all vertex coordinates and edge lengths of `x` are finite and `y` is `x` without the four lost fields (see C71); it panics exactly when a coordinate or length is not finite.

## C136 A truncated FOLD file is never loaded

Status: proved.

- `C136_truncated` (Verif/Fold/Writer.lean:363). **C136.** If a file is read, then the same file with its end missing is not: unless only white space is missing, `from_file` panics, and never returns a part of the drawing.

## C137 file_spec may be any number

Status: partial. Exactly the integer tokens in the range of i32 are accepted (C137_file_spec_partial); 1.1 and 1.0 make from_file panic (C137_counterexample).

- `C137_file_spec_partial` (Verif/Fold/Files.lean:109). **C137, exactly what is accepted.** The comment in `Fold` calls `file_spec` a number, but a file whose only entry is a `file_spec` is loaded if and only if the number is written as an integer in the range of `i32`; otherwise `from_file` panics. Missing: numbers with a fraction or an exponent (`C137_counterexample`).
- `C137_counterexample` (Verif/Fold/Files.lean:160). **C137 is false**: a file that states version 1.1 of the FOLD format cannot be loaded, and neither can one that states 1.0.

## C138 Every finite f32 survives the text of a FOLD file

Status: proved.

- `C138_roundtrip` (Verif/Fold/FloatRoundtrip.lean:102). **C138.** The text that serde_json writes for a finite `f32` is read back, through `f64` and `f32`, as the same `f32` with the same sign.
- `C138_written` (Verif/Fold/FloatRoundtrip.lean:122). **C138, the text.** Exactly the finite numbers are written as number tokens. The token is a JSON number with a point or an exponent; the number it stands for rounds to the given `f32` and has at most nine digits, no number that rounds to the `f32` has fewer digits, and none with as many digits is nearer to it.
- `C138_file` (Verif/Fold/FloatRoundtrip.lean:213). **C138, files.** The text that serde_json writes for `x`, put into a file, is loaded by `from_file` as `y` if and only if all vertex coordinates and edge lengths of `x` are finite and `y` is `x` without the four lost fields (see C71), bit for bit; otherwise `from_file` panics. Nothing is assumed about the numbers any more.

## C139 Every number in a file is read as the nearest f32

Status: partial. Proved for numbers of at most eight digits, with exactly six exceptions (C139_exact_short); two counterexamples; for longer numbers see C140.

- `C139_short_partial` (Verif/Fold/NumRead.lean:593). **C139, short numbers.** A number with at most eight digits below `10^308` is read as the nearest `f32`, unless its digits and its exponent are among the six pairs of `misread`. Missing: those six (`C139_counterexample`), and longer numbers, for which C140 gives a bound only.
- `C139_exact_short` (Verif/Fold/NumRead.lean:658). **C139, exactly which short numbers**: the six pairs of `misread` are indeed not read as the nearest `f32`.
- `C139_counterexample` (Verif/Fold/NumRead.lean:735). **C139 is false**: `9.3137999e-33` is read as a neighbour of the nearest `f32`.
- `C139_counterexample_zero` (Verif/Fold/NumRead.lean:752). **C139 is false**: the same number with a zero more is read differently.

## C140 Numbers in a file are read accurately

Status: proved.

- `C140_accuracy` (Verif/Fold/NumRead.lean:409). **C140.** A number in a file (of at most `10^9` digits before and after the point) that is read as `x` differs from a real number whose nearest `f32` is `x` by at most one part in `2^50` (and `10^-200`). Numbers below `10^308` are never refused, numbers from `10^309` on always are.
- `C140_sign` (Verif/Fold/NumRead.lean:461). **C140, signs.** A number with a point or an exponent is read with its sign, also when it becomes zero or infinite.
- `C140_infinite` (Verif/Fold/NumRead.lean:477). **C140, large numbers.** Numbers from `2^128` on that are read at all become infinite without an error; numbers up to the largest `f32` stay finite.

## C141 What from_file does with every sequence of bytes

Status: proved.

- `C141_bytes` (Verif/Fold/Bytes.lean:92). **C141.** For every file: `from_file` returns `x` exactly when the bytes are a text in UTF-8, this text is a JSON text and its tree is accepted as `x`; it returns an error exactly when the file cannot be opened or is not a text in UTF-8; it panics exactly when the file is a text in UTF-8 but no JSON text or one whose tree is not accepted.
- `C141_cut` (Verif/Fold/Bytes.lean:250). **C141, cut files.** Let `from_file` load a file with the bytes `a ++ b`. From the bytes `a` alone it loads the same value if `b` is only white space; otherwise it never loads anything: it returns an error if the cut is inside a character, and panics if not.
- `C141_mark` (Verif/Fold/Bytes.lean:310). **C141, byte order marks.** A file that begins with the bytes `EF BB BF` is never loaded: `from_file` panics if it is a text in UTF-8, whatever follows.
- `C141_saved` (Verif/Fold/Bytes.lean:360). **C141, saved files.** Let all coordinates and lengths of `x` be finite. From the bytes written for `x`, `from_file` loads `x` without the four lost fields (see C71). From any proper beginning of these bytes it loads nothing.

## C142 Non-finite coordinates split nothing, and the drawing does not leave its square

Status: proved.

- `C142_tests` (Verif/Graph/FiniteF32.lean:381). **C142, computed points.** In `f32`, whenever `calculate_line_segment_intersection` returns a point, all eight coordinates it was given are finite and the point is free of `NaN`; whenever `is_on_line_segment` says yes, all six coordinates are finite.
- `C142_node` (Verif/Graph/FiniteF32.lean:389). **C142, nodes.** Adding a node with a `NaN` or an infinite coordinate appends this node and changes nothing else: it is never merged, not even with a node at the same position, and splits nothing.
- `C142_edge` (Verif/Graph/FiniteF32.lean:414). **C142, requested edges.** Asking for an edge between two nodes of which one has a `NaN` or an infinite coordinate appends exactly this edge (unless the two nodes are joined already) and reports its slot; nothing is split and no node is created.
- `C142_kept` (Verif/Graph/FiniteF32.lean:498). **C142, edges that are there.** An edge with an end at a `NaN` or infinite position keeps its slot and both its ends, whatever node or edge is added.
- `C142_box` (Verif/Graph/FiniteF32.lean:526). **C142, the box.** Take any history in `f32`, with removals and with any requests, debug or release. If all positions given to `add_node` are finite with coordinates of size at most `2^k`, where `-126 ≤ k ≤ 127`, then all nodes at the end are, the computed crossings included: rounding never carries a node out of the square.
- `C142_finite` (Verif/Graph/FiniteF32.lean:533). **C142, finite drawings.** If all coordinates given to `add_node` are finite and smaller in size than `f32::MAX`, which is `(2^24 - 1) 2^104`, then all nodes of the graph are finite and at most the number before `f32::MAX`.
- `C142_no_nan` (Verif/Graph/FiniteF32.lean:539). **C142, no `NaN`.** If no position given to `add_node` has a `NaN` coordinate, infinite ones allowed, no node ever has.
- `C142_sharp_max` (Verif/Graph/FiniteF32.lean:550). **C142, the bound is needed.** With one coordinate equal to `f32::MAX` a finite drawing of two crossing edges gets a node at infinity.
- `C142_sharp_square` (Verif/Graph/FiniteF32.lean:558). **C142, only powers of two.** The square of the largest coordinate itself can be left: the crossing at the end `16777214` of an edge from `-16777213` is put at `16777215`.

## C143 Mirror images and quarter turns commute with the graph code bit for bit

Status: proved.

- `C143_history` (Verif/Graph/SymmetryF32.lean:279). **C143, histories.** Let all positions of a history be moved by one of the eight symmetries of the square. The history panics exactly when the original does, in the same way, and otherwise gives the same edges and the moved nodes, with the same numbers, data and labels. The positions are those of the original, moved without any rounding error: only the sign of a coordinate that is zero is left open. Any `f32` values, finite or not.
- `C143_calls` (Verif/Graph/SymmetryF32.lean:288). **C143, reports.** On graphs that are mirror images of each other, `add_node` at mirrored positions, `add_edge`, `remove_edge` and `remove_node` return the same reports and leave graphs that are again mirror images, or panic in the same way.
- `C143_tests` (Verif/Graph/SymmetryF32.lean:298). **C143, tests.** Distances are equal bit for bit, so are the answers of `is_on_line_segment`, and crossings correspond.
- `C143_isometry` (Verif/Graph/SymmetryF32.lean:313). **C143, exact arithmetic.** Without rounding the same holds for every map of the plane that keeps distances: translations, rotations about any centre, reflections in any line.
- `C143_order` (Verif/Graph/SymmetryF32.lean:338). **C143, order.** Whether `calculate_line_segment_intersection` finds a crossing does not depend on which segment is given first, for any `f32` values.
- `C143_ends` (Verif/Graph/SymmetryF32.lean:379). **C143, ends.** `is_on_line_segment` does not depend on the order of the two ends.
- `C143_sharp_order` (Verif/Graph/SymmetryF32.lean:390). the two orders of the segments `(3,0)-(0,2)` and `(-2,-1)-(1,2)` give different points
- `C143_sharp_ends` (Verif/Graph/SymmetryF32.lean:395). exchanging the ends of one segment can make the difference between a crossing and none
- `C143_sharp_translate` (Verif/Graph/SymmetryF32.lean:401). translations are not among the symmetries in `f32`: two nodes become one when the drawing is moved by 4

## C144 The polygon code under affine maps and the symmetries of the square

Status: proved.

- `C144_tests` (Verif/Geom/Simple/Affine.lean:84). **C144, tests.** An affine map of positive determinant keeps the orientation tests; `between` is kept for segments of positive length.
- `C144_tests_mirror` (Verif/Geom/Simple/Affine.lean:96). **C144, mirror images.** An affine map of negative determinant exchanges left and right.
- `C144_diagonal` (Verif/Geom/Simple/Affine.lean:212). **C144, diagonal.** For every polygon that lists no vertex twice, an affine map of positive determinant keeps its diagonals, and the panics for bad indices.
- `C144_triangulate` (Verif/Geom/Simple/Affine.lean:238). **C144, triangulate.** For every polygon that lists no vertex twice, and every affine map of positive determinant: `triangulate` ends on the image exactly when it ends on the polygon, with the images of the triangles, in the same order.
- `C144_area` (Verif/Geom/Simple/Affine.lean:265). **C144, area.** Every affine map, invertible or not, multiplies `area` by the absolute value of its determinant.
- `C144_new` (Verif/Geom/Simple/Affine.lean:277). **C144, new.** `Polygon::new` of the image is the image of the polygon when the determinant is positive, and the image listed backwards when it is negative and the vertices do not have area 0; the error for short lists is the same.
- `C144_simple` (Verif/Geom/Simple/Affine.lean:301). **C144, simple.** An invertible affine map keeps simple polygons simple, and all others not simple.
- `C144_sharp_repeated` (Verif/Geom/Simple/Affine.lean:326). **C144, sharp.** A vertex listed twice breaks it: `(0, 2)` and `(3, -1)` are joined by a diagonal of the turned polygon but not of the polygon itself, where the edge from `(2, 2)` to `(2, 2)` counts as hit by everything at its height.
- `C144_sharp_flat` (Verif/Geom/Simple/Affine.lean:332). **C144, sharp.** Without area the order of a mirrored list is kept, not reversed.
- `C144_tests_f32` (Verif/Geom/SymmetryF32.lean:85). **C144, tests in `f32`.** The rotations of the square keep the orientation tests bit for bit, for all `f32` coordinates.
- `C144_tests_mirror_f32` (Verif/Geom/SymmetryF32.lean:94). **C144, mirror images in `f32`.** The reflections of the square exchange left and right.
- `C144_between_f32` (Verif/Geom/SymmetryF32.lean:118). **C144, between in `f32`.** `between` is kept by changes of sign of either coordinate.
- `C144_sharp_quarter` (Verif/Geom/SymmetryF32.lean:140). **C144, sharp.** `between` is not kept by a quarter turn: the products of `area2` underflow, so the three points count as collinear, and only the coordinate `x` is compared.
- `C144_triangulate_f32` (Verif/Geom/SymmetryF32.lean:158). **C144, triangulate in `f32`.** For all polygons of `f32` points, finite or not: `triangulate` ends on the polygon turned by a half turn exactly when it ends on the polygon, with the turned triangles in the same order, or with the same panic.
- `C144_diagonal_f32` (Verif/Geom/SymmetryF32.lean:164). **C144, diagonal in `f32`.**
- `C144_area_f32` (Verif/Geom/SymmetryF32.lean:188). **C144, area in `f32`.** All eight symmetries of the square keep `area` bit for bit.
- `C144_new_f32` (Verif/Geom/SymmetryF32.lean:212). **C144, new in `f32`.** `Polygon::new` of a turned list is the turned polygon; of a mirrored list whose computed area is a number other than 0, the mirrored polygon listed backwards.

## C145 Sizes of the graph and lengths of the reports

Status: proved.

- `C145_add_node` (Verif/Graph/Sizes.lean:54). **C145, add_node.** `add_node` creates at most one node; every edge it splits becomes two, and it reports two indices for each of them. If it creates no node it changes nothing.
- `C145_add_edge` (Verif/Graph/Sizes.lean:76). **C145, add_edge.** Let `k` be the number of drawn edges on which a crossing with the requested segment is computed. If `add_edge` succeeds it creates at most `k` nodes and reports exactly these. If an edge joined the two nodes already, in either direction, nothing changes. Otherwise the number of edges grows by 1 for the new edge and 1 for every splitting, and two indices are reported for every splitting, or only that of the new edge if there was none. In `k` rounds of splitting the number of edges at most doubles `k` times.
- `C145_remove_node` (Verif/Graph/Sizes.lean:175). **C145, remove_node.** If `remove_node` of an existing node returns, exactly its edges are gone (at least one), and between one node and one more than the number of its edges.
- `C145_remove_edge` (Verif/Graph/Sizes.lean:219). **C145, remove_edge.** If `remove_edge` of an existing edge returns, one edge less is there, and at most two nodes less.
- `C145_sharp` (Verif/Graph/Sizes.lean:246). **C145, sharp.** One crossing, at a node that lies on the edge already drawn: both edges are split, so the number of edges is doubled, and no node is created.
- `C145_quadratic` (Verif/Graph/SizesExact.lean:108). **C145, whole drawings.** In exact arithmetic, `n` requested points and `m` requested segments in general position give a graph of at most `n + m (m - 1) / 2` nodes and at most `m ^ 2` edges.

## C146 The algebra does not depend on the axes

Status: proved.

- `C146_products` (Verif/GA/Axes.lean:151). **C146, products.** Dot products do not change under a map that keeps lengths; wedge products, the geometric products of all grades, and the wedge of a bivector with a vector are moved by the map.
- `C146_rotate` (Verif/GA/Axes.lean:201). **C146, rotations.** The moved rotor rotates the moved vector to the moved image; this is also true for reflections.
- `C146_measures` (Verif/GA/Axes.lean:249). **C146, measures.** Norms and angles do not change.
- `C146_quotients` (Verif/GA/Axes.lean:268). **C146, quotients.** Normalising, inverting, projecting and reflecting commute with the map.
- `C146_quotients_graded` (Verif/GA/Axes.lean:307). **C146, planes and volumes.** Normalising and inverting bivectors and trivectors, and inverting rotors, commute with the map.
- `C146_constructors` (Verif/GA/Axes.lean:342). **C146, constructors.** The rotor from one vector to another, and the rotor of an angle in a plane, are moved by the map; where `from_vectors` gives NaN, it does so for the moved vectors as well.
- `C146_products_f32` (Verif/GA/AxesF32.lean:58). **C146, products in `f32`.** Reversing axes commutes with the products of all grades, bit for bit up to signs of zeros.
- `C146_rotate_f32` (Verif/GA/AxesF32.lean:85). **C146, rotations in `f32`.** A rotor seen from reversed axes rotates the vector seen from reversed axes to the rotated vector seen from reversed axes.
- `C146_measures_f32` (Verif/GA/AxesF32.lean:123). **C146, measures in `f32`.** Norms are equal bit for bit; so are the cosines passed to `acos`, up to the sign of a zero.
- `C146_quotients_f32` (Verif/GA/AxesF32.lean:150). **C146, quotients in `f32`.** Normalising, inverting, projecting and reflecting commute with the reversal of axes.
- `C146_quotients_trivector_f32` (Verif/GA/AxesF32.lean:194). **C146, volumes in `f32`.** Normalising and inverting trivectors.
- `C146_from_vectors_f32` (Verif/GA/AxesF32.lean:201). **C146, `from_vectors` in `f32`.**
- `C146_sharp_exchange` (Verif/GA/AxesF32.lean:215). **C146, not for exchanged axes.** Exchanging two axes is a symmetry of space but not of the `f32` code: the dot product of `(1, h, h)` and `(1, 1, 1)`, where `h = 2^-24`, is 1, but that of `(h, h, 1)` and `(1, 1, 1)` is not.

## C147 The order in which nodes and edges are erased does not matter

Status: proved. C147_left says what is left, C147_order that the order does not matter; C147_sharp_double shows that parallel edges must be excluded, C147_sharp_panic that panics do depend on the order.

- `C147_left` (Verif/Graph/EraseOrder.lean:336). **C147.** A simple graph whose nodes and edges can be told apart. After any calls of `remove_node` and `remove_edge` that do not panic, debug or release, the edges left are exactly those that were not erased and of whose ends none was erased, with the same data and labels between the same nodes; the nodes left are exactly those that were not erased and either had no edge in the first place or still have one, in the old order.
- `C147_order` (Verif/Graph/EraseOrder.lean:367). **C147, order.** If two series of removals, in debug or release, ask for the same nodes and edges in different orders and neither panics, they leave the same nodes with the same numbers and the same edges, at most in different slots.
- `C147_sharp_double` (Verif/Graph/EraseOrder.lean:434). **C147 needs that no two edges join the same nodes.** A node that loses two edges in one call is not taken for a stray one: with `doubleGraph`, erasing the second and then the third node leaves nothing, erasing the third and then the second leaves the first node.
- `C147_sharp_panic` (Verif/Graph/EraseOrder.lean:445). **C147, panics.** Whether a series of removals panics does depend on the order: in a triangle the edges in the first and the last slot can be erased in this order, but erasing the last one first panics.

## C148 A drawing can be cleared

Status: proved. C148_clear and C148_bare_stays; C148_sharp_last: the last slot would panic.

- `C148_clear` (Verif/Graph/Clear.lean:97). **C148.** On a graph with valid indices and without self-loops, calling `remove_edge(0)` as often as there are edges never panics, debug or release. It leaves no edges, and of the nodes exactly those that had no edge, in the old order.
- `C148_bare_stays` (Verif/Graph/Clear.lean:177). **C148, what stays.** A node without edges survives every series of removals that does not panic, on graphs without self-loops.
- `C148_sharp_last` (Verif/Graph/Clear.lean:256). **C148 needs the first slot**: in a triangle, erasing the edge in the last slot panics in both build profiles.

## C149 The set of points drawn is right without general position

Status: proved.

- `C149_drawn` (Verif/Graph/Degenerate.lean:742). **C149.** In exact arithmetic, for every list of requests whose points and crossings are clear up to the tolerance: no call panics or returns an error; every requested point is a node, at the index the client got; different nodes are at different places, and every node is at a requested point, with the data of the first request for that point, or at a crossing, with default data; every edge is a part of a requested segment and has its data; and a point is on an edge exactly when it is on a requested segment. If a segment is not part of a segment with other data, its points are on edges with its data. If parallel segments meet only in their ends, the nodes are exactly at the requested points and the crossings, and different edges meet only in nodes.
- `C149_order` (Verif/Graph/Degenerate.lean:799). **C149, order.** The order of the requests, the points requested besides the ends, and the data do not matter for the set of points drawn: two lists of requests with the same segments, up to direction, draw the same points.
- `C149_sharp` (Verif/Graph/Degenerate.lean:973). **C149, what overlaps cost** (f32). The segment from (1, 0) to (3, 0) lies in the one from (0, 0) to (4, 0); the segment from (2, -1) to (2, 1) crosses both in (2, 0), which does not become a node. Without the second segment it does. And a segment requested twice with different data keeps the first.

## C150 Three segments through a point are never drawn as a planar graph

Status: proved.

- `C150_pierced` (Verif/Graph/Degenerate.lean:824). **C150.** In exact arithmetic, for every list of requests as in C149 where parallel segments meet only in their ends and no segment is a point: if a segment passes through a point `y` that two segments requested before contain, the three in different directions, then the result is not planar: `y` is a node inside an edge.
- `C150_three` (Verif/Graph/Degenerate.lean:849). **C150, three segments through a point.** Three segments in different directions that cross in a point inside all of them never become a planar drawing, whatever the order of the requests.
- `C150_sharp` (Verif/Graph/Degenerate.lean:989). **C150 in f32, and what it needs.** The third segment through (1, 0), from (0, -1) to (2, 1), stays one edge past the node 6 in its middle. If it ends at that node instead, coming from both sides, all edges end there.

## C151 Which requests give a planar drawing

Status: proved.

- `C151_planar` (Verif/Graph/PlanarSession.lean:1072). **C151.** In exact arithmetic, for every list of requests whose points and crossings are clear up to the tolerance, whose segments are not points, and whose parallel segments meet only in their ends: the client gets a graph, and it is planar - different edges meet only in common end nodes and no node is on an edge it is not an end of - exactly when no point ends up `skewered` or `broken`. So the points where it fails are exactly those that are requested before the only segment through them, which passes them, and those passed by a segment after everything there had been divided.
- `C151_words` (Verif/Graph/PlanarSession.lean:1262). **C151, the points that fail.** A point ends up `skewered` exactly when it is requested, then passed by one segment, and no other segment concerns it; it ends up `broken` exactly when a segment passes it that is at least the third to concern it, or the second one, where the first passes it too and the point is requested only between the two.
- `C151_sharp` (Verif/Graph/PlanarSession.lean:1371). **C151, the order matters** (f32). Two segments crossing in (1, 0) and a request for this point: with the point before or after the two segments the drawing has 5 nodes and 4 edges, with the point between them the second segment stays whole and there are 3 edges.

## C152 Without the failures of C151 the graph is the arrangement of the requested segments

Status: proved.

- `C152_arrangement` (Verif/Graph/Divided.lean:179). **C152.** In exact arithmetic, for requests as in C151 without the failures described there: the graph is the arrangement of the requested segments. Its nodes are the requested points and the crossings; two points are joined by an edge with data `c` exactly when they are neighbours on a requested segment with data `c`; no two edges join the same points.
- `C152_counts` (Verif/Graph/Divided.lean:217). **C152, counts.** The graph has one node for every requested point and crossing, and one edge for every segment and every point or crossing on it other than its first end: a segment with `n` of them on it is divided into `n - 1` edges.
- `C152_order` (Verif/Graph/Divided.lean:317). **C152, order.** Two lists of requests without the failures of C151 for the same points and segments, in any order and number, give the same arrangement: nodes at the same places, and edges between the same places with the same data.

## C153 The graph of all requests without general position, planar or not

Status: proved.

- `C153_graph` (Verif/Graph/Whole.lean:537). **C153.** In exact arithmetic, for all requests whose points and crossings are clear up to the tolerance, whose segments are not points, and whose parallel segments meet only in their ends - planar or not: the nodes are the requested points and the crossings, and two points are joined by an edge with data `c` exactly when they are neighbours among the points that divide a requested segment with data `c`. A point or crossing inside a segment divides it, except when it is the only segment through the point, which was requested first, or when everything at the point had been divided before the segment was requested. No two edges join the same points.
- `C153_counts` (Verif/Graph/Whole.lean:618). **C153, counts.** The graph has one node for every requested point and crossing, and one edge for every segment and every point that divides it, other than its first end.

## C154 Degrees of the nodes without general position

Status: proved.

- `C154_degree` (Verif/Graph/Degrees.lean:209). **C154.** In exact arithmetic, for requests as in C153: `number_of_edges_incident_to` gives for every node the number of requested segments that end there plus twice the number of segments that are divided there.
- `C154_planar` (Verif/Graph/Degrees.lean:281). **C154, planar drawings.** Without the failures of C151 every segment through a node counts: once if it ends there, twice if it passes.
- `C154_skewered` (Verif/Graph/Degrees.lean:308). **C154, points left on a segment.** A node that was requested and then passed by its only segment has no edges at all.

## C155 An order of drawing in which nothing fails

Status: proved.

- `C155_draw` (Verif/Graph/Recipe.lean:485). **C155.** In exact arithmetic, for segments that are not points, meet in their ends if they are parallel, and of which at most two pass through any point, with points and crossings clear up to the tolerance: requesting the ends first, then the segments in an order where no segment passes an end of an earlier one, then any other points, gives a planar drawing, the arrangement of the segments.
- `C155_exact` (Verif/Graph/Recipe.lean:500). **C155, all orders.** When the ends are requested first, then the segments in any order, then other points, the drawing is planar exactly when every segment is, at every point it passes, one of the first two segments through the point.
- `C155_sharp` (Verif/Graph/Recipe.lean:605). **C155, the order matters** (f32). A segment from (0, 0) to (2, 0) and two segments that end on it in (1, 0), from above and from below: requested first, the long segment is divided; requested last, it is not.

## C156 Which drawings can be drawn at all

Status: proved.

- `C156_order` (Verif/Graph/Drawable.lean:179). **C156, the order of the segments.** Whatever is requested, in whatever order: in a planar drawing every segment is, at every point it passes, one of the first two segments through the point.
- `C156_best` (Verif/Graph/Drawable.lean:192). **C156.** In exact arithmetic, with points and crossings clear up to the tolerance, segments that are not points and that meet in their ends if they are parallel: if some requests give a planar drawing, then so does requesting the ends first, then the segments in the same order, then all points; and the drawing is the same: nodes at the same places, edges between the same places with the same data.
- `C156_exact` (Verif/Graph/Drawable.lean:221). **C156, the drawings that can be drawn.** Some requests for exactly these segments, with their data, and for exactly their ends and these other points give a planar drawing if and only if the segments have an order in which each is, at every point it passes, one of the first two segments through the point.
- `C156_every_order` (Verif/Graph/Drawable.lean:240). **C156, every order.** With the ends requested first, the drawing is planar for every order of the segments if and only if every point that a segment passes is on at most two segments.
- `C156_sorted` (Verif/Graph/Drawable.lean:259). **C156, sorted segments.** If at most two segments pass through any point and there is a number for every segment, smaller for a segment that passes an end than for the segment that ends there (like the depth of a crease in a design), then the segments can be drawn: sorted by these numbers.

## C157 The f32 graph of a street map

Status: proved.

- `C157_drawn` (Verif/Graph/StreetPlan.lean:435). **C157, what is drawn.** A street map in f32, streets crossing, touching, overlapping or drawn twice: the calls do not panic, the nodes are at different places, each requested point is exactly at the node returned for it, every other node is exactly at a crossing of streets, the edges cover exactly the streets, and every edge has the data of a street it lies on.
- `C157_planar` (Verif/Graph/StreetPlan.lean:467). **C157, planar.** If parallel streets meet only in their ends, the f32 graph is a planar drawing exactly when no point ends up `skewered` or `broken` (C151).
- `C157_arrangement` (Verif/Graph/StreetPlan.lean:482). **C157, the arrangement.** And then it is the arrangement of the streets: the nodes are exactly at the requested points and the crossings, the edges join neighbours on a street, with its data, and no two edges join the same nodes.
- `C157_order` (Verif/Graph/StreetPlan.lean:506). **C157, the order of the streets.** If the f32 graph is a planar drawing, then every street is, at every point it passes, one of the first two streets through the point; and when the ends are requested first, then the streets, then other points, this is enough.
- `C157_streets` (Verif/Graph/StreetPlan.lean:517). **C157, the orders that work.** With the ends requested first, then the streets, then other points, the f32 graph is a planar drawing exactly when no street passes the common end of two streets drawn before it.
- `C157_counts` (Verif/Graph/StreetPlan.lean:531). **C157, the counts.** A planar street map has as many nodes as there are points and crossings, and as many edges as there are pairs of a street and a point or crossing on it other than its first end.
- `C157_same` (Verif/Graph/StreetPlan.lean:547). **C157, the same map.** Two lists of calls for the same points and streets, both without failures, in any order and number: the f32 graphs have nodes at exactly the same places and edges between the same places with the same data.
- `C157_sharp` (Verif/Graph/StreetPlan.lean:712). **C157, a street drawn last stays whole** (f32). Two streets that end in (6, 5) and a third that passes there: drawn first it is divided, drawn last it is not.
