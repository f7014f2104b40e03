# A Lean 4 model of mwalczyk/kami

## 1. How the code is modelled

The crate has four parts with real logic: geometric algebra (`src/math`), planar geometry
(`src/geometry`), the planar graph (`src/graph`) and the FOLD file type (`src/fold`).
`src/origami` consists of enums, empty functions and `unimplemented!()` bodies; it has no behaviour to model.
The three programs under `examples` draw graphs and polygons as SVG; their drawing code is modelled too.

**Scalars.** The Rust code computes in `f32` (geometry, graph) or in a generic `T` (algebra).
The model is polymorphic in the scalar, exactly as the algebra is in Rust:

* the algebra functions only ask for `[Add T] [Mul T] ...`, the same bounds as the Rust `impl`s;
* the geometry and graph functions ask for `OrdScalar F` (add, sub, mul, neg, abs, comparisons, literals)
  and, where the Rust code divides or takes roots, `Scalar F` (additionally div, sqrt, `EPSILON`, `MAX`).
  Neither class contains laws.

Theorems are stated at the most general level at which they are true:

| level | scalars | used for |
|---|---|---|
| any arithmetic | every `F` with `Scalar F`, no laws at all | index validity, absence of panics, structure, connectivity, counts: true of f32 with NaN, infinities and rounding |
| lawful | every `F` satisfying a few comparison/symmetry laws, proved for both instances below | node separation, no self-loops, nearest point |
| `F32` | IEEE-754 binary32, round-to-nearest-even, signed zeros, subnormals, infinities, one NaN; executable | statements about f32 itself, and counterexamples evaluated by the kernel |
| `XReal` | real numbers plus NaN and the two infinities: IEEE special values without rounding | exact-geometry statements of functions that divide or take roots |
| ordered field `K` | any linearly ordered field (ℚ, ℝ) | exact-geometry statements of functions that do neither (`OrdScalar` only) |

**Panics** (`unwrap` on `None`, index out of range, arithmetic overflow, division by zero) are explicit values:
`Except Panic α`. A `while` loop that does not terminate is an explicit outcome as well.
`&mut self` becomes a returned new value. `println!` is dropped.

## 2. Trusted base

* Lean's kernel; axioms `propext`, `Classical.choice`, `Quot.sound` only (no `sorry`, no axioms of our own, no `native_decide`/`bv_decide`).
* The reading of the Rust source: each definition cites file and lines.
* Behaviour of libraries that are not in /repo, from their documentation/source as known to us:
  nalgebra 0.21 / nalgebra-glm 0.7 (`distance(a,b) = sqrt(dx*dx+dy*dy)` of `b - a`, `normalize_dot(x,y) = x.normalize().dot(y.normalize())`,
  `epsilon() = f32::EPSILON = 2^-23`, component-wise vector operators), num-traits (`One`, `Zero`, `Float`),
  approx 0.3.2 (`abs_diff_eq`, `relative_eq`, `ulps_eq` on f32), serde derive + serde_json 1.0.56 (reader and compact writer; floats with the default features, so without `float_roundtrip`:
  the digits in a `u64`, to `f64`, times or divided by a power of ten, to `f32`; the nesting limit of 128 counts only values that are
  deserialised, which nest at most three deep here, while skipped values are skipped without recursion, so the limit is never reached), ryu's shortest decimals (ties to the even digit) and notation,
  std collections (`Vec`, `HashMap`, iterators).
* IEEE-754 semantics of Rust's f32 `+ - * / sqrt` and comparisons (the `F32` model).  `sin`, `cos`, `acos` on f32 are not modelled; only their real counterparts.
* Rust's `Display` for f32 prints the shortest decimal that reads back, the closest one of that length, without exponent (`Num/Display.lean`; documented for `core::fmt::Display`). Since Rust 1.53 the sign of a negative zero is printed; `display` takes this as a parameter.
* For C131 and C132, the browser calls of `Examples/PageModel.lean`: creating elements and setting attributes with valid names does not fail, `appendChild` fails only on a cycle, `getElementById` finds the first match in tree order, a click runs the `onclick` properties from the target outwards.

### What is modelled, file by file

| source | model | left out |
|---|---|---|
| `src/math/vector.rs`, `bivector.rs`, `trivector.rs`, `rotor.rs`, `space.rs` | `GA/Model.lean` (every operator, norm, constructor), `Num/Approx.lean` (the three approx traits) | `#[derive(Debug)]`; the unit tests |
| `src/math/blade.rs` | `Blade/Model.lean` | the trait `Blade` (no implementor, `attitude` is empty) |
| `src/geometry/polygon.rs` | `Geom/PolygonModel.lean` (every function) | `println!` |
| `src/geometry/utils.rs` | `Geom/UtilsModel.lean` (every function) | `println!` |
| `src/geometry/line.rs` | `Geom/LineModel.lean` | |
| `src/graph/planar_graph.rs` | `Graph/Model.lean` (every function), `Graph/Imperative.lean` (the mutating methods statement by statement) | `println!` |
| `src/fold/fold.rs` | `Fold/Model.lean`: the data types, derived (de)serialisers on JSON values, `from_file` as a function of the file's contents, `validate`, `resolve`; `Fold/Text.lean`: serde_json's reader and compact writer on texts; `Fold/Numbers.lean`: the values of float tokens and the text of floats, on `f64` magnitudes (`Num/F64.lean`); `Fold/Bytes.lean`: `read_to_string` on the bytes of the file | the file system beyond "can be opened and read or not" |
| `src/origami/*` | none | every body is empty or `unimplemented!()` |
| `examples/*/src/shared.rs` | `Examples/Svg.lean`; `svg_main`, `svg_title` in `Examples/PageModel.lean`; `{}` of an f32 in `Num/Display.lean` (the result of the standard library's algorithm, the shortest decimal that reads back, by a search of its own) | `set_panic_hook` (only changes what a panic prints) |
| `examples/simple_graph/src/lib.rs` | `Examples/Draw.lean` (the shapes as a list), `Examples/PageModel.lean` (`run`, `draw`, `draw_graph` and the click handler as calls that change a page) | `web_sys::window()` and its document exist; line 85 calls `get_indices`, a method the library does not have, read as `get_node_indices` |
| `examples/simple_polygons/src/lib.rs` | `Examples/Draw.lean` (the shapes as lists), `Examples/PagePolygons.lean` (`run` and `draw` as calls that change a page; the random numbers are arguments) | |
| `examples/_template/src/lib.rs` | `Examples/PageModel.lean` | |

Not modelled anywhere: the browser except for the calls listed in `Examples/PageModel.lean`, memory limits
(`Vec` lengths are unbounded), f32 `sin`, `cos` and `acos`. The graph left behind by a panic is modelled for the four
mutating methods (`Graph/Imperative.lean`, C120); no other method on f32 values can panic between two writes.

## 3. Plan per property

| id | what is modelled | how it is proved |
|---|---|---|
| C01-C02 | all product operators | homomorphism into Mathlib's `CliffordAlgebra` of the standard form on R^3, plus injectivity of the embedding over ℝ |
| C03-C04 | `rotate`, rotor product | polynomial identities (`ring`) and the sandwich product in the Clifford algebra |
| C05 | `from_vectors` | closed form of the rotated vector; exactly which pairs it handles (`C05_exact`, `C05_exact_direction`), counterexamples (partial) |
| C06 | `from_angle_plane` over ℝ trigonometry | trigonometric identities |
| C07-C12, C14 | inverses, norms, reflect, project | field identities over ℝ; zero operands over `XReal` |
| C13 | `angle` | `Real.arccos`; the f32 NaN corner by kernel evaluation of `F32` (partial) |
| C15, C81 | assignment operators as state transformers | by definition unfolding, any scalar |
| C16 | approx traits | F32 model of approx 0.3.2 |
| C17-C19 | `usize` arithmetic with an overflow profile | induction over loops; `k = 0` panics (C18 partial) |
| C20-C21 | `Line` | exact arithmetic; `intersect` is a stub returning `None` (C21 refuted) |
| C22-C26 | orientation predicates | ordered-field reasoning against `segment` membership |
| C27-C30, C80 | `Polygon` | induction over vertex lists |
| C31-C34 | `diagonal`, `triangulate` | loop invariant of the ear-clipping loop, any arithmetic where possible |
| C35, C76, C77 | `triangulate` and `diagonal` on simple polygons | section 4 |
| C36-C48 | `utils` | real geometry over `XReal` |
| C49-C70, C83-C86 | `PlanarGraph` | invariants over histories, refinement of removal, path induction, counterexamples where the code violates the claim |
| C71-C74, C78 | serde derive | field-by-field (de)serialiser on JSON values |
| C75, C79 | `svg_polygon` and friends | list induction |
| C82, C87-C94 | f32 behaviour of geometry and graph | section 5 |
| C95-C97 | drawing code of the examples | exact list of shapes drawn; the hard-coded polygon of the demo is shown to be simple and on a grid, so C82 applies |
| C98 | `translate`, `uniform_scale` before `triangulate` | the orientation tests agree before and after (section 5, `Agrees`) |
| C99 | `new`, `diagonal`, `triangulate`, `regular` on convex polygons | all ears are flagged all the time, so vertex 0 is cut each round; regular polygons are convex by a product of sines; transfer to f32 by `Agrees` |
| C100 | unit constructors | unfold into the Clifford algebra of Mathlib |
| C101 | all mutating graph calls, exact arithmetic | `C60` per call, removal is a renumbering, induction over the history |
| C102 | `add_node`, `add_edge` driven by a client, exact arithmetic | one invariant (`Stage`) over the requests; edges by betweenness of parameters |
| C103 | the same | nodes are matched by position, edges by the characterisation of C102 |
| C104 | the same, `number_of_edges_incident_to` | order along a segment; edges are matched with their farther ends, double counting of crossings |
| C105 | `triangulate`, any arithmetic | guarded iteration of the loop body; a round without a cut is a fixed point |
| C106 | products, norms, `rotate`, `reflect`, `project` on `F32` | a congruence `Same` (equal up to the sign of zero) for all operations (Num/F32Same.lean) |
| C107 | the same | running error bounds `Near`, one rule per operation (Num/F32Near.lean) |
| C108 | src/geometry/utils.rs in f32 | the distances of C90 and running error bounds, relative ones for the radius by Heron's formula; the exact points are characterised geometrically (C38, C41) |
| C109 | add_edge then remove_edge | refuted for every graph; the exact outcome is a renumbering of the old graph without its lone ends, or a panic |
| C110 | histories of add_node and add_edge | any arithmetic: splitting replaces an edge of a walk by two; an invariant over runs |
| C111 | the same in f32 and in exact arithmetic | C110 with the length of the walks: each split lengthens a walk by a bounded detour (C93, C44); short walks are Hausdorff-close to the segment |
| C112 | histories with removals | any lawful arithmetic: an invariant that traces every edge to a request (cut repeatedly) and every node to a request or a crossing; removal renumbers (C62, C64) |
| C113 | the same in f32 and in exact arithmetic | C112 with error bounds: coordinates grow by a factor per call of add_edge (C92), every cut lengthens the detour by a bounded amount (C93, C44) |
| C114 | src/geometry/polygon.rs on `F32` | rounding commutes with powers of two away from subnormal numbers (Num/F32Scale.lean); then `Agrees` (section 5) |
| C115 | `center`, `translate`, `uniform_scale` on `F32` | running error bound of a sum |
| C116 | sequences of add_node and add_edge on `F32` | simulation: the f32 graph stays a shadow of the exact graph (C102); the crossing and on-segment tests agree on displaced segments (Geom/Margin*.lean), lists of found points are matched one by one |
| C117 | the graph of C116 with its f32 positions | disjoint pieces of segments are `mu` apart, a node is `mu` away from pieces it is not on; nodes move by less than `mu/64` |
| C118 | `inverse`, `project`, `reflect`, `angle`, `Rotor3` product on `F32` | running error bounds (`Near`, Num/F32Near.lean); the chain by induction, since the length of an exact product is the product of the lengths |
| C119 | `from_angle_plane`, `regular` on `F32` with any `sin` and `cos` close to the true ones | running error bounds; the area of the computed polygon differs little from `n r^2 sin(2 pi/n)`, so C89 decides the orientation |
| C120 | `Graph/Imperative.lean`: the four methods as reads and writes of a mutable graph, a panic keeps what was written | agreement with the functional model by induction over the loops; then the invariants of C49 extended to panics |
| C121 | `add_node`, `add_edge` in f32, sequences of requests | C116 transfers the facts about exact arrangements (C103, C104); an instance with different rounding by kernel evaluation |
| C122 | `parallel` in f32 | equality up to the sign of zero for the symmetry; running error bounds; kernel evaluation for the failure of reflexivity |
| C123 | perpendicular bisectors and `Line::contains` in f32 | signed relative error of the two quotients, running error bounds; kernel evaluation of a far point of a line that is rejected |
| C124 | all four mutating methods in f32 next to exact arithmetic | the invariant of C116 without the list of requested points survives removals: these look at indices only, so both graphs keep the same nodes and edges |
| C125 | tolerance tests in f32 | spacing of floats: above length 1 a sum that is not the length misses it by the tolerance or more; positions on a grid of step `2^-22` (`2^-23`) are equal or farther apart than the tolerance |
| C126 | a horizontal and a vertical segment with whole coordinates | the quotient is rounded once, the crossing is a whole number plus a rounding step; `Rnd` (Num/F32Round.lean) describes a result by the exact value that was rounded, and the two distances from the ends add up without error |
| C127 | whole points off a segment are rejected; a plane drawing is stored as it is | for whole coordinates the triangle excess of a point off a segment is at least a rounding error of the three distances (spans up to 40); at common ends the quotient is exactly 0 or 1 and the reported point exactly the end; induction over the calls with a geometry-free reference `collect` |
| C128 | street maps in a 12 by 12 square: f32 = exact arithmetic for all four calls | the rounded quotient of the intersection depends only on its value (rounding has one result), so it is that of a fraction p/q with q of size at most 12; for these fl(fl(p/q)*q) = p is checked by evaluation, all 625 of them; distances along streets are exact roots; then equality of every helper (`splitAt`, `nearest`, `meetPoints`, `unique_points_among`) and induction over the calls |
| C129 | printing f32 | the printed digits are those of the shortest decimal in the rounding interval, found by a search over at most nine digits; a decimal rounds to the number exactly if it lies between the neighbours of the interval (`RIdx`); nine digits suffice because the step of f32 is at least 2^-24 of the number; reading is an independent definition (`readDecimal`) |
| C130 | drawings are injective | digits, point and minus sign never clash with the separators, so the texts can be split in one way |
| C131 | the page after `run` | the document is an arena of elements; every step of the programs is an equation on arenas (`append_last`, `title_and_append`), induction over the loops gives a closed form (`pageEls`, `polygonEls`) |
| C132 | clicks | in the closed form the parent of every shape and title is known, so the path of a click meets at most one handler; ids are unique, so the lookups of the handler find the paragraph; induction over the clicks with the text as the only state |
| C133 | a drawing program with erasing, against sets of points and segments | one step at a time: additions from C127, removals from the renumbering relation of C62 and C64, under which positions of nodes and segments of edges are unchanged; positions are unique and edges are not parallel, so indices and positions determine each other |
| C134, C135 | JSON text | the grammar as rules (`Writes`); reader sound and complete for it, writer follows it |
| C136 | JSON text | a value in brackets is self-delimiting: two readings of a common beginning agree |
| C137 | serde derive | integer tokens are exactly those without point and exponent |
| C138 | numbers in texts | the writer's nine-digit decimals have error below half a unit; those of at most eight digits by continued fractions, one kernel check over all exponents (`Fold/EightCheck.lean`), with six misread decimals that the writer does not use |
| C139, C140 | numbers in texts | three roundings and the cut-off digits, each with its relative error; short numbers by the check of C138, which also finds the six exceptions |
| C141 | `read_to_string` on bytes | Lean's definition of UTF-8; a text can be cut exactly in front of bytes that are not `10xxxxxx`, then C136 |
| C142 | the graph with NaN and infinite coordinates; overflow of crossings | a finite result has finite operands (`Num/F32Box.lean`), so both tests fail on non-finite points; `a + t (b - a)` is at most half a step above `2^k` before the last rounding, and ties go to the even `2^k`; a set of positions closed under crossings is kept by every history |
| C143 | mirror images and quarter turns of drawings; order of the arguments of the two tests | a change of sign or an exchange of the coordinates changes numerators and denominator of both parameters by one common sign, up to signs of zeros (`Num/F32Same.lean`); `Graph/Relate.lean` carries a relation between positions that keeps distances and crossings through every call; exact isometries through `dst a p + dst p b = dst a b` |
| C144 | `diagonal`, `triangulate`, `new`, `area` and the orientation tests under affine maps (exact) and the symmetries of the square (`f32`) | `area2` is multiplied by the determinant, `OnSeg` is kept, so all tests are kept for segments of positive length; `Geom/Transfer.lean` carries any map that keeps diagonals and triangle orientations on lists with a hereditary property (here: no vertex twice) through the loops; in `f32` `area2` changes at most its sign |
| C145 | numbers of nodes and edges after one call, lengths of the reports, any scalar; size of whole drawings in exact arithmetic | counting over `Inserts` (one round of splitting per crossing) and `survivors`; crossings inject into pairs of segments, as two segments in general position cross once |
| C146 | the operations of src/math under orthogonal maps (exact) and under reversals of axes (`f32`) | an orthogonal map induces a homomorphism of the Clifford algebra; by C01, C02 and injectivity it intertwines the products, the quotients follow by norms; in `f32` every formula is followed with one sign per component (`Sg`) (`GA/Axes`, `GA/AxesF32`) |
| C147 | series of `remove_node` and `remove_edge` on simple graphs | one call is described by C62 and C64 through the nodes and edges themselves instead of their indices (`Leaves`); these descriptions compose, and depend only on the set of targets (`Graph/EraseOrder`) |
| C148 | repeated `remove_edge(0)` | induction over the number of edges: C61 excludes the panic, C62 gives the step, nodes without edges keep that property both ways (`Graph/Clear`) |
| C149 | clients of `add_node` and `add_edge` without general position | the cuts of C60 and C83 (`CutUp`) as an invariant over the requests: edges are parts of requested segments and cover them; without overlaps, every crossing is cut from exactly one edge the first time, hence becomes a node (`Graph/DrawingExact`, `Graph/Degenerate`) |
| C150 | clients with three segments through a point | two directions through a point mean two cuts there, so `unique_points_among` drops it; the edge through the node stays in every later step (`Sketch.stuck` in `Graph/Degenerate`) |
| C151 | clients and planarity, both directions | an automaton with seven states reads the requests around a point; `Fits` in `Graph/PlanarSession` says what the graph looks like at a point in each state and is an invariant of every request; `C151_words` lists the words that end in the two bad states |
| C152 | the graph of a planar drawing without general position | C151 with `Span`: an edge along a segment is an interval of parameters, and the edge below a node ends in it (`Graph/Divided`); edges are counted by their segment and upper end |
| C153 | the graph of all requests without general position | C151 for each segment: `InsideOf` (inside an edge along the segment) after a request, from `CutUp`; only `broken` points need the history, kept as the list of late segments (`Graph/Whole`) |
| C154 | degrees without general position | C153 on both sides of a node: one edge below and one above for every segment the node divides (`Graph/Degrees`) |
| C155 | an order of drawing in which nothing fails | the word of every point is points, then at most two `inside`, then `ending`, then points, which the automaton of C151 reads without failure (`Graph/Recipe`) |
| C156 | which drawings can be drawn at all | an automaton that is not broken has room for at most two segments, so the order of the segments is as in C155 whatever the points; then C155 and C152 (`Graph/Drawable`) |
| C157 | the f32 graph of a street map | points and crossings of a street map are whole, which gives the margins of C149 to C156; the f32 session is simulated by the exact client with the invariant of C128 (`Graph/StreetPlan`) |

## 4. Simple polygons (C35, C76, C77)

`SimplePolygon` (Geom/Simple/Terminate.lean) is the textbook definition by index: at least three vertices, no two equal,
and two different edges share a point only if one ends where the other begins. It does not use the code's predicates.

1. *Directions* (Angle): a rational pseudo-angle turns "left of" into a cyclic order of numbers, so no trigonometry is needed.
2. *Winding* (Winding, Ring): signed crossings of a horizontal ray, summed over the edges. Moving the point across no edge
   keeps the sum. The number `cn`, the winding just left of a corner, is 0 or 1 and the same at every corner;
   it is 1 exactly if the shoelace area is positive (Clip).
3. *Diagonals and ears* (Split, Ear): a polygon with `cn = 1` and four or more corners has an internal diagonal; cutting
   along a diagonal leaves two simple polygons with `cn = 1`; induction gives an ear.
4. *The loop* (Clip, Terminate, Loop): the polygon kept by the loop stays simple with correct ear flags, so
   some vertex passes the code's test in every round. Hence the loop terminates (C35).
5. *Tiling* (Tiling): region membership is stated by the even-odd rule; the triangles cover exactly the region
   and their interiors are disjoint (C76).
6. *Diagonals* (DiagSpec): `diagonal(i,j)` is true exactly if the open segment lies in the interior (C77).

## 5. Floating point (C82, C87-C94, C98, C99, C106-C108, C111, C113-C119, C121-C130, C133, C138-C140, C142, C143, C144, C146)

`F32` (Num/F32.lean) is a software implementation of binary32. It is validated inside Lean: every operation returns
the representable number nearest to the exact result, ties to even (Num/F32Real.lean).
From this follow the usual error bounds (Num/F32Error.lean), and from those three ways to reach the program:

* *grid* (C82): coordinates on a common grid that span at most 4096 grid units make every product and sum exact, so the program
  takes the same branches as in exact arithmetic;
* *clear position* (C87, C88): if every triple is outside an explicit error margin, the tests give the exact answers;
* *error bounds* (C89-C93, C107, C108, C115, C118, C119, C122, C123) for the functions that return numbers. IEEE-754 does not fix `sin` and `cos`;
  C119 assumes that they are within 2^-22 of the true values for arguments up to 8 (`GoodTrig`). This is not part of the trusted base: it
  is a hypothesis of the theorems, and `good_trig_exists` shows that it can be met.

`Agrees` (Geom/Transfer.lean) states that two point lists answer all tests of the triangulation alike. `triangulate` then
makes the same cuts on both. Grid, clear position, similarity transforms in exact arithmetic (C98) and power-of-two scaling in f32
(C114) are four instances.

The planar graph cannot be treated like this, because crossings are rounded and become inputs of later calls. C111 and C113 bound the
accumulated error without any hypothesis on the position. C116 assumes margins and shows that the f32 graph is combinatorially the
exact one. Its invariant has two error bounds: a crossing is within `posBound` of its true place, but within the much smaller
`devBound` of the two lines it is on. The second bound is what lets the on-segment test succeed, and it grows only by `16 u B` per segment.
The tolerance of the on-segment test is absolute (2^-23), so coordinates have to be small: `C116_counterexample_size`.

## 6. Where the code and the property disagree

The claims up to C74, C109, C137 and C139 have status `partial`. The theorem called `..._counterexample...` proves that
the code violates the claim as stated; the other theorems of the claim give what does hold, with the exact boundary where
there is one (`..._exact...`). In the other rows the property states the limit itself and is proved; the surprising
behaviour just outside the limit is the theorem called `..._sharp_...` (C124: `C124_redraw`, C126: `C126_third_street`).

| id | behaviour of the code |
|---|---|
| C05 | `from_vectors` does not normalise, and fails for opposite vectors |
| C08 | rotor inverse does not divide by the squared norm |
| C13 | `angle` of equal f32 vectors can be NaN (the cosine is not clamped) |
| C18, C19 | `number_of_basis_blades(n, 0)` divides by zero; `total_number_of_basis_blades` truncates its argument to `u32` |
| C21, C74 | `Line::intersect` and `validate` are stubs |
| C24, C26 | `between` compares only y if the end points coincide |
| C40, C48 | overlapping collinear segments give `None`; `calculate_line_intersection` intersects segments |
| C43 | the second point is `offset * length / dy` away, and not finite for horizontal segments |
| C44 | `include_endpoints` is ignored, end points are never accepted |
| C47 | points that occur twice are lost altogether |
| C49, C50 | release build: removing a self-loop wraps an index, after which `add_node` and `add_edge` panic |
| C58, C65 | the reported index lists are incomplete |
| C60, C70 | `add_edge` through a node or along an edge leaves crossings or double edges |
| C61, C62, C63 | `remove_edge`/`remove_node` panic on self-loops and isolated nodes |
| C66 | index 0 is reported as absent |
| C68 | repeating an `add_edge` that was split adds edges again |
| C71 | several FOLD keys have the wrong name and are lost |
| C73 | malformed contents panic instead of giving `Err` |
| C109 | `remove_edge` of the edge just added never gives the old graph back: it panics, or it deletes the ends that had no other edge |
| C124 | a segment that crosses another one, is erased and drawn again runs through the node of the old crossing unsplit |
| C126 | of three vertical streets drawn across a horizontal one with whole coordinates, the third is not joined to it: the ends of the middle piece are rounded crossings, and the sum of the distances misses the length by one step |
| C127 | on the whole-number grid, `add_node` at (15, 16) splits the segment from (0, 0) to (46, 49), which does not contain the point |
| C128 | on the whole-number grid, the crossing of (0, 0)-(13, 0) with x = 7 is found at 7 + 2^-21, and `add_node` at (1, 1) does not split the segment from (0, 0) to (7, 7) |
| C129 | whole numbers are printed with all their digits only below 2^24: 16777217 is stored and printed as 16777216 |
| C131 | a drawing of half a pixel would have the view box "0 0 0 0" (`as i32`) |
| C132 | when the graph example runs twice on a page, clicks in the second drawing change the text below the first |
| C133 | the side of a triangle that was drawn last cannot be erased (panic), the others can |
| C137 | a file that states FOLD version 1.1 (or 1.0) cannot be loaded: `file_spec` is an `i32` |
| C139 | `9.3137999e-33` is not read as the nearest f32; `7.038531e-26` and `7.0385310e-26` are read as different numbers (serde_json without `float_roundtrip`) |
| C142 | with a coordinate equal to `f32::MAX`, two crossing edges get a node at infinity; the crossing at the end 16777214 of an edge from -16777213 is put at 16777215, beyond both edges |
| C143 | the crossing of the same two edges depends on which was drawn first; exchanging the ends of an edge can make a crossing disappear; moving a drawing by 4 can merge two of its nodes |
| C144 | with a vertex listed twice the diagonals of a polygon change when it is turned by a quarter turn (exact arithmetic); in `f32` `between` changes under a quarter turn also for three different points |
| C149 | with overlapping segments a crossing may get no node; of two requests for the same segment with different data the second is dropped |
| C150 | the third of three segments through a point runs through the node unsplit, in every order |
| C151 | a point requested between two segments that cross in it leaves the second one unsplit (`C151_sharp`); before or after them all is well |

## 7. Tests of the theorems

`seeded/mutate.py` applies an edit to a scratch copy of the model and rebuilds it. `seeded/LOG.jsonl` records every attempt:
the edit, the claim it breaks, the theorems that failed, and what was tightened when a false claim still proved.
`tools/` holds the generators of `properties.jsonl` and `MANIFEST.json`; statuses that are not derived from
theorem names are in `tools/notes.json`. `THEOREMS.md` (by `tools/gen_index.py`) lists the headline theorems of each claim
with their files.

Verif/UnitTests.lean replays the assertions of the repository's own `#[test]` functions on the model. It proves no property;
it is a check that the model computes what the authors of the code expect.
