# Design: a machine-checked model of homog2d in Lean 4

Subject: `skramm/homog2d` (single header `/repo/homog2d.hpp`), read as text.
Toolchain: Lean 4.33.0 and the Mathlib installed in the sandbox.

## 1. Layout

| Path | Content |
|------|---------|
| `lean/Verif/Model/*.lean` | The model: one Lean definition per modelled C++ function, each with a comment citing the lines of `/repo/homog2d.hpp` it follows and listing its simplifications |
| `lean/Verif/Spec/*.lean`  | Small specifications written without reference to the model's helpers ("lies on", "encloses", "is a rotation of", ...) |
| `lean/Verif/Lemmas/*.lean`| Auxiliary lemmas |
| `lean/Verif/Props/*.lean` | The property theorems, named `Cnn_...`, each followed by a non-vacuity `example` |
| `properties.jsonl` | The property list |
| `MANIFEST.json` | Which theorem settles which property |
| `seeded/LOG.jsonl` | Mutation log: model edits imitating realistic bugs and the theorems that caught them |

## 2. Modelling decisions

**Outcomes.** A C++ call can return, throw, or (failed `assert`, undefined behaviour such as
out-of-range access or popping an empty stack) do neither. `Res α = ok a | throw | ub` keeps the three apart.
Theorems say which outcome is reached.

**Scalars.** Three levels are used, and every property says which one applies:

* *Order level.* Functions that only compare, select or copy coordinates (min/max, extreme points, sorting order,
  nearest-point search on an abstract distance, table walk, caches, parsers) are modelled over an arbitrary linear order,
  or an arbitrary distance function into a linear order. Such theorems apply literally to IEEE doubles without NaN.
* *Real level.* Functions that compute with coordinates are modelled over an ordered field or over `ℝ`
  (when `sqrt`, `acos`, ... occur). **Rounding is not modelled at this level**: these theorems are about the
  algorithm in exact arithmetic. Thresholds (`thr::nullDistance()`, ...) are *parameters*, since the user may change them at run time;
  division keeps the guard the code has, and theorems that need a non-zero denominator have it as a hypothesis
  so Lean's `x/0 = 0` is never used to make a statement true.
* *Rounded level* (C101 and following). The basic computations (distances, lengths, areas, cross products, boxes, lines through points, homographies, distances to lines)
  are modelled again with a rounding after each operation, in the order of the code. The rounding and `std::hypot` are parameters; what is assumed of them
  (relative error, monotony, symmetry, ...) is `Spec.FlOk` (`Spec.AcosOk` for `std::acos`, `Spec.Atan2Ok` for `std::atan2`, `Spec.AxisExact` for `std::hypot` with a null argument), and `binary_ok` proves that rounding to nearest even with `p` bits meets it.
  Exponents are unbounded, except in C123: there formats have their limits (gradual underflow; an overflow gives an arbitrary number), and far from these limits results are shown to be the same. NaN and infinities stay out of the model.

**Points.** `Point2d_` stores homogeneous `(v0,v1,v2)`, and `getX() = v0/v2`. Where homogeneous storage matters
(products with lines, homographies) the model keeps the triple. Elsewhere all the code goes through `getX()/getY()`,
and the model uses the pair of coordinates.

**State.** Hidden mutable state is modelled explicitly as a state machine: matrix normalisation flag, cached inverse-transpose,
polyline attribute cache, polyline normalisation flag, global "do not check radius" flag, global default drawing parameters.

**Templates.** Mixed numerical types (`float`, `long double`, ttmath) are collapsed to one scalar type.

## 3. Trusted base

* Lean's kernel, and the axioms `propext`, `Classical.choice`, `Quot.sound` (checked with `#print axioms` on every property theorem,
  see section 6). No axiom is added, no `sorry`/`admit`, no `native_decide`, no `bv_decide`.
* The hand translation from C++ to Lean (the comments give the line ranges).
* The exact-arithmetic idealisation at the real level; at the rounded level, the absence of overflow and underflow (proved in C123 for part of the functions), and of contraction or extended precision by the compiler.

Not modelled at all: NaN and infinities, the OpenCV and Eigen libraries themselves (C130 and C131 model the data exchanged with OpenCV and Boost, C156 the calls made to the drawing functions of OpenCV),
XML parsing by tinyxml2, stream formatting of numbers (abstracted as a parser/printer pair), compile-time dispatch
(`enable_if`, variants, CRTP), threads other than concurrent const calls and constructions (C140, C141, C144), per-translation-unit duplication of the threshold statics.

## 4. Plan per property

| Id | Property | Model and proof |
|----|----------|-----------------|
| C01 | Line built from two points contains both | Real. Homogeneous triples, `crossProduct`, `normalizeLine` over ℝ with `nullDenom` as parameter. Algebra + sqrt lemmas. Expected to fail when 0<\|a\|<nullDenom after normalisation (sign of b,c flipped without a): prove `_partial` outside that band and a concrete counterexample inside it. |
| C02 | Intersection point of two lines lies on both | Real. Non-parallel from the angle test implies non-zero cross product; incidence by algebra. |
| C03 | Point distance is a metric on locations | Real. Euclidean metric in coordinates; triangle inequality via Minkowski/`Real.sqrt`. |
| C04 | Line/point distance is the shortest distance to the line | Real. Lower bound by Cauchy-Schwarz, attained at the orthogonal projection. |
| C05 | Parallel lines are at the requested distance | Real. Algebra on normalised lines. |
| C06 | Orthogonal line and segment | Real. Model `getOrthogonalLine_B2` and `getOrthogSegment`, algebra. |
| C07 | Points at a distance along a line | Real. Model `getPoints_B2` + `fix_order`. |
| C08 | Line/circle intersection is sound and complete | Real. Model `impl_intersectsCircle`; soundness and completeness by algebra (Pythagoras along the line). |
| C09 | Angle between lines is well defined | Real. `Real.arccos` of the clamped quotient; Cauchy-Schwarz shows the clamp is never needed in exact arithmetic. |
| C10 | Point ordering is a strict total order of locations; == is a tolerance | Order level for `<` (lexicographic). Real for `==`; plus counterexample to transitivity of `==`. |
| C11 | Product of homographies is composition | Field. 3x3 matrices as functions; composition by ring, division by scale factors. |
| C12 | Inverse homography undoes the homography | Field. Adjugate identity, scale by det and by (2,2). |
| C13 | Homographies preserve incidence after any history | State machine over operations of a homography object (data, normalised flag, changed flag, cached matrix). Invariant 'cache valid or marked changed' by induction over histories without init/element write/transpose; counterexample histories for these three. |
| C14 | add* members append a transformation | Field/ℝ. Induction over call chains. |
| C15 | Homography equality ignores scale | State machine with the `_isNormalized` flag; counterexample for stale flag. |
| C16 | Homography maps composite objects pointwise | List maps; any container length. |
| C17 | Segment end points are always ordered | State machine on segments; invariant by induction; counterexample for conversion from an oriented segment. |
| C18 | Segment equality ignores construction order, oriented equality does not | Order/real level. |
| C19 | Point/segment distance is the shortest distance | Real. Projection parameter, three cases; minimality over the convex combination. |
| C20 | Splitting and measuring a segment | Real. |
| C21 | Parallel segments | Real. |
| C22 | Segment/segment intersection is sound and complete up to the null distance | Real. Soundness from the triangle-inequality slack, completeness from collinearity. |
| C23 | Side of a point relative to an oriented segment | Field. Sign of a cross product. |
| C24 | Negating an oriented segment | State: the operator returns a value and a new value for the operand; counterexample for the operand. |
| C25 | Flat rectangle is canonical whatever two opposite corners are given | Order level with abstract share test, real level for the threshold. |
| C26 | Rectangle invariant is preserved by every mutator | Histories of mutators, invariant by induction. |
| C27 | Containment in rectangles and circles is a strict order compatible with points | Order level for rectangles, real level for circles. |
| C28 | Intersection area of two rectangles | Real. Full model of rectangle/rectangle intersection through segment intersections; theorem under the hypothesis that distinct coordinates differ by more than the null distance (always true for integer coordinates). |
| C29 | Union of two rectangles: table walk is safe and exact | Order level. Table walk as a total function with explicit out-of-table outcome; the finitely many order types are exhaustively derived from arbitrary coordinates; area by algebra. |
| C30 | IoU is a similarity score | Real. From C28 and C29. |
| C31 | Bounding box of points is the smallest enclosing rectangle | Order level; induction on the list of points. |
| C32 | Bounding box of two objects is symmetric | Model of the overload with its flags; counterexample with an empty polyline first. |
| C33 | Bounding box of a heterogeneous container | Fold model including the stale pair after an exception; counterexample with a leading line, `_partial` theorem for containers without lines. |
| C34 | Extreme points | Order level; induction. |
| C35 | Circles never have a null radius, after any history | Global-flag state machine; invariant for histories without a failing set(container), counterexample with it. |
| C36 | Circle through three points | Real. |
| C37 | Minimum enclosing circle | Real. Welzl recursion with an arbitrary pick sequence. |
| C38 | Circle/circle intersection | Real. |
| C39 | Cached polyline attributes are always up to date | State machine: points + four cached attributes, generic in the attribute functions (hence exact for floating point); invariant by induction; counterexample translate/centroid. |
| C40 | Closed polyline equality ignores starting point and direction | Order level + determinant sign; lists, rotation, reversal. |
| C41 | Comparing polylines has no visible side effect | State machine; counterexamples (vertex order, convexity), and `_partial` theorem: set of vertices, size, length unaffected. |
| C42 | Polygon area is geometric | Field. Shoelace sum over lists; rotation, reversal, translation, scaling by induction. |
| C43 | Polyline segments form a chain | Lists of any length. |
| C44 | minimize() only removes redundant vertices | Order level with an abstract 'same direction' predicate; list induction. |
| C45 | Convexity does not depend on orientation or starting vertex | Field. Positive theorem for polygons without collinear vertices; counterexample with one. |
| C46 | Quarter-turn rotations and mirrors form a group action | Field/ℝ. Pointwise algebra, lifted to lists. |
| C47 | Convex hull is the convex hull | Field. Graham scan as a total function with fuel-free recursion; invariants on the stack; thresholds as parameter; any size. |
| C48 | Nearest / farthest point search | Order level with abstract distance and equality predicate; induction over the container. |
| C49 | Combined search agrees with the separate ones | Same. |
| C50 | Closest points of two polylines | Same; nested loop. |
| C51 | SVG polygon export/import round trip | Character level; tokenizer and writer with abstract number printing/parsing. |
| C52 | SVG path import follows the path semantics | Token level state machine + character level lexer. |
| C53 | SVG path import never aborts the program | Same; outcome `ub`/abort distinguished; counterexample strings. |
| C54 | Duplicate removal on import | List induction, equality predicate parameter. |
| C55 | Ellipse parameters are recovered | Real. sin/cos algebra. |
| C56 | Point in ellipse and ellipse bounding box agree with the curve | Real. Counterexample for vertical major axis. |
| C57 | Comparing ellipses has no visible side effect | State (matrix scaling); counterexample. |
| C58 | Homography of an ellipse is the image of the curve | Field. Quadratic form transported by the inverse. |
| C59 | Default drawing parameters | State machine on drawing parameters. |
| C60 | Lines that compare equal are close | Real. Soundness under the hypothesis that the x-coefficient is not in the band handled specially by the normalisation; counterexample with near-horizontal lines. |
| C61 | Centroid of a polygon follows the polygon | Field. Sums over cyclic pairs; algebra and telescoping sums. |
| C62 | Homography from four point pairs | Field. The system assembled by the code is modelled row by row; the linear solver (Eigen) is trusted to return a solution. |
| C63 | Distance between parallel lines | Real. NaN is a distinct outcome. Proved for lines with the same direction; counterexample with nearly vertical lines. |
| C64 | Side of a line | Real. Sign of an affine function along a segment. |
| C65 | Coordinate of a point of a line | Real. Algebra. |
| C66 | Segment/circle intersection | Real. The circle function along the segment is a quadratic with known roots; counterexample when an end is on the circle. |
| C67 | Extended segment | Real. Roots of the circle function; counterexample for segments with unordered ends. |
| C68 | Collinearity of three points | Real. |
| C69 | Segment/line intersection | Real. Same method as C22. |
| C70 | Bisector of a segment | Real. |
| C71 | Orthogonal points of a segment | Field. |
| C72 | Translation of an ellipse | Real. Parameters computed back from the matrix; counterexample for vertical major axes (angle 90 used as radians). |
| C73 | Bounding box of a circle | Field. |
| C74 | Point inside a polygon | Real. The reference segment, the vertex test, the split rounds and the count are modelled as written; parity of crossings along the reference segment is shown equal to the even-odd rule by a sum over the closed contour. |
| C75 | Bounding box of containers of segments, rectangles, circles or polylines | Field. The boxes of the elements are modelled, then the box of the corners; union of tight boxes. |
| C76 | Containment in a circle, a rectangle or an ellipse covers the whole object | Model the three member functions on top of point containment (C35, C27, C56); convexity of the shapes gives all the points from the vertices. |
| C77 | A circle is said inside a polygon exactly when its disk is | Model the function; the contour does not meet the circle and starts outside (intermediate value), the parity is constant on the disk. |
| C78 | Segments, polylines and rectangles inside a polygon | Model the three functions; a segment that misses the contour has a constant parity; a rectangle whose border misses the contour and with an inner corner is inside. |
| C79 | Intersections of a polyline are those of its segments | Model as the concatenation over the segments; soundness and completeness from C22, C66, C69. |
| C80 | Intersections of a rectangle with a line, a circle, a rectangle | Loops of the three functions on top of the models of segment/line, segment/circle and segment/segment intersections. Line: sign changes of the equation of the line around the four corners (0 or 2), overshoot excluded by the distance of the corners. Circle: exactness per side (C66). Rectangles: transfer to ranks, as for C28. |
| C81 | Circles and diagonals of a rectangle | Real level. Radii from the distance functions of the model (C19 for the distance to the sides), optimality by the triangle inequality and by the extreme points of a disk. |
| C82 | Regular polygons | Real. Model the loop and the computation of the inner radius (segment, line through the origin, intersection); trigonometric identities; convexity by comparison of cosines of odd multiples of pi/n. |
| C83 | Parallelograms | Real. The last point is the intersection of the two parallels (C05), unique as they are not parallel (C02). |
| C84 | The angle between two oriented segments is the rotation from one direction to the other | Real. atan2 of cross and dot product; unicity from the bijection between (-pi,pi] and unit complex numbers. |
| C85 | A rotated line is the image of the line by the rotation about the point | Real. Product of three elementary matrices in closed form, inverse transpose applied to the line, normalisation. |
| C86 | Bisector lines of a polyline bisect the angle at every vertex | Real. Induction over the loop, whose invariant is that the first segment goes from the current vertex to the previous one; C84 and C85 for each step. |
| C87 | Tangent segments join the contact points of the two outer tangents | Real. C85 for the rotated lines, C07 for the point on them, C21 for the parallel segments; the choices by distance are decided by the foot of the perpendicular. |
| C88 | Offset polygon | Model the loop on consecutive oriented segments after normalisation; induction over the loop, signed distances to the lines of the edges; witnesses for the failures. |
| C89 | Axes and oriented box of an ellipse | Model getAxisLines and getOBB on top of the ellipse parameters, lines, orthogonal and parallel lines, intersections, polyline constructor. Prove for the ellipses whose angle is found; show the failure for a vertical major axis. |
| C90 | Segments perpendicular to a segment | Model getOrthogSegs with the segment constructor; compute. |
| C91 | Points inside a shape | Model the loop over the point-in-shape tests; induction on the vector, on top of the inside theorems of each shape. |
| C92 | Arrow of an oriented segment | Model getArrowSegments on top of line points and orthogonal lines; prove for segments not nearly along an axis; show the throw for nearly horizontal ones. |
| C93 | Drawing of a line | Model the backend-independent drawing function on top of the line/rectangle intersection; prove the chord is the one drawn; show a line for which nothing is drawn. |
| C94 | SVG files: what is drawn is what is imported | Model each drawing function as the tags it writes, the XML parser as a stack machine, the visitor as a function of the elements. Compose by induction on the sequence of drawings: balanced tags, import of each element. With exact numbers, then with rounded ones. |
| C95 | Symbols of points | Model drawPt with the segment constructor; invariant of the drawing parameters (C59) for the sizes; compute each symbol. |
| C96 | SVG files can be parsed | Each drawing that ends well writes a balanced list of tags; induction on the sequence. For drawings that end with an exception, show what is left in the image. |
| C97 | Attributes given by the user in SVG files | Model the search of fill= as a search in the text; prove by induction on the list of attributes that it finds exactly the attribute fill; then the attributes of every element of every drawing. |
| C98 | Lines given by other data | Reduce each function to the model of the lines (C01, C02, C06, C07, C65) and prove incidence; failures as exact conditions. |
| C99 | Results of intersections are consistent | Model the result objects as state; induction on the history for the list; uniqueness of the sorted permutation of a list for the total order. |
| C100 | Editing a circle | State machine on the circle and the global flag; invariants by induction on the history. |
| C101 | Distances computed with rounding | Model the functions again with a rounding after each operation; standard relative error analysis; the search theorem C48 is generic in the distance. |
| C102 | Length of a polyline computed with rounding | Induction on the list of segments for the error of a running sum. |
| C103 | Area of a polygon computed with rounding | Error of a running sum by induction; exactness on integers by induction; witness for the negation. |
| C104 | Orientation and convexity computed with rounding | Relative error of a difference of two products; congruence of the convexity loop under equal signs; witness for the negation. |
| C105 | Boxes, centres and translations computed with rounding | Monotony of the rounding and relative errors; witness for the negation. |
| C106 | Lines through two points computed with rounding | Symmetry from the symmetry of the rounding; residual by relative errors of the cross product, of the norm and of the division. |
| C107 | Homographies computed with rounding | Relative error of a sum of three products. |
| C108 | Distance to a line computed with rounding | Relative error of a sum of products and of a division by the computed norm. |
| C109 | Line/circle intersection computed with rounding | Relative errors of the norm, of the distance and of the half chord; the clamp d0 <= r keeps the argument of the square root non-negative by monotony. |
| C110 | Distance to a segment computed with rounding | The point used is the segment point at a clamped parameter, clamping is 1-Lipschitz; relative error of the parameter. |
| C111 | Convex hull computed with rounding | The rounded comparison and orientation equal the exact ones, the loop is congruent, then C47 on the exact hull; witness for the bound. |
| C112 | Angle and parallelism of lines computed with rounding | Relative error of the cosine; acos is Hoelder with exponent 1/2. |
| C113 | Circle/circle intersection computed with rounding | Relative errors of both tests, of the abscissa and the ordinate along the line of centres; witness for the negation for any number of bits. |
| C114 | Length of an ellipse | The speed is written as \|1 + mu e^(2is)\| times (a+b)/2 with mu^2 = h; polynomial bounds of the square root with exact integrals give two bounds that both the integral and the formula meet. |
| C115 | Intersection point of two lines with rounding | Error of the difference of two rounded products, then of the quotient of two numbers with an absolute error; Cauchy-Schwarz for the size of the terms. |
| C116 | Intersection of two segments with rounding | Distance of the computed lines to the ends (C106), angle of lines nearly along two segments, intersection point (C115), error of the sum of distances; second order effect of a shift for an inside point. |
| C117 | Nearest, farthest and closest points with rounding | Instances of the loops proved for C48-C50 with the rounded distances, then error bounds of squared distances and distances. |
| C118 | Simple polygons: when the answer is right | Loops over pairs of indexes shown equal, by induction, to a statement on all pairs of edges without common vertex; then theorems on the intersection of two segments. |
| C119 | Simple polygons with rounding | Instance of the loops of C118; totality and error bounds of the rounded intersection of segments (C116), and distance of a point to a segment from the sum of its distances to the ends. |
| C120 | Colors and labels in SVG files | Invariant of the composition of drawings; numbers in base 10 and 16 read back by induction on the number. |
| C121 | Centroid with rounding | Error of the sums by induction on the points, of the area (C103), then of the quotients. |
| C122 | Errors in SVG files are reported | Case analysis on the name of the element; induction on the characters for the tokens, on the elements of the file, on the attributes of the root element. |
| C123 | Overflow and underflow do not matter far from the limits of the number format | Model of IEEE 754 formats with gradual underflow and an arbitrary result of overflow; results on a grid stay on a grid, so each rounding is the same as with unlimited exponents; induction on lists for areas, lengths, hull. |
| C124 | Inverse of a homography with rounding | Rounded model of the determinant, the adjugate and the division; error bounds of each product of three factors; the exact inverse is characterised by B*M = I (Mathlib's matrices). |
| C125 | Point inside a polygon with rounding | Rounded model of the whole algorithm (bounding box, distance to the lines of the edges, reference segments, count of intersections). A crossing that the rounded test finds is a true one and conversely, because vertices are not near the reference segment; the parity does not depend on the reference segment (C23). |
| C126 | Conversion between number types | Model of the converting constructors with rounding of each value. Relative error of each rounded value, monotony of rounding, sums over the pairs of consecutive vertices. |
| C127 | Intersection of two rectangles with rounded arithmetic | Model of intersectArea() and of the intersection of rectangles with rounding of each operation. The lines through the sides are exact, the rounded intersection point of two orthogonal sides has one coordinate of each side up to an error, and the walk over the sides only uses the order of the coordinates, which is kept. |
| C128 | Union of two rectangles with rounded arithmetic | Model of unionArea() with rounding of each operation. The result only holds coordinates of the rectangles; the tests for equal points, for aligned points and for an empty intersection have the same outcome as with exact operations, so that the walk over the table is the same. The area is the shoelace sum of at most twelve vertices. |
| C129 | IoU with rounded arithmetic | Combination of C127 and C128: error of the area of the common rectangle, error of the area of the union, error of the quotient. |
| C130 | Data exchanged with OpenCV | Model of the OpenCV matrix by size, channels, type and elements, and of the fields of the homography; the round trip goes through the two loops over the nine elements. Histories: C13. |
| C131 | Import of Boost Geometry polygons | Model of the constructor on the list of the points of the ring; comparison with the constructor from a container. |
| C132 | Lines transformed by a homography with rounded arithmetic | Composition of the rounded inverse (C124), the normalisation of the matrix, the transposed product and the normalisation of the line. The determinant and the two divisors are common factors and cancel: the errors are taken relative to the adjugate matrix. |
| C133 | Convex hull of any points with rounded arithmetic | Error bound of the two cross products: when all triangles are larger than it, all comparisons have their exact result, and the computation is the exact one (C47). For the negation, four points with ties in the sort, followed through the scan. |
| C134 | No access out of range whatever the rounding | The models with rounded operations, an access out of range being a distinct outcome; induction over the loops, without any hypothesis on the arithmetic. |
| C135 | Overflow and underflow do not matter for composed operations | Intervals of exponents followed through each formula (as in C123, with quotients of quotients), then by induction over the loops: the two computations take the same branches. |
| C136 | The text written on a stream determines the value | The texts are cut again at the separators, which no number contains; induction over polylines and containers. |
| C137 | Random colours stay in the requested range | Monotony of the rounding through the formula, induction over the loop. |
| C138 | Intersections of polylines with floating-point numbers | Rounded model of the two nested loops; C116 for each pair of edges, induction over the lists of edges. |
| C139 | Segments, polylines and rectangles inside a polygon with floating-point numbers | C125 for the vertices, C138 for the edges, and the parity of the crossings is constant along a segment that misses the contour. |
| C140 | Const calls on a polyline by several threads | Interleaving model: each thread does one access to the object at a time (test of the flag, vertices, words of the value, flag). Rely and guarantee invariant, induction over the schedule; a rank for the return of every call. |
| C141 | Lines transformed by the same homography in several threads | Interleaving model of the cached transposed inverse: pointer, flag, and words of the matrix, with deleted matrices. Rely and guarantee invariant, induction over the schedule. |
| C142 | Circle from a container of points: safe whatever the rounding | Welzl's search over any test and any small circle, the vector as a list with the swaps; induction on the number of points left. Rounded model of the circles of two and three points. |
| C143 | Circles through two and three points, bisectors and collinear points with rounded arithmetic | Rounded model of the construction (choice of the largest distances, bisectors, their intersection). Relative error of each computed line with respect to an exact bisector, then of the intersection point by Cramer's formulas and the sine of the angle of the bisectors. |
| C144 | Circles built in several threads | Each construction as the tree of its reads and writes of the global flag, refined by the model with one thread (`run_op`); rely and guarantee over all schedules. |
| C145 | Segment and circle with rounded arithmetic | Error of the line (C106) and of the points on the circle (C109), middle of both points near the foot of the centre; the distance to the centre is convex along the segment, which gives the sides without any square root. |
| C146 | Segment or polyline and line with rounded arithmetic | Error of the line of the segment (C106) and of the crossing point of two lines (C113); lines not found parallel have an angle above a bound, so that the point is near the segment only if the line is; induction on the edges; parity by the sign of a product. |
| C147 | Rounding is the only difference between number types | The rounded model takes the arithmetic as a parameter; with the exact one, each function is shown equal to the one of the model over the reals: by induction for the loops and the recursion of the smallest circle. |
| C148 | Sides, coordinates and parallels of a line with floating-point numbers | Model of the functions with each operation rounded; forward error analysis from the bounds on one operation. |
| C149 | Moving polylines and rectangles with floating-point numbers | Histories of moves on the list of points, with each operation rounded; induction over the history with a bound on the error that grows by one factor per rounding. |
| C150 | Orthogonal lines and segments with floating-point numbers | The model calls the rounded crossing, distance and normalisation; the error of each is propagated to the position of the foot of the perpendicular. |
| C151 | Intersection of a rectangle and a line with floating-point numbers | The loop over the sides calls the rounded segment/line intersection (C146); the points found are not corners, so none is dropped. The signed distances of the corners have the same sum on both diagonals, so that no side or two are crossed. |
| C152 | Intersections of a polyline or a rectangle with a circle, with floating-point numbers | Induction over the edges; each one calls the rounded segment/circle intersection (C145). Parity: the property of being inside the disc changes an even number of times around a closed list. |
| C153 | Histories of transformations of a homography with floating-point numbers | Induction over the calls, on each column of the matrix: the error of a column is at most 10 k (u + w) times a bound of its size after k calls. The last row is exact, so that the normalisation divides by 1. |
| C154 | Rotated lines with floating-point numbers | The matrix of the three transformations, its inverse and the product with the line are computed explicitly; each value is followed with its error and its size relative to M. |
| C155 | The points of a polyline after any history of calls | State machine of C39; case analysis on the last call, induction over the moves. |
| C156 | Drawing on an OpenCV image | The drawing functions are modelled by the list of the calls they make to OpenCV; the mutual recursion has an explicit bound on the number of pending calls, and is shown to be independent of it from five on. |
| C157 | Moving the whole scene by a vector moves the answers | Each function is shown to commute with the move, by induction on the lists of points and sides and on the recursion of the minimum enclosing circle; the condition on slopes is stated in the specification for the points given. |
| C158 | First vertex and direction of a polygon do not matter | The sides of both polylines are a permutation of each other, with ends swapped when the direction changes; each loop over the sides (intersections, distance to lines, count of crossings, search of a reference segment) is shown by induction not to depend on their order. For the circle: if no side meets the circle then all vertices are on the same side of it, so testing the first one is enough. |
| C159 | Changing the unit by a power of two changes nothing but the unit | The exponent used by the rounding is shifted by that of the unit, so rounding commutes with the scaling; then induction over the sides or the points for lengths, areas, convexity and searches. |

## 5. Disagreements between the properties and the code

Each line is a theorem that proves, with a witness, that a property as stated does not hold of the modelled code. The positive theorem that remains is the one with the same property number.

* `C01_false`: C01 is false in general: whatever the (positive) threshold, there are two points such that the line built from them misses the second one. When the first coefficient is below `nullDenom` the code changes the sign of the two others only.
* `C06_false`: C06 is false in the missing case, whatever the threshold: the "orthogonal line" at a point does not contain this point.
* `C100_false`: C100 is false: the radius alone is not checked. `set(rad)` accepts any value, while the same value is refused with a centre.
* `C100_two_false`: C100 is false: two close points. A circle built from two points may have a radius that is refused when given directly.
* `C103_sharp`: C103, the bound is needed. Whatever the number of bits, there is a square with integer coordinates, all exactly represented, of area 1, whose computed area is null. With `double` its corner is (2^52,2^52).
* `C104_sharp`: C104, the bound is needed. Whatever the number of bits, there is a strictly convex quadrilateral with exactly represented integer coordinates which is declared not convex; one of its vertices lies strictly on one side of an edge, but is declared to lie on it.
* `C105_sharp`: C105, far away. Whatever the number of bits: a translation can collapse the unit square to a point, and the bounding box of a circle of radius 1 throws for a centre with large coordinates (2^55 for `double`), although the centre and the radius are exactly represented.
* `C106_false`: C106, false for small slopes. Whatever the rounding, with the standard thresholds, the line computed from (0,0) and (2^40,1) does not go through the second point: its true distance to the line is more than 1.
* `C109_sharp`: C109, the margin is needed. With `p` bits: the line `x + 1/2 = 0` and the circle with centre (2^p, 0) and radius 2^p do not meet, but points are returned.
* `C10_not_transitive`: C10, remark. This equality is not transitive, whatever the threshold.
* `C110_sharp`: C110, the margin is needed. With `p` bits, `N = 2^(p-1)`: the segment from the origin to (N+1, N) and the point (N-1, -N). The projection is before the first end, but the region given is 0.
* `C111_sharp`: C111, the bound is needed. With `N = 2^(p-1)`: four different points, all the coordinates are integers up to `2N`. The comparison given to `std::sort` is not a strict weak ordering: the first is equivalent to the second, the second to the third, but the first is before the third. The behaviour of `std::sort` is undefined.
* `C112_sharp`: C112, the square root in the error is needed. With `p` bits, `u = 2^-p`: two lines whose exact angle is more than `√u / 3`, the computed angle is `acos 1`, that is 0. So a threshold below `√u / 3` can not be used: these lines would be parallel for any positive threshold.
* `C113_false`: C113 is false in general. With `p` bits: two circles with the same radius `x`, touching at (x, 0). None of both tests finds that they do not intersect, but the value whose square root is taken is negative: both points have NaN coordinates. For `double`, x = 6755399441055745.
* `C116_sharp`: C116, short segments far from the origin. The bound on the precision is needed. With `p` bits, `N = 2^(p-1)`, two segments of length 3 with exactly represented coordinates, horizontal and vertical, that cross at a distance of at least 1 of their ends: no intersection is found, for all thresholds up to 1.
* `C117_sharp`: C117, the exact nearest point is not always found. With any precision there are two points with exactly represented coordinates, different from the query, such that the nearest search returns the farther one (and the farthest search with the order exchanged the nearer one), for all thresholds up to 1.
* `C118_overlap_false`: C118, overlapping edges. With the default thresholds, a polygon is said to be simple though two edges without common vertex have all points of a segment in common: (0,0) (2,0) (1,0) (3,0) (1,2).
* `C118_shallow_false`: C118, edges at a small angle. With the default thresholds, a polygon of four edges is said to be simple though two opposite edges, of length 4000, cross in their middle: (0,0) (4000,1) (4000,0) (0,1).
* `C119_far_false`: C119, far from the origin. The bound on the precision is needed. With `p` bits, `N = 2^(p-1)`, a polygon of four points with exactly represented coordinates, two opposite edges of which, of length 3, cross at a right angle, at a distance of at least 1 of their ends: it is said to be simple.
* `C120_angles_false`: C120, angles of a closed polyline. There is an angle at each point of a closed polyline, but the one at the first point is never written: with the angles asked for, one text less than points.
* `C121_far_false`: C121, far from the origin. The bound on the area is needed: with `p` bits, the square of side 1 whose corner is (2^(p-1), 2^(p-1)), the coordinates of which are exactly represented, is taken as simple, and has a computed centroid whose coordinates are not numbers (division by zero).
* `C122_empty_false`: C122 is false of the code for an empty list of points, which is valid in SVG: the behaviour is undefined (first element of an empty vector), whatever the other elements are.
* `C123_overflow_sharp`: C123, overflow. With `double`, the area of a triangle may be a number of the format, and yet depend on the result of operations that overflow: exact area `2^987`, but the value computed is 0 or 1/2 according to these results (not a number, with those of IEEE 754).
* `C123_underflow_sharp`: C123, underflow. With `double`, the area of a triangle with sides of length `2^-600` is computed as 0; so is the squared distance of two of its points, used to compare distances, though their distance itself is not null.
* `C124_singular_false`: C124, without a condition on the size of the values: for any precision of at least 4 bits there is a matrix of numbers of this precision that has no inverse and for which `inverse()` gives one.
* `C125_false`: C125, false in general. In `double` with the default thresholds, the point (0, -1/2) is inside the simple polygon `lPoly` and at a distance of at least 1/2 of its contour, but `isInside()` answers `false`: it is on the line that supports an edge (`C125_near_line`).
* `C125_throw_false`: C125, false in general, exception. In `long double` with the default thresholds, the origin is inside the simple polygon `comb5` and at a distance of at least 2/5 of its contour, but an exception is thrown (`C125_throw`).
* `C126_false`: C126 is false for small objects far from the origin. For all `p`, `q ≥ p + 2`: with `q` bits, a rectangle, a segment and a triangle that the constructors accept; converted to `p` bits, without exception, the rectangle has a null width, the ends of the segment are the same point, and two consecutive vertices of the triangle too. The constructors of the target type throw for them.
* `C126_order_sharp`: C126, sharpness. The ends of a (non oriented) segment may be exchanged by a conversion: `(N,1) (N+1/2,0)` with `N = 2^p`, converted to a type with `p` bits.
* `C127_false`: C127 does not hold when two sides have the same coordinate. With the type `double`, the default thresholds and `x = 1 - 2⁻⁵³`, the rectangles `[-1,x]×[0,4]` and `[0,x]×[3,4]` overlap (the second one is inside the first one, and with exact operations it is the answer). The right side is found at `x` from the first rectangle and at `1` from the second one, so that `intersectArea()` picks two points with the same ordinate and throws.
* `C128_false`: C128 does not hold for all rectangles. With the type `double` and the default thresholds, `unionArea()` of `[0,2]×[1,2]` and `[1,3]×[0,1]` (they meet along a piece of a side) reads outside of its table.
* `C129_false`: C129 does not hold when two sides have the same coordinate. With the type `double` and the default thresholds, there are rectangles with sides of length 1/2 or more, one inside the other, whose IoU is well defined with exact operations, and for which `IoU()` throws.
* `C12_refused`: C12, an invertible matrix that is refused. The determinant is 1, the inverse exists but cannot be normalised.
* `C130_false`: C130 is false for the assignment. After a product with a line, a `cv::Mat` (here the unit matrix) assigned to a homography is used for points, but lines still follow the old homography: a point of the line is no more mapped on the image of the line.
* `C130_ptd_false`: C130 is false for points with `getCvPtd()`. The name is the one of a conversion to a point with `double` coordinates, but whatever the rounding of OpenCV the abscissa 1/2 is lost. The same for `getCvPtf()`.
* `C131_false`: C131 is false for other rings. Points that follow each other and are the same, which the constructor from a container refuses, are imported; a ring with one point gives an empty polyline; an empty ring is undefined behaviour.
* `C132_false`: C132, without a condition on the determinant: for any precision of at least 6 bits there is a matrix of numbers of this precision that has no inverse, so that a line of the plane has no image line, and for which the product with a line gives a line.
* `C133_false`: C133 is false in general. With `p` bits and a threshold of at most 1: four different points whose coordinates are integers up to `2^p`. The comparison given to `std::sort` is a strict weak ordering, the sort is a right one (and stable), but the scan takes the top of an empty stack: `(0,0)`, `(N,M)`, `(N+1,M+1)`, `(N+2,M+1)` with `N = 2^p - 8`, `M = 5/8 2^p`.
* `C136_digits_false`: C136: with texts of at most `N` characters there are different points with the same text as soon as there are more values than texts. With the default precision (6 digits, 13 characters at most of 16 different ones) this holds for the values of `double`.
* `C136_line_false`: C136: a line and a point at infinity can have the same text.
* `C136_polyline_false`: C136: the text of the intersection with a polyline does not show the points: they are not written on the stream that is given but on `std::cout`.
* `C137_sharp`: C137: the arguments are not checked. With a value above 255 or below 0 a conversion can be undefined: when `std::rand()` gives `RAND_MAX`, or 0.
* `C138_sharp`: C138, short edges far from the origin. The conditions on the precision are needed. With `p` bits, an open polyline with one edge of length 3 and a vertical segment of length 3, with exactly represented coordinates, cross at a distance of at least 1 of their ends: no intersection is given, for all positive thresholds up to 1.
* `C139_false`: C139, false in general. In `double` with the default thresholds, all the points of the segment from (-1/2, -1/2) to (0, -1/2) are inside the simple polygon `lPoly` and at a distance of at least 1/2 of its contour, but the answer is "not inside": an end is on the line that supports an edge.
* `C13_false`: C13, negation. With `init()`, an element write, or `transpose()` after a product with a line, the next product with a line uses the old matrix: a point of the line is no more mapped on the image of the line. (Values before the scaling to unit length, which does not change the line here.)
* `C13_write_false`: C13, negation, element write and transpose.
* `C140_false`: C140, negation. A triangle, that has not been compared before: one thread computes its area, another one compares it with some polyline. Even if the normalisation is done at once, the area can be 0 instead of 9/2, and it is then the one that is returned by all later calls (thread 2).
* `C141_false`: C141, negation. Whatever the homography (with an inverse), the thresholds and the lines, if it has never transformed a line: two threads that both see that the cached matrix is not allocated both allocate it; the matrix of the first is deleted by the second while the first one reads it. With another schedule, the first one reads the null matrix that the second has just allocated: its line is transformed into (0,0,0).
* `C142_draws_sharp`: C142, this number of draws is reached if no point is found inside any circle: with such a test the cost is cubic.
* `C143_false`: C143 is false for nearly horizontal segments, even without any rounding: a point of the bisector of (0,0) and (2^40,1), whose distances to both points differ by more than 1.
* `C144_false`: C144, negation, two searches. Whatever the thresholds, the random values and the points (four or more) of two containers: if the search of the second circle succeeds alone, there is a schedule for which it ends while the first search is at its beginning; the first one then throws, even if it would have succeeded alone.
* `C144_radius_false`: C144, negation, null radius. While a thread searches a minimum enclosing circle, another one may build a circle of radius 0, which is refused otherwise.
* `C145_false`: C145 is false without a margin that grows with the distance to the origin. With `p` bits of precision (`p` at least 6): a segment with one end inside a circle and the other outside, by more than 1/5, and no intersection point is reported.
* `C145_sharp`: C145, the margins are needed (1). In `double`, default thresholds: the segment from (-1 + 2^-40, 0), inside the unit circle, to (2, 0), outside, meets the circle at (1, 0) only; the point that is reported is (-1, 0), at distance 2, which is not on the segment.
* `C146_sharp`: C146, short segments far from the origin. The conditions on the precision are needed. With `p` bits, a segment of length 3 and a line that is perpendicular to it, with exactly represented coordinates and coefficients, cross at a distance of at least 1 of the ends: no intersection is given, for all positive thresholds up to 1/2.
* `C147_sharp`: C147 (sharp). Rounding does make a difference: with `double` precision, the points (2⁵³, 0) and (-1, 0), whose coordinates are `double` numbers, are at another distance than over the reals.
* `C148_sharp`: C148, the condition on the signs is needed. Whatever the thresholds for which lines can be found parallel: two nearly vertical lines, as stored by the library, found to be parallel and whose distance is not a number.
* `C148_side_sharp`: C148, the error of `side` depends on the sizes. With `p` bits: for any `n` and `k`, a point and a line `x + 2^-k y - c = 0` with representable values; the expression is exactly `2^n`, but the point is said to be on the line, for any threshold.
* `C149_sharp`: C149, turns about a point are not exact in general. With `p` bits: a representable point, not the origin, that two half turns about (1,0) bring to the origin; and which a translation by (-1,0) followed by one by (1,0) brings there too.
* `C150_sharp`: C150, the condition on the direction is needed. Even without rounding, and whatever the thresholds: a nearly vertical line as stored by the library and a point, such that the first point of the segment is at a distance of more than 1 of the point of the line that is the closest.
* `C151_sharp`: C151, lines that pass by a corner. The condition on the corners is needed, even without rounding: the points given can both be near the same corner, and a common point on a side that is crossed at a large angle is missed.
* `C152_false`: C152 is false for circles through a corner, even without rounding: another intersection point on the same side is missed.
* `C153_sharp`: C153, the length of the translations counts. For any precision: three translations whose sum is (1,0), by floating-point numbers, and the origin stays at the origin.
* `C154_false`: C154, the condition on the result is needed. Even without rounding, and whatever the thresholds: a line as stored by the library, a point of it and an angle, such that the line returned does not pass by the point.
* `C155_sharp`: C155, sharpness. The exception made for the comparison is needed: `==`, a const operator, can change the order of the points that `getPts()` gives.
* `C156_sharp`: C156, sharpness. The same point is not at the same pixel in all drawings: the corner (0.75, 0.75) of a rectangle is drawn at (0, 0), and the end of a segment at the same place is drawn at (1, 1).
* `C157_sharp`: C157, the condition is needed. For two points that give a line in the narrow band of slopes, the line through the points moved to the right is not the moved line: its last coefficient is wrong.
* `C158_sharp`: C158, the condition on the center is needed. For this polygon and this circle, the answer is "not inside" when the polygon is read from a vertex that is in the circle, but an exception is thrown when it is read from a vertex that is not.
* `C159_sharp`: The same points, with the same threshold, are equal in one unit and not in the other: the threshold must follow the unit.
* `C15_false`: C15, negation. Element writes do not reset the flag "normalised": two multiples of the same matrix compare different.
* `C17_false`: C17 is false in general: the segment got from an oriented segment keeps its order.
* `C20_false`: C20 is false for nearly horizontal segments, whatever the thresholds: a point at half the length cannot be computed.
* `C21_false`: C21 is false for distances below the null distance: the segment returned first may be on the right.
* `C22_equal_false`: C22 is false for segments that compare equal, whatever the threshold: they share an end, have different directions, and no intersection is reported.
* `C22_false`: C22 is false for nearly horizontal segments, whatever the threshold: two segments with a common point, at a large angle, for which no intersection is reported.
* `C24_false`: C24 is false for every oriented segment: after the evaluation of `-s`, `s` itself is reversed, hence compares different from what it was.
* `C26_rotateRef_false`: C26 is false: a failing rotation about a point moves the rectangle. The call throws for a rectangle that is too small, but the first translation was done.
* `C28_false`: The full C28 is false: two small rectangles (larger than the minimal size of a rectangle) that have no common point, and an intersection area is returned.
* `C29_corner_false`: The full C29 is false: two unit squares that touch by a corner; the polygon has a null area.
* `C29_false`: The full C29 is false: two rectangles that share a part of an edge; the walk leaves the table.
* `C30_false`: The full C30 is false: for a small rectangle, IoU with itself throws.
* `C32_false`: C32 is false with an empty polyline. With a rectangle first, the box of the rectangle is returned; with the empty polyline first, the call throws.
* `C33_line_false`: C33 is false with lines. A line at the beginning of the container is not ignored: the point (0,0) is added, so that the box is not the smallest one.
* `C33_polyline_false`: C33 is false with flat polylines. An open polyline of three horizontal points has an extent but is ignored: the returned box does not contain it.
* `C35_false`: C35 is false of the code. After the failed construction of a circle from four equal points (whatever the random choices), a circle of radius 0 is accepted.
* `C36_false`: C36 is false of the code: with the default thresholds, three points that the library does not consider as collinear are refused, because the angle of two sides is too small.
* `C37_false`: C37 is false of the code for three points: the circle through them is built, even when a smaller one encloses them.
* `C37_repeated_false`: C37 is false of the code when points are repeated: nothing is built from copies of the same point.
* `C38_false`: C38 is false of the code for circles with the same radius and centers closer than the null distance: they meet, and nothing is reported.
* `C39_centroid_false`: C39, negation (centroid). A triangle, whose centroid is asked for, then translated: the centroid that is returned is the old one. A triangle has no pair of sides that are not neighbours, so that the result does not depend on how intersections are computed.
* `C39_retained_false`: C39, negation (reference). `auto& v = poly.getPts(); poly.area(); v = ...; poly.area();` gives the old area.
* `C40_false`: C40, negation. Distinct vertices, accepted by the constructor: the closed polyline and its reverse compare different, because it turns back at the vertex with the smallest coordinates.
* `C41_false`: C41, negation. Comparing a square (with an additional vertex on a side) to itself reorders its points, and changes the answer of `isConvex()`.
* `C44_false`: C44, negation. Whatever the positive angle threshold, there is an open polyline with a vertex where direction does change that is removed by `minimize()`.
* `C45_false`: C45, negation. A square with an additional vertex in the middle of a side is reported convex or not, depending on the direction.
* `C47_false`: C47 is false of the code: with three points on a line through the lowest one, given in the order far, near, farther, the result is not convex and does not enclose the points. Here (0,3) is outside of the edge (2,0)-(0,2) of the result. The sort is an insertion sort.
* `C47_pivot_twice_false`: C47, hidden hazard: when the lowest point is given twice, the comparison given to `std::sort` is not a strict weak ordering (undefined behaviour).
* `C47_repeated_false`: C47 is false of the code: the same point twice, and there is no hull, only an exception.
* `C48_nearest_false`: C48, nearest point: the unrestricted statement is false. When the two first elements of the container are both equal to the query point, `findNearestPoint` returns index 1, i.e. the query point itself, although the container holds a different point.
* `C51_collapse`: C51, limited digits. The round trip needs exact numbers: if two consecutive points are written with the same text (and the first and last ones are not), there is no import but an exception.
* `C51_empty_false`: C51 is false of the code for the attribute of an empty polyline: the vector of points is empty and its first element is read (undefined behaviour).
* `C52_closed_false`: C52 is false of the code: a closed sub-path followed by an open one is imported as open.
* `C52_minus_false`: C52 is false of the code: minus is a separator in SVG, "10-20" is two numbers; here it is taken as one word.
* `C52_relative_false`: C52 is false of the code: after "close path" the current point must be the start of the sub-path, the code keeps the last vertex. Here the second sub-path must start at (1,1).
* `C52_trailing_false`: C52 is false of the code: any valid path whose last sub-path is open, followed by a space (or comma), is refused.
* `C53_abort_false`: C53 is false of the code: take any string that ends with "close path" and is parsed without error, and add a space, a comma, or a number: the program is aborted (failed `assert`).
* `C54_false`: C54 is false of the code: the equality of points has a tolerance, and two consecutive points of the result can be the same for it (the polyline constructor then throws). Points on a line at 0, 12, 5, with tolerance 10.
* `C55_angle_false`: C55 fails for the angle of an ellipse whose major axis is vertical: 90 is returned, in a library where angles are in radians; this is not a vertical direction.
* `C55_false`: C55 fails for small ellipses: the parameters of a valid ellipse with half axes 1/1000 can't be read.
* `C55_isCircle_false`: C55 fails for `isCircle()` of small ellipses: a half axis may be the double of the other one.
* `C56_bb_false`: C56 fails for the bounding box of every ellipse (not a circle) whose major axis is vertical: some points inside the ellipse are strictly outside the bounding box.
* `C56_false`: C56 fails for every ellipse (not a circle) whose major axis is vertical: some points inside are said to be outside.
* `C57_false`: C57 fails for containment, with the default ellipse: a point that is inside is said to be outside after a comparison.
* `C57_far_false`: C57 fails for an ellipse far from the origin: after a comparison its center can't be read anymore.
* `C57_move_false`: C57 fails after a move: two equal ellipses are compared, one of them is moved by (0,0), and they are not equal anymore (the flag "normalised" is not reset by the move).
* `C57_origin_false`: C57 fails for an ellipse whose curve goes through the origin: comparing it with anything throws, and so does comparing anything with it.
* `C57_swap_false`: C57 fails for every ellipse that has the origin strictly inside (not a circle, and the comparison not refused): after a comparison the half axes are reported in the other order, `(minor, major)`.
* `C59_size_false`: C59 does not hold of the initial size: it is one that the setter refuses, so that a program which changed it can't set it back.
* `C60_false`: C60 is false in general: lines that are nearly horizontal and lean on different sides compare equal although they are as far apart as wanted.
* `C63_false`: C63 is false for lines that are nearly parallel, whatever the thresholds: for two nearly vertical lines leaning on different sides, `isParallelTo` is true but the distance is computed from the square root of a negative number.
* `C66_false`: C66 is false when one end is on the circle: the segment from (-2,0) to (1,0) crosses the unit circle at (-1,0), and only (1,0) is reported.
* `C67_false`: C67 is false for all the segments whose ends are not ordered: they are not extended at all, only reordered.
* `C68_false`: C68 is false in general: three points exactly on a line, the third one in the middle of the two others, are told not collinear, whatever the (positive) thresholds.
* `C69_false`: C69 is false in general: the middle of the segment is on the line, the directions differ by more than one radian, and the point reported, if any, is not this point, and is not on the segment.
* `C70_false`: C70 is false in general: for a nearly horizontal segment, the line returned has points that are not at the same distance from both ends.
* `C72_false`: C72 fails for every ellipse (not a circle) whose major axis is vertical: moving it by (0,0) turns it, the end of its major axis is not on the curve anymore.
* `C74_false`: C74 is false next to the supporting line of an edge: the point (1/2, 1) is inside this L-shaped polygon and at a distance 1/2 from its contour, but it is said outside.
* `C74_shallow_false`: C74 is false with a shallow crossing: the point is inside this triangle, and at a distance 0.2 of its contour, but it is said outside: the reference segment crosses the edges at less than the null angle, these crossings are not counted.
* `C74_throw_false`: C74 is false, an exception is thrown: the origin is inside this simple polygon, at a distance more than 2/5 of its contour, but each of the five reference segments passes through one of the vertices of the left side. The other sides of the extended bounding box would have given the answer, but a segment on which a vertex was found close disables all the next ones.
* `C75_flat_false`: C75 is false with a flat element: two horizontal open polylines one above the other have no common box in a container of polylines, though they have one as a set of points, or in a container of segments.
* `C76_false`: C76 is false for ellipses whose major axis is vertical: a segment that is within the ellipse is said not to be inside.
* `C77_false`: C77 is false for a center on the supporting line of an edge: the disk is inside the polygon, with a margin 1/4, but is said not to be.
* `C77_throw_false`: C77 is false: an exception is thrown for a disk that is inside the polygon, with a margin 1/5.
* `C78_false`: C78 is false next to the supporting line of an edge: all the points of the segment are inside the polygon and farther than 1/4 from its contour, but it is said not inside.
* `C78_shallow_false`: C78 is false for small angles: the segment from (-500, 0.2) to (1000, -0.4) is said inside this polygon, although it crosses a notch: the origin is on the segment, and outside of the polygon (at a distance 0.09 of the contour).
* `C79_false`: C79 is false in general. With a segment and with a polyline: a common point, where the directions differ by more than one radian, is not reported. With a line: same, and the points reported are not on the polyline. With a circle: a common point is not reported, as an end of the segment is on the circle.
* `C80_circle_false`: C80 is false for a circle through a corner: the other point of the circle on the same side is missed.
* `C80_line_false`: C80 is false for lines that pass by a corner: with the default thresholds, the line 25x + y = 1 - 10⁻⁹ meets the left and the bottom side of the unit square. The two points that are given are near the top left corner, the one on the bottom side is missed.
* `C81_false`: C81 is false for small rectangles: the library accepts to build it, but not its circles. And for sides just above the null distance, the inscribed circle has a radius that the constructor of circles refuses.
* `C83_false`: C83 is false in general: for a side that is nearly horizontal, the last point is not the expected one.
* `C85_false`: C85 is false in general: when the result is nearly horizontal, it does not even contain the given point.
* `C86_false`: C86 is false in general: with the default thresholds, a triangle with an edge of slope 1e-11 makes the call throw.
* `C87_false`: C87 is false in general: if one circle is inside the other one, no tangent exists; the call is not refused, the results have NaN coordinates.
* `C88_const_false`: C88 is false: the call changes the object. It is a const function, but the points of the polygon (as given by `getPts()`, `getPoint()`, the segments...) are not in the same order after the call.
* `C88_inside_false`: C88 is false: inside. A negative distance larger than what the polygon can take does not give an empty polyline, but one that is not inside: for the square of side 2 and a distance of -3, all the points are outside of the square.
* `C88_sharp_false`: C88 is false: sharp vertices. A vertex whose edges make an angle lower than the null angle is dropped: for the triangle (0,0), (10000,1), (10000,-1) and a distance of 1, the result has two points only.
* `C88_split_false`: C88 is false: nearly flat corners, with the option. Where the polygon turns by an angle between the null angle and twice its value, the normal of the bisector is parallel to the edges for the library, and the call throws: (-1500,-1), (0,0), (1500,-1), (0,-1000), with a distance of 1.
* `C88_throw_false`: C88 is false: failure. The documentation says that an empty polyline is returned on failure, for whatever reason. For a square of side 2 and a distance of -1, all the new points are the same one, and the call throws.
* `C89_axes_false`: C89 is false for the axes of an ellipse with a vertical major axis: the first line does not hold the end of the major axis, the second one not the end of the minor axis.
* `C89_false`: C89 is false for an ellipse with a vertical major axis: the end of the major axis is out of the oriented box, for any ellipse with half axes in a ratio of 3 at least.
* `C91_false`: C91 is false for ellipses whose major axis is vertical (points inside are left out), and for polygons, next to the line of an edge: a point in the middle of the polygon is left out.
* `C92_false`: C92 is false for nearly horizontal segments, whatever the thresholds: the arrow of such a segment cannot be computed, drawing it throws.
* `C93_false`: C93 is false for lines nearly parallel to a side: with the default thresholds, on an image of 2001 x 2001 nothing is drawn for the line through (1000,0) and (2000,1/2), though 1000 pixels of it are in the image.
* `C94_axes_false`: C94 fails for an ellipse that is higher than wide, `<ellipse cx="0" cy="0" rx="1" ry="2" transform="rotate(0,0,0)"/>`: the axes are exchanged, the point (0,3/2) is not inside.
* `C94_center_false`: C94 fails for a rotation around another point than the center of the ellipse, `<ellipse cx="5" cy="0" rx="2" ry="1" transform="rotate(90,0,0)"/>`: the center that is given in the attribute is not used, the ellipse is left at (5,0) instead of going to (0,5).
* `C94_points_false`: C94 fails for segments that are drawn with their points: the symbols come back as other segments.
* `C94_transform_false`: C94 fails for an ellipse without `transform` attribute (valid in SVG): nothing at all is imported from a file that holds one, whatever its other elements are.
* `C94_vertical_false`: C94 fails for vertical ellipses: the ellipse that is imported is turned by 90 radians, not by 90 degrees; a point that is inside one is not inside the other. (The angle of a vertical ellipse is reported as 90.)
* `C96_arrow_false`: C96 fails when the drawing of an oriented segment ends with an exception: its group is not closed, and the file stays unreadable after any number of drawings that end well.
* `C96_false`: C96 fails when the drawing of an ellipse ends with an exception (here an ellipse of size 1/1000): what is left of it in the image makes the file unreadable, whatever is drawn afterwards.
* `C97_false`: C97 fails for an attribute whose name only ends with `fill`: the circle is drawn without any `fill` attribute, thus filled (in black).
* `C97_space_false`: C97 fails for an attribute `fill` written with a space before the `=`, as XML allows: there are two attributes `fill`.
* `C97_stroke_false`: C97 fails for an attribute `stroke` given by the user: it is written twice, which XML forbids.
* `C98_false`: C98 is false in general. For any thresholds there is a point such that the line built from it does not go through it.
* `C99_false`: C99 is false when the types of numbers differ. The intersection of a circle with a line that does not meet it throws, instead of giving an empty result.

Read in the source, outside of the model:

* `FRect_::moveTo` and the member `PolylineBase::getExtremePoint` do not compile when instantiated (read in the source, nothing to prove).
* SVG import: a subpath made of a single move is imported as an empty polyline; import of an ellipse requires a `transform` attribute.

## 6. Axioms

`#print axioms` on every theorem of `MANIFEST.json`:

* **propext** (9 theorems): `C131_false`, `C131_ring_partial`, `C51_empty_false`, `C54_nodup`, `C59_frame`, `C59_refused`, `C59_resetDefault`, `C59_setDefault`, `C59_setters`
* **propext, Classical.choice, Quot.sound** (666 theorems): `C01_defined`, `C01_false`, `C01_symmetric`, `C01_through_partial`, `C02_constructor`, `C02_intersection`, `C03_coordinates`, `C03_metric`, `C03_scale`, `C04_shortest`, `C05_distance`, `C05_lines`, `C05_through`, `C06_false`, `C06_line_partial`, `C06_segment_partial`, `C07_points`, `C08_circle`, `C09_angle`, `C100_false`, `C100_keep`, `C100_moves`, `C100_radius_partial`, `C100_reset`, `C100_smallest_partial`, `C100_two_false`, `C101_compare`, `C101_error`, `C101_nearest`, `C101_symmetric`, `C101_triangle`, `C101_zero`, `C102_length`, `C102_zero`, `C103_area`, `C103_integers`, `C103_sharp`, `C103_sign`, `C104_convex`, `C104_integers`, `C104_orientation`, `C104_sharp`, `C104_side`, `C104_turn`, `C105_center`, `C105_circle_box`, `C105_sharp`, `C105_sizes`, `C105_translate`, `C106_defined`, `C106_false`, `C106_normalised`, `C106_points_partial`, `C106_symmetric`, `C107_affine`, `C107_error`, `C107_product`, `C107_translation`, `C108_line`, `C108_positive`, `C109_decision`, `C109_defined`, `C109_points`, `C109_sharp`, `C10_equality`, `C10_not_transitive`, `C10_order`, `C110_dist`, `C110_region`, `C110_sharp`, `C111_exact`, `C111_hull`, `C111_sharp`, `C112_angle`, `C112_parallel`, `C112_sharp`, `C112_sym`, `C113_decision_partial`, `C113_false`, `C113_points_partial`, `C113_two_partial`, `C114_curve`, `C114_length`, `C115_point`, `C115_symmetric`, `C115_throws`, `C116_crossing`, `C116_defined`, `C116_found`, `C116_sharp`, `C116_sound`, `C116_symmetric`, `C117_both`, `C117_closest`, `C117_farthest`, `C117_nearest`, `C117_sharp`, `C118_agrees`, `C118_apart_partial`, `C118_centroid`, `C118_crossing_partial`, `C118_defined`, `C118_overlap_false`, `C118_shallow_false`, `C118_small`, `C118_triangle`, `C119_apart_partial`, `C119_area_apart_partial`, `C119_area_open`, `C119_area_touching_partial`, `C119_crossing_partial`, `C119_defined`, `C119_far_false`, `C119_touching_partial`, `C11_product`, `C11_throws`, `C120_angles_false`, `C120_colors`, `C120_labels_partial`, `C120_stroke`, `C120_text`, `C121_error_partial`, `C121_far_false`, `C121_throws`, `C122_empty_false`, `C122_noabort_partial`, `C122_required`, `C122_rotate`, `C122_size`, `C122_transform`, `C123_boxes`, `C123_double_area`, `C123_homographies`, `C123_hull`, `C123_lines`, `C123_numbers`, `C123_overflow_sharp`, `C123_points`, `C123_polygons`, `C123_turns`, `C123_underflow_sharp`, `C124_back`, `C124_decision_partial`, `C124_error`, `C124_singular_false`, `C124_translation`, `C125_answers_partial`, `C125_false`, `C125_inside_partial`, `C125_near_line`, `C125_partial`, `C125_rounds_partial`, `C125_throw`, `C125_throw_false`, `C126_box`, `C126_distances`, `C126_false`, `C126_line`, `C126_measures`, `C126_order`, `C126_order_sharp`, `C126_segment_points`, `C126_valid_partial`, `C126_widen`, `C127_double_partial`, `C127_false`, `C127_inter_partial`, `C127_points_partial`, `C128_area_partial`, `C128_false`, `C128_union_partial`, `C129_double_partial`, `C129_false`, `C129_iou_partial`, `C129_self_partial`, `C12_determ`, `C12_inverse`, `C12_refused`, `C12_throws`, `C130_errors`, `C130_false`, `C130_lines_partial`, `C130_matrix`, `C130_points`, `C130_ptd_false`, `C130_roundtrip`, `C132_false`, `C132_incidence_partial`, `C132_translation`, `C133_false`, `C133_margin_partial`, `C134_homography`, `C134_polyline`, `C134_rectangle`, `C135_distances`, `C135_double_inside`, `C135_double_rectangles`, `C135_homographies`, `C135_inside`, `C135_intersections`, `C135_polygons`, `C135_rectangles`, `C135_searches`, `C136_container`, `C136_digits_false`, `C136_intersection`, `C136_matrix`, `C136_polyline_false`, `C136_root`, `C136_text`, `C137_range`, `C137_same_second`, `C137_sharp`, `C137_throw`, `C138_polylines`, `C138_segment`, `C138_sharp`, `C139_empty`, `C139_false`, `C139_polyline_partial`, `C139_rectangle_partial`, `C139_segment_partial`, `C13_false`, `C13_incidence_partial`, `C13_throws`, `C13_write_false`, `C140_after_partial`, `C140_again_partial`, `C140_false`, `C140_return`, `C141_false`, `C141_return`, `C141_warm`, `C142_draws`, `C142_draws_sharp`, `C142_points`, `C142_real`, `C142_safe`, `C143_bisector_partial`, `C143_collinear_partial`, `C143_defined`, `C143_false`, `C143_three_partial`, `C143_two`, `C144_false`, `C144_one_partial`, `C144_radius_false`, `C144_readers`, `C144_return`, `C145_circle`, `C145_crossing_partial`, `C145_defined`, `C145_false`, `C145_inside_partial`, `C145_outside_partial`, `C145_sharp`, `C145_through_partial`, `C146_aside`, `C146_even`, `C146_found`, `C146_polyline`, `C146_sharp`, `C146_sound`, `C147_circleCuts`, `C147_circles`, `C147_homography`, `C147_hull`, `C147_inside`, `C147_lines`, `C147_moves`, `C147_orthogonal`, `C147_parallels`, `C147_points`, `C147_polylines`, `C147_rectLine`, `C147_rectRuns`, `C147_rectangles`, `C147_searches`, `C147_segments`, `C147_sharp`, `C147_transformations`, `C148_coord`, `C148_distance`, `C148_parallel`, `C148_parallels`, `C148_points`, `C148_roundtrip`, `C148_sharp`, `C148_side`, `C148_side_sharp`, `C149_center`, `C149_exact`, `C149_history`, `C149_integers`, `C149_moveTo`, `C149_rect`, `C149_sharp`, `C149_turns`, `C14_add`, `C14_chain`, `C14_chain_ok`, `C14_set`, `C150_at`, `C150_decision`, `C150_line`, `C150_segment`, `C150_sharp`, `C151_any`, `C151_count`, `C151_points`, `C151_sharp`, `C152_even_partial`, `C152_false`, `C152_polyline_partial`, `C152_rectangle_partial`, `C153_points`, `C153_rigid`, `C153_sharp`, `C153_translations`, `C154_decision`, `C154_false`, `C154_line_partial`, `C155_congruent`, `C155_moveTo`, `C155_points`, `C155_sharp`, `C156_arrow_ellipse`, `C156_circle_rect`, `C156_ends`, `C156_line`, `C156_look`, `C156_point`, `C156_polyline`, `C156_polyline_ok`, `C156_segment`, `C156_sharp`, `C156_svg_line`, `C156_texts`, `C157_circles`, `C157_inside`, `C157_lines`, `C157_meaning`, `C157_measures`, `C157_points`, `C157_polylines`, `C157_rectangles`, `C157_searches`, `C157_segments`, `C157_sharp`, `C158_box`, `C158_circle`, `C158_float_inside`, `C158_float_intersections`, `C158_inner`, `C158_inside`, `C158_intersections`, `C158_sharp`, `C159_answers`, `C159_measures`, `C159_points`, `C159_sharp`, `C15_false`, `C15_reflexive`, `C15_scale_partial`, `C15_values`, `C16_lines`, `C16_polyline`, `C17_default`, `C17_false`, `C17_ordered_partial`, `C18_constructors`, `C18_equality`, `C19_region`, `C19_shortest`, `C20_false`, `C20_middle`, `C20_pointAt_partial`, `C20_splitAt_partial`, `C21_false`, `C21_parallel_partial`, `C22_complete_partial`, `C22_equal_false`, `C22_false`, `C22_interSymm`, `C22_reversed`, `C22_sound_partial`, `C22_symmetric`, `C23_reversal`, `C23_side`, `C23_translation`, `C24_false`, `C24_value_partial`, `C25_center`, `C25_positive`, `C26_extend`, `C26_invariant`, `C26_rotate`, `C26_rotateRef`, `C26_rotateRef_false`, `C26_rotate_throws`, `C26_sizes`, `C26_translate`, `C27_circle_in_rect`, `C27_circle_points`, `C27_circle_spec`, `C27_circle_strict_order`, `C27_rect_in_circle`, `C28_false`, `C28_inter_partial`, `C29_corner_false`, `C29_false`, `C29_union_partial`, `C30_false`, `C30_iou_partial`, `C31_bb_points`, `C31_perm`, `C32_false`, `C32_symmetric_partial`, `C33_common_bb_partial`, `C33_line_false`, `C33_polyline_false`, `C34_extreme`, `C34_perm`, `C35_check`, `C35_false`, `C35_flag`, `C35_history_partial`, `C36_circle_partial`, `C36_false`, `C36_order_partial`, `C37_built_partial`, `C37_false`, `C37_mec_partial`, `C37_random_partial`, `C37_repeated_false`, `C37_two`, `C38_false`, `C38_inter_partial`, `C39_attributes_partial`, `C39_centroid_false`, `C39_centroid_nomove_partial`, `C39_centroid_partial`, `C39_retained_false`, `C40_closed_reverse_partial`, `C40_closed_sound`, `C40_closed_start`, `C40_false`, `C40_open`, `C41_false`, `C41_partial`, `C42_area_cut`, `C42_area_linear`, `C42_area_rect`, `C42_area_reverse`, `C42_area_rotate`, `C42_area_start`, `C42_area_translate`, `C43_chain`, `C43_count`, `C43_getSegment`, `C43_throws`, `C44_angle_partial`, `C44_ends`, `C44_false`, `C44_minimize`, `C45_false`, `C45_reverse_partial`, `C45_spec`, `C45_start`, `C45_triangle`, `C46_rect`, `C47_false`, `C47_hull_partial`, `C47_pivot_twice_false`, `C47_repeated_false`, `C47_scan`, `C48_farthest`, `C48_nearest_false`, `C48_nearest_partial`, `C48_throws_iff`, `C51_collapse`, `C52_closed_false`, `C52_import_partial`, `C52_meaning_partial`, `C52_minus_false`, `C52_rel_abs`, `C52_relative_false`, `C52_trailing_false`, `C53_abort_false`, `C53_noabort_partial`, `C55_angle_false`, `C55_angle_partial`, `C55_circle`, `C55_false`, `C55_isCircle`, `C55_isCircle_false`, `C55_partial`, `C56_bb_false`, `C56_bb_partial`, `C56_false`, `C56_inside_partial`, `C57_equal`, `C57_false`, `C57_far_false`, `C57_inside_partial`, `C57_move_false`, `C57_origin_false`, `C57_partial`, `C57_swap_false`, `C58_circle`, `C58_conic`, `C58_inside`, `C58_rotation`, `C58_translation`, `C60_close_partial`, `C60_false`, `C60_same`, `C61_cut`, `C61_linear`, `C61_start_direction`, `C61_translate`, `C61_triangle`, `C62_four_points`, `C63_distance_partial`, `C63_false`, `C64_side`, `C65_coord`, `C66_circle_partial`, `C66_false`, `C67_extended_partial`, `C67_false`, `C68_collinear_partial`, `C68_false`, `C69_false`, `C69_line_partial`, `C70_bisector_partial`, `C70_false`, `C71_orthog`, `C72_false`, `C72_moveTo_partial`, `C72_translate_partial`, `C73_circle`, `C74_answers_partial`, `C74_false`, `C74_near_line`, `C74_not_simple`, `C74_partial`, `C74_rounds_partial`, `C74_shallow_false`, `C74_sound_partial`, `C74_throw`, `C74_throw_false`, `C75_boxes_partial`, `C75_flat_false`, `C75_segments`, `C76_circle`, `C76_ellipse_partial`, `C76_empty`, `C76_false`, `C76_rect`, `C77_center`, `C77_false`, `C77_not_simple`, `C77_partial`, `C77_throw_false`, `C78_empty`, `C78_false`, `C78_polyline_out_partial`, `C78_polyline_partial`, `C78_rect_answers`, `C78_rect_out_partial`, `C78_rect_partial`, `C78_segment_answers`, `C78_segment_out_partial`, `C78_segment_partial`, `C78_shallow_false`, `C79_circle_partial`, `C79_false`, `C79_line_partial`, `C79_polyline_partial`, `C79_segment_partial`, `C79_short`, `C79_symmetric`, `C80_circle_false`, `C80_circle_partial`, `C80_line`, `C80_line_false`, `C80_line_partial`, `C80_rect_far`, `C80_rect_partial`, `C81_bounding_partial`, `C81_diagonals`, `C81_false`, `C81_inscribed_partial`, `C82_refused`, `C82_regular`, `C83_false`, `C83_partial`, `C84_angle`, `C84_antisymmetric`, `C84_directions`, `C85_false`, `C85_partial`, `C86_closed_partial`, `C86_false`, `C86_open_partial`, `C86_short`, `C87_concentric`, `C87_false`, `C87_partial`, `C87_same_partial`, `C88_const_false`, `C88_convex_partial`, `C88_inside_false`, `C88_partial`, `C88_sharp_false`, `C88_split_false`, `C88_split_partial`, `C88_start`, `C88_throw_false`, `C89_axes_false`, `C89_axes_partial`, `C89_false`, `C89_obb_partial`, `C90_orthog`, `C91_circle_rect`, `C91_false`, `C91_partial`, `C92_false`, `C92_partial`, `C93_false`, `C93_partial`, `C93_small`, `C94_axes_false`, `C94_center_false`, `C94_each`, `C94_ignored`, `C94_no_size`, `C94_partial`, `C94_points_false`, `C94_rounded_partial`, `C94_size`, `C94_transform_false`, `C94_vertical_false`, `C95_symbol`, `C96_arrow_false`, `C96_false`, `C96_partial`, `C97_false`, `C97_partial`, `C97_space_false`, `C97_stroke_false`, `C98_axis`, `C98_dir`, `C98_false`, `C98_four_partial`, `C98_origin`, `C98_origin_partial`, `C98_orthog_partial`, `C98_point`, `C98_points`, `C98_segments_partial`, `C99_false`, `C99_many`, `C99_order`, `C99_two_partial`
* **propext, Quot.sound** (31 theorems): `C120_bytes`, `C136_columns`, `C136_line_false`, `C140_readonly`, `C140_ready_partial`, `C140_schedules_partial`, `C141_readonly`, `C141_schedules_partial`, `C15_symmetric`, `C16_points`, `C25_canonical`, `C25_ctor`, `C25_equal`, `C27_rect_points`, `C27_rect_spec`, `C27_rect_strict_order`, `C46_direction`, `C46_fixpoint`, `C46_group`, `C46_isometry`, `C47_small`, `C49_nearest_farthest`, `C50_closest`, `C51_points`, `C51_roundtrip`, `C54_false`, `C54_purge_partial`, `C58_refused`, `C59_cycle`, `C59_invariant`, `C59_size_false`

## 7. What is modelled: source lines per definition

Other parts of `homog2d.hpp` are not modelled. The comment of each definition lists its simplifications.

| Model file | Definition | homog2d.hpp |
|---|---|---|
| Axes.lean | `axisPts` | 8634-8642, 8687-8697 |
| Axes.lean | `axisLines` | 8632-8647 |
| Axes.lean | `obb` | 8684-8735 |
| Axes.lean | `segOrthogSegs` | 5243-5252 |
| Axes.lean | `arrowSegs` | 11809-11836 |
| Axes.lean | `keepRes` | 11229-11235 |
| Axes.lean | `ptsInShape` | 11216-11236 |
| Axes.lean | `ptsInPoly` | 11216-11236 |
| Axes.lean | `lineDrawn` | 11717-11740, 2610-2614 |
| BB.lean | `minElemLoop` | 6890, 6953, 7000 |
| BB.lean | `maxElemLoop` | 5913 |
| BB.lean | `CardDir` | 7099-7109 |
| BB.lean | `extremeComp` | 6956-6964, 6893-6901, 7003-7011, 7044-7052 |
| BB.lean | `getExtremePoint` | 6918-7059, 7099-7109 |
| BB.lean | `getBB_Points` | 5907-5948 |
| BB.lean | `getBB_cont` | 10316-10332 |
| BB.lean | `getBB_rects` | 5981-5995, 10335-10345 |
| BB.lean | `getBB_segs` | 5960-5975, 10348-10353 |
| BB.lean | `polyGetBB` | 6230-6243 |
| BB.lean | `circleGetBB` | 3319-3327 |
| BB.lean | `getPointPair` | 10048-10052, 10067-10079, 10095-10099, 10112-10116, 10121-10125 |
| BB.lean | `objGetBB` | 2115-2119, 2912-2915 |
| BB.lean | `getBB_boxes` | 10335-10345 |
| BB.lean | `commonTypeLoop` | 10287-10300 |
| BB.lean | `getBB_CommonType` | 10316-10362, 10280-10302 |
| BB.lean | `getBB_pairs` | 10402-10427 |
| BB.lean | `Obj.isPoly` | 10446, 10450 |
| BB.lean | `Obj.size` | 1409, 2785, 3301, 4061, 5045, 6215 |
| BB.lean | `getBB_two` | 10441-10497, 10447, 10451 |
| Basic.lean | `Res` | 275-330 |
| Basic.lean | `Thr` | 1229-1255 |
| Bisect.lean | `segVector` | 5063-5071 |
| Bisect.lean | `osegAngle` | 5087-5098 |
| Bisect.lean | `rotatedLine` | 8919-8935, 9696 |
| Bisect.lean | `bisectorLoop` | 9999-10005, 10011-10018, 4955-4960 |
| Bisect.lean | `bisectorLines` | 9986-10021 |
| Bisect.lean | `CircleEq` | 3524-3531 |
| Bisect.lean | `tanSide` | 10824-10829, 10830-10832, 10840, 10843, 10825, 10834-10837, 10841, 10847 |
| Bisect.lean | `tanSegs` | 10797-10855, 10819 |
| Circle.lean | `Circle` | 3195-3197 |
| Circle.lean | `circleMake` | 3241-3250, 3215, 3271, 3358 |
| Circle.lean | `circle2` | 5572-5582 |
| Circle.lean | `circle3` | 5605-5627 |
| Circle.lean | `PtInCircle` | 4369-4390 |
| Circle.lean | `ValidCircle` | 5634-5644 |
| Circle.lean | `minTrivial` | 5655-5673, 5757 |
| Circle.lean | `welzl` | 5686-5716 |
| Circle.lean | `circleOfPts` | 3234-3237, 5737-5762 |
| Circle.lean | `CircOp.exec` | 3234-3290 |
| Circle.lean | `flagAfter` | 1258-1262 |
| Circle.lean | `CircInCirc` | 3441-3444 |
| Circle.lean | `CircInRect` | 3455-3458, 3507-3518 |
| Circle.lean | `RectInCirc` | 3007-3014 |
| Circle.lean | `CircEq` | 3524-3531 |
| Circle.lean | `circInter` | 5805-5850 |
| Colors.lean | `intSub` | 463-465 |
| Colors.lean | `toByte` | 437, 466 |
| Colors.lean | `colorComp` | 463-466 |
| Colors.lean | `colorLoop` | 461-467 |
| Colors.lean | `genRandomColors` | 451-469 |
| Construct.lean | `regPoint` | 6824, 6831-6833, 6845 |
| Construct.lean | `lineOfPt` | 3869-3872, 4036-4045 |
| Construct.lean | `regPoly` | 6802-6854, 6841 |
| Construct.lean | `parallelogram` | 6769-6792 |
| Convert.lean | `vec` | 4026-4031 |
| Convert.lean | `pt` | 4036-4039 |
| Convert.lean | `rect` | 2726-2729 |
| Convert.lean | `rectSet` | 2764-2770, 1346-1357 |
| Convert.lean | `circ` | 3286-3289 |
| Convert.lean | `seg` | 4935-4947 |
| Convert.lean | `segOf` | 4899-4911 |
| Convert.lean | `poly` | 6140-6155, 6457-6479 |
| Convert.lean | `mat` | 1486-1493 |
| DrawParams.lean | `Vals` | 525-548, 484-492, 527 |
| DrawParams.lean | `factory` | 525-538, 431-435 |
| DrawParams.lean | `dot` | 491 |
| DrawParams.lean | `nextPointStyle` | 541-547 |
| DrawParams.lean | `Setter` | 585-652, 256 |
| DrawParams.lean | `Setter.run` | 585-652, 629 |
| DrawParams.lean | `World` | 566-570 |
| DrawParams.lean | `step` | 587, 594 |
| Edits.lean | `CircEdit` | 3334-3338, 3344-3354, 3357-3375, 5572-5762, 3403-3416, 3419-3432, 3294, 3297 |
| Edits.lean | `assignRes` | 3358-3362, 5572-5582, 5605-5627, 5737-5762 |
| Edits.lean | `CircEdit.exec` | 3294-3432, 5572-5762 |
| Edits.lean | `circAfter` | 3204, 1258-1262 |
| Edits.lean | `Inter2` | 2531-2563, 2473-2482 |
| Edits.lean | `default` | 2537 |
| Edits.lean | `make` | 2538-2542 |
| Edits.lean | `get` | 2554-2560 |
| Edits.lean | `call` | 2478-2481 |
| Edits.lean | `size` | 2552 |
| Edits.lean | `convert` | 2544-2551 |
| Edits.lean | `lineCircObj` | 4335-4339, 9463-9505 |
| Edits.lean | `circLineObj` | 3470-3475 |
| Edits.lean | `InterMOp` | 2598-2614 |
| Edits.lean | `sortPts` | 2612, 9032-9043 |
| Edits.lean | `InterMOp.exec` | 2585-2614 |
| Edits.lean | `interMAfter` | 2582 |
| Edits.lean | `linePoint` | 4073-4084 |
| Edits.lean | `linePointsAt` | 4087-4097 |
| Edits.lean | `orthogLineAt` | 8879-8892, 3740-3750 |
| Edits.lean | `lineOf4` | 3904-3913 |
| Edits.lean | `lineOf2` | 3875-3881, 9114-9134 |
| Edits.lean | `lineDirPt` | 4528-4545 |
| Edits.lean | `segProd` | 9645-9650 |
| Ellipse.lean | `Ell` | 1475-1476, 2219-2237 |
| Ellipse.lean | `ellMat` | 2400-2423 |
| Ellipse.lean | `pInit` | 2400-2437 |
| Ellipse.lean | `new` | 2260-2268, 2249, 2254 |
| Ellipse.lean | `ofCircle` | 2271-2274 |
| Ellipse.lean | `Par` | 2134-2163 |
| Ellipse.lean | `angleOf` | 8544-8553, 2160 |
| Ellipse.lean | `params` | 8510-8557 |
| Ellipse.lean | `getCenter` | 8585-8589 |
| Ellipse.lean | `getMajMin` | 8594-8598 |
| Ellipse.lean | `angle` | 8605-8609 |
| Ellipse.lean | `area` | 2335-2339 |
| Ellipse.lean | `length` | 8618-8626 |
| Ellipse.lean | `isCircle` | 8568-8578 |
| Ellipse.lean | `pointIsInside` | 8745-8762, 9435-9445 |
| Ellipse.lean | `getBB` | 8656-8667 |
| Ellipse.lean | `translate` | 2285-2291 |
| Ellipse.lean | `moveTo` | 2301-2307 |
| Ellipse.lean | `normalize` | 1562-1577 |
| Ellipse.lean | `normIfNeeded` | 2361-2364 |
| Ellipse.lean | `eq` | 2357-2374 |
| Ellipse.lean | `homEllMat` | 9742-9754, 1547-1558, 1672-1679 |
| Ellipse.lean | `homMul` | 9742-9754 |
| Ellipse.lean | `homCircle` | 9760-9764 |
| Exchange.lean | `CvType.store` | 11660, 11664 |
| Exchange.lean | `Hom.copyTo` | 11645-11668 |
| Exchange.lean | `fillMat` | 11688-11690, 11692-11694 |
| Exchange.lean | `Hom.assignCv` | 11671-11699 |
| Exchange.lean | `Hom.blank` | 1482-1485, 2037-2038 |
| Exchange.lean | `Hom.ofCv` | 1798-1801 |
| Exchange.lean | `cvPti` | 4438, 4187-4190 |
| Exchange.lean | `cvPtd` | 4439 |
| Exchange.lean | `cvPtf` | 4440 |
| Exchange.lean | `getPtsAs` | 4187-4190, 4646-4651, 4667-4674 |
| Exchange.lean | `ofCvPt` | 4443-4448 |
| Exchange.lean | `ofBoost` | 6171-6208 |
| FRect.lean | `FRect` | 2659-2677 |
| FRect.lean | `getCorrectPoints` | 1346-1357 |
| FRect.lean | `default` | 2684-2687 |
| FRect.lean | `ofPts` | 2690-2700, 2715-2723, 2765-2776 |
| FRect.lean | `ofCenter` | 2704-2712 |
| FRect.lean | `of4Pts` | 2735-2760 |
| FRect.lean | `height` | 2780 |
| FRect.lean | `width` | 2781 |
| FRect.lean | `area` | 2782 |
| FRect.lean | `length` | 2783 |
| FRect.lean | `getCenter` | 2808-2814 |
| FRect.lean | `translate` | 2845-2851 |
| FRect.lean | `getExtended` | 2886-2896 |
| FRect.lean | `get4Pts` | 2944-2953 |
| FRect.lean | `beq` | 3082-3089 |
| FRect.lean | `ptIsInside` | 4682-4688 |
| FRect.lean | `Pt.isInsideRect` | 9298-9307 |
| FRect.lean | `FRect.isInsideRect` | 3007-3014 |
| Float.lean | `Arith` | 169-171, 8786, 9143, 9175 |
| FloatCentroid.lean | `edgeProd` | 7541 |
| FloatCentroid.lean | `momentX` | 7529, 7531-7542 |
| FloatCentroid.lean | `momentY` | 7530-7543 |
| FloatCentroid.lean | `centroidRaw` | 7529-7549 |
| FloatCentroid.lean | `centroid` | 7522-7553 |
| FloatChain.lean | `Trans` | 1859-1949, 1913-1917 |
| FloatChain.lean | `transMat` | 1874-1885, 1898-1909, 1938-1949 |
| FloatChain.lean | `addTrans` | 1863-1871, 1887-1895, 1911-1928, 1971-1978 |
| FloatChain.lean | `ptImage` | 9665-9673, 9608-9621 |
| FloatChain.lean | `rotatedLine` | 8919-8935 |
| FloatCross.lean | `crossXY` | 9632-9642, 4133-4142 |
| FloatCross.lean | `lineInter` | 9632-9642 |
| FloatCross.lean | `SegSame` | 5113-5120 |
| FloatCross.lean | `Between` | 8227-8229, 8231-8233 |
| FloatCross.lean | `segInter` | 8209-8237 |
| FloatGeom.lean | `distPt` | 9140-9152 |
| FloatGeom.lean | `sqDist` | 3577-3582 |
| FloatGeom.lean | `PtSame` | 9020-9029 |
| FloatGeom.lean | `PtInCirc` | 4370-4381 |
| FloatGeom.lean | `polyLen` | 7473-7476, 5050-5054 |
| FloatGeom.lean | `signedArea` | 7499-7511 |
| FloatGeom.lean | `crossAt` | 7449-7455 |
| FloatGeom.lean | `isConvex` | 7434-7463 |
| FloatGeom.lean | `chOrientation` | 11503-11517 |
| FloatGeom.lean | `sideCross` | 5397-5398, 9080-9102 |
| FloatGeom.lean | `center` | 5292-5298, 2808-2814 |
| FloatGeom.lean | `rectWidth` | 2780-2781 |
| FloatGeom.lean | `rectHeight` | 2780 |
| FloatGeom.lean | `rectArea` | 2782 |
| FloatGeom.lean | `rectLength` | 2783 |
| FloatGeom.lean | `ptTranslate` | 4146-4165 |
| FloatGeom.lean | `rectTranslate` | 2845-2851 |
| FloatGeom.lean | `ShareCoord` | 1319-1329 |
| FloatGeom.lean | `rectOfPts` | 1344-1357, 2689-2693 |
| FloatGeom.lean | `circBB` | 3319-3327 |
| FloatGeom.lean | `crossProd` | 9057-9075 |
| FloatGeom.lean | `normalizeLine` | 8777-8807 |
| FloatGeom.lean | `lineOfPts` | 3838-3848, 3668-3677 |
| FloatGeom.lean | `lineDist` | 9167-9179 |
| FloatGeom.lean | `app` | 9608-9621 |
| FloatGeom.lean | `getXY` | 4133-4141 |
| FloatGeom.lean | `mul` | 9588-9600 |
| FloatHLine.lean | `normalizeMat` | 1562-1577, 1581-1587 |
| FloatHLine.lean | `homInverse` | 1816-1821 |
| FloatHLine.lean | `lineImage` | 9676-9697 |
| FloatInside.lean | `segsInterSeg` | 6572-6582 |
| FloatInside.lean | `segsInterSegs` | 6572-6582, 5328-5332 |
| FloatInside.lean | `polyInterSeg` | 6572-6582, 5328-5332 |
| FloatInside.lean | `polyInterPoly` | 6572-6582 |
| FloatInside.lean | `noInter` | 5185-5188 |
| FloatInside.lean | `segInPoly` | 5179-5189 |
| FloatInside.lean | `polyInPoly` | 6615-6633 |
| FloatInside.lean | `rectInPoly` | 3028-3039, 5327-5332 |
| FloatInter.lean | `sqrtF` | 9480, 9491 |
| FloatInter.lean | `divF` | 9480, 9487 |
| FloatInter.lean | `lineAt` | 9476 |
| FloatInter.lean | `norm2` | 9479, 9277, 5530 |
| FloatInter.lean | `lineCircle` | 9463-9500, 9503 |
| FloatInter.lean | `circInter` | 5805-5850 |
| FloatInter.lean | `cosArg` | 9271-9289 |
| FloatInter.lean | `lineAngle` | 9267-9291 |
| FloatInter.lean | `isParallel` | 9232-9239 |
| FloatInter.lean | `segDistTo` | 5513-5563 |
| FloatInter.lean | `hullComp` | 11476-11486 |
| FloatInter.lean | `sortPoints` | 11462-11489 |
| FloatInter.lean | `hullLoop` | 11579-11603 |
| FloatInter.lean | `convexHull` | 11555-11620 |
| FloatInverse.lean | `det2` | 1625-1630 |
| FloatInverse.lean | `determ` | 1526-1532 |
| FloatInverse.lean | `adjugate` | 1633-1651 |
| FloatInverse.lean | `inverse` | 1546-1558, 1614-1619 |
| FloatMec.lean | `welzlG` | 5686-5716, 5655-5673 |
| FloatMec.lean | `orthogLine` | 3740-3750 |
| FloatMec.lean | `segBisector` | 5305-5309 |
| FloatMec.lean | `largestDistancePoints` | 3616-3660 |
| FloatMec.lean | `areCollinear` | 3687-3698 |
| FloatMec.lean | `circle2` | 5572-5582 |
| FloatMec.lean | `circle3` | 5605-5627 |
| FloatMec.lean | `inCircle` | 4369-4390 |
| FloatMec.lean | `validCircle` | 5634-5644 |
| FloatMec.lean | `minTrivial` | 5655-5673, 5758 |
| FloatMec.lean | `circleOfPts` | 3234-3237, 5737-5762, 5760 |
| FloatMove.lean | `polyTranslate` | 6415-6421 |
| FloatMove.lean | `moveRes` | 6415-6421, 6444-6452, 7269-7274, 7287-7314 |
| FloatMove.lean | `moveExec` | 6446-6447 |
| FloatMove.lean | `moveRun` | 6415-6452, 7269-7314 |
| FloatMove.lean | `rectRotate` | 7651-7656 |
| FloatMove.lean | `rectExec` | 2704-2712, 2765-2770, 2845-2851, 2886-2896, 7627-7632, 7651-7656 |
| FloatMove.lean | `rectRun` | 2704-2896, 7627-7656 |
| FloatOrthog.lean | `orthogLineAt` | 8879-8892 |
| FloatOrthog.lean | `orthogSegment` | 8945-8965, 4900-4909 |
| FloatParallel.lean | `lineSide` | 9833-9844 |
| FloatParallel.lean | `lineCoord` | 8835-8850 |
| FloatParallel.lean | `getPointsB2` | 3717-3734 |
| FloatParallel.lean | `getPoints` | 8858-8874 |
| FloatParallel.lean | `parallelLine` | 8972-8980 |
| FloatParallel.lean | `parallelLines` | 8988-8997 |
| FloatParallel.lean | `parallelDistance` | 10973-10991 |
| FloatPip.lean | `polySegs` | 6317-6320, 6000-6017 |
| FloatPip.lean | `nearLine` | 9371-9373 |
| FloatPip.lean | `pipCount` | 9395-9400 |
| FloatPip.lean | `vertexClose` | 9390 |
| FloatPip.lean | `pipTry` | 9382-9403 |
| FloatPip.lean | `splitAll` | 9409-9416, 5350-5357 |
| FloatPip.lean | `pipLoop` | 9378-9421 |
| FloatPip.lean | `polyGetBB` | 6230-6243, 5907-5948 |
| FloatPip.lean | `getExtended` | 2886-2896 |
| FloatPip.lean | `rectSegs` | 2968-2978, 2944-2953 |
| FloatPip.lean | `ptInsidePoly` | 4398-4402, 9360-9423 |
| FloatPolyCirc.lean | `segsInterCircle` | 6575-6580 |
| FloatPolyCirc.lean | `polyInterCircle` | 6572-6582 |
| FloatPolyCirc.lean | `rectCircleLoop` | 3121-3133, 3127 |
| FloatPolyCirc.lean | `rectCircleInter` | 3056-3060, 3118-3138 |
| FloatRange.lean | `Format` | 754, 169-171 |
| FloatRange.lean | `Format.float` | 12409-12416 |
| FloatRange.lean | `Format.double` | 169-171, 12419-12426 |
| FloatRect.lean | `rectEqB` | 3082-3089 |
| FloatRect.lean | `rectSegLoop` | 3156-3171 |
| FloatRect.lean | `rectSegInter` | 3149-3173 |
| FloatRect.lean | `rectLoop` | 3121-3133 |
| FloatRect.lean | `rectInter` | 3071-3076, 3118-3138 |
| FloatRect.lean | `intersectArea` | 7717-7819 |
| FloatRectLine.lean | `rectLineLoop` | 9530-9548 |
| FloatRectLine.lean | `rectLineInter` | 9524-9554, 3046-3050, 2610-2614 |
| FloatSearch.lean | `sameB` | 9020-9029 |
| FloatSearch.lean | `nearest` | 11086-11140, 11152-11155, 3577-3582 |
| FloatSearch.lean | `farthest` | 11086-11140, 11160-11163 |
| FloatSearch.lean | `nearestFarthest` | 11171-11208 |
| FloatSearch.lean | `closest` | 10595-10619, 9849-9854 |
| FloatSegCirc.lean | `ptLabel` | 8171-8181, 4369-4390 |
| FloatSegCirc.lean | `segCircle` | 8295-8351, 9503 |
| FloatSegLine.lean | `segLineInter` | 8248-8270 |
| FloatSegLine.lean | `segsInterLine` | 6572-6582 |
| FloatSegLine.lean | `polyInterLine` | 6572-6582, 5328-5332 |
| FloatUnion.lean | `ptSameB` | 9020-9029 |
| FloatUnion.lean | `sameAngle` | 7331-7338 |
| FloatUnion.lean | `unionArea` | 8089-8156 |
| FloatUnion.lean | `polyArea` | 7485-7493 |
| FloatUnion.lean | `rectIoU` | 9860-9866 |
| Geom.lean | `Pt` | 4133-4142 |
| Geom.lean | `sqDist` | 3577-3582 |
| Geom.lean | `samePt` | 9023-9026 |
| Geom.lean | `shareCommonCoord` | 1321-1329 |
| Homog.lean | `V3` | 4463 |
| Homog.lean | `Mat` | 1475 |
| Homog.lean | `mkPt` | 9118-9125 |
| Homog.lean | `getXY` | 4133-4142 |
| Homog.lean | `crossProd` | 9057-9075 |
| Homog.lean | `det2` | 1625-1630 |
| Homog.lean | `determ` | 1526-1532 |
| Homog.lean | `transpose` | 1537-1540 |
| Homog.lean | `adjugate` | 1633-1651 |
| Homog.lean | `divAll` | 1614-1619, 1581-1587 |
| Homog.lean | `mul` | 9588-9600 |
| Homog.lean | `app` | 9608-9621 |
| Homog.lean | `eye` | 1595-1601 |
| Homog.lean | `translation` | 1878-1881 |
| Homog.lean | `rotation` | 1902-1905 |
| Homog.lean | `scale` | 1942-1945 |
| Homog.lean | `write` | 1499-1520 |
| Homogr.lean | `Hom` | 1475-1476, 2037-2038 |
| Homogr.lean | `init` | 1854-1857, 2027-2031 |
| Homogr.lean | `default` | 1733-1736 |
| Homogr.lean | `normalize` | 1962-1966, 1562-1577 |
| Homogr.lean | `ofValues` | 1764-1785 |
| Homogr.lean | `copy` | 1788-1794, 1487-1493 |
| Homogr.lean | `assign` | 1807-1813 |
| Homogr.lean | `setTranslation` | 1874-1885 |
| Homogr.lean | `setRotation` | 1898-1909 |
| Homogr.lean | `setScale` | 1938-1949, 1931-1935 |
| Homogr.lean | `mul` | 1971-1978 |
| Homogr.lean | `premul` | 1869, 1893, 1925 |
| Homogr.lean | `addTranslation` | 1864-1871 |
| Homogr.lean | `addRotation` | 1888-1895 |
| Homogr.lean | `addScale` | 1912-1928 |
| Homogr.lean | `inverse` | 1816-1821, 1547-1558 |
| Homogr.lean | `transpose` | 1535-1544 |
| Homogr.lean | `write` | 1499-1520, 1495 |
| Homogr.lean | `normIfNeeded` | 1989-1992 |
| Homogr.lean | `closeMat` | 1994-2001 |
| Homogr.lean | `eq` | 1985-2002 |
| Homogr.lean | `eqSelf` | 1985-2002 |
| Homogr.lean | `appPt` | 9668-9673 |
| Homogr.lean | `invTransp` | 9688-9689 |
| Homogr.lean | `refresh` | 9680-9692 |
| Homogr.lean | `appLineRaw` | 9678-9695, 9696 |
| Homogr.lean | `appPts` | 9806-9817, 9567-9580 |
| Homogr.lean | `appLines` | 9806-9817, 9696 |
| Homogr.lean | `appPoly` | 9714-9721, 9726-9732 |
| Homogr.lean | `dltRow` | 4704-4725 |
| Homogr.lean | `dltMat` | 4734-4737 |
| Hull.lean | `getPivot` | 11452-11456 |
| Hull.lean | `hullComp` | 11476-11486 |
| Hull.lean | `hullIota` | 11467-11469 |
| Hull.lean | `sortPoints` | 11462-11489 |
| Hull.lean | `chOrientation` | 11503-11517 |
| Hull.lean | `hullPt` | 11582-11584 |
| Hull.lean | `hullLoop` | 11579-11603 |
| Hull.lean | `hullCopy` | 11607-11617 |
| Hull.lean | `convexHull` | 11555-11620, 11540-11543, 11627-11630 |
| Inside.lean | `ptInShape` | 4369-4390, 9298-9307, 9435-9445 |
| Inside.lean | `segInShape` | 5133-5166 |
| Inside.lean | `rectInShape` | 3006-3014 |
| Inside.lean | `polyInShape` | 6588-6609 |
| Inside.lean | `concatRes` | 6575-6580 |
| Inside.lean | `segsInterSeg` | 6572-6582 |
| Inside.lean | `segsInterLine` | 6572-6582 |
| Inside.lean | `segsInterCircle` | 6572-6582 |
| Inside.lean | `segsInterSegs` | 6572-6582, 5328-5332 |
| Inside.lean | `polyInterSeg` | 6572-6582, 5328-5332 |
| Inside.lean | `polyInterLine` | 6572-6582 |
| Inside.lean | `polyInterCircle` | 6572-6582, 3497-3502 |
| Inside.lean | `polyInterPoly` | 6572-6582 |
| Inside.lean | `noInter` | 5185-5188 |
| Inside.lean | `segInPoly` | 5179-5189 |
| Inside.lean | `polyInPoly` | 6615-6633 |
| Inside.lean | `rectInPoly` | 3028-3039, 5327-5332 |
| Inside.lean | `circInPoly` | 5774-5789 |
| Line.lean | `normalizeLine` | 8777-8807 |
| Line.lean | `ptDist` | 9140-9152 |
| Line.lean | `hDist` | 9140-9152, 4133-4142 |
| Line.lean | `PtEq` | 9023-9026 |
| Line.lean | `lineOfPts` | 3839-3847, 3668-3677 |
| Line.lean | `lineOfValues` | 3892-3901 |
| Line.lean | `lineH` | 4559-4567 |
| Line.lean | `lineV` | 4559-4563 |
| Line.lean | `lineThrough` | 4528-4546 |
| Line.lean | `angleCos` | 9271-9278 |
| Line.lean | `lineAngle` | 9267-9291 |
| Line.lean | `IsParallel` | 9232-9239 |
| Line.lean | `lineInter` | 9632-9642 |
| Line.lean | `normalizePoint` | 8813-8829 |
| Line.lean | `pointOfLines` | 3827-3835 |
| Line.lean | `LineEq` | 9009-9018 |
| Line.lean | `lineDist` | 9167-9179 |
| Line.lean | `lineSide` | 9833-9844 |
| Line.lean | `lineCoord` | 8835-8850 |
| Line.lean | `fixOrder` | 3558-3562 |
| Line.lean | `getPointsB2` | 3717-3734 |
| Line.lean | `getPoints` | 8858-8874 |
| Line.lean | `orthogLine` | 3740-3750, 8898-8913 |
| Line.lean | `parallelLine` | 8972-8980 |
| Line.lean | `parallelLines` | 8988-8997 |
| Line.lean | `parallelDistance` | 10973-10991 |
| Line.lean | `orthogSegment` | 8945-8965, 4900-4909 |
| Line.lean | `lineCircle` | 9463-9505 |
| Offset.lean | `offsetVertex` | 6713-6752 |
| Offset.lean | `offsetLoop` | 6709-6759 |
| Offset.lean | `offsetPoly` | 6677-6762, 6693, 7577 |
| Pip.lean | `polySegs` | 6317-6320, 6000-6017 |
| Pip.lean | `nearLine` | 9371-9373 |
| Pip.lean | `pipCount` | 9395-9400 |
| Pip.lean | `pipTry` | 9382-9403, 9387-9392 |
| Pip.lean | `splitAll` | 9409-9416, 5350-5357 |
| Pip.lean | `pipLoop` | 9378-9421 |
| Pip.lean | `ptInsidePoly` | 4398-4402, 9360-9423, 227 |
| PolyReal.lean | `sameAngle` | 7331-7338 |
| PolyState.lean | `PState` | 6092-6094, 5878-5892, 5858-5873 |
| PolyState.lean | `freshLen` | 7473-7475 |
| PolyState.lean | `freshSimple` | 7387-7413 |
| PolyState.lean | `freshArea` | 7485-7493 |
| PolyState.lean | `freshCentroid` | 7522-7553 |
| PolyState.lean | `qLength` | 7469-7479 |
| PolyState.lean | `qSimple` | 7385-7417 |
| PolyState.lean | `qArea` | 7485-7493 |
| PolyState.lean | `qCentroid` | 7522-7553 |
| PolyState.lean | `PState.translate` | 6415-6421 |
| PolyState.lean | `POp.exec` | 6465-6479, 6379-6384, 6415-6421, 6444-6452, 7287-7314, 6299-6304, 7269-7274, 6406-6411, 7320-7363, 6537-6555, 7572-7610 |
| Polyline.lean | `openPairs` | 6008-6013 |
| Polyline.lean | `cycPairs` | 7502-7506, 7531-7535 |
| Polyline.lean | `segPairs` | 6000-6017 |
| Polyline.lean | `getOSegs` | 6312-6315, 4900-4911 |
| Polyline.lean | `nbSegs` | 6249-6257 |
| Polyline.lean | `getPoint` | 6324-6333 |
| Polyline.lean | `getOSegment` | 6338-6353 |
| Polyline.lean | `checkInput` | 6508-6527, 6467-6472 |
| Polyline.lean | `polySet` | 6465-6479, 6128-6131 |
| Polyline.lean | `minimizeMark` | 7320-7363, 7331-7338, 6279-6291, 7328, 7329 |
| Polyline.lean | `addPoints` | 6279-6291 |
| Polyline.lean | `dropMarked` | 7345-7361 |
| Polyline.lean | `minimize` | 6406-6411, 7367-7378, 7320-7363 |
| Polyline.lean | `ptLt` | 9032-9043 |
| Polyline.lean | `minIdx` | 7581, 7599 |
| Polyline.lean | `rotateToMin` | 7581-7582 |
| Polyline.lean | `signedArea` | 7499-7511 |
| Polyline.lean | `centroidRaw` | 7529-7549 |
| Polyline.lean | `polyLength` | 7473-7476 |
| Polyline.lean | `noCross` | 7395-7412 |
| Polyline.lean | `isSimple` | 7385-7417 |
| Polyline.lean | `polyArea` | 7485-7493 |
| Polyline.lean | `centroid` | 7522-7553 |
| Polyline.lean | `crossAt` | 7449-7455 |
| Polyline.lean | `cycTriples` | 7444-7448 |
| Polyline.lean | `convexLoop` | 7439-7462 |
| Polyline.lean | `isConvex` | 7434-7463 |
| Polyline.lean | `orientDet` | 7595 |
| Polyline.lean | `normalizePoly` | 7572-7610 |
| Polyline.lean | `samePts` | 6547-6551 |
| Polyline.lean | `polyEq` | 6537-6555 |
| Raster.lean | `Look` | 660-663 |
| Raster.lean | `lookOf` | 11855-11857, 11878-11880, 11917-11919 |
| Raster.lean | `run` | 11748-11789, 11378-11439, 11908-11925, 11871-11904 |
| Raster.lean | `drawRect` | 11847-11864 |
| Raster.lean | `drawOSeg` | 11871-11896 |
| Raster.lean | `drawEllipse` | 11932-11947 |
| Raster.lean | `drawPoly` | 11953-12006, 12058-12068 |
| Raster.lean | `drawItem` | 889-894, 4433-4436, 11717-11740 |
| RectArea.lean | `rectEqB` | 3082-3089 |
| RectArea.lean | `rectSegs` | 2968-2978 |
| RectArea.lean | `rectSegLoop` | 3156-3171 |
| RectArea.lean | `rectSegInter` | 3149-3173, 5322-5325 |
| RectArea.lean | `setInsert` | 3120-3131 |
| RectArea.lean | `rectLoop` | 3121-3133, 3127 |
| RectArea.lean | `rectInter` | 3071-3076, 3118-3138, 2610-2614 |
| RectArea.lean | `pointsInside` | 3103-3110 |
| RectArea.lean | `intersectArea` | 7717-7819 |
| RectArea.lean | `Idx` | 7831-7852 |
| RectArea.lean | `Idx.lt` | 7840-7846 |
| RectArea.lean | `idxSort` | 8137-8138 |
| RectArea.lean | `coordVec` | 8124-8138 |
| RectArea.lean | `tableCell` | 7868-7872, 8142-8145 |
| RectArea.lean | `Dir` | 7879 |
| RectArea.lean | `turnDir` | 7898-7912 |
| RectArea.lean | `nextCell` | 7916-7925 |
| RectArea.lean | `parseLoop` | 7941-7966 |
| RectArea.lean | `parseTable` | 7933-7968 |
| RectArea.lean | `convertLoop` | 8001-8015 |
| RectArea.lean | `convertToCoord` | 7994-8018 |
| RectArea.lean | `unionTable` | 8123-8155 |
| RectArea.lean | `unionArea` | 8089-8156 |
| RectArea.lean | `rectIoU` | 9860-9866 |
| RectMore.lean | `rectLineLoop` | 9530-9548 |
| RectMore.lean | `rectLineInter` | 9524-9554, 3046-3050, 2610-2614 |
| RectMore.lean | `rectCircleLoop` | 3121-3133, 3127 |
| RectMore.lean | `rectCircleInter` | 3056-3060, 3118-3138 |
| RectMore.lean | `rectBoundingCircle` | 2818-2822 |
| RectMore.lean | `rectInscribedCircle` | 2826-2836, 3221-3223, 9191-9198 |
| RectMore.lean | `rectDiagonals` | 2898-2910 |
| Rotate.lean | `Rotate` | 7289-7313 |
| Rotate.lean | `rotPt` | 7287-7314 |
| Rotate.lean | `polyRotate` | 7287-7314 |
| Rotate.lean | `polyTranslate` | 6415-6433 |
| Rotate.lean | `polyRotateRef` | 7269-7274 |
| Rotate.lean | `FRect.rotate` | 7651-7656 |
| Rotate.lean | `RectOp.exec` | 2765-2770, 7651-7656, 7627-7632 |
| Search.lean | `What` | 11078-11079 |
| Search.lean | `better` | 11123, 11131 |
| Search.lean | `findLoop` | 11116-11138 |
| Search.lean | `findPoint` | 11086-11140 |
| Search.lean | `findNearestPoint` | 11152-11155 |
| Search.lean | `findFarthestPoint` | 11160-11163 |
| Search.lean | `nfLoop` | 11190-11206 |
| Search.lean | `findNearestFarthestPoint` | 11171-11208 |
| Search.lean | `Closest` | 10571-10579 |
| Search.lean | `closestInner` | 10610-10616 |
| Search.lean | `closestOuter` | 10607-10617 |
| Search.lean | `getClosestPoints` | 10595-10619, 10550-10554 |
| Segment.lean | `Seg` | 4885 |
| Segment.lean | `segMake` | 4900-4909 |
| Segment.lean | `segDefault` | 4892 |
| Segment.lean | `segSet` | 4964-4974 |
| Segment.lean | `segTranslate` | 4996-5002, 4146-4158 |
| Segment.lean | `segMoveTo` | 5022-5028 |
| Segment.lean | `segConvert` | 4936-4947 |
| Segment.lean | `segNeg` | 4955-4960 |
| Segment.lean | `SegEq` | 5113-5120 |
| Segment.lean | `segLength` | 5051-5054 |
| Segment.lean | `segLine` | 5256-5262 |
| Segment.lean | `segCenter` | 5292-5298 |
| Segment.lean | `segSplit` | 5350-5357 |
| Segment.lean | `segPointAt` | 5415-5430 |
| Segment.lean | `segSplitAt` | 5365-5382 |
| Segment.lean | `segDistTo` | 5513-5563 |
| Segment.lean | `PointSide` | 4829-4832 |
| Segment.lean | `crossProdV` | 9080-9102 |
| Segment.lean | `segPointSide` | 5390-5408, 3567-3569 |
| Segment.lean | `segParallel` | 5442-5470 |
| Segment.lean | `segInter` | 8209-8237 |
| Segment.lean | `segInterB` | 7385-7420, 4900-4909 |
| Segment.lean | `segLineInter` | 8248-8270 |
| Segment.lean | `PtTag` | 8163-8166 |
| Segment.lean | `ptLabel` | 8171-8181, 4369-4390 |
| Segment.lean | `segCircle` | 8295-8351 |
| Segment.lean | `segExtended` | 5480-5499 |
| Segment.lean | `segOrthogPts` | 5217-5231, 5236-5239 |
| Segment.lean | `segBisector` | 5305-5309 |
| Segment.lean | `largestDistancePoints` | 3616-3660 |
| Segment.lean | `areCollinear` | 3687-3698 |
| Simple.lean | `edgeSeg` | 6338-6353, 6366-6369 |
| Simple.lean | `innerLoop` | 7403-7409 |
| Simple.lean | `outerLoop` | 7399-7412 |
| Simple.lean | `run` | 7385-7417 |
| Simple.lean | `simpleR` | 7385-7417 |
| Simple.lean | `Fl.segMake` | 4900-4911 |
| Simple.lean | `Fl.simpleF` | 7385-7417 |
| Svg.lean | `writePoints` | 12322-12323 |
| Svg.lean | `tokenizeLoop` | 12474-12484 |
| Svg.lean | `tokenize` | 12474-12484 |
| Svg.lean | `parsePointsLoop` | 12531-12539 |
| Svg.lean | `parsePoints` | 12524-12541 |
| Svg.lean | `dropClosing` | 12952-12953, 13033-13034 |
| Svg.lean | `importPoints` | 12947-12956, 13009-13021 |
| Svg.lean | `isDigit` | 12545-12548 |
| Svg.lean | `isSep` | 12564 |
| Svg.lean | `getNextElem` | 12561-12586 |
| Svg.lean | `PathCmd` | 12612-12632 |
| Svg.lean | `numberValues` | 12592-12606 |
| Svg.lean | `PathCmd.isNewPolyline` | 12626-12631 |
| Svg.lean | `cmdAllowed` | 12551-12556 |
| Svg.lean | `getCommand` | 12698-12736, 12621-12625 |
| Svg.lean | `generateNewPoint` | 12638-12694 |
| Svg.lean | `purgeSetDupes` | 12742-12755, 12850 |
| Svg.lean | `PState` | 12802-12812, 12760-12788 |
| Svg.lean | `storeValues` | 12770-12783 |
| Svg.lean | `storeIfAny` | 12820-12821, 12845 |
| Svg.lean | `storeIfFull` | 12838 |
| Svg.lean | `pathStep` | 12818-12841 |
| Svg.lean | `pathLoop` | 12813-12843 |
| Svg.lean | `pathEnd` | 12845-12858 |
| Svg.lean | `parsePath` | 12800-12859 |
| Svg.lean | `importPathLoop` | 13030-13040, 13042 |
| Svg.lean | `importPath` | 13023-13049 |
| SvgDoc.lean | `colorText` | 690-699 |
| SvgDoc.lean | `holds` | 678 |
| SvgDoc.lean | `holdsFill` | 675-681 |
| SvgDoc.lean | `fillAttrs` | 12084-12086, 12107-12109, 12131-12133, 12318-12320, 683-688 |
| SvgDoc.lean | `strokeAttrs` | 12081-12083, 12104-12106, 12128-12130, 12158-12159, 12315-12317 |
| SvgDoc.lean | `drawCircle` | 12075-12088 |
| SvgDoc.lean | `drawEllipse` | 12094-12112, 12096-12097 |
| SvgDoc.lean | `drawRect` | 12118-12134 |
| SvgDoc.lean | `drawSvgSeg` | 12141-12173 |
| SvgDoc.lean | `strokePairs` | 11378-11439, 11780 |
| SvgDoc.lean | `makeSegs` | 11426-11437 |
| SvgDoc.lean | `pointMark` | 11748-11789, 484 |
| SvgDoc.lean | `drawPoint` | 11748-11789, 11409-11410 |
| SvgDoc.lean | `drawPoints` | 12205-12206, 12347-12348 |
| SvgDoc.lean | `drawSeg` | 12183-12212 |
| SvgDoc.lean | `drawOSeg` | 12183-12212 |
| SvgDoc.lean | `hexText` | 12047-12050 |
| SvgDoc.lean | `drawText` | 12042-12052 |
| SvgDoc.lean | `indexText` | 12333-12339 |
| SvgDoc.lean | `drawPoly` | 12306-12370, 12364 |
| SvgDoc.lean | `Image` | 712-719 |
| SvgDoc.lean | `drawItem` | 889-894, 11717-11740, 11736 |
| SvgDoc.lean | `drawAll` | 889-902, 11247-11259, 11314-11373 |
| SvgDoc.lean | `newImage` | 827-832 |
| SvgDoc.lean | `rootElem` | 844-846 |
| SvgDoc.lean | `writeImage` | 837-853 |
| SvgDoc.lean | `getAttribValue` | 12921-12928 |
| SvgDoc.lean | `getAttribString` | 12936-12942 |
| SvgDoc.lean | `rotateAttr` | 12489-12516 |
| SvgDoc.lean | `Shape` | 413-424 |
| SvgDoc.lean | `importEllipse` | 13058-13061 |
| SvgDoc.lean | `visitExit` | 12970-13077, 13071-13073 |
| SvgDoc.lean | `importElems` | 12868-12914 |
| SvgDoc.lean | `imgSizeLoop` | 13101-13109 |
| SvgDoc.lean | `getImgSize` | 13096-13113 |
| Text.lean | `isInf` | 4257-4263 |
| Text.lean | `tripleText` | 8367-8372 |
| Text.lean | `ptText` | 8369-8377 |
| Text.lean | `Shape` | 2168 |
| Text.lean | `ptsText` | 8449-8455 |
| Text.lean | `polyText` | 8448-8455 |
| Text.lean | `rectText` | 8413-8419 |
| Text.lean | `circleText` | 8421-8427 |
| Text.lean | `ellipseText` | 8460-8467, 2165-2173 |
| Text.lean | `shapeText` | 8363-8380, 8413-8467 |
| Text.lean | `typeName` | 946-964 |
| Text.lean | `rootText` | 12228-12287 |
| Text.lean | `elemsText` | 8396-8397 |
| Text.lean | `containerText` | 8391-8399 |
| Text.lean | `padded` | 1660 |
| Text.lean | `rowText` | 1658-1661 |
| Text.lean | `homogText` | 2040-2045, 1653-1664 |
| Text.lean | `inters2Text` | 2565-2571 |
| Text.lean | `vectorText` | 1190-1204 |
| Text.lean | `intersMText` | 2615-2621 |
| Threads.lean | `Attr` | 5878-5892 |
| Threads.lean | `Attr.width` | 5880-5883, 3800 |
| Threads.lean | `PMem` | 6092-6094, 5858-5873 |
| Threads.lean | `Attr.compute` | 7391-7413, 7473-7476, 7491, 7529-7549 |
| Threads.lean | `PCall.entry` | 7471, 7387, 7487, 7524, 6542 |
| Threads.lean | `PThread.afterSimple` | 7487-7490, 7524-7527 |
| Threads.lean | `polyStep` | 7385-7417, 7469-7479, 7485-7493, 7522-7553, 5863-5872, 7569-7610, 6537-6555 |
| Threads.lean | `PMem.new` | 6092-6094, 5858-5861 |
| Threads.lean | `HMem` | 1475, 2037-2038 |
| Threads.lean | `HPc` | 9680-9695 |
| Threads.lean | `homStep` | 9678-9695 |
| Threads.lean | `HMem.new` | 2037-2038 |
| ThreadsCircle.lean | `makeProg` | 3241-3250 |
| ThreadsCircle.lean | `trivialProg` | 5655-5673 |
| ThreadsCircle.lean | `welzlProg` | 5686-5716 |
| ThreadsCircle.lean | `containerProg` | 5737-5762 |
| ThreadsCircle.lean | `CircOp.prog` | 3234-3290 |
