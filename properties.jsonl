{"id": "C01", "title": "Line built from two points contains both", "statement": "Line2d(p1,p2) (and p1*p2) for two distinct points yields a unit-normal line a.x+b.y+c=0 that passes through p1 and p2, and is the same object whichever order the points are given in.", "quantifier": "all pairs of distinct finite points", "why_tests_cant": "The input space (all coordinates) is infinite; a unit test samples finitely many configurations and cannot exclude a bad one. Failure appears only for nearly horizontal lines far from the origin, which the test-suite never builds.", "anchors": ["homog2d.hpp: operator*(Point2d,Point2d)", "homog2d.hpp: detail::crossProduct", "homog2d.hpp: LPBase::impl_normalize (line)", "homog2d.hpp: LPBase(pt,pt) constructor"]}
{"id": "C02", "title": "Intersection point of two lines lies on both", "statement": "line1*line2 throws for parallel lines; otherwise it returns a finite point that lies on both lines, and swapping the operands gives the same location.", "quantifier": "all pairs of lines, all angle thresholds > 0", "why_tests_cant": "The input space (all coordinates) is infinite; a unit test samples finitely many configurations and cannot exclude a bad one.", "anchors": ["homog2d.hpp: operator*(Line2d,Line2d)", "homog2d.hpp: LPBase::isParallelTo", "homog2d.hpp: LPBase::getAngle", "homog2d.hpp: detail::crossProduct"]}
{"id": "C03", "title": "Point distance is a metric on locations", "statement": "p.distTo(q) is non-negative, symmetric, satisfies the triangle inequality, is 0 exactly when both denote the same location, depends only on the location (any non-zero homogeneous scaling gives the same value) and does not change when both points are translated by the same vector.", "quantifier": "all finite points, scale factors and translations", "why_tests_cant": "The input space (all coordinates) is infinite; a unit test samples finitely many configurations and cannot exclude a bad one.", "anchors": ["homog2d.hpp: LPBase::impl_distToPoint (point)", "homog2d.hpp: LPBase::getX/getY", "homog2d.hpp: LPBase::translate"]}
{"id": "C04", "title": "Line/point distance is the shortest distance to the line", "statement": "line.distTo(p) is a lower bound of the distance from p to every point of the line and is attained by one of them; hence it is 0 exactly when p is on the line.", "quantifier": "all lines and points", "why_tests_cant": "The input space (all coordinates) is infinite; a unit test samples finitely many configurations and cannot exclude a bad one.", "anchors": ["homog2d.hpp: LPBase::impl_distToPoint (line)"]}
{"id": "C05", "title": "Parallel lines are at the requested distance", "statement": "line.getParallelLines(d) returns two lines with the same direction all of whose points are at distance |d| from the line, on opposite sides; line.getParallelLine(pt) returns a parallel line through pt; getParallelDistance of the line and one of its parallels is |d|.", "quantifier": "all normalised lines, distances, points", "why_tests_cant": "The input space (all coordinates) is infinite; a unit test samples finitely many configurations and cannot exclude a bad one.", "anchors": ["homog2d.hpp: LPBase::getParallelLines", "homog2d.hpp: LPBase::getParallelLine", "homog2d.hpp: getParallelDistance"]}
{"id": "C06", "title": "Orthogonal line and segment", "statement": "line.getOrthogLine(pt) passes through pt and is perpendicular to line; line.getOrthogSegment(pt) goes from the closest point of the line to pt.", "quantifier": "all lines and points", "why_tests_cant": "The input space (all coordinates) is infinite; a unit test samples finitely many configurations and cannot exclude a bad one.", "anchors": ["homog2d.hpp: LPBase::getOrthogLine", "homog2d.hpp: priv::getOrthogonalLine_B2", "homog2d.hpp: LPBase::getOrthogSegment"]}
{"id": "C07", "title": "Points at a distance along a line", "statement": "line.getPoints(pt,d) for pt on the line returns two points of the line at distance |d| from pt, with pt as their middle, the smaller one (x then y) first.", "quantifier": "all lines, points on them, distances", "why_tests_cant": "The input space (all coordinates) is infinite; a unit test samples finitely many configurations and cannot exclude a bad one.", "anchors": ["homog2d.hpp: LPBase::getPoints", "homog2d.hpp: priv::getPoints_B2", "homog2d.hpp: priv::fix_order"]}
{"id": "C08", "title": "Line/circle intersection is sound and complete", "statement": "line.intersects(circle) reports points exactly when some point of the line is on the circle; each returned point is on the line and on the circle, every common point is one of the two returned, and the first is not larger than the second.", "quantifier": "all lines and circles", "why_tests_cant": "The input space (all coordinates) is infinite; a unit test samples finitely many configurations and cannot exclude a bad one.", "anchors": ["homog2d.hpp: LPBase::impl_intersectsCircle"]}
{"id": "C09", "title": "Angle between lines is well defined", "statement": "l1.getAngle(l2) is always a real in [0,pi/2] (the arc-cosine never receives an argument outside [0,1]), is symmetric, is 0 for a line with itself and pi/2 exactly for perpendicular lines.", "quantifier": "all pairs of lines", "why_tests_cant": "The input space (all coordinates) is infinite; a unit test samples finitely many configurations and cannot exclude a bad one.", "anchors": ["homog2d.hpp: LPBase::getAngle"]}
{"id": "C10", "title": "Point ordering is a strict total order of locations; == is a tolerance", "statement": "operator< on points is irreflexive, asymmetric, transitive and total on locations (so std::sort, std::set and std::min_element are legal); points compare == when closer than the null distance; == is reflexive and symmetric.", "quantifier": "all finite points; all positive thresholds", "why_tests_cant": "The input space (all coordinates) is infinite; a unit test samples finitely many configurations and cannot exclude a bad one. Transitivity quantifies over triples.", "anchors": ["homog2d.hpp: LPBase::operator<", "homog2d.hpp: LPBase::impl_op_equal (point)"]}
{"id": "C11", "title": "Product of homographies is composition", "statement": "(H1*H2)*p and H1*(H2*p) denote the same location, for every pair of homographies whose product is accepted and every point with finite images.", "quantifier": "all matrices and points", "why_tests_cant": "The input space (all coordinates) is infinite; a unit test samples finitely many configurations and cannot exclude a bad one.", "anchors": ["homog2d.hpp: Hmatrix_::operator*", "homog2d.hpp: detail::product", "homog2d.hpp: operator*(Homogr,Point2d)", "homog2d.hpp: Matrix_::p_normalizeMat"]}
{"id": "C12", "title": "Inverse homography undoes the homography", "statement": "After H2=H; H2.inverse(), H2*(H*p) is p for every point with finite image, and inverse() throws exactly when |det| is under the threshold or the result cannot be normalised; the object is otherwise a two-sided inverse.", "quantifier": "all 3x3 matrices and points", "why_tests_cant": "The input space (all coordinates) is infinite; a unit test samples finitely many configurations and cannot exclude a bad one.", "anchors": ["homog2d.hpp: Hmatrix_::inverse", "homog2d.hpp: Matrix_::inverse", "homog2d.hpp: Matrix_::p_adjugate", "homog2d.hpp: Matrix_::determ"]}
{"id": "C13", "title": "Homographies preserve incidence after any history", "statement": "If p is on line l then H*p is on H*l, whatever sequence of public operations (set/add rotation/scale/translation, assignment, product, inverse, normalisation, init, element writes, transpose, and earlier line transformations) produced H.", "quantifier": "all operation histories on a homography object, all points and lines", "why_tests_cant": "The property ranges over all finite call histories on an object; tests exercise a handful of short sequences. The cached inverse-transpose makes the result depend on earlier calls.", "anchors": ["homog2d.hpp: operator*(Homogr,Line2d)", "homog2d.hpp: Hmatrix_::_hasChanged", "homog2d.hpp: Hmatrix_::_hmt", "homog2d.hpp: Hmatrix_::init", "homog2d.hpp: Matrix_::set", "homog2d.hpp: Matrix_::transpose"]}
{"id": "C14", "title": "add* members append a transformation", "statement": "H.addTranslation/addRotation/addScale changes H so that the new H maps p to (the added transformation applied to the old H*p); a chain of calls is therefore applied in call order, and set* discards the previous content.", "quantifier": "all homographies, all chains of calls, all points", "why_tests_cant": "The property ranges over all finite call histories on an object; tests exercise a handful of short sequences.", "anchors": ["homog2d.hpp: Hmatrix_::addTranslation", "homog2d.hpp: Hmatrix_::addRotation", "homog2d.hpp: Hmatrix_::addScale", "homog2d.hpp: Hmatrix_::setTranslation"]}
{"id": "C15", "title": "Homography equality ignores scale", "statement": "H1==H2 is reflexive and symmetric, and holds between a homography and any non-zero multiple of it, whatever was done to the objects before. A homography built from nine values is the matrix divided by the last one, refused when this one is null.", "quantifier": "all matrices and histories", "why_tests_cant": "The property ranges over all finite call histories on an object; tests exercise a handful of short sequences.", "anchors": ["homog2d.hpp: Hmatrix_::operator==", "homog2d.hpp: Matrix_::p_normalizeMat", "homog2d.hpp: Matrix_::_isNormalized"]}
{"id": "C16", "title": "Homography maps composite objects pointwise", "statement": "H*polyline, H*rectangle, H*container have the same number of vertices in the same order, vertex i being H*vertex i; H*segment joins the images of its ends.", "quantifier": "all homographies, all containers of any length", "why_tests_cant": "Container length is unbounded.", "anchors": ["homog2d.hpp: operator*(Homogr,PolylineBase)", "homog2d.hpp: operator*(Homogr,FRect)", "homog2d.hpp: operator*(Hmatrix,Cont)", "homog2d.hpp: operator*(Homogr,SegVec)", "homog2d.hpp: Hmatrix_::applyTo"]}
{"id": "C17", "title": "Segment end points are always ordered", "statement": "For every non-oriented Segment, getPts().first is smaller than getPts().second (x, then y), however the object was obtained: constructors, set, translate, moveTo, copy or conversion.", "quantifier": "all construction/mutation histories", "why_tests_cant": "The property ranges over all finite call histories on an object; tests exercise a handful of short sequences.", "anchors": ["homog2d.hpp: SegVec constructors", "homog2d.hpp: SegVec::set", "homog2d.hpp: SegVec::translate", "homog2d.hpp: SegVec::moveTo", "homog2d.hpp: priv::fix_order"]}
{"id": "C18", "title": "Segment equality ignores construction order, oriented equality does not", "statement": "Segment(p,q)==Segment(q,p) always; OSegment(p,q)==OSegment(q,p) never (for distinct points); both constructors reject equal points.", "quantifier": "all point pairs", "why_tests_cant": "The input space (all coordinates) is infinite; a unit test samples finitely many configurations and cannot exclude a bad one.", "anchors": ["homog2d.hpp: SegVec::operator==", "homog2d.hpp: SegVec(pt,pt)"]}
{"id": "C19", "title": "Point/segment distance is the shortest distance", "statement": "segment.distTo(p) is the minimum over all points of the segment of the distance to p, and the optional region output tells whether the projection is before, within or after the segment.", "quantifier": "all segments and points", "why_tests_cant": "The input space (all coordinates) is infinite; a unit test samples finitely many configurations and cannot exclude a bad one.", "anchors": ["homog2d.hpp: SegVec::distTo"]}
{"id": "C20", "title": "Splitting and measuring a segment", "statement": "split() and split(d) return two segments that share the cutting point, whose lengths add up to the length of the original, the first having half the length (resp. d); the middle point is equidistant; getPointAt(d) is on the supporting line at distance d of the first point, towards the second.", "quantifier": "all segments, 0<d<length", "why_tests_cant": "The input space (all coordinates) is infinite; a unit test samples finitely many configurations and cannot exclude a bad one.", "anchors": ["homog2d.hpp: SegVec::split", "homog2d.hpp: SegVec::getPointAt", "homog2d.hpp: SegVec::getCenter"]}
{"id": "C21", "title": "Parallel segments", "statement": "getParallelSegs(d) returns two segments with the same direction and length, at distance d; for oriented segments, the first lies on the left side and the second on the right side.", "quantifier": "all segments and d>0", "why_tests_cant": "The input space (all coordinates) is infinite; a unit test samples finitely many configurations and cannot exclude a bad one.", "anchors": ["homog2d.hpp: SegVec::getParallelSegs"]}
{"id": "C22", "title": "Segment/segment intersection is sound and complete up to the null distance", "statement": "If s1.intersects(s2) reports a point then that point is on both supporting lines and within the null distance of belonging to both segments; if two non-parallel segments have a common point, then it is reported; the answer is symmetric.", "quantifier": "all pairs of segments", "why_tests_cant": "The input space (all coordinates) is infinite; a unit test samples finitely many configurations and cannot exclude a bad one.", "anchors": ["homog2d.hpp: SegVec::intersects(SegVec)"]}
{"id": "C23", "title": "Side of a point relative to an oriented segment", "statement": "getPointSide tells Left/Right/Neither according to the sign of the cross product; reversing the segment swaps Left and Right; translating everything changes nothing.", "quantifier": "all oriented segments and points", "why_tests_cant": "The input space (all coordinates) is infinite; a unit test samples finitely many configurations and cannot exclude a bad one.", "anchors": ["homog2d.hpp: SegVec::getPointSide", "homog2d.hpp: detail::crossProductV"]}
{"id": "C24", "title": "Negating an oriented segment", "statement": "-s is the segment with swapped end points; -(-s)==s; evaluating -s does not modify s.", "quantifier": "all oriented segments", "why_tests_cant": "Aliasing effect not visible in tests that use the result only.", "anchors": ["homog2d.hpp: SegVec::operator-"]}
{"id": "C25", "title": "Flat rectangle is canonical whatever two opposite corners are given", "statement": "FRect(p1,p2) throws exactly when the points share a coordinate (within the threshold); otherwise it holds the min/max corners, so the four ways of giving opposite corners build equal rectangles and width()>0, height()>0.", "quantifier": "all point pairs", "why_tests_cant": "The input space (all coordinates) is infinite; a unit test samples finitely many configurations and cannot exclude a bad one.", "anchors": ["homog2d.hpp: FRect_::set", "homog2d.hpp: priv::getCorrectPoints", "homog2d.hpp: shareCommonCoord"]}
{"id": "C26", "title": "Rectangle invariant is preserved by every mutator", "statement": "After any sequence of set/translate/rotate/getExtended/assignment, a rectangle still has its min corner strictly below its max corner on both axes; translate keeps width, height and area; quarter-turn swaps width and height; length and area are those of the polygon of the corners.", "quantifier": "all histories", "why_tests_cant": "The property ranges over all finite call histories on an object; tests exercise a handful of short sequences.", "anchors": ["homog2d.hpp: FRect_::translate", "homog2d.hpp: FRect_::rotate", "homog2d.hpp: FRect_::getExtended", "homog2d.hpp: FRect_::set"]}
{"id": "C27", "title": "Containment in rectangles and circles is a strict order compatible with points", "statement": "If shape A is inside rectangle/circle B, then every point inside A is inside B; isInside is irreflexive and transitive on rectangles and on circles.", "quantifier": "all shapes and points", "why_tests_cant": "The input space (all coordinates) is infinite; a unit test samples finitely many configurations and cannot exclude a bad one.", "anchors": ["homog2d.hpp: FRect_::isInside", "homog2d.hpp: Circle_::isInside", "homog2d.hpp: detail::ptIsInside", "homog2d.hpp: Circle_::implC_isInside"]}
{"id": "C28", "title": "Intersection area of two rectangles", "statement": "r1.intersectArea(r2) succeeds exactly when the two open rectangles overlap, and then returns the rectangle [max of mins, min of maxes]; it is symmetric.", "quantifier": "all pairs of rectangles", "why_tests_cant": "The input space (all coordinates) is infinite; a unit test samples finitely many configurations and cannot exclude a bad one. Many touching configurations.", "anchors": ["homog2d.hpp: FRect_::intersectArea", "homog2d.hpp: FRect_::intersects", "homog2d.hpp: FRect_::p_pointsInside"]}
{"id": "C29", "title": "Union of two rectangles: table walk is safe and exact", "statement": "For every pair of intersecting rectangles r1.unionArea(r2) terminates, never leaves the 4x4 table, and returns a polygon whose enclosed area is area(r1)+area(r2)-area(intersection).", "quantifier": "all pairs of rectangles (all order types of the 4+4 coordinates)", "why_tests_cant": "The input space (all coordinates) is infinite; a unit test samples finitely many configurations and cannot exclude a bad one. An out-of-table step is undefined behaviour a test may not show.", "anchors": ["homog2d.hpp: FRect_::unionArea", "homog2d.hpp: priv::runion::parseTable", "homog2d.hpp: priv::runion::convertToCoord", "homog2d.hpp: priv::runion::Index"]}
{"id": "C30", "title": "IoU is a similarity score", "statement": "IoU(r1,r2) is in [0,1], symmetric, 0 when the rectangles do not overlap, and 1 for identical rectangles.", "quantifier": "all pairs of rectangles", "why_tests_cant": "The input space (all coordinates) is infinite; a unit test samples finitely many configurations and cannot exclude a bad one.", "anchors": ["homog2d.hpp: IoU", "homog2d.hpp: FRect_::intersectArea", "homog2d.hpp: FRect_::unionArea"]}
{"id": "C31", "title": "Bounding box of points is the smallest enclosing rectangle", "statement": "getBB of a container of points contains every point, every side touches a point, it does not depend on the order of the points, and it throws exactly for empty containers, single points, or point sets sharing an x or y coordinate.", "quantifier": "all point containers of any size", "why_tests_cant": "Container size is unbounded.", "anchors": ["homog2d.hpp: getBB", "homog2d.hpp: priv::getBB_Points"]}
{"id": "C32", "title": "Bounding box of two objects is symmetric", "statement": "getBB(a,b) and getBB(b,a) both succeed with the same rectangle or both throw, including when one of them is an empty polyline.", "quantifier": "all pairs of objects", "why_tests_cant": "Requires considering every combination of object kinds including degenerate ones.", "anchors": ["homog2d.hpp: getBB(T1,T2)", "homog2d.hpp: ppair::getPointPair"]}
{"id": "C33", "title": "Bounding box of a heterogeneous container", "statement": "getBB of a vector of variants is the smallest rectangle enclosing the elements that have an extent; lines are ignored.", "quantifier": "all vectors of variants", "why_tests_cant": "Depends on the position of the line in the container.", "anchors": ["homog2d.hpp: priv::getBB_CommonType"]}
{"id": "C34", "title": "Extreme points", "statement": "getTmPoint/getBmPoint/getLmPoint/getRmPoint of a non-empty container return an element of the container with extremal coordinate (ties broken deterministically by the other coordinate), independently of the storage order; empty containers throw.", "quantifier": "all containers", "why_tests_cant": "Container size is unbounded.", "anchors": ["homog2d.hpp: getBmPoint", "homog2d.hpp: getTmPoint", "homog2d.hpp: getLmPoint", "homog2d.hpp: getRmPoint", "homog2d.hpp: getExtremePoint"]}
{"id": "C35", "title": "Circles never have a null radius, after any history", "statement": "A Circle constructed with a radius below the null distance is rejected (exception), and this holds whatever operations, including failed ones, were executed before.", "quantifier": "all call histories including exceptions", "why_tests_cant": "The property ranges over all finite call histories on an object; tests exercise a handful of short sequences. Needs the state left behind by a throwing call.", "anchors": ["homog2d.hpp: Circle_(pt,radius)", "homog2d.hpp: thr::doNotCheckRadius", "homog2d.hpp: Circle_::set(container)"]}
{"id": "C36", "title": "Circle through three points", "statement": "Circle(p1,p2,p3) passes through the three points, does not depend on their order, and throws exactly if they are collinear (within threshold).", "quantifier": "all point triples", "why_tests_cant": "The input space (all coordinates) is infinite; a unit test samples finitely many configurations and cannot exclude a bad one.", "anchors": ["homog2d.hpp: Circle_::set(pt,pt,pt)", "homog2d.hpp: areCollinear", "homog2d.hpp: priv::getLargestDistancePoints"]}
{"id": "C37", "title": "Minimum enclosing circle", "statement": "Circle built from a set of points encloses all the points and no smaller circle does.", "quantifier": "all point sets of any size, all random choices of the algorithm", "why_tests_cant": "Randomised recursive algorithm: all schedules of random picks must be covered.", "anchors": ["homog2d.hpp: Circle_::set(container)", "homog2d.hpp: priv::circle::p_WelzlHelper", "homog2d.hpp: priv::p_min_circle_trivial"]}
{"id": "C38", "title": "Circle/circle intersection", "statement": "Points returned by c1.intersects(c2) lie on both circles; nothing is reported when the circles are too far apart, one inside the other, or concentric; every common point is reported.", "quantifier": "all pairs of circles", "why_tests_cant": "The input space (all coordinates) is infinite; a unit test samples finitely many configurations and cannot exclude a bad one.", "anchors": ["homog2d.hpp: Circle_::intersects(Circle)"]}
{"id": "C39", "title": "Cached polyline attributes are always up to date", "statement": "length(), area(), isSimple() and centroid() return what a fresh polyline with the same points would return, after any sequence of mutations and queries.", "quantifier": "all histories of mutating and querying calls", "why_tests_cant": "The property ranges over all finite call histories on an object; tests exercise a handful of short sequences.", "anchors": ["homog2d.hpp: PolylineBase::length", "homog2d.hpp: PolylineBase::area", "homog2d.hpp: PolylineBase::centroid", "homog2d.hpp: PolylineBase::translate", "homog2d.hpp: PolylineBase::moveTo", "homog2d.hpp: detail::PolylineAttribs"]}
{"id": "C40", "title": "Closed polyline equality ignores starting point and direction", "statement": "Two closed polylines with the same vertices compare equal if one sequence is a rotation and/or reversal of the other; open ones if one is the other or its reverse.", "quantifier": "all vertex sequences of any length, all rotations", "why_tests_cant": "Length unbounded.", "anchors": ["homog2d.hpp: PolylineBase::operator==", "homog2d.hpp: PolylineBase::p_normalizePoly"]}
{"id": "C41", "title": "Comparing polylines has no visible side effect", "statement": "Evaluating p1==p2 does not change what any accessor of p1 or p2 returns.", "quantifier": "all polylines and accessors", "why_tests_cant": "The comparison normalises through a mutable member: only order-sensitive accessors called after a comparison reveal it.", "anchors": ["homog2d.hpp: PolylineBase::operator==", "homog2d.hpp: PolylineBase::p_normalizePoly", "homog2d.hpp: PolylineBase::isConvex", "homog2d.hpp: PolylineBase::getPoint"]}
{"id": "C42", "title": "Polygon area is geometric", "statement": "The area of a polygon does not depend on starting vertex or direction, is unchanged by translation, quarter-turns and mirrors, is multiplied by k^2 by scaling, and is additive when a polygon is cut along a diagonal.", "quantifier": "all simple polygons of any size", "why_tests_cant": "Number of vertices unbounded.", "anchors": ["homog2d.hpp: PolylineBase::area", "homog2d.hpp: PolylineBase::p_ComputeSignedArea"]}
{"id": "C43", "title": "Polyline segments form a chain", "statement": "getSegs() of a polyline with n>=2 points has n (closed, n>=3) or n-1 (open) segments; oriented segment i joins point i to the next; getSegment(i) agrees with getSegs()[i], and nbSegs() with the size; out of range indexes throw.", "quantifier": "all polylines of any size, all indices", "why_tests_cant": "Size unbounded.", "anchors": ["homog2d.hpp: PolylineBase::getSegs", "homog2d.hpp: PolylineBase::getOSegs", "homog2d.hpp: PolylineBase::nbSegs", "homog2d.hpp: PolylineBase::getSegment", "homog2d.hpp: PolylineBase::getPoint"]}
{"id": "C44", "title": "minimize() only removes redundant vertices", "statement": "minimize() keeps the order of the remaining vertices, never removes the end points of an open polyline, removes every vertex where direction does not change and no other.", "quantifier": "all polylines of any size", "why_tests_cant": "Size unbounded.", "anchors": ["homog2d.hpp: PolylineBase::minimize", "homog2d.hpp: PolylineBase::p_minimizePL"]}
{"id": "C45", "title": "Convexity does not depend on orientation or starting vertex", "statement": "isConvex() gives the same answer for a polygon, its reverse, and any rotation of its vertex sequence; triangles are convex.", "quantifier": "all polygons", "why_tests_cant": "Requires all vertex sequences, including collinear vertices.", "anchors": ["homog2d.hpp: PolylineBase::isConvex"]}
{"id": "C46", "title": "Quarter-turn rotations and mirrors form a group action", "statement": "rotate(CCW) four times, rotate(CW) after rotate(CCW), rotate(Full) twice, and a mirror twice all restore the polyline; rotation about a reference point fixes that point; all of them preserve lengths and distances.", "quantifier": "all polylines", "why_tests_cant": "All sizes and coordinates.", "anchors": ["homog2d.hpp: PolylineBase::rotate", "homog2d.hpp: FRect_::rotate"]}
{"id": "C47", "title": "Convex hull is the convex hull", "statement": "convexHull() of a point set returns a convex polygon made of input points that encloses every input point; the scan always terminates and never pops from an empty stack.", "quantifier": "all point sets of any size", "why_tests_cant": "Size unbounded; stack underflow is undefined behaviour.", "anchors": ["homog2d.hpp: convexHull", "homog2d.hpp: priv::chull::sortPoints", "homog2d.hpp: priv::chull::orientation", "homog2d.hpp: priv::chull::getPivotPoint"]}
{"id": "C48", "title": "Nearest / farthest point search", "statement": "findNearestPoint(q,cont) returns the index of an element different from q at minimal distance from q among the elements different from q (farthest: maximal); containers with fewer than two points throw; ties give the first index.", "quantifier": "all containers and query points", "why_tests_cant": "Size unbounded; failing cases need duplicates of the query.", "anchors": ["homog2d.hpp: findNearestPoint", "homog2d.hpp: findFarthestPoint", "homog2d.hpp: priv::findPoint"]}
{"id": "C49", "title": "Combined search agrees with the separate ones", "statement": "findNearestFarthestPoint(q,cont) returns the pair (findNearestPoint(q,cont), findFarthestPoint(q,cont)), or throws when they do.", "quantifier": "all containers and query points", "why_tests_cant": "Size unbounded.", "anchors": ["homog2d.hpp: findNearestFarthestPoint"]}
{"id": "C50", "title": "Closest points of two polylines", "statement": "getClosestPoints(a,b) returns indexes (i,j) and the distance between a[i] and b[j], which is minimal over all pairs; empty polylines throw.", "quantifier": "all pairs of polylines of any sizes", "why_tests_cant": "Size unbounded.", "anchors": ["homog2d.hpp: getClosestPoints", "homog2d.hpp: priv::ClosestPoints"]}
{"id": "C51", "title": "SVG polygon export/import round trip", "statement": "The points attribute written for a polygon or polyline is parsed back to the same list of points in the same order (for any number formatting that the number parser inverts).", "quantifier": "all point lists of any length", "why_tests_cant": "Length unbounded.", "anchors": ["homog2d.hpp: PolylineBase::draw (SVG)", "homog2d.hpp: svg::svgp::parsePoints", "homog2d.hpp: svg::svgp::tokenize"]}
{"id": "C52", "title": "SVG path import follows the path semantics", "statement": "Importing 'M x y L x y ...', with absolute or relative commands, repeated coordinates and H/V shortcuts, gives the vertices defined by the SVG path semantics; relative and absolute encodings of the same point list give the same vertices.", "quantifier": "all point lists / command lists", "why_tests_cant": "Length unbounded.", "anchors": ["homog2d.hpp: svg::svgp::parsePath", "homog2d.hpp: svg::svgp::generateNewPoint", "homog2d.hpp: svg::svgp::SvgValuesBuffer"]}
{"id": "C53", "title": "SVG path import never aborts the program", "statement": "For every path string the import either gives polylines or reports an error through an exception; it terminates on every input.", "quantifier": "all strings", "why_tests_cant": "All input strings.", "anchors": ["homog2d.hpp: svg::svgp::parsePath", "homog2d.hpp: svg::svgp::getNextElem", "homog2d.hpp: svg::svgp::generateNewPoint"]}
{"id": "C54", "title": "Duplicate removal on import", "statement": "After removal of duplicates, no two consecutive points are the same, the first and last locations and the order of distinct points are preserved.", "quantifier": "all point lists", "why_tests_cant": "Length unbounded.", "anchors": ["homog2d.hpp: svg::svgp::purgeSetDupes"]}
{"id": "C55", "title": "Ellipse parameters are recovered", "statement": "Ellipse(x0,y0,a,b,angle) reports center (x0,y0) and half axes (max(a,b),min(a,b)), area pi.a.b, for every angle; Ellipse(circle) is a circle.", "quantifier": "all ellipses", "why_tests_cant": "The input space (all coordinates) is infinite; a unit test samples finitely many configurations and cannot exclude a bad one.", "anchors": ["homog2d.hpp: Ellipse_::p_init", "homog2d.hpp: Ellipse_::p_computeParams", "homog2d.hpp: Ellipse_::getCenter", "homog2d.hpp: Ellipse_::getMajMin", "homog2d.hpp: Ellipse_::isCircle"]}
{"id": "C56", "title": "Point in ellipse and ellipse bounding box agree with the curve", "statement": "p.isInside(ellipse) is true exactly when p is strictly inside the curve defined by the construction parameters, for every angle, and the bounding box contains all the points inside.", "quantifier": "all ellipses and points", "why_tests_cant": "The input space (all coordinates) is infinite; a unit test samples finitely many configurations and cannot exclude a bad one. Failing family: major axis vertical.", "anchors": ["homog2d.hpp: Ellipse_::pointIsInside", "homog2d.hpp: Ellipse_::p_computeParams", "homog2d.hpp: Ellipse_::getBB"]}
{"id": "C57", "title": "Comparing ellipses has no visible side effect", "statement": "Evaluating e1==e2 does not change angle, axes or point containment of e1 and e2.", "quantifier": "all ellipses", "why_tests_cant": "Hidden mutable normalisation.", "anchors": ["homog2d.hpp: Ellipse_::operator==", "homog2d.hpp: Matrix_::p_normalizeMat"]}
{"id": "C58", "title": "Homography of an ellipse is the image of the curve", "statement": "A point p is on the conic of ellipse e exactly when H*p is on the conic of H*e (H invertible).", "quantifier": "all invertible homographies, ellipses and points", "why_tests_cant": "The input space (all coordinates) is infinite; a unit test samples finitely many configurations and cannot exclude a bad one.", "anchors": ["homog2d.hpp: operator*(Homogr,Ellipse)", "homog2d.hpp: operator*(Homogr,Circle)"]}
{"id": "C59", "title": "Default drawing parameters", "statement": "setDefault/resetDefault only affect objects created afterwards; resetDefault restores the factory values; point size setter rejects even sizes and leaves the object usable; cycling the point style visits all the styles.", "quantifier": "all histories", "why_tests_cant": "The property ranges over all finite call histories on an object; tests exercise a handful of short sequences.", "anchors": ["homog2d.hpp: img::DrawParams::setDefault", "homog2d.hpp: img::DrawParams::resetDefault", "homog2d.hpp: img::DrawParams::setPointSize", "homog2d.hpp: Dp_values::nextPointStyle"]}
{"id": "C60", "title": "Lines that compare equal are close", "statement": "If l1==l2, the two lines are the same line up to the documented tolerances (angle and offset); two constructions of the same line compare equal.", "quantifier": "all lines", "why_tests_cant": "The input space (all coordinates) is infinite; a unit test samples finitely many configurations and cannot exclude a bad one. Failing family: near-horizontal lines, mirror images of each other.", "anchors": ["homog2d.hpp: LPBase::impl_op_equal", "homog2d.hpp: LPBase::impl_isParallelTo", "homog2d.hpp: LPBase::impl_normalize"]}
{"id": "C61", "title": "Centroid of a polygon follows the polygon", "statement": "The centroid of a polygon does not depend on the starting vertex or direction, follows translations, rotations and scalings of the polygon, is the mean of the vertices for a triangle, and is the area-weighted mean of the parts when the polygon is cut along a diagonal.", "quantifier": "all polygons with a non-zero area", "why_tests_cant": "The input space (all coordinates) is infinite; a unit test samples finitely many configurations and cannot exclude a bad one.", "anchors": ["homog2d.hpp: PolylineBase::centroid"]}
{"id": "C62", "title": "Homography from four point pairs", "statement": "buildFrom4Points() gives a homography that maps each of the four source points to the corresponding destination point (when the linear solver returns a solution of the system it is given).", "quantifier": "all sets of four pairs of points", "why_tests_cant": "The input space (all coordinates) is infinite; a unit test samples finitely many configurations and cannot exclude a bad one.", "anchors": ["homog2d.hpp: detail::buildFrom4Points_Eigen", "homog2d.hpp: Hmatrix_::buildFrom4Points"]}
{"id": "C63", "title": "Distance between parallel lines", "statement": "For two lines accepted by isParallelTo(), getParallelDistance() returns a number; for two parallel lines it is the distance between any point of one of them and the other.", "quantifier": "all pairs of lines and all thresholds", "why_tests_cant": "The input space (all coordinates) is infinite; a unit test samples finitely many configurations and cannot exclude a bad one. Failing family: nearly vertical lines leaning on different sides.", "anchors": ["homog2d.hpp: getParallelDistance", "homog2d.hpp: LPBase::isParallelTo"]}
{"id": "C64", "title": "Side of a line", "statement": "side(pt,line) is 0 exactly when pt is closer to the line than the null distance; two points with opposite sides are separated by the line, and the line does not meet the segment between two points with the same non-null side.", "quantifier": "all lines and pairs of points", "why_tests_cant": "The input space (all coordinates) is infinite; a unit test samples finitely many configurations and cannot exclude a bad one.", "anchors": ["homog2d.hpp: side"]}
{"id": "C65", "title": "Coordinate of a point of a line", "statement": "line.getCoord(X,x) is the y of the only point of the line at abscissa x (and likewise with Y); it throws exactly when the line is parallel to that axis, within the threshold.", "quantifier": "all lines and values", "why_tests_cant": "The input space (all coordinates) is infinite; a unit test samples finitely many configurations and cannot exclude a bad one.", "anchors": ["homog2d.hpp: LPBase::getCoord"]}
{"id": "C66", "title": "Segment/circle intersection", "statement": "segment.intersects(circle) reports exactly the common points of the segment and the circle.", "quantifier": "all segments and circles", "why_tests_cant": "The input space (all coordinates) is infinite; a unit test samples finitely many configurations and cannot exclude a bad one. Failing family: one end on the circle, the other one outside.", "anchors": ["homog2d.hpp: SegVec::intersects(Circle)", "homog2d.hpp: detail::getPtLabel"]}
{"id": "C67", "title": "Extended segment", "statement": "getExtended() returns a segment on the same line, with the same middle point and three times the length.", "quantifier": "all segments, whatever the way they were obtained", "why_tests_cant": "The property ranges over all finite call histories on an object; tests exercise a handful of short sequences.", "anchors": ["homog2d.hpp: SegVec::getExtended"]}
{"id": "C68", "title": "Collinearity of three points", "statement": "areCollinear(p1,p2,p3) is true exactly when two of the points are equal or the height of the triangle over its longest side is below the null distance; it does not depend on the order of the points.", "quantifier": "all triples of points", "why_tests_cant": "The input space (all coordinates) is infinite; a unit test samples finitely many configurations and cannot exclude a bad one.", "anchors": ["homog2d.hpp: areCollinear", "homog2d.hpp: priv::getLargestDistancePoints"]}
{"id": "C69", "title": "Segment/line intersection", "statement": "segment.intersects(line) is sound (the point is on the line and within the null distance of the segment) and complete (a common point of a non-parallel segment and line is reported).", "quantifier": "all segments and lines", "why_tests_cant": "The input space (all coordinates) is infinite; a unit test samples finitely many configurations and cannot exclude a bad one.", "anchors": ["homog2d.hpp: SegVec::intersects(Line2d)"]}
{"id": "C70", "title": "Bisector of a segment", "statement": "The line returned by getBisector() is the set of the points at equal distance from both ends.", "quantifier": "all segments and points", "why_tests_cant": "The input space (all coordinates) is infinite; a unit test samples finitely many configurations and cannot exclude a bad one.", "anchors": ["homog2d.hpp: SegVec::getBisector"]}
{"id": "C71", "title": "Orthogonal points of a segment", "statement": "The four points returned by getOrthogPts() are at the distance of the length of the segment from their end, in a perpendicular direction, two on each side.", "quantifier": "all segments", "why_tests_cant": "The input space (all coordinates) is infinite; a unit test samples finitely many configurations and cannot exclude a bad one.", "anchors": ["homog2d.hpp: SegVec::getOrthogPts"]}
{"id": "C72", "title": "Translation of an ellipse", "statement": "ellipse.translate(dx,dy) and moveTo() keep the half axes and move the curve: the new center is the moved one, and a point is inside the new ellipse exactly when the point moved back is inside the old one.", "quantifier": "all ellipses and displacements", "why_tests_cant": "The input space (all coordinates) is infinite; a unit test samples finitely many configurations and cannot exclude a bad one. Failing family: major axis vertical.", "anchors": ["homog2d.hpp: Ellipse_::translate", "homog2d.hpp: Ellipse_::moveTo", "homog2d.hpp: Ellipse_::p_init", "homog2d.hpp: Ellipse_::p_computeParams"]}
{"id": "C73", "title": "Bounding box of a circle", "statement": "circle.getBB() is the smallest axis-aligned rectangle holding the disc; it is refused only for a diameter below the null distance.", "quantifier": "all circles", "why_tests_cant": "The input space (all coordinates) is infinite; a unit test samples finitely many configurations and cannot exclude a bad one.", "anchors": ["homog2d.hpp: Circle_::getBB", "homog2d.hpp: FRect_::FRect_"]}
{"id": "C74", "title": "Point inside a polygon", "statement": "point.isInside(cpolyline) is true exactly when the point is inside the simple polygon (even-odd rule: a half line from the point crosses the contour an odd number of times) and not closer to the contour than the null distance; an answer is given for every point.", "quantifier": "all simple closed polylines (any number of vertices, convex or not) and all points", "why_tests_cant": "The input space (all coordinates) is infinite; a unit test samples finitely many configurations and cannot exclude a bad one.", "anchors": ["homog2d.hpp: Point2d::isInside(PolylineBase)", "homog2d.hpp: LPBase::impl_isInsidePoly"]}
{"id": "C75", "title": "Bounding box of containers of segments, rectangles, circles or polylines", "statement": "getBB() of a container of segments, of rectangles, of circles or of polylines is the smallest axis-aligned rectangle that holds all the elements; it throws exactly for an empty container or when the whole extent is under the thresholds.", "quantifier": "all containers, of any size", "why_tests_cant": "The input space (all coordinates) is infinite; a unit test samples finitely many configurations and cannot exclude a bad one.", "anchors": ["homog2d.hpp: getBB( const T& )", "homog2d.hpp: priv::getBB_Segments", "homog2d.hpp: priv::getBB_FRect", "homog2d.hpp: PolylineBase::getBB"]}
{"id": "C76", "title": "Containment in a circle, a rectangle or an ellipse covers the whole object", "statement": "isInside() of a segment, a non-empty polyline or a rectangle, with respect to a circle, a rectangle or an ellipse, returns true exactly when every point of the object (not only its vertices) is strictly inside the shape; an empty polyline is inside nothing.", "quantifier": "all segments, polylines and rectangles, all circles, rectangles and ellipses", "why_tests_cant": "The input space (all coordinates) is infinite; a unit test samples finitely many configurations and cannot exclude a bad one.", "anchors": ["homog2d.hpp: SegVec::isInside", "homog2d.hpp: FRect_::isInside", "homog2d.hpp: PolylineBase::isInside", "homog2d.hpp: LPBase::isInside", "homog2d.hpp: Ellipse_::pointIsInside"]}
{"id": "C77", "title": "A circle is said inside a polygon exactly when its disk is", "statement": "Circle::isInside( polygon ) returns true exactly when all the points of the disk are inside the (simple) polygon by the even-odd rule, and none on its contour; nothing is inside an open or non-simple polyline.", "quantifier": "all simple polygons, all circles", "why_tests_cant": "The input space (all coordinates) is infinite; a unit test samples finitely many configurations and cannot exclude a bad one.", "anchors": ["homog2d.hpp: Circle_::isInside( PolylineBase )", "homog2d.hpp: PolylineBase::intersects"]}
{"id": "C78", "title": "Segments, polylines and rectangles inside a polygon", "statement": "isInside( polygon ) of a segment, polyline or rectangle returns true only if every point of the object is inside the polygon by the even-odd rule and off its contour, and false only if some point is outside, or closer to the contour than the null distance.", "quantifier": "all simple polygons, all segments, polylines (open or closed) and rectangles", "why_tests_cant": "The input space (all coordinates) is infinite; a unit test samples finitely many configurations and cannot exclude a bad one.", "anchors": ["homog2d.hpp: SegVec::isInside( CPolyline_ )", "homog2d.hpp: PolylineBase::isInside( CPolyline_ )", "homog2d.hpp: FRect_::isInside( CPolyline_ )"]}
{"id": "C79", "title": "Intersections of a polyline are those of its segments", "statement": "intersects() of a polyline with a segment, a line, a circle or another polyline gives the common points of their edges, whatever the number of edges; for two polylines the order does not matter.", "quantifier": "all polylines, segments, lines, circles", "why_tests_cant": "The input space (all coordinates) is infinite; a unit test samples finitely many configurations and cannot exclude a bad one.", "anchors": ["homog2d.hpp: PolylineBase::intersects", "homog2d.hpp: SegVec::intersects"]}
{"id": "C80", "title": "Intersections of a rectangle with a line, a circle, a rectangle", "statement": "`rect.intersects(line)` gives at most two points, all on the line and on the contour (up to half the null distance), and gives exactly the common points of the line and the contour unless the line passes by a corner. `rect.intersects(circle)` gives exactly the common points of the circle and the contour, sorted and without repetition. `r1.intersects(r2)` gives exactly the points where sides of both rectangles cross, sorted, without repetition, and does not depend on the order of the rectangles.", "quantifier": "all rectangles with sides not below the null distance, all lines, circles, pairs of rectangles", "why_tests_cant": "The input space (all coordinates) is infinite; a unit test samples finitely many configurations and cannot exclude a bad one.", "anchors": ["homog2d.hpp: FRect_::intersects", "homog2d.hpp: LPBase::impl_intersectsFRect", "homog2d.hpp: FRect_::p_intersects_R_C"]}
{"id": "C81", "title": "Circles and diagonals of a rectangle", "statement": "`getBoundingCircle()` passes through the four corners and is the smallest circle that contains the rectangle; `getInscribedCircle()` is centered in the rectangle, inside it, and no disk inside the rectangle is larger; `getDiagonals()` joins opposite corners, both diagonals have the same length and the center of the rectangle as middle.", "quantifier": "all rectangles", "why_tests_cant": "The input space (all coordinates) is infinite; a unit test samples finitely many configurations and cannot exclude a bad one.", "anchors": ["homog2d.hpp: FRect_::getBoundingCircle", "homog2d.hpp: FRect_::getInscribedCircle", "homog2d.hpp: FRect_::getDiagonals", "homog2d.hpp: FRect_::getCenter"]}
{"id": "C82", "title": "Regular polygons", "statement": "`set( rad, n )` builds the regular convex polygon with n vertices at distance `rad` from the origin, each one being the image of the previous one by the rotation of 2 pi / n; the first returned value is the length of each edge, the second one is the radius of the inscribed circle. It throws exactly for n < 3, a radius that is not positive, or vertices that would be equal for the library.", "quantifier": "all radii, all numbers of points", "why_tests_cant": "The input space (all coordinates) is infinite; a unit test samples finitely many configurations and cannot exclude a bad one.", "anchors": ["homog2d.hpp: PolylineBase::set(rad,n)"]}
{"id": "C83", "title": "Parallelograms", "statement": "`setParallelogram( p1, p2, p3 )` builds the polygon p1, p2, p3, p1 + p3 - p2, and throws exactly when p2 is equal to p1 or p3 or when the sides are parallel, for the library.", "quantifier": "all triples of points", "why_tests_cant": "The input space (all coordinates) is infinite; a unit test samples finitely many configurations and cannot exclude a bad one.", "anchors": ["homog2d.hpp: PolylineBase::setParallelogram", "homog2d.hpp: LPBase::getParallelLine"]}
{"id": "C84", "title": "The angle between two oriented segments is the rotation from one direction to the other", "statement": "getAngle() between two oriented segments is the only angle in (-pi,pi] whose rotation takes the direction of the first segment to the direction of the second one. Exchanging the segments changes its sign, except for opposite directions where it is pi both times. It is 0 exactly for equal directions.", "quantifier": "all pairs of oriented segments of non null length", "why_tests_cant": "The input space (all coordinates) is infinite; a unit test samples finitely many configurations and cannot exclude a bad one.", "anchors": ["homog2d.hpp: getAngle", "homog2d.hpp: OSegment_::getAngle", "homog2d.hpp: getVector"]}
{"id": "C85", "title": "A rotated line is the image of the line by the rotation about the point", "statement": "getRotatedLine( pt, theta ) throws exactly when the point is not on the line, and else returns the line whose points are the images of the points of the line by the rotation of angle theta about the point.", "quantifier": "all lines, points and angles", "why_tests_cant": "The input space (all coordinates) is infinite; a unit test samples finitely many configurations and cannot exclude a bad one.", "anchors": ["homog2d.hpp: LPBase::getRotatedLine"]}
{"id": "C86", "title": "Bisector lines of a polyline bisect the angle at every vertex", "statement": "getBisectorLines() returns one line for each vertex of a closed polyline, one for each vertex but the two ends of an open one, in the order of the vertices; each goes through its vertex and along the sum of the unit directions of the two edges (perpendicular to the edges when these are opposite). It throws for less than 3 points.", "quantifier": "all polylines of any size, open and closed", "why_tests_cant": "The input space (all coordinates) is infinite; a unit test samples finitely many configurations and cannot exclude a bad one.", "anchors": ["homog2d.hpp: getBisectorLines", "homog2d.hpp: LPBase::getRotatedLine", "homog2d.hpp: OSegment_::operator -"]}
{"id": "C87", "title": "Tangent segments join the contact points of the two outer tangents", "statement": "getTanSegs( c1, c2 ) returns two segments, one on each side of the line through the centers, whose ends are on the circles and perpendicular to the radius there, both circles being on the same side of the segment. When such tangents do not exist (one circle inside the other one) it throws.", "quantifier": "all pairs of circles", "why_tests_cant": "The input space (all coordinates) is infinite; a unit test samples finitely many configurations and cannot exclude a bad one.", "anchors": ["homog2d.hpp: getTanSegs", "homog2d.hpp: Circle_::operator =="]}
{"id": "C88", "title": "Offset polygon", "statement": "For a simple closed polyline and a distance that is not null, the offset polyline has, for each vertex, a point at this distance from the lines of both edges at the vertex, outside for a positive distance and inside for a negative one; it does not depend on the first vertex nor on the direction; with the option for angles, corners are cut so that no new point is farther from its vertex than sqrt(2) times the distance; on failure an empty polyline is returned; the source object is not changed.", "quantifier": "all closed polylines of any size, all distances, with and without the option", "why_tests_cant": "The input space (all coordinates) is infinite; a unit test samples finitely many configurations and cannot exclude a bad one.", "anchors": ["homog2d.hpp: PolylineBase::getOffsetPoly", "homog2d.hpp: OffsetPolyParams"]}
{"id": "C89", "title": "Axes and oriented box of an ellipse", "statement": "The axis lines of an ellipse go through its center along its major and minor axes. Its oriented bounding box is a rectangle with the lengths of the axes, centered on the ellipse and aligned with it, and holds all its points.", "quantifier": "all centers, semi-axes and angles; all points of the ellipse", "why_tests_cant": "The input space (all coordinates) is infinite; a unit test samples finitely many configurations and cannot exclude a bad one.", "anchors": ["homog2d.hpp: Ellipse_::getAxisLines", "homog2d.hpp: Ellipse_::getOBB"]}
{"id": "C90", "title": "Segments perpendicular to a segment", "statement": "getOrthogSegs() gives four segments of the same length as the segment, perpendicular to it, two at each end and one on each side. It throws exactly for segments of null length.", "quantifier": "all segments and thresholds", "why_tests_cant": "The input space (all coordinates) is infinite; a unit test samples finitely many configurations and cannot exclude a bad one.", "anchors": ["homog2d.hpp: SegVec::getOrthogSegs"]}
{"id": "C91", "title": "Points inside a shape", "statement": "getPtsInside() returns exactly the points of the vector that are strictly inside the shape, in the same order.", "quantifier": "all vectors of points, of any length; all circles, rectangles, ellipses, polygons", "why_tests_cant": "The input space (all coordinates) is infinite; a unit test samples finitely many configurations and cannot exclude a bad one.", "anchors": ["homog2d.hpp: getPtsInside"]}
{"id": "C92", "title": "Arrow of an oriented segment", "statement": "The arrow drawn for an oriented segment has a bar of half-length 8 across the first end, and a head made of two lines that end at the second end and start 8 before it and 8 on each side.", "quantifier": "all oriented segments and thresholds", "why_tests_cant": "The input space (all coordinates) is infinite; a unit test samples finitely many configurations and cannot exclude a bad one.", "anchors": ["homog2d.hpp: priv::getArrowSegments"]}
{"id": "C93", "title": "Drawing of a line", "statement": "Drawing a line on an image draws exactly the part of the line that is in the image, and nothing if there is none.", "quantifier": "all lines, all image sizes above 2 x 2", "why_tests_cant": "The input space (all coordinates) is infinite; a unit test samples finitely many configurations and cannot exclude a bad one.", "anchors": ["homog2d.hpp: base::LPBase::impl_draw_LP", "homog2d.hpp: LPBase::intersects"]}
{"id": "C94", "title": "SVG files: what is drawn is what is imported", "statement": "A file written from drawn circles, rectangles, segments, polylines and ellipses gives back, when it is imported, the same shapes with the same values in the same order, up to the digits of the numbers; other elements of the file have no effect, and the size of the image can be read back.", "quantifier": "all sequences of shapes and drawing parameters, of any length; all number formats; all image sizes", "why_tests_cant": "The input space (all coordinates) is infinite; a unit test samples finitely many configurations and cannot exclude a bad one.", "anchors": ["homog2d.hpp: img::Image::write", "homog2d.hpp: Circle_::draw", "homog2d.hpp: FRect_::draw", "homog2d.hpp: Ellipse_::draw", "homog2d.hpp: SegVec::draw", "homog2d.hpp: PolylineBase::draw", "homog2d.hpp: svg::Visitor::VisitExit", "homog2d.hpp: svg::getEllipseRotateAttr", "homog2d.hpp: svg::getImgSize"]}
{"id": "C95", "title": "Symbols of points", "statement": "Drawing a point draws nothing if it is outside of the image, otherwise a symbol of the chosen style, symmetric around the point and of the chosen size: plus, times and star have strokes whose middle is the point, diamond and square are closed contours, dot is a circle. It succeeds whatever the history of the drawing parameters is.", "quantifier": "all points, image sizes, styles, and histories of drawing parameters", "why_tests_cant": "The property ranges over all finite call histories on an object; tests exercise a handful of short sequences.", "anchors": ["homog2d.hpp: detail::drawPt", "homog2d.hpp: base::LPBase::impl_draw_LP", "homog2d.hpp: img::DrawParams"]}
{"id": "C96", "title": "SVG files can be parsed", "statement": "A file written after any sequence of drawings is well formed: the elements that were opened are closed, in the right order.", "quantifier": "all sequences of drawings of any objects with any parameters", "why_tests_cant": "The property ranges over all finite call histories on an object; tests exercise a handful of short sequences.", "anchors": ["homog2d.hpp: img::Image::write", "homog2d.hpp: SegVec::draw", "homog2d.hpp: PolylineBase::draw", "homog2d.hpp: Ellipse_::draw"]}
{"id": "C97", "title": "Attributes given by the user in SVG files", "statement": "With attributes given by the user as a string, each drawn element has its attributes only once, holds the ones of the user, and is not filled unless the user says so.", "quantifier": "all lists of attributes, all drawn objects", "why_tests_cant": "The input space (all coordinates) is infinite; a unit test samples finitely many configurations and cannot exclude a bad one.", "anchors": ["homog2d.hpp: img::DrawParams::setAttrString", "homog2d.hpp: img::DrawParams::holdsFill", "homog2d.hpp: img::DrawParams::getAttrString"]}
{"id": "C98", "title": "Lines given by other data", "statement": "A line gives its point with a given coordinate, the two points around it at a distance, and the orthogonal line through it; a line built from one point or two numbers goes through the origin and the point, from four numbers through both points, from a direction and a point is vertical or horizontal through it; the product of two segments is on both supporting lines.", "quantifier": "all lines, coordinates, distances, points and segments", "why_tests_cant": "The input space (all coordinates) is infinite; a unit test samples finitely many configurations and cannot exclude a bad one.", "anchors": ["homog2d.hpp: base::LPBase::getPoint(GivenCoord)", "homog2d.hpp: base::LPBase::getPoints(GivenCoord)", "homog2d.hpp: base::LPBase::getOrthogLine(GivenCoord)", "homog2d.hpp: base::LPBase::LPBase", "homog2d.hpp: base::LPBase::p_init_2", "homog2d.hpp: base::LPBase::impl_init_or", "homog2d.hpp: operator *"]}
{"id": "C99", "title": "Results of intersections are consistent", "statement": "In the result of an intersection, the flag, the number of points and the points agree; reading the points fails exactly when there are none; a conversion to another type of numbers keeps the result. A list of intersection points holds the points given, sorted, whatever the order they were given in and whatever was read before.", "quantifier": "all lines and circles; all histories of additions, readings and conversions", "why_tests_cant": "The property ranges over all finite call histories on an object; tests exercise a handful of short sequences.", "anchors": ["homog2d.hpp: Intersect::get", "homog2d.hpp: Intersect::size", "homog2d.hpp: IntersectM::get", "homog2d.hpp: IntersectM::add", "homog2d.hpp: Circle_::intersects"]}
{"id": "C100", "title": "Editing a circle", "statement": "Whatever operations are applied to a circle, an operation that fails leaves it unchanged, its radius stays valid, moves keep the radius and give the expected centre, and an operation that gives a whole circle does not depend on what was done before.", "quantifier": "all histories of operations on a circle, of any length, including failed ones and the construction of other circles", "why_tests_cant": "The property ranges over all finite call histories on an object; tests exercise a handful of short sequences.", "anchors": ["homog2d.hpp: Circle_::set", "homog2d.hpp: Circle_::translate", "homog2d.hpp: Circle_::moveTo", "homog2d.hpp: Circle_::radius", "homog2d.hpp: Circle_::center"]}
{"id": "C101", "title": "Distances computed with rounding", "statement": "With rounded arithmetic the distance between points is exactly symmetric, null only for identical coordinates and right up to a known relative error; comparisons with a threshold (equality of points, point in circle) are right unless the exact distance is closer to the threshold than this error; the nearest point found is nearest up to this error.", "quantifier": "all points, radii, thresholds, lists of points; all values of the coordinates; all arithmetics meeting the hypotheses on the rounding (among them IEEE rounding to nearest with any number of bits)", "why_tests_cant": "The input space (all coordinates) is infinite; a unit test samples finitely many configurations and cannot exclude a bad one.", "anchors": ["homog2d.hpp: base::LPBase::distTo", "homog2d.hpp: priv::sqDist", "homog2d.hpp: base::LPBase::isInside(Circle_)", "homog2d.hpp: findNearestPoint"]}
{"id": "C102", "title": "Length of a polyline computed with rounding", "statement": "With rounded arithmetic the length of a polyline is never negative, is null only when all segments are, and its relative error grows at most with the number of segments.", "quantifier": "all polylines, of any size; all values of the coordinates; all arithmetics meeting the hypotheses on the rounding (among them IEEE rounding to nearest with any number of bits)", "why_tests_cant": "The input space (all coordinates) is infinite; a unit test samples finitely many configurations and cannot exclude a bad one.", "anchors": ["homog2d.hpp: base::PolylineBase::length"]}
{"id": "C103", "title": "Area of a polygon computed with rounding", "statement": "With rounded arithmetic the signed area of a polygon, hence its direction, is right for coordinates that are small integers, and in general when the area is not small compared with the products of the coordinates.", "quantifier": "all polygons, of any size; all values of the coordinates; all arithmetics meeting the hypotheses on the rounding (among them IEEE rounding to nearest with any number of bits)", "why_tests_cant": "The input space (all coordinates) is infinite; a unit test samples finitely many configurations and cannot exclude a bad one.", "anchors": ["homog2d.hpp: base::PolylineBase::p_ComputeSignedArea", "homog2d.hpp: base::PolylineBase::area"]}
{"id": "C104", "title": "Orientation and convexity computed with rounding", "statement": "With rounded arithmetic the turn at a vertex, the side of a segment, the orientation used by the convex hull and the convexity of a polygon are right for coordinates that are integers below a bound, and in general when no turn is small compared with the products of which it is the difference.", "quantifier": "all triples of points, all polygons of any size; all values of the coordinates; all arithmetics meeting the hypotheses on the rounding (among them IEEE rounding to nearest with any number of bits)", "why_tests_cant": "The input space (all coordinates) is infinite; a unit test samples finitely many configurations and cannot exclude a bad one.", "anchors": ["homog2d.hpp: base::PolylineBase::isConvex", "homog2d.hpp: priv::chull::orientation", "homog2d.hpp: base::SegVec::getPointSide", "homog2d.hpp: detail::crossProductV"]}
{"id": "C105", "title": "Boxes, centres and translations computed with rounding", "statement": "With rounded arithmetic, the centre of a segment or rectangle is never outside of it; sizes of a rectangle have a small relative error and are null only if its corners coincide; translations keep inclusion; the bounding box of a circle contains its centre and is exact up to one rounding.", "quantifier": "all segments, rectangles, circles, translations; all values of the coordinates; all arithmetics meeting the hypotheses on the rounding (among them IEEE rounding to nearest with any number of bits)", "why_tests_cant": "The input space (all coordinates) is infinite; a unit test samples finitely many configurations and cannot exclude a bad one.", "anchors": ["homog2d.hpp: base::SegVec::getCenter", "homog2d.hpp: FRect_::getCenter", "homog2d.hpp: FRect_::width", "homog2d.hpp: FRect_::area", "homog2d.hpp: FRect_::length", "homog2d.hpp: FRect_::translate", "homog2d.hpp: Circle_::getBB"]}
{"id": "C106", "title": "Lines through two points computed with rounding", "statement": "With rounded arithmetic, the line through two points does not depend on their order, fails only for equal points, is normalised up to a known error, and goes through both points up to a distance of 16 u M\u00b2/d (u: unit of rounding, M: bound on the coordinates, d: distance of the points).", "quantifier": "all pairs of points; all values of the coordinates; all arithmetics meeting the hypotheses on the rounding (among them IEEE rounding to nearest with any number of bits)", "why_tests_cant": "The input space (all coordinates) is infinite; a unit test samples finitely many configurations and cannot exclude a bad one.", "anchors": ["homog2d.hpp: base::LPBase::p_init_2", "homog2d.hpp: detail::crossProduct", "homog2d.hpp: base::LPBase::impl_normalize"]}
{"id": "C107", "title": "Homographies computed with rounding", "statement": "With rounded arithmetic, applying a homography or multiplying two gives each value up to a relative error of the sum of absolute values; affine transformations give the coordinates with the same error; the identity does not change points and a translation matrix gives the rounding of the exact result.", "quantifier": "all matrices, points; all values of the coordinates; all arithmetics meeting the hypotheses on the rounding (among them IEEE rounding to nearest with any number of bits)", "why_tests_cant": "The input space (all coordinates) is infinite; a unit test samples finitely many configurations and cannot exclude a bad one.", "anchors": ["homog2d.hpp: detail::product", "homog2d.hpp: operator *", "homog2d.hpp: base::LPBase::getX"]}
{"id": "C108", "title": "Distance to a line computed with rounding", "statement": "With rounded arithmetic, the distance between a line and a point is never negative and is right up to a relative error of the sum of the absolute values of the terms.", "quantifier": "all lines and points; all values of the coordinates; all arithmetics meeting the hypotheses on the rounding (among them IEEE rounding to nearest with any number of bits)", "why_tests_cant": "The input space (all coordinates) is infinite; a unit test samples finitely many configurations and cannot exclude a bad one.", "anchors": ["homog2d.hpp: base::LPBase::distTo"]}
{"id": "C109", "title": "Line/circle intersection computed with rounding", "statement": "With rounded arithmetic, intersecting a line and a circle never gives NaN; the decision is right unless the radius and the distance of the centre are closer than a known error; both points returned are within 48 u M of the circle and of the line (u: unit of rounding, M: bound on the centre and the radius), also near tangency.", "quantifier": "all lines, circles; all values of the coordinates; all arithmetics meeting the hypotheses on the rounding (among them IEEE rounding to nearest with any number of bits)", "why_tests_cant": "The input space (all coordinates) is infinite; a unit test samples finitely many configurations and cannot exclude a bad one.", "anchors": ["homog2d.hpp: base::LPBase::intersects(Circle_)"]}
{"id": "C110", "title": "Distance to a segment computed with rounding", "statement": "With rounded arithmetic, the distance between a segment and a point is a number, off by at most 72 u M from the shortest distance, also when the region (before, along, after the segment) is not the right one; the region is right unless the projection is close to an end.", "quantifier": "all segments with different ends, all points; all values of the coordinates; all arithmetics meeting the hypotheses on the rounding (among them IEEE rounding to nearest with any number of bits)", "why_tests_cant": "The input space (all coordinates) is infinite; a unit test samples finitely many configurations and cannot exclude a bad one.", "anchors": ["homog2d.hpp: base::SegVec::distTo"]}
{"id": "C111", "title": "Convex hull computed with rounding", "statement": "With rounded arithmetic, the convex hull of points with integer coordinates below a bound is exactly the convex hull; beyond the bound the comparison given to std::sort is not a strict weak ordering, which is undefined behaviour.", "quantifier": "all lists of points with integer coordinates, any size; all numbers of bits, any correct std::sort", "why_tests_cant": "The input space (all coordinates) is infinite; a unit test samples finitely many configurations and cannot exclude a bad one.", "anchors": ["homog2d.hpp: convexHull", "homog2d.hpp: priv::chull::sortPoints", "homog2d.hpp: priv::chull::orientation"]}
{"id": "C112", "title": "Angle and parallelism of lines computed with rounding", "statement": "With rounded arithmetic, the angle of two lines is a number between 0 and pi/2, symmetric, with an error of at most pi*sqrt(11u/2) and the error of acos; lines are declared parallel, or not, as their exact angle says unless it is that close to the threshold.", "quantifier": "all pairs of lines with a direction; all thresholds; all acos functions with a relative error; all values of the coordinates; all arithmetics meeting the hypotheses on the rounding (among them IEEE rounding to nearest with any number of bits)", "why_tests_cant": "The input space (all coordinates) is infinite; a unit test samples finitely many configurations and cannot exclude a bad one.", "anchors": ["homog2d.hpp: base::LPBase::getAngle", "homog2d.hpp: base::LPBase::isParallelTo"]}
{"id": "C113", "title": "Circle/circle intersection computed with rounding", "statement": "With rounded arithmetic, circles that do not intersect give nothing, circles that do give points near both of them, on both sides of the line of the centres; coordinates are never NaN.", "quantifier": "all pairs of circles with different centres; all values of the coordinates; all arithmetics meeting the hypotheses on the rounding (among them IEEE rounding to nearest with any number of bits)", "why_tests_cant": "The input space (all coordinates) is infinite; a unit test samples finitely many configurations and cannot exclude a bad one.", "anchors": ["homog2d.hpp: Circle_::intersects(Circle_)"]}
{"id": "C114", "title": "Length of an ellipse", "statement": "The value given by length() differs from the length of the curve (integral of the speed) by at most pi (a+b) h^2 / (8 (4-h)) with h = ((a-b)/(a+b))^2, and always by at most a thirtieth of it, whatever the position, the angle and the order of the half axes.", "quantifier": "all centers, angles and positive half axes of ellipses that are not refused as too small", "why_tests_cant": "The input space (all coordinates) is infinite; a unit test samples finitely many configurations and cannot exclude a bad one.", "anchors": ["homog2d.hpp: Ellipse_::length"]}
{"id": "C115", "title": "Intersection point of two lines with rounding", "statement": "With rounded operations, the product of two lines throws exactly for lines that are declared parallel; otherwise both coordinates are finite numbers within 6 u (C + |x|) / s of those of the exact intersection point (s: sine of the angle of the lines, C: their distance to the origin), and the outcome is the same, bit for bit, when the lines are exchanged.", "quantifier": "all lines, all roundings with relative error u, all thresholds", "why_tests_cant": "The input space (all coordinates) is infinite; a unit test samples finitely many configurations and cannot exclude a bad one.", "anchors": ["homog2d.hpp: operator *", "homog2d.hpp: detail::crossProduct", "homog2d.hpp: LPBase::getX", "homog2d.hpp: LPBase::getY", "homog2d.hpp: LPBase::isParallelTo"]}
{"id": "C116", "title": "Intersection of two segments with rounding", "statement": "With rounded operations, two segments that cross are found to intersect, and the point returned is within 150 u M^2 / (L S) of the exact one (M: size of the coordinates, L: smallest length, S: sine of the angle); a point returned is always that near to both segments, up to the null distance; the outcome does not depend on the order of the segments.", "quantifier": "all pairs of segments with floating-point coordinates that are not too short or too flat for the precision, all roundings, all thresholds", "why_tests_cant": "The input space (all coordinates) is infinite; a unit test samples finitely many configurations and cannot exclude a bad one.", "anchors": ["homog2d.hpp: SegVec::intersects", "homog2d.hpp: priv::", "homog2d.hpp: SegVec::getLine", "homog2d.hpp: LPBase::isParallelTo"]}
{"id": "C117", "title": "Nearest, farthest and closest points with rounding", "statement": "With rounded operations, the nearest-point search returns a point different from the query such that no other one is nearer by more than the relative amount 5 u; the farthest-point search likewise; the combined search returns the same indexes as the two searches; the closest points of two polylines are a pair such that no other pair is nearer by more than the relative amount 3 (u + v), and the distance reported is theirs up to the error of one distance.", "quantifier": "all containers of any size, all query points, all roundings with relative error u (v for hypot), all thresholds", "why_tests_cant": "The input space (all coordinates) is infinite; a unit test samples finitely many configurations and cannot exclude a bad one.", "anchors": ["homog2d.hpp: findNearestPoint", "homog2d.hpp: findFarthestPoint", "homog2d.hpp: findNearestFarthestPoint", "homog2d.hpp: getClosestPoints", "homog2d.hpp: priv::sqDist"]}
{"id": "C118", "title": "Simple polygons: when the answer is right", "statement": "isSimple() tells whether a closed polyline of three points or more has no two edges without common vertex that have a common point; it gives an answer, without exception, when no edge is shorter than the null distance; a polyline of less than three points or an open one is not a polygon; the centroid is given exactly for the polylines said to be simple.", "quantifier": "all polylines, any number of points, all thresholds", "why_tests_cant": "The input space (all coordinates) is infinite; a unit test samples finitely many configurations and cannot exclude a bad one.", "anchors": ["homog2d.hpp: PolylineBase::isSimple", "homog2d.hpp: PolylineBase::getSegment", "homog2d.hpp: SegVec::intersects"]}
{"id": "C119", "title": "Simple polygons with rounding", "statement": "With rounded operations, isSimple() gives an answer for all polygons whose edges are not shorter than twice the null distance; the answer is yes when the edges without common vertex are far enough apart, and no when two of them touch or cross, with an angle and lengths large enough for the precision.", "quantifier": "all polygons, any number of points, all roundings with relative error u (v for hypot, w for acos), all thresholds", "why_tests_cant": "The input space (all coordinates) is infinite; a unit test samples finitely many configurations and cannot exclude a bad one.", "anchors": ["homog2d.hpp: PolylineBase::isSimple", "homog2d.hpp: PolylineBase::getSegment", "homog2d.hpp: SegVec::intersects"]}
{"id": "C120", "title": "Colors and labels in SVG files", "statement": "All the elements written in a SVG file for an object, other than texts, have the color and the line thickness of its drawing parameters, and two colors give two different texts; a text is written at its point, with the size and color of the parameters; the labels of a polyline are one per point for the indexes, at the points up to truncation, and one per angle for the angles.", "quantifier": "all objects, all drawing parameters and histories of them, all images, polylines of any size", "why_tests_cant": "The property ranges over all finite call histories on an object; tests exercise a handful of short sequences.", "anchors": ["homog2d.hpp: Circle_::draw", "homog2d.hpp: FRect_::draw", "homog2d.hpp: SegVec::draw", "homog2d.hpp: PolylineBase::draw", "homog2d.hpp: Ellipse_::draw", "homog2d.hpp: getSvgRgbColor", "homog2d.hpp: drawText", "homog2d.hpp: DrawParams::setColor"]}
{"id": "C121", "title": "Centroid with rounding", "statement": "With rounded operations, the centroid of a simple polygon of n points, with coordinates up to M and area A, is within n\u00b2 u M\u00b2 (4 M + 7 |c|) / |A| of the exact one (coordinate by coordinate); the function throws exactly when the polygon is not taken as simple.", "quantifier": "all polygons, any number of points with n u at most 1/50, all roundings with relative error u, all thresholds", "why_tests_cant": "The input space (all coordinates) is infinite; a unit test samples finitely many configurations and cannot exclude a bad one.", "anchors": ["homog2d.hpp: PolylineBase::centroid", "homog2d.hpp: PolylineBase::p_ComputeSignedArea"]}
{"id": "C122", "title": "Errors in SVG files are reported", "statement": "Importing an SVG file either gives shapes or throws an exception; an element with a missing attribute, with a number that cannot be read, or an ellipse whose rotation is not of the form rotate(a,x,y), is refused by an exception; the size of the image is given exactly when the root element has both values.", "quantifier": "all files, all elements and attributes, all ways of reading numbers, all thresholds", "why_tests_cant": "The input space (all coordinates) is infinite; a unit test samples finitely many configurations and cannot exclude a bad one.", "anchors": ["homog2d.hpp: Visitor::VisitExit", "homog2d.hpp: getAttribValue", "homog2d.hpp: getAttribString", "homog2d.hpp: importSvgPoints", "homog2d.hpp: getEllipseRotateAttr", "homog2d.hpp: getImgSize"]}
{"id": "C123", "title": "Overflow and underflow do not matter far from the limits of the number format", "statement": "If coordinates are multiples of 2^e not above 2^n, with e and n far enough from the limits of the floating-point format (for double: multiples of 2^-240 up to 2^240), then no operation overflows and no underflow changes a result: distances, areas, lengths, convexity, turns, sides, boxes, lines through two points, images by homographies, products of homographies and convex hulls are the same as with unlimited exponents, so the error bounds proved for those hold for the real formats.", "quantifier": "all formats (precision, smallest and largest exponent), all points, polygons, matrices on the grid, all results an overflow could give", "why_tests_cant": "The input space (all coordinates) is infinite; a unit test samples finitely many configurations and cannot exclude a bad one.", "anchors": ["homog2d.hpp: HOMOG2D_INUMTYPE", "homog2d.hpp: priv::sqDist", "homog2d.hpp: p_ComputeSignedArea", "homog2d.hpp: isConvex", "homog2d.hpp: detail::crossProduct", "homog2d.hpp: operator *", "homog2d.hpp: convexHull"]}
{"id": "C124", "title": "Inverse of a homography with rounding", "statement": "inverse() of a matrix computed with rounded arithmetic: refused when the determinant is below the threshold by more than the rounding errors, computed when it is above; each value is near the one of the true inverse, with an error bound proportional to M^3/|det| where M bounds the values; a point transformed by the homography and then by the computed inverse comes back near its place; the inverse of a translation is exact; a matrix without inverse is refused.", "quantifier": "all arithmetics with bounded relative errors, all matrices and points", "why_tests_cant": "The input space (all coordinates) is infinite; a unit test samples finitely many configurations and cannot exclude a bad one.", "anchors": ["homog2d.hpp: Matrix_::inverse", "homog2d.hpp: Matrix_::determ", "homog2d.hpp: Matrix_::p_adjugate", "homog2d.hpp: Matrix_::p_det2x2"]}
{"id": "C125", "title": "Point inside a polygon with rounding", "statement": "isInside( polygon ) for a point, computed with rounded arithmetic, on a simple polygon: the answer is the one of the even-odd rule for every point that is not closer to the contour than the null distance, and false for the points of the contour.", "quantifier": "all arithmetics with bounded relative errors, all simple polygons (any number of vertices), all points, under conditions on coordinates, lengths of the edges, angles with the reference segments and precision", "why_tests_cant": "The input space (all coordinates) is infinite; a unit test samples finitely many configurations and cannot exclude a bad one.", "anchors": ["homog2d.hpp: Point2d_::isInside", "homog2d.hpp: LPBase::impl_isInsidePoly", "homog2d.hpp: PolylineBase::isInside", "homog2d.hpp: PolylineBase::getBB", "homog2d.hpp: FRect_::getExtended"]}
{"id": "C126", "title": "Conversion between number types", "statement": "Objects (points, lines, matrices, rectangles, circles, segments, polylines) built from objects of another floating-point type: to a type with more bits nothing changes and the way back is the identity; to a type with less bits positions, distances, areas, lengths and lines change by bounded amounts, orders and bounding boxes are kept, and the result is an object that the target type accepts.", "quantifier": "all objects with coordinates of the source type, all pairs of precisions (at least 6 bits), any number of vertices", "why_tests_cant": "The input space (all coordinates) is infinite; a unit test samples finitely many configurations and cannot exclude a bad one.", "anchors": ["homog2d.hpp: Circle_::Circle_", "homog2d.hpp: FRect_::FRect_", "homog2d.hpp: SegVec::SegVec", "homog2d.hpp: PolylineBase::PolylineBase", "homog2d.hpp: LPBase::p_copyFrom", "homog2d.hpp: Matrix_::Matrix_"]}
{"id": "C127", "title": "Intersection of two rectangles with rounded arithmetic", "statement": "With floating-point operations, the intersection of two rectangles none of whose coordinates nearly coincide never throws: intersectArea() gives a rectangle exactly when the open rectangles overlap, whose coordinates are those of the common rectangle up to a bound, in either order of the rectangles, and intersects() gives one nearby point for each common point of the contours, in increasing order.", "quantifier": "all pairs of rectangles with representable coordinates, all rounding modes within the error bounds, all thresholds with the stated relations", "why_tests_cant": "The input space (all coordinates) is infinite; a unit test samples finitely many configurations and cannot exclude a bad one.", "anchors": ["homog2d.hpp: FRect_::intersectArea", "homog2d.hpp: FRect_::intersects", "homog2d.hpp: p_intersects_R_C", "homog2d.hpp: FRect_::getSegs", "homog2d.hpp: LPBase::impl_getAngle"]}
{"id": "C128", "title": "Union of two rectangles with rounded arithmetic", "statement": "With floating-point operations, unionArea() of two rectangles whose coordinates are equal or clearly different gives the same points as exact arithmetic: a simple polygon with the area of the union when they overlap, the empty polyline when they have no common point; the area() computed for it is right up to a bound.", "quantifier": "all pairs of rectangles with representable coordinates, all rounding modes within the error bounds, all thresholds with the stated relations", "why_tests_cant": "The input space (all coordinates) is infinite; a unit test samples finitely many configurations and cannot exclude a bad one.", "anchors": ["homog2d.hpp: FRect_::unionArea", "homog2d.hpp: priv::runion", "homog2d.hpp: PolylineBase::p_minimizePL", "homog2d.hpp: PolylineBase::area", "homog2d.hpp: PolylineBase::isSimple"]}
{"id": "C129", "title": "IoU with rounded arithmetic", "statement": "With floating-point operations, IoU() of two rectangles none of whose coordinates nearly coincide does not throw; it is exactly 0 when they do not overlap, strictly positive and near the area of the intersection over the area of the union when they do, in either order, and near 1 for a rectangle and itself.", "quantifier": "all pairs of rectangles with representable coordinates, all rounding modes within the error bounds, all thresholds with the stated relations", "why_tests_cant": "The input space (all coordinates) is infinite; a unit test samples finitely many configurations and cannot exclude a bad one.", "anchors": ["homog2d.hpp: IoU", "homog2d.hpp: FRect_::intersectArea", "homog2d.hpp: FRect_::unionArea", "homog2d.hpp: PolylineBase::area"]}
{"id": "C130", "title": "Data exchanged with OpenCV", "statement": "A homography copied to an OpenCV matrix and back has the same coefficients; matrices of the wrong size or type are refused and change nothing; after the assignment of a matrix, points and lines follow the new homography whatever was done before; points converted to an OpenCV point type and back are the same when the type can hold the coordinates.", "quantifier": "all homographies in any state, all OpenCV matrices, all histories of operations, all points", "why_tests_cant": "The property ranges over all finite call histories on an object; tests exercise a handful of short sequences.", "anchors": ["homog2d.hpp: Hmatrix_::copyTo", "homog2d.hpp: Hmatrix_::operator = (cv::Mat)", "homog2d.hpp: LPBase::getCvPti", "homog2d.hpp: LPBase::getCvPtd", "homog2d.hpp: LPBase::getCvPtf", "homog2d.hpp: getPts"]}
{"id": "C131", "title": "Import of Boost Geometry polygons", "statement": "The polyline built from a Boost polygon has the vertices of its outer ring, each once, in the same order; a closed ring is refused for an open polyline.", "quantifier": "all rings of any size, all equalities of points", "why_tests_cant": "The input space (all coordinates) is infinite; a unit test samples finitely many configurations and cannot exclude a bad one.", "anchors": ["homog2d.hpp: PolylineBase::PolylineBase(boost::geometry::model::polygon)"]}
{"id": "C132", "title": "Lines transformed by a homography with rounded arithmetic", "statement": "A point of a line is transformed into a point near the transformed line, the distance being of the size of the rounding errors; the image of a line by a translation keeps the coefficients of its direction.", "quantifier": "all floating-point arithmetics within the usual error bounds, all homographies, lines and points whose values have a known size", "why_tests_cant": "The input space (all coordinates) is infinite; a unit test samples finitely many configurations and cannot exclude a bad one.", "anchors": ["homog2d.hpp: operator * ( const Homogr_<U>&, const Line2d_<T>& )", "homog2d.hpp: Hmatrix_::inverse", "homog2d.hpp: Matrix_::p_normalizeMat", "homog2d.hpp: LPBase::p_normalizePL"]}
{"id": "C133", "title": "Convex hull of any points with rounded arithmetic", "statement": "The convex hull computed with floating-point numbers is the convex hull of the points, or there is an exception.", "quantifier": "all floating-point arithmetics within the usual error bounds, all lists of points of any length whose triangles are not too flat for the arithmetic", "why_tests_cant": "The input space (all coordinates) is infinite; a unit test samples finitely many configurations and cannot exclude a bad one.", "anchors": ["homog2d.hpp: convexHull", "homog2d.hpp: priv::chull::sortPoints", "homog2d.hpp: priv::chull::orientation", "homog2d.hpp: priv::chull::getPivotPoint"]}
{"id": "C134", "title": "No access out of range whatever the rounding", "statement": "Intersections of lines and segments, isSimple(), area(), centroid(), getBB(), isInside(), intersections with rectangles, inverse of a homography and image of a line give a value or throw an exception, whatever the rounding errors: no access out of range, no other failure.", "quantifier": "all arithmetics (any function in place of the rounding, of hypot and of acos), all thresholds, all points, polylines, rectangles, matrices and lines", "why_tests_cant": "The input space (all coordinates) is infinite; a unit test samples finitely many configurations and cannot exclude a bad one.", "anchors": ["homog2d.hpp: PolylineBase::isSimple", "homog2d.hpp: PolylineBase::centroid", "homog2d.hpp: PolylineBase::area", "homog2d.hpp: detail::impl_isInsidePoly", "homog2d.hpp: FRect_::intersects", "homog2d.hpp: SegVec::intersects", "homog2d.hpp: Hmatrix_::inverse"]}
{"id": "C135", "title": "Overflow and underflow do not matter for composed operations", "statement": "If coordinates are multiples of 2^e not above 2^n, with e and n far enough from the limits of the floating-point format (for double: multiples of 2^-60 up to 2^60), then intersections of lines and segments, distances to lines and segments, searches of near and far points, isSimple(), area(), centroid(), points inside polygons, intersections of rectangles, inverses of homographies and images of lines are the same as with unlimited exponents, exceptions included.", "quantifier": "all formats (precision, smallest and largest exponent), all points, segments, polygons, rectangles and matrices on the grid, all thresholds, all results an overflow could give", "why_tests_cant": "The input space (all coordinates) is infinite; a unit test samples finitely many configurations and cannot exclude a bad one.", "anchors": ["homog2d.hpp: SegVec::intersects", "homog2d.hpp: PolylineBase::isSimple", "homog2d.hpp: PolylineBase::centroid", "homog2d.hpp: detail::impl_isInsidePoly", "homog2d.hpp: FRect_::intersects", "homog2d.hpp: intersectArea", "homog2d.hpp: Hmatrix_::inverse", "homog2d.hpp: findNearestPoint", "homog2d.hpp: getClosestPoints"]}
{"id": "C136", "title": "The text written on a stream determines the value", "statement": "When the numbers are written with enough digits, two primitives (points, lines, segments, rectangles, circles, ellipses, polylines), two containers of primitives, two runtime-polymorphic objects, two homographies or two intersections that give the same text with operator<< have the same type and the same values.", "quantifier": "all values of all types, polylines and containers of any length, every way of writing the numbers that never gives the same text to two values", "why_tests_cant": "The input space (all coordinates) is infinite; a unit test samples finitely many configurations and cannot exclude a bad one.", "anchors": ["homog2d.hpp: operator <<", "homog2d.hpp: rtp::Root", "homog2d.hpp: getString"]}
{"id": "C137", "title": "Random colours stay in the requested range", "statement": "genRandomColors(nb,minval,maxval) gives nb colours with all components between minval and maxval when 0 <= minval < maxval <= 255, throws exactly when maxval <= minval, and gives the same colours to two calls in the same second.", "quantifier": "all results of std::rand(), all numbers of colours, all ranges, all roundings", "why_tests_cant": "The input space (all coordinates) is infinite; a unit test samples finitely many configurations and cannot exclude a bad one.", "anchors": ["homog2d.hpp: img::genRandomColors", "homog2d.hpp: img::Color"]}
{"id": "C138", "title": "Intersections of polylines with floating-point numbers", "statement": "If each edge of a polyline is either farther from a segment (from each edge of another polyline) than a small distance, or has a common point with it at an angle that is not too small, intersects() gives one point for each edge (each pair of edges) with a common point and no other one, in the order of the edges, each within a stated distance of the common point.", "quantifier": "polylines of any size, open or closed, all segments, all precisions, all thresholds large enough for the precision", "why_tests_cant": "The input space (all coordinates) is infinite; a unit test samples finitely many configurations and cannot exclude a bad one.", "anchors": ["homog2d.hpp: PolylineBase::intersects", "homog2d.hpp: SegVec::intersects"]}
{"id": "C139", "title": "Segments, polylines and rectangles inside a polygon with floating-point numbers", "statement": "isInside() of a segment, a polyline or a rectangle and a closed polygon, with floating-point coordinates, answers true exactly when all the points of the object (of the full rectangle) are inside the polygon by the even-odd rule and none is on its contour.", "quantifier": "polygons of any size, all objects, all precisions, all thresholds large enough for the precision", "why_tests_cant": "The input space (all coordinates) is infinite; a unit test samples finitely many configurations and cannot exclude a bad one.", "anchors": ["homog2d.hpp: SegVec::isInside", "homog2d.hpp: PolylineBase::isInside", "homog2d.hpp: FRect_::isInside"]}
{"id": "C140", "title": "Const calls on a polyline by several threads", "statement": "Several threads that call const members (length, isSimple, area, centroid, getPts, ==) on the same polyline at the same time each get the answer that a single thread gets, and the polyline is unchanged.", "quantifier": "any number of threads, all lists of calls, all schedules, polylines of any size", "why_tests_cant": "The property ranges over all finite call histories on an object; tests exercise a handful of short sequences.", "anchors": ["homog2d.hpp: ValueFlag", "homog2d.hpp: PolylineAttribs", "homog2d.hpp: PolylineBase::length", "homog2d.hpp: PolylineBase::isSimple", "homog2d.hpp: PolylineBase::area", "homog2d.hpp: PolylineBase::centroid", "homog2d.hpp: PolylineBase::p_normalizePoly"]}
{"id": "C141", "title": "Lines transformed by the same homography in several threads", "statement": "Several threads that multiply lines by the same (const) homography at the same time each get the product that a single thread gets.", "quantifier": "any number of threads, all lists of lines, all schedules, all homographies", "why_tests_cant": "The property ranges over all finite call histories on an object; tests exercise a handful of short sequences.", "anchors": ["homog2d.hpp: operator * ( const Homogr_<U>&, const Line2d_<T>& )", "homog2d.hpp: Hmatrix_::_hmt", "homog2d.hpp: Hmatrix_::_hasChanged"]}
{"id": "C142", "title": "Circle from a container of points: safe whatever the rounding", "statement": "The constructor of a circle from a container of points never accesses memory out of range and always ends; the circle is the one that the two or three points constructor gives for some of the points of the container, and a cubic number of random draws bounds the work.", "quantifier": "all arithmetics (any rounding), all thresholds, all sequences of random values, containers of any size", "why_tests_cant": "The input space (all coordinates) is infinite; a unit test samples finitely many configurations and cannot exclude a bad one.", "anchors": ["homog2d.hpp: Circle_::Circle_( const T& )", "homog2d.hpp: p_WelzlHelper", "homog2d.hpp: p_min_circle_trivial", "homog2d.hpp: is_valid_circle"]}
{"id": "C143", "title": "Circles through two and three points, bisectors and collinear points with rounded arithmetic", "statement": "With floating-point coordinates, the circle of two points has its center near the middle and goes through both points within a few units of rounding; the circle of three points has its center and radius near those of the circle through them, with an error proportional to the size of the data over the sine of the smallest angle; the points of the bisector of a segment are equidistant from its ends within a few units of rounding; three points of a line are collinear and the circle throws, three points far enough from a line are not and the circle does not throw.", "quantifier": "all arithmetics with relative error bounds u and v, all thresholds, all points with representable coordinates up to any bound M", "why_tests_cant": "The input space (all coordinates) is infinite; a unit test samples finitely many configurations and cannot exclude a bad one.", "anchors": ["homog2d.hpp: Circle_::set( Point2d_, Point2d_ )", "homog2d.hpp: Circle_::set( Point2d_, Point2d_, Point2d_ )", "homog2d.hpp: areCollinear", "homog2d.hpp: getBisector", "homog2d.hpp: getOrthogonalLine_B2", "homog2d.hpp: impl_normalize"]}
{"id": "C144", "title": "Circles built in several threads", "statement": "Circles that are built in several threads, from a center and a radius, from points or from a container of points, have the outcome they have in a single thread, and every construction ends.", "quantifier": "all schedules, any number of threads, all lists of constructions, all random values, all thresholds", "why_tests_cant": "The property ranges over all finite call histories on an object; tests exercise a handful of short sequences.", "anchors": ["homog2d.hpp: thr::doNotCheckRadius", "homog2d.hpp: Circle_::Circle_", "homog2d.hpp: Circle_::set( const T& )", "homog2d.hpp: p_WelzlHelper", "homog2d.hpp: p_min_circle_trivial"]}
{"id": "C145", "title": "Segment and circle with rounded arithmetic", "statement": "With floating-point numbers, the intersection of a segment and a circle always is a list of points; all of them are near the circle. Both ends inside, or the whole segment outside: none. One end inside and the other outside: one point; both ends outside and a point between inside: two points; they are on the segment up to rounding, and near the exact points.", "quantifier": "all roundings with a bounded relative error, all segments with floating-point ends and all circles; for the number and the positions of the points, the ends, or a point of the segment, must be at a distance of the circle above a margin given by the precision, the sizes and the null distance", "why_tests_cant": "The input space (all coordinates) is infinite; a unit test samples finitely many configurations and cannot exclude a bad one.", "anchors": ["homog2d.hpp: SegVec::intersects( const Circle_& )", "homog2d.hpp: detail::getPtLabel", "homog2d.hpp: LPBase::impl_intersectsCircle"]}
{"id": "C146", "title": "Segment or polyline and line with rounded arithmetic", "statement": "With floating-point numbers, a point that a segment and a line have in common is found, up to an error given by the precision, the sizes and the angle; a point that is returned is near the segment and near the line. A segment all on one side of the line, even parallel or nearly parallel to it, has no intersection. For a polyline: one point for each edge that crosses the line, in the order of the edges, no other one; an even number of points if it is closed.", "quantifier": "all roundings with a bounded relative error, all segments with floating-point ends, all lines, all polylines of any length, all thresholds; the segments are not too short and the angles not too small for the precision, the edges without intersection are on one side of the line by a margin", "why_tests_cant": "The input space (all coordinates) is infinite; a unit test samples finitely many configurations and cannot exclude a bad one.", "anchors": ["homog2d.hpp: Segment_::intersects( const Line2d_& )", "homog2d.hpp: PolylineBase::intersects( const T& )", "homog2d.hpp: Line2d_::isParallelTo", "homog2d.hpp: operator * ( const Line2d_&, const Line2d_& )"]}
{"id": "C147", "title": "Rounding is the only difference between number types", "statement": "With a number type whose operations are exact, the library gives exactly the results of the computation over the real numbers: the same points, the same answers, the same exceptions. So what separates a result with floating-point numbers from the exact one is the rounding of the single operations, and nothing else.", "quantifier": "all points, lines, segments, circles, polylines of any length, rectangles, homographies, sets of points, thresholds with a positive distance and an angle of at most a right angle; the edges of a polygon of which area, centroid or inside is asked are not under the distance threshold", "why_tests_cant": "The input space (all coordinates) is infinite; a unit test samples finitely many configurations and cannot exclude a bad one.", "anchors": ["homog2d.hpp: HOMOG2D_INUMTYPE", "homog2d.hpp: PointPos_", "homog2d.hpp: LPBase", "homog2d.hpp: Segment_::intersects", "homog2d.hpp: Circle_::set", "homog2d.hpp: PolylineBase::getAreaS", "homog2d.hpp: FRect_::intersectArea", "homog2d.hpp: convexHull", "homog2d.hpp: Hmatrix_::inverse", "homog2d.hpp: findNearestPoint"]}
{"id": "C148", "title": "Sides, coordinates and parallels of a line with floating-point numbers", "statement": "With rounded arithmetic: getCoord throws exactly for a denominator under the threshold, and otherwise returns a coordinate for which the equation of the line holds up to a few roundings of its terms. side() gives the right sign for points farther from the line than the null distance and the rounding error, and an answer that is not 0 is never wrong while this error is below the null distance. The two points of getPoints are in order, each at the given distance on its side of the point along the line, up to a few roundings of coordinates and distance. The parallel through a point passes at a few roundings of it with the same direction; the two parallels at a distance have exactly the same direction, are on both sides of the line and at the given distance up to a few roundings; and getParallelDistance between the line and one of them is a number, and the given distance up to a few roundings.", "quantifier": "all lines with a direction, points, coordinates and distances, all arithmetics with a relative error of at most 1/64, all thresholds", "why_tests_cant": "The input space (all coordinates) is infinite; a unit test samples finitely many configurations and cannot exclude a bad one.", "anchors": ["homog2d.hpp: LPBase::getCoord", "homog2d.hpp: LPBase::getPoints", "homog2d.hpp: getPoints_B2", "homog2d.hpp: LPBase::getParallelLine", "homog2d.hpp: LPBase::getParallelLines", "homog2d.hpp: getParallelDistance", "homog2d.hpp: side"]}
{"id": "C149", "title": "Moving polylines and rectangles with floating-point numbers", "statement": "With rounded arithmetic: turns by a quarter or a half and mirrors about the origin are exact, so that inverse moves give back exactly the same points. After any sequence of translations, turns and mirrors about any points, each point is the exact image up to one rounding per translation and two per turn about a point, relative to the sizes met on the way. moveTo throws exactly for an empty polyline, and otherwise brings the first point to the given one and keeps the shape, up to roundings of the result and of the displacement. A rectangle given by its centre, width and height has corners at half the sides from the centre, up to a rounding relative to the centre and the sides. If the exact points on the way are representable, as for integer coordinates that are not too large, all these operations are exact. Whatever the operations done on a rectangle, its first corner stays below and left of the second, or at the same coordinate.", "quantifier": "all lists of points of any length, all sequences of operations, all centres and displacements, all arithmetics with a relative error of at most 1/64", "why_tests_cant": "The property ranges over all finite call histories on an object; tests exercise a handful of short sequences.", "anchors": ["homog2d.hpp: PolylineBase::translate", "homog2d.hpp: PolylineBase::moveTo", "homog2d.hpp: PolylineBase::rotate", "homog2d.hpp: FRect_::rotate", "homog2d.hpp: FRect_::translate"]}
{"id": "C150", "title": "Orthogonal lines and segments with floating-point numbers", "statement": "With rounded arithmetic: the line orthogonal to a line at a point passes within 24 u M of that point and its angle with the line differs from a right angle by a sine of at most 6 u, where u is the relative error of an operation and M the size of the coordinates met. The orthogonal segment from a point to a line throws if the point is nearer to the line than the null distance by a small margin, returns a segment if it is farther by a small margin, and never has undefined behaviour; the returned segment goes from a point whose coordinates are within 85 u M of the closest point of the line, to the given point.", "quantifier": "all lines with a direction that are vertical or at more than a small angle from vertical, all points, all arithmetics with a relative error of at most 1/64", "why_tests_cant": "The input space (all coordinates) is infinite; a unit test samples finitely many configurations and cannot exclude a bad one.", "anchors": ["homog2d.hpp: Line2d::getOrthogonalLine", "homog2d.hpp: Line2d::getOrthogonalSegment", "homog2d.hpp: detail::getOrthogonalLine_B2"]}
{"id": "C151", "title": "Intersection of a rectangle and a line with floating-point numbers", "statement": "With rounded arithmetic: if the line stays away from the corners by a little more than twice the null distance and is not nearly parallel to the sides that it crosses, the intersections of a rectangle and a line are one point per side that crosses the line, within 150 u M^2/(L S) of the exact common point (u: relative error of an operation, M: size of the coordinates, L: length of the shortest side, S: sine of the smallest angle). No points are given if all corners are on the same side of the line, two otherwise. For any rectangle and line there are at most two points and no undefined behaviour.", "quantifier": "all rectangles and lines that meet the conditions (any for the last sentence), all arithmetics with a relative error of at most 1/64, all thresholds", "why_tests_cant": "The input space (all coordinates) is infinite; a unit test samples finitely many configurations and cannot exclude a bad one.", "anchors": ["homog2d.hpp: LPBase::impl_intersectsFRect", "homog2d.hpp: FRect_::intersects"]}
{"id": "C152", "title": "Intersections of a polyline or a rectangle with a circle, with floating-point numbers", "statement": "With rounded arithmetic: the intersections of a polyline and a circle are as many points as the edges cut the circle, an even number for a closed polyline; each is within 48 u M of the circle and within 651 u M^3/L^2 of an edge, and each exact intersection has one of them near to it (u: relative error of an operation, M: size of the coordinates, L: length of the shortest edge). For a rectangle the points are in increasing order, without repetition, with the same bounds.", "quantifier": "all polylines of any length, all rectangles, all circles, all arithmetics with a relative error of at most 1/64", "why_tests_cant": "The input space (all coordinates) is infinite; a unit test samples finitely many configurations and cannot exclude a bad one.", "anchors": ["homog2d.hpp: PolylineBase::intersects", "homog2d.hpp: FRect_::intersects", "homog2d.hpp: Circle_::intersects"]}
{"id": "C153", "title": "Histories of transformations of a homography with floating-point numbers", "statement": "With rounded arithmetic, after any sequence of n calls addTranslation, addRotation, addScale on a default homography: no call throws, the last row is exactly (0,0,1), and the image of any point (x,y) is at a distance of its exact image of at most (10 n + 6)(u + w) G (|x| + |y| + T) (u: relative error of an operation, w: error of cosine and sine, G: product of the factors by which the scalings expand, T: sum of the lengths of the translations). Without scaling, distances are kept up to twice this error. With translations only, the linear part is exactly the identity, and nothing is rounded if the values and their sums are representable.", "quantifier": "all sequences of calls, of any length n with 100 n (u + w) at most 1, all angles, shifts and factors, all points, all arithmetics with a relative error of at most 1/64", "why_tests_cant": "The property ranges over all finite call histories on an object; tests exercise a handful of short sequences.", "anchors": ["homog2d.hpp: Hmatrix_::addTranslation", "homog2d.hpp: Hmatrix_::addRotation", "homog2d.hpp: Hmatrix_::addScale", "homog2d.hpp: Hmatrix_::operator *", "homog2d.hpp: detail::product"]}
{"id": "C154", "title": "Rotated lines with floating-point numbers", "statement": "With rounded arithmetic, `getRotatedLine(pt, angle)` throws when the point is farther of the line than the null distance, and returns a line otherwise (up to 16 (u + v) M around the limit). The line returned makes an angle with the line turned by the given angle whose sine is at most 46 (u + w), and is at a distance of the point of at most 1.05 times the distance of the initial line to it, plus 225 (u + w) M (u, v, w: errors of an operation, of hypot, of cosine and sine; M: size of the coordinates).", "quantifier": "all lines, points and angles, all thresholds up to 0.9, all arithmetics with u + w up to 1/1000", "why_tests_cant": "The input space (all coordinates) is infinite; a unit test samples finitely many configurations and cannot exclude a bad one.", "anchors": ["homog2d.hpp: LPBase::getRotatedLine", "homog2d.hpp: Hmatrix_::inverse", "homog2d.hpp: operator * ( Homogr_, Line2d_ )"]}
{"id": "C155", "title": "The points of a polyline after any history of calls", "statement": "Whatever was done before, each call does to the points of a polyline what its name says: set and assignment replace them if the new ones are accepted and leave them otherwise, clear removes them, translate, moveTo and rotate (about the origin or a point) move all of them by the same translation, quarter turn or mirror, minimize only removes points, and the questions (length, area, isSimple, centroid, isConvex) leave them as they are. After moveTo(p) the first point is p. A history of moves and questions gives a figure that is congruent to the initial one. A comparison can only change the starting point and the direction.", "quantifier": "all histories of calls, all points, open and closed polylines, all ordered fields", "why_tests_cant": "The property ranges over all finite call histories on an object; tests exercise a handful of short sequences.", "anchors": ["homog2d.hpp: PolylineBase::set", "homog2d.hpp: PolylineBase::translate", "homog2d.hpp: PolylineBase::moveTo", "homog2d.hpp: PolylineBase::rotate", "homog2d.hpp: PolylineBase::minimize", "homog2d.hpp: PolylineBase::operator =="]}
{"id": "C156", "title": "Drawing on an OpenCV image", "statement": "Drawing an object on an OpenCV image always ends (the functions that draw points, circles and segments call each other, at most five levels deep, for all drawing parameters). A segment is drawn between the pixels nearest to its ends; a polyline by one segment per side, in order, closed or not, and nothing else unless points, indexes or angles are asked for; circles and rectangles at less than one pixel of their exact position; a point outside of the image is not drawn, the mark of a point inside is around it within the size asked for; a line by one segment or none, also in SVG files; an oriented segment with the three segments of its arrow; an ellipse by one call; the indexes of a polyline are written at its points and the angles at its corners, in order. Everything is drawn with the color, thickness and line type asked for, except the texts and the mark of the first point of a polyline.", "quantifier": "all objects (polylines of any size), all drawing parameters, all image sizes and thresholds, all roundings to the nearest integer", "why_tests_cant": "The input space (all coordinates) is infinite; a unit test samples finitely many configurations and cannot exclude a bad one.", "anchors": ["homog2d.hpp: Circle_::draw", "homog2d.hpp: FRect_::draw", "homog2d.hpp: SegVec::draw", "homog2d.hpp: PolylineBase::draw", "homog2d.hpp: Ellipse_::draw", "homog2d.hpp: LPBase::impl_draw_LP", "homog2d.hpp: detail::drawPt"]}
{"id": "C157", "title": "Moving the whole scene by a vector moves the answers", "statement": "When all the objects given to a function are moved by the same vector, the result is the former result moved by this vector, and the same exceptions are thrown: lines through points, intersections of lines, segments, circles and polylines with each other, distances to lines and segments, circles through two or three points, minimum enclosing circle of any number of points, bounding box, extreme points, convex hull, whether a polyline is simple, whether a point is inside a polygon, common part and union of two rectangles, length, area, convexity and centroid, indexes found by the searches of the nearest and farthest points. This holds for all objects when the move is vertical; else, for the functions that build lines, when the slopes of these lines are not in the narrow band in which normalising a line is wrong (see C01).", "quantifier": "all vectors, all objects (any number of points), all thresholds, all random numbers and all orders chosen by the sort for ties", "why_tests_cant": "The input space (all coordinates) is infinite; a unit test samples finitely many configurations and cannot exclude a bad one.", "anchors": ["homog2d.hpp: LPBase::impl_getInter", "homog2d.hpp: SegVec::intersects", "homog2d.hpp: Circle_::intersects", "homog2d.hpp: PolylineBase::intersects", "homog2d.hpp: Circle_::set", "homog2d.hpp: getBB_Points", "homog2d.hpp: convexHull", "homog2d.hpp: Point2d_::isInside"]}
{"id": "C158", "title": "First vertex and direction of a polygon do not matter", "statement": "A closed polyline given from another vertex or in the other direction gives the same answers: the same intersection points with a segment, a line, a circle or a polyline (each the same number of times, only their order may differ) or the same exception, the same bounding box, the same answer about being simple, the same answer (or exception) when asked if a point, a segment, a rectangle, a polyline or a circle is inside it, and when asked if it is inside a circle, a rectangle, an ellipse or a polygon. With floating-point numbers too, bit for bit, for the intersections, the bounding box, and points, segments, rectangles and polylines inside the polygon.", "quantifier": "all closed polylines of any number of points, all first vertices, both directions, all other objects, all thresholds (null distance above the machine epsilon for the inside tests)", "why_tests_cant": "The input space (all coordinates) is infinite; a unit test samples finitely many configurations and cannot exclude a bad one.", "anchors": ["homog2d.hpp: PolylineBase::intersects", "homog2d.hpp: PolylineBase::isSimple", "homog2d.hpp: PolylineBase::isInside", "homog2d.hpp: Point2d_::isInside", "homog2d.hpp: SegVec::isInside", "homog2d.hpp: FRect_::isInside", "homog2d.hpp: Circle_::isInside", "homog2d.hpp: getBB"]}
{"id": "C159", "title": "Changing the unit by a power of two changes nothing but the unit", "statement": "With floating-point numbers, if all coordinates, radii and distance thresholds are multiplied by a power of two, then computed distances, lengths, widths and heights are multiplied by exactly that number and areas by its square, computed centers, rectangles and bounding boxes of circles are the scaled ones (or the same exception is thrown), and equality of points, being inside a circle, the side of a point, convexity and the indexes returned by the searches do not change.", "quantifier": "all binary precisions, all powers of two with a positive or negative exponent, all points, rectangles, circles and polylines of any number of points, all thresholds", "why_tests_cant": "The input space (all coordinates) is infinite; a unit test samples finitely many configurations and cannot exclude a bad one.", "anchors": ["homog2d.hpp: distTo", "homog2d.hpp: PolylineBase::length", "homog2d.hpp: PolylineBase::area", "homog2d.hpp: PolylineBase::isConvex", "homog2d.hpp: SegVec::getPointSide", "homog2d.hpp: FRect_::area", "homog2d.hpp: FRect_::length", "homog2d.hpp: Circle_::getBB", "homog2d.hpp: findNearestPoint", "homog2d.hpp: findFarthestPoint", "homog2d.hpp: findNearestFarthestPoint"]}
