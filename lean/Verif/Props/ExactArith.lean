import Verif.Lemmas.ExactPolyCirc
import Verif.Lemmas.ExactRectLine
import Verif.Lemmas.ExactArithMore
import Verif.Lemmas.ExactParallel
import Verif.Lemmas.FloatMove
import Verif.Lemmas.ExactOrthog
import Verif.Lemmas.ExactChain

/-!
# C147: without rounding, the operations on rounded numbers are those on the reals

Each theorem compares a function of the rounded model (`Fl.`), run with the arithmetic `exactArith` where each operation returns the exact result, with the function of the model over the reals.
Points, booleans, lists and exceptions are the same. `none`, which stands for a result that is not a number, never comes out, except for the centroid of a polygon of area zero.
-/

namespace H2d.Props
open H2d.Spec

/-- **C147** (thresholds). The default thresholds meet the condition. -/
example : ExactThr stdR := Exact.stdR_exact

/-- **C147** (points). Distances, equality, middle, cross product, order of three points: the same. -/
theorem C147_points (t : Thr ℝ) (p q r : Pt ℝ) (a b : V3 ℝ) :
    Fl.distPt exactArith p q = ptDist p q ∧ Fl.sqDist exactArith p q = sqDist p q ∧ (Fl.PtSame exactArith t p q ↔ PtEq t p q)
    ∧ Fl.center exactArith p q = segCenter (p, q) ∧ Fl.crossProd exactArith a b = crossProd a b
    ∧ Fl.largestDistancePoints exactArith p q r = largestDistancePoints p q r
    ∧ Fl.areCollinear exactArith t p q r = areCollinear t p q r :=
  ⟨Exact.dist_eq p q, Exact.sqDist_eq p q, Exact.same_iff t p q, Exact.center_eq p q, Exact.cross_eq a b, Exact.largest_eq p q r, Exact.collinear_eq t p q r⟩

/-- Both find the triangle (0,0), (4,0), (0,3) has a side of length 5 = √(4² + 3²). -/
example : Fl.distPt exactArith (4, 0) (0, 3) = 5 := by
  rw [(C147_points stdR (4, 0) (0, 3) (0, 0) 0 0).1, ptDist]
  rw [show ((4 : ℝ) - 0) * (4 - 0) + (0 - 3) * (0 - 3) = 5 ^ 2 by norm_num]
  exact Real.sqrt_sq (by norm_num)

/-- **C147** (lines). The line of two points, the distance to a line, the orthogonal line, the test of parallelism and the intersection of two lines: the same. -/
theorem C147_lines {t : Thr ℝ} (ht : ExactThr t) (p q : Pt ℝ) (l m : V3 ℝ) :
    Fl.lineOfPts exactArith t p q = lineOfPts t (mkPt p.1 p.2) (mkPt q.1 q.2) ∧ Fl.lineDist exactArith l p = lineDist l p
    ∧ Fl.orthogLine exactArith t l p = orthogLine t l p ∧ (Fl.isParallel exactArith t Real.arccos l m = true ↔ IsParallel t l m)
    ∧ (HasDir l → HasDir m → Fl.lineInter exactArith t Real.arccos l m = isNum (lineInter t l m >>= fun x => .ok (getXY x))) := by
  refine ⟨Exact.lineOfPts_eq t p q, Exact.lineDist_eq l p, Exact.orthog_eq t l p, Exact.parallel_eq ht l m, fun hl hm => ?_⟩
  rw [Exact.lineInter_eq ht hl hm, isNum]
  rcases lineInter t l m with x | _ | _ <;> rfl

example : HasDir ![1, 0, 0] ∧ HasDir ![0, 1, -2] := by constructor <;> norm_num [HasDir]

/-- **C147** (parallels). Side of a point, coordinates of points of a line, points at a distance, parallel lines and their distance: the same. -/
theorem C147_parallels {t : Thr ℝ} (ht : ExactThr t) (p : Pt ℝ) (l m : V3 ℝ) (x : ℝ) (givenX : Bool) :
    Fl.lineSide exactArith t p l = lineSide t p l ∧ Fl.lineCoord exactArith t l givenX x = lineCoord t l givenX x
    ∧ (HasDir l → Fl.getPoints exactArith t l p x = isNum (getPoints t l p x)) ∧ Fl.parallelLine exactArith t l p = parallelLine t l p
    ∧ Fl.parallelLines exactArith l x = parallelLines l x ∧ Fl.parallelDistance exactArith t Real.arccos l m = parallelDistance t l m :=
  ⟨Exact.side_eq t p l, Exact.coord_eq t l givenX x, fun h => Exact.getPoints_eq t h p x, Exact.parallelLine_eq t l p, Exact.parallelLines_eq l x, Exact.parallelDistance_eq ht l m⟩

/-- The line `x + y = 0`: the coordinates -3, 3. -/
example : Fl.lineCoord exactArith stdR ![1, 1, 0] true 3 = .ok (-3) := by
  rw [(C147_parallels Exact.stdR_exact (0, 0) ![1, 1, 0] 0 3 true).2.1, lineCoord, if_neg (by norm_num [stdR]), if_pos rfl]
  simp only [Matrix.cons_val]
  norm_num

/-- **C147** (segments). Construction, supporting line, bisector, distance to a point, intersection of two segments or of a segment and a line: the same. -/
theorem C147_segments {t : Thr ℝ} (ht : ExactThr t) (p q : Pt ℝ) (s s' : Seg) (l : V3 ℝ) :
    Fl.segMake exactArith t p q = segMake t false p q ∧ Fl.lineOfPts exactArith t s.1 s.2 = segLine t s ∧ Fl.segBisector exactArith t s = segBisector t s
    ∧ (s.1 ≠ s.2 → Fl.segDistTo exactArith s.1 s.2 p = some (segDistTo s p))
    ∧ Fl.segInter exactArith t Real.arccos s s' = segInter t s s'
    ∧ (HasDir l → Fl.segLineInter exactArith t Real.arccos s l = segLineInter t s l) :=
  ⟨Exact.segMake_eq t p q, Exact.segLine_eq t s, Exact.bisector_eq t s, fun h => Exact.segDistTo_eq h p, Exact.segInter_eq ht s s', fun h => Exact.segLineInter_eq ht s h⟩

example : (((0, 0), (1, 2)) : Seg).1 ≠ (((0, 0), (1, 2)) : Seg).2 := by simp [Prod.ext_iff]

/-- **C147** (circles). Containment, intersection of a circle with a line, a segment or a circle, circles through two or three points, smallest circle of a set of points: the same. -/
theorem C147_circles {t : Thr ℝ} (ht : ExactThr t) (p q r : Pt ℝ) (s : Seg) (l : V3 ℝ) (a b : Circle) (flag : Bool) (rnd : ℕ → ℕ) (pts : List (Pt ℝ)) :
    (Fl.inCircle exactArith p (some a) = true ↔ PtInCircle p a) ∧ Fl.circInter exactArith t a b = circInter t a b
    ∧ (HasDir l → 0 ≤ a.radius → (Fl.lineCircle exactArith l a.center a.radius).map (fun o => o.map fun p => fixOrder p.1 p.2) = some (lineCircle l a.center a.radius))
    ∧ (0 ≤ a.radius → Fl.segCircle exactArith t s a.center a.radius = isNum (segCircle t s a.center a.radius))
    ∧ Fl.circle2 exactArith t p q = circle2 t p q ∧ Fl.circle3 exactArith t Real.arccos p q r = isNum (circle3 t p q r)
    ∧ Fl.circleOfPts exactArith t Real.arccos rnd pts = isNum (circleOfPts t flag rnd pts).1 :=
  ⟨Exact.inCircle_eq p a, Exact.circInter_eq a b, fun h h0 => Exact.lineCircle_eq h a.center h0, fun h => Exact.segCircle_eq s a.center h, Exact.circle2_eq p q,
    Exact.circle3_eq ht p q r, Exact.circleOfPts_eq ht flag rnd pts⟩

/-- A line that cuts a circle of radius 5: both models give two points. -/
example : HasDir ![0, 1, -3] ∧ (0 : ℝ) ≤ (⟨(0, 0), 5⟩ : Circle).radius := by constructor <;> norm_num [HasDir]

/-- **C147** (moves). Any history of translations, turns and moves to a point: the exact images of the points. -/
theorem C147_moves (pts : List (ℝ × ℝ)) (ops : List PolyMove) : Fl.moveRun exactArith pts ops = movedBy pts ops := by
  have : ∀ (ops : List PolyMove) (pts : List (ℝ × ℝ)), Along (fun p => Rep exactArith p.1 ∧ Rep exactArith p.2) pts ops := by
    intro ops
    induction ops with
    | nil => exact fun pts p _ => ⟨rfl, rfl⟩
    | cons op ops ih => exact fun pts => ⟨fun p _ => ⟨rfl, rfl⟩, fun p _ => ⟨rfl, rfl⟩, ih _⟩
  exact Fl.exact_run ops pts (this ops pts)

/-- **C147** (histories of a rectangle). Width, height, area, length, and any history of operations: the same. -/
theorem C147_rectRuns {t : Thr ℝ} (ht : ExactThr t) (r : FRect ℝ) (ops : List (RectOp ℝ)) :
    Fl.rectWidth exactArith r = r.width ∧ Fl.rectHeight exactArith r = r.height ∧ Fl.rectArea exactArith r = r.area ∧ Fl.rectLength exactArith r = r.length
    ∧ Fl.rectRun exactArith t r ops = rectRun t r ops :=
  ⟨rfl, rfl, rfl, rfl, Exact.rectRun_eq ht r ops⟩

/-- **C147** (orthogonal lines). Line orthogonal to a line at a point or at a coordinate, segment from the closest point of a line to a point: the same. -/
theorem C147_orthogonal {t : Thr ℝ} (ht : ExactThr t) (p : Pt ℝ) {l : V3 ℝ} (hl : HasDir l) (x : ℝ) (givenX : Bool) :
    Fl.orthogLine exactArith t l p = orthogLine t l p ∧ Fl.orthogLineAt exactArith t l givenX x = orthogLineAt t l givenX x
    ∧ Fl.orthogSegment exactArith t Real.arccos l p = isNum (orthogSegment t l p) :=
  ⟨Exact.orthog_eq t l p, Exact.orthogAt_eq t l givenX x, Exact.orthogSegment_eq ht hl p⟩

example : HasDir ![3, 4, -10] := by norm_num [HasDir]

/-- **C147** (polylines). Length, signed area, convexity, bounding box, simplicity, intersections: the same for any list of points. Area and centroid: the same if no edge is under the distance threshold. -/
theorem C147_polylines {t : Thr ℝ} (ht : ExactThr t) (h1 : dblEps < t.nullDistance) (closed closed' simple : Bool) (pts pts' : List (Pt ℝ)) (s : Seg) (l : V3 ℝ) :
    Fl.polyLen exactArith closed pts = polyLength ptDist closed pts ∧ Fl.signedArea exactArith pts = signedArea pts
    ∧ Fl.isConvex exactArith simple pts = isConvex simple pts ∧ Fl.polyGetBB exactArith t pts = polyGetBB t pts
    ∧ Fl.simpleF exactArith t Real.arccos closed pts = simpleR t closed pts
    ∧ Fl.polyInterSeg exactArith t Real.arccos closed pts s = polyInterSeg t closed pts s
    ∧ (HasDir l → Fl.polyInterLine exactArith t Real.arccos closed pts l = polyInterLine t closed pts l)
    ∧ Fl.polyInterPoly exactArith t Real.arccos closed pts closed' pts' = polyInterPoly t closed pts closed' pts'
    ∧ (Sides t pts → Fl.polyArea exactArith t Real.arccos closed pts = .ok (polyArea (segInterB t) closed pts)
      ∧ Fl.centroid exactArith t Real.arccos closed pts
        = (centroid (segInterB t) closed pts >>= fun c => .ok (if signedArea pts = 0 then none else some c))) :=
  ⟨Exact.polyLen_eq closed pts, Exact.signedArea_eq pts, Exact.isConvex_eq simple pts, Exact.polyGetBB_eq ht pts, Exact.simple_eq ht closed pts, Exact.polyInterSeg_eq ht closed pts s,
    fun h => Exact.polyInterLine_eq ht closed pts h, Exact.polyInterPoly_eq ht closed pts closed' pts', fun h => ⟨Exact.polyArea_eq ht h1 h closed, Exact.centroid_eq ht h1 h closed⟩⟩

/-- The right triangle of sides 3, 4, 5 meets the condition on the edges. -/
example : Sides stdR [(0, 0), (4, 0), (0, 3)] ∧ dblEps < stdR.nullDistance := Exact.sides_demo

/-- **C147** (inside tests). Point, segment, polyline or rectangle in a polygon: the same. -/
theorem C147_inside {t : Thr ℝ} (ht : ExactThr t) (h1 : dblEps < t.nullDistance) {outer : List (Pt ℝ)} (hl : Sides t outer) (closed : Bool) (pts : List (Pt ℝ)) (p : Pt ℝ) (s : Seg) (r : FRect ℝ) :
    Fl.ptInsidePoly exactArith t Real.arccos closed outer p = ptInsidePoly t closed outer p
    ∧ Fl.segInPoly exactArith t Real.arccos outer s = segInPoly t outer s
    ∧ Fl.polyInPoly exactArith t Real.arccos closed pts outer = polyInPoly t closed pts outer
    ∧ Fl.rectInPoly exactArith t Real.arccos r outer = rectInPoly t r outer :=
  ⟨Exact.ptInsidePoly_eq ht h1 hl closed p, Exact.segInPoly_eq ht h1 hl s, Exact.polyInPoly_eq ht h1 hl closed pts, Exact.rectInPoly_eq ht h1 hl r⟩

example : Sides stdR [(0, 0), (4, 0), (0, 3)] ∧ dblEps < stdR.nullDistance := Exact.sides_demo

/-- **C147** (convex hull). The same points in the same order, for any sorting function. -/
theorem C147_hull (srt : (ℕ → ℕ → Bool) → List ℕ → List ℕ) (t : Thr ℝ) (thr : ℝ) (input : List (Pt ℝ)) :
    Fl.convexHull exactArith srt t thr input = convexHull srt thr (fun p q => open Classical in decide (PtEq t p q)) input :=
  Exact.convexHull_eq srt t thr input

/-- **C147** (homographies). Product, determinant, normalization, inverse, image of a point or of a line: the same. For a line, the object must not hold a transposed inverse out of date with its flag. -/
theorem C147_homography (t : Thr ℝ) (h : Hom ℝ) (a b : Mat ℝ) (v l : V3 ℝ) :
    Fl.mul exactArith a b = a.mul b ∧ Fl.app exactArith a v = a.app v ∧ Fl.determ exactArith a = a.determ ∧ Fl.normalizeMat exactArith t h.m = matOf (h.normalize t)
    ∧ Fl.homInverse exactArith t h.m = matOf (h.inverse t)
    ∧ (h.hmt = none ∨ h.changed = true → Fl.lineImage exactArith t h.m l = ((h.appLineRaw t l).1 >>= normalizeLine t)) :=
  ⟨Exact.mul_eq a b, Exact.app_eq a v, Exact.determ_eq a, Exact.normalizeMat_eq t h, Exact.homInverse_eq t h, fun hc => Exact.lineImage_eq t h hc l⟩

/-- A homography that has just been built. -/
example : (Hom.default : Hom ℝ).hmt = none ∨ (Hom.default : Hom ℝ).changed = true := .inl rfl

/-- **C147** (transformations). Translation, rotation or scaling added to a homography, rotated line: the same. -/
theorem C147_transformations (t : Thr ℝ) (h : Hom ℝ) (tx ty a : ℝ) (l : V3 ℝ) (p : Pt ℝ) :
    Fl.addTrans exactArith Real.cos Real.sin t h.m (.translation tx ty) = matOf (h.addTranslation t tx ty)
    ∧ Fl.addTrans exactArith Real.cos Real.sin t h.m (.rotation a) = matOf (h.addRotation t (Real.cos a) (Real.sin a))
    ∧ Fl.addTrans exactArith Real.cos Real.sin t h.m (.scale tx ty) = matOf (h.addScale t tx ty)
    ∧ Fl.rotatedLine exactArith Real.cos Real.sin t l p a = rotatedLine t l p a :=
  ⟨(Exact.addTrans_eq t h (.translation tx ty)).1, (Exact.addTrans_eq t h (.rotation a)).1, (Exact.addTrans_eq t h (.scale tx ty)).1, Exact.rotatedLine_eq t l p a⟩

/-- **C147** (rectangles). Construction, sides, intersection with a segment or a rectangle, area of the intersection, union: the same. -/
theorem C147_rectangles {t : Thr ℝ} (ht : ExactThr t) (p q : Pt ℝ) (a b : FRect ℝ) (s : Seg) :
    Fl.rectOfPts exactArith t p q = FRect.ofPts t.nullOrthogDistance p q ∧ Fl.rectSegs exactArith t a = rectSegs t a
    ∧ Fl.rectSegInter exactArith t Real.arccos a s = rectSegInter t a s ∧ Fl.rectInter exactArith t Real.arccos a b = rectInter t a b
    ∧ Fl.intersectArea exactArith t Real.arccos a b = intersectArea t a b ∧ Fl.unionArea exactArith t Real.arccos atan2 a b = unionArea t a b :=
  ⟨Exact.rectOfPts_eq p q, Exact.rectSegs_eq a, Exact.rectSegInter_eq ht a s, Exact.rectInter_eq ht a b, Exact.intersectArea_eq ht a b, Exact.unionArea_eq ht a b⟩

/-- **C147** (rectangle and line). The same points in the same order. -/
theorem C147_rectLine {t : Thr ℝ} (ht : ExactThr t) (r : FRect ℝ) {l : V3 ℝ} (hl : HasDir l) : Fl.rectLineInter exactArith t Real.arccos r l = rectLineInter t r l := Exact.rectLineInter_eq ht r hl

example : HasDir ![3, 4, -6] := by norm_num [HasDir, Matrix.cons_val_zero, Matrix.cons_val_one]

/-- **C147** (polyline or rectangle and circle). The same points in the same order. -/
theorem C147_circleCuts (t : Thr ℝ) (closed : Bool) (pts : List (Pt ℝ)) (a : FRect ℝ) (c : Circle) (hr : 0 ≤ c.radius) :
    Fl.polyInterCircle exactArith t closed pts c.center c.radius = isNum (polyInterCircle t closed pts c) ∧ Fl.rectCircleInter exactArith t a c.center c.radius = isNum (rectCircleInter t a c.center c.radius) :=
  ⟨Exact.polyInterCircle_eq t closed pts c hr, Exact.rectCircleInter_eq t a c.center hr⟩

example : (0 : ℝ) ≤ (⟨(0, 0), 2⟩ : Circle).radius := by norm_num

/-- **C147** (searches). Nearest, farthest, closest points: the same positions. -/
theorem C147_searches (t : Thr ℝ) (q : Pt ℝ) (a b : List (Pt ℝ)) :
    let eq : Pt ℝ → Pt ℝ → Bool := fun p q => open Classical in decide (PtEq t p q)
    Fl.nearest exactArith t q a = Search.findNearestPoint sqDist eq q a ∧ Fl.farthest exactArith t q a = Search.findFarthestPoint sqDist eq q a
    ∧ Fl.nearestFarthest exactArith t q a = Search.findNearestFarthestPoint sqDist eq q a ∧ Fl.closest exactArith a b = Search.getClosestPoints ptDist a b := by
  simp only [Fl.nearest, Fl.farthest, Fl.nearestFarthest, Fl.closest, Exact.sameB_real, Exact.sqDist_fun, Exact.dist_fun]
  exact ⟨trivial, trivial, trivial, trivial⟩

/-- **C147** (sharp). Rounding does make a difference: with `double` precision, the points (2⁵³, 0) and (-1, 0), whose coordinates are `double` numbers, are at another distance than over the reals. -/
theorem C147_sharp : Rep (Fl.binary 53) (2 ^ 53) ∧ Rep (Fl.binary 53) (-1) ∧ Fl.distPt (Fl.binary 53) (2 ^ 53, 0) (-1, 0) ≠ ptDist (2 ^ 53, 0) (-1, 0) := Exact.round_differs

end H2d.Props
