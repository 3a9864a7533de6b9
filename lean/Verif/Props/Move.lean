import Verif.Lemmas.MoveCircle
import Verif.Lemmas.MoveMore
import Verif.Lemmas.MoveExample
import Verif.Lemmas.MoveRect
import Verif.Props.PolyState
import Mathlib.Tactic.NormNum

/-!
# C157: moving the whole scene moves the answers
-/

namespace H2d.Props

open H2d H2d.Spec H2d.Move

/-- **C157, meaning of a moved line.** Its points are the moved points. -/
theorem C157_meaning (d : Pt ℝ) (l : V3 ℝ) (p : Pt ℝ) : On (mvL d l) (mvP d p) ↔ On l p := by
  unfold On
  rw [mvL_0, mvL_1, mvL_2, mvP_1, mvP_2, show l 0 * (p.1 + d.1) + l 1 * (p.2 + d.2) + (l 2 - l 0 * d.1 - l 1 * d.2) = l 0 * p.1 + l 1 * p.2 + l 2 by ring]

/-- **C157, lines.** The line through the moved points is the moved line, the intersection point of the moved lines is the moved point, the distance of a moved point to a moved line does not change; the
exceptions are the same. -/
theorem C157_lines (t : Thr ℝ) (d p q : Pt ℝ) :
    (MoveOk t d p q → lineOfPts t (mkPt (mvP d p).1 (mvP d p).2) (mkPt (mvP d q).1 (mvP d q).2) = after (mvL d) (lineOfPts t (mkPt p.1 p.2) (mkPt q.1 q.2))) ∧
    (∀ l m, 0 < t.nullAngleValue → UnitNormal l → UnitNormal m → after getXY (lineInter t (mvL d l) (mvL d m)) = after (fun x => mvP d (getXY x)) (lineInter t l m)) ∧
    (∀ l, lineDist (mvL d l) (mvP d p) = lineDist l p) :=
  ⟨fun h => lineOfPts_mv d h, fun _ _ ht hl hm => lineInter_mv d ht hl hm, fun l => lineDist_mv d l p⟩

/-- **C157, segments.** Intersections of segments, of a segment and a line, of a segment and a circle, and the distance of a point to a segment with its case. -/
theorem C157_segments (t : Thr ℝ) (ht : 0 < t.nullAngleValue) (d : Pt ℝ) (s : Seg) (h : MoveOk t d s.1 s.2) :
    (∀ s', MoveOk t d s'.1 s'.2 → segInter t (mvS d s) (mvS d s') = after (Option.map (mvP d)) (segInter t s s')) ∧
    (∀ l, UnitNormal l → segLineInter t (mvS d s) (mvL d l) = after (Option.map (mvP d)) (segLineInter t s l)) ∧
    (∀ c r, segCircle t (mvS d s) (mvP d c) r = after (List.map (mvP d)) (segCircle t s c r)) ∧
    (∀ p, segDistTo (mvS d s) (mvP d p) = segDistTo s p) :=
  ⟨fun _ h' => segInter_mv d ht h h', fun _ hl => segLineInter_mv d ht h hl, fun c r => segCircle_mv d h c r, fun p => segDist_mv d s p⟩

/-- **C157, circles.** Intersection of circles, of a line and a circle, circle from two points: whatever the slopes. Circle through three points, minimum enclosing circle of any number of points (whatever
the random numbers): under the condition on slopes for each pair of points. -/
theorem C157_circles (t : Thr ℝ) (d : Pt ℝ) :
    (∀ a b, circInter t (mvC d a) (mvC d b) = (circInter t a b).map (List.map (mvP d))) ∧
    (∀ l c r, lineCircle (mvL d l) (mvP d c) r = (lineCircle l c r).map (mvS d)) ∧
    (∀ p q, circle2 t (mvP d p) (mvP d q) = after (mvC d) (circle2 t p q)) ∧
    (0 < t.nullAngleValue → ∀ p q r, (∀ a ∈ [p, q, r], ∀ b ∈ [p, q, r], MoveOkBoth t d a b) → circle3 t (mvP d p) (mvP d q) (mvP d r) = after (mvC d) (circle3 t p q r)) ∧
    (0 < t.nullAngleValue → ∀ flag rnd pts, (∀ p ∈ pts, ∀ q ∈ pts, MoveOkBoth t d p q) →
      circleOfPts t flag rnd (pts.map (mvP d)) = (after (mvC d) (circleOfPts t flag rnd pts).1, (circleOfPts t flag rnd pts).2)) := by
  refine ⟨circInter_mv d t, lineCircle_mv d, circle2_mv d t, fun ht p q r h => circle3_mv d ht ?_, fun ht flag rnd pts h => circleOfPts_mv d ht flag rnd h⟩
  refine ⟨h _ (by simp) _ (by simp), h _ (by simp) _ (by simp), h _ (by simp) _ (by simp), h _ (by simp) _ (by simp), h _ (by simp) _ (by simp), h _ (by simp) _ (by simp)⟩

/-- **C157, polylines.** Intersections with segments, lines, circles and polylines, and whether it is simple. -/
theorem C157_polylines (t : Thr ℝ) (ht : 0 < t.nullAngleValue) (d : Pt ℝ) (closed : Bool) (pts : List (Pt ℝ)) (h : MoveOkPts t d closed pts) :
    (∀ s : Seg, MoveOk t d s.1 s.2 → polyInterSeg t closed (pts.map (mvP d)) (mvS d s) = after (List.map (mvP d)) (polyInterSeg t closed pts s)) ∧
    (∀ l, UnitNormal l → polyInterLine t closed (pts.map (mvP d)) (mvL d l) = after (List.map (mvP d)) (polyInterLine t closed pts l)) ∧
    (∀ c, polyInterCircle t closed (pts.map (mvP d)) (mvC d c) = after (List.map (mvP d)) (polyInterCircle t closed pts c)) ∧
    (∀ closed' pts', MoveOkPts t d closed' pts' →
      polyInterPoly t closed (pts.map (mvP d)) closed' (pts'.map (mvP d)) = after (List.map (mvP d)) (polyInterPoly t closed pts closed' pts')) ∧
    isSimple (segInterB t) closed (pts.map (mvP d)) = isSimple (segInterB t) closed pts :=
  ⟨fun _ hs => polyInterSeg_mv d ht h hs, fun _ hl => polyInterLine_mv d ht h hl, fun c => polyInterCircle_mv d h c, fun _ _ h' => polyInterPoly_mv d ht h h', isSimple_mv d ht h⟩

/-- **C157, sets of points.** Bounding box, extreme points with their indexes and convex hull, whatever the slopes (and, for the hull, whatever the sort does with ties). -/
theorem C157_points (t : Thr ℝ) (d : Pt ℝ) (pts : List (Pt ℝ)) :
    polyGetBB t (pts.map (mvP d)) = after (mvR d) (polyGetBB t pts) ∧
    (∀ dir, getExtremePoint dir (pts.map (mvP d)) = after (fun r => (mvP d r.1, r.2)) (getExtremePoint dir pts)) ∧
    (∀ srt thr, convexHull srt thr (samePt t.nullDistance) (pts.map (mvP d)) = after (List.map (mvP d)) (convexHull srt thr (samePt t.nullDistance) pts)) :=
  ⟨polyBB_mv d t pts, fun dir => extreme_mv d dir pts, fun srt thr => hull_mv d srt thr (same_mv d t.nullDistance) pts⟩

/-- **C157, inside.** Whether the point is inside the polygon, in any case: also when the function gives up. -/
theorem C157_inside (t : Thr ℝ) (ht : 0 < t.nullAngleValue) (d : Pt ℝ) (closed : Bool) (pts : List (Pt ℝ)) (h : MoveOkPts t d closed pts) (p : Pt ℝ) (hr : MoveOkRefs t d pts p) :
    ptInsidePoly t closed (pts.map (mvP d)) (mvP d p) = ptInsidePoly t closed pts p := insidePoly_mv d ht h hr

/-- **C157, rectangles.** Their intersection points, the rectangle common to both and the polygon that is their union: whatever the rectangles, as their sides are horizontal and vertical. -/
theorem C157_rectangles (t : Thr ℝ) (ht : 0 < t.nullAngleValue) (hd : t.nullDenom ≤ 1) (d : Pt ℝ) (a b : FRect ℝ) :
    rectInter t (mvR d a) (mvR d b) = after (List.map (mvP d)) (rectInter t a b) ∧
    intersectArea t (mvR d a) (mvR d b) = after (Option.map (mvR d)) (intersectArea t a b) ∧
    unionArea t (mvR d a) (mvR d b) = after (List.map (mvP d)) (unionArea t a b) :=
  ⟨rectInter_mv d ht hd a b, intersectArea_mv d ht hd a b, unionArea_mv d ht hd a b⟩

/-- **C157, measures.** Length, area, convexity and centroid of a polyline. -/
theorem C157_measures (t : Thr ℝ) (ht : 0 < t.nullAngleValue) (d : Pt ℝ) (closed : Bool) (pts : List (Pt ℝ)) (h : MoveOkPts t d closed pts) :
    polyLength ptDist closed (pts.map (mvP d)) = polyLength ptDist closed pts ∧
    polyArea (segInterB t) closed (pts.map (mvP d)) = polyArea (segInterB t) closed pts ∧
    isConvex (isSimple (segInterB t) closed (pts.map (mvP d))) (pts.map (mvP d)) = isConvex (isSimple (segInterB t) closed pts) pts ∧
    (signedArea pts ≠ 0 → centroid (segInterB t) closed (pts.map (mvP d)) = after (mvP d) (centroid (segInterB t) closed pts)) := by
  refine ⟨length_mv d closed pts, ?_, ?_, fun ha => ?_⟩
  · unfold polyArea; rw [isSimple_mv d ht h, area_mv]
  · rw [isSimple_mv d ht h, convex_mv]
  · unfold centroid
    rw [isSimple_mv d ht h, after_ite]
    exact if_congr Iff.rfl (congrArg Res.ok (C61_translate pts d.1 d.2 ha)) rfl

/-- **C157, searches.** The indexes given by the searches of the nearest and farthest points and of the closest points of two sets do not change, nor does the distance. -/
theorem C157_searches (t : Thr ℝ) (d q : Pt ℝ) (pts pts' : List (Pt ℝ)) :
    Search.findNearestPoint sqDist (samePt t.nullDistance) (mvP d q) (pts.map (mvP d)) = Search.findNearestPoint sqDist (samePt t.nullDistance) q pts ∧
    Search.findFarthestPoint sqDist (samePt t.nullDistance) (mvP d q) (pts.map (mvP d)) = Search.findFarthestPoint sqDist (samePt t.nullDistance) q pts ∧
    Search.findNearestFarthestPoint sqDist (samePt t.nullDistance) (mvP d q) (pts.map (mvP d)) = Search.findNearestFarthestPoint sqDist (samePt t.nullDistance) q pts ∧
    Search.getClosestPoints sqDist (pts.map (mvP d)) (pts'.map (mvP d)) = Search.getClosestPoints sqDist pts pts' :=
  ⟨findPoint_mv (sqDist_mv d) (same_mv d _) .min q pts, findPoint_mv (sqDist_mv d) (same_mv d _) .max q pts, findNF_mv (sqDist_mv d) (same_mv d _) q pts, closest_mv (sqDist_mv d) pts pts'⟩

/-- **C157, the condition is needed.** For two points that give a line in the narrow band of slopes, the line through the points moved to the right is not the moved line: its last coefficient is wrong. -/
theorem C157_sharp (t : Thr ℝ) (h0 : 0 < t.nullDenom) (h1 : t.nullDistance ≤ 1) :
    ∃ d p q l l', lineOfPts t (mkPt p.1 p.2) (mkPt q.1 q.2) = .ok l ∧ lineOfPts t (mkPt (mvP d p).1 (mvP d p).2) (mkPt (mvP d q).1 (mvP d q).2) = .ok l' ∧
      l' 0 = mvL d l 0 ∧ l' 1 = mvL d l 1 ∧ l' 2 ≠ mvL d l 2 := by
  obtain ⟨e, he, hs⟩ := small_slope h0
  have hz := line_band h1 he hs 0
  rw [zero_add] at hz
  refine ⟨(1, 0), (0, 0), (1, e), _, _, hz, line_band' h1 he hs 1, rfl, rfl, ?_⟩
  have : 0 < e / Real.sqrt (e * e + 1) := div_pos he (Real.sqrt_pos.2 (by positivity))
  intro h
  rw [mvL_2] at h
  simp at h
  linarith

/-- The hypotheses are met by a triangle, a point inside it and a move that is not vertical, with the standard thresholds. -/
example : MoveOkPts stdR (3, 5) true [(0, 0), (4, 0), (4, 3)] ∧ MoveOkRefs stdR (3, 5) [(0, 0), (4, 0), (4, 3)] (3, 1) ∧ 0 < stdR.nullAngleValue ∧
    (∀ p ∈ [((0, 0) : Pt ℝ), (4, 0), (4, 3)], ∀ q ∈ [((0, 0) : Pt ℝ), (4, 0), (4, 3)], MoveOkBoth stdR (3, 5) p q) :=
  ⟨triangle_ok, triangle_refs, by norm_num [stdR], triangle_both⟩

/-- The other hypotheses too. -/
example : 0 < stdR.nullDenom ∧ stdR.nullDenom ≤ 1 ∧ stdR.nullDistance ≤ 1 ∧ signedArea [((0, 0) : Pt ℝ), (4, 0), (4, 3)] ≠ 0 := by norm_num [stdR, signedArea, cycPairs]

end H2d.Props
