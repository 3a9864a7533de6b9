import Verif.Model.Pip
import Verif.Model.Circle
import Verif.Model.Ellipse

/-!
# Containment of an object in another one, and intersections of polylines, over the reals
-/

namespace H2d

/-- Loop `for( e: v ) if( !f(e) ) return false; return true;`. -/
def allRes {α : Type} (f : α → Res Bool) : List α → Res Bool
  | [] => .ok true
  | a :: l => do
    if ← f a then allRes f l else pure false

/-- The shapes, other than polylines, in which a point can be. -/
inductive Shape where
  | circle (c : Circle)
  | rect (r : FRect ℝ)
  | ell (e : Ell)

open Classical in
/-- `Point2d_::isInside()` for circles (homog2d.hpp:4369-4390), rectangles (9298-9307), ellipses (9435-9445). -/
noncomputable def ptInShape (t : Thr ℝ) : Shape → Pt ℝ → Res Bool
  | .circle c, p => .ok (decide (PtInCircle p c))
  | .rect r, p => .ok (Pt.isInsideRect p r)
  | .ell e, p => e.pointIsInside t p

/-- `SegVec::isInside()` for circles, rectangles, ellipses (homog2d.hpp:5133-5166). -/
noncomputable def segInShape (t : Thr ℝ) (s : Seg) (sh : Shape) : Res Bool := allRes (ptInShape t sh) [s.1, s.2]

/-- `FRect_::isInside()` for circles, rectangles, ellipses (homog2d.hpp:3006-3014). -/
noncomputable def rectInShape (t : Thr ℝ) (r : FRect ℝ) (sh : Shape) : Res Bool := allRes (ptInShape t sh) r.get4Pts

/-- `PolylineBase::isInside()` for circles, rectangles, ellipses (homog2d.hpp:6588-6609). -/
noncomputable def polyInShape (t : Thr ℝ) (pts : List (Pt ℝ)) (sh : Shape) : Res Bool :=
  if pts.isEmpty then .ok false else allRes (ptInShape t sh) pts

/-- Loop of `intersects()` of a polyline (homog2d.hpp:6575-6580): the points found for each segment, in order. -/
def concatRes {α β : Type} (f : α → Res (List β)) : List α → Res (List β)
  | [] => .ok []
  | e :: l => do
    let i ← f e
    let r ← concatRes f l
    pure (i ++ r)

/-- Polyline/segment intersection (homog2d.hpp:6572-6582 with a segment), from the segments of the polyline. -/
noncomputable def segsInterSeg (t : Thr ℝ) (s : Seg) : List Seg → Res (List (Pt ℝ)) := concatRes (fun e => do
  let i ← segInter t e s
  pure i.toList)

/-- Polyline/line intersection (homog2d.hpp:6572-6582 with a line). -/
noncomputable def segsInterLine (t : Thr ℝ) (li : V3 ℝ) : List Seg → Res (List (Pt ℝ)) := concatRes (fun e => do
  let i ← segLineInter t e li
  pure i.toList)

/-- Polyline/circle intersection (homog2d.hpp:6572-6582 with a circle). -/
noncomputable def segsInterCircle (t : Thr ℝ) (c : Circle) : List Seg → Res (List (Pt ℝ)) := concatRes (fun e => segCircle t e c.center c.radius)

/-- Polyline/polyline intersection (homog2d.hpp:6572-6582 with a polyline, 5328-5332): for each segment of the first one, in order, the intersections
of the second one with it. -/
noncomputable def segsInterSegs (t : Thr ℝ) (other : List Seg) : List Seg → Res (List (Pt ℝ)) := concatRes (fun e => segsInterSeg t e other)

/-- `intersects()` of a polyline and a segment (homog2d.hpp:6572-6582, 5328-5332). -/
noncomputable def polyInterSeg (t : Thr ℝ) (closed : Bool) (pts : List (Pt ℝ)) (s : Seg) : Res (List (Pt ℝ)) := do
  let segs ← polySegs t (segPairs closed pts)
  segsInterSeg t s segs

/-- `intersects()` of a polyline and a line (homog2d.hpp:6572-6582). -/
noncomputable def polyInterLine (t : Thr ℝ) (closed : Bool) (pts : List (Pt ℝ)) (li : V3 ℝ) : Res (List (Pt ℝ)) := do
  let segs ← polySegs t (segPairs closed pts)
  segsInterLine t li segs

/-- `intersects()` of a polyline and a circle (homog2d.hpp:6572-6582, 3497-3502). -/
noncomputable def polyInterCircle (t : Thr ℝ) (closed : Bool) (pts : List (Pt ℝ)) (c : Circle) : Res (List (Pt ℝ)) := do
  let segs ← polySegs t (segPairs closed pts)
  segsInterCircle t c segs

/-- `intersects()` of two polylines (homog2d.hpp:6572-6582): the segments of the second one are built again for each segment of the first one. -/
noncomputable def polyInterPoly (t : Thr ℝ) (closed : Bool) (pts : List (Pt ℝ)) (closed' : Bool) (pts' : List (Pt ℝ)) : Res (List (Pt ℝ)) := do
  let segs ← polySegs t (segPairs closed pts)
  match segs with
  | [] => pure []
  | segs => do
    let segs' ← polySegs t (segPairs closed' pts')
    segsInterSegs t segs' segs

/-- Loop of `SegVec::isInside( CPolyline_ )` (homog2d.hpp:5185-5188): no segment intersects. -/
noncomputable def noInter (t : Thr ℝ) (s : Seg) : List Seg → Res Bool := allRes (fun e => do
  let i ← segInter t e s
  pure i.isNone)

/-- `SegVec::isInside( CPolyline_ )` (homog2d.hpp:5179-5189). -/
noncomputable def segInPoly (t : Thr ℝ) (pts : List (Pt ℝ)) (s : Seg) : Res Bool := do
  if ← allRes (ptInsidePoly t true pts) [s.1, s.2] then do
    let segs ← polySegs t (segPairs true pts)
    noInter t s segs
  else pure false

/-- `PolylineBase::isInside( CPolyline_ )` (homog2d.hpp:6615-6633); `pts` is the inner polyline. -/
noncomputable def polyInPoly (t : Thr ℝ) (closed : Bool) (pts outer : List (Pt ℝ)) : Res Bool :=
  if pts.isEmpty then .ok false
  else do
    if ← allRes (ptInsidePoly t true outer) pts then do
      let i ← polyInterPoly t closed pts true outer
      pure i.isEmpty
    else pure false

/-- `FRect_::isInside( CPolyline_ )` (homog2d.hpp:3028-3039, 5327-5332). -/
noncomputable def rectInPoly (t : Thr ℝ) (r : FRect ℝ) (outer : List (Pt ℝ)) : Res Bool := do
  let rs ← rectSegs t r
  if ← allRes (fun s => do
      let i ← polyInterSeg t true outer s
      pure i.isEmpty) rs then allRes (ptInsidePoly t true outer) r.get4Pts
  else pure false

open Classical in
/-- `Circle_::isInside( PolylineBase )` (homog2d.hpp:5774-5789). `poly.getPts()[0]` exists as the polyline is simple. -/
noncomputable def circInPoly (t : Thr ℝ) (closed : Bool) (pts : List (Pt ℝ)) (c : Circle) : Res Bool :=
  if !isSimple (segInterB t) closed pts then .ok false
  else
    match pts with
    | [] => .ub
    | v :: _ =>
      if PtInCircle v c then .ok false
      else do
        if ← ptInsidePoly t closed pts c.center then do
          let i ← polyInterCircle t closed pts c
          pure i.isEmpty
        else pure false

end H2d
