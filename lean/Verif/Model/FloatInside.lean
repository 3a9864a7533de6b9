import Verif.Model.FloatPip
import Verif.Model.Inside

/-!
# Intersections of polylines, containment in a polygon, with rounded operations

As in `Verif.Model.Inside`, with the rounded operations of `Verif.Model.FloatPip`, `FloatInter`.
-/

namespace H2d.Fl

variable (F : Arith)

/-- Polyline/segment intersection (homog2d.hpp:6572-6582 with a segment), from the segments of the polyline. -/
noncomputable def segsInterSeg (t : Thr ℝ) (ac : ℝ → ℝ) (s : Seg) : List Seg → Res (List (Pt ℝ)) := concatRes (fun e => do
  let i ← segInter F t ac e s
  pure i.toList)

/-- Polyline/polyline intersection (homog2d.hpp:6572-6582 with a polyline, 5328-5332): for each segment of the first one, in order, the intersections
of the second one with it. -/
noncomputable def segsInterSegs (t : Thr ℝ) (ac : ℝ → ℝ) (other : List Seg) : List Seg → Res (List (Pt ℝ)) := concatRes (fun e => segsInterSeg F t ac e other)

/-- `intersects()` of a polyline and a segment (homog2d.hpp:6572-6582, 5328-5332). -/
noncomputable def polyInterSeg (t : Thr ℝ) (ac : ℝ → ℝ) (closed : Bool) (pts : List (Pt ℝ)) (s : Seg) : Res (List (Pt ℝ)) := do
  let segs ← polySegs F t (segPairs closed pts)
  segsInterSeg F t ac s segs

/-- `intersects()` of two polylines (homog2d.hpp:6572-6582): the segments of the second one are built again for each segment of the first one. -/
noncomputable def polyInterPoly (t : Thr ℝ) (ac : ℝ → ℝ) (closed : Bool) (pts : List (Pt ℝ)) (closed' : Bool) (pts' : List (Pt ℝ)) : Res (List (Pt ℝ)) := do
  let segs ← polySegs F t (segPairs closed pts)
  match segs with
  | [] => pure []
  | segs => do
    let segs' ← polySegs F t (segPairs closed' pts')
    segsInterSegs F t ac segs' segs

/-- Loop of `SegVec::isInside( CPolyline_ )` (homog2d.hpp:5185-5188): no segment intersects. -/
noncomputable def noInter (t : Thr ℝ) (ac : ℝ → ℝ) (s : Seg) : List Seg → Res Bool := allRes (fun e => do
  let i ← segInter F t ac e s
  pure i.isNone)

/-- `SegVec::isInside( CPolyline_ )` (homog2d.hpp:5179-5189). -/
noncomputable def segInPoly (t : Thr ℝ) (ac : ℝ → ℝ) (pts : List (Pt ℝ)) (s : Seg) : Res Bool := do
  if ← allRes (ptInsidePoly F t ac true pts) [s.1, s.2] then do
    let segs ← polySegs F t (segPairs true pts)
    noInter F t ac s segs
  else pure false

/-- `PolylineBase::isInside( CPolyline_ )` (homog2d.hpp:6615-6633); `pts` is the inner polyline. -/
noncomputable def polyInPoly (t : Thr ℝ) (ac : ℝ → ℝ) (closed : Bool) (pts outer : List (Pt ℝ)) : Res Bool :=
  if pts.isEmpty then .ok false
  else do
    if ← allRes (ptInsidePoly F t ac true outer) pts then do
      let i ← polyInterPoly F t ac closed pts true outer
      pure i.isEmpty
    else pure false

/-- `FRect_::isInside( CPolyline_ )` (homog2d.hpp:3028-3039, 5327-5332). -/
noncomputable def rectInPoly (t : Thr ℝ) (ac : ℝ → ℝ) (r : FRect ℝ) (outer : List (Pt ℝ)) : Res Bool := do
  let rs ← rectSegs F t r
  if ← allRes (fun s => do
      let i ← polyInterSeg F t ac true outer s
      pure i.isEmpty) rs then allRes (ptInsidePoly F t ac true outer) r.get4Pts
  else pure false

end H2d.Fl
