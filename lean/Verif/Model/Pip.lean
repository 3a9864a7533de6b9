import Verif.Model.RectArea
import Verif.Model.BB

/-!
# Point inside a polygon, over the reals
-/

namespace H2d

/-- `getSegs()` of a polyline (homog2d.hpp:6317-6320, 6000-6017) from the pairs of points: the constructor orders the ends, and throws for equal points. -/
noncomputable def polySegs (t : Thr ℝ) : List (Pt ℝ × Pt ℝ) → Res (List Seg)
  | [] => .ok []
  | e :: l => do
    let s ← segMake t false e.1 e.2
    let r ← polySegs t l
    pure (s :: r)

open Classical in
/-- Step 2 of `impl_isInsidePoly` (homog2d.hpp:9371-9373): the point is close to the *supporting line* of one of the segments. -/
noncomputable def nearLine (t : Thr ℝ) (p : Pt ℝ) : List Seg → Res Bool
  | [] => .ok false
  | s :: l => do
    let li ← segLine t s
    if lineDist li p < t.nullDistance then pure true else nearLine t p l

/-- Number of segments that intersect the reference segment (homog2d.hpp:9395-9400). -/
noncomputable def pipCount (t : Thr ℝ) (ref : Seg) : List Seg → Res Nat
  | [] => .ok 0
  | s :: l => do
    let i ← segInter t s ref
    let c ← pipCount t ref l
    pure (c + if i.isSome then 1 else 0)

open Classical in
/-- Loop on the segments of the extended bounding box (homog2d.hpp:9382-9403). `tooClose` is not reset between two segments, as in the code.
`none`: no answer was found. The vertex loop (9387-9392) stops at the first vertex that is too close, this does not change `tooClose`. -/
noncomputable def pipTry (t : Thr ℝ) (pts : List (Pt ℝ)) (segs : List Seg) (p : Pt ℝ) : List Seg → Bool → Res (Option Bool)
  | [], _ => .ok none
  | s :: l, tooClose => do
    let ref ← segMake t false p (segCenter s)
    let tooClose' := tooClose || pts.any (fun v => decide ((segDistTo ref v).1 < t.nullDistance))
    if tooClose' then pipTry t pts segs p l tooClose'
    else do
      let c ← pipCount t ref segs
      pure (some (decide (c % 2 = 1)))

/-- All the segments are split in two (homog2d.hpp:9409-9416, 5350-5357). -/
noncomputable def splitAll (t : Thr ℝ) : List Seg → Res (List Seg)
  | [] => .ok []
  | s :: l => do
    let ab ← segSplit t false s
    let r ← splitAll t l
    pure (ab.1 :: ab.2 :: r)

/-- The `do` loop (homog2d.hpp:9378-9421); the first argument is the number of iterations left. -/
noncomputable def pipLoop (t : Thr ℝ) (pts : List (Pt ℝ)) (segs : List Seg) (p : Pt ℝ) : Nat → List Seg → Res Bool
  | 0, _ => .throw
  | n + 1, bb => do
    match ← pipTry t pts segs p bb false with
    | some b => pure b
    | none =>
      if n = 0 then .throw
      else do
        let bb' ← splitAll t bb
        pipLoop t pts segs p n bb'

/-- `Point2d_::isInside( CPolyline_ )` (homog2d.hpp:4398-4402, 9360-9423). `HOMOG2D_MAXITER_PIP` is 5 (227).
Not modelled: the exception of `getSegment` inside `isSimple`, see `isSimple`; the caches, see `Verif.Model.PolyState`. -/
noncomputable def ptInsidePoly (t : Thr ℝ) (closed : Bool) (pts : List (Pt ℝ)) (p : Pt ℝ) : Res Bool :=
  if !isSimple (segInterB t) closed pts then .ok false
  else do
    let bbox ← polyGetBB t pts
    if !Pt.isInsideRect p bbox then pure false
    else do
      let segs ← polySegs t (segPairs closed pts)
      if ← nearLine t p segs then pure false
      else do
        let ext ← bbox.getExtended t.nullOrthogDistance
        let bb ← rectSegs t ext
        pipLoop t pts segs p 5 bb

end H2d
