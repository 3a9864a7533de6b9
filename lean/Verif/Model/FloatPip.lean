import Verif.Model.Simple
import Verif.Model.FloatInter
import Verif.Model.Pip

/-!
# Point inside a polygon with rounded operations

As in `Verif.Model.Pip`, with the rounded operations of `Verif.Model.FloatGeom`, `FloatInter`, `FloatCross`.
-/

namespace H2d.Fl

variable (F : Arith)

/-- `getSegs()` of a polyline (homog2d.hpp:6317-6320, 6000-6017) from the pairs of points. -/
noncomputable def polySegs (t : Thr ℝ) : List (Pt ℝ × Pt ℝ) → Res (List Seg)
  | [] => .ok []
  | e :: l => do
    let s ← segMake F t e.1 e.2
    let r ← polySegs t l
    pure (s :: r)

open Classical in
/-- Step 2 of `impl_isInsidePoly` (homog2d.hpp:9371-9373). -/
noncomputable def nearLine (t : Thr ℝ) (p : Pt ℝ) : List Seg → Res Bool
  | [] => .ok false
  | s :: l => do
    let li ← lineOfPts F t s.1 s.2
    if lineDist F li p < t.nullDistance then pure true else nearLine t p l

/-- Number of segments that intersect the reference segment (homog2d.hpp:9395-9400). -/
noncomputable def pipCount (t : Thr ℝ) (ac : ℝ → ℝ) (ref : Seg) : List Seg → Res Nat
  | [] => .ok 0
  | s :: l => do
    let i ← segInter F t ac s ref
    let c ← pipCount t ac ref l
    pure (c + if i.isSome then 1 else 0)

/-- The test `poly_pt.distTo(seg_ref) < thr::nullDistance()` (homog2d.hpp:9390): false if the distance is not a number. -/
noncomputable def vertexClose (t : Thr ℝ) (ref : Seg) (v : Pt ℝ) : Bool :=
  match segDistTo F ref.1 ref.2 v with
  | some d => decide (d.1 < t.nullDistance)
  | none => false

/-- Loop on the segments of the extended bounding box (homog2d.hpp:9382-9403), see `H2d.pipTry`. -/
noncomputable def pipTry (t : Thr ℝ) (ac : ℝ → ℝ) (pts : List (Pt ℝ)) (segs : List Seg) (p : Pt ℝ) : List Seg → Bool → Res (Option Bool)
  | [], _ => .ok none
  | s :: l, tooClose => do
    let ref ← segMake F t p (center F s.1 s.2)
    let tooClose' := tooClose || pts.any (vertexClose F t ref)
    if tooClose' then pipTry t ac pts segs p l tooClose'
    else do
      let c ← pipCount F t ac ref segs
      pure (some (decide (c % 2 = 1)))

/-- All the segments are split in two (homog2d.hpp:9409-9416, 5350-5357). -/
noncomputable def splitAll (t : Thr ℝ) : List Seg → Res (List Seg)
  | [] => .ok []
  | s :: l => do
    let a ← segMake F t s.1 (center F s.1 s.2)
    let b ← segMake F t (center F s.1 s.2) s.2
    let r ← splitAll t l
    pure (a :: b :: r)

/-- The `do` loop (homog2d.hpp:9378-9421); the first argument is the number of iterations left. -/
noncomputable def pipLoop (t : Thr ℝ) (ac : ℝ → ℝ) (pts : List (Pt ℝ)) (segs : List Seg) (p : Pt ℝ) : Nat → List Seg → Res Bool
  | 0, _ => .throw
  | n + 1, bb => do
    match ← pipTry F t ac pts segs p bb false with
    | some b => pure b
    | none =>
      if n = 0 then .throw
      else do
        let bb' ← splitAll F t bb
        pipLoop t ac pts segs p n bb'

open Classical in
/-- `PolylineBase::getBB()` (homog2d.hpp:6230-6243), `priv::getBB_Points` (5907-5948): comparisons of coordinates are exact, those with the thresholds are done on rounded distances and differences. -/
noncomputable def polyGetBB (t : Thr ℝ) (pts : List (Pt ℝ)) : Res (FRect ℝ) :=
  if pts.length < 2 then .throw
  else
    match pts with
    | [] => .ub
    | x :: xs =>
      let cx : Pt ℝ → Pt ℝ → Bool := fun a b => decide (a.1 < b.1)
      let cy : Pt ℝ → Pt ℝ → Bool := fun a b => decide (a.2 < b.2)
      let p1 : Pt ℝ := ((minElemLoop cx 1 xs x 0).1.1, (minElemLoop cy 1 xs x 0).1.2)
      let p2 : Pt ℝ := ((maxElemLoop cx xs x).1, (maxElemLoop cy xs x).2)
      if PtSame F t p1 p2 then .throw
      else if ShareCoord F t p1 p2 then .throw
      else rectOfPts F t p1 p2

/-- `getExtended()` of a rectangle (homog2d.hpp:2886-2896). -/
noncomputable def getExtended (t : Thr ℝ) (r : FRect ℝ) : Res (FRect ℝ) :=
  rectOfPts F t (F.rnd (F.rnd (r.p1.1 * 2) - r.p2.1), F.rnd (F.rnd (r.p1.2 * 2) - r.p2.2)) (F.rnd (F.rnd (r.p2.1 * 2) - r.p1.1), F.rnd (F.rnd (r.p2.2 * 2) - r.p1.2))

/-- `getSegs()` of a rectangle (homog2d.hpp:2968-2978, 2944-2953). -/
noncomputable def rectSegs (t : Thr ℝ) (r : FRect ℝ) : Res (List Seg) := do
  let s0 ← segMake F t r.p1 (r.p1.1, r.p2.2)
  let s1 ← segMake F t (r.p1.1, r.p2.2) r.p2
  let s2 ← segMake F t r.p2 (r.p2.1, r.p1.2)
  let s3 ← segMake F t (r.p2.1, r.p1.2) r.p1
  pure [s0, s1, s2, s3]

/-- `Point2d_::isInside( CPolyline_ )` (homog2d.hpp:4398-4402, 9360-9423) with rounded operations; the coordinates of a `Segment_<HOMOG2D_INUMTYPE>` are those of the arithmetic `F`. -/
noncomputable def ptInsidePoly (t : Thr ℝ) (ac : ℝ → ℝ) (closed : Bool) (pts : List (Pt ℝ)) (p : Pt ℝ) : Res Bool := do
  let simple ← simpleF F t ac closed pts
  if !simple then pure false
  else do
    let bbox ← polyGetBB F t pts
    if !Pt.isInsideRect p bbox then pure false
    else do
      let segs ← polySegs F t (segPairs closed pts)
      if ← nearLine F t p segs then pure false
      else do
        let ext ← getExtended F t bbox
        let bb ← rectSegs F t ext
        pipLoop F t ac pts segs p 5 bb

end H2d.Fl
