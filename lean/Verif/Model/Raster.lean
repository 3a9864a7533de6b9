import Verif.Model.SvgDoc
import Verif.Model.Exchange

/-!
# Drawing on an OpenCV image: the calls made to the drawing functions of OpenCV

What the functions of OpenCV do with the pixels (`cv::line`, `cv::circle`, `cv::rectangle`, `cv::ellipse`, `cv::putText`) is outside of the repository.
`cvRound` is the conversion of OpenCV from `double` to `int`. The conversion to `float` in the drawing of points is not modelled.
-/

namespace H2d.Raster
open H2d

/-- The last arguments of the calls: color, thickness, antialiased (`cv::LINE_AA`) or not; `cvColor()` (homog2d.hpp:660-663) gives the components in the order b, g, r, here r, g, b. -/
structure Look where
  color : Nat × Nat × Nat
  thickness : Int
  aa : Bool
  deriving DecidableEq

/-- Calls to OpenCV. The strings of the texts are not modelled. -/
inductive Prim where
  | line (a b : ℤ × ℤ) (k : Look)
  | circle (c : ℤ × ℤ) (r : ℤ) (k : Look)
  | rectangle (a b : ℤ × ℤ) (k : Look)
  | ellipse (c size : ℤ × ℤ) (deg : ℝ) (k : Look)
  | text (p : ℤ × ℤ)

/-- `dp.cvColor(), dp._dpValues._lineThickness, dp._dpValues._lineType==1?cv::LINE_AA:cv::LINE_8` (homog2d.hpp:11855-11857, 11878-11880, 11917-11919). -/
def lookOf (dp : Draw.Vals) : Look := ⟨dp.color, dp.lineThickness, dp.lineType == 1⟩

/-- A drawing: how it ends, and the calls made. -/
abbrev Drawn := Res Unit × List Prim

/-- Some calls. -/
def put (l : List Prim) : Drawn := (.ok (), l)

/-- One drawing after another: an exception stops it, what was drawn before stays. -/
def andThen (a b : Drawn) : Drawn :=
  match a.1 with
  | .ok _ => (b.1, a.2 ++ b.2)
  | r => (r, a.2)

/-- A computation made before a call. -/
def compute {α : Type} (r : Res α) (k : α → Drawn) : Drawn :=
  match r with
  | .ok x => k x
  | .throw => (.throw, [])
  | .ub => (.ub, [])

/-- Drawings one after the other. -/
def inOrder : List Drawn → Drawn
  | [] => put []
  | d :: l => andThen d (inOrder l)

/-- The three functions that call each other: drawing of a point, of a circle, of a segment. -/
inductive Job where
  | point (p : Pt ℝ)
  | circle (c : Circle)
  | seg (s : Seg)

/-- What is needed besides the object and the drawing parameters: thresholds, value of `thr::doNotCheckRadius()`, conversion of OpenCV, size of the image. -/
structure Ctx where
  t : Thr ℝ
  flag : Bool
  cvRound : ℝ → ℤ
  cols : Nat
  rows : Nat

/-- Drawing of a point (homog2d.hpp:11748-11789; strokes of 11378-11439, drawn without their points), of a circle (11908-11925: `getCvPti()` of the center, radius truncated;
its center is drawn with the style `Plus`), of a segment (11871-11904, non oriented).
These functions call each other: the first argument is the number of calls that may be pending, `ub` stands for a recursion that goes further.
Simplified: the strokes of a point are all built before the first one is drawn. -/
noncomputable def run (x : Ctx) : Nat → Draw.Vals → Job → Drawn
  | 0, _, _ => (.ub, [])
  | n+1, dp, .point p =>
      compute (Svg.pointMark x.t x.flag x.cols x.rows dp p) (fun m =>
        match m with
        | .nothing => put []
        | .dot c => run x n dp (.circle c)
        | .strokes l => inOrder (l.map (fun s => run x n { dp with showPoints := false } (.seg s))))
  | n+1, dp, .circle c =>
      compute (cvPti c.center) (fun q => compute (toInt c.radius) (fun r =>
        andThen (put [.circle q r (lookOf dp)]) (if dp.showPoints then run x n { dp with style := 0 } (.point c.center) else put [])))
  | n+1, dp, .seg s =>
      andThen (put [.line (cvPtd x.cvRound s.1) (cvPtd x.cvRound s.2) (lookOf dp)])
        (if dp.showPoints then andThen (run x n dp (.point s.1)) (run x n dp (.point s.2)) else put [])

/-- `FRect_::draw()` (homog2d.hpp:11847-11864). -/
noncomputable def drawRect (x : Ctx) (n : Nat) (dp : Draw.Vals) (r : FRect ℝ) : Drawn :=
  compute (cvPti r.p1) (fun a => compute (cvPti r.p2) (fun b =>
    andThen (put [.rectangle a b (lookOf dp)]) (if dp.showPoints then andThen (run x n dp (.point r.p1)) (run x n dp (.point r.p2)) else put [])))

/-- `SegVec::draw()` of an oriented segment (homog2d.hpp:11871-11896): its points are not drawn. -/
noncomputable def drawOSeg (x : Ctx) (dp : Draw.Vals) (s : Seg) : Drawn :=
  let line := fun (q : Pt ℝ × Pt ℝ) => Prim.line (cvPtd x.cvRound q.1) (cvPtd x.cvRound q.2) (lookOf dp)
  andThen (put [line s]) (compute (arrowSegs x.t s) (fun a => put [line a.1, line a.2.1, line a.2.2]))

/-- `Ellipse_::draw()` (homog2d.hpp:11932-11947). -/
noncomputable def drawEllipse (x : Ctx) (dp : Draw.Vals) (e : Ell) : Drawn :=
  compute (Ell.params x.t e.m) (fun par => compute (cvPti (par.x0, par.y0)) (fun c => compute (cvPti (par.a, par.b)) (fun sz =>
    put [.ellipse c sz (par.theta * 180 / Real.pi) (lookOf dp)])))

open Classical in
/-- `PolylineBase::draw()` (homog2d.hpp:11953-12006): the segments (with their points), the first point again with another color and the next style, the indexes, the angles
(`pts[i+1]` for the consecutive segments, then `pts[0]` if closed; `drawText()` 12058-12068 uses `getCvPtd()`). The computation of the angles is not modelled. -/
noncomputable def drawPoly (x : Ctx) (n : Nat) (dp : Draw.Vals) (closed : Bool) (pts : List (Pt ℝ)) : Drawn :=
  match pts with
  | p0 :: _ :: _ =>
    andThen (inOrder ((segPairs closed pts).map (fun q => compute (segMake x.t false q.1 q.2) (fun s => run x n dp (.seg s)))))
      (andThen (if dp.showPoints then run x n { dp with color := (10, 10, 10), style := Draw.nextPointStyle dp.style } (.point p0) else put [])
        (andThen (if dp.showIndex then inOrder (pts.map (fun p => compute (cvPti p) (fun q => put [.text q]))) else put [])
          (if dp.showAngles then
            compute (getOSegs (fun a b => decide (PtEq x.t a b)) closed pts) (fun osegs =>
              put (((osegs.tail.map (·.1)) ++ (if closed then [p0] else [])).map (fun p => Prim.text (cvPtd x.cvRound p))))
          else put [])))
  | _ => put []

/-- Drawing of an object on the image (homog2d.hpp:889-894, 4433-4436); line: 11717-11740, drawn as a segment without its points. -/
noncomputable def drawItem (x : Ctx) (n : Nat) (dp : Draw.Vals) : Svg.Item → Drawn
  | .point p => run x n dp (.point p)
  | .line l => compute (lineDrawn x.t x.cols x.rows l) (fun s =>
    match s with
    | none => put []
    | some s => run x n { dp with showPoints := false } (.seg s))
  | .circle c => run x n dp (.circle c)
  | .rect r => drawRect x n dp r
  | .seg s => run x n dp (.seg s)
  | .oseg s => drawOSeg x dp s
  | .poly closed pts => drawPoly x n dp closed pts
  | .ell e => drawEllipse x dp e

end H2d.Raster
