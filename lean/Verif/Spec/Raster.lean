import Verif.Model.Raster
import Verif.Spec.Exchange

/-! # Vocabulary for drawings on an OpenCV image -/

namespace H2d.Spec
open H2d H2d.Raster

/-- The value can be converted to an `int`. -/
def IntSized (v : ℝ) : Prop := |v| < 2 ^ 31

/-- The pixel that is the nearest to the point. -/
def NearPix (a : ℤ × ℤ) (p : Pt ℝ) : Prop := |(a.1 : ℝ) - p.1| ≤ 1 / 2 ∧ |(a.2 : ℝ) - p.2| ≤ 1 / 2

/-- The pixel got by dropping the decimals: at less than one pixel, on the side of the origin. -/
def TruncPix (a : ℤ × ℤ) (p : Pt ℝ) : Prop := |(a.1 : ℝ) - p.1| < 1 ∧ |(a.1 : ℝ)| ≤ |p.1| ∧ |(a.2 : ℝ) - p.2| < 1 ∧ |(a.2 : ℝ)| ≤ |p.2|

/-- The call draws the segment between two points, in one direction or the other, with a given look. -/
def ShowsSeg (k : Look) (s : Pt ℝ × Pt ℝ) (c : Prim) : Prop :=
  ∃ a b, c = .line a b k ∧ ((NearPix a s.1 ∧ NearPix b s.2) ∨ (NearPix a s.2 ∧ NearPix b s.1))

/-- The color, thickness and line type of the drawing parameters; line type 1 is antialiased. -/
def askedLook (dp : Draw.Vals) : Look where
  color := dp.color
  thickness := dp.lineThickness
  aa := decide (dp.lineType = 1)

/-- The look that a call uses (none for a text). -/
def callLook : Prim → Option Look
  | .line _ _ k => some k
  | .circle _ _ k => some k
  | .rectangle _ _ k => some k
  | .ellipse _ _ _ k => some k
  | .text _ => none

/-- Where texts are written, in the order of the calls. -/
def textsAt : List Prim → List (ℤ × ℤ)
  | [] => []
  | .text p :: l => p :: textsAt l
  | _ :: l => textsAt l

/-- The points where two consecutive segments of a polyline meet, in order; the first point comes last, if the polyline is closed. -/
def corners (closed : Bool) : List (Pt ℝ) → List (Pt ℝ)
  | [] => []
  | p :: l => if closed then l ++ [p] else l.dropLast

/-- The point is in the image. -/
def InPixels (x : Ctx) (p : Pt ℝ) : Prop := 0 ≤ p.1 ∧ p.1 < x.cols ∧ 0 ≤ p.2 ∧ p.2 < x.rows

/-- The two ends of a stroke, or a dot, around a point. -/
def MarkAround (dp : Draw.Vals) (p : Pt ℝ) (c : Prim) : Prop :=
  (∃ a b k, c = .line a b k ∧ |(a.1 : ℝ) - p.1| ≤ dp.ptDelta + 1 / 2 ∧ |(a.2 : ℝ) - p.2| ≤ dp.ptDelta + 1 / 2 ∧
    |(b.1 : ℝ) - p.1| ≤ dp.ptDelta + 1 / 2 ∧ |(b.2 : ℝ) - p.2| ≤ dp.ptDelta + 1 / 2) ∨
  (∃ q k, c = .circle q dp.pointSize k ∧ TruncPix q p)

/-- The values are in the ranges that the public functions allow (style of the points, size of the points, size of the image), and the coordinates that are dropped to
integers can be converted. -/
def Drawable (x : Ctx) (dp : Draw.Vals) (i : Svg.Item) : Prop :=
  (dp.style.val ≤ 5 ∧ IntSized dp.pointSize ∧ x.cols ≤ 2 ^ 31 ∧ x.rows ≤ 2 ^ 31) ∧
  match i with
  | .point _ => True
  | .line _ => 2 < x.cols ∧ 2 < x.rows
  | .circle c => IntSized c.center.1 ∧ IntSized c.center.2 ∧ IntSized c.radius
  | .rect r => IntSized r.p1.1 ∧ IntSized r.p1.2 ∧ IntSized r.p2.1 ∧ IntSized r.p2.2
  | .seg _ => True
  | .oseg _ => True
  | .poly _ pts => dp.showIndex = true → ∀ p ∈ pts, IntSized p.1 ∧ IntSized p.2
  | .ell e => ∀ par, Ell.params x.t e.m = .ok par → IntSized par.x0 ∧ IntSized par.y0 ∧ IntSized par.a ∧ IntSized par.b

end H2d.Spec
