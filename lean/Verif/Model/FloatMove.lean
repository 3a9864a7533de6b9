import Verif.Model.FloatPip
import Verif.Model.Rotate

/-!
# Moves of polylines and rectangles with rounded operations

Same conventions as in `FloatGeom`. Changes of sign are exact.
-/

namespace H2d

/-- Public operations that move a polyline. -/
inductive PolyMove where
  | translate (dx dy : ℝ)                 -- `translate( dx, dy )` (homog2d.hpp:6415-6421)
  | moveTo (org : Pt ℝ)                   -- `moveTo( pt )` (homog2d.hpp:6444-6452)
  | rotate (rot : Rotate)                 -- `rotate( rot )` (homog2d.hpp:7287-7314)
  | rotateRef (rot : Rotate) (ref : Pt ℝ) -- `rotate( rot, pt )` (homog2d.hpp:7269-7274)

namespace Fl

variable (F : Arith)

/-- `PolylineBase::translate` (homog2d.hpp:6415-6421) on the vector of points. -/
def polyTranslate (dx dy : ℝ) (pts : List (Pt ℝ)) : List (Pt ℝ) := pts.map fun p => ptTranslate F p dx dy

/-- One operation on the vector of points (homog2d.hpp:6415-6421, 6444-6452, 7269-7274, 7287-7314). `moveTo` throws if there is no point. -/
def moveRes (pts : List (Pt ℝ)) : PolyMove → Res (List (Pt ℝ))
  | .translate dx dy => .ok (polyTranslate F dx dy pts)
  | .moveTo org =>
    match pts with
    | [] => .throw
    | p :: _ => .ok (polyTranslate F (F.rnd (org.1 - p.1)) (F.rnd (org.2 - p.2)) pts)
  | .rotate rot => .ok (polyRotate rot pts)
  | .rotateRef rot ref => .ok (polyTranslate F ref.1 ref.2 (polyRotate rot (polyTranslate F (-ref.1) (-ref.2) pts)))

/-- The points after an operation, unchanged if it throws (homog2d.hpp:6446-6447: before any change). -/
def moveExec (pts : List (Pt ℝ)) (op : PolyMove) : List (Pt ℝ) :=
  match moveRes F pts op with
  | .ok l => l
  | _ => pts

/-- The points after a history of operations (homog2d.hpp:6415-6452, 7269-7314). -/
def moveRun (pts : List (Pt ℝ)) (ops : List PolyMove) : List (Pt ℝ) := ops.foldl (moveExec F) pts

/-- `FRect_::rotate( Rotate )` (homog2d.hpp:7651-7656). -/
noncomputable def rectRotate (t : Thr ℝ) (rot : Rotate) (r : FRect ℝ) : Res (FRect ℝ) := polyGetBB F t (polyRotate rot r.get4Pts)

/-- The rectangle after one operation, whether it throws or not: as `RectOp.exec` (homog2d.hpp:2704-2712, 2765-2770, 2845-2851, 2886-2896, 7627-7632, 7651-7656).
Simplified: the product by `0.5L` is done in the type of the coordinates. -/
noncomputable def rectExec (t : Thr ℝ) (r : FRect ℝ) : RectOp ℝ → FRect ℝ
  | .set pa pb => keepIfThrow r (rectOfPts F t pa pb)
  | .setCenter p w h => keepIfThrow r (rectOfPts F t (F.rnd (p.1 - F.rnd (1 / 2 * w)), F.rnd (p.2 - F.rnd (1 / 2 * h))) (F.rnd (p.1 + F.rnd (1 / 2 * w)), F.rnd (p.2 + F.rnd (1 / 2 * h))))
  | .translate dx dy => rectTranslate F r dx dy
  | .rotate rot => keepIfThrow r (rectRotate F t rot r)
  | .rotateRef rot ref =>
      let r1 := rectTranslate F r (-ref.1) (-ref.2)
      match rectRotate F t rot r1 with
      | .ok r2 => rectTranslate F r2 ref.1 ref.2
      | _ => r1
  | .extend => keepIfThrow r (getExtended F t r)

/-- A history of operations (homog2d.hpp:2704-2896, 7627-7656). -/
noncomputable def rectRun (t : Thr ℝ) (r : FRect ℝ) (ops : List (RectOp ℝ)) : FRect ℝ := ops.foldl (rectExec F t) r

end Fl
end H2d
