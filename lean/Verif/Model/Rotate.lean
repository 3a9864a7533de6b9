import Verif.Model.BB

/-!
# Quarter turns and mirrors, rectangle histories
-/

namespace H2d

variable {K : Type}

/-- `enum class Rotate` (homog2d.hpp, used at 7289-7313). -/
inductive Rotate where
  | ccw | cw | full | vmirror | hmirror
  deriving DecidableEq, Repr

/-- Effect of `PolylineBase::rotate( Rotate )` on one point (homog2d.hpp:7287-7314). -/
def rotPt [Neg K] : Rotate → Pt K → Pt K
  | .ccw,     p => (-p.2, p.1)
  | .cw,      p => (p.2, -p.1)
  | .full,    p => (-p.1, -p.2)
  | .vmirror, p => (-p.1, p.2)
  | .hmirror, p => (p.1, -p.2)

/-- `PolylineBase::rotate( Rotate )` on the vector of points (homog2d.hpp:7287-7314). -/
def polyRotate [Neg K] (rot : Rotate) (pts : List (Pt K)) : List (Pt K) := pts.map (rotPt rot)

/-- `PolylineBase::translate` on the vector of points (homog2d.hpp:6415-6433, attribute cache handled elsewhere). -/
def polyTranslate [Add K] (dx dy : K) (pts : List (Pt K)) : List (Pt K) := pts.map (fun p => (p.1 + dx, p.2 + dy))

/-- `PolylineBase::rotate( Rotate, refpt )` (homog2d.hpp:7269-7274). -/
def polyRotateRef [Add K] [Neg K] (rot : Rotate) (ref : Pt K) (pts : List (Pt K)) : List (Pt K) :=
  polyTranslate ref.1 ref.2 (polyRotate rot (polyTranslate (-ref.1) (-ref.2) pts))

variable [Field K] [LinearOrder K]

/-- `FRect_::rotate( Rotate )` (homog2d.hpp:7651-7656): polyline of the four points, rotated, then its bounding box. -/
def FRect.rotate (th : Thr K) (rot : Rotate) (r : FRect K) : Res (FRect K) :=
  polyGetBB th (polyRotate rot r.get4Pts)

/-- Public operations that change a rectangle object. -/
inductive RectOp (K : Type) where
  | set (pa pb : Pt K)                    -- `set(pa,pb)`, or assignment of `FRect_(pa,pb)`
  | setCenter (p : Pt K) (w h : K)        -- assignment of `FRect_(p,w,h)`
  | translate (dx dy : K)
  | rotate (rot : Rotate)
  | rotateRef (rot : Rotate) (ref : Pt K)
  | extend                                -- `r = r.getExtended()`

/-- Object after a call that may throw: unchanged if it does. -/
def keepIfThrow (old : FRect K) : Res (FRect K) → FRect K
  | .ok r => r
  | _ => old

/-- The object after one operation, whether it throws or not.
* `set` (homog2d.hpp:2765-2770): throws before any write;
* `rotate` (7651-7656): throws before the assignment;
* `rotate( rot, refpt )` (7627-7632): the first translation is done before `rotate` can throw. -/
def RectOp.exec (th : Thr K) (r : FRect K) : RectOp K → FRect K
  | .set pa pb => keepIfThrow r (FRect.ofPts th.nullOrthogDistance pa pb)
  | .setCenter p w h => keepIfThrow r (FRect.ofCenter th.nullOrthogDistance p w h)
  | .translate dx dy => r.translate dx dy
  | .rotate rot => keepIfThrow r (r.rotate th rot)
  | .rotateRef rot ref =>
      let r1 := r.translate (-ref.1) (-ref.2)
      match r1.rotate th rot with
      | .ok r2 => r2.translate ref.1 ref.2
      | _ => r1
  | .extend => keepIfThrow r (r.getExtended th.nullOrthogDistance)

/-- A history of operations. -/
def rectRun (th : Thr K) (r : FRect K) (ops : List (RectOp K)) : FRect K := ops.foldl (RectOp.exec th) r

end H2d
