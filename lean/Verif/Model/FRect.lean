import Verif.Model.Geom

/-!
# Flat rectangles: construction, attributes, mutators
-/

namespace H2d

variable {K : Type} [Field K] [LinearOrder K]

/-- `FRect_`: fields `_ptR1`, `_ptR2` (homog2d.hpp:2659-2677). -/
structure FRect (K : Type) where
  p1 : Pt K
  p2 : Pt K
  deriving DecidableEq, Repr

/-- `detail::getCorrectPoints` (homog2d.hpp:1346-1357). -/
def getCorrectPoints (t : K) (p0 p1 : Pt K) : Res (Pt K × Pt K) :=
  if shareCommonCoord t p0 p1 then .throw
  else .ok ((min p0.1 p1.1, min p0.2 p1.2), (max p0.1 p1.1, max p0.2 p1.2))

namespace FRect

/-- Default constructor (homog2d.hpp:2684-2687). -/
def default : FRect K := ⟨(0, 0), (1, 1)⟩

/-- `FRect_(p1,p2)`, `FRect_(pair)`, `set(p1,p2)`, `set(x1,y1,x2,y2)`
(homog2d.hpp:2690-2700, 2715-2723, 2765-2776). `t` is `thr::nullOrthogDistance()`. -/
def ofPts (t : K) (pa pb : Pt K) : Res (FRect K) := do
  let (a, b) ← getCorrectPoints t pa pb
  pure ⟨a, b⟩

/-- `FRect_(center,w,h)` (homog2d.hpp:2704-2712). -/
def ofCenter (t : K) (p0 : Pt K) (w h : K) : Res (FRect K) :=
  ofPts t (p0.1 - (1/2) * w, p0.2 - (1/2) * h) (p0.1 + (1/2) * w, p0.2 + (1/2) * h)

/-- Private constructor from 4 points (homog2d.hpp:2735-2760); no check. -/
def of4Pts (a b c d : Pt K) : FRect K :=
  ⟨(min (min (min a.1 b.1) c.1) d.1, min (min (min a.2 b.2) c.2) d.2),
   (max (max (max a.1 b.1) c.1) d.1, max (max (max a.2 b.2) c.2) d.2)⟩

/-- `height()` (homog2d.hpp:2780). -/
def height (r : FRect K) : K := r.p2.2 - r.p1.2
/-- `width()` (homog2d.hpp:2781). -/
def width (r : FRect K) : K := r.p2.1 - r.p1.1
/-- `area()` (homog2d.hpp:2782). -/
def area (r : FRect K) : K := r.height * r.width
/-- `length()` (homog2d.hpp:2783). -/
def length (r : FRect K) : K := 2 * r.height + 2 * r.width
/-- `getCenter()` (homog2d.hpp:2808-2814). -/
def getCenter (r : FRect K) : Pt K := ((r.p1.1 + r.p2.1) * (1/2), (r.p1.2 + r.p2.2) * (1/2))

/-- `translate(dx,dy)` (homog2d.hpp:2845-2851). -/
def translate (r : FRect K) (dx dy : K) : FRect K :=
  ⟨(r.p1.1 + dx, r.p1.2 + dy), (r.p2.1 + dx, r.p2.2 + dy)⟩

/-- `getExtended()` (homog2d.hpp:2886-2896). -/
def getExtended (t : K) (r : FRect K) : Res (FRect K) :=
  ofPts t (r.p1.1 * 2 - r.p2.1, r.p1.2 * 2 - r.p2.2) (r.p2.1 * 2 - r.p1.1, r.p2.2 * 2 - r.p1.2)

/-- `get4Pts()` (homog2d.hpp:2944-2953). -/
def get4Pts (r : FRect K) : List (Pt K) :=
  [r.p1, (r.p1.1, r.p2.2), r.p2, (r.p2.1, r.p1.2)]

/-- `operator ==` (homog2d.hpp:3082-3089), `t` is `thr::nullDistance()`. -/
def beq (t : K) (r s : FRect K) : Bool := samePt t r.p1 s.p1 && samePt t r.p2 s.p2

end FRect

/-- `detail::ptIsInside` (homog2d.hpp:4682-4688). -/
def ptIsInside (pt p00 p11 : Pt K) : Bool :=
  (decide (pt.1 > p00.1) && decide (pt.1 < p11.1)) && (decide (pt.2 > p00.2) && decide (pt.2 < p11.2))

/-- `Point2d_::isInside( FRect_ )` (homog2d.hpp:9298-9307). -/
def Pt.isInsideRect (p : Pt K) (r : FRect K) : Bool := ptIsInside p r.p1 r.p2

/-- `FRect_::isInside( FRect_ )` (homog2d.hpp:3007-3014 with `T = FRect_`). -/
def FRect.isInsideRect (r s : FRect K) : Bool := r.get4Pts.all (fun p => Pt.isInsideRect p s)

end H2d
