import Verif.Model.Float
import Verif.Model.Line
import Verif.Model.Polyline
import Verif.Model.Search
import Verif.Model.FRect
import Verif.Model.Hull

/-!
# Geometric functions with rounded operations

Each operation of the code is followed by a rounding, in the order of the code. Coordinates are those returned by `getX()`, `getY()`: the third value of a point is 1.
Additions are not contracted with products (`-ffp-contract=off`).
-/

namespace H2d.Fl

variable (F : Arith)

/-- `distTo` between points (homog2d.hpp:9140-9152). -/
def distPt (p q : Pt ℝ) : ℝ := F.hyp (F.rnd (p.1 - q.1)) (F.rnd (p.2 - q.2))

/-- `priv::sqDist` (homog2d.hpp:3577-3582). -/
def sqDist (p q : Pt ℝ) : ℝ :=
  let dx := F.rnd (p.1 - q.1)
  let dy := F.rnd (p.2 - q.2)
  F.rnd (F.rnd (dx * dx) + F.rnd (dy * dy))

/-- `operator ==` of points (homog2d.hpp:9020-9029). -/
abbrev PtSame (t : Thr ℝ) (p q : Pt ℝ) : Prop := distPt F p q < t.nullDistance

/-- Point inside a circle (homog2d.hpp:4370-4381). -/
abbrev PtInCirc (p c : Pt ℝ) (r : ℝ) : Prop := distPt F p c < r

/-- `sum += x` on all the elements, from 0. -/
def sumFl (l : List ℝ) : ℝ := l.foldl (fun s x => F.rnd (s + x)) 0

/-- `length()` of a polyline without the cache (homog2d.hpp:7473-7476, 5050-5054). -/
def polyLen (closed : Bool) (pts : List (Pt ℝ)) : ℝ := (segPairs closed pts).foldl (fun s e => F.rnd (s + distPt F e.1 e.2)) 0

/-- `p_ComputeSignedArea()` (homog2d.hpp:7499-7511). -/
noncomputable def signedArea (pts : List (Pt ℝ)) : ℝ :=
  F.rnd ((cycPairs pts).foldl (fun s e => F.rnd (F.rnd (s + F.rnd (e.1.1 * e.2.2)) - F.rnd (e.1.2 * e.2.1))) 0 / 2)

/-- The cross product of `isConvex` (homog2d.hpp:7449-7455). -/
def crossAt (pt0 pt1 pt2 : Pt ℝ) : ℝ :=
  F.rnd (F.rnd (F.rnd (pt1.1 - pt0.1) * F.rnd (pt2.2 - pt1.2)) - F.rnd (F.rnd (pt1.2 - pt0.2) * F.rnd (pt2.1 - pt1.1)))

/-- `isConvex()` (homog2d.hpp:7434-7463); `simple` is the result of `isSimple()`. -/
noncomputable def isConvex (simple : Bool) (pts : List (Pt ℝ)) : Bool :=
  if !simple then false
  else if pts.length = 3 then true
  else convexLoop 0 ((cycTriples pts).map (fun t => crossAt F t.1 t.2.1 t.2.2))

/-- `priv::chull::orientation` (homog2d.hpp:11503-11517). -/
noncomputable def chOrientation (thr : ℝ) (p q r : Pt ℝ) : Int :=
  let val := F.rnd (F.rnd (F.rnd (q.2 - p.2) * F.rnd (r.1 - q.1)) - F.rnd (F.rnd (q.1 - p.1) * F.rnd (r.2 - q.2)))
  if |val| < thr then 0 else if val > 0 then 1 else -1

/-- `detail::crossProductV( OSegment( p1, pt ), OSegment( p1, p2 ) )` as called by `getPointSide` (homog2d.hpp:5397-5398, 9080-9102). -/
def sideCross (p1 p2 pt : Pt ℝ) : ℝ :=
  F.rnd (F.rnd (F.rnd (pt.1 - p1.1) * F.rnd (p2.2 - p1.2)) - F.rnd (F.rnd (pt.2 - p1.2) * F.rnd (p2.1 - p1.1)))

/-- `getCenter()` of a segment (homog2d.hpp:5292-5298); of a rectangle it is the same with `* 0.5` (2808-2814). -/
noncomputable def center (p q : Pt ℝ) : Pt ℝ := (F.rnd (F.rnd (p.1 + q.1) / 2), F.rnd (F.rnd (p.2 + q.2) / 2))

/-- `width()`, `height()` (homog2d.hpp:2780-2781). -/
def rectWidth (r : FRect ℝ) : ℝ := F.rnd (r.p2.1 - r.p1.1)
/-- see `rectWidth` (homog2d.hpp:2780). -/
def rectHeight (r : FRect ℝ) : ℝ := F.rnd (r.p2.2 - r.p1.2)
/-- `area()` (homog2d.hpp:2782). -/
def rectArea (r : FRect ℝ) : ℝ := F.rnd (rectHeight F r * rectWidth F r)
/-- `length()` (homog2d.hpp:2783). -/
def rectLength (r : FRect ℝ) : ℝ := F.rnd (F.rnd (2 * rectHeight F r) + F.rnd (2 * rectWidth F r))
/-- `translate` of a point (homog2d.hpp:4146-4165). -/
def ptTranslate (p : Pt ℝ) (dx dy : ℝ) : Pt ℝ := (F.rnd (p.1 + dx), F.rnd (p.2 + dy))
/-- `translate` of a rectangle (homog2d.hpp:2845-2851). -/
def rectTranslate (r : FRect ℝ) (dx dy : ℝ) : FRect ℝ := ⟨ptTranslate F r.p1 dx dy, ptTranslate F r.p2 dx dy⟩

/-- `shareCommonCoord` (homog2d.hpp:1319-1329). -/
abbrev ShareCoord (t : Thr ℝ) (p q : Pt ℝ) : Prop := |F.rnd (p.1 - q.1)| < t.nullOrthogDistance ∨ |F.rnd (p.2 - q.2)| < t.nullOrthogDistance

open Classical in
/-- Constructor of a rectangle from two points (homog2d.hpp:1344-1357, 2689-2693). -/
noncomputable def rectOfPts (t : Thr ℝ) (p q : Pt ℝ) : Res (FRect ℝ) :=
  if ShareCoord F t p q then .throw else .ok ⟨(min p.1 q.1, min p.2 q.2), (max p.1 q.1, max p.2 q.2)⟩

/-- `getBB()` of a circle (homog2d.hpp:3319-3327). -/
noncomputable def circBB (t : Thr ℝ) (c : Pt ℝ) (r : ℝ) : Res (FRect ℝ) :=
  rectOfPts F t (F.rnd (c.1 - r), F.rnd (c.2 - r)) (F.rnd (c.1 + r), F.rnd (c.2 + r))

/-- `detail::crossProduct` (homog2d.hpp:9057-9075). -/
def crossProd (r s : V3 ℝ) : V3 ℝ :=
  ![F.rnd (F.rnd (r 1 * s 2) - F.rnd (r 2 * s 1)), F.rnd (F.rnd (r 2 * s 0) - F.rnd (r 0 * s 2)), F.rnd (F.rnd (r 0 * s 1) - F.rnd (r 1 * s 0))]

/-- Normalisation of a line (homog2d.hpp:8777-8807). Changes of sign are exact. -/
noncomputable def normalizeLine (t : Thr ℝ) (v : V3 ℝ) : Res (V3 ℝ) :=
  let sq := F.hyp (v 0) (v 1)
  if sq ≤ dblEps then .throw
  else
    let w : V3 ℝ := fun i => F.rnd (v i / sq)
    let w : V3 ℝ := if w 0 < 0 then fun i => - w i else w
    let w : V3 ℝ := if |w 0| < t.nullDenom then (if w 1 < 0 then ![w 0, - w 1, - w 2] else w) else w
    .ok w

open Classical in
/-- Line through two points (homog2d.hpp:3838-3848, 3668-3677). -/
noncomputable def lineOfPts (t : Thr ℝ) (p q : Pt ℝ) : Res (V3 ℝ) :=
  if PtSame F t p q then .throw else normalizeLine F t (crossProd F (mkPt p.1 p.2) (mkPt q.1 q.2))

/-- Distance between a line and a point (homog2d.hpp:9167-9179). -/
noncomputable def lineDist (l : V3 ℝ) (p : Pt ℝ) : ℝ :=
  F.rnd (|F.rnd (F.rnd (F.rnd (l 0 * p.1) + F.rnd (l 1 * p.2)) + l 2)| / F.hyp (l 0) (l 1))

/-- Product of a matrix and a point or line (homog2d.hpp:9608-9621). -/
def app (a : Mat ℝ) (v : V3 ℝ) : V3 ℝ := fun i => F.rnd (F.rnd (F.rnd (a i 0 * v 0) + F.rnd (a i 1 * v 1)) + F.rnd (a i 2 * v 2))

/-- `getX()`, `getY()` (homog2d.hpp:4133-4141). -/
noncomputable def getXY (p : V3 ℝ) : Pt ℝ := (F.rnd (p 0 / p 2), F.rnd (p 1 / p 2))

/-- Product of two matrices (homog2d.hpp:9588-9600): the sum starts from 0. -/
def mul (a b : Mat ℝ) : Mat ℝ := fun i j =>
  F.rnd (F.rnd (F.rnd (0 + F.rnd (a i 0 * b 0 j)) + F.rnd (a i 1 * b 1 j)) + F.rnd (a i 2 * b 2 j))

end H2d.Fl
