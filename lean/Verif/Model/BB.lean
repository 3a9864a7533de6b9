import Verif.Model.FRect

/-!
# Extreme points and bounding boxes
-/

namespace H2d

/-- `std::min_element` on a non-empty range: `best` is the current result, at index `bi`; `i` is the index of the head of the list.
Follows the C++ standard: the result is replaced when `comp(x, best)`. Used at homog2d.hpp:6890, 6953, 7000, 7041. -/
def minElemLoop {P : Type} (comp : P → P → Bool) : Nat → List P → P → Nat → P × Nat
  | _, [],      best, bi => (best, bi)
  | i, x :: xs, best, bi =>
      if comp x best then minElemLoop comp (i+1) xs x i else minElemLoop comp (i+1) xs best bi

/-- Maximum part of `std::minmax_element` on a non-empty range (last maximum: replaced when `!comp(x, best)`).
Used at homog2d.hpp:5913 and 5922. -/
def maxElemLoop {P : Type} (comp : P → P → Bool) : List P → P → P
  | [],      best => best
  | x :: xs, best => if comp x best then maxElemLoop comp xs best else maxElemLoop comp xs x

variable {K : Type}

section
variable [LinearOrder K]

/-- `CardDir` (homog2d.hpp, used at 7099-7109). -/
inductive CardDir where
  | top | bottom | left | right
  deriving DecidableEq, Repr

/-- The comparison lambdas of `getTmPoint` (homog2d.hpp:6956-6964), `getBmPoint_helper` (6893-6901),
`getLmPoint` (7003-7011), `getRmPoint` (7044-7052). -/
def extremeComp : CardDir → Pt K → Pt K → Bool
  | .top,    a, b => if a.2 > b.2 then true else if a.2 < b.2 then false else decide (a.1 < b.1)
  | .bottom, a, b => if a.2 < b.2 then true else if a.2 > b.2 then false else decide (a.1 < b.1)
  | .left,   a, b => if a.1 < b.1 then true else if a.1 > b.1 then false else decide (a.2 < b.2)
  | .right,  a, b => if a.1 > b.1 then true else if a.1 < b.1 then false else decide (a.2 < b.2)

/-- `getTmPoint`, `getBmPoint`, `getLmPoint`, `getRmPoint` on a container (homog2d.hpp:6918-7059), and
`getExtremePoint( dir, container )` (7099-7109): the point and its index. -/
def getExtremePoint (dir : CardDir) : List (Pt K) → Res (Pt K × Nat)
  | [] => .throw
  | x :: xs => .ok (minElemLoop (extremeComp dir) 1 xs x 0)

end

variable [Field K] [LinearOrder K]

/-- `priv::getBB_Points` (homog2d.hpp:5907-5948). The empty range is undefined behaviour (iterators at `end` dereferenced).
`th.nullDistance` is compared on squares (valid for a non-negative threshold). -/
def getBB_Points (th : Thr K) : List (Pt K) → Res (Pt K × Pt K)
  | [] => .ub
  | x :: xs =>
    let cx : Pt K → Pt K → Bool := fun a b => decide (a.1 < b.1)
    let cy : Pt K → Pt K → Bool := fun a b => decide (a.2 < b.2)
    let p1 : Pt K := ((minElemLoop cx 1 xs x 0).1.1, (minElemLoop cy 1 xs x 0).1.2)
    let p2 : Pt K := ((maxElemLoop cx xs x).1, (maxElemLoop cy xs x).2)
    if samePt th.nullDistance p1 p2 then .throw
    else if shareCommonCoord th.nullOrthogDistance p1 p2 then .throw
    else .ok (p1, p2)

/-- `getBB( container of points )` (homog2d.hpp:10316-10332). -/
def getBB_cont (th : Thr K) (pts : List (Pt K)) : Res (FRect K) :=
  if pts.isEmpty then .throw
  else if pts.length < 2 then .throw
  else do
    let (a, b) ← getBB_Points th pts
    FRect.ofPts th.nullOrthogDistance a b

/-- `priv::getBB_FRect` (homog2d.hpp:5981-5995) as called by `getBB( container of FRect_ )` (10335-10345). -/
def getBB_rects (th : Thr K) (rects : List (FRect K)) : Res (FRect K) :=
  if rects.isEmpty then .throw
  else do
    let (a, b) ← getBB_Points th (rects.flatMap (fun r => [r.p1, r.p2]))
    FRect.ofPts th.nullOrthogDistance a b

/-- `priv::getBB_Segments` (homog2d.hpp:5960-5975) as called by `getBB( container of segments )` (10348-10353). -/
def getBB_segs (th : Thr K) (segs : List (Pt K × Pt K)) : Res (FRect K) :=
  if segs.isEmpty then .throw
  else do
    let (a, b) ← getBB_Points th (segs.flatMap (fun s => [s.1, s.2]))
    FRect.ofPts th.nullOrthogDistance a b

/-- `PolylineBase::getBB()` (homog2d.hpp:6230-6243). -/
def polyGetBB (th : Thr K) (pts : List (Pt K)) : Res (FRect K) :=
  if pts.length < 2 then .throw
  else do
    let (a, b) ← getBB_Points th pts
    if shareCommonCoord th.nullOrthogDistance a b then .throw
    else FRect.ofPts th.nullOrthogDistance a b

/-- The primitives a `CommonType_` variant can hold, as far as bounding boxes are concerned
(ellipses are left out: their bounding box is the subject of C56). -/
inductive Obj (K : Type) where
  | rect (r : FRect K)
  | circle (c : Pt K) (rad : K)
  | point (p : Pt K)
  | seg (a b : Pt K)
  | poly (closed : Bool) (pts : List (Pt K))
  | line
  deriving DecidableEq, Repr

/-- `Circle_::getBB()` (homog2d.hpp:3319-3327). -/
def circleGetBB (t : K) (c : Pt K) (rad : K) : Res (FRect K) :=
  FRect.ofPts t (c.1 - rad, c.2 - rad) (c.1 + rad, c.2 + rad)

/-- `ppair::getPointPair` overloads (homog2d.hpp:10048-10052 circles and rectangles, 10067-10079 polylines, 10095-10099 points,
10112-10116 segments, 10121-10125 lines). -/
def getPointPair (th : Thr K) : Obj K → Res (Pt K × Pt K)
  | .rect r => .ok (r.p1, r.p2)
  | .circle c rad => do
      let r ← circleGetBB th.nullOrthogDistance c rad
      pure (r.p1, r.p2)
  | .point p => .ok (p, p)
  | .seg a b => .ok (a, b)
  | .poly _ pts =>
      match pts with
      | [] => .throw
      | [a, b] => .ok (a, b)
      | pts => getBB_Points th pts
  | .line => .throw

/-- Member `getBB()` of the types for which `trait::HasBB` is true (homog2d.hpp:2115-2119): rectangles (2912-2915), circles, polylines.
The other types do not have it, the outcome given here for them is not used. -/
def objGetBB (th : Thr K) : Obj K → Res (FRect K)
  | .rect r => .ok r
  | .circle c rad => circleGetBB th.nullOrthogDistance c rad
  | .poly _ pts => polyGetBB th pts
  | _ => .throw

/-- Loop that stops at the first exception. -/
def mapRes {α β : Type} (f : α → Res β) : List α → Res (List β)
  | [] => .ok []
  | a :: l => do
    let b ← f a
    let r ← mapRes f l
    pure (b :: r)

/-- `getBB( container of rectangles, of circles, or of polylines )` (homog2d.hpp:10335-10345): boxes of the boxes. -/
def getBB_boxes (th : Thr K) (v : List (Obj K)) : Res (FRect K) :=
  if v.isEmpty then .throw
  else do
    let bbs ← mapRes (objGetBB th) v
    getBB_rects th bbs

/-- Loop of `priv::getBB_CommonType` (homog2d.hpp:10287-10300): the variable `ppair` keeps its previous value
when the computation of the pair throws. -/
def commonTypeLoop (th : Thr K) : List (Obj K) → Pt K × Pt K → List (Pt K)
  | [], _ => []
  | e :: es, pp =>
      let pp' := match getPointPair th e with
        | .ok v => v
        | _ => pp
      pp'.1 :: pp'.2 :: commonTypeLoop th es pp'

/-- `getBB( vector of variants )` (homog2d.hpp:10316-10362 and `priv::getBB_CommonType` 10280-10302). -/
def getBB_CommonType (th : Thr K) (v : List (Obj K)) : Res (FRect K) :=
  if v.isEmpty then .throw
  else do
    let (a, b) ← getBB_Points th (commonTypeLoop th v ((0, 0), (0, 0)))
    FRect.ofPts th.nullOrthogDistance a b

/-- `getBB( PointPair, PointPair )` and `getMinMax` (homog2d.hpp:10402-10427). -/
def getBB_pairs (th : Thr K) (pp1 pp2 : Pt K × Pt K) : Res (FRect K) := do
  let (a, b) ← getBB_Points th [pp1.1, pp2.1, pp1.2, pp2.2]
  FRect.ofPts th.nullOrthogDistance a b

/-- `elem.type()` is `OPolyline` or `CPolyline` (homog2d.hpp:10446, 10450). -/
def Obj.isPoly : Obj K → Bool
  | .poly _ _ => true
  | _ => false

/-- `size()` of the primitives (homog2d.hpp:1409, 2785, 3301, 4061, 5045, 6215): only its nullity matters here. -/
def Obj.size : Obj K → Nat
  | .poly _ pts => pts.length
  | .rect _ => 4
  | .seg _ _ => 2
  | _ => 1

/-- `getBB( T1, T2 )` (homog2d.hpp:10441-10497) for two objects that are not lines.
The code sets `isPoly_1` twice (10447 and 10451), so that `isPoly_2` is always false. -/
def getBB_two (th : Thr K) (e1 e2 : Obj K) : Res (FRect K) :=
  let isPoly1 := e1.isPoly || e2.isPoly
  let isPoly2 := false
  if isPoly1 && isPoly2 && (e1.size == 0 && e2.size == 0) then .throw
  else if isPoly2 && e1.size == 0 then do
    let pp ← getPointPair th e2
    if shareCommonCoord th.nullOrthogDistance pp.1 pp.2 then .throw
    else FRect.ofPts th.nullOrthogDistance pp.1 pp.2
  else if isPoly1 && e2.size == 0 then do
    let pp ← getPointPair th e1
    if shareCommonCoord th.nullOrthogDistance pp.1 pp.2 then .throw
    else FRect.ofPts th.nullOrthogDistance pp.1 pp.2
  else do
    let pp1 ← getPointPair th e1
    let pp2 ← getPointPair th e2
    getBB_pairs th pp1 pp2

end H2d
