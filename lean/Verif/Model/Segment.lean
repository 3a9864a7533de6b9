import Verif.Model.Line

/-!
# Segments and oriented segments over the reals

A segment is the pair of its points, seen through their coordinates. `oriented` tells `OSegment_` from `Segment_`.
-/

namespace H2d

/-- `SegVec::_ptS1`, `_ptS2` (homog2d.hpp:4885). -/
abbrev Seg := Pt ℝ × Pt ℝ

/-- Constructor from two points (homog2d.hpp:4900-4909). -/
noncomputable def segMake (t : Thr ℝ) (oriented : Bool) (p q : Pt ℝ) : Res Seg :=
  if PtEq t p q then .throw else .ok (if oriented then (p, q) else fixOrder p q)

/-- Default constructor (homog2d.hpp:4892). -/
def segDefault : Seg := ((0, 0), (1, 1))

/-- `set(p1,p2)` (homog2d.hpp:4964-4974): outcome and new state. -/
noncomputable def segSet (t : Thr ℝ) (oriented : Bool) (s : Seg) (p q : Pt ℝ) : Res Unit × Seg :=
  if PtEq t p q then (.throw, s) else (.ok (), if oriented then (p, q) else fixOrder p q)

/-- `translate` (homog2d.hpp:4996-5002, 4146-4158). -/
def segTranslate (s : Seg) (dx dy : ℝ) : Seg := ((s.1.1 + dx, s.1.2 + dy), (s.2.1 + dx, s.2.2 + dy))

/-- `moveTo` (homog2d.hpp:5022-5028). -/
def segMoveTo (s : Seg) (p : Pt ℝ) : Seg := (p, (p.1 + (s.2.1 - s.1.1), p.2 + (s.2.2 - s.1.2)))

/-- Converting constructor (homog2d.hpp:4936-4947): the order is fixed when the *source* is not oriented. -/
noncomputable def segConvert (srcOriented : Bool) (s : Seg) : Seg := if srcOriented then s else fixOrder s.1 s.2

/-- Unary minus of an oriented segment (homog2d.hpp:4955-4960): returned value and new state of the operand. -/
def segNeg (s : Seg) : Seg × Seg := ((s.2, s.1), (s.2, s.1))

/-- `operator ==` (homog2d.hpp:5113-5120). -/
abbrev SegEq (t : Thr ℝ) (s s' : Seg) : Prop := PtEq t s.1 s'.1 ∧ PtEq t s.2 s'.2

/-- `length()` (homog2d.hpp:5051-5054). -/
noncomputable def segLength (s : Seg) : ℝ := ptDist s.1 s.2

/-- `getLine()` (homog2d.hpp:5256-5262). -/
noncomputable def segLine (t : Thr ℝ) (s : Seg) : Res (V3 ℝ) := lineOfPts t (mkPt s.1.1 s.1.2) (mkPt s.2.1 s.2.2)

/-- `getCenter()` (homog2d.hpp:5292-5298). -/
noncomputable def segCenter (s : Seg) : Pt ℝ := ((s.1.1 + s.2.1) / 2, (s.1.2 + s.2.2) / 2)

/-- `split()` (homog2d.hpp:5350-5357). -/
noncomputable def segSplit (t : Thr ℝ) (oriented : Bool) (s : Seg) : Res (Seg × Seg) := do
  let a ← segMake t oriented s.1 (segCenter s)
  let b ← segMake t oriented (segCenter s) s.2
  pure (a, b)

/-- `getPointAt(dist)` (homog2d.hpp:5415-5430). -/
noncomputable def segPointAt (t : Thr ℝ) (s : Seg) (dist : ℝ) : Res (Pt ℝ) :=
  if dist < 0 then .throw
  else do
    let li ← segLine t s
    let pp ← getPoints t li s.1 dist
    pure (if ptDist s.2 pp.1 < ptDist s.2 pp.2 then pp.1 else pp.2)

/-- `split(dist)` (homog2d.hpp:5365-5382). -/
noncomputable def segSplitAt (t : Thr ℝ) (s : Seg) (dist : ℝ) : Res (Seg × Seg) :=
  if dist ≤ 0 then .throw
  else if segLength s ≤ dist then .throw
  else do
    let pt ← segPointAt t s dist
    let a ← segMake t true s.1 pt
    let b ← segMake t true pt s.2
    pure (a, b)

/-- `distTo(pt,&case)` (homog2d.hpp:5513-5563): distance and region. -/
noncomputable def segDistTo (s : Seg) (p : Pt ℝ) : ℝ × Int :=
  let A := p.1 - s.1.1
  let B := p.2 - s.1.2
  let C := s.2.1 - s.1.1
  let D := s.2.2 - s.1.2
  let param := (A * C + B * D) / (C * C + D * D)
  let r : Int × Pt ℝ :=
    if param < 0 then (-1, s.1)
    else if param > 1 then (1, s.2)
    else (0, (s.1.1 + param * C, s.1.2 + param * D))
  (Real.sqrt ((p.1 - r.2.1) * (p.1 - r.2.1) + (p.2 - r.2.2) * (p.2 - r.2.2)), r.1)

/-- `enum class PointSide` (homog2d.hpp:4829-4832). -/
inductive PointSide where
  | left | right | neither
  deriving DecidableEq, Repr

/-- `crossProductV` (homog2d.hpp:9080-9102). -/
def crossProdV (v w : Seg) : ℝ := (v.2.1 - v.1.1) * (w.2.2 - w.1.2) - (v.2.2 - v.1.2) * (w.2.1 - w.1.1)

/-- `getPointSide(pt)` (homog2d.hpp:5390-5408, 3567-3569). -/
noncomputable def segPointSide (t : Thr ℝ) (s : Seg) (p : Pt ℝ) : Res PointSide :=
  if PtEq t p s.1 ∨ PtEq t p s.2 then .ok .neither
  else do
    let other ← segMake t true s.1 p
    let cp := crossProdV other s
    pure (if cp < 0 then .left else if 0 < cp then .right else .neither)

/-- `getParallelSegs(dist)` (homog2d.hpp:5442-5470). -/
noncomputable def segParallel (t : Thr ℝ) (oriented : Bool) (s : Seg) (dist : ℝ) : Res (Seg × Seg) :=
  if dist ≤ 0 then .throw
  else do
    let li ← segLine t s
    let pl := parallelLines li dist
    let lo1 ← orthogLine t li s.1
    let lo2 ← orthogLine t li s.2
    let pA1 ← lineInter t lo1 pl.1
    let pA2 ← lineInter t lo2 pl.1
    let pB1 ← lineInter t lo1 pl.2
    let pB2 ← lineInter t lo2 pl.2
    let side ← if oriented then segPointSide t s (getXY pB1) else pure .neither
    let ab := if side = .left then ((getXY pB1, getXY pB2), (getXY pA1, getXY pA2)) else ((getXY pA1, getXY pA2), (getXY pB1, getXY pB2))
    let s1 ← segMake t oriented ab.1.1 ab.1.2
    let s2 ← segMake t oriented ab.2.1 ab.2.2
    pure (s1, s2)

/-- Segment/segment intersection (homog2d.hpp:8209-8237); `none`: no intersection. -/
noncomputable def segInter (t : Thr ℝ) (s s' : Seg) : Res (Option (Pt ℝ)) :=
  if SegEq t s s' then .ok none
  else do
    let l1 ← segLine t s
    let l2 ← segLine t s'
    if IsParallel t l1 l2 then pure none
    else do
      let p ← lineInter t l1 l2
      let p := getXY p
      if |ptDist s.1 p + ptDist s.2 p - segLength s| < t.nullDistance then
        if |ptDist s'.1 p + ptDist s'.2 p - segLength s'| < t.nullDistance then pure (some p)
        else pure none
      else pure none

/-- The answer `intersects(...)()` for two segments built from two pairs of points, as used by polylines (homog2d.hpp:7385-7420, 4900-4909): the ends are ordered first. -/
noncomputable def segInterB (t : Thr ℝ) (a b : Seg) : Bool :=
  match segInter t (fixOrder a.1 a.2) (fixOrder b.1 b.2) with
  | .ok (some _) => true
  | _ => false

/-- Segment/line intersection (homog2d.hpp:8248-8270). -/
noncomputable def segLineInter (t : Thr ℝ) (s : Seg) (li1 : V3 ℝ) : Res (Option (Pt ℝ)) := do
  let li2 ← segLine t s
  if IsParallel t li1 li2 then pure none
  else do
    let p ← lineInter t li1 li2
    let p := getXY p
    if |ptDist s.1 p + ptDist s.2 p - segLength s| < t.nullDistance then pure (some p) else pure none

/-- `detail::PtTag` (homog2d.hpp:8163-8166). -/
inductive PtTag where
  | inside | outside | onEdge
  deriving DecidableEq, Repr

/-- `getPtLabel` (homog2d.hpp:8171-8181, 4369-4390). -/
noncomputable def ptLabel (t : Thr ℝ) (p c : Pt ℝ) (r : ℝ) : PtTag :=
  if ptDist p c < r then .inside
  else if |ptDist p c - r| < t.nullDistance then .onEdge
  else .outside

/-- Segment/circle intersection (homog2d.hpp:8295-8351): the list of intersection points. -/
noncomputable def segCircle (t : Thr ℝ) (s : Seg) (c : Pt ℝ) (r : ℝ) : Res (List (Pt ℝ)) :=
  let tag1 := ptLabel t s.1 c r
  let tag2 := ptLabel t s.2 c r
  if tag1 = .inside ∧ tag2 = .inside then .ok []
  else do
    let li ← segLine t s
    match lineCircle li c r with
    | none => pure []
    | some (p1, p2) =>
      if (tag1 = .inside ∧ tag2 = .outside) ∨ (tag1 = .outside ∧ tag2 = .inside) then
        if |ptDist s.1 p1 + ptDist s.2 p1 - segLength s| < t.nullDistance then pure [p1] else pure [p2]
      else if tag1 = .outside ∧ tag2 = .outside then
        if t.nullDistance ≤ |ptDist s.1 p1 + ptDist s.2 p1 - segLength s| then pure []
        else pure [p1, p2]
      else pure ((if tag1 = .onEdge then [s.1] else []) ++ (if tag2 = .onEdge then [s.2] else []))

/-- `getExtended()` of a (non oriented) segment (homog2d.hpp:5480-5499). A failed `assert` is `ub`. -/
noncomputable def segExtended (t : Thr ℝ) (s : Seg) : Res Seg := do
  let li ← segLine t s
  match lineCircle li s.1 (segLength s), lineCircle li s.2 (segLength s) with
  | some p1, some p2 => segMake t false p1.1 p2.2
  | _, _ => .ub

/-- `getOrthogPts()` (homog2d.hpp:5217-5231, 5236-5239). -/
def segOrthogPts (s : Seg) : Pt ℝ × Pt ℝ × Pt ℝ × Pt ℝ :=
  let dx := s.1.1 - s.2.1
  let dy := s.1.2 - s.2.2
  ((s.1.1 - dy, s.1.2 + dx), (s.1.1 + dy, s.1.2 - dx), (s.2.1 + dy, s.2.2 - dx), (s.2.1 - dy, s.2.2 + dx))

/-- `getBisector()` (homog2d.hpp:5305-5309). -/
noncomputable def segBisector (t : Thr ℝ) (s : Seg) : Res (V3 ℝ) := do
  let li ← segLine t s
  orthogLine t li (segCenter s)

/-- `priv::getLargestDistancePoints` (homog2d.hpp:3616-3660). -/
noncomputable def largestDistancePoints (p1 p2 p3 : Pt ℝ) : Pt ℝ × Pt ℝ × Pt ℝ :=
  let d12 := sqDist p1 p2
  let d13 := sqDist p1 p3
  let d23 := sqDist p2 p3
  if d12 > d13 then
    if d12 > d23 then
      if d13 > d23 then (p1, p2, p3) else (p2, p1, p3)
    else (p2, p3, p1)
  else
    if d13 > d23 then
      if d12 > d23 then (p1, p3, p2) else (p3, p1, p2)
    else (p3, p2, p1)

/-- `areCollinear` (homog2d.hpp:3687-3698). -/
noncomputable def areCollinear (t : Thr ℝ) (p1 p2 p3 : Pt ℝ) : Res Bool :=
  if PtEq t p1 p2 ∨ PtEq t p2 p3 ∨ PtEq t p1 p3 then .ok true
  else do
    let r := largestDistancePoints p1 p2 p3
    let li ← lineOfPts t (mkPt r.1.1 r.1.2) (mkPt r.2.1.1 r.2.1.2)
    pure (decide (lineDist li r.2.2 < t.nullDistance))

end H2d
