import Verif.Model.Rotate

/-!
# Polylines: segments, area, centroid, simplicity, convexity, normal form, equality, minimisation

A polyline is its vector of points, `closed` selects `CPolyline_` (true) or `OPolyline_` (false).
The hidden state (cached attributes, normalisation flag) is in `Verif.Model.PolyState`.
-/

namespace H2d

section
variable {P : Type}

/-- The pairs of consecutive points, without the closing one: loop of `priv::p_getSegs` (homog2d.hpp:6008-6013). -/
def openPairs (pts : List P) : List (P × P) := pts.zip pts.tail

/-- `i`, `j = (i == size()-1 ? 0 : i+1)` for all `i`: the loops of `p_ComputeSignedArea` (homog2d.hpp:7502-7506)
and `centroid` (7531-7535). -/
def cycPairs (pts : List P) : List (P × P) := pts.zip (pts.tail ++ pts.take 1)

/-- Ends of the segments of `priv::p_getSegs` (homog2d.hpp:6000-6017), before construction of the segment objects. -/
def segPairs (closed : Bool) (pts : List P) : List (P × P) :=
  if pts.length < 2 then []
  else if closed then cycPairs pts else openPairs pts

/-- `getOSegs()` (homog2d.hpp:6312-6315): the constructor of a segment throws for two points that are equal (4900-4911),
`same` is point equality. -/
def getOSegs (same : P → P → Bool) (closed : Bool) (pts : List P) : Res (List (P × P)) :=
  if (segPairs closed pts).any (fun s => same s.1 s.2) then .throw else .ok (segPairs closed pts)

/-- `nbSegs()` (homog2d.hpp:6249-6257). -/
def nbSegs (closed : Bool) (pts : List P) : Nat :=
  if pts.length < 2 then 0 else if closed then pts.length else pts.length - 1

/-- `getPoint()` (homog2d.hpp:6324-6333). -/
def getPoint (pts : List P) (idx : Nat) : Res P :=
  match pts[idx]? with
  | some p => .ok p
  | none => .throw

/-- `impl_getSegment()` for `OSegment_` (homog2d.hpp:6338-6353): throws when the index is out of range or when the two points are equal.
The unchecked vector accesses are `ub` when out of range. -/
def getOSegment (same : P → P → Bool) (closed : Bool) (pts : List P) (idx : Nat) : Res (P × P) :=
  if idx ≥ nbSegs closed pts then .throw
  else if pts.length < 2 then .throw
  else
    match pts[idx]?, pts[if closed && idx + 1 == nbSegs closed pts then 0 else idx + 1]? with
    | some a, some b => if same a b then .throw else .ok (a, b)
    | _, _ => .ub

/-- `std::rotate( begin, begin+k, end )`. -/
def stdRotate (k : Nat) (pts : List P) : List P := pts.drop k ++ pts.take k

/-- `p_checkInputData` (homog2d.hpp:6508-6527) and the size check of `set` (6467-6472): the input is accepted. -/
def checkInput (same : P → P → Bool) (pts : List P) : Bool :=
  match pts with
  | [] => true
  | [_] => false
  | a :: l =>
      (openPairs (a :: l)).all (fun s => !(same s.1 s.2)) && !(same a (l.getLastD a))

/-- `set( container )` and the constructor from a container (homog2d.hpp:6465-6479, 6128-6131). -/
def polySet (same : P → P → Bool) (pts : List P) : Res (List P) :=
  if checkInput same pts then .ok pts else .throw

/-- One pass of `p_minimizePL` (homog2d.hpp:7320-7363). `mid prev cur next` is the test `|a1-a2| < nullAngleValue` (7331-7338).
Step 1 collects the indexes in `[istart,iend)` that pass the test; step 2 adds the other points one by one with `p_addPoint`,
which throws when a point is equal to the previous one (6279-6291).
`getPoint` at 7328/7329 never throws as the indexes are in range. -/
def minimizeMark (mid : P → P → P → Bool) (pts : List P) (istart iend : Nat) : List Nat :=
  (List.range' istart (iend - istart)).filter (fun i =>
    let n := pts.length
    match pts[if i = 0 then n - 1 else i - 1]?, pts[i]?, pts[if i = n - 1 then 0 else i + 1]? with
    | some pp, some p0, some pn => mid pp p0 pn
    | _, _, _ => false)

/-- Repeated `p_addPoint` (homog2d.hpp:6279-6291) on an initially empty polyline (`acc` is reversed). -/
def addPoints (same : P → P → Bool) : List P → List P → Res (List P)
  | acc, [] => .ok acc.reverse
  | [], p :: ps => addPoints same [p] ps
  | b :: acc, p :: ps => if same p b then .throw else addPoints same (p :: b :: acc) ps

/-- Step 2 of `p_minimizePL` (homog2d.hpp:7345-7361): `i` is the current index, `ptset` what remains of the sorted vector of indexes
to remove. -/
def dropMarked : Nat → List Nat → List P → List P
  | _, _, [] => []
  | i, [], p :: ps => p :: dropMarked (i+1) [] ps
  | i, k :: ks, p :: ps => if k ≠ i then p :: dropMarked (i+1) (k :: ks) ps else dropMarked (i+1) ks ps

/-- `minimize()` (homog2d.hpp:6406-6411, 7367-7378, 7320-7363). -/
def minimize (same : P → P → Bool) (mid : P → P → P → Bool) (closed : Bool) (pts : List P) : Res (List P) :=
  if pts.length < 3 then .ok pts
  else
    let marks := if closed then minimizeMark mid pts 0 pts.length else minimizeMark mid pts 1 (pts.length - 1)
    if marks.isEmpty then .ok pts
    else addPoints same [] (dropMarked 0 marks pts)

end

variable {K : Type}

section
variable [LinearOrder K]

/-- Point `operator <` (homog2d.hpp:9032-9043). -/
def ptLt (p q : Pt K) : Bool :=
  if p.1 < q.1 then true
  else if p.1 > q.1 then false
  else if p.2 < q.2 then true
  else false

/-- Index of `std::min_element( begin, end )` with `operator <` (homog2d.hpp:7581, 7599). -/
def minIdx : List (Pt K) → Nat
  | [] => 0
  | x :: xs => (minElemLoop ptLt 1 xs x 0).2

/-- `std::rotate` to the smallest point (homog2d.hpp:7581-7582). -/
def rotateToMin (pts : List (Pt K)) : List (Pt K) := stdRotate (minIdx pts) pts

end

variable [Field K] [LinearOrder K]

/-- `p_ComputeSignedArea()` (homog2d.hpp:7499-7511). -/
def signedArea (pts : List (Pt K)) : K :=
  ((cycPairs pts).map (fun s => s.1.1 * s.2.2 - s.1.2 * s.2.1)).sum / 2

/-- `centroid()` without the cache and the test on simplicity (homog2d.hpp:7529-7549).
Division by a null area is left to the field (`x/0 = 0` in Lean, infinite or NaN in the code). -/
def centroidRaw (pts : List (Pt K)) : Pt K :=
  let cx := ((cycPairs pts).map (fun s => (s.1.1 + s.2.1) * (s.1.1 * s.2.2 - s.2.1 * s.1.2))).sum
  let cy := ((cycPairs pts).map (fun s => (s.1.2 + s.2.2) * (s.1.1 * s.2.2 - s.2.1 * s.1.2))).sum
  (cx / (6 * signedArea pts), cy / (6 * signedArea pts))

/-- `length()` without the cache (homog2d.hpp:7473-7476); `segLen` is the length of a segment given by its ends. -/
def polyLength (segLen : Pt K → Pt K → K) (closed : Bool) (pts : List (Pt K)) : K :=
  ((segPairs closed pts).map (fun s => segLen s.1 s.2)).sum

/-- The double loop of `isSimple()` on the vector of segments (homog2d.hpp:7395-7412). `inter s t` is segment/segment intersection.
The early exit on the first intersection does not change the result. -/
def noCross {S : Type} (inter : S → S → Bool) (segs : List S) : Bool :=
  !((List.range segs.length).any (fun i =>
      let lastone := if i = 0 then segs.length - 1 else segs.length
      (List.range' (i+2) (lastone - (i+2))).any (fun j =>
        match segs[j]?, segs[i]? with
        | some sj, some si => inter sj si
        | _, _ => false)))

/-- `isSimple()` without the cache (homog2d.hpp:7385-7417). The exception thrown by `getSegment` when two consecutive points
are equal is not modelled here (`set` refuses such a point list). -/
def isSimple (inter : Pt K × Pt K → Pt K × Pt K → Bool) (closed : Bool) (pts : List (Pt K)) : Bool :=
  if pts.length < 3 then false
  else if !closed then false
  else noCross inter (segPairs closed pts)

/-- `area()` without the cache (homog2d.hpp:7485-7493). -/
def polyArea (inter : Pt K × Pt K → Pt K × Pt K → Bool) (closed : Bool) (pts : List (Pt K)) : K :=
  if isSimple inter closed pts then |signedArea pts| else 0

/-- `centroid()` without the cache (homog2d.hpp:7522-7553). -/
def centroid (inter : Pt K × Pt K → Pt K × Pt K → Bool) (closed : Bool) (pts : List (Pt K)) : Res (Pt K) :=
  if isSimple inter closed pts then .ok (centroidRaw pts) else .throw

/-- The cross product of `isConvex` (homog2d.hpp:7449-7455). -/
def crossAt (pt0 pt1 pt2 : Pt K) : K :=
  (pt1.1 - pt0.1) * (pt2.2 - pt1.2) - (pt1.2 - pt0.2) * (pt2.1 - pt1.1)

/-- The triples (previous, current, next) visited by `isConvex` (homog2d.hpp:7444-7448). -/
def cycTriples {P : Type} (pts : List P) : List (P × P × P) :=
  (pts.drop (pts.length - 1) ++ pts.dropLast).zip (pts.zip (pts.tail ++ pts.take 1))

/-- Loop of `isConvex` (homog2d.hpp:7439-7462): `sign` is 0 initially, then +1 or -1. -/
def convexLoop : Int → List K → Bool
  | _, [] => true
  | sign, c :: cs =>
      if sign = 0 then convexLoop (if c > 0 then 1 else -1) cs
      else if sign ≠ (if c > 0 then 1 else -1) then false
      else convexLoop sign cs

/-- `isConvex()` (homog2d.hpp:7434-7463); `simple` is the result of `isSimple()`. -/
def isConvex (simple : Bool) (pts : List (Pt K)) : Bool :=
  if !simple then false
  else if pts.length = 3 then true
  else convexLoop 0 ((cycTriples pts).map (fun t => crossAt t.1 t.2.1 t.2.2))

/-- The determinant of `p_normalizePoly` (homog2d.hpp:7595). -/
def orientDet (ptA ptB ptC : Pt K) : K :=
  (ptB.1 - ptA.1) * (ptC.2 - ptA.2) - (ptC.1 - ptA.1) * (ptB.2 - ptA.2)

/-- `p_normalizePoly()` for a not yet normalised polyline (homog2d.hpp:7572-7610). A closed polyline with
a single point leads to an out of range access. -/
def normalizePoly (closed : Bool) (pts : List (Pt K)) : Res (List (Pt K)) :=
  match pts with
  | [] => .ok []
  | p :: ps =>
    if closed then
      let v := rotateToMin (p :: ps)
      match v with
      | ptB :: ptA :: rest =>
          let ptC := rest.getLastD ptA
          if orientDet ptA ptB ptC < 0 then .ok (rotateToMin v.reverse) else .ok v
      | _ => .ub
    else
      if ptLt (ps.getLastD p) p then .ok (p :: ps).reverse else .ok (p :: ps)

/-- Element-wise comparison of `operator ==` (homog2d.hpp:6547-6551), on vectors of the same size. -/
def samePts (t : K) (a b : List (Pt K)) : Bool := (a.zip b).all (fun s => samePt t s.2 s.1)

/-- `operator ==` between two not yet normalised polylines of the same kind (homog2d.hpp:6537-6555). `t` is `nullDistance`. -/
def polyEq (t : K) (closed : Bool) (a b : List (Pt K)) : Res Bool :=
  if a.length ≠ b.length then .ok false
  else do
    let a' ← normalizePoly closed a
    let b' ← normalizePoly closed b
    pure (samePts t a' b')

end H2d
