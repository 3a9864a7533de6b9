import Verif.Model.Polyline

/-!
# A polyline object with its hidden state: cached attributes, normalisation flag
-/

namespace H2d

/-- Data members of `PolylineBase` (homog2d.hpp:6092-6094, 5878-5892). A `ValueFlag` (5858-5873) is `some v` when the stored value is flagged correct. -/
structure PState (K : Type) where
  pts : List (Pt K) := []
  norm : Bool := false
  len : Option K := none
  area : Option K := none
  simple : Option Bool := none
  cent : Option (Pt K) := none

/-- What the polyline code takes from the other classes: point equality, length of a segment, intersection of two segments;
and the test of `minimize()`. -/
structure Env (K : Type) where
  same : Pt K → Pt K → Bool
  segLen : Pt K → Pt K → K
  inter : Pt K × Pt K → Pt K × Pt K → Bool
  mid : Pt K → Pt K → Pt K → Bool

variable {K : Type} [Field K] [LinearOrder K]

/-- Computation of `length()` (homog2d.hpp:7473-7475): `getSegs()` throws if two consecutive points are equal. -/
def freshLen (e : Env K) (closed : Bool) (pts : List (Pt K)) : Res K :=
  if (segPairs closed pts).any (fun s => e.same s.1 s.2) then .throw
  else .ok (polyLength e.segLen closed pts)

/-- Computation of `isSimple()` (homog2d.hpp:7387-7413). Simplification: it is considered to throw as soon as two consecutive points are equal,
the code may find a crossing before it builds that segment and return. -/
def freshSimple (e : Env K) (closed : Bool) (pts : List (Pt K)) : Res Bool :=
  if pts.length < 3 then .ok false
  else if !closed then .ok false
  else if (segPairs closed pts).any (fun s => e.same s.1 s.2) then .throw
  else .ok (isSimple e.inter closed pts)

/-- What `area()` is on a new object (homog2d.hpp:7485-7493). -/
def freshArea (e : Env K) (closed : Bool) (pts : List (Pt K)) : Res K := do
  if (← freshSimple e closed pts) then .ok |signedArea pts| else .ok 0

/-- What `centroid()` is on a new object (homog2d.hpp:7522-7553). -/
def freshCentroid (e : Env K) (closed : Bool) (pts : List (Pt K)) : Res (Pt K) := do
  if (← freshSimple e closed pts) then .ok (centroidRaw pts) else .throw

/-- `length()` (homog2d.hpp:7469-7479): answer, and new state. -/
def qLength (e : Env K) (closed : Bool) (s : PState K) : Res K × PState K :=
  match s.len with
  | some v => (.ok v, s)
  | none =>
    match freshLen e closed s.pts with
    | .ok v => (.ok v, { s with len := some v })
    | r => (r, s)

/-- `isSimple()` (homog2d.hpp:7385-7417): the tests on size and type are done before the cache is looked at. -/
def qSimple (e : Env K) (closed : Bool) (s : PState K) : Res Bool × PState K :=
  if s.pts.length < 3 then (.ok false, s)
  else if !closed then (.ok false, s)
  else
    match s.simple with
    | some b => (.ok b, s)
    | none =>
      match freshSimple e closed s.pts with
      | .ok b => (.ok b, { s with simple := some b })
      | r => (r, s)

/-- `area()` (homog2d.hpp:7485-7493). -/
def qArea (e : Env K) (closed : Bool) (s : PState K) : Res K × PState K :=
  match qSimple e closed s with
  | (.ok true, s1) =>
    match s1.area with
    | some v => (.ok v, s1)
    | none => (.ok |signedArea s1.pts|, { s1 with area := some |signedArea s1.pts| })
  | (.ok false, s1) => (.ok 0, s1)
  | (.throw, s1) => (.throw, s1)
  | (.ub, s1) => (.ub, s1)

/-- `centroid()` (homog2d.hpp:7522-7553). -/
def qCentroid (e : Env K) (closed : Bool) (s : PState K) : Res (Pt K) × PState K :=
  match qSimple e closed s with
  | (.ok true, s1) =>
    match s1.cent with
    | some v => (.ok v, s1)
    | none => (.ok (centroidRaw s1.pts), { s1 with cent := some (centroidRaw s1.pts) })
  | (.ok false, s1) => (.throw, s1)
  | (.throw, s1) => (.throw, s1)
  | (.ub, s1) => (.ub, s1)

/-- The calls that can be made on a polyline object. -/
inductive POp (K : Type) where
  | set (pts : List (Pt K))        -- `set( container )`, or assignment from a new object
  | clear
  | translate (dx dy : K)
  | moveTo (p : Pt K)
  | rotate (rot : Rotate)
  | rotateRef (rot : Rotate) (ref : Pt K)
  | minimize
  | edit (pts : List (Pt K))       -- `getPts() = pts`, or any change through the reference, done at once
  | retained (pts : List (Pt K))   -- change through a reference obtained by an earlier call to `getPts()`
  | length | area | isSimple | centroid | isConvex
  | compare                        -- `==` with a polyline of the same type and size

/-- All attributes flagged bad, and not normalised. -/
def PState.reset (pts : List (Pt K)) : PState K := { pts := pts }

/-- `translate` (homog2d.hpp:6415-6421): only the points change. -/
def PState.translate (s : PState K) (dx dy : K) : PState K := { s with pts := polyTranslate dx dy s.pts }

/-- State after a call, whether it throws or not; `none` is undefined behaviour.
* `set` (homog2d.hpp:6465-6479): throws before any change;
* `clear` (6379-6384), `translate` (6415-6421), `moveTo` (6444-6452);
* `rotate` (7287-7314): through the non-const `getPts()` (6299-6304) - with an invalid enum value not modelled;
* `rotate( rot, ref )` (7269-7274);
* `minimize` (6406-6411, 7320-7363): nothing changes if no vertex is marked; else the object is swapped with a new one;
* comparison (6537-6555, 7572-7610). -/
def POp.exec (e : Env K) (closed : Bool) (s : PState K) : POp K → Option (PState K)
  | .set pts => some (if checkInput e.same pts then .reset pts else s)
  | .clear => some (.reset [])
  | .translate dx dy => some (s.translate dx dy)
  | .moveTo p =>
      match s.pts with
      | [] => some s
      | p0 :: _ => some (s.translate (p.1 - p0.1) (p.2 - p0.2))
  | .rotate rot => some (.reset (polyRotate rot s.pts))
  | .rotateRef rot ref =>
      let s1 := s.translate (-ref.1) (-ref.2)
      let s2 := PState.reset (polyRotate rot s1.pts)
      some (s2.translate ref.1 ref.2)
  | .minimize =>
      if s.pts.length < 3 then some s
      else
        let marks := if closed then minimizeMark e.mid s.pts 0 s.pts.length else minimizeMark e.mid s.pts 1 (s.pts.length - 1)
        if marks.isEmpty then some s
        else
          match addPoints e.same [] (dropMarked 0 marks s.pts) with
          | .ok pts => some (.reset pts)
          | .throw => some s
          | .ub => none
  | .edit pts => some (.reset pts)
  | .retained pts => some { s with pts := pts }
  | .length => some (qLength e closed s).2
  | .area => some (qArea e closed s).2
  | .isSimple => some (qSimple e closed s).2
  | .centroid => some (qCentroid e closed s).2
  | .isConvex => some (qSimple e closed s).2
  | .compare =>
      if s.norm then some s
      else
        match s.pts with
        | [] => some s
        | _ =>
          match normalizePoly closed s.pts with
          | .ok pts => some { s with pts := pts, norm := true }
          | .throw => some s
          | .ub => none

/-- A history of calls. -/
def polyRun (e : Env K) (closed : Bool) : PState K → List (POp K) → Option (PState K)
  | s, [] => some s
  | s, op :: ops => (op.exec e closed s).bind (fun s' => polyRun e closed s' ops)

end H2d
