import Verif.Model.BB
import Verif.Model.Polyline

/-!
# Convex hull

The coordinates are in an ordered field (rounding not modelled).
-/

namespace H2d

variable {K : Type} [Field K] [LinearOrder K]

/-- `priv::chull::getPivotPoint` (homog2d.hpp:11452-11456): index of the bottom-most point (then left-most); the container is not empty. -/
def getPivot (input : List (Pt K)) : Nat :=
  match getExtremePoint .bottom input with
  | .ok r => r.2
  | _ => 0

/-- The comparison lambda of `sortPoints` (homog2d.hpp:11476-11486). The indexes are in range. -/
def hullComp (input : List (Pt K)) (piv : Nat) (i1 i2 : Nat) : Bool :=
  match input[piv]?, input[i1]?, input[i2]? with
  | some pt0, some pt1, some pt2 =>
    let dx1 := pt1.1 - pt0.1
    let dy1 := pt1.2 - pt0.2
    let dx2 := pt2.1 - pt0.1
    let dy2 := pt2.2 - pt0.2
    decide (dx1 * dy2 - dx2 * dy1 > 0)
  | _, _, _ => false

/-- The indexes with the pivot in first place (homog2d.hpp:11467-11469). -/
def hullIota (n piv : Nat) : List Nat := ((List.range n).set piv 0).set 0 piv

/-- `priv::chull::sortPoints` (homog2d.hpp:11462-11489). `srt` is `std::sort`. -/
def sortPoints (srt : (Nat → Nat → Bool) → List Nat → List Nat) (input : List (Pt K)) (piv : Nat) : List Nat :=
  match hullIota input.length piv with
  | [] => []
  | i :: l => i :: srt (hullComp input piv) l

/-- `priv::chull::orientation` (homog2d.hpp:11503-11517); `thr` is the constant `HOMOG2D_THR_ZERO_DETER`. -/
def chOrientation (thr : K) (p q r : Pt K) : Int :=
  let val := (q.2 - p.2) * (r.1 - q.1) - (q.1 - p.1) * (r.2 - q.2)
  if |val| < thr then 0 else if val > 0 then 1 else -1

/-- `input.at( v2[idx] )` (homog2d.hpp:11582-11584): `operator []` out of range is undefined, `at()` throws. -/
def hullPt (input : List (Pt K)) (v2 : List Nat) (idx : Nat) : Res (Pt K) :=
  match v2[idx]? with
  | none => .ub
  | some k =>
    match input[k]? with
    | none => .throw
    | some p => .ok p

/-- The `do ... while` loop (homog2d.hpp:11579-11603), both stacks are given from the top: outcome after at most `fuel` iterations, `none` if it is not finished by then.
`pop()`, `top()` on an empty stack are undefined. -/
def hullLoop (thr : K) (input : List (Pt K)) (v2 : List Nat) : Nat → Nat → Nat → Nat → List Nat → List Nat → Option (Res (List Nat))
  | 0, _, _, _, _, _ => none
  | fuel + 1, idx1, idx2, idx3, hull, firstPoint =>
    match hullPt input v2 idx1, hullPt input v2 idx2, hullPt input v2 idx3, v2[idx3]? with
    | .ok p, .ok q, .ok r, some k3 =>
      if chOrientation thr p q r ≠ 1 then
        if idx3 + 1 < v2.length then hullLoop thr input v2 fuel idx2 idx3 (idx3 + 1) (k3 :: hull) (idx2 :: firstPoint)
        else some (.ok (k3 :: hull))
      else
        match hull, firstPoint with
        | _ :: hull', _ :: f1 :: fp' =>
          if idx3 < v2.length then hullLoop thr input v2 fuel f1 idx1 idx3 hull' (f1 :: fp')
          else some (.ok hull')
        | _, _ => some .ub
    | .ub, _, _, _ => some .ub
    | _, .ub, _, _ => some .ub
    | _, _, .ub, _ => some .ub
    | _, _, _, _ => some .throw

/-- Copy of the points (homog2d.hpp:11607-11617). -/
def hullCopy (input : List (Pt K)) : List Nat → Res (List (Pt K))
  | [] => .ok []
  | k :: l =>
    match input[k]? with
    | none => .throw
    | some p => do
      let r ← hullCopy input l
      pure (p :: r)

/-- `convexHull( vector )` (homog2d.hpp:11555-11620); also `convexHull( polyline )` (11540-11543) and the member function (11627-11630).
`srt` is `std::sort`, `same` the equality of points. A loop that is not finished after `2n` iterations is given as `ub`; the theorems show that it does not happen. -/
def convexHull (srt : (Nat → Nat → Bool) → List Nat → List Nat) (thr : K) (same : Pt K → Pt K → Bool) (input : List (Pt K)) : Res (List (Pt K)) :=
  if input.length < 4 then polySet same input
  else
    let v2 := sortPoints srt input (getPivot input)
    match v2[0]?, v2[1]?, v2[2]? with
    | some a, some b, some c =>
      match hullLoop thr input v2 (2 * input.length) 1 2 3 [c, b, a] [1, 0] with
      | some (.ok hull) => do
        let vout ← hullCopy input hull.reverse
        polySet same vout
      | some .throw => .throw
      | some .ub => .ub
      | none => .ub
    | _, _, _ => .ub

end H2d
