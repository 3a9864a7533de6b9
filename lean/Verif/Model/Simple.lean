import Verif.Model.Polyline
import Verif.Model.Segment
import Verif.Model.FloatCross

/-!
# `isSimple()` with its exceptions

The loops are written once, for any way of building a segment (`mk`) and of intersecting two segments (`inter`); they are then used with exact and with rounded operations.
-/

namespace H2d.Simple

variable {P S : Type}

/-- `getSegment()` of a closed polyline (homog2d.hpp:6338-6353, 6366-6369). The unchecked vector accesses are `ub` when out of range. -/
def edgeSeg (mk : P → P → Res S) (pts : List P) (idx : Nat) : Res S :=
  if idx ≥ nbSegs true pts then .throw
  else
    match pts[idx]?, pts[if idx + 1 == nbSegs true pts then 0 else idx + 1]? with
    | some a, some b => mk a b
    | _, _ => .ub

/-- Inner loop of `isSimple()` (homog2d.hpp:7403-7409) on the remaining values of `j`: an intersection has been found. -/
def innerLoop (mk : P → P → Res S) (inter : S → S → Res (Option P)) (pts : List P) (seg1 : S) : List Nat → Res Bool
  | [] => .ok false
  | j :: js => do
    let s ← edgeSeg mk pts j
    match ← inter s seg1 with
    | some _ => pure true
    | none => innerLoop mk inter pts seg1 js

/-- Outer loop of `isSimple()` (homog2d.hpp:7399-7412) on the remaining values of `i`: an intersection has been found. -/
def outerLoop (mk : P → P → Res S) (inter : S → S → Res (Option P)) (pts : List P) : List Nat → Res Bool
  | [] => .ok false
  | i :: is => do
    let seg1 ← edgeSeg mk pts i
    let nbs := nbSegs true pts
    let lastone := if i = 0 then nbs - 1 else nbs
    if ← innerLoop mk inter pts seg1 (List.range' (i + 2) (lastone - (i + 2))) then pure true
    else outerLoop mk inter pts is

/-- `isSimple()` when the cache is not valid (homog2d.hpp:7385-7417). -/
def run (mk : P → P → Res S) (inter : S → S → Res (Option P)) (closed : Bool) (pts : List P) : Res Bool :=
  if pts.length < 3 then .ok false
  else if !closed then .ok false
  else do
    let b ← outerLoop mk inter pts (List.range (nbSegs true pts))
    pure !b

end H2d.Simple

namespace H2d

/-- `isSimple()` (homog2d.hpp:7385-7417) with real numbers. -/
noncomputable def simpleR (t : Thr ℝ) (closed : Bool) (pts : List (Pt ℝ)) : Res Bool := Simple.run (segMake t false) (segInter t) closed pts

/-- Constructor of a segment (homog2d.hpp:4900-4911) with rounded operations: the ends are put in order. -/
noncomputable def Fl.segMake (F : Arith) (t : Thr ℝ) (p q : Pt ℝ) : Res Seg := open Classical in if Fl.PtSame F t p q then .throw else .ok (fixOrder p q)

/-- `isSimple()` (homog2d.hpp:7385-7417) with rounded operations. -/
noncomputable def Fl.simpleF (F : Arith) (t : Thr ℝ) (ac : ℝ → ℝ) (closed : Bool) (pts : List (Pt ℝ)) : Res Bool := Simple.run (Fl.segMake F t) (Fl.segInter F t ac) closed pts

end H2d
