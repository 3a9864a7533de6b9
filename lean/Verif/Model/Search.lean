import Verif.Model.Basic
import Mathlib.Order.Defs.LinearOrder

/-!
# Nearest / farthest point searches and closest points of two polylines

Order level: the distance is an arbitrary function into a linear order and point equality is an
arbitrary boolean function, so that the model is independent of floating point rounding (NaN excluded).
-/

namespace H2d.Search

variable {P D : Type} [LinearOrder D]

/-- The two tags `priv::F_MIN` and `priv::F_MAX` (homog2d.hpp:11078-11079). -/
inductive What where
  | min
  | max
  deriving DecidableEq, Repr

/-- `currentDist < resDist` for `F_MIN` (homog2d.hpp:11123), `currentDist > resDist` for `F_MAX` (11131). -/
def better : What → D → D → Bool
  | .min, cur, res => decide (cur < res)
  | .max, cur, res => decide (cur > res)

/-- Loop of `priv::findPoint` (homog2d.hpp:11116-11138). `i` is the index of the head of the remaining elements.
`eq` is point equality, `d` is `priv::sqDist`. -/
def findLoop (w : What) (d : P → P → D) (eq : P → P → Bool) (q : P) :
    Nat → List P → Nat → D → Nat
  | _, [],      resIdx, _       => resIdx
  | i, x :: xs, resIdx, resDist =>
      if !(eq q x) then
        if better w (d q x) resDist then findLoop w d eq q (i+1) xs i (d q x)
        else findLoop w d eq q (i+1) xs resIdx resDist
      else findLoop w d eq q (i+1) xs resIdx resDist

/-- `priv::findPoint` (homog2d.hpp:11086-11140): throws if there are less than two points; if the first element is equal
to the query point, the search is initialised with the second one (without looking at it). -/
def findPoint (w : What) (d : P → P → D) (eq : P → P → Bool) (q : P) (cont : List P) : Res Nat :=
  match cont with
  | c0 :: c1 :: rest =>
      if eq c0 q then .ok (findLoop w d eq q 2 rest 1 (d q c1))
      else .ok (findLoop w d eq q 1 (c1 :: rest) 0 (d q c0))
  | _ => .throw

/-- `findNearestPoint` (homog2d.hpp:11152-11155). -/
def findNearestPoint (d : P → P → D) (eq : P → P → Bool) (q : P) (cont : List P) : Res Nat :=
  findPoint .min d eq q cont

/-- `findFarthestPoint` (homog2d.hpp:11160-11163). -/
def findFarthestPoint (d : P → P → D) (eq : P → P → Bool) (q : P) (cont : List P) : Res Nat :=
  findPoint .max d eq q cont

/-- Loop of `findNearestFarthestPoint` (homog2d.hpp:11190-11206). -/
def nfLoop (d : P → P → D) (eq : P → P → Bool) (q : P) :
    Nat → List P → (idxMin : Nat) → (minDist : D) → (idxMax : Nat) → (maxDist : D) → Nat × Nat
  | _, [],      idxMin, _,       idxMax, _       => (idxMin, idxMax)
  | i, x :: xs, idxMin, minDist, idxMax, maxDist =>
      if !(eq q x) then
        let cur := d q x
        let (idxMax', maxDist') := if cur > maxDist then (i, cur) else (idxMax, maxDist)
        let (idxMin', minDist') := if cur < minDist then (i, cur) else (idxMin, minDist)
        nfLoop d eq q (i+1) xs idxMin' minDist' idxMax' maxDist'
      else nfLoop d eq q (i+1) xs idxMin minDist idxMax maxDist

/-- `findNearestFarthestPoint` (homog2d.hpp:11171-11208). The first result is the nearest one. -/
def findNearestFarthestPoint (d : P → P → D) (eq : P → P → Bool) (q : P) (cont : List P) : Res (Nat × Nat) :=
  match cont with
  | c0 :: c1 :: rest =>
      if eq q c0 then .ok (nfLoop d eq q 2 rest 1 (d q c1) 1 (d q c1))
      else .ok (nfLoop d eq q 1 (c1 :: rest) 0 (d q c0) 0 (d q c0))
  | _ => .throw

/-- What a `priv::ClosestPoints` object exposes: `getMinDist()`, `getIndexes()` (homog2d.hpp:10571-10579).
`getPoints()` returns the elements at these indexes. -/
structure Closest (D : Type) where
  minDist : D
  i : Nat
  j : Nat
  deriving DecidableEq, Repr

/-- Inner loop of `getClosestPoints` (homog2d.hpp:10610-10616). -/
def closestInner (d : P → P → D) (p : P) (i : Nat) : Nat → List P → Closest D → Closest D
  | _, [],      out => out
  | j, y :: ys, out =>
      if d p y < out.minDist then closestInner d p i (j+1) ys ⟨d p y, i, j⟩
      else closestInner d p i (j+1) ys out

/-- Outer loop of `getClosestPoints` (homog2d.hpp:10607-10617). -/
def closestOuter (d : P → P → D) (b : List P) : Nat → List P → Closest D → Closest D
  | _, [],      out => out
  | i, x :: xs, out => closestOuter d b (i+1) xs (closestInner d x i 0 b out)

/-- `getClosestPoints` (homog2d.hpp:10595-10619): throws on an empty polyline; the initial value is the pair of first points
(constructor, 10550-10554). -/
def getClosestPoints (d : P → P → D) (a b : List P) : Res (Closest D) :=
  match a, b with
  | [], _ => .throw
  | _, [] => .throw
  | x :: xs, y :: ys => .ok (closestOuter d (y :: ys) 0 (x :: xs) ⟨d x y, 0, 0⟩)

end H2d.Search
