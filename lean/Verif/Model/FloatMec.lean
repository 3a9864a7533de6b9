import Verif.Model.Circle
import Verif.Model.FloatPip
import Verif.Model.FloatCross

/-!
# Circles from points with rounded operations; Welzl's algorithm over any operations
-/

namespace H2d

/-- `p_WelzlHelper` (homog2d.hpp:5686-5716), as `H2d.welzl`, for any computation `triv` of the circle of at most 3 points (5655-5673) and any test `inside`. `P` is
the type of points and `C` the type of circles. -/
def welzlG {P C : Type} (triv : List P → Res C) (inside : P → C → Bool) (rnd : ℕ → ℕ) : ℕ → ℕ → List P → List P → Res C × List P × ℕ
  | 0, k, V, R => (triv R, V, k)
  | n + 1, k, V, R =>
    if R.length = 3 then (triv R, V, k)
    else
      let idx := rnd k % (n + 1)
      match V[idx]?, V[n]? with
      | some p, some q =>
        let V := (V.set idx q).set n p
        match welzlG triv inside rnd n (k + 1) V R with
        | (.ok d, V, k) => if inside p d then (.ok d, V, k) else welzlG triv inside rnd n k V (R ++ [p])
        | r => r
      | _, _ => (.ub, V, k)

namespace Fl

variable (F : Arith)

/-- `getOrthogonalLine_B2` (homog2d.hpp:3740-3750): the constructor normalises, and it is done again. -/
noncomputable def orthogLine (t : Thr ℝ) (l : V3 ℝ) (p : Pt ℝ) : Res (V3 ℝ) := do
  let out ← normalizeLine F t ![- l 1, l 0, F.rnd (F.rnd (l 1 * p.1) - F.rnd (l 0 * p.2))]
  normalizeLine F t out

/-- `getBisector()` (homog2d.hpp:5305-5309). -/
noncomputable def segBisector (t : Thr ℝ) (s : Seg) : Res (V3 ℝ) := do
  let li ← lineOfPts F t s.1 s.2
  orthogLine F t li (center F s.1 s.2)

/-- `priv::getLargestDistancePoints` (homog2d.hpp:3616-3660). -/
noncomputable def largestDistancePoints (p1 p2 p3 : Pt ℝ) : Pt ℝ × Pt ℝ × Pt ℝ :=
  let d12 := sqDist F p1 p2
  let d13 := sqDist F p1 p3
  let d23 := sqDist F p2 p3
  if d12 > d13 then
    if d12 > d23 then
      if d13 > d23 then (p1, p2, p3) else (p2, p1, p3)
    else (p2, p3, p1)
  else
    if d13 > d23 then
      if d12 > d23 then (p1, p3, p2) else (p3, p1, p2)
    else (p3, p2, p1)

open Classical in
/-- `areCollinear` (homog2d.hpp:3687-3698). -/
noncomputable def areCollinear (t : Thr ℝ) (p1 p2 p3 : Pt ℝ) : Res Bool :=
  if PtSame F t p1 p2 ∨ PtSame F t p2 p3 ∨ PtSame F t p1 p3 then .ok true
  else do
    let r := largestDistancePoints F p1 p2 p3
    let li ← lineOfPts F t r.1 r.2.1
    pure (decide (lineDist F li r.2.2 < t.nullDistance))

open Classical in
/-- Circle from 2 points (homog2d.hpp:5572-5582). -/
noncomputable def circle2 (t : Thr ℝ) (p q : Pt ℝ) : Res Circle :=
  if PtSame F t p q then .throw
  else do
    let s ← segMake F t p q
    pure ⟨center F s.1 s.2, F.rnd (distPt F s.1 s.2 / 2)⟩

/-- Circle from 3 points (homog2d.hpp:5605-5627); `none`: the values are infinite, or not numbers. -/
noncomputable def circle3 (t : Thr ℝ) (ac : ℝ → ℝ) (p1 p2 p3 : Pt ℝ) : Res (Option Circle) := do
  let col ← areCollinear F t p1 p2 p3
  if col then .throw
  else do
    let r := largestDistancePoints F p1 p2 p3
    let s1 ← segMake F t r.1 r.2.1
    let s2 ← segMake F t r.1 r.2.2
    let li1 ← segBisector F t s1
    let li2 ← segBisector F t s2
    if isParallel F t ac li1 li2 then .throw
    else do
      let c ← lineInter F t ac li1 li2
      pure (c.map fun c => ⟨c, distPt F c p1⟩)

open Classical in
/-- A point is inside a circle (homog2d.hpp:4369-4390): false if the values of the circle are infinite or not numbers. -/
noncomputable def inCircle (p : Pt ℝ) : Option Circle → Bool
  | some c => decide (PtInCirc F p c.center c.radius)
  | none => false

/-- `priv::is_valid_circle` (homog2d.hpp:5634-5644). -/
noncomputable def validCircle (c : Circle) (pts : List (Pt ℝ)) : Bool := pts.all fun p => inCircle F p (some c)

/-- `p_min_circle_trivial` (homog2d.hpp:5655-5673), while `doNotCheckRadius()` is set (5758). -/
noncomputable def minTrivial (t : Thr ℝ) (ac : ℝ → ℝ) : List (Pt ℝ) → Res (Option Circle)
  | [] => .ok (some ⟨(0, 0), 0⟩)
  | [a] => .ok (some ⟨a, 0⟩)
  | [a, b] => do
    let c ← circle2 F t a b
    pure (some c)
  | a :: b :: c :: P => do
    let c1 ← circle2 F t a b
    if validCircle F c1 (a :: b :: c :: P) then pure (some c1)
    else do
      let c2 ← circle2 F t a c
      if validCircle F c2 (a :: b :: c :: P) then pure (some c2)
      else do
        let c3 ← circle2 F t b c
        if validCircle F c3 (a :: b :: c :: P) then pure (some c3)
        else circle3 F t ac a b c

/-- Circle from a container of points (homog2d.hpp:3234-3237, 5737-5762). Simplification: the final `set( center, radius )` (5760) is not repeated (the radius is a distance, or half of it: it is not
negative, and null radiuses are accepted there). -/
noncomputable def circleOfPts (t : Thr ℝ) (ac : ℝ → ℝ) (rnd : ℕ → ℕ) : List (Pt ℝ) → Res (Option Circle)
  | [] => .throw
  | [_] => .throw
  | [a, b] => do
    let c ← circle2 F t a b
    pure (some c)
  | [a, b, c] => circle3 F t ac a b c
  | pts => (welzlG (minTrivial F t ac) (inCircle F) rnd pts.length 0 pts []).1

end Fl

end H2d
