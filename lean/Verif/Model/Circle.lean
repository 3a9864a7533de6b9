import Verif.Model.Segment
import Verif.Model.FRect

/-!
# Circles over the reals

Rounding is not modelled. The global flag `thr::doNotCheckRadius()` (homog2d.hpp:1258-1262) is an explicit parameter, and a result when it changes.
-/

namespace H2d

/-- `Circle_::_center`, `_radius` (homog2d.hpp:3195-3197). -/
structure Circle where
  center : Pt ℝ
  radius : ℝ

/-- Constructor from a center and a radius (homog2d.hpp:3241-3250); also `Circle_(rad)`, `Circle_(x,y,rad)` (3215, 3271) and `set(center,rad)` (3358).
`flag` is the value of `thr::doNotCheckRadius()`. -/
noncomputable def circleMake (t : Thr ℝ) (flag : Bool) (c : Pt ℝ) (r : ℝ) : Res Circle :=
  if |r| < t.nullDistance ∧ ¬ flag then .throw
  else if r < 0 then .throw
  else .ok ⟨c, r⟩

/-- Circle from 2 points (homog2d.hpp:5572-5582). -/
noncomputable def circle2 (t : Thr ℝ) (p q : Pt ℝ) : Res Circle :=
  if PtEq t p q then .throw
  else do
    let s ← segMake t false p q
    pure ⟨segCenter s, segLength s / 2⟩

/-- Circle from 3 points (homog2d.hpp:5605-5627). -/
noncomputable def circle3 (t : Thr ℝ) (p1 p2 p3 : Pt ℝ) : Res Circle := do
  let col ← areCollinear t p1 p2 p3
  if col then .throw
  else do
    let r := largestDistancePoints p1 p2 p3
    let s1 ← segMake t false r.1 r.2.1
    let s2 ← segMake t false r.1 r.2.2
    let li1 ← segBisector t s1
    let li2 ← segBisector t s2
    if IsParallel t li1 li2 then .throw
    else do
      let c ← lineInter t li1 li2
      pure ⟨getXY c, ptDist (getXY c) p1⟩

/-- A point is inside a circle (homog2d.hpp:4369-4390). -/
abbrev PtInCircle (p : Pt ℝ) (c : Circle) : Prop := ptDist p c.center < c.radius

/-- `priv::is_valid_circle` (homog2d.hpp:5634-5644). -/
abbrev ValidCircle (c : Circle) (pts : List (Pt ℝ)) : Prop := ∀ p ∈ pts, PtInCircle p c

/-- `p_min_circle_trivial` (homog2d.hpp:5655-5673). It is only called while `doNotCheckRadius()` is set (5757). -/
noncomputable def minTrivial (t : Thr ℝ) : List (Pt ℝ) → Res Circle
  | [] => circleMake t true (0, 0) 0
  | [a] => circleMake t true a 0
  | [a, b] => circle2 t a b
  | a :: b :: c :: P => do
    let c1 ← circle2 t a b
    if ValidCircle c1 (a :: b :: c :: P) then pure c1
    else do
      let c2 ← circle2 t a c
      if ValidCircle c2 (a :: b :: c :: P) then pure c2
      else do
        let c3 ← circle2 t b c
        if ValidCircle c3 (a :: b :: c :: P) then pure c3
        else circle3 t a b c

/-- `p_WelzlHelper` (homog2d.hpp:5686-5716). `rnd k` is the value of the `k`-th call of `std::rand()`. The result holds the outcome, the vector `P`
(passed by reference, hence reordered for the caller) and the number of calls of `rand` done so far. -/
noncomputable def welzl (t : Thr ℝ) (rnd : ℕ → ℕ) : ℕ → ℕ → List (Pt ℝ) → List (Pt ℝ) → Res Circle × List (Pt ℝ) × ℕ
  | 0, k, P, R => (minTrivial t R, P, k)
  | n + 1, k, P, R =>
    if R.length = 3 then (minTrivial t R, P, k)
    else
      let idx := rnd k % (n + 1)
      match P[idx]?, P[n]? with
      | some p, some q =>
        let P := (P.set idx q).set n p
        match welzl t rnd n (k + 1) P R with
        | (.ok d, P, k) => if PtInCircle p d then (.ok d, P, k) else welzl t rnd n k P (R ++ [p])
        | r => r
      | _, _ => (.ub, P, k)

/-- Circle from a container of points (homog2d.hpp:3234-3237, 5737-5762): outcome, and value of `thr::doNotCheckRadius()` afterwards
(an exception leaves the function before it is reset). -/
noncomputable def circleOfPts (t : Thr ℝ) (flag : Bool) (rnd : ℕ → ℕ) (pts : List (Pt ℝ)) : Res Circle × Bool :=
  match pts with
  | [] => (.throw, flag)
  | [_] => (.throw, flag)
  | [a, b] => (circle2 t a b, flag)
  | [a, b, c] => (circle3 t a b c, flag)
  | pts =>
    match (welzl t rnd pts.length 0 pts []).1 with
    | .ok d =>
      match circleMake t true d.center d.radius with
      | .ok c => (.ok c, false)
      | r => (r, true)
    | r => (r, true)

/-- The operations that build a circle. -/
inductive CircOp where
  | make (c : Pt ℝ) (r : ℝ)
  | two (p q : Pt ℝ)
  | three (p q r : Pt ℝ)
  | container (rnd : ℕ → ℕ) (pts : List (Pt ℝ))

/-- Outcome of an operation and value of the flag afterwards (homog2d.hpp:3234-3290). -/
noncomputable def CircOp.exec (t : Thr ℝ) (flag : Bool) : CircOp → Res Circle × Bool
  | .make c r => (circleMake t flag c r, flag)
  | .two p q => (circle2 t p q, flag)
  | .three p q r => (circle3 t p q r, flag)
  | .container rnd pts => circleOfPts t flag rnd pts

/-- Value of `thr::doNotCheckRadius()` after a history of operations (the initial value is false, homog2d.hpp:1258-1262). -/
noncomputable def flagAfter (t : Thr ℝ) (ops : List CircOp) : Bool := ops.foldl (fun f op => (op.exec t f).2) false

/-- Circle inside a circle (homog2d.hpp:3441-3444). -/
abbrev CircInCirc (a b : Circle) : Prop := a.radius + ptDist a.center b.center < b.radius

/-- Circle inside a rectangle (homog2d.hpp:3455-3458, 3507-3518). -/
abbrev CircInRect (a : Circle) (r : FRect ℝ) : Prop :=
  a.center.1 + a.radius < r.p2.1 ∧ a.center.1 - a.radius > r.p1.1 ∧ a.center.2 + a.radius < r.p2.2 ∧ a.center.2 - a.radius > r.p1.2

/-- Rectangle inside a circle (homog2d.hpp:3007-3014 with `T = Circle_`). -/
abbrev RectInCirc (r : FRect ℝ) (a : Circle) : Prop := ∀ p ∈ r.get4Pts, PtInCircle p a

/-- `operator ==` on circles (homog2d.hpp:3524-3531). -/
abbrev CircEq (t : Thr ℝ) (a b : Circle) : Prop := a.radius = b.radius ∧ PtEq t a.center b.center

/-- Circle/circle intersection (homog2d.hpp:5805-5850). `none`: NaN coordinates (division by 0, or square root of a negative number). -/
noncomputable def circInter (t : Thr ℝ) (a b : Circle) : Option (List (Pt ℝ)) :=
  if CircEq t a b then some []
  else
    let r1 := a.radius
    let r2 := b.radius
    let x1 := a.center.1
    let y1 := a.center.2
    let x2 := b.center.1
    let y2 := b.center.2
    let d2 := (x1 - x2) * (x1 - x2) + (y1 - y2) * (y1 - y2)
    if d2 > r1 * r1 + r2 * r2 + 2 * r1 * r2 then some []
    else if d2 < r1 * r1 + r2 * r2 - 2 * r1 * r2 then some []
    else
      let d := Real.sqrt d2
      let k := (r1 * r1 - r2 * r2 + d2) / 2 / d
      if d = 0 ∨ r1 * r1 - k * k < 0 then none
      else
        let h := Real.sqrt (r1 * r1 - k * k)
        let p0 : Pt ℝ := ((x2 - x1) * k / d + x1, (y2 - y1) * k / d + y1)
        let p3 : Pt ℝ := (p0.1 + (y1 - y2) * h / d, p0.2 - (x1 - x2) * h / d)
        let p4 : Pt ℝ := (p0.1 - (y1 - y2) * h / d, p0.2 + (x1 - x2) * h / d)
        some (if PtEq t p3 p4 then [p3] else [p3, p4])

end H2d
