import Verif.Model.FloatGeom
import Verif.Model.Circle

/-!
# Intersections, angles, distance to a segment and convex hull with rounded operations

Same conventions as in `FloatGeom`. `homog2d_sqrt` is `std::sqrt`, correctly rounded.
A result that is not a number (division by 0, square root of a negative number) is given as `none`.
-/

namespace H2d.Fl

variable (F : Arith)

/-- `homog2d_sqrt` (homog2d.hpp:9480, 9491): `none` on a negative number. -/
noncomputable def sqrtF (x : ℝ) : Option ℝ := if x < 0 then none else some (F.rnd (Real.sqrt x))

/-- Division: `none` if the divisor is 0 (homog2d.hpp:9480, 9487). -/
noncomputable def divF (x y : ℝ) : Option ℝ := if y = 0 then none else some (F.rnd (x / y))

/-- Signed distance of a centre to a line, not divided by the norm (homog2d.hpp:9476). -/
def lineAt (l : V3 ℝ) (c : Pt ℝ) : ℝ := F.rnd (F.rnd (F.rnd (c.1 * l 0) + F.rnd (c.2 * l 1)) + l 2)

/-- Squared norm of a pair (homog2d.hpp:9479, 9277, 5530). -/
def norm2 (a b : ℝ) : ℝ := F.rnd (F.rnd (a * a) + F.rnd (b * b))

/-- Line/circle intersection (homog2d.hpp:9463-9500), without the ordering of both points (9503). `some none`: no intersection. -/
noncomputable def lineCircle (l : V3 ℝ) (c : Pt ℝ) (radius : ℝ) : Option (Option (Pt ℝ × Pt ℝ)) := do
  let a := l 0
  let b := l 1
  let cp := lineAt F l c
  let a2b2 := norm2 F a b
  let s ← sqrtF F a2b2
  let d0 ← divF F |cp| s
  if radius < d0 then pure none
  else
    let d2 := F.rnd (F.rnd (radius * radius) - F.rnd (d0 * d0))
    let xb ← divF F (F.rnd (-a * cp)) a2b2
    let yb ← divF F (F.rnd (-b * cp)) a2b2
    let q ← divF F d2 a2b2
    let m ← sqrtF F q
    let x1 := F.rnd (xb + F.rnd (m * b))
    let y1 := F.rnd (yb - F.rnd (m * a))
    let x2 := F.rnd (xb - F.rnd (m * b))
    let y2 := F.rnd (yb + F.rnd (m * a))
    pure (some ((F.rnd (x1 + c.1), F.rnd (y1 + c.2)), (F.rnd (x2 + c.1), F.rnd (y2 + c.2))))

/-- Circle/circle intersection (homog2d.hpp:5805-5850). -/
noncomputable def circInter (t : Thr ℝ) (c1 c2 : Circle) : Option (List (Pt ℝ)) :=
  open Classical in
  if c1.radius = c2.radius ∧ PtSame F t c1.center c2.center then some []
  else
    let r1 := c1.radius
    let r2 := c2.radius
    let x1 := c1.center.1
    let y1 := c1.center.2
    let x2 := c2.center.1
    let y2 := c2.center.2
    let r11 := F.rnd (r1 * r1)
    let r22 := F.rnd (r2 * r2)
    let r12 := F.rnd (F.rnd (2 * r1) * r2)
    let d2 := F.rnd (F.rnd (F.rnd (x1 - x2) * F.rnd (x1 - x2)) + F.rnd (F.rnd (y1 - y2) * F.rnd (y1 - y2)))
    if d2 > F.rnd (F.rnd (r11 + r22) + r12) then some []
    else if d2 < F.rnd (F.rnd (r11 + r22) - r12) then some []
    else do
      let d ← sqrtF F d2
      let a ← divF F (F.rnd (F.rnd (F.rnd (r11 - r22) + d2) / 2)) d
      let h ← sqrtF F (F.rnd (r11 - F.rnd (a * a)))
      let q1 ← divF F (F.rnd (F.rnd (x2 - x1) * a)) d
      let q2 ← divF F (F.rnd (F.rnd (y2 - y1) * a)) d
      let p0 : Pt ℝ := (F.rnd (q1 + x1), F.rnd (q2 + y1))
      let ox ← divF F (F.rnd (F.rnd (y1 - y2) * h)) d
      let oy ← divF F (F.rnd (F.rnd (x1 - x2) * h)) d
      let p3 : Pt ℝ := (F.rnd (p0.1 + ox), F.rnd (p0.2 - oy))
      let p4 : Pt ℝ := (F.rnd (p0.1 - ox), F.rnd (p0.2 + oy))
      pure (if PtSame F t p3 p4 then [p3] else [p3, p4])

/-- The argument of `acos` in `getAngle` (homog2d.hpp:9271-9289). -/
noncomputable def cosArg (l1 l2 : V3 ℝ) : Option ℝ := do
  let res := F.rnd (F.rnd (l1 0 * l2 0) + F.rnd (l1 1 * l2 1))
  let s ← sqrtF F (F.rnd (norm2 F (l1 0) (l1 1) * norm2 F (l2 0) (l2 1)))
  let r ← divF F res s
  pure (if |r| > 1 then 1 else |r|)

/-- `getAngle` of two lines (homog2d.hpp:9267-9291); `ac` is `std::acos`: not a number out of [-1,1]. -/
noncomputable def lineAngle (ac : ℝ → ℝ) (l1 l2 : V3 ℝ) : Option ℝ := do
  let x ← cosArg F l1 l2
  if x < -1 ∨ 1 < x then none else some (ac x)

/-- `isParallelTo` of two lines (homog2d.hpp:9232-9239): a comparison with a value that is not a number is false. -/
noncomputable def isParallel (t : Thr ℝ) (ac : ℝ → ℝ) (l1 l2 : V3 ℝ) : Bool :=
  match lineAngle F ac l1 l2 with
  | some x => decide (x < t.nullAngleValue)
  | none => false

/-- `distTo` between a segment and a point (homog2d.hpp:5513-5563): distance and region. -/
noncomputable def segDistTo (s1 s2 p : Pt ℝ) : Option (ℝ × Int) := do
  let A := F.rnd (p.1 - s1.1)
  let B := F.rnd (p.2 - s1.2)
  let C := F.rnd (s2.1 - s1.1)
  let D := F.rnd (s2.2 - s1.2)
  let dot := F.rnd (F.rnd (A * C) + F.rnd (B * D))
  let param ← divF F dot (norm2 F C D)
  let r : Int × Pt ℝ :=
    if param < 0 then (-1, s1)
    else if param > 1 then (1, s2)
    else (0, (F.rnd (s1.1 + F.rnd (param * C)), F.rnd (s1.2 + F.rnd (param * D))))
  let dx := F.rnd (p.1 - r.2.1)
  let dy := F.rnd (p.2 - r.2.2)
  let d ← sqrtF F (norm2 F dx dy)
  pure (d, r.1)

/-- The comparison of `sortPoints` (homog2d.hpp:11476-11486). -/
noncomputable def hullComp (input : List (Pt ℝ)) (piv : Nat) (i1 i2 : Nat) : Bool :=
  match input[piv]?, input[i1]?, input[i2]? with
  | some pt0, some pt1, some pt2 =>
    let dx1 := F.rnd (pt1.1 - pt0.1)
    let dy1 := F.rnd (pt1.2 - pt0.2)
    let dx2 := F.rnd (pt2.1 - pt0.1)
    let dy2 := F.rnd (pt2.2 - pt0.2)
    decide (F.rnd (F.rnd (dx1 * dy2) - F.rnd (dx2 * dy1)) > 0)
  | _, _, _ => false

/-- `priv::chull::sortPoints` (homog2d.hpp:11462-11489). `srt` is `std::sort`. -/
noncomputable def sortPoints (srt : (Nat → Nat → Bool) → List Nat → List Nat) (input : List (Pt ℝ)) (piv : Nat) : List Nat :=
  match hullIota input.length piv with
  | [] => []
  | i :: l => i :: srt (hullComp F input piv) l

/-- The `do ... while` loop (homog2d.hpp:11579-11603), as `H2d.hullLoop`. -/
noncomputable def hullLoop (thr : ℝ) (input : List (Pt ℝ)) (v2 : List Nat) : Nat → Nat → Nat → Nat → List Nat → List Nat → Option (Res (List Nat))
  | 0, _, _, _, _, _ => none
  | fuel + 1, idx1, idx2, idx3, hull, firstPoint =>
    match hullPt input v2 idx1, hullPt input v2 idx2, hullPt input v2 idx3, v2[idx3]? with
    | .ok p, .ok q, .ok r, some k3 =>
      if chOrientation F thr p q r ≠ 1 then
        if idx3 + 1 < v2.length then hullLoop thr input v2 fuel idx2 idx3 (idx3 + 1) (k3 :: hull) (idx2 :: firstPoint)
        else some (.ok (k3 :: hull))
      else
        match hull, firstPoint with
        | _ :: hull', _ :: f1 :: fp' =>
          if idx3 < v2.length then hullLoop thr input v2 fuel f1 idx1 idx3 hull' (f1 :: fp')
          else some (.ok hull')
        | _, _ => some .ub
    | .ub, _, _, _ => some .ub
    | _, .ub, _, _ => some .ub
    | _, _, .ub, _ => some .ub
    | _, _, _, _ => some .throw

/-- `convexHull( vector )` (homog2d.hpp:11555-11620), as `H2d.convexHull`. -/
noncomputable def convexHull (srt : (Nat → Nat → Bool) → List Nat → List Nat) (t : Thr ℝ) (thr : ℝ) (input : List (Pt ℝ)) : Res (List (Pt ℝ)) :=
  open Classical in
  let same : Pt ℝ → Pt ℝ → Bool := fun p q => decide (PtSame F t p q)
  if input.length < 4 then polySet same input
  else
    let v2 := sortPoints F srt input (getPivot input)
    match v2[0]?, v2[1]?, v2[2]? with
    | some a, some b, some c =>
      match hullLoop F thr input v2 (2 * input.length) 1 2 3 [c, b, a] [1, 0] with
      | some (.ok hull) => do
        let vout ← hullCopy input hull.reverse
        polySet same vout
      | some .throw => .throw
      | some .ub => .ub
      | none => .ub
    | _, _, _ => .ub

end H2d.Fl
