import Verif.Model.Segment
import Verif.Model.FRect
import Verif.Model.PolyReal
import Verif.Model.PolyState

/-!
# Intersection and union of two rectangles, over the reals
-/

namespace H2d

open Classical in
/-- `operator ==` on rectangles (homog2d.hpp:3082-3089). -/
noncomputable def rectEqB (t : Thr ℝ) (a b : FRect ℝ) : Bool := decide (PtEq t a.p1 b.p1) && decide (PtEq t a.p2 b.p2)

/-- `FRect_::getSegs()` (homog2d.hpp:2968-2978). -/
noncomputable def rectSegs (t : Thr ℝ) (r : FRect ℝ) : Res (List Seg) := do
  let s0 ← segMake t false r.p1 (r.p1.1, r.p2.2)
  let s1 ← segMake t false (r.p1.1, r.p2.2) r.p2
  let s2 ← segMake t false r.p2 (r.p2.1, r.p1.2)
  let s3 ← segMake t false (r.p2.1, r.p1.2) r.p1
  pure [s0, s1, s2, s3]

open Classical in
/-- Loop of the FRect/Segment intersection (homog2d.hpp:3156-3171). -/
noncomputable def rectSegLoop (t : Thr ℝ) (seg : Seg) : List Seg → List (Pt ℝ) → Res (List (Pt ℝ))
  | [], out => .ok out
  | rseg :: l, out => do
    match ← segInter t rseg seg with
    | none => rectSegLoop t seg l out
    | some pt =>
      let out' := match out with
        | [q] => if PtEq t q pt then out else out ++ [pt]
        | _ => out ++ [pt]
      if out'.length = 2 then pure out' else rectSegLoop t seg l out'

/-- FRect/Segment intersection (homog2d.hpp:3149-3173), also Segment/FRect (5322-5325). -/
noncomputable def rectSegInter (t : Thr ℝ) (r : FRect ℝ) (seg : Seg) : Res (List (Pt ℝ)) := do
  let l ← rectSegs t r
  rectSegLoop t seg l []

/-- Insertion in a `std::set` of points (homog2d.hpp:3120-3131): a list sorted by `operator <`. -/
def setInsert {K : Type} [LinearOrder K] (p : Pt K) : List (Pt K) → List (Pt K)
  | [] => [p]
  | q :: l => if ptLt p q then p :: q :: l else if ptLt q p then q :: setInsert p l else q :: l

/-- Loop of `p_intersects_R_C` with a rectangle (homog2d.hpp:3121-3133). The intersection of a segment has at most two points (assert at 3127). -/
noncomputable def rectLoop (t : Thr ℝ) (other : FRect ℝ) : List Seg → List (Pt ℝ) → Res (List (Pt ℝ))
  | [], pts => .ok pts
  | rseg :: l, pts => do
    match ← rectSegInter t other rseg with
    | [] => rectLoop t other l pts
    | [a] => rectLoop t other l (setInsert a pts)
    | [a, b] => rectLoop t other l (setInsert b (setInsert a pts))
    | _ => .ub

/-- FRect/FRect intersection (homog2d.hpp:3071-3076, 3118-3138), sorted points (`get()` sorts, 2610-2614). -/
noncomputable def rectInter (t : Thr ℝ) (a b : FRect ℝ) : Res (List (Pt ℝ)) :=
  if rectEqB t a b then .ok []
  else do
    let l ← rectSegs t a
    rectLoop t b l []

/-- `p_pointsInside` (homog2d.hpp:3103-3110). -/
noncomputable def pointsInside (a b : FRect ℝ) : List (Pt ℝ) := a.get4Pts.filter (fun p => Pt.isInsideRect p b)

/-- `intersectArea` (homog2d.hpp:7717-7819): `none` when the returned object says that there is no intersection. A failed assertion is `ub`. -/
noncomputable def intersectArea (t : Thr ℝ) (a b : FRect ℝ) : Res (Option (FRect ℝ)) :=
  if rectEqB t a b then .ok (some b)
  else do
    match ← rectInter t a b with
    | [] =>
      if a.isInsideRect b then pure (some a)
      else if b.isInsideRect a then pure (some b)
      else pure none
    | [_] => pure none
    | [v0, _, _, v3] => do
      let r ← FRect.ofPts t.nullOrthogDistance v0 v3
      pure (some r)
    | [v0, v1, v2] =>
      let xmin := min v0.1 (min v1.1 v2.1)
      let ymin := min v0.2 (min v1.2 v2.2)
      let xmax := max v0.1 (max v1.1 v2.1)
      let ymax := max v0.2 (max v1.2 v2.2)
      if ¬ (xmax - xmin > t.nullOrthogDistance) then .ub
      else if ¬ (ymax - ymin > t.nullOrthogDistance) then .ub
      else do
        let r ← FRect.ofPts t.nullOrthogDistance (xmin, ymin) (xmax, ymax)
        pure (some r)
    | [i0, i1] =>
      match pointsInside a b, pointsInside b a with
      | [], [] => pure none
      | [_], [_] => do
        let r ← FRect.ofPts t.nullOrthogDistance i0 i1
        pure (some r)
      | [q0, q1], [] => pure (some (FRect.of4Pts i0 i1 q0 q1))
      | [], [q0, q1] => pure (some (FRect.of4Pts i0 i1 q0 q1))
      | _, _ => .ub
    | _ => .ub

/-- `priv::runion::Index` (homog2d.hpp:7831-7852): a coordinate and the rectangle it comes from (1 or 2). -/
structure Idx (K : Type) where
  val : K
  rect : ℕ
  deriving DecidableEq

section
variable {K : Type} [LinearOrder K]

/-- `operator <` of `Index` (homog2d.hpp:7840-7846). -/
def Idx.lt (a b : Idx K) : Bool := if a.val = b.val then decide (a.rect < b.rect) else decide (a.val < b.val)

/-- Insertion in a sorted list. -/
def idxInsert (a : Idx K) : List (Idx K) → List (Idx K)
  | [] => [a]
  | b :: l => if b.lt a then b :: idxInsert a l else a :: b :: l

/-- `std::sort` of the four coordinates (homog2d.hpp:8137-8138): here the order is total, so that every sorting algorithm gives the same result. -/
def idxSort (l : List (Idx K)) : List (Idx K) := l.foldr idxInsert []

/-- The vectors of coordinates, sorted (homog2d.hpp:8124-8138), for one of the axes: `a1`, `a2` are from the first rectangle. -/
def coordVec (a1 a2 b1 b2 : K) : List (Idx K) := idxSort [⟨a1, 1⟩, ⟨a2, 1⟩, ⟨b1, 2⟩, ⟨b2, 2⟩]

/-- `table[r][c]._isCorner` (homog2d.hpp:7868-7872, 8142-8145); `none`: out of range access. -/
def tableCell (vx vy : List (Idx K)) (r c : ℕ) : Option Bool :=
  match vx[r]?, vy[c]? with
  | some a, some b => some (decide (a.rect = b.rect))
  | _, _ => none

end

/-- `enum class Direction` (homog2d.hpp:7879). -/
inductive Dir where
  | n | e | s | w
  deriving DecidableEq, Repr

/-- `turn` (homog2d.hpp:7898-7912). -/
def turnDir (left : Bool) : Dir → Dir
  | .w => if left then .s else .n
  | .s => if left then .e else .w
  | .e => if left then .n else .s
  | .n => if left then .w else .e

/-- `moveToNextCell` (homog2d.hpp:7916-7925), with the wrap-around of `uint8_t`. -/
def nextCell (row col : ℕ) : Dir → ℕ × ℕ
  | .n => ((row + 255) % 256, col)
  | .s => ((row + 1) % 256, col)
  | .e => (row, (col + 1) % 256)
  | .w => (row, (col + 255) % 256)

/-- The loop of `parseTable` (homog2d.hpp:7941-7966): outcome after at most `fuel` iterations, `none` if it is not finished by then.
`cell r c` is the content of the table, `none` out of it. -/
def parseLoop (cell : ℕ → ℕ → Option Bool) : ℕ → ℕ → ℕ → Dir → Bool → List (ℕ × ℕ) → Option (Res (List (ℕ × ℕ)))
  | 0, _, _, _, _, _ => none
  | fuel + 1, row, col, dir, firstTime, out =>
    match cell row col with
    | none => some .ub
    | some true =>
      let done := match out with
        | [] => false
        | o :: _ => decide ((row, col) = o) && decide (out.length > 2)
      if done then some (.ok out)
      else
        let out := out ++ [(row, col)]
        let dir := if firstTime then dir else turnDir false dir
        parseLoop cell fuel (nextCell row col dir).1 (nextCell row col dir).2 dir false out
    | some false =>
      if (row = 2 ∨ row = 1) ∧ (col = 2 ∨ col = 1) then
        let dir := turnDir true dir
        parseLoop cell fuel (nextCell row col dir).1 (nextCell row col dir).2 dir firstTime (out ++ [(row, col)])
      else parseLoop cell fuel (nextCell row col dir).1 (nextCell row col dir).2 dir firstTime out

/-- `parseTable` (homog2d.hpp:7933-7968). A walk that is not finished after 64 steps is given as `ub`; the theorems show that it does not happen. -/
def parseTable (cell : ℕ → ℕ → Option Bool) : Res (List (ℕ × ℕ)) :=
  match parseLoop cell 64 0 0 .e true [] with
  | some r => r
  | none => .ub

/-- Loop of `convertToCoord` (homog2d.hpp:8001-8015). `same` is the equality of points. -/
def convertLoop {K : Type} (same : Pt K → Pt K → Bool) (vx vy : List (Idx K)) : List (ℕ × ℕ) → List (Pt K) → Res (List (Pt K))
  | [], v => .ok v
  | e :: l, v =>
    match vx[e.1]?, vy[e.2]? with
    | some x, some y =>
      let pt : Pt K := (x.val, y.val)
      match v with
      | [] => convertLoop same vx vy l [pt]
      | q :: qs => convertLoop same vx vy l (if !(same (qs.getLastD q) pt) && !(same q pt) then q :: qs ++ [pt] else q :: qs)
    | _, _ => .ub

/-- `convertToCoord` (homog2d.hpp:7994-8018). -/
def convertToCoord {K : Type} (same : Pt K → Pt K → Bool) (v : List (ℕ × ℕ)) (vx vy : List (Idx K)) : Res (List (Pt K)) := do
  let pts ← convertLoop same vx vy v []
  polySet same pts

/-- Steps 1 to 4 of `unionArea` (homog2d.hpp:8123-8155), for the two rectangles after the exchange of step 0; `mid` is the test of `minimize()`. -/
def unionTable {K : Type} [LinearOrder K] (same : Pt K → Pt K → Bool) (mid : Pt K → Pt K → Pt K → Bool) (r1 r2 : FRect K) : Res (List (Pt K)) := do
  let vx := coordVec r1.p1.1 r1.p2.1 r2.p1.1 r2.p2.1
  let vy := coordVec r1.p1.2 r1.p2.2 r2.p1.2 r2.p2.2
  let vpts ← parseTable (tableCell vx vy)
  let res1 ← convertToCoord same vpts vx vy
  minimize same mid true res1

open Classical in
/-- What the rectangle code takes from the point, segment and polyline classes. -/
noncomputable def stdEnv (t : Thr ℝ) : Env ℝ where
  same := fun p q => decide (PtEq t p q)
  segLen := ptDist
  inter := segInterB t
  mid := sameAngle t.nullAngleValue

/-- `unionArea` (homog2d.hpp:8089-8156): the points of the returned polyline. -/
noncomputable def unionArea (t : Thr ℝ) (a b : FRect ℝ) : Res (List (Pt ℝ)) :=
  if rectEqB t a b then .ok b.get4Pts
  else do
    match ← rectInter t a b with
    | [] =>
      if a.isInsideRect b then pure b.get4Pts
      else if b.isInsideRect a then pure a.get4Pts
      else pure []
    | _ =>
      if a.p1.1 < b.p1.1 then unionTable (stdEnv t).same (stdEnv t).mid b a
      else unionTable (stdEnv t).same (stdEnv t).mid a b

/-- `IoU` (homog2d.hpp:9860-9866). A division by 0 is `ub`. -/
noncomputable def rectIoU (t : Thr ℝ) (a b : FRect ℝ) : Res ℝ := do
  match ← intersectArea t a b with
  | some r => do
    let pts ← unionArea t a b
    let ar ← freshArea (stdEnv t) true pts
    if ar = 0 then .ub else pure (r.area / ar)
  | none => pure 0

end H2d
