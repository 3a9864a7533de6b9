import Verif.Model.FloatRect
import Verif.Model.FloatSegLine
import Verif.Model.RectMore

/-!
# Intersection of a rectangle and a line with rounded operations

As in `Verif.Model.FloatGeom`: each operation is followed by a rounding, in the order of the code.
-/

namespace H2d.Fl

variable (F : Arith)

open Classical in
/-- Loop of the Line/FRect intersection (homog2d.hpp:9530-9548); `pti` is the vector of points found. -/
noncomputable def rectLineLoop (t : Thr ℝ) (ac : ℝ → ℝ) (l : V3 ℝ) : List Seg → List (Pt ℝ) → Res (List (Pt ℝ))
  | [], pti => .ok pti
  | seg :: rest, pti => do
    match ← segLineInter F t ac seg l with
    | none => rectLineLoop t ac l rest pti
    | some pt =>
      let pti' := match pti with
        | [q] => if (PtSame F t pt seg.1 ∨ PtSame F t pt seg.2) ∧ PtSame F t q pt then pti else pti ++ [pt]
        | _ => pti ++ [pt]
      if pti'.length = 2 then pure pti' else rectLineLoop t ac l rest pti'

/-- Line/FRect intersection (homog2d.hpp:9524-9554), also FRect/Line (3046-3050): the points before the sort of `get()` (2610-2614). -/
noncomputable def rectLineInter (t : Thr ℝ) (ac : ℝ → ℝ) (r : FRect ℝ) (l : V3 ℝ) : Res (List (Pt ℝ)) := do
  let segs ← rectSegs F t r
  rectLineLoop F t ac l segs []

end H2d.Fl
