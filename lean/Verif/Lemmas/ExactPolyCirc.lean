import Verif.Lemmas.ExactArithMore
import Verif.Model.FloatPolyCirc

/-! # The intersections of polylines and rectangles with a circle, without rounding -/

namespace H2d.Exact
open H2d.Spec

local notation "E" => exactArith

theorem segsInterCircle_eq (t : Thr ℝ) (c : Circle) (hr : 0 ≤ c.radius) : ∀ es : List Seg, Fl.segsInterCircle E t c.center c.radius es = isNum (segsInterCircle t c es)
  | [] => rfl
  | e :: es => by
    have ih := segsInterCircle_eq t c hr es
    unfold segsInterCircle isNum at ih ⊢
    rw [Fl.segsInterCircle, concatRes, segCircle_eq e c.center hr, ih]
    rcases segCircle t e c.center c.radius with i | _ | _ <;> try rfl
    simp only [Res.bind_ok]
    rcases concatRes (fun e => segCircle t e c.center c.radius) es with j | _ | _ <;> rfl

theorem polyInterCircle_eq (t : Thr ℝ) (closed : Bool) (pts : List (Pt ℝ)) (c : Circle) (hr : 0 ≤ c.radius) : Fl.polyInterCircle E t closed pts c.center c.radius = isNum (polyInterCircle t closed pts c) := by
  unfold Fl.polyInterCircle polyInterCircle
  rw [polySegs_eq]
  rcases polySegs t (segPairs closed pts) with es | _ | _ <;> try rfl
  exact segsInterCircle_eq t c hr es

theorem rectCircleLoop_eq (t : Thr ℝ) (c : Pt ℝ) {r : ℝ} (hr : 0 ≤ r) : ∀ (es : List Seg) (out : List (Pt ℝ)), Fl.rectCircleLoop E t c r es out = isNum (rectCircleLoop t c r es out)
  | [], _ => rfl
  | e :: es, out => by
    rw [Fl.rectCircleLoop, rectCircleLoop, segCircle_eq e c hr]
    rcases segCircle t e c r with i | _ | _ <;> try rfl
    rcases i with _ | ⟨x, _ | ⟨y, _ | ⟨z, l⟩⟩⟩
    · exact rectCircleLoop_eq t c hr es _
    · exact rectCircleLoop_eq t c hr es _
    · exact rectCircleLoop_eq t c hr es _
    · rfl

theorem rectCircleInter_eq (t : Thr ℝ) (a : FRect ℝ) (c : Pt ℝ) {r : ℝ} (hr : 0 ≤ r) : Fl.rectCircleInter E t a c r = isNum (rectCircleInter t a c r) := by
  unfold Fl.rectCircleInter rectCircleInter
  rw [rectSegs_eq]
  rcases rectSegs t a with es | _ | _ <;> try rfl
  exact rectCircleLoop_eq t c hr es []

end H2d.Exact
