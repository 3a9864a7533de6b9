import Verif.Model.ThreadsCircle

/-! # Specification of circles built by several threads -/

namespace H2d.Spec

/-- The outcomes of operations done one after the other by a single thread. -/
noncomputable def inOrder (t : Thr ℝ) : Bool → List CircOp → List (CircOp × Res Circle)
  | _, [] => []
  | flag, op :: ops => (op, (op.exec t flag).1) :: inOrder t (op.exec t flag).2 ops

/-- The threads, before their first access, with the operations each of them will do. -/
def startingC (prog : ℕ → List CircOp) : ℕ → CThread := fun i => ⟨prog i, none, []⟩

/-- The minimum enclosing circle is searched: four points or more. -/
def Searches : CircOp → Prop
  | .container _ pts => 4 ≤ pts.length
  | _ => False

/-- A circle is asked for with a radius below the null distance. -/
def TooSmall (t : Thr ℝ) : CircOp → Prop
  | .make _ r => |r| < t.nullDistance
  | _ => False

end H2d.Spec
