import Verif.Model.DrawParams

/-!
# Vocabulary for drawing parameters
-/

namespace H2d.Draw.Spec
open H2d.Draw

/-- The operation writes the shared default. -/
def Op.touchesDefault : Op → Bool
  | .setDefault _ => true
  | .resetDefault => true
  | _ => false

/-- The operation is a setter call on object `i`. -/
def Op.setsObj (i : Nat) : Op → Bool
  | .set j _ => j = i
  | _ => false

/-- The six point styles. -/
def IsStyle (s : Fin 256) : Prop := s.val ≤ 5

end H2d.Draw.Spec
