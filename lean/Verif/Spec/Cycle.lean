import Verif.Model.Basic
import Verif.Spec.Polyline

/-! # Same polygon, given from another vertex or in the other direction -/

namespace H2d.Spec
open H2d

/-- The same exception, or the same elements the same number of times each. -/
def UpToOrder {α : Type} : Res (List α) → Res (List α) → Prop
  | .ok l, .ok l' => l.Perm l'
  | .throw, .throw => True
  | .ub, .ub => True
  | _, _ => False

/-- The same, for lists of points that may be unknown (`none`: a coordinate is not a number). -/
def UpToOrderNaN {α : Type} : Res (Option (List α)) → Res (Option (List α)) → Prop
  | .ok (some l), .ok (some l') => l.Perm l'
  | .ok none, .ok none => True
  | .throw, .throw => True
  | .ub, .ub => True
  | _, _ => False

end H2d.Spec
