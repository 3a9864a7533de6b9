import Verif.Model.PolyState
import Verif.Spec.Polyline

/-! # Specification of polyline histories -/

namespace H2d.Spec

variable {K : Type}

/-- What the plane geometry used by polylines must satisfy: symmetric, and not affected by translations. -/
structure GoodEnv [Add K] (e : Env K) : Prop where
  same_symm : ∀ p q, e.same p q = e.same q p
  len_symm : ∀ p q, e.segLen p q = e.segLen q p
  inter_symm : InterSymm e.inter
  same_trans : ∀ (dx dy : K) (p q : Pt K), e.same (p.1 + dx, p.2 + dy) (q.1 + dx, q.2 + dy) = e.same p q
  len_trans : ∀ (dx dy : K) (p q : Pt K), e.segLen (p.1 + dx, p.2 + dy) (q.1 + dx, q.2 + dy) = e.segLen p q
  inter_trans : ∀ (dx dy : K), InterInvariant e.inter (fun p : Pt K => (p.1 + dx, p.2 + dy))

/-- The call moves the points through a reference that was obtained by an earlier call. -/
def POp.isRetained : POp K → Bool
  | .retained _ => true
  | _ => false

/-- The call is a translation of the whole object. -/
def POp.isMove : POp K → Bool
  | .translate _ _ => true
  | .moveTo _ => true
  | _ => false

end H2d.Spec
