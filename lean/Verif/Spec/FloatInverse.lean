import Verif.Model.Homog
import Mathlib.LinearAlgebra.Matrix.Notation
import Mathlib.Data.Real.Basic

/-! # Inverse of a matrix: what is meant -/

namespace H2d.Spec

/-- The product of the matrices is the identity. -/
def IsInv (b m : Fin 3 → Fin 3 → ℝ) : Prop := Matrix.of b * Matrix.of m = (1 : Matrix (Fin 3) (Fin 3) ℝ)

/-- All the values are at most `M` in absolute value. -/
def UpTo (M : ℝ) (m : Fin 3 → Fin 3 → ℝ) : Prop := ∀ i j, |m i j| ≤ M

end H2d.Spec
