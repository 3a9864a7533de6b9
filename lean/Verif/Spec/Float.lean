import Verif.Model.Float

/-! # What is assumed of a floating-point arithmetic -/

namespace H2d.Spec

/-- Relative error of an operation at most `u`, of `std::hypot` at most `v`; rounding is monotonous, symmetric and does not change a rounded number nor its halves;
`std::hypot` does not depend on the signs. -/
structure FlOk (F : Arith) (u v : ℝ) : Prop where
  u_nonneg : 0 ≤ u
  u_small : u ≤ 1 / 64
  v_nonneg : 0 ≤ v
  v_small : v ≤ 1 / 64
  err : ∀ x, |F.rnd x - x| ≤ u * |x|
  mono : Monotone F.rnd
  odd : ∀ x, F.rnd (-x) = - F.rnd x
  idem : ∀ x, F.rnd (F.rnd x) = F.rnd x
  half : ∀ x, F.rnd (x / 2) = F.rnd x / 2
  hypErr : ∀ a b, |F.hyp a b - Real.sqrt (a ^ 2 + b ^ 2)| ≤ v * Real.sqrt (a ^ 2 + b ^ 2)
  hypNeg1 : ∀ a b, F.hyp (-a) b = F.hyp a b
  hypNeg2 : ∀ a b, F.hyp a (-b) = F.hyp a b

/-- The number is a floating-point number. -/
def Rep (F : Arith) (x : ℝ) : Prop := F.rnd x = x

end H2d.Spec

namespace H2d.Spec

/-- An integer of absolute value at most `B`. -/
def IntUpTo (B : ℤ) (x : ℝ) : Prop := ∃ m : ℤ, |m| ≤ B ∧ x = m

end H2d.Spec

namespace H2d.Spec

/-- `std::acos`, with a relative error. -/
structure AcosOk (ac : ℝ → ℝ) (w : ℝ) : Prop where
  w_nonneg : 0 ≤ w
  w_small : w ≤ 1 / 64
  err : ∀ x, -1 ≤ x → x ≤ 1 → |ac x - Real.arccos x| ≤ w * Real.arccos x

/-- The angle between two lines, of equations `a x + b y + c = 0`: the angle in [0, π/2] between the normals `(a, b)` or their opposites. -/
def IsAngle (l m : Fin 3 → ℝ) (φ : ℝ) : Prop := 0 ≤ φ ∧ φ ≤ Real.pi / 2 ∧
  Real.cos φ * (Real.sqrt (l 0 ^ 2 + l 1 ^ 2) * Real.sqrt (m 0 ^ 2 + m 1 ^ 2)) = |l 0 * m 0 + l 1 * m 1|

end H2d.Spec
