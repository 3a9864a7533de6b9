import Mathlib.Analysis.SpecialFunctions.Pow.Real
import Mathlib.Data.Int.Log
import Verif.Model.Basic

/-!
# Floating-point arithmetic

Each arithmetic operation of the code is followed by a rounding. The rounding and `std::hypot` are parameters: the theorems hold for all of them that meet the
hypotheses of `Spec.FlOk`. `binary p` is a concrete one: rounding to the nearest number with `p` bits, ties to even, as IEEE 754 does (`double` is `p = 53`), with unbounded
exponents: overflows, subnormal numbers, NaN and signed zeros are not modelled.
-/

namespace H2d

/-- The arithmetic of the numbers used by the code (`HOMOG2D_INUMTYPE`, homog2d.hpp:169-171): rounding, `std::hypot` (homog2d.hpp:8786, 9143, 9175). -/
structure Arith where
  rnd : ℝ → ℝ
  hyp : ℝ → ℝ → ℝ

namespace Fl

/-- Nearest integer, ties to even. -/
noncomputable def nearestEven (x : ℝ) : ℤ :=
  if Int.fract x < 1 / 2 then ⌊x⌋ else if 1 / 2 < Int.fract x then ⌊x⌋ + 1 else if Even ⌊x⌋ then ⌊x⌋ else ⌊x⌋ + 1

/-- Rounding of a positive number to `p` bits. -/
noncomputable def roundPos (p : ℕ) (x : ℝ) : ℝ :=
  nearestEven (x * (2 : ℝ) ^ ((p : ℤ) - 1 - Int.log 2 x)) * (2 : ℝ) ^ (Int.log 2 x - ((p : ℤ) - 1))

/-- Rounding to `p` bits. -/
noncomputable def roundTo (p : ℕ) (x : ℝ) : ℝ := if 0 < x then roundPos p x else if x < 0 then - roundPos p (-x) else 0

/-- Binary floating-point numbers with `p` bits; `std::hypot` is correctly rounded here. -/
noncomputable def binary (p : ℕ) : Arith := ⟨roundTo p, fun a b => roundTo p (Real.sqrt (a ^ 2 + b ^ 2))⟩

end Fl
end H2d
