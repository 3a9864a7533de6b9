import Verif.Model.FloatGeom

/-!
# Floating-point numbers with a limited range

As `Fl.binary`, with the limits of the format: gradual underflow below, overflow above. The infinite values are not modelled as such: the result of an operation that overflows is any number.
-/

namespace H2d.Fl

/-- A format of IEEE 754: `p` bits, the smallest positive number is `2^emin`, all numbers are below `2^emax`. The template parameter `FPT` of the types, `HOMOG2D_INUMTYPE` (homog2d.hpp:169-171). -/
structure Format where
  p : ℕ
  emin : ℤ
  emax : ℤ

/-- `float` (homog2d.hpp:12409-12416). -/
def Format.float : Format := ⟨24, -149, 128⟩
/-- `double`, the default (homog2d.hpp:169-171, 12419-12426). -/
def Format.double : Format := ⟨53, -1074, 1024⟩

/-- Exponent of the last bit of a positive number. -/
noncomputable def Format.last (f : Format) (x : ℝ) : ℤ := max (Int.log 2 x - ((f.p : ℤ) - 1)) f.emin

/-- Rounding of a positive number, without overflow. -/
noncomputable def Format.roundPos (f : Format) (x : ℝ) : ℝ := nearestEven (x * (2 : ℝ) ^ (- f.last x)) * (2 : ℝ) ^ f.last x

/-- Rounding, without overflow. -/
noncomputable def Format.roundTo (f : Format) (x : ℝ) : ℝ := if 0 < x then f.roundPos x else if x < 0 then - f.roundPos (-x) else 0

/-- Rounding. In case of overflow, the result is given by `over`. -/
noncomputable def Format.rnd (f : Format) (over : ℝ → ℝ) (x : ℝ) : ℝ := if |f.roundTo x| < (2 : ℝ) ^ f.emax then f.roundTo x else over x

/-- The arithmetic; `std::hypot` is correctly rounded. -/
noncomputable def Format.arith (f : Format) (over : ℝ → ℝ) : Arith := ⟨f.rnd over, fun a b => f.rnd over (Real.sqrt (a ^ 2 + b ^ 2))⟩

end H2d.Fl
