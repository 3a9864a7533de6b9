import Verif.Model.Basic
import Verif.Model.Float
import Mathlib.Algebra.Order.Floor.Ring

/-!
# Random colours

`F`: arithmetic of `double`. `M`: `RAND_MAX`. `rand seed i`: the value of the `i`-th call of `std::rand()` after `std::srand( seed )`.
-/

namespace H2d.Fl
open H2d

/-- `maxval-minval` (homog2d.hpp:463-465): with `int` an overflow is undefined. -/
def intSub (a b : ℤ) : Res ℤ := if -2 ^ 31 ≤ a - b ∧ a - b < 2 ^ 31 then .ok (a - b) else .ub

/-- Conversion of a `double` to `uint8_t`, made by the constructor of `Color` (homog2d.hpp:437, 466): the value is truncated, the behaviour is undefined if it is out of range. -/
noncomputable def toByte (x : ℝ) : Res ℕ :=
  let n := if 0 ≤ x then ⌊x⌋ else ⌈x⌉
  if 0 ≤ n ∧ n < 256 then .ok n.toNat else .ub

/-- One component of a colour (homog2d.hpp:463-466), `r` being the value of `std::rand()`. -/
noncomputable def colorComp (F : Arith) (M : ℕ) (minv maxv : ℤ) (r : ℕ) : Res ℕ := do
  let d ← intSub maxv minv
  toByte (F.rnd (F.rnd (F.rnd (F.rnd (1 * F.rnd r) / F.rnd M) * F.rnd d) + F.rnd minv))

/-- The loop of `genRandomColors()` (homog2d.hpp:461-467): `i` calls of `std::rand()` were made before. -/
noncomputable def colorLoop (F : Arith) (M : ℕ) (minv maxv : ℤ) (rand : ℕ → ℕ) : ℕ → ℕ → Res (List (ℕ × ℕ × ℕ))
  | 0, _ => .ok []
  | n + 1, i => do
    let r ← colorComp F M minv maxv (rand i)
    let g ← colorComp F M minv maxv (rand (i + 1))
    let b ← colorComp F M minv maxv (rand (i + 2))
    let l ← colorLoop F M minv maxv rand n (i + 3)
    pure ((r, g, b) :: l)

/-- `genRandomColors()` (homog2d.hpp:451-469), `time` being the number of seconds given by `std::time()`. -/
noncomputable def genRandomColors (F : Arith) (M : ℕ) (rand : ℕ → ℕ → ℕ) (time : ℕ) (nb : ℕ) (minv maxv : ℤ) : Res (List (ℕ × ℕ × ℕ)) :=
  if maxv ≤ minv then .throw else colorLoop F M minv maxv (rand time) nb 0

end H2d.Fl
