/-!
# Basic vocabulary of the model: call outcomes and thresholds
-/

namespace H2d

/-- Outcome of a C++ call.

* `ok a`  : normal return of `a`;
* `throw` : the call leaves by an exception (`HOMOG2D_THROW_ERROR_1/2`, `throw`, or an exception of the standard library);
* `ub`    : a failed `assert`, or undefined behaviour (out-of-range access, `pop`/`top` on an empty stack ...).

The text of the exception is not modelled (homog2d.hpp:275-330 only formats messages). -/
inductive Res (α : Type) where
  | ok (a : α)
  | throw
  | ub
  deriving DecidableEq, Repr

namespace Res

/-- Sequencing of calls: the first `throw`/`ub` ends the computation. -/
def bind {α β : Type} : Res α → (α → Res β) → Res β
  | ok a,  f => f a
  | throw, _ => throw
  | ub,    _ => ub

instance : Monad Res where
  pure := Res.ok
  bind := Res.bind

@[simp] theorem bind_ok {α β : Type} (a : α) (f : α → Res β) : (Res.ok a >>= f) = f a := rfl
@[simp] theorem bind_throw {α β : Type} (f : α → Res β) : ((Res.throw : Res α) >>= f) = Res.throw := rfl
@[simp] theorem bind_ub {α β : Type} (f : α → Res β) : ((Res.ub : Res α) >>= f) = Res.ub := rfl
@[simp] theorem pure_eq {α : Type} (a : α) : (pure a : Res α) = Res.ok a := rfl

/-- The call returned normally. -/
def isOk {α : Type} : Res α → Bool
  | ok _ => true
  | _    => false

end Res

/-- The run-time adjustable thresholds of namespace `thr` (homog2d.hpp:1229-1255).
They are mutable globals in the code, hence parameters of the model. -/
structure Thr (K : Type) where
  /-- `thr::nullDistance()` (1229) -/
  nullDistance : K
  /-- `thr::nullOrthogDistance()` (1234) -/
  nullOrthogDistance : K
  /-- `thr::nullAngleValue()` (1239) -/
  nullAngleValue : K
  /-- `thr::nullDenom()` (1245) -/
  nullDenom : K
  /-- `thr::nullDeter()` (1251) -/
  nullDeter : K

end H2d
