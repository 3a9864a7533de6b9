import Verif.Model.Circle
import Verif.Model.Threads

/-!
# Circles built by several threads

The flag `thr::doNotCheckRadius()` (homog2d.hpp:1258-1262) is a global variable: it is shared by the threads. An operation is written as the list of its accesses to the flag, what it does after a
reading depending on the value read. Simplification: each call has its own random values, as if `std::rand()` was called without interference (the theorems hold for all
the values).
-/

namespace H2d

/-- An operation that reads and writes a global flag. -/
inductive FlagProg (α : Type) where
  | ret (a : α)
  | read (k : Bool → FlagProg α)
  | write (b : Bool) (k : FlagProg α)

/-- One operation after the other. -/
def FlagProg.bind {α β : Type} : FlagProg α → (α → FlagProg β) → FlagProg β
  | .ret a, g => g a
  | .read k, g => .read fun b => (k b).bind g
  | .write b k, g => .write b (k.bind g)

/-- Constructor from a center and a radius (homog2d.hpp:3241-3250): the flag is only read if the radius is small. -/
noncomputable def makeProg (t : Thr ℝ) (c : Pt ℝ) (r : ℝ) : FlagProg (Res Circle) :=
  if |r| < t.nullDistance then .read fun flag => if flag then (if r < 0 then .ret .throw else .ret (.ok ⟨c, r⟩)) else .ret .throw
  else if r < 0 then .ret .throw
  else .ret (.ok ⟨c, r⟩)

/-- `p_min_circle_trivial` (homog2d.hpp:5655-5673): the circles of two and three points do not read the flag. -/
noncomputable def trivialProg (t : Thr ℝ) : List (Pt ℝ) → FlagProg (Res Circle)
  | [] => makeProg t (0, 0) 0
  | [a] => makeProg t a 0
  | R => .ret (minTrivial t R)

/-- `p_WelzlHelper` (homog2d.hpp:5686-5716). -/
noncomputable def welzlProg (t : Thr ℝ) (rnd : ℕ → ℕ) : ℕ → ℕ → List (Pt ℝ) → List (Pt ℝ) → FlagProg (Res Circle × List (Pt ℝ) × ℕ)
  | 0, k, P, R => (trivialProg t R).bind fun r => .ret (r, P, k)
  | n + 1, k, P, R =>
    if R.length = 3 then (trivialProg t R).bind fun r => .ret (r, P, k)
    else
      let idx := rnd k % (n + 1)
      match P[idx]?, P[n]? with
      | some p, some q =>
        (welzlProg t rnd n (k + 1) ((P.set idx q).set n p) R).bind fun
          | (.ok d, P, k) => if PtInCircle p d then .ret (.ok d, P, k) else welzlProg t rnd n k P (R ++ [p])
          | r => .ret r
      | _, _ => .ret (.ub, P, k)

/-- Circle from a container of points (homog2d.hpp:5737-5762). -/
noncomputable def containerProg (t : Thr ℝ) (rnd : ℕ → ℕ) (pts : List (Pt ℝ)) : FlagProg (Res Circle) :=
  match pts with
  | [] => .ret .throw
  | [_] => .ret .throw
  | [a, b] => .ret (circle2 t a b)
  | [a, b, c] => .ret (circle3 t a b c)
  | pts =>
    .write true ((welzlProg t rnd pts.length 0 pts []).bind fun r =>
      match r.1 with
      | .ok d => (makeProg t d.center d.radius).bind fun
        | .ok c => .write false (.ret (.ok c))
        | r => .ret r
      | r => .ret r)

/-- The accesses of an operation (homog2d.hpp:3234-3290). -/
noncomputable def CircOp.prog (t : Thr ℝ) : CircOp → FlagProg (Res Circle)
  | .make c r => makeProg t c r
  | .two p q => .ret (circle2 t p q)
  | .three p q r => .ret (circle3 t p q r)
  | .container rnd pts => containerProg t rnd pts

/-- A thread: operations not ended yet (the first one is the current one), what is left of it, and outcomes of the others. -/
structure CThread where
  todo : List CircOp
  cur : Option (FlagProg (Res Circle))
  out : List (CircOp × Res Circle)

/-- One access by a thread. -/
noncomputable def circStep (t : Thr ℝ) (flag : Bool) (th : CThread) : Bool × CThread :=
  match th.todo with
  | [] => (flag, th)
  | op :: ops =>
    match th.cur with
    | none => (flag, { th with cur := some (op.prog t) })
    | some (.ret r) => (flag, { todo := ops, cur := none, out := th.out ++ [(op, r)] })
    | some (.read k) => (flag, { th with cur := some (k flag) })
    | some (.write b k) => (b, { th with cur := some k })

end H2d
