import Verif.Lemmas.PolyMoves
import Mathlib.Algebra.Order.Field.Rat

/-!
# C155: the points of a polyline after any history of calls
-/

set_option linter.unusedSectionVars false

namespace H2d.Props

open H2d.Spec

variable {K : Type} [Field K] [LinearOrder K] [IsStrictOrderedRing K]

/-- **C155, one more call.** In any history of calls, whatever the object answers and keeps in its caches, each call does to the points
what its name says (`PtsAfter`): a question leaves them as they are, except for the comparison that can start them from another vertex
(closed polyline) or in the other direction. -/
theorem C155_points (e : Env K) (closed : Bool) (ops : List (POp K)) (op : POp K) (s s' : PState K)
    (h : polyRun e closed {} ops = some s) (h' : polyRun e closed {} (ops ++ [op]) = some s') :
    PtsAfter e.same closed s.pts s'.pts op := by
  rw [polyRun_append, h] at h'
  simp only [Option.bind_some, polyRun, Option.bind_eq_some_iff] at h'
  obtain ⟨s1, h1, h2⟩ := h'
  obtain rfl : s1 = s' := by simpa using h2
  exact exec_pts e closed s s1 op h1

/-- **C155, moves.** Any history of moves (and of questions other than comparisons) done after any history: the figure is the same, up to
its position in the plane. -/
theorem C155_congruent (e : Env K) (closed : Bool) (ops ops' : List (POp K)) (s s' : PState K) (ho : ∀ op ∈ ops', POp.isRigid op = true)
    (h : polyRun e closed {} ops = some s) (h' : polyRun e closed {} (ops ++ ops') = some s') : Congruent s.pts s'.pts := by
  rw [polyRun_append, h] at h'
  exact run_rigid e closed ops' s s' ho h'

/-- **C155, moving to a point.** After `moveTo( p )` on a polyline that has points, the first one is `p`, whatever the history. -/
theorem C155_moveTo (e : Env K) (closed : Bool) (ops : List (POp K)) (p : Pt K) (s s' : PState K) (hs : s.pts ≠ [])
    (h : polyRun e closed {} ops = some s) (h' : polyRun e closed {} (ops ++ [.moveTo p]) = some s') : s'.pts.head? = some p := by
  have := C155_points e closed ops (.moveTo p) s s' h h'
  simp only [PtsAfter] at this
  rw [this]
  cases hq : s.pts with
  | nil => exact absurd hq hs
  | cons a l => simp

/-- **C155, sharpness.** The exception made for the comparison is needed: `==`, a const operator, can change the order of the points that `getPts()` gives. -/
theorem C155_sharp (e : Env ℚ) (hs : ∀ p q, e.same p q = decide (p = q)) :
    ∃ (ops : List (POp ℚ)) (s s' : PState ℚ), polyRun e false {} ops = some s ∧ polyRun e false {} (ops ++ [.compare]) = some s' ∧
      s'.pts ≠ s.pts := by
  obtain ⟨same, segLen, inter, mid⟩ := e
  have : same = fun p q => decide (p = q) := by funext p q; exact hs p q
  subst this
  have h2 : checkInput (fun p q : Pt ℚ => decide (p = q)) [(3,0), (0,0)] = true := by decide +kernel
  have h3 : normalizePoly false ([(3,0), (0,0)] : List (Pt ℚ)) = .ok [(0,0), (3,0)] := by decide +kernel
  refine ⟨[.set [(3,0), (0,0)]], { pts := [(3,0), (0,0)] }, { pts := [(0,0), (3,0)], norm := true }, ?_, ?_, ?_⟩
  · simp [polyRun, POp.exec, h2, PState.reset]
  · simp [polyRun, POp.exec, h2, PState.reset, h3]
  · simp

/- The hypotheses can be met, with a history that has all kinds of moves. -/
example (e : Env ℚ) (hs : ∀ p q, e.same p q = decide (p = q)) :
    polyRun e false {} ([.set [(0,0), (4,0), (4,3)]] ++ [.translate 1 2, .rotateRef .ccw (1, 2), .moveTo (7, 7)]) =
      some { pts := [(7,7), (7,11), (4,11)] } := by
  have h2 : checkInput (fun p q : Pt ℚ => decide (p = q)) [(0,0), (4,0), (4,3)] = true := by decide +kernel
  obtain ⟨same, segLen, inter, mid⟩ := e
  have : same = fun p q => decide (p = q) := by funext p q; exact hs p q
  subst this
  simp [polyRun, POp.exec, h2, PState.reset, PState.translate, polyTranslate, polyRotate, rotPt]
  norm_num

end H2d.Props
