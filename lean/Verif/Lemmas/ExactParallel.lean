import Verif.Lemmas.ExactArith
import Verif.Model.FloatParallel

/-! # The rounded operations without rounding: sides, coordinates, points and parallels of a line -/

namespace H2d.Exact
open H2d.Spec

local notation "E" => exactArith

theorem side_eq (t : Thr ℝ) (p : Pt ℝ) (l : V3 ℝ) : Fl.lineSide E t p l = lineSide t p l := rfl

theorem coord_eq (t : Thr ℝ) (l : V3 ℝ) (b : Bool) (x : ℝ) : Fl.lineCoord E t l b x = lineCoord t l b x := by simp only [Fl.lineCoord, lineCoord, rnd_eq]

theorem getPoints_eq (t : Thr ℝ) {l : V3 ℝ} (hl : HasDir l) (p : Pt ℝ) (d : ℝ) : Fl.getPoints E t l p d = isNum (getPoints t l p d) := by
  have hp : 0 < l 0 * l 0 + l 1 * l 1 := by have := hl; unfold HasDir at this; nlinarith
  have e : Fl.getPointsB2 E l p d = some (getPointsB2 l p d) := by
    unfold Fl.getPointsB2 getPointsB2 Fl.norm2
    simp only [rnd_eq]
    rw [sqrt_sqrtF _ hp.le]
    simp only [Option.bind_eq_bind, Option.bind_some]
    rw [divF_eq _ _ (Real.sqrt_pos.2 hp).ne']
    rfl
  unfold Fl.getPoints getPoints
  rw [lineDist_eq, e]
  split_ifs <;> rfl

theorem parallelLine_eq (t : Thr ℝ) (l : V3 ℝ) (p : Pt ℝ) : Fl.parallelLine E t l p = parallelLine t l p := by simp only [Fl.parallelLine, parallelLine, norm_eq, rnd_eq]

theorem parallelLines_eq (l : V3 ℝ) (d : ℝ) : Fl.parallelLines E l d = parallelLines l d := by simp only [Fl.parallelLines, parallelLines, rnd_eq]

theorem parallelDistance_eq {t : Thr ℝ} (ht : ExactThr t) (l m : V3 ℝ) : Fl.parallelDistance E t Real.arccos l m = parallelDistance t l m := by
  unfold Fl.parallelDistance parallelDistance
  by_cases hp : IsParallel t l m
  · rw [if_neg (by rw [(parallel_eq ht l m).2 hp]; simp), if_neg (not_not.2 hp)]
    by_cases hs : l 0 * m 0 < 0 ∨ l 1 * m 1 < 0
    · rw [if_pos hs]
      simp only [rnd_eq]
      unfold Fl.sqrtF
      rcases hs with hs | hs
      · rw [if_pos hs]; rfl
      · rw [if_pos hs]
        split_ifs <;> rfl
    · rw [if_neg hs]
      rw [not_or, not_lt, not_lt] at hs
      simp only [rnd_eq, sqrt_sqrtF _ hs.1, sqrt_sqrtF _ hs.2, Option.bind_eq_bind, Option.bind_some, Fl.norm2]
      have h0 : 0 ≤ Real.sqrt (l 0 * m 0) * Real.sqrt (l 0 * m 0) + Real.sqrt (l 1 * m 1) * Real.sqrt (l 1 * m 1) := by positivity
      rw [sqrt_sqrtF _ h0, Option.bind_some]
      by_cases hz : Real.sqrt (l 0 * m 0) * Real.sqrt (l 0 * m 0) + Real.sqrt (l 1 * m 1) * Real.sqrt (l 1 * m 1) = 0
      · rw [if_pos hz, hz, Real.sqrt_zero]
        exact congrArg _ (if_pos rfl)
      · rw [if_neg hz, divF_eq _ _ (Real.sqrt_pos.2 (lt_of_le_of_ne h0 (Ne.symm hz))).ne']
  · rw [if_pos, if_pos hp]
    have := (parallel_eq ht l m).not.2 hp
    simpa using this

end H2d.Exact
