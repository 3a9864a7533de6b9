import Verif.Lemmas.Cycle
import Verif.Lemmas.InsideEx
import Verif.Props.Pip
import Mathlib.Tactic.IntervalCases

/-! # Examples for polygons read from another vertex -/

set_option linter.unusedSimpArgs false

namespace H2d.Cycle
open H2d H2d.Spec H2d.Pip

/-- The polygon of `C74_throw_false`. -/
theorem seven_throw : isSimple (segInterB stdR) true [((-1, 0) : Pt ℝ), (-1, -1/2), (-1, -3/4), (-1, -7/8), (-1, -15/16), (1, -1), (1, 1)] = true ∧
    ptInsidePoly stdR true [((-1, 0) : Pt ℝ), (-1, -1/2), (-1, -3/4), (-1, -7/8), (-1, -15/16), (1, -1), (1, 1)] (0, 0) = .throw := by
  have h1 : dblEps < stdR.nullDistance := by norm_num [stdR, dblEps]
  have g0 : GoodSeg stdR ((-1, 0), (-1, -1/2)) := goodSeg_of (by norm_num) (by norm_num)
  have g1 : GoodSeg stdR ((-1, -1/2), (-1, -3/4)) := goodSeg_of (by norm_num) (by norm_num)
  have g2 : GoodSeg stdR ((-1, -3/4), (-1, -7/8)) := goodSeg_of (by norm_num) (by norm_num)
  have g3 : GoodSeg stdR ((-1, -7/8), (-1, -15/16)) := goodSeg_of (by norm_num) (by norm_num)
  have g4 : GoodSeg stdR ((-1, -15/16), (1, -1)) := goodSeg_of (by norm_num) (by norm_num)
  have g5 : GoodSeg stdR ((1, -1), (1, 1)) := goodSeg_of (by norm_num) (by norm_num)
  have g6 : GoodSeg stdR ((1, 1), (-1, 0)) := goodSeg_of (by norm_num) (by norm_num)
  have hed : polyEdges [((-1, 0) : Pt ℝ), (-1, -1/2), (-1, -3/4), (-1, -7/8), (-1, -15/16), (1, -1), (1, 1)] =
    [((-1, 0), (-1, -1/2)), ((-1, -1/2), (-1, -3/4)), ((-1, -3/4), (-1, -7/8)), ((-1, -7/8), (-1, -15/16)), ((-1, -15/16), (1, -1)),
      ((1, -1), (1, 1)), ((1, 1), (-1, 0))] := rfl
  have hsimple : isSimple (segInterB stdR) true [((-1, 0) : Pt ℝ), (-1, -1/2), (-1, -3/4), (-1, -7/8), (-1, -15/16), (1, -1), (1, 1)] = true := by
    have s20 := (segInterB_sep h1 (by norm_num [stdR]) g2 g0 (Or.inr (Or.inr (Or.inr ⟨-3/4, by norm_num [stdR]⟩)))).1
    have s30 := (segInterB_sep h1 (by norm_num [stdR]) g3 g0 (Or.inr (Or.inr (Or.inr ⟨-7/8, by norm_num [stdR]⟩)))).1
    have s40 := (segInterB_sep h1 (by norm_num [stdR]) g4 g0 (Or.inr (Or.inr (Or.inr ⟨-15/16, by norm_num [stdR]⟩)))).1
    have s50 := (segInterB_sep h1 (by norm_num [stdR]) g5 g0 (Or.inl ⟨-1, by norm_num [stdR]⟩)).1
    have s31 := (segInterB_sep h1 (by norm_num [stdR]) g3 g1 (Or.inr (Or.inr (Or.inr ⟨-7/8, by norm_num [stdR]⟩)))).1
    have s41 := (segInterB_sep h1 (by norm_num [stdR]) g4 g1 (Or.inr (Or.inr (Or.inr ⟨-15/16, by norm_num [stdR]⟩)))).1
    have s51 := (segInterB_sep h1 (by norm_num [stdR]) g5 g1 (Or.inl ⟨-1, by norm_num [stdR]⟩)).1
    have s61 := (segInterB_sep h1 (by norm_num [stdR]) g6 g1 (Or.inr (Or.inr (Or.inl ⟨-1/2, by norm_num [stdR]⟩)))).1
    have s42 := (segInterB_sep h1 (by norm_num [stdR]) g4 g2 (Or.inr (Or.inr (Or.inr ⟨-15/16, by norm_num [stdR]⟩)))).1
    have s52 := (segInterB_sep h1 (by norm_num [stdR]) g5 g2 (Or.inl ⟨-1, by norm_num [stdR]⟩)).1
    have s62 := (segInterB_sep h1 (by norm_num [stdR]) g6 g2 (Or.inr (Or.inr (Or.inl ⟨-1/2, by norm_num [stdR]⟩)))).1
    have s53 := (segInterB_sep h1 (by norm_num [stdR]) g5 g3 (Or.inl ⟨-1, by norm_num [stdR]⟩)).1
    have s63 := (segInterB_sep h1 (by norm_num [stdR]) g6 g3 (Or.inr (Or.inr (Or.inl ⟨-1/2, by norm_num [stdR]⟩)))).1
    have s64 := (segInterB_sep h1 (by norm_num [stdR]) g6 g4 (Or.inr (Or.inr (Or.inl ⟨-1/2, by norm_num [stdR]⟩)))).1
    simp [isSimple, segPairs_edges, hed, noCross, List.range_succ, List.range', s20, s30, s40, s50, s31, s41, s51, s61, s42, s52, s62, s53, s63, s64]
  have hfar : FarFromLines (2 / 5) [((-1, 0) : Pt ℝ), (-1, -1/2), (-1, -3/4), (-1, -7/8), (-1, -15/16), (1, -1), (1, 1)] (0, 0) := by
    unfold FarFromLines
    rw [hed]
    simp only [List.forall_mem_cons, List.not_mem_nil, false_imp_iff, implies_true, and_true]
    refine ⟨?_, ?_, ?_, ?_, ?_, ?_, ?_⟩
    all_goals
      intro k
      apply far_of_cross <;> norm_num
  refine ⟨hsimple, ?_⟩
  · refine Props.C74_throw stdR h1 (by norm_num [stdR]) _ _ (-1, -1) (1, 1) hsimple ⟨?_, ?_, ?_, ?_, ?_⟩ (by norm_num) ?_ ?_ ?_
    · simp only [List.forall_mem_cons, List.not_mem_nil, false_imp_iff, implies_true, and_true]; norm_num
    · exact ⟨(-1, 0), by simp⟩
    · exact ⟨(1, 1), by simp⟩
    · exact ⟨(1, -1), by simp⟩
    · exact ⟨(1, 1), by simp⟩
    · rw [hed]
      simp only [List.forall_mem_cons, List.not_mem_nil, false_imp_iff, implies_true, and_true]
      exact ⟨g0.2, g1.2, g2.2, g3.2, g4.2, g5.2, g6.2⟩
    · intro e he k
      exact le_trans (by norm_num [stdR]) (hfar e he k)
    · intro n n1 n5
      have key : ∀ y : ℝ, (2 * (-1) - 1 + 3 * (1 - (-1)) / 2 ^ n : ℝ) = 3 * y →
          OnSeg ((0, 0) : Pt ℝ) (refPoint (-1, -1) (1, 1) n) (-1, y) ∧ eucl (-1, y) (-1, y) < stdR.nullDistance := by
        intro y hy
        refine ⟨⟨1 / 3, by norm_num, by norm_num, ?_⟩, by rw [eucl_self]; norm_num [stdR]⟩
        unfold refPoint
        simp only
        rw [hy]
        apply Prod.ext <;> (simp only; ring)
      interval_cases n
      · exact ⟨(-1, 0), by simp, _, key 0 (by norm_num)⟩
      · exact ⟨(-1, -1/2), by simp, _, key (-1/2) (by norm_num)⟩
      · exact ⟨(-1, -3/4), by simp, _, key (-3/4) (by norm_num)⟩
      · exact ⟨(-1, -7/8), by simp, _, key (-7/8) (by norm_num)⟩
      · exact ⟨(-1, -15/16), by simp, _, key (-15/16) (by norm_num)⟩

end H2d.Cycle
