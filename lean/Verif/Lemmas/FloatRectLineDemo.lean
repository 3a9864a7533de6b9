import Verif.Lemmas.FloatRectLine
import Verif.Lemmas.FloatSegLineDemo

/-! # A concrete case for the intersection of a rectangle and a line with rounded operations -/

namespace H2d.Fl
open H2d.Spec H2d.Props H2d.Inside

/-- The rectangle from (0, 0) to (4, 3) and the line `3 x + 4 y = 6`. -/
theorem demo_rectLn : RectLn (binary 53) stdR u53 u53 0 4 3 (3 / 5) (1 / 2500) ⟨(0, 0), (4, 3)⟩ ![3, 4, -6] := by
  have s5 : Real.sqrt (3 ^ 2 + 4 ^ 2) = 5 := by rw [show (3 : ℝ) ^ 2 + 4 ^ 2 = 5 * 5 by norm_num, Real.sqrt_mul_self (by norm_num)]
  have de := demo_err
  have f : ∀ {a b c d e : ℝ}, 0 ≤ e → (a - c) ^ 2 + (b - d) ^ 2 = e ^ 2 → eucl (a, b) (c, d) = e := fun he hh => (eucl_eq_iff he).2 hh
  have l1 : eucl ((0 : ℝ), (0 : ℝ)) (0, 3) = 3 := f (by norm_num) (by norm_num)
  have l2 : eucl ((0 : ℝ), (3 : ℝ)) (4, 3) = 4 := f (by norm_num) (by norm_num)
  have l3 : eucl ((4 : ℝ), (3 : ℝ)) (4, 0) = 3 := f (by norm_num) (by norm_num)
  have l4 : eucl ((4 : ℝ), (0 : ℝ)) (0, 0) = 4 := f (by norm_num) (by norm_num)
  refine ⟨demoPair.rep1, by norm_num [stdR], by norm_num, ?_, by norm_num [Matrix.cons_val_zero, Matrix.cons_val_one], ?_, by norm_num, by norm_num, ?_, by norm_num, by norm_num [stdR], by norm_num [stdR, dblEps], ?_, by norm_num,
    by norm_num, ?_, ?_⟩
  · simp only [rectSides, List.mem_cons, List.not_mem_nil, or_false, forall_eq_or_imp, forall_eq, l1, l2, l3, l4]
    norm_num
  · unfold offLine
    simp only [Matrix.cons_val_zero, Matrix.cons_val_one, Matrix.cons_val, s5]
    norm_num
  · have k : ∀ e ∈ rectSides ⟨(0, 0), (4, 3)⟩, (3 : ℝ) / 5 ≤ sinLineSeg ![3, 4, -6] e := by
      simp only [rectSides, List.mem_cons, List.not_mem_nil, or_false, forall_eq_or_imp, forall_eq, sinLineSeg, l1, l2, l3, l4, Matrix.cons_val_zero, Matrix.cons_val_one, Matrix.cons_val, s5]
      norm_num
    exact fun e he _ => k e he
  · refine (add_le_add_right de _).trans ?_
    norm_num [stdR]
  · refine (add_le_add_right de _).trans ?_
    norm_num [stdR]
  · simp only [FRect.get4Pts, List.mem_cons, List.not_mem_nil, or_false, forall_eq_or_imp, forall_eq, sideDist, asideMargin, Matrix.cons_val_zero, Matrix.cons_val_one, Matrix.cons_val, s5]
    norm_num [stdR, abs_of_neg, abs_of_pos]

end H2d.Fl
