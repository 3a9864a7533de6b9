import Verif.Lemmas.FloatPolyCirc
import Verif.Lemmas.FloatRectLine
import Verif.Lemmas.FloatInsideDemo

/-! # A concrete case for the intersection of a polyline or a rectangle with a circle, with rounded operations -/

namespace H2d.Fl
open H2d.Spec H2d.Props

theorem demo_circMargin : scMargin u53 u53 4 3 stdR.nullDistance ≤ 3 / 10 ^ 10 := by norm_num [scMargin, scErr, stdR]

theorem demo_circThr : 1500 * scErr u53 4 3 + 13 * (u53 + u53) * 4 < stdR.nullDistance := by norm_num [scErr, stdR]

/-- The sides of the rectangle from (0, 0) to (4, 3) and the circle around the origin with radius 2. -/
theorem demo_rectCirc : ∀ e ∈ rectSides ⟨(0, 0), (4, 3)⟩, SegCirc (binary 53) stdR u53 4 3 e (0, 0) 2 ∧ ClearOf (0, 0) 2 (scMargin u53 u53 4 3 stdR.nullDistance) 1 e := by
  have f : ∀ {a b c d e : ℝ}, 0 ≤ e → (a - c) ^ 2 + (b - d) ^ 2 = e ^ 2 → eucl (a, b) (c, d) = e := fun he hh => (eucl_eq_iff he).2 hh
  have l1 : eucl ((0 : ℝ), (0 : ℝ)) (0, 3) = 3 := f (by norm_num) (by norm_num)
  have l2 : eucl ((0 : ℝ), (3 : ℝ)) (4, 3) = 4 := f (by norm_num) (by norm_num)
  have l3 : eucl ((4 : ℝ), (3 : ℝ)) (4, 0) = 3 := f (by norm_num) (by norm_num)
  have l4 : eucl ((4 : ℝ), (0 : ℝ)) (0, 0) = 4 := f (by norm_num) (by norm_num)
  have c0 : eucl ((0 : ℝ), (0 : ℝ)) (0, 0) = 0 := f (by norm_num) (by norm_num)
  have c1 : eucl ((0 : ℝ), (3 : ℝ)) (0, 0) = 3 := f (by norm_num) (by norm_num)
  have hlen : ∀ e ∈ rectSides ⟨((0 : ℝ), (0 : ℝ)), (4, 3)⟩, 3 ≤ eucl e.1 e.2 := by
    simp only [rectSides, List.mem_cons, List.not_mem_nil, or_false, forall_eq_or_imp, forall_eq, l1, l2, l3, l4]
    norm_num
  have hm : scMargin u53 u53 4 3 stdR.nullDistance ≤ 1 := demo_circMargin.trans (by norm_num)
  generalize scMargin u53 u53 4 3 stdR.nullDistance = m at *
  intro e he
  refine ⟨⟨sides_rep demoPair.rep1 e he, sides_slope (by norm_num [stdR]) e he (by linarith [hlen e he]), by norm_num, hlen e he, by norm_num, by norm_num [stdR], by norm_num [stdR, dblEps], by norm_num, by norm_num, by norm_num⟩, ?_⟩
  simp only [rectSides, List.mem_cons, List.not_mem_nil, or_false] at he
  rcases he with rfl | rfl | rfl | rfl
  · exact .leaves (by simp only [c0]; norm_num) (by simp only [c1]; linarith)
  · refine .outside fun k _ _ => ?_
    have : 3 ≤ eucl (Spec.along ((0, 3), (4, 3)) k) (0, 0) := by
      unfold eucl Spec.along
      apply Real.le_sqrt_of_sq_le
      simp only
      nlinarith [sq_nonneg (0 + k * (4 - 0) - (0 : ℝ))]
    linarith
  · refine .outside fun k _ _ => ?_
    have : 3 ≤ eucl (Spec.along ((4, 3), (4, 0)) k) (0, 0) := by
      unfold eucl Spec.along
      apply Real.le_sqrt_of_sq_le
      simp only
      nlinarith [sq_nonneg (3 + k * (0 - 3) - (0 : ℝ))]
    linarith
  · exact .enters (by simp only [l4]; linarith) (by simp only [c0]; norm_num)

theorem demo_rectEdges : edgesOf true [((0 : ℝ), (0 : ℝ)), (0, 3), (4, 3), (4, 0)] = rectSides ⟨(0, 0), (4, 3)⟩ := rfl

end H2d.Fl
