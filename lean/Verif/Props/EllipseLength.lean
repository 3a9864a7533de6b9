import Verif.Lemmas.EllipseLength
import Verif.Spec.Line

/-! # C114: length of an ellipse -/

namespace H2d.Props

open H2d H2d.Spec H2d.EllLen

/-- The points of the curve used in `C114_length` are the points of the ellipse. -/
theorem C114_curve (x y th : ℝ) {a b : ℝ} (ha : 0 < a) (hb : 0 < b) (p : Pt ℝ) : ellVal x y a b th p = 1 ↔ ∃ s, 0 ≤ s ∧ s < 2 * Real.pi ∧ p = ellCurve x y a b th s := ell_curve x y th ha hb p

/-- **C114.** Any ellipse, not too small, whatever its position, its angle and the order of its half axes: the length that is returned differs from the length of the curve (integral of the speed)
by at most π (a+b) h² / (8 (4-h)) with h = ((a-b)/(a+b))², and always by at most a thirtieth. -/
theorem C114_length (t : Thr ℝ) (x y th : ℝ) {a b : ℝ} (ha : 0 < a) (hb : 0 < b) (hbig : t.nullDenom ≤ 4 * a ^ 2 * b ^ 2) :
    ∃ L, Ell.length t (Ell.new x y a b th) = .ok L ∧
      |L - curveLen (ellCurve x y (max a b) (min a b) th)| ≤ Real.pi * (a + b) * ((((a - b) / (a + b)) ^ 2) ^ 2 / (8 * (4 - ((a - b) / (a + b)) ^ 2))) ∧
      |L - curveLen (ellCurve x y (max a b) (min a b) th)| ≤ curveLen (ellCurve x y (max a b) (min a b) th) / 30 := by
  rw [new_swap]
  have hm : 0 < min a b := lt_min ha hb
  have hle : min a b ≤ max a b := min_le_max
  have hsum : a + b = max a b + min a b := (max_add_min a b).symm
  have hdif : (a - b) ^ 2 = (max a b - min a b) ^ 2 := by
    rcases le_total b a with h | h
    · rw [max_eq_left h, min_eq_right h]
    · rw [max_eq_right h, min_eq_left h]; ring
  have hbig' : t.nullDenom ≤ 4 * max a b ^ 2 * min a b ^ 2 := by
    have e : 4 * max a b ^ 2 * min a b ^ 2 = 4 * (max a b * min a b) ^ 2 := by ring
    rw [e, max_mul_min]
    linarith
  rw [show ((a - b) / (a + b)) ^ 2 = ((max a b - min a b) / (max a b + min a b)) ^ 2 by rw [div_pow, div_pow, hdif, hsum], hsum]
  generalize max a b = A at *
  generalize min a b = B at *
  have hs : 0 < A + B := by linarith
  refine ⟨_, length_new t x y th hm hle hbig', ?_⟩
  obtain ⟨c1, c2⟩ := curve_bounds x y th hm hle
  have h0 : 0 ≤ ((A - B) / (A + B)) ^ 2 := sq_nonneg _
  have h1 : ((A - B) / (A + B)) ^ 2 ≤ 1 := by rw [div_pow, div_le_one (by positivity)]; nlinarith
  obtain ⟨f1, f2⟩ := formula_bounds h0 h1
  have hp : 0 ≤ Real.pi * (A + B) := by positivity
  rw [mul_comm (A + B)]
  exact rel_err hp h0 h1 c1 c2 (mul_le_mul_of_nonneg_left f1 hp) (mul_le_mul_of_nonneg_left f2 hp)

/-- Half axes 3 and 2 with the thresholds of the library: h = 1/25, so the error is at most π/3960, about 5 * 10^-5 of the length. -/
example : stdR.nullDenom ≤ 4 * (3 : ℝ) ^ 2 * 2 ^ 2 ∧ Real.pi * (3 + 2) * (((((3 : ℝ) - 2) / (3 + 2)) ^ 2) ^ 2 / (8 * (4 - ((3 - 2) / (3 + 2)) ^ 2))) = Real.pi / 3960 := by
  constructor
  · norm_num [stdR]
  · ring

end H2d.Props
