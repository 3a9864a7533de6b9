import Verif.Lemmas.Axes

/-! # C89: axes and oriented bounding box of ellipses -/

set_option linter.unusedVariables false
set_option linter.unusedSimpArgs false

namespace H2d.Props
open H2d H2d.Spec H2d.Axes Real

/-- **C89, axes (partial).** The two lines go through the center of the ellipse and are perpendicular; for an ellipse that is not a circle, the first one is the line of
the major axis, the second one the line of the minor axis. Missing: ellipses with a vertical major axis (`C89_axes_false`) or of which one axis is
nearly horizontal without being so, small ellipses (`C55_false`). -/
theorem C89_axes_partial (t : Thr ℝ) (h1 : dblEps < t.nullDistance) (ht : 0 < t.nullDenom) (ht1 : t.nullDenom ≤ 1) (x y a b th : ℝ) (hb : 0 < b) (hab : b ≤ a)
    (ha : t.nullDistance ≤ a) (hbig : t.nullDenom ≤ 4 * a ^ 2 * b ^ 2) (hok : a = b ∨ AngleOk t a b th ∧ GoodDir t (cos th, sin th)) :
    ∃ l o, (Ell.new x y a b th).axisLines t = .ok (l, o) ∧ UnitNormal l ∧ UnitNormal o ∧ On l (x, y) ∧ On o (x, y) ∧ Perp l o ∧
      (b < a → ∀ k, On l (x + k * cos th, y + k * sin th) ∧ On o (x - k * sin th, y + k * cos th)) := by
  obtain ⟨ph, e1, e2, e3⟩ := found_dir x y ht ht1 hb hab hbig hok
  obtain ⟨l, o, f1, f2, f3, f4, f5⟩ := axes_run h1 ha e1 e2
  refine ⟨l, o, f1, f2, f3, by simpa using f4 0, by simpa using f5 0, axes_perp f2 f4 f5, fun hlt k => ?_⟩
  rcases e3 with e3 | ⟨e3, e4⟩ | ⟨e3, e4⟩
  · exact absurd e3 hlt.ne'
  · rw [← e3, ← e4]; exact ⟨f4 k, f5 k⟩
  · have g1 := f4 (-k)
    have g2 := f5 (-k)
    rw [e3, e4] at g1 g2
    simp only [neg_mul_neg, sub_neg_eq_add, neg_mul, mul_neg, neg_neg] at g1 g2
    exact ⟨g1, by simpa [sub_eq_add_neg] using g2⟩

/-- **C89, oriented box (partial).** `getOBB()` gives the four corners of a rectangle with sides `2b` and `2a`, centered on the center of the ellipse, the long sides in the
direction of the major axis; all the points of the ellipse are in it, and the ellipse goes through the middle of each of its sides. Missing: same as for the axes, see
`C89_false`. -/
theorem C89_obb_partial (t : Thr ℝ) (h1 : dblEps < t.nullDistance) (h2 : 0 < t.nullAngleValue) (h3 : t.nullAngleValue ≤ π / 2) (ht : 0 < t.nullDenom)
    (ht1 : t.nullDenom ≤ 1) (x y a b th : ℝ) (hab : b ≤ a) (ha : t.nullDistance ≤ a) (hb : t.nullDistance ≤ 2 * b) (hbig : t.nullDenom ≤ 4 * a ^ 2 * b ^ 2)
    (hok : a = b ∨ AngleOk t a b th ∧ GoodDir t (cos th, sin th)) :
    ∃ p1 p2 p3 p4, (Ell.new x y a b th).obb t = .ok [p1, p2, p3, p4] ∧ IsRectangle (2 * b) (2 * a) p1 p2 p3 p4 ∧ middle p1 p3 = (x, y) ∧
      (b < a → (p3.1 - p2.1) * sin th = (p3.2 - p2.2) * cos th) ∧
      (∀ p, ellVal x y a b th p ≤ 1 → InOrientedBox p1 p2 p3 p) ∧
      ∀ s ∈ [(p1, p2), (p2, p3), (p3, p4), (p4, p1)], ellVal x y a b th (middle s.1 s.2) = 1 := by
  have h0 := dblEps_pos
  have hb0 : 0 < b := by linarith
  have ha0 : 0 < a := by linarith
  obtain ⟨ph, e1, e2, e3⟩ := found_dir x y ht ht1 hb0 hab hbig hok
  obtain ⟨w, hw, f1⟩ := obb_run h1 h2 h3 ha hb e1 e2
  have hsc := sin_sq_add_cos_sq ph
  have hw2 : w ^ 2 = 1 := by rcases hw with h | h <;> rw [h] <;> norm_num
  have hval : ∀ p, ellVal x y a b th p = ellVal x y a b ph p := fun p => (ellVal_sameDir x y a b th ph e3 p).symm
  refine ⟨_, _, _, _, f1, ?_, ?_, ?_, ?_, ?_⟩
  · refine ⟨by simp only; ring, by simp only; ring, by simp only; ring, ?_, ?_⟩
    · rw [eucl_eq_iff (by linarith)]; simp only; linear_combination 4 * b ^ 2 * w ^ 2 * hsc + 4 * b ^ 2 * hw2
    · rw [eucl_eq_iff (by linarith)]; simp only; linear_combination 4 * a ^ 2 * hsc
  · unfold middle; apply Prod.ext <;> simp only <;> ring
  · intro hlt
    rcases e3 with e3 | ⟨e3, e4⟩ | ⟨e3, e4⟩
    · exact absurd e3 hlt.ne'
    · simp only; rw [e3, e4]; ring
    · simp only; rw [e3, e4]; ring
  · intro p hp
    rw [hval] at hp
    exact box_holds ha0 hb0 hw hp
  · intro s hs
    rw [hval]
    simp only [List.mem_cons, List.not_mem_nil, or_false] at hs
    rcases hs with rfl | rfl | rfl | rfl <;> simp only [ellVal, middle]
    · rw [div_add_div _ _ (by positivity) (by positivity), div_eq_one_iff_eq (by positivity)]
      linear_combination a ^ 2 * b ^ 2 * (sin ph ^ 2 + cos ph ^ 2 + 1) * hsc
    · rw [div_add_div _ _ (by positivity) (by positivity), div_eq_one_iff_eq (by positivity)]
      linear_combination a ^ 2 * b ^ 2 * w ^ 2 * (sin ph ^ 2 + cos ph ^ 2 + 1) * hsc + a ^ 2 * b ^ 2 * hw2
    · rw [div_add_div _ _ (by positivity) (by positivity), div_eq_one_iff_eq (by positivity)]
      linear_combination a ^ 2 * b ^ 2 * (sin ph ^ 2 + cos ph ^ 2 + 1) * hsc
    · rw [div_add_div _ _ (by positivity) (by positivity), div_eq_one_iff_eq (by positivity)]
      linear_combination a ^ 2 * b ^ 2 * w ^ 2 * (sin ph ^ 2 + cos ph ^ 2 + 1) * hsc + a ^ 2 * b ^ 2 * hw2

/-- The hypotheses hold for an ellipse tilted by 45 degrees, with the default thresholds. -/
example : dblEps < stdR.nullDistance ∧ 0 < stdR.nullAngleValue ∧ stdR.nullAngleValue ≤ π / 2 ∧ 0 < stdR.nullDenom ∧ stdR.nullDenom ≤ 1 ∧
    stdR.nullDistance ≤ 2 ∧ stdR.nullDistance ≤ 2 * 1 ∧ stdR.nullDenom ≤ 4 * 2 ^ 2 * 1 ^ 2 ∧ AngleOk stdR 2 1 (π / 4) ∧ GoodDir stdR (cos (π / 4), sin (π / 4)) := by
  have hpi := Real.two_le_pi
  have hs : (1 : ℝ) ≤ Real.sqrt 2 := by rw [Real.one_le_sqrt]; norm_num
  refine ⟨by unfold dblEps; norm_num [stdR], by norm_num [stdR], by norm_num [stdR]; linarith, by norm_num [stdR], by norm_num [stdR], by norm_num [stdR],
    by norm_num [stdR], by norm_num [stdR], ?_, ?_, ?_⟩
  · right; right
    rw [show 2 * (π / 4) = π / 2 by ring, sin_pi_div_two]; norm_num [stdR]
  · right; simp only [cos_pi_div_four]; rw [abs_of_nonneg (by positivity)]; norm_num [stdR]; linarith
  · right; simp only [sin_pi_div_four]; rw [abs_of_nonneg (by positivity)]; norm_num [stdR]; linarith

/-- **C89 is false for the axes of an ellipse with a vertical major axis**: the first line does not hold the end of the major axis, the second one not the end of the minor axis. -/
theorem C89_axes_false (t : Thr ℝ) (h1 : dblEps < t.nullDistance) (ht : 0 < t.nullDenom) (ht1 : t.nullDenom ≤ 1 / 3) (x y a b : ℝ) (hb : 0 < b) (hab : b < a)
    (ha : t.nullDistance ≤ a) (hbig : t.nullDenom ≤ 4 * a ^ 2 * b ^ 2) :
    ∃ l o, (Ell.new x y a b (π / 2)).axisLines t = .ok (l, o) ∧ ¬ On l (x, y + a) ∧ ¬ On o (x - b, y) := by
  obtain ⟨l, o, f1, f2, f3, f4, f5⟩ := axes_run h1 ha (params_vert t x y ht hb hab hbig) (good90 ht1)
  have ha0 : 0 < a := by linarith
  refine ⟨l, o, f1, fun h => ?_, fun h => ?_⟩
  · have g0 := f4 0
    have g1 := f4 1
    unfold On UnitNormal at *
    simp only [zero_mul, add_zero, one_mul] at *
    have e1 : l 1 = 0 := by
      have : a * l 1 = 0 := by linarith
      exact (mul_eq_zero.1 this).resolve_left ha0.ne'
    have e2 : l 0 * cos 90 = 0 := by rw [e1] at g0 g1; linarith
    have e3 : l 0 = 0 := (mul_eq_zero.1 e2).resolve_right cos90_ne
    rw [e1, e3] at f2; norm_num at f2
  · have g0 := f5 0
    have g1 := f5 1
    unfold On UnitNormal at *
    simp only [zero_mul, add_zero, one_mul, sub_zero] at *
    have e1 : o 0 = 0 := by
      have : b * o 0 = 0 := by linarith
      exact (mul_eq_zero.1 this).resolve_left hb.ne'
    have e2 : o 1 * cos 90 = 0 := by rw [e1] at g0 g1; linarith
    have e3 : o 1 = 0 := (mul_eq_zero.1 e2).resolve_right cos90_ne
    rw [e1, e3] at f3; norm_num at f3

/-- **C89 is false for an ellipse with a vertical major axis**: the end of the major axis is out of the oriented box, for any ellipse with half axes in a ratio of 3 at least. -/
theorem C89_false (t : Thr ℝ) (h1 : dblEps < t.nullDistance) (h2 : 0 < t.nullAngleValue) (h3 : t.nullAngleValue ≤ π / 2) (ht : 0 < t.nullDenom)
    (ht1 : t.nullDenom ≤ 1 / 3) (x y a b : ℝ) (hab : 3 * b ≤ a) (hb : t.nullDistance ≤ 2 * b) (ha : t.nullDistance ≤ a) (hbig : t.nullDenom ≤ 4 * a ^ 2 * b ^ 2) :
    ∃ p1 p2 p3 p4 p, (Ell.new x y a b (π / 2)).obb t = .ok [p1, p2, p3, p4] ∧ ellVal x y a b (π / 2) p = 1 ∧ ¬ InOrientedBox p1 p2 p3 p := by
  have h0 := dblEps_pos
  have hb0 : 0 < b := by linarith
  obtain ⟨w, hw, f1⟩ := obb_run h1 h2 h3 ha hb (params_vert t x y ht hb0 (by linarith) hbig) (good90 ht1)
  have hsc := sin_sq_add_cos_sq 90
  have hw2 : w ^ 2 = 1 := by rcases hw with h | h <;> rw [h] <;> norm_num
  refine ⟨_, _, _, _, (x, y + a), f1, ?_, ?_⟩
  · have : a ≠ 0 := by linarith
    simp [ellVal, this]
  · rintro ⟨⟨g1, g2⟩, -⟩
    rw [eucl_sq] at g2
    simp only at g1 g2
    have k1 : 0 ≤ 2 * b * (b + w * (a * cos 90)) := by
      refine g1.trans (le_of_eq ?_); linear_combination - 2 * b ^ 2 * w ^ 2 * (-hsc) + 2 * b ^ 2 * hw2
    have k2 : 2 * b * (w * (a * cos 90) - b) ≤ 0 := by
      have : 2 * b * (w * (a * cos 90) - b) =
        (x - (x + a * cos 90 + w * b * sin 90)) * (x + a * cos 90 - w * b * sin 90 - (x + a * cos 90 + w * b * sin 90)) +
        (y + a - (y + a * sin 90 - w * b * cos 90)) * (y + a * sin 90 + w * b * cos 90 - (y + a * sin 90 - w * b * cos 90)) -
        ((x + a * cos 90 - w * b * sin 90 - (x + a * cos 90 + w * b * sin 90)) ^ 2 +
          (y + a * sin 90 + w * b * cos 90 - (y + a * sin 90 - w * b * cos 90)) ^ 2) := by
        linear_combination 2 * b ^ 2 * w ^ 2 * hsc + 2 * b ^ 2 * hw2
      rw [this]; linarith
    have k3 : |a * cos 90| ≤ b := by
      have m1 := nonneg_of_mul_nonneg_right k1 (by linarith)
      have m2 : w * (a * cos 90) - b ≤ 0 := by by_contra h; push Not at h; have := mul_pos (show 0 < 2 * b by linarith) h; linarith
      rcases hw with h | h <;> rw [h] at m1 m2 <;> rw [abs_le] <;> constructor <;> linarith
    rw [abs_mul, abs_of_pos (by linarith)] at k3
    have := cos90_big
    nlinarith

end H2d.Props
