import Verif.Lemmas.FloatInter

/-! # C109: line/circle intersection with rounded operations -/

namespace H2d.Props

open H2d.Spec H2d.Fl

/-- **C109, numbers.** Any line with a direction, any circle: the result has no NaN. The square root is never taken on a negative number, whatever the rounding. -/
theorem C109_defined {F : Arith} {u v : ℝ} (h : FlOk F u v) {l : V3 ℝ} (hl : 0 < l 0 ^ 2 + l 1 ^ 2) (c : Pt ℝ) (r : ℝ) : Fl.lineCircle F l c r ≠ none := by
  obtain ⟨d0, -, -, h1, h2⟩ := lineCircle_eq h hl c r
  rcases lt_or_ge r d0 with hr | hr
  · rw [h1 hr]; simp
  · rw [(h2 hr).2.2]; simp

example : 0 < (![3, 4, 5] : V3 ℝ) 0 ^ 2 + (![3, 4, 5] : V3 ℝ) 1 ^ 2 := by simp; norm_num

/-- **C109, decision.** The answer is the one of exact arithmetic, unless the radius and the distance between the centre and the line differ by less than `8 u` times the size of the terms of
the equation of the line at the centre. -/
theorem C109_decision {F : Arith} {u v : ℝ} (h : FlOk F u v) {l : V3 ℝ} (hl : 0 < l 0 ^ 2 + l 1 ^ 2) (c : Pt ℝ) (r : ℝ) :
    (|l 0 * c.1 + l 1 * c.2 + l 2| / Real.sqrt (l 0 ^ 2 + l 1 ^ 2) + 8 * u * ((|l 0 * c.1| + |l 1 * c.2| + |l 2|) / Real.sqrt (l 0 ^ 2 + l 1 ^ 2)) ≤ r →
      ∃ pts, Fl.lineCircle F l c r = some (some pts)) ∧
    (r + 8 * u * ((|l 0 * c.1| + |l 1 * c.2| + |l 2|) / Real.sqrt (l 0 ^ 2 + l 1 ^ 2)) < |l 0 * c.1 + l 1 * c.2 + l 2| / Real.sqrt (l 0 ^ 2 + l 1 ^ 2) →
      Fl.lineCircle F l c r = some none) := by
  obtain ⟨d0, -, hd, h1, h2⟩ := lineCircle_eq h hl c r
  have hD := abs_le.1 (lc_dist h hl hd)
  refine ⟨fun hh => ⟨_, (h2 (by linarith [hD.2])).2.2⟩, fun hh => h1 (by linarith [hD.1])⟩

/-- The line `3x + 4y + 5 = 0`, a circle around the origin with radius 2 (found), or 1/2 (not found), in `double`. -/
example : |(3 : ℝ) * 0 + 4 * 0 + 5| / Real.sqrt (3 ^ 2 + 4 ^ 2) + 8 * (2 : ℝ) ^ (-((53 : ℕ) : ℤ)) * ((|(3 : ℝ) * 0| + |(4 : ℝ) * 0| + |5|) / Real.sqrt (3 ^ 2 + 4 ^ 2)) ≤ 2 ∧
    1 / 2 + 8 * (2 : ℝ) ^ (-((53 : ℕ) : ℤ)) * ((|(3 : ℝ) * 0| + |(4 : ℝ) * 0| + |5|) / Real.sqrt (3 ^ 2 + 4 ^ 2)) < |(3 : ℝ) * 0 + 4 * 0 + 5| / Real.sqrt (3 ^ 2 + 4 ^ 2) := by
  rw [show Real.sqrt ((3 : ℝ) ^ 2 + 4 ^ 2) = 5 by rw [Real.sqrt_eq_iff_mul_self_eq (by norm_num) (by norm_num)]; norm_num]
  norm_num

/-- **C109, points.** Centre with coordinates up to `M`, radius up to `M`: both points that are returned are within `48 u M` of the circle and within `48 u M` of the line
(also near tangency, where they can be far from the exact points). -/
theorem C109_points {F : Arith} {u v : ℝ} (h : FlOk F u v) {l : V3 ℝ} (hl : 0 < l 0 ^ 2 + l 1 ^ 2) {c : Pt ℝ} {r M : ℝ} (hx : |c.1| ≤ M) (hy : |c.2| ≤ M) (hr : r ≤ M)
    {pts : Pt ℝ × Pt ℝ} (e : Fl.lineCircle F l c r = some (some pts)) :
    ∀ P, P = pts.1 ∨ P = pts.2 → |eucl P c - r| ≤ 48 * u * M ∧ |l 0 * P.1 + l 1 * P.2 + l 2| / Real.sqrt (l 0 ^ 2 + l 1 ^ 2) ≤ 48 * u * M := by
  intro P hP
  obtain ⟨d0, h0, hd, h1, h2⟩ := lineCircle_eq h hl c r
  rcases lt_or_ge r d0 with hr' | hr'
  · rw [h1 hr'] at e; cases e
  · rw [(h2 hr').2.2] at e
    obtain rfl := Option.some.inj (Option.some.inj e)
    obtain ⟨k1, k2⟩ := lc_main h hl h0 hr' hd hx hy hr hP
    exact ⟨k1, by rw [div_le_iff₀ (Real.sqrt_pos.2 hl)]; exact k2⟩

/-- By `C109_decision` points are returned for `3x + 4y + 5 = 0` and the circle of radius 2: for `double`, within 10^-14 of the line and of the circle. -/
example : 48 * (2 : ℝ) ^ (-((53 : ℕ) : ℤ)) * 2 < 2 / 10 ^ 14 := by norm_num

/-- **C109, the margin is needed.** With `p` bits: the line `x + 1/2 = 0` and the circle with centre (2^p, 0) and radius 2^p do not meet, but points are returned. -/
theorem C109_sharp {p : ℕ} (hp : 6 ≤ p) : ∃ (l : V3 ℝ) (c : Pt ℝ) (r : ℝ) (pts : Pt ℝ × Pt ℝ), l 0 ^ 2 + l 1 ^ 2 = 1 ∧ r < |l 0 * c.1 + l 1 * c.2 + l 2| ∧
    Fl.lineCircle (binary p) l c r = some (some pts) := by
  obtain ⟨pts, e⟩ := tangent_miss hp
  refine ⟨_, _, _, pts, by simp, ?_, e⟩
  simp only [Matrix.cons_val_zero, Matrix.cons_val_one, Matrix.cons_val]
  refine lt_of_lt_of_le ?_ (le_abs_self _)
  norm_num

end H2d.Props
