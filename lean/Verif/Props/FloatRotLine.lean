import Verif.Lemmas.FloatRotLine
import Verif.Lemmas.ExactChain
import Verif.Lemmas.FloatInsideDemo
import Verif.Props.Bisect

/-! # C154: rotated lines with rounded arithmetic -/

namespace H2d.Props
open H2d H2d.Spec H2d.Fl

variable {F : Arith} {u v w : ℝ} {co si : ℝ → ℝ}

/-- **C154, line.** Whenever `getRotatedLine` returns a line that is horizontal or not nearly so: its distance to the point is at most 1.05 times the one of the initial line, plus `225 (u + w) M`; the sine of its angle with the line
turned by the given angle is at most `46 (u + w)`. Missing: results that are nearly horizontal without being so, see `C154_false`. -/
theorem C154_line_partial (h : FlOk F u v) (h1 : Rep F 1) (hw : TrigOk co si w) (he : u + w ≤ 1 / 1000) {t : Thr ℝ} (ht : t.nullDenom ≤ 1) (ht' : t.nullDeter ≤ 9 / 10) {M : ℝ} {l r : V3 ℝ} {p : Pt ℝ} (hl : Turn F M l p) {a : ℝ}
    (hr : Fl.rotatedLine F co si t l p a = .ok r) (hs : r 0 = 0 ∨ t.nullDenom ≤ |r 0|) :
    |r 0 * p.1 + r 1 * p.2 + r 2| ≤ (21 / 20 * (|l 0 * p.1 + l 1 * p.2 + l 2| / Real.sqrt (l 0 ^ 2 + l 1 ^ 2)) + 225 * (u + w) * M) * Real.sqrt (r 0 ^ 2 + r 1 ^ 2) ∧
    SinLe (46 * (u + w)) r (turnedLine a l) ∧ 0 < r 0 ^ 2 + r 1 ^ 2 := by
  by_cases hd : Fl.lineDist F l p ≤ t.nullDistance
  · obtain ⟨r', e, b⟩ := rotatedLine_spec h h1 hw he ht ht' hl a hd
    rw [e] at hr
    cases hr
    exact b hs
  · unfold Fl.rotatedLine at hr
    rw [if_pos (not_le.1 hd)] at hr
    cases hr

/-- **C154, decision.** With a point farther than the null distance, by `16 (u + v) M`, an exception is thrown; with a point closer by as much, a line is returned. -/
theorem C154_decision (h : FlOk F u v) (h1 : Rep F 1) (hw : TrigOk co si w) (he : u + w ≤ 1 / 1000) {t : Thr ℝ} (ht : t.nullDenom ≤ 1) (ht' : t.nullDeter ≤ 9 / 10) {M : ℝ} {l : V3 ℝ} {p : Pt ℝ} (hl : Turn F M l p) (a : ℝ) :
    (t.nullDistance + 16 * (u + v) * M < |l 0 * p.1 + l 1 * p.2 + l 2| / Real.sqrt (l 0 ^ 2 + l 1 ^ 2) → Fl.rotatedLine F co si t l p a = .throw) ∧
    (|l 0 * p.1 + l 1 * p.2 + l 2| / Real.sqrt (l 0 ^ 2 + l 1 ^ 2) + 16 * (u + v) * M ≤ t.nullDistance → ∃ r, Fl.rotatedLine F co si t l p a = .ok r) ∧ Fl.rotatedLine F co si t l p a ≠ .ub := by
  have hn : 0 < Real.sqrt (l 0 ^ 2 + l 1 ^ 2) := by linarith [hl.normal]
  have d := (lineDist_off h (t := { t with nullDenom := 0 }) (l := l) (p := p) (M := M) ⟨Real.sqrt_pos.1 hn, .inr (by simp only; positivity), hl.x, hl.y, hl.off⟩).1
  obtain ⟨d1, d2⟩ := abs_le.1 d
  refine ⟨fun k => ?_, fun k => ?_, ?_⟩
  · unfold Fl.rotatedLine
    rw [if_pos (show Fl.lineDist F l p > t.nullDistance by linarith)]
  · obtain ⟨r, e, -⟩ := rotatedLine_spec h h1 hw he ht ht' hl a (by linarith)
    exact ⟨r, e⟩
  · by_cases hd : Fl.lineDist F l p ≤ t.nullDistance
    · obtain ⟨r, e, -⟩ := rotatedLine_spec h h1 hw he ht ht' hl a hd
      rw [e]; simp
    · unfold Fl.rotatedLine
      rw [if_pos (not_le.1 hd)]; simp

/-- The line `x + y - 3 = 0`, with a normal that is not yet of length 1, the point (1,2) of it, `double` and the default thresholds. -/
example : Turn (binary 53) 2 ![1, 1, -3] (1, 2) ∧ u53 + u53 ≤ 1 / 1000 ∧ stdR.nullDenom ≤ 1 ∧ stdR.nullDeter ≤ 9 / 10 ∧
    |(![1, 1, -3] : V3 ℝ) 0 * 1 + (![1, 1, -3] : V3 ℝ) 1 * 2 + (![1, 1, -3] : V3 ℝ) 2| / Real.sqrt ((![1, 1, -3] : V3 ℝ) 0 ^ 2 + (![1, 1, -3] : V3 ℝ) 1 ^ 2) + 16 * (u53 + u53) * 2 ≤ stdR.nullDistance := by
  have rz : ∀ {n : ℤ}, |n| ≤ 4 → (binary 53).rnd (n : ℝ) = n := fun {n} hn => roundTo_int (p := 53) (by norm_num) (m := n) (hn.trans (by norm_num))
  have r1 : (binary 53).rnd 1 = 1 := by have := rz (n := 1) (by norm_num); exact_mod_cast this
  have r2 : (binary 53).rnd 2 = 2 := by have := rz (n := 2) (by norm_num); exact_mod_cast this
  have r3 : (binary 53).rnd (-3) = -3 := by have := rz (n := -3) (by norm_num); exact_mod_cast this
  have s1 : 1 ≤ Real.sqrt ((![1, 1, -3] : V3 ℝ) 0 ^ 2 + (![1, 1, -3] : V3 ℝ) 1 ^ 2) := by
    apply Real.le_sqrt_of_sq_le
    simp only [Matrix.cons_val]; norm_num
  refine ⟨⟨by linarith, by norm_num, by norm_num, ?_, r1, r2, r3⟩, by norm_num, by norm_num [stdR], by norm_num [stdR], ?_⟩
  · unfold offLine
    have : |(![1, 1, -3] : V3 ℝ) 2| / Real.sqrt ((![1, 1, -3] : V3 ℝ) 0 ^ 2 + (![1, 1, -3] : V3 ℝ) 1 ^ 2) ≤ |(![1, 1, -3] : V3 ℝ) 2| / 1 := div_le_div_of_nonneg_left (abs_nonneg _) one_pos s1
    refine this.trans ?_
    simp only [Matrix.cons_val]; norm_num [abs_le]
  · have : (![1, 1, -3] : V3 ℝ) 0 * 1 + (![1, 1, -3] : V3 ℝ) 1 * 2 + (![1, 1, -3] : V3 ℝ) 2 = 0 := by simp only [Matrix.cons_val]; norm_num
    rw [this, abs_zero, zero_div]
    norm_num [stdR]

/-- **C154, the condition on the result is needed.** Even without rounding, and whatever the thresholds: a line as stored by the library, a point of it and an angle, such that the line returned does not pass by the point. -/
theorem C154_false {t : Thr ℝ} (ht : 0 < t.nullDenom) (h1 : t.nullDenom ≤ 1) (hd : 0 < t.nullDeter) (hd1 : t.nullDeter ≤ 1) (hn : 0 ≤ t.nullDistance) :
    ∃ l p a r, NormLine t l ∧ On l p ∧ Fl.rotatedLine exactArith Real.cos Real.sin t l p a = .ok r ∧ ¬ On r p := by
  obtain ⟨l, p, a, r, h2, h3, h4, h5⟩ := C85_false t ht h1 hd hd1 hn
  exact ⟨l, p, a, r, h2, h3, by rw [Exact.rotatedLine_eq]; exact h4, h5⟩

example : 0 < stdR.nullDenom ∧ stdR.nullDenom ≤ 1 ∧ 0 < stdR.nullDeter ∧ stdR.nullDeter ≤ 1 ∧ 0 ≤ stdR.nullDistance := by norm_num [stdR]

end H2d.Props
