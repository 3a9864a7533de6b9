import Verif.Lemmas.FloatAngle

/-! # C112: angle and parallelism of lines with rounded operations -/

namespace H2d.Props

open H2d.Spec H2d.Fl

/-- **C112, angle.** Any two lines with a direction: the computed angle is a number between 0 and π/2 (up to the error of `std::acos`), its cosine is off by at most `11 u` from the one of the exact
angle `φ`, hence the angle is off by at most `π √(11 u / 2)` and the error of `std::acos`. -/
theorem C112_angle {F : Arith} {u v : ℝ} (h : FlOk F u v) {ac : ℝ → ℝ} {w : ℝ} (ha : AcosOk ac w) {l m : V3 ℝ} (hl : 0 < l 0 ^ 2 + l 1 ^ 2) (hm : 0 < m 0 ^ 2 + m 1 ^ 2) {φ : ℝ} (hφ : IsAngle l m φ) :
    ∃ θ x, Fl.lineAngle F ac l m = some θ ∧ 0 ≤ θ ∧ θ ≤ (1 + w) * (Real.pi / 2) ∧ θ = ac x ∧ 0 ≤ x ∧ x ≤ 1 ∧ |x - Real.cos φ| ≤ 11 * u ∧
      |θ - φ| ≤ Real.pi * Real.sqrt (11 * u / 2) + w * (Real.pi / 2) := lineAngle_err h ha hl hm hφ

/-- The lines `3x + 4y + 1 = 0` and `4x + 3y = 0`. -/
example : IsAngle ![3, 4, 1] ![4, 3, 0] (Real.arccos (24 / 25)) ∧ AcosOk Real.arccos 0 := by
  refine ⟨⟨Real.arccos_nonneg _, Real.arccos_le_pi_div_two.2 (by norm_num), ?_⟩, le_rfl, by norm_num, by simp⟩
  rw [Real.cos_arccos (by norm_num) (by norm_num)]
  simp only [Matrix.cons_val_zero, Matrix.cons_val_one]
  rw [show (3 : ℝ) ^ 2 + 4 ^ 2 = 5 * 5 by norm_num, show (4 : ℝ) ^ 2 + 3 ^ 2 = 5 * 5 by norm_num, Real.sqrt_mul_self (by norm_num), abs_of_nonneg (by norm_num)]
  norm_num

/-- **C112, symmetry.** Exactly the same angle if the lines are exchanged, or if the sign of one is changed. -/
theorem C112_sym {F : Arith} {u v : ℝ} (h : FlOk F u v) (ac : ℝ → ℝ) (l m : V3 ℝ) :
    Fl.lineAngle F ac l m = Fl.lineAngle F ac m l ∧ Fl.lineAngle F ac (fun i => - l i) m = Fl.lineAngle F ac l m := by
  unfold Fl.lineAngle
  rw [cosArg_neg h, cosArg_comm l m]
  exact ⟨rfl, rfl⟩

/-- **C112, parallelism.** Lines whose exact angle is below the threshold by more than the error are parallel, lines with an angle above by more than the error are not. In particular,
lines with the same direction are parallel if the threshold is above the error. -/
theorem C112_parallel {F : Arith} {u v : ℝ} (h : FlOk F u v) {ac : ℝ → ℝ} {w : ℝ} (ha : AcosOk ac w) (t : Thr ℝ) {l m : V3 ℝ} (hl : 0 < l 0 ^ 2 + l 1 ^ 2) (hm : 0 < m 0 ^ 2 + m 1 ^ 2) {φ : ℝ} (hφ : IsAngle l m φ) :
    (φ + (Real.pi * Real.sqrt (11 * u / 2) + w * (Real.pi / 2)) < t.nullAngleValue → Fl.isParallel F t ac l m = true) ∧
    (t.nullAngleValue + (Real.pi * Real.sqrt (11 * u / 2) + w * (Real.pi / 2)) ≤ φ → Fl.isParallel F t ac l m = false) := by
  obtain ⟨θ, x, e, -, -, -, -, -, -, hd⟩ := lineAngle_err h ha hl hm hφ
  have hd := abs_le.1 hd
  unfold Fl.isParallel
  rw [e]
  refine ⟨fun k => decide_eq_true (by linarith [hd.2]), fun k => decide_eq_false (by linarith [hd.1])⟩

/-- For `double`, the error is below 10^-7, and the threshold is 10^-3 (homog2d.hpp:213). Same direction means an angle of 0. -/
example : Real.pi * Real.sqrt (11 * (2 : ℝ) ^ (-((53 : ℕ) : ℤ)) / 2) + (2 : ℝ) ^ (-((52 : ℕ) : ℤ)) * (Real.pi / 2) < 1 / 10 ^ 7 ∧ IsAngle ![1, 2, 3] ![2, 4, 5] 0 := by
  constructor
  · have h1 : Real.sqrt (11 * (2 : ℝ) ^ (-((53 : ℕ) : ℤ)) / 2) ≤ 248 / 10 ^ 10 := by
      rw [Real.sqrt_le_left (by norm_num)]; norm_num
    have h2 := mul_le_mul_of_nonneg_left h1 Real.pi_pos.le
    have h3 := Real.pi_le_four
    norm_num at *
    linarith
  · refine ⟨le_rfl, by positivity, ?_⟩
    simp only [Matrix.cons_val_zero, Matrix.cons_val_one, Real.cos_zero, one_mul]
    rw [← Real.sqrt_mul (by norm_num), show ((1 : ℝ) ^ 2 + 2 ^ 2) * (2 ^ 2 + 4 ^ 2) = 10 * 10 by norm_num, Real.sqrt_mul_self (by norm_num)]
    norm_num

/-- **C112, the square root in the error is needed.** With `p` bits, `u = 2^-p`: two lines whose exact angle is more than `√u / 3`, the computed angle is `acos 1`, that is 0. So a threshold below
`√u / 3` can not be used: these lines would be parallel for any positive threshold. -/
theorem C112_sharp {p : ℕ} (hp : 6 ≤ p) : ∃ (l m : V3 ℝ) (φ : ℝ), 0 < l 0 ^ 2 + l 1 ^ 2 ∧ 0 < m 0 ^ 2 + m 1 ^ 2 ∧ IsAngle l m φ ∧ Real.sqrt ((2 : ℝ) ^ (-(p : ℤ))) / 3 ≤ φ ∧
    ∀ ac, Fl.lineAngle (binary p) ac l m = some (ac 1) := by
  obtain ⟨k, hk, hk2⟩ : ∃ k, p + 1 ≤ 2 * k ∧ 2 * k ≤ p + 2 := ⟨(p + 2) / 2, by omega, by omega⟩
  have e := small_angle hp hk hk2
  have hq : (0 : ℝ) < (2 ^ k) ^ 2 + 1 := by positivity
  have hle : (2 : ℝ) ^ k ≤ Real.sqrt ((2 ^ k) ^ 2 + 1) := Real.le_sqrt_of_sq_le (by linarith)
  have h1 : (2 : ℝ) ^ k / Real.sqrt ((2 ^ k) ^ 2 + 1) ≤ 1 := div_le_one_of_le₀ hle (Real.sqrt_nonneg _)
  have h0 : 0 ≤ (2 : ℝ) ^ k / Real.sqrt ((2 ^ k) ^ 2 + 1) := by positivity
  have hc := Real.cos_arccos (by linarith) h1
  refine ⟨![1, 0, 0], ![2 ^ k, 1, 0], Real.arccos ((2 : ℝ) ^ k / Real.sqrt ((2 ^ k) ^ 2 + 1)), by simp, by simp; positivity, ⟨Real.arccos_nonneg _, Real.arccos_le_pi_div_two.2 h0, ?_⟩, ?_, fun ac => ?_⟩
  rotate_left 2
  · unfold Fl.lineAngle
    rw [e]
    simp
  · rw [hc]
    simp only [Matrix.cons_val_zero, Matrix.cons_val_one, one_mul, zero_mul, add_zero, one_pow]
    rw [show (1 : ℝ) + 0 ^ 2 = 1 by norm_num, Real.sqrt_one, one_mul, div_mul_cancel₀ _ (Real.sqrt_pos.2 hq).ne', abs_of_pos (by positivity)]
  · refine le_trans ?_ (Real.sin_le (Real.arccos_nonneg _))
    rw [Real.sin_arccos, div_pow, Real.sq_sqrt hq.le]
    rw [show (1 : ℝ) - (2 ^ k) ^ 2 / ((2 ^ k) ^ 2 + 1) = 1 / ((2 ^ k) ^ 2 + 1) by field_simp; ring]
    apply Real.le_sqrt_of_sq_le
    rw [div_pow, Real.sq_sqrt (by positivity), zpow_neg, zpow_natCast, ← pow_mul]
    have k1 : (2 : ℝ) ^ (k * 2) ≤ 4 * 2 ^ p := by
      have : (2 : ℝ) ^ (k * 2) ≤ 2 ^ (p + 2) := pow_le_pow_right₀ (by norm_num) (by omega)
      rw [pow_add] at this
      linarith
    have k2 : (1 : ℝ) ≤ 2 ^ p := one_le_pow₀ (by norm_num)
    rw [inv_eq_one_div, div_div, div_le_div_iff₀ (by positivity) (by positivity)]
    linarith

end H2d.Props
