import Verif.Spec.EllipseLength
import Verif.Lemmas.Ellipse
import Mathlib.Analysis.Complex.MeanValue
import Mathlib.Analysis.SpecialFunctions.Trigonometric.Deriv
import Mathlib.MeasureTheory.Integral.IntervalIntegral.Basic

/-! # Length of an ellipse: bounds -/

namespace H2d.EllLen

open H2d.Spec

theorem re_mean {f : ℂ → ℂ} (hf : DiffContOnCl ℂ f (Metric.ball 0 |1|)) (hc : Continuous fun s : ℝ => f (circleMap 0 1 s)) :
    ∫ s in (0 : ℝ)..2 * Real.pi, (f (circleMap 0 1 s)).re = 2 * Real.pi * (f 0).re := by
  have h := hf.circleAverage
  unfold Real.circleAverage at h
  have h2 : ∫ s in (0 : ℝ)..2 * Real.pi, f (circleMap 0 1 s) = ((2 * Real.pi : ℝ) : ℂ) * f 0 := by
    rw [← h, Complex.real_smul, ← mul_assoc]
    push_cast
    rw [mul_inv_cancel₀ (mul_ne_zero two_ne_zero (Complex.ofReal_ne_zero.2 Real.pi_ne_zero)), one_mul]
  have h3 := Complex.reCLM.intervalIntegral_comp_comm (hc.intervalIntegrable (μ := MeasureTheory.volume) 0 (2 * Real.pi))
  simp only [Complex.reCLM_apply] at h3
  rw [h3, h2]
  simp

theorem circ_sq (s : ℝ) : circleMap 0 1 s ^ 2 = ((Real.cos (2 * s) : ℝ) : ℂ) + ((Real.sin (2 * s) : ℝ) : ℂ) * Complex.I := by
  simp only [circleMap, zero_add, Complex.ofReal_one, one_mul]
  rw [← Complex.exp_nat_mul]
  have : ((2 : ℕ) : ℂ) * ((s : ℂ) * Complex.I) = ((2 * s : ℝ) : ℂ) * Complex.I := by push_cast; ring
  rw [this, Complex.exp_mul_I]
  push_cast
  rfl

theorem circ_nz {μ : ℝ} (h0 : 0 ≤ μ) (h1 : μ ≤ 1 / 2) {z : ℂ} (hz : ‖z‖ ≤ 1) : (1 : ℂ) - μ * z ^ 2 ≠ 0 := by
  intro h
  have h2 : ‖(μ : ℂ) * z ^ 2‖ = 1 := by rw [← sub_eq_zero.1 h]; simp
  rw [norm_mul, norm_pow, Complex.norm_real, Real.norm_of_nonneg h0] at h2
  have := pow_le_one₀ (n := 2) (norm_nonneg z) hz
  nlinarith

theorem g_pos {μ c : ℝ} (h0 : 0 ≤ μ) (h1 : μ ≤ 1 / 2) (hc : c ≤ 1) : 0 < 1 + μ ^ 2 - 2 * μ * c := by
  nlinarith [mul_nonneg h0 (sub_nonneg.2 hc)]

theorem int_g {μ : ℝ} (h0 : 0 ≤ μ) (h1 : μ ≤ 1 / 2) :
    ∫ s in (0 : ℝ)..2 * Real.pi, 1 / (1 + μ ^ 2 - 2 * μ * Real.cos (2 * s)) = 2 * Real.pi / (1 - μ ^ 2) := by
  have hd : DiffContOnCl ℂ (fun z : ℂ => (1 - (μ : ℂ) * z ^ 2)⁻¹) (Metric.ball 0 |1|) := by
    apply DifferentiableOn.diffContOnCl
    intro z hz
    have hz' : ‖z‖ ≤ 1 := by
      have := Metric.closure_ball_subset_closedBall hz
      simpa using this
    exact DifferentiableAt.differentiableWithinAt (DifferentiableAt.inv (by fun_prop) (circ_nz h0 h1 hz'))
  have hc : Continuous fun s : ℝ => (fun z : ℂ => (1 - (μ : ℂ) * z ^ 2)⁻¹) (circleMap 0 1 s) := by
    apply Continuous.inv₀
    · have := continuous_circleMap (0 : ℂ) 1
      fun_prop
    · intro s
      exact circ_nz h0 h1 (by simp)
  have h := re_mean hd hc
  have e : ∀ s : ℝ, ((1 - (μ : ℂ) * circleMap 0 1 s ^ 2)⁻¹).re = 1 / 2 + (1 - μ ^ 2) / 2 * (1 / (1 + μ ^ 2 - 2 * μ * Real.cos (2 * s))) := by
    intro s
    have hsc := Real.sin_sq_add_cos_sq (2 * s)
    have hg := g_pos h0 h1 (Real.cos_le_one (2 * s))
    rw [circ_sq, Complex.inv_re]
    have n : Complex.normSq (1 - (μ : ℂ) * (((Real.cos (2 * s) : ℝ) : ℂ) + ((Real.sin (2 * s) : ℝ) : ℂ) * Complex.I)) = 1 + μ ^ 2 - 2 * μ * Real.cos (2 * s) := by
      rw [Complex.normSq_apply]
      simp only [Complex.sub_re, Complex.one_re, Complex.mul_re, Complex.ofReal_re, Complex.ofReal_im, Complex.add_re, Complex.I_re, Complex.I_im, Complex.sub_im, Complex.one_im, Complex.mul_im, Complex.add_im]
      linear_combination μ ^ 2 * hsc
    rw [n]
    simp only [Complex.sub_re, Complex.one_re, Complex.mul_re, Complex.ofReal_re, Complex.ofReal_im, Complex.add_re, Complex.I_re, Complex.I_im]
    have e5 : 1 / (1 + μ ^ 2 - 2 * μ * Real.cos (2 * s)) * (1 + μ ^ 2 - 2 * μ * Real.cos (2 * s)) = 1 := one_div_mul_cancel hg.ne'
    rw [div_eq_iff hg.ne']
    linear_combination -(1 - μ ^ 2) / 2 * e5
  simp only [e] at h
  have hcg : Continuous fun s : ℝ => 1 / (1 + μ ^ 2 - 2 * μ * Real.cos (2 * s)) := by
    apply Continuous.div continuous_const (by fun_prop)
    intro s
    exact (g_pos h0 h1 (Real.cos_le_one (2 * s))).ne'
  have i2 : IntervalIntegrable (fun s : ℝ => (1 - μ ^ 2) / 2 * (1 / (1 + μ ^ 2 - 2 * μ * Real.cos (2 * s)))) MeasureTheory.volume 0 (2 * Real.pi) := (continuous_const.mul hcg).intervalIntegrable _ _
  rw [intervalIntegral.integral_add (by simp) i2, intervalIntegral.integral_const_mul, intervalIntegral.integral_const] at h
  have hm : 0 < 1 - μ ^ 2 := by nlinarith
  rw [eq_div_iff hm.ne']
  simp at h
  simp only [one_div]
  linarith

theorem int_cos : ∫ s in (0 : ℝ)..2 * Real.pi, Real.cos (2 * s) = 0 := by
  have h := re_mean (f := fun z => z ^ 2) (by apply Differentiable.diffContOnCl; fun_prop) (by have := continuous_circleMap (0 : ℂ) 1; fun_prop)
  simp only [circ_sq, Complex.add_re, Complex.mul_re, Complex.ofReal_re, Complex.ofReal_im, Complex.I_re, Complex.I_im, mul_zero, zero_mul, sub_zero, add_zero] at h
  rw [h]
  simp

/-- Pointwise bounds. -/
theorem speed_bounds {μ c : ℝ} (h0 : 0 ≤ μ) (h1 : μ ≤ 1 / 2) (hc1 : c ≤ 1) (hc2 : -1 ≤ c) :
    2 - μ * c - (1 - μ ^ 2) / 2 - (1 - μ ^ 2) ^ 2 / 2 * (1 / (1 + μ ^ 2 - 2 * μ * c)) ≤ Real.sqrt (1 + 4 * μ ^ 2 - 4 * μ * c) ∧
    Real.sqrt (1 + 4 * μ ^ 2 - 4 * μ * c) ≤ 1 + (1 + μ ^ 2) / 2 - μ * c - (1 - 2 * μ ^ 2) / 2 * (1 / (1 + μ ^ 2 - 2 * μ * c)) := by
  have hg := g_pos h0 h1 hc1
  have hX : 0 ≤ 1 + 4 * μ ^ 2 - 4 * μ * c := by nlinarith [mul_nonneg h0 (sub_nonneg.2 hc1), sq_nonneg (1 - 2 * μ)]
  constructor
  · apply Real.le_sqrt_of_sq_le
    have e : 2 - μ * c - (1 - μ ^ 2) / 2 - (1 - μ ^ 2) ^ 2 / 2 * (1 / (1 + μ ^ 2 - 2 * μ * c)) = (1 - 4 * μ * c - 2 * μ ^ 3 * c + 4 * μ ^ 2 + μ ^ 2 * (2 * c ^ 2 - 1)) / (1 + μ ^ 2 - 2 * μ * c) := by
      rw [eq_div_iff hg.ne']
      have : (1 - μ ^ 2) ^ 2 / 2 * (1 / (1 + μ ^ 2 - 2 * μ * c)) * (1 + μ ^ 2 - 2 * μ * c) = (1 - μ ^ 2) ^ 2 / 2 := by rw [mul_assoc, one_div_mul_cancel hg.ne', mul_one]
      linear_combination - this
    rw [e, div_pow, div_le_iff₀ (by positivity)]
    have key : (1 + 4 * μ ^ 2 - 4 * μ * c) * (1 + μ ^ 2 - 2 * μ * c) ^ 2 - (1 - 4 * μ * c - 2 * μ ^ 3 * c + 4 * μ ^ 2 + μ ^ 2 * (2 * c ^ 2 - 1)) ^ 2 = (1 - c ^ 2) * (2 * μ ^ 2 * c - 2 * μ ^ 3) ^ 2 := by ring
    have : 0 ≤ (1 - c ^ 2) * (2 * μ ^ 2 * c - 2 * μ ^ 3) ^ 2 := mul_nonneg (by nlinarith) (sq_nonneg _)
    linarith
  · have hs := Real.sq_sqrt hX
    have e : 1 + (1 + μ ^ 2) / 2 - μ * c - (1 - 2 * μ ^ 2) / 2 * (1 / (1 + μ ^ 2 - 2 * μ * c)) = ((1 + 4 * μ ^ 2 - 4 * μ * c) + (1 + μ ^ 2 - 2 * μ * c) ^ 2) / (2 * (1 + μ ^ 2 - 2 * μ * c)) := by
      have e5 : 1 / (1 + μ ^ 2 - 2 * μ * c) * (1 + μ ^ 2 - 2 * μ * c) = 1 := one_div_mul_cancel hg.ne'
      rw [eq_div_iff (by positivity)]
      linear_combination -(1 - 2 * μ ^ 2) * e5
    rw [e, le_div_iff₀ (by positivity)]
    nlinarith [sq_nonneg (Real.sqrt (1 + 4 * μ ^ 2 - 4 * μ * c) - (1 + μ ^ 2 - 2 * μ * c))]

theorem int_bounds {μ : ℝ} (h0 : 0 ≤ μ) (h1 : μ ≤ 1 / 2) :
    2 * Real.pi * (1 + μ ^ 2) ≤ ∫ s in (0 : ℝ)..2 * Real.pi, Real.sqrt (1 + 4 * μ ^ 2 - 4 * μ * Real.cos (2 * s)) ∧
    ∫ s in (0 : ℝ)..2 * Real.pi, Real.sqrt (1 + 4 * μ ^ 2 - 4 * μ * Real.cos (2 * s)) ≤ 2 * Real.pi * (1 + μ ^ 2 + μ ^ 4 / (2 * (1 - μ ^ 2))) := by
  have hcg : Continuous fun s : ℝ => 1 / (1 + μ ^ 2 - 2 * μ * Real.cos (2 * s)) := by
    apply Continuous.div continuous_const (by fun_prop)
    intro s
    exact (g_pos h0 h1 (Real.cos_le_one (2 * s))).ne'
  have hcc : Continuous fun s : ℝ => Real.cos (2 * s) := by fun_prop
  have gen : ∀ α β γ : ℝ, ∫ s in (0 : ℝ)..2 * Real.pi, (α - β * Real.cos (2 * s) - γ * (1 / (1 + μ ^ 2 - 2 * μ * Real.cos (2 * s)))) = 2 * Real.pi * α - γ * (2 * Real.pi / (1 - μ ^ 2)) := by
    intro α β γ
    have i1 : IntervalIntegrable (fun s : ℝ => β * Real.cos (2 * s)) MeasureTheory.volume 0 (2 * Real.pi) := (continuous_const.mul hcc).intervalIntegrable _ _
    have i2 : IntervalIntegrable (fun s : ℝ => γ * (1 / (1 + μ ^ 2 - 2 * μ * Real.cos (2 * s)))) MeasureTheory.volume 0 (2 * Real.pi) := (continuous_const.mul hcg).intervalIntegrable _ _
    rw [intervalIntegral.integral_sub (by apply IntervalIntegrable.sub _ i1; simp) i2, intervalIntegral.integral_sub (by simp) i1, intervalIntegral.integral_const_mul, intervalIntegral.integral_const_mul, int_cos, int_g h0 h1]
    simp
  have hpi : (0 : ℝ) ≤ 2 * Real.pi := by positivity
  have hm : 0 < 1 - μ ^ 2 := by nlinarith
  have is : IntervalIntegrable (fun s : ℝ => Real.sqrt (1 + 4 * μ ^ 2 - 4 * μ * Real.cos (2 * s))) MeasureTheory.volume 0 (2 * Real.pi) := by
    apply Continuous.intervalIntegrable
    fun_prop
  have ig : ∀ α β γ : ℝ, IntervalIntegrable (fun s : ℝ => α - β * Real.cos (2 * s) - γ * (1 / (1 + μ ^ 2 - 2 * μ * Real.cos (2 * s)))) MeasureTheory.volume 0 (2 * Real.pi) :=
    fun α β γ => ((continuous_const.sub (continuous_const.mul hcc)).sub (continuous_const.mul hcg)).intervalIntegrable _ _
  constructor
  · have k := intervalIntegral.integral_mono_on hpi (ig (2 - (1 - μ ^ 2) / 2) μ ((1 - μ ^ 2) ^ 2 / 2)) is (fun s _ => by
      have := (speed_bounds h0 h1 (Real.cos_le_one (2 * s)) (Real.neg_one_le_cos _)).1
      linarith)
    rw [gen] at k
    refine le_trans (le_of_eq ?_) k
    field_simp
    ring
  · have k := intervalIntegral.integral_mono_on hpi is (ig (1 + (1 + μ ^ 2) / 2) μ ((1 - 2 * μ ^ 2) / 2)) (fun s _ => by
      have := (speed_bounds h0 h1 (Real.cos_le_one (2 * s)) (Real.neg_one_le_cos _)).2
      linarith)
    rw [gen] at k
    refine k.trans (le_of_eq ?_)
    field_simp
    ring

theorem curveLen_ell (x y th : ℝ) {a b : ℝ} (hb : 0 < b) (hab : b ≤ a) :
    curveLen (ellCurve x y a b th) = (a + b) / 2 * ∫ s in (0 : ℝ)..2 * Real.pi, Real.sqrt (1 + 4 * ((a - b) / (2 * (a + b))) ^ 2 - 4 * ((a - b) / (2 * (a + b))) * Real.cos (2 * s)) := by
  unfold curveLen
  rw [← intervalIntegral.integral_const_mul]
  apply intervalIntegral.integral_congr
  intro s _
  have d1 : HasDerivAt (fun s => (ellCurve x y a b th s).1) (- (a * Real.sin s * Real.cos th) - b * Real.cos s * Real.sin th) s := by
    have hA := ((Real.hasDerivAt_cos s).const_mul a).mul_const (Real.cos th)
    have hB := ((Real.hasDerivAt_sin s).const_mul b).mul_const (Real.sin th)
    have := (hA.const_add x).sub hB
    refine this.congr_deriv ?_
    ring
  have d2 : HasDerivAt (fun s => (ellCurve x y a b th s).2) (- (a * Real.sin s * Real.sin th) + b * Real.cos s * Real.cos th) s := by
    have hA := ((Real.hasDerivAt_cos s).const_mul a).mul_const (Real.sin th)
    have hB := ((Real.hasDerivAt_sin s).const_mul b).mul_const (Real.cos th)
    have := (hA.const_add y).add hB
    refine this.congr_deriv ?_
    ring
  simp only
  rw [d1.deriv, d2.deriv]
  have hs : 0 < a + b := by linarith
  rw [← Real.sqrt_sq (show 0 ≤ (a + b) / 2 by linarith), ← Real.sqrt_mul (sq_nonneg _)]
  congr 1
  rw [Real.cos_two_mul]
  have e1 := Real.sin_sq_add_cos_sq s
  have e2 := Real.sin_sq_add_cos_sq th
  have e3 : ((a + b) / 2) ^ 2 * (1 + 4 * ((a - b) / (2 * (a + b))) ^ 2 - 4 * ((a - b) / (2 * (a + b))) * (2 * Real.cos s ^ 2 - 1)) = (a ^ 2 + b ^ 2) / 2 - (a ^ 2 - b ^ 2) / 2 * (2 * Real.cos s ^ 2 - 1) := by
    field_simp
    ring
  rw [e3]
  have e4 : Real.sin s ^ 2 = 1 - Real.cos s ^ 2 := by linarith
  calc _ = (a ^ 2 * Real.sin s ^ 2 + b ^ 2 * Real.cos s ^ 2) * (Real.sin th ^ 2 + Real.cos th ^ 2) := by ring
    _ = _ := by rw [e2, e4]; ring

/-- The formula lies between the same bounds. -/
theorem formula_bounds {h : ℝ} (h0 : 0 ≤ h) (h1 : h ≤ 1) : 1 + h / 4 ≤ 1 + 3 * h / (10 + Real.sqrt (4 - 3 * h)) ∧ 1 + 3 * h / (10 + Real.sqrt (4 - 3 * h)) ≤ 1 + h / 4 + h ^ 2 / (8 * (4 - h)) := by
  have hs0 := Real.sqrt_nonneg (4 - 3 * h)
  have hs2 : Real.sqrt (4 - 3 * h) ^ 2 = 4 - 3 * h := Real.sq_sqrt (by linarith)
  have s2 : Real.sqrt (4 - 3 * h) ≤ 2 := by nlinarith
  constructor
  · have : h / 4 ≤ 3 * h / (10 + Real.sqrt (4 - 3 * h)) := by
      rw [div_le_div_iff₀ (by norm_num) (by linarith)]
      nlinarith
    linarith
  · have s3 : 2 - h ≤ Real.sqrt (4 - 3 * h) := Real.le_sqrt_of_sq_le (by nlinarith)
    have h4 : 0 < 4 - h := by linarith
    have : 3 * h / (10 + Real.sqrt (4 - 3 * h)) ≤ 3 * h / (12 - h) := div_le_div_of_nonneg_left (by linarith) (by linarith) (by linarith)
    have e : h / 4 + h ^ 2 / (8 * (4 - h)) - 3 * h / (12 - h) = h ^ 2 * (4 + h) / (8 * (4 - h) * (12 - h)) := by
      have : 12 - h ≠ 0 := by linarith
      field_simp
      ring
    have e2 : 0 ≤ h ^ 2 * (4 + h) / (8 * (4 - h) * (12 - h)) := div_nonneg (by nlinarith [sq_nonneg h]) (mul_nonneg (by linarith) (by linarith))
    linarith

theorem curve_bounds (x y th : ℝ) {a b : ℝ} (hb : 0 < b) (hab : b ≤ a) :
    Real.pi * (a + b) * (1 + ((a - b) / (a + b)) ^ 2 / 4) ≤ curveLen (ellCurve x y a b th) ∧
    curveLen (ellCurve x y a b th) ≤ Real.pi * (a + b) * (1 + ((a - b) / (a + b)) ^ 2 / 4 + (((a - b) / (a + b)) ^ 2) ^ 2 / (8 * (4 - ((a - b) / (a + b)) ^ 2))) := by
  have hs : 0 < a + b := by linarith
  rw [curveLen_ell x y th hb hab]
  have e : (a - b) / (a + b) = 2 * ((a - b) / (2 * (a + b))) := by field_simp
  rw [e]
  have m0 : 0 ≤ (a - b) / (2 * (a + b)) := div_nonneg (by linarith) (by linarith)
  have m1 : (a - b) / (2 * (a + b)) ≤ 1 / 2 := by rw [div_le_div_iff₀ (by linarith) (by norm_num)]; linarith
  generalize (a - b) / (2 * (a + b)) = μ at *
  obtain ⟨k1, k2⟩ := int_bounds m0 m1
  have k1 := mul_le_mul_of_nonneg_left k1 (show 0 ≤ (a + b) / 2 by linarith)
  have k2 := mul_le_mul_of_nonneg_left k2 (show 0 ≤ (a + b) / 2 by linarith)
  have hm : 0 < 1 - μ ^ 2 := by nlinarith
  constructor
  · refine le_trans (le_of_eq ?_) k1
    ring
  · refine k2.trans (le_of_eq ?_)
    have : 4 - (2 * μ) ^ 2 = 4 * (1 - μ ^ 2) := by ring
    rw [this]
    field_simp
    ring

/-- `length()` of the ellipses that the constructor makes. -/
theorem length_new (t : Thr ℝ) (x y th : ℝ) {a b : ℝ} (hb : 0 < b) (hab : b ≤ a) (hbig : t.nullDenom ≤ 4 * a ^ 2 * b ^ 2) :
    Ell.length t ⟨ellMat x y a b th, false⟩ = .ok ((a + b) * Real.pi * (1 + 3 * ((a - b) / (a + b)) ^ 2 / (10 + Real.sqrt (4 - 3 * ((a - b) / (a + b)) ^ 2)))) := by
  rcases params_new t x y a b th hb hab with ⟨h, -⟩ | ⟨-, h⟩
  · exact absurd h (not_lt.2 hbig)
  · rw [div_pow]
    simp only [Ell.length, h, Res.bind_ok, Res.pure_eq, pow_two]

theorem rel_err {P L s h : ℝ} (hs : 0 ≤ s) (h0 : 0 ≤ h) (h1 : h ≤ 1) (p1 : s * (1 + h / 4) ≤ P) (p2 : P ≤ s * (1 + h / 4 + h ^ 2 / (8 * (4 - h))))
    (l1 : s * (1 + h / 4) ≤ L) (l2 : L ≤ s * (1 + h / 4 + h ^ 2 / (8 * (4 - h)))) : |L - P| ≤ s * (h ^ 2 / (8 * (4 - h))) ∧ |L - P| ≤ P / 30 := by
  have k1 : |L - P| ≤ s * (h ^ 2 / (8 * (4 - h))) := by
    rw [abs_le]; constructor <;> linarith
  refine ⟨k1, k1.trans ?_⟩
  have e : h ^ 2 / (8 * (4 - h)) ≤ (1 + h / 4) / 30 := by
    rw [div_le_div_iff₀ (by linarith) (by norm_num)]
    nlinarith
  have := mul_le_mul_of_nonneg_left e hs
  linarith

theorem unit_angle {X Y : ℝ} (h : X ^ 2 + Y ^ 2 = 1) : ∃ s, 0 ≤ s ∧ s < 2 * Real.pi ∧ X = Real.cos s ∧ Y = Real.sin s := by
  have hX1 : -1 ≤ X := by nlinarith [sq_nonneg Y]
  have hX2 : X ≤ 1 := by nlinarith [sq_nonneg Y]
  have hp := Real.pi_pos
  have hs : Real.sqrt (1 - X ^ 2) = |Y| := by rw [← Real.sqrt_sq_eq_abs]; congr 1; linarith
  rcases le_or_gt 0 Y with hY | hY
  · refine ⟨Real.arccos X, Real.arccos_nonneg X, ?_, (Real.cos_arccos hX1 hX2).symm, ?_⟩
    · linarith [Real.arccos_le_pi X]
    · rw [Real.sin_arccos, hs, abs_of_nonneg hY]
  · refine ⟨2 * Real.pi - Real.arccos X, by linarith [Real.arccos_le_pi X], ?_, ?_, ?_⟩
    · have : Real.arccos X ≠ 0 := by
        intro h0
        have := Real.arccos_eq_zero.1 h0
        nlinarith [sq_nonneg (X - 1), mul_pos_of_neg_of_neg hY hY]
      have := lt_of_le_of_ne (Real.arccos_nonneg X) this.symm
      linarith
    · rw [Real.cos_two_pi_sub, Real.cos_arccos hX1 hX2]
    · rw [Real.sin_two_pi_sub, Real.sin_arccos, hs, abs_of_neg hY, neg_neg]

theorem ell_curve (x y th : ℝ) {a b : ℝ} (ha : 0 < a) (hb : 0 < b) (p : Pt ℝ) : ellVal x y a b th p = 1 ↔ ∃ s, 0 ≤ s ∧ s < 2 * Real.pi ∧ p = ellCurve x y a b th s := by
  have e := Real.sin_sq_add_cos_sq th
  unfold ellVal ellCurve
  constructor
  · intro h
    rw [← div_pow, ← div_pow] at h
    obtain ⟨s, s0, s1, e1, e2⟩ := unit_angle h
    rw [div_eq_iff ha.ne'] at e1
    rw [div_eq_iff hb.ne'] at e2
    refine ⟨s, s0, s1, Prod.ext ?_ ?_⟩
    · simp only
      linear_combination Real.cos th * e1 - Real.sin th * e2 - (p.1 - x) * e
    · simp only
      linear_combination Real.sin th * e1 + Real.cos th * e2 - (p.2 - y) * e
  · rintro ⟨s, -, -, rfl⟩
    simp only
    have e1 := Real.sin_sq_add_cos_sq s
    have k1 : (x + a * Real.cos s * Real.cos th - b * Real.sin s * Real.sin th - x) * Real.cos th + (y + a * Real.cos s * Real.sin th + b * Real.sin s * Real.cos th - y) * Real.sin th = a * Real.cos s := by
      linear_combination a * Real.cos s * e
    have k2 : -(x + a * Real.cos s * Real.cos th - b * Real.sin s * Real.sin th - x) * Real.sin th + (y + a * Real.cos s * Real.sin th + b * Real.sin s * Real.cos th - y) * Real.cos th = b * Real.sin s := by
      linear_combination b * Real.sin s * e
    rw [k1, k2]
    field_simp
    linarith

end H2d.EllLen
