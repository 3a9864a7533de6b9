import Verif.Model.FloatInverse
import Verif.Spec.FloatInverse
import Verif.Lemmas.FloatErr
import Verif.Lemmas.FloatExact
import Verif.Lemmas.FloatLine
import Mathlib.LinearAlgebra.Matrix.Determinant.Basic
import Mathlib.LinearAlgebra.Matrix.Adjugate
import Mathlib.LinearAlgebra.Matrix.NonsingularInverse

/-! # Inverse of a matrix with rounded operations: bounds -/

namespace H2d.Fl

open H2d.Spec

variable {F : Arith} {u v : ℝ}

theorem det2_bound {m : Mat ℝ} {M : ℝ} (hM : UpTo M m) (a b c d e f g h : Fin 3) : |m.det2 a b c d e f g h| ≤ 2 * M ^ 2 := by
  have h0 : 0 ≤ M := le_trans (abs_nonneg _) (hM 0 0)
  have k : ∀ i j i' j', |m i j * m i' j'| ≤ M ^ 2 := by
    intro i j i' j'
    rw [abs_mul, pow_two]
    exact mul_le_mul (hM i j) (hM i' j') (abs_nonneg _) h0
  have := abs_sub (m a b * m g h) (m c d * m e f)
  unfold Mat.det2
  linarith [k a b g h, k c d e f]

theorem det2_err (hF : FlOk F u v) {m : Mat ℝ} {M : ℝ} (hM : UpTo M m) (a b c d e f g h : Fin 3) :
    |det2 F m a b c d e f g h - m.det2 a b c d e f g h| ≤ 5 * u * M ^ 2 := by
  have h0 : 0 ≤ M := le_trans (abs_nonneg _) (hM 0 0)
  have hu := hF.u_nonneg
  have hu1 := hF.u_small
  have k : ∀ i j i' j', |m i j * m i' j'| ≤ M ^ 2 := by
    intro i j i' j'
    rw [abs_mul, pow_two]
    exact mul_le_mul (hM i j) (hM i' j') (abs_nonneg _) h0
  have k1 := k a b g h
  have k2 := k c d e f
  unfold det2 Mat.det2
  generalize m a b * m g h = x at *
  generalize m c d * m e f = y at *
  have M2 : 0 ≤ M ^ 2 := sq_nonneg M
  have e1 := hF.err x
  have e2 := hF.err y
  have e3 := hF.err (F.rnd x - F.rnd y)
  have f1 : |F.rnd x - x| ≤ u * M ^ 2 := le_trans e1 (mul_le_mul_of_nonneg_left k1 hu)
  have f2 : |F.rnd y - y| ≤ u * M ^ 2 := le_trans e2 (mul_le_mul_of_nonneg_left k2 hu)
  rw [abs_le] at f1 f2 k1 k2
  have f3 : |F.rnd x - F.rnd y| ≤ 2 * M ^ 2 + 2 * (u * M ^ 2) := by rw [abs_le]; constructor <;> linarith
  have f4 := le_trans e3 (mul_le_mul_of_nonneg_left f3 hu)
  have f5 : u * (u * M ^ 2) ≤ 1 / 64 * (u * M ^ 2) := mul_le_mul_of_nonneg_right hu1 (mul_nonneg hu M2)
  have f6 := mul_nonneg hu M2
  rw [abs_le] at f4 ⊢
  constructor <;> nlinarith

/-- One of the three products of the determinant. -/
theorem det_term_err (hF : FlOk F u v) {x d d' M : ℝ} (hx : |x| ≤ M) (hd : |d| ≤ 2 * M ^ 2) (he : |d' - d| ≤ 5 * u * M ^ 2) :
    |x * d| ≤ 2 * M ^ 3 ∧ |F.rnd (x * d') - x * d| ≤ 15 / 2 * (u * M ^ 3) := by
  have h0 : 0 ≤ M := le_trans (abs_nonneg _) hx
  have hu := hF.u_nonneg
  have hu1 := hF.u_small
  have M3 : 0 ≤ M ^ 3 := pow_nonneg h0 3
  have a1 : |x * d| ≤ 2 * M ^ 3 := by
    rw [abs_mul]
    calc |x| * |d| ≤ M * (2 * M ^ 2) := mul_le_mul hx hd (abs_nonneg _) h0
      _ = 2 * M ^ 3 := by ring
  have a2 : |x * d' - x * d| ≤ 5 * (u * M ^ 3) := by
    rw [← mul_sub, abs_mul]
    calc |x| * |d' - d| ≤ M * (5 * u * M ^ 2) := mul_le_mul hx he (abs_nonneg _) h0
      _ = 5 * (u * M ^ 3) := by ring
  refine ⟨a1, ?_⟩
  have e := hF.err (x * d')
  have uM := mul_nonneg hu M3
  have b : |x * d'| ≤ 2 * M ^ 3 + 5 * (u * M ^ 3) := by
    rw [abs_le] at a1 a2 ⊢; constructor <;> linarith
  have f := le_trans e (mul_le_mul_of_nonneg_left b hu)
  have g : u * (u * M ^ 3) ≤ 1 / 64 * (u * M ^ 3) := mul_le_mul_of_nonneg_right hu1 uM
  rw [abs_le] at f a2 ⊢
  constructor <;> nlinarith

theorem determ_bound {m : Mat ℝ} {M : ℝ} (hM : UpTo M m) : |m.determ| ≤ 6 * M ^ 3 := by
  have h0 : 0 ≤ M := le_trans (abs_nonneg _) (hM 0 0)
  have k : ∀ i j a b c d e f g h, |m i j * m.det2 a b c d e f g h| ≤ 2 * M ^ 3 := by
    intro i j a b c d e f g h
    rw [abs_mul]
    calc |m i j| * |m.det2 a b c d e f g h| ≤ M * (2 * M ^ 2) := mul_le_mul (hM i j) (det2_bound hM ..) (abs_nonneg _) h0
      _ = 2 * M ^ 3 := by ring
  have k1 := k 0 0 1 1 1 2 2 1 2 2
  have k2 := k 0 1 1 0 1 2 2 0 2 2
  have k3 := k 0 2 1 0 1 1 2 0 2 1
  unfold Mat.determ
  rw [abs_le] at *
  constructor <;> linarith

theorem determ_err (hF : FlOk F u v) {m : Mat ℝ} {M : ℝ} (hM : UpTo M m) : |determ F m - m.determ| ≤ 34 * (u * M ^ 3) := by
  have h0 : 0 ≤ M := le_trans (abs_nonneg _) (hM 0 0)
  have hu := hF.u_nonneg
  have hu1 := hF.u_small
  have uM : 0 ≤ u * M ^ 3 := mul_nonneg hu (pow_nonneg h0 3)
  have g : u * (u * M ^ 3) ≤ 1 / 64 * (u * M ^ 3) := mul_le_mul_of_nonneg_right hu1 uM
  obtain ⟨a1, a2⟩ := det_term_err hF (hM 0 0) (det2_bound hM 1 1 1 2 2 1 2 2) (det2_err hF hM 1 1 1 2 2 1 2 2)
  obtain ⟨b1, b2⟩ := det_term_err hF (hM 0 1) (det2_bound hM 1 0 1 2 2 0 2 2) (det2_err hF hM 1 0 1 2 2 0 2 2)
  obtain ⟨c1, c2⟩ := det_term_err hF (hM 0 2) (det2_bound hM 1 0 1 1 2 0 2 1) (det2_err hF hM 1 0 1 1 2 0 2 1)
  simp only [determ, Mat.determ]
  generalize F.rnd (m 0 0 * det2 F m 1 1 1 2 2 1 2 2) = x' at *
  generalize F.rnd (m 0 1 * det2 F m 1 0 1 2 2 0 2 2) = y' at *
  generalize F.rnd (m 0 2 * det2 F m 1 0 1 1 2 0 2 1) = z' at *
  generalize m 0 0 * m.det2 1 1 1 2 2 1 2 2 = x at *
  generalize m 0 1 * m.det2 1 0 1 2 2 0 2 2 = y at *
  generalize m 0 2 * m.det2 1 0 1 1 2 0 2 1 = z at *
  rw [abs_le] at a1 a2 b1 b2 c1 c2
  have e1 := hF.err (x' - y')
  have f1 : |x' - y'| ≤ 4 * M ^ 3 + 15 * (u * M ^ 3) := by rw [abs_le]; constructor <;> linarith
  have g1 := le_trans e1 (mul_le_mul_of_nonneg_left f1 hu)
  rw [abs_le] at g1
  have g1a : |F.rnd (x' - y') - (x - y)| ≤ 20 * (u * M ^ 3) := by rw [abs_le]; constructor <;> nlinarith
  rw [abs_le] at g1a
  have e2 := hF.err (F.rnd (x' - y') + z')
  have f2 : |F.rnd (x' - y') + z'| ≤ 6 * M ^ 3 + 28 * (u * M ^ 3) := by rw [abs_le]; constructor <;> linarith
  have g2 := le_trans e2 (mul_le_mul_of_nonneg_left f2 hu)
  rw [abs_le] at g2 ⊢
  constructor <;> nlinarith

theorem adj_err (hF : FlOk F u v) {m : Mat ℝ} {M : ℝ} (hM : UpTo M m) (i j : Fin 3) :
    |adjugate F m i j - m.adjugate i j| ≤ 5 * u * M ^ 2 ∧ |m.adjugate i j| ≤ 2 * M ^ 2 := by
  have n : ∀ a b : ℝ, |-a + b| = |a - b| := fun a b => by rw [show -a + b = -(a - b) by ring, abs_neg]
  fin_cases i <;> fin_cases j <;>
    simp [adjugate, Mat.adjugate, n] <;>
    exact ⟨det2_err hF hM .., det2_bound hM ..⟩

/-- Quotient of two values known with an error. -/
theorem inv_entry_err (hF : FlOk F u v) {a a' d d' M : ℝ} (hM : 0 ≤ M) (ha : |a| ≤ 2 * M ^ 2) (ha' : |a' - a| ≤ 5 * u * M ^ 2) (hd : |d| ≤ 6 * M ^ 3)
    (hd' : |d' - d| ≤ 34 * (u * M ^ 3)) (hd0 : d ≠ 0) (hbig : 68 * (u * M ^ 3) ≤ |d|) :
    d' ≠ 0 ∧ |F.rnd (a' / d') - a / d| ≤ 224 * u * (M ^ 3 / |d|) * (M ^ 2 / |d|) := by
  have hu := hF.u_nonneg
  have hu1 := hF.u_small
  have dp : 0 < |d| := abs_pos.2 hd0
  have d1 : |d| / 2 ≤ |d'| := by
    have := abs_sub_abs_le_abs_sub d d'
    rw [abs_sub_comm] at this
    linarith
  have dp' : 0 < |d'| := by linarith
  have d0' : d' ≠ 0 := abs_pos.1 dp'
  refine ⟨d0', ?_⟩
  have M2 : 0 ≤ M ^ 2 := sq_nonneg M
  have M3 : 0 ≤ M ^ 3 := pow_nonneg hM 3
  set k := M ^ 3 / |d| with hk
  set n := M ^ 2 / |d| with hn
  have k6 : 1 / 6 ≤ k := by rw [hk, div_le_div_iff₀ (by norm_num) dp]; linarith
  have n0 : 0 ≤ n := div_nonneg M2 dp.le
  -- error of the quotient before rounding
  have q1 : |a' / d' - a / d| ≤ 10 * u * n + 136 * u * k * n := by
    have : a' / d' - a / d = (a' - a) / d' - a / d * ((d' - d) / d') := by field_simp; ring
    rw [this]
    have i1 : |(a' - a) / d'| ≤ 10 * u * n := by
      rw [abs_div, div_le_iff₀ dp']
      calc |a' - a| ≤ 5 * u * M ^ 2 := ha'
        _ = 10 * u * n * (|d| / 2) := by rw [hn]; field_simp; ring
        _ ≤ 10 * u * n * |d'| := mul_le_mul_of_nonneg_left d1 (by positivity)
    have i2 : |a / d| ≤ 2 * n := by
      rw [abs_div, div_le_iff₀ dp, hn]
      have : 2 * (M ^ 2 / |d|) * |d| = 2 * M ^ 2 := by field_simp
      linarith
    have i3 : |(d' - d) / d'| ≤ 68 * u * k := by
      rw [abs_div, div_le_iff₀ dp']
      calc |d' - d| ≤ 34 * (u * M ^ 3) := hd'
        _ = 68 * u * k * (|d| / 2) := by rw [hk]; field_simp; ring
        _ ≤ 68 * u * k * |d'| := mul_le_mul_of_nonneg_left d1 (by positivity)
    have i4 : |a / d * ((d' - d) / d')| ≤ 2 * n * (68 * u * k) := by
      rw [abs_mul]; exact mul_le_mul i2 i3 (abs_nonneg _) (by positivity)
    have := abs_sub ((a' - a) / d') (a / d * ((d' - d) / d'))
    nlinarith
  have q2 : |a' / d'| ≤ 2 * (2 + 5 * u) * n := by
    rw [abs_div, div_le_iff₀ dp']
    have h1 : |a'| ≤ (2 + 5 * u) * M ^ 2 := by
      rw [abs_le] at ha ha' ⊢; constructor <;> nlinarith
    calc |a'| ≤ (2 + 5 * u) * M ^ 2 := h1
        _ = 2 * (2 + 5 * u) * n * (|d| / 2) := by rw [hn]; field_simp
        _ ≤ 2 * (2 + 5 * u) * n * |d'| := mul_le_mul_of_nonneg_left d1 (by positivity)
  have e := le_trans (hF.err (a' / d')) (mul_le_mul_of_nonneg_left q2 hu)
  have un : 0 ≤ u * n := mul_nonneg hu n0
  have uun : u * (u * n) ≤ 1 / 64 * (u * n) := mul_le_mul_of_nonneg_right hu1 un
  have ukn : u * n ≤ 6 * (u * k * n) := by
    have := mul_le_mul_of_nonneg_right k6 un
    nlinarith
  have t := abs_sub_le (F.rnd (a' / d')) (a' / d') (a / d)
  calc _ ≤ u * (2 * (2 + 5 * u) * n) + (10 * u * n + 136 * u * k * n) := le_trans t (add_le_add e q1)
    _ = 4 * (u * n) + 10 * (u * (u * n)) + 10 * (u * n) + 136 * (u * k * n) := by ring
    _ ≤ 224 * (u * k * n) := by linarith
    _ = _ := by ring

theorem matrix_adj (m : Mat ℝ) : (Matrix.of m).adjugate = Matrix.of m.adjugate ∧ (Matrix.of m).det = m.determ := by
  constructor
  · rw [Matrix.adjugate_fin_three]
    ext i j
    fin_cases i <;> fin_cases j <;> simp [Mat.adjugate, Mat.det2] <;> ring
  · rw [Matrix.det_fin_three]
    simp [Mat.determ, Mat.det2]; ring

/-- The inverse is unique. -/
theorem isInv_iff (b m : Mat ℝ) : IsInv b m ↔ m.determ ≠ 0 ∧ ∀ i j, b i j = m.adjugate i j / m.determ := by
  obtain ⟨h1, h2⟩ := matrix_adj m
  unfold IsInv
  constructor
  · intro h
    have hd : m.determ ≠ 0 := by
      intro h0
      have := congrArg Matrix.det h
      rw [Matrix.det_mul, h2, h0, mul_zero, Matrix.det_one] at this
      exact zero_ne_one this
    refine ⟨hd, fun i j => ?_⟩
    have : Matrix.of b = (Matrix.of m)⁻¹ := (Matrix.inv_eq_left_inv h).symm
    rw [Matrix.inv_def, h1, h2, Ring.inverse_eq_inv'] at this
    have := congrFun (congrFun this i) j
    simp at this
    rw [this]; field_simp
  · rintro ⟨hd, h⟩
    have : Matrix.of b = (Matrix.of m)⁻¹ := by
      rw [Matrix.inv_def, h1, h2, Ring.inverse_eq_inv']
      ext i j
      simp [h i j]; field_simp
    rw [this]
    exact Matrix.nonsing_inv_mul _ (by rw [h2]; exact isUnit_iff_ne_zero.2 hd)

/-- A row of the inverse applied to the transformed point. -/
theorem back_row_err (hF : FlOk F u v) {b b' q q' : V3 ℝ} {n k M P w : ℝ} (hn : 0 ≤ n) (hM : 0 ≤ M) (hP : 0 ≤ P) (hk : n * M = k) (hk6 : 1 / 6 ≤ k) (huk : 1000 * u * k ≤ 1)
    (hb : ∀ j, |b j| ≤ 2 * n) (hb' : ∀ j, |b' j - b j| ≤ 224 * u * k * n) (hq : ∀ j, |q j| ≤ 3 * (M * P)) (hq' : ∀ j, |q' j - q j| ≤ 10 * u * (M * P))
    (hw : b 0 * q 0 + b 1 * q 1 + b 2 * q 2 = w) :
    |F.rnd (F.rnd (F.rnd (b' 0 * q' 0) + F.rnd (b' 1 * q' 1)) + F.rnd (b' 2 * q' 2)) - w| ≤ 3000 * u * k ^ 2 * P := by
  have hu := hF.u_nonneg
  have hu1 := hF.u_small
  have k0 : 0 ≤ k := by linarith
  have MP : 0 ≤ M * P := mul_nonneg hM hP
  have kP : 0 ≤ u * k * P := by positivity
  have kkP : u * k * P ≤ 6 * (u * k ^ 2 * P) := by
    have := mul_le_mul_of_nonneg_left hk6 kP
    nlinarith
  have ukkP : 0 ≤ u * k ^ 2 * P := by positivity
  -- sizes
  have q1 : ∀ j, |q' j| ≤ 16 / 5 * (M * P) := by
    intro j
    have h1 := hq j
    have h2 := hq' j
    have h3 : u * (M * P) ≤ 1 / 64 * (M * P) := mul_le_mul_of_nonneg_right hu1 MP
    rw [abs_le] at h1 h2 ⊢
    constructor <;> linarith
  have b1 : ∀ j, |b' j| ≤ 9 / 4 * n := by
    intro j
    have h1 := hb j
    have h2 := hb' j
    have h3 : 1000 * u * k * n ≤ n := by have := mul_le_mul_of_nonneg_right huk hn; linarith
    have h4 : 224 * u * k * n ≤ 1 / 4 * n := by linarith
    rw [abs_le] at h1 h2 ⊢
    constructor <;> linarith
  have t1 : ∀ j, |b' j * q' j| ≤ 36 / 5 * (k * P) := by
    intro j
    rw [abs_mul, ← hk]
    calc |b' j| * |q' j| ≤ 9 / 4 * n * (16 / 5 * (M * P)) := mul_le_mul (b1 j) (q1 j) (abs_nonneg _) (by positivity)
      _ = _ := by ring
  have t2 : ∀ j, |b' j * q' j - b j * q j| ≤ 840 * (u * k ^ 2 * P) := by
    intro j
    have e : b' j * q' j - b j * q j = (b' j - b j) * q' j + b j * (q' j - q j) := by ring
    have i1 : |(b' j - b j) * q' j| ≤ 3584 / 5 * (u * k ^ 2 * P) := by
      rw [abs_mul]
      calc _ ≤ 224 * u * k * n * (16 / 5 * (M * P)) := mul_le_mul (hb' j) (q1 j) (abs_nonneg _) (by positivity)
        _ = 3584 / 5 * (u * k * (n * M) * P) := by ring
        _ = _ := by rw [hk]; ring
    have i2 : |b j * (q' j - q j)| ≤ 20 * (u * k * P) := by
      rw [abs_mul]
      calc _ ≤ 2 * n * (10 * u * (M * P)) := mul_le_mul (hb j) (hq' j) (abs_nonneg _) (by positivity)
        _ = 20 * (u * (n * M) * P) := by ring
        _ = _ := by rw [hk]
    rw [e]
    have := abs_add_le ((b' j - b j) * q' j) (b j * (q' j - q j))
    linarith
  have d := dot_err hF b' q'
  have a0 := t1 0
  have a1 := t1 1
  have a2 := t1 2
  have c0 := t2 0
  have c1 := t2 1
  have c2 := t2 2
  have g : (1 + u) ^ 3 - 1 ≤ 16 / 5 * u := by nlinarith [mul_nonneg hu hu]
  have g0 : 0 ≤ (1 + u) ^ 3 - 1 := by nlinarith [mul_nonneg hu hu, pow_nonneg hu 3]
  have d' := le_trans d (mul_le_mul g (add_le_add (add_le_add a0 a1) a2) (by positivity) (by positivity))
  have d'' : 16 / 5 * u * (36 / 5 * (k * P) + 36 / 5 * (k * P) + 36 / 5 * (k * P)) = 1728 / 25 * (u * k * P) := by ring
  rw [d''] at d'
  rw [← hw]
  rw [abs_le] at d' c0 c1 c2 ⊢
  constructor <;> nlinarith

/-- Coordinates of a point from three values with errors. -/
theorem back_coord_err (hF : FlOk F u v) {x r s E P : ℝ} (hP : 1 ≤ P) (hx : |x| ≤ P) (hr : |r - x| ≤ E) (hs : |s - 1| ≤ E) (hE : E ≤ 1 / 2) (hE0 : u * P ≤ E) :
    |F.rnd (r / s) - x| ≤ 7 * (P * E) := by
  have hu := hF.u_nonneg
  have hu1 := hF.u_small
  have e0 : 0 ≤ E := le_trans (abs_nonneg _) hr
  have s2 : 1 / 2 ≤ s := by rw [abs_le] at hs; linarith
  have e : r / s - x = ((r - x) - x * (s - 1)) / s := by field_simp; ring
  have i1 : |x * (s - 1)| ≤ P * E := by rw [abs_mul]; exact mul_le_mul hx hs (abs_nonneg _) (by linarith)
  have PE : E ≤ P * E := by nlinarith
  have i2 : |r / s - x| ≤ 4 * (P * E) := by
    rw [e, abs_div, abs_of_pos (by linarith : 0 < s), div_le_iff₀ (by linarith)]
    have := abs_sub (r - x) (x * (s - 1))
    nlinarith
  have i3 : |r / s| ≤ 3 * P := by
    rw [abs_le] at hx i2 ⊢
    constructor <;> nlinarith
  have j := le_trans (hF.err (r / s)) (mul_le_mul_of_nonneg_left i3 hu)
  have := abs_sub_le (F.rnd (r / s)) (r / s) x
  nlinarith

/-- Two products that are not numbers with `p` bits, rounded in opposite directions. -/
theorem singular_rounding {p : ℕ} (hp : 4 ≤ p) {L : ℤ} (hL : (2 : ℤ) ^ (p - 3) = L) :
    (binary p).rnd (5 * (4 * L + 1)) = 20 * L + 4 ∧ (binary p).rnd (5 * (4 * L + 3)) = 20 * L + 16 ∧ (2 : ℤ) ^ p = 8 * L := by
  have e : (2 : ℤ) ^ p = 8 * L := by
    rw [← hL, show p = p - 3 + 3 by omega, pow_add]; simp; ring
  have L2 : (2 : ℤ) ≤ L := by
    rw [← hL]; calc (2 : ℤ) = 2 ^ 1 := by norm_num
      _ ≤ _ := pow_le_pow_right₀ (by norm_num) (by omega)
  have LR : (2 : ℝ) ≤ L := by exact_mod_cast L2
  have eR : (2 : ℝ) ^ (p : ℤ) = 8 * L := by rw [zpow_natCast]; exact_mod_cast e
  have a1 : (2 : ℝ) ^ ((p : ℤ) - 1 + 2) = 16 * L := by
    rw [show (p : ℤ) - 1 + 2 = p + 1 by ring, zpow_add₀ (by norm_num), eR]; norm_num; ring
  have a2 : (2 : ℝ) ^ ((p : ℤ) + 2) = 32 * L := by
    rw [zpow_add₀ (by norm_num), eR]; norm_num; ring
  have a3 : (2 : ℝ) ^ (-(2 : ℤ)) = 1 / 4 := by norm_num
  refine ⟨?_, ?_, e⟩
  · rw [binary_rnd, roundTo_of (by omega) (m := 5 * L + 1) (k := 2) (by rw [a1]; linarith) (by rw [a2]; linarith) (by
      rw [a3]; push_cast; rw [abs_lt]; constructor <;> linarith)]
    push_cast; norm_num; ring
  · rw [binary_rnd, roundTo_of (by omega) (m := 5 * L + 4) (k := 2) (by rw [a1]; linarith) (by rw [a2]; linarith) (by
      rw [a3]; push_cast; rw [abs_lt]; constructor <;> linarith)]
    push_cast; norm_num; ring

end H2d.Fl
