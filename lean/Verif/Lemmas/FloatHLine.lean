import Verif.Model.FloatHLine
import Verif.Lemmas.FloatInverse

/-! # Product of a homography and a line with rounded operations: bounds -/

namespace H2d.Fl

open H2d.Spec

variable {F : Arith} {u v : ℝ}

theorem rnd_rel (h : FlOk F u v) (x : ℝ) : ∃ e, |e| ≤ u ∧ F.rnd x = x * (1 + e) := by
  by_cases hx : x = 0
  · exact ⟨0, by simpa using h.u_nonneg, by rw [hx, rnd_zero h]; ring⟩
  · refine ⟨(F.rnd x - x) / x, ?_, by field_simp; ring⟩
    rw [abs_div, div_le_iff₀ (abs_pos.2 hx)]; exact h.err x

/-- A value of the inverse after normalisation, times the divisor of the normalisation. -/
theorem normEntry_err (h : FlOk F u v) {a g D : ℝ} (hg : g ≠ 0) (hD : D ≠ 0) : |g * F.rnd (F.rnd (a / D) / F.rnd (g / D)) - a| ≤ 31 / 10 * u * |a| := by
  have hu := h.u_nonneg
  have hu1 := h.u_small
  obtain ⟨e1, b1, h1⟩ := rnd_rel h (a / D)
  obtain ⟨e2, b2, h2⟩ := rnd_rel h (g / D)
  obtain ⟨e3, b3, h3⟩ := rnd_rel h (F.rnd (a / D) / F.rnd (g / D))
  rw [h3, h1, h2]
  rw [abs_le] at b1 b2 b3
  have p2 : 0 < 1 + e2 := by linarith
  have e : g * (a / D * (1 + e1) / (g / D * (1 + e2)) * (1 + e3)) - a = a * (((1 + e1) * (1 + e3) - (1 + e2)) / (1 + e2)) := by
    field_simp
  rw [e, abs_mul, mul_comm]
  refine mul_le_mul_of_nonneg_right ?_ (abs_nonneg _)
  rw [abs_div, abs_of_pos p2, div_le_iff₀ p2, abs_le]
  have p : |e1 * e3| ≤ u * u := by rw [abs_mul]; exact mul_le_mul (abs_le.2 b1) (abs_le.2 b3) (abs_nonneg _) hu
  rw [abs_le] at p
  have q : u * u ≤ 1 / 64 * u := mul_le_mul_of_nonneg_right hu1 hu
  have q2 : 31 / 10 * u * (1 - u) ≤ 31 / 10 * u * (1 + e2) := mul_le_mul_of_nonneg_left (by linarith) (by linarith)
  constructor <;> nlinarith

theorem norm_shift (x y e f : ℝ) : Real.sqrt ((x + e) ^ 2 + (y + f) ^ 2) ≤ Real.sqrt (x ^ 2 + y ^ 2) + |e| + |f| := by
  have S0 := Real.sqrt_nonneg (x ^ 2 + y ^ 2)
  have S2 := Real.sq_sqrt (add_nonneg (sq_nonneg x) (sq_nonneg y))
  have hx : |x| ≤ Real.sqrt (x ^ 2 + y ^ 2) := Real.abs_le_sqrt (by nlinarith [sq_nonneg y])
  have hy : |y| ≤ Real.sqrt (x ^ 2 + y ^ 2) := Real.abs_le_sqrt (by nlinarith [sq_nonneg x])
  generalize Real.sqrt (x ^ 2 + y ^ 2) = S at *
  have e0 := abs_nonneg e
  have f0 := abs_nonneg f
  rw [Real.sqrt_le_left (by positivity)]
  have a1 : x * e ≤ S * |e| := by
    calc x * e ≤ |x * e| := le_abs_self _
      _ = |x| * |e| := abs_mul _ _
      _ ≤ _ := mul_le_mul_of_nonneg_right hx e0
  have a2 : y * f ≤ S * |f| := by
    calc y * f ≤ |y * f| := le_abs_self _
      _ = |y| * |f| := abs_mul _ _
      _ ≤ _ := mul_le_mul_of_nonneg_right hy f0
  have a3 := sq_abs e
  have a4 := sq_abs f
  nlinarith [mul_nonneg e0 f0]

/-- What is known of a normalised inverse. -/
theorem homInverse_ok (h : FlOk F u v) {t : Thr ℝ} (ht : 0 < t.nullDenom) (ht' : 0 < t.nullDeter) {m b : Mat ℝ} (hb : homInverse F t m = .ok b) :
    determ F m ≠ 0 ∧ adjugate F m 2 2 ≠ 0 ∧ ∀ i j, b i j = F.rnd (F.rnd (adjugate F m i j / determ F m) / F.rnd (adjugate F m 2 2 / determ F m)) := by
  unfold homInverse inverse at hb
  split at hb
  · exact absurd hb (by simp [Res.bind])
  · rename_i hd
    have d0 : determ F m ≠ 0 := by intro h0; rw [h0, abs_zero] at hd; exact hd ht'
    simp only [Res.bind, normalizeMat] at hb
    split at hb
    · exact absurd hb (by simp)
    · rename_i hg
      have g0 : F.rnd (adjugate F m 2 2 / determ F m) ≠ 0 := by intro h0; rw [h0, abs_zero] at hg; exact hg ht
      have g1 : adjugate F m 2 2 ≠ 0 := by intro h0; rw [h0, zero_div, rnd_zero h] at g0; exact g0 rfl
      refine ⟨d0, g1, fun i j => ?_⟩
      rw [div_self g0, if_neg] at hb
      · rw [← Res.ok.inj hb]
      · have := (abs_le.1 (h.err 1)).1
        rw [abs_one] at this
        have := h.u_small
        linarith

/-- The coefficients of the line before its normalisation, times a common factor. -/
theorem imageCoef_err (h : FlOk F u v) {t : Thr ℝ} (ht : 0 < t.nullDenom) (ht' : 0 < t.nullDeter) {m b : Mat ℝ} {M : ℝ} (hM : UpTo M m) (hb : homInverse F t m = .ok b)
    {l : V3 ℝ} {Λ : ℝ} (hl : |l 0| + |l 1| + |l 2| ≤ Λ) (i : Fin 3) :
    |adjugate F m 2 2 * app F b.transpose l i - (m.adjugate 0 i * l 0 + m.adjugate 1 i * l 1 + m.adjugate 2 i * l 2)| ≤ 20 * (u * (M ^ 2 * Λ)) ∧
    |m.adjugate 0 i * l 0 + m.adjugate 1 i * l 1 + m.adjugate 2 i * l 2| ≤ 2 * (M ^ 2 * Λ) := by
  obtain ⟨d0, g0, hbe⟩ := homInverse_ok h ht ht' hb
  have hu := h.u_nonneg
  have hu1 := h.u_small
  have M2 : 0 ≤ M ^ 2 := sq_nonneg M
  have uM := mul_nonneg hu M2
  have uuM : u * (u * M ^ 2) ≤ 1 / 64 * (u * M ^ 2) := mul_le_mul_of_nonneg_right hu1 uM
  have Λ0 : 0 ≤ Λ := le_trans (by positivity) hl
  generalize hg : adjugate F m 2 2 = g at *
  have k : ∀ j, |g * b j i - m.adjugate j i| ≤ 12 * (u * M ^ 2) ∧ |m.adjugate j i| ≤ 2 * M ^ 2 ∧ |g * b j i| ≤ 11 / 5 * M ^ 2 := by
    intro j
    obtain ⟨a1, a2⟩ := adj_err h hM j i
    have c := normEntry_err h (a := adjugate F m j i) g0 d0
    rw [← hbe j i] at c
    have a3 : |adjugate F m j i| ≤ 2 * M ^ 2 + 5 * (u * M ^ 2) := by
      rw [abs_le] at a1 a2 ⊢; constructor <;> linarith
    have c' := le_trans c (mul_le_mul_of_nonneg_left a3 (by positivity))
    have c1 : |g * b j i - m.adjugate j i| ≤ 12 * (u * M ^ 2) := by
      have := abs_sub_le (g * b j i) (adjugate F m j i) (m.adjugate j i)
      nlinarith
    have uM' : u * M ^ 2 ≤ 1 / 64 * M ^ 2 := mul_le_mul_of_nonneg_right hu1 M2
    refine ⟨c1, a2, ?_⟩
    rw [abs_le] at c1 a2 ⊢; constructor <;> linarith
  have w : ∀ {c K : ℝ} (j : Fin 3), |c| ≤ K → |c * l j| ≤ K * |l j| := fun j hc => by rw [abs_mul]; exact mul_le_mul_of_nonneg_right hc (abs_nonneg _)
  have sumΛ : ∀ {K : ℝ}, 0 ≤ K → K * |l 0| + K * |l 1| + K * |l 2| ≤ K * Λ := fun hK => by
    have := mul_le_mul_of_nonneg_left hl hK; linarith
  have dt := dot_err h (b.transpose i) l
  have app_eq : app F b.transpose l i = F.rnd (F.rnd (F.rnd (b.transpose i 0 * l 0) + F.rnd (b.transpose i 1 * l 1)) + F.rnd (b.transpose i 2 * l 2)) := rfl
  rw [← app_eq] at dt
  simp only [Mat.transpose] at dt
  change |app F b.transpose l i - _| ≤ _ at dt
  generalize app F b.transpose l i = W at *
  have g3 : (1 + u) ^ 3 - 1 ≤ 16 / 5 * u := by nlinarith [mul_nonneg hu hu]
  have s1 : |g| * (|b 0 i * l 0| + |b 1 i * l 1| + |b 2 i * l 2|) ≤ 11 / 5 * M ^ 2 * Λ := by
    have e : |g| * (|b 0 i * l 0| + |b 1 i * l 1| + |b 2 i * l 2|) = |g * b 0 i * l 0| + |g * b 1 i * l 1| + |g * b 2 i * l 2| := by
      simp only [abs_mul]; ring
    rw [e]
    refine le_trans (add_le_add (add_le_add (w 0 (k 0).2.2) (w 1 (k 1).2.2)) (w 2 (k 2).2.2)) (sumΛ (by positivity))
  have d1 : |g * W - g * (b 0 i * l 0 + b 1 i * l 1 + b 2 i * l 2)| ≤ 16 / 5 * u * (11 / 5 * M ^ 2 * Λ) := by
    rw [← mul_sub, abs_mul]
    calc |g| * _ ≤ |g| * (((1 + u) ^ 3 - 1) * (|b 0 i * l 0| + |b 1 i * l 1| + |b 2 i * l 2|)) := mul_le_mul_of_nonneg_left dt (abs_nonneg _)
      _ = ((1 + u) ^ 3 - 1) * (|g| * (|b 0 i * l 0| + |b 1 i * l 1| + |b 2 i * l 2|)) := by ring
      _ ≤ _ := mul_le_mul g3 s1 (by positivity) (by positivity)
  have d2 : |g * (b 0 i * l 0 + b 1 i * l 1 + b 2 i * l 2) - (m.adjugate 0 i * l 0 + m.adjugate 1 i * l 1 + m.adjugate 2 i * l 2)| ≤ 12 * (u * M ^ 2) * Λ := by
    have e : g * (b 0 i * l 0 + b 1 i * l 1 + b 2 i * l 2) - (m.adjugate 0 i * l 0 + m.adjugate 1 i * l 1 + m.adjugate 2 i * l 2)
      = (g * b 0 i - m.adjugate 0 i) * l 0 + (g * b 1 i - m.adjugate 1 i) * l 1 + (g * b 2 i - m.adjugate 2 i) * l 2 := by ring
    rw [e]
    refine le_trans (abs_add_three _ _ _) (le_trans (add_le_add (add_le_add (w 0 (k 0).1) (w 1 (k 1).1)) (w 2 (k 2).1)) (sumΛ (by positivity)))
  constructor
  · have := abs_sub_le (g * W) (g * (b 0 i * l 0 + b 1 i * l 1 + b 2 i * l 2)) (m.adjugate 0 i * l 0 + m.adjugate 1 i * l 1 + m.adjugate 2 i * l 2)
    have p : 0 ≤ u * (M ^ 2 * Λ) := by positivity
    nlinarith
  · refine le_trans (abs_add_three _ _ _) (le_trans (add_le_add (add_le_add (w 0 (k 0).2.1) (w 1 (k 1).2.1)) (w 2 (k 2).2.1)) ?_)
    have := sumΛ (K := 2 * M ^ 2) (by positivity)
    linarith

/-- Point on a line, both given by three values, after the divisions that normalise them. -/
theorem incidence_div (h : FlOk F u v) {w q : V3 ℝ} {G g A B E : ℝ} (hG : 0 < G) (hg : g ≠ 0) (hq : q 2 ≠ 0) (hA : ∀ i, |g * w i| ≤ A) (hB : ∀ i, |q i| ≤ B)
    (hE : |g * (w 0 * q 0 + w 1 * q 1 + w 2 * q 2)| ≤ E) :
    |F.rnd (w 0 / G) * F.rnd (q 0 / q 2) + F.rnd (w 1 / G) * F.rnd (q 1 / q 2) + F.rnd (w 2 / G)| ≤ (E + 7 * u * (A * B)) / (|g| * G * |q 2|) := by
  have hu := h.u_nonneg
  have hu1 := h.u_small
  obtain ⟨e0, b0, h0⟩ := rnd_rel h (w 0 / G)
  obtain ⟨e1, b1, h1⟩ := rnd_rel h (w 1 / G)
  obtain ⟨e2, b2, h2⟩ := rnd_rel h (w 2 / G)
  obtain ⟨f0, c0, k0⟩ := rnd_rel h (q 0 / q 2)
  obtain ⟨f1, c1, k1⟩ := rnd_rel h (q 1 / q 2)
  rw [h0, h1, h2, k0, k1]
  have gp := abs_pos.2 hg
  have qp := abs_pos.2 hq
  rw [le_div_iff₀ (by positivity)]
  have A0 : 0 ≤ A := le_trans (abs_nonneg _) (hA 0)
  have e : |w 0 / G * (1 + e0) * (q 0 / q 2 * (1 + f0)) + w 1 / G * (1 + e1) * (q 1 / q 2 * (1 + f1)) + w 2 / G * (1 + e2)| * (|g| * G * |q 2|) =
      |g * (w 0 * q 0 + w 1 * q 1 + w 2 * q 2) + (g * w 0 * q 0 * (e0 + f0 + e0 * f0) + g * w 1 * q 1 * (e1 + f1 + e1 * f1) + g * w 2 * q 2 * e2)| := by
    rw [← abs_of_pos hG, ← abs_mul, ← abs_mul, ← abs_mul, abs_of_pos hG]
    congr 1
    field_simp; ring
  rw [e]
  refine le_trans (abs_add_le _ _) (add_le_add hE ?_)
  have z : ∀ {a b : ℝ}, |a| ≤ u → |b| ≤ u → |a + b + a * b| ≤ 9 / 4 * u := by
    intro a b ha hb
    have : |a * b| ≤ u * u := by rw [abs_mul]; exact mul_le_mul ha hb (abs_nonneg _) hu
    have uu : u * u ≤ 1 / 64 * u := mul_le_mul_of_nonneg_right hu1 hu
    rw [abs_le] at *
    constructor <;> linarith
  have y : ∀ {i : Fin 3} {c K : ℝ}, |c| ≤ K → |g * w i * q i * c| ≤ A * B * K := by
    intro i c K hc
    rw [abs_mul, abs_mul (g * w i)]
    exact mul_le_mul (mul_le_mul (hA i) (hB i) (abs_nonneg _) A0) hc (abs_nonneg _) (mul_nonneg A0 (le_trans (abs_nonneg _) (hB i)))
  have B0 : 0 ≤ B := le_trans (abs_nonneg _) (hB 0)
  have AB := mul_nonneg hu (mul_nonneg A0 B0)
  have := le_trans (abs_add_three _ _ _) (add_le_add (add_le_add (y (i := 0) (z b0 c0)) (y (i := 1) (z b1 c1))) (y (i := 2) b2))
  linarith

/-- The transformed point: three values. -/
theorem pointImage_err (h : FlOk F u v) {m : Mat ℝ} {M : ℝ} (hM : UpTo M m) {p : ℝ × ℝ} {P : ℝ} (hP : 1 ≤ P) (hp : |p.1| ≤ P ∧ |p.2| ≤ P) (i : Fin 3) :
    |app F m (mkPt p.1 p.2) i - (m i 0 * p.1 + m i 1 * p.2 + m i 2)| ≤ 10 * (u * (M * P)) ∧ |m i 0 * p.1 + m i 1 * p.2 + m i 2| ≤ 3 * (M * P) := by
  have hu := h.u_nonneg
  have hu1 := h.u_small
  have M0 : 0 ≤ M := le_trans (abs_nonneg _) (hM 0 0)
  have MP : 0 ≤ M * P := mul_nonneg M0 (by linarith)
  have w1 : ∀ j, |mkPt p.1 p.2 j| ≤ P := by intro j; fin_cases j <;> simp [mkPt, hp.1, hp.2, hP]
  have mw : ∀ j, |m i j * mkPt p.1 p.2 j| ≤ M * P := fun j => by rw [abs_mul]; exact mul_le_mul (hM i j) (w1 j) (abs_nonneg _) M0
  constructor
  · have g : (1 + u) ^ 3 - 1 ≤ 16 / 5 * u := by nlinarith [mul_nonneg hu hu]
    have k := le_trans (dot_err h (m i) (mkPt p.1 p.2)) (mul_le_mul g (add_le_add (add_le_add (mw 0) (mw 1)) (mw 2)) (by positivity) (by positivity))
    have e : m i 0 * p.1 + m i 1 * p.2 + m i 2 = m i 0 * mkPt p.1 p.2 0 + m i 1 * mkPt p.1 p.2 1 + m i 2 * mkPt p.1 p.2 2 := by simp [mkPt]
    rw [e]
    refine le_trans k ?_
    nlinarith [mul_nonneg hu MP]
  · have h0 := mw 0; have h1 := mw 1; have h2 := mw 2
    simp only [mkPt, Matrix.cons_val_zero, Matrix.cons_val_one, Matrix.cons_val, mul_one] at h0 h1 h2
    refine le_trans (abs_add_three _ _ _) ?_
    linarith

/-- The equation of the computed line at the computed point. -/
theorem residual_err {u : ℝ} (hu : 0 ≤ u) (hu1 : u ≤ 1 / 64) {S T D c g : ℝ} (S0 : 0 ≤ S) (T0 : 0 ≤ T) {w q a b : V3 ℝ} (hw : ∀ i, |g * w i - a i| ≤ 20 * (u * S) ∧ |a i| ≤ 2 * S)
    (hq : ∀ i, |q i - b i| ≤ 10 * (u * T) ∧ |b i| ≤ 3 * T) (hab : a 0 * b 0 + a 1 * b 1 + a 2 * b 2 = c) (hc : |c| ≤ D) :
    (∀ i, |g * w i| ≤ 5 / 2 * S) ∧ (∀ i, |q i| ≤ 16 / 5 * T) ∧ |g * (w 0 * q 0 + w 1 * q 1 + w 2 * q 2)| ≤ D + 252 * (u * (S * T)) := by
  have uS := mul_nonneg hu S0
  have S64 : u * S ≤ 1 / 64 * S := mul_le_mul_of_nonneg_right hu1 S0
  have T64 : u * T ≤ 1 / 64 * T := mul_le_mul_of_nonneg_right hu1 T0
  have A : ∀ i, |g * w i| ≤ 5 / 2 * S := by
    intro i
    obtain ⟨c1, c2⟩ := hw i
    rw [abs_le] at c1 c2 ⊢; constructor <;> linarith
  have B : ∀ i, |q i| ≤ 16 / 5 * T := by
    intro i
    obtain ⟨c1, c2⟩ := hq i
    rw [abs_le] at c1 c2 ⊢; constructor <;> linarith
  have big : ∀ i : Fin 3, |g * w i * q i - a i * b i| ≤ 84 * (u * (S * T)) := by
    intro i
    have e : g * w i * q i - a i * b i = (g * w i - a i) * q i + a i * (q i - b i) := by ring
    rw [e]
    have k1 : |(g * w i - a i) * q i| ≤ 20 * (u * S) * (16 / 5 * T) := by
      rw [abs_mul]; exact mul_le_mul (hw i).1 (B i) (abs_nonneg _) (by positivity)
    have k2 : |a i * (q i - b i)| ≤ 2 * S * (10 * (u * T)) := by
      rw [abs_mul]; exact mul_le_mul (hw i).2 (hq i).1 (abs_nonneg _) (by positivity)
    have := abs_add_le ((g * w i - a i) * q i) (a i * (q i - b i))
    nlinarith
  refine ⟨A, B, ?_⟩
  have c0 := big 0; have c1 := big 1; have c2 := big 2
  rw [← hab] at hc
  rw [abs_le] at c0 c1 c2 hc ⊢
  constructor <;> linarith

/-- The computed norm of the direction. -/
theorem imageNorm_ge (h : FlOk F u v) {g d N e : ℝ} {w n : V3 ℝ} (hN : N = Real.sqrt (n 0 ^ 2 + n 1 ^ 2)) (h0 : |g * w 0 - d * n 0| ≤ e) (h1 : |g * w 1 - d * n 1| ≤ e) (he : 4 * e ≤ |d| * N) :
    49 / 100 * (|d| * N) ≤ |g| * F.hyp (w 0) (w 1) := by
  have e1 : |d| * N = Real.sqrt ((d * n 0) ^ 2 + (d * n 1) ^ 2) := by
    rw [hN, ← Real.sqrt_sq_eq_abs, ← Real.sqrt_mul (sq_nonneg _)]; congr 1; ring
  have e2 : |g| * Real.sqrt (w 0 ^ 2 + w 1 ^ 2) = Real.sqrt ((g * w 0) ^ 2 + (g * w 1) ^ 2) := by
    rw [← Real.sqrt_sq_eq_abs, ← Real.sqrt_mul (sq_nonneg _)]; congr 1; ring
  have sh := norm_shift (g * w 0) (g * w 1) (d * n 0 - g * w 0) (d * n 1 - g * w 1)
  rw [add_sub_cancel, add_sub_cancel, ← e1, ← e2, abs_sub_comm, abs_sub_comm (d * n 1)] at sh
  have half : 1 / 2 * (|d| * N) ≤ |g| * Real.sqrt (w 0 ^ 2 + w 1 ^ 2) := by linarith
  have hy := (abs_le.1 (h.hypErr (w 0) (w 1))).1
  have hv := h.v_small
  have hv0 := h.v_nonneg
  have : 63 / 64 * Real.sqrt (w 0 ^ 2 + w 1 ^ 2) ≤ F.hyp (w 0) (w 1) := by nlinarith [Real.sqrt_nonneg (w 0 ^ 2 + w 1 ^ 2)]
  have := mul_le_mul_of_nonneg_left this (abs_nonneg g)
  have dN : 0 ≤ |d| * N := by rw [e1]; exact Real.sqrt_nonneg _
  linarith

/-- Final bound. -/
theorem image_final {d N δ ρ T G : ℝ} (dp : 0 < d) (hN : 0 < N) (hδ : 0 < δ) (hρ : 0 ≤ ρ) (hT : 0 ≤ T) (hG : 147 / 400 * (d * N * δ) ≤ G) :
    (d * ρ + 308 * T) / G ≤ (1000 * (T / d) + 3 * ρ) / (N * δ) := by
  have e : (1000 * (T / d) + 3 * ρ) / (N * δ) = (1000 * T + 3 * (d * ρ)) / (d * N * δ) := by field_simp
  rw [e]
  refine le_trans (div_le_div₀ (by positivity) le_rfl (by positivity) hG) ?_
  rw [div_le_div_iff₀ (by positivity) (by positivity)]
  have dNδ : 0 ≤ d * N * δ := by positivity
  have dρ : 0 ≤ d * ρ := by positivity
  have := mul_le_mul_of_nonneg_right (show d * ρ + 308 * T ≤ 147 / 400 * (1000 * T + 3 * (d * ρ)) by linarith) dNδ
  linarith

end H2d.Fl
