import Verif.Model.FloatParallel
import Verif.Lemmas.FloatBisector

/-! # Coordinates, sides, points and parallels of a line with rounded operations -/

namespace H2d.Fl
open H2d.Spec

variable {F : Arith} {u v : ℝ}

theorem cube_err (h : FlOk F u v) : (1 + u) ^ 3 - 1 ≤ 25 / 8 * u := by
  have hu := h.u_nonneg
  have hu1 := h.u_small
  have : u ^ 2 ≤ u / 64 := by nlinarith
  nlinarith [mul_nonneg hu (sub_nonneg.2 hu1)]

theorem lineCoord_err (h : FlOk F u v) (a c x : ℝ) {b : ℝ} (hb : b ≠ 0) :
    |a * x + b * F.rnd (F.rnd (F.rnd (- a * x) - c) / b) + c| ≤ 25 / 8 * u * (|a * x| + |c|) := by
  have hu := h.u_nonneg
  have hb' : 0 < |b| := abs_pos.2 hb
  have h0 := h.err (- a * x)
  have e0 : |- a * x| = |a * x| := by rw [neg_mul, abs_neg]
  rw [e0] at h0
  have h1 : |F.rnd (- a * x) - c - (- a * x - c)| ≤ u * (|a * x| + |c|) := by
    rw [show F.rnd (- a * x) - c - (- a * x - c) = F.rnd (- a * x) - - a * x by ring]
    nlinarith [abs_nonneg c]
  have h1' : |- a * x - c| ≤ |a * x| + |c| := by have := abs_sub (- a * x) c; rwa [e0] at this
  have h2 := rnd_near h h1 h1'
  have h3 : |F.rnd (F.rnd (- a * x) - c) / b - (- a * x - c) / b| ≤ ((1 + u) * (1 + u) - 1) * ((|a * x| + |c|) / |b|) := by
    rw [← sub_div, abs_div, ← mul_div_assoc]
    exact div_le_div_of_nonneg_right h2 hb'.le
  have h3' : |(- a * x - c) / b| ≤ (|a * x| + |c|) / |b| := by rw [abs_div]; exact div_le_div_of_nonneg_right h1' hb'.le
  have h4 := rnd_near h h3 h3'
  set y := F.rnd (F.rnd (F.rnd (- a * x) - c) / b)
  rw [show a * x + b * y + c = b * (y - (- a * x - c) / b) by field_simp; ring, abs_mul]
  have h5 := mul_le_mul_of_nonneg_left h4 hb'.le
  refine h5.trans ?_
  rw [show |b| * (((1 + ((1 + u) * (1 + u) - 1)) * (1 + u) - 1) * ((|a * x| + |c|) / |b|)) = ((1 + u) ^ 3 - 1) * (|a * x| + |c|) by field_simp; ring]
  exact mul_le_mul_of_nonneg_right (cube_err h) (by positivity)

theorem side_err (h : FlOk F u v) (l : V3 ℝ) (p : Pt ℝ) :
    |F.rnd (F.rnd (F.rnd (l 0 * p.1) + F.rnd (l 1 * p.2)) + l 2) - (l 0 * p.1 + l 1 * p.2 + l 2)| ≤ 25 / 8 * u * (|l 0 * p.1| + |l 1 * p.2| + |l 2|) := by
  have := lineAt_err h l p
  simpa only [lineAt, mul_comm p.1, mul_comm p.2] using this

theorem root_err (h : FlOk F u v) {a b : ℝ} (hG : 0 < a ^ 2 + b ^ 2) :
    ∃ s, sqrtF F (norm2 F a b) = some s ∧ |s - Real.sqrt (a ^ 2 + b ^ 2)| ≤ 25 / 8 * u * Real.sqrt (a ^ 2 + b ^ 2) := by
  have hu := h.u_nonneg
  have hu1 := h.u_small
  have h1 := norm2_err h a b
  have hg : 0 < Real.sqrt (a ^ 2 + b ^ 2) := Real.sqrt_pos.2 hG
  have hA : 0 < norm2 F a b := by nlinarith [(abs_le.1 h1).1]
  refine ⟨F.rnd (Real.sqrt (norm2 F a b)), if_neg (not_lt.2 hA.le), ?_⟩
  have h2 : |Real.sqrt (norm2 F a b) - Real.sqrt (a ^ 2 + b ^ 2)| ≤ 33 / 16 * u * Real.sqrt (a ^ 2 + b ^ 2) := by
    apply sqrt_of_near hg.le hA.le
    rw [Real.sq_sqrt hG.le]; exact h1
  have h3 := rnd_near h h2 (le_of_eq (abs_of_nonneg hg.le))
  refine h3.trans (mul_le_mul_of_nonneg_right ?_ hg.le)
  nlinarith [mul_nonneg hu (sub_nonneg.2 hu1)]

/-- One coordinate of a point at a distance: `x` is the coordinate of the given point, `c` the exact offset. -/
theorem offset_err (h : FlOk F u v) {b k k0 d g : ℝ} (hg : 0 < g) (hb : |b| ≤ g) (hk : |k - k0| ≤ 9 / 2 * u * (|d| / g)) (hk0 : |k0| = |d| / g) :
    (∀ x, |F.rnd (x - F.rnd (b * k)) - (x - b * k0)| ≤ u * (|x| + 7 * |d|)) ∧ (∀ x, |F.rnd (x + F.rnd (b * k)) - (x + b * k0)| ≤ u * (|x| + 7 * |d|)) := by
  have hu := h.u_nonneg
  have hu1 := h.u_small
  have hd := abs_nonneg d
  have hdg : 0 ≤ |d| / g := div_nonneg hd hg.le
  have hdb : |b| * (|d| / g) ≤ |d| := by
    rw [← mul_div_assoc, div_le_iff₀ hg]; nlinarith
  have h1 : |b * k - b * k0| ≤ 9 / 2 * u * |d| := by
    rw [← mul_sub, abs_mul]
    calc |b| * |k - k0| ≤ |b| * (9 / 2 * u * (|d| / g)) := mul_le_mul_of_nonneg_left hk (abs_nonneg _)
      _ = 9 / 2 * u * (|b| * (|d| / g)) := by ring
      _ ≤ _ := mul_le_mul_of_nonneg_left hdb (by positivity)
  have h2 : |b * k0| ≤ |d| := by rw [abs_mul, hk0]; exact hdb
  have h3 := rnd_near h h1 h2
  have h4 : |F.rnd (b * k) - b * k0| ≤ 45 / 8 * u * |d| := h3.trans (mul_le_mul_of_nonneg_right (by nlinarith [mul_nonneg hu (sub_nonneg.2 hu1)]) hd)
  set z := F.rnd (b * k)
  have key : ∀ x w w0 : ℝ, |w - w0| ≤ 45 / 8 * u * |d| → |w0| ≤ |d| → |F.rnd (x + w) - (x + w0)| ≤ u * (|x| + 7 * |d|) := by
    intro x w w0 e1 e2
    have a1 := h.err (x + w)
    have a2 : |x + w| ≤ |x| + |d| + 45 / 8 * u * |d| := by
      have b1 := abs_add_le x w
      have b2 := abs_add_le (w - w0) w0
      rw [sub_add_cancel] at b2
      linarith
    have a3 := abs_add_le (F.rnd (x + w) - (x + w)) (w - w0)
    rw [show F.rnd (x + w) - (x + w) + (w - w0) = F.rnd (x + w) - (x + w0) by ring] at a3
    have a4 := mul_le_mul_of_nonneg_left a2 hu
    have a5 : u * (45 / 8 * u * |d|) ≤ 45 / 512 * u * |d| := by
      have : u * u ≤ u / 64 := by nlinarith
      nlinarith [mul_le_mul_of_nonneg_right this hd]
    have a6 : 0 ≤ u * |d| := mul_nonneg hu hd
    nlinarith
  refine ⟨fun x => ?_, fun x => key x _ _ h4 h2⟩
  have := key x (- z) (- (b * k0)) (by rw [show - z - - (b * k0) = - (z - b * k0) by ring, abs_neg]; exact h4) (by rw [abs_neg]; exact h2)
  simpa only [sub_eq_add_neg] using this

/-- The two points of `getPoints`, before they are ordered. -/
theorem getPointsB2_eq (h : FlOk F u v) {l : V3 ℝ} (hl : 0 < l 0 ^ 2 + l 1 ^ 2) (p : Pt ℝ) (d : ℝ) :
    ∃ a b A B : Pt ℝ, getPointsB2 F l p d = some (fixOrder a b) ∧
      (l 0 * (A.1 - p.1) + l 1 * (A.2 - p.2) = 0 ∧ eucl p A = |d|) ∧ (l 0 * (B.1 - p.1) + l 1 * (B.2 - p.2) = 0 ∧ eucl p B = |d|) ∧
      (A.1 + B.1 = 2 * p.1 ∧ A.2 + B.2 = 2 * p.2) ∧
      (|a.1 - A.1| ≤ u * (|p.1| + 7 * |d|) ∧ |a.2 - A.2| ≤ u * (|p.2| + 7 * |d|)) ∧
      (|b.1 - B.1| ≤ u * (|p.1| + 7 * |d|) ∧ |b.2 - B.2| ≤ u * (|p.2| + 7 * |d|)) := by
  obtain ⟨s, hs, hse⟩ := root_err h hl
  set g := Real.sqrt (l 0 ^ 2 + l 1 ^ 2) with hgd
  have hg : 0 < g := Real.sqrt_pos.2 hl
  have hg2 : g ^ 2 = l 0 ^ 2 + l 1 ^ 2 := Real.sq_sqrt hl.le
  obtain ⟨hs0, hc⟩ := quot_rnd h (x := d) (y := d) (a := |d|) (k1 := 0) (k2 := 25 / 8) (k := 9 / 2) (by simp) le_rfl hse hg (by norm_num) (by norm_num) (by norm_num) (by norm_num)
  have hk0 : |d / g| = |d| / g := by rw [abs_div, abs_of_pos hg]
  have b0 : |l 0| ≤ g := Real.le_sqrt_of_sq_le (by rw [sq_abs]; nlinarith [sq_nonneg (l 1)])
  have b1 : |l 1| ≤ g := Real.le_sqrt_of_sq_le (by rw [sq_abs]; nlinarith [sq_nonneg (l 0)])
  obtain ⟨m0, q0⟩ := offset_err h hg b0 hc hk0
  obtain ⟨m1, q1⟩ := offset_err h hg b1 hc hk0
  have hdist : ∀ e : ℝ, e ^ 2 = 1 → eucl p (p.1 + e * (l 1 * (d / g)), p.2 - e * (l 0 * (d / g))) = |d| := by
    intro e he
    unfold eucl
    rw [show (p.1 - (p.1 + e * (l 1 * (d / g)), p.2 - e * (l 0 * (d / g))).1) ^ 2 + (p.2 - (p.1 + e * (l 1 * (d / g)), p.2 - e * (l 0 * (d / g))).2) ^ 2 = e ^ 2 * (l 0 ^ 2 + l 1 ^ 2) * (d / g) ^ 2 by
      simp only []; ring, he, ← hg2, one_mul, ← mul_pow, mul_div_cancel₀ _ hg.ne', Real.sqrt_sq_eq_abs]
  refine ⟨(F.rnd (p.1 - F.rnd (l 1 * F.rnd (d / s))), F.rnd (p.2 + F.rnd (l 0 * F.rnd (d / s)))), (F.rnd (p.1 + F.rnd (l 1 * F.rnd (d / s))), F.rnd (p.2 - F.rnd (l 0 * F.rnd (d / s)))),
    (p.1 - l 1 * (d / g), p.2 + l 0 * (d / g)), (p.1 + l 1 * (d / g), p.2 - l 0 * (d / g)), ?_, ⟨by simp only []; ring, ?_⟩, ⟨by simp only []; ring, ?_⟩, ⟨by simp only []; ring, by simp only []; ring⟩,
    ⟨m1 _, q0 _⟩, ⟨q1 _, m0 _⟩⟩
  · unfold getPointsB2
    rw [hs]
    simp only [Option.bind_eq_bind, Option.bind_some, divF, if_neg hs0.ne']
    rfl
  · have := hdist (-1) (by norm_num)
    simpa only [neg_mul, one_mul, sub_neg_eq_add, ← sub_eq_add_neg] using this
  · have := hdist 1 (by norm_num)
    simpa only [one_mul] using this

/-- The constant of the line through a point. -/
theorem parConst_err (h : FlOk F u v) {k m0 m1 m2 a b x y : ℝ} (n0 : |k * m0 - a| ≤ u * |a|) (n1 : |k * m1 - b| ≤ u * |b|)
    (n2 : |k * m2 - F.rnd (F.rnd (- a * x) - F.rnd (b * y))| ≤ u * |F.rnd (F.rnd (- a * x) - F.rnd (b * y))|) :
    |k * (m0 * x + m1 * y + m2)| ≤ 5 * (63 / 64) * u * (|a * x| + |b * y|) := by
  have hu := h.u_nonneg
  have hu1 := h.u_small
  have c0 := h.err (- a * x)
  have c1 := h.err (b * y)
  rw [neg_mul, abs_neg] at c0
  rw [neg_mul] at n2
  have d0 : |(k * m0 - a) * x| ≤ u * |a * x| := by
    rw [abs_mul, abs_mul, ← mul_assoc]; exact mul_le_mul_of_nonneg_right n0 (abs_nonneg _)
  have d1 : |(k * m1 - b) * y| ≤ u * |b * y| := by
    rw [abs_mul, abs_mul, ← mul_assoc]; exact mul_le_mul_of_nonneg_right n1 (abs_nonneg _)
  have y0 := rnd_abs_le h (-(a * x))
  have y1 := rnd_abs_le h (b * y)
  rw [abs_neg] at y0
  generalize F.rnd (-(a * x)) = z0 at *
  generalize F.rnd (b * y) = z1 at *
  have c2 := h.err (z0 - z1)
  have y3 := rnd_abs_le h (z0 - z1)
  generalize F.rnd (z0 - z1) = z at *
  have e : k * (m0 * x + m1 * y + m2) = (k * m0 - a) * x + (k * m1 - b) * y + (k * m2 - z) + (z - (z0 - z1)) + (z0 - -(a * x)) - (z1 - b * y) := by ring
  rw [e]
  have hP0 : 0 ≤ |a * x| := abs_nonneg _
  have hQ0 : 0 ≤ |b * y| := abs_nonneg _
  have r1 := abs_sub ((k * m0 - a) * x + (k * m1 - b) * y + (k * m2 - z) + (z - (z0 - z1)) + (z0 - -(a * x))) (z1 - b * y)
  have r2 := abs_add_le ((k * m0 - a) * x + (k * m1 - b) * y + (k * m2 - z) + (z - (z0 - z1))) (z0 - -(a * x))
  have r3 := abs_add_le ((k * m0 - a) * x + (k * m1 - b) * y + (k * m2 - z)) (z - (z0 - z1))
  have r4 := abs_add_le ((k * m0 - a) * x + (k * m1 - b) * y) (k * m2 - z)
  have r5 := abs_add_le ((k * m0 - a) * x) ((k * m1 - b) * y)
  have y2 := abs_sub z0 z1
  clear e n0 n1
  generalize |a * x| = P at *
  generalize |b * y| = Q at *
  have hPQ : 0 ≤ P + Q := by linarith
  have y2' : |z0 - z1| ≤ 65 / 64 * (P + Q) := by
    have : (1 + u) * (P + Q) ≤ 65 / 64 * (P + Q) := mul_le_mul_of_nonneg_right (by linarith) hPQ
    linarith
  have y4 : |z| ≤ 17 / 16 * (P + Q) := by
    have : (1 + u) * |z0 - z1| ≤ 65 / 64 * |z0 - z1| := mul_le_mul_of_nonneg_right (by linarith) (abs_nonneg _)
    linarith
  have g1 := mul_le_mul_of_nonneg_left y4 hu
  have g2 := mul_le_mul_of_nonneg_left y2' hu
  have g4 : 0 ≤ u * (P + Q) := mul_nonneg hu hPQ
  linarith

/-- Line parallel to a line, through a point. -/
theorem parallelLine_near (h : FlOk F u v) {t : Thr ℝ} {l m : V3 ℝ} {p : Pt ℝ} (hl : 0 < l 0 ^ 2 + l 1 ^ 2)
    (hg : l 0 = 0 ∨ t.nullDenom ≤ 9 / 10 * (|l 0| / Real.sqrt (l 0 ^ 2 + l 1 ^ 2))) (hm : Fl.parallelLine F t l p = .ok m) :
    |m 0 * p.1 + m 1 * p.2 + m 2| ≤ 5 * u * (|p.1| + |p.2|) * Real.sqrt (m 0 ^ 2 + m 1 ^ 2) ∧
    |l 0 * m 1 - l 1 * m 0| ≤ 3 * u * (Real.sqrt (l 0 ^ 2 + l 1 ^ 2) * Real.sqrt (m 0 ^ 2 + m 1 ^ 2)) ∧ 0 < m 0 ^ 2 + m 1 ^ 2 := by
  have hu := h.u_nonneg
  have hu1 := h.u_small
  obtain ⟨k, hk, hn⟩ := normalize_step h (w := ![l 0, l 1, F.rnd (F.rnd (- l 0 * p.1) - F.rnd (l 1 * p.2))]) (by simpa using hg) hm
  have n0 : |k * m 0 - l 0| ≤ u * |l 0| := hn 0
  have n1 : |k * m 1 - l 1| ≤ u * |l 1| := hn 1
  have n2 := hn 2
  simp only [Matrix.cons_val] at n2
  obtain ⟨s1, s2⟩ := sqrt_near hu (by linarith) n0 n1
  set g := Real.sqrt (l 0 ^ 2 + l 1 ^ 2) with hgd
  have hgp : 0 < g := Real.sqrt_pos.2 hl
  have es : Real.sqrt ((k * m 0) ^ 2 + (k * m 1) ^ 2) = |k| * Real.sqrt (m 0 ^ 2 + m 1 ^ 2) := by
    rw [show (k * m 0) ^ 2 + (k * m 1) ^ 2 = k ^ 2 * (m 0 ^ 2 + m 1 ^ 2) by ring, Real.sqrt_mul (sq_nonneg k), Real.sqrt_sq_eq_abs]
  rw [es] at s1 s2
  set gm := Real.sqrt (m 0 ^ 2 + m 1 ^ 2) with hgm
  have hkp : 0 < |k| := abs_pos.2 hk
  have hgm0 : 0 ≤ gm := Real.sqrt_nonneg _
  have hgmp : 0 < gm := by
    have : 0 < |k| * gm := lt_of_lt_of_le (mul_pos (by linarith) hgp) s1
    exact (pos_iff_pos_of_mul_pos this).1 hkp
  have b0 : |l 0| ≤ g := Real.le_sqrt_of_sq_le (by rw [sq_abs]; nlinarith [sq_nonneg (l 1)])
  have b1 : |l 1| ≤ g := Real.le_sqrt_of_sq_le (by rw [sq_abs]; nlinarith [sq_nonneg (l 0)])
  have hgk : g ≤ 64 / 63 * (|k| * gm) := by nlinarith
  refine ⟨?_, ?_, Real.sqrt_pos.1 hgmp⟩
  · have t1 := parConst_err h (x := p.1) (y := p.2) n0 n1 n2
    set P := |l 0 * p.1| with hP
    set Q := |l 1 * p.2| with hQ
    have hPg : P + Q ≤ g * (|p.1| + |p.2|) := by
      rw [hP, hQ, abs_mul, abs_mul, mul_add]
      exact add_le_add (mul_le_mul_of_nonneg_right b0 (abs_nonneg _)) (mul_le_mul_of_nonneg_right b1 (abs_nonneg _))
    have hS : 0 ≤ |p.1| + |p.2| := by positivity
    rw [abs_mul] at t1
    have t2 : |k| * |m 0 * p.1 + m 1 * p.2 + m 2| ≤ |k| * (5 * u * (|p.1| + |p.2|) * gm) := by
      calc _ ≤ 5 * (63 / 64) * u * (P + Q) := t1
        _ ≤ 5 * (63 / 64) * u * (g * (|p.1| + |p.2|)) := mul_le_mul_of_nonneg_left hPg (by positivity)
        _ ≤ 5 * (63 / 64) * u * (64 / 63 * (|k| * gm) * (|p.1| + |p.2|)) := mul_le_mul_of_nonneg_left (mul_le_mul_of_nonneg_right hgk hS) (by positivity)
        _ = _ := by ring
    exact le_of_mul_le_mul_left t2 hkp
  · have e : k * (l 0 * m 1 - l 1 * m 0) = l 0 * (k * m 1 - l 1) - l 1 * (k * m 0 - l 0) := by ring
    have t1 : |k * (l 0 * m 1 - l 1 * m 0)| ≤ 2 * u * (|l 0| * |l 1|) := by
      rw [e]
      refine (abs_sub _ _).trans ?_
      rw [abs_mul, abs_mul]
      have r1 := mul_le_mul_of_nonneg_left n1 (abs_nonneg (l 0))
      have r2 := mul_le_mul_of_nonneg_left n0 (abs_nonneg (l 1))
      nlinarith
    have t2 : |l 0| * |l 1| ≤ g * g := mul_le_mul b0 b1 (abs_nonneg _) hgp.le
    rw [abs_mul] at t1
    have t3 : |k| * |l 0 * m 1 - l 1 * m 0| ≤ |k| * (3 * u * (g * gm)) := by
      calc _ ≤ 2 * u * (|l 0| * |l 1|) := t1
        _ ≤ 2 * u * (g * g) := mul_le_mul_of_nonneg_left t2 (by positivity)
        _ ≤ 2 * u * (g * (64 / 63 * (|k| * gm))) := mul_le_mul_of_nonneg_left (mul_le_mul_of_nonneg_left hgk hgp.le) (by positivity)
        _ ≤ |k| * (3 * u * (g * gm)) := by
          have : 0 ≤ u * (g * (|k| * gm)) := by positivity
          nlinarith
    exact le_of_mul_le_mul_left t3 hkp

/-- Square root of a product of two values with the same sign. -/
theorem sqrtProd_err (h : FlOk F u v) {x : ℝ} (hx : 0 ≤ x) : ∃ a, sqrtF F (F.rnd x) = some a ∧ |a * a - x| ≤ ((1 + u) ^ 4 - 1) * x := by
  have hu := h.u_nonneg
  have h0 := h.err x
  rw [abs_of_nonneg hx] at h0
  have h1 : |Real.sqrt (F.rnd x) - Real.sqrt x| ≤ u * Real.sqrt x := by
    apply sqrt_of_near (Real.sqrt_nonneg _) (rnd_nonneg h hx)
    rw [Real.sq_sqrt hx]; exact h0
  have h2 := rnd_near h h1 (le_of_eq (abs_of_nonneg (Real.sqrt_nonneg x)))
  refine ⟨_, if_neg (not_lt.2 (rnd_nonneg h hx)), ?_⟩
  set a := F.rnd (Real.sqrt (F.rnd x))
  have h2' : |a - Real.sqrt x| ≤ ((1 + u) * (1 + u) - 1) * |Real.sqrt x| := by rwa [abs_of_nonneg (Real.sqrt_nonneg x)]
  have h3 := mul_near h2' h2'
  rw [Real.mul_self_sqrt hx, abs_of_nonneg hx] at h3
  convert h3 using 2; ring

theorem parDist_err (h : FlOk F u v) {l m : V3 ℝ} (h0 : 0 ≤ l 0 * m 0) (h1 : 0 ≤ l 1 * m 1) (hp : 0 < l 0 * m 0 + l 1 * m 1) :
    ∃ x, (do let a ← sqrtF F (F.rnd (l 0 * m 0)); let b ← sqrtF F (F.rnd (l 1 * m 1)); let s ← sqrtF F (norm2 F a b); divF F |F.rnd (l 2 - m 2)| s) = some x ∧
      |x - |l 2 - m 2| / Real.sqrt (l 0 * m 0 + l 1 * m 1)| ≤ 11 * u * (|l 2 - m 2| / Real.sqrt (l 0 * m 0 + l 1 * m 1)) := by
  have hu := h.u_nonneg
  have hu1 := h.u_small
  obtain ⟨a, ea, ha⟩ := sqrtProd_err h h0
  obtain ⟨b, eb, hb⟩ := sqrtProd_err h h1
  set G := l 0 * m 0 + l 1 * m 1 with hG
  have hab : |a ^ 2 + b ^ 2 - G| ≤ ((1 + u) ^ 4 - 1) * G := by
    rw [show a ^ 2 + b ^ 2 - G = (a * a - l 0 * m 0) + (b * b - l 1 * m 1) by rw [hG]; ring]
    have := abs_add_le (a * a - l 0 * m 0) (b * b - l 1 * m 1)
    rw [hG]; nlinarith
  have e4 : (1 + u) ^ 4 - 1 ≤ 17 / 4 * u := by
    have : u ^ 2 ≤ u / 64 := by nlinarith
    have : u ^ 3 ≤ u / 64 ^ 2 := by nlinarith
    have : u ^ 4 ≤ u / 64 ^ 3 := by nlinarith
    nlinarith
  have hn := norm2_err h a b
  have hn2 : |norm2 F a b - G| ≤ 13 / 2 * u * G := by
    have t := abs_add_le (norm2 F a b - (a ^ 2 + b ^ 2)) (a ^ 2 + b ^ 2 - G)
    rw [sub_add_sub_cancel] at t
    have t2 : a ^ 2 + b ^ 2 ≤ (1 + 17 / 4 * u) * G := by nlinarith [(abs_le.1 hab).2]
    have t3 : |a ^ 2 + b ^ 2 - G| ≤ 17 / 4 * u * G := hab.trans (mul_le_mul_of_nonneg_right e4 hp.le)
    have t4 : 33 / 16 * u * (a ^ 2 + b ^ 2) ≤ 33 / 16 * u * ((1 + 17 / 4 * u) * G) := mul_le_mul_of_nonneg_left t2 (by positivity)
    have t5 : u * u * G ≤ u / 64 * G := mul_le_mul_of_nonneg_right (by nlinarith) hp.le
    have t6 : 0 ≤ u * G := mul_nonneg hu hp.le
    nlinarith
  have hg : 0 < Real.sqrt G := Real.sqrt_pos.2 hp
  have hN : 0 ≤ norm2 F a b := by nlinarith [(abs_le.1 hn2).1]
  have s1 : |Real.sqrt (norm2 F a b) - Real.sqrt G| ≤ 13 / 2 * u * Real.sqrt G := by
    apply sqrt_of_near hg.le hN
    rw [Real.sq_sqrt hp.le]; exact hn2
  have s2 := rnd_near h s1 (le_of_eq (abs_of_nonneg hg.le))
  have s3 : |F.rnd (Real.sqrt (norm2 F a b)) - Real.sqrt G| ≤ 61 / 8 * u * Real.sqrt G :=
    s2.trans (mul_le_mul_of_nonneg_right (by nlinarith [mul_nonneg hu (sub_nonneg.2 hu1)]) hg.le)
  have c1 : |(|F.rnd (l 2 - m 2)|) - (|l 2 - m 2|)| ≤ 1 * u * |l 2 - m 2| := by
    rw [one_mul]; exact (abs_abs_sub_abs_le _ _).trans (h.err _)
  obtain ⟨hs0, hq⟩ := quot_rnd h (k := 11) c1 (le_of_eq (abs_abs _)) s3 hg (by norm_num) (by norm_num) (by norm_num) (by norm_num)
  refine ⟨_, ?_, hq⟩
  rw [ea, eb]
  simp only [Option.bind_eq_bind, Option.bind_some]
  unfold sqrtF divF
  rw [if_neg (not_lt.2 hN)]
  simp only [Option.bind_some]
  exact if_neg hs0.ne'

end H2d.Fl
