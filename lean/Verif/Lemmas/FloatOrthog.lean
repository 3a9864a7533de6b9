import Verif.Spec.FloatOrthog
import Verif.Model.FloatOrthog
import Verif.Lemmas.FloatBisector
import Verif.Lemmas.FloatCircle3Def
import Verif.Lemmas.FloatParallel
import Verif.Lemmas.LineOps
import Verif.Props.FloatCross

/-! # Orthogonal lines and segments with rounded operations -/

namespace H2d.Fl
open H2d.Spec

variable {F : Arith} {u v : ℝ}

theorem abs_le_norm (a b : ℝ) : |a| ≤ Real.sqrt (a ^ 2 + b ^ 2) ∧ |b| ≤ Real.sqrt (a ^ 2 + b ^ 2) ∧ |a| + |b| ≤ 17 / 12 * Real.sqrt (a ^ 2 + b ^ 2) := by
  have e := Real.sq_sqrt (show 0 ≤ a ^ 2 + b ^ 2 by positivity)
  have n := Real.sqrt_nonneg (a ^ 2 + b ^ 2)
  refine ⟨Real.le_sqrt_of_sq_le (by rw [sq_abs]; nlinarith [sq_nonneg b]), Real.le_sqrt_of_sq_le (by rw [sq_abs]; nlinarith [sq_nonneg a]), ?_⟩
  have : 0 ≤ 17 / 12 * Real.sqrt (a ^ 2 + b ^ 2) := by positivity
  apply le_of_sq_le_sq _ this
  rw [mul_pow, e]
  nlinarith [sq_nonneg (|a| - |b|), sq_abs a, sq_abs b]

/-- The line orthogonal to a line, up to a factor. -/
theorem orth_form (h : FlOk F u v) {t : Thr ℝ} {M : ℝ} {l : V3 ℝ} {p : Pt ℝ} (ho : Orthog t M l p) {m : V3 ℝ} (hm : orthogLine F t l p = .ok m) :
    ∃ k : ℝ, k ≠ 0 ∧ |k * m 0 - l 1| ≤ 5 * u * |l 1| ∧ |k * m 1 - - l 0| ≤ 5 * u * |l 0| ∧ |k * m 2 + (l 1 * p.1 - l 0 * p.2)| ≤ 10 * u * ((|l 0| + |l 1|) * M) := by
  have hu := h.u_nonneg
  obtain ⟨k, hk, a, b, c⟩ := orthog_form h (l := l) (c := p) (d1 := l 1) (d2 := - l 0) (x := p.1) (y := p.2) (M := M) (k1 := 1) one_ne_zero (by simp; positivity) (by simp; positivity) ho.x ho.y ho.x ho.y
    (by simp; positivity) (by simp; positivity) (by rw [neg_sq, add_comm (l 1 ^ 2)]; exact ho.slope) hm
  rw [abs_neg] at b c
  refine ⟨k, hk, a, b, ?_⟩
  rw [add_comm (|l 0|), sub_eq_add_neg, ← neg_mul]; exact c

/-- What is known of the two lines. -/
structure OrthPair (u M : ℝ) (l m : V3 ℝ) (p : Pt ℝ) : Prop where
  dir : 0 < m 0 ^ 2 + m 1 ^ 2
  sin : 4 / 5 ≤ sinLines l m
  off : offLine m ≤ 9 / 5 * M
  thr : |m 0 * p.1 + m 1 * p.2 + m 2| ≤ 24 * u * M * Real.sqrt (m 0 ^ 2 + m 1 ^ 2)
  cos : |l 0 * m 0 + l 1 * m 1| ≤ 6 * u * (Real.sqrt (l 0 ^ 2 + l 1 ^ 2) * Real.sqrt (m 0 ^ 2 + m 1 ^ 2))

theorem orth_pair (h : FlOk F u v) {t : Thr ℝ} {M : ℝ} {l : V3 ℝ} {p : Pt ℝ} (ho : Orthog t M l p) {m : V3 ℝ} (hm : orthogLine F t l p = .ok m) : OrthPair u M l m p := by
  have hu := h.u_nonneg
  have hu1 := h.u_small
  obtain ⟨k, hk, h0, h1, h2⟩ := orth_form h ho hm
  have hM : 0 ≤ M := (abs_nonneg _).trans ho.x
  have hx := ho.x
  have hy := ho.y
  have hg : 0 < Real.sqrt (l 0 ^ 2 + l 1 ^ 2) := Real.sqrt_pos.2 ho.dir
  obtain ⟨n0, n1, n2⟩ := abs_le_norm (l 0) (l 1)
  have gg := Real.sq_sqrt ho.dir.le
  obtain ⟨s1, s2⟩ := sqrt_near (show 0 ≤ 5 * u by positivity) (by linarith) h0 (show |k * m 1 - - l 0| ≤ 5 * u * |- l 0| by rw [abs_neg]; exact h1)
  rw [neg_sq, add_comm (l 1 ^ 2)] at s1 s2
  have es : Real.sqrt ((k * m 0) ^ 2 + (k * m 1) ^ 2) = |k| * Real.sqrt (m 0 ^ 2 + m 1 ^ 2) := by
    rw [show (k * m 0) ^ 2 + (k * m 1) ^ 2 = k ^ 2 * (m 0 ^ 2 + m 1 ^ 2) by ring, Real.sqrt_mul (sq_nonneg k), Real.sqrt_sq_eq_abs]
  rw [es] at s1 s2
  have hgm0 : 0 ≤ Real.sqrt (m 0 ^ 2 + m 1 ^ 2) := Real.sqrt_nonneg _
  have hkp : 0 < |k| := abs_pos.2 hk
  have hdir : 0 < Real.sqrt (m 0 ^ 2 + m 1 ^ 2) := by
    have : 0 < |k| * Real.sqrt (m 0 ^ 2 + m 1 ^ 2) := lt_of_lt_of_le (mul_pos (by linarith) hg) s1
    exact (pos_iff_pos_of_mul_pos this).1 hkp
  rw [sub_neg_eq_add] at h1
  have hdir' := Real.sqrt_pos.1 hdir
  set g := Real.sqrt (l 0 ^ 2 + l 1 ^ 2)
  set gm := Real.sqrt (m 0 ^ 2 + m 1 ^ 2)
  have hG : g ≤ 64 / 59 * (|k| * gm) := by
    have : u * g ≤ 1 / 64 * g := mul_le_mul_of_nonneg_right hu1 hg.le
    linarith
  refine ⟨hdir', ?_, ?_, ?_, ?_⟩
  · unfold sinLines
    rw [le_div_iff₀ (mul_pos hg hdir)]
    refine le_of_mul_le_mul_left ?_ hkp
    rw [← abs_mul, show k * (l 0 * m 1 - l 1 * m 0) = -((l 0 ^ 2 + l 1 ^ 2) - (l 0 * (k * m 1 + l 0) - l 1 * (k * m 0 - l 1))) by ring, abs_neg]
    have a0 : |l 0 * (k * m 1 + l 0)| ≤ 5 * u * |l 0| ^ 2 := by rw [abs_mul]; nlinarith [mul_le_mul_of_nonneg_left h1 (abs_nonneg (l 0))]
    have a1 : |l 1 * (k * m 0 - l 1)| ≤ 5 * u * |l 1| ^ 2 := by rw [abs_mul]; nlinarith [mul_le_mul_of_nonneg_left h0 (abs_nonneg (l 1))]
    rw [sq_abs] at a0 a1
    have a2 := abs_sub (l 0 * (k * m 1 + l 0)) (l 1 * (k * m 0 - l 1))
    have a3 := abs_sub_abs_le_abs_sub (l 0 ^ 2 + l 1 ^ 2) (l 0 * (k * m 1 + l 0) - l 1 * (k * m 0 - l 1))
    rw [abs_of_pos ho.dir, ← gg] at a3
    have a4 : 5 * u * g ^ 2 ≤ 5 / 64 * g ^ 2 := mul_le_mul_of_nonneg_right (by linarith) (sq_nonneg _)
    have a5 : |k| * gm * g ≤ (1 + 5 * u) * g * g := mul_le_mul_of_nonneg_right s2 hg.le
    have a6 : (1 + 5 * u) * g * g ≤ 69 / 64 * (g * g) := by
      rw [mul_assoc]; exact mul_le_mul_of_nonneg_right (by linarith) (by positivity)
    have a7 : l 0 ^ 2 + l 1 ^ 2 = g ^ 2 := gg.symm
    have a8 : 5 * u * l 0 ^ 2 + 5 * u * l 1 ^ 2 = 5 * u * g ^ 2 := by rw [gg]; ring
    have a9 := sq_nonneg g
    rw [← gg]
    linarith
  · unfold offLine
    rw [div_le_iff₀ hdir]
    refine le_of_mul_le_mul_left ?_ hkp
    rw [← abs_mul]
    have b0 : |l 1 * p.1| ≤ |l 1| * M := by rw [abs_mul]; exact mul_le_mul_of_nonneg_left hx (abs_nonneg _)
    have b1 : |l 0 * p.2| ≤ |l 0| * M := by rw [abs_mul]; exact mul_le_mul_of_nonneg_left hy (abs_nonneg _)
    have b2 := abs_sub (l 1 * p.1) (l 0 * p.2)
    have b3 := abs_sub (k * m 2 + (l 1 * p.1 - l 0 * p.2)) (l 1 * p.1 - l 0 * p.2)
    rw [add_sub_cancel_right] at b3
    have b4 : (|l 0| + |l 1|) * M ≤ 17 / 12 * g * M := mul_le_mul_of_nonneg_right n2 hM
    have b5 : 10 * u * ((|l 0| + |l 1|) * M) ≤ 10 / 64 * (17 / 12 * g * M) := by
      refine mul_le_mul (by linarith) b4 (by positivity) (by positivity)
    have b6 : g * M ≤ 64 / 59 * (|k| * gm) * M := mul_le_mul_of_nonneg_right hG hM
    have b7 : 0 ≤ |k| * gm * M := by positivity
    linarith
  · refine le_of_mul_le_mul_left ?_ hkp
    rw [← abs_mul, show k * (m 0 * p.1 + m 1 * p.2 + m 2) = ((k * m 0 - l 1) * p.1 + (k * m 1 + l 0) * p.2) + (k * m 2 + (l 1 * p.1 - l 0 * p.2)) by ring]
    refine (abs_add_le _ _).trans ?_
    have c0 := abs_add_le ((k * m 0 - l 1) * p.1) ((k * m 1 + l 0) * p.2)
    rw [abs_mul, abs_mul] at c0
    have c1 := mul_le_mul h0 hx (abs_nonneg _) (by positivity)
    have c2 := mul_le_mul h1 hy (abs_nonneg _) (by positivity)
    have b4 : (|l 0| + |l 1|) * M ≤ 17 / 12 * g * M := mul_le_mul_of_nonneg_right n2 hM
    have b6 : g * M ≤ 64 / 59 * (|k| * gm) * M := mul_le_mul_of_nonneg_right hG hM
    have b8 : (|l 0| + |l 1|) * M ≤ 8 / 5 * (|k| * gm * M) := by
      have b7 : 0 ≤ |k| * gm * M := by positivity
      linarith
    have b9 := mul_le_mul_of_nonneg_left b8 hu
    linarith
  · refine le_of_mul_le_mul_left ?_ hkp
    rw [← abs_mul, show k * (l 0 * m 0 + l 1 * m 1) = l 0 * (k * m 0 - l 1) + l 1 * (k * m 1 + l 0) by ring]
    refine (abs_add_le _ _).trans ?_
    rw [abs_mul, abs_mul]
    have c1 := mul_le_mul_of_nonneg_left h0 (abs_nonneg (l 0))
    have c2 := mul_le_mul_of_nonneg_left h1 (abs_nonneg (l 1))
    have c3 : 2 * (|l 0| * |l 1|) ≤ g ^ 2 := by rw [gg]; nlinarith [sq_nonneg (|l 0| - |l 1|), sq_abs (l 0), sq_abs (l 1)]
    have c4 := mul_le_mul_of_nonneg_left hG hg.le
    have c5 : 0 ≤ u * (|k| * (g * gm)) := by positivity
    have c6 : u * (2 * (|l 0| * |l 1|)) ≤ u * (64 / 59 * (|k| * (g * gm))) := mul_le_mul_of_nonneg_left (by nlinarith) hu
    linarith

theorem closest_eq {l : V3 ℝ} (hl : 0 < l 0 ^ 2 + l 1 ^ 2) (p : Pt ℝ) : ∃ Q, ClosestOn l p Q ∧ l 1 * Q.1 - l 0 * Q.2 = l 1 * p.1 - l 0 * p.2 ∧ eucl p Q = |l 0 * p.1 + l 1 * p.2 + l 2| / Real.sqrt (l 0 ^ 2 + l 1 ^ 2) := by
  have hp : Proper l := hl.ne'
  refine ⟨foot l p, ⟨foot_on hp p, fun q' hq' => ?_⟩, ?_, ?_⟩
  · rw [foot_dist hp]; exact lineDist_le hp p q' hq'
  · unfold foot; simp only; ring
  · rw [foot_dist hp]; unfold H2d.lineDist; congr 2; ring_nf

theorem foot_last {u M a b c d : ℝ} (hu : 0 ≤ u) (hu1 : u ≤ 1 / 64) (hM : 0 ≤ M) (hd : |d| ≤ 40 * u * M) (e : d = b - c) (hc : |c| ≤ 61 / 20 * M) (hab : |a - b| ≤ 6 * u * (9 / 5 * M + |b|) / (4 / 5)) : |a - c| ≤ 85 * u * M := by
  have huM : 0 ≤ u * M := mul_nonneg hu hM
  have hb : |b| ≤ 37 / 10 * M := by
    have := abs_add_le d c
    rw [e, sub_add_cancel, ← e] at this
    have : 40 * u * M ≤ 40 / 64 * M := mul_le_mul_of_nonneg_right (by linarith) hM
    linarith
  have t1 := abs_sub_le a b c
  rw [← e] at t1
  have t2 : 6 * u * (9 / 5 * M + |b|) / (4 / 5) ≤ 6 * u * (9 / 5 * M + 37 / 10 * M) / (4 / 5) := by
    apply div_le_div_of_nonneg_right _ (by norm_num)
    exact mul_le_mul_of_nonneg_left (by linarith) (by positivity)
  have t3 : 6 * u * (9 / 5 * M + 37 / 10 * M) / (4 / 5) ≤ 4125 / 100 * (u * M) := by
    have : 6 * u * (9 / 5 * M + 37 / 10 * M) / (4 / 5) = 4125 / 100 * (u * M) := by ring
    rw [this]
  linarith

/-- The computed point is near the point of the line that is the closest. -/
theorem foot_err (h : FlOk F u v) {t : Thr ℝ} {M : ℝ} {l : V3 ℝ} {p : Pt ℝ} (ho : Orthog t M l p) {m : V3 ℝ} (hm : orthogLine F t l p = .ok m) {Q : Pt ℝ} (hQ : On l Q)
    (hQp : l 1 * Q.1 - l 0 * Q.2 = l 1 * p.1 - l 0 * p.2) : ∃ q, crossXY F l m = some q ∧ |q.1 - Q.1| ≤ 85 * u * M ∧ |q.2 - Q.2| ≤ 85 * u * M := by
  have hu := h.u_nonneg
  have hu1 := h.u_small
  have op := orth_pair h ho hm
  obtain ⟨k, hk, h0, h1, h2⟩ := orth_form h ho hm
  have hM : 0 ≤ M := (abs_nonneg _).trans ho.x
  have hg : 0 < Real.sqrt (l 0 ^ 2 + l 1 ^ 2) := Real.sqrt_pos.2 ho.dir
  obtain ⟨n0, n1, n2⟩ := abs_le_norm (l 0) (l 1)
  have gg := Real.sq_sqrt ho.dir.le
  have hoff := ho.off
  have hx := ho.x
  have hy := ho.y
  rw [sub_neg_eq_add] at h1
  obtain ⟨P, hP⟩ := exists_onBoth (lt_of_lt_of_le (by norm_num) op.sin)
  obtain ⟨q, e, hqx, hqy⟩ := crossXY_err h ho.dir op.dir (by norm_num) (by linarith) op.sin (hoff.trans (show 8 / 5 * M ≤ 9 / 5 * M by linarith)) op.off hP
  refine ⟨q, e, ?_⟩
  unfold offLine at hoff
  set g := Real.sqrt (l 0 ^ 2 + l 1 ^ 2)
  rw [div_le_iff₀ hg] at hoff
  -- the closest point
  have hline : |l 1 * p.1 - l 0 * p.2| ≤ 17 / 12 * g * M := by
    refine (abs_sub _ _).trans ?_
    rw [abs_mul, abs_mul]
    have := mul_le_mul_of_nonneg_right n2 hM
    nlinarith [mul_le_mul_of_nonneg_left hx (abs_nonneg (l 1)), mul_le_mul_of_nonneg_left hy (abs_nonneg (l 0))]
  unfold On at hQ
  have size : ∀ z a b : ℝ, |a| ≤ g → |b| ≤ g → g ^ 2 * z = b * (l 1 * p.1 - l 0 * p.2) - a * l 2 → |z| ≤ 61 / 20 * M := by
    intro z a b ha hb hz
    have : |g ^ 2 * z| ≤ g ^ 2 * (61 / 20 * M) := by
      rw [hz]
      refine (abs_sub _ _).trans ?_
      rw [abs_mul, abs_mul]
      have t1 := mul_le_mul hb hline (abs_nonneg _) hg.le
      have t2 := mul_le_mul ha hoff (abs_nonneg _) hg.le
      have : 0 ≤ g ^ 2 * M := by positivity
      linarith
    rw [abs_mul, abs_of_pos (by positivity)] at this
    exact le_of_mul_le_mul_left this (by positivity)
  have qx : |Q.1| ≤ 61 / 20 * M := size Q.1 (l 0) (l 1) n0 n1 (by rw [gg, ← hQp]; linear_combination (l 0) * hQ)
  have qy : |Q.2| ≤ 61 / 20 * M := size Q.2 (l 1) (-l 0) n1 (by rw [abs_neg]; exact n0) (by rw [gg, ← hQp]; linear_combination (l 1) * hQ)
  -- the intersection point
  obtain ⟨P1, P2⟩ := hP
  set dx := P.1 - Q.1 with hdx
  set dy := P.2 - Q.2 with hdy
  have d0 : l 0 * dx + l 1 * dy = 0 := by rw [hdx, hdy]; linarith
  set D := l 1 * dx - l 0 * dy with hD
  have ex : g ^ 2 * dx = l 1 * D := by rw [gg, hD]; linear_combination (l 0) * d0
  have ey : g ^ 2 * dy = -(l 0 * D) := by rw [gg, hD]; linear_combination (l 1) * d0
  have hg2 : 0 < g ^ 2 := by positivity
  have ax : g ^ 2 * |dx| = |l 1| * |D| := by rw [← abs_mul, ← ex, abs_mul, abs_of_pos hg2]
  have ay : g ^ 2 * |dy| = |l 0| * |D| := by rw [← abs_mul, ← abs_neg (l 0 * D), ← ey, abs_mul, abs_of_pos hg2]
  have asum : |l 1| * |dx| + |l 0| * |dy| = |D| := by
    apply mul_left_cancel₀ hg2.ne'
    have := sq_abs (l 0)
    have := sq_abs (l 1)
    calc g ^ 2 * (|l 1| * |dx| + |l 0| * |dy|) = |l 1| * (g ^ 2 * |dx|) + |l 0| * (g ^ 2 * |dy|) := by ring
      _ = (|l 1| ^ 2 + |l 0| ^ 2) * |D| := by rw [ax, ay]; ring
      _ = g ^ 2 * |D| := by rw [sq_abs, sq_abs, gg, add_comm]
  have hmQ : |k * (m 0 * Q.1 + m 1 * Q.2 + m 2)| ≤ 36 * u * (g * M) := by
    rw [show k * (m 0 * Q.1 + m 1 * Q.2 + m 2) = ((k * m 0 - l 1) * Q.1 + (k * m 1 + l 0) * Q.2) + (k * m 2 + (l 1 * p.1 - l 0 * p.2)) by linear_combination hQp]
    refine (abs_add_le _ _).trans ?_
    have c0 := abs_add_le ((k * m 0 - l 1) * Q.1) ((k * m 1 + l 0) * Q.2)
    rw [abs_mul, abs_mul] at c0
    have c1 := mul_le_mul h0 qx (abs_nonneg _) (by positivity)
    have c2 := mul_le_mul h1 qy (abs_nonneg _) (by positivity)
    have b4 : u * ((|l 0| + |l 1|) * M) ≤ u * (17 / 12 * g * M) := mul_le_mul_of_nonneg_left (mul_le_mul_of_nonneg_right n2 hM) hu
    have b5 : 0 ≤ u * (g * M) := by positivity
    linarith
  have hDle : |D| ≤ 40 * u * (g * M) := by
    have e1 : D = -(k * (m 0 * Q.1 + m 1 * Q.2 + m 2)) - ((k * m 0 - l 1) * dx + (k * m 1 + l 0) * dy) := by
      rw [hD, hdx, hdy]; linear_combination k * P2
    have e2 := abs_sub (-(k * (m 0 * Q.1 + m 1 * Q.2 + m 2))) ((k * m 0 - l 1) * dx + (k * m 1 + l 0) * dy)
    rw [← e1, abs_neg] at e2
    have e3 := abs_add_le ((k * m 0 - l 1) * dx) ((k * m 1 + l 0) * dy)
    rw [abs_mul, abs_mul] at e3
    have e4 := mul_le_mul_of_nonneg_right h0 (abs_nonneg dx)
    have e5 := mul_le_mul_of_nonneg_right h1 (abs_nonneg dy)
    have e6 : 5 * u * |D| ≤ 5 / 64 * |D| := mul_le_mul_of_nonneg_right (by linarith) (abs_nonneg _)
    have e7 : 0 ≤ u * (g * M) := by positivity
    have e8 : 5 * u * |l 1| * |dx| + 5 * u * |l 0| * |dy| = 5 * u * |D| := by rw [← asum]; ring
    linarith
  have small : ∀ z a : ℝ, |a| ≤ g → g ^ 2 * |z| = |a| * |D| → |z| ≤ 40 * u * M := by
    intro z a ha hz
    have : g ^ 2 * |z| ≤ g ^ 2 * (40 * u * M) := by
      rw [hz]
      have := mul_le_mul ha hDle (abs_nonneg _) hg.le
      linarith
    exact le_of_mul_le_mul_left this hg2
  have sx := small dx (l 1) n1 ax
  have sy := small dy (l 0) n0 ay
  exact ⟨foot_last hu hu1 hM sx hdx qx hqx, foot_last hu hu1 hM sy hdy qy hqy⟩

/-- The line orthogonal to a parallel at a point does not depend on the parallel. -/
theorem orthogLine_dir {t : Thr ℝ} {l m : V3 ℝ} (h0 : m 0 = l 0) (h1 : m 1 = l 1) (p : Pt ℝ) : orthogLine F t m p = orthogLine F t l p := by
  unfold orthogLine; rw [h0, h1]

open Classical in
theorem orthogSegment_form (t : Thr ℝ) (ac : ℝ → ℝ) (l : V3 ℝ) (p : Pt ℝ) : orthogSegment F t ac l p = if lineDist F l p < t.nullDistance then .throw else (do
    let o ← orthogLine F t l p
    match ← lineInter F t ac l o with
    | none => pure none
    | some q => if PtSame F t q p then .throw else pure (some (q, p))) := by
  unfold orthogSegment
  simp only
  by_cases hd : lineDist F l p < t.nullDistance
  · rw [if_pos hd, if_pos hd]
  · rw [if_neg hd, if_neg hd]
    congr 1
    split_ifs <;> exact orthogLine_dir rfl rfl p

theorem lineDist_off (h : FlOk F u v) {t : Thr ℝ} {M : ℝ} {l : V3 ℝ} {p : Pt ℝ} (ho : Orthog t M l p) :
    |lineDist F l p - |l 0 * p.1 + l 1 * p.2 + l 2| / Real.sqrt (l 0 ^ 2 + l 1 ^ 2)| ≤ 16 * (u + v) * M ∧
    |l 0 * p.1 + l 1 * p.2 + l 2| / Real.sqrt (l 0 ^ 2 + l 1 ^ 2) ≤ 61 / 20 * M := by
  have hu := h.u_nonneg
  have hu1 := h.u_small
  have hv := h.v_nonneg
  have hv1 := h.v_small
  have hM : 0 ≤ M := (abs_nonneg _).trans ho.x
  have hg : 0 < Real.sqrt (l 0 ^ 2 + l 1 ^ 2) := Real.sqrt_pos.2 ho.dir
  obtain ⟨n0, n1, n2⟩ := abs_le_norm (l 0) (l 1)
  have hoff := ho.off
  unfold offLine at hoff
  have hS : (|l 0 * p.1| + |l 1 * p.2| + |l 2|) / Real.sqrt (l 0 ^ 2 + l 1 ^ 2) ≤ 61 / 20 * M := by
    rw [add_div]
    have : (|l 0 * p.1| + |l 1 * p.2|) / Real.sqrt (l 0 ^ 2 + l 1 ^ 2) ≤ 17 / 12 * M := by
      rw [div_le_iff₀ hg, abs_mul, abs_mul]
      have a := mul_le_mul_of_nonneg_left ho.x (abs_nonneg (l 0))
      have b := mul_le_mul_of_nonneg_left ho.y (abs_nonneg (l 1))
      have c := mul_le_mul_of_nonneg_right n2 hM
      linarith
    linarith
  constructor
  · have e : |(|F.rnd (F.rnd (F.rnd (l 0 * p.1) + F.rnd (l 1 * p.2)) + l 2)|) - (|l 0 * p.1 + l 1 * p.2 + l 2|)| ≤ 25 / 8 * u * (|l 0 * p.1| + |l 1 * p.2| + |l 2|) :=
      (abs_abs_sub_abs_le _ _).trans (side_err h l p)
    have := div_hyp_err h (by positivity) e (by rw [abs_abs]; exact abs_add_three _ _ _) hg
    unfold lineDist
    refine this.trans ?_
    have k : (1 + 25 / 8 * u) * (1 + u) / (1 - v) - 1 ≤ 5 * (u + v) := by
      rw [sub_le_iff_le_add, div_le_iff₀ (by linarith)]
      nlinarith [mul_nonneg hu hv, mul_le_mul_of_nonneg_left hu1 hu, mul_le_mul_of_nonneg_left hv1 hu, mul_le_mul_of_nonneg_left hv1 hv]
    have k2 : 0 ≤ 5 * (u + v) := by linarith
    have r := mul_le_mul k hS (by positivity) k2
    have : 0 ≤ (u + v) * M := mul_nonneg (by linarith) hM
    linarith
  · refine le_trans ?_ hS
    exact div_le_div_of_nonneg_right (abs_add_three _ _ _) hg.le

theorem eucl_le_of_coords {p q : Pt ℝ} {e : ℝ} (h1 : |p.1 - q.1| ≤ e) (h2 : |p.2 - q.2| ≤ e) : eucl p q ≤ 17 / 12 * e := by
  have he : 0 ≤ e := (abs_nonneg _).trans h1
  unfold eucl
  rw [Real.sqrt_le_left (by positivity)]
  have a := sq_le_sq' (by linarith [(abs_le.1 h1).1]) (abs_le.1 h1).2
  have b := sq_le_sq' (by linarith [(abs_le.1 h2).1]) (abs_le.1 h2).2
  nlinarith [sq_nonneg e]

theorem orthogLine_defined (h : FlOk F u v) (t : Thr ℝ) {l : V3 ℝ} (hl : 1 / 2 ≤ Real.sqrt (l 0 ^ 2 + l 1 ^ 2)) (p : Pt ℝ) : ∃ m, orthogLine F t l p = .ok m := by
  unfold orthogLine
  obtain ⟨m, e⟩ := normalize_defined h t (w := ![- l 1, l 0, F.rnd (F.rnd (l 1 * p.1) - F.rnd (l 0 * p.2))]) (by
    simp only [Matrix.cons_val_zero, Matrix.cons_val_one]; rw [neg_sq, add_comm]; exact hl)
  obtain ⟨m', e'⟩ := normalize_defined h t (normalize_norm h e)
  exact ⟨m', by rw [e]; exact e'⟩

/-- Points far from the line: there is a segment. -/
theorem orthogSegment_found (h : FlOk F u v) {ac : ℝ → ℝ} {w : ℝ} (ha : AcosOk ac w) {t : Thr ℝ} (ht : t.nullAngleValue + (Real.pi * Real.sqrt (11 * u / 2) + w * (Real.pi / 2)) ≤ 4 / 5) {M : ℝ} {l : V3 ℝ} {p : Pt ℝ}
    (ho : Orthog t M l p) (hl : 1 / 2 ≤ Real.sqrt (l 0 ^ 2 + l 1 ^ 2)) {Q : Pt ℝ} (hQ : ClosestOn l p Q) (hd : t.nullDistance + 130 * (u + v) * M ≤ eucl p Q) :
    ∃ q, orthogSegment F t ac l p = .ok (some (q, p)) := by
  have hu := h.u_nonneg
  have hu1 := h.u_small
  have hv := h.v_nonneg
  have hv1 := h.v_small
  have hM : 0 ≤ M := (abs_nonneg _).trans ho.x
  have hB : 0 ≤ (u + v) * M := mul_nonneg (by linarith) hM
  obtain ⟨Q', c1, c2, c3⟩ := closest_eq ho.dir p
  have ed : eucl p Q = eucl p Q' := le_antisymm (hQ.2 _ c1.1) (c1.2 _ hQ.1)
  rw [ed] at hd
  obtain ⟨d1, d2⟩ := lineDist_off h ho
  rw [← c3] at d1 d2
  obtain ⟨m, hm⟩ := orthogLine_defined h t hl p
  obtain ⟨q, e, qx, qy⟩ := foot_err h ho hm c1.1 c2
  have op := orth_pair h ho hm
  refine ⟨q, ?_⟩
  rw [orthogSegment_form, if_neg (by have := (abs_le.1 d1).1; linarith), hm]
  simp only [Res.bind_ok]
  have hi : lineInter F t ac l m = .ok (some q) := by
    unfold lineInter
    rw [not_parallel h ha t ho.dir op.dir (ht.trans op.sin), e]; rfl
  rw [hi]
  simp only [Res.bind_ok]
  rw [if_neg]
  · rfl
  · have e1 := eucl_le_of_coords qx qy
    have e2 := eucl_triangle p q Q'
    have e3 := eucl_triangle q Q' p
    rw [eucl_comm p q] at e2
    rw [eucl_comm Q' p] at e3
    have e4 := (abs_le.1 (distPt_err h q p)).1
    have huM : u * M ≤ 1 / 64 * M := mul_le_mul_of_nonneg_right hu1 hM
    have e5 : eucl q p ≤ 5 * M := by linarith
    have e6 : (1 + u) * (1 + v) - 1 ≤ 33 / 32 * (u + v) := by nlinarith
    have e7 : ((1 + u) * (1 + v) - 1) * eucl q p ≤ 33 / 32 * (u + v) * (5 * M) := mul_le_mul e6 e5 (eucl_nonneg _ _) (by positivity)
    have hvM : 0 ≤ v * M := mul_nonneg hv hM
    unfold PtSame
    linarith

end H2d.Fl
