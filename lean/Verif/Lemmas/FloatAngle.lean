import Verif.Lemmas.FloatInter
import Mathlib.Analysis.SpecialFunctions.Trigonometric.Bounds
import Mathlib.Analysis.SpecialFunctions.Trigonometric.Inverse

/-! # Angle of lines with rounded operations -/

namespace H2d.Fl

open H2d.Spec

variable {F : Arith} {u v : ℝ}

theorem dotRnd_err (h : FlOk F u v) (a b c d : ℝ) : |F.rnd (F.rnd (a * b) + F.rnd (c * d)) - (a * b + c * d)| ≤ 33 / 16 * u * (|a * b| + |c * d|) := by
  have hu := h.u_nonneg
  have hu1 := h.u_small
  have h1 := h.err (a * b)
  have h2 := h.err (c * d)
  have h3 : |F.rnd (a * b) + F.rnd (c * d) - (a * b + c * d)| ≤ u * (|a * b| + |c * d|) := by
    rw [add_sub_add_comm]
    refine (abs_add_le _ _).trans ?_
    linarith
  have := rnd_near h h3 (abs_add_le _ _)
  refine this.trans (mul_le_mul_of_nonneg_right ?_ (by positivity))
  nlinarith [mul_nonneg hu (sub_nonneg.2 hu1)]

/-- Product of two approximate values. -/
theorem mul_near' {x y a b e1 e2 : ℝ} (hx : |x - a| ≤ e1 * a) (hy : |y - b| ≤ e2 * b) (ha : 0 ≤ a) (hb : 0 ≤ b) : |x * y - a * b| ≤ (e1 + e2 + e1 * e2) * (a * b) := by
  have e : x * y - a * b = (x - a) * (y - b) + (x - a) * b + a * (y - b) := by ring
  have h1 : |(x - a) * (y - b)| ≤ e1 * a * (e2 * b) := by rw [abs_mul]; exact mul_le_mul hx hy (abs_nonneg _) ((abs_nonneg _).trans hx)
  have h2 : |(x - a) * b| ≤ e1 * a * b := by rw [abs_mul, abs_of_nonneg hb]; exact mul_le_mul_of_nonneg_right hx hb
  have h3 : |a * (y - b)| ≤ a * (e2 * b) := by rw [abs_mul, abs_of_nonneg ha]; exact mul_le_mul_of_nonneg_left hy ha
  rw [e]
  refine (abs_add_three _ _ _).trans ?_
  linarith

theorem angle_den (h : FlOk F u v) {G H : ℝ} (hG : 0 < G) (hH : 0 < H) {nA nB : ℝ} (hA : |nA - G ^ 2| ≤ 33 / 16 * u * G ^ 2) (hB : |nB - H ^ 2| ≤ 33 / 16 * u * H ^ 2) :
    ∃ s, sqrtF F (F.rnd (nA * nB)) = some s ∧ |s - G * H| ≤ 13 / 2 * u * (G * H) := by
  have hu := h.u_nonneg
  have hu1 := h.u_small
  have h1 := mul_near' hA hB (by positivity) (by positivity)
  have hp : 0 < G ^ 2 * H ^ 2 := by positivity
  have h2 := rnd_near h h1 (abs_of_pos hp).le
  have h3 : |F.rnd (nA * nB) - (G * H) ^ 2| ≤ 27 / 5 * u * (G * H) ^ 2 := by
    rw [mul_pow]
    refine h2.trans (mul_le_mul_of_nonneg_right ?_ hp.le)
    have a1 := mul_nonneg hu (sub_nonneg.2 hu1)
    have a2 := mul_nonneg (mul_nonneg hu hu) (sub_nonneg.2 hu1)
    nlinarith
  have hGH : 0 < G * H := mul_pos hG hH
  have h0 : 0 ≤ F.rnd (nA * nB) := by nlinarith [(abs_le.1 h3).1, sq_nonneg (G * H)]
  refine ⟨_, if_neg (not_lt.2 h0), ?_⟩
  have h4 := sqrt_of_near hGH.le h0 h3
  have h5 := rnd_near h h4 (abs_of_pos hGH).le
  refine h5.trans (mul_le_mul_of_nonneg_right ?_ hGH.le)
  nlinarith [mul_nonneg hu (sub_nonneg.2 hu1)]

theorem cosArg_err (h : FlOk F u v) {l m : V3 ℝ} (hl : 0 < l 0 ^ 2 + l 1 ^ 2) (hm : 0 < m 0 ^ 2 + m 1 ^ 2) :
    ∃ x, cosArg F l m = some x ∧ 0 ≤ x ∧ x ≤ 1 ∧ |x - |l 0 * m 0 + l 1 * m 1| / (Real.sqrt (l 0 ^ 2 + l 1 ^ 2) * Real.sqrt (m 0 ^ 2 + m 1 ^ 2))| ≤ 11 * u := by
  have hu := h.u_nonneg
  have hA := norm2_err h (l 0) (l 1)
  have hB := norm2_err h (m 0) (m 1)
  have hd := dotRnd_err h (l 0) (m 0) (l 1) (m 1)
  have hc := abs_dot_le (l 0) (m 0) (l 1) (m 1)
  have hG := Real.sqrt_pos.2 hl
  have hH := Real.sqrt_pos.2 hm
  have sG := Real.sq_sqrt hl.le
  have sH := Real.sq_sqrt hm.le
  unfold cosArg
  generalize Real.sqrt (l 0 ^ 2 + l 1 ^ 2) = G at *
  generalize Real.sqrt (m 0 ^ 2 + m 1 ^ 2) = H at *
  rw [← sG] at hA
  rw [← sH] at hB
  obtain ⟨s, e1, hs⟩ := angle_den h hG hH hA hB
  have hGH : 0 < G * H := mul_pos hG hH
  have hd' : |F.rnd (F.rnd (l 0 * m 0) + F.rnd (l 1 * m 1)) - (l 0 * m 0 + l 1 * m 1)| ≤ 33 / 16 * u * (G * H) := hd.trans (mul_le_mul_of_nonneg_left hc (by positivity))
  have hy : |l 0 * m 0 + l 1 * m 1| ≤ G * H := (abs_add_le _ _).trans hc
  obtain ⟨hs0, hq⟩ := quot_rnd h (k := 11) hd' hy hs hGH (by norm_num) (by norm_num) (by norm_num) (by norm_num)
  rw [div_self hGH.ne', mul_one] at hq
  have e2 : divF F (F.rnd (F.rnd (l 0 * m 0) + F.rnd (l 1 * m 1))) s = some _ := if_neg hs0.ne'
  rw [e1]
  simp only [Option.bind_eq_bind, Option.bind_some]
  rw [e2]
  generalize F.rnd (F.rnd (F.rnd (l 0 * m 0) + F.rnd (l 1 * m 1)) / s) = x at hq
  refine ⟨_, rfl, ?_, ?_, ?_⟩
  · split_ifs <;> simp
  · split_ifs with hx
    · exact le_rfl
    · exact not_lt.1 hx
  · have e3 : |l 0 * m 0 + l 1 * m 1| / (G * H) = |(l 0 * m 0 + l 1 * m 1) / (G * H)| := by rw [abs_div, abs_of_pos hGH]
    have k1 : |l 0 * m 0 + l 1 * m 1| / (G * H) ≤ 1 := div_le_one_of_le₀ hy hGH.le
    have k2 := (abs_abs_sub_abs_le x ((l 0 * m 0 + l 1 * m 1) / (G * H))).trans hq
    rw [← e3] at k2
    split_ifs with hx
    · rw [abs_of_nonneg (by linarith)]
      have := (abs_le.1 k2).2
      linarith
    · exact k2

theorem arccos_holder_aux {α β : ℝ} (h0 : 0 ≤ α) (h1 : α ≤ β) (h2 : β ≤ Real.pi / 2) : (β - α) ^ 2 ≤ Real.pi ^ 2 / 2 * (Real.cos α - Real.cos β) := by
  have hp := Real.pi_pos
  rw [Real.cos_sub_cos]
  have s1 : 2 / Real.pi * ((β - α) / 2) ≤ Real.sin ((β - α) / 2) := Real.mul_le_sin (by linarith) (by linarith)
  have s2 : Real.sin ((β - α) / 2) ≤ Real.sin ((α + β) / 2) := Real.sin_le_sin_of_le_of_le_pi_div_two (by linarith) (by linarith) (by linarith)
  have s3 : Real.sin ((α - β) / 2) = - Real.sin ((β - α) / 2) := by rw [← Real.sin_neg]; congr 1; ring
  rw [s3]
  have s0 : 0 ≤ 2 / Real.pi * ((β - α) / 2) := mul_nonneg (by positivity) (by linarith)
  have k := mul_le_mul s1 (s1.trans s2) s0 (s0.trans s1)
  have e : 2 / Real.pi * ((β - α) / 2) * (2 / Real.pi * ((β - α) / 2)) = (β - α) ^ 2 / Real.pi ^ 2 := by field_simp
  rw [e, div_le_iff₀ (by positivity)] at k
  linarith

/-- `acos` is Hölder with exponent 1/2. -/
theorem arccos_holder {x φ δ : ℝ} (hx0 : 0 ≤ x) (hx1 : x ≤ 1) (h0 : 0 ≤ φ) (h1 : φ ≤ Real.pi / 2) (h : |x - Real.cos φ| ≤ δ) :
    |Real.arccos x - φ| ≤ Real.pi * Real.sqrt (δ / 2) := by
  have hp := Real.pi_pos
  have a0 := Real.arccos_nonneg x
  have a1 : Real.arccos x ≤ Real.pi / 2 := Real.arccos_le_pi_div_two.2 hx0
  have ac : Real.cos (Real.arccos x) = x := Real.cos_arccos (by linarith) hx1
  have key : (Real.arccos x - φ) ^ 2 ≤ Real.pi ^ 2 / 2 * δ := by
    rcases le_total (Real.arccos x) φ with hh | hh
    · have k := arccos_holder_aux a0 hh h1
      rw [ac] at k
      have := mul_le_mul_of_nonneg_left ((le_abs_self _).trans h) (show 0 ≤ Real.pi ^ 2 / 2 by positivity)
      nlinarith
    · have k := arccos_holder_aux h0 hh a1
      rw [ac] at k
      have := mul_le_mul_of_nonneg_left (((neg_le_abs _).trans h)) (show 0 ≤ Real.pi ^ 2 / 2 by positivity)
      nlinarith
  apply abs_le_of_sq_le_sq
  · have hd : 0 ≤ δ := (abs_nonneg _).trans h
    rw [mul_pow, Real.sq_sqrt (by positivity)]
    linarith
  · positivity

theorem lineAngle_err (h : FlOk F u v) {ac : ℝ → ℝ} {w : ℝ} (ha : AcosOk ac w) {l m : V3 ℝ} (hl : 0 < l 0 ^ 2 + l 1 ^ 2) (hm : 0 < m 0 ^ 2 + m 1 ^ 2) {φ : ℝ} (hφ : IsAngle l m φ) :
    ∃ θ x, Fl.lineAngle F ac l m = some θ ∧ 0 ≤ θ ∧ θ ≤ (1 + w) * (Real.pi / 2) ∧ θ = ac x ∧ 0 ≤ x ∧ x ≤ 1 ∧ |x - Real.cos φ| ≤ 11 * u ∧ |θ - φ| ≤ Real.pi * Real.sqrt (11 * u / 2) + w * (Real.pi / 2) := by
  obtain ⟨x, e, hx0, hx1, hx⟩ := cosArg_err h hl hm
  have hw := ha.w_nonneg
  have hw1 := ha.w_small
  have hp := Real.pi_pos
  have hc : Real.cos φ = |l 0 * m 0 + l 1 * m 1| / (Real.sqrt (l 0 ^ 2 + l 1 ^ 2) * Real.sqrt (m 0 ^ 2 + m 1 ^ 2)) :=
    (eq_div_iff (mul_pos (Real.sqrt_pos.2 hl) (Real.sqrt_pos.2 hm)).ne').2 hφ.2.2
  rw [← hc] at hx
  have k1 := ha.err x (by linarith) hx1
  have a0 := Real.arccos_nonneg x
  have a1 : Real.arccos x ≤ Real.pi / 2 := Real.arccos_le_pi_div_two.2 hx0
  have k2 := arccos_holder hx0 hx1 hφ.1 hφ.2.1 hx
  have k3 := mul_le_mul_of_nonneg_left a1 hw
  have k4 := mul_le_mul_of_nonneg_right hw1 a0
  refine ⟨ac x, x, ?_, by linarith [(abs_le.1 k1).1], by linarith [(abs_le.1 k1).2], rfl, hx0, hx1, hx, ?_⟩
  · unfold Fl.lineAngle
    rw [e]
    simp only [Option.bind_eq_bind, Option.bind_some]
    rw [if_neg (by push Not; constructor <;> linarith)]
  · have := abs_add_le (ac x - Real.arccos x) (Real.arccos x - φ)
    rw [sub_add_sub_cancel] at this
    linarith

theorem cosArg_comm (l m : V3 ℝ) : cosArg F l m = cosArg F m l := by
  unfold cosArg
  rw [mul_comm (l 0), mul_comm (l 1), mul_comm (norm2 F (l 0) (l 1))]

theorem cosArg_neg (h : FlOk F u v) (l m : V3 ℝ) : cosArg F (fun i => - l i) m = cosArg F l m := by
  unfold cosArg
  have e1 : norm2 F (-l 0) (-l 1) = norm2 F (l 0) (l 1) := by unfold norm2; rw [neg_mul_neg, neg_mul_neg]
  have e2 : F.rnd (F.rnd (-l 0 * m 0) + F.rnd (-l 1 * m 1)) = - F.rnd (F.rnd (l 0 * m 0) + F.rnd (l 1 * m 1)) := by
    rw [neg_mul, neg_mul, h.odd, h.odd, ← neg_add, h.odd]
  simp only [e1, e2]
  unfold divF
  congr 1
  funext s
  split_ifs with hs
  · rfl
  · simp only [neg_div, h.odd, Option.bind_eq_bind, Option.bind_some, abs_neg]

/-- Two lines with different directions, the computed cosine is 1. -/
theorem small_angle {p k : ℕ} (hp : 6 ≤ p) (hk : p + 1 ≤ 2 * k) (hk2 : 2 * k ≤ p + 2) : cosArg (binary p) ![1, 0, 0] ![2 ^ k, 1, 0] = some 1 := by
  have h := binary_ok hp
  have hkp : k ≤ p := by omega
  have r1 : (binary p).rnd 1 = 1 := by
    have : IntUpTo 1 (1 : ℝ) := ⟨1, by norm_num, by norm_num⟩
    exact this.rnd (by omega) (one_le_pow₀ (by norm_num))
  have rk : (binary p).rnd (2 ^ k) = 2 ^ k := by
    have : IntUpTo (2 ^ k) ((2 : ℝ) ^ k) := ⟨2 ^ k, by rw [abs_of_nonneg (by positivity)], by push_cast; rfl⟩
    exact this.rnd (by omega) (pow_le_pow_right₀ (by norm_num) hkp)
  have key : ∀ x : ℝ, 2 ^ (2 * k) ≤ x → x < 2 ^ (2 * k) + 3 / 2 → (binary p).rnd x = 2 ^ (2 * k) := by
    intro x hx1 hx2
    have e : (2 : ℝ) ^ (2 * k) = 2 ^ (p - 1) * 2 ^ (2 * k + 1 - p) := by rw [← pow_add]; congr 1; omega
    have e4 : (4 : ℝ) ≤ 2 ^ (2 * k + 1 - p) := by
      have : (2 : ℝ) ^ 2 ≤ 2 ^ (2 * k + 1 - p) := pow_le_pow_right₀ (by norm_num) (by omega)
      linarith
    have h1 : (1 : ℝ) ≤ 2 ^ (p - 1) := one_le_pow₀ (by norm_num)
    have := rnd_at (p := p) (by omega) (x := x) (k := ((2 * k + 1 - p : ℕ) : ℤ)) (K := 2 ^ (2 * k + 1 - p)) (m := 2 ^ (p - 1)) rfl (zpow_natCast _ _) (by rw [← e]; exact hx1)
      (by rw [mul_assoc, ← e]; nlinarith [show (4 : ℝ) ≤ 2 ^ (2 * k) from e4.trans (by rw [e]; nlinarith)])
      (by push_cast; rw [← e, abs_of_nonneg (by linarith)]; linarith)
    rw [this, e]; push_cast; rfl
  have n1 : norm2 (binary p) 1 0 = 1 := by unfold norm2; simp [rnd_zero h, r1]
  have ek : (2 : ℝ) ^ k * 2 ^ k = 2 ^ (2 * k) := by rw [← pow_add]; congr 1; omega
  have n2 : norm2 (binary p) (2 ^ k) 1 = 2 ^ (2 * k) := by
    unfold norm2
    rw [ek, key _ le_rfl (by linarith), one_mul, r1, key _ (by linarith) (by linarith)]
  unfold cosArg
  simp only [Matrix.cons_val_zero, Matrix.cons_val_one, n1, n2, one_mul, zero_mul, rnd_zero h, rk, add_zero]
  have s1 : sqrtF (binary p) (2 ^ (2 * k)) = some (2 ^ k) := by
    unfold sqrtF
    rw [if_neg (not_lt.2 (by positivity)), ← ek, Real.sqrt_mul_self (by positivity), rk]
  rw [key _ le_rfl (by linarith), s1]
  have s2 : divF (binary p) (2 ^ k) (2 ^ k) = some 1 := by
    unfold divF
    rw [if_neg (by positivity), div_self (by positivity), r1]
  simp [s2]

end H2d.Fl
