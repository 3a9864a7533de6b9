import Verif.Spec.FloatCross
import Verif.Lemmas.FloatAngle
import Verif.Lemmas.FloatLine

/-! # Lemmas for intersections with rounded operations -/

namespace H2d.Fl
open H2d.Spec

variable {F : Arith} {u v : ℝ}

theorem diffRnd_err (h : FlOk F u v) (a b c d : ℝ) : |F.rnd (F.rnd (a * b) - F.rnd (c * d)) - (a * b - c * d)| ≤ 33 / 16 * u * (|a * b| + |c * d|) := by
  have := dotRnd_err h a b (-c) d
  rwa [neg_mul, h.odd, abs_neg, ← sub_eq_add_neg, ← sub_eq_add_neg] at this

/-- `|a d| + |b c| ≤ √(a²+b²) √(c²+d²)`. -/
theorem cs_abs (a b c d : ℝ) : |a * d| + |b * c| ≤ Real.sqrt (a ^ 2 + b ^ 2) * Real.sqrt (c ^ 2 + d ^ 2) := by
  rw [← Real.sqrt_mul (by positivity)]
  apply Real.le_sqrt_of_sq_le
  rw [abs_mul, abs_mul, ← sq_abs a, ← sq_abs b, ← sq_abs c, ← sq_abs d]
  nlinarith [sq_nonneg (|a| * |c| - |b| * |d|)]

/-- Quotient of two numbers with an absolute error. -/
theorem quot_main (h : FlOk F u v) {X D X' D' N C s x : ℝ} (hN : 0 < N) (hC : 0 ≤ C) (hs : s * N ≤ |D|) (hs1 : s ≤ 1) (hsu : 8 * u ≤ s) (hs0 : 0 < s) (hX : |X' - X| ≤ 33 / 16 * u * (2 * (N * C)))
    (hD : |D' - D| ≤ 33 / 16 * u * N) (hx : X = x * D) : D' ≠ 0 ∧ |F.rnd (X' / D') - x| ≤ 6 * u * (C + |x|) / s := by
  have hu := h.u_nonneg
  have hu1 := h.u_small
  have hD1 : 5 / 7 * (s * N) ≤ |D'| := by
    have h1 : |D| - |D'| ≤ |D' - D| := by have := abs_sub_abs_le_abs_sub D D'; rwa [abs_sub_comm D D'] at this
    have h2 : 33 / 16 * u * N ≤ 2 / 7 * (s * N) := by nlinarith
    linarith
  have hsN : 0 < s * N := mul_pos hs0 hN
  have hD0 : 0 < |D'| := by linarith
  have hne : D' ≠ 0 := abs_pos.1 hD0
  refine ⟨hne, ?_⟩
  have hq : |X' / D' - x| ≤ 231 / 80 * u * (2 * C + |x|) / s := by
    have e : X' / D' - x = (X' - X - x * (D' - D)) / D' := by rw [hx]; field_simp; ring
    rw [e, abs_div, div_le_iff₀ hD0]
    have h1 : |X' - X - x * (D' - D)| ≤ 33 / 16 * u * N * (2 * C + |x|) := by
      have a1 := abs_sub (X' - X) (x * (D' - D))
      rw [abs_mul x] at a1
      have a2 := mul_le_mul_of_nonneg_left hD (abs_nonneg x)
      linarith
    refine h1.trans ?_
    have hK : 0 ≤ 2 * C + |x| := by positivity
    have h2 : 231 / 80 * u * (2 * C + |x|) / s * (5 / 7 * (s * N)) ≤ 231 / 80 * u * (2 * C + |x|) / s * |D'| := mul_le_mul_of_nonneg_left hD1 (by positivity)
    refine le_trans (le_of_eq ?_) h2
    field_simp
    ring
  have hr := h.err (X' / D')
  have h3 : |X' / D'| ≤ |x| + 231 / 80 * u * (2 * C + |x|) / s := by
    have := abs_sub_abs_le_abs_sub (X' / D') x
    linarith
  have h4 : |F.rnd (X' / D') - x| ≤ |F.rnd (X' / D') - X' / D'| + |X' / D' - x| := abs_sub_le _ _ _
  have h5 := mul_le_mul_of_nonneg_left h3 hu
  have hx0 := abs_nonneg x
  set E := 231 / 80 * u * (2 * C + |x|) / s with hE
  have hE0 : 0 ≤ E := by positivity
  have h6 : u * E ≤ E / 64 := by nlinarith
  have h7 : u * |x| ≤ u * |x| / s := by rw [le_div_iff₀ hs0]; nlinarith [mul_nonneg hu hx0]
  have e1 : E = 231 / 40 * (u * C / s) + 231 / 80 * (u * |x| / s) := by rw [hE]; ring
  have e2 : 6 * u * (C + |x|) / s = 6 * (u * C / s) + 6 * (u * |x| / s) := by ring
  have p1 : 0 ≤ u * C / s := by positivity
  have p2 : 0 ≤ u * |x| / s := by positivity
  rw [e2]
  linarith

theorem crossXY_err (h : FlOk F u v) {l m : V3 ℝ} (hl : 0 < l 0 ^ 2 + l 1 ^ 2) (hm : 0 < m 0 ^ 2 + m 1 ^ 2) {s C : ℝ} (hs0 : 0 < s) (hsu : 8 * u ≤ s) (hs : s ≤ sinLines l m)
    (hCl : offLine l ≤ C) (hCm : offLine m ≤ C) {p : Pt ℝ} (hp : OnBoth l m p) :
    ∃ q, crossXY F l m = some q ∧ |q.1 - p.1| ≤ 6 * u * (C + |p.1|) / s ∧ |q.2 - p.2| ≤ 6 * u * (C + |p.2|) / s := by
  have hu := h.u_nonneg
  unfold sinLines offLine at *
  have hnl : 0 < Real.sqrt (l 0 ^ 2 + l 1 ^ 2) := Real.sqrt_pos.2 hl
  have hnm : 0 < Real.sqrt (m 0 ^ 2 + m 1 ^ 2) := Real.sqrt_pos.2 hm
  have al0 : |l 0| ≤ Real.sqrt (l 0 ^ 2 + l 1 ^ 2) := Real.abs_le_sqrt (by nlinarith [sq_nonneg (l 1)])
  have al1 : |l 1| ≤ Real.sqrt (l 0 ^ 2 + l 1 ^ 2) := Real.abs_le_sqrt (by nlinarith [sq_nonneg (l 0)])
  have am0 : |m 0| ≤ Real.sqrt (m 0 ^ 2 + m 1 ^ 2) := Real.abs_le_sqrt (by nlinarith [sq_nonneg (m 1)])
  have am1 : |m 1| ≤ Real.sqrt (m 0 ^ 2 + m 1 ^ 2) := Real.abs_le_sqrt (by nlinarith [sq_nonneg (m 0)])
  have hcs := cs_abs (l 0) (l 1) (m 0) (m 1)
  set nl := Real.sqrt (l 0 ^ 2 + l 1 ^ 2)
  set nm := Real.sqrt (m 0 ^ 2 + m 1 ^ 2)
  have hN : 0 < nl * nm := mul_pos hnl hnm
  have hC : 0 ≤ C := le_trans (by positivity) hCl
  rw [div_le_iff₀ hnl] at hCl
  rw [div_le_iff₀ hnm] at hCm
  rw [le_div_iff₀ hN] at hs
  have hs1 : s ≤ 1 := by
    have : |l 0 * m 1 - l 1 * m 0| ≤ nl * nm := (abs_sub _ _).trans hcs
    have : s * (nl * nm) ≤ 1 * (nl * nm) := by linarith
    exact le_of_mul_le_mul_right this hN
  have dD := diffRnd_err h (l 0) (m 1) (l 1) (m 0)
  have dX := diffRnd_err h (l 1) (m 2) (l 2) (m 1)
  have dY := diffRnd_err h (l 2) (m 0) (l 0) (m 2)
  have hk : 0 ≤ 33 / 16 * u := by positivity
  have bX : |l 1 * m 2| + |l 2 * m 1| ≤ 2 * (nl * nm * C) := by
    rw [abs_mul, abs_mul]
    have h1 := mul_le_mul al1 hCm (abs_nonneg _) hnl.le
    have h2 := mul_le_mul hCl am1 (abs_nonneg _) (by positivity)
    linarith
  have bY : |l 2 * m 0| + |l 0 * m 2| ≤ 2 * (nl * nm * C) := by
    rw [abs_mul, abs_mul]
    have h1 := mul_le_mul al0 hCm (abs_nonneg _) hnl.le
    have h2 := mul_le_mul hCl am0 (abs_nonneg _) (by positivity)
    linarith
  obtain ⟨p1, p2⟩ := hp
  obtain ⟨n0, kx⟩ := quot_main h hN hC hs hs1 hsu hs0 (dX.trans (mul_le_mul_of_nonneg_left bX hk)) (dD.trans (mul_le_mul_of_nonneg_left hcs hk)) (x := p.1) (by linear_combination l 1 * p2 - m 1 * p1)
  obtain ⟨-, ky⟩ := quot_main h hN hC hs hs1 hsu hs0 (dY.trans (mul_le_mul_of_nonneg_left bY hk)) (dD.trans (mul_le_mul_of_nonneg_left hcs hk)) (x := p.2) (by linear_combination m 0 * p1 - l 0 * p2)
  refine ⟨(_, _), ?_, kx, ky⟩
  simp only [crossXY, crossProd, getXY, Matrix.cons_val, Matrix.cons_val_zero, Matrix.cons_val_one, n0, if_false]

theorem crossXY_comm (h : FlOk F u v) (l m : V3 ℝ) : crossXY F l m = crossXY F m l := by
  unfold crossXY
  rw [crossProd_swap h l m]
  simp only [getXY, neg_div_neg_eq, neg_eq_zero]

end H2d.Fl
