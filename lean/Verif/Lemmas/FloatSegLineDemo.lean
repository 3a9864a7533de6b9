import Verif.Lemmas.FloatSegLine
import Verif.Lemmas.FloatInsideDemo

/-! # Concrete cases for the intersection of a segment and a line with rounded operations -/

namespace H2d.Fl
open H2d.Spec H2d.Props H2d.Inside

theorem demo_err : Real.pi * Real.sqrt (11 * u53 / 2) + 0 * (Real.pi / 2) ≤ 1 / 10 ^ 6 := by
  have h1 : Real.sqrt (11 * u53 / 2) ≤ 248 / 10 ^ 10 := by
    rw [Real.sqrt_le_left (by norm_num)]; norm_num
  have h2 := mul_le_mul_of_nonneg_left h1 Real.pi_pos.le
  have h3 := Real.pi_le_four
  linarith

/-- The segment from the origin to (4, 3), the line `3 x + 4 y = 12`. -/
theorem demo_segLn : SegLn (binary 53) stdR u53 0 4 5 (24 / 25) ((0, 0), (4, 3)) ![3, 4, -12] := by
  have l1 : eucl (0, 0) (4, 3) = 5 := by rw [eucl_eq_iff (by norm_num)]; norm_num
  have s5 : Real.sqrt (3 ^ 2 + 4 ^ 2) = 5 := by rw [show (3 : ℝ) ^ 2 + 4 ^ 2 = 5 * 5 by norm_num, Real.sqrt_mul_self (by norm_num)]
  have de := demo_err
  refine ⟨demoPair.rep1, demoPair.slope1, by norm_num, by simp only [l1]; norm_num, by norm_num [Matrix.cons_val_zero, Matrix.cons_val_one], ?_, by norm_num, ?_, by norm_num, by norm_num [stdR], by norm_num [stdR, dblEps], ?_⟩
  · unfold offLine
    simp only [Matrix.cons_val_zero, Matrix.cons_val_one, Matrix.cons_val, s5]
    norm_num
  · unfold sinLineSeg
    simp only [Matrix.cons_val_zero, Matrix.cons_val_one, s5, l1]
    norm_num
  · refine (add_le_add_right de _).trans ?_
    norm_num [stdR]

/-- The same segment, a line that is parallel to it: `3 x - 4 y = 20`. -/
theorem demo_aside : SegAside (binary 53) stdR u53 u53 0 4 (1 / 2500) ((0, 0), (4, 3)) ![3, -4, -20] := by
  have l1 : eucl (0, 0) (4, 3) = 5 := by rw [eucl_eq_iff (by norm_num)]; norm_num
  have s5 : Real.sqrt (3 ^ 2 + (-4) ^ 2) = 5 := by rw [show (3 : ℝ) ^ 2 + (-4) ^ 2 = 5 * 5 by norm_num, Real.sqrt_mul_self (by norm_num)]
  have de := demo_err
  refine ⟨demoPair.rep1, demoPair.slope1, by simp only [l1]; norm_num [stdR], by norm_num [Matrix.cons_val_zero, Matrix.cons_val_one], ?_, by simp only [l1]; norm_num, by norm_num [stdR, dblEps], by norm_num, by norm_num, ?_, Or.inr ?_⟩
  · unfold offLine
    simp only [Matrix.cons_val_zero, Matrix.cons_val_one, Matrix.cons_val, s5]
    norm_num
  · refine (add_le_add_right de _).trans ?_
    norm_num [stdR]
  · unfold sideDist asideMargin
    simp only [Matrix.cons_val_zero, Matrix.cons_val_one, Matrix.cons_val, s5, l1]
    norm_num [stdR]

/-- The edges of the L and the line `x = -1/2`. -/
theorem lPoly_line : ∀ e ∈ polyEdges lPoly, (SegLn (binary 53) stdR u53 0 4 1 1 e ![1, 0, 1 / 2] ∧ Crosses ![1, 0, 1 / 2] e) ∨ SegAside (binary 53) stdR u53 u53 0 4 (1 / 2500) e ![1, 0, 1 / 2] := by
  intro e he
  have hf := lPoly_fine e he
  have hl := lPoly_len e he
  have de := demo_err
  have q1 : Real.sqrt ((1 : ℝ) ^ 2 + 0 ^ 2) = 1 := by norm_num
  have hoff : offLine ![1, 0, 1 / 2] ≤ 8 / 5 * 4 := by
    unfold offLine
    simp only [Matrix.cons_val_zero, Matrix.cons_val_one, Matrix.cons_val, q1]
    norm_num
  have hsd : ∀ p : Pt ℝ, sideDist ![1, 0, 1 / 2] p = p.1 + 1 / 2 := by
    intro p
    unfold sideDist
    simp only [Matrix.cons_val_zero, Matrix.cons_val_one, Matrix.cons_val, q1]
    ring
  have hn : (0 : ℝ) < (![1, 0, 1 / 2] : V3 ℝ) 0 ^ 2 + (![1, 0, 1 / 2] : V3 ℝ) 1 ^ 2 := by norm_num [Matrix.cons_val_zero, Matrix.cons_val_one]
  have hcross : ∀ e : Seg, e ∈ polyEdges lPoly → e.1.2 = e.2.2 → (e.1.1 + 1 / 2) * (e.2.1 + 1 / 2) < 0 → (SegLn (binary 53) stdR u53 0 4 1 1 e ![1, 0, 1 / 2] ∧ Crosses ![1, 0, 1 / 2] e) := by
    intro e he h1 h2
    have hE : eucl e.1 e.2 = |e.2.1 - e.1.1| := by
      rw [eucl_eq_iff (abs_nonneg _), sq_abs, h1]; ring
    refine ⟨⟨(lPoly_fine e he).1, (lPoly_len e he).2, by norm_num, (lPoly_len e he).1, hn, hoff, by norm_num, ?_, by norm_num, by norm_num [stdR], by norm_num [stdR, dblEps], ?_⟩, ?_⟩
    · unfold sinLineSeg
      simp only [Matrix.cons_val_zero, Matrix.cons_val_one, q1]
      have h0 : 0 < eucl e.1 e.2 := lt_of_lt_of_le one_pos (lPoly_len e he).1
      rw [one_mul, zero_mul, add_zero, one_mul, ← hE, div_self h0.ne']
    · refine (add_le_add_right de _).trans ?_
      norm_num [stdR]
    · unfold Crosses
      rw [hsd, hsd]
      exact h2
  have haside : ∀ e : Seg, e ∈ polyEdges lPoly → (1 / 4 < e.1.1 + 1 / 2 ∧ 1 / 4 < e.2.1 + 1 / 2) ∨ (e.1.1 + 1 / 2 < -(1 / 4) ∧ e.2.1 + 1 / 2 < -(1 / 4)) → SegAside (binary 53) stdR u53 u53 0 4 (1 / 2500) e ![1, 0, 1 / 2] := by
    intro e he h1
    have hl := (lPoly_len e he).1
    have hA : asideMargin stdR u53 u53 4 (eucl e.1 e.2) (1 / 2500) ≤ 1 / 4 := by
      have : u53 * 4 ^ 2 / eucl e.1 e.2 ≤ u53 * 4 ^ 2 := div_le_self (by positivity) hl
      unfold asideMargin
      have h2 : (140 * (u53 * 4 / (1 / 2500)) + 61 * (u53 * 4 ^ 2) + 6 * (u53 + u53) * 4 + 11 / 20 * stdR.nullDistance : ℝ) ≤ 1 / 4 := by norm_num [stdR]
      linarith
    refine ⟨(lPoly_fine e he).1, (lPoly_len e he).2, (lPoly_fine e he).2, hn, hoff, ?_, by norm_num [stdR, dblEps], by norm_num, by norm_num, ?_, ?_⟩
    · refine le_trans (by norm_num : (512 * (u53 * 4 ^ 2) : ℝ) ≤ 1 ^ 2) (pow_le_pow_left₀ (by norm_num) hl 2)
    · refine (add_le_add_right de _).trans ?_
      norm_num [stdR]
    · unfold Aside
      rw [hsd, hsd]
      rcases h1 with ⟨a, b⟩ | ⟨a, b⟩
      · exact Or.inl ⟨by linarith, by linarith⟩
      · exact Or.inr ⟨by linarith, by linarith⟩
  have he' := he
  rw [lPoly_edges] at he'
  simp only [List.mem_cons, List.not_mem_nil, or_false] at he'
  rcases he' with rfl | rfl | rfl | rfl | rfl | rfl
  · exact Or.inl (hcross _ he (by norm_num) (by norm_num))
  · exact Or.inr (haside _ he (by norm_num))
  · exact Or.inr (haside _ he (by norm_num))
  · exact Or.inr (haside _ he (by norm_num))
  · exact Or.inl (hcross _ he (by norm_num) (by norm_num))
  · exact Or.inr (haside _ he (by norm_num))

/-- Far from the origin, the point of the segment is missed. -/
theorem far_line_none {p : ℕ} (hp : 6 ≤ p) {N : ℝ} (hN : (2 : ℝ) ^ (p - 1) = N) {t : Thr ℝ} {ac : ℝ → ℝ} {w : ℝ} (ha : AcosOk ac w) (h1 : t.nullDistance ≤ 1 / 2) (h2 : t.nullAngleValue ≤ 1) :
    segLineInter (binary p) t ac ((N, N + 1), (N + 3, N + 1)) ![1, 0, -(N + 1)] = .ok none := by
  have h := binary_ok hp
  obtain ⟨h32, r0, r1, r3⟩ := far_reps hp hN
  obtain ⟨s0, s1, s2, s3, s4, m1, m2⟩ := far_nums hp hN
  have r0 : (binary p).rnd N = N := r0
  have r1 : (binary p).rnd (N + 1) = N + 1 := r1
  have hcos : cosArg (binary p) ![1, 0, -(N + 1)] ![0, 1, -N] = some 0 := by
    have q1 : sqrtF (binary p) 1 = some 1 := by
      unfold sqrtF
      rw [if_neg (by norm_num), Real.sqrt_one, s1]
    have q2 : divF (binary p) 0 1 = some 0 := by
      unfold divF
      rw [if_neg (by norm_num), zero_div, s0]
    unfold cosArg norm2
    simp only [Matrix.cons_val_zero, Matrix.cons_val_one, zero_mul, mul_zero, mul_one, one_mul, s0, s1, zero_add, add_zero, q1]
    change (divF (binary p) 0 1).bind _ = _
    rw [q2]
    show some (if |(0 : ℝ)| > 1 then 1 else |(0 : ℝ)|) = some 0
    rw [abs_zero, if_neg (by norm_num)]
  have hac : 1 ≤ ac 0 := by
    have := abs_le.1 (ha.err 0 (by norm_num) (by norm_num))
    rw [Real.arccos_zero] at this
    have hw := ha.w_small
    have hpi := Real.pi_gt_three
    have h5 : w * (Real.pi / 2) ≤ 1 / 64 * (Real.pi / 2) := mul_le_mul_of_nonneg_right hw (by positivity)
    linarith [this.1]
  have hpar : isParallel (binary p) t ac ![1, 0, -(N + 1)] ![0, 1, -N] = false := by
    unfold isParallel lineAngle
    rw [hcos]
    simp only [Option.bind_eq_bind, Option.bind_some]
    rw [if_neg (by norm_num)]
    exact decide_eq_false (by linarith)
  have hx : crossXY (binary p) ![1, 0, -(N + 1)] ![0, 1, -N] = some (N + 1, N) := by
    have e : crossProd (binary p) ![1, 0, -(N + 1)] ![0, 1, -N] = ![N + 1, N, 1] := by
      unfold crossProd
      simp only [Matrix.cons_val_zero, Matrix.cons_val_one, Matrix.cons_val, mul_one, one_mul, mul_zero, zero_mul, s0, s1, h.odd, r0, r1, sub_zero, zero_sub, neg_neg]
    unfold crossXY
    rw [e]
    simp only
    rw [if_neg (by show ¬ (1 : ℝ) = 0; norm_num)]
    simp only [getXY, Matrix.cons_val_zero, Matrix.cons_val_one, Matrix.cons_val]
    rw [div_one, div_one, r0, r1]
  have e8 : ∀ n : ℤ, |n| ≤ 32 → (binary p).rnd ((n : ℝ) * 2 ^ (-3 : ℤ)) = (n : ℝ) * 2 ^ (-3 : ℤ) := fun n hn => roundTo_exact (by omega) (hn.trans (by
    calc (32 : ℤ) = 2 ^ 5 := by norm_num
      _ ≤ 2 ^ p := pow_le_pow_right₀ (by norm_num) (by omega)))
  have e11 : (binary p).rnd (11 / 8) = 11 / 8 := by have := e8 11 (by norm_num); norm_num at this; exact this
  have e17 : (binary p).rnd (17 / 8) = 17 / 8 := by have := e8 17 (by norm_num); norm_num at this; exact this
  have e28 : (binary p).rnd (7 / 2) = 7 / 2 := by have := e8 28 (by norm_num); norm_num at this; exact this
  have e4 : (binary p).rnd (1 / 2) = 1 / 2 := by have := e8 4 (by norm_num); norm_num at this; exact this
  have hb : ¬ Between (binary p) t ((N, N + 1), (N + 3, N + 1)) (N + 1, N) := by
    intro k
    have d1 : 11 / 8 ≤ distPt (binary p) (N, N + 1) (N + 1, N) := by
      have e : distPt (binary p) (N, N + 1) (N + 1, N) = (binary p).rnd (Real.sqrt 2) := by
        unfold distPt
        simp only
        rw [show N - (N + 1) = -1 by ring, h.odd, show N + 1 - N = 1 by ring, s1, hyp_exact (c := Real.sqrt 2) (Real.sqrt_nonneg _) (by rw [Real.sq_sqrt (by norm_num)]; norm_num)]
      have := h.mono (Real.le_sqrt_of_sq_le (by norm_num : (11 / 8 : ℝ) ^ 2 ≤ 2))
      rw [e11] at this
      rw [e]; exact this
    have d2 : 17 / 8 ≤ distPt (binary p) (N + 3, N + 1) (N + 1, N) := by
      have e : distPt (binary p) (N + 3, N + 1) (N + 1, N) = (binary p).rnd (Real.sqrt 5) := by
        unfold distPt
        simp only
        rw [show N + 3 - (N + 1) = 2 by ring, show N + 1 - N = 1 by ring, s1, s2, hyp_exact (c := Real.sqrt 5) (Real.sqrt_nonneg _) (by rw [Real.sq_sqrt (by norm_num)]; norm_num)]
      have := h.mono (Real.le_sqrt_of_sq_le (by norm_num : (17 / 8 : ℝ) ^ 2 ≤ 5))
      rw [e17] at this
      rw [e]; exact this
    have d0 : distPt (binary p) (N, N + 1) (N + 3, N + 1) = 3 := by
      unfold distPt
      simp only
      rw [show N - (N + 3) = -3 by ring, sub_self, s0, h.odd, s3, hyp_exact (c := 3) (by norm_num) (by norm_num), s3]
    have k : |(binary p).rnd ((binary p).rnd (distPt (binary p) (N, N + 1) (N + 1, N) + distPt (binary p) (N + 3, N + 1) (N + 1, N)) - distPt (binary p) (N, N + 1) (N + 3, N + 1))| < t.nullDistance := k
    rw [d0] at k
    generalize distPt (binary p) (N, N + 1) (N + 1, N) = x1 at *
    generalize distPt (binary p) (N + 3, N + 1) (N + 1, N) = x2 at *
    have a1 := h.mono (by linarith : (7 / 2 : ℝ) ≤ x1 + x2)
    rw [e28] at a1
    have a2 := h.mono (by linarith : (1 / 2 : ℝ) ≤ (binary p).rnd (x1 + x2) - 3)
    rw [e4] at a2
    have := le_abs_self ((binary p).rnd ((binary p).rnd (x1 + x2) - 3))
    linarith
  unfold segLineInter lineInter
  simp only
  rw [far_line1 hp hN (by linarith)]
  simp only [Res.bind_ok, hpar, Bool.false_eq_true, if_false, hx]
  rw [if_neg hb]
  rfl

end H2d.Fl
