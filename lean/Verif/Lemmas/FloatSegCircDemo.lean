import Verif.Lemmas.FloatSegCirc

/-! # Concrete segments and circles with rounded operations -/

namespace H2d.Fl
open H2d.Spec H2d.Props

/-- The segment (0,0)-(4,3) in `double`, default thresholds. -/
theorem demo_segCirc {c : Pt ℝ} {r : ℝ} (hx : |c.1| ≤ 4) (hy : |c.2| ≤ 4) (hr : r ≤ 4) : SegCirc (binary 53) stdR ((2 : ℝ) ^ (-((53 : ℕ) : ℤ))) 4 5 ((0, 0), (4, 3)) c r := by
  have l1 : eucl (0, 0) (4, 3) = 5 := by rw [eucl_eq_iff (by norm_num)]; norm_num
  exact ⟨demoPair.rep1, demoPair.slope1, by norm_num, by simp only [l1]; norm_num, by norm_num, by norm_num [stdR], by norm_num [stdR, dblEps], hx, hy, hr⟩

theorem demo_margin : scMargin ((2 : ℝ) ^ (-((53 : ℕ) : ℤ))) ((2 : ℝ) ^ (-((53 : ℕ) : ℤ))) 4 5 stdR.nullDistance ≤ 3 / 10 ^ 10 := by
  norm_num [scMargin, scErr, stdR]

theorem demo_thr : 1500 * scErr ((2 : ℝ) ^ (-((53 : ℕ) : ℤ))) 4 5 + 13 * ((2 : ℝ) ^ (-((53 : ℕ) : ℤ)) + (2 : ℝ) ^ (-((53 : ℕ) : ℤ))) * 4 < stdR.nullDistance := by
  norm_num [scErr, stdR]

/-- Far from the origin the line of the segment is off by one unit. -/
theorem far_circle {p : ℕ} (hp : 6 ≤ p) {N : ℝ} (hN : (2 : ℝ) ^ (p - 1) = N) {t : Thr ℝ} (h1 : t.nullDistance ≤ 1) :
    segCircle (binary p) t ((N, N + 1), (N + 3, N + 1)) (N + 1, N + 3) (5 / 2) = .ok (some []) := by
  have h := binary_ok hp
  obtain ⟨h32, r0, r1, r3⟩ := far_reps hp hN
  obtain ⟨s0, s1, s2, s3, s4, m1, m2⟩ := far_nums hp hN
  have r3 : (binary p).rnd (N + 3) = N + 3 := r3
  have hl := far_line1 hp hN (t := t) h1
  have hu : (2 : ℝ) ^ (-(p : ℤ)) ≤ 1 / 64 := h.u_small
  have tag : ptLabel (binary p) t (N + 3, N + 1) (N + 1, N + 3) (5 / 2) ≠ .inside := by
    have d := (abs_le.1 (distPt_err h (N + 3, N + 1) (N + 1, N + 3))).1
    have e := dist_e h
    have q : 14 / 5 ≤ eucl (N + 3, N + 1) (N + 1, N + 3) := by
      refine abs_le_of_sq_le_sq' ?_ (eucl_nonneg _ _) |>.2
      rw [eucl_sq]; ring_nf; norm_num
    have e' : (1 + (2 : ℝ) ^ (-(p : ℤ))) * (1 + (2 : ℝ) ^ (-(p : ℤ))) - 1 ≤ 65 / 64 * (1 / 32) := by linarith
    have := mul_le_mul_of_nonneg_right e' (eucl_nonneg (N + 3, N + 1) (N + 1, N + 3))
    unfold ptLabel
    rw [if_neg (by linarith)]
    split_ifs <;> simp
  have hc : Fl.lineCircle (binary p) ![0, 1, -N] (N + 1, N + 3) (5 / 2) = some none := by
    have n1 : norm2 (binary p) 0 1 = 1 := by unfold norm2; simp [s0, s1]
    have n2 : lineAt (binary p) ![0, 1, -N] (N + 1, N + 3) = 3 := by
      unfold lineAt
      simp only [Matrix.cons_val_zero, Matrix.cons_val_one, Matrix.cons_val, mul_zero, mul_one, s0, r3, zero_add]
      rw [show N + 3 + -N = 3 by ring, s3]
    unfold Fl.lineCircle
    simp only [n2]
    simp only [Matrix.cons_val_zero, Matrix.cons_val_one, n1]
    have q1 : sqrtF (binary p) 1 = some 1 := by unfold sqrtF; rw [if_neg (by norm_num), Real.sqrt_one, s1]
    have q2 : divF (binary p) |3| 1 = some 3 := by unfold divF; rw [if_neg one_ne_zero, div_one, abs_of_pos (by norm_num), s3]
    simp only [q1, q2, Option.bind_eq_bind, Option.bind_some]
    rw [if_pos (by norm_num)]
    rfl
  unfold segCircle
  simp only
  rw [if_neg (fun k => tag k.2), hl]
  simp only [bind, Res.bind, hc]
  rfl

/-! ### An end that is inside, near the circle -/

/-- The distance of the end to the circle: 2^-40. -/
theorem rep_delta (m : ℤ) (hm : |m| ≤ 2 ^ 53) {x : ℝ} (hx : x = m * (2 : ℝ) ^ (-40 : ℤ)) : (binary 53).rnd x = x := by
  rw [hx]; exact roundTo_exact (by norm_num) hm

theorem near_nums : (binary 53).rnd 0 = 0 ∧ (binary 53).rnd 1 = 1 ∧ (binary 53).rnd 2 = 2 ∧ (binary 53).rnd 3 = 3 ∧ (binary 53).rnd ((2 : ℝ) ^ (-40 : ℤ)) = (2 : ℝ) ^ (-40 : ℤ) ∧
    (binary 53).rnd (3 - (2 : ℝ) ^ (-40 : ℤ)) = 3 - (2 : ℝ) ^ (-40 : ℤ) ∧ (binary 53).rnd (3 + (2 : ℝ) ^ (-40 : ℤ)) = 3 + (2 : ℝ) ^ (-40 : ℤ) ∧
    (binary 53).rnd (1 - (2 : ℝ) ^ (-40 : ℤ)) = 1 - (2 : ℝ) ^ (-40 : ℤ) ∧ (binary 53).rnd (2 * (2 : ℝ) ^ (-40 : ℤ)) = 2 * (2 : ℝ) ^ (-40 : ℤ) := by
  refine ⟨rep_delta 0 (by norm_num) (by norm_num), rep_delta (2 ^ 40) (by norm_num) (by norm_num), rep_delta (2 ^ 41) (by norm_num) (by norm_num), rep_delta (3 * 2 ^ 40) (by norm_num) (by norm_num),
    rep_delta 1 (by norm_num) (by norm_num), rep_delta (3 * 2 ^ 40 - 1) (by norm_num) (by norm_num), rep_delta (3 * 2 ^ 40 + 1) (by norm_num) (by norm_num), rep_delta (2 ^ 40 - 1) (by norm_num) (by norm_num),
    rep_delta 2 (by norm_num) (by norm_num)⟩

theorem near_far_point {δ : ℝ} (hδ : δ = (2 : ℝ) ^ (-40 : ℤ)) : segCircle (binary 53) stdR ((-(1 - δ), 0), (2, 0)) (0, 0) 1 = .ok (some [(-1, 0)]) := by
  have h := binary_ok (p := 53) (by norm_num)
  obtain ⟨s0, s1, s2, s3, d1, d2, d3, d4, d5⟩ := near_nums
  rw [← hδ] at d1 d2 d3 d4 d5
  have dpos : 0 < δ := by rw [hδ]; positivity
  have dsm : δ < 1 / 10 ^ 11 := by rw [hδ]; norm_num
  have D12 : distPt (binary 53) (-(1 - δ), 0) (2, 0) = 3 - δ := by
    unfold distPt
    simp only [sub_zero, s0]
    rw [show -(1 - δ) - 2 = -(3 - δ) by ring, h.odd, d2, hyp_exact (c := 3 - δ) (by linarith) (by ring), d2]
  have D1c : distPt (binary 53) (-(1 - δ), 0) (0, 0) = 1 - δ := by
    unfold distPt
    simp only [sub_zero, s0]
    rw [h.odd, d4, hyp_exact (c := 1 - δ) (by linarith) (by ring), d4]
  have D2c : distPt (binary 53) (2, 0) (0, 0) = 2 := by
    unfold distPt
    simp only [sub_zero, s0, s2]
    rw [hyp_exact (c := 2) (by norm_num) (by ring), s2]
  have D1p : distPt (binary 53) (-(1 - δ), 0) (-1, 0) = δ := by
    unfold distPt
    simp only [sub_zero, s0]
    rw [show -(1 - δ) - -1 = δ by ring, d1, hyp_exact (c := δ) dpos.le (by ring), d1]
  have D2p : distPt (binary 53) (2, 0) (-1, 0) = 3 := by
    unfold distPt
    simp only [sub_zero, s0]
    rw [show (2 : ℝ) - -1 = 3 by norm_num, s3, hyp_exact (c := 3) (by norm_num) (by ring), s3]
  have t1 : ptLabel (binary 53) stdR (-(1 - δ), 0) (0, 0) 1 = .inside := by unfold ptLabel; rw [D1c, if_pos (by linarith)]
  have t2 : ptLabel (binary 53) stdR (2, 0) (0, 0) 1 = .outside := by
    unfold ptLabel; rw [D2c, if_neg (by norm_num), show (2 : ℝ) - 1 = 1 by norm_num, s1, if_neg (by norm_num [stdR])]
  have hc : crossProd (binary 53) (mkPt (-(1 - δ)) 0) (mkPt 2 0) = ![0, 3 - δ, 0] := by
    unfold crossProd mkPt
    simp only [Matrix.cons_val_zero, Matrix.cons_val_one, Matrix.cons_val, mul_one, one_mul, mul_zero, zero_mul, s0, s2, sub_zero]
    rw [h.odd, d4, show 2 - -(1 - δ) = 3 - δ by ring, d2]
  have hl : lineOfPts (binary 53) stdR (-(1 - δ), 0) (2, 0) = .ok ![0, 1, 0] := by
    unfold lineOfPts
    rw [if_neg (by show ¬ distPt _ _ _ < _; rw [D12]; norm_num [stdR]; linarith)]
    simp only
    rw [hc]
    have z : (fun i => (binary 53).rnd ((![0, 3 - δ, 0] : V3 ℝ) i / (3 - δ))) = (![0, 1, 0] : V3 ℝ) := by
      funext i
      fin_cases i
      · simp [s0]
      · show (binary 53).rnd ((3 - δ) / (3 - δ)) = 1
        rw [div_self (by linarith), s1]
      · simp [s0]
    exact normalizeLine_keep (by simp only [Matrix.cons_val_zero, Matrix.cons_val_one]; rw [hyp_exact (c := 3 - δ) (by linarith) (by ring), d2]) (by norm_num [dblEps]; linarith) z (by simp) (by simp)
  have hlc : Fl.lineCircle (binary 53) ![0, 1, 0] (0, 0) 1 = some (some ((1, 0), (-1, 0))) := by
    have n1 : norm2 (binary 53) 0 1 = 1 := by unfold norm2; simp [s0, s1]
    have n2 : lineAt (binary 53) ![0, 1, 0] (0, 0) = 0 := by
      unfold lineAt
      simp [s0]
    have q1 : sqrtF (binary 53) 1 = some 1 := by unfold sqrtF; rw [if_neg (by norm_num), Real.sqrt_one, s1]
    have q2 : ∀ x, divF (binary 53) x 1 = some ((binary 53).rnd x) := by intro x; unfold divF; rw [if_neg one_ne_zero, div_one]
    unfold Fl.lineCircle
    simp only [n2]
    simp only [Matrix.cons_val_zero, Matrix.cons_val_one, n1, q1, q2, Option.bind_eq_bind, Option.bind_some, abs_zero, s0, s1, mul_zero, mul_one, neg_zero, sub_zero, add_zero, zero_add, zero_sub, h.odd]
    rw [if_neg (by norm_num)]
    rfl
  have fo : fixOrder ((1, 0) : Pt ℝ) (-1, 0) = ((-1, 0), (1, 0)) := by
    unfold fixOrder
    rw [if_pos]
    simp [ptLt]
  have hb : Between (binary 53) stdR ((-(1 - δ), 0), (2, 0)) (-1, 0) := by
    show |(binary 53).rnd ((binary 53).rnd (distPt (binary 53) (-(1 - δ), 0) (-1, 0) + distPt (binary 53) (2, 0) (-1, 0)) - distPt (binary 53) (-(1 - δ), 0) (2, 0))| < _
    rw [D1p, D2p, D12, add_comm δ 3, d3, show 3 + δ - (3 - δ) = 2 * δ by ring, d5, abs_of_pos (by linarith)]
    norm_num [stdR]
    linarith
  rcases segCircle_cross (s := ((-(1 - δ), 0), (2, 0))) hl hlc (Or.inl ⟨t1, t2⟩) with ⟨-, k⟩ | ⟨k, -⟩
  · rw [k, fo]
  · rw [fo] at k; exact absurd hb k

end H2d.Fl
