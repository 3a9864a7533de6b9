import Verif.Lemmas.FloatExact

/-! # Lines and homographies with rounded operations -/

namespace H2d.Fl

open H2d.Spec

variable {F : Arith} {u v : ℝ}

/-- Relative errors on both values. -/
theorem sqrt_near {a b a' b' u : ℝ} (hu : 0 ≤ u) (hu1 : u ≤ 1) (ha : |a' - a| ≤ u * |a|) (hb : |b' - b| ≤ u * |b|) :
    (1 - u) * Real.sqrt (a ^ 2 + b ^ 2) ≤ Real.sqrt (a' ^ 2 + b' ^ 2) ∧ Real.sqrt (a' ^ 2 + b' ^ 2) ≤ (1 + u) * Real.sqrt (a ^ 2 + b ^ 2) := by
  have k : ∀ {x x' : ℝ}, |x' - x| ≤ u * |x| → (1 - u) ^ 2 * x ^ 2 ≤ x' ^ 2 ∧ x' ^ 2 ≤ (1 + u) ^ 2 * x ^ 2 := by
    intro x x' h
    have h1 := abs_add_le (x' - x) x
    have h2 := abs_add_le (x - x') x'
    rw [sub_add_cancel] at h1 h2
    rw [abs_sub_comm x x'] at h2
    have l : (1 - u) * |x| ≤ |x'| := by linarith
    have m : |x'| ≤ (1 + u) * |x| := by linarith
    have l2 := pow_le_pow_left₀ (mul_nonneg (by linarith) (abs_nonneg _)) l 2
    have m2 := pow_le_pow_left₀ (abs_nonneg _) m 2
    rw [mul_pow, sq_abs, sq_abs] at l2 m2
    exact ⟨l2, m2⟩
  obtain ⟨a1, a2⟩ := k ha
  obtain ⟨b1, b2⟩ := k hb
  constructor
  · rw [show (1 - u) * Real.sqrt (a ^ 2 + b ^ 2) = Real.sqrt ((1 - u) ^ 2 * (a ^ 2 + b ^ 2)) by
      rw [Real.sqrt_mul (sq_nonneg _), Real.sqrt_sq (by linarith)]]
    exact Real.sqrt_le_sqrt (by linarith)
  · rw [show (1 + u) * Real.sqrt (a ^ 2 + b ^ 2) = Real.sqrt ((1 + u) ^ 2 * (a ^ 2 + b ^ 2)) by
      rw [Real.sqrt_mul (sq_nonneg _), Real.sqrt_sq (by linarith)]]
    exact Real.sqrt_le_sqrt (by linarith)

theorem normalizeLine_ok (t : Thr ℝ) (w : V3 ℝ) (hs : dblEps < F.hyp (w 0) (w 1)) :
    Fl.normalizeLine F t w = .ok (signFix t (fun i => F.rnd (w i / F.hyp (w 0) (w 1)))) := by
  simp only [Fl.normalizeLine, signFix, not_le.2 hs, if_false]

theorem normalizeLine_neg (h : FlOk F u v) (t : Thr ℝ) (ht : 0 < t.nullDenom) (w : V3 ℝ) : Fl.normalizeLine F t (fun i => - w i) = Fl.normalizeLine F t w := by
  have e : F.hyp (- w 0) (- w 1) = F.hyp (w 0) (w 1) := by rw [h.hypNeg1, h.hypNeg2]
  by_cases hs : dblEps < F.hyp (w 0) (w 1)
  · rw [normalizeLine_ok t w hs, normalizeLine_ok t _ (by simpa only [e] using hs)]
    simp only [e, neg_div, h.odd]
    rw [signFix_neg t (fun i => F.rnd (w i / F.hyp (w 0) (w 1))) ht]
    intro h0 h1
    have hp := lt_trans dblEps_pos hs
    rw [rnd_eq_zero h, div_eq_zero_iff] at h0 h1
    have z0 := h0.resolve_right hp.ne'
    have z1 := h1.resolve_right hp.ne'
    rw [z0, z1, hyp_zero h] at hp
    exact lt_irrefl _ hp
  · simp only [Fl.normalizeLine, e, not_lt.1 hs, if_true]

theorem crossProd_swap (h : FlOk F u v) (r s : V3 ℝ) : Fl.crossProd F s r = fun i => - Fl.crossProd F r s i := by
  apply v3_ext
  · simp only [Fl.crossProd, Matrix.cons_val_zero]
    rw [← h.odd, mul_comm (s 1), mul_comm (s 2)]; congr 1; ring
  · simp only [Fl.crossProd, Matrix.cons_val_one, Matrix.cons_val_zero]
    rw [← h.odd, mul_comm (s 2), mul_comm (s 0)]; congr 1; ring
  · simp only [Fl.crossProd, Matrix.cons_val]
    rw [← h.odd, mul_comm (s 0), mul_comm (s 1)]; congr 1; ring

/-- Sign correction of a line which is horizontal or not nearly so. -/
theorem signFix_keep (t : Thr ℝ) (w : V3 ℝ) (h : w 0 = 0 ∨ t.nullDenom ≤ |w 0|) : signFix t w = w ∨ signFix t w = fun i => - w i := by
  simp only [signFix]
  rcases h with h | h
  · simp only [h, lt_irrefl, if_false, abs_zero]
    split_ifs
    · right; apply v3_ext <;> simp [h]
    · left; rfl
    · left; rfl
  · by_cases h0 : w 0 < 0
    · simp only [h0, if_true, abs_neg, not_lt.2 h, if_false]; right; trivial
    · simp only [h0, if_false, not_lt.2 h]; left; trivial

theorem signFix_norm (t : Thr ℝ) (w : V3 ℝ) : signFix t w 0 ^ 2 + signFix t w 1 ^ 2 = w 0 ^ 2 + w 1 ^ 2 := by
  simp only [signFix]
  split_ifs <;> simp

/-- The sum of three products. -/
theorem dot_err (h : FlOk F u v) (a b : V3 ℝ) :
    |F.rnd (F.rnd (F.rnd (a 0 * b 0) + F.rnd (a 1 * b 1)) + F.rnd (a 2 * b 2)) - (a 0 * b 0 + a 1 * b 1 + a 2 * b 2)| ≤
      ((1 + u) ^ 3 - 1) * (|a 0 * b 0| + |a 1 * b 1| + |a 2 * b 2|) := by
  have hu := h.u_nonneg
  have h0 := h.err (a 0 * b 0)
  have h1 := h.err (a 1 * b 1)
  have h2 := h.err (a 2 * b 2)
  have p0 := abs_nonneg (a 0 * b 0)
  have p1 := abs_nonneg (a 1 * b 1)
  have p2 := abs_nonneg (a 2 * b 2)
  have k1 : |F.rnd (a 0 * b 0) + F.rnd (a 1 * b 1) - (a 0 * b 0 + a 1 * b 1)| ≤ u * (|a 0 * b 0| + |a 1 * b 1|) := by
    rw [add_sub_add_comm]; refine (abs_add_le _ _).trans ?_; linarith
  have k2 := rnd_near h k1 (abs_add_le _ _)
  have k3 : |F.rnd (F.rnd (a 0 * b 0) + F.rnd (a 1 * b 1)) + F.rnd (a 2 * b 2) - (a 0 * b 0 + a 1 * b 1 + a 2 * b 2)| ≤
      ((1 + u) * (1 + u) - 1) * (|a 0 * b 0| + |a 1 * b 1| + |a 2 * b 2|) := by
    rw [add_sub_add_comm]
    refine (abs_add_le _ _).trans ?_
    have : u * |a 2 * b 2| ≤ ((1 + u) * (1 + u) - 1) * |a 2 * b 2| := mul_le_mul_of_nonneg_right (by nlinarith) p2
    linarith
  have k4 := rnd_near h k3 (abs_add_three _ _ _)
  refine k4.trans (le_of_eq ?_); ring

/-- Division by a computed norm. -/
theorem div_hyp_err (h : FlOk F u v) {x y s e a b : ℝ} (he : 0 ≤ e) (hxy : |x - y| ≤ e * s) (hy : |y| ≤ s) (hH : 0 < Real.sqrt (a ^ 2 + b ^ 2)) :
    |F.rnd (x / F.hyp a b) - y / Real.sqrt (a ^ 2 + b ^ 2)| ≤ ((1 + e) * (1 + u) / (1 - v) - 1) * (s / Real.sqrt (a ^ 2 + b ^ 2)) := by
  have hv := h.v_nonneg
  have hv1 := h.v_small
  have hyp := abs_le.1 (h.hypErr a b)
  set H := Real.sqrt (a ^ 2 + b ^ 2)
  set G := F.hyp a b
  have hG : 0 < G := by nlinarith [hyp.1]
  have hs : 0 ≤ s := (abs_nonneg _).trans hy
  have h1v : 0 < 1 - v := by linarith
  have k : |x / G - y / H| ≤ ((1 + e) / (1 - v) - 1) * (s / H) := by
    have e1 : x / G - y / H = ((x - y) * H + y * (H - G)) / (G * H) := by field_simp; ring
    rw [e1, abs_div, abs_of_pos (mul_pos hG hH), div_le_iff₀ (mul_pos hG hH)]
    have b1 : |(x - y) * H + y * (H - G)| ≤ e * s * H + s * (v * H) := by
      refine (abs_add_le _ _).trans ?_
      rw [abs_mul, abs_mul, abs_of_pos hH]
      have : |H - G| ≤ v * H := by rw [abs_sub_comm]; exact h.hypErr a b
      exact add_le_add (mul_le_mul_of_nonneg_right hxy hH.le) (mul_le_mul hy this (abs_nonneg _) hs)
    refine b1.trans ?_
    have e2 : ((1 + e) / (1 - v) - 1) * (s / H) * (G * H) = (e + v) / (1 - v) * (s * G) := by field_simp; ring
    rw [e2]
    have hGH : (1 - v) * H ≤ G := by linarith [hyp.1]
    have : (e + v) / (1 - v) * (s * ((1 - v) * H)) ≤ (e + v) / (1 - v) * (s * G) :=
      mul_le_mul_of_nonneg_left (mul_le_mul_of_nonneg_left hGH hs) (by positivity)
    refine le_trans (le_of_eq ?_) this
    field_simp
  have hyH : |y / H| ≤ s / H := by rw [abs_div, abs_of_pos hH]; exact div_le_div_of_nonneg_right hy hH.le
  have := rnd_near h k hyH
  refine this.trans (le_of_eq ?_)
  congr 1; ring

/-- The numbers given by `crossProd` for two points. -/
theorem cross_pts (h : FlOk F u v) {p q : Pt ℝ} (hp : Rep F p.1 ∧ Rep F p.2) (hq : Rep F q.1 ∧ Rep F q.2) :
    Fl.crossProd F (mkPt p.1 p.2) (mkPt q.1 q.2) = ![F.rnd (p.2 - q.2), F.rnd (q.1 - p.1), F.rnd (F.rnd (p.1 * q.2) - F.rnd (p.2 * q.1))] := by
  have h1 := hp.1
  have h2 := hp.2
  have h3 := hq.1
  have h4 := hq.2
  unfold Rep at h1 h2 h3 h4
  apply v3_ext
  · simp [Fl.crossProd, mkPt, h2, h4]
  · simp [Fl.crossProd, mkPt, h1, h3]
  · simp [Fl.crossProd, mkPt]

/-- The residual of the line before the division. -/
theorem cross_residual (h : FlOk F u v) {p q : Pt ℝ} {M : ℝ} (hM : |p.1| ≤ M ∧ |p.2| ≤ M ∧ |q.1| ≤ M ∧ |q.2| ≤ M) {r : Pt ℝ} (hr : r = p ∨ r = q)
    {a b c : ℝ} (ha : a = F.rnd (p.2 - q.2)) (hb : b = F.rnd (q.1 - p.1)) (hc : c = F.rnd (F.rnd (p.1 * q.2) - F.rnd (p.2 * q.1))) :
    |a * r.1 + b * r.2 + c| ≤ (8 * u + 2 * u ^ 2) * M ^ 2 ∧ |a * r.1| + |b * r.2| + |c| ≤ (4 * (1 + u) + 2 * (1 + u) ^ 2) * M ^ 2 := by
  have hu := h.u_nonneg
  obtain ⟨m1, m2, m3, m4⟩ := hM
  have hM0 : 0 ≤ M := (abs_nonneg _).trans m1
  have r1 : |r.1| ≤ M := by rcases hr with rfl | rfl <;> assumption
  have r2 : |r.2| ≤ M := by rcases hr with rfl | rfl <;> assumption
  have d1 : |p.2 - q.2| ≤ 2 * M := (abs_sub _ _).trans (by linarith)
  have d2 : |q.1 - p.1| ≤ 2 * M := (abs_sub _ _).trans (by linarith)
  have ea : |a - (p.2 - q.2)| ≤ 2 * u * M := by rw [ha]; refine (h.err _).trans ?_; nlinarith
  have eb : |b - (q.1 - p.1)| ≤ 2 * u * M := by rw [hb]; refine (h.err _).trans ?_; nlinarith
  have q1 : |p.1 * q.2| ≤ M ^ 2 := by rw [abs_mul, sq]; exact mul_le_mul m1 m4 (abs_nonneg _) hM0
  have q2 : |p.2 * q.1| ≤ M ^ 2 := by rw [abs_mul, sq]; exact mul_le_mul m2 m3 (abs_nonneg _) hM0
  have ec : |c - (p.1 * q.2 - p.2 * q.1)| ≤ ((1 + u) ^ 2 - 1) * (2 * M ^ 2) := by
    have k1 : |F.rnd (p.1 * q.2) - F.rnd (p.2 * q.1) - (p.1 * q.2 - p.2 * q.1)| ≤ u * (|p.1 * q.2| + |p.2 * q.1|) := by
      rw [sub_sub_sub_comm]
      refine (abs_sub _ _).trans ?_
      linarith [h.err (p.1 * q.2), h.err (p.2 * q.1)]
    have := rnd_near h k1 (abs_sub _ _)
    rw [hc]
    refine this.trans ?_
    have : ((1 + u) * (1 + u) - 1) * (|p.1 * q.2| + |p.2 * q.1|) ≤ ((1 + u) * (1 + u) - 1) * (2 * M ^ 2) :=
      mul_le_mul_of_nonneg_left (by linarith) (by nlinarith)
    refine this.trans (le_of_eq ?_); ring
  constructor
  · have e0 : a * r.1 + b * r.2 + c = (a - (p.2 - q.2)) * r.1 + (b - (q.1 - p.1)) * r.2 + (c - (p.1 * q.2 - p.2 * q.1)) := by
      rcases hr with rfl | rfl <;> ring
    rw [e0]
    refine (abs_add_three _ _ _).trans ?_
    rw [abs_mul, abs_mul]
    have := mul_le_mul ea r1 (abs_nonneg _) (by positivity)
    have := mul_le_mul eb r2 (abs_nonneg _) (by positivity)
    nlinarith
  · have ha' : |a| ≤ (1 + u) * (2 * M) := by rw [ha]; refine (rnd_abs_le h _).trans ?_; exact mul_le_mul_of_nonneg_left d1 (by linarith)
    have hb' : |b| ≤ (1 + u) * (2 * M) := by rw [hb]; refine (rnd_abs_le h _).trans ?_; exact mul_le_mul_of_nonneg_left d2 (by linarith)
    have hc' : |c| ≤ (1 + u) ^ 2 * (2 * M ^ 2) := by
      have := abs_add_le (c - (p.1 * q.2 - p.2 * q.1)) (p.1 * q.2 - p.2 * q.1)
      rw [sub_add_cancel] at this
      have := abs_sub (p.1 * q.2) (p.2 * q.1)
      nlinarith
    rw [abs_mul, abs_mul]
    have := mul_le_mul ha' r1 (abs_nonneg _) (by positivity)
    have := mul_le_mul hb' r2 (abs_nonneg _) (by positivity)
    nlinarith

/-- The residual of the line after the division. -/
theorem line_main (h : FlOk F u v) {a b c G d M : ℝ} {r : Pt ℝ} (hG : 0 < G) (hd : 0 < d) (s1 : (1 - u) * d ≤ Real.sqrt (a ^ 2 + b ^ 2))
    (c1 : |a * r.1 + b * r.2 + c| ≤ (8 * u + 2 * u ^ 2) * M ^ 2) (c2 : |a * r.1| + |b * r.2| + |c| ≤ (4 * (1 + u) + 2 * (1 + u) ^ 2) * M ^ 2) :
    |F.rnd (a / G) * r.1 + F.rnd (b / G) * r.2 + F.rnd (c / G)| ≤ 16 * u * M ^ 2 / d * Real.sqrt (F.rnd (a / G) ^ 2 + F.rnd (b / G) ^ 2) := by
  have hu := h.u_nonneg
  have hu1 := h.u_small
  obtain ⟨n1, -⟩ := sqrt_near hu (by linarith) (h.err (a / G)) (h.err (b / G))
  have e : Real.sqrt ((a / G) ^ 2 + (b / G) ^ 2) = Real.sqrt (a ^ 2 + b ^ 2) / G := by
    rw [div_pow, div_pow, ← add_div, Real.sqrt_div' _ (sq_nonneg _), Real.sqrt_sq hG.le]
  rw [e] at n1
  have res : |F.rnd (a / G) * r.1 + F.rnd (b / G) * r.2 + F.rnd (c / G)| ≤ 15 * u * M ^ 2 / G := by
    have e0 : F.rnd (a / G) * r.1 + F.rnd (b / G) * r.2 + F.rnd (c / G) =
        (a * r.1 + b * r.2 + c) / G + ((F.rnd (a / G) - a / G) * r.1 + (F.rnd (b / G) - b / G) * r.2 + (F.rnd (c / G) - c / G)) := by field_simp; ring
    rw [e0]
    refine (abs_add_le _ _).trans ?_
    have t1 : |(a * r.1 + b * r.2 + c) / G| ≤ (8 * u + 2 * u ^ 2) * M ^ 2 / G := by
      rw [abs_div, abs_of_pos hG]; exact div_le_div_of_nonneg_right c1 hG.le
    have g : ∀ x y : ℝ, |(F.rnd (x / G) - x / G) * y| ≤ u * (|x * y| / G) := by
      intro x y
      rw [abs_mul, abs_mul]
      have := mul_le_mul_of_nonneg_right (h.err (x / G)) (abs_nonneg y)
      rw [abs_div, abs_of_pos hG] at this
      refine this.trans (le_of_eq ?_); ring
    have t2 : |(F.rnd (a / G) - a / G) * r.1 + (F.rnd (b / G) - b / G) * r.2 + (F.rnd (c / G) - c / G)| ≤ u * ((4 * (1 + u) + 2 * (1 + u) ^ 2) * M ^ 2 / G) := by
      refine (abs_add_three _ _ _).trans ?_
      have g1 := g a r.1
      have g2 := g b r.2
      have g3 := g c 1
      rw [mul_one, mul_one] at g3
      have : u * ((|a * r.1| + |b * r.2| + |c|) / G) ≤ u * ((4 * (1 + u) + 2 * (1 + u) ^ 2) * M ^ 2 / G) :=
        mul_le_mul_of_nonneg_left (div_le_div_of_nonneg_right c2 hG.le) hu
      have e3 : u * ((|a * r.1| + |b * r.2| + |c|) / G) = u * (|a * r.1| / G) + u * (|b * r.2| / G) + u * (|c| / G) := by ring
      linarith
    have t3 : (8 * u + 2 * u ^ 2) * M ^ 2 / G + u * ((4 * (1 + u) + 2 * (1 + u) ^ 2) * M ^ 2 / G) ≤ 15 * u * M ^ 2 / G := by
      rw [show (8 * u + 2 * u ^ 2) * M ^ 2 / G + u * ((4 * (1 + u) + 2 * (1 + u) ^ 2) * M ^ 2 / G) = (u * (14 + 10 * u + 2 * u ^ 2)) * (M ^ 2 / G) by ring,
        show 15 * u * M ^ 2 / G = (u * 15) * (M ^ 2 / G) by ring]
      refine mul_le_mul_of_nonneg_right (mul_le_mul_of_nonneg_left ?_ hu) (by positivity)
      nlinarith
    linarith
  refine res.trans ?_
  have n2 : (1 - u) * ((1 - u) * d / G) ≤ Real.sqrt (F.rnd (a / G) ^ 2 + F.rnd (b / G) ^ 2) :=
    (mul_le_mul_of_nonneg_left (div_le_div_of_nonneg_right s1 hG.le) (by linarith)).trans n1
  have n3 := mul_le_mul_of_nonneg_left n2 (show 0 ≤ 16 * u * M ^ 2 / d by positivity)
  refine le_trans ?_ n3
  have e4 : 16 * u * M ^ 2 / d * ((1 - u) * ((1 - u) * d / G)) = (16 * (1 - u) ^ 2) * (u * M ^ 2 / G) := by field_simp
  rw [e4, show 15 * u * M ^ 2 / G = 15 * (u * M ^ 2 / G) by ring]
  refine mul_le_mul_of_nonneg_right ?_ (by positivity)
  nlinarith

/-- Numbers for a line of slope 2^-40. -/
theorem slope_numbers {a b k u : ℝ} (hu : 0 ≤ u) (hu1 : u ≤ 1 / 64) (i1 : k ≤ 64 / 63 / 2 ^ 40) (i2 : 64 / 65 / (2 ^ 40 + 1) ≤ k)
    (x0 : |a - -k| ≤ u * k) (x1 : |b - 2 ^ 40 * k| ≤ u * (2 ^ 40 * k)) :
    a < 0 ∧ - a < 1 / 10 ^ 10 ∧ 0 < b ∧ Real.sqrt ((-a) ^ 2 + b ^ 2) < |-a * 2 ^ 40 + b| := by
  have k0 : 0 < k := lt_of_lt_of_le (by norm_num) i2
  rw [abs_le] at x0 x1
  have uk : u * k ≤ 1 / 64 * k := mul_le_mul_of_nonneg_right hu1 k0.le
  have l1 : 63 / 64 * k ≤ - a := by linarith [x0.2]
  have l2 : - a ≤ 65 / 64 * k := by linarith [x0.1]
  have l3 : 63 / 64 * (2 ^ 40 * k) ≤ b := by linarith [x1.1]
  have l4 : b ≤ 65 / 64 * (2 ^ 40 * k) := by linarith [x1.2]
  norm_num at i1 i2 l3 l4 ⊢
  have a1 : 9 / 10 ≤ - a * 1099511627776 := by linarith
  have a2 : - a ≤ 1 / 100000000000 := by linarith
  have b3 : 9 / 10 ≤ b := by linarith
  have b4 : b ≤ 11 / 10 := by linarith
  refine ⟨by linarith, by linarith, by linarith, ?_⟩
  have hb : 18 / 10 ≤ -(a * 1099511627776) + b := by linarith
  rw [abs_of_pos (by linarith), Real.sqrt_lt' (by linarith)]
  have s1 : a ^ 2 ≤ 1 := by nlinarith
  have s2 : b ^ 2 ≤ 121 / 100 := by nlinarith
  have s3 : (18 / 10) ^ 2 ≤ (-(a * 1099511627776) + b) ^ 2 := pow_le_pow_left₀ (by norm_num) hb 2
  norm_num at s3
  linarith

end H2d.Fl
