import Verif.Spec.FloatMec
import Verif.Lemmas.FloatCross
import Verif.Lemmas.FloatSegs
import Verif.Props.FloatSign

/-! # Bisector lines with rounded operations -/

namespace H2d.Fl
open H2d.Spec

variable {F : Arith} {u v : ℝ}

/-- One more relative error. -/
theorem near_chain {x y z B e : ℝ} (hu : 0 ≤ u) (hB : |x| ≤ B) (h1 : |y - x| ≤ e * u * B) (h2 : |z - y| ≤ u * |y|) : |z - x| ≤ (e + 1 + e * u) * u * B := by
  have h3 : |y| ≤ |y - x| + |x| := by have := abs_add_le (y - x) x; rwa [sub_add_cancel] at this
  have h4 := abs_sub_le z y x
  have h5 : u * |y| ≤ u * (e * u * B + B) := mul_le_mul_of_nonneg_left (by linarith) hu
  nlinarith

/-- The ratio of a value and the norm, from values with a small relative error. -/
theorem ratio_near {x y x' y' e : ℝ} (he0 : 0 ≤ e) (he : e ≤ 1 / 8) (hx : |x' - x| ≤ e * |x|) (hy : |y' - y| ≤ e * |y|) :
    7 / 9 * (|x| / Real.sqrt (x ^ 2 + y ^ 2)) ≤ |x'| / Real.sqrt (x' ^ 2 + y' ^ 2) := by
  obtain ⟨s1, s2⟩ := sqrt_near he0 (by linarith) hx hy
  have hx' : (1 - e) * |x| ≤ |x'| := by
    have := abs_sub_abs_le_abs_sub x x'
    rw [abs_sub_comm] at this
    linarith
  rcases eq_or_lt_of_le (Real.sqrt_nonneg (x ^ 2 + y ^ 2)) with h0 | h0
  · rw [← h0]; simp; positivity
  · have h1 : 0 < Real.sqrt (x' ^ 2 + y' ^ 2) := lt_of_lt_of_le (mul_pos (by linarith) h0) s1
    rw [← mul_div_assoc, div_le_div_iff₀ h0 h1]
    have hx0 := abs_nonneg x
    calc 7 / 9 * |x| * Real.sqrt (x' ^ 2 + y' ^ 2) ≤ 7 / 9 * |x| * ((1 + e) * Real.sqrt (x ^ 2 + y ^ 2)) := mul_le_mul_of_nonneg_left s2 (by positivity)
      _ = (7 / 9 * (1 + e) * |x|) * Real.sqrt (x ^ 2 + y ^ 2) := by ring
      _ ≤ |x'| * Real.sqrt (x ^ 2 + y ^ 2) := by
        apply mul_le_mul_of_nonneg_right _ h0.le
        refine le_trans ?_ hx'
        apply mul_le_mul_of_nonneg_right _ hx0
        linarith

/-- Normalisation of a line that is horizontal or not nearly so: the same line, up to a factor and relative errors. -/
theorem normalize_step (h : FlOk F u v) {t : Thr ℝ} {w m : V3 ℝ} (hg : w 0 = 0 ∨ t.nullDenom ≤ 9 / 10 * (|w 0| / Real.sqrt (w 0 ^ 2 + w 1 ^ 2))) (hm : Fl.normalizeLine F t w = .ok m) :
    ∃ k : ℝ, k ≠ 0 ∧ ∀ i, |k * m i - w i| ≤ u * |w i| := by
  have hu := h.u_nonneg
  have hu1 := h.u_small
  have hv := h.v_nonneg
  have hv1 := h.v_small
  have hs : dblEps < F.hyp (w 0) (w 1) := by
    by_contra hs
    simp only [Fl.normalizeLine, not_lt.1 hs, if_true] at hm
    cases hm
  rw [Fl.normalizeLine_ok t _ hs] at hm
  injection hm with hm
  have hG := lt_trans dblEps_pos hs
  have hy := abs_le.1 (h.hypErr (w 0) (w 1))
  generalize F.hyp (w 0) (w 1) = G at *
  have key : ∀ i, |G * F.rnd (w i / G) - w i| ≤ u * |w i| := by
    intro i
    have e : G * F.rnd (w i / G) - w i = G * (F.rnd (w i / G) - w i / G) := by field_simp
    rw [e, abs_mul, abs_of_pos hG]
    have := mul_le_mul_of_nonneg_left (h.err (w i / G)) hG.le
    rw [abs_div, abs_of_pos hG] at this
    refine this.trans (le_of_eq ?_)
    field_simp
  have hk : signFix t (fun i => F.rnd (w i / G)) = (fun i => F.rnd (w i / G)) ∨ signFix t (fun i => F.rnd (w i / G)) = fun i => - F.rnd (w i / G) := by
    apply signFix_keep
    rcases hg with hg | hg
    · left; simp only [hg, zero_div, rnd_zero h]
    · right
      refine hg.trans ?_
      have k1 := le_rnd_abs h (w 0 / G)
      rw [abs_div, abs_of_pos hG] at k1
      refine le_trans ?_ k1
      set N := Real.sqrt (w 0 ^ 2 + w 1 ^ 2)
      have hN0 : 0 ≤ N := Real.sqrt_nonneg _
      have hN : 0 < N := by
        rcases eq_or_lt_of_le hN0 with e | e
        · rw [← e] at hy; linarith [hy.2]
        · exact e
      have hGN : G ≤ (1 + v) * N := by linarith [hy.2]
      rw [← mul_div_assoc, ← mul_div_assoc, div_le_div_iff₀ hN hG]
      have h0 := abs_nonneg (w 0)
      calc 9 / 10 * |w 0| * G ≤ 9 / 10 * |w 0| * ((1 + v) * N) := mul_le_mul_of_nonneg_left hGN (by positivity)
        _ = (9 / 10 * (1 + v)) * (|w 0| * N) := by ring
        _ ≤ (1 - u) * (|w 0| * N) := mul_le_mul_of_nonneg_right (by linarith) (by positivity)
        _ = (1 - u) * |w 0| * N := by ring
  rcases hk with e | e
  · exact ⟨G, hG.ne', fun i => by rw [← hm, e]; exact key i⟩
  · exact ⟨-G, neg_ne_zero.2 hG.ne', fun i => by rw [← hm, e, neg_mul_neg]; exact key i⟩

theorem Slopes_symm {t : Thr ℝ} {p q : Pt ℝ} (h : Slopes t p q) : Slopes t q p :=
  ⟨h.hor.imp Eq.symm fun a => by rwa [abs_sub_comm, eucl_comm], h.ver.imp Eq.symm fun a => by rwa [abs_sub_comm, eucl_comm]⟩

theorem rate_a (hu : 0 ≤ u) (hu1 : u ≤ 1 / 64) : (21 / 10 + 1 + 21 / 10 * u) * u ≤ 32 / 10 * u := mul_le_mul_of_nonneg_right (by linarith) hu

theorem rate_b (hu : 0 ≤ u) (hu1 : u ≤ 1 / 64) : (32 / 10 + 1 + 32 / 10 * u) * u ≤ 5 * u := mul_le_mul_of_nonneg_right (by linarith) hu

theorem rate_c (hu : 0 ≤ u) (hu1 : u ≤ 1 / 64) : (53 / 10 + 1 + 53 / 10 * u) * u ≤ 64 / 10 * u := mul_le_mul_of_nonneg_right (by linarith) hu

theorem rate_d (hu : 0 ≤ u) (hu1 : u ≤ 1 / 64) : (64 / 10 + 1 + 64 / 10 * u) * u ≤ 10 * u := mul_le_mul_of_nonneg_right (by linarith) hu

theorem orthog_form (h : FlOk F u v) {t : Thr ℝ} {l : V3 ℝ} {c : Pt ℝ} {d1 d2 x y M k1 : ℝ} (hk1 : k1 ≠ 0) (h0 : |k1 * l 0 - -d2| ≤ 21 / 10 * u * |d2|) (h1 : |k1 * l 1 - d1| ≤ 21 / 10 * u * |d1|)
    (hcx : |c.1| ≤ M) (hcy : |c.2| ≤ M) (hx : |x| ≤ M) (hy : |y| ≤ M) (ex : |c.1 - x| ≤ u * |x|) (ey : |c.2 - y| ≤ u * |y|)
    (hg : d1 = 0 ∨ t.nullDenom ≤ 1 / 2 * (|d1| / Real.sqrt (d1 ^ 2 + d2 ^ 2))) {m : V3 ℝ} (hm : orthogLine F t l c = .ok m) :
    ∃ k : ℝ, k ≠ 0 ∧ |k * m 0 - d1| ≤ 5 * u * |d1| ∧ |k * m 1 - d2| ≤ 5 * u * |d2| ∧ |k * m 2 + (d1 * x + d2 * y)| ≤ 10 * u * ((|d1| + |d2|) * M) := by
  have hu := h.u_nonneg
  have hu1 := h.u_small
  have hM : 0 ≤ M := (abs_nonneg _).trans hx
  have a1 := abs_nonneg d1
  have a2 := abs_nonneg d2
  unfold orthogLine at hm
  have r1 := diffRnd_err h (l 1) c.1 (l 0) c.2
  generalize F.rnd (F.rnd (l 1 * c.1) - F.rnd (l 0 * c.2)) = w2 at *
  rcases hm' : Fl.normalizeLine F t ![-l 1, l 0, w2] with m' | _ | _ <;> rw [hm'] at hm <;> try cases hm
  simp only [Res.bind_ok] at hm
  have ratio : ∀ {x' y' k e : ℝ}, k ≠ 0 → 0 ≤ e → e ≤ 1 / 8 → |k * x' - d1| ≤ e * |d1| → |k * y' - d2| ≤ e * |d2| → d1 ≠ 0 →
      t.nullDenom ≤ 1 / 2 * (|d1| / Real.sqrt (d1 ^ 2 + d2 ^ 2)) → t.nullDenom ≤ 9 / 10 * (|x'| / Real.sqrt (x' ^ 2 + y' ^ 2)) := by
    intro x' y' k e hk he0 he p q hd hn
    have r := ratio_near he0 he p q
    have e1 : |k * x'| / Real.sqrt ((k * x') ^ 2 + (k * y') ^ 2) = |x'| / Real.sqrt (x' ^ 2 + y' ^ 2) := by
      rw [mul_pow, mul_pow, ← mul_add, Real.sqrt_mul (sq_nonneg _), Real.sqrt_sq_eq_abs, abs_mul, mul_div_mul_left _ _ (abs_pos.2 hk).ne']
    rw [e1] at r
    have : 0 ≤ |d1| / Real.sqrt (d1 ^ 2 + d2 ^ 2) := by positivity
    linarith
  have z : ∀ {x' k e : ℝ}, k ≠ 0 → |k * x' - d1| ≤ e * |d1| → d1 = 0 → x' = 0 := by
    intro x' k e hk p e
    rw [e, abs_zero, mul_zero, sub_zero] at p
    exact (mul_eq_zero.1 (abs_eq_zero.1 (le_antisymm p (abs_nonneg _)))).resolve_left hk
  -- first normalisation
  have q0 : |-k1 * -l 1 - d1| ≤ 21 / 10 * u * |d1| := by rw [neg_mul_neg]; exact h1
  have q1 : |-k1 * l 0 - d2| ≤ 21 / 10 * u * |d2| := by
    rw [show -k1 * l 0 - d2 = -(k1 * l 0 - -d2) by ring, abs_neg]; exact h0
  obtain ⟨k2, hk2, s⟩ := normalize_step h (by
    simp only [Matrix.cons_val_zero, Matrix.cons_val_one]
    by_cases hd : d1 = 0
    · left; exact z (neg_ne_zero.2 hk1) q0 hd
    · right; exact ratio (neg_ne_zero.2 hk1) (by positivity) (by linarith) q0 q1 hd (hg.resolve_left hd)) hm'
  have s0 := s 0
  have s1 := s 1
  have s2 := s 2
  simp only [Matrix.cons_val_zero, Matrix.cons_val_one, Matrix.cons_val] at s0 s1 s2
  have scale : ∀ {k' k a b : ℝ}, |k * a - b| ≤ u * |b| → |k' * k * a - k' * b| ≤ u * |k' * b| := by
    intro k' k a b p
    rw [show k' * k * a - k' * b = k' * (k * a - b) by ring, abs_mul, abs_mul]
    have := mul_le_mul_of_nonneg_left p (abs_nonneg k')
    linarith
  have w2e : |k1 * w2 - (d1 * x + d2 * y)| ≤ 53 / 10 * u * ((|d1| + |d2|) * M) := by
    have e1 : |k1 * l 1 * c.1 - d1 * x| ≤ 31 / 10 * u * (|d1| * M) := by
      have : k1 * l 1 * c.1 - d1 * x = (k1 * l 1 - d1) * c.1 + d1 * (c.1 - x) := by ring
      rw [this]
      refine (abs_add_le _ _).trans ?_
      rw [abs_mul, abs_mul]
      have b1 := mul_le_mul h1 hcx (abs_nonneg _) (by positivity)
      have b2 := mul_le_mul_of_nonneg_left (ex.trans (mul_le_mul_of_nonneg_left hx hu)) a1
      linarith
    have e2 : |-(k1 * l 0) * c.2 - d2 * y| ≤ 31 / 10 * u * (|d2| * M) := by
      have : -(k1 * l 0) * c.2 - d2 * y = -(k1 * l 0 - -d2) * c.2 + d2 * (c.2 - y) := by ring
      rw [this]
      refine (abs_add_le _ _).trans ?_
      rw [abs_mul, abs_mul, abs_neg]
      have b1 := mul_le_mul h0 hcy (abs_nonneg _) (by positivity)
      have b2 := mul_le_mul_of_nonneg_left (ey.trans (mul_le_mul_of_nonneg_left hy hu)) a2
      linarith
    have f1 : |k1 * (l 1 * c.1)| ≤ 21 / 20 * (|d1| * M) := by
      have : |k1 * l 1| ≤ 21 / 20 * |d1| := by
        have := abs_sub_abs_le_abs_sub (k1 * l 1) d1
        nlinarith
      rw [← mul_assoc, abs_mul]
      have := mul_le_mul this hcx (abs_nonneg _) (by positivity)
      linarith
    have f2 : |k1 * (l 0 * c.2)| ≤ 21 / 20 * (|d2| * M) := by
      have : |k1 * l 0| ≤ 21 / 20 * |d2| := by
        have := abs_sub_abs_le_abs_sub (k1 * l 0) (-d2)
        rw [abs_neg] at this
        nlinarith
      rw [← mul_assoc, abs_mul]
      have := mul_le_mul this hcy (abs_nonneg _) (by positivity)
      linarith
    have g : |k1 * w2 - k1 * (l 1 * c.1 - l 0 * c.2)| ≤ 33 / 16 * u * (|k1 * (l 1 * c.1)| + |k1 * (l 0 * c.2)|) := by
      rw [← mul_sub, abs_mul, abs_mul, abs_mul k1]
      have := mul_le_mul_of_nonneg_left r1 (abs_nonneg k1)
      linarith
    have e : k1 * w2 - (d1 * x + d2 * y) = (k1 * w2 - k1 * (l 1 * c.1 - l 0 * c.2)) + ((k1 * l 1 * c.1 - d1 * x) + (-(k1 * l 0) * c.2 - d2 * y)) := by ring
    rw [e]
    have t1 := abs_add_le (k1 * w2 - k1 * (l 1 * c.1 - l 0 * c.2)) ((k1 * l 1 * c.1 - d1 * x) + (-(k1 * l 0) * c.2 - d2 * y))
    have t2 := abs_add_le (k1 * l 1 * c.1 - d1 * x) (-(k1 * l 0) * c.2 - d2 * y)
    have t3 := mul_le_mul_of_nonneg_left (add_le_add f1 f2) (show 0 ≤ 33 / 16 * u by positivity)
    have t4 : 0 ≤ u * ((|d1| + |d2|) * M) := by positivity
    nlinarith
  have P0 := near_chain hu le_rfl q0 (scale s0)
  have P1 := near_chain hu le_rfl q1 (scale s1)
  have hB : |-(d1 * x + d2 * y)| ≤ (|d1| + |d2|) * M := by
    rw [abs_neg]
    refine (abs_add_le _ _).trans ?_
    rw [abs_mul, abs_mul, add_mul]
    exact add_le_add (mul_le_mul_of_nonneg_left hx a1) (mul_le_mul_of_nonneg_left hy a2)
  have w2e' : |-k1 * w2 - -(d1 * x + d2 * y)| ≤ 53 / 10 * u * ((|d1| + |d2|) * M) := by
    rw [show -k1 * w2 - -(d1 * x + d2 * y) = -(k1 * w2 - (d1 * x + d2 * y)) by ring, abs_neg]; exact w2e
  have P2 := near_chain hu hB w2e' (scale s2)
  have hk12 : -k1 * k2 ≠ 0 := mul_ne_zero (neg_ne_zero.2 hk1) hk2
  have B0 : 0 ≤ (|d1| + |d2|) * M := by positivity
  have P0' := P0.trans (mul_le_mul_of_nonneg_right (rate_a hu hu1) a1)
  have P1' := P1.trans (mul_le_mul_of_nonneg_right (rate_a hu hu1) a2)
  have P2' := P2.trans (mul_le_mul_of_nonneg_right (rate_c hu hu1) B0)
  -- second normalisation
  obtain ⟨k3, hk3, s'⟩ := normalize_step h (by
    by_cases hd : d1 = 0
    · left; exact z hk12 P0' hd
    · right; exact ratio hk12 (by positivity) (by linarith) P0' P1' hd (hg.resolve_left hd)) hm
  have Q0 := near_chain hu le_rfl P0' (scale (s' 0))
  have Q1 := near_chain hu le_rfl P1' (scale (s' 1))
  have Q2 := near_chain hu hB P2' (scale (s' 2))
  rw [sub_neg_eq_add] at Q2
  exact ⟨-k1 * k2 * k3, mul_ne_zero hk12 hk3, Q0.trans (mul_le_mul_of_nonneg_right (rate_b hu hu1) a1), Q1.trans (mul_le_mul_of_nonneg_right (rate_b hu hu1) a2),
    Q2.trans (mul_le_mul_of_nonneg_right (rate_d hu hu1) B0)⟩

/-- Relative errors on each value, up to a factor. -/
theorem bisector_form (h : FlOk F u v) {t : Thr ℝ} {p q : Pt ℝ} (hp : Rep F p.1 ∧ Rep F p.2) (hq : Rep F q.1 ∧ Rep F q.2) (hg : Slopes t p q) {M : ℝ}
    (hM : |p.1| ≤ M ∧ |p.2| ≤ M ∧ |q.1| ≤ M ∧ |q.2| ≤ M) {m : V3 ℝ} (hm : segBisector F t (p, q) = .ok m) :
    ∃ k : ℝ, k ≠ 0 ∧ |k * m 0 - (q.1 - p.1)| ≤ 5 * u * |q.1 - p.1| ∧ |k * m 1 - (q.2 - p.2)| ≤ 5 * u * |q.2 - p.2| ∧
      |k * m 2 + ((q.1 - p.1) * ((p.1 + q.1) / 2) + (q.2 - p.2) * ((p.2 + q.2) / 2))| ≤ 10 * u * ((|q.1 - p.1| + |q.2 - p.2|) * M) := by
  have hu := h.u_nonneg
  have hu1 := h.u_small
  have hE : eucl p q = Real.sqrt ((q.1 - p.1) ^ 2 + (q.2 - p.2) ^ 2) := by
    rw [eucl]; congr 1; ring
  unfold segBisector at hm
  rcases hl : lineOfPts F t p q with l | _ | _ <;> rw [hl] at hm <;> try cases hm
  obtain ⟨-, c1, c2, c3, c4, cx, cy⟩ := Props.C105_center F u v h p q hp hq
  generalize center F p q = c at hm c1 c2 c3 c4 cx cy
  have hcx : |c.1| ≤ M := by
    have a := hM.1; have b := hM.2.2.1; rw [abs_le] at a b
    rw [abs_le]
    constructor
    · exact (le_min a.1 b.1).trans c1
    · exact c2.trans (max_le a.2 b.2)
  have hcy : |c.2| ≤ M := by
    have a := hM.2.1; have b := hM.2.2.2; rw [abs_le] at a b
    rw [abs_le]
    constructor
    · exact (le_min a.1 b.1).trans c3
    · exact c4.trans (max_le a.2 b.2)
  have hmx : |(p.1 + q.1) / 2| ≤ M := by
    have a := hM.1; have b := hM.2.2.1; rw [abs_le] at *; constructor <;> linarith [a.1, a.2, b.1, b.2]
  have hmy : |(p.2 + q.2) / 2| ≤ M := by
    have a := hM.2.1; have b := hM.2.2.2; rw [abs_le] at *; constructor <;> linarith [a.1, a.2, b.1, b.2]
  generalize (p.1 + q.1) / 2 = x at *
  generalize (p.2 + q.2) / 2 = y at *
  -- the line
  have hl' := hl
  unfold lineOfPts at hl'
  split_ifs at hl'
  rw [cross_pts h hp hq] at hl'
  have ea := h.err (p.2 - q.2)
  have eb := h.err (q.1 - p.1)
  have ea' : |F.rnd (p.2 - q.2) - -(q.2 - p.2)| ≤ u * |-(q.2 - p.2)| := by rw [neg_sub]; exact ea
  have g1 : |F.rnd (p.2 - q.2)| / Real.sqrt (F.rnd (p.2 - q.2) ^ 2 + F.rnd (q.1 - p.1) ^ 2) ≥ 7 / 9 * (|q.2 - p.2| / eucl p q) := by
    have := ratio_near hu (by linarith) ea' eb
    rwa [abs_neg, neg_sq, add_comm ((q.2 - p.2) ^ 2), ← hE] at this
  obtain ⟨k1, hk1, s1⟩ := normalize_step h (by
    simp only [Matrix.cons_val_zero, Matrix.cons_val_one]
    rcases hg.ver with e | e
    · left; rw [e, sub_self, rnd_zero h]
    · right
      have : 0 ≤ |q.2 - p.2| / eucl p q := div_nonneg (abs_nonneg _) (eucl_nonneg _ _)
      linarith) hl'
  have s10 := s1 0
  have s11 := s1 1
  simp only [Matrix.cons_val_zero, Matrix.cons_val_one] at s10 s11
  have e0 := near_chain (e := 1) hu le_rfl (by rw [one_mul]; exact ea') s10
  have e1 := near_chain (e := 1) hu le_rfl (by rw [one_mul]; exact eb) s11
  have N : ∀ {B : ℝ}, 0 ≤ B → (1 + 1 + 1 * u) * u * B ≤ 21 / 10 * u * B := fun hB => mul_le_mul_of_nonneg_right (by nlinarith) hB
  have e0' := e0.trans (N (abs_nonneg _))
  rw [abs_neg] at e0'
  refine orthog_form h hk1 e0' (e1.trans (N (abs_nonneg _))) hcx hcy hmx hmy cx cy ?_ hm
  rw [← hE]
  exact hg.hor.imp (fun e => by rw [e, sub_self]) id

end H2d.Fl
