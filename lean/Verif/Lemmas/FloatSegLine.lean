import Verif.Spec.FloatSegLine
import Verif.Lemmas.FloatSegs
import Verif.Lemmas.FloatInside

/-! # Lemmas for the intersection of a segment and a line with rounded operations -/

namespace H2d.Fl
open H2d.Spec H2d.Props

variable {F : Arith} {u v : ℝ}

theorem sinLineSeg_le_one (li : V3 ℝ) (s : Seg) : sinLineSeg li s ≤ 1 := by
  unfold sinLineSeg
  refine div_le_one_of_le₀ ?_ (mul_nonneg (Real.sqrt_nonneg _) (eucl_nonneg _ _))
  refine (abs_add_le _ _).trans ((cs_abs (li 0) (li 1) (s.2.2 - s.1.2) (s.2.1 - s.1.1)).trans (le_of_eq ?_))
  rw [eucl_comm, eucl_sqrt]; congr 2; ring

/-- The computed line of the segment makes nearly the same angle. -/
theorem sin_near {li m : V3 ℝ} {s : Seg} {ρ S : ℝ} (hli : 0 < li 0 ^ 2 + li 1 ^ 2) (hm : NearLine m s ρ) (hL : 0 < eucl s.1 s.2) (hS0 : 0 ≤ S) (hS1 : S ≤ 1) (hρ : 32 * ρ ≤ S * eucl s.1 s.2) (hS : S ≤ sinLineSeg li s) :
    3 / 4 * S ≤ sinLines li m := by
  have n1 : 0 < Real.sqrt (li 0 ^ 2 + li 1 ^ 2) := Real.sqrt_pos.2 hli
  have n2 : 0 < Real.sqrt (m 0 ^ 2 + m 1 ^ 2) := Real.sqrt_pos.2 hm.norm
  have q1 : Real.sqrt (li 0 ^ 2 + li 1 ^ 2) ^ 2 = li 0 ^ 2 + li 1 ^ 2 := Real.sq_sqrt hli.le
  have q2 : Real.sqrt (m 0 ^ 2 + m 1 ^ 2) ^ 2 = m 0 ^ 2 + m 1 ^ 2 := Real.sq_sqrt hm.norm.le
  have e0 := eucl_sq' s.1 s.2
  have hdir := hm.dir
  unfold sinLineSeg at hS
  unfold sinLines
  rw [le_div_iff₀ (mul_pos n1 hL)] at hS
  rw [le_div_iff₀ (mul_pos n1 n2)]
  generalize Real.sqrt (li 0 ^ 2 + li 1 ^ 2) = n at *
  generalize Real.sqrt (m 0 ^ 2 + m 1 ^ 2) = k at *
  generalize eucl s.1 s.2 = L at *
  generalize s.2.1 - s.1.1 = dx at *
  generalize s.2.2 - s.1.2 = dy at *
  obtain ⟨e, he⟩ : ∃ e, e = m 0 * dx + m 1 * dy := ⟨_, rfl⟩
  obtain ⟨f, hf⟩ : ∃ f, f = m 1 * dx - m 0 * dy := ⟨_, rfl⟩
  obtain ⟨α, hα⟩ : ∃ x, x = li 0 * dx + li 1 * dy := ⟨_, rfl⟩
  obtain ⟨β, hβ⟩ : ∃ x, x = li 1 * dx - li 0 * dy := ⟨_, rfl⟩
  rw [← he] at hdir
  rw [← hα] at hS
  have id1 : L ^ 2 * (li 0 * m 1 - li 1 * m 0) = α * f - β * e := by rw [e0, hα, hβ, hf, he]; ring
  have id2 : f ^ 2 = k ^ 2 * L ^ 2 - e ^ 2 := by rw [e0, q2, hf, he]; ring
  have id3 : β ^ 2 = n ^ 2 * L ^ 2 - α ^ 2 := by rw [e0, q1, hα, hβ]; ring
  have e1 : |e| ≤ S * L * k / 16 := by
    refine hdir.trans ?_
    have := mul_le_mul_of_nonneg_right hρ n2.le
    linarith
  have e2 : |e| ≤ k * L / 16 := by
    refine e1.trans ?_
    have := mul_le_mul_of_nonneg_right hS1 (mul_pos hL n2).le
    linarith
  have f1 : 63 / 64 * (k * L) ≤ |f| := by
    refine (abs_le_of_sq_le_sq' ?_ (abs_nonneg _)).2
    rw [sq_abs, id2]
    have := sq_le_sq' (by linarith [abs_le.1 e2]) (abs_le.1 e2).2
    nlinarith [mul_pos n2 hL]
  have b1 : |β| ≤ n * L := by
    refine abs_le_of_sq_le_sq ?_ (mul_pos n1 hL).le
    rw [id3, mul_pow]
    nlinarith [sq_nonneg α]
  have i1 : |α| * |f| - |β| * |e| ≤ L ^ 2 * |li 0 * m 1 - li 1 * m 0| := by
    have : L ^ 2 * |li 0 * m 1 - li 1 * m 0| = |α * f - β * e| := by rw [← id1, abs_mul, abs_of_pos (pow_pos hL 2)]
    rw [this, ← abs_mul, ← abs_mul]
    exact abs_sub_abs_le_abs_sub _ _
  have i2 : S * (n * L) * (63 / 64 * (k * L)) ≤ |α| * |f| := mul_le_mul hS f1 (mul_pos (by norm_num) (mul_pos n2 hL)).le (abs_nonneg _)
  have i3 : |β| * |e| ≤ n * L * (S * L * k / 16) := mul_le_mul b1 e1 (abs_nonneg _) (mul_pos n1 hL).le
  have i4 : L ^ 2 * (S * (n * k) * (59 / 64)) ≤ L ^ 2 * |li 0 * m 1 - li 1 * m 0| := by linarith
  have i5 := le_of_mul_le_mul_left i4 (pow_pos hL 2)
  have : 0 ≤ S * (n * k) := mul_nonneg hS0 (mul_pos n1 n2).le
  linarith

/-- What is known of the point that is computed. -/
structure LnPoint (F : Arith) (t : Thr ℝ) (ac : ℝ → ℝ) (u M L S : ℝ) (s : Seg) (li m : V3 ℝ) (q Q : Pt ℝ) : Prop where
  near : NearLine m s (16 * (u * M ^ 2 / (L * S)) * S)
  sin : 3 / 4 * S ≤ sinLines li m
  both : OnBoth li m Q
  fst : |q.1 - Q.1| ≤ 8 * (8 / 5 * (u * M / S) + u / S * |Q.1|)
  snd : |q.2 - Q.2| ≤ 8 * (8 / 5 * (u * M / S) + u / S * |Q.2|)
  found : Between F t s q → segLineInter F t ac s li = .ok (some q)
  only : ∀ p, segLineInter F t ac s li = .ok (some p) → p = q ∧ Between F t s q
  total : ∃ r, segLineInter F t ac s li = .ok r

theorem ln_point (h : FlOk F u v) {ac : ℝ → ℝ} {t : Thr ℝ} {w M L S : ℝ} (ha : AcosOk ac w) {s : Seg} {li : V3 ℝ} (hp : SegLn F t u w M L S s li) : ∃ m q Q, LnPoint F t ac u M L S s li m q Q := by
  have hS := hp.S_pos
  have hL := hp.L_pos
  have hS1 : S ≤ 1 := hp.sin.trans (sinLineSeg_le_one li s)
  have hE : 0 < eucl s.1 s.2 := lt_of_lt_of_le hL hp.len
  have hnd : 2 * t.nullDistance ≤ eucl s.1 s.2 := by
    have h1 : S * L ≤ L := mul_le_of_le_one_left hL.le hS1
    have h2 : 0 < t.nullDistance := lt_of_lt_of_le (by have := dblEps_pos; linarith) hp.eps
    linarith [hp.thr, hp.len]
  obtain ⟨r1, r2, m1, m2, m3, m4⟩ := hp.rep
  obtain ⟨hM, k0, k1, k2, k3, k4, k5, -⟩ := kappa_facts h.u_nonneg hL hS hS1 hp.len (eucl_le_3M ⟨m1, m2⟩ ⟨m3, m4⟩) hp.small
  obtain ⟨m, el, hN⟩ := segLine_near h t hp.eps hp.rep hp.slope hnd
  have hsin := sin_near hp.norm hN hE hS.le hS1 (by linarith) hp.sin
  replace hN := hN.mono k1
  obtain ⟨Q, hQ⟩ := exists_onBoth (lt_of_lt_of_le (by linarith) hsin)
  have hC : 3 / 2 * M + 16 * (u * M ^ 2 / (L * S)) * S ≤ 8 / 5 * M := by
    have : 16 * (u * M ^ 2 / (L * S)) * S ≤ 16 * (u * M ^ 2 / (L * S)) := mul_le_of_le_one_right (by positivity) hS1
    linarith
  obtain ⟨q, eq, hx, hy⟩ := crossXY_err h hp.norm hN.norm (s := 3 / 4 * S) (by linarith) (by linarith [h.u_nonneg]) hsin hp.off ((hN.off m1 m2).trans hC) hQ
  have hpar := not_parallel h ha t hp.norm hN.norm (hp.angle.trans hsin)
  have ev : segLineInter F t ac s li = if Between F t s q then .ok (some q) else .ok none := by
    unfold segLineInter lineInter
    rw [el]
    simp only [Res.bind_ok, hpar, Bool.false_eq_true, if_false, eq]
    split_ifs <;> rfl
  refine ⟨m, q, Q, hN, hsin, hQ, hx.trans (le_of_eq ?_), hy.trans (le_of_eq ?_), ?_, ?_, ?_⟩
  · field_simp; ring
  · field_simp; ring
  · intro b1
    rw [ev, if_pos b1]
  · intro p e
    rw [ev] at e
    split_ifs at e with b1
    · exact ⟨by injection e with e; injection e with e; exact e.symm, b1⟩
    · injection e with e; cases e
  · rw [ev]; split_ifs <;> exact ⟨_, rfl⟩

/-- The computed point is near the common point. -/
theorem LnPoint.near_common (h : FlOk F u v) {ac : ℝ → ℝ} {t : Thr ℝ} {w M L S : ℝ} {s : Seg} {li : V3 ℝ} (hp : SegLn F t u w M L S s li) {m : V3 ℝ} {q Q : Pt ℝ} (hq : LnPoint F t ac u M L S s li m q Q)
    {k : ℝ} (hk0 : 0 ≤ k) (hk1 : k ≤ 1) (hP : li 0 * (Spec.along s k).1 + li 1 * (Spec.along s k).2 + li 2 = 0) : eucl q (Spec.along s k) ≤ 150 * (u * M ^ 2 / (L * S)) := by
  have hS := hp.S_pos
  have hL := hp.L_pos
  have hS1 : S ≤ 1 := hp.sin.trans (sinLineSeg_le_one li s)
  obtain ⟨r1, r2, m1, m2, m3, m4⟩ := hp.rep
  obtain ⟨hM, k0, -, k2, k3, k4, -, -⟩ := kappa_facts h.u_nonneg hL hS hS1 hp.len (eucl_le_3M ⟨m1, m2⟩ ⟨m3, m4⟩) hp.small
  have hu := h.u_nonneg
  have a1 := hq.near.along k
  rw [abs_of_nonneg hk0, abs_of_nonneg (by linarith : 0 ≤ 1 - k), sub_add_cancel, one_mul] at a1
  have d := onBoth_near (a := 0) hp.norm hq.near.norm hS hq.sin hq.both (by rw [hP]; simp) a1
  have hx := hq.fst
  have hy := hq.snd
  have P1 : |(Spec.along s k).1| ≤ M := by
    have : (Spec.along s k).1 = (1 - k) * s.1.1 + k * s.2.1 := by simp only [Spec.along]; ring
    rw [this]
    refine (abs_add_le _ _).trans ?_
    rw [abs_mul, abs_mul, abs_of_nonneg hk0, abs_of_nonneg (by linarith : 0 ≤ 1 - k)]
    linarith [mul_le_mul_of_nonneg_left m1 (by linarith : 0 ≤ 1 - k), mul_le_mul_of_nonneg_left m3 hk0]
  have P2 : |(Spec.along s k).2| ≤ M := by
    have : (Spec.along s k).2 = (1 - k) * s.1.2 + k * s.2.2 := by simp only [Spec.along]; ring
    rw [this]
    refine (abs_add_le _ _).trans ?_
    rw [abs_mul, abs_mul, abs_of_nonneg hk0, abs_of_nonneg (by linarith : 0 ≤ 1 - k)]
    linarith [mul_le_mul_of_nonneg_left m2 (by linarith : 0 ≤ 1 - k), mul_le_mul_of_nonneg_left m4 hk0]
  generalize Spec.along s k = P at *
  have uS : 0 ≤ u / S := by positivity
  have e1 : u / S * M = u * M / S := by ring
  have cb : ∀ a b : ℝ, |a| ≤ M → |a - b| ≤ eucl P Q → u / S * |b| ≤ 5 / 4 * (u * M / S) := by
    intro a b h1 h2
    have h3 : |b| ≤ |a| + |a - b| := by have := abs_sub a (a - b); rwa [sub_sub_cancel] at this
    have h4 : |b| ≤ 5 / 4 * M := by linarith
    have := mul_le_mul_of_nonneg_left h4 uS
    linarith
  have c1 := cb _ _ P1 (abs_fst_le_eucl P Q)
  have c2 := cb _ _ P2 (abs_snd_le_eucl P Q)
  have d2 := eucl_le_max (p := q) (q := Q) (b := 8 * (57 / 20 * (u * M / S))) (by linarith) (by linarith)
  have tr := eucl_triangle q Q P
  rw [eucl_comm Q P] at tr
  linarith

/-- A point that passes the test is near the segment, and near the line. -/
theorem LnPoint.sound (h : FlOk F u v) {ac : ℝ → ℝ} {t : Thr ℝ} {w M L S : ℝ} {s : Seg} {li : V3 ℝ} (hp : SegLn F t u w M L S s li) {m : V3 ℝ} {q Q : Pt ℝ} (hq : LnPoint F t ac u M L S s li m q Q)
    (hb : Between F t s q) : (∃ k, 0 ≤ k ∧ k ≤ 1 ∧ eucl q (Spec.along s k) ≤ 350 * (u * M ^ 2 / (L * S)) + 6 * (u + v) * M + 11 / 20 * t.nullDistance) ∧ eucl q Q ≤ 280 * (u * M ^ 2 / (L * S)) := by
  have hS := hp.S_pos
  have hL := hp.L_pos
  have hS1 : S ≤ 1 := hp.sin.trans (sinLineSeg_le_one li s)
  obtain ⟨r1, r2, m1, m2, m3, m4⟩ := hp.rep
  have hLM := eucl_le_3M ⟨m1, m2⟩ ⟨m3, m4⟩
  obtain ⟨hM, k0, -, k2, k3, k4, -, k5⟩ := kappa_facts h.u_nonneg hL hS hS1 hp.len hLM hp.small
  have hu := h.u_nonneg
  have hv := h.v_nonneg
  have hu1 := h.u_small
  have hv1 := h.v_small
  have hb := between_only h hb
  have hl1 := hp.len
  have hth := hp.thr
  have hSL : S * L ≤ L := mul_le_of_le_one_left hL.le hS1
  have hLA : 0 < eucl s.1 s.2 := by linarith
  have huvL : (u + v) * eucl s.1 s.2 ≤ 1 / 32 * eucl s.1 s.2 := mul_le_mul_of_nonneg_right (by linarith) hLA.le
  have tr1 : eucl s.1 q ≤ eucl s.1 s.2 + eucl s.2 q := eucl_triangle _ _ _
  have D1 : eucl s.1 q ≤ 5 / 4 * eucl s.1 s.2 := by linarith
  have uS : 0 ≤ u / S := by positivity
  have e1 : u / S * M = u * M / S := by ring
  have uS1 : u / S ≤ 1 / 50 := by rw [div_le_iff₀ hS]; linarith
  have uMS : u * M / S ≤ 1 / 50 * M := by rw [← e1]; exact mul_le_mul_of_nonneg_right uS1 hM.le
  have cb : ∀ a b c : ℝ, |a| ≤ M → |a - b| ≤ eucl s.1 q → |b - c| ≤ 8 * (8 / 5 * (u * M / S) + u / S * |c|) → |b - c| ≤ 61 * (u * M / S) := by
    intro a b c ha hab hbc
    have h3 : |b| ≤ |a| + |a - b| := by have := abs_sub a (a - b); rwa [sub_sub_cancel] at this
    have h4 : |c| ≤ |b| + |b - c| := by have := abs_sub b (b - c); rwa [sub_sub_cancel] at this
    have h5 := mul_le_mul_of_nonneg_right uS1 (abs_nonneg c)
    have h6 : |c| ≤ 6 * M := by linarith
    have h7 := mul_le_mul_of_nonneg_left h6 uS
    have h8 : 0 ≤ u * M / S := by positivity
    linarith
  have dq : eucl q Q ≤ 280 * (u * M ^ 2 / (L * S)) := by
    have := eucl_le_max (p := q) (q := Q) (cb _ _ _ m1 (abs_fst_le_eucl s.1 q) hq.fst) (cb _ _ _ m2 (abs_snd_le_eucl s.1 q) hq.snd)
    linarith
  refine ⟨?_, dq⟩
  obtain ⟨κ, hκ⟩ : ∃ κ, κ = u * M ^ 2 / (L * S) := ⟨_, rfl⟩
  have near := hq.near
  rw [← hκ] at near k0 k2 k3 k5 dq
  rw [← hκ]
  have hlq : |m 0 * q.1 + m 1 * q.2 + m 2| ≤ 280 * κ * Real.sqrt (m 0 ^ 2 + m 1 ^ 2) := by
    rw [show m 0 * q.1 + m 1 * q.2 + m 2 = m 0 * (q.1 - Q.1) + m 1 * (q.2 - Q.2) by linear_combination hq.both.2]
    refine (abs_add_le _ _).trans ((cs_abs (m 0) (m 1) (q.2 - Q.2) (q.1 - Q.1)).trans ?_)
    rw [mul_comm, add_comm ((q.2 - Q.2) ^ 2), ← eucl_sqrt]
    exact mul_le_mul_of_nonneg_right dq (Real.sqrt_nonneg _)
  have hX : |(s.2.1 - s.1.1) * (q.1 - s.1.1) + (s.2.2 - s.1.2) * (q.2 - s.1.2)| ≤ 5 / 4 * eucl s.1 s.2 ^ 2 := by
    have : |(s.2.1 - s.1.1) * (q.1 - s.1.1) + (s.2.2 - s.1.2) * (q.2 - s.1.2)| ≤ eucl s.1 s.2 * eucl s.1 q := by
      refine abs_le_of_sq_le_sq ?_ (mul_nonneg hLA.le (eucl_nonneg _ _))
      rw [mul_pow, eucl_sq', eucl_sq']
      nlinarith [sq_nonneg ((s.2.1 - s.1.1) * (q.2 - s.1.2) - (s.2.2 - s.1.2) * (q.1 - s.1.1))]
    have h2 := mul_le_mul_of_nonneg_left D1 hLA.le
    linarith
  have hρ : 16 * κ * S ≤ 16 * κ := mul_le_of_le_one_right (by positivity) hS1
  have hY := (near.mono hρ).perp hLA (by linarith) hlq hX
  obtain ⟨k, hk0, hk1, hk⟩ := seg_near (b := 350 * κ) hLA hb (hY.trans (mul_le_mul_of_nonneg_right (by linarith) hLA.le))
  refine ⟨k, hk0, hk1, hk.trans ?_⟩
  have : (u + v) * eucl s.1 s.2 ≤ (u + v) * (3 * M) := mul_le_mul_of_nonneg_left hLM (by positivity)
  linarith

/-- Lines that are not parallel for the library have an angle that is not too small. -/
theorem notpar_sin (h : FlOk F u v) {ac : ℝ → ℝ} {w σ : ℝ} (ha : AcosOk ac w) (t : Thr ℝ) {l m : V3 ℝ} (hl : 0 < l 0 ^ 2 + l 1 ^ 2) (hm : 0 < m 0 ^ 2 + m 1 ^ 2)
    (hs : 2 * σ + (Real.pi * Real.sqrt (11 * u / 2) + w * (Real.pi / 2)) ≤ t.nullAngleValue) (hσ : 0 ≤ σ) (hp : isParallel F t ac l m = false) : σ ≤ sinLines l m := by
  have n1 : 0 < Real.sqrt (l 0 ^ 2 + l 1 ^ 2) := Real.sqrt_pos.2 hl
  have n2 : 0 < Real.sqrt (m 0 ^ 2 + m 1 ^ 2) := Real.sqrt_pos.2 hm
  have e1 : Real.sqrt (l 0 ^ 2 + l 1 ^ 2) ^ 2 = l 0 ^ 2 + l 1 ^ 2 := Real.sq_sqrt hl.le
  have e2 : Real.sqrt (m 0 ^ 2 + m 1 ^ 2) ^ 2 = m 0 ^ 2 + m 1 ^ 2 := Real.sq_sqrt hm.le
  have hN := mul_pos n1 n2
  set x := |l 0 * m 0 + l 1 * m 1| / (Real.sqrt (l 0 ^ 2 + l 1 ^ 2) * Real.sqrt (m 0 ^ 2 + m 1 ^ 2)) with hx
  have hx0 : 0 ≤ x := by positivity
  have hsum : x ^ 2 + sinLines l m ^ 2 = 1 := by
    rw [hx, sinLines, div_pow, div_pow, ← add_div, div_eq_one_iff_eq (by positivity), sq_abs, sq_abs, mul_pow, e1, e2]; ring
  have hx1 : x ≤ 1 := by nlinarith [sq_nonneg (sinLines l m)]
  have hφ : IsAngle l m (Real.arccos x) := by
    refine ⟨Real.arccos_nonneg _, Real.arccos_le_pi_div_two.2 hx0, ?_⟩
    rw [Real.cos_arccos (by linarith) hx1, hx, div_mul_cancel₀ _ hN.ne']
  obtain ⟨θ, -, e, -, -, -, -, -, -, hd⟩ := lineAngle_err h ha hl hm hφ
  unfold isParallel at hp
  rw [e] at hp
  have hp := not_lt.1 (of_decide_eq_false hp)
  have h0 : 0 ≤ sinLines l m := by unfold sinLines; positivity
  have hsin : Real.sin (Real.arccos x) = sinLines l m := by
    rw [Real.sin_arccos, show 1 - x ^ 2 = sinLines l m ^ 2 by linarith, Real.sqrt_sq h0]
  have j := Real.mul_le_sin hφ.1 hφ.2.1
  rw [hsin] at j
  have hd := abs_le.1 hd
  have h2 : 2 * σ ≤ Real.arccos x := by linarith [hd.2]
  have h3 : 1 / 2 ≤ 2 / Real.pi := by
    rw [div_le_div_iff₀ (by norm_num) Real.pi_pos]; linarith [Real.pi_le_four]
  have h4 := mul_le_mul h3 h2 (by linarith) (by positivity)
  linarith

theorem sideDist_along (li : V3 ℝ) (s : Seg) (k : ℝ) : sideDist li (Spec.along s k) = (1 - k) * sideDist li s.1 + k * sideDist li s.2 := by
  unfold sideDist Spec.along
  simp only
  ring

theorem sideDist_lip {li : V3 ℝ} (hli : 0 < li 0 ^ 2 + li 1 ^ 2) (p q : Pt ℝ) : |sideDist li p - sideDist li q| ≤ eucl p q := by
  have n : 0 < Real.sqrt (li 0 ^ 2 + li 1 ^ 2) := Real.sqrt_pos.2 hli
  unfold sideDist
  rw [← sub_div, abs_div, abs_of_pos n, div_le_iff₀ n, show li 0 * p.1 + li 1 * p.2 + li 2 - (li 0 * q.1 + li 1 * q.2 + li 2) = li 0 * (p.1 - q.1) + li 1 * (p.2 - q.2) by ring]
  refine (abs_add_le _ _).trans ((cs_abs (li 0) (li 1) (p.2 - q.2) (p.1 - q.1)).trans (le_of_eq ?_))
  rw [mul_comm, eucl_sqrt, add_comm]

theorem sideDist_on {li : V3 ℝ} {p : Pt ℝ} (hli : 0 < li 0 ^ 2 + li 1 ^ 2) : sideDist li p = 0 ↔ li 0 * p.1 + li 1 * p.2 + li 2 = 0 := by
  unfold sideDist
  rw [div_eq_zero_iff]
  exact or_iff_left (Real.sqrt_pos.2 hli).ne'

theorem aside_along {li : V3 ℝ} {A k : ℝ} {s : Seg} (h : Aside li A s) (h0 : 0 ≤ k) (h1 : k ≤ 1) : A < |sideDist li (Spec.along s k)| := by
  rw [sideDist_along]
  unfold Aside at h
  generalize sideDist li s.1 = a, sideDist li s.2 = b at *
  have hk : 0 ≤ 1 - k := by linarith
  rcases h with ⟨ha, hb⟩ | ⟨ha, hb⟩
  · refine lt_of_lt_of_le ?_ (le_abs_self _)
    rcases h0.eq_or_lt with rfl | h0
    · simpa using ha
    · nlinarith
  · refine lt_of_lt_of_le ?_ (neg_le_abs _)
    rcases h0.eq_or_lt with rfl | h0
    · linarith
    · nlinarith

/-- A segment on one side of the line has no intersection with it, whatever the angle. -/
theorem aside_none (h : FlOk F u v) {ac : ℝ → ℝ} {t : Thr ℝ} {w M σ : ℝ} (ha : AcosOk ac w) {s : Seg} {li : V3 ℝ} (hp : SegAside F t u v w M σ s li) : segLineInter F t ac s li = .ok none := by
  have hσ := hp.σ_pos
  have hdb := dblEps_pos
  have heps := hp.eps
  have hlen := hp.len
  have hE : 0 < eucl s.1 s.2 := by linarith
  obtain ⟨r1, r2, m1, m2, m3, m4⟩ := hp.rep
  have hLM := eucl_le_3M ⟨m1, m2⟩ ⟨m3, m4⟩
  have hM : 0 < M := by linarith
  have hu := h.u_nonneg
  have hv := h.v_nonneg
  have hu1 := h.u_small
  have hv1 := h.v_small
  obtain ⟨m, el, hN⟩ := segLine_near h t hp.eps hp.rep hp.slope hlen
  rw [show 16 * u * M ^ 2 / eucl s.1 s.2 = 16 * (u * M ^ 2 / eucl s.1 s.2) by ring] at hN
  have hr : 512 * (u * M ^ 2 / eucl s.1 s.2) ≤ eucl s.1 s.2 := by
    rw [← mul_div_assoc, div_le_iff₀ hE]; linarith [hp.small]
  have hr0 : 0 ≤ u * M ^ 2 / eucl s.1 s.2 := by positivity
  have hA := hp.aside
  unfold asideMargin at hA
  generalize hκ : u * M ^ 2 / eucl s.1 s.2 = κ at *
  by_cases hpar : isParallel F t ac li m = true
  · unfold segLineInter
    rw [el]
    simp only [Res.bind_ok, hpar, if_true]
    rfl
  rw [Bool.not_eq_true] at hpar
  have hsin := notpar_sin h ha t hp.norm hN.norm hp.angle hσ.le hpar
  obtain ⟨Q, hQ⟩ := exists_onBoth (lt_of_lt_of_le hσ hsin)
  have hC : 3 / 2 * M + 16 * κ ≤ 8 / 5 * M := by linarith
  obtain ⟨q, eq, hx, hy⟩ := crossXY_err h hp.norm hN.norm hσ (by linarith [hp.prec]) hsin hp.off ((hN.off m1 m2).trans hC) hQ
  have ev : segLineInter F t ac s li = if Between F t s q then .ok (some q) else .ok none := by
    unfold segLineInter lineInter
    rw [el]
    simp only [Res.bind_ok, hpar, Bool.false_eq_true, if_false, eq]
    split_ifs <;> rfl
  rw [ev]
  refine if_neg fun hb => ?_
  have hb := between_only h hb
  have huvL : (u + v) * eucl s.1 s.2 ≤ 1 / 32 * eucl s.1 s.2 := mul_le_mul_of_nonneg_right (by linarith) hE.le
  have tr1 : eucl s.1 q ≤ eucl s.1 s.2 + eucl s.2 q := eucl_triangle _ _ _
  have D1 : eucl s.1 q ≤ 27 / 20 * eucl s.1 s.2 := by linarith
  have uS : 0 ≤ u / σ := by positivity
  have e1 : u / σ * M = u * M / σ := by ring
  have uS1 : u / σ ≤ 1 / 50 := by rw [div_le_iff₀ hσ]; linarith [hp.prec]
  have uMS : u * M / σ ≤ 1 / 50 * M := by rw [← e1]; exact mul_le_mul_of_nonneg_right uS1 hM.le
  have u0 : 0 ≤ u * M / σ := by positivity
  have cb : ∀ a b c : ℝ, |a| ≤ M → |a - b| ≤ eucl s.1 q → |b - c| ≤ 6 * u * (8 / 5 * M + |c|) / σ → |b - c| ≤ 46 * (u * M / σ) := by
    intro a b c ha hab hbc
    rw [show 6 * u * (8 / 5 * M + |c|) / σ = 48 / 5 * (u * M / σ) + 6 * (u / σ * |c|) by ring] at hbc
    have h3 : |b| ≤ |a| + |a - b| := by have := abs_sub a (a - b); rwa [sub_sub_cancel] at this
    have h4 : |c| ≤ |b| + |b - c| := by have := abs_sub b (b - c); rwa [sub_sub_cancel] at this
    have h5 := mul_le_mul_of_nonneg_right uS1 (abs_nonneg c)
    have h6 : |c| ≤ 6 * M := by linarith
    have h7 := mul_le_mul_of_nonneg_left h6 uS
    linarith
  have dq : eucl q Q ≤ 69 * (u * M / σ) := by
    have := eucl_le_max (p := q) (q := Q) (cb _ _ _ m1 (abs_fst_le_eucl s.1 q) hx) (cb _ _ _ m2 (abs_snd_le_eucl s.1 q) hy)
    linarith
  generalize u * M / σ = ε at *
  have hlq : |m 0 * q.1 + m 1 * q.2 + m 2| ≤ 69 * ε * Real.sqrt (m 0 ^ 2 + m 1 ^ 2) := by
    rw [show m 0 * q.1 + m 1 * q.2 + m 2 = m 0 * (q.1 - Q.1) + m 1 * (q.2 - Q.2) by linear_combination hQ.2]
    refine (abs_add_le _ _).trans ((cs_abs (m 0) (m 1) (q.2 - Q.2) (q.1 - Q.1)).trans ?_)
    rw [mul_comm, add_comm ((q.2 - Q.2) ^ 2), ← eucl_sqrt]
    exact mul_le_mul_of_nonneg_right dq (Real.sqrt_nonneg _)
  have hX : |(s.2.1 - s.1.1) * (q.1 - s.1.1) + (s.2.2 - s.1.2) * (q.2 - s.1.2)| ≤ 27 / 20 * eucl s.1 s.2 ^ 2 := by
    have : |(s.2.1 - s.1.1) * (q.1 - s.1.1) + (s.2.2 - s.1.2) * (q.2 - s.1.2)| ≤ eucl s.1 s.2 * eucl s.1 q := by
      refine abs_le_of_sq_le_sq ?_ (mul_nonneg hE.le (eucl_nonneg _ _))
      rw [mul_pow, eucl_sq', eucl_sq']
      nlinarith [sq_nonneg ((s.2.1 - s.1.1) * (q.2 - s.1.2) - (s.2.2 - s.1.2) * (q.1 - s.1.1))]
    have h2 := mul_le_mul_of_nonneg_left D1 hE.le
    linarith
  have hY := hN.perp hE (by linarith) hlq hX
  obtain ⟨k, hk0, hk1, hk⟩ := seg_near (b := 141 / 2 * ε + 61 * κ) hE hb (hY.trans (mul_le_mul_of_nonneg_right (by linarith) hE.le))
  have hA := aside_along hA hk0 hk1
  have l1 := sideDist_lip hp.norm (Spec.along s k) q
  have l2 := sideDist_lip hp.norm q Q
  rw [eucl_comm] at l1
  rw [(sideDist_on hp.norm).2 hQ.1, sub_zero] at l2
  have l3 : |sideDist li (Spec.along s k)| ≤ |sideDist li (Spec.along s k) - sideDist li q| + |sideDist li q| := by
    have := abs_add_le (sideDist li (Spec.along s k) - sideDist li q) (sideDist li q)
    rwa [sub_add_cancel] at this
  have : (u + v) * eucl s.1 s.2 ≤ (u + v) * (3 * M) := mul_le_mul_of_nonneg_left hLM (by positivity)
  linarith

theorem crosses_point {li : V3 ℝ} {s : Seg} (h : Crosses li s) : ∃ k, 0 ≤ k ∧ k ≤ 1 ∧ sideDist li (Spec.along s k) = 0 := by
  unfold Crosses at h
  simp only [sideDist_along]
  generalize sideDist li s.1 = a, sideDist li s.2 = b at *
  have hne : a - b ≠ 0 := fun e => by rw [sub_eq_zero.1 e] at h; nlinarith [mul_self_nonneg b]
  refine ⟨a / (a - b), ?_, ?_, by field_simp; ring⟩
  · rcases mul_neg_iff.1 h with ⟨x, y⟩ | ⟨x, y⟩
    · exact div_nonneg x.le (by linarith)
    · exact div_nonneg_of_nonpos x.le (by linarith)
  · rcases mul_neg_iff.1 h with ⟨x, y⟩ | ⟨x, y⟩
    · rw [div_le_one (by linarith)]; linarith
    · rw [div_le_one_of_neg (by linarith)]; linarith

/-- A common point is found. -/
theorem ln_found (h : FlOk F u v) {ac : ℝ → ℝ} {t : Thr ℝ} {w M L S : ℝ} (ha : AcosOk ac w) {s : Seg} {li : V3 ℝ} (hp : SegLn F t u w M L S s li) (hn : 350 * (u * M ^ 2 / (L * S)) + 13 * (u + v) * M < t.nullDistance)
    {k : ℝ} (hk0 : 0 ≤ k) (hk1 : k ≤ 1) (hP : li 0 * (Spec.along s k).1 + li 1 * (Spec.along s k).2 + li 2 = 0) :
    ∃ q, segLineInter F t ac s li = .ok (some q) ∧ eucl q (Spec.along s k) ≤ 150 * (u * M ^ 2 / (L * S)) := by
  obtain ⟨m, q, Q, hq⟩ := ln_point h ha hp
  have d := hq.near_common h hp hk0 hk1 hP
  refine ⟨q, hq.found ?_, d⟩
  have hS := hp.S_pos
  have hL := hp.L_pos
  have hS1 : S ≤ 1 := hp.sin.trans (sinLineSeg_le_one li s)
  obtain ⟨r1, r2, m1, m2, m3, m4⟩ := hp.rep
  have hLM := eucl_le_3M ⟨m1, m2⟩ ⟨m3, m4⟩
  obtain ⟨hM, k0, -, k2, k3, k4, -, k5⟩ := kappa_facts h.u_nonneg hL hS hS1 hp.len hLM hp.small
  have hu := h.u_nonneg
  have hv := h.v_nonneg
  have hu1 := h.u_small
  have hv1 := h.v_small
  have t1 := eucl_triangle s.1 (Spec.along s k) q
  have t2 := eucl_triangle s.2 (Spec.along s k) q
  have hsum : eucl s.1 (Spec.along s k) + eucl s.2 (Spec.along s k) = eucl s.1 s.2 := by
    have a0 : Spec.along s 0 = s.1 := by unfold Spec.along; simp
    have a1 : Spec.along s 1 = s.2 := by unfold Spec.along; simp
    have e1 := eucl_along s 0 k
    have e2 := eucl_along s 1 k
    rw [a0] at e1
    rw [a1] at e2
    rw [e1, e2, zero_sub, abs_neg, abs_of_nonneg hk0, abs_of_nonneg (by linarith : 0 ≤ 1 - k)]
    ring
  rw [eucl_comm (Spec.along s k) q] at t1 t2
  generalize u * M ^ 2 / (L * S) = κ at *
  refine between_of h (g := 300 * κ) (by linarith) ?_
  have a1 : (u + v) * eucl s.1 s.2 ≤ (u + v) * (3 * M) := mul_le_mul_of_nonneg_left hLM (by positivity)
  have a2 : (u + v) * κ ≤ 1 / 32 * κ := mul_le_mul_of_nonneg_right (by linarith) k0
  have a3 : 0 ≤ (u + v) * M := by positivity
  linarith

/-! ### Polylines -/

theorem crosses_fix {li : V3 ℝ} {e : Seg} : Crosses li (fixOrder e.1 e.2) ↔ Crosses li e := by
  rcases Pip.fixOrder_cases e.1 e.2 with k | k <;> rw [k]
  unfold Crosses
  show sideDist li e.2 * sideDist li e.1 < 0 ↔ _
  rw [mul_comm]

theorem sinLineSeg_swap (li : V3 ℝ) (a b : Pt ℝ) : sinLineSeg li (b, a) = sinLineSeg li (a, b) := by
  unfold sinLineSeg
  simp only
  rw [eucl_comm b a, show li 0 * (a.1 - b.1) + li 1 * (a.2 - b.2) = -(li 0 * (b.1 - a.1) + li 1 * (b.2 - a.2)) by ring, abs_neg]

theorem slope_swap {t : Thr ℝ} {a b : Pt ℝ} (h : SlopeOk t (a, b)) : SlopeOk t (b, a) := by
  unfold SlopeOk at *
  simp only at *
  rw [eucl_comm b a, abs_sub_comm b.2 a.2]
  exact h.imp Eq.symm id

theorem segRep_swap {M : ℝ} {a b : Pt ℝ} (h : SegRep F M (a, b)) : SegRep F M (b, a) := ⟨h.2.1, h.1, h.2.2.2.2.1, h.2.2.2.2.2, h.2.2.1, h.2.2.2.1⟩

theorem segLn_fix {t : Thr ℝ} {w M L S : ℝ} {e : Seg} {li : V3 ℝ} (h : SegLn F t u w M L S e li) : SegLn F t u w M L S (fixOrder e.1 e.2) li := by
  rcases Pip.fixOrder_cases e.1 e.2 with k | k <;> rw [k]
  · exact h
  · exact { h with rep := segRep_swap h.rep, slope := slope_swap h.slope, len := by rw [Prod.swap, eucl_comm]; exact h.len, sin := by rw [Prod.swap, sinLineSeg_swap]; exact h.sin }

theorem segAside_fix {t : Thr ℝ} {w M σ : ℝ} {e : Seg} {li : V3 ℝ} (h : SegAside F t u v w M σ e li) : SegAside F t u v w M σ (fixOrder e.1 e.2) li := by
  rcases Pip.fixOrder_cases e.1 e.2 with k | k <;> rw [k]
  · exact h
  · refine { h with rep := segRep_swap h.rep, slope := slope_swap h.slope, len := ?_, small := ?_, aside := ?_ }
    · rw [Prod.swap, eucl_comm]; exact h.len
    · rw [Prod.swap, eucl_comm]; exact h.small
    · rw [Prod.swap, eucl_comm]; exact h.aside.imp And.symm And.symm

theorem aside_pos {t : Thr ℝ} (h : FlOk F u v) {w M σ : ℝ} {e : Seg} {li : V3 ℝ} (hp : SegAside F t u v w M σ e li) : 0 < asideMargin t u v M (eucl e.1 e.2) σ := by
  have hdb := dblEps_pos
  have heps := hp.eps
  have hlen := hp.len
  have hE : 0 < eucl e.1 e.2 := by linarith
  obtain ⟨r1, r2, m1, m2, m3, m4⟩ := hp.rep
  have hM : 0 < M := by linarith [eucl_le_3M ⟨m1, m2⟩ ⟨m3, m4⟩]
  have hu := h.u_nonneg
  have hv := h.v_nonneg
  have hσ := hp.σ_pos
  have hnd : 0 < t.nullDistance := by linarith
  unfold asideMargin; positivity

theorem aside_not_crosses {t : Thr ℝ} (h : FlOk F u v) {w M σ : ℝ} {e : Seg} {li : V3 ℝ} (hp : SegAside F t u v w M σ e li) : ¬ Crosses li e := by
  have hA := aside_pos h hp
  intro k
  unfold Crosses at k
  rcases hp.aside with ⟨a, b⟩ | ⟨a, b⟩
  · nlinarith [mul_pos (hA.trans a) (hA.trans b)]
  · have a' : sideDist li e.1 < 0 := by linarith
    have b' : sideDist li e.2 < 0 := by linarith
    nlinarith [mul_pos_of_neg_of_neg a' b']

/-- The intersections of a line with a list of edges. -/
theorem line_list (h : FlOk F u v) {ac : ℝ → ℝ} {t : Thr ℝ} {w M L S σ : ℝ} (ha : AcosOk ac w) (hn : 350 * (u * M ^ 2 / (L * S)) + 13 * (u + v) * M < t.nullDistance) {li : V3 ℝ} {es : List Seg}
    (he : ∀ e ∈ es, (SegLn F t u w M L S e li ∧ Crosses li e) ∨ SegAside F t u v w M σ e li) :
    ∃ r, segsInterLine F t ac li (es.map fun e => fixOrder e.1 e.2) = .ok r ∧
      List.Forall₂ (fun q e => ∀ P, OnSeg e.1 e.2 P → sideDist li P = 0 → eucl q P ≤ 150 * (u * M ^ 2 / (L * S))) r (crossing es li) := by
  unfold segsInterLine crossing
  rw [filter_flatMap]
  refine concat_flatMap es fun e hm => ?_
  rcases he e hm with ⟨hl, hc⟩ | hs
  · rw [if_pos hc]
    have hl' := segLn_fix hl
    obtain ⟨k, k0, k1, hk⟩ := crosses_point (crosses_fix.2 hc)
    obtain ⟨q, eq, hq⟩ := ln_found h ha hl' hn k0 k1 ((sideDist_on hl.norm).1 hk)
    rw [eq, Res.bind_ok]
    refine ⟨[q], rfl, .cons (fun P hP h0 => ?_) .nil⟩
    obtain ⟨j, j0, j1, rfl⟩ := Pip.onSeg_fix.2 hP
    obtain ⟨q', eq', hq'⟩ := ln_found h ha hl' hn j0 j1 ((sideDist_on hl.norm).1 h0)
    rw [eq] at eq'
    injection eq' with eq'
    injection eq' with eq'
    rw [eq']
    exact hq'
  · rw [if_neg (aside_not_crosses h hs), aside_none h ha (segAside_fix hs), Res.bind_ok]
    exact ⟨[], rfl, .nil⟩

/-- A product is negative if and only if the number of negative factors is odd. -/
theorem prod_neg_odd : ∀ {l : List ℝ}, (∀ x ∈ l, x ≠ 0) → (l.prod < 0 ↔ Odd (l.countP fun x => decide (x < 0))) ∧ l.prod ≠ 0
  | [], _ => by simp
  | x :: l, H => by
    obtain ⟨ih, ne⟩ := prod_neg_odd (l := l) fun y hy => H y (by simp [hy])
    have hx := H x (by simp)
    rw [List.prod_cons, List.countP_cons]
    refine ⟨?_, mul_ne_zero hx ne⟩
    by_cases k : x < 0
    · simp only [k, decide_true, if_true, Nat.odd_add_one, ← ih, not_lt]
      rw [mul_neg_iff]
      constructor
      · rintro (⟨a, -⟩ | ⟨-, b⟩)
        · exact absurd a k.not_gt
        · exact b.le
      · exact fun b => Or.inr ⟨k, lt_of_le_of_ne b ne.symm⟩
    · have k' : 0 < x := lt_of_le_of_ne (not_lt.1 k) hx.symm
      simp only [k, decide_false, Bool.false_eq_true, if_false, add_zero, ← ih]
      exact mul_neg_iff.trans ⟨fun a => by rcases a with ⟨-, b⟩ | ⟨a, -⟩; exacts [b, absurd a k], fun b => Or.inl ⟨k', b⟩⟩

theorem zip_prod (f : Pt ℝ → ℝ) : ∀ {a b : List (Pt ℝ)}, a.length = b.length → ((a.zip b).map fun e => f e.1 * f e.2).prod = (a.map f).prod * (b.map f).prod
  | [], [], _ => by simp
  | x :: a, y :: b, h => by
    rw [List.zip_cons_cons, List.map_cons, List.prod_cons, zip_prod f (by simpa using h), List.map_cons, List.map_cons, List.prod_cons, List.prod_cons]
    ring

theorem polyEdges_fst {pts : List (Pt ℝ)} {p : Pt ℝ} (hp : p ∈ pts) : ∃ e ∈ polyEdges pts, e.1 = p := by
  have : (polyEdges pts).map Prod.fst = pts := by unfold polyEdges; exact List.map_fst_zip (by simp)
  rw [← this] at hp
  obtain ⟨e, he, rfl⟩ := List.mem_map.1 hp
  exact ⟨e, he, rfl⟩

/-- A closed contour crosses a line an even number of times. -/
theorem crossing_even {li : V3 ℝ} {pts : List (Pt ℝ)} (h : ∀ p ∈ pts, sideDist li p ≠ 0) : Even (crossing (polyEdges pts) li).length := by
  classical
  have ne : ∀ x ∈ (polyEdges pts).map (fun e => sideDist li e.1 * sideDist li e.2), x ≠ 0 := by
    intro x hx
    obtain ⟨e, he, rfl⟩ := List.mem_map.1 hx
    have := List.of_mem_zip he
    exact mul_ne_zero (h _ this.1) (h _ (List.mem_rotate.1 this.2))
  have k := (prod_neg_odd ne).1
  have e1 : ((polyEdges pts).map fun e => sideDist li e.1 * sideDist li e.2).prod = (pts.map (sideDist li)).prod * (pts.map (sideDist li)).prod := by
    unfold polyEdges
    rw [zip_prod (sideDist li) (by simp)]
    congr 1
    exact ((List.rotate_perm pts 1).map _).prod_eq
  rw [e1, List.countP_map] at k
  have k2 : ¬ Odd (List.countP ((fun x => decide (x < 0)) ∘ fun e : Seg => sideDist li e.1 * sideDist li e.2) (polyEdges pts)) := fun o => absurd (k.2 o) (mul_self_nonneg _).not_gt
  rw [Nat.not_odd_iff_even] at k2
  unfold crossing
  rw [← List.countP_eq_length_filter]
  refine Eq.mp (congrArg Even ?_) k2
  refine List.countP_congr fun e _ => ?_
  simp only [Crosses, Function.comp_apply, decide_eq_true_eq]
  exact (@decide_eq_true_iff _ _).symm

end H2d.Fl
