import Verif.Lemmas.FloatSegs

/-! # C115, C116: intersection of lines and of segments with rounded operations -/

namespace H2d.Props

open H2d.Spec H2d.Fl

/-- **C115, decision.** An exception exactly for lines that are declared parallel; never for lines whose angle has a sine above the threshold by more than the error of the angle. -/
theorem C115_throws {F : Arith} {u v : ℝ} (h : FlOk F u v) {ac : ℝ → ℝ} {w : ℝ} (ha : AcosOk ac w) (t : Thr ℝ) {l m : V3 ℝ} (hl : 0 < l 0 ^ 2 + l 1 ^ 2) (hm : 0 < m 0 ^ 2 + m 1 ^ 2) :
    (Fl.lineInter F t ac l m = .throw ↔ Fl.isParallel F t ac l m = true) ∧
    (t.nullAngleValue + (Real.pi * Real.sqrt (11 * u / 2) + w * (Real.pi / 2)) ≤ sinLines l m → Fl.lineInter F t ac l m ≠ .throw) := by
  constructor
  · unfold Fl.lineInter
    split_ifs with hp <;> simp [hp]
  · intro hs
    unfold Fl.lineInter
    rw [not_parallel h ha t hl hm hs]
    simp

/-- **C115, point.** Lines at a distance up to `C` of the origin, whose angle has a sine `s ≥ 8 u`: if there is no exception, both coordinates are numbers, and each one is within
`6 u (C + |x|) / s` of the one of the exact intersection point. -/
theorem C115_point {F : Arith} {u v : ℝ} (h : FlOk F u v) {ac : ℝ → ℝ} (t : Thr ℝ) {l m : V3 ℝ} (hl : 0 < l 0 ^ 2 + l 1 ^ 2) (hm : 0 < m 0 ^ 2 + m 1 ^ 2) {s C : ℝ} (hs0 : 0 < s) (hsu : 8 * u ≤ s)
    (hs : s ≤ sinLines l m) (hCl : offLine l ≤ C) (hCm : offLine m ≤ C) (hne : Fl.lineInter F t ac l m ≠ .throw) :
    ∃ q P, Fl.lineInter F t ac l m = .ok (some q) ∧ OnBoth l m P ∧ (∀ P', OnBoth l m P' → P' = P) ∧
      |q.1 - P.1| ≤ 6 * u * (C + |P.1|) / s ∧ |q.2 - P.2| ≤ 6 * u * (C + |P.2|) / s := by
  obtain ⟨P, hP⟩ := exists_onBoth (lt_of_lt_of_le hs0 hs)
  obtain ⟨q, e, hx, hy⟩ := crossXY_err h hl hm hs0 hsu hs hCl hCm hP
  refine ⟨q, P, ?_, hP, fun P' hP' => ?_, hx, hy⟩
  · unfold Fl.lineInter at hne ⊢
    split_ifs at hne ⊢
    · exact absurd rfl hne
    · rw [e]
  · exact onBoth_unique (lt_of_lt_of_le hs0 hs) hP' hP

/-- The lines `3x + 4y = 10` and `4x - 3y = 5`, in `double`: orthogonal, at distances 2 and 1 of the origin, they meet at (2, 1). -/
example : (8 : ℝ) * 2 ^ (-((53 : ℕ) : ℤ)) ≤ 1 ∧ (1 : ℝ) ≤ sinLines ![3, 4, -10] ![4, -3, -5] ∧ offLine ![3, 4, -10] ≤ 2 ∧ offLine ![4, -3, -5] ≤ 2 ∧ OnBoth ![3, 4, -10] ![4, -3, -5] (2, 1) := by
  have e : Real.sqrt (3 ^ 2 + 4 ^ 2) = 5 := by rw [Real.sqrt_eq_iff_mul_self_eq (by norm_num) (by norm_num)]; norm_num
  have e' : Real.sqrt (4 ^ 2 + (-3) ^ 2) = 5 := by rw [Real.sqrt_eq_iff_mul_self_eq (by norm_num) (by norm_num)]; norm_num
  refine ⟨by norm_num, ?_, ?_, ?_, ?_⟩
  · simp only [sinLines, Matrix.cons_val_zero, Matrix.cons_val_one]
    rw [e, e']; norm_num
  · simp only [offLine, Matrix.cons_val_zero, Matrix.cons_val_one, Matrix.cons_val]
    rw [e]; norm_num
  · simp only [offLine, Matrix.cons_val_zero, Matrix.cons_val_one, Matrix.cons_val]
    rw [e']; norm_num
  · simp only [OnBoth, Matrix.cons_val_zero, Matrix.cons_val_one, Matrix.cons_val]; norm_num

/-- **C115, order.** The same outcome, bit for bit, if the lines are exchanged. -/
theorem C115_symmetric {F : Arith} {u v : ℝ} (h : FlOk F u v) (ac : ℝ → ℝ) (t : Thr ℝ) (l m : V3 ℝ) : Fl.lineInter F t ac l m = Fl.lineInter F t ac m l := by
  unfold Fl.lineInter
  rw [isParallel_comm, crossXY_comm h]

/-- **C116, outcome.** Two such segments: no exception, and an answer. -/
theorem C116_defined {F : Arith} {u v : ℝ} (h : FlOk F u v) {ac : ℝ → ℝ} {t : Thr ℝ} {w M L S : ℝ} (ha : AcosOk ac w) {s s' : Seg} (hp : SegPair F t u w M L S s s') :
    ∃ r, Fl.segInter F t ac s s' = .ok r := by
  obtain ⟨l, m, q, Q, hq⟩ := pair_point h ha hp
  exact hq.total

/-- **C116, touching or crossing.** Two such segments with a common point `P`. With `κ = u M² / (L S)`: if the null distance is above `350 κ + 13 (u + v) M`, an intersection point is reported, and it is
within `150 κ` of `P`. -/
theorem C116_found {F : Arith} {u v : ℝ} (h : FlOk F u v) {ac : ℝ → ℝ} {t : Thr ℝ} {w M L S : ℝ} (ha : AcosOk ac w) {s s' : Seg} (hp : SegPair F t u w M L S s s') {P : Pt ℝ}
    (h1 : OnSeg s.1 s.2 P) (h2 : OnSeg s'.1 s'.2 P) (hnd : 350 * (u * M ^ 2 / (L * S)) + 13 * (u + v) * M < t.nullDistance) :
    ∃ q, Fl.segInter F t ac s s' = .ok (some q) ∧ eucl q P ≤ 150 * (u * M ^ 2 / (L * S)) := by
  obtain ⟨k, hk0, hk1, e1⟩ := (onSeg_along s P).1 h1
  obtain ⟨j, hj0, hj1, e2⟩ := (onSeg_along s' P).1 h2
  subst e1
  obtain ⟨l, m, q, Q, hq⟩ := pair_point h ha hp
  have hd := hq.near_common h hp hk0 hk1 hj0 hj1 e2
  have hd' : eucl q (Spec.along s' j) ≤ 150 * (u * M ^ 2 / (L * S)) := by rw [← e2]; exact hd
  refine ⟨q, hq.found ?_ ?_, hd⟩
  · exact between_of h (ends_near hk0 hk1 hd) (pair_margin h hp (by linarith [pair_kappa h hp]) (by linarith [pair_kappa h hp]))
  · exact between_of h (ends_near hj0 hj1 hd') (pair_margin h hp.symm (by linarith [pair_kappa h hp]) (by linarith [pair_kappa h hp]))

/-- **C116, crossing.** If moreover the common point is at a distance `r` of the four ends, it is enough that the null distance is above `52000 κ² / r + 13 (u + v) M`: the second order of the error. -/
theorem C116_crossing {F : Arith} {u v : ℝ} (h : FlOk F u v) {ac : ℝ → ℝ} {t : Thr ℝ} {w M L S : ℝ} (ha : AcosOk ac w) {s s' : Seg} (hp : SegPair F t u w M L S s s') {P : Pt ℝ}
    (h1 : OnSeg s.1 s.2 P) (h2 : OnSeg s'.1 s'.2 P) {r : ℝ} (hr : 0 < r) (hr1 : r ≤ eucl s.1 P) (hr2 : r ≤ eucl s.2 P) (hr3 : r ≤ eucl s'.1 P) (hr4 : r ≤ eucl s'.2 P)
    (hκ : 300 * (u * M ^ 2 / (L * S)) ≤ r) (hnd : 52000 * (u * M ^ 2 / (L * S)) ^ 2 / r + 13 * (u + v) * M < t.nullDistance) :
    ∃ q, Fl.segInter F t ac s s' = .ok (some q) ∧ eucl q P ≤ 150 * (u * M ^ 2 / (L * S)) := by
  obtain ⟨k, hk0, hk1, e1⟩ := (onSeg_along s P).1 h1
  obtain ⟨j, hj0, hj1, e2⟩ := (onSeg_along s' P).1 h2
  obtain ⟨l, m, q, Q, hq⟩ := pair_point h ha hp
  rw [e2, eucl_along_left, abs_of_nonneg hj0] at hr3
  rw [e2, eucl_along_right, abs_of_nonneg (by linarith : 0 ≤ 1 - j)] at hr4
  rw [e1, eucl_along_left, abs_of_nonneg hk0] at hr1
  rw [e1, eucl_along_right, abs_of_nonneg (by linarith : 0 ≤ 1 - k)] at hr2
  subst e1
  have hd := hq.near_common h hp hk0 hk1 hj0 hj1 e2
  have hd' : eucl q (Spec.along s' j) ≤ 150 * (u * M ^ 2 / (L * S)) := by rw [← e2]; exact hd
  have hk := pair_kappa h hp
  have hL := hp.L_pos
  have l1 := hp.len1
  have l2 := hp.len2
  have e : 2 * ((150 * (u * M ^ 2 / (L * S))) ^ 2 / r) = 45000 * ((u * M ^ 2 / (L * S)) ^ 2 / r) := by ring
  have e' : 52000 * (u * M ^ 2 / (L * S)) ^ 2 / r = 52000 * ((u * M ^ 2 / (L * S)) ^ 2 / r) := by ring
  have h0 : 0 ≤ (u * M ^ 2 / (L * S)) ^ 2 / r := by positivity
  refine ⟨q, hq.found ?_ ?_, hd⟩
  · exact between_of h (ends_near_inside (by linarith) hd hr (by linarith) hr1 hr2) (pair_margin h hp (by linarith) (by linarith))
  · exact between_of h (ends_near_inside (by linarith) hd' hr (by linarith) hr3 hr4) (pair_margin h hp.symm (by linarith) (by linarith))

/-- The segments (0,0)-(4,3) and (0,3)-(4,0), in `double` with the default thresholds: the point that is found is within 10^-13 of (2, 3/2). -/
example : ∃ q, Fl.segInter (binary 53) stdR Real.arccos ((0, 0), (4, 3)) ((0, 3), (4, 0)) = .ok (some q) ∧ eucl q (2, 3 / 2) ≤ 1 / 10 ^ 13 := by
  have hd : eucl (0, 3) (2, 3 / 2) = 5 / 2 := by rw [eucl_eq_iff (by norm_num)]; norm_num
  have hd2 : eucl (4, 0) (2, 3 / 2) = 5 / 2 := by rw [eucl_eq_iff (by norm_num)]; norm_num
  have hd3 : eucl (0, 0) (2, 3 / 2) = 5 / 2 := by rw [eucl_eq_iff (by norm_num)]; norm_num
  have hd4 : eucl (4, 3) (2, 3 / 2) = 5 / 2 := by rw [eucl_eq_iff (by norm_num)]; norm_num
  obtain ⟨q, e, hq⟩ := C116_crossing (binary_ok (p := 53) (by norm_num)) (ac := Real.arccos) (t := stdR) acosOk_exact demoPair (P := (2, 3 / 2)) ⟨1 / 2, by norm_num, by norm_num, by norm_num⟩
    ⟨1 / 2, by norm_num, by norm_num, by norm_num⟩ (r := 1) (by norm_num) (by rw [hd3]; norm_num) (by rw [hd4]; norm_num) (by rw [hd]; norm_num) (by rw [hd2]; norm_num)
    (by norm_num) (by norm_num [stdR])
  exact ⟨q, e, hq.trans (by norm_num)⟩

/-- **C116, no invented point.** A point that is reported is within `350 κ + 6 (u + v) M + 11/20 nullDistance` of some point of each segment. -/
theorem C116_sound {F : Arith} {u v : ℝ} (h : FlOk F u v) {ac : ℝ → ℝ} {t : Thr ℝ} {w M L S : ℝ} (ha : AcosOk ac w) {s s' : Seg} (hp : SegPair F t u w M L S s s') {q : Pt ℝ}
    (e : Fl.segInter F t ac s s' = .ok (some q)) :
    ∃ P P', OnSeg s.1 s.2 P ∧ OnSeg s'.1 s'.2 P' ∧ eucl q P ≤ 350 * (u * M ^ 2 / (L * S)) + 6 * (u + v) * M + 11 / 20 * t.nullDistance ∧
      eucl q P' ≤ 350 * (u * M ^ 2 / (L * S)) + 6 * (u + v) * M + 11 / 20 * t.nullDistance := by
  obtain ⟨l, m, q', Q, hq⟩ := pair_point h ha hp
  obtain ⟨rfl, b1, b2⟩ := hq.only _ e
  obtain ⟨⟨k, hk0, hk1, hk⟩, -⟩ := hq.sound h hp b1
  obtain ⟨⟨j, hj0, hj1, hj⟩, -⟩ := (hq.symm h).sound h hp.symm b2
  exact ⟨_, _, (onSeg_along s _).2 ⟨k, hk0, hk1, rfl⟩, (onSeg_along s' _).2 ⟨j, hj0, hj1, rfl⟩, hk, hj⟩

/-- **C116, order.** The same outcome, bit for bit, if the segments are exchanged. -/
theorem C116_symmetric {F : Arith} {u v : ℝ} (h : FlOk F u v) (ac : ℝ → ℝ) (t : Thr ℝ) (s s' : Seg) : Fl.segInter F t ac s s' = Fl.segInter F t ac s' s := segInter_comm h ac t s s'

/-- **C116, short segments far from the origin.** The bound on the precision is needed. With `p` bits, `N = 2^(p-1)`, two segments of length 3 with exactly represented coordinates, horizontal and vertical,
that cross at a distance of at least 1 of their ends: no intersection is found, for all thresholds up to 1. -/
theorem C116_sharp {p : ℕ} (hp : 6 ≤ p) {ac : ℝ → ℝ} {w : ℝ} (ha : AcosOk ac w) {t : Thr ℝ} (h1 : t.nullDistance ≤ 1) (h2 : t.nullAngleValue ≤ 1) (h3 : t.nullDenom ≤ 1) :
    ∃ (s s' : Seg) (P : Pt ℝ) (M : ℝ), SegRep (binary p) M s ∧ SegRep (binary p) M s' ∧ OnSeg s.1 s.2 P ∧ OnSeg s'.1 s'.2 P ∧ 1 ≤ eucl s.1 P ∧ 1 ≤ eucl s.2 P ∧ 1 ≤ eucl s'.1 P ∧ 1 ≤ eucl s'.2 P ∧
      sinSegs s s' = 1 ∧ Fl.segInter (binary p) t ac s s' = .ok none := by
  obtain ⟨N, hN⟩ : ∃ N : ℝ, (2 : ℝ) ^ (p - 1) = N := ⟨_, rfl⟩
  have f : ∀ {a b c d e : ℝ}, 0 ≤ e → (a - c) ^ 2 + (b - d) ^ 2 = e ^ 2 → eucl (a, b) (c, d) = e := fun he hh => (eucl_eq_iff he).2 hh
  refine ⟨((N, N + 1), (N + 3, N + 1)), ((N + 1, N), (N + 1, N + 3)), (N + 1, N + 1), N + 3, far_rep hp hN, far_rep' hp hN, ⟨1 / 3, by norm_num, by norm_num, ?_⟩, ⟨1 / 3, by norm_num, by norm_num, ?_⟩,
    ?_, ?_, ?_, ?_, ?_, far_none hp hN ha h1 h2 h3⟩
  · apply Prod.ext <;> simp only <;> ring
  · apply Prod.ext <;> simp only <;> ring
  · rw [f (e := 1) (by norm_num) (by ring)]
  · rw [f (e := 2) (by norm_num) (by ring)]; norm_num
  · rw [f (e := 1) (by norm_num) (by ring)]
  · rw [f (e := 2) (by norm_num) (by ring)]; norm_num
  · unfold sinSegs
    simp only
    rw [f (e := 3) (by norm_num) (by ring), f (e := 3) (by norm_num) (by ring), show (N + 3 - N) * (N + 3 - N) - (N + 1 - (N + 1)) * (N + 1 - (N + 1)) = 9 by ring]
    norm_num

/-- The default thresholds. -/
example : stdR.nullDistance ≤ 1 ∧ stdR.nullAngleValue ≤ 1 ∧ stdR.nullDenom ≤ 1 ∧ AcosOk Real.arccos 0 := ⟨by norm_num [stdR], by norm_num [stdR], by norm_num [stdR], acosOk_exact⟩

end H2d.Props
