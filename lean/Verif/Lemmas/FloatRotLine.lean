import Verif.Lemmas.FloatChain
import Verif.Lemmas.FloatLine
import Verif.Lemmas.FloatOrthog
import Verif.Spec.FloatRotLine

/-! # Rotated lines with rounded operations -/

namespace H2d.Fl
open H2d.Spec

variable {F : Arith} {u v w : ℝ} {co si : ℝ → ℝ}

/-- `a` is `A` up to `k e S`, and `A` is at most `K S`. -/
structure NearTo (e S k K a A : ℝ) : Prop where
  err : |a - A| ≤ k * e * S
  size : |A| ≤ K * S

theorem NearTo.le {e S k K a A : ℝ} (he1 : e ≤ 1 / 1000) (hS : 0 ≤ S) (hk : 0 ≤ k) (n : NearTo e S k K a A) : |a| ≤ (K + k / 1000) * S := by
  have := abs_add_le (a - A) A
  rw [sub_add_cancel] at this
  have h1 := mul_le_mul_of_nonneg_left he1 hk
  have h2 := mul_le_mul_of_nonneg_right h1 hS
  linarith [n.err, n.size]

theorem NearTo.rnd (h : FlOk F u v) {e S k K a A : ℝ} (hue : u ≤ e) (he1 : e ≤ 1 / 1000) (hS : 0 ≤ S) (hk : 0 ≤ k) (hK : 0 ≤ K) (n : NearTo e S k K a A) (k' : ℝ) (hk' : k + (K + k / 1000) ≤ k') :
    NearTo e S k' K (F.rnd a) A := by
  refine ⟨?_, n.size⟩
  have e0 : 0 ≤ e := le_trans h.u_nonneg hue
  have h1 := h.err a
  have h2 := abs_add_le (F.rnd a - a) (a - A)
  rw [sub_add_sub_cancel] at h2
  have h3 : u * |a| ≤ e * ((K + k / 1000) * S) := mul_le_mul hue (n.le he1 hS hk) (abs_nonneg _) e0
  have h4 := mul_le_mul_of_nonneg_right hk' (mul_nonneg e0 hS)
  linarith [n.err]

theorem NearTo.mul {e S T k K k' K' a A b B : ℝ} (e0 : 0 ≤ e) (he1 : e ≤ 1 / 1000) (hS : 0 ≤ S) (hT : 0 ≤ T) (hk : 0 ≤ k) (hk' : 0 ≤ k') (n : NearTo e S k K a A) (n' : NearTo e T k' K' b B)
    (k2 : ℝ) (h2 : k * (K' + k' / 1000) + K * k' ≤ k2) : NearTo e (S * T) k2 (K * K') (a * b) (A * B) := by
  constructor
  · rw [show a * b - A * B = (a - A) * b + A * (b - B) by ring]
    have t := abs_add_le ((a - A) * b) (A * (b - B))
    rw [abs_mul, abs_mul] at t
    have i1 : |a - A| * |b| ≤ (k * e * S) * ((K' + k' / 1000) * T) := mul_le_mul n.err (n'.le he1 hT hk') (abs_nonneg _) (by positivity)
    have i2 : |A| * |b - B| ≤ (K * S) * (k' * e * T) := mul_le_mul n.size n'.err (abs_nonneg _) (le_trans (abs_nonneg _) n.size)
    have i3 := mul_le_mul_of_nonneg_right h2 (show 0 ≤ e * (S * T) by positivity)
    linarith
  · rw [abs_mul]
    have := mul_le_mul n.size n'.size (abs_nonneg _) (le_trans (abs_nonneg _) n.size)
    linarith

theorem NearTo.add {e S k K k' K' a A b B : ℝ} (n : NearTo e S k K a A) (n' : NearTo e S k' K' b B) {K2 : ℝ} (hs : |A + B| ≤ K2 * S) : NearTo e S (k + k') K2 (a + b) (A + B) := by
  refine ⟨?_, hs⟩
  rw [show a + b - (A + B) = (a - A) + (b - B) by ring]
  have := abs_add_le (a - A) (b - B)
  linarith [n.err, n'.err]

theorem NearTo.neg {e S k K a A : ℝ} (n : NearTo e S k K a A) : NearTo e S k K (-a) (-A) := by
  refine ⟨?_, by rw [abs_neg]; exact n.size⟩
  rw [show -a - -A = -(a - A) by ring, abs_neg]
  exact n.err

theorem NearTo.ofEq {e S K a : ℝ} (h : |a| ≤ K * S) : NearTo e S 0 K a a := ⟨by simp, h⟩

/-- Division by a number near 1. -/
theorem NearTo.div {e S k K kd a A D : ℝ} (e0 : 0 ≤ e) (he1 : e ≤ 1 / 1000) (hS : 0 ≤ S) (hk : 0 ≤ k) (hK : 0 ≤ K) (hkd : 0 ≤ kd) (n : NearTo e S k K a A) (hD : |D - 1| ≤ kd * e) {k2 : ℝ} (hk2 : 0 ≤ k2)
    (h2 : k + K * kd ≤ (1 - kd / 1000) * k2) (hd1 : kd < 1000) : NearTo e S k2 K (a / D) A := by
  have kde := mul_le_mul_of_nonneg_left he1 hkd
  have Dp : 1 - kd / 1000 ≤ D := by have := (abs_le.1 hD).1; linarith
  have D0 : 0 < D := by linarith
  refine ⟨?_, n.size⟩
  rw [show a / D - A = (a - A - A * (D - 1)) / D by field_simp; ring, abs_div, abs_of_pos D0, div_le_iff₀ D0]
  have t : |a - A - A * (D - 1)| ≤ |a - A| + |A| * |D - 1| := by
    have := abs_add_le (a - A) (-(A * (D - 1)))
    rw [abs_neg, abs_mul] at this
    simpa [sub_eq_add_neg] using this
  have i1 : |A| * |D - 1| ≤ (K * S) * (kd * e) := mul_le_mul n.size hD (abs_nonneg _) (by positivity)
  have i2 := mul_le_mul_of_nonneg_right h2 (show 0 ≤ e * S by positivity)
  have i3 := mul_le_mul_of_nonneg_left Dp (show 0 ≤ k2 * e * S by positivity)
  linarith [n.err]

end H2d.Fl

namespace H2d.Fl
open H2d.Spec

variable {F : Arith} {u v w : ℝ} {co si : ℝ → ℝ}

/-- The matrix of `getRotatedLine`. -/
noncomputable def rotMat (F : Arith) (c s : ℝ) (p : Pt ℝ) : Mat ℝ :=
  ![![c, -s, F.rnd (F.rnd (F.rnd (c * -p.1) + F.rnd (-s * -p.2)) + p.1)], ![s, c, F.rnd (F.rnd (F.rnd (s * -p.1) + F.rnd (c * -p.2)) + p.2)], ![0, 0, 1]]

theorem rotMat_eq (h : FlOk F u v) (h1 : Rep F 1) {t : Thr ℝ} (ht : t.nullDenom ≤ 1) {p : Pt ℝ} (hx : Rep F p.1) (hy : Rep F p.2) (a : ℝ) :
    addAll F co si t Mat.eye [.translation (- p.1) (- p.2), .rotation a, .translation p.1 p.2] = .ok (rotMat F (F.rnd (co a)) (F.rnd (si a)) p) := by
  obtain ⟨m, e, am, c⟩ := addAll_eq (co := co) (si := si) h h1 ht [.translation (- p.1) (- p.2), .rotation a, .translation p.1 p.2] (eye_aff h h1)
  rw [e]
  have e0 := rnd_zero h
  have e1 : F.rnd 1 = 1 := h1
  have ex : F.rnd p.1 = p.1 := hx
  have ey : F.rnd p.2 = p.2 := hy
  have k0 := c 0
  have k1 := c 1
  have k2 := c 2
  simp only [Mat.eye, Matrix.cons_val, List.foldl, colStep, mul_one, mul_zero, add_zero, zero_add, e0, e1, ex, ey, h.odd, h.idem] at k0 k1 k2
  injection k0 with a1 a2
  injection k1 with b1 b2
  injection k2 with c1 c2
  congr 1
  funext i j
  fin_cases i <;> fin_cases j <;> simp [rotMat]
  · exact a1
  · simpa [h.odd, h.idem] using b1
  · simpa [h.odd] using c1
  · exact a2
  · exact b2
  · simpa [h.odd] using c2
  · exact am.r0
  · exact am.r1
  · exact am.r2

/-- The inverse, before the division by the determinant. -/
theorem rotInv_eq (h : FlOk F u v) (h1 : Rep F 1) {t : Thr ℝ} (ht : t.nullDenom ≤ 1) {c s X Y : ℝ} (hc : Rep F c) (hs : Rep F s) {D : ℝ} (hD : D = F.rnd (F.rnd (c * c) + F.rnd (s * s))) (hD0 : t.nullDeter ≤ |D|) (hD1 : D ≠ 0) :
    homInverse F t ![![c, -s, X], ![s, c, Y], ![0, 0, 1]] = .ok ![![F.rnd (c / D), F.rnd (s / D), F.rnd (F.rnd (F.rnd (-s * Y) + F.rnd (-X * c)) / D)],
      ![F.rnd (-s / D), F.rnd (c / D), F.rnd (F.rnd (F.rnd (-c * Y) + F.rnd (X * s)) / D)], ![0, 0, 1]] := by
  have e0 := rnd_zero h
  have e1 : F.rnd 1 = 1 := h1
  have ec : F.rnd c = c := hc
  have es : F.rnd s = s := hs
  have sub : ∀ x y, F.rnd (F.rnd x - F.rnd y) = F.rnd (F.rnd x + F.rnd (-y)) := fun x y => by rw [h.odd]; rfl
  have dd : determ F ![![c, -s, X], ![s, c, Y], ![0, 0, 1]] = D := by
    rw [hD]
    simp [determ, det2, e0, ec, es, h.idem, h.odd]
  have a22 : adjugate F ![![c, -s, X], ![s, c, Y], ![0, 0, 1]] 2 2 = D := by
    rw [hD]
    simp [adjugate, det2, h.odd]
  have inv : inverse F t ![![c, -s, X], ![s, c, Y], ![0, 0, 1]] = .ok ![![F.rnd (c / D), F.rnd (s / D), F.rnd (F.rnd (F.rnd (-s * Y) + F.rnd (-X * c)) / D)],
      ![F.rnd (-s / D), F.rnd (c / D), F.rnd (F.rnd (F.rnd (-c * Y) + F.rnd (X * s)) / D)], ![0, 0, 1]] := by
    unfold inverse
    rw [dd, if_neg (not_lt.2 hD0)]
    congr 1
    funext i j
    have n12 : -F.rnd (F.rnd (c * Y) - F.rnd (X * s)) = F.rnd (F.rnd (-(c * Y)) + F.rnd (X * s)) := by
      rw [← h.odd]; congr 1; rw [h.odd]; ring
    fin_cases i <;> fin_cases j
    · simp [adjugate, det2, e0, ec]
    · simp [adjugate, det2, e0, es, h.odd]
    · simp only [adjugate, det2, Matrix.cons_val, Fin.mk_one, Fin.isValue, Fin.zero_eta, Fin.reduceFinMk]
      rw [sub, neg_mul X c]
    · simp [adjugate, det2, e0, es, h.odd]
    · simp [adjugate, det2, e0, ec]
    · simp only [adjugate, det2, Matrix.cons_val, Fin.mk_one, Fin.isValue, Fin.zero_eta, Fin.reduceFinMk]
      rw [n12, neg_mul c Y]
    · simp [adjugate, det2, e0]
    · simp [adjugate, det2, e0]
    · have : adjugate F ![![c, -s, X], ![s, c, Y], ![0, 0, 1]] 2 2 / D = 1 := by rw [a22, div_self hD1]
      change F.rnd (adjugate F ![![c, -s, X], ![s, c, Y], ![0, 0, 1]] 2 2 / D) = 1
      rw [this, e1]
  unfold homInverse
  rw [inv]
  simp only [Res.bind, normalizeMat, Matrix.cons_val, abs_one, if_neg (not_lt.2 ht), div_one, e1]
  rw [if_neg (by norm_num)]
  congr 1
  funext i j
  fin_cases i <;> fin_cases j <;> simp [h.idem, h.odd, e0, e1]

end H2d.Fl

namespace H2d.Fl
open H2d.Spec

variable {F : Arith} {u v w : ℝ} {co si : ℝ → ℝ}

/-- The computed determinant is near 1. -/
theorem rotDet_near (h : FlOk F u v) {e c s C S : ℝ} (hue : u ≤ e) (he1 : e ≤ 1 / 1000) (hCS : C ^ 2 + S ^ 2 = 1) (nc : NearTo e 1 (3 / 2) 1 c C) (ns : NearTo e 1 (3 / 2) 1 s S) :
    |F.rnd (F.rnd (c * c) + F.rnd (s * s)) - 1| ≤ 91 / 10 * e := by
  have e0 : 0 ≤ e := le_trans h.u_nonneg hue
  have c2 := (NearTo.mul e0 he1 zero_le_one zero_le_one (by norm_num) (by norm_num) nc nc (301 / 100) (by norm_num)).rnd h hue he1 (by norm_num) (by norm_num) (by norm_num) (403 / 100) (by norm_num)
  have s2 := (NearTo.mul e0 he1 zero_le_one zero_le_one (by norm_num) (by norm_num) ns ns (301 / 100) (by norm_num)).rnd h hue he1 (by norm_num) (by norm_num) (by norm_num) (403 / 100) (by norm_num)
  have d := (c2.add s2 (K2 := 1) (by rw [show C * C + S * S = 1 by linarith]; norm_num)).rnd h hue he1 (by norm_num) (by norm_num) (by norm_num) (91 / 10) (by norm_num)
  have := d.err
  rw [show C * C + S * S = 1 by linarith] at this
  linarith

/-- Cauchy-Schwarz with a cosine and a sine. -/
theorem unit_dot {C S a b R : ℝ} (hCS : C ^ 2 + S ^ 2 = 1) (hR : 0 ≤ R) (h : a ^ 2 + b ^ 2 ≤ R ^ 2) : |C * a + S * b| ≤ R := by
  apply abs_le_of_sq_le_sq _ hR
  nlinarith [sq_nonneg (C * b - S * a)]

/-- Translation part of the matrix. -/
theorem rotCol_near (h : FlOk F u v) {e c s C S x y M : ℝ} (hue : u ≤ e) (he1 : e ≤ 1 / 1000) (hCS : C ^ 2 + S ^ 2 = 1) (nc : NearTo e 1 (3 / 2) 1 c C) (ns : NearTo e 1 (3 / 2) 1 s S)
    (hx : |x| ≤ M) (hy : |y| ≤ M) :
    NearTo e M (93 / 10) (5 / 2) (F.rnd (F.rnd (F.rnd (c * -x) + F.rnd (-s * -y)) + x)) (C * -x + -S * -y + x) ∧
    NearTo e M (93 / 10) (5 / 2) (F.rnd (F.rnd (F.rnd (s * -x) + F.rnd (c * -y)) + y)) (S * -x + C * -y + y) := by
  have e0 : 0 ≤ e := le_trans h.u_nonneg hue
  have M0 : 0 ≤ M := le_trans (abs_nonneg _) hx
  have nx : NearTo e M 0 1 (-x) (-x) := .ofEq (by rwa [abs_neg, one_mul])
  have ny : NearTo e M 0 1 (-y) (-y) := .ofEq (by rwa [abs_neg, one_mul])
  have px : NearTo e M 0 1 x x := .ofEq (by rwa [one_mul])
  have py : NearTo e M 0 1 y y := .ofEq (by rwa [one_mul])
  have x2 : x ^ 2 ≤ M ^ 2 := by rw [← sq_abs x]; exact pow_le_pow_left₀ (abs_nonneg _) hx 2
  have y2 : y ^ 2 ≤ M ^ 2 := by rw [← sq_abs y]; exact pow_le_pow_left₀ (abs_nonneg _) hy 2
  have pr : ∀ {c C z : ℝ}, NearTo e 1 (3 / 2) 1 c C → NearTo e M 0 1 z z → NearTo e M (251 / 100) 1 (F.rnd (c * z)) (C * z) := by
    intro c C z n n'
    have := (NearTo.mul e0 he1 zero_le_one M0 (by norm_num) le_rfl n n' (3 / 2) (by norm_num)).rnd h hue he1 (by linarith) (by norm_num) (by norm_num) (251 / 100) (by norm_num)
    rwa [one_mul, one_mul] at this
  have d1 : |C * -x + -S * -y| ≤ 3 / 2 * M := unit_dot (by rw [neg_sq]; exact hCS) (by linarith) (by nlinarith)
  have d2 : |S * -x + C * -y| ≤ 3 / 2 * M := unit_dot (by linarith) (by linarith) (by nlinarith)
  have s1 := ((pr nc nx).add (pr ns.neg ny) d1).rnd h hue he1 M0 (by norm_num) (by norm_num) (66 / 10) (by norm_num)
  have s2 := ((pr ns nx).add (pr nc ny) d2).rnd h hue he1 M0 (by norm_num) (by norm_num) (66 / 10) (by norm_num)
  have t1 := abs_add_le (C * -x + -S * -y) x
  have t2 := abs_add_le (S * -x + C * -y) y
  exact ⟨(s1.add px (K2 := 5 / 2) (by linarith)).rnd h hue he1 M0 (by norm_num) (by norm_num) (93 / 10) (by norm_num),
    (s2.add py (K2 := 5 / 2) (by linarith)).rnd h hue he1 M0 (by norm_num) (by norm_num) (93 / 10) (by norm_num)⟩

/-- Values of the line before its normalisation. -/
theorem rotRaw_near (h : FlOk F u v) {e c s C S x y M : ℝ} (hue : u ≤ e) (he1 : e ≤ 1 / 1000) (hCS : C ^ 2 + S ^ 2 = 1) (nc : NearTo e 1 (3 / 2) 1 c C) (ns : NearTo e 1 (3 / 2) 1 s S)
    (hx : |x| ≤ M) (hy : |y| ≤ M) {l0 l1 l2 N : ℝ} (hN : N = Real.sqrt (l0 ^ 2 + l1 ^ 2)) (hl2 : |l2| ≤ 8 / 5 * (M * N))
    {D X Y : ℝ} (hD : |D - 1| ≤ 91 / 10 * e) (hX : X = F.rnd (F.rnd (F.rnd (c * -x) + F.rnd (-s * -y)) + x)) (hY : Y = F.rnd (F.rnd (F.rnd (s * -x) + F.rnd (c * -y)) + y)) :
    NearTo e N 27 1 (F.rnd (F.rnd (F.rnd (c / D) * l0) + F.rnd (F.rnd (-s / D) * l1))) (C * l0 + -S * l1) ∧
    NearTo e N 27 1 (F.rnd (F.rnd (F.rnd (s / D) * l0) + F.rnd (F.rnd (c / D) * l1))) (S * l0 + C * l1) ∧
    ∃ W, NearTo e (M * N) 147 5 (F.rnd (F.rnd (F.rnd (F.rnd (F.rnd (F.rnd (-s * Y) + F.rnd (-X * c)) / D) * l0) + F.rnd (F.rnd (F.rnd (F.rnd (-c * Y) + F.rnd (X * s)) / D) * l1)) + l2)) W ∧
      (C * l0 + -S * l1) * x + (S * l0 + C * l1) * y + W = l0 * x + l1 * y + l2 := by
  have e0 : 0 ≤ e := le_trans h.u_nonneg hue
  have M0 : 0 ≤ M := le_trans (abs_nonneg _) hx
  have N0 : 0 ≤ N := by rw [hN]; exact Real.sqrt_nonneg _
  have MN : 0 ≤ M * N := mul_nonneg M0 N0
  have N2 : N ^ 2 = l0 ^ 2 + l1 ^ 2 := by rw [hN, Real.sq_sqrt (by positivity)]
  have a0 : |l0| ≤ N := abs_le_of_sq_le_sq (by nlinarith [sq_nonneg l1]) N0
  have a1 : |l1| ≤ N := abs_le_of_sq_le_sq (by nlinarith [sq_nonneg l0]) N0
  have n0 : NearTo e N 0 1 l0 l0 := .ofEq (by rwa [one_mul])
  have n1 : NearTo e N 0 1 l1 l1 := .ofEq (by rwa [one_mul])
  have n2 : NearTo e (M * N) 0 (8 / 5) l2 l2 := .ofEq hl2
  -- directions
  have dv : ∀ {c C}, NearTo e 1 (3 / 2) 1 c C → NearTo e 1 (118 / 10) 1 (F.rnd (c / D)) C := by
    intro c C n
    exact (n.div e0 he1 zero_le_one (by norm_num) (by norm_num) (by norm_num) hD (k2 := 1071 / 100) (by norm_num) (by norm_num) (by norm_num)).rnd h hue he1 (by norm_num) (by norm_num) (by norm_num) (118 / 10) (by norm_num)
  have pr : ∀ {b C z : ℝ}, NearTo e 1 (118 / 10) 1 b C → NearTo e N 0 1 z z → NearTo e N (129 / 10) 1 (F.rnd (b * z)) (C * z) := by
    intro b C z n n'
    have := (NearTo.mul e0 he1 zero_le_one N0 (by norm_num) le_rfl n n' (118 / 10) (by norm_num)).rnd h hue he1 (by linarith) (by norm_num) (by norm_num) (129 / 10) (by norm_num)
    rwa [one_mul, one_mul] at this
  refine ⟨?_, ?_, ?_⟩
  · exact ((pr (dv nc) n0).add (pr (dv ns.neg) n1) (K2 := 1) (by rw [one_mul]; exact unit_dot (by rw [neg_sq]; exact hCS) N0 N2.ge)).rnd h hue he1 N0 (by norm_num) (by norm_num) 27 (by norm_num)
  · exact ((pr (dv ns) n0).add (pr (dv nc) n1) (K2 := 1) (by rw [one_mul]; exact unit_dot (by linarith) N0 N2.ge)).rnd h hue he1 N0 (by norm_num) (by norm_num) 27 (by norm_num)
  · obtain ⟨nX, nY⟩ := rotCol_near h hue he1 hCS nc ns hx hy
    rw [← hX] at nX
    rw [← hY] at nY
    have x2 : x ^ 2 ≤ M ^ 2 := by rw [← sq_abs x]; exact pow_le_pow_left₀ (abs_nonneg _) hx 2
    have y2 : y ^ 2 ≤ M ^ 2 := by rw [← sq_abs y]; exact pow_le_pow_left₀ (abs_nonneg _) hy 2
    generalize hX' : C * -x + -S * -y + x = X' at nX
    generalize hY' : S * -x + C * -y + y = Y' at nY
    have XY : X' ^ 2 + Y' ^ 2 ≤ (3 * M) ^ 2 := by
      have : X' ^ 2 + Y' ^ 2 = 2 * (1 - C) * (x ^ 2 + y ^ 2) := by
        rw [← hX', ← hY']; linear_combination (x ^ 2 + y ^ 2) * hCS
      have C1 : -1 ≤ C := by nlinarith [sq_nonneg S]
      have q : x ^ 2 + y ^ 2 ≤ 2 * M ^ 2 := by linarith
      have q0 : 0 ≤ x ^ 2 + y ^ 2 := by positivity
      have := mul_le_mul (show 2 * (1 - C) ≤ 4 by linarith) q q0 (by norm_num)
      nlinarith
    have pt : ∀ {c C Z Z'}, NearTo e 1 (3 / 2) 1 c C → NearTo e M (93 / 10) (5 / 2) Z Z' → NearTo e M (157 / 10) (5 / 2) (F.rnd (c * Z)) (C * Z') := by
      intro c C Z Z' n n'
      have := (NearTo.mul e0 he1 zero_le_one M0 (by norm_num) (by norm_num) n n' (131 / 10) (by norm_num)).rnd h hue he1 (by linarith) (by norm_num) (by norm_num) (157 / 10) (by norm_num)
      rwa [one_mul, one_mul] at this
    have b02 : NearTo e M 66 3 (F.rnd (F.rnd (F.rnd (-s * Y) + F.rnd (-X * c)) / D)) (-S * Y' + C * -X') := by
      have n := ((pt ns.neg nY).add (pt nc nX.neg) (K2 := 3) (unit_dot (by rw [neg_sq]; linarith) (by linarith) (by rw [neg_sq]; linarith))).rnd h hue he1 M0 (by norm_num) (by norm_num) (345 / 10) (by norm_num)
      rw [mul_comm c (-X)] at n
      exact (n.div e0 he1 M0 (by norm_num) (by norm_num) (by norm_num) hD (k2 := 624 / 10) (by norm_num) (by norm_num) (by norm_num)).rnd h hue he1 M0 (by norm_num) (by norm_num) 66 (by norm_num)
    have b12 : NearTo e M 66 3 (F.rnd (F.rnd (F.rnd (-c * Y) + F.rnd (X * s)) / D)) (-C * Y' + S * X') := by
      have n := ((pt nc.neg nY).add (pt ns nX) (K2 := 3) (unit_dot (by rw [neg_sq]; linarith) (by linarith) (by linarith))).rnd h hue he1 M0 (by norm_num) (by norm_num) (345 / 10) (by norm_num)
      rw [mul_comm s X] at n
      exact (n.div e0 he1 M0 (by norm_num) (by norm_num) (by norm_num) hD (k2 := 624 / 10) (by norm_num) (by norm_num) (by norm_num)).rnd h hue he1 M0 (by norm_num) (by norm_num) 66 (by norm_num)
    have pl : ∀ {b B z : ℝ}, NearTo e M 66 3 b B → NearTo e N 0 1 z z → NearTo e (M * N) (6907 / 100) 3 (F.rnd (b * z)) (B * z) := by
      intro b C z n n'
      have := (NearTo.mul e0 he1 M0 N0 (by norm_num) le_rfl n n' 66 (by norm_num)).rnd h hue he1 MN (by norm_num) (by norm_num) (6907 / 100) (by norm_num)
      rwa [mul_one] at this
    have dt : |(-S * Y' + C * -X') * l0 + (-C * Y' + S * X') * l1| ≤ 3 * (M * N) := by
      have h1 : |(C * l0 + -S * l1) * X' + (S * l0 + C * l1) * Y'| ≤ 3 * (M * N) := by
        apply abs_le_of_sq_le_sq _ (by positivity)
        have i : (C * l0 + -S * l1) ^ 2 + (S * l0 + C * l1) ^ 2 = N ^ 2 := by rw [N2]; linear_combination (l0 ^ 2 + l1 ^ 2) * hCS
        have := mul_le_mul_of_nonneg_left XY (sq_nonneg N)
        rw [← i] at this
        nlinarith [sq_nonneg ((C * l0 + -S * l1) * Y' - (S * l0 + C * l1) * X')]
      rw [show (-S * Y' + C * -X') * l0 + (-C * Y' + S * X') * l1 = -((C * l0 + -S * l1) * X' + (S * l0 + C * l1) * Y') by ring, abs_neg]
      exact h1
    have sm := ((pl b02 n0).add (pl b12 n1) dt).rnd h hue he1 MN (by norm_num) (by norm_num) (1413 / 10) (by norm_num)
    refine ⟨_, (sm.add n2 (K2 := 5) ?_).rnd h hue he1 MN (by norm_num) (by norm_num) 147 (by norm_num), ?_⟩
    · have := abs_add_le ((-S * Y' + C * -X') * l0 + (-C * Y' + S * X') * l1) l2
      linarith
    · rw [← hX', ← hY']
      linear_combination (l0 * x + l1 * y) * hCS

end H2d.Fl

namespace H2d.Fl
open H2d.Spec

variable {F : Arith} {u v w : ℝ} {co si : ℝ → ℝ}

/-- Values after the normalisation, up to the change of sign. -/
theorem turn_final (h : FlOk F u v) {e M N ρ x y A B W w0 w1 w2 H : ℝ} (hue : u ≤ e) (he1 : e ≤ 1 / 1000) (N0 : 0 < N) (hx : |x| ≤ M) (hy : |y| ≤ M) (hH : 0 < H)
    (n0 : NearTo e N 27 1 w0 A) (n1 : NearTo e N 27 1 w1 B) (n2 : NearTo e (M * N) 147 5 w2 W) (hr : A * x + B * y + W = ρ) (hAB : A ^ 2 + B ^ 2 = N ^ 2) :
    |F.rnd (w0 / H) * x + F.rnd (w1 / H) * y + F.rnd (w2 / H)| ≤ (21 / 20 * (|ρ| / N) + 225 * e * M) * Real.sqrt (F.rnd (w0 / H) ^ 2 + F.rnd (w1 / H) ^ 2) ∧
    |F.rnd (w0 / H) * B - F.rnd (w1 / H) * A| ≤ 46 * e * (Real.sqrt (F.rnd (w0 / H) ^ 2 + F.rnd (w1 / H) ^ 2) * N) ∧ 0 < F.rnd (w0 / H) ^ 2 + F.rnd (w1 / H) ^ 2 := by
  have hu := h.u_nonneg
  have e0 : 0 ≤ e := le_trans hu hue
  have M0 : 0 ≤ M := le_trans (abs_nonneg _) hx
  have MN : 0 ≤ M * N := by positivity
  have sc : ∀ {a S k K A}, 0 ≤ S → 0 ≤ k → 0 ≤ K → NearTo e S k K a A → ∀ k', k + (K + k / 1000) ≤ k' → NearTo e S k' K (F.rnd (a / H) * H) A := by
    intro a S k K A hS hk hK n k' hk'
    refine ⟨?_, n.size⟩
    have h1 := h.err (a / H)
    have h2 : |F.rnd (a / H) * H - a| ≤ u * |a| := by
      rw [show F.rnd (a / H) * H - a = (F.rnd (a / H) - a / H) * H by field_simp, abs_mul, abs_of_pos hH]
      have := mul_le_mul_of_nonneg_right h1 hH.le
      rw [abs_div, abs_of_pos hH] at this
      rw [show u * (|a| / H) * H = u * |a| by field_simp] at this
      exact this
    have h3 := abs_add_le (F.rnd (a / H) * H - a) (a - A)
    rw [sub_add_sub_cancel] at h3
    have h4 : u * |a| ≤ e * ((K + k / 1000) * S) := mul_le_mul hue (n.le he1 hS hk) (abs_nonneg _) e0
    have h5 := mul_le_mul_of_nonneg_right hk' (mul_nonneg e0 hS)
    linarith [n.err]
  have z0 := sc N0.le (by norm_num) (by norm_num) n0 29 (by norm_num)
  have z1 := sc N0.le (by norm_num) (by norm_num) n1 29 (by norm_num)
  have z2 := sc MN (by norm_num) (by norm_num) n2 153 (by norm_num)
  generalize F.rnd (w0 / H) = r0 at *
  generalize F.rnd (w1 / H) = r1 at *
  generalize F.rnd (w2 / H) = r2 at *
  have eN : 0 ≤ e * N := by positivity
  -- length
  have lw : eucl (A, B) (0, 0) = N := by
    unfold eucl; simp only [sub_zero]; rw [hAB, Real.sqrt_sq N0.le]
  have lz : eucl (r0 * H, r1 * H) (0, 0) = Real.sqrt (r0 ^ 2 + r1 ^ 2) * H := by
    unfold eucl; simp only [sub_zero]
    rw [show (r0 * H) ^ 2 + (r1 * H) ^ 2 = (r0 ^ 2 + r1 ^ 2) * H ^ 2 by ring, Real.sqrt_mul (by positivity), Real.sqrt_sq hH.le]
  have near := eucl_le_max (p := (r0 * H, r1 * H)) (q := (A, B)) z0.err z1.err
  have ge : 956 / 1000 * N ≤ Real.sqrt (r0 ^ 2 + r1 ^ 2) * H := by
    have := eucl_triangle (A, B) (r0 * H, r1 * H) (0, 0)
    rw [lw, lz, eucl_comm (A, B)] at this
    have := mul_le_mul_of_nonneg_right he1 N0.le
    linarith
  have sp : 0 < Real.sqrt (r0 ^ 2 + r1 ^ 2) := by
    by_contra hc
    have : Real.sqrt (r0 ^ 2 + r1 ^ 2) = 0 := le_antisymm (not_lt.1 hc) (Real.sqrt_nonneg _)
    rw [this, zero_mul] at ge
    linarith
  refine ⟨?_, ?_, Real.sqrt_pos.1 sp⟩
  · have res : |(r0 * H) * x + (r1 * H) * y + r2 * H| ≤ |ρ| + 211 * (e * (M * N)) := by
      have i0 : |(r0 * H - A) * x| ≤ 29 * e * N * M := by rw [abs_mul]; exact mul_le_mul z0.err hx (abs_nonneg _) (by positivity)
      have i1 : |(r1 * H - B) * y| ≤ 29 * e * N * M := by rw [abs_mul]; exact mul_le_mul z1.err hy (abs_nonneg _) (by positivity)
      have i2 := z2.err
      rw [show (r0 * H) * x + (r1 * H) * y + r2 * H = (r0 * H - A) * x + (r1 * H - B) * y + (r2 * H - W) + ρ by rw [← hr]; ring]
      have t1 := abs_add_le ((r0 * H - A) * x + (r1 * H - B) * y + (r2 * H - W)) ρ
      have t2 := abs_add_three ((r0 * H - A) * x) ((r1 * H - B) * y) (r2 * H - W)
      linarith
    have eq : |(r0 * H) * x + (r1 * H) * y + r2 * H| = |r0 * x + r1 * y + r2| * H := by
      rw [show (r0 * H) * x + (r1 * H) * y + r2 * H = (r0 * x + r1 * y + r2) * H by ring, abs_mul, abs_of_pos hH]
    rw [eq] at res
    refine le_of_mul_le_mul_right (res.trans ?_) hH
    have ρ0 := abs_nonneg ρ
    generalize Real.sqrt (r0 ^ 2 + r1 ^ 2) = L at *
    have k : 0 ≤ 21 / 20 * (|ρ| / N) + 225 * e * M := by positivity
    have := mul_le_mul_of_nonneg_left ge k
    have q : (21 / 20 * (|ρ| / N) + 225 * e * M) * (956 / 1000 * N) = 21 / 20 * (956 / 1000) * |ρ| + 225 * (956 / 1000) * (e * (M * N)) := by field_simp
    have p0 : 0 ≤ e * (M * N) := by positivity
    rw [q] at this
    linarith
  · have i0 : |(r0 * H - A) * B| ≤ 29 * e * N * |B| := by rw [abs_mul]; exact mul_le_mul_of_nonneg_right z0.err (abs_nonneg _)
    have i1 : |(r1 * H - B) * A| ≤ 29 * e * N * |A| := by rw [abs_mul]; exact mul_le_mul_of_nonneg_right z1.err (abs_nonneg _)
    have s := sum_le_len (A, B)
    rw [lw] at s
    have t := abs_sub ((r0 * H - A) * B) ((r1 * H - B) * A)
    rw [show (r0 * H - A) * B - (r1 * H - B) * A = (r0 * B - r1 * A) * H by ring, abs_mul, abs_of_pos hH] at t
    refine le_of_mul_le_mul_right (t.trans ?_) hH
    have k1 := mul_le_mul_of_nonneg_left s (show 0 ≤ 29 * e * N by positivity)
    have k2 := mul_le_mul_of_nonneg_left ge (show 0 ≤ 46 * e * N by positivity)
    have : 0 ≤ e * N * N := by positivity
    simp only at k1
    linarith

/-- The rotated line. -/
theorem rotatedLine_spec (h : FlOk F u v) (h1 : Rep F 1) (hw : TrigOk co si w) (he : u + w ≤ 1 / 1000) {t : Thr ℝ} (ht : t.nullDenom ≤ 1) (ht' : t.nullDeter ≤ 9 / 10) {M : ℝ} {l : V3 ℝ} {p : Pt ℝ} (hl : Turn F M l p)
    (a : ℝ) (hd : lineDist F l p ≤ t.nullDistance) : ∃ r, rotatedLine F co si t l p a = .ok r ∧ (r 0 = 0 ∨ t.nullDenom ≤ |r 0| →
      |r 0 * p.1 + r 1 * p.2 + r 2| ≤ (21 / 20 * (|l 0 * p.1 + l 1 * p.2 + l 2| / Real.sqrt (l 0 ^ 2 + l 1 ^ 2)) + 225 * (u + w) * M) * Real.sqrt (r 0 ^ 2 + r 1 ^ 2) ∧
      SinLe (46 * (u + w)) r (turnedLine a l) ∧ 0 < r 0 ^ 2 + r 1 ^ 2) := by
  have hu := h.u_nonneg
  have hw0 := hw.w_nonneg
  have hue : u ≤ u + w := by linarith
  have e0 : 0 ≤ u + w := by linarith
  have z0 := rnd_zero h
  have N0 : 0 < Real.sqrt (l 0 ^ 2 + l 1 ^ 2) := by linarith [hl.normal]
  have hCS : Real.cos a ^ 2 + Real.sin a ^ 2 = 1 := by rw [add_comm]; exact Real.sin_sq_add_cos_sq a
  obtain ⟨tc, ts⟩ := trig_stored h hw a
  have nc : NearTo (u + w) 1 (3 / 2) 1 (F.rnd (co a)) (Real.cos a) := ⟨by linarith, by rw [mul_one]; exact Real.abs_cos_le_one a⟩
  have ns : NearTo (u + w) 1 (3 / 2) 1 (F.rnd (si a)) (Real.sin a) := ⟨by linarith, by rw [mul_one]; exact Real.abs_sin_le_one a⟩
  have rc : Rep F (F.rnd (co a)) := h.idem _
  have rs : Rep F (F.rnd (si a)) := h.idem _
  have hm := rotMat_eq (co := co) (si := si) h h1 ht hl.repX hl.repY a
  generalize F.rnd (co a) = c at *
  generalize F.rnd (si a) = s at *
  have nD := rotDet_near h hue he hCS nc ns
  generalize hD : F.rnd (F.rnd (c * c) + F.rnd (s * s)) = D at nD
  have D9 : 9 / 10 ≤ D := by have := (abs_le.1 nD).1; linarith
  have l2 : |l 2| ≤ 8 / 5 * (M * Real.sqrt (l 0 ^ 2 + l 1 ^ 2)) := by
    have := hl.off
    unfold offLine at this
    rw [div_le_iff₀ N0] at this
    linarith
  obtain ⟨w0, w1, W, w2, hW⟩ := rotRaw_near h hue he hCS nc ns hl.x hl.y rfl l2 nD rfl rfl
  have inv := fun X Y => rotInv_eq h h1 ht (X := X) (Y := Y) rc rs hD.symm (by rw [abs_of_pos (by linarith)]; linarith) (by linarith)
  unfold rotMat at hm
  generalize hX : F.rnd (F.rnd (F.rnd (c * -p.1) + F.rnd (-s * -p.2)) + p.1) = X at *
  generalize hY : F.rnd (F.rnd (F.rnd (s * -p.1) + F.rnd (c * -p.2)) + p.2) = Y at *
  have er : F.rnd (l 2) = l 2 := hl.repL
  have form : rotatedLine F co si t l p a = normalizeLine F t ![F.rnd (F.rnd (F.rnd (c / D) * l 0) + F.rnd (F.rnd (-s / D) * l 1)), F.rnd (F.rnd (F.rnd (s / D) * l 0) + F.rnd (F.rnd (c / D) * l 1)),
      F.rnd (F.rnd (F.rnd (F.rnd (F.rnd (F.rnd (-s * Y) + F.rnd (-X * c)) / D) * l 0) + F.rnd (F.rnd (F.rnd (F.rnd (-c * Y) + F.rnd (X * s)) / D) * l 1)) + l 2)] := by
    unfold rotatedLine
    rw [if_neg (not_lt.2 hd), hm]
    simp only [Res.bind_ok]
    unfold lineImage
    rw [inv]
    simp only [Res.bind]
    congr 1
    funext i
    fin_cases i <;> simp [app, Mat.transpose, z0, er, h.idem]
  generalize F.rnd (F.rnd (F.rnd (c / D) * l 0) + F.rnd (F.rnd (-s / D) * l 1)) = a0 at *
  generalize F.rnd (F.rnd (F.rnd (s / D) * l 0) + F.rnd (F.rnd (c / D) * l 1)) = a1 at *
  generalize F.rnd (F.rnd (F.rnd (F.rnd (F.rnd (F.rnd (-s * Y) + F.rnd (-X * c)) / D) * l 0) + F.rnd (F.rnd (F.rnd (F.rnd (-c * Y) + F.rnd (X * s)) / D) * l 1)) + l 2) = a2 at *
  have AB : (Real.cos a * l 0 + -Real.sin a * l 1) ^ 2 + (Real.sin a * l 0 + Real.cos a * l 1) ^ 2 = Real.sqrt (l 0 ^ 2 + l 1 ^ 2) ^ 2 := by
    rw [Real.sq_sqrt (by positivity)]; linear_combination (l 0 ^ 2 + l 1 ^ 2) * hCS
  have hN := hl.normal
  generalize hNN : Real.sqrt (l 0 ^ 2 + l 1 ^ 2) = N at *
  have hyp : dblEps < F.hyp a0 a1 := by
    have near := eucl_le_max (p := (a0, a1)) (q := (Real.cos a * l 0 + -Real.sin a * l 1, Real.sin a * l 0 + Real.cos a * l 1)) w0.err w1.err
    have lw : eucl (Real.cos a * l 0 + -Real.sin a * l 1, Real.sin a * l 0 + Real.cos a * l 1) (0, 0) = N := by
      unfold eucl; simp only [sub_zero]; rw [AB, Real.sqrt_sq N0.le]
    have lz : eucl (a0, a1) (0, 0) = Real.sqrt (a0 ^ 2 + a1 ^ 2) := by unfold eucl; simp only [sub_zero]
    have := eucl_triangle (Real.cos a * l 0 + -Real.sin a * l 1, Real.sin a * l 0 + Real.cos a * l 1) (a0, a1) (0, 0)
    rw [lw, lz, eucl_comm _ (a0, a1)] at this
    have k := mul_le_mul_of_nonneg_right he N0.le
    have hh := (abs_le.1 (h.hypErr a0 a1)).1
    have q : 9 / 20 ≤ Real.sqrt (a0 ^ 2 + a1 ^ 2) := by linarith
    have hv := h.v_small
    have : v * Real.sqrt (a0 ^ 2 + a1 ^ 2) ≤ 1 / 64 * Real.sqrt (a0 ^ 2 + a1 ^ 2) := mul_le_mul_of_nonneg_right hv (Real.sqrt_nonneg _)
    have : dblEps < 1 / 4 := by norm_num [dblEps]
    linarith
  rw [normalizeLine_ok t _ hyp] at form
  refine ⟨_, form, fun hs => ?_⟩
  have fin := turn_final h hue he N0 hl.x hl.y (lt_trans dblEps_pos hyp) w0 w1 w2 hW AB
  have keep := signFix_keep t (fun i => F.rnd ((![a0, a1, a2] : V3 ℝ) i / F.hyp a0 a1)) (by
    rcases hs with hs | hs
    · left
      simp only [signFix] at hs
      split_ifs at hs <;> simpa using hs
    · right
      simp only [signFix] at hs
      split_ifs at hs <;> simpa using hs)
  have tl : turnedLine a l 0 = Real.cos a * l 0 + -Real.sin a * l 1 ∧ turnedLine a l 1 = Real.sin a * l 0 + Real.cos a * l 1 := by
    constructor <;> simp only [turnedLine, Matrix.cons_val] <;> ring
  unfold SinLe
  rw [tl.1, tl.2, AB, Real.sqrt_sq N0.le]
  change signFix t (fun i => F.rnd ((![a0, a1, a2] : V3 ℝ) i / F.hyp a0 a1)) = _ ∨ _ at keep
  rcases keep with k | k
  · have k' : signFix t (fun i => F.rnd ((![a0, a1, a2] : V3 ℝ) i / F.hyp ((![a0, a1, a2] : V3 ℝ) 0) ((![a0, a1, a2] : V3 ℝ) 1))) = fun i => F.rnd ((![a0, a1, a2] : V3 ℝ) i / F.hyp a0 a1) := k
    rw [k']
    exact fin
  · have k' : signFix t (fun i => F.rnd ((![a0, a1, a2] : V3 ℝ) i / F.hyp ((![a0, a1, a2] : V3 ℝ) 0) ((![a0, a1, a2] : V3 ℝ) 1))) = fun i => -F.rnd ((![a0, a1, a2] : V3 ℝ) i / F.hyp a0 a1) := k
    rw [k']
    simp only [Matrix.cons_val, neg_sq]
    refine ⟨?_, ?_, fin.2.2⟩
    · rw [show -F.rnd (a0 / F.hyp a0 a1) * p.1 + -F.rnd (a1 / F.hyp a0 a1) * p.2 + -F.rnd (a2 / F.hyp a0 a1) = -(F.rnd (a0 / F.hyp a0 a1) * p.1 + F.rnd (a1 / F.hyp a0 a1) * p.2 + F.rnd (a2 / F.hyp a0 a1)) by ring, abs_neg]
      exact fin.1
    · have := fin.2.1
      rw [← abs_neg] at this
      convert this using 2
      ring

end H2d.Fl
