import Verif.Model.FloatRect
import Verif.Spec.FloatRect
import Verif.Lemmas.FloatSegs
import Verif.Lemmas.FloatPipLast
import Verif.Lemmas.FloatSimple
import Verif.Lemmas.RectArea

/-! # Intersection of two rectangles with rounded operations -/

namespace H2d.Fl

open H2d.Spec

variable {F : Arith} {u v : ℝ}

/-- The coordinate of a vertical or horizontal line through two points. -/
noncomputable def axisC (F : Arith) (x a b : ℝ) : ℝ := F.rnd (F.rnd (F.rnd (x * b) - F.rnd (a * x)) / F.rnd (b - a))

theorem axisC_rep (h : FlOk F u v) (x a b : ℝ) : Rep F (axisC F x a b) := h.idem _

theorem axisC_err (h : FlOk F u v) {x a b M L : ℝ} (hx : |x| ≤ M) (ha : |a| ≤ M) (hb : |b| ≤ M) (hL : 0 < L) (hab : L ≤ b - a) : |axisC F x a b - x| ≤ 9 * (u * M ^ 2 / L) := by
  have hu := h.u_nonneg
  have us := h.u_small
  have hM : 0 ≤ M := (abs_nonneg _).trans hx
  set d := b - a with hd
  have hd0 : 0 < d := by linarith
  have dM : d ≤ 2 * M := by have := (abs_le.1 hb).2; have := (abs_le.1 ha).1; linarith
  have e1 := diffRnd_err h x b a x
  set e := F.rnd (F.rnd (x * b) - F.rnd (a * x)) with he
  have m1 : |x * b| ≤ M ^ 2 := by rw [abs_mul, sq]; exact mul_le_mul hx hb (abs_nonneg _) hM
  have m2 : |a * x| ≤ M ^ 2 := by rw [abs_mul, sq]; exact mul_le_mul ha hx (abs_nonneg _) hM
  have e2 : |e - x * d| ≤ 33 / 8 * u * M ^ 2 := by
    rw [show x * d = x * b - a * x by rw [hd]; ring]
    refine e1.trans ?_
    nlinarith
  have e3 := h.err d
  rw [abs_of_pos hd0] at e3
  set d' := F.rnd d with hd'
  have d1 : 63 / 64 * d ≤ d' := by have := (abs_le.1 e3).1; nlinarith
  have d'0 : 0 < d' := by linarith
  have e4 : |e - x * d'| ≤ 49 / 8 * (u * M ^ 2) := by
    have : |x * d - x * d'| ≤ 2 * (u * M ^ 2) := by
      rw [← mul_sub, abs_mul, abs_sub_comm]
      calc |x| * |d' - d| ≤ M * (u * (2 * M)) := mul_le_mul hx (e3.trans (mul_le_mul_of_nonneg_left dM hu)) (abs_nonneg _) hM
        _ = 2 * (u * M ^ 2) := by ring
    have k := abs_sub_le e (x * d) (x * d')
    linarith
  have hκ : 0 ≤ u * M ^ 2 / d := by positivity
  have e5 : |e / d' - x| ≤ 25 / 4 * (u * M ^ 2 / d) := by
    rw [show e / d' - x = (e - x * d') / d' by field_simp, abs_div, abs_of_pos d'0, div_le_iff₀ d'0]
    refine e4.trans ?_
    have : 25 / 4 * (u * M ^ 2 / d) * (63 / 64 * d) ≤ 25 / 4 * (u * M ^ 2 / d) * d' := mul_le_mul_of_nonneg_left d1 (by positivity)
    have e : 25 / 4 * (u * M ^ 2 / d) * (63 / 64 * d) = 25 / 4 * (63 / 64) * (u * M ^ 2) := by field_simp
    rw [e] at this
    have : 0 ≤ u * M ^ 2 := by positivity
    linarith
  have e6 := h.err (e / d')
  have hM' : u * M ≤ 2 * (u * M ^ 2 / d) := by
    rw [show 2 * (u * M ^ 2 / d) = u * M * (2 * M / d) by field_simp]
    refine le_mul_of_one_le_right (by positivity) ?_
    rw [le_div_iff₀ hd0]; linarith
  have e7 : |e / d'| ≤ M + 25 / 4 * (u * M ^ 2 / d) := by
    have := abs_add_le (e / d' - x) x
    rw [sub_add_cancel] at this; linarith
  have e8 : u * |e / d'| ≤ u * M + 1 / 64 * (25 / 4 * (u * M ^ 2 / d)) := by
    refine (mul_le_mul_of_nonneg_left e7 hu).trans ?_
    rw [mul_add]
    have := mul_le_mul_of_nonneg_right us (by positivity : 0 ≤ 25 / 4 * (u * M ^ 2 / d))
    linarith
  have e9 : |axisC F x a b - x| ≤ 9 * (u * M ^ 2 / d) := by
    have := abs_sub_le (axisC F x a b) (e / d') x
    have : |axisC F x a b - e / d'| ≤ u * |e / d'| := e6
    linarith
  refine e9.trans (mul_le_mul_of_nonneg_left ?_ (by norm_num))
  exact div_le_div_of_nonneg_left (by positivity) hL hab

theorem binary_axis {p : ℕ} (hp : 1 ≤ p) : AxisExact (binary p) := by
  refine ⟨?_, fun x hx => ?_, fun x hx => ?_⟩
  · have := roundTo_int hp (m := 1) (by rw [abs_one]; exact one_le_pow₀ (by norm_num))
    rw [Int.cast_one] at this
    exact this
  · show roundTo p (Real.sqrt (x ^ 2 + 0 ^ 2)) = |x|
    rw [show x ^ 2 + 0 ^ 2 = x ^ 2 by ring, Real.sqrt_sq_eq_abs]
    have hx : roundTo p x = x := hx
    rcases abs_choice x with e | e <;> rw [e]
    · exact hx
    · rw [roundTo_neg, hx]
  · show roundTo p (Real.sqrt (0 ^ 2 + x ^ 2)) = |x|
    rw [show 0 ^ 2 + x ^ 2 = x ^ 2 by ring, Real.sqrt_sq_eq_abs]
    have hx : roundTo p x = x := hx
    rcases abs_choice x with e | e <;> rw [e]
    · exact hx
    · rw [roundTo_neg, hx]

theorem lineOf_eq {t : Thr ℝ} {p q : Pt ℝ} {d : ℝ} {w w' : V3 ℝ} (hs : ¬ PtSame F t p q) (hd : F.hyp (crossProd F (mkPt p.1 p.2) (mkPt q.1 q.2) 0) (crossProd F (mkPt p.1 p.2) (mkPt q.1 q.2) 1) = d) (he : dblEps < d)
    (hw : (fun i => F.rnd (crossProd F (mkPt p.1 p.2) (mkPt q.1 q.2) i / d)) = w) (hw' : (if w 0 < 0 then fun i => - w i else w) = w') :
    lineOfPts F t p q = .ok (if |w' 0| < t.nullDenom then (if w' 1 < 0 then ![w' 0, - w' 1, - w' 2] else w') else w') := by
  subst hd hw hw'
  unfold lineOfPts
  rw [if_neg hs]
  unfold normalizeLine
  simp only [if_neg (not_le.2 he)]

theorem vLine (h : FlOk F u v) (hA : AxisExact F) {t : Thr ℝ} (ht : RectThr t) (hε : 2 * dblEps ≤ t.nullDistance) {x a b : ℝ} (hx : Rep F x) (ha : Rep F a) (hb : Rep F b) (hab : 2 * t.nullDistance ≤ b - a) :
    lineOfPts F t (x, a) (x, b) = .ok ![1, 0, - axisC F x a b] := by
  have h0 := dblEps_pos
  have us := h.u_small
  have hd0 : 0 < b - a := by linarith
  have e3 := h.err (b - a)
  rw [abs_of_pos hd0] at e3
  have d1 : 63 / 64 * (b - a) ≤ F.rnd (b - a) := by have := (abs_le.1 e3).1; nlinarith
  have d0 : 0 < F.rnd (b - a) := by linarith
  have hs : ¬ PtSame F t (x, a) (x, b) := by
    refine far_not_same h t ?_ (by linarith)
    rw [Rank.eucl_vert, abs_sub_comm, abs_of_pos hd0]; exact hab
  have c0 : crossProd F (mkPt x a) (mkPt x b) 0 = - F.rnd (b - a) := by
    show F.rnd (F.rnd (a * 1) - F.rnd (1 * b)) = _
    rw [mul_one, one_mul, ha, hb, rnd_sub_comm h]
  have c1 : crossProd F (mkPt x a) (mkPt x b) 1 = 0 := by
    show F.rnd (F.rnd (1 * x) - F.rnd (x * 1)) = _
    rw [mul_one, one_mul, sub_self, rnd_zero h]
  have c2 : crossProd F (mkPt x a) (mkPt x b) 2 = F.rnd (F.rnd (x * b) - F.rnd (a * x)) := rfl
  have hw : (fun i => F.rnd (crossProd F (mkPt x a) (mkPt x b) i / F.rnd (b - a))) = ![-1, 0, axisC F x a b] := by
    funext i
    fin_cases i
    · show F.rnd (crossProd F (mkPt x a) (mkPt x b) 0 / _) = -1
      rw [c0, neg_div, div_self d0.ne', h.odd, hA.one]
    · show F.rnd (crossProd F (mkPt x a) (mkPt x b) 1 / _) = 0
      rw [c1, zero_div, rnd_zero h]
    · rfl
  have hw' : (if (![-1, 0, axisC F x a b] : V3 ℝ) 0 < 0 then fun i => - (![-1, 0, axisC F x a b] : V3 ℝ) i else ![-1, 0, axisC F x a b]) = ![1, 0, - axisC F x a b] := by
    rw [if_pos (by norm_num)]
    funext i
    fin_cases i <;> simp
  rw [lineOf_eq hs (d := F.rnd (b - a)) (by simp only [c0, c1]; rw [hA.hypX _ (by rw [← h.odd]; exact h.idem _), abs_neg, abs_of_pos d0]) (by linarith) hw hw', if_neg]
  simp only [Matrix.cons_val_zero, abs_one, not_lt]
  exact ht.denom

theorem hLine (h : FlOk F u v) (hA : AxisExact F) {t : Thr ℝ} (hε : 2 * dblEps ≤ t.nullDistance) {y a b : ℝ} (hy : Rep F y) (ha : Rep F a) (hb : Rep F b) (hab : 2 * t.nullDistance ≤ b - a) :
    lineOfPts F t (a, y) (b, y) = .ok ![0, 1, - axisC F y a b] := by
  have h0 := dblEps_pos
  have us := h.u_small
  have hd0 : 0 < b - a := by linarith
  have e3 := h.err (b - a)
  rw [abs_of_pos hd0] at e3
  have d1 : 63 / 64 * (b - a) ≤ F.rnd (b - a) := by have := (abs_le.1 e3).1; nlinarith
  have d0 : 0 < F.rnd (b - a) := by linarith
  have hs : ¬ PtSame F t (a, y) (b, y) := by
    refine far_not_same h t ?_ (by linarith)
    rw [Rank.eucl_horiz, abs_sub_comm, abs_of_pos hd0]; exact hab
  have c0 : crossProd F (mkPt a y) (mkPt b y) 0 = 0 := by
    show F.rnd (F.rnd (y * 1) - F.rnd (1 * y)) = _
    rw [mul_one, one_mul, sub_self, rnd_zero h]
  have c1 : crossProd F (mkPt a y) (mkPt b y) 1 = F.rnd (b - a) := by
    show F.rnd (F.rnd (1 * b) - F.rnd (a * 1)) = _
    rw [mul_one, one_mul, ha, hb]
  have c2 : crossProd F (mkPt a y) (mkPt b y) 2 = - F.rnd (F.rnd (y * b) - F.rnd (a * y)) := by
    show F.rnd (F.rnd (a * y) - F.rnd (y * b)) = _
    rw [rnd_sub_comm h]
  have hw : (fun i => F.rnd (crossProd F (mkPt a y) (mkPt b y) i / F.rnd (b - a))) = ![0, 1, - axisC F y a b] := by
    funext i
    fin_cases i
    · show F.rnd (crossProd F (mkPt a y) (mkPt b y) 0 / _) = 0
      rw [c0, zero_div, rnd_zero h]
    · show F.rnd (crossProd F (mkPt a y) (mkPt b y) 1 / _) = 1
      rw [c1, div_self d0.ne', hA.one]
    · show F.rnd (crossProd F (mkPt a y) (mkPt b y) 2 / _) = - axisC F y a b
      rw [c2, neg_div, h.odd]; rfl
  have hw' : (if (![0, 1, - axisC F y a b] : V3 ℝ) 0 < 0 then fun i => - (![0, 1, - axisC F y a b] : V3 ℝ) i else ![0, 1, - axisC F y a b]) = ![0, 1, - axisC F y a b] := if_neg (by norm_num)
  rw [lineOf_eq hs (d := F.rnd (b - a)) (by simp only [c0, c1]; rw [hA.hypY _ (h.idem _), abs_of_pos d0]) (by linarith) hw hw']
  rw [if_neg (show ¬ (![0, 1, - axisC F y a b] : V3 ℝ) 1 < 0 by norm_num)]
  simp

theorem axis_angle (h : FlOk F u v) (hA : AxisExact F) {ac : ℝ → ℝ} {w : ℝ} (ha : AcosOk ac w) {t : Thr ℝ} (ht : RectThr t) (x y x' y' : ℝ) :
    isParallel F t ac ![1, 0, x] ![1, 0, x'] = true ∧ isParallel F t ac ![0, 1, y] ![0, 1, y'] = true ∧ isParallel F t ac ![1, 0, x] ![0, 1, y] = false ∧ isParallel F t ac ![0, 1, y] ![1, 0, x] = false := by
  have r1 : F.rnd 1 = 1 := hA.one
  have r0 := rnd_zero h
  have a1 : ac 1 = 0 := by
    have := ha.err 1 (by norm_num) le_rfl
    rw [Real.arccos_one] at this
    simpa using this
  have a0 : ¬ ac 0 < t.nullAngleValue := by
    have := (abs_le.1 (ha.err 0 (by norm_num) (by norm_num))).1
    rw [Real.arccos_zero] at this
    have hw := ha.w_small
    have hp := Real.pi_gt_three
    have := ht.ang1
    nlinarith
  have n0 : ¬ (1 : ℝ) < 0 := by norm_num
  refine ⟨?_, ?_, ?_, ?_⟩ <;>
    simp [isParallel, lineAngle, cosArg, norm2, sqrtF, divF, r1, r0, a1, a0, ht.ang0, n0]

theorem axis_cross (h : FlOk F u v) (hA : AxisExact F) {x y : ℝ} (hx : Rep F x) (hy : Rep F y) : crossXY F ![1, 0, -x] ![0, 1, -y] = some (x, y) ∧ crossXY F ![0, 1, -y] ![1, 0, -x] = some (x, y) := by
  have r1 : F.rnd 1 = 1 := hA.one
  have r0 := rnd_zero h
  have hx : F.rnd x = x := hx
  have hy : F.rnd y = y := hy
  constructor <;> simp [crossXY, crossProd, getXY, r1, r0, hx, hy, h.odd]

end H2d.Fl
