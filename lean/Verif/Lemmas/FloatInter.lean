import Verif.Lemmas.FloatSeg
import Verif.Lemmas.FloatHull

/-! # Line/circle intersection with rounded operations -/

namespace H2d.Fl

open H2d.Spec

variable {F : Arith} {u v : ℝ}

theorem norm2_err (h : FlOk F u v) (a b : ℝ) : |norm2 F a b - (a ^ 2 + b ^ 2)| ≤ 33 / 16 * u * (a ^ 2 + b ^ 2) := by
  have hu := h.u_nonneg
  have hu1 := h.u_small
  have h1 := h.err (a * a)
  have h2 := h.err (b * b)
  rw [abs_of_nonneg (mul_self_nonneg a)] at h1
  rw [abs_of_nonneg (mul_self_nonneg b)] at h2
  have h3 : |F.rnd (a * a) + F.rnd (b * b) - (a ^ 2 + b ^ 2)| ≤ u * (a ^ 2 + b ^ 2) := by
    rw [show F.rnd (a * a) + F.rnd (b * b) - (a ^ 2 + b ^ 2) = (F.rnd (a * a) - a * a) + (F.rnd (b * b) - b * b) by ring]
    refine (abs_add_le _ _).trans ?_
    linarith
  have := rnd_near h h3 (le_of_eq (abs_of_nonneg (by positivity)))
  refine this.trans (mul_le_mul_of_nonneg_right ?_ (by positivity))
  nlinarith [mul_nonneg hu (sub_nonneg.2 hu1)]

/-- A quotient of two approximate values. -/
theorem quot_err {x y n n0 a e1 e2 : ℝ} (hx : |x - y| ≤ e1 * a) (hy : |y| ≤ a) (hn : |n - n0| ≤ e2 * n0) (hn0 : 0 < n0) (he1 : 0 ≤ e1) (he2 : 0 ≤ e2) (he : e2 < 1) :
    0 < n ∧ |x / n - y / n0| ≤ ((e1 + e2) / (1 - e2)) * (a / n0) := by
  have ha : 0 ≤ a := (abs_nonneg _).trans hy
  have hn1 : (1 - e2) * n0 ≤ n := by linarith [(abs_le.1 hn).1]
  have h1e : 0 < 1 - e2 := by linarith
  have hnp : 0 < n := lt_of_lt_of_le (mul_pos h1e hn0) hn1
  refine ⟨hnp, ?_⟩
  rw [show x / n - y / n0 = ((x - y) * n0 - y * (n - n0)) / (n * n0) by field_simp; ring, abs_div, abs_of_pos (mul_pos hnp hn0), div_le_iff₀ (mul_pos hnp hn0)]
  have b : |(x - y) * n0 - y * (n - n0)| ≤ e1 * a * n0 + a * (e2 * n0) := by
    refine (abs_sub _ _).trans ?_
    rw [abs_mul, abs_mul, abs_of_pos hn0]
    exact add_le_add (mul_le_mul_of_nonneg_right hx hn0.le) (mul_le_mul hy hn (abs_nonneg _) ha)
  refine b.trans ?_
  have : (e1 + e2) / (1 - e2) * (a / n0) * (((1 - e2) * n0) * n0) ≤ (e1 + e2) / (1 - e2) * (a / n0) * (n * n0) :=
    mul_le_mul_of_nonneg_left (mul_le_mul_of_nonneg_right hn1 hn0.le) (by positivity)
  refine le_trans (le_of_eq ?_) this
  field_simp

/-- Same, followed by a rounding; all the errors are multiples of `u`. -/
theorem quot_rnd (h : FlOk F u v) {x y n n0 a k1 k2 k : ℝ} (hx : |x - y| ≤ k1 * u * a) (hy : |y| ≤ a) (hn : |n - n0| ≤ k2 * u * n0) (hn0 : 0 < n0) (hk1 : 0 ≤ k1) (hk2 : 0 ≤ k2) (hk : k2 ≤ 8)
    (hkk : (k1 + k2) * 65 + (64 - k2) ≤ k * (64 - k2)) : 0 < n ∧ |F.rnd (x / n) - y / n0| ≤ k * u * (a / n0) := by
  have hu := h.u_nonneg
  have hu1 := h.u_small
  have ha : 0 ≤ a := (abs_nonneg _).trans hy
  obtain ⟨hnp, h1⟩ := quot_err hx hy hn hn0 (mul_nonneg hk1 hu) (mul_nonneg hk2 hu) (by nlinarith)
  refine ⟨hnp, ?_⟩
  have hyn : |y / n0| ≤ a / n0 := by rw [abs_div, abs_of_pos hn0]; exact div_le_div_of_nonneg_right hy hn0.le
  have h2 := rnd_near h h1 hyn
  refine h2.trans (mul_le_mul_of_nonneg_right ?_ (by positivity))
  have hE : (k1 * u + k2 * u) / (1 - k2 * u) ≤ (k1 + k2) * 64 / (64 - k2) * u := by
    have hp : 0 < 1 - k2 * u := by nlinarith
    have hq : 0 < 64 - k2 := by linarith
    rw [div_mul_eq_mul_div, div_le_div_iff₀ hp hq]
    have : 64 - k2 ≤ 64 * (1 - k2 * u) := by nlinarith
    have h3 := mul_le_mul_of_nonneg_left this (mul_nonneg (add_nonneg hk1 hk2) hu)
    nlinarith
  have hq : 0 < 64 - k2 := by linarith
  have hk3 : (k1 + k2) * 65 / (64 - k2) + 1 ≤ k := by
    rw [← sub_nonneg, show k - ((k1 + k2) * 65 / (64 - k2) + 1) = (k * (64 - k2) - ((k1 + k2) * 65 + (64 - k2))) / (64 - k2) by field_simp]
    exact div_nonneg (by linarith) hq.le
  generalize (k1 * u + k2 * u) / (1 - k2 * u) = E at *
  have hE0 : (k1 + k2) * 64 / (64 - k2) * u * (1 + u) ≤ (k1 + k2) * 65 / (64 - k2) * u := by
    have e0 : 0 ≤ (k1 + k2) / (64 - k2) * u := mul_nonneg (div_nonneg (add_nonneg hk1 hk2) hq.le) hu
    have e1 : (k1 + k2) * 64 / (64 - k2) * u * (1 + u) = (k1 + k2) / (64 - k2) * u * (64 * (1 + u)) := by ring
    have e2 : (k1 + k2) * 65 / (64 - k2) * u = (k1 + k2) / (64 - k2) * u * 65 := by ring
    rw [e1, e2]
    exact mul_le_mul_of_nonneg_left (by linarith) e0
  have hE1 : E * (1 + u) ≤ (k1 + k2) * 64 / (64 - k2) * u * (1 + u) := mul_le_mul_of_nonneg_right hE (by linarith)
  have hE2 := mul_le_mul_of_nonneg_right hk3 hu
  nlinarith

theorem lineAt_err (h : FlOk F u v) (l : V3 ℝ) (c : Pt ℝ) :
    |lineAt F l c - (c.1 * l 0 + c.2 * l 1 + l 2)| ≤ 25 / 8 * u * (|c.1 * l 0| + |c.2 * l 1| + |l 2|) := by
  have hu := h.u_nonneg
  have hu1 := h.u_small
  have h0 := h.err (c.1 * l 0)
  have h1 := h.err (c.2 * l 1)
  have p0 := abs_nonneg (c.1 * l 0)
  have p1 := abs_nonneg (c.2 * l 1)
  have p2 := abs_nonneg (l 2)
  have k1 : |F.rnd (c.1 * l 0) + F.rnd (c.2 * l 1) - (c.1 * l 0 + c.2 * l 1)| ≤ u * (|c.1 * l 0| + |c.2 * l 1|) := by
    rw [add_sub_add_comm]; refine (abs_add_le _ _).trans ?_; linarith
  have k2 := rnd_near h k1 (abs_add_le _ _)
  have k3 : |F.rnd (F.rnd (c.1 * l 0) + F.rnd (c.2 * l 1)) + l 2 - (c.1 * l 0 + c.2 * l 1 + l 2)| ≤
      ((1 + u) * (1 + u) - 1) * (|c.1 * l 0| + |c.2 * l 1| + |l 2|) := by
    rw [add_sub_add_right_eq_sub]
    refine k2.trans (mul_le_mul_of_nonneg_left (by linarith) (by nlinarith))
  have k4 := rnd_near h k3 (abs_add_three _ _ _)
  refine k4.trans (mul_le_mul_of_nonneg_right ?_ (by positivity))
  have := mul_nonneg hu (sub_nonneg.2 hu1)
  have := mul_nonneg (mul_nonneg hu hu) (sub_nonneg.2 hu1)
  nlinarith

/-- Norm of the direction and distance to the centre, as computed. -/
theorem d0_err (h : FlOk F u v) {a b : ℝ} (hG : 0 < a ^ 2 + b ^ 2) (cp : ℝ) :
    0 < norm2 F a b ∧ ∃ s d0, sqrtF F (norm2 F a b) = some s ∧ divF F |cp| s = some d0 ∧ 0 ≤ d0 ∧
      |d0 - |cp| / Real.sqrt (a ^ 2 + b ^ 2)| ≤ 9 / 2 * u * (|cp| / Real.sqrt (a ^ 2 + b ^ 2)) := by
  have hu := h.u_nonneg
  have hu1 := h.u_small
  have h1 := norm2_err h a b
  have hg : 0 < Real.sqrt (a ^ 2 + b ^ 2) := Real.sqrt_pos.2 hG
  have hA : 0 < norm2 F a b := by nlinarith [(abs_le.1 h1).1]
  refine ⟨hA, F.rnd (Real.sqrt (norm2 F a b)), F.rnd (|cp| / F.rnd (Real.sqrt (norm2 F a b))), if_neg (not_lt.2 hA.le), ?_, ?_, ?_⟩
  all_goals
    have h2 : |Real.sqrt (norm2 F a b) - Real.sqrt (a ^ 2 + b ^ 2)| ≤ 33 / 16 * u * Real.sqrt (a ^ 2 + b ^ 2) := by
      apply sqrt_of_near hg.le hA.le
      rw [Real.sq_sqrt hG.le]; exact h1
    have h3 := rnd_near h h2 (le_of_eq (abs_of_nonneg hg.le))
    have h4 : |F.rnd (Real.sqrt (norm2 F a b)) - Real.sqrt (a ^ 2 + b ^ 2)| ≤ 25 / 8 * u * Real.sqrt (a ^ 2 + b ^ 2) := by
      refine h3.trans (mul_le_mul_of_nonneg_right ?_ hg.le)
      nlinarith [mul_nonneg hu (sub_nonneg.2 hu1)]
    have h5 := quot_rnd h (x := |cp|) (y := |cp|) (a := |cp|) (k1 := 0) (k2 := 25 / 8) (k := 9 / 2) (by simp) (by simp) h4 hg (by norm_num) (by norm_num) (by norm_num) (by norm_num)
  · exact if_neg h5.1.ne'
  · exact rnd_nonneg h (div_nonneg (abs_nonneg _) h5.1.le)
  · exact h5.2

/-- The two points returned, when there are. -/
noncomputable def lcPoints (F : Arith) (l : V3 ℝ) (c : Pt ℝ) (r d0 : ℝ) : Pt ℝ × Pt ℝ :=
  let cp := lineAt F l c
  let A := norm2 F (l 0) (l 1)
  let xb := F.rnd (F.rnd (-l 0 * cp) / A)
  let yb := F.rnd (F.rnd (-l 1 * cp) / A)
  let m := F.rnd (Real.sqrt (F.rnd (F.rnd (F.rnd (r * r) - F.rnd (d0 * d0)) / A)))
  ((F.rnd (F.rnd (xb + F.rnd (m * l 1)) + c.1), F.rnd (F.rnd (yb - F.rnd (m * l 0)) + c.2)),
   (F.rnd (F.rnd (xb - F.rnd (m * l 1)) + c.1), F.rnd (F.rnd (yb + F.rnd (m * l 0)) + c.2)))

theorem lineCircle_eq (h : FlOk F u v) {l : V3 ℝ} (hG : 0 < l 0 ^ 2 + l 1 ^ 2) (c : Pt ℝ) (r : ℝ) :
    ∃ d0, 0 ≤ d0 ∧ |d0 - |lineAt F l c| / Real.sqrt (l 0 ^ 2 + l 1 ^ 2)| ≤ 9 / 2 * u * (|lineAt F l c| / Real.sqrt (l 0 ^ 2 + l 1 ^ 2)) ∧
      (r < d0 → Fl.lineCircle F l c r = some none) ∧
      (d0 ≤ r → 0 ≤ F.rnd (F.rnd (F.rnd (r * r) - F.rnd (d0 * d0)) / norm2 F (l 0) (l 1)) ∧ 0 ≤ F.rnd (F.rnd (r * r) - F.rnd (d0 * d0)) ∧
        Fl.lineCircle F l c r = some (some (lcPoints F l c r d0))) := by
  obtain ⟨hA, s, d0, e1, e2, h0, hd⟩ := d0_err h hG (lineAt F l c)
  refine ⟨d0, h0, hd, fun hr => ?_, fun hr => ?_⟩
  · unfold Fl.lineCircle
    simp only [e1, e2, Option.bind_eq_bind, Option.bind_some, if_pos hr]
    rfl
  · have p1 : 0 ≤ F.rnd (F.rnd (r * r) - F.rnd (d0 * d0)) := rnd_nonneg h (sub_nonneg.2 (h.mono (mul_self_le_mul_self h0 hr)))
    have p2 : 0 ≤ F.rnd (F.rnd (F.rnd (r * r) - F.rnd (d0 * d0)) / norm2 F (l 0) (l 1)) := rnd_nonneg h (div_nonneg p1 hA.le)
    refine ⟨p2, p1, ?_⟩
    unfold Fl.lineCircle
    simp only [e1, e2, Option.bind_eq_bind, Option.bind_some, if_neg (not_lt.2 hr)]
    have q : ∀ x, divF F x (norm2 F (l 0) (l 1)) = some (F.rnd (x / norm2 F (l 0) (l 1))) := fun x => if_neg hA.ne'
    simp only [q, Option.bind_some]
    rw [show sqrtF F _ = some _ from if_neg (not_lt.2 p2)]
    rfl

/-- A coordinate of the returned points: middle point, half chord, centre. -/
theorem lc_coord (h : FlOk F u v) {xb x0 w cx M : ℝ} (hb : |xb - x0| ≤ 5 * u * M) (h0 : |x0| ≤ 11 / 10 * M) (hw : |w| ≤ 6 / 5 * M) (hc : |cx| ≤ M) :
    |F.rnd (F.rnd (xb + F.rnd w) + cx) - (cx + (x0 + w))| ≤ 13 * u * M := by
  have hu := h.u_nonneg
  have hu1 := h.u_small
  have hM : 0 ≤ M := (abs_nonneg _).trans hc
  have uM : 0 ≤ u * M := mul_nonneg hu hM
  have uM1 : u * M ≤ 1 / 64 * M := mul_le_mul_of_nonneg_right hu1 hM
  have uuM : u * (u * M) ≤ 1 / 64 * (u * M) := mul_le_mul_of_nonneg_right hu1 uM
  have e1 : |F.rnd w - w| ≤ 6 / 5 * (u * M) := (h.err w).trans (by nlinarith)
  have e2 : |xb + F.rnd w - (x0 + w)| ≤ 31 / 5 * (u * M) := by
    rw [add_sub_add_comm]; refine (abs_add_le _ _).trans ?_; linarith
  have e3 : |x0 + w| ≤ 23 / 10 * M := (abs_add_le _ _).trans (by linarith)
  have e4 : |xb + F.rnd w| ≤ 12 / 5 * M := by
    have := abs_add_le (xb + F.rnd w - (x0 + w)) (x0 + w)
    rw [sub_add_cancel] at this; linarith
  have e5 : |F.rnd (xb + F.rnd w) - (x0 + w)| ≤ 43 / 5 * (u * M) := by
    have := abs_add_le (F.rnd (xb + F.rnd w) - (xb + F.rnd w)) (xb + F.rnd w - (x0 + w))
    rw [sub_add_sub_cancel] at this
    have h1 := (h.err (xb + F.rnd w)).trans (mul_le_mul_of_nonneg_left e4 hu)
    linarith
  have e6 : |F.rnd (xb + F.rnd w) + cx - (cx + (x0 + w))| ≤ 43 / 5 * (u * M) := by
    rw [show F.rnd (xb + F.rnd w) + cx - (cx + (x0 + w)) = F.rnd (xb + F.rnd w) - (x0 + w) by ring]; exact e5
  have e7 : |F.rnd (xb + F.rnd w) + cx| ≤ 7 / 2 * M := by
    have := abs_add_le (F.rnd (xb + F.rnd w) + cx - (cx + (x0 + w))) (cx + (x0 + w))
    rw [sub_add_cancel] at this
    have := abs_add_le cx (x0 + w)
    linarith
  have e8 := abs_add_le (F.rnd (F.rnd (xb + F.rnd w) + cx) - (F.rnd (xb + F.rnd w) + cx)) (F.rnd (xb + F.rnd w) + cx - (cx + (x0 + w)))
  rw [sub_add_sub_cancel] at e8
  have := (h.err (F.rnd (xb + F.rnd w) + cx)).trans (mul_le_mul_of_nonneg_left e7 hu)
  linarith

/-- The squared half chord before the division. -/
theorem lc_d2 (h : FlOk F u v) {r d0 γ : ℝ} (h0 : 0 ≤ d0) (hr : d0 ≤ r) (hd : |d0 - (|γ|)| ≤ 9 / 2 * u * |γ|) :
    |γ| ≤ 11 / 10 * r ∧ 0 ≤ F.rnd (F.rnd (r * r) - F.rnd (d0 * d0)) ∧ F.rnd (F.rnd (r * r) - F.rnd (d0 * d0)) ≤ 21 / 20 * r ^ 2 ∧
      |F.rnd (F.rnd (r * r) - F.rnd (d0 * d0)) - (r ^ 2 - γ ^ 2)| ≤ 14 * (u * r ^ 2) := by
  have hu := h.u_nonneg
  have hu1 := h.u_small
  have hγ := abs_nonneg γ
  have hd' := abs_le.1 hd
  have hr0 : 0 ≤ r := h0.trans hr
  have hγr : |γ| ≤ 11 / 10 * r := by nlinarith [mul_le_mul_of_nonneg_right hu1 hγ]
  have hr2 : 0 ≤ r ^ 2 := sq_nonneg r
  have ur2 : 0 ≤ u * r ^ 2 := mul_nonneg hu hr2
  have uur2 : u * (u * r ^ 2) ≤ 1 / 64 * (u * r ^ 2) := mul_le_mul_of_nonneg_right hu1 ur2
  have ur2' : u * r ^ 2 ≤ 1 / 64 * r ^ 2 := mul_le_mul_of_nonneg_right hu1 hr2
  have d0r : d0 * d0 ≤ r ^ 2 := by rw [← sq]; exact pow_le_pow_left₀ h0 hr 2
  have b1 : |d0 ^ 2 - γ ^ 2| ≤ 21 / 2 * (u * r ^ 2) := by
    rw [← sq_abs γ, show d0 ^ 2 - |γ| ^ 2 = (d0 - |γ|) * (d0 + |γ|) by ring, abs_mul, abs_of_nonneg (add_nonneg h0 hγ)]
    have s1 : |d0 - (|γ|)| ≤ 9 / 2 * u * (11 / 10 * r) := hd.trans (mul_le_mul_of_nonneg_left hγr (by positivity))
    have s2 : d0 + |γ| ≤ 21 / 10 * r := by linarith
    have := mul_le_mul s1 s2 (add_nonneg h0 hγ) (by positivity)
    refine this.trans ?_
    nlinarith
  have c1 := h.err (r * r)
  have c2 := h.err (d0 * d0)
  rw [abs_of_nonneg (mul_self_nonneg r)] at c1
  rw [abs_of_nonneg (mul_self_nonneg d0)] at c2
  have c3 : F.rnd (d0 * d0) ≤ F.rnd (r * r) := h.mono (mul_self_le_mul_self h0 hr)
  have c4 : 0 ≤ F.rnd (d0 * d0) := rnd_nonneg h (mul_self_nonneg _)
  have c5 := h.err (F.rnd (r * r) - F.rnd (d0 * d0))
  rw [abs_of_nonneg (sub_nonneg.2 c3)] at c5
  have ud0 : u * (d0 * d0) ≤ u * r ^ 2 := mul_le_mul_of_nonneg_left d0r hu
  rw [← sq] at c1
  rw [← sq r] at c3 c5 ⊢
  rw [← sq d0] at c2 c3 c4 c5 ud0 d0r ⊢
  obtain ⟨c11, c12⟩ := abs_le.1 c1
  obtain ⟨c21, c22⟩ := abs_le.1 c2
  obtain ⟨b11, b12⟩ := abs_le.1 b1
  obtain ⟨c51, c52⟩ := abs_le.1 c5
  have hnn : 0 ≤ F.rnd (F.rnd (r ^ 2) - F.rnd (d0 ^ 2)) := rnd_nonneg h (sub_nonneg.2 c3)
  have c6 : u * (F.rnd (r ^ 2) - F.rnd (d0 ^ 2)) ≤ 65 / 64 * (u * r ^ 2) := by
    have : F.rnd (r ^ 2) - F.rnd (d0 ^ 2) ≤ r ^ 2 + u * r ^ 2 := by linarith
    have := mul_le_mul_of_nonneg_left this hu
    linarith
  clear hd hd' c1 c2 b1 c5
  generalize F.rnd (F.rnd (r ^ 2) - F.rnd (d0 ^ 2)) = d2 at *
  generalize F.rnd (r ^ 2) = R at *
  generalize F.rnd (d0 ^ 2) = D at *
  refine ⟨hγr, hnn, by linarith, ?_⟩
  rw [abs_le]; constructor <;> linarith

/-- Division and square root. -/
theorem lc_sqrt (h : FlOk F u v) {d2 A G : ℝ} (hG : 0 < G) (hA : |A - G| ≤ 33 / 16 * u * G) (hd20 : 0 ≤ d2) :
    0 ≤ F.rnd (Real.sqrt (F.rnd (d2 / A))) ∧ |F.rnd (Real.sqrt (F.rnd (d2 / A))) ^ 2 * G - d2| ≤ 11 / 2 * (u * d2) := by
  have hu := h.u_nonneg
  have hu1 := h.u_small
  obtain ⟨hAp, b3⟩ := quot_rnd h (x := d2) (y := d2) (a := d2) (k1 := 0) (k2 := 33 / 16) (k := 13 / 4) (by simp) (by rw [abs_of_nonneg hd20]) hA hG (by norm_num) (by norm_num) (by norm_num) (by norm_num)
  have hq0 : 0 ≤ F.rnd (d2 / A) := rnd_nonneg h (div_nonneg hd20 hAp.le)
  generalize F.rnd (d2 / A) = q at *
  have b4 : |q * G - d2| ≤ 13 / 4 * (u * d2) := by
    have : |q * G - d2| = |q - d2 / G| * G := by rw [← abs_of_pos hG, ← abs_mul, abs_of_pos hG, sub_mul, div_mul_cancel₀ _ hG.ne']
    rw [this]
    have h1 := mul_le_mul_of_nonneg_right b3 hG.le
    rw [mul_assoc, div_mul_cancel₀ _ hG.ne'] at h1
    linarith
  obtain ⟨b41, b42⟩ := abs_le.1 b4
  have s1 := h.err (Real.sqrt q)
  rw [abs_of_nonneg (Real.sqrt_nonneg q)] at s1
  have hm0 : 0 ≤ F.rnd (Real.sqrt q) := rnd_nonneg h (Real.sqrt_nonneg q)
  have hsq := Real.sq_sqrt hq0
  have hs0 := Real.sqrt_nonneg q
  generalize F.rnd (Real.sqrt q) = m at *
  obtain ⟨s11, s12⟩ := abs_le.1 s1
  refine ⟨hm0, ?_⟩
  have b5 : |m ^ 2 - q| ≤ 33 / 16 * u * q := by
    have t1 : m ≤ (1 + u) * Real.sqrt q := by linarith
    have t2 : (1 - u) * Real.sqrt q ≤ m := by linarith
    have t3 := pow_le_pow_left₀ hm0 t1 2
    have t4 := pow_le_pow_left₀ (mul_nonneg (by linarith) hs0) t2 2
    rw [mul_pow, hsq] at t3 t4
    have : 0 ≤ q * (u * (1 / 64 - u)) := mul_nonneg hq0 (mul_nonneg hu (by linarith))
    have : 0 ≤ q * (u * u) := mul_nonneg hq0 (mul_nonneg hu hu)
    rw [abs_le]
    constructor <;> nlinarith
  have ud2 : u * d2 ≤ 1 / 64 * d2 := mul_le_mul_of_nonneg_right hu1 hd20
  have qG : u * (q * G) ≤ 17 / 16 * (u * d2) := by
    have : q * G ≤ 17 / 16 * d2 := by linarith
    have := mul_le_mul_of_nonneg_left this hu
    linarith
  have b6 : |m ^ 2 * G - q * G| ≤ 33 / 16 * (u * (q * G)) := by
    rw [← sub_mul, abs_mul, abs_of_pos hG]
    have := mul_le_mul_of_nonneg_right b5 hG.le
    linarith
  obtain ⟨b61, b62⟩ := abs_le.1 b6
  have ud0 : 0 ≤ u * d2 := mul_nonneg hu hd20
  rw [abs_le]
  constructor <;> linarith

/-- The square of half the chord. -/
theorem lc_chord (h : FlOk F u v) {r d0 γ A G : ℝ} (hG : 0 < G) (hA : |A - G| ≤ 33 / 16 * u * G) (h0 : 0 ≤ d0) (hr : d0 ≤ r) (hd : |d0 - (|γ|)| ≤ 9 / 2 * u * |γ|) :
    |γ| ≤ 11 / 10 * r ∧ 0 ≤ F.rnd (Real.sqrt (F.rnd (F.rnd (F.rnd (r * r) - F.rnd (d0 * d0)) / A))) ∧
      |F.rnd (Real.sqrt (F.rnd (F.rnd (F.rnd (r * r) - F.rnd (d0 * d0)) / A))) ^ 2 * G - (r ^ 2 - γ ^ 2)| ≤ 20 * u * r ^ 2 := by
  obtain ⟨h1, h2, h3, h4⟩ := lc_d2 h h0 hr hd
  obtain ⟨h5, h6⟩ := lc_sqrt h hG hA h2
  refine ⟨h1, h5, ?_⟩
  generalize F.rnd (F.rnd (r * r) - F.rnd (d0 * d0)) = d2 at *
  generalize F.rnd (Real.sqrt (F.rnd (d2 / A))) = m at *
  have h7 : u * d2 ≤ u * (21 / 20 * r ^ 2) := mul_le_mul_of_nonneg_left h3 h.u_nonneg
  have h8 : 0 ≤ u * r ^ 2 := mul_nonneg h.u_nonneg (sq_nonneg r)
  rw [abs_le] at *
  constructor <;> linarith [h4.1, h4.2, h6.1, h6.2]

/-- The middle point of the chord. -/
theorem lc_mid (h : FlOk F u v) {a b cp A : ℝ} (hG : 0 < a ^ 2 + b ^ 2) (hA : |A - (a ^ 2 + b ^ 2)| ≤ 33 / 16 * u * (a ^ 2 + b ^ 2)) :
    |F.rnd (F.rnd (-a * cp) / A) - (-a * cp) / (a ^ 2 + b ^ 2)| ≤ 9 / 2 * u * (|-a * cp| / (a ^ 2 + b ^ 2)) :=
  (quot_rnd h (k1 := 1) (k2 := 33 / 16) (k := 9 / 2) (by rw [one_mul]; exact h.err _) le_rfl hA hG (by norm_num) (by norm_num) (by norm_num) (by norm_num)).2

theorem abs_le_of_sq {x y : ℝ} (hy : 0 ≤ y) (h : x ^ 2 ≤ y ^ 2) : |x| ≤ y := abs_le_of_sq_le_sq h hy

theorem lc_w {u r M x : ℝ} {w1 w2 m2 : ℝ} (hu1 : u ≤ 1 / 64) (hr0 : 0 ≤ r) (hrM : r ≤ M) (wm : w1 ^ 2 + w2 ^ 2 = m2) (c2 : m2 - (r ^ 2 - x ^ 2) ≤ 20 * u * r ^ 2) :
    |w1| ≤ 6 / 5 * M ∧ |w2| ≤ 6 / 5 * M := by
  have e1 : r ^ 2 ≤ M ^ 2 := pow_le_pow_left₀ hr0 hrM 2
  have e2 : u * r ^ 2 ≤ 1 / 64 * r ^ 2 := mul_le_mul_of_nonneg_right hu1 (sq_nonneg r)
  have e3 := sq_nonneg x
  have e4 : w1 ^ 2 + w2 ^ 2 ≤ 21 / 16 * M ^ 2 := by linarith
  have e5 : (6 / 5 * M) ^ 2 = 36 / 25 * M ^ 2 := by ring
  have e6 := sq_nonneg M
  have e7 := sq_nonneg w1
  have e8 := sq_nonneg w2
  have hM0 : 0 ≤ 6 / 5 * M := by linarith
  exact ⟨abs_le_of_sq hM0 (by linarith), abs_le_of_sq hM0 (by linarith)⟩

/-- One of the two points. -/
theorem lc_point (h : FlOk F u v) {a b cp A r d0 M cx cy w1 w2 m g : ℝ} (hg0 : 0 < g) (hg2 : a ^ 2 + b ^ 2 = g ^ 2) (hA : |A - g ^ 2| ≤ 33 / 16 * u * g ^ 2) (h0 : 0 ≤ d0) (hr : d0 ≤ r)
    (hd : |d0 - |cp| / g| ≤ 9 / 2 * u * (|cp| / g))
    (hm : m = F.rnd (Real.sqrt (F.rnd (F.rnd (F.rnd (r * r) - F.rnd (d0 * d0)) / A)))) (hx : |cx| ≤ M) (hy : |cy| ≤ M) (hrM : r ≤ M)
    (w0 : w1 * a + w2 * b = 0) (wm : w1 ^ 2 + w2 ^ 2 = m ^ 2 * g ^ 2) :
    |F.rnd (F.rnd (F.rnd (F.rnd (-a * cp) / A) + F.rnd w1) + cx) - (cx + (-a * cp / g ^ 2 + w1))| ≤ 13 * u * M ∧
    |F.rnd (F.rnd (F.rnd (F.rnd (-b * cp) / A) + F.rnd w2) + cy) - (cy + (-b * cp / g ^ 2 + w2))| ≤ 13 * u * M ∧
    |Real.sqrt ((-a * cp / g ^ 2 + w1) ^ 2 + (-b * cp / g ^ 2 + w2) ^ 2) - r| ≤ 20 * u * r ∧ |cp| ≤ 11 / 10 * M * g := by
  have hu := h.u_nonneg
  have hu1 := h.u_small
  have hr0 : 0 ≤ r := h0.trans hr
  have eγ : |cp / g| = |cp| / g := by rw [abs_div, abs_of_pos hg0]
  have hG : 0 < g ^ 2 := by positivity
  obtain ⟨hγ, hm0, hc⟩ := lc_chord h hG hA h0 hr (γ := cp / g) (by rw [eγ]; exact hd)
  rw [← hm] at hm0 hc
  have m1 := lc_mid h (a := a) (b := b) (cp := cp) (A := A) (by rw [hg2]; exact hG) (by rw [hg2]; exact hA)
  have m2 := lc_mid h (a := b) (b := a) (cp := cp) (A := A) (by rw [add_comm, hg2]; exact hG) (by rw [add_comm (b ^ 2), hg2]; exact hA)
  rw [add_comm (b ^ 2)] at m2
  rw [hg2] at m1 m2
  have ha : |a| ≤ g := abs_le_of_sq hg0.le (by linarith [sq_nonneg b])
  have hb : |b| ≤ g := abs_le_of_sq hg0.le (by linarith [sq_nonneg a])
  have cpg : |cp| ≤ 11 / 10 * r * g := by rw [eγ, div_le_iff₀ hg0] at hγ; exact hγ
  have q1 : ∀ x : ℝ, |x| ≤ g → |-x * cp| / g ^ 2 ≤ 11 / 10 * r := by
    intro x hx
    rw [div_le_iff₀ (by positivity), abs_mul, abs_neg]
    have := mul_le_mul hx cpg (abs_nonneg _) hg0.le
    linarith
  have q2 : ∀ x : ℝ, |x| ≤ g → |-x * cp / g ^ 2| ≤ 11 / 10 * M := by
    intro x hx
    rw [abs_div, abs_of_pos hG]
    linarith [q1 x hx]
  have um : 0 ≤ u * M := mul_nonneg hu (hr0.trans hrM)
  have ur : u * r ≤ u * M := mul_le_mul_of_nonneg_left hrM hu
  have q3 : ∀ x : ℝ, |x| ≤ g → 9 / 2 * u * (|-x * cp| / g ^ 2) ≤ 5 * u * M := by
    intro x hx
    have := mul_le_mul_of_nonneg_left (q1 x hx) hu
    linarith
  obtain ⟨c1, c2⟩ := abs_le.1 hc
  obtain ⟨hw1, hw2⟩ := lc_w hu1 hr0 hrM wm c2
  refine ⟨lc_coord h (m1.trans (q3 a ha)) (q2 a ha) hw1 hx, lc_coord h (m2.trans (q3 b hb)) (q2 b hb) hw2 hy, ?_,
    cpg.trans (mul_le_mul_of_nonneg_right (by linarith) hg0.le)⟩
  have key : (-a * cp / g ^ 2 + w1) ^ 2 + (-b * cp / g ^ 2 + w2) ^ 2 = (cp / g) ^ 2 + m ^ 2 * g ^ 2 := by
    rw [← wm]
    have e1 : (-a * cp / g ^ 2 + w1) ^ 2 + (-b * cp / g ^ 2 + w2) ^ 2 = (a ^ 2 + b ^ 2) * (cp / g ^ 2) ^ 2 - 2 * (cp / g ^ 2) * (w1 * a + w2 * b) + w1 ^ 2 + w2 ^ 2 := by ring
    rw [e1, w0, hg2]
    field_simp
    ring
  apply sqrt_of_near hr0 (by positivity)
  rw [key, abs_le]
  constructor <;> linarith

/-- Both points are near the circle and near the line. -/
theorem lc_main (h : FlOk F u v) {l : V3 ℝ} (hG : 0 < l 0 ^ 2 + l 1 ^ 2) {c : Pt ℝ} {r d0 M : ℝ} (h0 : 0 ≤ d0) (hr : d0 ≤ r)
    (hd : |d0 - |lineAt F l c| / Real.sqrt (l 0 ^ 2 + l 1 ^ 2)| ≤ 9 / 2 * u * (|lineAt F l c| / Real.sqrt (l 0 ^ 2 + l 1 ^ 2)))
    (hx : |c.1| ≤ M) (hy : |c.2| ≤ M) (hrM : r ≤ M) {P : Pt ℝ} (hP : P = (lcPoints F l c r d0).1 ∨ P = (lcPoints F l c r d0).2) :
    |eucl P c - r| ≤ 48 * u * M ∧ |l 0 * P.1 + l 1 * P.2 + l 2| ≤ 48 * u * M * Real.sqrt (l 0 ^ 2 + l 1 ^ 2) := by
  have hu := h.u_nonneg
  have hu1 := h.u_small
  have hA := norm2_err h (l 0) (l 1)
  obtain ⟨m, hm⟩ : ∃ m, m = F.rnd (Real.sqrt (F.rnd (F.rnd (F.rnd (r * r) - F.rnd (d0 * d0)) / norm2 F (l 0) (l 1)))) := ⟨_, rfl⟩
  obtain ⟨w1, w2, w0, wm, eP⟩ : ∃ w1 w2, w1 * l 0 + w2 * l 1 = 0 ∧ w1 ^ 2 + w2 ^ 2 = m ^ 2 * (l 0 ^ 2 + l 1 ^ 2) ∧
      P = (F.rnd (F.rnd (F.rnd (F.rnd (-l 0 * lineAt F l c) / norm2 F (l 0) (l 1)) + F.rnd w1) + c.1), F.rnd (F.rnd (F.rnd (F.rnd (-l 1 * lineAt F l c) / norm2 F (l 0) (l 1)) + F.rnd w2) + c.2)) := by
    rcases hP with e | e
    · refine ⟨m * l 1, -(m * l 0), by ring, by ring, ?_⟩
      rw [e, h.odd, ← sub_eq_add_neg, hm]; rfl
    · refine ⟨-(m * l 1), m * l 0, by ring, by ring, ?_⟩
      rw [e, h.odd, ← sub_eq_add_neg, hm]; rfl
  obtain ⟨g, hg⟩ : ∃ g, Real.sqrt (l 0 ^ 2 + l 1 ^ 2) = g := ⟨_, rfl⟩
  have hg0 : 0 < g := by rw [← hg]; exact Real.sqrt_pos.2 hG
  have hg2 : l 0 ^ 2 + l 1 ^ 2 = g ^ 2 := by rw [← hg]; exact (Real.sq_sqrt hG.le).symm
  rw [hg] at hd ⊢
  rw [hg2] at hA wm
  obtain ⟨p1, p2, p3, p4⟩ := lc_point h hg0 hg2 hA h0 hr hd hm hx hy hrM w0 wm
  have q1 : |P.1 - (c.1 + (-l 0 * lineAt F l c / g ^ 2 + w1))| ≤ 13 * u * M := by rw [eP]; exact p1
  have q2 : |P.2 - (c.2 + (-l 1 * lineAt F l c / g ^ 2 + w2))| ≤ 13 * u * M := by rw [eP]; exact p2
  have hlin := lineAt_err h l c
  clear eP hP p1 p2 hm wm hd hA
  have hM : 0 ≤ M := (abs_nonneg _).trans hx
  have uM : 0 ≤ u * M := mul_nonneg hu hM
  have hr0 : 0 ≤ r := h0.trans hr
  have ur : u * r ≤ u * M := mul_le_mul_of_nonneg_left hrM hu
  have hab : |l 0| + |l 1| ≤ 3 / 2 * g := by
    have e1 := sq_abs (l 0)
    have e2 := sq_abs (l 1)
    have : (|l 0| + |l 1|) ^ 2 ≤ (3 / 2 * g) ^ 2 := by nlinarith [sq_nonneg (|l 0| - |l 1|)]
    exact (abs_le_of_sq_le_sq' this (by positivity)).2
  generalize lineAt F l c = cp at *
  constructor
  · set Q : Pt ℝ := (c.1 + (-l 0 * cp / g ^ 2 + w1), c.2 + (-l 1 * cp / g ^ 2 + w2)) with hQ
    have e1 : eucl P Q ≤ 26 * u * M := (eucl_le_abs P Q).trans (by simp only [hQ]; linarith)
    have e2 : eucl Q c = Real.sqrt ((-l 0 * cp / g ^ 2 + w1) ^ 2 + (-l 1 * cp / g ^ 2 + w2) ^ 2) := by
      unfold eucl; simp only [hQ, add_sub_cancel_left]
    rw [← e2] at p3
    have t1 := eucl_triangle P Q c
    have t2 := eucl_triangle Q P c
    rw [eucl_comm Q P] at t2
    rw [abs_le] at *
    constructor <;> linarith [p3.1, p3.2]
  · -- size of the terms
    have x1 : |c.1 * l 0| ≤ M * |l 0| := by rw [abs_mul]; exact mul_le_mul_of_nonneg_right hx (abs_nonneg _)
    have x2 : |c.2 * l 1| ≤ M * |l 1| := by rw [abs_mul]; exact mul_le_mul_of_nonneg_right hy (abs_nonneg _)
    have x3 : |c.1 * l 0| + |c.2 * l 1| ≤ 3 / 2 * (M * g) := by nlinarith [mul_le_mul_of_nonneg_left hab hM]
    have Mg : 0 ≤ M * g := mul_nonneg hM hg0.le
    set T := |c.1 * l 0| + |c.2 * l 1| + |l 2| with hT
    have T0 : 0 ≤ T := by positivity
    have uT : u * T ≤ 1 / 64 * T := mul_le_mul_of_nonneg_right hu1 T0
    have x4 : |l 2| ≤ |c.1 * l 0| + |c.2 * l 1| + (|cp| + 25 / 8 * u * T) := by
      have e : l 2 = cp - (cp - (c.1 * l 0 + c.2 * l 1 + l 2)) - c.1 * l 0 - c.2 * l 1 := by ring
      have a1 := abs_sub (cp - (cp - (c.1 * l 0 + c.2 * l 1 + l 2)) - c.1 * l 0) (c.2 * l 1)
      have a2 := abs_sub (cp - (cp - (c.1 * l 0 + c.2 * l 1 + l 2))) (c.1 * l 0)
      have a3 := abs_sub cp (cp - (c.1 * l 0 + c.2 * l 1 + l 2))
      rw [← e] at a1
      linarith
    have x5 : T ≤ 9 / 2 * (M * g) := by linarith
    have uTg : u * T ≤ 9 / 2 * (u * (M * g)) := by have := mul_le_mul_of_nonneg_left x5 hu; linarith
    have id : l 0 * P.1 + l 1 * P.2 + l 2 = l 0 * (P.1 - (c.1 + (-l 0 * cp / g ^ 2 + w1))) + l 1 * (P.2 - (c.2 + (-l 1 * cp / g ^ 2 + w2))) - (cp - (c.1 * l 0 + c.2 * l 1 + l 2)) := by
      have e : l 0 * (-l 0 * cp / g ^ 2) + l 1 * (-l 1 * cp / g ^ 2) = - cp := by
        rw [show l 0 * (-l 0 * cp / g ^ 2) + l 1 * (-l 1 * cp / g ^ 2) = - cp * ((l 0 ^ 2 + l 1 ^ 2) / g ^ 2) by ring, hg2, div_self (by positivity), mul_one]
      linear_combination e + w0
    rw [id]
    have y1 : |l 0 * (P.1 - (c.1 + (-l 0 * cp / g ^ 2 + w1)))| ≤ |l 0| * (13 * u * M) := by rw [abs_mul]; exact mul_le_mul_of_nonneg_left q1 (abs_nonneg _)
    have y2 : |l 1 * (P.2 - (c.2 + (-l 1 * cp / g ^ 2 + w2)))| ≤ |l 1| * (13 * u * M) := by rw [abs_mul]; exact mul_le_mul_of_nonneg_left q2 (abs_nonneg _)
    have y3 := mul_le_mul_of_nonneg_right hab (by positivity : 0 ≤ 13 * u * M)
    refine (abs_sub _ _).trans ?_
    have y4 := abs_add_le (l 0 * (P.1 - (c.1 + (-l 0 * cp / g ^ 2 + w1)))) (l 1 * (P.2 - (c.2 + (-l 1 * cp / g ^ 2 + w2))))
    have umg : 0 ≤ u * (M * g) := mul_nonneg hu Mg
    nlinarith

/-- The computed distance to the centre. -/
theorem lc_dist (h : FlOk F u v) {l : V3 ℝ} (hG : 0 < l 0 ^ 2 + l 1 ^ 2) {c : Pt ℝ} {d0 : ℝ}
    (hd : |d0 - |lineAt F l c| / Real.sqrt (l 0 ^ 2 + l 1 ^ 2)| ≤ 9 / 2 * u * (|lineAt F l c| / Real.sqrt (l 0 ^ 2 + l 1 ^ 2))) :
    |d0 - |l 0 * c.1 + l 1 * c.2 + l 2| / Real.sqrt (l 0 ^ 2 + l 1 ^ 2)| ≤ 8 * u * ((|l 0 * c.1| + |l 1 * c.2| + |l 2|) / Real.sqrt (l 0 ^ 2 + l 1 ^ 2)) := by
  have hu := h.u_nonneg
  have hu1 := h.u_small
  have hlin := lineAt_err h l c
  have hg0 : 0 < Real.sqrt (l 0 ^ 2 + l 1 ^ 2) := Real.sqrt_pos.2 hG
  rw [mul_comm c.1, mul_comm c.2] at hlin
  have hE : |l 0 * c.1 + l 1 * c.2 + l 2| ≤ |l 0 * c.1| + |l 1 * c.2| + |l 2| := abs_add_three _ _ _
  generalize lineAt F l c = cp at *
  generalize l 0 * c.1 + l 1 * c.2 + l 2 = e at *
  generalize |l 0 * c.1| + |l 1 * c.2| + |l 2| = T at *
  generalize Real.sqrt (l 0 ^ 2 + l 1 ^ 2) = g at *
  have T0 : 0 ≤ T := (abs_nonneg _).trans hE
  have uT : u * T ≤ 1 / 64 * T := mul_le_mul_of_nonneg_right hu1 T0
  have uT0 : 0 ≤ u * T := mul_nonneg hu T0
  have c1 : |cp| ≤ 21 / 20 * T := by
    have := abs_add_le (cp - e) e
    rw [sub_add_cancel] at this
    linarith
  have c2 : |(|cp|) - (|e|)| ≤ 25 / 8 * (u * T) := (abs_abs_sub_abs_le cp e).trans (by linarith)
  have c3 : |(|cp|) / g - |e| / g| ≤ 25 / 8 * (u * T) / g := by
    rw [← sub_div, abs_div, abs_of_pos hg0]; exact div_le_div_of_nonneg_right c2 hg0.le
  have c4 : 9 / 2 * u * (|cp| / g) ≤ 189 / 40 * (u * T) / g := by
    rw [← mul_div_assoc]
    apply div_le_div_of_nonneg_right _ hg0.le
    have := mul_le_mul_of_nonneg_left c1 hu
    linarith
  have c5 := abs_add_le (d0 - |cp| / g) (|cp| / g - |e| / g)
  rw [sub_add_sub_cancel] at c5
  have c6 : 25 / 8 * (u * T) / g + 189 / 40 * (u * T) / g ≤ 8 * u * (T / g) := by
    rw [← add_div, ← mul_div_assoc]
    apply div_le_div_of_nonneg_right _ hg0.le
    linarith
  linarith

theorem tangent_miss {p : ℕ} (hp : 6 ≤ p) : ∃ pts, Fl.lineCircle (binary p) ![1, 0, 1 / 2] ((2 : ℝ) ^ p, 0) (2 ^ p) = some (some pts) := by
  have h := binary_ok hp
  have r1 : (binary p).rnd 1 = 1 := by
    have : IntUpTo 1 (1 : ℝ) := ⟨1, by norm_num, by norm_num⟩
    exact this.rnd (by omega) (one_le_pow₀ (by norm_num))
  have r2 : (binary p).rnd (2 ^ p) = 2 ^ p := by
    have : IntUpTo (2 ^ p) ((2 : ℝ) ^ p) := ⟨2 ^ p, by rw [abs_of_nonneg (by positivity)], by push_cast; rfl⟩
    exact this.rnd (by omega) le_rfl
  have r3 : (binary p).rnd (2 ^ p + 1 / 2) = 2 ^ p := by
    have e : (2 : ℝ) ^ p = 2 ^ (p - 1) * 2 := by rw [pow_pred (by omega)]; ring
    have h4 := four_le (p := p) (by omega)
    have := rnd_at (p := p) (by omega) (x := 2 ^ p + 1 / 2) (K := 2) (k := 1) (m := 2 ^ (p - 1)) rfl (by norm_num) (by rw [e]; linarith) (by rw [e]; linarith) (by
      push_cast; rw [e, add_sub_cancel_left]; norm_num)
    rw [this, e]; push_cast; rfl
  obtain ⟨d0, h0, hd, -, h2⟩ := lineCircle_eq h (l := ![1, 0, 1 / 2]) (by simp) ((2 : ℝ) ^ p, 0) (2 ^ p)
  have cp : lineAt (binary p) ![1, 0, 1 / 2] ((2 : ℝ) ^ p, 0) = 2 ^ p := by
    unfold lineAt
    simp [rnd_zero h, r2]
    have := r3
    rwa [one_div] at this
  have A : norm2 (binary p) 1 0 = 1 := by unfold norm2; simp [rnd_zero h, r1]
  unfold Fl.lineCircle
  simp only [cp, Matrix.cons_val_zero, Matrix.cons_val_one, A]
  have s1 : sqrtF (binary p) 1 = some 1 := by unfold sqrtF; rw [if_neg (by norm_num), Real.sqrt_one, r1]
  have s2 : divF (binary p) (|(2 : ℝ) ^ p|) 1 = some (2 ^ p) := by unfold divF; rw [if_neg (by norm_num), div_one, abs_of_pos (by positivity), r2]
  have s3 : ∀ x, divF (binary p) x 1 = some ((binary p).rnd (x / 1)) := fun x => if_neg (by norm_num)
  rw [s1]
  simp only [Option.bind_eq_bind, Option.bind_some, s2, lt_irrefl, if_false, s3, sub_self, rnd_zero h, zero_div]
  rw [show sqrtF (binary p) 0 = some 0 by unfold sqrtF; rw [if_neg (by norm_num), Real.sqrt_zero, rnd_zero h]]
  exact ⟨_, rfl⟩

end H2d.Fl
