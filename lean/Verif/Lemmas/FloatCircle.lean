import Verif.Lemmas.FloatAngle

/-! # Circle/circle intersection with rounded operations -/

namespace H2d.Fl

open H2d.Spec

variable {F : Arith} {u v : ℝ}

/-- Squared distance of the centres, as computed. -/
def ccD2 (F : Arith) (p q : Pt ℝ) : ℝ := F.rnd (F.rnd (F.rnd (p.1 - q.1) * F.rnd (p.1 - q.1)) + F.rnd (F.rnd (p.2 - q.2) * F.rnd (p.2 - q.2)))

/-- Upper bound of the first test. -/
def ccHi (F : Arith) (r1 r2 : ℝ) : ℝ := F.rnd (F.rnd (F.rnd (r1 * r1) + F.rnd (r2 * r2)) + F.rnd (F.rnd (2 * r1) * r2))

/-- Lower bound of the second test. -/
def ccLo (F : Arith) (r1 r2 : ℝ) : ℝ := F.rnd (F.rnd (F.rnd (r1 * r1) + F.rnd (r2 * r2)) - F.rnd (F.rnd (2 * r1) * r2))

noncomputable def ccNum (F : Arith) (r1 r2 d2 : ℝ) : ℝ := F.rnd (F.rnd (F.rnd (F.rnd (r1 * r1) - F.rnd (r2 * r2)) + d2) / 2)

def ccH2 (F : Arith) (r1 a : ℝ) : ℝ := F.rnd (F.rnd (r1 * r1) - F.rnd (a * a))

noncomputable def ccPoints (F : Arith) (p q : Pt ℝ) (d a h : ℝ) : Pt ℝ × Pt ℝ :=
  let px := F.rnd (F.rnd (F.rnd (F.rnd (q.1 - p.1) * a) / d) + p.1)
  let py := F.rnd (F.rnd (F.rnd (F.rnd (q.2 - p.2) * a) / d) + p.2)
  let ox := F.rnd (F.rnd (F.rnd (p.2 - q.2) * h) / d)
  let oy := F.rnd (F.rnd (F.rnd (p.1 - q.1) * h) / d)
  ((F.rnd (px + ox), F.rnd (py - oy)), (F.rnd (px - ox), F.rnd (py + oy)))

open Classical in
noncomputable def ccOut (F : Arith) (t : Thr ℝ) (pts : Pt ℝ × Pt ℝ) : List (Pt ℝ) := if PtSame F t pts.1 pts.2 then [pts.1] else [pts.1, pts.2]

theorem ccD2_err (h : FlOk F u v) (p q : Pt ℝ) : |ccD2 F p q - eucl p q ^ 2| ≤ 33 / 8 * u * eucl p q ^ 2 := by
  have h1 := dot2_err h (p.1 - q.1) (p.1 - q.1) (p.2 - q.2) (p.2 - q.2)
  have e : eucl p q ^ 2 = (p.1 - q.1) * (p.1 - q.1) + (p.2 - q.2) * (p.2 - q.2) := by
    unfold eucl; rw [Real.sq_sqrt (by positivity)]; ring
  rw [abs_of_nonneg (mul_self_nonneg (p.1 - q.1)), abs_of_nonneg (mul_self_nonneg (p.2 - q.2)), ← e] at h1
  exact h1.trans (mul_le_mul_of_nonneg_right (pow4_le h) (sq_nonneg _))

theorem ccD_err (h : FlOk F u v) {p q : Pt ℝ} (hD : 0 < eucl p q) :
    0 < ccD2 F p q ∧ 0 < F.rnd (Real.sqrt (ccD2 F p q)) ∧ |F.rnd (Real.sqrt (ccD2 F p q)) - eucl p q| ≤ 11 / 2 * u * eucl p q := by
  have hu := h.u_nonneg
  have hu1 := h.u_small
  have h1 := ccD2_err h p q
  have hp : 0 < ccD2 F p q := by nlinarith [(abs_le.1 h1).1, sq_pos_of_pos hD]
  have h2 := sqrt_of_near hD.le hp.le h1
  have h3 := rnd_near h h2 (abs_of_pos hD).le
  have h4 : |F.rnd (Real.sqrt (ccD2 F p q)) - eucl p q| ≤ 11 / 2 * u * eucl p q := by
    refine h3.trans (mul_le_mul_of_nonneg_right ?_ hD.le)
    nlinarith [mul_nonneg hu (sub_nonneg.2 hu1)]
  refine ⟨hp, ?_, h4⟩
  nlinarith [(abs_le.1 h4).1]

theorem ccSum_err (h : FlOk F u v) (r1 r2 : ℝ) : |F.rnd (F.rnd (r1 * r1) + F.rnd (r2 * r2)) - (r1 ^ 2 + r2 ^ 2)| ≤ 33 / 16 * u * (r1 ^ 2 + r2 ^ 2) := norm2_err h r1 r2

theorem cc12_err (h : FlOk F u v) {r1 r2 : ℝ} (h1 : 0 ≤ r1) (h2 : 0 ≤ r2) : |F.rnd (F.rnd (2 * r1) * r2) - 2 * r1 * r2| ≤ 33 / 16 * u * (2 * r1 * r2) := by
  have hu := h.u_nonneg
  have hu1 := h.u_small
  have e := h.err (2 * r1)
  rw [abs_of_nonneg (show 0 ≤ 2 * r1 by positivity)] at e
  have e1 : |F.rnd (2 * r1) * r2 - 2 * r1 * r2| ≤ u * (2 * r1 * r2) := by
    rw [← sub_mul, abs_mul, abs_of_nonneg h2, ← mul_assoc]
    exact mul_le_mul_of_nonneg_right e h2
  have e2 := rnd_near h e1 (abs_of_nonneg (by positivity)).le
  refine e2.trans (mul_le_mul_of_nonneg_right ?_ (by positivity))
  nlinarith [mul_nonneg hu (sub_nonneg.2 hu1)]

theorem ccHi_err (h : FlOk F u v) {r1 r2 : ℝ} (h1 : 0 ≤ r1) (h2 : 0 ≤ r2) :
    |ccHi F r1 r2 - (r1 + r2) ^ 2| ≤ 25 / 8 * u * (r1 + r2) ^ 2 ∧ |ccLo F r1 r2 - (r1 - r2) ^ 2| ≤ 25 / 8 * u * (r1 + r2) ^ 2 := by
  have hu := h.u_nonneg
  have hu1 := h.u_small
  have a1 := ccSum_err h r1 r2
  have a2 := cc12_err h h1 h2
  have p12 := mul_nonneg h1 h2
  unfold ccHi ccLo
  generalize F.rnd (F.rnd (r1 * r1) + F.rnd (r2 * r2)) = s at *
  generalize F.rnd (F.rnd (2 * r1) * r2) = m at *
  have k : (1 + 33 / 16 * u) * (1 + u) - 1 ≤ 25 / 8 * u := by nlinarith [mul_nonneg hu (sub_nonneg.2 hu1)]
  constructor
  · have b : |s + m - (r1 + r2) ^ 2| ≤ 33 / 16 * u * (r1 + r2) ^ 2 := by
      rw [show s + m - (r1 + r2) ^ 2 = (s - (r1 ^ 2 + r2 ^ 2)) + (m - 2 * r1 * r2) by ring]
      refine (abs_add_le _ _).trans ?_
      linarith
    exact (rnd_near h b (abs_of_nonneg (sq_nonneg _)).le).trans (mul_le_mul_of_nonneg_right k (sq_nonneg _))
  · have b : |s - m - (r1 - r2) ^ 2| ≤ 33 / 16 * u * (r1 + r2) ^ 2 := by
      rw [show s - m - (r1 - r2) ^ 2 = (s - (r1 ^ 2 + r2 ^ 2)) - (m - 2 * r1 * r2) by ring]
      refine (abs_sub _ _).trans ?_
      linarith
    have hle : |(r1 - r2) ^ 2| ≤ (r1 + r2) ^ 2 := by rw [abs_of_nonneg (sq_nonneg _)]; linarith
    exact (rnd_near h b hle).trans (mul_le_mul_of_nonneg_right k (sq_nonneg _))

theorem ccNum_err (h : FlOk F u v) {r1 r2 d2 D : ℝ} (hd : |d2 - D ^ 2| ≤ 33 / 8 * u * D ^ 2) :
    |ccNum F r1 r2 d2 - (r1 ^ 2 - r2 ^ 2 + D ^ 2) / 2| ≤ 11 / 2 * u * ((r1 ^ 2 + r2 ^ 2 + D ^ 2) / 2) := by
  have hu := h.u_nonneg
  have hu1 := h.u_small
  have a1 := h.err (r1 * r1)
  have a2 := h.err (r2 * r2)
  rw [abs_of_nonneg (mul_self_nonneg r1)] at a1
  rw [abs_of_nonneg (mul_self_nonneg r2)] at a2
  have b1 : |F.rnd (r1 * r1) - F.rnd (r2 * r2) - (r1 ^ 2 - r2 ^ 2)| ≤ u * (r1 ^ 2 + r2 ^ 2) := by
    rw [show F.rnd (r1 * r1) - F.rnd (r2 * r2) - (r1 ^ 2 - r2 ^ 2) = (F.rnd (r1 * r1) - r1 * r1) - (F.rnd (r2 * r2) - r2 * r2) by ring]
    refine (abs_sub _ _).trans ?_
    linarith
  have q1 := sq_nonneg r1
  have q2 := sq_nonneg r2
  have q3 := sq_nonneg D
  have l1 : |r1 ^ 2 - r2 ^ 2| ≤ r1 ^ 2 + r2 ^ 2 := abs_le.2 ⟨by linarith, by linarith⟩
  have b2 := rnd_near h b1 l1
  unfold ccNum
  have e : F.rnd (F.rnd (F.rnd (F.rnd (r1 * r1) - F.rnd (r2 * r2)) + d2) / 2) = F.rnd (F.rnd (F.rnd (r1 * r1) - F.rnd (r2 * r2)) + d2) / 2 := by rw [h.half, h.idem]
  rw [e]
  generalize F.rnd (F.rnd (r1 * r1) - F.rnd (r2 * r2)) = n at *
  have uu := mul_nonneg hu (sub_nonneg.2 hu1)
  have b3 : |n + d2 - (r1 ^ 2 - r2 ^ 2 + D ^ 2)| ≤ 33 / 8 * u * (r1 ^ 2 + r2 ^ 2 + D ^ 2) := by
    rw [add_sub_add_comm]
    refine (abs_add_le _ _).trans ?_
    have : ((1 + u) * (1 + u) - 1) * (r1 ^ 2 + r2 ^ 2) ≤ 33 / 8 * u * (r1 ^ 2 + r2 ^ 2) := mul_le_mul_of_nonneg_right (by nlinarith) (by linarith)
    linarith
  have l2 : |r1 ^ 2 - r2 ^ 2 + D ^ 2| ≤ r1 ^ 2 + r2 ^ 2 + D ^ 2 := abs_le.2 ⟨by linarith, by linarith⟩
  have b4 := rnd_near h b3 l2
  rw [← sub_div, abs_div, abs_of_pos (show (0 : ℝ) < 2 by norm_num), ← mul_div_assoc]
  apply div_le_div_of_nonneg_right _ (by norm_num)
  refine b4.trans (mul_le_mul_of_nonneg_right ?_ (by linarith))
  nlinarith

/-- The abscissa on the line of the centres. -/
theorem ccA_err (h : FlOk F u v) {r1 r2 d2 D d : ℝ} (hD : 0 < D) (hd2 : |d2 - D ^ 2| ≤ 33 / 8 * u * D ^ 2) (hd : |d - D| ≤ 11 / 2 * u * D) :
    |F.rnd (ccNum F r1 r2 d2 / d) - (r1 ^ 2 - r2 ^ 2 + D ^ 2) / 2 / D| ≤ 27 / 2 * u * ((r1 ^ 2 + r2 ^ 2 + D ^ 2) / 2 / D) := by
  have a1 := ccNum_err h (r1 := r1) (r2 := r2) hd2
  have l2 : |(r1 ^ 2 - r2 ^ 2 + D ^ 2) / 2| ≤ (r1 ^ 2 + r2 ^ 2 + D ^ 2) / 2 := abs_le.2 ⟨by nlinarith, by nlinarith⟩
  exact (quot_rnd h a1 l2 hd hD (by norm_num) (by norm_num) (by norm_num) (by norm_num)).2

open Classical in
theorem circInter_eq (h : FlOk F u v) (t : Thr ℝ) {c1 c2 : Circle} (hs : ¬ (c1.radius = c2.radius ∧ PtSame F t c1.center c2.center)) (hD : 0 < eucl c1.center c2.center) :
    Fl.circInter F t c1 c2 = if ccHi F c1.radius c2.radius < ccD2 F c1.center c2.center then some []
      else if ccD2 F c1.center c2.center < ccLo F c1.radius c2.radius then some []
      else if ccH2 F c1.radius (F.rnd (ccNum F c1.radius c2.radius (ccD2 F c1.center c2.center) / F.rnd (Real.sqrt (ccD2 F c1.center c2.center)))) < 0 then none
      else some (ccOut F t (ccPoints F c1.center c2.center (F.rnd (Real.sqrt (ccD2 F c1.center c2.center)))
          (F.rnd (ccNum F c1.radius c2.radius (ccD2 F c1.center c2.center) / F.rnd (Real.sqrt (ccD2 F c1.center c2.center))))
          (F.rnd (Real.sqrt (ccH2 F c1.radius (F.rnd (ccNum F c1.radius c2.radius (ccD2 F c1.center c2.center) / F.rnd (Real.sqrt (ccD2 F c1.center c2.center))))))))) := by
  obtain ⟨hp, hd, -⟩ := ccD_err h hD
  unfold Fl.circInter
  rw [if_neg hs]
  simp only [gt_iff_lt]
  change (if ccHi F c1.radius c2.radius < ccD2 F c1.center c2.center then _ else if ccD2 F c1.center c2.center < ccLo F c1.radius c2.radius then _ else _) = _
  split_ifs with i1 i2 i3
  · rfl
  · rfl
  all_goals
    have e1 : sqrtF F (ccD2 F c1.center c2.center) = some (F.rnd (Real.sqrt (ccD2 F c1.center c2.center))) := if_neg (not_lt.2 hp.le)
    have e2 : ∀ x, divF F x (F.rnd (Real.sqrt (ccD2 F c1.center c2.center))) = some (F.rnd (x / F.rnd (Real.sqrt (ccD2 F c1.center c2.center)))) := fun x => if_neg hd.ne'
    unfold ccD2 at e1 e2
    rw [e1]
    simp only [Option.bind_eq_bind, Option.bind_some]
    simp only [e2, Option.bind_some]
  · have e3 : sqrtF F (ccH2 F c1.radius (F.rnd (ccNum F c1.radius c2.radius (ccD2 F c1.center c2.center) / F.rnd (Real.sqrt (ccD2 F c1.center c2.center))))) = none := if_pos i3
    unfold ccH2 ccNum ccD2 at e3
    rw [e3]; rfl
  · have e3 : sqrtF F (ccH2 F c1.radius (F.rnd (ccNum F c1.radius c2.radius (ccD2 F c1.center c2.center) / F.rnd (Real.sqrt (ccD2 F c1.center c2.center))))) = some _ := if_neg i3
    have e4 := e3
    unfold ccH2 ccNum ccD2 at e4
    rw [e4]; rfl

/-- The ordinate: sum of the squares. -/
theorem ccH_err (h : FlOk F u v) {r1 a : ℝ} (h0 : 0 ≤ ccH2 F r1 a) :
    a ^ 2 ≤ 21 / 20 * r1 ^ 2 ∧ |a ^ 2 + F.rnd (Real.sqrt (ccH2 F r1 a)) ^ 2 - r1 ^ 2| ≤ 11 / 2 * u * r1 ^ 2 := by
  have hu := h.u_nonneg
  have hu1 := h.u_small
  have a1 := h.err (r1 * r1)
  have a2 := h.err (a * a)
  rw [abs_of_nonneg (mul_self_nonneg r1)] at a1
  rw [abs_of_nonneg (mul_self_nonneg a)] at a2
  have q1 := sq_nonneg r1
  have q2 := sq_nonneg a
  have a3 := h.err (F.rnd (r1 * r1) - F.rnd (a * a))
  have hx : F.rnd (a * a) ≤ F.rnd (r1 * r1) := by
    by_contra hh
    have : F.rnd (r1 * r1) - F.rnd (a * a) < 0 := by linarith [not_le.1 hh]
    unfold ccH2 at h0
    rw [abs_of_neg this] at a3
    nlinarith [(abs_le.1 a3).2]
  unfold ccH2 at *
  rw [abs_of_nonneg (sub_nonneg.2 hx)] at a3
  have b1 := abs_le.1 a1
  have b2 := abs_le.1 a2
  generalize F.rnd (r1 * r1) = R at *
  generalize F.rnd (a * a) = A at *
  have hs : Real.sqrt (F.rnd (R - A)) ^ 2 = F.rnd (R - A) := Real.sq_sqrt h0
  generalize F.rnd (R - A) = z at *
  have c1 := abs_le.1 a3
  have ur : u * r1 ^ 2 ≤ 1 / 64 * r1 ^ 2 := mul_le_mul_of_nonneg_right hu1 q1
  have ua : u * a ^ 2 ≤ 1 / 64 * a ^ 2 := mul_le_mul_of_nonneg_right hu1 q2
  have ur0 : 0 ≤ u * r1 ^ 2 := mul_nonneg hu q1
  have k1 : a ^ 2 ≤ 21 / 20 * r1 ^ 2 := by linarith
  have k1u := mul_le_mul_of_nonneg_left k1 hu
  refine ⟨k1, ?_⟩
  have k2 : R - A ≤ 66 / 64 * r1 ^ 2 := by
    have : 0 ≤ A := by nlinarith [b2.1]
    linarith
  have k3 := mul_le_mul_of_nonneg_left k2 hu
  have k4 : |z - (r1 ^ 2 - a ^ 2)| ≤ 13 / 4 * (u * r1 ^ 2) := by
    rw [abs_le]; constructor <;> linarith
  have k5 : z ≤ 21 / 20 * r1 ^ 2 := by nlinarith [c1.2]
  have s0 := Real.sqrt_nonneg z
  have s1 := h.err (Real.sqrt z)
  rw [abs_of_nonneg s0] at s1
  have s2 := abs_le.1 s1
  generalize Real.sqrt z = s at *
  generalize F.rnd s = g at *
  have k6 : |g ^ 2 - z| ≤ 33 / 16 * (u * z) := by
    rw [← hs, show g ^ 2 - s ^ 2 = (g - s) * (g + s) by ring, abs_mul]
    have m1 : |g + s| ≤ (2 + u) * s := by rw [abs_le]; constructor <;> nlinarith
    have := mul_le_mul s1 m1 (abs_nonneg _) (by positivity)
    nlinarith [mul_nonneg (mul_nonneg hu (sub_nonneg.2 hu1)) (sq_nonneg s)]
  have k7 := mul_le_mul_of_nonneg_left k5 hu
  rw [abs_le] at *
  constructor <;> linarith [k6.1, k6.2, k4.1, k4.2]

/-- A coordinate of a vector of the direction of the centres. -/
theorem ccQ_err (h : FlOk F u v) {X a D d : ℝ} (hD : 0 < D) (hd : |d - D| ≤ 11 / 2 * u * D) : |F.rnd (F.rnd (F.rnd X * a) / d) - X * a / D| ≤ 19 / 2 * u * (|X * a| / D) := by
  have hu := h.u_nonneg
  have hu1 := h.u_small
  have e1 : |F.rnd X * a - X * a| ≤ u * |X * a| := by
    rw [← sub_mul, abs_mul, abs_mul, ← mul_assoc]
    exact mul_le_mul_of_nonneg_right (h.err X) (abs_nonneg _)
  have e2 := rnd_near h e1 le_rfl
  have e3 : |F.rnd (F.rnd X * a) - X * a| ≤ 33 / 16 * u * |X * a| := e2.trans (mul_le_mul_of_nonneg_right (by nlinarith [mul_nonneg hu (sub_nonneg.2 hu1)]) (abs_nonneg _))
  exact (quot_rnd h e3 le_rfl hd hD (by norm_num) (by norm_num) (by norm_num) (by norm_num)).2

theorem ccCoord (h : FlOk F u v) {q A o B x M : ℝ} (hq : |q - A| ≤ 10 * u * M) (hA : |A| ≤ 21 / 20 * M) (ho : |o - B| ≤ 10 * u * M) (hB : |B| ≤ 21 / 20 * M) (hx : |x| ≤ M) :
    |F.rnd (F.rnd (q + x) + o) - (x + A + B)| ≤ 28 * u * M := by
  have hu := h.u_nonneg
  have hu1 := h.u_small
  have hM : 0 ≤ M := (abs_nonneg _).trans hx
  have uM0 := mul_nonneg hu hM
  have uM : u * M ≤ 1 / 64 * M := mul_le_mul_of_nonneg_right hu1 hM
  have uuM : u * (u * M) ≤ 1 / 64 * (u * M) := mul_le_mul_of_nonneg_right hu1 uM0
  have e1 := abs_le.1 (h.err (q + x))
  have e2 := abs_le.1 (h.err (F.rnd (q + x) + o))
  generalize F.rnd (q + x) = y at *
  have hq := abs_le.1 hq
  have hA := abs_le.1 hA
  have ho := abs_le.1 ho
  have hB := abs_le.1 hB
  have hx := abs_le.1 hx
  have b1 : |q + x| ≤ 23 / 10 * M := by rw [abs_le]; constructor <;> linarith [hq.1, hq.2, hA.1, hA.2, hx.1, hx.2]
  have b2 := mul_le_mul_of_nonneg_left b1 hu
  have b3 : |y + o| ≤ 73 / 20 * M := by
    have := abs_le.1 b1
    rw [abs_le]; constructor <;> linarith [e1.1, e1.2, this.1, this.2, ho.1, ho.2, hB.1, hB.2]
  have b4 := mul_le_mul_of_nonneg_left b3 hu
  rw [abs_le]; constructor <;> linarith [e1.1, e1.2, e2.1, e2.2, hq.1, hq.2, ho.1, ho.2]

/-- Exact point for the computed abscissa and ordinate. -/
theorem ccExact {p q : Pt ℝ} {a g : ℝ} (hD : 0 < eucl p q) :
    eucl (p.1 + (q.1 - p.1) * a / eucl p q + (p.2 - q.2) * g / eucl p q, p.2 + (q.2 - p.2) * a / eucl p q - (p.1 - q.1) * g / eucl p q) p ^ 2 = a ^ 2 + g ^ 2 ∧
    eucl (p.1 + (q.1 - p.1) * a / eucl p q + (p.2 - q.2) * g / eucl p q, p.2 + (q.2 - p.2) * a / eucl p q - (p.1 - q.1) * g / eucl p q) q ^ 2 = (a - eucl p q) ^ 2 + g ^ 2 := by
  have e : eucl p q ^ 2 = (p.1 - q.1) ^ 2 + (p.2 - q.2) ^ 2 := Real.sq_sqrt (by positivity)
  have sq : ∀ r s : Pt ℝ, eucl r s ^ 2 = (r.1 - s.1) ^ 2 + (r.2 - s.2) ^ 2 := fun r s => Real.sq_sqrt (by positivity)
  rw [sq _ p, sq _ q]
  generalize eucl p q = D at *
  have hD' := hD.ne'
  constructor
  · have : (p.1 + (q.1 - p.1) * a / D + (p.2 - q.2) * g / D - p.1) ^ 2 + (p.2 + (q.2 - p.2) * a / D - (p.1 - q.1) * g / D - p.2) ^ 2 = ((p.1 - q.1) ^ 2 + (p.2 - q.2) ^ 2) * (a ^ 2 + g ^ 2) / D ^ 2 := by
      field_simp; ring
    rw [this, ← e]; field_simp
  · have : (p.1 + (q.1 - p.1) * a / D + (p.2 - q.2) * g / D - q.1) ^ 2 + (p.2 + (q.2 - p.2) * a / D - (p.1 - q.1) * g / D - q.2) ^ 2 = ((p.1 - q.1) ^ 2 + (p.2 - q.2) ^ 2) * ((a - D) ^ 2 + g ^ 2) / D ^ 2 := by
      field_simp; ring
    rw [this, ← e]; field_simp

theorem ccNear (h : FlOk F u v) {p q : Pt ℝ} {a g d M : ℝ} (hD : 0 < eucl p q) (hd : |d - eucl p q| ≤ 11 / 2 * u * eucl p q) (hx : |p.1| ≤ M) (hy : |p.2| ≤ M)
    (ha : |a| ≤ 21 / 20 * M) (hg : |g| ≤ 21 / 20 * M) :
    eucl (ccPoints F p q d a g).1 (p.1 + (q.1 - p.1) * a / eucl p q + (p.2 - q.2) * g / eucl p q, p.2 + (q.2 - p.2) * a / eucl p q - (p.1 - q.1) * g / eucl p q) ≤ 56 * u * M ∧
    eucl (ccPoints F p q d a g).2 (p.1 + (q.1 - p.1) * a / eucl p q + (p.2 - q.2) * (-g) / eucl p q, p.2 + (q.2 - p.2) * a / eucl p q - (p.1 - q.1) * (-g) / eucl p q) ≤ 56 * u * M := by
  have hu := h.u_nonneg
  have bnd : ∀ X b : ℝ, |X| ≤ eucl p q → |b| ≤ 21 / 20 * M → |X * b / eucl p q| ≤ 21 / 20 * M ∧ |F.rnd (F.rnd (F.rnd X * b) / d) - X * b / eucl p q| ≤ 10 * u * M := by
    intro X b hX hb
    have e : |X * b| / eucl p q ≤ 21 / 20 * M := by
      rw [abs_mul, div_le_iff₀ hD]
      calc |X| * |b| ≤ eucl p q * (21 / 20 * M) := mul_le_mul hX hb (abs_nonneg _) hD.le
        _ = _ := by ring
    refine ⟨by rw [abs_div, abs_of_pos hD]; exact e, (ccQ_err h hD hd).trans ?_⟩
    have := mul_le_mul_of_nonneg_left e hu
    have hM : 0 ≤ u * M := mul_nonneg hu ((abs_nonneg _).trans hx)
    linarith
  have X1 : |p.1 - q.1| ≤ eucl p q := Real.abs_le_sqrt (by nlinarith [sq_nonneg (p.2 - q.2)])
  have Y1 : |p.2 - q.2| ≤ eucl p q := Real.abs_le_sqrt (by nlinarith [sq_nonneg (p.1 - q.1)])
  have X2 : |q.1 - p.1| ≤ eucl p q := by rwa [abs_sub_comm]
  have Y2 : |q.2 - p.2| ≤ eucl p q := by rwa [abs_sub_comm]
  obtain ⟨a1, a2⟩ := bnd _ _ X2 ha
  obtain ⟨b1, b2⟩ := bnd _ _ Y2 ha
  obtain ⟨c1, c2⟩ := bnd _ _ Y1 hg
  obtain ⟨d1, d2⟩ := bnd _ _ X1 hg
  have n : ∀ {o B : ℝ}, |o - B| ≤ 10 * u * M → |-o - -B| ≤ 10 * u * M := by
    intro o B k
    rw [neg_sub_neg, abs_sub_comm]; exact k
  have n' : ∀ {B : ℝ}, |B| ≤ 21 / 20 * M → |-B| ≤ 21 / 20 * M := by
    intro B k; rwa [abs_neg]
  constructor
  · refine (eucl_le_abs _ _).trans ?_
    have k1 := ccCoord h a2 a1 c2 c1 hx
    have k2 := ccCoord h b2 b1 (n d2) (n' d1) hy
    rw [← sub_eq_add_neg, ← sub_eq_add_neg] at k2
    simp only [ccPoints]
    linarith
  · refine (eucl_le_abs _ _).trans ?_
    have k1 := ccCoord h a2 a1 (n c2) (n' c1) hx
    have k2 := ccCoord h b2 b1 d2 d1 hy
    rw [← sub_eq_add_neg, ← sub_eq_add_neg] at k1
    simp only [ccPoints, mul_neg, neg_div, sub_neg_eq_add, ← sub_eq_add_neg]
    linarith

theorem ccFirst {u M r1 a g e1 e2 : ℝ} (hu : 0 ≤ u) (hr : 0 ≤ r1) (hrM : r1 ≤ M) (hs : |a ^ 2 + g ^ 2 - r1 ^ 2| ≤ 11 / 2 * u * r1 ^ 2) (he2 : 0 ≤ e2) (e : e2 ^ 2 = a ^ 2 + g ^ 2) (hP : |e1 - e2| ≤ 56 * u * M) :
    |e1 - r1| ≤ 62 * u * M := by
  rw [← e] at hs
  have h1 := sqrt_of_near hr (sq_nonneg e2) hs
  rw [Real.sqrt_sq he2] at h1
  have h2 := mul_le_mul_of_nonneg_left hrM hu
  have h3 := abs_add_le (e1 - e2) (e2 - r1)
  rw [sub_add_sub_cancel] at h3
  have := mul_nonneg hu (hr.trans hrM)
  linarith

theorem ccSecond {u M r1 r2 a g D e1 e2 : ℝ} (hu : 0 ≤ u) (hu1 : u ≤ 1 / 64) (hr1 : 0 ≤ r1) (hrM1 : r1 ≤ M) (hr2 : 0 ≤ r2) (hrM2 : r2 ≤ M) (hD : 0 < D) (hDM : D ^ 2 ≤ 8 * M ^ 2)
    (hs : |a ^ 2 + g ^ 2 - r1 ^ 2| ≤ 11 / 2 * u * r1 ^ 2) (ha : |a - (r1 ^ 2 - r2 ^ 2 + D ^ 2) / 2 / D| ≤ 27 / 2 * u * ((r1 ^ 2 + r2 ^ 2 + D ^ 2) / 2 / D))
    (he1 : 0 ≤ e1) (he2 : 0 ≤ e2) (e : e2 ^ 2 = (a - D) ^ 2 + g ^ 2) (hP : |e1 - e2| ≤ 56 * u * M) : |e1 ^ 2 - r2 ^ 2| ≤ 400 * u * M ^ 2 := by
  have hM : 0 ≤ M := hr1.trans hrM1
  have q1 : r1 ^ 2 ≤ M ^ 2 := pow_le_pow_left₀ hr1 hrM1 2
  have q2 : r2 ^ 2 ≤ M ^ 2 := pow_le_pow_left₀ hr2 hrM2 2
  have M2 := sq_nonneg M
  have uM0 : 0 ≤ u * M ^ 2 := mul_nonneg hu M2
  have uM1 : u * M ^ 2 ≤ 1 / 64 * M ^ 2 := mul_le_mul_of_nonneg_right hu1 M2
  have a1 : |2 * a * D - (r1 ^ 2 - r2 ^ 2 + D ^ 2)| ≤ 27 / 2 * u * (r1 ^ 2 + r2 ^ 2 + D ^ 2) := by
    have k := mul_le_mul_of_nonneg_right ha (show 0 ≤ 2 * D by positivity)
    have e1 : 27 / 2 * u * ((r1 ^ 2 + r2 ^ 2 + D ^ 2) / 2 / D) * (2 * D) = 27 / 2 * u * (r1 ^ 2 + r2 ^ 2 + D ^ 2) := by field_simp
    have e2 : |a - (r1 ^ 2 - r2 ^ 2 + D ^ 2) / 2 / D| * (2 * D) = |2 * a * D - (r1 ^ 2 - r2 ^ 2 + D ^ 2)| := by
      have h2D : 0 < 2 * D := by positivity
      rw [← abs_of_pos h2D, ← abs_mul]
      congr 1
      field_simp
    rwa [e1, e2] at k
  have a2 : 27 / 2 * u * (r1 ^ 2 + r2 ^ 2 + D ^ 2) ≤ 135 * (u * M ^ 2) := by
    have := mul_le_mul_of_nonneg_left (show r1 ^ 2 + r2 ^ 2 + D ^ 2 ≤ 10 * M ^ 2 by linarith) hu
    linarith
  have a3 := mul_le_mul_of_nonneg_left q1 hu
  have b1 : |e2 ^ 2 - r2 ^ 2| ≤ 141 * (u * M ^ 2) := by
    rw [e, show (a - D) ^ 2 + g ^ 2 - r2 ^ 2 = (a ^ 2 + g ^ 2 - r1 ^ 2) - (2 * a * D - (r1 ^ 2 - r2 ^ 2 + D ^ 2)) by ring]
    refine (abs_sub _ _).trans ?_
    linarith
  have b2 : e2 ≤ 9 / 5 * M := by
    apply abs_le_of_sq_le_sq' _ (by positivity) |>.2
    nlinarith [(abs_le.1 b1).2]
  have uM : u * M ≤ 1 / 64 * M := mul_le_mul_of_nonneg_right hu1 hM
  have b3 : |e1 + e2| ≤ 9 / 2 * M := by
    have := abs_le.1 hP
    rw [abs_of_nonneg (by linarith)]; linarith
  have b4 : |e1 ^ 2 - e2 ^ 2| ≤ 252 * (u * M ^ 2) := by
    rw [show e1 ^ 2 - e2 ^ 2 = (e1 - e2) * (e1 + e2) by ring, abs_mul]
    have := mul_le_mul hP b3 (abs_nonneg _) (by positivity)
    nlinarith
  have := abs_add_le (e1 ^ 2 - e2 ^ 2) (e2 ^ 2 - r2 ^ 2)
  rw [sub_add_sub_cancel] at this
  linarith

/-- All the points returned are near both circles. -/
theorem ccMain (h : FlOk F u v) {t : Thr ℝ} {c1 c2 : Circle} {M : ℝ} (hs : ¬ (c1.radius = c2.radius ∧ PtSame F t c1.center c2.center)) (hD : 0 < eucl c1.center c2.center)
    (h1 : 0 ≤ c1.radius) (h1M : c1.radius ≤ M) (h2 : 0 ≤ c2.radius) (h2M : c2.radius ≤ M) (hx1 : |c1.center.1| ≤ M) (hy1 : |c1.center.2| ≤ M) (hx2 : |c2.center.1| ≤ M) (hy2 : |c2.center.2| ≤ M)
    {pts : List (Pt ℝ)} (e : Fl.circInter F t c1 c2 = some pts) {P : Pt ℝ} (hP : P ∈ pts) :
    |eucl P c1.center - c1.radius| ≤ 62 * u * M ∧ |eucl P c2.center ^ 2 - c2.radius ^ 2| ≤ 400 * u * M ^ 2 := by
  have hu := h.u_nonneg
  have hu1 := h.u_small
  have hM : 0 ≤ M := h1.trans h1M
  rw [circInter_eq h t hs hD] at e
  obtain ⟨d2p, dp, hd⟩ := ccD_err h hD
  have hd2 := ccD2_err h c1.center c2.center
  have ha := ccA_err h (r1 := c1.radius) (r2 := c2.radius) hD hd2 hd
  split_ifs at e with i1 i2 i3
  · cases e; cases hP
  · cases e; cases hP
  have e := Option.some.inj e
  obtain ⟨k1, k2⟩ := ccH_err h (not_lt.1 i3)
  generalize F.rnd (Real.sqrt (ccD2 F c1.center c2.center)) = d at *
  generalize F.rnd (ccNum F c1.radius c2.radius (ccD2 F c1.center c2.center) / d) = a at *
  generalize F.rnd (Real.sqrt (ccH2 F c1.radius a)) = g at *
  have q1 : c1.radius ^ 2 ≤ M ^ 2 := pow_le_pow_left₀ h1 h1M 2
  have ba : |a| ≤ 21 / 20 * M := abs_le_of_sq_le_sq (by nlinarith [sq_nonneg M]) (by positivity)
  have bg : |g| ≤ 21 / 20 * M := by
    apply abs_le_of_sq_le_sq _ (by positivity)
    have := (abs_le.1 k2).2
    nlinarith [sq_nonneg M, sq_nonneg a, mul_le_mul_of_nonneg_right hu1 (sq_nonneg c1.radius)]
  obtain ⟨n1, n2⟩ := ccNear (q := c2.center) h hD hd hx1 hy1 ba bg
  have hDM : eucl c1.center c2.center ^ 2 ≤ 8 * M ^ 2 := by
    have : eucl c1.center c2.center ^ 2 = (c1.center.1 - c2.center.1) ^ 2 + (c1.center.2 - c2.center.2) ^ 2 := Real.sq_sqrt (by positivity)
    rw [this]
    have x := sq_le_sq.2 (show |c1.center.1 - c2.center.1| ≤ |2 * M| by rw [abs_of_nonneg (show 0 ≤ 2 * M by positivity)]; exact (abs_sub _ _).trans (by linarith))
    have y := sq_le_sq.2 (show |c1.center.2 - c2.center.2| ≤ |2 * M| by rw [abs_of_nonneg (show 0 ≤ 2 * M by positivity)]; exact (abs_sub _ _).trans (by linarith))
    linarith
  have key : ∀ g' : ℝ, g' ^ 2 = g ^ 2 → ∀ P : Pt ℝ, eucl P (c1.center.1 + (c2.center.1 - c1.center.1) * a / eucl c1.center c2.center + (c1.center.2 - c2.center.2) * g' / eucl c1.center c2.center,
      c1.center.2 + (c2.center.2 - c1.center.2) * a / eucl c1.center c2.center - (c1.center.1 - c2.center.1) * g' / eucl c1.center c2.center) ≤ 56 * u * M →
      |eucl P c1.center - c1.radius| ≤ 62 * u * M ∧ |eucl P c2.center ^ 2 - c2.radius ^ 2| ≤ 400 * u * M ^ 2 := by
    intro g' hg' P hP
    obtain ⟨x1, x2⟩ := ccExact (p := c1.center) (q := c2.center) (a := a) (g := g') hD
    generalize ((c1.center.1 + (c2.center.1 - c1.center.1) * a / eucl c1.center c2.center + (c1.center.2 - c2.center.2) * g' / eucl c1.center c2.center,
      c1.center.2 + (c2.center.2 - c1.center.2) * a / eucl c1.center c2.center - (c1.center.1 - c2.center.1) * g' / eucl c1.center c2.center) : Pt ℝ) = Q at *
    have tri : ∀ c : Pt ℝ, |eucl P c - eucl Q c| ≤ 56 * u * M := by
      intro c
      have t1 := eucl_triangle P Q c
      have t2 := eucl_triangle Q P c
      rw [eucl_comm Q P] at t2
      rw [abs_le]; constructor <;> linarith
    rw [hg'] at x1 x2
    exact ⟨ccFirst hu h1 h1M k2 (Real.sqrt_nonneg _) x1 (tri _), ccSecond hu hu1 h1 h1M h2 h2M hD hDM k2 ha (Real.sqrt_nonneg _) (Real.sqrt_nonneg _) x2 (tri _)⟩
  have hmem : P = (ccPoints F c1.center c2.center d a g).1 ∨ P = (ccPoints F c1.center c2.center d a g).2 := by
    rw [← e] at hP
    unfold ccOut at hP
    split_ifs at hP
    · left; simpa using hP
    · simpa using hP
  rcases hmem with rfl | rfl
  · exact key g rfl _ n1
  · exact key (-g) (neg_sq g) _ n2

theorem rnd_double (h : FlOk F u v) (x : ℝ) : F.rnd (2 * x) = 2 * F.rnd x := by
  have := h.half (2 * x)
  rw [mul_div_cancel_left₀ x two_ne_zero] at this
  linarith

theorem touch_num {p : ℕ} (hp : 6 ≤ p) : ∃ x s : ℝ, 8 ≤ x ∧ 0 < s ∧ (binary p).rnd x = x ∧ (binary p).rnd (x * x) = s ∧ (binary p).rnd s = s ∧ (binary p).rnd (Real.sqrt s) = x ∧
    ∃ a, (binary p).rnd (s / x) = a ∧ s < (binary p).rnd (a * a) := by
  obtain ⟨n, rfl⟩ : ∃ n, p = n + 4 := ⟨p - 4, by omega⟩
  have hF := binary_ok hp
  obtain ⟨q, hq⟩ : ∃ q : ℤ, q = 2 ^ n := ⟨_, rfl⟩
  have hqR : ((2 : ℝ) ^ n) = (q : ℝ) := by rw [hq]; push_cast; rfl
  have hq4 : (4 : ℝ) ≤ q := by
    rw [← hqR]
    have : (2 : ℝ) ^ 2 ≤ 2 ^ n := pow_le_pow_right₀ (by norm_num) (by omega)
    linarith
  have hN : (2 : ℝ) ^ (n + 4 - 1) = 8 * q := by rw [show n + 4 - 1 = n + 3 by omega, pow_add, hqR]; ring
  have hK : (2 : ℝ) ^ (((n + 4 : ℕ) : ℤ)) = 16 * q := by rw [zpow_natCast, pow_add, hqR]; ring
  have hK0 : (2 : ℝ) ^ (0 : ℤ) = 1 := zpow_zero _
  have A : ∀ (y : ℝ) (m : ℤ), 8 * q * (16 * q) ≤ y → y < 2 * (8 * q) * (16 * q) → |y - m * (16 * q)| < 16 * q / 2 → (binary (n + 4)).rnd y = m * (16 * q) :=
    fun y m h1 h2 h3 => rnd_at (by omega) hN hK h1 h2 h3
  have B : ∀ (y : ℝ) (m : ℤ), 8 * q ≤ y → y < 2 * (8 * q) → |y - m| < 1 / 2 → (binary (n + 4)).rnd y = m := by
    intro y m h1 h2 h3
    have := rnd_at (p := n + 4) (x := y) (m := m) (by omega) hN hK0 (by linarith) (by linarith) (by rw [mul_one]; exact h3)
    rwa [mul_one] at this
  have q2 : (16 : ℝ) ≤ q * q := by nlinarith
  have q4 : 4 * (q : ℝ) ≤ q * q := by nlinarith
  have hx0 : (0 : ℝ) < 12 * q + 1 := by linarith
  refine ⟨12 * q + 1, (9 * q + 2) * (16 * q), by linarith, by positivity, ?_, ?_, ?_, ?_, 12 * q + 2, ?_, ?_⟩
  · have := B (12 * q + 1) (12 * q + 1) (by linarith) (by linarith) (by push_cast; rw [sub_self, abs_zero]; norm_num)
    push_cast at this; exact this
  · have := A ((12 * q + 1) * (12 * q + 1)) (9 * q + 2) (by nlinarith) (by nlinarith) (by push_cast; rw [abs_lt]; constructor <;> nlinarith)
    push_cast at this; exact this
  · have := A ((9 * q + 2) * (16 * q)) (9 * q + 2) (by nlinarith) (by nlinarith) (by push_cast; rw [sub_self, abs_zero]; linarith)
    push_cast at this; exact this
  · have l1 : (12 * q + 1 : ℝ) ≤ Real.sqrt ((9 * q + 2) * (16 * q)) := Real.le_sqrt_of_sq_le (by nlinarith)
    have l2 : Real.sqrt ((9 * q + 2) * (16 * q)) < (12 * q + 1 + 1 / 2 : ℝ) := (Real.sqrt_lt' (by linarith)).2 (by nlinarith)
    have := B (Real.sqrt ((9 * q + 2) * (16 * q))) (12 * q + 1) (by linarith) (by linarith) (by push_cast; rw [abs_lt]; constructor <;> linarith)
    push_cast at this; exact this
  · have l1 : (12 * q + 2 - 1 / 2 : ℝ) < (9 * q + 2) * (16 * q) / (12 * q + 1) := by rw [lt_div_iff₀ hx0]; nlinarith
    have l2 : (9 * q + 2) * (16 * q) / (12 * q + 1) < (12 * q + 2 : ℝ) := by rw [div_lt_iff₀ hx0]; nlinarith
    have := B ((9 * q + 2) * (16 * q) / (12 * q + 1)) (12 * q + 2) (by linarith) (by linarith) (by push_cast; rw [abs_lt]; constructor <;> linarith)
    push_cast at this; exact this
  · have := A ((12 * q + 2) * (12 * q + 2)) (9 * q + 3) (by nlinarith) (by nlinarith) (by push_cast; rw [abs_lt]; constructor <;> nlinarith)
    rw [this]; push_cast; nlinarith

theorem touch_aux (h : FlOk F u v) {x s a : ℝ} (hx8 : 8 ≤ x) (hs0 : 0 < s) (rx : F.rnd x = x) (rxx : F.rnd (x * x) = s) (rs : F.rnd s = s) (rq : F.rnd (Real.sqrt s) = x)
    (ra : F.rnd (s / x) = a) (hlt : s < F.rnd (a * a)) {t : Thr ℝ} (ht : t.nullDistance ≤ 1) : Fl.circInter F t ⟨(0, 0), x⟩ ⟨(2 * x, 0), x⟩ = none := by
  have hu := h.u_nonneg
  have hu1 := h.u_small
  have hD : eucl ((0, 0) : Pt ℝ) (2 * x, 0) = 2 * x := by
    unfold eucl
    simp only [zero_sub, sub_self]
    rw [show (-(2 * x)) ^ 2 + (0 : ℝ) ^ 2 = (2 * x) ^ 2 by ring, Real.sqrt_sq (by linarith)]
  have d2 : ccD2 F ((0, 0) : Pt ℝ) (2 * x, 0) = 2 * (2 * s) := by
    unfold ccD2
    simp only [zero_sub, sub_self, h.odd, rnd_zero h, neg_mul_neg, mul_zero, add_zero, rnd_double h, rx]
    simp only [show 2 * x * (2 * x) = 2 * (2 * (x * x)) by ring, rnd_double h, rxx, rs]
  have hi : ccHi F x x = 2 * (2 * s) := by
    unfold ccHi
    rw [rxx, ← two_mul, rnd_double h, rs, rnd_double h, rx, mul_assoc, rnd_double h, rxx, ← two_mul, rnd_double h, rnd_double h, rs]
  have lo : ccLo F x x = 0 := by
    unfold ccLo
    rw [rxx, ← two_mul, rnd_double h, rs, rnd_double h, rx, mul_assoc, rnd_double h, rxx, sub_self, rnd_zero h]
  have d : F.rnd (Real.sqrt (2 * (2 * s))) = 2 * x := by
    rw [show 2 * (2 * s) = 2 ^ 2 * s by ring, Real.sqrt_mul (by norm_num), Real.sqrt_sq (by norm_num), rnd_double h, rq]
  have num : ccNum F x x (2 * (2 * s)) = 2 * s := by
    unfold ccNum
    rw [sub_self, rnd_zero h, zero_add, rnd_double h, rnd_double h, rs, mul_div_cancel_left₀ _ two_ne_zero, rnd_double h, rs]
  have aa : F.rnd (2 * s / (2 * x)) = a := by rw [mul_div_mul_left _ _ two_ne_zero, ra]
  have hns : ¬ ((⟨(0, 0), x⟩ : Circle).radius = (⟨(2 * x, 0), x⟩ : Circle).radius ∧ PtSame F t ((0, 0) : Pt ℝ) (2 * x, 0)) := by
    rintro ⟨-, k⟩
    have k2 := distPt_err h (0, 0) (2 * x, 0)
    rw [hD] at k2
    have hv := h.v_nonneg
    have hv1 := h.v_small
    have k3 := (abs_le.1 k2).1
    have : distPt F ((0, 0) : Pt ℝ) (2 * x, 0) < 1 := lt_of_lt_of_le k ht
    have k4 : (1 + u) * (1 + v) - 1 ≤ 1 / 16 := by nlinarith [mul_nonneg hu hv]
    have k5 := mul_le_mul_of_nonneg_right k4 (show 0 ≤ 2 * x by linarith)
    linarith
  rw [circInter_eq h t hns (by simp only; rw [hD]; linarith)]
  simp only [d2, hi, lo, d, num, aa]
  rw [if_neg (lt_irrefl _), if_neg (by linarith), if_pos]
  unfold ccH2
  rw [rxx]
  have k := h.err (s - F.rnd (a * a))
  rw [abs_of_neg (show s - F.rnd (a * a) < 0 by linarith)] at k
  nlinarith [(abs_le.1 k).2]

theorem ccDecide (h : FlOk F u v) {t : Thr ℝ} {c1 c2 : Circle} (hs : ¬ (c1.radius = c2.radius ∧ PtSame F t c1.center c2.center)) (hD : 0 < eucl c1.center c2.center)
    (h1 : 0 ≤ c1.radius) (h2 : 0 ≤ c2.radius) :
    ((c1.radius + c2.radius) ^ 2 + 5 * u * (eucl c1.center c2.center ^ 2 + (c1.radius + c2.radius) ^ 2) < eucl c1.center c2.center ^ 2 → Fl.circInter F t c1 c2 = some []) ∧
    (eucl c1.center c2.center ^ 2 + 5 * u * (eucl c1.center c2.center ^ 2 + (c1.radius + c2.radius) ^ 2) < (c1.radius - c2.radius) ^ 2 → Fl.circInter F t c1 c2 = some []) ∧
    (|c1.radius ^ 2 - c2.radius ^ 2 + eucl c1.center c2.center ^ 2| + 14 * u * (c1.radius ^ 2 + c2.radius ^ 2 + eucl c1.center c2.center ^ 2) ≤ 2 * c1.radius * eucl c1.center c2.center →
      (Fl.circInter F t c1 c2).isSome ∧
      ((c1.radius - c2.radius) ^ 2 + 5 * u * (eucl c1.center c2.center ^ 2 + (c1.radius + c2.radius) ^ 2) ≤ eucl c1.center c2.center ^ 2 →
        eucl c1.center c2.center ^ 2 + 5 * u * (eucl c1.center c2.center ^ 2 + (c1.radius + c2.radius) ^ 2) ≤ (c1.radius + c2.radius) ^ 2 →
        Fl.circInter F t c1 c2 ≠ some [])) := by
  have hu := h.u_nonneg
  have hu1 := h.u_small
  obtain ⟨k1, k2⟩ := ccHi_err h h1 h2
  have hd2 := ccD2_err h c1.center c2.center
  obtain ⟨-, dp, hd⟩ := ccD_err h hD
  have ha := ccA_err h (r1 := c1.radius) (r2 := c2.radius) hD hd2 hd
  rw [circInter_eq h t hs hD]
  generalize F.rnd (Real.sqrt (ccD2 F c1.center c2.center)) = d at *
  generalize F.rnd (ccNum F c1.radius c2.radius (ccD2 F c1.center c2.center) / d) = a at *
  generalize eucl c1.center c2.center = D at *
  generalize ccD2 F c1.center c2.center = d2 at *
  generalize ccHi F c1.radius c2.radius = hi at *
  generalize ccLo F c1.radius c2.radius = lo at *
  have k1 := abs_le.1 k1
  have k2 := abs_le.1 k2
  have k3 := abs_le.1 hd2
  have u1 : 0 ≤ u * D ^ 2 := mul_nonneg hu (sq_nonneg _)
  have u2 : 0 ≤ u * (c1.radius + c2.radius) ^ 2 := mul_nonneg hu (sq_nonneg _)
  refine ⟨fun k => ?_, fun k => ?_, fun k => ⟨?_, fun m1 m2 => ?_⟩⟩
  · rw [if_pos (by linarith [k1.2, k3.1])]
  · split_ifs with i1 i2
    · rfl
    · rfl
    · exact absurd (show d2 < lo by linarith [k2.1, k3.2]) i2
    · exact absurd (show d2 < lo by linarith [k2.1, k3.2]) i2
  all_goals
    have ba : |a| ≤ c1.radius := by
      have e1 := abs_add_le (a - (c1.radius ^ 2 - c2.radius ^ 2 + D ^ 2) / 2 / D) ((c1.radius ^ 2 - c2.radius ^ 2 + D ^ 2) / 2 / D)
      rw [sub_add_cancel] at e1
      refine (e1.trans (add_le_add ha le_rfl)).trans ?_
      rw [abs_div, abs_div, abs_of_pos hD, abs_of_pos (show (0 : ℝ) < 2 by norm_num), ← mul_div_assoc, ← add_div, div_le_iff₀ hD]
      have : 0 ≤ u * (c1.radius ^ 2 + c2.radius ^ 2 + D ^ 2) := by positivity
      linarith
    have hh : ¬ ccH2 F c1.radius a < 0 := by
      apply not_lt.2
      apply rnd_nonneg h
      apply sub_nonneg.2
      apply h.mono
      rw [← abs_mul_abs_self a]
      exact mul_le_mul ba ba (abs_nonneg _) h1
    simp only [if_neg hh]
  · split_ifs <;> rfl
  · rw [if_neg (by linarith [k1.1, k3.2]), if_neg (by linarith [k2.2, k3.1])]
    unfold ccOut
    split_ifs <;> simp

theorem eucl_pos_of_ne {p q : Pt ℝ} (h : p ≠ q) : 0 < eucl p q := by
  apply Real.sqrt_pos.2
  by_contra hh
  have h1 : (p.1 - q.1) ^ 2 = 0 := by nlinarith [sq_nonneg (p.1 - q.1), sq_nonneg (p.2 - q.2)]
  have h2 : (p.2 - q.2) ^ 2 = 0 := by nlinarith [sq_nonneg (p.1 - q.1), sq_nonneg (p.2 - q.2)]
  apply h
  have := pow_eq_zero_iff two_ne_zero |>.1 h1
  have := pow_eq_zero_iff two_ne_zero |>.1 h2
  exact Prod.ext (by linarith) (by linarith)

/-- A signed distance to a line is 1-Lipschitz. -/
theorem side_lip {X Y D : ℝ} (hD : 0 < D) (e : D ^ 2 = X ^ 2 + Y ^ 2) (P Q : Pt ℝ) : |(X * P.2 - Y * P.1) / D - (X * Q.2 - Y * Q.1) / D| ≤ eucl P Q := by
  rw [← sub_div, abs_div, abs_of_pos hD, div_le_iff₀ hD]
  have e1 : eucl P Q ^ 2 = (P.1 - Q.1) ^ 2 + (P.2 - Q.2) ^ 2 := Real.sq_sqrt (by positivity)
  apply abs_le_of_sq_le_sq _ (mul_nonneg (show 0 ≤ eucl P Q from Real.sqrt_nonneg _) hD.le)
  rw [mul_pow, e1, e]
  nlinarith [sq_nonneg (X * (P.1 - Q.1) + Y * (P.2 - Q.2))]

theorem ccSides (h : FlOk F u v) {t : Thr ℝ} {p q : Pt ℝ} {a g η M : ℝ} {pts : Pt ℝ × Pt ℝ} (hD : 0 < eucl p q) (hM : 0 ≤ M) (hη : 0 < η) (ht : t.nullDistance ≤ η) (hg : η + 60 * u * M ≤ g)
    (n1 : eucl pts.1 (p.1 + (q.1 - p.1) * a / eucl p q + (p.2 - q.2) * g / eucl p q, p.2 + (q.2 - p.2) * a / eucl p q - (p.1 - q.1) * g / eucl p q) ≤ 56 * u * M)
    (n2 : eucl pts.2 (p.1 + (q.1 - p.1) * a / eucl p q + (p.2 - q.2) * (-g) / eucl p q, p.2 + (q.2 - p.2) * a / eucl p q - (p.1 - q.1) * (-g) / eucl p q) ≤ 56 * u * M) :
    ccOut F t pts = [pts.1, pts.2] ∧ η ≤ ((q.1 - p.1) * (pts.1.2 - p.2) - (q.2 - p.2) * (pts.1.1 - p.1)) / eucl p q ∧
      ((q.1 - p.1) * (pts.2.2 - p.2) - (q.2 - p.2) * (pts.2.1 - p.1)) / eucl p q ≤ - η := by
  have hu := h.u_nonneg
  have hu1 := h.u_small
  have uM := mul_nonneg hu hM
  have eD : eucl p q ^ 2 = (q.1 - p.1) ^ 2 + (q.2 - p.2) ^ 2 := by
    have : eucl p q ^ 2 = (p.1 - q.1) ^ 2 + (p.2 - q.2) ^ 2 := Real.sq_sqrt (by positivity)
    rw [this]; ring
  have s1 := side_lip hD eD _ _ |>.trans n1
  have s2 := side_lip hD eD _ _ |>.trans n2
  generalize eucl p q = D at *
  have hD' := hD.ne'
  have e1 : ∀ b : ℝ, ((q.1 - p.1) * (p.2 + (q.2 - p.2) * a / D - (p.1 - q.1) * b / D) -
      (q.2 - p.2) * (p.1 + (q.1 - p.1) * a / D + (p.2 - q.2) * b / D)) / D =
      ((q.1 - p.1) * p.2 - (q.2 - p.2) * p.1) / D + b := by
    intro b
    have : ((q.1 - p.1) * (p.2 + (q.2 - p.2) * a / D - (p.1 - q.1) * b / D) -
      (q.2 - p.2) * (p.1 + (q.1 - p.1) * a / D + (p.2 - q.2) * b / D)) / D =
      ((q.1 - p.1) * p.2 - (q.2 - p.2) * p.1) / D + b * ((q.1 - p.1) ^ 2 + (q.2 - p.2) ^ 2) / D ^ 2 := by
      field_simp; ring
    rw [this, ← eD]
    field_simp
  simp only [e1] at s1 s2
  have e2 : ∀ P : Pt ℝ, ((q.1 - p.1) * (P.2 - p.2) - (q.2 - p.2) * (P.1 - p.1)) / D =
      ((q.1 - p.1) * P.2 - (q.2 - p.2) * P.1) / D - ((q.1 - p.1) * p.2 - (q.2 - p.2) * p.1) / D := by
    intro P; rw [← sub_div]; congr 1; ring
  have s3 := side_lip hD eD pts.1 pts.2
  have s1 := abs_le.1 s1
  have s2 := abs_le.1 s2
  have s3 := abs_le.1 s3
  refine ⟨?_, by rw [e2]; linarith [s1.1], by rw [e2]; linarith [s2.2]⟩
  unfold ccOut
  rw [if_neg]
  intro k
  have k6 := abs_le.1 (distPt_err h pts.1 pts.2)
  have hv := h.v_nonneg
  have hv1 := h.v_small
  have k7 : (1 + u) * (1 + v) - 1 ≤ 1 / 16 := by nlinarith [mul_nonneg hu hv]
  have k8 := mul_le_mul_of_nonneg_right k7 (show 0 ≤ eucl pts.1 pts.2 from Real.sqrt_nonneg _)
  have k9 : 2 * η ≤ eucl pts.1 pts.2 := by linarith [s1.1, s2.2, s3.2]
  have k10 : distPt F pts.1 pts.2 < η := lt_of_lt_of_le k ht
  linarith [k6.1]

theorem ccA_le {u r1 r2 D a : ℝ} (hu : 0 ≤ u) (hD : 0 < D) (ha : |a - (r1 ^ 2 - r2 ^ 2 + D ^ 2) / 2 / D| ≤ 27 / 2 * u * ((r1 ^ 2 + r2 ^ 2 + D ^ 2) / 2 / D)) :
    |a| ≤ (|r1 ^ 2 - r2 ^ 2 + D ^ 2| + 14 * u * (r1 ^ 2 + r2 ^ 2 + D ^ 2)) / (2 * D) := by
  have e1 := abs_add_le (a - (r1 ^ 2 - r2 ^ 2 + D ^ 2) / 2 / D) ((r1 ^ 2 - r2 ^ 2 + D ^ 2) / 2 / D)
  rw [sub_add_cancel] at e1
  refine (e1.trans (add_le_add ha le_rfl)).trans ?_
  rw [abs_div, abs_div, abs_of_pos hD, abs_of_pos (show (0 : ℝ) < 2 by norm_num), ← mul_div_assoc, ← add_div, ← div_div]
  apply div_le_div_of_nonneg_right _ hD.le
  have : 0 ≤ u * (r1 ^ 2 + r2 ^ 2 + D ^ 2) := by positivity
  linarith

theorem ccG_le {u r1 M η a g b : ℝ} (hu : 0 ≤ u) (hu1 : u ≤ 1 / 64) (h1 : 0 ≤ r1) (h1M : r1 ≤ M) (hg0 : 0 ≤ g) (hb : |a| ≤ b) (hm : b ^ 2 + (η + 60 * u * M) ^ 2 + 6 * u * r1 ^ 2 ≤ r1 ^ 2)
    (k : |a ^ 2 + g ^ 2 - r1 ^ 2| ≤ 11 / 2 * u * r1 ^ 2) : |a| ≤ 21 / 20 * M ∧ |g| ≤ 21 / 20 * M ∧ η + 60 * u * M ≤ g := by
  have hM : 0 ≤ M := h1.trans h1M
  have ba2 := pow_le_pow_left₀ (abs_nonneg _) hb 2
  rw [sq_abs] at ba2
  have ur := mul_nonneg hu (sq_nonneg r1)
  have ur1 := mul_le_mul_of_nonneg_right hu1 (sq_nonneg r1)
  have q1 : r1 ^ 2 ≤ M ^ 2 := pow_le_pow_left₀ h1 h1M 2
  have q2 := sq_nonneg M
  have q3 := sq_nonneg (η + 60 * u * M)
  have q4 := sq_nonneg a
  have k := abs_le.1 k
  refine ⟨abs_le_of_sq_le_sq ?_ (by positivity), abs_le_of_sq_le_sq ?_ (by positivity), abs_le_of_sq_le_sq' ?_ hg0 |>.2⟩
  · linarith
  · linarith [k.2]
  · linarith [k.1]

theorem ccTwo_eq (h : FlOk F u v) {t : Thr ℝ} {c1 c2 : Circle} {M η : ℝ} (hs : ¬ (c1.radius = c2.radius ∧ PtSame F t c1.center c2.center)) (hD : 0 < eucl c1.center c2.center)
    (h1 : 0 ≤ c1.radius) (h1M : c1.radius ≤ M) (h2 : 0 ≤ c2.radius) (hx1 : |c1.center.1| ≤ M) (hy1 : |c1.center.2| ≤ M)
    (hη : 0 < η) (ht : t.nullDistance ≤ η)
    (hm : ((|c1.radius ^ 2 - c2.radius ^ 2 + eucl c1.center c2.center ^ 2| + 14 * u * (c1.radius ^ 2 + c2.radius ^ 2 + eucl c1.center c2.center ^ 2)) / (2 * eucl c1.center c2.center)) ^ 2 + (η + 60 * u * M) ^ 2 + 6 * u * c1.radius ^ 2 ≤ c1.radius ^ 2)
    (m1 : (c1.radius - c2.radius) ^ 2 + 5 * u * (eucl c1.center c2.center ^ 2 + (c1.radius + c2.radius) ^ 2) ≤ eucl c1.center c2.center ^ 2)
    (m2 : eucl c1.center c2.center ^ 2 + 5 * u * (eucl c1.center c2.center ^ 2 + (c1.radius + c2.radius) ^ 2) ≤ (c1.radius + c2.radius) ^ 2) :
    ∃ d a g, Fl.circInter F t c1 c2 = some (ccOut F t (ccPoints F c1.center c2.center d a g)) ∧ |d - eucl c1.center c2.center| ≤ 11 / 2 * u * eucl c1.center c2.center ∧
      |a| ≤ 21 / 20 * M ∧ |g| ≤ 21 / 20 * M ∧ η + 60 * u * M ≤ g := by
  have hu := h.u_nonneg
  have hu1 := h.u_small
  have hM : 0 ≤ M := h1.trans h1M
  obtain ⟨k1, k2⟩ := ccHi_err h h1 h2
  have hd2 := ccD2_err h c1.center c2.center
  obtain ⟨-, dp, hd⟩ := ccD_err h hD
  have ha := ccA_err h (r1 := c1.radius) (r2 := c2.radius) hD hd2 hd
  rw [circInter_eq h t hs hD]
  have k1 := abs_le.1 k1
  have k2 := abs_le.1 k2
  have k3 := abs_le.1 hd2
  have u1 : 0 ≤ u * eucl c1.center c2.center ^ 2 := mul_nonneg hu (sq_nonneg _)
  have u2 : 0 ≤ u * (c1.radius + c2.radius) ^ 2 := mul_nonneg hu (sq_nonneg _)
  rw [if_neg (by linarith [k1.1, k3.2]), if_neg (by linarith [k2.2, k3.1])]
  generalize F.rnd (Real.sqrt (ccD2 F c1.center c2.center)) = d at *
  generalize F.rnd (ccNum F c1.radius c2.radius (ccD2 F c1.center c2.center) / d) = a at *
  have ba := ccA_le hu hD ha
  have hh : ¬ ccH2 F c1.radius a < 0 := by
    apply not_lt.2
    apply rnd_nonneg h
    apply sub_nonneg.2
    apply h.mono
    have ba2 := pow_le_pow_left₀ (abs_nonneg _) ba 2
    rw [sq_abs] at ba2
    have ur := mul_nonneg hu (sq_nonneg c1.radius)
    have q3 := sq_nonneg (η + 60 * u * M)
    rw [← pow_two, ← pow_two]
    linarith
  rw [if_neg hh]
  obtain ⟨-, k5⟩ := ccH_err h (not_lt.1 hh)
  have hg0 : 0 ≤ F.rnd (Real.sqrt (ccH2 F c1.radius a)) := rnd_nonneg h (Real.sqrt_nonneg _)
  generalize F.rnd (Real.sqrt (ccH2 F c1.radius a)) = g at *
  exact ⟨d, a, g, rfl, hd, ccG_le hu hu1 h1 h1M hg0 ba hm k5⟩

theorem ccTwo (h : FlOk F u v) {t : Thr ℝ} {c1 c2 : Circle} {M η : ℝ} (hs : ¬ (c1.radius = c2.radius ∧ PtSame F t c1.center c2.center)) (hD : 0 < eucl c1.center c2.center)
    (h1 : 0 ≤ c1.radius) (h1M : c1.radius ≤ M) (h2 : 0 ≤ c2.radius) (hx1 : |c1.center.1| ≤ M) (hy1 : |c1.center.2| ≤ M)
    (hη : 0 < η) (ht : t.nullDistance ≤ η)
    (hm : ((|c1.radius ^ 2 - c2.radius ^ 2 + eucl c1.center c2.center ^ 2| + 14 * u * (c1.radius ^ 2 + c2.radius ^ 2 + eucl c1.center c2.center ^ 2)) / (2 * eucl c1.center c2.center)) ^ 2 + (η + 60 * u * M) ^ 2 + 6 * u * c1.radius ^ 2 ≤ c1.radius ^ 2)
    (m1 : (c1.radius - c2.radius) ^ 2 + 5 * u * (eucl c1.center c2.center ^ 2 + (c1.radius + c2.radius) ^ 2) ≤ eucl c1.center c2.center ^ 2)
    (m2 : eucl c1.center c2.center ^ 2 + 5 * u * (eucl c1.center c2.center ^ 2 + (c1.radius + c2.radius) ^ 2) ≤ (c1.radius + c2.radius) ^ 2) :
    ∃ P Q : Pt ℝ, Fl.circInter F t c1 c2 = some [P, Q] ∧
      η ≤ ((c2.center.1 - c1.center.1) * (P.2 - c1.center.2) - (c2.center.2 - c1.center.2) * (P.1 - c1.center.1)) / eucl c1.center c2.center ∧
      ((c2.center.1 - c1.center.1) * (Q.2 - c1.center.2) - (c2.center.2 - c1.center.2) * (Q.1 - c1.center.1)) / eucl c1.center c2.center ≤ - η := by
  obtain ⟨d, a, g, e, hd, ba, bg, hg⟩ := ccTwo_eq h hs hD h1 h1M h2 hx1 hy1 hη ht hm m1 m2
  obtain ⟨n1, n2⟩ := ccNear (q := c2.center) h hD hd hx1 hy1 ba bg
  obtain ⟨e2, s1, s2⟩ := ccSides h hD (h1.trans h1M) hη ht hg n1 n2
  exact ⟨_, _, by rw [e, e2], s1, s2⟩

end H2d.Fl
