import Verif.Lemmas.FloatOrthog
import Verif.Lemmas.FloatInsideDemo
import Verif.Lemmas.FloatOrthogDemo
import Verif.Lemmas.LineOps
import Verif.Props.FloatParallel

/-! # C150: orthogonal lines and segments with rounded arithmetic -/

namespace H2d.Props
open H2d H2d.Spec H2d.Fl

variable {F : Arith} {u v : ℝ}

/-- **C150, orthogonal line.** A line that is vertical or not nearly so, and any point with coordinates up to `M`: the line returned by `getOrthogLine` is at a distance of the point of at most `24 u M`, and the cosine of its angle
with the line is at most `6 u`. -/
theorem C150_line (h : FlOk F u v) {t : Thr ℝ} {M : ℝ} {l m : V3 ℝ} {p : Pt ℝ} (ho : Orthog t M l p) (hm : Fl.orthogLine F t l p = .ok m) :
    |m 0 * p.1 + m 1 * p.2 + m 2| ≤ 24 * u * M * Real.sqrt (m 0 ^ 2 + m 1 ^ 2) ∧
    |l 0 * m 0 + l 1 * m 1| ≤ 6 * u * (Real.sqrt (l 0 ^ 2 + l 1 ^ 2) * Real.sqrt (m 0 ^ 2 + m 1 ^ 2)) ∧ 0 < m 0 ^ 2 + m 1 ^ 2 :=
  ⟨(orth_pair h ho hm).thr, (orth_pair h ho hm).cos, (orth_pair h ho hm).dir⟩

/-- The line `3/5 x + 4/5 y - 2 = 0` and the point (7,1). -/
example : Orthog stdR 7 ![3 / 5, 4 / 5, -2] (7, 1) ∧ ∃ m, Fl.orthogLine (binary 53) stdR ![3 / 5, 4 / 5, -2] (7, 1) = .ok m :=
  ⟨orthog_demo.1, orthogLine_defined (binary_ok (by norm_num)) stdR (by rw [orthog_demo.2]; norm_num) _⟩

/-- **C150, orthogonal line at a coordinate.** It throws if the line has no point with this coordinate. Otherwise it is the line orthogonal at the point of `getCoord` (C148_coord). -/
theorem C150_at (t : Thr ℝ) (l : V3 ℝ) (givenX : Bool) (x : ℝ) :
    (Fl.lineCoord F t l givenX x = .throw → Fl.orthogLineAt F t l givenX x = .throw) ∧
    ∀ y, Fl.lineCoord F t l givenX x = .ok y → Fl.orthogLineAt F t l givenX x = Fl.orthogLine F t l (if givenX then (x, y) else (y, x)) := by
  unfold Fl.orthogLineAt
  refine ⟨fun e => by rw [e]; rfl, fun y e => by rw [e]; rfl⟩

/-- **C150, closest point.** Whenever `getOrthogSegment` returns, its second point is the given one, and its first one has coordinates within `85 u M` of those of the point of the line that is the closest to it. -/
theorem C150_segment (h : FlOk F u v) {ac : ℝ → ℝ} {t : Thr ℝ} {M : ℝ} {l : V3 ℝ} {p : Pt ℝ} (ho : Orthog t M l p) {r : Option (Pt ℝ × Pt ℝ)} (hr : Fl.orthogSegment F t ac l p = .ok r) :
    ∃ q Q, r = some (q, p) ∧ ClosestOn l p Q ∧ |q.1 - Q.1| ≤ 85 * u * M ∧ |q.2 - Q.2| ≤ 85 * u * M := by
  obtain ⟨Q, c1, c2, -⟩ := closest_eq ho.dir p
  rw [orthogSegment_form] at hr
  split_ifs at hr with hd
  rcases hm : Fl.orthogLine F t l p with m | _ | _ <;> rw [hm] at hr <;> try cases hr
  simp only [Res.bind_ok] at hr
  obtain ⟨q, e, qx, qy⟩ := foot_err h ho hm c1.1 c2
  unfold Fl.lineInter at hr
  split_ifs at hr with hp
  · cases hr
  · rw [e] at hr
    simp only [Res.bind_ok] at hr
    split_ifs at hr with hs
    injection hr with hr
    exact ⟨q, Q, hr.symm, c1, qx, qy⟩

/-- **C150, decision.** A line whose normal has a length of at least 1/2 (1 up to rounding, for the lines of the library), and whose point the closest to `p` is `Q`: `getOrthogSegment` throws if the distance is below the null distance by `16 (u + v) M`,
and returns a segment if it is above by `130 (u + v) M`. -/
theorem C150_decision (h : FlOk F u v) {ac : ℝ → ℝ} {w : ℝ} (ha : AcosOk ac w) {t : Thr ℝ} (ht : t.nullAngleValue + (Real.pi * Real.sqrt (11 * u / 2) + w * (Real.pi / 2)) ≤ 4 / 5) {M : ℝ} {l : V3 ℝ} {p : Pt ℝ}
    (ho : Orthog t M l p) (hl : 1 / 2 ≤ Real.sqrt (l 0 ^ 2 + l 1 ^ 2)) {Q : Pt ℝ} (hQ : ClosestOn l p Q) :
    (eucl p Q + 16 * (u + v) * M < t.nullDistance → Fl.orthogSegment F t ac l p = .throw) ∧
    (t.nullDistance + 130 * (u + v) * M ≤ eucl p Q → ∃ q, Fl.orthogSegment F t ac l p = .ok (some (q, p))) ∧ Fl.orthogSegment F t ac l p ≠ .ub := by
  refine ⟨fun k => ?_, orthogSegment_found h ha ht ho hl hQ, ?_⟩
  · obtain ⟨Q', c1, c2, c3⟩ := closest_eq ho.dir p
    have ed : eucl p Q = eucl p Q' := le_antisymm (hQ.2 _ c1.1) (c1.2 _ hQ.1)
    obtain ⟨d1, -⟩ := lineDist_off h ho
    rw [← c3, ← ed] at d1
    rw [orthogSegment_form, if_pos (by have := (abs_le.1 d1).2; linarith)]
  · rw [orthogSegment_form]
    split_ifs
    · simp
    · refine Pip.bind_ne_ub (orthogLine_safe F t l p) fun m => Pip.bind_ne_ub ?_ fun q => ?_
      · unfold Fl.lineInter; split_ifs <;> simp
      · cases q
        · simp
        · simp only; split_ifs <;> simp

/-- Both conditions hold for `double` and the default thresholds; the point (7,1) is at a distance 3 of the line `3/5 x + 4/5 y - 2 = 0`: the closest point is (26/5, -7/5). -/
example : stdR.nullAngleValue + (Real.pi * Real.sqrt (11 * u53 / 2) + u53 * (Real.pi / 2)) ≤ 4 / 5 ∧ ClosestOn ![3 / 5, 4 / 5, -2] (7, 1) (26 / 5, -7 / 5) ∧
    stdR.nullDistance + 130 * (u53 + u53) * 7 ≤ eucl (7, 1) (26 / 5, -7 / 5) := by
  have e3 : eucl (7, 1) (26 / 5, -7 / 5) = 3 := by
    unfold eucl; rw [Real.sqrt_eq_iff_mul_self_eq (by norm_num) (by norm_num)]; norm_num
  refine ⟨?_, ⟨?_, ?_⟩, ?_⟩
  · have h1 : Real.sqrt (11 * u53 / 2) ≤ 1 / 10 ^ 5 := by
      rw [Real.sqrt_le_left (by norm_num)]; norm_num
    have h2 := mul_le_mul_of_nonneg_left h1 Real.pi_pos.le
    have h3 := Real.pi_le_four
    have : (u53 : ℝ) ≤ 1 / 10 ^ 10 := by norm_num
    have h4 := mul_le_mul_of_nonneg_right this (show 0 ≤ Real.pi / 2 by positivity)
    norm_num [stdR] at *
    linarith
  · simp only [On, Matrix.cons_val]; norm_num
  · intro q hq
    simp only [On, Matrix.cons_val] at hq
    rw [e3]
    unfold eucl
    apply Real.le_sqrt_of_sq_le
    simp only
    nlinarith [sq_nonneg (4 * (7 - q.1) - 3 * (1 - q.2))]
  · rw [e3]; norm_num [stdR]

/-- **C150, the condition on the direction is needed.** Even without rounding, and whatever the thresholds: a nearly vertical line as stored by the library and a point, such that the first point of the segment is at a distance of more than 1
of the point of the line that is the closest. -/
theorem C150_sharp {t : Thr ℝ} (ht : ExactThr t) (hd : 0 < t.nullDenom) (ha : t.nullAngleValue ≤ 1) : ∃ l p q Q, NormLine t l ∧ ClosestOn l p Q ∧
    Fl.orthogSegment exactArith t Real.arccos l p = .ok (some (q, p)) ∧ 1 < eucl q Q := by
  obtain ⟨c, s, hs, hsd, hs4, hc, hcs⟩ := band_dir hd
  exact band_far ht ha hs hsd hs4 hc hcs

end H2d.Props
