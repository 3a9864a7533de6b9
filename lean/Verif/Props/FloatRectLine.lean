import Verif.Lemmas.FloatRectLineDemo
import Verif.Lemmas.ExactRectLine
import Verif.Props.RectMore

/-! # C151: intersection of a rectangle and a line with rounded arithmetic -/

namespace H2d.Props
open H2d H2d.Spec H2d.Fl H2d.Inside

variable {F : Arith} {u v w M L S σ : ℝ} {t : Thr ℝ} {ac : ℝ → ℝ} {r : FRect ℝ} {li : V3 ℝ}

/-- **C151, the common points.** The line avoids the corners, and its angle with the sides that it crosses is not too small for the precision. One point is given for each side that crosses the line, no other one, in the order of
the sides, within `150 u M² / (L S)` of the common point. -/
theorem C151_points (h : FlOk F u v) (ha : AcosOk ac w) (hn : 350 * slErr u M L S + 13 * (u + v) * M < t.nullDistance) (hr : RectLn F t u v w M L S σ r li) :
    ∃ pts, Fl.rectLineInter F t ac r li = .ok pts ∧ List.Forall₂ (fun q e => ∀ P, OnSeg e.1 e.2 P → sideDist li P = 0 → eucl q P ≤ 150 * slErr u M L S) pts (crossing (rectSides r) li) := by
  have hnd : 0 < t.nullDistance := by
    have : 0 < dblEps := by norm_num [dblEps]
    linarith [hr.eps]
  have SL : S * L ≤ L := mul_le_of_le_one_left hr.L_pos.le hr.S_le
  have hz : ∀ c ∈ r.get4Pts, sideDist li c ≠ 0 := by
    intro c hc z
    have := (hr.corner c hc).1
    rw [z, abs_zero] at this
    linarith
  unfold Fl.rectLineInter
  rw [rectSegs_poly, polySegs_fix h hnd _ fun e he => by linarith [hr.thr, hr.len e he], Res.bind_ok]
  refine rectLine_loop (rectSides r) [] (rectLn_done h ha hn hr) ?_ (by simp)
  rcases rect_crossing hz with ⟨k, -⟩ | ⟨k, -⟩ <;> rw [k] <;> simp

/-- In `double` with the default thresholds: the rectangle from (0, 0) to (4, 3) and the line `3 x + 4 y = 6` have two common points, (0, 3/2) and (2, 0). -/
example : ∃ q q', Fl.rectLineInter (binary 53) stdR Real.arccos ⟨(0, 0), (4, 3)⟩ ![3, 4, -6] = .ok [q, q'] ∧ eucl q (0, 3 / 2) ≤ 1 / 10 ^ 12 ∧ eucl q' (2, 0) ≤ 1 / 10 ^ 12 := by
  have hn : 350 * slErr u53 4 3 (3 / 5) + 13 * (u53 + u53) * 4 < stdR.nullDistance := by unfold slErr; norm_num [stdR]
  obtain ⟨r, hr, k⟩ := C151_points (binary_ok (p := 53) (by norm_num)) acosOk_exact hn demo_rectLn
  have s5 : Real.sqrt (3 ^ 2 + 4 ^ 2) = 5 := by rw [show (3 : ℝ) ^ 2 + 4 ^ 2 = 5 * 5 by norm_num, Real.sqrt_mul_self (by norm_num)]
  have hsd : ∀ p : Pt ℝ, sideDist ![3, 4, -6] p = (3 * p.1 + 4 * p.2 - 6) / 5 := by
    intro p
    unfold sideDist
    simp only [Matrix.cons_val_zero, Matrix.cons_val_one, Matrix.cons_val, s5]
    ring
  have e : crossing (rectSides ⟨(0, 0), (4, 3)⟩) ![3, 4, -6] = [((0, 0), (0, 3)), ((4, 0), (0, 0))] := by
    classical
    unfold crossing rectSides
    simp only [Crosses, hsd]
    norm_num [List.filter]
  rw [e] at k
  rcases k with _ | ⟨k, k'⟩
  rcases k' with _ | ⟨k', k2⟩
  cases k2
  refine ⟨_, _, hr, (k (0, 3 / 2) ⟨1 / 2, by norm_num, by norm_num, ?_⟩ (by rw [hsd]; norm_num)).trans (by unfold slErr; norm_num), (k' (2, 0) ⟨1 / 2, by norm_num, by norm_num, ?_⟩ (by rw [hsd]; norm_num)).trans (by unfold slErr; norm_num)⟩
  · apply Prod.ext <;> norm_num
  · apply Prod.ext <;> norm_num

/-- **C151, number of points.** No point is given if all corners are on the same side of the line, else two points. -/
theorem C151_count (h : FlOk F u v) (ha : AcosOk ac w) (hn : 350 * slErr u M L S + 13 * (u + v) * M < t.nullDistance) (hr : RectLn F t u v w M L S σ r li) :
    ∃ pts, Fl.rectLineInter F t ac r li = .ok pts ∧ (pts.length = 0 ∨ pts.length = 2) ∧
      (pts = [] ↔ (∀ c ∈ r.get4Pts, 0 < sideDist li c) ∨ ∀ c ∈ r.get4Pts, sideDist li c < 0) := by
  obtain ⟨pts, hp, k⟩ := C151_points h ha hn hr
  have hnd : 0 < t.nullDistance := by
    have : 0 < dblEps := by norm_num [dblEps]
    linarith [hr.eps]
  have hz : ∀ c ∈ r.get4Pts, sideDist li c ≠ 0 := by
    intro c hc z
    have := (hr.corner c hc).1
    rw [z, abs_zero] at this
    linarith
  refine ⟨pts, hp, ?_⟩
  rw [← List.length_eq_zero_iff, k.length_eq]
  rcases rect_crossing hz with ⟨c, s⟩ | ⟨c, s⟩
  · exact ⟨Or.inl c, fun _ => s, fun _ => c⟩
  · exact ⟨Or.inr c, fun z => absurd (c.symm.trans z) (by norm_num), fun z => absurd z s⟩

/-- The same rectangle and line; two corners are on different sides. -/
example : RectLn (binary 53) stdR u53 u53 0 4 3 (3 / 5) (1 / 2500) ⟨(0, 0), (4, 3)⟩ ![3, 4, -6] ∧ 350 * slErr u53 4 3 (3 / 5) + 13 * (u53 + u53) * 4 < stdR.nullDistance :=
  ⟨demo_rectLn, by unfold slErr; norm_num [stdR]⟩

/-- **C151, any rectangle and line.** Never undefined behaviour, never more than two points, whatever the arithmetic and the thresholds. -/
theorem C151_any (F : Arith) (t : Thr ℝ) (ac : ℝ → ℝ) (r : FRect ℝ) (li : V3 ℝ) : Fl.rectLineInter F t ac r li ≠ .ub ∧ ∀ pts, Fl.rectLineInter F t ac r li = .ok pts → pts.length ≤ 2 := by
  refine ⟨rectLineInter_safe r li, fun pts hp => ?_⟩
  unfold Fl.rectLineInter at hp
  rcases hs : Fl.rectSegs F t r with es | _ | _ <;> rw [hs] at hp <;> try cases hp
  exact rectLine_le_two es [] (by simp) pts hp

/-- **C151, lines that pass by a corner.** The condition on the corners is needed, even without rounding: the points given can both be near the same corner, and a common point on a side that is crossed at a large angle is missed. -/
theorem C151_sharp : ∃ (r : FRect ℝ) (l : V3 ℝ) (pts : List (Pt ℝ)) (q : Pt ℝ), LongSides 1 r ∧ UnitNormal l ∧ Fl.rectLineInter exactArith stdR Real.arccos r l = .ok pts ∧ pts.length = 2 ∧
    On l q ∧ OnRect r q ∧ (∃ e ∈ rectSides r, OnSeg e.1 e.2 q ∧ stdR.nullAngleValue ≤ lineSegAngle l e) ∧ ∀ p ∈ pts, 1/2 < eucl p q := by
  obtain ⟨r, l, pts, q, h1, h2, h3, h4⟩ := C80_line_false
  exact ⟨r, l, pts, q, h1, h2, by rw [Exact.rectLineInter_eq Exact.stdR_exact r (Exact.unit_dir h2)]; exact h3, h4⟩

end H2d.Props
