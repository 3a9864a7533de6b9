import Verif.Lemmas.FloatSimple
import Verif.Lemmas.PipModel
import Verif.Model.FloatPip
import Verif.Spec.FloatPip
import Verif.Props.FloatSeg
import Mathlib.Topology.Order.IntermediateValue

/-! # Lemmas for the point in a polygon with rounded operations -/

namespace H2d.Fl
open H2d.Spec H2d.Pip

variable {F : Arith} {u v : ℝ}

/-- Two segments that are not parallel and have no common point: from a pair of points of them, one goes to an end of one of them without increasing the distance. -/
theorem walk {s s' : Seg} {k j : ℝ} (hk0 : 0 ≤ k) (hk1 : k ≤ 1) (hj0 : 0 ≤ j) (hj1 : j ≤ 1)
    (hc : (s.2.1 - s.1.1) * (s'.2.2 - s'.1.2) - (s.2.2 - s.1.2) * (s'.2.1 - s'.1.1) ≠ 0) (hno : ∀ k j, 0 ≤ k → k ≤ 1 → 0 ≤ j → j ≤ 1 → along s k ≠ along s' j) :
    ∃ k' j', 0 ≤ k' ∧ k' ≤ 1 ∧ 0 ≤ j' ∧ j' ≤ 1 ∧ (k' = 0 ∨ k' = 1 ∨ j' = 0 ∨ j' = 1) ∧ eucl (along s k') (along s' j') ≤ eucl (along s k) (along s' j) := by
  obtain ⟨ka, ja, hx, hy⟩ : ∃ ka ja, s.1.1 + ka * (s.2.1 - s.1.1) = s'.1.1 + ja * (s'.2.1 - s'.1.1) ∧ s.1.2 + ka * (s.2.2 - s.1.2) = s'.1.2 + ja * (s'.2.2 - s'.1.2) := by
    generalize s.2.1 - s.1.1 = a at hc ⊢
    generalize s.2.2 - s.1.2 = b at hc ⊢
    generalize s'.2.1 - s'.1.1 = c at hc ⊢
    generalize s'.2.2 - s'.1.2 = d at hc ⊢
    refine ⟨((s'.1.1 - s.1.1) * d - (s'.1.2 - s.1.2) * c) / (a * d - b * c), ((s'.1.1 - s.1.1) * b - (s'.1.2 - s.1.2) * a) / (a * d - b * c), ?_, ?_⟩
    · rw [div_mul_eq_mul_div, div_mul_eq_mul_div]; refine mul_right_cancel₀ hc ?_; rw [add_mul, add_mul, div_mul_cancel₀ _ hc, div_mul_cancel₀ _ hc]; ring
    · rw [div_mul_eq_mul_div, div_mul_eq_mul_div]; refine mul_right_cancel₀ hc ?_; rw [add_mul, add_mul, div_mul_cancel₀ _ hc, div_mul_cancel₀ _ hc]; ring
  have hmeet : along s ka = along s' ja := Prod.ext hx hy
  have cont : Continuous fun τ : ℝ => min (min (k + τ * (ka - k)) (1 - (k + τ * (ka - k)))) (min (j + τ * (ja - j)) (1 - (j + τ * (ja - j)))) := by fun_prop
  have g0 : 0 ≤ min (min (k + 0 * (ka - k)) (1 - (k + 0 * (ka - k)))) (min (j + 0 * (ja - j)) (1 - (j + 0 * (ja - j)))) := by
    refine le_min (le_min ?_ ?_) (le_min ?_ ?_) <;> linarith
  have g1 : min (min (k + 1 * (ka - k)) (1 - (k + 1 * (ka - k)))) (min (j + 1 * (ja - j)) (1 - (j + 1 * (ja - j)))) ≤ 0 := by
    by_contra hh
    rw [not_le, lt_min_iff, lt_min_iff, lt_min_iff] at hh
    exact hno ka ja (by linarith [hh.1.1]) (by linarith [hh.1.2]) (by linarith [hh.2.1]) (by linarith [hh.2.2]) hmeet
  obtain ⟨τ, ⟨t0, t1⟩, ht⟩ := intermediate_value_Icc' zero_le_one cont.continuousOn ⟨g1, g0⟩
  simp only at ht
  set k' := k + τ * (ka - k) with hk'
  set j' := j + τ * (ja - j) with hj'
  have a1 : 0 ≤ k' := by rw [← ht]; exact (min_le_left _ _).trans (min_le_left _ _)
  have a2 : 0 ≤ 1 - k' := by rw [← ht]; exact (min_le_left _ _).trans (min_le_right _ _)
  have a3 : 0 ≤ j' := by rw [← ht]; exact (min_le_right _ _).trans (min_le_left _ _)
  have a4 : 0 ≤ 1 - j' := by rw [← ht]; exact (min_le_right _ _).trans (min_le_right _ _)
  refine ⟨k', j', a1, by linarith, a3, by linarith, ?_, ?_⟩
  · rcases min_choice (min k' (1 - k')) (min j' (1 - j')) with e | e <;> rw [e] at ht
    · rcases min_choice k' (1 - k') with e | e <;> rw [e] at ht
      · exact Or.inl ht
      · exact Or.inr (Or.inl (by linarith))
    · rcases min_choice j' (1 - j') with e | e <;> rw [e] at ht
      · exact Or.inr (Or.inr (Or.inl ht))
      · exact Or.inr (Or.inr (Or.inr (by linarith)))
  · refine abs_le_of_sq_le_sq' ?_ (eucl_nonneg _ _) |>.2
    have e : eucl (along s k') (along s' j') ^ 2 = (1 - τ) ^ 2 * eucl (along s k) (along s' j) ^ 2 := by
      rw [eucl_sq, eucl_sq]
      simp only [along]
      have e1 : s.1.1 + k' * (s.2.1 - s.1.1) - (s'.1.1 + j' * (s'.2.1 - s'.1.1)) = (1 - τ) * (s.1.1 + k * (s.2.1 - s.1.1) - (s'.1.1 + j * (s'.2.1 - s'.1.1))) := by
        rw [hk', hj']; linear_combination τ * hx
      have e2 : s.1.2 + k' * (s.2.2 - s.1.2) - (s'.1.2 + j' * (s'.2.2 - s'.1.2)) = (1 - τ) * (s.1.2 + k * (s.2.2 - s.1.2) - (s'.1.2 + j * (s'.2.2 - s'.1.2))) := by
        rw [hk', hj']; linear_combination τ * hy
      rw [e1, e2]; ring
    rw [e]
    have : (1 - τ) ^ 2 ≤ 1 := by nlinarith
    nlinarith [sq_nonneg (eucl (along s k) (along s' j))]

/-- No intersection is found for segments without common point, if the ends of each one are not close to the other. -/
theorem cross_none (h : FlOk F u v) {ac : ℝ → ℝ} {t : Thr ℝ} {w M L S A : ℝ} (ha : AcosOk ac w) {s s' : Seg} (hp : SegPair F t u w M L S s s')
    (hno : ∀ k j, 0 ≤ k → k ≤ 1 → 0 ≤ j → j ≤ 1 → along s k ≠ along s' j)
    (v1 : ∀ j, 0 ≤ j → j ≤ 1 → A ≤ eucl s.1 (along s' j)) (v2 : ∀ j, 0 ≤ j → j ≤ 1 → A ≤ eucl s.2 (along s' j))
    (w1 : ∀ k, -(6 * (u + v) * M + 11 / 20 * t.nullDistance) ≤ k * eucl s.1 s.2 → (k - 1) * eucl s.1 s.2 ≤ 6 * (u + v) * M + 11 / 20 * t.nullDistance → A ≤ eucl s'.1 (along s k))
    (w2 : ∀ k, -(6 * (u + v) * M + 11 / 20 * t.nullDistance) ≤ k * eucl s.1 s.2 → (k - 1) * eucl s.1 s.2 ≤ 6 * (u + v) * M + 11 / 20 * t.nullDistance → A ≤ eucl s'.2 (along s k))
    (hA : 700 * (u * M ^ 2 / (L * S)) + 6 * (u + v) * M + 11 / 20 * t.nullDistance < A) (x : Pt ℝ) : Fl.segInter F t ac s s' ≠ .ok (some x) := by
  intro e
  obtain ⟨l, m, q, Q, hq⟩ := pair_point h ha hp
  obtain ⟨rfl, b1, b2⟩ := hq.only _ e
  obtain ⟨y1, -⟩ := hq.cross h hp b1
  obtain ⟨y2, -⟩ := (hq.symm h).cross h hp.symm b2
  have hL1 : 0 < eucl s.1 s.2 := lt_of_lt_of_le hp.L_pos hp.len1
  have hL2 : 0 < eucl s'.1 s'.2 := lt_of_lt_of_le hp.L_pos hp.len2
  obtain ⟨k, hk, k0, k1⟩ := seg_foot hL1 (between_only h b1) y1
  obtain ⟨j, hj, j0, j1⟩ := seg_foot hL2 (between_only h b2) y2
  have hκ := pair_kappa h hp
  have hu := h.u_nonneg
  have hv := h.v_nonneg
  have hnd : 0 < t.nullDistance := by have := dblEps_pos; linarith [hp.eps]
  obtain ⟨-, -, m1, m2, m3, m4⟩ := hp.rep1
  obtain ⟨-, -, m1', m2', m3', m4'⟩ := hp.rep2
  have c1 : (u + v) * eucl s.1 s.2 ≤ (u + v) * (3 * M) := mul_le_mul_of_nonneg_left (eucl_le_3M ⟨m1, m2⟩ ⟨m3, m4⟩) (by positivity)
  have c2 : (u + v) * eucl s'.1 s'.2 ≤ (u + v) * (3 * M) := mul_le_mul_of_nonneg_left (eucl_le_3M ⟨m1', m2'⟩ ⟨m3', m4'⟩) (by positivity)
  have hM : 0 ≤ M := (abs_nonneg _).trans m1
  have huvM : 0 ≤ (u + v) * M := by positivity
  set β := 6 * (u + v) * M + 11 / 20 * t.nullDistance with hβ
  have hβ0 : 0 ≤ β := by rw [hβ]; linarith
  replace k0 : -β ≤ k * eucl s.1 s.2 := by linarith
  replace k1 : (k - 1) * eucl s.1 s.2 ≤ β := by linarith
  replace j0 : -β ≤ j * eucl s'.1 s'.2 := by linarith
  replace j1 : (j - 1) * eucl s'.1 s'.2 ≤ β := by linarith
  have dkj : eucl (along s k) (along s' j) ≤ 700 * (u * M ^ 2 / (L * S)) := by
    have := eucl_triangle (along s k) x (along s' j)
    rw [eucl_comm (along s k) x] at this
    linarith
  have e10 : ∀ s : Seg, along s 0 = s.1 := fun s => by simp [along]
  have e11 : ∀ s : Seg, along s 1 = s.2 := fun s => by simp [along]
  have near0 : ∀ {s : Seg} {k : ℝ}, -β ≤ k * eucl s.1 s.2 → k < 0 → eucl s.1 (along s k) ≤ β := by
    intro s k h0 h1
    rw [eucl_along_left, abs_of_neg h1]; linarith
  have near1 : ∀ {s : Seg} {k : ℝ}, (k - 1) * eucl s.1 s.2 ≤ β → 1 < k → eucl s.2 (along s k) ≤ β := by
    intro s k h0 h1
    rw [eucl_along_right, abs_of_neg (by linarith)]; linarith
  rcases lt_or_ge j 0 with hj0 | hj0
  · have := w1 k k0 k1
    have tr := eucl_triangle s'.1 (along s' j) (along s k)
    rw [eucl_comm (along s' j)] at tr
    linarith [near0 j0 hj0]
  rcases lt_or_ge 1 j with hj1 | hj1
  · have := w2 k k0 k1
    have tr := eucl_triangle s'.2 (along s' j) (along s k)
    rw [eucl_comm (along s' j)] at tr
    linarith [near1 j1 hj1]
  rcases lt_or_ge k 0 with hk0 | hk0
  · have := v1 j hj0 hj1
    have tr := eucl_triangle s.1 (along s k) (along s' j)
    linarith [near0 k0 hk0]
  rcases lt_or_ge 1 k with hk1 | hk1
  · have := v2 j hj0 hj1
    have tr := eucl_triangle s.2 (along s k) (along s' j)
    linarith [near1 k1 hk1]
  have hc : (s.2.1 - s.1.1) * (s'.2.2 - s'.1.2) - (s.2.2 - s.1.2) * (s'.2.1 - s'.1.1) ≠ 0 := by
    intro e0
    have := sinSegs_cross hL1 hL2 hp.sin
    rw [e0, abs_zero] at this
    have := mul_pos hp.S_pos (mul_pos hL1 hL2)
    linarith
  obtain ⟨k', j', p1, p2, p3, p4, pc, pd⟩ := walk hk0 hk1 hj0 hj1 hc hno
  rcases pc with rfl | rfl | rfl | rfl
  · rw [e10] at pd; linarith [v1 j' p3 p4]
  · rw [e11] at pd; linarith [v2 j' p3 p4]
  · rw [e10, eucl_comm] at pd
    have := w1 k' (by have := mul_nonneg p1 hL1.le; linarith) (by have := mul_nonneg (sub_nonneg.2 p2) hL1.le; linarith)
    linarith
  · rw [e11, eucl_comm] at pd
    have := w2 k' (by have := mul_nonneg p1 hL1.le; linarith) (by have := mul_nonneg (sub_nonneg.2 p2) hL1.le; linarith)
    linarith

end H2d.Fl
