import Verif.Lemmas.Circle
import Verif.Spec.Objects

/-! # The circle of the corners of a rectangle -/

set_option linter.unusedSimpArgs false

namespace H2d

open Spec

theorem built_of (t : Thr ℝ) (h1 : dblEps < t.nullDistance) (h2 : 0 < t.nullAngleValue) (flag : Bool) (rnd : ℕ → ℕ) (pts : List (Pt ℝ))
    (h4 : 4 ≤ pts.length) (hg : ∀ p ∈ pts, ∀ q ∈ pts, GoodPair t p q) (hd : pts.Pairwise (fun a b => t.nullDistance ≤ eucl a b))
    (h3 : ∀ a ∈ pts, ∀ b ∈ pts, ∀ c ∈ pts, turnAt a b c ≠ 0 → ¬ NearCollinear t a b c ∧ ¬ ThinAngle t a b c) :
    ∃ c, circleOfPts t flag rnd pts = (.ok c, false) ∧ IsMEC pts c.center c.radius := by
  obtain ⟨w1, w2, w3⟩ := circleOfPts_spec (by linarith [dblEps_pos]) flag rnd h4 (trip_total h1 h2 hg h3)
  have hne : pts ≠ [] := by rintro rfl; simp at h4
  obtain ⟨c, hc⟩ := w3 rfl hd
  exact ⟨c, hc, (best_mec hne c).1 (w1 c (by rw [hc]))⟩

theorem rect_circle (flag : Bool) (rnd : ℕ → ℕ) : ∃ c, (circleOfPts stdR flag rnd [(0, 0), (3, 4), (3, 0), (0, 4)]) = (.ok c, false) ∧ c.radius = 5 / 2 := by
  have d : ∀ x y u v : ℝ, ∀ r : ℝ, 0 ≤ r → (x - u) ^ 2 + (y - v) ^ 2 = r ^ 2 → eucl (x, y) (u, v) = r := by
    intro x y u v r hr h; rw [eucl_eq_iff hr]; exact h
  have e1 : eucl ((0:ℝ), (0:ℝ)) (3, 4) = 5 := d _ _ _ _ _ (by norm_num) (by norm_num)
  have e2 : eucl ((0:ℝ), (0:ℝ)) (3, 0) = 3 := d _ _ _ _ _ (by norm_num) (by norm_num)
  have e3 : eucl ((0:ℝ), (0:ℝ)) (0, 4) = 4 := d _ _ _ _ _ (by norm_num) (by norm_num)
  have e4 : eucl ((3:ℝ), (4:ℝ)) (3, 0) = 4 := d _ _ _ _ _ (by norm_num) (by norm_num)
  have e5 : eucl ((3:ℝ), (4:ℝ)) (0, 4) = 3 := d _ _ _ _ _ (by norm_num) (by norm_num)
  have e6 : eucl ((3:ℝ), (0:ℝ)) (0, 4) = 5 := d _ _ _ _ _ (by norm_num) (by norm_num)
  have f1 : eucl ((3:ℝ), (4:ℝ)) (0, 0) = 5 := by rw [eucl_comm, e1]
  have f2 : eucl ((3:ℝ), (0:ℝ)) (0, 0) = 3 := by rw [eucl_comm, e2]
  have f3 : eucl ((0:ℝ), (4:ℝ)) (0, 0) = 4 := by rw [eucl_comm, e3]
  have f4 : eucl ((3:ℝ), (0:ℝ)) (3, 4) = 4 := by rw [eucl_comm, e4]
  have f5 : eucl ((0:ℝ), (4:ℝ)) (3, 4) = 3 := by rw [eucl_comm, e5]
  have f6 : eucl ((0:ℝ), (4:ℝ)) (3, 0) = 5 := by rw [eucl_comm, e6]
  have z1 := eucl_self ((0:ℝ), (0:ℝ))
  have z2 := eucl_self ((3:ℝ), (4:ℝ))
  have z3 := eucl_self ((3:ℝ), (0:ℝ))
  have z4 := eucl_self ((0:ℝ), (4:ℝ))
  have key : ∀ x : ℝ, x ≤ 9 / 10 → ¬ Real.arccos x < stdR.nullAngleValue := by
    intro x hx h
    have h1 := Real.cos_le_cos_of_nonneg_of_le_pi (Real.arccos_nonneg x) (by have := Real.two_le_pi; norm_num [stdR]; linarith) h.le
    have h2 := Real.one_sub_sq_div_two_le_cos (x := stdR.nullAngleValue)
    have h3 : Real.cos (Real.arccos x) ≤ 9 / 10 := by
      rcases le_total (-1) x with h4 | h4
      · rw [Real.cos_arccos h4 (by linarith)]; exact hx
      · rw [Real.arccos_of_le_neg_one h4]; simp; norm_num
    norm_num [stdR] at h1 h2
    linarith
  obtain ⟨c, h1, h2⟩ := built_of stdR (by norm_num [stdR, dblEps]) (by norm_num [stdR]) flag rnd [(0, 0), (3, 4), (3, 0), (0, 4)] (by simp)
    (by
      simp only [List.mem_cons, List.not_mem_nil, or_false, forall_eq_or_imp, forall_eq, GoodPair, GoodSlope, GoodSlopeX]
      simp only [e1, e2, e3, e4, e5, e6, f1, f2, f3, f4, f5, f6, z1, z2, z3, z4]
      norm_num [stdR])
    (by
      simp only [List.pairwise_cons, List.mem_cons, List.not_mem_nil, or_false, forall_eq_or_imp, forall_eq, e1, e2, e3, e4, e5, e6]
      norm_num [stdR])
    (by
      simp only [List.mem_cons, List.not_mem_nil, or_false, forall_eq_or_imp, forall_eq]
      have tr : ∀ a b c : Pt ℝ, (turnAt a b c = 0 ∨ (¬ NearCollinear stdR a b c ∧ ¬ ThinAngle stdR a b c)) → (turnAt a b c ≠ 0 → ¬ NearCollinear stdR a b c ∧ ¬ ThinAngle stdR a b c) := by
        intro a b c h h'; tauto
      refine ⟨⟨⟨?_, ?_, ?_, ?_⟩, ⟨?_, ?_, ?_, ?_⟩, ⟨?_, ?_, ?_, ?_⟩, ⟨?_, ?_, ?_, ?_⟩⟩, ⟨⟨?_, ?_, ?_, ?_⟩, ⟨?_, ?_, ?_, ?_⟩, ⟨?_, ?_, ?_, ?_⟩, ⟨?_, ?_, ?_, ?_⟩⟩,
        ⟨⟨?_, ?_, ?_, ?_⟩, ⟨?_, ?_, ?_, ?_⟩, ⟨?_, ?_, ?_, ?_⟩, ⟨?_, ?_, ?_, ?_⟩⟩, ⟨⟨?_, ?_, ?_, ?_⟩, ⟨?_, ?_, ?_, ?_⟩, ⟨?_, ?_, ?_, ?_⟩, ⟨?_, ?_, ?_, ?_⟩⟩⟩ <;>
      first
      | (refine tr _ _ _ (Or.inl ?_); norm_num [turnAt]; done)
      | (refine tr _ _ _ (Or.inr ⟨?_, ?_⟩)
         · unfold NearCollinear
           simp only [e1, e2, e3, e4, e5, e6, f1, f2, f3, f4, f5, f6]
           norm_num [stdR, turnAt]
         · unfold ThinAngle segAngle
           simp only [e1, e2, e3, e4, e5, e6, f1, f2, f3, f4, f5, f6, not_or]
           refine ⟨key _ ?_, key _ ?_, key _ ?_⟩ <;> norm_num [abs_of_pos]))
  refine ⟨c, h1, ?_⟩
  obtain ⟨-, k1, k2⟩ := h2
  have m : eucl ((3:ℝ) / 2, (2:ℝ)) (0, 0) = 5 / 2 := d _ _ _ _ _ (by norm_num) (by norm_num)
  apply le_antisymm
  · apply k2 (3 / 2, 2) (5 / 2)
    simp only [List.mem_cons, List.not_mem_nil, or_false, forall_eq_or_imp, forall_eq]
    refine ⟨?_, ?_, ?_, ?_⟩ <;> rw [eucl_le_iff' (by norm_num), eucl_sq] <;> norm_num
  · have a1 := k1 (0, 0) (by simp)
    have a2 := k1 (3, 4) (by simp)
    have := eucl_triangle (0, 0) c.center (3, 4)
    rw [e1, eucl_comm c.center] at this
    linarith

end H2d
