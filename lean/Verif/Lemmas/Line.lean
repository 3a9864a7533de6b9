import Verif.Model.Line
import Verif.Lemmas.Homogr
import Mathlib.Tactic.NormNum
import Mathlib.Tactic.Positivity

/-!
# Lemmas on normalised lines
-/

namespace H2d

open H2d.Spec

theorem dblEps_pos : 0 < dblEps := by unfold dblEps; positivity

/-- Outcome of the normalisation. -/
theorem normalizeLine_spec (t : Thr ℝ) (v : V3 ℝ) :
    (Real.sqrt (v 0 * v 0 + v 1 * v 1) ≤ dblEps ∧ normalizeLine t v = .throw) ∨
    (dblEps < Real.sqrt (v 0 * v 0 + v 1 * v 1) ∧ ∃ r, normalizeLine t v = .ok r ∧
      r 0 * r 0 + r 1 * r 1 = 1 ∧ 0 ≤ r 0 ∧
      ((r 0 < t.nullDenom → 0 ≤ r 1)) ∧
      (SameLoc v r ∨ (0 < r 0 ∧ r 0 < t.nullDenom ∧ SameLoc v ![r 0, - r 1, - r 2]))) := by
  by_cases hs : Real.sqrt (v 0 * v 0 + v 1 * v 1) ≤ dblEps
  · left; exact ⟨hs, by simp [normalizeLine, hs]⟩
  · right
    have hs' := not_le.1 hs
    refine ⟨hs', ?_⟩
    have hpos : 0 < Real.sqrt (v 0 * v 0 + v 1 * v 1) := lt_trans dblEps_pos hs'
    have hsq : Real.sqrt (v 0 * v 0 + v 1 * v 1) ^ 2 = v 0 * v 0 + v 1 * v 1 :=
      Real.sq_sqrt (add_nonneg (mul_self_nonneg _) (mul_self_nonneg _))
    simp only [normalizeLine, hs, if_false]
    generalize Real.sqrt (v 0 * v 0 + v 1 * v 1) = sq at *
    have hne : sq ≠ 0 := hpos.ne'
    -- sign change of all values
    obtain ⟨w, hw, hw0, hwk, hw1⟩ : ∃ w : V3 ℝ, (if v 0 / sq < 0 then fun i => - (v i / sq) else fun i => v i / sq) = w ∧ 0 ≤ w 0 ∧
        SameLoc v w ∧ w 0 * w 0 + w 1 * w 1 = 1 := by
      by_cases h : v 0 / sq < 0
      · refine ⟨_, rfl, ?_, ?_, ?_⟩
        · simp only [h, if_true]; linarith
        · refine ⟨- (1 / sq), by simpa using hne, fun i => ?_⟩
          simp only [h, if_true]; field_simp
        · simp only [h, if_true]; field_simp; linarith
      · refine ⟨_, rfl, ?_, ?_, ?_⟩
        · simp only [h, if_false]; linarith
        · refine ⟨1 / sq, by simpa using hne, fun i => ?_⟩
          simp only [h, if_false]; field_simp
        · simp only [h, if_false]; field_simp; linarith
    simp only [hw]
    by_cases h1 : |w 0| < t.nullDenom
    · by_cases h2 : w 1 < 0
      · refine ⟨![w 0, - w 1, - w 2], by simp [h1, h2], ?_, by simpa using hw0, ?_, ?_⟩
        · simpa using hw1
        · intro _; simp; linarith
        · rcases hw0.lt_or_eq with h3 | h3
          · right
            refine ⟨by simpa using h3, by simpa [abs_of_pos h3] using h1, ?_⟩
            have : ![w 0, w 1, w 2] = w := by apply v3_ext <;> simp
            simpa [this] using hwk
          · left
            refine SameLoc.trans hwk ⟨-1, by norm_num, fin3_forall ?_ ?_ ?_⟩ <;> simp [← h3]
      · exact ⟨w, by simp [h1, h2], hw1, hw0, fun _ => not_lt.1 h2, Or.inl hwk⟩
    · refine ⟨w, by simp [h1], hw1, hw0, fun h => ?_, Or.inl hwk⟩
      rw [abs_of_nonneg hw0] at h1
      exact absurd h h1

/-- Outside the band handled specially, the normalised line is the same line. -/
theorem normalizeLine_same {t : Thr ℝ} {v r : V3 ℝ} (h : normalizeLine t v = .ok r) (hb : r 0 = 0 ∨ t.nullDenom ≤ r 0) :
    SameLoc v r := by
  rcases normalizeLine_spec t v with ⟨-, h2⟩ | ⟨-, r', h2, -, -, -, h3⟩
  · rw [h2] at h; cases h
  · rw [h2] at h; cases h
    rcases h3 with h3 | ⟨h4, h5, -⟩
    · exact h3
    · rcases hb with hb | hb <;> linarith

end H2d
