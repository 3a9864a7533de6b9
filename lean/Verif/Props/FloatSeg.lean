import Verif.Lemmas.FloatSeg
import Verif.Lemmas.FloatExact
import Verif.Props.Segment

/-! # C110: distance to a segment with rounded operations -/

namespace H2d.Props

open H2d.Spec H2d.Fl

/-- **C110.** For any arithmetic with unit roundoff `u`, the computed distance between a point and a segment (coordinates up to `M`) is a number, and is off by at most `72 u M`
from the exact shortest distance `δ`. This holds even if the region of the point is not the right one. -/
theorem C110_dist {F : Arith} {u v : ℝ} (h : FlOk F u v) {s1 s2 p : Pt ℝ} {M δ : ℝ} (hs : s1 ≠ s2)
    (h1 : |s1.1| ≤ M ∧ |s1.2| ≤ M) (h2 : |s2.1| ≤ M ∧ |s2.2| ≤ M) (hp : |p.1| ≤ M ∧ |p.2| ≤ M) (hδ : IsLeast {d | ∃ q, OnSeg s1 s2 q ∧ d = eucl p q} δ) :
    ∃ d c, Fl.segDistTo F s1 s2 p = some (d, c) ∧ 0 ≤ d ∧ |d - δ| ≤ 72 * u * M := by
  obtain ⟨d, k, c, e, -, -, -, d0, hd, -⟩ := segDist_main h hs h1 h2 hp
  rw [(C19_shortest (s1, s2) hs p).unique hδ] at hd
  exact ⟨d, c, e, d0, hd⟩

/-- For `double`, and coordinates up to 1000: less than 10^-10. -/
example : FlOk (binary 53) ((2 : ℝ) ^ (-((53 : ℕ) : ℤ))) ((2 : ℝ) ^ (-((53 : ℕ) : ℤ))) ∧ 72 * (2 : ℝ) ^ (-((53 : ℕ) : ℤ)) * 1000 < 1 / 10 ^ 10 := ⟨binary_ok (by norm_num), by norm_num⟩

/-- **C110, region.** The region given is the right one as soon as the projection of the point is not too close to an end of the segment: the margin is `11 u` times the distance to
the first end. -/
theorem C110_region {F : Arith} {u v : ℝ} (h : FlOk F u v) {s1 s2 p : Pt ℝ} (hs : s1 ≠ s2) {d : ℝ} {c : Int} (e : Fl.segDistTo F s1 s2 p = some (d, c)) :
    ((p.1 - s1.1) * (s2.1 - s1.1) + (p.2 - s1.2) * (s2.2 - s1.2) < - (11 * u * (eucl p s1 * eucl s1 s2)) → c = -1) ∧
    (11 * u * (eucl p s1 * eucl s1 s2) < (p.1 - s2.1) * (s2.1 - s1.1) + (p.2 - s2.2) * (s2.2 - s1.2) → c = 1) ∧
    (11 * u * (eucl p s1 * eucl s1 s2) ≤ (p.1 - s1.1) * (s2.1 - s1.1) + (p.2 - s1.2) * (s2.2 - s1.2) →
      (p.1 - s2.1) * (s2.1 - s1.1) + (p.2 - s2.2) * (s2.2 - s1.2) ≤ - (11 * u * (eucl p s1 * eucl s1 s2)) → c = 0) := by
  obtain ⟨M, h1, h2, hp⟩ : ∃ M, (|s1.1| ≤ M ∧ |s1.2| ≤ M) ∧ (|s2.1| ≤ M ∧ |s2.2| ≤ M) ∧ (|p.1| ≤ M ∧ |p.2| ≤ M) := by
    refine ⟨|s1.1| + |s1.2| + |s2.1| + |s2.2| + |p.1| + |p.2|, ⟨?_, ?_⟩, ⟨?_, ?_⟩, ?_, ?_⟩ <;>
      linarith [abs_nonneg s1.1, abs_nonneg s1.2, abs_nonneg s2.1, abs_nonneg s2.2, abs_nonneg p.1, abs_nonneg p.2]
  obtain ⟨d', k, c', e', a1, a2, a3, -, -, hk⟩ := segDist_main h hs h1 h2 hp
  rw [e] at e'
  obtain ⟨rfl, rfl⟩ := Prod.mk.inj (Option.some.inj e')
  have hL : 0 < eucl s1 s2 := lt_of_le_of_ne (eucl_nonneg _ _) (fun e => hs (eucl_eq_zero.1 e.symm))
  have hsq := eucl_sq s1 s2
  have e2 : (p.1 - s2.1) * (s2.1 - s1.1) + (p.2 - s2.2) * (s2.2 - s1.2) = (p.1 - s1.1) * (s2.1 - s1.1) + (p.2 - s1.2) * (s2.2 - s1.2) - eucl s1 s2 ^ 2 := by rw [hsq]; ring
  rw [e2]
  generalize (p.1 - s1.1) * (s2.1 - s1.1) + (p.2 - s1.2) * (s2.2 - s1.2) = D at *
  generalize eucl p s1 = P at *
  generalize eucl s1 s2 = L at *
  have e3 : 11 * u * (P / L) = 11 * u * (P * L) / L ^ 2 := by field_simp
  rw [e3, abs_le] at hk
  generalize 11 * u * (P * L) = m at *
  have hL2 : 0 < L ^ 2 := by positivity
  have lo : (D - m) / L ^ 2 ≤ k := by rw [sub_div]; linarith [hk.1]
  have hi : k ≤ (D + m) / L ^ 2 := by rw [add_div]; linarith [hk.2]
  rw [div_le_iff₀ hL2] at lo
  rw [le_div_iff₀ hL2] at hi
  refine ⟨fun hh => a1.2 ?_, fun hh => a2.2 ?_, fun hh1 hh2 => ?_⟩
  · by_contra hc
    have := mul_nonneg (not_lt.1 hc) hL2.le
    linarith
  · by_contra hc
    have := mul_le_mul_of_nonneg_right (not_lt.1 hc) hL2.le
    linarith
  · rcases a3 with hc | hc | hc
    · have := mul_neg_of_neg_of_pos (a1.1 hc) hL2
      linarith
    · exact hc
    · have := mul_lt_mul_of_pos_right (a2.1 hc) hL2
      linarith

/-- The three regions, with a margin of 1/10 (so for any arithmetic with `u ≤ 1/1000`). -/
example : ((-1 : ℝ) - 0) * (2 - 0) + (1 - 0) * (0 - 0) < - (1 / 10) ∧ (1 / 10 : ℝ) < (3 - 2) * (2 - 0) + (1 - 0) * (0 - 0) := by norm_num

/-- **C110, the margin is needed.** With `p` bits, `N = 2^(p-1)`: the segment from the origin to (N+1, N) and the point (N-1, -N). The projection is before the first end, but the region given is 0. -/
theorem C110_sharp {p : ℕ} (hp : 6 ≤ p) : ∃ (s1 s2 q : Pt ℝ) (d : ℝ), s1 ≠ s2 ∧ (q.1 - s1.1) * (s2.1 - s1.1) + (q.2 - s1.2) * (s2.2 - s1.2) < 0 ∧
    Fl.segDistTo (binary p) s1 s2 q = some (d, 0) := by
  obtain ⟨N, hN⟩ : ∃ N : ℝ, (2 : ℝ) ^ (p - 1) = N := ⟨_, rfl⟩
  obtain ⟨d, e⟩ := region_zero hp hN
  have h4 := four_le (p := p) (by omega)
  rw [hN] at h4
  refine ⟨(0, 0), (N + 1, N), (N - 1, -N), d, ?_, ?_, e⟩
  · intro hh
    have := congrArg Prod.snd hh
    simp only at this
    linarith
  · simp only; nlinarith

end H2d.Props
