import Verif.Lemmas.FloatHullMargin
import Verif.Lemmas.FloatSegs
import Verif.Props.Hull

/-! # C133: convex hull of any points with rounded operations -/

namespace H2d.Props

open H2d.Spec H2d.Fl

/-- **C133, points in general position.** Any number of points with coordinates up to `M`, that the constructors take as different, and such that each triangle has (twice) an area larger than the threshold by `40 u M²`:
the polyline computed with roundings is the exact convex hull. -/
theorem C133_margin_partial {F : Arith} {u v : ℝ} (h : FlOk F u v) {srt : (Nat → Nat → Bool) → List Nat → List Nat} (hs : IsSort srt) {t : Thr ℝ} {thr M : ℝ} (ht : 0 < t.nullDistance) (hthr : 0 < thr)
    (input : List (Pt ℝ)) (h4 : 4 ≤ input.length) (hM : ∀ q ∈ input, |q.1| ≤ M ∧ |q.2| ≤ M) (hnd : input.Nodup) (hd : ∀ a ∈ input, ∀ b ∈ input, a ≠ b → 2 * t.nullDistance ≤ eucl a b)
    (hm : ∀ a ∈ input, ∀ b ∈ input, ∀ c ∈ input, a ≠ b → a ≠ c → b ≠ c → thr + 40 * u * M ^ 2 < |turn a b c|) :
    ∃ poly, Fl.convexHull F srt t thr input = .ok poly ∧ IsHull input poly := by
  have hu := h.u_nonneg
  have hm' : ∀ a ∈ input, ∀ b ∈ input, ∀ c ∈ input, a ≠ b → a ≠ c → b ≠ c → 40 * u * M ^ 2 < |turn a b c| := fun a ha b hb c hc h1 h2 h3 => by linarith [hm a ha b hb c hc h1 h2 h3]
  have hnz : ∀ a ∈ input, ∀ b ∈ input, ∀ c ∈ input, a ≠ b → a ≠ c → b ≠ c → thr ≤ |turn a b c| := fun a ha b hb c hc h1 h2 h3 => by
    have : 0 ≤ 40 * u * M ^ 2 := by positivity
    linarith [hm a ha b hb c hc h1 h2 h3]
  rw [convexHull_margin srt h4 (hullComp_margin h hM hm' _) fun a ha b hb c hc => chOrientation_margin h hthr hM hm ha hb hc]
  refine C47_hull_partial hs thr _ input h4 hnd ?_ ?_ ?_
  · intro a ha b hb hab
    exact decide_eq_false (far_not_same h t (hd a ha b hb hab) ht)
  · rintro p0 hp0 a ha b hb c hc ha0 hb0 hc0 hab hac hbc ⟨z, -⟩
    have := hnz p0 hp0.1 a ha b hb ha0.symm hb0.symm hab
    rw [z, abs_zero] at this
    linarith
  · intro a ha b hb c hc
    by_cases hab : a = b
    · left; subst hab; unfold turn; ring
    by_cases hac : a = c
    · left; subst hac; unfold turn; ring
    by_cases hbc : b = c
    · left; subst hbc; unfold turn; ring
    exact Or.inr (hnz a ha b hb c hc hab hac hbc)

/-- A quadrilateral whose coordinates are not integers, for `double` and the default thresholds. -/
example : ∃ poly, Fl.convexHull (binary 53) insSort stdR stdR.nullDeter [(0, 0), (1 / 3, 1 / 7), (1 / 5, 1), (- 1 / 3, 1 / 2)] = .ok poly ∧ IsHull [(0, 0), (1 / 3, 1 / 7), (1 / 5, 1), (- 1 / 3, 1 / 2)] poly := by
  refine C133_margin_partial (M := 1) (binary_ok (p := 53) (by norm_num)) Hull.insSort_isSort (by norm_num [stdR]) (by norm_num [stdR]) _ (by simp) ?_ ?_ ?_ ?_
  · intro q hq
    simp only [List.mem_cons, List.not_mem_nil, or_false] at hq
    rcases hq with rfl | rfl | rfl | rfl <;> norm_num [abs_le]
  · norm_num
  · intro a ha b hb hab
    simp only [List.mem_cons, List.not_mem_nil, or_false] at ha hb
    have hle : 2 * stdR.nullDistance ≤ 1 / 10 := by norm_num [stdR]
    refine hle.trans ?_
    refine le_trans ?_ (abs_snd_le_eucl a b)
    rcases ha with rfl | rfl | rfl | rfl <;> rcases hb with rfl | rfl | rfl | rfl <;> first | exact absurd rfl hab | (rw [le_abs]; norm_num)
  · intro a ha b hb c hc hab hac hbc
    simp only [List.mem_cons, List.not_mem_nil, or_false] at ha hb hc
    have hle : stdR.nullDeter + 40 * 2 ^ (-((53 : ℕ) : ℤ)) * 1 ^ 2 < (1 / 100 : ℝ) := by norm_num [stdR]
    refine hle.trans ?_
    rcases ha with rfl | rfl | rfl | rfl <;> rcases hb with rfl | rfl | rfl | rfl <;> first
      | exact absurd rfl hab
      | (rcases hc with rfl | rfl | rfl | rfl <;> first
          | exact absurd rfl hac
          | exact absurd rfl hbc
          | (unfold turn; rw [lt_abs]; norm_num))

/-- **C133 is false in general.** With `p` bits and a threshold of at most 1: four different points whose coordinates are integers up to `2^p`. The comparison given to `std::sort` is a strict weak ordering, the sort is a right one (and stable),
but the scan takes the top of an empty stack: `(0,0)`, `(N,M)`, `(N+1,M+1)`, `(N+2,M+1)` with `N = 2^p - 8`, `M = 5/8 2^p`. -/
theorem C133_false {p : ℕ} (hp : 6 ≤ p) (t : Thr ℝ) {thr : ℝ} (hthr : thr ≤ 1) : ∃ input : List (Pt ℝ), input.length = 4 ∧ input.Nodup ∧ (∀ q ∈ input, IntUpTo (2 ^ p) q.1 ∧ IntUpTo (2 ^ p) q.2) ∧
    StrictWeakOn (Fl.hullComp (binary p) input (getPivot input)) (hullIota input.length (getPivot input)).tail ∧ IsSort (insSort (α := Nat)) ∧
    Fl.convexHull (binary p) insSort t thr input = .ub := by
  obtain ⟨input, h4, h1, h2, hc, hu⟩ := underflow hp (t := t) hthr
  refine ⟨input, h4, h1, h2, ?_, Hull.insSort_isSort, hu⟩
  refine ⟨fun a ha => hc a ha a ha, fun a ha b hb c _ hab => ?_, fun a ha _ _ c hc' _ _ _ _ => ⟨hc a ha c hc', hc c hc' a ha⟩⟩
  rw [hc a ha b hb] at hab
  cases hab

end H2d.Props
