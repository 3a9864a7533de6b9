import Verif.Lemmas.FloatHull
import Verif.Props.Hull

/-! # C111: convex hull with rounded operations -/

namespace H2d.Props

open H2d.Spec H2d.Fl

/-- **C111.** With `p` bits and integer coordinates up to `B`, `8 B² ≤ 2^p` (up to 2^25 for `double`): different points, no three of them on a line through the lowest point.
The polyline computed with roundings is the exact convex hull. -/
theorem C111_hull {p : ℕ} (hp : 6 ≤ p) {B : ℤ} (hB : 8 * B ^ 2 ≤ 2 ^ p) {srt : (Nat → Nat → Bool) → List Nat → List Nat} (hs : IsSort srt) {t : Thr ℝ}
    (ht : 0 < t.nullDistance) (ht1 : t.nullDistance ≤ 1 / 2) {thr : ℝ} (hthr : thr ≤ 1) (input : List (Pt ℝ)) (hi : ∀ q ∈ input, IntUpTo B q.1 ∧ IntUpTo B q.2)
    (h4 : 4 ≤ input.length) (hnd : input.Nodup) (h2 : AtMostTwoPerRay input) :
    ∃ poly, Fl.convexHull (binary p) srt t thr input = .ok poly ∧ IsHull input poly := by
  classical
  rw [convexHull_exact hp hB srt ht ht1 thr hi (fun a b => decide (a = b)) (by simp)]
  exact C47_hull_partial hs thr _ input h4 hnd (fun a _ b _ hab => by simpa using hab) h2 (clearTurns_int hthr hi)

/-- A quadrilateral with coordinates up to 2^25, for `double`. -/
example : (8 * ((2 : ℤ) ^ 25) ^ 2 ≤ 2 ^ 53) ∧ 0 < stdR.nullDistance ∧ stdR.nullDistance ≤ 1 / 2 ∧ stdR.nullDeter ≤ 1 := by
  refine ⟨by norm_num, ?_, ?_, ?_⟩ <;> norm_num [stdR]

example : ∀ q ∈ ([(0, 0), (2 ^ 25, 1), (2 ^ 25 - 1, 2 ^ 25), (-3, 2 ^ 24)] : List (Pt ℝ)), IntUpTo (2 ^ 25) q.1 ∧ IntUpTo (2 ^ 25) q.2 := by
  intro q hq
  simp only [List.mem_cons, List.not_mem_nil, or_false] at hq
  rcases hq with rfl | rfl | rfl | rfl
  · exact ⟨⟨0, by norm_num, by norm_num⟩, 0, by norm_num, by norm_num⟩
  · exact ⟨⟨2 ^ 25, by norm_num, by norm_num⟩, 1, by norm_num, by norm_num⟩
  · exact ⟨⟨2 ^ 25 - 1, by norm_num, by norm_num⟩, 2 ^ 25, by norm_num, by norm_num⟩
  · exact ⟨⟨-3, by norm_num, by norm_num⟩, 2 ^ 24, by norm_num, by norm_num⟩

/-- **C111, any integer points.** Same coordinates, repeated or aligned points allowed: the result is the one of exact arithmetic, whatever it is. -/
theorem C111_exact {p : ℕ} (hp : 6 ≤ p) {B : ℤ} (hB : 8 * B ^ 2 ≤ 2 ^ p) (srt : (Nat → Nat → Bool) → List Nat → List Nat) {t : Thr ℝ}
    (ht : 0 < t.nullDistance) (ht1 : t.nullDistance ≤ 1 / 2) (thr : ℝ) (input : List (Pt ℝ)) (hi : ∀ q ∈ input, IntUpTo B q.1 ∧ IntUpTo B q.2)
    (same : Pt ℝ → Pt ℝ → Bool) (hsame : ∀ a b, same a b = true ↔ a = b) :
    Fl.convexHull (binary p) srt t thr input = H2d.convexHull srt thr same input := convexHull_exact hp hB srt ht ht1 thr hi same hsame

/-- **C111, the bound is needed.** With `N = 2^(p-1)`: four different points, all the coordinates are integers up to `2N`. The comparison given to `std::sort` is not a strict weak ordering:
the first is equivalent to the second, the second to the third, but the first is before the third. The behaviour of `std::sort` is undefined. -/
theorem C111_sharp {p : ℕ} (hp : 8 ≤ p) : ∃ input : List (Pt ℝ), input.Nodup ∧ (∀ q ∈ input, IntUpTo (2 ^ p) q.1 ∧ IntUpTo (2 ^ p) q.2) ∧
    ¬ StrictWeakOn (Fl.hullComp (binary p) input (getPivot input)) (hullIota input.length (getPivot input)).tail := by
  obtain ⟨input, h1, h2, h3, c12, c21, c23, c32, c13⟩ := bad_order hp
  refine ⟨input, h1, h2, fun h => ?_⟩
  rw [h3.1, h3.2] at h
  have m1 : 1 ∈ (hullIota 4 0).tail := by decide
  have m2 : 2 ∈ (hullIota 4 0).tail := by decide
  have m3 : 3 ∈ (hullIota 4 0).tail := by decide
  have := (h.incomp 1 m1 2 m2 3 m3 c12 c21 c23 c32).1
  rw [c13] at this
  exact absurd this (by decide)

end H2d.Props
