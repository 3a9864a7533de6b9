import Verif.Lemmas.MoveMore
import Mathlib.Tactic.NormNum
import Mathlib.Tactic.IntervalCases

/-! # Moving a scene: a case in which it works, and one in which it does not -/

namespace H2d.Move
open H2d H2d.Spec

theorem small_slope {n : ℝ} (h0 : 0 < n) : ∃ e : ℝ, 0 < e ∧ e / Real.sqrt (e * e + 1) < n := by
  refine ⟨n / 2, by positivity, ?_⟩
  have h1 : 1 ≤ Real.sqrt (n / 2 * (n / 2) + 1) := Real.one_le_sqrt.2 (by nlinarith [sq_nonneg n])
  have h2 : n / 2 / Real.sqrt (n / 2 * (n / 2) + 1) ≤ n / 2 := div_le_self (by positivity) h1
  linarith

theorem line_band {t : Thr ℝ} (h1 : t.nullDistance ≤ 1) {e : ℝ} (he : 0 < e) (hs : e / Real.sqrt (e * e + 1) < t.nullDenom) (x : ℝ) :
    lineOfPts t (mkPt x 0) (mkPt (x + 1) e) = .ok ![e / Real.sqrt (e * e + 1), 1 / Real.sqrt (e * e + 1), x * e / Real.sqrt (e * e + 1)] := by
  have hN : 1 ≤ Real.sqrt (e * e + 1) := Real.one_le_sqrt.2 (by nlinarith [sq_nonneg e])
  have c0 : crossProd (mkPt x 0) (mkPt (x + 1) e) 0 = -e := by simp [crossProd, mkPt]
  have c1 : crossProd (mkPt x 0) (mkPt (x + 1) e) 1 = 1 := by simp [crossProd, mkPt]
  have c2 : crossProd (mkPt x 0) (mkPt (x + 1) e) 2 = x * e := by simp [crossProd, mkPt]
  have hne : ¬ PtEq t (getXY (mkPt x 0)) (getXY (mkPt (x + 1) e)) := by
    rw [show getXY (mkPt x 0) = (x, 0) by simp [getXY, mkPt], show getXY (mkPt (x + 1) e) = (x + 1, e) by simp [getXY, mkPt]]
    unfold PtEq ptDist
    rw [not_lt]
    refine h1.trans (Real.one_le_sqrt.2 ?_)
    simp only
    nlinarith [sq_nonneg e]
  unfold lineOfPts
  rw [if_neg hne, norm_steps, c0, c1, show -e * -e + 1 * 1 = e * e + 1 by ring, if_neg (by unfold dblEps; have : (1 : ℝ) / 2 ^ 52 < 1 := by norm_num
                                                                                           linarith)]
  congr 1
  generalize hNN : Real.sqrt (e * e + 1) = N at *
  have hp : 0 < e / N := by positivity
  have hq : 0 < 1 / N := by positivity
  have f : flipAll (fun i => crossProd (mkPt x 0) (mkPt (x + 1) e) i / N) = fun i => - (crossProd (mkPt x 0) (mkPt (x + 1) e) i / N) := by
    unfold flipAll
    exact if_pos (show crossProd (mkPt x 0) (mkPt (x + 1) e) 0 / N < 0 by rw [c0, neg_div]; linarith)
  rw [f]
  unfold flipLast
  beta_reduce
  rw [c0, c1, c2, if_pos (by rw [neg_div, neg_neg, abs_of_pos hp]; exact hs), if_pos (by linarith)]
  simp only [neg_div, neg_neg]

theorem line_band' {t : Thr ℝ} (h1 : t.nullDistance ≤ 1) {e : ℝ} (he : 0 < e) (hs : e / Real.sqrt (e * e + 1) < t.nullDenom) (x : ℝ) :
    lineOfPts t (mkPt (mvP (x, 0) (0, 0)).1 (mvP (x, 0) (0, 0)).2) (mkPt (mvP (x, 0) (1, e)).1 (mvP (x, 0) (1, e)).2) =
      .ok ![e / Real.sqrt (e * e + 1), 1 / Real.sqrt (e * e + 1), x * e / Real.sqrt (e * e + 1)] := by
  rw [← line_band h1 he hs x]
  simp only [mvP, zero_add, add_zero, add_comm (1 : ℝ) x]

theorem eucl_small {p q : Pt ℝ} (h1 : |p.1 - q.1| ≤ 20) (h2 : |p.2 - q.2| ≤ 20) : eucl p q ≤ 40 := by
  apply Real.sqrt_le_iff.2
  refine ⟨by norm_num, ?_⟩
  nlinarith [sq_abs (p.1 - q.1), sq_abs (p.2 - q.2), abs_nonneg (p.1 - q.1), abs_nonneg (p.2 - q.2)]

/-- Enough for a slope to be accepted. -/
theorem slope_of {x y e : ℝ} {p q : Pt ℝ} (h1 : |p.1 - q.1| ≤ 20) (h2 : |p.2 - q.2| ≤ 20) (he : y - x = e) (h : 1 / 1000 ≤ |e|) : stdR.nullDenom * eucl p q ≤ |y - x| := by
  have := eucl_small h1 h2
  rw [he]
  refine le_trans ?_ h
  have h0 : stdR.nullDenom = 1 / 10 ^ 10 := rfl
  rw [h0]
  linarith

theorem triangle_both : ∀ p ∈ [((0, 0) : Pt ℝ), (4, 0), (4, 3)], ∀ q ∈ [((0, 0) : Pt ℝ), (4, 0), (4, 3)], MoveOkBoth stdR (3, 5) p q := by
  have key : ∀ p q : Pt ℝ, |p.1 - q.1| ≤ 20 → |p.2 - q.2| ≤ 20 → (p.2 = q.2 ∨ 1 / 1000 ≤ |p.2 - q.2|) → (p.1 = q.1 ∨ 1 / 1000 ≤ |p.1 - q.1|) → MoveOkBoth stdR (3, 5) p q := by
    intro p q h1 h2 h3 h4
    exact Or.inr ⟨h3.imp_right fun h => slope_of h1 h2 rfl h, h4.imp_right fun h => slope_of h1 h2 rfl h⟩
  intro p hp q hq
  simp only [List.mem_cons, List.not_mem_nil, or_false] at hp hq
  rcases hp with rfl | rfl | rfl <;> rcases hq with rfl | rfl | rfl <;> apply key <;> norm_num

theorem triangle_ok : MoveOkPts stdR (3, 5) true [(0, 0), (4, 0), (4, 3)] := by
  intro s hs
  have hm : s.1 ∈ [((0, 0) : Pt ℝ), (4, 0), (4, 3)] ∧ s.2 ∈ [((0, 0) : Pt ℝ), (4, 0), (4, 3)] := by
    have e : segPairs true [((0, 0) : Pt ℝ), (4, 0), (4, 3)] = [((0, 0), (4, 0)), ((4, 0), (4, 3)), ((4, 3), (0, 0))] := rfl
    rw [e] at hs
    simp only [List.mem_cons, List.not_mem_nil, or_false] at hs
    rcases hs with rfl | rfl | rfl <;> simp
  rcases triangle_both s.1 hm.1 s.2 hm.2 with h | h
  · exact Or.inl h
  · exact Or.inr h.1

theorem triangle_box : polyGetBB stdR [((0, 0) : Pt ℝ), (4, 0), (4, 3)] = .ok ⟨(0, 0), (4, 3)⟩ := by
  norm_num [polyGetBB, getBB_Points, minElemLoop, maxElemLoop, samePt, sqDist, stdR, FRect.ofPts, shareCommonCoord, getCorrectPoints]

/-- The ends of the pieces of the sides. -/
theorem triangle_pieces {n : Nat} {p q : Pt ℝ} (h : Piece (bigBox ⟨(0, 0), (4, 3)⟩) n p q) :
    (∃ i : ℤ, p.2 * 2 ^ n = -3 * 2 ^ n + 9 * i) ∧ (∃ i : ℤ, q.2 * 2 ^ n = -3 * 2 ^ n + 9 * i) ∧ (|p.1| ≤ 8 ∧ |p.2| ≤ 8) ∧ |q.1| ≤ 8 ∧ |q.2| ≤ 8 := by
  induction h with
  | left => exact ⟨⟨0, by norm_num [bigBox]⟩, ⟨1, by norm_num [bigBox]⟩, by norm_num [bigBox, abs_le], by norm_num [bigBox, abs_le]⟩
  | top => exact ⟨⟨1, by norm_num [bigBox]⟩, ⟨1, by norm_num [bigBox]⟩, by norm_num [bigBox, abs_le], by norm_num [bigBox, abs_le]⟩
  | right => exact ⟨⟨1, by norm_num [bigBox]⟩, ⟨0, by norm_num [bigBox]⟩, by norm_num [bigBox, abs_le], by norm_num [bigBox, abs_le]⟩
  | bottom => exact ⟨⟨0, by norm_num [bigBox]⟩, ⟨0, by norm_num [bigBox]⟩, by norm_num [bigBox, abs_le], by norm_num [bigBox, abs_le]⟩
  | swap _ ih => exact ⟨ih.2.1, ih.1, ih.2.2.2, ih.2.2.1⟩
  | half _ ih =>
    obtain ⟨⟨i, hi⟩, ⟨j, hj⟩, hp, hq⟩ := ih
    refine ⟨⟨2 * i, ?_⟩, ⟨i + j, ?_⟩, hp, ?_⟩
    · rw [pow_succ]; push_cast; linarith
    · rw [pow_succ]; push_cast; simp only [midPt]; linarith
    · simp only [midPt, abs_le] at *
      refine ⟨⟨?_, ?_⟩, ?_, ?_⟩ <;> linarith [hp.1.1, hp.1.2, hp.2.1, hp.2.2, hq.1.1, hq.1.2, hq.2.1, hq.2.2]

theorem triangle_refs : MoveOkRefs stdR (3, 5) [(0, 0), (4, 0), (4, 3)] (3, 1) := by
  intro box hb n hn a b h
  rw [triangle_box] at hb
  cases hb
  obtain ⟨⟨i, hi⟩, ⟨j, hj⟩, hp, hq⟩ := triangle_pieces h
  have hm : |(midPt a b).1| ≤ 8 ∧ |(midPt a b).2| ≤ 8 := by
    simp only [midPt, abs_le] at *
    refine ⟨⟨?_, ?_⟩, ?_, ?_⟩ <;> linarith [hp.1.1, hp.1.2, hp.2.1, hp.2.2, hq.1.1, hq.1.2, hq.2.1, hq.2.2]
  have hk : ∃ m : ℤ, m ≠ 0 ∧ (1 - (midPt a b).2) * 32 = m := by
    simp only [midPt]
    interval_cases n
    · refine ⟨128 - 9 * (16 * (i + j)), by omega, ?_⟩
      push_cast; linarith
    · refine ⟨128 - 9 * (8 * (i + j)), by omega, ?_⟩
      push_cast; linarith
    · refine ⟨128 - 9 * (4 * (i + j)), by omega, ?_⟩
      push_cast; linarith
    · refine ⟨128 - 9 * (2 * (i + j)), by omega, ?_⟩
      push_cast; linarith
    · refine ⟨128 - 9 * (i + j), by omega, ?_⟩
      push_cast; linarith
  obtain ⟨m, hm0, hm1⟩ := hk
  refine Or.inr (Or.inr (slope_of ?_ ?_ rfl ?_))
  · have := hm.1; simp only [abs_le] at *; constructor <;> linarith [this.1, this.2]
  · have := hm.2; simp only [abs_le] at *; constructor <;> linarith [this.1, this.2]
  · have h1 : (1 : ℝ) ≤ |(m : ℝ)| := by exact_mod_cast Int.one_le_abs hm0
    rw [← hm1, abs_mul, abs_of_pos (by norm_num : (0 : ℝ) < 32)] at h1
    simp only
    linarith

end H2d.Move
