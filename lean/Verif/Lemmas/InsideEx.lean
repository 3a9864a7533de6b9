import Verif.Lemmas.Inside
import Mathlib.Tactic.IntervalCases

/-! # A concrete polygon: the square of side 4 -/

set_option linter.unusedSimpArgs false

namespace H2d.Inside
open H2d H2d.Spec H2d.Pip

noncomputable abbrev sq4 : List (Pt ℝ) := [((0, 0) : Pt ℝ), (4, 0), (4, 4), (0, 4)]

theorem std1 : dblEps < stdR.nullDistance := by norm_num [stdR, dblEps]

theorem sq4_edges : polyEdges sq4 = [((0, 0), (4, 0)), ((4, 0), (4, 4)), ((4, 4), (0, 4)), ((0, 4), (0, 0))] := rfl

theorem sq4_good : GoodEdges stdR sq4 := by
  unfold GoodEdges
  rw [sq4_edges]
  simp only [List.forall_mem_cons, List.not_mem_nil, false_imp_iff, implies_true, and_true]
  refine ⟨?_, ?_, ?_, ?_⟩ <;> exact goodSeg_of (by norm_num) (by norm_num)

theorem sq4_box : IsTightBox (fun q => q ∈ sq4) (0, 0) (4, 4) := by
  refine ⟨?_, ?_, ?_, ?_, ?_⟩
  · simp only [List.forall_mem_cons, List.not_mem_nil, false_imp_iff, implies_true, and_true]; norm_num
  · exact ⟨(0, 0), by simp⟩
  · exact ⟨(4, 0), by simp⟩
  · exact ⟨(0, 0), by simp⟩
  · exact ⟨(4, 4), by simp⟩

theorem sq4_simple : isSimple (segInterB stdR) true sq4 = true := by
  have g : ∀ e ∈ polyEdges sq4, GoodSeg stdR e := sq4_good
  have s20 := (segInterB_sep std1 (by norm_num [stdR]) (g ((4, 4), (0, 4)) (by simp [sq4_edges])) (g ((0, 0), (4, 0)) (by simp [sq4_edges])) (Or.inr (Or.inr (Or.inl ⟨0, by norm_num [stdR]⟩)))).1
  have s31 := (segInterB_sep std1 (by norm_num [stdR]) (g ((0, 4), (0, 0)) (by simp [sq4_edges])) (g ((4, 0), (4, 4)) (by simp [sq4_edges])) (Or.inr (Or.inl ⟨0, by norm_num [stdR]⟩))).1
  simp [isSimple, segPairs_edges, sq4_edges, noCross, List.range_succ, List.range', s20, s31]

theorem sq4_lines {p : Pt ℝ} (h : 1 ≤ p.1 ∧ p.1 ≤ 3 ∧ 1 ≤ p.2 ∧ p.2 ≤ 3) : FarFromLines stdR.nullDistance sq4 p := by
  unfold FarFromLines
  rw [sq4_edges]
  obtain ⟨a, b, c, d⟩ := h
  simp only [List.forall_mem_cons, List.not_mem_nil, false_imp_iff, implies_true, and_true]
  refine ⟨?_, ?_, ?_, ?_⟩ <;> intro k <;> apply far_of_cross <;> norm_num [stdR] <;> nlinarith

theorem sq4_refs {x y : ℝ} (hx : x = 1 ∨ x = 2) (hy : y = 2 ∨ y = 5 / 2) : GoodRefs stdR sq4 (x, y) := by
  refine ⟨fun e he => (sq4_good e he).2, ?_⟩
  intro lo hi hT' n n1 n5
  obtain ⟨rfl, rfl⟩ := sq4_box.unique hT'
  rw [sq4_edges]
  simp only [List.forall_mem_cons, List.not_mem_nil, false_imp_iff, implies_true, and_true]
  interval_cases n
  · rw [show refPoint ((0, 0) : Pt ℝ) (4, 4) 1 = (-4, 2) by unfold refPoint; norm_num]
    rcases hx with rfl | rfl <;> rcases hy with rfl | rfl
    all_goals
      refine ⟨(goodSeg_of (by norm_num) (by norm_num [abs_of_pos, abs_of_neg])).2, ?_, ?_, ?_, ?_⟩
      · rintro ⟨q, ⟨s, s0, s1, rfl⟩, s', s0', s1', hh⟩
        have := congrArg Prod.snd hh; norm_num at this <;> linarith
      · intro _; exact angle_ge rfl (by norm_num) (by norm_num)
      · rintro ⟨q, ⟨s, s0, s1, rfl⟩, s', s0', s1', hh⟩
        have := congrArg Prod.snd hh; norm_num at this <;> linarith
      · intro _; exact angle_ge rfl (by norm_num) (by norm_num)
  · rw [show refPoint ((0, 0) : Pt ℝ) (4, 4) 2 = (-4, -1) by unfold refPoint; norm_num]
    rcases hx with rfl | rfl <;> rcases hy with rfl | rfl
    all_goals refine ⟨(goodSeg_of (by norm_num) (by norm_num [abs_of_pos, abs_of_neg])).2, ?_, ?_, ?_, ?_⟩ <;> (intro _; exact angle_ge rfl (by norm_num) (by norm_num))
  · rw [show refPoint ((0, 0) : Pt ℝ) (4, 4) 3 = (-4, -5/2) by unfold refPoint; norm_num]
    rcases hx with rfl | rfl <;> rcases hy with rfl | rfl
    all_goals refine ⟨(goodSeg_of (by norm_num) (by norm_num [abs_of_pos, abs_of_neg])).2, ?_, ?_, ?_, ?_⟩ <;> (intro _; exact angle_ge rfl (by norm_num) (by norm_num))
  · rw [show refPoint ((0, 0) : Pt ℝ) (4, 4) 4 = (-4, -13/4) by unfold refPoint; norm_num]
    rcases hx with rfl | rfl <;> rcases hy with rfl | rfl
    all_goals refine ⟨(goodSeg_of (by norm_num) (by norm_num [abs_of_pos, abs_of_neg])).2, ?_, ?_, ?_, ?_⟩ <;> (intro _; exact angle_ge rfl (by norm_num) (by norm_num))
  · rw [show refPoint ((0, 0) : Pt ℝ) (4, 4) 5 = (-4, -29/8) by unfold refPoint; norm_num]
    rcases hx with rfl | rfl <;> rcases hy with rfl | rfl
    all_goals refine ⟨(goodSeg_of (by norm_num) (by norm_num [abs_of_pos, abs_of_neg])).2, ?_, ?_, ?_, ?_⟩ <;> (intro _; exact angle_ge rfl (by norm_num) (by norm_num))

theorem sq4_in {x y : ℝ} (hx : x = 1 ∨ x = 2) (hy : y = 2 ∨ y = 5 / 2) : ptInsidePoly stdR true sq4 (x, y) = .ok true := by
  have hb : 1 ≤ x ∧ x ≤ 3 ∧ 1 ≤ y ∧ y ≤ 3 := by rcases hx with rfl | rfl <;> rcases hy with rfl | rfl <;> norm_num
  obtain ⟨b, hb, hiff⟩ := Props.C74_answers_partial stdR std1 (by norm_num [stdR]) (by norm_num [stdR]) _ (x, y) (0, 0) (4, 4) sq4_simple sq4_box (by norm_num [stdR])
    (by norm_num [stdR]) (fun e he => (sq4_good e he).1) (sq4_refs hx hy) (sq4_lines hb) (by
      rw [show refPoint ((0, 0) : Pt ℝ) (4, 4) 1 = (-4, 2) by unfold refPoint; norm_num]
      simp only [List.forall_mem_cons, List.not_mem_nil, false_imp_iff, implies_true, and_true]
      refine ⟨?_, ?_, ?_, ?_⟩
      all_goals
        rintro q ⟨s, s0, s1, rfl⟩
        apply le_eucl
        simp only [stdR]
        have : 2 ≤ y ∧ y ≤ 5/2 := by rcases hy with rfl | rfl <;> norm_num
        have h2 : 2 ≤ y + s * (2 - y) ∧ y + s * (2 - y) ≤ 5/2 := ⟨by nlinarith, by nlinarith⟩
        nlinarith [sq_nonneg (x + s * (-4 - x)), sq_nonneg (4 - (x + s * (-4 - x)))])
  rw [hb, hiff.2]
  unfold EvenOdd
  rw [sq4_edges]
  rcases hx with rfl | rfl <;> rcases hy with rfl | rfl <;> norm_num [CrossesRay, List.countP_cons]

theorem sq4_far {x y : ℝ} (h : 1 ≤ x ∧ x ≤ 3 ∧ 1 ≤ y ∧ y ≤ 3) : ¬ OutOrNear stdR.nullDistance sq4 (x, y) := by
  obtain ⟨a, b, c, d⟩ := h
  rintro (hn | ⟨q, ⟨e, he, hq⟩, hlt⟩)
  · apply hn
    unfold EvenOdd
    rw [sq4_edges]
    have e0 : CrossesRay (x, y) ((0, 0) : Pt ℝ) (4, 0) ↔ False := by
      unfold CrossesRay; simp only [iff_false]; rintro ⟨h | h, -⟩ <;> linarith [h.1]
    have e1 : CrossesRay (x, y) ((4, 0) : Pt ℝ) (4, 4) ↔ True := by
      unfold CrossesRay; simp only [iff_true]; exact ⟨Or.inr ⟨by linarith, by linarith⟩, by norm_num; linarith⟩
    have e2 : CrossesRay (x, y) ((4, 4) : Pt ℝ) (0, 4) ↔ False := by
      unfold CrossesRay; simp only [iff_false]; rintro ⟨h | h, -⟩ <;> linarith [h.2]
    have e3 : CrossesRay (x, y) ((0, 4) : Pt ℝ) (0, 0) ↔ False := by
      unfold CrossesRay; simp only [iff_false]; rintro ⟨-, h⟩; norm_num at h; linarith
    simp [List.countP_cons, e0, e1, e2, e3]
  · have := sq4_lines (p := (x, y)) ⟨a, b, c, d⟩ e he
    obtain ⟨k, -, -, rfl⟩ := hq
    have := this k
    unfold along at this
    linarith

end H2d.Inside
