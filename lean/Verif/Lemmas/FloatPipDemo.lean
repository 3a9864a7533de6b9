import Verif.Lemmas.FloatPipLast

/-! # A polygon and two points that meet the hypotheses of C125, in `double` with the default thresholds -/

namespace H2d.Fl
open H2d.Spec H2d.Pip H2d.Simple

/-- A polygon with the shape of a letter L. -/
def lPoly : List (ℝ × ℝ) := [(-1, -1), (1, -1), (1, 0), (0, 0), (0, 1), (-1, 1)]

theorem lPoly_edges : polyEdges lPoly = [((-1, -1), (1, -1)), ((1, -1), (1, 0)), ((1, 0), (0, 0)), ((0, 0), (0, 1)), ((0, 1), (-1, 1)), ((-1, 1), (-1, -1))] := by
  simp [polyEdges, lPoly]

theorem rep_half {n : ℤ} (k : ℤ) (h : |n| ≤ 100) {x : ℝ} (hx : x = (n : ℝ) * 2 ^ k) : Rep (binary 53) x := by
  rw [hx]
  exact roundTo_exact (by norm_num) (h.trans (by norm_num))

theorem lPoly_refY : refY (binary 53) (-1, -1) (1, 1) 1 = 0 ∧ refY (binary 53) (-1, -1) (1, 1) 2 = -3 / 2 ∧ refY (binary 53) (-1, -1) (1, 1) 3 = -9 / 4 ∧
    refY (binary 53) (-1, -1) (1, 1) 4 = -21 / 8 ∧ refY (binary 53) (-1, -1) (1, 1) 5 = -45 / 16 ∧ (binary 53).rnd (2 * (-1) - 1) = -3 := by
  have a : Rep (binary 53) 3 := rep_half (n := 3) 0 (by norm_num) (by norm_num)
  have b : Rep (binary 53) (-3) := rep_half (n := -3) 0 (by norm_num) (by norm_num)
  have z : Rep (binary 53) 0 := rep_half (n := 0) 0 (by norm_num) (by norm_num)
  have c1 : Rep (binary 53) (-9 / 2) := rep_half (n := -9) (-1) (by norm_num) (by norm_num)
  have c2 : Rep (binary 53) (-21 / 4) := rep_half (n := -21) (-2) (by norm_num) (by norm_num)
  have c3 : Rep (binary 53) (-45 / 8) := rep_half (n := -45) (-3) (by norm_num) (by norm_num)
  unfold Rep at a b z c1 c2 c3
  have y0 : refY (binary 53) (-1, -1) (1, 1) 0 = 3 := by unfold refY; norm_num [a]
  have bb : (binary 53).rnd (2 * (-1) - 1) = -3 := by norm_num [b]
  have y1 : refY (binary 53) (-1, -1) (1, 1) 1 = 0 := by unfold refY; simp only [bb, y0]; norm_num [z]
  have y2 : refY (binary 53) (-1, -1) (1, 1) 2 = -3 / 2 := by unfold refY; simp only [bb, y1]; norm_num [b]
  have y3 : refY (binary 53) (-1, -1) (1, 1) 3 = -9 / 4 := by
    unfold refY; simp only [bb, y2]; rw [show (-3 + -3 / 2 : ℝ) = -9 / 2 by norm_num, c1]; norm_num
  have y4 : refY (binary 53) (-1, -1) (1, 1) 4 = -21 / 8 := by
    unfold refY; simp only [bb, y3]; rw [show (-3 + -9 / 4 : ℝ) = -21 / 4 by norm_num, c2]; norm_num
  have y5 : refY (binary 53) (-1, -1) (1, 1) 5 = -45 / 16 := by
    unfold refY; simp only [bb, y4]; rw [show (-3 + -21 / 8 : ℝ) = -45 / 8 by norm_num, c3]; norm_num
  exact ⟨y1, y2, y3, y4, y5, bb⟩

theorem sin_axis {e : Seg} {p q : Pt ℝ} (h : (e.1.1 = e.2.1 ∧ e.1.2 ≠ e.2.2) ∨ (e.1.2 = e.2.2 ∧ e.1.1 ≠ e.2.1)) (hx : 1 / 2 ≤ |q.1 - p.1|) (hy : 1 / 2 ≤ |q.2 - p.2|) (hl : eucl p q ≤ 4) (hl0 : 0 < eucl p q) :
    1 / 8 ≤ sinSegs e (p, q) := by
  have ax : ∀ a b : Pt ℝ, a.1 = b.1 → eucl a b = |b.2 - a.2| := fun a b k => by
    unfold eucl; rw [k, sub_self, ← sq_abs (a.2 - b.2), abs_sub_comm, zero_pow (by norm_num), zero_add, Real.sqrt_sq (abs_nonneg _)]
  have ay : ∀ a b : Pt ℝ, a.2 = b.2 → eucl a b = |b.1 - a.1| := fun a b k => by
    unfold eucl; rw [k, sub_self, ← sq_abs (a.1 - b.1), abs_sub_comm, zero_pow (by norm_num), add_zero, Real.sqrt_sq (abs_nonneg _)]
  unfold sinSegs
  simp only
  rcases h with ⟨k, k'⟩ | ⟨k, k'⟩
  · have : 0 < |e.2.2 - e.1.2| := abs_pos.2 (sub_ne_zero.2 (Ne.symm k'))
    rw [ax _ _ k, k, sub_self, zero_mul, zero_sub, abs_neg, abs_mul, le_div_iff₀ (by positivity)]
    nlinarith
  · have : 0 < |e.2.1 - e.1.1| := abs_pos.2 (sub_ne_zero.2 (Ne.symm k'))
    rw [ay _ _ k, k, sub_self, zero_mul, sub_zero, abs_mul, le_div_iff₀ (by positivity)]
    nlinarith

theorem lPoly_axis : ∀ e ∈ polyEdges lPoly, (e.1.1 = e.2.1 ∧ e.1.2 ≠ e.2.2) ∨ (e.1.2 = e.2.2 ∧ e.1.1 ≠ e.2.1) := by
  rw [lPoly_edges]
  intro e he
  simp only [List.mem_cons, List.not_mem_nil, or_false] at he
  rcases he with rfl | rfl | rfl | rfl | rfl | rfl <;> norm_num

theorem lPoly_len : ∀ e ∈ polyEdges lPoly, 1 ≤ eucl e.1 e.2 ∧ SlopeOk stdR e := by
  rw [lPoly_edges]
  have v0 : eucl (-1, -1) (1, -1) = 2 := by rw [eucl_eq_iff (by norm_num)]; norm_num
  have v1 : eucl (1, -1) (1, 0) = 1 := by rw [eucl_eq_iff (by norm_num)]; norm_num
  have v2 : eucl (1, 0) (0, 0) = 1 := by rw [eucl_eq_iff (by norm_num)]; norm_num
  have v3 : eucl (0, 0) (0, 1) = 1 := by rw [eucl_eq_iff (by norm_num)]; norm_num
  have v4 : eucl (0, 1) (-1, 1) = 1 := by rw [eucl_eq_iff (by norm_num)]; norm_num
  have v5 : eucl (-1, 1) (-1, -1) = 2 := by rw [eucl_eq_iff (by norm_num)]; norm_num
  intro e he
  simp only [List.mem_cons, List.not_mem_nil, or_false] at he
  rcases he with rfl | rfl | rfl | rfl | rfl | rfl <;> simp only [SlopeOk, v0, v1, v2, v3, v4, v5] <;> norm_num [stdR]

theorem lPoly_box : IsTightBox (fun q => q ∈ lPoly) (-1, -1) (1, 1) := by
  refine ⟨fun q hq => ?_, ⟨(-1, -1), by simp [lPoly], rfl⟩, ⟨(1, -1), by simp [lPoly], rfl⟩, ⟨(-1, -1), by simp [lPoly], rfl⟩, ⟨(0, 1), by simp [lPoly], rfl⟩⟩
  simp only [lPoly, List.mem_cons, List.not_mem_nil, or_false] at hq
  rcases hq with rfl | rfl | rfl | rfl | rfl | rfl <;> norm_num

theorem lPoly_ok {x : ℝ} (hx : x = 0 ∨ x = -1 / 2) : PipOk (binary 53) stdR (2 ^ (-((53 : ℕ) : ℤ))) (2 ^ (-((53 : ℕ) : ℤ))) 0 4 1 (1 / 8) lPoly (x, -1 / 2) (-1, -1) (1, 1) where
  box := lPoly_box
  wide := by norm_num [stdR]
  rep := by
    have a : Rep (binary 53) 1 := rep_half (n := 1) 0 (by norm_num) (by norm_num)
    have b : Rep (binary 53) (-1) := rep_half (n := -1) 0 (by norm_num) (by norm_num)
    have z : Rep (binary 53) 0 := rep_half (n := 0) 0 (by norm_num) (by norm_num)
    intro q hq
    simp only [lPoly, List.mem_cons, List.not_mem_nil, or_false] at hq
    rcases hq with rfl | rfl | rfl | rfl | rfl | rfl <;> norm_num [a, b, z]
  repP := by
    have z : Rep (binary 53) 0 := rep_half (n := 0) 0 (by norm_num) (by norm_num)
    have b : Rep (binary 53) (-1 / 2) := rep_half (n := -1) (-1) (by norm_num) (by norm_num)
    rcases hx with rfl | rfl
    · exact ⟨z, b⟩
    · exact ⟨b, b⟩
  edges := fun e he => ⟨(lPoly_len e he).2, (lPoly_len e he).1⟩
  refs := by
    obtain ⟨y1, y2, y3, y4, y5, hb⟩ := lPoly_refY
    have hx' : -1 / 2 ≤ x ∧ x ≤ 0 := by rcases hx with rfl | rfl <;> norm_num
    have key : ∀ y : ℝ, 1 / 2 ≤ |y - -1 / 2| → |y - -1 / 2| ≤ 5 / 2 → SlopeOk stdR ((x, -1 / 2), (-3, y)) ∧ 1 ≤ eucl (x, -1 / 2) (-3, y) ∧
        ∀ e ∈ polyEdges lPoly, 1 / 8 ≤ sinSegs e ((x, -1 / 2), (-3, y)) := by
      intro y h1 h2
      have f1 : 5 / 2 ≤ |(-3 : ℝ) - x| := by rw [le_abs]; right; linarith
      have f0 : |(-3 : ℝ) - x| ≤ 3 := by rw [abs_le]; constructor <;> linarith
      have f2 : 5 / 2 ≤ eucl (x, -1 / 2) (-3, y) := by
        refine le_trans ?_ (abs_fst_le_eucl _ _)
        simp only; rw [abs_sub_comm]; exact f1
      have f3 : eucl (x, -1 / 2) (-3, y) ≤ 4 := by
        unfold eucl
        rw [Real.sqrt_le_left (by norm_num)]
        simp only
        have g1 := sq_abs ((-3 : ℝ) - x)
        have g2 := sq_abs (y - -1 / 2)
        have g3 := abs_nonneg ((-3 : ℝ) - x)
        have g4 := abs_nonneg (y - -1 / 2)
        nlinarith
      refine ⟨Or.inr ?_, by linarith, fun e he => sin_axis (lPoly_axis e he) (by linarith) h1 f3 (by linarith)⟩
      have : 1 / 8 ≤ |(-1 / 2 : ℝ) - y| / eucl (x, -1 / 2) (-3, y) := by
        rw [le_div_iff₀ (by linarith), abs_sub_comm]; linarith
      have e0 : stdR.nullDenom = 1 / 10 ^ 10 := by rfl
      simp only
      rw [e0]
      norm_num at this ⊢
      linarith
    intro n n1 n5
    unfold refPt
    simp only [hb]
    interval_cases n
    all_goals simp only [y1, y2, y3, y4, y5]
    · exact ⟨(key 0 (by norm_num [abs_le, le_abs]) (by norm_num [abs_le, le_abs])).1, (key 0 (by norm_num [abs_le, le_abs]) (by norm_num [abs_le, le_abs])).2.1, fun e he => Or.inl ((key 0 (by norm_num [abs_le, le_abs]) (by norm_num [abs_le, le_abs])).2.2 e he)⟩
    · exact ⟨(key (-3 / 2) (by norm_num [abs_le, le_abs]) (by norm_num [abs_le, le_abs])).1, (key (-3 / 2) (by norm_num [abs_le, le_abs]) (by norm_num [abs_le, le_abs])).2.1, fun e he => Or.inl ((key (-3 / 2) (by norm_num [abs_le, le_abs]) (by norm_num [abs_le, le_abs])).2.2 e he)⟩
    · exact ⟨(key (-9 / 4) (by norm_num [abs_le, le_abs]) (by norm_num [abs_le, le_abs])).1, (key (-9 / 4) (by norm_num [abs_le, le_abs]) (by norm_num [abs_le, le_abs])).2.1, fun e he => Or.inl ((key (-9 / 4) (by norm_num [abs_le, le_abs]) (by norm_num [abs_le, le_abs])).2.2 e he)⟩
    · exact ⟨(key (-21 / 8) (by norm_num [abs_le, le_abs]) (by norm_num [abs_le, le_abs])).1, (key (-21 / 8) (by norm_num [abs_le, le_abs]) (by norm_num [abs_le, le_abs])).2.1, fun e he => Or.inl ((key (-21 / 8) (by norm_num [abs_le, le_abs]) (by norm_num [abs_le, le_abs])).2.2 e he)⟩
    · exact ⟨(key (-45 / 16) (by norm_num [abs_le, le_abs]) (by norm_num [abs_le, le_abs])).1, (key (-45 / 16) (by norm_num [abs_le, le_abs]) (by norm_num [abs_le, le_abs])).2.1, fun e he => Or.inl ((key (-45 / 16) (by norm_num [abs_le, le_abs]) (by norm_num [abs_le, le_abs])).2.2 e he)⟩
  L_pos := by norm_num
  S_pos := by norm_num
  S_le := by norm_num
  small := by norm_num
  thr := by norm_num [stdR]
  eps := by norm_num [stdR, dblEps]
  angle := by
    have h0 : Real.sqrt (11 * 2 ^ (-((53 : ℕ) : ℤ)) / 2) ≤ 1 / 1000 := (Real.sqrt_le_left (by norm_num)).2 (by norm_num)
    have h1 := Real.pi_le_four
    have h2 := Real.pi_pos
    have h3 : Real.pi * Real.sqrt (11 * 2 ^ (-((53 : ℕ) : ℤ)) / 2) ≤ 4 * (1 / 1000) := mul_le_mul h1 h0 (Real.sqrt_nonneg _) (by norm_num)
    have e0 : stdR.nullAngleValue = 1 / 1000 := by rfl
    rw [e0]
    linarith
  num := by norm_num [stdR]

theorem lPoly_hx : 2000 * ((2 : ℝ) ^ (-((53 : ℕ) : ℤ)) * 4 ^ 3 / 1 ^ 2) ≤ stdR.nullDistance := by norm_num [stdR]

theorem lPoly_apart : EdgesApart (1 / 2) lPoly := by
  rintro i j ⟨p, q⟩ ⟨p', q'⟩ he he' hij
  have hi := edge_lt he
  have hj := edge_lt he'
  simp only [lPoly, List.length_cons, List.length_nil] at hi hj hij
  obtain ⟨a1, a2⟩ := he
  obtain ⟨b1, b2⟩ := he'
  interval_cases i <;> interval_cases j <;> simp [NotNeighbours] at hij
  all_goals
    simp [lPoly] at a1 a2 b1 b2; rw [← a1, ← a2, ← b1, ← b2]
    rintro x x' ⟨k, k0, k1, rfl⟩ ⟨k', k0', k1', rfl⟩
    first
      | refine le_trans ?_ (abs_fst_le_eucl _ _)
        simp only
        rw [le_abs]; first | (left; linarith; done) | (right; linarith; done)
      | refine le_trans ?_ (abs_snd_le_eucl _ _)
        simp only
        rw [le_abs]; first | (left; linarith; done) | (right; linarith; done)

theorem lPoly_reach : reach stdR (2 ^ (-((53 : ℕ) : ℤ))) (2 ^ (-((53 : ℕ) : ℤ))) (3 * 4) < 1 / 2 := by
  unfold reach
  have h0 : slack stdR (2 ^ (-((53 : ℕ) : ℤ))) (2 ^ (-((53 : ℕ) : ℤ))) (3 * 4) ≤ 1 / 1000 := by unfold slack; norm_num [stdR]
  have h1 : 0 ≤ slack stdR (2 ^ (-((53 : ℕ) : ℤ))) (2 ^ (-((53 : ℕ) : ℤ))) (3 * 4) := by unfold slack; norm_num [stdR]
  generalize slack stdR (2 ^ (-((53 : ℕ) : ℤ))) (2 ^ (-((53 : ℕ) : ℤ))) (3 * 4) = d at *
  have : Real.sqrt (d * (2 * (3 * 4) + d)) ≤ 1 / 4 := (Real.sqrt_le_left (by norm_num)).2 (by nlinarith)
  exact lt_of_le_of_lt (add_le_add this h0) (by norm_num)

theorem lPoly_evenOdd {x : ℝ} (hx : -1 < x ∧ x < 1) : EvenOdd lPoly (x, -1 / 2) := by
  classical
  unfold EvenOdd
  rw [lPoly_edges]
  have h1 : ¬ (x < -1) := not_lt.2 hx.1.le
  simp only [List.countP_cons, List.countP_nil, CrossesRay]
  norm_num [hx.2, h1]

theorem lPoly_far_half {x : ℝ} (hx : x = 0 ∨ x = -1 / 2) : FarFromContour (1 / 2) lPoly (x, -1 / 2) := by
  have hx' : -1 / 2 ≤ x ∧ x ≤ 0 := by rcases hx with rfl | rfl <;> norm_num
  unfold FarFromContour
  rw [lPoly_edges]
  intro e he
  simp only [List.mem_cons, List.not_mem_nil, or_false] at he
  rcases he with rfl | rfl | rfl | rfl | rfl | rfl
  all_goals
    rintro q ⟨k, k0, k1, rfl⟩
    first
      | refine le_trans ?_ (abs_fst_le_eucl _ _)
        simp only
        rw [le_abs]; first | (left; linarith; done) | (right; linarith; done)
      | refine le_trans ?_ (abs_snd_le_eucl _ _)
        simp only
        rw [le_abs]; first | (left; linarith; done) | (right; linarith; done)

theorem lPoly_far_lines : FarFromLines (1 / 2) lPoly (-1 / 2, -1 / 2) := by
  unfold FarFromLines
  rw [lPoly_edges]
  intro e he
  simp only [List.mem_cons, List.not_mem_nil, or_false] at he
  rcases he with rfl | rfl | rfl | rfl | rfl | rfl
  all_goals
    intro k
    unfold along
    first
      | refine le_trans ?_ (abs_fst_le_eucl _ _)
        simp only
        rw [le_abs]; first | (left; linarith; done) | (right; linarith; done)
      | refine le_trans ?_ (abs_snd_le_eucl _ _)
        simp only
        rw [le_abs]; first | (left; linarith; done) | (right; linarith; done)

theorem lPoly_vertices : ∀ q ∈ lPoly, ∀ y, OnSeg (-1 / 2, -1 / 2) (refPt (binary 53) (-1, -1) (1, 1) 1) y → 1 / 8 ≤ eucl q y := by
  obtain ⟨y1, -, -, -, -, hb⟩ := lPoly_refY
  unfold refPt
  simp only [y1, hb]
  rintro q hq y ⟨k, k0, k1, rfl⟩
  simp only [lPoly, List.mem_cons, List.not_mem_nil, or_false] at hq
  rcases hq with rfl | rfl | rfl | rfl | rfl | rfl
  all_goals
    first
      | refine le_trans ?_ (abs_fst_le_eucl _ _)
        simp only
        rw [le_abs]; first | (left; linarith; done) | (right; linarith; done)
      | refine le_trans ?_ (abs_snd_le_eucl _ _)
        simp only
        rw [le_abs]; first | (left; linarith; done) | (right; linarith; done)

end H2d.Fl
