import Verif.Lemmas.FloatPipDemo

/-! # Two polygons whose vertices are on reference segments -/

namespace H2d.Fl
open H2d.Spec H2d.Pip H2d.Simple

/-- The origin is inside this polygon; the five reference segments go through the first five vertices. -/
noncomputable def comb5 : List (ℝ × ℝ) := [(-1, 0), (-1, -1 / 2), (-1, -3 / 4), (-1, -7 / 8), (-1, -15 / 16), (1, -1), (1, 1)]

/-- The origin is inside this polygon; four reference segments go through the first four vertices. -/
noncomputable def comb4 : List (ℝ × ℝ) := [(-1, 0), (-1, -1 / 2), (-1, -3 / 4), (-1, -7 / 8), (1, -1), (1, 1)]

theorem comb5_edges : polyEdges comb5 = [((-1, 0), (-1, -1 / 2)), ((-1, -1 / 2), (-1, -3 / 4)), ((-1, -3 / 4), (-1, -7 / 8)), ((-1, -7 / 8), (-1, -15 / 16)), ((-1, -15 / 16), (1, -1)), ((1, -1), (1, 1)), ((1, 1), (-1, 0))] := by
  simp [polyEdges, comb5]

theorem comb4_edges : polyEdges comb4 = [((-1, 0), (-1, -1 / 2)), ((-1, -1 / 2), (-1, -3 / 4)), ((-1, -3 / 4), (-1, -7 / 8)), ((-1, -7 / 8), (1, -1)), ((1, -1), (1, 1)), ((1, 1), (-1, 0))] := by
  simp [polyEdges, comb4]

theorem rep_dyadic {n : ℤ} (k : ℤ) (h : |n| ≤ 100) {x : ℝ} (hx : x = (n : ℝ) * 2 ^ k) : Rep (binary 64) x := by
  rw [hx]
  exact roundTo_exact (by norm_num) (h.trans (by norm_num))

theorem comb_refY : refY (binary 64) (-1, -1) (1, 1) 1 = 0 ∧ refY (binary 64) (-1, -1) (1, 1) 2 = -3 / 2 ∧ refY (binary 64) (-1, -1) (1, 1) 3 = -9 / 4 ∧
    refY (binary 64) (-1, -1) (1, 1) 4 = -21 / 8 ∧ refY (binary 64) (-1, -1) (1, 1) 5 = -45 / 16 ∧ (binary 64).rnd (2 * (-1) - 1) = -3 := by
  have a : Rep (binary 64) 3 := rep_dyadic (n := 3) 0 (by norm_num) (by norm_num)
  have b : Rep (binary 64) (-3) := rep_dyadic (n := -3) 0 (by norm_num) (by norm_num)
  have z : Rep (binary 64) 0 := rep_dyadic (n := 0) 0 (by norm_num) (by norm_num)
  have c1 : Rep (binary 64) (-9 / 2) := rep_dyadic (n := -9) (-1) (by norm_num) (by norm_num)
  have c2 : Rep (binary 64) (-21 / 4) := rep_dyadic (n := -21) (-2) (by norm_num) (by norm_num)
  have c3 : Rep (binary 64) (-45 / 8) := rep_dyadic (n := -45) (-3) (by norm_num) (by norm_num)
  unfold Rep at a b z c1 c2 c3
  have y0 : refY (binary 64) (-1, -1) (1, 1) 0 = 3 := by unfold refY; norm_num [a]
  have bb : (binary 64).rnd (2 * (-1) - 1) = -3 := by norm_num [b]
  have y1 : refY (binary 64) (-1, -1) (1, 1) 1 = 0 := by unfold refY; simp only [bb, y0]; norm_num [z]
  have y2 : refY (binary 64) (-1, -1) (1, 1) 2 = -3 / 2 := by unfold refY; simp only [bb, y1]; norm_num [b]
  have y3 : refY (binary 64) (-1, -1) (1, 1) 3 = -9 / 4 := by
    unfold refY; simp only [bb, y2]; rw [show (-3 + -3 / 2 : ℝ) = -9 / 2 by norm_num, c1]; norm_num
  have y4 : refY (binary 64) (-1, -1) (1, 1) 4 = -21 / 8 := by
    unfold refY; simp only [bb, y3]; rw [show (-3 + -9 / 4 : ℝ) = -21 / 4 by norm_num, c2]; norm_num
  have y5 : refY (binary 64) (-1, -1) (1, 1) 5 = -45 / 16 := by
    unfold refY; simp only [bb, y4]; rw [show (-3 + -21 / 8 : ℝ) = -45 / 8 by norm_num, c3]; norm_num
  exact ⟨y1, y2, y3, y4, y5, bb⟩

theorem eucl_le_of {p q : Pt ℝ} {l : ℝ} (h0 : 0 ≤ l) (h : (p.1 - q.1) ^ 2 + (p.2 - q.2) ^ 2 ≤ l ^ 2) : eucl p q ≤ l := by
  unfold eucl; exact (Real.sqrt_le_left h0).2 h

theorem le_eucl_of {p q : Pt ℝ} {l : ℝ} (h : l ^ 2 ≤ (p.1 - q.1) ^ 2 + (p.2 - q.2) ^ 2) : l ≤ eucl p q := by
  unfold eucl; exact Real.le_sqrt_of_sq_le h

theorem sin_ge {s s' : Seg} {S a l l' : ℝ} (ha : a ≤ |(s.2.1 - s.1.1) * (s'.2.2 - s'.1.2) - (s.2.2 - s.1.2) * (s'.2.1 - s'.1.1)|) (h1 : eucl s.1 s.2 ≤ l) (h2 : eucl s'.1 s'.2 ≤ l')
    (p1 : 0 < eucl s.1 s.2) (p2 : 0 < eucl s'.1 s'.2) (hS : 0 ≤ S) (hl : S * (l * l') ≤ a) : S ≤ sinSegs s s' := by
  unfold sinSegs
  rw [le_div_iff₀ (mul_pos p1 p2)]
  refine le_trans (mul_le_mul_of_nonneg_left (mul_le_mul h1 h2 p2.le (p1.le.trans h1)) hS) (hl.trans ha)

theorem slope_ge {s : Seg} {a l : ℝ} (ha : a ≤ |s.1.2 - s.2.2|) (h1 : eucl s.1 s.2 ≤ l) (p1 : 0 < eucl s.1 s.2) (hl : 1 / 10 ^ 9 * l ≤ a) : SlopeOk stdR s := by
  right
  have : 1 / 10 ^ 9 ≤ |s.1.2 - s.2.2| / eucl s.1 s.2 := by
    rw [le_div_iff₀ p1]
    exact le_trans (mul_le_mul_of_nonneg_left h1 (by norm_num)) (hl.trans ha)
  rw [show stdR.nullDenom = 1 / 10 ^ 10 from rfl]
  norm_num at this ⊢
  linarith

theorem comb_reach : reach stdR (2 ^ (-((64 : ℕ) : ℤ))) (2 ^ (-((64 : ℕ) : ℤ))) (3 * 4) < 1 / 32 := by
  unfold reach
  have h0 : slack stdR (2 ^ (-((64 : ℕ) : ℤ))) (2 ^ (-((64 : ℕ) : ℤ))) (3 * 4) ≤ 1 / 10 ^ 6 := by unfold slack; norm_num [stdR]
  have h1 : 0 ≤ slack stdR (2 ^ (-((64 : ℕ) : ℤ))) (2 ^ (-((64 : ℕ) : ℤ))) (3 * 4) := by unfold slack; norm_num [stdR]
  generalize slack stdR (2 ^ (-((64 : ℕ) : ℤ))) (2 ^ (-((64 : ℕ) : ℤ))) (3 * 4) = d at *
  have : Real.sqrt (d * (2 * (3 * 4) + d)) ≤ 1 / 64 := (Real.sqrt_le_left (by norm_num)).2 (by nlinarith)
  exact lt_of_le_of_lt (add_le_add this h0) (by norm_num)

/-- What is needed of an edge. -/
def CombEdge (e : Seg) : Prop := (SlopeOk stdR e ∧ 1 / 16 ≤ eucl e.1 e.2) ∧ ∀ y ∈ [(0 : ℝ), -3 / 2, -9 / 4, -21 / 8, -45 / 16],
  1 / 64 ≤ sinSegs e ((0, 0), (-3, y)) ∨ ∀ x z, OnSeg e.1 e.2 x → OnSeg (0, 0) (-3, y) z → reach stdR (2 ^ (-((64 : ℕ) : ℤ))) (2 ^ (-((64 : ℕ) : ℤ))) (3 * 4) < eucl x z

theorem combEdge_of {e : Seg} {l : ℝ} (h1 : 1 / 16 ≤ eucl e.1 e.2) (h2 : eucl e.1 e.2 ≤ l) (h3 : 1 / 10 ^ 9 * l ≤ |e.1.2 - e.2.2|)
    (h4 : ∀ y ∈ [(0 : ℝ), -3 / 2, -9 / 4, -21 / 8, -45 / 16], l / 12 ≤ |(e.2.1 - e.1.1) * y - (e.2.2 - e.1.2) * (-3)| ∨
      ∀ x z, OnSeg e.1 e.2 x → OnSeg (0, 0) (-3, y) z → reach stdR (2 ^ (-((64 : ℕ) : ℤ))) (2 ^ (-((64 : ℕ) : ℤ))) (3 * 4) < eucl x z) : CombEdge e := by
  have hp : 0 < eucl e.1 e.2 := by linarith
  refine ⟨⟨slope_ge (le_refl _) h2 hp h3, h1⟩, fun y hy => ?_⟩
  have hy' : |y| ≤ 3 := by
    simp only [List.mem_cons, List.not_mem_nil, or_false] at hy
    rcases hy with rfl | rfl | rfl | rfl | rfl <;> norm_num [abs_le]
  rcases h4 y hy with k | k
  · left
    have q1 : eucl (0, 0) (-3, y) ≤ 5 := eucl_le_of (by norm_num) (by
      simp only
      have := sq_abs y
      have := abs_nonneg y
      nlinarith)
    have q2 : 3 ≤ eucl (0, 0) (-3, y) := le_eucl_of (by simp only; nlinarith [sq_nonneg y])
    refine sin_ge (a := l / 12) (l := l) (l' := 5) ?_ h2 q1 hp (by linarith) (by norm_num) (by linarith)
    simpa using k
  · exact Or.inr k

theorem comb_e0 : CombEdge ((-1, 0), (-1, -1 / 2)) := combEdge_of (l := 1 / 2) (le_eucl_of (by norm_num)) (eucl_le_of (by norm_num) (by norm_num)) (by norm_num [le_abs]) (by norm_num [le_abs])
theorem comb_e1 : CombEdge ((-1, -1 / 2), (-1, -3 / 4)) := combEdge_of (l := 1 / 4) (le_eucl_of (by norm_num)) (eucl_le_of (by norm_num) (by norm_num)) (by norm_num [le_abs]) (by norm_num [le_abs])
theorem comb_e2 : CombEdge ((-1, -3 / 4), (-1, -7 / 8)) := combEdge_of (l := 1 / 8) (le_eucl_of (by norm_num)) (eucl_le_of (by norm_num) (by norm_num)) (by norm_num [le_abs]) (by norm_num [le_abs])
theorem comb_e3 : CombEdge ((-1, -7 / 8), (-1, -15 / 16)) := combEdge_of (l := 1 / 16) (le_eucl_of (by norm_num)) (eucl_le_of (by norm_num) (by norm_num)) (by norm_num [le_abs]) (by norm_num [le_abs])
theorem comb_e4 : CombEdge ((-1, -15 / 16), (1, -1)) := combEdge_of (l := 9 / 4) (le_eucl_of (by norm_num)) (eucl_le_of (by norm_num) (by norm_num)) (by norm_num [le_abs]) (by norm_num [le_abs])
theorem comb_e4' : CombEdge ((-1, -7 / 8), (1, -1)) := combEdge_of (l := 9 / 4) (le_eucl_of (by norm_num)) (eucl_le_of (by norm_num) (by norm_num)) (by norm_num [le_abs]) (by norm_num [le_abs])
theorem comb_e5 : CombEdge ((1, -1), (1, 1)) := combEdge_of (l := 2) (le_eucl_of (by norm_num)) (eucl_le_of (by norm_num) (by norm_num)) (by norm_num [le_abs]) (by norm_num [le_abs])
theorem comb_e6 : CombEdge ((1, 1), (-1, 0)) := by
  refine combEdge_of (l := 9 / 4) (le_eucl_of (by norm_num)) (eucl_le_of (by norm_num) (by norm_num)) (by norm_num [le_abs]) ?_
  have far : ∀ x z, OnSeg (1, 1) (-1, 0) x → OnSeg (0, 0) (-3, -3 / 2) z → reach stdR (2 ^ (-((64 : ℕ) : ℤ))) (2 ^ (-((64 : ℕ) : ℤ))) (3 * 4) < eucl x z := by
    rintro x z ⟨k, k0, k1, rfl⟩ ⟨j, j0, j1, rfl⟩
    refine lt_of_lt_of_le comb_reach ?_
    apply le_eucl_of
    simp only
    nlinarith [sq_nonneg (2 * k - 3 * j - 1), sq_nonneg ((1 + k * (-1 - 1) - (0 + j * (-3 - 0))) * 2 + (1 + k * (0 - 1) - (0 + j * (-3 / 2 - 0))))]
  intro y hy
  simp only [List.mem_cons, List.not_mem_nil, or_false] at hy
  rcases hy with rfl | rfl | rfl | rfl | rfl
  · left; norm_num [le_abs]
  · exact Or.inr far
  · left; norm_num [le_abs]
  · left; norm_num [le_abs]
  · left; norm_num [le_abs]

/-- The conditions of C125 from those on the edges. -/
theorem comb_pip {pts : List (Pt ℝ)} (hb : IsTightBox (fun q => q ∈ pts) (-1, -1) (1, 1)) (hr : ∀ q ∈ pts, (Rep (binary 64) q.1 ∧ Rep (binary 64) q.2) ∧ |q.1| ≤ 4 / 4 ∧ |q.2| ≤ 4 / 4)
    (he : ∀ e ∈ polyEdges pts, CombEdge e) : PipOk (binary 64) stdR (2 ^ (-((64 : ℕ) : ℤ))) (2 ^ (-((64 : ℕ) : ℤ))) 0 4 (1 / 16) (1 / 64) pts (0, 0) (-1, -1) (1, 1) where
  box := hb
  wide := by norm_num [stdR]
  rep := hr
  repP := by
    have z : Rep (binary 64) 0 := rep_dyadic (n := 0) 0 (by norm_num) (by norm_num)
    exact ⟨z, z⟩
  edges := fun e h => (he e h).1
  refs := by
    obtain ⟨y1, y2, y3, y4, y5, hb⟩ := comb_refY
    have key : ∀ y : ℝ, y ∈ [(0 : ℝ), -3 / 2, -9 / 4, -21 / 8, -45 / 16] → y = 0 ∨ y ≤ -1 → -3 ≤ y → SlopeOk stdR ((0, 0), (-3, y)) ∧ 1 / 16 ≤ eucl (0, 0) (-3, y) ∧
        ∀ e ∈ polyEdges pts, 1 / 64 ≤ sinSegs e ((0, 0), (-3, y)) ∨
          ∀ x z, OnSeg e.1 e.2 x → OnSeg (0, 0) (-3, y) z → reach stdR (2 ^ (-((64 : ℕ) : ℤ))) (2 ^ (-((64 : ℕ) : ℤ))) (3 * 4) < eucl x z := by
      intro y hy h0 h3
      have f : 3 ≤ eucl (0, 0) (-3, y) := le_eucl_of (by simp only; nlinarith [sq_nonneg y])
      refine ⟨?_, by linarith, fun e h => (he e h).2 y hy⟩
      rcases h0 with rfl | h0
      · exact Or.inl rfl
      · refine slope_ge (a := 1) (l := 5) ?_ (eucl_le_of (by norm_num) (by simp only; nlinarith)) (by linarith) (by norm_num)
        simp only
        rw [le_abs]; left; linarith
    intro n n1 n5
    unfold refPt
    simp only [hb]
    interval_cases n
    · rw [y1]; exact key 0 (by simp) (Or.inl rfl) (by norm_num)
    · rw [y2]; exact key (-3 / 2) (by simp) (Or.inr (by norm_num)) (by norm_num)
    · rw [y3]; exact key (-9 / 4) (by simp) (Or.inr (by norm_num)) (by norm_num)
    · rw [y4]; exact key (-21 / 8) (by simp) (Or.inr (by norm_num)) (by norm_num)
    · rw [y5]; exact key (-45 / 16) (by simp) (Or.inr (by norm_num)) (by norm_num)
  L_pos := by norm_num
  S_pos := by norm_num
  S_le := by norm_num
  small := by norm_num
  thr := by norm_num [stdR]
  eps := by norm_num [stdR, dblEps]
  angle := by
    have h0 : Real.sqrt (11 * 2 ^ (-((64 : ℕ) : ℤ)) / 2) ≤ 1 / 10000 := (Real.sqrt_le_left (by norm_num)).2 (by norm_num)
    have h1 := Real.pi_le_four
    have h2 := Real.pi_pos
    have h3 : Real.pi * Real.sqrt (11 * 2 ^ (-((64 : ℕ) : ℤ)) / 2) ≤ 4 * (1 / 10000) := mul_le_mul h1 h0 (Real.sqrt_nonneg _) (by norm_num)
    have e0 : stdR.nullAngleValue = 1 / 1000 := by rfl
    rw [e0]
    linarith
  num := by norm_num [stdR]

theorem comb_reps : Rep (binary 64) 1 ∧ Rep (binary 64) (-1) ∧ Rep (binary 64) 0 ∧ Rep (binary 64) (-1 / 2) ∧ Rep (binary 64) (-3 / 4) ∧ Rep (binary 64) (-7 / 8) ∧ Rep (binary 64) (-15 / 16) :=
  ⟨rep_dyadic (n := 1) 0 (by norm_num) (by norm_num), rep_dyadic (n := -1) 0 (by norm_num) (by norm_num), rep_dyadic (n := 0) 0 (by norm_num) (by norm_num),
    rep_dyadic (n := -1) (-1) (by norm_num) (by norm_num), rep_dyadic (n := -3) (-2) (by norm_num) (by norm_num), rep_dyadic (n := -7) (-3) (by norm_num) (by norm_num), rep_dyadic (n := -15) (-4) (by norm_num) (by norm_num)⟩

theorem comb5_ok : PipOk (binary 64) stdR (2 ^ (-((64 : ℕ) : ℤ))) (2 ^ (-((64 : ℕ) : ℤ))) 0 4 (1 / 16) (1 / 64) comb5 (0, 0) (-1, -1) (1, 1) := by
  refine comb_pip ⟨fun q hq => ?_, ⟨(-1, 0), by simp [comb5], rfl⟩, ⟨(1, 1), by simp [comb5], rfl⟩, ⟨(1, -1), by simp [comb5], rfl⟩, ⟨(1, 1), by simp [comb5], rfl⟩⟩ ?_ ?_
  · simp only [comb5, List.mem_cons, List.not_mem_nil, or_false] at hq
    rcases hq with rfl | rfl | rfl | rfl | rfl | rfl | rfl <;> norm_num
  · obtain ⟨a, b, c, d, e, f, g⟩ := comb_reps
    intro q hq
    simp only [comb5, List.mem_cons, List.not_mem_nil, or_false] at hq
    rcases hq with rfl | rfl | rfl | rfl | rfl | rfl | rfl
    exacts [⟨⟨b, c⟩, by norm_num⟩, ⟨⟨b, d⟩, by norm_num [abs_le]⟩, ⟨⟨b, e⟩, by norm_num [abs_le]⟩, ⟨⟨b, f⟩, by norm_num [abs_le]⟩, ⟨⟨b, g⟩, by norm_num [abs_le]⟩, ⟨⟨a, b⟩, by norm_num⟩, ⟨⟨a, a⟩, by norm_num⟩]
  · rw [comb5_edges]
    simp only [List.forall_mem_cons, List.not_mem_nil, false_imp_iff, implies_true, and_true]
    exact ⟨comb_e0, comb_e1, comb_e2, comb_e3, comb_e4, comb_e5, comb_e6⟩

theorem comb4_ok : PipOk (binary 64) stdR (2 ^ (-((64 : ℕ) : ℤ))) (2 ^ (-((64 : ℕ) : ℤ))) 0 4 (1 / 16) (1 / 64) comb4 (0, 0) (-1, -1) (1, 1) := by
  refine comb_pip ⟨fun q hq => ?_, ⟨(-1, 0), by simp [comb4], rfl⟩, ⟨(1, 1), by simp [comb4], rfl⟩, ⟨(1, -1), by simp [comb4], rfl⟩, ⟨(1, 1), by simp [comb4], rfl⟩⟩ ?_ ?_
  · simp only [comb4, List.mem_cons, List.not_mem_nil, or_false] at hq
    rcases hq with rfl | rfl | rfl | rfl | rfl | rfl <;> norm_num
  · obtain ⟨a, b, c, d, e, f, g⟩ := comb_reps
    intro q hq
    simp only [comb4, List.mem_cons, List.not_mem_nil, or_false] at hq
    rcases hq with rfl | rfl | rfl | rfl | rfl | rfl
    exacts [⟨⟨b, c⟩, by norm_num⟩, ⟨⟨b, d⟩, by norm_num [abs_le]⟩, ⟨⟨b, e⟩, by norm_num [abs_le]⟩, ⟨⟨b, f⟩, by norm_num [abs_le]⟩, ⟨⟨a, b⟩, by norm_num⟩, ⟨⟨a, a⟩, by norm_num⟩]
  · rw [comb4_edges]
    simp only [List.forall_mem_cons, List.not_mem_nil, false_imp_iff, implies_true, and_true]
    exact ⟨comb_e0, comb_e1, comb_e2, comb_e4', comb_e5, comb_e6⟩

theorem comb5_apart : EdgesApart (1 / 32) comb5 := by
  rintro i j ⟨p, q⟩ ⟨p', q'⟩ he he' hij
  have hi := edge_lt he
  have hj := edge_lt he'
  simp only [comb5, List.length_cons, List.length_nil] at hi hj hij
  obtain ⟨a1, a2⟩ := he
  obtain ⟨b1, b2⟩ := he'
  interval_cases i <;> interval_cases j <;> simp [NotNeighbours] at hij
  all_goals
    simp [comb5] at a1 a2 b1 b2; rw [← a1, ← a2, ← b1, ← b2]
    rintro x x' ⟨k, k0, k1, rfl⟩ ⟨k', k0', k1', rfl⟩
    first
      | refine le_trans ?_ (abs_fst_le_eucl _ _)
        simp only
        rw [le_abs]; first | (left; linarith; done) | (right; linarith; done)
      | refine le_trans ?_ (abs_snd_le_eucl _ _)
        simp only
        rw [le_abs]; first | (left; linarith; done) | (right; linarith; done)

theorem comb4_apart : EdgesApart (1 / 32) comb4 := by
  rintro i j ⟨p, q⟩ ⟨p', q'⟩ he he' hij
  have hi := edge_lt he
  have hj := edge_lt he'
  simp only [comb4, List.length_cons, List.length_nil] at hi hj hij
  obtain ⟨a1, a2⟩ := he
  obtain ⟨b1, b2⟩ := he'
  interval_cases i <;> interval_cases j <;> simp [NotNeighbours] at hij
  all_goals
    simp [comb4] at a1 a2 b1 b2; rw [← a1, ← a2, ← b1, ← b2]
    rintro x x' ⟨k, k0, k1, rfl⟩ ⟨k', k0', k1', rfl⟩
    first
      | refine le_trans ?_ (abs_fst_le_eucl _ _)
        simp only
        rw [le_abs]; first | (left; linarith; done) | (right; linarith; done)
      | refine le_trans ?_ (abs_snd_le_eucl _ _)
        simp only
        rw [le_abs]; first | (left; linarith; done) | (right; linarith; done)

theorem comb_hx : 2000 * ((2 : ℝ) ^ (-((64 : ℕ) : ℤ)) * 4 ^ 3 / (1 / 16) ^ 2) ≤ stdR.nullDistance := by norm_num [stdR]

theorem comb5_far : FarFromLines (2 / 5) comb5 (0, 0) := by
  unfold FarFromLines
  rw [comb5_edges]
  simp only [List.forall_mem_cons, List.not_mem_nil, false_imp_iff, implies_true, and_true]
  refine ⟨?_, ?_, ?_, ?_, ?_, ?_, ?_⟩
  all_goals
    intro k
    apply far_of_cross <;> norm_num

theorem comb4_far : FarFromLines (2 / 5) comb4 (0, 0) := by
  unfold FarFromLines
  rw [comb4_edges]
  simp only [List.forall_mem_cons, List.not_mem_nil, false_imp_iff, implies_true, and_true]
  refine ⟨?_, ?_, ?_, ?_, ?_, ?_⟩
  all_goals
    intro k
    apply far_of_cross <;> norm_num

theorem comb5_evenOdd : EvenOdd comb5 (0, 0) := by
  classical
  unfold EvenOdd
  rw [comb5_edges]
  norm_num [CrossesRay, List.countP_cons]

theorem comb4_evenOdd : EvenOdd comb4 (0, 0) := by
  classical
  unfold EvenOdd
  rw [comb4_edges]
  norm_num [CrossesRay, List.countP_cons]

/-- The fifth reference segment is not close to a vertex. -/
theorem comb4_vertices : ∀ q ∈ comb4, ∀ y, OnSeg (0, 0) (refPt (binary 64) (-1, -1) (1, 1) 5) y → 1 / 100 ≤ eucl q y := by
  obtain ⟨-, -, -, -, y5, hb⟩ := comb_refY
  unfold refPt
  simp only [y5, hb]
  rintro q hq y ⟨k, k0, k1, rfl⟩
  simp only [comb4, List.mem_cons, List.not_mem_nil, or_false] at hq
  rcases hq with rfl | rfl | rfl | rfl | rfl | rfl
  all_goals
    apply le_eucl_of
    simp only
    nlinarith [sq_nonneg (3 * k - 1)]

/-- Each of the five reference segments goes through a vertex. -/
theorem comb5_on : ∀ n, 1 ≤ n → n ≤ 5 → ∃ q ∈ comb5, OnSeg (0, 0) (refPt (binary 64) (-1, -1) (1, 1) n) q := by
  obtain ⟨y1, y2, y3, y4, y5, hb⟩ := comb_refY
  intro n n1 n5
  unfold refPt
  simp only [hb]
  interval_cases n
  · rw [y1]; exact ⟨(-1, 0), by simp [comb5], 1 / 3, by norm_num, by norm_num, by norm_num⟩
  · rw [y2]; exact ⟨(-1, -1 / 2), by simp [comb5], 1 / 3, by norm_num, by norm_num, by norm_num⟩
  · rw [y3]; exact ⟨(-1, -3 / 4), by simp [comb5], 1 / 3, by norm_num, by norm_num, by norm_num⟩
  · rw [y4]; exact ⟨(-1, -7 / 8), by simp [comb5], 1 / 3, by norm_num, by norm_num, by norm_num⟩
  · rw [y5]; exact ⟨(-1, -15 / 16), by simp [comb5], 1 / 3, by norm_num, by norm_num, by norm_num⟩

/-- The first four go through a vertex of the other polygon. -/
theorem comb4_on : ∀ n, 1 ≤ n → n ≤ 4 → ∃ q ∈ comb4, OnSeg (0, 0) (refPt (binary 64) (-1, -1) (1, 1) n) q := by
  obtain ⟨y1, y2, y3, y4, y5, hb⟩ := comb_refY
  intro n n1 n5
  unfold refPt
  simp only [hb]
  interval_cases n
  · rw [y1]; exact ⟨(-1, 0), by simp [comb4], 1 / 3, by norm_num, by norm_num, by norm_num⟩
  · rw [y2]; exact ⟨(-1, -1 / 2), by simp [comb4], 1 / 3, by norm_num, by norm_num, by norm_num⟩
  · rw [y3]; exact ⟨(-1, -3 / 4), by simp [comb4], 1 / 3, by norm_num, by norm_num, by norm_num⟩
  · rw [y4]; exact ⟨(-1, -7 / 8), by simp [comb4], 1 / 3, by norm_num, by norm_num, by norm_num⟩

end H2d.Fl
