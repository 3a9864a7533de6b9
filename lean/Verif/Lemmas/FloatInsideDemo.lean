import Verif.Lemmas.FloatInside
import Verif.Lemmas.FloatPipDemo

/-! # Segments, polylines and rectangles that meet the hypotheses of C138 and C139, in `double` with the default thresholds -/

namespace H2d.Fl
open H2d.Spec H2d.Pip H2d.Simple

/-- The unit of rounding of `double`. -/
noncomputable abbrev u53 : ℝ := 2 ^ (-((53 : ℕ) : ℤ))

theorem lPoly_reach8 : reach stdR u53 u53 (3 * 4) < 1 / 8 := by
  unfold reach
  have h0 : slack stdR u53 u53 (3 * 4) ≤ 1 / 10 ^ 6 := by unfold slack; norm_num [stdR]
  have h1 : 0 ≤ slack stdR u53 u53 (3 * 4) := by unfold slack; norm_num [stdR]
  generalize slack stdR u53 u53 (3 * 4) = d at *
  have : Real.sqrt (d * (2 * (3 * 4) + d)) ≤ 1 / 100 := (Real.sqrt_le_left (by norm_num)).2 (by nlinarith)
  exact lt_of_le_of_lt (add_le_add this h0) (by norm_num)

theorem lPoly_pip {x y : ℝ} (rx : Rep (binary 53) x) (ry : Rep (binary 53) y) (hx : -1 / 2 ≤ x ∧ x ≤ 0) (hy : -5 / 8 ≤ y ∧ y ≤ -1 / 2) :
    PipOk (binary 53) stdR u53 u53 0 4 1 (1 / 8) lPoly (x, y) (-1, -1) (1, 1) :=
  { lPoly_ok (Or.inl rfl) with
    repP := ⟨rx, ry⟩
    refs := by
      obtain ⟨y1, y2, y3, y4, y5, hb⟩ := lPoly_refY
      have key : ∀ z : ℝ, 1 / 2 ≤ |z - y| → |z - y| ≤ 5 / 2 → SlopeOk stdR ((x, y), (-3, z)) ∧ 1 ≤ eucl (x, y) (-3, z) ∧
          ∀ e ∈ polyEdges lPoly, 1 / 8 ≤ sinSegs e ((x, y), (-3, z)) ∨ ∀ a b, OnSeg e.1 e.2 a → OnSeg (x, y) (-3, z) b → reach stdR u53 u53 (3 * 4) < eucl a b := by
        intro z h1 h2
        have f1 : 5 / 2 ≤ |(-3 : ℝ) - x| := by rw [le_abs]; right; linarith
        have f0 : |(-3 : ℝ) - x| ≤ 3 := by rw [abs_le]; constructor <;> linarith
        have f2 : 5 / 2 ≤ eucl (x, y) (-3, z) := by
          refine le_trans ?_ (abs_fst_le_eucl _ _)
          simp only; rw [abs_sub_comm]; exact f1
        have f3 : eucl (x, y) (-3, z) ≤ 4 := by
          unfold eucl
          rw [Real.sqrt_le_left (by norm_num)]
          simp only
          have g1 := sq_abs ((-3 : ℝ) - x)
          have g2 := sq_abs (z - y)
          have g3 := abs_nonneg ((-3 : ℝ) - x)
          have g4 := abs_nonneg (z - y)
          nlinarith
        refine ⟨Or.inr ?_, by linarith, fun e he => Or.inl (sin_axis (lPoly_axis e he) (by linarith) h1 f3 (by linarith))⟩
        have : 1 / 8 ≤ |y - z| / eucl (x, y) (-3, z) := by
          rw [le_div_iff₀ (by linarith), abs_sub_comm]; linarith
        have e0 : stdR.nullDenom = 1 / 10 ^ 10 := by rfl
        simp only
        rw [e0]
        norm_num at this ⊢
        linarith
      intro n n1 n5
      unfold refPt
      simp only [hb]
      interval_cases n
      · rw [y1]; exact key _ (by rw [le_abs]; left; linarith) (by rw [abs_le]; constructor <;> linarith)
      · rw [y2]; exact key _ (by rw [le_abs]; right; linarith) (by rw [abs_le]; constructor <;> linarith)
      · rw [y3]; exact key _ (by rw [le_abs]; right; linarith) (by rw [abs_le]; constructor <;> linarith)
      · rw [y4]; exact key _ (by rw [le_abs]; right; linarith) (by rw [abs_le]; constructor <;> linarith)
      · rw [y5]; exact key _ (by rw [le_abs]; right; linarith) (by rw [abs_le]; constructor <;> linarith) }

theorem lPoly_clear : PolyClear stdR u53 u53 4 1 (1 / 2) lPoly (-1, -1) (1, 1) where
  prec := lPoly_hx
  orthog := by norm_num [stdR]
  width := by norm_num [stdR]
  height := by norm_num [stdR]
  three := by simp [lPoly]
  far := lPoly_reach
  apart := lPoly_apart

theorem lPoly_point {x y : ℝ} (rx : Rep (binary 53) x) (ry : Rep (binary 53) y) (hx : -1 / 2 ≤ x ∧ x ≤ -1 / 4) (hy : -5 / 8 ≤ y ∧ y ≤ -1 / 2) :
    PointClear (binary 53) stdR u53 u53 0 4 1 (1 / 8) lPoly (x, y) (-1, -1) (1, 1) where
  ok := lPoly_pip rx ry ⟨hx.1, by linarith⟩ hy
  lines := by
    have k0 : 11 / 10 * stdR.nullDistance ≤ 1 / 4 := by norm_num [stdR]
    unfold FarFromLines
    rw [lPoly_edges]
    intro e he k
    refine le_trans k0 ?_
    simp only [List.mem_cons, List.not_mem_nil, or_false] at he
    unfold along
    rcases he with rfl | rfl | rfl | rfl | rfl | rfl
    all_goals
      first
        | refine le_trans ?_ (abs_fst_le_eucl _ _)
          simp only
          rw [le_abs]; first | (left; linarith; done) | (right; linarith; done)
        | refine le_trans ?_ (abs_snd_le_eucl _ _)
          simp only
          rw [le_abs]; first | (left; linarith; done) | (right; linarith; done)
  ref := by
    have k0 : 11 / 10 * stdR.nullDistance ≤ 1 / 8 := by norm_num [stdR]
    obtain ⟨y1, -, -, -, -, hb⟩ := lPoly_refY
    refine ⟨1, le_refl _, by norm_num, ?_⟩
    unfold refPt
    simp only [y1, hb]
    rintro q hq z ⟨k, k0', k1, rfl⟩
    refine le_trans k0 ?_
    have e1 : k * (-3 - x) ≤ 0 := mul_nonpos_of_nonneg_of_nonpos k0' (by linarith)
    have e2 : 0 ≤ k * (0 - y) := mul_nonneg k0' (by linarith)
    have e3 : k * (0 - y) ≤ 0 - y := by nlinarith
    simp only [lPoly, List.mem_cons, List.not_mem_nil, or_false] at hq
    rcases hq with rfl | rfl | rfl | rfl | rfl | rfl
    all_goals
      first
        | refine le_trans ?_ (abs_fst_le_eucl _ _)
          simp only
          rw [le_abs]; first | (left; linarith; done) | (right; linarith; done)
        | refine le_trans ?_ (abs_snd_le_eucl _ _)
          simp only
          rw [le_abs]; first | (left; linarith; done) | (right; linarith; done)

/-- The box of the demonstration. -/
def InDemo (p : Pt ℝ) : Prop := (Rep (binary 53) p.1 ∧ Rep (binary 53) p.2) ∧ (-1 / 2 ≤ p.1 ∧ p.1 ≤ -1 / 4) ∧ (-5 / 8 ≤ p.2 ∧ p.2 ≤ -1 / 2)

theorem InDemo.clear {p : Pt ℝ} (h : InDemo p) : PointClear (binary 53) stdR u53 u53 0 4 1 (1 / 8) lPoly p (-1, -1) (1, 1) := lPoly_point h.1.1 h.1.2 h.2.1 h.2.2

theorem rep_x : Rep (binary 53) (-1 / 2) ∧ Rep (binary 53) (-1 / 4) ∧ Rep (binary 53) (-5 / 8) :=
  ⟨rep_half (n := -1) (-1) (by norm_num) (by norm_num), rep_half (n := -1) (-2) (by norm_num) (by norm_num), rep_half (n := -5) (-3) (by norm_num) (by norm_num)⟩

theorem demo1 : InDemo (-1 / 2, -1 / 2) := ⟨⟨rep_x.1, rep_x.1⟩, by norm_num, by norm_num⟩

theorem demo2 : InDemo (-1 / 2, -5 / 8) := ⟨⟨rep_x.1, rep_x.2.2⟩, by norm_num, by norm_num⟩

theorem demo3 : InDemo (-1 / 4, -5 / 8) := ⟨⟨rep_x.2.1, rep_x.2.2⟩, by norm_num, by norm_num⟩

theorem demo4 : InDemo (-1 / 4, -1 / 2) := ⟨⟨rep_x.2.1, rep_x.1⟩, by norm_num, by norm_num⟩

theorem demo_fine {s : Seg} (h1 : InDemo s.1) (h2 : InDemo s.2) (hl : 1 / 8 ≤ |s.1.1 - s.2.1| ∨ 1 / 8 ≤ |s.1.2 - s.2.2|) : SegFine (binary 53) stdR 4 s := by
  obtain ⟨a, b, c⟩ := h1
  obtain ⟨a', b', c'⟩ := h2
  refine ⟨⟨a, a', ?_, ?_, ?_, ?_⟩, ?_⟩
  · rw [abs_le]; constructor <;> linarith
  · rw [abs_le]; constructor <;> linarith
  · rw [abs_le]; constructor <;> linarith
  · rw [abs_le]; constructor <;> linarith
  · refine le_trans (by norm_num [stdR] : 2 * stdR.nullDistance ≤ 1 / 8) ?_
    rcases hl with h | h
    · exact h.trans (abs_fst_le_eucl _ _)
    · exact h.trans (abs_snd_le_eucl _ _)

theorem demo_decided {s : Seg} (h1 : InDemo s.1) (h2 : InDemo s.2) {L S : ℝ} : ∀ e ∈ polyEdges lPoly, Decided (binary 53) stdR u53 u53 0 4 L S e s := by
  intro e he
  refine Or.inl fun a b ha hb => lt_of_lt_of_le lPoly_reach8 ?_
  obtain ⟨-, p1, p2⟩ := h1
  obtain ⟨-, p3, p4⟩ := h2
  obtain ⟨k, k0, k1, rfl⟩ := hb
  have hx : -1 / 2 ≤ s.1.1 + k * (s.2.1 - s.1.1) ∧ s.1.1 + k * (s.2.1 - s.1.1) ≤ -1 / 4 := by constructor <;> nlinarith
  have hy : -5 / 8 ≤ s.1.2 + k * (s.2.2 - s.1.2) ∧ s.1.2 + k * (s.2.2 - s.1.2) ≤ -1 / 2 := by constructor <;> nlinarith
  generalize s.1.1 + k * (s.2.1 - s.1.1) = x at *
  generalize s.1.2 + k * (s.2.2 - s.1.2) = y at *
  rw [lPoly_edges] at he
  simp only [List.mem_cons, List.not_mem_nil, or_false] at he
  rcases he with rfl | rfl | rfl | rfl | rfl | rfl
  all_goals
    obtain ⟨j, j0, j1, rfl⟩ := ha
    first
      | refine le_trans ?_ (abs_fst_le_eucl _ _)
        simp only
        rw [le_abs]; first | (left; linarith; done) | (right; linarith; done)
      | refine le_trans ?_ (abs_snd_le_eucl _ _)
        simp only
        rw [le_abs]; first | (left; linarith; done) | (right; linarith; done)

theorem lPoly_far_mid {x : ℝ} (hx : -1 / 2 ≤ x ∧ x ≤ 0) : FarFromContour (1 / 2) lPoly (x, -1 / 2) := by
  unfold FarFromContour
  rw [lPoly_edges]
  intro e he
  simp only [List.mem_cons, List.not_mem_nil, or_false] at he
  rcases he with rfl | rfl | rfl | rfl | rfl | rfl
  all_goals
    rintro q ⟨k, k0, k1, rfl⟩
    first
      | refine le_trans ?_ (abs_fst_le_eucl _ _)
        simp only
        rw [le_abs]; first | (left; linarith; done) | (right; linarith; done)
      | refine le_trans ?_ (abs_snd_le_eucl _ _)
        simp only
        rw [le_abs]; first | (left; linarith; done) | (right; linarith; done)

/-- A vertical segment that crosses the top edge of `lPoly`. -/
noncomputable def topSeg : Seg := ((-1 / 2, 1 / 4), (-1 / 2, 2))

theorem lPoly_fine : ∀ e ∈ polyEdges lPoly, SegFine (binary 53) stdR 4 e := by
  intro e he
  have hp := lPoly_ok (x := 0) (Or.inl rfl)
  have h1 := hp.rep _ (Pip.edges_mem he).1
  have h2 := hp.rep _ (Pip.edges_mem he).2
  refine ⟨⟨h1.1, h2.1, ?_, ?_, ?_, ?_⟩, ?_⟩
  · linarith [h1.2.1]
  · linarith [h1.2.2]
  · linarith [h2.2.1]
  · linarith [h2.2.2]
  · exact le_trans (by norm_num [stdR]) (lPoly_len e he).1

theorem topSeg_fine : SegFine (binary 53) stdR 4 topSeg := by
  have a : Rep (binary 53) (-1 / 2) := rep_half (n := -1) (-1) (by norm_num) (by norm_num)
  have b : Rep (binary 53) (1 / 4) := rep_half (n := 1) (-2) (by norm_num) (by norm_num)
  have c : Rep (binary 53) 2 := rep_half (n := 2) 0 (by norm_num) (by norm_num)
  refine ⟨⟨⟨a, b⟩, ⟨a, c⟩, ?_, ?_, ?_, ?_⟩, ?_⟩
  · rw [abs_le]; unfold topSeg; norm_num
  · rw [abs_le]; unfold topSeg; norm_num
  · rw [abs_le]; unfold topSeg; norm_num
  · rw [abs_le]; unfold topSeg; norm_num
  · refine le_trans ?_ (abs_snd_le_eucl _ _)
    unfold topSeg
    norm_num [stdR, le_abs]

theorem topSeg_meet {e : Seg} (he : e ∈ polyEdges lPoly) : (e = ((0, 1), (-1, 1)) ∧ OnSeg e.1 e.2 (-1 / 2, 1) ∧ OnSeg topSeg.1 topSeg.2 (-1 / 2, 1)) ∨
    (e ≠ ((0, 1), (-1, 1)) ∧ ∀ x y, OnSeg e.1 e.2 x → OnSeg topSeg.1 topSeg.2 y → 1 / 8 ≤ eucl x y) := by
  rw [lPoly_edges] at he
  simp only [List.mem_cons, List.not_mem_nil, or_false] at he
  rcases he with rfl | rfl | rfl | rfl | rfl | rfl
  case inr.inr.inr.inr.inl =>
    refine Or.inl ⟨rfl, ⟨1 / 2, by norm_num, by norm_num, ?_⟩, ⟨3 / 7, by norm_num, by norm_num, ?_⟩⟩
    · apply Prod.ext <;> norm_num
    · unfold topSeg; apply Prod.ext <;> norm_num
  all_goals
    refine Or.inr ⟨by simp, ?_⟩
    unfold topSeg
    rintro x y ⟨j, j0, j1, rfl⟩ ⟨k, k0, k1, rfl⟩
    first
      | refine le_trans ?_ (abs_fst_le_eucl _ _)
        simp only
        rw [le_abs]; first | (left; linarith; done) | (right; linarith; done)
      | refine le_trans ?_ (abs_snd_le_eucl _ _)
        simp only
        rw [le_abs]; first | (left; linarith; done) | (right; linarith; done)

theorem topSeg_decided : ∀ e ∈ polyEdges lPoly, SegFine (binary 53) stdR 4 e ∧ Decided (binary 53) stdR u53 u53 0 4 1 (1 / 8) e topSeg := by
  intro e he
  refine ⟨lPoly_fine e he, ?_⟩
  rcases topSeg_meet he with ⟨rfl, h1, h2⟩ | ⟨-, h⟩
  · have hp := lPoly_ok (x := 0) (Or.inl rfl)
    have ht : eucl topSeg.1 topSeg.2 = 7 / 4 := by unfold topSeg; rw [eucl_eq_iff (by norm_num)]; norm_num
    have he' : eucl ((0, 1) : Pt ℝ) (-1, 1) = 1 := by rw [eucl_eq_iff (by norm_num)]; norm_num
    refine Or.inr ⟨⟨(lPoly_fine _ he).1, topSeg_fine.1, (lPoly_len _ he).2, Or.inr ?_, by norm_num, (lPoly_len _ he).1, by rw [ht]; norm_num, by norm_num, ?_, hp.small, hp.thr, hp.eps, hp.angle⟩, _, h1, h2⟩
    · rw [ht]; unfold topSeg; norm_num [stdR, abs_of_nonpos]
    · unfold sinSegs
      simp only [he']
      rw [ht]
      unfold topSeg
      norm_num [abs_of_nonpos]
  · exact Or.inl fun x y hx hy => lt_of_lt_of_le lPoly_reach8 (h x y hx hy)

end H2d.Fl
