import Verif.Lemmas.FloatRectFar
import Verif.Lemmas.FloatRectWit
import Verif.Props.RectArea
import Verif.Props.RectMore

/-! # C127: intersection of two rectangles with rounded operations -/

namespace H2d.Props

open H2d.Spec H2d.Fl

variable {F : Arith} {u v : ℝ} {ac : ℝ → ℝ} {t : Thr ℝ} {w M L : ℝ} {a b : FRect ℝ}

/-- **C127, common rectangle.** With rounded operations, for two rectangles that meet `RectPair` (no two coordinates nearly equal): `intersectArea()` never throws, it gives a rectangle exactly when the open rectangles have a
common point, and then each coordinate of the rectangle given is the one of the common rectangle up to `9uM²/L`. The same holds with the rectangles exchanged. -/
theorem C127_inter_partial (h : FlOk F u v) (hA : AxisExact F) (ha : AcosOk ac w) (ht : RectThr t) (hp : RectPair F t u v M L a b) :
    (Overlap a b → ∃ r s, Fl.intersectArea F t ac a b = .ok (some r) ∧ Fl.intersectArea F t ac b a = .ok (some s) ∧
      NearRect (9 * (u * M ^ 2 / L)) r (commonRect a b) ∧ NearRect (9 * (u * M ^ 2 / L)) s (commonRect a b)) ∧
    (¬ Overlap a b → Fl.intersectArea F t ac a b = .ok none ∧ Fl.intersectArea F t ac b a = .ok none) := by
  have h1 := rectArea_pair h hA ha ht hp
  have h2 := rectArea_pair h hA ha ht hp.symm
  refine ⟨fun ho => ?_, fun ho => ⟨h1.2 ho, h2.2 fun q => ho ((Rank.overlap_symm b a).1 q)⟩⟩
  obtain ⟨r, r1, r2⟩ := h1.1 ho
  obtain ⟨s, s1, s2⟩ := h2.1 ((Rank.overlap_symm a b).1 ho)
  rw [Rank.commonRect_symm] at s2
  exact ⟨r, s, r1, s1, r2, s2⟩

/-- **C127, points of the contours.** With rounded operations, `intersects()` of two rectangles that meet `RectPair` never throws, and gives in increasing order one point for each common point of the two contours, at most
`9uM²/L` away from it in each coordinate; there are no other points. -/
theorem C127_points_partial (h : FlOk F u v) (hA : AxisExact F) (ha : AcosOk ac w) (ht : RectThr t) (hp : RectPair F t u v M L a b) :
    ∃ pts pts', Fl.rectInter F t ac a b = .ok pts' ∧ SortedPts pts' ∧ SortedPts pts ∧ (∀ p, p ∈ pts ↔ OnRect a p ∧ OnRect b p) ∧ List.Forall₂ (NearPt2 (9 * (u * M ^ 2 / L))) pts' pts := by
  obtain ⟨pts, pts', h1, h2, h3, h4⟩ := rectInter_pair h hA ha ht hp
  have hn : 0 < t.nullDistance := dblEps_pos.trans ht.dist
  have hf := hp.far
  obtain ⟨q, q1, q2, q3⟩ := C80_rect_far t ht a b ⟨⟨by linarith [hf.sa.1], by linarith [hf.sa.2]⟩, ⟨by linarith [hf.sb.1], by linarith [hf.sb.2]⟩,
    fun x hx y hy => by linarith [hf.x x hx y hy], fun x hx y hy => by linarith [hf.y x hx y hy]⟩
  rw [h1] at q1; cases q1
  exact ⟨pts, pts', h2, h3, q2, q3, h4⟩

/-- **C127, type `double`.** Default thresholds, coordinates that are `double` values up to 100, sides of length 1 or more, coordinates of the two rectangles at least `3·10⁻¹⁰` apart: the coordinates of the common rectangle
are right to `10⁻¹¹`. -/
theorem C127_double_partial (ha : AcosOk ac w) (ra : RectRep (binary 53) 100 a) (rb : RectRep (binary 53) 100 b) (la : LongSides 1 a) (lb : LongSides 1 b) (hf : FarRects (3 / 10 ^ 10) a b) :
    (Overlap a b → ∃ r, Fl.intersectArea (binary 53) stdR ac a b = .ok (some r) ∧ NearRect (1 / 10 ^ 11) r (commonRect a b)) ∧ (¬ Overlap a b → Fl.intersectArea (binary 53) stdR ac a b = .ok none) := by
  have hp : RectPair (binary 53) stdR ((2 : ℝ) ^ (-((53 : ℕ) : ℤ))) ((2 : ℝ) ^ (-((53 : ℕ) : ℤ))) 100 1 a b :=
    ⟨ra, rb, one_pos, la, lb, by rw [show 3 * stdR.nullDistance = 3 / 10 ^ 10 by norm_num [stdR]]; exact hf, by norm_num [stdR, dblEps], by norm_num [stdR, zpow_neg]⟩
  obtain ⟨h1, h2⟩ := C127_inter_partial (binary_ok (by norm_num)) (binary_axis (by norm_num)) ha Rank.stdR_thr hp
  refine ⟨fun ho => ?_, fun ho => (h2 ho).1⟩
  obtain ⟨r, -, r1, -, r2, -⟩ := h1 ho
  have e : 9 * ((2 : ℝ) ^ (-((53 : ℕ) : ℤ)) * 100 ^ 2 / 1) ≤ 1 / 10 ^ 11 := by norm_num [zpow_neg]
  exact ⟨r, r1, r2.1.trans e, r2.2.1.trans e, r2.2.2.1.trans e, r2.2.2.2.trans e⟩

/-- The hypotheses of C127 are met: two squares that overlap at a corner, with the type `double` and the default thresholds. -/
example : ∃ r, Fl.intersectArea (binary 53) stdR Real.arccos ⟨(0, 0), (2, 2)⟩ ⟨(1, 1), (3, 3)⟩ = .ok (some r) ∧ NearRect (1 / 10 ^ 11) r ⟨(1, 1), (2, 2)⟩ := by
  have i : ∀ n : ℤ, |n| ≤ 4 → Rep (binary 53) (n : ℝ) := fun n hn => rep_small hn
  have i0 : Rep (binary 53) 0 := by exact_mod_cast i 0 (by norm_num)
  have i1 : Rep (binary 53) 1 := by exact_mod_cast i 1 (by norm_num)
  have i2 : Rep (binary 53) 2 := by exact_mod_cast i 2 (by norm_num)
  have i3 : Rep (binary 53) 3 := by exact_mod_cast i 3 (by norm_num)
  have h := (C127_double_partial (a := ⟨(0, 0), (2, 2)⟩) (b := ⟨(1, 1), (3, 3)⟩) (acosOk_exact) ⟨⟨i0, by norm_num⟩, ⟨i0, by norm_num⟩, ⟨i2, by norm_num⟩, ⟨i2, by norm_num⟩⟩
    ⟨⟨i1, by norm_num⟩, ⟨i1, by norm_num⟩, ⟨i3, by norm_num⟩, ⟨i3, by norm_num⟩⟩ (by norm_num [LongSides]) (by norm_num [LongSides])
    ⟨by norm_num [LongSides], by norm_num [LongSides], by norm_num, by norm_num⟩).1 ⟨(3 / 2, 3 / 2), by norm_num [StrictlyIn], by norm_num [StrictlyIn]⟩
  obtain ⟨r, h1, h2⟩ := h
  refine ⟨r, h1, ?_⟩
  rw [show commonRect (⟨(0, 0), (2, 2)⟩ : FRect ℝ) ⟨(1, 1), (3, 3)⟩ = ⟨(1, 1), (2, 2)⟩ by norm_num [commonRect]] at h2
  exact h2

/-- **C127 does not hold when two sides have the same coordinate.** With the type `double`, the default thresholds and `x = 1 - 2⁻⁵³`, the rectangles `[-1,x]×[0,4]` and `[0,x]×[3,4]` overlap (the second one is inside the first
one, and with exact operations it is the answer). The right side is found at `x` from the first rectangle and at `1` from the second one, so that `intersectArea()` picks two points with the same ordinate and throws. -/
theorem C127_false : ∃ a b : FRect ℝ, RectRep (binary 53) 4 a ∧ RectRep (binary 53) 4 b ∧ LongSides (1 / 2) a ∧ LongSides (1 / 2) b ∧ ApartRects (1 / 2) a b ∧ Overlap a b ∧
    H2d.intersectArea stdR a b = .ok (some b) ∧ ∀ ac w, AcosOk ac w → Fl.intersectArea (binary 53) stdR ac a b = .throw := by
  obtain ⟨x1, x2, x3⟩ := witX_bounds
  have i : ∀ n : ℤ, |n| ≤ 4 → Rep (binary 53) (n : ℝ) := fun n hn => rep_small hn
  have rX := witX_rep
  have bX : |witX| ≤ 4 := by rw [abs_le]; constructor <;> linarith
  have hap : ∀ {n : ℝ}, n ≤ 1 / 2 → ApartRects n (⟨(-1, 0), (witX, 4)⟩ : FRect ℝ) ⟨(0, 3), (witX, 4)⟩ := by
    intro n hn
    refine ⟨by simp only; linarith, by simp only; linarith, by simp only; linarith, by simp only; linarith, Or.inr ?_, Or.inr ?_, Or.inr ?_, Or.inl rfl, Or.inr ?_, Or.inr ?_, Or.inr ?_, Or.inl rfl⟩ <;>
      simp only <;> rw [le_abs] <;> first | (left; linarith) | (right; linarith)
  have ho : Overlap (⟨(-1, 0), (witX, 4)⟩ : FRect ℝ) ⟨(0, 3), (witX, 4)⟩ := ⟨(1 / 4, 7 / 2), by refine ⟨?_, ?_, ?_, ?_⟩ <;> simp only <;> linarith, by refine ⟨?_, ?_, ?_, ?_⟩ <;> simp only <;> linarith⟩
  refine ⟨⟨(-1, 0), (witX, 4)⟩, ⟨(0, 3), (witX, 4)⟩,
    ⟨⟨by exact_mod_cast i (-1) (by norm_num), by norm_num⟩, ⟨by exact_mod_cast i 0 (by norm_num), by norm_num⟩, ⟨rX, bX⟩, ⟨by exact_mod_cast i 4 (by norm_num), by norm_num⟩⟩,
    ⟨⟨by exact_mod_cast i 0 (by norm_num), by norm_num⟩, ⟨by exact_mod_cast i 3 (by norm_num), by norm_num⟩, ⟨rX, bX⟩, ⟨by exact_mod_cast i 4 (by norm_num), by norm_num⟩⟩,
    ⟨by simp only; linarith, by simp only; linarith⟩, ⟨by simp only; linarith, by simp only; linarith⟩, hap le_rfl, ho, ?_, fun ac w ha => wit_throw ha⟩
  rw [((C28_inter_partial stdR Rank.stdR_thr _ _ (hap (by norm_num [stdR]))).1 ho).1]
  norm_num [commonRect]

end H2d.Props
