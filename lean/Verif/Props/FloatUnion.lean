import Verif.Lemmas.FloatIoU
import Verif.Props.FloatRect

/-! # C128, C129: union of two rectangles and IoU with rounded operations -/

namespace H2d.Props

open H2d.Spec H2d.Fl

variable {F : Arith} {u v : ℝ} {ac : ℝ → ℝ} {at2 : ℝ → ℝ → ℝ} {t : Thr ℝ} {w w' M L : ℝ} {a b : FRect ℝ}

/-- **C128, union.** With rounded operations, for two rectangles that meet `RectApart` (coordinates equal or three null distances apart, so that shared sides are allowed): `unionArea()` gives the same points as with exact operations. When the rectangles
overlap it does not throw and gives a simple polygon whose area (in real numbers) is the area of the union, and when they have no common point it gives the empty polyline. -/
theorem C128_union_partial (h : FlOk F u v) (hA : AxisExact F) (ha : AcosOk ac w) (ht : RectThr t) (hw : Atan2Ok at2 w') (hwt : 7 * w' < t.nullAngleValue) (hp : RectApart F t u v M L a b) :
    Fl.unionArea F t ac at2 a b = H2d.unionArea t a b ∧
    (Overlap a b → ∃ pts, Fl.unionArea F t ac at2 a b = .ok pts ∧ freshSimple (stdEnv t) true pts = .ok true ∧ freshArea (stdEnv t) true pts = .ok (a.area + b.area - (commonRect a b).area)) ∧
    (Spec.Disjoint a b → Fl.unionArea F t ac at2 a b = .ok []) := by
  have e := unionArea_apart h hA ha ht hw hwt hp
  have np : 0 < t.nullDistance := dblEps_pos.trans ht.dist
  have k := C29_union_partial t ht a b (apart_weak (by linarith) hp.apart)
  rw [e]
  exact ⟨rfl, k⟩

/-- **C128, area of the union.** When moreover coordinates that are different are at least `L` apart, `isSimple()` with rounded operations accepts the polygon, and its `area()` is the area of the union up to `410uM²`. -/
theorem C128_area_partial (h : FlOk F u v) (hA : AxisExact F) (ha : AcosOk ac w) (ht : RectThr t) (hw : Atan2Ok at2 w') (hwt : 7 * w' < t.nullAngleValue) (hp : RectsApart F t u v M L a b) (ho : Overlap a b) :
    ∃ pts ar, Fl.unionArea F t ac at2 a b = .ok pts ∧ Fl.polyArea F t ac true pts = .ok ar ∧ |ar - (a.area + b.area - (commonRect a b).area)| ≤ 410 * (u * M ^ 2) :=
  unionSize_near h hA ha ht hw hwt hp ho

/-- **C128 does not hold for all rectangles.** With the type `double` and the default thresholds, `unionArea()` of `[0,2]×[1,2]` and `[1,3]×[0,1]` (they meet along a piece of a side) reads outside of its table. -/
theorem C128_false (ha : AcosOk ac w) (hw : Atan2Ok at2 w') (hwt : 7 * w' < 1 / 1000) : Fl.unionArea (binary 53) stdR ac at2 ⟨(0, 1), (2, 2)⟩ ⟨(1, 0), (3, 1)⟩ = .ub := by
  have i : ∀ n : ℤ, |n| ≤ 4 → Rep (binary 53) (n : ℝ) := fun n hn => rep_small hn
  have i0 : Rep (binary 53) 0 := by exact_mod_cast i 0 (by norm_num)
  have i1 : Rep (binary 53) 1 := by exact_mod_cast i 1 (by norm_num)
  have i2 : Rep (binary 53) 2 := by exact_mod_cast i 2 (by norm_num)
  have i3 : Rep (binary 53) 3 := by exact_mod_cast i 3 (by norm_num)
  rw [(C128_union_partial (M := 4) (L := 1) (binary_ok (by norm_num)) (binary_axis (by norm_num)) ha Rank.stdR_thr hw (by simpa [stdR] using hwt)
    ⟨⟨⟨i0, by norm_num⟩, ⟨i1, by norm_num⟩, ⟨i2, by norm_num⟩, ⟨i2, by norm_num⟩⟩, ⟨⟨i1, by norm_num⟩, ⟨i0, by norm_num⟩, ⟨i3, by norm_num⟩, ⟨i1, by norm_num⟩⟩, one_pos, by norm_num [LongSides], by norm_num [LongSides],
      ⟨by norm_num [stdR], by norm_num [stdR], by norm_num [stdR], by norm_num [stdR], by norm_num [Apart, stdR], by norm_num [Apart, stdR], by norm_num [Apart, stdR], by norm_num [Apart, stdR], by norm_num [Apart, stdR],
        by norm_num [Apart, stdR], by norm_num [Apart, stdR], by norm_num [Apart, stdR]⟩, by norm_num [stdR, dblEps], by norm_num [stdR, zpow_neg]⟩).1]
  exact C29_false

/-- **C129, IoU.** With rounded operations, for two rectangles none of whose coordinates are nearly equal, `IoU()` never throws. When they overlap, it is strictly positive and it is the area of the intersection over the area of the
union up to `1200uM³/L³`, in either order of the rectangles; when they do not, it is exactly 0. -/
theorem C129_iou_partial (h : FlOk F u v) (hA : AxisExact F) (ha : AcosOk ac w) (ht : RectThr t) (hw : Atan2Ok at2 w') (hwt : 7 * w' < t.nullAngleValue) (hp : RectsApart F t u v M L a b) (hf : FarRects L a b) :
    (Overlap a b → ∃ x y, Fl.rectIoU F t ac at2 a b = .ok x ∧ Fl.rectIoU F t ac at2 b a = .ok y ∧ 0 < x ∧ 0 < y ∧
      |x - (commonRect a b).area / (a.area + b.area - (commonRect a b).area)| ≤ 1200 * (u * M ^ 3 / L ^ 3) ∧
      |y - (commonRect a b).area / (a.area + b.area - (commonRect a b).area)| ≤ 1200 * (u * M ^ 3 / L ^ 3)) ∧
    (¬ Overlap a b → Fl.rectIoU F t ac at2 a b = .ok 0 ∧ Fl.rectIoU F t ac at2 b a = .ok 0) := by
  have h1 := iou_near h hA ha ht hw hwt hp hf
  have h2 := iou_near h hA ha ht hw hwt hp.symm (farRects_symm hf)
  refine ⟨fun ho => ?_, fun ho => ⟨h1.2 ho, h2.2 fun q => ho ((Rank.overlap_symm b a).1 q)⟩⟩
  obtain ⟨x, x1, x2, x3⟩ := h1.1 ho
  obtain ⟨y, y1, y2, y3⟩ := h2.1 ((Rank.overlap_symm a b).1 ho)
  rw [unionSize, Rank.commonRect_symm b a, add_comm b.area] at y3
  exact ⟨x, y, x1, y1, x2, y2, x3, y3⟩

/-- **C129, same rectangle.** With rounded operations, IoU of a rectangle with itself does not throw and is 1 up to `1200uM³/L³`. -/
theorem C129_self_partial (h : FlOk F u v) (hA : AxisExact F) (ha : AcosOk ac w) (ht : RectThr t) (hw : Atan2Ok at2 w') (hwt : 7 * w' < t.nullAngleValue) (hp : RectsApart F t u v M L a a) :
    ∃ x, Fl.rectIoU F t ac at2 a a = .ok x ∧ |x - 1| ≤ 1200 * (u * M ^ 3 / L ^ 3) :=
  iou_self h hA ha ht hw hwt hp

/-- **C129, type `double`.** Default thresholds, coordinates that are `double` values up to 100, sides of length 1 or more, coordinates of the two rectangles at least 1 apart: IoU is right to `2·10⁻⁷`. -/
theorem C129_double_partial (ha : AcosOk ac w) (hw : Atan2Ok at2 w') (hwt : 7 * w' < 1 / 1000) (ra : RectRep (binary 53) 100 a) (rb : RectRep (binary 53) 100 b) (hf : FarRects 1 a b) :
    (Overlap a b → ∃ x, Fl.rectIoU (binary 53) stdR ac at2 a b = .ok x ∧ 0 < x ∧ |x - (commonRect a b).area / (a.area + b.area - (commonRect a b).area)| ≤ 2 / 10 ^ 7) ∧
    (¬ Overlap a b → Fl.rectIoU (binary 53) stdR ac at2 a b = .ok 0) := by
  have hp : RectsApart (binary 53) stdR ((2 : ℝ) ^ (-((53 : ℕ) : ℤ))) ((2 : ℝ) ^ (-((53 : ℕ) : ℤ))) 100 1 a b :=
    ⟨ra, rb, by norm_num [stdR], pair_apart hf, by norm_num [stdR, dblEps], by norm_num [stdR, zpow_neg], by norm_num [zpow_neg]⟩
  obtain ⟨h1, h2⟩ := C129_iou_partial (binary_ok (by norm_num)) (binary_axis (by norm_num)) ha Rank.stdR_thr hw (by simpa [stdR] using hwt) hp hf
  refine ⟨fun ho => ?_, fun ho => (h2 ho).1⟩
  obtain ⟨x, y, x1, -, x2, -, x3, -⟩ := h1 ho
  exact ⟨x, x1, x2, x3.trans (by norm_num [zpow_neg])⟩

/-- The hypotheses of C128 and C129 are met: two squares that overlap at a corner, with the type `double`, the default thresholds and the exact argument. -/
example : (∃ x, Fl.rectIoU (binary 53) stdR Real.arccos H2d.atan2 ⟨(0, 0), (2, 2)⟩ ⟨(1, 1), (3, 3)⟩ = .ok x ∧ |x - 1 / 7| ≤ 2 / 10 ^ 7) ∧
    (∃ pts ar, Fl.unionArea (binary 53) stdR Real.arccos H2d.atan2 ⟨(0, 0), (2, 2)⟩ ⟨(1, 1), (3, 3)⟩ = .ok pts ∧ Fl.polyArea (binary 53) stdR Real.arccos true pts = .ok ar ∧ |ar - 7| ≤ 1 / 10 ^ 9) ∧
    ∃ x, Fl.rectIoU (binary 53) stdR Real.arccos H2d.atan2 ⟨(0, 0), (2, 2)⟩ ⟨(0, 0), (2, 2)⟩ = .ok x ∧ |x - 1| ≤ 2 / 10 ^ 7 := by
  have i : ∀ n : ℤ, |n| ≤ 4 → Rep (binary 53) (n : ℝ) := fun n hn => rep_small hn
  have i0 : Rep (binary 53) 0 := by exact_mod_cast i 0 (by norm_num)
  have i1 : Rep (binary 53) 1 := by exact_mod_cast i 1 (by norm_num)
  have i2 : Rep (binary 53) 2 := by exact_mod_cast i 2 (by norm_num)
  have i3 : Rep (binary 53) 3 := by exact_mod_cast i 3 (by norm_num)
  have hw : Atan2Ok H2d.atan2 0 := atan2Ok_exact
  have ra : RectRep (binary 53) 100 ⟨(0, 0), (2, 2)⟩ := ⟨⟨i0, by norm_num⟩, ⟨i0, by norm_num⟩, ⟨i2, by norm_num⟩, ⟨i2, by norm_num⟩⟩
  have rb : RectRep (binary 53) 100 ⟨(1, 1), (3, 3)⟩ := ⟨⟨i1, by norm_num⟩, ⟨i1, by norm_num⟩, ⟨i3, by norm_num⟩, ⟨i3, by norm_num⟩⟩
  have hf : FarRects 1 (⟨(0, 0), (2, 2)⟩ : FRect ℝ) ⟨(1, 1), (3, 3)⟩ := ⟨by norm_num [LongSides], by norm_num [LongSides], by norm_num, by norm_num⟩
  have ho : Overlap (⟨(0, 0), (2, 2)⟩ : FRect ℝ) ⟨(1, 1), (3, 3)⟩ := ⟨(3 / 2, 3 / 2), by norm_num [StrictlyIn], by norm_num [StrictlyIn]⟩
  have hs : ApartRects 1 (⟨(0, 0), (2, 2)⟩ : FRect ℝ) ⟨(0, 0), (2, 2)⟩ :=
    ⟨by norm_num, by norm_num, by norm_num, by norm_num, by norm_num [Apart], by norm_num [Apart], by norm_num [Apart], by norm_num [Apart], by norm_num [Apart], by norm_num [Apart], by norm_num [Apart], by norm_num [Apart]⟩
  refine ⟨?_, ?_, ?_⟩
  · obtain ⟨x, x1, -, x3⟩ := (C129_double_partial acosOk_exact hw (by norm_num) ra rb hf).1 ho
    refine ⟨x, x1, ?_⟩
    have e : commonRect (⟨(0, 0), (2, 2)⟩ : FRect ℝ) ⟨(1, 1), (3, 3)⟩ = ⟨(1, 1), (2, 2)⟩ := by norm_num [commonRect]
    rw [e] at x3
    norm_num [FRect.area, FRect.width, FRect.height] at x3 ⊢
    exact x3
  · have hp : RectsApart (binary 53) stdR ((2 : ℝ) ^ (-((53 : ℕ) : ℤ))) ((2 : ℝ) ^ (-((53 : ℕ) : ℤ))) 100 1 ⟨(0, 0), (2, 2)⟩ ⟨(1, 1), (3, 3)⟩ :=
      ⟨ra, rb, by norm_num [stdR], pair_apart hf, by norm_num [stdR, dblEps], by norm_num [stdR, zpow_neg], by norm_num [zpow_neg]⟩
    obtain ⟨pts, ar, p1, p2, p3⟩ := C128_area_partial (binary_ok (by norm_num)) (binary_axis (by norm_num)) acosOk_exact Rank.stdR_thr hw (by norm_num [stdR]) hp ho
    refine ⟨pts, ar, p1, p2, ?_⟩
    have e : commonRect (⟨(0, 0), (2, 2)⟩ : FRect ℝ) ⟨(1, 1), (3, 3)⟩ = ⟨(1, 1), (2, 2)⟩ := by norm_num [commonRect]
    rw [e] at p3
    have q : (⟨(0, 0), (2, 2)⟩ : FRect ℝ).area + (⟨(1, 1), (3, 3)⟩ : FRect ℝ).area - (⟨(1, 1), (2, 2)⟩ : FRect ℝ).area = 7 := by norm_num [FRect.area, FRect.width, FRect.height]
    rw [q] at p3
    exact p3.trans (by norm_num [zpow_neg])
  · have hp : RectsApart (binary 53) stdR ((2 : ℝ) ^ (-((53 : ℕ) : ℤ))) ((2 : ℝ) ^ (-((53 : ℕ) : ℤ))) 100 1 ⟨(0, 0), (2, 2)⟩ ⟨(0, 0), (2, 2)⟩ :=
      ⟨ra, ra, by norm_num [stdR], hs, by norm_num [stdR, dblEps], by norm_num [stdR, zpow_neg], by norm_num [zpow_neg]⟩
    obtain ⟨x, x1, x2⟩ := C129_self_partial (binary_ok (by norm_num)) (binary_axis (by norm_num)) acosOk_exact Rank.stdR_thr hw (by norm_num [stdR]) hp
    exact ⟨x, x1, x2.trans (by norm_num [zpow_neg])⟩

/-- **C129 does not hold when two sides have the same coordinate.** With the type `double` and the default thresholds, there are rectangles with sides of length 1/2 or more, one inside the other, whose IoU is well defined with exact
operations, and for which `IoU()` throws. -/
theorem C129_false : ∃ a b : FRect ℝ, RectRep (binary 53) 4 a ∧ RectRep (binary 53) 4 b ∧ ApartRects (1 / 2) a b ∧ Overlap a b ∧ (∃ x, H2d.rectIoU stdR a b = .ok x) ∧
    ∀ ac w at2, AcosOk ac w → Fl.rectIoU (binary 53) stdR ac at2 a b = .throw := by
  obtain ⟨a, b, ra, rb, -, -, hap, ho, -, h⟩ := C127_false
  refine ⟨a, b, ra, rb, hap, ho, ?_, fun ac w at2 ha => ?_⟩
  · obtain ⟨x, x1, -⟩ := C30_iou_partial stdR Rank.stdR_thr a b (apart_weak (by norm_num [stdR]) hap)
    exact ⟨x, x1⟩
  · unfold Fl.rectIoU
    rw [h ac w ha]; rfl

end H2d.Props
