import Verif.Props.Float
import Verif.Props.FloatPip
import Verif.Model.FloatUnion

/-! # C119: area of a polygon with rounded operations -/

namespace H2d.Props

open H2d.Spec H2d.Fl

/-- **C119, area, edges apart.** For a polygon whose edges without common vertex are farther apart than `reach`, `area()` is the absolute value of the signed area of the polygon, with the error of C103. -/
theorem C119_area_apart_partial {F : Arith} {u v : ℝ} (h : FlOk F u v) {t : Thr ℝ} (ht : 2 * dblEps ≤ t.nullDistance) (ac : ℝ → ℝ) {Λ D : ℝ} {pts : List (Pt ℝ)} (hn : 3 ≤ pts.length) (hp : EdgesOk F t Λ pts)
    (hD : reach t u v Λ < D) (ha : EdgesApart D pts) :
    ∃ A, Fl.polyArea F t ac true pts = .ok A ∧ 0 ≤ A ∧
      |A - (|H2d.signedArea pts|)| ≤ ((1 + u) ^ (2 * pts.length + 2) - 1) * (((cycPairs pts).map fun e => |e.1.1 * e.2.2| + |e.1.2 * e.2.1|).sum / 2) := by
  refine ⟨|Fl.signedArea F pts|, ?_, abs_nonneg _, (abs_abs_sub_abs_le _ _).trans (C103_area F u v h pts)⟩
  unfold Fl.polyArea
  rw [C119_apart_partial h ht ac hn hp hD ha]
  rfl

/-- **C119, area, edges that touch or cross.** If two edges without common vertex have a common point, and the null distance is above `350 κ + 13 (u + v) M`, with `κ = u M² / (L S)`, `area()` is 0, and no point is inside. -/
theorem C119_area_touching_partial {F : Arith} {u v : ℝ} (h : FlOk F u v) {ac : ℝ → ℝ} {t : Thr ℝ} {w Λ M L S : ℝ} (ha : AcosOk ac w) {pts : List (Pt ℝ)} (hp : EdgesOk F t Λ pts) {i j : ℕ} {e e' : Seg} (he : Edge pts i e)
    (he' : Edge pts j e') (hij : NotNeighbours pts.length i j) (hq : SegPair F t u w M L S e e') {P : Pt ℝ} (h1 : OnSeg e.1 e.2 P) (h2 : OnSeg e'.1 e'.2 P)
    (hnd : 350 * (u * M ^ 2 / (L * S)) + 13 * (u + v) * M < t.nullDistance) (closed : Bool) :
    Fl.polyArea F t ac closed pts = .ok 0 ∧ ∀ p, Fl.ptInsidePoly F t ac closed pts p = .ok false := by
  have hs := C119_touching_partial h ha hp he he' hij hq h1 h2 hnd closed
  constructor
  · unfold Fl.polyArea; rw [hs]; rfl
  · intro p; unfold Fl.ptInsidePoly; rw [hs]; rfl

/-- **C119, area, open or less than three points.** The area of an open polyline, or of one with less than three points, is 0, and no point is inside. -/
theorem C119_area_open (F : Arith) (t : Thr ℝ) (ac : ℝ → ℝ) (closed : Bool) (pts : List (Pt ℝ)) (h : closed = false ∨ pts.length < 3) :
    Fl.polyArea F t ac closed pts = .ok 0 ∧ ∀ p, Fl.ptInsidePoly F t ac closed pts p = .ok false := by
  have hs : simpleF F t ac closed pts = .ok false := by
    unfold simpleF Simple.run
    rcases h with rfl | h
    · by_cases hl : pts.length < 3
      · rw [if_pos hl]
      · rw [if_neg hl]; rfl
    · rw [if_pos h]
  constructor
  · unfold Fl.polyArea; rw [hs]; rfl
  · intro p; unfold Fl.ptInsidePoly; rw [hs]; rfl

/-- In `double` with the default thresholds: the area of the polygon `lPoly` is 3, up to 100 units of rounding. -/
example : ∃ A, Fl.polyArea (binary 53) stdR Real.arccos true lPoly = .ok A ∧ |A - 3| ≤ 100 * 2 ^ (-(53 : ℤ)) := by
  have hF := binary_ok (p := 53) (by norm_num)
  have hp := lPoly_ok (x := 0) (Or.inl rfl)
  obtain ⟨A, hA, -, k⟩ := C119_area_apart_partial hF hp.eps Real.arccos (by simp [lPoly]) (pip_edgesOk hF hp) lPoly_reach lPoly_apart
  refine ⟨A, hA, ?_⟩
  have e : H2d.signedArea lPoly = 3 := by simp [H2d.signedArea, lPoly, cycPairs]; norm_num
  have e' : ((cycPairs lPoly).map fun e => |e.1.1 * e.2.2| + |e.1.2 * e.2.1|).sum / 2 = 3 := by simp [lPoly, cycPairs]; norm_num
  rw [e, e', show (lPoly.length) = 6 from rfl, abs_of_pos (by norm_num : (0 : ℝ) < 3)] at k
  refine k.trans ?_
  norm_num

end H2d.Props
