import Verif.Lemmas.FloatSafe

/-! # C134: no access out of range, whatever the rounding -/

namespace H2d.Props

open H2d.Spec H2d.Fl

/-- **C134, segments and polylines.** For any rounding of the operations (`F`, `ac` are any functions), any thresholds and any points: the intersection of two lines or segments, `isSimple()`, `area()`, `centroid()`, `getBB()` and
`isInside()` give a value or throw; no element out of range is accessed. -/
theorem C134_polyline (F : Arith) (t : Thr ℝ) (ac : ℝ → ℝ) :
    (∀ p q, Fl.segMake F t p q ≠ .ub ∧ Fl.lineOfPts F t p q ≠ .ub) ∧ (∀ l m, Fl.lineInter F t ac l m ≠ .ub) ∧ (∀ s s', Fl.segInter F t ac s s' ≠ .ub) ∧
    ∀ (closed : Bool) (pts : List (Pt ℝ)), simpleF F t ac closed pts ≠ .ub ∧ Fl.polyArea F t ac closed pts ≠ .ub ∧ Fl.centroid F t ac closed pts ≠ .ub ∧ Fl.polyGetBB F t pts ≠ .ub ∧
      ∀ p, Fl.ptInsidePoly F t ac closed pts p ≠ .ub :=
  ⟨fun p q => ⟨segMake_safe F t p q, Fl.lineOfPts_safe F t p q⟩, Fl.lineInter_safe F t ac, Fl.segInter_safe F t ac, fun closed pts =>
    ⟨simpleF_safe F t ac closed pts, polyArea_safe F t ac closed pts, Fl.centroid_safe F t ac closed pts, Fl.polyGetBB_safe F t pts, Fl.ptInsidePoly_safe F t ac closed pts⟩⟩

/-- **C134, rectangles.** The same for the intersection points of a rectangle with a segment (at most two points) or with a rectangle. -/
theorem C134_rectangle (F : Arith) (t : Thr ℝ) (ac : ℝ → ℝ) (a : FRect ℝ) :
    (∀ s, Fl.rectSegInter F t ac a s ≠ .ub ∧ ∀ l, Fl.rectSegInter F t ac a s = .ok l → l.length ≤ 2) ∧ ∀ b, Fl.rectInter F t ac a b ≠ .ub :=
  ⟨Fl.rectSegInter_safe F t ac a, Fl.rectInter_safe F t ac a⟩

/-- **C134, homographies.** The same for the inverse of a homography and for the image of a line: the computed inverse is a matrix, or there is an exception. -/
theorem C134_homography (F : Arith) (t : Thr ℝ) (m : Mat ℝ) : homInverse F t m ≠ .ub ∧ ∀ l, lineImage F t m l ≠ .ub := ⟨homInverse_safe F t m, lineImage_safe F t m⟩

/-- Both outcomes exist: rounding everything to 0, all points are the same and no line can be built; with real numbers the line through (0,0) and (1,0) is built. -/
example (t : Thr ℝ) (ht : 0 < t.nullDistance) (ac : ℝ → ℝ) : simpleF ⟨fun _ => 0, fun _ _ => 0⟩ t ac true [(0, 0), (1, 0), (0, 1)] = .throw ∧ simpleF ⟨fun _ => 0, fun _ _ => 0⟩ t ac false [(0, 0), (1, 0), (0, 1)] = .ok false := by
  constructor
  · have : Fl.segMake ⟨fun _ => 0, fun _ _ => 0⟩ t (0, 0) (1, 0) = .throw := if_pos ht
    unfold simpleF Simple.run
    rw [if_neg (by simp), if_neg (by simp)]
    show (Simple.outerLoop _ _ _ [0, 1, 2] >>= _) = _
    unfold Simple.outerLoop
    have e : Simple.edgeSeg (Fl.segMake ⟨fun _ => 0, fun _ _ => 0⟩ t) [(0, 0), (1, 0), (0, 1)] 0 = .throw := this
    rw [e]
    rfl
  · rfl

end H2d.Props
