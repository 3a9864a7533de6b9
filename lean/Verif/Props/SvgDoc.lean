import Verif.Lemmas.SvgAttr
import Verif.Props.DrawParams
import Verif.Props.Ellipse
import Verif.Props.Derived
import Verif.Lemmas.SvgFile

/-!
# Properties of SVG files
-/

namespace H2d.Props
open H2d H2d.Spec H2d.Svg H2d.SvgD

/-! ### C94: what is drawn is what is imported -/

/-- **C94**: circles, rectangles, segments, polylines and ellipses (not too close to vertical) drawn on an image, without their points, in any number and order, and with any drawing parameters,
are what is imported from the file: same types, same values, same order, provided the numbers are written with enough digits. -/
theorem C94_partial {t : Thr ℝ} (ht : 0 < t.nullDenom) (h1 : t.nullDenom ≤ 1) (hd : t.nullDeter ≤ 1) (flag : Bool) (w : Writer) (rd : Reader) (dflt : Draw.Vals) (width height : Nat)
    (items : List (Draw.Vals × Item)) (h : ∀ d ∈ items, DrawnExactly t flag w rd d.1 d.2) :
    ∃ im, drawAll t flag w dflt (newImage width height) items = (.ok (), im) ∧ importFile t flag rd (writeImage im) = some (.ok (items.flatMap (fun d => shapeOf d.2))) := by
  obtain ⟨im, es, k1, -, -, k4, k5⟩ := good_all ht h1 hd dflt items (newImage width height) [] [] bal_nil rfl h
  exact ⟨im, k1, file_import k4 k5⟩

/-- A circle, a rectangle, a segment, an open polyline and an ellipse. -/
example : ∃ im, drawAll stdR true intWriter Draw.factory (newImage 300 200)
      [(Draw.factory, .circle ⟨(5, 6), 7⟩), (Draw.factory, .rect ⟨(1, 2), (3, 5)⟩), (Draw.factory, .seg ((0, 0), (4, 3))), (Draw.factory, .poly false [(0, 0), (4, 0), (4, -3)]),
        (Draw.factory, .ell (Ell.new 1 1 3 2 0))] = (.ok (), im) ∧
    importFile stdR true intReader (writeImage im) = some (.ok [.circle ⟨(5, 6), 7⟩, .rect ⟨(1, 2), (3, 5)⟩, .seg ((0, 0), (4, 3)), .poly false [(0, 0), (4, 0), (4, -3)], .ell (Ell.new 1 1 3 2 0)]) := by
  refine C94_partial (by norm_num [stdR]) (by norm_num [stdR]) (by norm_num [stdR]) true intWriter intReader Draw.factory 300 200 _ ?_
  have hx : ∀ n : Int, readInt (toString n).toList = some n → ('(' ∉ (toString n).toList ∧ ' ' ∉ (toString n).toList ∧ ',' ∉ (toString n).toList ∧ (toString n).toList ≠ []) →
      Exact intWriter intReader (n : ℝ) := exact_int
  have e0 : Exact intWriter intReader 0 := by exact_mod_cast hx 0 (by decide +kernel) (by decide +kernel)
  have e1 : Exact intWriter intReader 1 := by exact_mod_cast hx 1 (by decide +kernel) (by decide +kernel)
  have e2 : Exact intWriter intReader 2 := by exact_mod_cast hx 2 (by decide +kernel) (by decide +kernel)
  have e3 : Exact intWriter intReader 3 := by exact_mod_cast hx 3 (by decide +kernel) (by decide +kernel)
  have e4 : Exact intWriter intReader 4 := by exact_mod_cast hx 4 (by decide +kernel) (by decide +kernel)
  have e5 : Exact intWriter intReader 5 := by exact_mod_cast hx 5 (by decide +kernel) (by decide +kernel)
  have e6 : Exact intWriter intReader 6 := by exact_mod_cast hx 6 (by decide +kernel) (by decide +kernel)
  have e7 : Exact intWriter intReader 7 := by exact_mod_cast hx 7 (by decide +kernel) (by decide +kernel)
  have em : Exact intWriter intReader (-3) := by exact_mod_cast hx (-3) (by decide +kernel) (by decide +kernel)
  intro d hd
  simp only [List.mem_cons, List.not_mem_nil, or_false] at hd
  rcases hd with rfl | rfl | rfl | rfl | rfl
  · exact ⟨by norm_num, Or.inl rfl, e5, e6, e7⟩
  · refine ⟨by norm_num, by norm_num, by norm_num [stdR], by norm_num [stdR], e1, e2, ?_, ?_⟩ <;> norm_num <;> assumption
  · refine ⟨?_, rfl, e0, e0, e4, e3⟩
    rw [segMake_eq false, fixOrder_of_lt (Or.inl (by norm_num))]
    · rfl
    · exact Pip.le_eucl (by norm_num [stdR])
  · refine ⟨by simp, ?_, rfl, ?_, by simp [intWriter]⟩
    · have far : ∀ a b : Pt ℝ, 1 ≤ (a.1 - b.1) ^ 2 + (a.2 - b.2) ^ 2 → stdR.nullDistance ≤ ptDist a b := by
        intro a b h
        rw [ptDist_eucl]
        exact le_trans (by norm_num [stdR]) (Pip.le_eucl (d := 1) (by linarith))
      unfold polySet
      rw [if_pos]
      simp [checkInput, openPairs]
      refine ⟨⟨far _ _ (by norm_num), far _ _ (by norm_num)⟩, far _ _ (by norm_num)⟩
    · intro p hp
      simp only [List.mem_cons, List.not_mem_nil, or_false] at hp
      rcases hp with rfl | rfl | rfl
      · exact ⟨e0, e0⟩
      · exact ⟨e4, e0⟩
      · exact ⟨e4, em⟩
  · refine ⟨⟨1, 1, 3, 2, 0, rfl, by norm_num, by norm_num, by norm_num [stdR], Or.inl Real.sin_zero, e1, e1, e3, e2⟩, ?_, by simp [intWriter]⟩
    intro th hth
    have h0 : (Ell.new 1 1 3 2 0).angle stdR = .ok 0 := angle_hor (by norm_num [stdR])
    rw [h0] at hth
    simp only [Res.ok.injEq] at hth
    rw [← hth]
    simpa using e0

/-- **C94**, numbers written with fewer digits: with an error of at most `delta` on each number, the shapes that are large enough come back with the same types, in the same order, and with
coordinates and radius that differ by at most `delta` (twice for the second corner of a rectangle). -/
theorem C94_rounded_partial {t : Thr ℝ} (hn : 0 ≤ t.nullDistance) (ho : 0 ≤ t.nullOrthogDistance) (flag : Bool) (w : Writer) (rd : Reader) {delta : ℝ} (hd : 0 ≤ delta) (dflt : Draw.Vals)
    (width height : Nat) (items : List (Draw.Vals × Item)) (h : ∀ d ∈ items, DrawnNearly t w rd delta d.1 d.2) :
    ∃ im shapes, drawAll t flag w dflt (newImage width height) items = (.ok (), im) ∧ importFile t flag rd (writeImage im) = some (.ok shapes) ∧
      List.Forall₂ (NearShape delta) (items.flatMap (fun d => shapeOf d.2)) shapes := by
  obtain ⟨im, es, ss, k1, k4, k5, k6⟩ := good_near_all (flag := flag) hn ho hd dflt items (newImage width height) [] [] bal_nil rfl h
  exact ⟨im, ss, k1, file_import k4 (by simpa using k5), k6⟩

/-- Numbers rounded to integers: a circle. -/
example : ∃ im shapes, drawAll stdR false intWriter Draw.factory (newImage 300 200) [(Draw.factory, .circle ⟨(11 / 2, 6), 43 / 6⟩)] = (.ok (), im) ∧
    importFile stdR false intReader (writeImage im) = some (.ok shapes) ∧ List.Forall₂ (NearShape 1) [.circle ⟨(11 / 2, 6), 43 / 6⟩] shapes := by
  refine C94_rounded_partial (by norm_num [stdR]) (by norm_num [stdR]) false intWriter intReader (delta := 1) (by norm_num) Draw.factory 300 200 _ ?_
  intro d hd
  rw [List.mem_singleton] at hd
  subst hd
  have f1 : ⌊(11 / 2 : ℝ)⌋ = 5 := by rw [Int.floor_eq_iff]; norm_num
  have f2 : ⌊(43 / 6 : ℝ)⌋ = 7 := by rw [Int.floor_eq_iff]; norm_num
  refine ⟨by norm_num [stdR], ⟨5, ?_, by norm_num⟩, ⟨6, ?_, by norm_num⟩, ⟨7, ?_, by rw [abs_le]; norm_num⟩⟩
  · exact near_int f1 (by decide +kernel) (by decide +kernel)
  · exact near_int (n := 6) (by norm_num) (by decide +kernel) (by decide +kernel)
  · exact near_int f2 (by decide +kernel) (by decide +kernel)

/-- **C94**, other elements: groups, texts and unknown elements have no effect on what is imported. -/
theorem C94_ignored (t : Thr ℝ) (flag : Bool) (rd : Reader) (es : List Svg.Elem) :
    importElems t flag rd es = importElems t flag rd (es.filter (fun e => e.name ∈ shapeNames)) := by
  induction es with
  | nil => rfl
  | cons e es ih =>
    by_cases h : e.name ∈ shapeNames
    · rw [List.filter_cons_of_pos (by simpa using h), importElems, importElems, ih]
    · rw [List.filter_cons_of_neg (by simpa using h), ← ih, importElems, visit_other h, Res.bind_ok]
      cases importElems t flag rd es <;> simp

/-- **C94**, all or nothing: the import succeeds only if every element that stands for a shape can be read, and then gives the shapes of the elements, in the order of the file. -/
theorem C94_each (t : Thr ℝ) (flag : Bool) (rd : Reader) (es : List Svg.Elem) (ss : List Svg.Shape) :
    importElems t flag rd es = .ok ss ↔ ∃ l, List.Forall₂ (fun e s => visitExit t flag rd e = .ok s) es l ∧ ss = l.flatten := by
  induction es generalizing ss with
  | nil =>
    simp only [importElems, Res.ok.injEq, List.forall₂_nil_left_iff, exists_eq_left, List.flatten_nil]
    exact eq_comm
  | cons e es ih =>
    rw [importElems]
    constructor
    · intro h
      cases h1 : visitExit t flag rd e with
      | throw => rw [h1, Res.bind_throw] at h; cases h
      | ub => rw [h1, Res.bind_ub] at h; cases h
      | ok s =>
        rw [h1, Res.bind_ok] at h
        cases h2 : importElems t flag rd es with
        | throw => rw [h2, Res.bind_throw] at h; cases h
        | ub => rw [h2, Res.bind_ub] at h; cases h
        | ok s2 =>
          rw [h2, Res.bind_ok, Res.pure_eq, Res.ok.injEq] at h
          obtain ⟨l, hl, e2⟩ := (ih s2).1 h2
          exact ⟨s :: l, List.Forall₂.cons h1 hl, by rw [← h, e2, List.flatten_cons]⟩
    · rintro ⟨l, hl, rfl⟩
      cases hl with
      | cons h1 h2 =>
        rename_i s l
        rw [h1, Res.bind_ok, (ih l.flatten).2 ⟨l, h2, rfl⟩, Res.bind_ok, List.flatten_cons]
        rfl

/-- **C94**, size of the image: it can be read from the file that is written, whatever was drawn. -/
theorem C94_size (stod : List Char → Option ℝ) (im : Image) (h1 : stod (toString im.cols).toList = some (im.cols : ℝ)) (h2 : stod (toString im.rows).toList = some (im.rows : ℝ)) :
    ∃ root, rootOf (writeImage im) = some root ∧ getImgSize stod root = .ok (im.cols, im.rows) := by
  refine ⟨rootElem im, rfl, ?_⟩
  unfold rootElem
  generalize (toString im.cols).toList = sc at *
  generalize (toString im.rows).toList = sr at *
  have c : (im.cols : ℝ) ≠ -1 := by have : (0 : ℝ) ≤ im.cols := by positivity
                                    intro h; linarith
  have r : (im.rows : ℝ) ≠ -1 := by have : (0 : ℝ) ≤ im.rows := by positivity
                                    intro h; linarith
  simp [getImgSize, imgSizeLoop, h1, h2, c, r]

example : intReader.stod (toString 300).toList = some ((300 : Nat) : ℝ) := by
  have : readInt (toString 300).toList = some 300 := by decide +kernel
  simp only [intReader, this, Option.map_some]
  norm_num

/-- **C94**, a file without a width is refused. -/
theorem C94_no_size (stod : List Char → Option ℝ) (root : Svg.Elem) (h : ∀ a ∈ root.attrs, a.1 ≠ "width") : getImgSize stod root = .throw := by
  unfold getImgSize
  rcases size_loop stod root.attrs (-1) (-1) h with h1 | ⟨x, h1⟩
  · rw [h1, Res.bind_throw]
  · rw [h1, Res.bind_ok, if_pos (Or.inl rfl)]

example : ∀ a ∈ (⟨"svg", [("height", "200".toList)]⟩ : Svg.Elem).attrs, a.1 ≠ "width" := by simp

/-- **C94** fails for vertical ellipses: the ellipse that is imported is turned by 90 radians, not by 90 degrees; a point that is inside one is not inside the other.
(The angle of a vertical ellipse is reported as 90.) -/
theorem C94_vertical_false {t : Thr ℝ} (ht : 0 < t.nullDenom) (h1 : t.nullDenom ≤ 1) (hd : t.nullDeter ≤ 1) (flag : Bool) (w : Writer) (rd : Reader) (dflt dp : Draw.Vals) (width height : Nat)
    (x y a b : ℝ) (hb : 0 < b) (hab : b < a) (hbig : t.nullDenom ≤ 4 * a ^ 2 * b ^ 2) (ex : Exact w rd x) (ey : Exact w rd y) (ea : Exact w rd a) (eb : Exact w rd b)
    (eg : Exact w rd (90 * 180 / Real.pi)) (hw : ∀ a ∈ w.extra dp.attr, a.1 ≠ "transform") :
    ∃ im, drawAll t flag w dflt (newImage width height) [(dp, .ell (Ell.new x y a b (Real.pi / 2)))] = (.ok (), im) ∧
      importFile t flag rd (writeImage im) = some (.ok [.ell (Ell.new x y a b 90)]) ∧
      ∃ p, InsideEll x y a b (Real.pi / 2) p ∧ ¬ InsideEll x y a b 90 p := by
  obtain ⟨d1, d2⟩ := draw_vert ht hb hab hbig w dp x y
  have hv := visit_ell (t := t) (flag := flag) dp hw ex ey ea eb eg
  rw [import_ellipse ht h1 hd, Res.bind_ok, max_eq_left hab.le, min_eq_right hab.le, show 90 * 180 / Real.pi * Real.pi / 180 = 90 by field_simp, ← new_m _ _ _ _ _ hab.le] at hv
  refine ⟨⟨width, height, [.elem (ellElem w dp x y a b (90 * 180 / Real.pi))]⟩, ?_, ?_, vert_gap hb hab⟩
  · simp [drawAll, Image.draw, drawItem, newImage, d1, d2]
  · exact file_import (bal_elem _) (import_one hv)

example : ∀ x : ℝ, x = 2 ∨ x = 1 ∨ x = 90 * 180 / Real.pi → Exact vertWriter vertReader x := by
  intro x hx
  have h2 : (2 : ℝ) ≠ 90 * 180 / Real.pi := by
    intro h
    have : (2 : ℝ) * Real.pi = 90 * 180 := by field_simp at h; linarith
    linarith [Real.pi_lt_four]
  have h1 : (1 : ℝ) ≠ 90 * 180 / Real.pi := by
    intro h
    have : (1 : ℝ) * Real.pi = 90 * 180 := by field_simp at h; linarith
    linarith [Real.pi_lt_four]
  have r2 : readInt ['2'] = some 2 := by decide +kernel
  have r1 : readInt ['1'] = some 1 := by decide +kernel
  rcases hx with rfl | rfl | rfl
  · simp [Exact, ReadsAs, vertWriter, vertReader, h2, r2]
  · simp [Exact, ReadsAs, vertWriter, vertReader, h1, r1]
  · simp [Exact, ReadsAs, vertWriter, vertReader]

/-- **C94** fails for a rotation around another point than the center of the ellipse, `<ellipse cx="5" cy="0" rx="2" ry="1" transform="rotate(90,0,0)"/>`:
the center that is given in the attribute is not used, the ellipse is left at (5,0) instead of going to (0,5). -/
theorem C94_center_false (flag : Bool) : ∃ e,
    visitExit stdR flag intReader ⟨"ellipse", [("cx", "5".toList), ("cy", "0".toList), ("rx", "2".toList), ("ry", "1".toList), ("transform", "rotate(90,0,0)".toList)]⟩ = .ok [.ell e] ∧
    Ell.getCenter stdR e = .ok (5, 0) ∧ svgRotate (Real.pi / 2) (0, 0) (5, 0) = (0, 5) := by
  refine ⟨⟨ellMat 5 0 2 1 (90 * Real.pi / 180), false⟩, ?_, ?_, ?_⟩
  · rw [read_ellipse (x := 5) (y := 0) (rx := 2) (ry := 1) (deg := 90) (x0 := 0) (y0 := 0) (by decide +kernel) (by decide +kernel) (by decide +kernel) (by decide +kernel)
      (show tokenize '(' "rotate(90,0,0)".toList = ["rotate".toList, "90,0,0)".toList] by decide +kernel) (show tokenize ',' ("90,0,0)".toList.dropLast) = ["90".toList, "0".toList, "0".toList] by decide +kernel)
      (by decide +kernel) (by decide +kernel) (by decide +kernel)]
    norm_num
  · rcases params_new stdR 5 0 2 1 (90 * Real.pi / 180) (by norm_num) (by norm_num) with ⟨h, -⟩ | ⟨-, h⟩
    · norm_num [stdR] at h
    · simp only [Ell.getCenter, h, Res.bind_ok, Res.pure_eq]
  · simp [svgRotate]

/-- **C94** fails for an ellipse that is higher than wide, `<ellipse cx="0" cy="0" rx="1" ry="2" transform="rotate(0,0,0)"/>`: the axes are exchanged, the point (0,3/2) is not inside. -/
theorem C94_axes_false (flag : Bool) : ∃ e,
    visitExit stdR flag intReader ⟨"ellipse", [("cx", "0".toList), ("cy", "0".toList), ("rx", "1".toList), ("ry", "2".toList), ("transform", "rotate(0,0,0)".toList)]⟩ = .ok [.ell e] ∧
    Ell.pointIsInside stdR e (0, 3 / 2) = .ok false ∧ InsideEll 0 0 1 2 0 (0, 3 / 2) := by
  refine ⟨Ell.new 0 0 2 1 0, ?_, ?_, ?_⟩
  · rw [read_ellipse (x := 0) (y := 0) (rx := 1) (ry := 2) (deg := 0) (x0 := 0) (y0 := 0) (by decide +kernel) (by decide +kernel) (by decide +kernel) (by decide +kernel)
      (show tokenize '(' "rotate(0,0,0)".toList = ["rotate".toList, "0,0,0)".toList] by decide +kernel) (show tokenize ',' ("0,0,0)".toList.dropLast) = ["0".toList, "0".toList, "0".toList] by decide +kernel)
      (by decide +kernel) (by decide +kernel) (by decide +kernel), new_m _ _ _ _ _ (by norm_num)]
    norm_num
  · obtain ⟨r, h1, h2⟩ := C56_inside_partial stdR 0 0 2 1 0 (by norm_num [stdR]) (by norm_num) (by norm_num) (by norm_num [stdR]) (Or.inl Real.sin_zero) (0, 3 / 2)
    rw [h1, Res.ok.injEq]
    cases r with
    | false => rfl
    | true =>
      have := h2.1 rfl
      simp only [InsideEll, ellVal, Real.cos_zero, Real.sin_zero] at this
      norm_num at this
  · simp only [InsideEll, ellVal, Real.cos_zero, Real.sin_zero]
    norm_num

/-- **C94** fails for an ellipse without `transform` attribute (valid in SVG): nothing at all is imported from a file that holds one, whatever its other elements are. -/
theorem C94_transform_false (t : Thr ℝ) (flag : Bool) (rd : Reader) (es es' : List Svg.Elem) (e : Svg.Elem) (he : e.name = "ellipse") (ha : ∀ a ∈ e.attrs, a.1 ≠ "transform") (ss : List Svg.Shape) :
    importElems t flag rd (es ++ e :: es') ≠ .ok ss := by
  intro h
  obtain ⟨l, hl, -⟩ := (C94_each t flag rd _ ss).1 h
  obtain ⟨s, hs⟩ := forall2_mem hl e (by simp)
  exact no_transform he ha s hs

/-- **C94** fails for segments that are drawn with their points: the symbols come back as other segments. -/
theorem C94_points_false : ∃ im, drawAll stdR true intWriter Draw.factory (newImage 300 200) [({ Draw.factory with showPoints := true }, .seg ((10, 10), (20, 20)))] = (.ok (), im) ∧
    importFile stdR true intReader (writeImage im) =
      some (.ok [.seg ((10, 10), (20, 20)), .seg ((5, 10), (15, 10)), .seg ((10, 5), (10, 15)), .seg ((15, 20), (25, 20)), .seg ((20, 15), (20, 25))]) := by
  have hx := exact_int
  have e5 : Exact intWriter intReader 5 := by exact_mod_cast hx 5 (by decide +kernel) (by decide +kernel)
  have e10 : Exact intWriter intReader 10 := by exact_mod_cast hx 10 (by decide +kernel) (by decide +kernel)
  have e15 : Exact intWriter intReader 15 := by exact_mod_cast hx 15 (by decide +kernel) (by decide +kernel)
  have e20 : Exact intWriter intReader 20 := by exact_mod_cast hx 20 (by decide +kernel) (by decide +kernel)
  have e25 : Exact intWriter intReader 25 := by exact_mod_cast hx 25 (by decide +kernel) (by decide +kernel)
  have seg : ∀ (dp : Draw.Vals) (x1 y1 x2 y2 : ℝ) (at' : List (String × List Char)), Exact intWriter intReader x1 → Exact intWriter intReader y1 → Exact intWriter intReader x2 → Exact intWriter intReader y2 →
      (x1 + 1 ≤ x2 ∨ x1 = x2 ∧ y1 + 1 ≤ y2) → Good stdR true intReader (put [.elem (segElem intWriter dp ((x1, y1), (x2, y2)) at')]) [.seg ((x1, y1), (x2, y2))] := by
    intro dp x1 y1 x2 y2 at' a1 a2 a3 a4 h
    apply good_put
    rw [visit_seg (s := ((x1, y1), (x2, y2))) dp at' a1 a2 a3 a4, seg_lt (by norm_num [stdR]) h]
    rfl
  have pt : ∀ x y a b c d : ℝ, Exact intWriter intReader x → Exact intWriter intReader y → Exact intWriter intReader a → Exact intWriter intReader b → Exact intWriter intReader c → Exact intWriter intReader d →
      x - 5 = a → x + 5 = b → y - 5 = c → y + 5 = d → 0 ≤ x → x < 300 → 0 ≤ y → y < 200 →
      Good stdR true intReader (drawPoint stdR true intWriter 300 200 { Draw.factory with showPoints := true } (x, y)) [.seg ((a, y), (b, y)), .seg ((x, c), (x, d))] := by
    intro x y a b c d hx hy ha hb hc hd e1 e2 e3 e4 l1 l2 l3 l4
    have hm : pointMark stdR true 300 200 { Draw.factory with showPoints := true } (x, y) = .ok (.strokes [((a, y), (b, y)), ((x, c), (x, d))]) := by
      unfold pointMark
      rw [if_neg (by push Not; constructor <;> push_cast <;> linarith), if_neg (by push Not; constructor <;> push_cast <;> linarith)]
      have := plus_segs (t := stdR) (by norm_num [stdR]) (show 1 ≤ 5 by norm_num) x y
      push_cast at this
      rw [e1, e2, e3, e4] at this
      show (do let l ← makeSegs stdR (strokePairs 5 (x, y) false false); pure (Mark.strokes l)) = _
      rw [this]
      rfl
    unfold drawPoint
    rw [hm]
    exact good_then (seg { Draw.factory with showPoints := true } a y b y (intWriter.extra Draw.factory.attr) ha hy hb hy (by left; linarith)) (seg { Draw.factory with showPoints := true } x c x d (intWriter.extra Draw.factory.attr) hx hc hx hd (by right; exact ⟨rfl, by linarith⟩))
  have all := good_wrap (good_then (seg { Draw.factory with showPoints := true } 10 10 20 20 (intWriter.extra Draw.factory.attr) e10 e10 e20 e20 (by left; norm_num))
    (good_then (pt 10 10 5 15 5 15 e10 e10 e5 e15 e5 e15 (by norm_num) (by norm_num) (by norm_num) (by norm_num) (by norm_num) (by norm_num) (by norm_num) (by norm_num))
      (good_then (pt 20 20 15 25 15 25 e20 e20 e15 e25 e15 e25 (by norm_num) (by norm_num) (by norm_num) (by norm_num) (by norm_num) (by norm_num) (by norm_num) (by norm_num)) good_nil)))
  have heq := drawSeg_eq stdR true intWriter 300 200 { Draw.factory with showPoints := true } ((10, 10), (20, 20))
  rw [if_pos rfl] at heq
  have all' : Good stdR true intReader (drawSeg stdR true intWriter 300 200 { Draw.factory with showPoints := true } ((10, 10), (20, 20)))
      [.seg ((10, 10), (20, 20)), .seg ((5, 10), (15, 10)), .seg ((10, 5), (10, 15)), .seg ((15, 20), (25, 20)), .seg ((20, 15), (20, 25))] := by
    rw [heq]
    exact all
  obtain ⟨g1, es, g2, g3⟩ := all'
  refine ⟨⟨300, 200, (drawSeg stdR true intWriter 300 200 { Draw.factory with showPoints := true } ((10, 10), (20, 20))).2⟩, ?_, file_import g2 g3⟩
  simp [drawAll, Image.draw, drawItem, newImage, g1]

/-! ### C95: symbols of the points -/

/-- **C95**: after any history of the drawing parameters, drawing a point succeeds; nothing is drawn if the point is outside of the image, otherwise the symbol of the style,
symmetric around the point and of the size that was asked for. -/
theorem C95_symbol {t : Thr ℝ} (ht : t.nullDistance ≤ 1) (flag : Bool) (w : Writer) (cols rows : Nat) (ops : List Draw.Op) (world : Draw.World) (h : Draw.run Draw.World.start ops = some world)
    (dp : Draw.Vals) (hdp : dp ∈ world.objs) (p : Pt ℝ) :
    ∃ m toks, drawPoint t flag w cols rows dp p = (.ok (), toks) ∧ Shows w m toks ∧ (¬ InImg cols rows p → m = .nothing) ∧
      (InImg cols rows p → IsSymbol dp.style.val dp.ptDelta dp.pointSize p m) := by
  obtain ⟨h1, -, -, h2, h3⟩ := C59_invariant ops world h dp hdp
  obtain ⟨m, k1, k2, k3⟩ := mark_ok ht flag cols rows h1 h2 h3 p
  obtain ⟨toks, k4, k5⟩ := draw_mark (w := w) k1
  exact ⟨m, toks, k4, k5, k2, k3⟩

/-- Default parameters. -/
example : ∃ world dp, Draw.run Draw.World.start [.create, .set 0 (.pointStyle 4)] = some world ∧ dp ∈ world.objs ∧ dp.style.val = 4 ∧ InImg 300 200 (10, 20) :=
  ⟨_, _, rfl, List.mem_singleton.2 rfl, rfl, by norm_num [InImg]⟩

/-! ### C96: the file can be parsed -/

/-- **C96**: after any number of drawings that end without an exception, with any parameters, the file is well formed: each opened element is closed, in the reverse order. -/
theorem C96_partial (t : Thr ℝ) (flag : Bool) (w : Writer) (dflt : Draw.Vals) (width height : Nat) (items : List (Draw.Vals × Item)) (im : Image)
    (h : drawAll t flag w dflt (newImage width height) items = (.ok (), im)) : WellFormed (writeImage im) := by
  obtain ⟨es, hb⟩ := closed_all t flag w dflt items (newImage width height) im ⟨[], bal_nil⟩ h
  have h1 := bal_wrap (rootElem im) (bal_append (bal_elem (⟨"style", []⟩ : Svg.Elem)) hb)
  have h2 : writeImage im = [.opening (rootElem im)] ++ ([.elem ⟨"style", []⟩] ++ im.body) ++ [.closing (rootElem im).name] := by simp [writeImage, rootElem]
  unfold WellFormed
  rw [h2, bal_exits h1]
  rfl

/-- A segment with its points. -/
example : ∃ im, drawAll stdR true intWriter Draw.factory (newImage 300 200) [({ Draw.factory with showPoints := true }, .seg ((10, 10), (20, 20)))] = (.ok (), im) :=
  let ⟨im, h, _⟩ := C94_points_false
  ⟨im, h⟩

/-- **C96** fails when the drawing of an ellipse ends with an exception (here an ellipse of size 1/1000): what is left of it in the image makes the file unreadable, whatever is drawn afterwards. -/
theorem C96_false (flag : Bool) (w : Writer) (dflt dp : Draw.Vals) (width height : Nat) (x y th : ℝ) :
    ∃ im, drawAll stdR flag w dflt (newImage width height) [(dp, .ell (Ell.new x y (1 / 1000) (1 / 1000) th))] = (.throw, im) ∧
    ∀ items, ¬ WellFormed (writeImage (drawAll stdR flag w dflt im items).2) := by
  obtain ⟨h1, -⟩ := C55_false x y th
  refine ⟨⟨width, height, [.broken]⟩, ?_, ?_⟩
  · have he : drawEllipse stdR w dp (Ell.new x y (1 / 1000) (1 / 1000) th) = (.throw, [.broken]) := by
      unfold drawEllipse
      rw [h1]
      rfl
    simp only [drawAll, Image.draw, drawItem, he, newImage, List.nil_append]
  · intro items
    obtain ⟨ext, he⟩ := body_grows stdR flag w dflt items ⟨width, height, [.broken]⟩
    unfold WellFormed
    rw [broken_none _ _ (show Tok.broken ∈ writeImage _ by simp [writeImage, he])]
    simp

/-- **C96** fails when the drawing of an oriented segment ends with an exception: its group is not closed, and the file stays unreadable after any number of drawings that end well. -/
theorem C96_arrow_false {t : Thr ℝ} (h1 : 0 < t.nullDenom) (h1' : t.nullDenom ≤ 1 / 2) (h2 : 0 < t.nullDistance) (flag : Bool) (w : Writer) (dflt dp : Draw.Vals) (width height : Nat) :
    ∃ s im, (∃ p q, segMake t true p q = .ok s) ∧ drawAll t flag w dflt (newImage width height) [(dp, .oseg s)] = (.throw, im) ∧
    ∀ items im', drawAll t flag w dflt im items = (.ok (), im') → ¬ WellFormed (writeImage im') := by
  obtain ⟨s, hs, ha⟩ := C92_false t h1 h1' h2
  refine ⟨s, ⟨width, height, [.opening group, drawSvgSeg w dp s (w.extra dp.attr)]⟩, hs, ?_, ?_⟩
  · simp [drawAll, Image.draw, drawItem, drawOSeg, newImage, ha, compute, andThen, put]
  · intro items im' h
    obtain ⟨ext, es, k1, k2⟩ := body_bal t flag w dflt items _ im' h
    unfold WellFormed writeImage
    simp only [k1, drawSvgSeg, List.cons_append, List.nil_append]
    rw [exits_opening, exits_elem, exits_opening, exits_elem, k2]
    simp [exits, group]

example : 0 < stdR.nullDenom ∧ stdR.nullDenom ≤ 1 / 2 ∧ 0 < stdR.nullDistance := by norm_num [stdR]

/-! ### C97: attributes given by the user -/

/-- **C97**: whatever is drawn, if the string given by the user holds attributes that are not the ones of the shapes, and if `fill=` is only found in it as the attribute `fill`,
no element holds an attribute twice, the elements that have an inside hold all the attributes of the user, and `fill="none"` exactly when the user does not say how to fill. -/
theorem C97_partial (t : Thr ℝ) (flag : Bool) (w : Writer) (cols rows : Nat) (dflt dp : Draw.Vals) (l : List (String × List Char)) (hu : UserAttrs l) (hf : FillClear l) (hg : Gives w dp l)
    (i : Item) (e : Svg.Elem) (he : .elem e ∈ (drawItem t flag w cols rows dflt dp i).2 ∨ .opening e ∈ (drawItem t flag w cols rows dflt dp i).2) : GoodAttrs l e :=
  all_item hu hf hg t flag cols rows dflt i e he

example : UserAttrs [("fill", "red".toList), ("class", "a".toList)] ∧ FillClear [("fill", "red".toList), ("class", "a".toList)] ∧
    Gives ⟨fun _ => [], fun _ => [("fill", "red".toList), ("class", "a".toList)]⟩ { Draw.factory with attr := "fill=\"red\" class=\"a\" " } [("fill", "red".toList), ("class", "a".toList)] := by
  refine ⟨⟨by decide, ?_⟩, ?_, by decide +kernel, rfl⟩
  · intro a ha
    simp only [List.mem_cons, List.not_mem_nil, or_false] at ha
    rcases ha with rfl | rfl <;> decide +kernel
  · intro a ha
    simp only [List.mem_cons, List.not_mem_nil, or_false] at ha
    rcases ha with rfl | rfl <;> decide +kernel

/-- **C97** fails for an attribute whose name only ends with `fill`: the circle is drawn without any `fill` attribute, thus filled (in black). -/
theorem C97_false (w : Writer) (c : Circle) (hw : w.extra "data-fill=\"1\" " = [("data-fill", "1".toList)]) :
    Gives w { Draw.factory with attr := "data-fill=\"1\" " } [("data-fill", "1".toList)] ∧ UserAttrs [("data-fill", "1".toList)] ∧
    ∃ e, drawCircle w { Draw.factory with attr := "data-fill=\"1\" " } c = [.elem e] ∧ ∀ a ∈ e.attrs, a.1 ≠ "fill" := by
  refine ⟨⟨by decide +kernel, hw⟩, ⟨by decide, ?_⟩, _, rfl, ?_⟩
  · intro a ha
    rw [List.mem_singleton] at ha
    subst ha
    decide +kernel
  · have hh : holdsFill { Draw.factory with attr := "data-fill=\"1\" " } = true := by decide +kernel
    simp [fillAttrs, hh, hw, strokeAttrs]

/-- **C97** fails for an attribute `stroke` given by the user: it is written twice, which XML forbids. -/
theorem C97_stroke_false (w : Writer) (dp : Draw.Vals) (v : List Char) (c : Circle) (hw : w.extra dp.attr = [("stroke", v)]) :
    ∃ e, drawCircle w dp c = [.elem e] ∧ ¬ (e.attrs.map (·.1)).Nodup := by
  refine ⟨_, rfl, ?_⟩
  intro h
  simp [fillAttrs, hw, strokeAttrs] at h

/-- **C97** fails for an attribute `fill` written with a space before the `=`, as XML allows: there are two attributes `fill`. -/
theorem C97_space_false (w : Writer) (c : Circle) (hw : w.extra "fill =\"red\"" = [("fill", "red".toList)]) :
    ∃ e, drawCircle w { Draw.factory with attr := "fill =\"red\"" } c = [.elem e] ∧ ¬ (e.attrs.map (·.1)).Nodup := by
  refine ⟨_, rfl, ?_⟩
  have hh : holdsFill { Draw.factory with attr := "fill =\"red\"" } = false := by decide +kernel
  intro h
  simp [fillAttrs, hh, hw, strokeAttrs] at h

end H2d.Props
