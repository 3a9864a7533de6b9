import Verif.Lemmas.SvgLook

/-! # C120: colors and labels in SVG files -/

namespace H2d.Props

open H2d.Spec H2d.Svg H2d.SvgD

/-- **C120, strokes.** Whatever is drawn, with any parameters: all the elements that are written, other than texts, have the color and the thickness of the drawing parameters. -/
theorem C120_stroke (t : Thr ℝ) (flag : Bool) (w : Writer) (cols rows : Nat) (dflt dp : Draw.Vals) (i : Item) :
    ∀ e, Tok.elem e ∈ (drawItem t flag w cols rows dflt dp i).2 → e.name ≠ "text" → Stroked dp e := fun e he hn => (looks_item t flag w cols rows dflt dp i e he).resolve_left hn

/-- A red circle of thickness 3. -/
example : ∃ e, Tok.elem e ∈ (drawItem stdR true intWriter 300 200 Draw.factory { Draw.factory with color := (250, 0, 7), lineThickness := 3 } (.circle ⟨(10, 20), 5⟩)).2 ∧ e.name ≠ "text" :=
  ⟨_, List.mem_singleton.2 rfl, by decide⟩

/-- **C120, colors.** Two different colors give two different texts. -/
theorem C120_colors (c c' : Nat × Nat × Nat) (h : IsRgb (colorText c) c') : c' = c := by
  obtain ⟨r, g, b, e, h1, h2, h3⟩ := h
  have hr := no_comma h1
  have hg := no_comma h2
  have hc : ∀ n : Nat, ',' ∉ (toString n).toList := fun n => no_comma (decimal_nat n)
  unfold colorText at e
  simp only [List.append_assoc] at e
  have e := List.append_cancel_left e
  obtain ⟨e1, e⟩ := split_comma (hc c.1) hr e
  obtain ⟨e2, e⟩ := split_comma (hc c.2.1) hg e
  have e3 := List.append_cancel_right e
  rw [← e1, decimal_nat] at h1
  rw [← e2, decimal_nat] at h2
  rw [← e3, decimal_nat] at h3
  exact Prod.ext (Option.some.inj h1).symm (Prod.ext (Option.some.inj h2).symm (Option.some.inj h3).symm)

/-- **C120, texts.** A text is written at the given point, with the size and the color of the drawing parameters. -/
theorem C120_text (w : Writer) (dp : Draw.Vals) (h : ByteColor dp) (p : Pt ℝ) : ∃ e, drawText w dp p = .elem e ∧ e.name = "text" ∧ TextAt w dp p e := text_at w h p

/-- **C120, histories.** After any history of the drawing parameters, the components of the color are on 8 bits. -/
theorem C120_bytes (ops : List Draw.Op) (world : Draw.World) (h : Draw.run Draw.World.start ops = some world) : (∀ v ∈ world.objs, ByteColor v) ∧ ByteColor world.dflt :=
  byte_run ops _ ⟨by simp [Draw.World.start], byte_factory⟩ world h

/-- **C120 (partial), labels of a polyline.** If the drawing of a polyline ends well, its texts are: one for each point if the indexes are asked for, in the order of the points, at these points up to the truncation of the coordinates;
then, if the angles are asked for, one for each point except the first one (and the last one, if it is open), in their order, at these points. Missing: the first point of a closed polyline (see `C120_angles_false`). -/
theorem C120_labels_partial (t : Thr ℝ) (flag : Bool) (w : Writer) (cols rows : Nat) (dflt dp : Draw.Vals) (hd : ByteColor dflt) (closed : Bool) (pts : List (Pt ℝ)) (h2 : 2 ≤ pts.length)
    (h : (drawItem t flag w cols rows dflt dp (.poly closed pts)).1 = .ok ()) :
    ∃ li la, textsOf (drawItem t flag w cols rows dflt dp (.poly closed pts)).2 = li ++ la ∧ List.Forall₂ LabelAt (if dp.showIndex then pts else []) li ∧
      List.Forall₂ (TextAt w dflt) (if dp.showAngles then (if closed then pts.tail else pts.tail.dropLast) else []) la :=
  ⟨_, _, poly_texts t flag w cols rows dflt dp closed pts h2 h, texts_map label_at _, texts_map (text_at w hd) _⟩

/-- **C120, angles of a closed polyline.** There is an angle at each point of a closed polyline, but the one at the first point is never written: with the angles asked for, one text less than points. -/
theorem C120_angles_false (t : Thr ℝ) (flag : Bool) (w : Writer) (cols rows : Nat) (dflt dp : Draw.Vals) (hd : ByteColor dflt) (hi : dp.showIndex = false) (ha : dp.showAngles = true) (pts : List (Pt ℝ)) (h2 : 2 ≤ pts.length)
    (h : (drawItem t flag w cols rows dflt dp (.poly true pts)).1 = .ok ()) : (textsOf (drawItem t flag w cols rows dflt dp (.poly true pts)).2).length + 1 = pts.length := by
  obtain ⟨li, la, e, k1, k2⟩ := C120_labels_partial t flag w cols rows dflt dp hd true pts h2 h
  rw [hi] at k1
  rw [ha] at k2
  have l1 : li.length = 0 := by have := k1.length_eq; simpa using this.symm
  have l2 : pts.length - 1 = la.length := by have := k2.length_eq; simpa using this
  rw [e, List.length_append]
  omega

/-- The triangle (0,0) (40,0) (0,30), with its angles. -/
example : ByteColor Draw.factory ∧ (drawItem stdR true intWriter 300 200 Draw.factory { Draw.factory with showAngles := true } (.poly true [(0, 0), (40, 0), (0, 30)])).1 = .ok () := by
  refine ⟨by simp [ByteColor, Draw.factory], ?_⟩
  have e : getOSegs (fun a b => @decide (PtEq stdR a b) (Classical.propDecidable _)) true [((0 : ℝ), (0 : ℝ)), (40, 0), (0, 30)] = .ok (segPairs true [(0, 0), (40, 0), (0, 30)]) := by
    unfold getOSegs
    rw [if_neg]
    simp [segPairs, cycPairs, PtEq, stdR]
    norm_num
    refine ⟨?_, ?_, ?_⟩ <;> (unfold ptDist; apply Real.le_sqrt_of_sq_le; norm_num)
  show (drawPoly _ _ _ _ _ _ _ _ _).1 = _
  unfold drawPoly
  simp only
  rw [e]
  rfl

end H2d.Props
