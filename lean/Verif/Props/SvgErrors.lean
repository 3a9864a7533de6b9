import Verif.Lemmas.SvgErrors

/-!
# C122: errors in SVG files
-/

namespace H2d.Props
open H2d H2d.Spec H2d.Svg H2d.SvgD

/-- **C122**, an element with a missing attribute, or with a number that cannot be read, is refused by an exception. -/
theorem C122_required (t : Thr ℝ) (flag : Bool) (rd : Reader) (e : Svg.Elem) (h : Unreadable rd e) : visitExit t flag rd e = .throw := unreadable_throw t flag rd e h

/-- A rectangle without height. -/
example : Unreadable intReader ⟨"rect", [("x", "1".toList), ("y", "2".toList), ("width", "3".toList)]⟩ := by
  refine Or.inl ⟨"height", by simp [numericAttrs], ?_⟩
  rintro v ⟨pre, post, h, -⟩
  have : ("height", v) ∈ ([("x", "1".toList), ("y", "2".toList), ("width", "3".toList)] : List (String × List Char)) := by rw [show ([("x", "1".toList), ("y", "2".toList), ("width", "3".toList)] : List (String × List Char)) = _ from h]; simp
  simp at this

/-- A radius that is not a number. -/
example : Unreadable intReader ⟨"circle", [("cx", "1".toList), ("cy", "2".toList), ("r", "x".toList)]⟩ := by
  refine Or.inl ⟨"r", by simp [numericAttrs], ?_⟩
  rintro v ⟨pre, post, h, -⟩
  have : ("r", v) ∈ ([("cx", "1".toList), ("cy", "2".toList), ("r", "x".toList)] : List (String × List Char)) := by rw [show ([("cx", "1".toList), ("cy", "2".toList), ("r", "x".toList)] : List (String × List Char)) = _ from h]; simp
  have hv : v = "x".toList := by simpa using this
  subst hv
  have : readInt "x".toList = none := by decide +kernel
  simp only [intReader, this, Option.map_none]

/-- **C122 (partial).** A file whose lists of points are not empty, and where each "close path" letter of a path is the last character or is followed by another letter:
the import gives shapes or throws; it throws if one of the elements cannot be read. -/
theorem C122_noabort_partial (t : Thr ℝ) (flag : Bool) (rd : Reader) (es : List Svg.Elem) (h : ∀ e ∈ es, Harmless e) :
    importElems t flag rd es ≠ .ub ∧ ((∃ e ∈ es, Unreadable rd e) → importElems t flag rd es = .throw) := by
  refine ⟨elems_safe t flag rd es h, ?_⟩
  rintro ⟨e, he, hu⟩
  induction es with
  | nil => simp at he
  | cons a es ih =>
    rw [importElems]
    rcases List.mem_cons.1 he with rfl | he
    · rw [unreadable_throw t flag rd e hu]; rfl
    · refine bind_throw_of (visit_safe t flag rd a (h a (by simp))) (Or.inr fun s => ?_)
      rw [ih (fun x hx => h x (by simp [hx])) he]; rfl

example : Harmless ⟨"polygon", [("points", "0,0 2,0 1,1".toList)]⟩ ∧ Harmless ⟨"circle", []⟩ := by
  refine ⟨⟨?_, by simp⟩, by simp, by simp⟩
  rintro - ⟨pre, post, h, -⟩
  have : ("points", ([] : List Char)) ∈ ([("points", "0,0 2,0 1,1".toList)] : List (String × List Char)) := by rw [show ([("points", "0,0 2,0 1,1".toList)] : List (String × List Char)) = _ from h]; simp
  simp at this

/-- **C122 is false of the code** for an empty list of points, which is valid in SVG: the behaviour is undefined (first element of an empty vector), whatever the other elements are. -/
theorem C122_empty_false (t : Thr ℝ) (flag : Bool) (rd : Reader) (e : Svg.Elem) (es es' : List Svg.Elem) (ss : List Svg.Shape) (hes : importElems t flag rd es = .ok ss)
    (hn : e.name = "polygon" ∨ e.name = "polyline") (ha : e.attrs = [("points", [])]) : importElems t flag rd (es ++ e :: es') = .ub := by
  induction es generalizing ss with
  | nil =>
    rw [List.nil_append, importElems]
    have : visitExit t flag rd e = .ub := by
      have hs : getAttribString e "points" = .ok [] := by simp [getAttribString, attrOf, ha]
      have hi : ∀ same, importPoints rd.stod same [] = .ub := fun same => rfl
      unfold visitExit
      rcases hn with hn | hn
      · rw [hn]
        simp only [String.reduceEq, if_false, if_true, hs, Res.bind_ok]
        rw [hi]; rfl
      · rw [hn]
        simp only [String.reduceEq, if_false, if_true, hs, Res.bind_ok]
        rw [hi]; rfl
    rw [this]; rfl
  | cons a es ih =>
    rw [List.cons_append, importElems]
    rw [importElems] at hes
    cases h1 : visitExit t flag rd a with
    | throw => rw [h1, Res.bind_throw] at hes; cases hes
    | ub => rw [h1, Res.bind_ub] at hes; cases hes
    | ok s =>
      rw [h1, Res.bind_ok] at hes
      cases h2 : importElems t flag rd es with
      | throw => rw [h2, Res.bind_throw] at hes; cases hes
      | ub => rw [h2, Res.bind_ub] at hes; cases hes
      | ok s2 => rw [Res.bind_ok, ih s2 h2]; rfl

/-- **C122**, rotation of an ellipse: it is read from `rotate(angle,x,y)`, in degrees, if the three numbers can be read; if not, an exception is thrown. -/
theorem C122_rotate (rd : Reader) (a b c : List Char) (ha : FieldText a) (hb : FieldText b) (hc : FieldText c) :
    (∀ angle x y, rd.stod a = some angle → rd.stod b = some x → rd.stod c = some y →
      rotateAttr rd ("rotate(".toList ++ a ++ [','] ++ b ++ [','] ++ c ++ [')']) = .ok ((x, y), angle * Real.pi / 180)) ∧
    (rd.stod a = none ∨ rd.stod b = none ∨ rd.stod c = none → rotateAttr rd ("rotate(".toList ++ a ++ [','] ++ b ++ [','] ++ c ++ [')']) = .throw) := by
  rw [rotate_read rd ha hb hc]
  constructor
  · intro angle x y h1 h2 h3
    rw [h1, h2, h3]
  · rintro (h | h | h)
    · rw [h]
    · rw [h]; cases rd.stod a <;> rfl
    · rw [h]; cases rd.stod a <;> cases rd.stod b <;> rfl

example : FieldText "30".toList ∧ intReader.stod "30".toList = some 30 ∧ intReader.stod "x".toList = none := by
  have h1 : readInt "30".toList = some 30 := by decide +kernel
  have h2 : readInt "x".toList = none := by decide +kernel
  refine ⟨⟨by decide +kernel, by decide +kernel, by decide +kernel⟩, ?_, ?_⟩
  · simp only [intReader, h1, Option.map_some]; norm_num
  · simp only [intReader, h2, Option.map_none]

/-- **C122**, other texts: without `rotate(`, or with fewer than three values, an exception is thrown. -/
theorem C122_transform (rd : Reader) (s : List Char) :
    rotateAttr rd s ≠ .ub ∧ ((∀ r, s ≠ "rotate(".toList ++ r) ∨ s.count ',' < 2 → rotateAttr rd s = .throw) := by
  refine ⟨rotate_safe rd s, ?_⟩
  intro h
  rcases rotate_cases rd s with h1 | ⟨⟨r, h2⟩, h3⟩
  · exact h1
  · rcases h with h | h
    · exact absurd h2 (h r)
    · omega

/-- A rotation without center, and one with spaces between its values (both are valid in SVG). -/
example : "rotate(30)".toList.count ',' < 2 ∧ "rotate(30 10 20)".toList.count ',' < 2 := by decide +kernel

/-- **C122**, size of the image: it is read if the root element has both values; it never fails otherwise than by an exception.
(Attributes have different names in XML.) The value -1 is taken as missing. -/
theorem C122_size (stod : List Char → Option ℝ) (root : Svg.Elem) (hn : (root.attrs.map Prod.fst).Nodup) :
    (∀ w h, Reads stod root.attrs "width" w → Reads stod root.attrs "height" h → w ≠ -1 → h ≠ -1 → getImgSize stod root = .ok (w, h)) ∧
    ((¬ ∃ w h, Reads stod root.attrs "width" w ∧ Reads stod root.attrs "height" h ∧ w ≠ -1 ∧ h ≠ -1) → getImgSize stod root = .throw) := by
  obtain ⟨h1, h2⟩ := size_unread stod root.attrs (-1) (-1)
  have key : ∀ w h, imgSizeLoop stod (-1) (-1) root.attrs = .ok (w, h) → After stod root.attrs "width" (-1) w ∧ After stod root.attrs "height" (-1) h := by
    intro w h e
    refine (size_iff stod root.attrs (-1) (-1) w h hn fun a ha hk hs => ?_).1 e
    rw [h2 ⟨a, ha, hk, hs⟩] at e
    cases e
  constructor
  · intro w h hw hh w1 h1'
    have hr : ∀ a ∈ root.attrs, a.1 = "width" ∨ a.1 = "height" → stod a.2 ≠ none := by
      obtain ⟨u, hu, hu'⟩ := hw
      obtain ⟨v, hv, hv'⟩ := hh
      rintro ⟨k, x⟩ ha hk
      have uniq : ∀ y, (k, y) ∈ root.attrs → x = y := by
        intro y hy
        exact congrArg Prod.snd (List.inj_on_of_nodup_map hn ha hy rfl)
      rcases hk with rfl | rfl
      · rw [uniq u hu, hu']; simp
      · rw [uniq v hv, hv']; simp
    unfold getImgSize
    rw [(size_iff stod root.attrs (-1) (-1) w h hn hr).2 ⟨Or.inl hw, Or.inl hh⟩, Res.bind_ok, if_neg]
    simp [w1, h1']
  · intro hno
    unfold getImgSize
    cases e : imgSizeLoop stod (-1) (-1) root.attrs with
    | ub => exact absurd e h1
    | throw => rfl
    | ok s =>
      obtain ⟨w, h⟩ := s
      obtain ⟨k1, k2⟩ := key w h e
      rw [Res.bind_ok]
      rw [if_pos]
      by_contra hc
      have hc' : w ≠ -1 ∧ h ≠ -1 := by simpa using hc
      apply hno
      refine ⟨w, h, ?_, ?_, hc'.1, hc'.2⟩
      · rcases k1 with k1 | ⟨-, k1⟩
        · exact k1
        · exact absurd k1 hc'.1
      · rcases k2 with k2 | ⟨-, k2⟩
        · exact k2
        · exact absurd k2 hc'.2

/-- A file with both values, and a file without height. -/
example : (([("width", "300".toList), ("height", "200".toList)] : List (String × List Char)).map Prod.fst).Nodup ∧
    Reads intReader.stod [("width", "300".toList), ("height", "200".toList)] "height" 200 ∧ ¬ ∃ h, Reads intReader.stod [("width", "300".toList)] "height" h := by
  have h1 : readInt "200".toList = some 200 := by decide +kernel
  refine ⟨by simp, ⟨"200".toList, by simp, ?_⟩, ?_⟩
  · simp only [intReader, h1, Option.map_some]; norm_num
  · rintro ⟨h, v, hv, -⟩
    simp at hv

end H2d.Props
