import Verif.Lemmas.SvgMark

/-!
# SVG files: size, vertical ellipses, broken files
-/

namespace H2d.SvgD
open H2d H2d.Spec H2d.Svg

theorem near_int {n : Int} {x : ℝ} (hx : ⌊x⌋ = n) (h : readInt (toString n).toList = some n)
    (h' : '(' ∉ (toString n).toList ∧ ' ' ∉ (toString n).toList ∧ ',' ∉ (toString n).toList ∧ (toString n).toList ≠ []) : ReadsAs intWriter intReader x (n : ℝ) := by
  have hf : intWriter.fmt x = (toString n).toList := by simp [intWriter, hx]
  unfold ReadsAs
  rw [hf]
  refine ⟨h'.2.2.2, h'.2.1, h'.2.2.1, h'.1, ?_, ?_⟩ <;> simp only [intReader, h, Option.map_some]

theorem size_loop (stod : List Char → Option ℝ) : ∀ (l : List (String × List Char)) (w h : ℝ), (∀ a ∈ l, a.1 ≠ "width") →
    imgSizeLoop stod w h l = .throw ∨ ∃ x, imgSizeLoop stod w h l = .ok (w, x)
  | [], w, h, _ => Or.inr ⟨h, rfl⟩
  | a :: l, w, h, hl => by
    have ha : a.1 ≠ "width" := hl a (by simp)
    have ih := fun h => size_loop stod l w h (fun b hb => hl b (by simp [hb]))
    rw [imgSizeLoop, if_neg ha, Res.bind_ok]
    simp only
    by_cases hh : a.1 = "height"
    · rw [if_pos hh]
      cases stod a.2 with
      | none => left; rfl
      | some x => exact ih x
    · rw [if_neg hh]
      exact ih h

theorem vert_gap {x y a b : ℝ} (hb : 0 < b) (hab : b < a) : ∃ p, InsideEll x y a b (Real.pi / 2) p ∧ ¬ InsideEll x y a b 90 p := by
  have ha : 0 < a := hb.trans hab
  have hsc := Real.sin_sq_add_cos_sq 90
  have hc : 0 < Real.cos 90 ^ 2 := by have := cos90_ne; positivity
  set q := Real.sin 90 ^ 2 / a ^ 2 + Real.cos 90 ^ 2 / b ^ 2 with hq
  have hlt : 1 / a ^ 2 < q := by
    have h1 : Real.cos 90 ^ 2 / a ^ 2 < Real.cos 90 ^ 2 / b ^ 2 := div_lt_div_of_pos_left hc (by positivity) (by nlinarith)
    have h2 : 1 / a ^ 2 = Real.sin 90 ^ 2 / a ^ 2 + Real.cos 90 ^ 2 / a ^ 2 := by rw [← add_div, hsc]
    rw [h2, hq]; linarith
  have hq0 : 0 < q := lt_trans (by positivity) hlt
  have hd : Real.sqrt (1 / q) ^ 2 = 1 / q := Real.sq_sqrt (by positivity)
  refine ⟨(x, y + Real.sqrt (1 / q)), ?_, ?_⟩
  · simp only [InsideEll, ellVal, Real.cos_pi_div_two, Real.sin_pi_div_two]
    have e : ((x - x) * 0 + (y + Real.sqrt (1 / q) - y) * 1) ^ 2 / a ^ 2 + (-(x - x) * 1 + (y + Real.sqrt (1 / q) - y) * 0) ^ 2 / b ^ 2 = (1 / q) * (1 / a ^ 2) := by
      linear_combination (1 / a ^ 2) * hd
    rw [e, one_div_mul_eq_div, div_lt_one hq0]
    exact hlt
  · simp only [InsideEll, ellVal]
    have e : ((x - x) * Real.cos 90 + (y + Real.sqrt (1 / q) - y) * Real.sin 90) ^ 2 / a ^ 2
          + (-(x - x) * Real.sin 90 + (y + Real.sqrt (1 / q) - y) * Real.cos 90) ^ 2 / b ^ 2
          = Real.sqrt (1 / q) ^ 2 * q := by rw [hq]; ring
    rw [e, hd, one_div, inv_mul_cancel₀ hq0.ne']
    exact lt_irrefl 1

theorem draw_vert {t : Thr ℝ} (ht : 0 < t.nullDenom) {a b : ℝ} (hb : 0 < b) (hab : b < a) (hbig : t.nullDenom ≤ 4 * a ^ 2 * b ^ 2) (w : Writer) (dp : Draw.Vals) (x y : ℝ) :
    (drawEllipse t w dp (Ell.new x y a b (Real.pi / 2))).1 = .ok () ∧
    (drawEllipse t w dp (Ell.new x y a b (Real.pi / 2))).2 = [.elem (ellElem w dp x y a b (90 * 180 / Real.pi))] := by
  rw [new_m _ _ _ _ _ hab.le]
  rcases params_new t x y a b (Real.pi / 2) hb hab.le with ⟨h, -⟩ | ⟨-, h⟩
  · exact absurd h (not_lt.2 hbig)
  · simp only at h
    rw [angle_vert t x y a b _ _ ht hb hab Real.cos_pi_div_two] at h
    unfold drawEllipse
    simp only [Ell.getCenter, Ell.getMajMin, Ell.angle, h, Res.bind_ok, Res.pure_eq, put]
    exact ⟨trivial, rfl⟩

theorem read_ellipse {flag : Bool} {cx cy sx sy tr b u v z : List Char} {x y rx ry deg x0 y0 : Int} (h1 : readInt cx = some x) (h2 : readInt cy = some y) (h3 : readInt sx = some rx) (h4 : readInt sy = some ry)
    (h5 : tokenize '(' tr = ["rotate".toList, b]) (h6 : tokenize ',' b.dropLast = [u, v, z]) (h7 : readInt u = some deg) (h8 : readInt v = some x0) (h9 : readInt z = some y0) :
    visitExit stdR flag intReader ⟨"ellipse", [("cx", cx), ("cy", cy), ("rx", sx), ("ry", sy), ("transform", tr)]⟩ =
      .ok [.ell ⟨ellMat x y (max rx ry) (min rx ry) (deg * Real.pi / 180), false⟩] := by
  have hr : rotateAttr intReader tr = .ok (((x0 : ℝ), (y0 : ℝ)), deg * Real.pi / 180) := by
    unfold rotateAttr
    rw [h5]
    simp only [if_true]
    rw [h6]
    simp only [intReader, h7, h8, h9, Option.map_some]
  have hi := import_ellipse (t := stdR) (by norm_num [stdR]) (by norm_num [stdR]) (by norm_num [stdR]) x y rx ry (deg * Real.pi / 180)
  unfold visitExit
  simp only [String.reduceEq, if_false, if_true]
  simp only [getAttribValue, getAttribString, attrOf, List.find?, String.reduceBEq, Option.map_some, intReader, h1, h2, h3, h4, Res.bind_ok]
  rw [show rotateAttr ⟨fun s => (readInt s).map (fun n : Int => (n : ℝ)), fun s => (readInt s).map (fun n : Int => (n : ℝ))⟩ tr = _ from hr, Res.bind_ok]
  simp only [hi, Res.bind_ok, Res.pure_eq]

theorem no_transform {t : Thr ℝ} {flag : Bool} {rd : Reader} {e : Elem} (he : e.name = "ellipse") (ha : ∀ a ∈ e.attrs, a.1 ≠ "transform") (s : List Svg.Shape) : visitExit t flag rd e ≠ .ok s := by
  have hn : attrOf e "transform" = none := by
    unfold attrOf
    rw [Option.map_eq_none_iff, List.find?_eq_none]
    intro a h
    simpa using ha a h
  have hs : getAttribString e "transform" = .throw := by unfold getAttribString; rw [hn]
  unfold visitExit
  rw [he]
  simp only [String.reduceEq, if_false, if_true, hs, Res.bind_throw]
  cases getAttribValue rd e "cx" with
  | throw => simp
  | ub => simp
  | ok x =>
    cases getAttribValue rd e "cy" with
    | throw => simp
    | ub => simp
    | ok y =>
      cases getAttribValue rd e "rx" with
      | throw => simp
      | ub => simp
      | ok z =>
        cases getAttribValue rd e "ry" with
        | throw => simp
        | ub => simp
        | ok z => simp

theorem forall2_mem {α β : Type} {R : α → β → Prop} : ∀ {l : List α} {l' : List β}, List.Forall₂ R l l' → ∀ a ∈ l, ∃ b, R a b
  | _, _, .nil, a, ha => by simp at ha
  | _, _, .cons h t, a, ha => by
    rcases List.mem_cons.1 ha with rfl | ha
    · exact ⟨_, h⟩
    · exact forall2_mem t a ha

theorem draw_mark {t : Thr ℝ} {flag : Bool} {w : Writer} {cols rows : Nat} {dp : Draw.Vals} {p : Pt ℝ} {m : Mark} (h : pointMark t flag cols rows dp p = .ok m) :
    ∃ toks, drawPoint t flag w cols rows dp p = (.ok (), toks) ∧ Shows w m toks := by
  unfold drawPoint
  rw [h]
  cases m with
  | nothing => exact ⟨[], rfl, rfl⟩
  | dot c =>
    refine ⟨_, rfl, strokeAttrs dp ++ fillAttrs w dp, ?_⟩
    simp [drawCircle]
  | strokes l =>
    refine ⟨_, rfl, ?_⟩
    simp only [Shows]
    rw [List.forall₂_map_right_iff]
    refine List.forall₂_same.2 fun s _ => ⟨strokeAttrs dp ++ w.extra dp.attr, ?_⟩
    simp [drawSvgSeg]

/-! ### Files that can't be parsed -/

theorem broken_none : ∀ (st : List Elem) (l : List Tok), Tok.broken ∈ l → exits st l = none
  | st, [], h => by simp at h
  | st, .elem e :: r, h => by
    rw [exits_elem, broken_none st r (by simpa using h)]; rfl
  | st, .opening e :: r, h => by
    rw [exits_opening, broken_none (e :: st) r (by simpa using h)]
  | [], .closing n :: r, h => by simp [exits]
  | e :: st, .closing n :: r, h => by
    rw [exits]
    split
    · rw [broken_none st r (by simpa using h)]; rfl
    · rfl
  | [], .broken :: r, h => by simp [exits]
  | e :: st, .broken :: r, h => by simp [exits]

theorem body_grows (t : Thr ℝ) (flag : Bool) (w : Writer) (dflt : Draw.Vals) : ∀ (l : List (Draw.Vals × Item)) (im : Image), ∃ ext, (drawAll t flag w dflt im l).2.body = im.body ++ ext
  | [], im => ⟨[], by simp [drawAll]⟩
  | d :: l, im => by
    simp only [drawAll, Image.draw]
    cases (drawItem t flag w im.cols im.rows dflt d.1 d.2).1 with
    | ok u =>
      obtain ⟨ext, h⟩ := body_grows t flag w dflt l { im with body := im.body ++ (drawItem t flag w im.cols im.rows dflt d.1 d.2).2 }
      exact ⟨(drawItem t flag w im.cols im.rows dflt d.1 d.2).2 ++ ext, by simp only; rw [h]; simp⟩
    | throw => exact ⟨_, rfl⟩
    | ub => exact ⟨_, rfl⟩

theorem body_bal (t : Thr ℝ) (flag : Bool) (w : Writer) (dflt : Draw.Vals) : ∀ (l : List (Draw.Vals × Item)) (im im' : Image), drawAll t flag w dflt im l = (.ok (), im') →
    ∃ ext es, im'.body = im.body ++ ext ∧ Bal ext es
  | [], im, im', h => by
    simp only [drawAll, Prod.mk.injEq, true_and] at h
    subst h; exact ⟨[], [], by simp, bal_nil⟩
  | d :: l, im, im', h => by
    simp only [drawAll, Image.draw] at h
    cases hr : (drawItem t flag w im.cols im.rows dflt d.1 d.2).1 with
    | ok u =>
      rw [hr] at h
      obtain ⟨e2, hb2⟩ := closed_item t flag w im.cols im.rows dflt d.1 d.2 hr
      obtain ⟨ext, es, k1, k2⟩ := body_bal t flag w dflt l _ im' h
      exact ⟨_, _, by rw [k1, List.append_assoc], bal_append hb2 k2⟩
    | throw => rw [hr] at h; simp at h
    | ub => rw [hr] at h; simp at h

end H2d.SvgD
