import Verif.Spec.SvgDoc
import Verif.Lemmas.Svg
import Verif.Lemmas.Bisect
import Verif.Lemmas.Ellipse
import Verif.Lemmas.Segment

/-!
# Lemmas on SVG files
-/

namespace H2d.SvgD
open H2d H2d.Spec H2d.Svg

/-- The tags are balanced, and make these elements. -/
def Bal (l : List Tok) (es : List Elem) : Prop := ∀ st r, exits st (l ++ r) = (exits st r).map (es ++ ·)

theorem bal_nil : Bal [] [] := by intro st r; simp

theorem exits_elem (st : List Elem) (e : Elem) (r : List Tok) : exits st (.elem e :: r) = (exits st r).map (e :: ·) := by
  cases st <;> simp [exits]

theorem exits_opening (st : List Elem) (e : Elem) (r : List Tok) : exits st (.opening e :: r) = exits (e :: st) r := by
  cases st <;> simp [exits]

theorem exits_closing (st : List Elem) (e : Elem) (r : List Tok) : exits (e :: st) (.closing e.name :: r) = (exits st r).map (e :: ·) := by
  simp [exits]

theorem bal_append {a b : List Tok} {ea eb : List Elem} (ha : Bal a ea) (hb : Bal b eb) : Bal (a ++ b) (ea ++ eb) := by
  intro st r
  rw [List.append_assoc, ha, hb, Option.map_map]
  congr 1
  funext x
  simp

theorem bal_elem (e : Elem) : Bal [.elem e] [e] := by
  intro st r
  rw [List.singleton_append, exits_elem]
  simp

theorem bal_wrap {a : List Tok} {ea : List Elem} (e : Elem) (ha : Bal a ea) : Bal ([.opening e] ++ a ++ [.closing e.name]) (ea ++ [e]) := by
  intro st r
  rw [List.append_assoc, List.append_assoc, List.singleton_append, exits_opening, ha, List.singleton_append, exits_closing, Option.map_map]
  congr 1
  funext x
  simp

theorem bal_elems (l : List Tok) (h : ∀ x ∈ l, ∃ e, x = .elem e) : ∃ es, Bal l es := by
  induction l with
  | nil => exact ⟨[], bal_nil⟩
  | cons x l ih =>
    obtain ⟨e, rfl⟩ := h x (by simp)
    obtain ⟨es, hes⟩ := ih (fun y hy => h y (by simp [hy]))
    exact ⟨[e] ++ es, bal_append (bal_elem e) hes⟩

theorem bal_exits {l : List Tok} {es : List Elem} (h : Bal l es) : exits [] l = some es := by
  have := h [] []
  simpa [exits] using this

/-! ### Attributes -/

theorem attr_head (n key : String) (v : List Char) (l : List (String × List Char)) : attrOf ⟨n, (key, v) :: l⟩ key = some v := by
  simp [attrOf]

theorem attr_tail {key k : String} (n : String) (v : List Char) (l : List (String × List Char)) (h : k ≠ key) : attrOf ⟨n, (k, v) :: l⟩ key = attrOf ⟨n, l⟩ key := by
  simp [attrOf, h]

theorem attr_skip (n : String) {key : String} (l r : List (String × List Char)) (h : ∀ a ∈ l, a.1 ≠ key) : attrOf ⟨n, l ++ r⟩ key = attrOf ⟨n, r⟩ key := by
  induction l with
  | nil => rfl
  | cons a l ih =>
    rw [List.cons_append, attr_tail (key := key) (k := a.1) n a.2 _ (h a (by simp))]
    exact ih (fun b hb => h b (by simp [hb]))

theorem value_of {rd : Reader} {e : Elem} {key : String} {s : List Char} {x : ℝ} (h : attrOf e key = some s) (hx : rd.query s = some x) : getAttribValue rd e key = .ok x := by
  unfold getAttribValue; rw [h]; simp only [hx]

theorem string_of {e : Elem} {key : String} {s : List Char} (h : attrOf e key = some s) : getAttribString e key = .ok s := by
  unfold getAttribString; rw [h]

/-! ### Rotation of ellipses -/

theorem ellMat_sameDir (x y a b th th' : ℝ) (h : a = b ∨ SameDir th' th) : ellMat x y a b th' = ellMat x y a b th := by
  have key : Real.sin th' * Real.sin th' * (a ^ 2 - b ^ 2) = Real.sin th * Real.sin th * (a ^ 2 - b ^ 2) ∧
      Real.sin th' * Real.cos th' * (b ^ 2 - a ^ 2) = Real.sin th * Real.cos th * (b ^ 2 - a ^ 2) := by
    rcases h with h | ⟨h1, h2⟩ | ⟨h1, h2⟩
    · subst h; simp
    · rw [h1, h2]; exact ⟨rfl, rfl⟩
    · rw [h1, h2]; constructor <;> ring
  obtain ⟨k1, k2⟩ := key
  have s1 := sc1 th
  have s2 := sc1 th'
  obtain ⟨e00, e11, e01, e10, e02, e20, e12, e21, e22⟩ := ellMat_entries x y a b th
  obtain ⟨f00, f11, f01, f10, f02, f20, f12, f21, f22⟩ := ellMat_entries x y a b th'
  have g00 : ellMat x y a b th' 0 0 = ellMat x y a b th 0 0 := by rw [e00, f00]; linear_combination k1 + b ^ 2 * (s2 - s1)
  have g11 : ellMat x y a b th' 1 1 = ellMat x y a b th 1 1 := by rw [e11, f11]; linear_combination -k1 + a ^ 2 * (s2 - s1)
  have g01 : ellMat x y a b th' 0 1 = ellMat x y a b th 0 1 := by rw [e01, f01]; linear_combination k2
  funext i j
  fin_cases i <;> fin_cases j
  · exact g00
  · exact g01
  · show ellMat x y a b th' 0 2 = ellMat x y a b th 0 2
    rw [e02, f02, g00, g01]
  · show ellMat x y a b th' 1 0 = ellMat x y a b th 1 0
    rw [e10, f10, g01]
  · exact g11
  · show ellMat x y a b th' 1 2 = ellMat x y a b th 1 2
    rw [e12, f12, g01, g11]
  · show ellMat x y a b th' 2 0 = ellMat x y a b th 2 0
    rw [e20, f20, e02, f02, g00, g01]
  · show ellMat x y a b th' 2 1 = ellMat x y a b th 2 1
    rw [e21, f21, e12, f12, g01, g11]
  · show ellMat x y a b th' 2 2 = ellMat x y a b th 2 2
    rw [e22, f22, g00, g01, g11]

/-- The matrix of the ellipse turned about its center. -/
theorem rot_center (x y a b th : ℝ) :
    ((((Bis.rotMat (x, y) th).adjugate.divAll 1).transpose.mul (ellMat x y a b 0)).mul ((Bis.rotMat (x, y) th).adjugate.divAll 1)) = ellMat x y a b th := by
  have hs := sc1 th
  have hadj : (Bis.rotMat (x, y) th).adjugate.divAll 1 = ![![Real.cos th, Real.sin th, x - Real.cos th * x - Real.sin th * y],
      ![- Real.sin th, Real.cos th, y + Real.sin th * x - Real.cos th * y], ![0, 0, 1]] := by
    funext i j
    fin_cases i <;> fin_cases j <;> simp [Mat.adjugate, Mat.divAll, Mat.det2, Bis.rotMat]
    · linear_combination x * hs
    · linear_combination y * hs
    · linear_combination hs
  rw [hadj]
  obtain ⟨e00, e11, e01, e10, e02, e20, e12, e21, e22⟩ := ellMat_entries x y a b 0
  obtain ⟨f00, f11, f01, f10, f02, f20, f12, f21, f22⟩ := ellMat_entries x y a b th
  simp only [Real.sin_zero, Real.cos_zero] at e00 e11 e01
  generalize hM : ellMat x y a b 0 = M at *
  generalize hN : ellMat x y a b th = N at *
  clear hM hN hadj
  generalize Real.sin th = s at *
  generalize Real.cos th = c at *
  funext i j
  fin_cases i <;> fin_cases j <;>
    simp [Mat.transpose, Mat.mul, e00, e11, e01, e10, e02, e20, e12, e21, e22, f00, f11, f01, f10, f02, f20, f12, f21, f22] <;> ring

theorem import_ellipse {t : Thr ℝ} (ht : 0 < t.nullDenom) (h1 : t.nullDenom ≤ 1) (hd : t.nullDeter ≤ 1) (x y rx ry th : ℝ) :
    importEllipse t x y rx ry th = .ok ⟨ellMat x y (max rx ry) (min rx ry) th, false⟩ := by
  obtain ⟨g1, g2, g3, k1, k2, k3, km, -⟩ := Bis.chain_rot ht h1 (x, y) th
  simp only at k1 k2 k3
  unfold importEllipse
  rw [k1, Res.bind_ok, k2, Res.bind_ok, k3, Res.bind_ok, new_swap]
  unfold Ell.homMul homEllMat
  simp only [km, Bis.rotMat_determ, abs_one, not_lt.2 hd, if_false, Res.bind_ok, Res.pure_eq, rot_center]

/-! ### The attribute `transform` -/

theorem tok_paren {a b : List Char} (ha : '(' ∉ a) (hb : '(' ∉ b) (hb' : b ≠ []) : tokenize '(' (a ++ ['('] ++ b) = [a, b] := by
  unfold tokenize
  rw [List.append_assoc, List.singleton_append, tokLoop_no _ _ _ ha, tokLoop_end _ _ hb (by simpa using hb')]
  simp

theorem tok_three {a b c : List Char} (ha : ',' ∉ a) (hb : ',' ∉ b) (hc : ',' ∉ c) (hc' : c ≠ []) : tokenize ',' (a ++ [','] ++ b ++ [','] ++ c) = [a, b, c] := by
  unfold tokenize
  rw [show a ++ [','] ++ b ++ [','] ++ c = a ++ ',' :: (b ++ ',' :: c) by simp, tokLoop_no _ _ _ ha, tokLoop_no _ _ _ hb, tokLoop_end _ _ hc (by simpa using hc')]
  simp

theorem rotate_attr {rd : Reader} {a b c : List Char} {th x y : ℝ} (ha : ',' ∉ a) (hb : ',' ∉ b) (hc : ',' ∉ c) (hc' : c ≠ []) (ha2 : '(' ∉ a) (hb2 : '(' ∉ b) (hc2 : '(' ∉ c)
    (r1 : rd.stod a = some th) (r2 : rd.stod b = some x) (r3 : rd.stod c = some y) :
    rotateAttr rd ("rotate(".toList ++ a ++ [','] ++ b ++ [','] ++ c ++ [')']) = .ok ((x, y), th * Real.pi / 180) := by
  have e : "rotate(".toList ++ a ++ [','] ++ b ++ [','] ++ c ++ [')'] = "rotate".toList ++ ['('] ++ (a ++ [','] ++ b ++ [','] ++ c ++ [')']) := by
    have : "rotate(".toList = "rotate".toList ++ ['('] := by decide
    rw [this]; simp
  unfold rotateAttr
  rw [e, tok_paren (by decide) (by simp [ha2, hb2, hc2]) (by simp)]
  simp only [if_true]
  rw [List.dropLast_concat, tok_three ha hb hc hc']
  simp only [r1, r2, r3]


/-! ### Import of what was drawn -/

theorem import_append {t : Thr ℝ} {flag : Bool} {rd : Reader} : ∀ {a b : List Elem} {sa : List Svg.Shape}, importElems t flag rd a = .ok sa →
    importElems t flag rd (a ++ b) = (do let sb ← importElems t flag rd b; pure (sa ++ sb))
  | [], b, sa, h => by
    simp only [importElems, Res.ok.injEq] at h
    subst h
    rw [List.nil_append]
    cases importElems t flag rd b <;> rfl
  | e :: a, b, sa, h => by
    simp only [importElems] at h
    cases h1 : visitExit t flag rd e with
    | throw => rw [h1, Res.bind_throw] at h; cases h
    | ub => rw [h1, Res.bind_ub] at h; cases h
    | ok s1 =>
      rw [h1, Res.bind_ok] at h
      cases h2 : importElems t flag rd a with
      | throw => rw [h2, Res.bind_throw] at h; cases h
      | ub => rw [h2, Res.bind_ub] at h; cases h
      | ok s2 =>
        rw [h2, Res.bind_ok, Res.pure_eq, Res.ok.injEq] at h
        subst h
        simp only [List.cons_append, importElems, h1, Res.bind_ok, import_append h2]
        cases importElems t flag rd b <;> simp

theorem import_one {t : Thr ℝ} {flag : Bool} {rd : Reader} {e : Elem} {s : List Svg.Shape} (h : visitExit t flag rd e = .ok s) : importElems t flag rd [e] = .ok s := by
  simp only [importElems, h, Res.bind_ok, Res.pure_eq, List.append_nil]

theorem visit_other {t : Thr ℝ} {flag : Bool} {rd : Reader} {e : Elem} (h : e.name ∉ shapeNames) : visitExit t flag rd e = .ok [] := by
  simp only [shapeNames, List.mem_cons, List.not_mem_nil, or_false, not_or] at h
  obtain ⟨h1, h2, h3, h4, h5, h6, h7⟩ := h
  simp only [visitExit, h1, h2, h3, h4, h5, h6, h7, if_false, Res.pure_eq]

theorem import_others {t : Thr ℝ} {flag : Bool} {rd : Reader} : ∀ {l : List Elem}, (∀ e ∈ l, e.name ∉ shapeNames) → importElems t flag rd l = .ok []
  | [], _ => rfl
  | e :: l, h => by
    have ih := import_others (t := t) (flag := flag) (rd := rd) (l := l) (fun x hx => h x (by simp [hx]))
    simp only [importElems, visit_other (h e (by simp)), ih, Res.bind_ok, Res.pure_eq, List.append_nil]

/-- A drawing that ends well, writes balanced tags, and is imported as these shapes. -/
def Good (t : Thr ℝ) (flag : Bool) (rd : Reader) (d : Drawn) (s : List Svg.Shape) : Prop :=
  d.1 = .ok () ∧ ∃ es, Bal d.2 es ∧ importElems t flag rd es = .ok s

theorem good_put {t : Thr ℝ} {flag : Bool} {rd : Reader} {e : Elem} {s : List Svg.Shape} (h : visitExit t flag rd e = .ok s) : Good t flag rd (put [.elem e]) s :=
  ⟨rfl, [e], bal_elem e, import_one h⟩

/-- The element that is drawn, without its tag. -/
def circleElem (w : Writer) (dp : Draw.Vals) (c : Circle) : Elem :=
  ⟨"circle", [("cx", w.fmt c.center.1), ("cy", w.fmt c.center.2), ("r", w.fmt c.radius)] ++ strokeAttrs dp ++ fillAttrs w dp⟩

theorem visit_circle {t : Thr ℝ} {flag : Bool} {w : Writer} {rd : Reader} (dp : Draw.Vals) {c : Circle} {x y r : ℝ}
    (e1 : ReadsAs w rd c.center.1 x) (e2 : ReadsAs w rd c.center.2 y) (e3 : ReadsAs w rd c.radius r) :
    visitExit t flag rd (circleElem w dp c) = (do let c ← circleMake t flag (x, y) r; pure [.circle c]) := by
  unfold visitExit circleElem
  rw [if_pos rfl]
  simp only [List.cons_append]
  rw [value_of (attr_head _ _ _ _) e1.2.2.2.2.2, Res.bind_ok, value_of ((attr_tail _ _ _ (by decide)).trans (attr_head _ _ _ _)) e2.2.2.2.2.2, Res.bind_ok,
    value_of ((attr_tail _ _ _ (by decide)).trans ((attr_tail _ _ _ (by decide)).trans (attr_head _ _ _ _))) e3.2.2.2.2.2, Res.bind_ok]

theorem circle_ok {t : Thr ℝ} {flag : Bool} {c : Pt ℝ} {r : ℝ} (h0 : 0 ≤ r) (h1 : flag = true ∨ t.nullDistance ≤ r) : circleMake t flag c r = .ok ⟨c, r⟩ := by
  unfold circleMake
  rw [if_neg (by rintro ⟨ha, hb⟩; rw [abs_of_nonneg h0] at ha; rcases h1 with h1 | h1; exact hb h1; linarith), if_neg (not_lt.2 h0)]

/-- The element that is drawn, without its tag. -/
noncomputable def rectElem (w : Writer) (dp : Draw.Vals) (r : FRect ℝ) : Elem :=
  ⟨"rect", [("x", w.fmt r.p1.1), ("y", w.fmt r.p1.2), ("width", w.fmt r.width), ("height", w.fmt r.height)] ++ strokeAttrs dp ++ fillAttrs w dp⟩

theorem visit_rect {t : Thr ℝ} {flag : Bool} {w : Writer} {rd : Reader} (dp : Draw.Vals) {r : FRect ℝ} {x y a b : ℝ} (e1 : ReadsAs w rd r.p1.1 x) (e2 : ReadsAs w rd r.p1.2 y)
    (e3 : ReadsAs w rd (r.p2.1 - r.p1.1) a) (e4 : ReadsAs w rd (r.p2.2 - r.p1.2) b) :
    visitExit t flag rd (rectElem w dp r) = (do let r ← FRect.ofPts t.nullOrthogDistance (x, y) (x + a, y + b); pure [.rect r]) := by
  have e3' : ReadsAs w rd r.width a := e3
  have e4' : ReadsAs w rd r.height b := e4
  unfold visitExit rectElem
  rw [if_neg (by show ¬ ("rect" = "circle"); decide), if_pos rfl]
  simp only [List.cons_append]
  rw [value_of (attr_head _ _ _ _) e1.2.2.2.2.2, Res.bind_ok, value_of ((attr_tail _ _ _ (by decide)).trans (attr_head _ _ _ _)) e2.2.2.2.2.2, Res.bind_ok,
    value_of ((attr_tail _ _ _ (by decide)).trans ((attr_tail _ _ _ (by decide)).trans (attr_head _ _ _ _))) e3'.2.2.2.2.2, Res.bind_ok,
    value_of ((attr_tail _ _ _ (by decide)).trans ((attr_tail _ _ _ (by decide)).trans ((attr_tail _ _ _ (by decide)).trans (attr_head _ _ _ _)))) e4'.2.2.2.2.2, Res.bind_ok]

theorem rect_ok {t : ℝ} {x y a b : ℝ} (h1 : 0 ≤ a) (h2 : 0 ≤ b) (h3 : t ≤ a) (h4 : t ≤ b) : FRect.ofPts t (x, y) (x + a, y + b) = .ok ⟨(x, y), (x + a, y + b)⟩ := by
  rcases ofPts_cases t (x, y) (x + a, y + b) with ⟨-, h⟩ | ⟨h, -⟩
  · simp only [show x - (x + a) = - a by ring, show y - (y + b) = - b by ring, abs_neg, abs_of_nonneg h1, abs_of_nonneg h2] at h
    rcases h with h | h <;> linarith
  · rw [h, min_eq_left (by linarith), min_eq_left (by linarith), max_eq_right (by linarith), max_eq_right (by linarith)]

/-- The element that is drawn, without its tag. -/
def segElem (w : Writer) (dp : Draw.Vals) (s : Seg) (attribs : List (String × List Char)) : Elem :=
  ⟨"line", [("x1", w.fmt s.1.1), ("y1", w.fmt s.1.2), ("x2", w.fmt s.2.1), ("y2", w.fmt s.2.2)] ++ strokeAttrs dp ++ attribs⟩

theorem visit_seg {t : Thr ℝ} {flag : Bool} {w : Writer} {rd : Reader} (dp : Draw.Vals) {s : Seg} (attribs : List (String × List Char)) {x1 y1 x2 y2 : ℝ}
    (e1 : ReadsAs w rd s.1.1 x1) (e2 : ReadsAs w rd s.1.2 y1) (e3 : ReadsAs w rd s.2.1 x2) (e4 : ReadsAs w rd s.2.2 y2) :
    visitExit t flag rd (segElem w dp s attribs) = (do let s ← segMake t false (x1, y1) (x2, y2); pure [.seg s]) := by
  unfold visitExit segElem
  rw [if_neg (by show ¬ ("line" = "circle"); decide), if_neg (by show ¬ ("line" = "rect"); decide), if_pos rfl]
  simp only [List.cons_append]
  rw [value_of (attr_head _ _ _ _) e1.2.2.2.2.2, Res.bind_ok, value_of ((attr_tail _ _ _ (by decide)).trans (attr_head _ _ _ _)) e2.2.2.2.2.2, Res.bind_ok,
    value_of ((attr_tail _ _ _ (by decide)).trans ((attr_tail _ _ _ (by decide)).trans (attr_head _ _ _ _))) e3.2.2.2.2.2, Res.bind_ok,
    value_of ((attr_tail _ _ _ (by decide)).trans ((attr_tail _ _ _ (by decide)).trans ((attr_tail _ _ _ (by decide)).trans (attr_head _ _ _ _)))) e4.2.2.2.2.2, Res.bind_ok]

/-- The element that is drawn, without its tag. -/
def polyElem (w : Writer) (dp : Draw.Vals) (closed : Bool) (pts : List (Pt ℝ)) : Elem :=
  ⟨if closed then "polygon" else "polyline", strokeAttrs dp ++ fillAttrs w dp ++ [("points", writePoints w.fmt pts)]⟩

theorem stroke_keys {dp : Draw.Vals} {key : String} (h1 : key ≠ "stroke") (h2 : key ≠ "stroke-width") : ∀ a ∈ strokeAttrs dp, a.1 ≠ key := by
  intro a ha
  simp only [strokeAttrs, List.mem_cons, List.not_mem_nil, or_false] at ha
  rcases ha with rfl | rfl
  · exact Ne.symm h1
  · exact Ne.symm h2

theorem fill_keys {w : Writer} {dp : Draw.Vals} {key : String} (h1 : key ≠ "fill") (h2 : ∀ a ∈ w.extra dp.attr, a.1 ≠ key) : ∀ a ∈ fillAttrs w dp, a.1 ≠ key := by
  intro a ha
  simp only [fillAttrs, List.mem_append] at ha
  rcases ha with ha | ha
  · split at ha
    · simp at ha
    · simp only [List.mem_cons, List.not_mem_nil, or_false] at ha
      subst ha; exact Ne.symm h1
  · exact h2 a ha

open Classical in
theorem visit_poly {t : Thr ℝ} {flag : Bool} {w : Writer} {rd : Reader} (dp : Draw.Vals) (closed : Bool) (pts : List (Pt ℝ)) (hx : ∀ a ∈ w.extra dp.attr, a.1 ≠ "points") :
    visitExit t flag rd (polyElem w dp closed pts) =
      (do let pts ← importPoints rd.stod (fun a b => decide (PtEq t a b)) (writePoints w.fmt pts); pure [.poly closed pts]) := by
  have hat : attrOf (polyElem w dp closed pts) "points" = some (writePoints w.fmt pts) := by
    unfold polyElem
    rw [List.append_assoc, attr_skip _ _ _ (stroke_keys (by decide) (by decide)), attr_skip _ _ _ (fill_keys (by decide) hx), attr_head]
  unfold visitExit
  rw [string_of hat, Res.bind_ok]
  have hn : (polyElem w dp closed pts).name = if closed then "polygon" else "polyline" := rfl
  cases closed
  · simp [hn]
  · simp [hn]

/-- The element that is drawn, without its tag. -/
def ellElem (w : Writer) (dp : Draw.Vals) (x y a b deg : ℝ) : Elem :=
  ⟨"ellipse", [("cx", w.fmt x), ("cy", w.fmt y), ("rx", w.fmt a), ("ry", w.fmt b)] ++ strokeAttrs dp ++ fillAttrs w dp ++
    [("transform", "rotate(".toList ++ w.fmt deg ++ [','] ++ w.fmt x ++ [','] ++ w.fmt y ++ [')'])]⟩

theorem visit_ell {t : Thr ℝ} {flag : Bool} {w : Writer} {rd : Reader} (dp : Draw.Vals) {x y a b deg x' y' a' b' deg' : ℝ} (hx : ∀ a ∈ w.extra dp.attr, a.1 ≠ "transform")
    (e1 : ReadsAs w rd x x') (e2 : ReadsAs w rd y y') (e3 : ReadsAs w rd a a') (e4 : ReadsAs w rd b b') (e5 : ReadsAs w rd deg deg') :
    visitExit t flag rd (ellElem w dp x y a b deg) = (do let e ← importEllipse t x' y' a' b' (deg' * Real.pi / 180); pure [.ell e]) := by
  have hat : attrOf (ellElem w dp x y a b deg) "transform" = some ("rotate(".toList ++ w.fmt deg ++ [','] ++ w.fmt x ++ [','] ++ w.fmt y ++ [')']) := by
    unfold ellElem
    rw [List.append_assoc, List.append_assoc, attr_skip, attr_skip _ _ _ (stroke_keys (by decide) (by decide)), attr_skip _ _ _ (fill_keys (by decide) hx), attr_head]
    intro k hk
    simp only [List.mem_cons, List.not_mem_nil, or_false] at hk
    rcases hk with rfl | rfl | rfl | rfl <;> simp
  have hrot := rotate_attr (rd := rd) e5.2.2.1 e1.2.2.1 e2.2.2.1 e2.1 e5.2.2.2.1 e1.2.2.2.1 e2.2.2.2.1 e5.2.2.2.2.1 e1.2.2.2.2.1 e2.2.2.2.2.1
  have hn : (ellElem w dp x y a b deg).name = "ellipse" := rfl
  unfold visitExit
  rw [if_neg (by rw [hn]; decide), if_neg (by rw [hn]; decide), if_neg (by rw [hn]; decide), if_neg (by rw [hn]; decide), if_neg (by rw [hn]; decide), if_neg (by rw [hn]; decide), if_pos hn,
    string_of hat]
  unfold ellElem
  simp only [List.cons_append]
  rw [value_of (attr_head _ _ _ _) e1.2.2.2.2.2, Res.bind_ok, value_of ((attr_tail _ _ _ (by decide)).trans (attr_head _ _ _ _)) e2.2.2.2.2.2, Res.bind_ok,
    value_of ((attr_tail _ _ _ (by decide)).trans ((attr_tail _ _ _ (by decide)).trans (attr_head _ _ _ _))) e3.2.2.2.2.2, Res.bind_ok,
    value_of ((attr_tail _ _ _ (by decide)).trans ((attr_tail _ _ _ (by decide)).trans ((attr_tail _ _ _ (by decide)).trans (attr_head _ _ _ _)))) e4.2.2.2.2.2, Res.bind_ok, Res.bind_ok]
  rw [hrot, Res.bind_ok]

theorem andThen_assoc (a b c : Drawn) : andThen (andThen a b) c = andThen a (andThen b c) := by
  obtain ⟨ra, la⟩ := a
  obtain ⟨rb, lb⟩ := b
  cases ra <;> cases rb <;> simp [andThen]

theorem put_nil_andThen (b : Drawn) : andThen (put []) b = b := by simp [andThen, put]

theorem andThen_put_nil (a : Drawn) : andThen a (put []) = a := by
  obtain ⟨ra, la⟩ := a
  cases ra <;> simp [andThen, put]

theorem put_append (a b : List Tok) : put (a ++ b) = andThen (put a) (put b) := by simp [andThen, put]

/-- A drawing that ends well and writes balanced tags, if it ends well. -/
def Closed (d : Drawn) : Prop := d.1 = .ok () → ∃ es, Bal d.2 es

theorem closed_put (l : List Tok) (h : ∀ x ∈ l, ∃ e, x = .elem e) : Closed (put l) := fun _ => bal_elems l h

theorem closed_then {a b : Drawn} (ha : Closed a) (hb : Closed b) : Closed (andThen a b) := by
  intro h
  obtain ⟨ra, la⟩ := a
  obtain ⟨rb, lb⟩ := b
  cases ra with
  | ok u =>
    simp only [andThen] at h ⊢
    obtain ⟨ea, h1⟩ := ha rfl
    obtain ⟨eb, h2⟩ := hb h
    exact ⟨_, bal_append h1 h2⟩
  | throw => simp [andThen] at h
  | ub => simp [andThen] at h

theorem closed_wrap {a : Drawn} (ha : Closed a) : Closed (andThen (put [.opening group]) (andThen a (put [.closing "g"]))) := by
  intro h
  obtain ⟨ra, la⟩ := a
  cases ra with
  | ok u =>
    obtain ⟨ea, h1⟩ := ha rfl
    refine ⟨ea ++ [group], ?_⟩
    have := bal_wrap group h1
    simp only [andThen, put]
    simpa [group] using this
  | throw => simp [andThen, put] at h
  | ub => simp [andThen, put] at h

theorem closed_compute {α : Type} {r : Res α} {k : α → Drawn} (h : ∀ x, r = .ok x → Closed (k x)) : Closed (compute r k) := by
  cases r with
  | ok x => exact h x rfl
  | throw => intro h; simp [compute] at h
  | ub => intro h; simp [compute] at h

theorem good_then {t : Thr ℝ} {flag : Bool} {rd : Reader} {a b : Drawn} {sa sb : List Svg.Shape} (ha : Good t flag rd a sa) (hb : Good t flag rd b sb) :
    Good t flag rd (andThen a b) (sa ++ sb) := by
  obtain ⟨ra, la⟩ := a
  obtain ⟨rb, lb⟩ := b
  obtain ⟨h1, ea, h2, h3⟩ := ha
  obtain ⟨k1, eb, k2, k3⟩ := hb
  simp only at h1 k1 h2 k2
  subst h1 k1
  refine ⟨rfl, ea ++ eb, bal_append h2 k2, ?_⟩
  rw [import_append h3, k3]; rfl

theorem good_wrap {t : Thr ℝ} {flag : Bool} {rd : Reader} {a : Drawn} {sa : List Svg.Shape} (ha : Good t flag rd a sa) :
    Good t flag rd (andThen (put [.opening group]) (andThen a (put [.closing "g"]))) sa := by
  obtain ⟨ra, la⟩ := a
  obtain ⟨h1, ea, h2, h3⟩ := ha
  simp only at h1 h2
  subst h1
  refine ⟨rfl, ea ++ [group], ?_, ?_⟩
  · have := bal_wrap group h2
    simp only [andThen, put]
    simpa [group] using this
  · rw [import_append h3, import_others (by intro e he; simp only [List.mem_cons, List.not_mem_nil, or_false] at he; subst he; decide)]
    simp

theorem good_nil {t : Thr ℝ} {flag : Bool} {rd : Reader} : Good t flag rd (put []) [] := ⟨rfl, [], bal_nil, rfl⟩

theorem good_others {t : Thr ℝ} {flag : Bool} {rd : Reader} : ∀ {l : List Tok}, (∀ x ∈ l, ∃ e : Elem, x = .elem e ∧ e.name ∉ shapeNames) → Good t flag rd (put l) []
  | [], _ => good_nil
  | x :: l, h => by
    obtain ⟨e, rfl, he⟩ := h x (by simp)
    have h1 : Good t flag rd (put [.elem e]) [] := good_put (visit_other he)
    have h2 := good_others (t := t) (flag := flag) (rd := rd) (l := l) (fun y hy => h y (by simp [hy]))
    have := good_then h1 h2
    rwa [← put_append] at this

theorem wrap_if {g : Bool} (a : Drawn) : andThen (put (if g then [.opening group] else [])) (andThen a (put (if g then [.closing "g"] else []))) =
    if g then andThen (put [.opening group]) (andThen a (put [.closing "g"])) else a := by
  cases g
  · simp only [Bool.false_eq_true, if_false]; rw [put_nil_andThen, andThen_put_nil]
  · rfl

open Classical in
/-- The drawing of a polyline, as nested groups. -/
theorem drawPoly_eq (t : Thr ℝ) (flag : Bool) (w : Writer) (cols rows : Nat) (dflt dp : Draw.Vals) (closed : Bool) (pts : List (Pt ℝ)) (h2 : ¬ pts.length < 2) :
    drawPoly t flag w cols rows dflt dp closed pts =
      let body := andThen (put [.elem (polyElem w dp closed pts)])
        (andThen (if dp.showIndex then andThen (put [.opening group]) (andThen (put (pts.map indexText)) (put [.closing "g"])) else put [])
          (andThen (if dp.showPoints then andThen (put [.opening group]) (andThen (drawPoints t flag w cols rows dp pts) (put [.closing "g"])) else put [])
            (if dp.showAngles then compute (getOSegs (fun a b => decide (PtEq t a b)) closed pts) (fun osegs => put ((osegs.tail.map (·.1)).map (drawText w dflt)))
                else put [])))
      if (dp.showIndex || dp.showPoints) then andThen (put [.opening group]) (andThen body (put [.closing "g"])) else body := by
  unfold drawPoly
  rw [if_neg h2]
  simp only
  rw [← wrap_if]
  simp only [andThen_assoc]
  have : put (if dp.showIndex = true then [Tok.opening group] ++ pts.map indexText ++ [Tok.closing "g"] else []) =
      if dp.showIndex then andThen (put [.opening group]) (andThen (put (pts.map indexText)) (put [.closing "g"])) else put [] := by
    split
    · rw [put_append, put_append, andThen_assoc]
    · rfl
  rw [this]
  rfl

/-! ### All the drawings are balanced -/

theorem closed_point (t : Thr ℝ) (flag : Bool) (w : Writer) (cols rows : Nat) (dp : Draw.Vals) (p : Pt ℝ) : Closed (drawPoint t flag w cols rows dp p) := by
  apply closed_compute
  intro m _
  cases m with
  | nothing => exact closed_put _ (by simp)
  | dot c => exact closed_put _ (by simp [drawCircle])
  | strokes l => exact closed_put _ (by intro x hx; simp only [List.mem_map] at hx; obtain ⟨s, -, rfl⟩ := hx; exact ⟨_, rfl⟩)

theorem closed_points (t : Thr ℝ) (flag : Bool) (w : Writer) (cols rows : Nat) (dp : Draw.Vals) : ∀ l : List (Pt ℝ), Closed (drawPoints t flag w cols rows dp l)
  | [] => closed_put _ (by simp)
  | p :: l => closed_then (closed_point t flag w cols rows dp p) (closed_points t flag w cols rows dp l)

theorem drawSeg_eq (t : Thr ℝ) (flag : Bool) (w : Writer) (cols rows : Nat) (dp : Draw.Vals) (s : Seg) : drawSeg t flag w cols rows dp s =
    if dp.showPoints then andThen (put [.opening group]) (andThen (andThen (put [.elem (segElem w dp s (w.extra dp.attr))]) (drawPoints t flag w cols rows dp [s.1, s.2])) (put [.closing "g"]))
    else put [.elem (segElem w dp s (w.extra dp.attr))] := by
  unfold drawSeg
  cases dp.showPoints
  · simp [andThen, put, drawSvgSeg, segElem]
  · simp only [if_true]
    rw [put_append, andThen_assoc, andThen_assoc]
    rfl

theorem closed_seg (t : Thr ℝ) (flag : Bool) (w : Writer) (cols rows : Nat) (dp : Draw.Vals) (s : Seg) : Closed (drawSeg t flag w cols rows dp s) := by
  rw [drawSeg_eq]
  split
  · exact closed_wrap (closed_then (closed_put _ (by simp)) (closed_points _ _ _ _ _ _ _))
  · exact closed_put _ (by simp)

theorem closed_item (t : Thr ℝ) (flag : Bool) (w : Writer) (cols rows : Nat) (dflt dp : Draw.Vals) (i : Item) : Closed (drawItem t flag w cols rows dflt dp i) := by
  cases i with
  | point p => exact closed_point t flag w cols rows dp p
  | line l =>
    apply closed_compute
    intro s _
    cases s with
    | none => exact closed_put _ (by simp)
    | some s => exact closed_seg t flag w cols rows _ s
  | circle c => exact closed_put _ (by simp [drawCircle])
  | rect r => exact closed_put _ (by simp [drawRect])
  | seg s => exact closed_seg t flag w cols rows dp s
  | oseg s =>
    show Closed (drawOSeg t w dp s)
    unfold drawOSeg
    cases h : arrowSegs t s with
    | throw => intro h; simp [compute, andThen, put] at h
    | ub => intro h; simp [compute, andThen, put] at h
    | ok a =>
      have := closed_wrap (closed_put [drawSvgSeg w dp s (w.extra dp.attr), drawSvgSeg w dp a.1 [], drawSvgSeg w dp a.2.1 [], drawSvgSeg w dp a.2.2 []] (by simp [drawSvgSeg]))
      simpa [compute, andThen, put] using this
  | poly closed pts =>
    show Closed (drawPoly t flag w cols rows dflt dp closed pts)
    by_cases h2 : pts.length < 2
    · unfold drawPoly; rw [if_pos h2]; exact closed_put _ (by simp)
    · rw [drawPoly_eq _ _ _ _ _ _ _ _ _ h2]
      have hidx : Closed (if dp.showIndex then andThen (put [.opening group]) (andThen (put (pts.map indexText)) (put [.closing "g"])) else put []) := by
        split
        · exact closed_wrap (closed_put _ (by intro x hx; simp only [List.mem_map] at hx; obtain ⟨s, -, rfl⟩ := hx; exact ⟨_, rfl⟩))
        · exact closed_put _ (by simp)
      have hpts : Closed (if dp.showPoints then andThen (put [.opening group]) (andThen (drawPoints t flag w cols rows dp pts) (put [.closing "g"])) else put []) := by
        split
        · exact closed_wrap (closed_points _ _ _ _ _ _ _)
        · exact closed_put _ (by simp)
      simp only
      have hbody := closed_then (closed_put [.elem (polyElem w dp closed pts)] (by simp)) (closed_then hidx (closed_then hpts
        (show Closed (if dp.showAngles then compute (getOSegs (fun a b => @decide (PtEq t a b) (Classical.propDecidable _)) closed pts)
            (fun osegs => put ((osegs.tail.map (·.1)).map (drawText w dflt))) else put []) by
          split
          · apply closed_compute
            intro o _
            exact closed_put _ (by intro x hx; simp only [List.mem_map] at hx; obtain ⟨s, -, rfl⟩ := hx; exact ⟨_, rfl⟩)
          · exact closed_put _ (by simp))))
      split
      · exact closed_wrap hbody
      · exact hbody
  | ell e =>
    show Closed (drawEllipse t w dp e)
    intro h
    obtain ⟨es, he⟩ : ∃ e', drawEllipse t w dp e = put [.elem e'] := by
      unfold drawEllipse at h ⊢
      cases h1 : e.getCenter t with
      | throw => rw [h1] at h; cases h
      | ub => rw [h1] at h; cases h
      | ok c =>
        cases h2 : e.getMajMin t with
        | throw => rw [h1, h2] at h; cases h
        | ub => rw [h1, h2] at h; cases h
        | ok mm =>
          cases h3 : e.angle t with
          | throw => rw [h1, h2, h3] at h; cases h
          | ub => rw [h1, h2, h3] at h; cases h
          | ok th => exact ⟨_, rfl⟩
    rw [he]
    exact ⟨_, bal_elem _⟩

theorem closed_all (t : Thr ℝ) (flag : Bool) (w : Writer) (dflt : Draw.Vals) : ∀ (l : List (Draw.Vals × Item)) (im im' : Image), (∃ es, Bal im.body es) →
    drawAll t flag w dflt im l = (.ok (), im') → ∃ es, Bal im'.body es
  | [], im, im', hb, h => by
    simp only [drawAll, Prod.mk.injEq, true_and] at h
    subst h; exact hb
  | d :: l, im, im', ⟨es, hb⟩, h => by
    simp only [drawAll, Image.draw] at h
    cases hr : (drawItem t flag w im.cols im.rows dflt d.1 d.2).1 with
    | ok u =>
      rw [hr] at h
      obtain ⟨e2, hb2⟩ := closed_item t flag w im.cols im.rows dflt d.1 d.2 hr
      exact closed_all t flag w dflt l _ im' ⟨_, bal_append hb hb2⟩ h
    | throw => rw [hr] at h; simp at h
    | ub => rw [hr] at h; simp at h

/-! ### Exact drawings -/

theorem osegs_ok {t : Thr ℝ} {pts : List (Pt ℝ)} (h : checkInput (fun a b => @decide (PtEq t a b) (Classical.propDecidable _)) pts = true) (closed : Bool) :
    ∃ o, getOSegs (fun a b => @decide (PtEq t a b) (Classical.propDecidable _)) closed pts = .ok o := by
  unfold getOSegs
  rw [if_neg]
  · exact ⟨_, rfl⟩
  · intro hany
    obtain ⟨s, hs, he⟩ := List.any_eq_true.1 hany
    simp only [decide_eq_true_eq] at he
    unfold segPairs at hs
    split at hs
    · simp at hs
    · match pts, h, hs with
      | [a], h, _ => simp [checkInput] at h
      | a :: b :: l, h, hs =>
        simp only [checkInput, Bool.and_eq_true, List.all_eq_true, Bool.not_eq_true', decide_eq_false_iff_not] at h
        obtain ⟨h1, h2⟩ := h
        have hop : s ∈ openPairs (a :: b :: l) → False := fun hm => h1 s hm he
        split at hs
        · rw [cycPairs_cons] at hs
          obtain ⟨m, z, hz⟩ : ∃ m z, b :: l = m ++ [z] := ⟨(b :: l).dropLast, (b :: l).getLast (by simp), (List.dropLast_append_getLast _).symm⟩
          rw [hz, show a :: (m ++ [z]) ++ [a] = (a :: m) ++ z :: [a] by simp, openPairs_append] at hs
          rcases List.mem_append.1 hs with hs | hs
          · rw [hz] at hop; exact hop hs
          · have : s = (z, a) := by simpa [openPairs] using hs
            subst this
            rw [hz] at h2
            simp only [List.getLastD_concat] at h2
            exact h2 (by unfold PtEq at he ⊢; rwa [ptDist_eucl, eucl_comm, ← ptDist_eucl] at he)
        · exact hop hs

theorem good_item {t : Thr ℝ} (ht : 0 < t.nullDenom) (h1 : t.nullDenom ≤ 1) (hd : t.nullDeter ≤ 1) {flag : Bool} {w : Writer} {rd : Reader} (cols rows : Nat) (dflt dp : Draw.Vals) (i : Item)
    (h : DrawnExactly t flag w rd dp i) : Good t flag rd (drawItem t flag w cols rows dflt dp i) (shapeOf i) := by
  cases i with
  | point p => exact absurd h (by simp [DrawnExactly])
  | line l => exact absurd h (by simp [DrawnExactly])
  | oseg s => exact absurd h (by simp [DrawnExactly])
  | circle c =>
    obtain ⟨h0, h1, e1, e2, e3⟩ := h
    apply good_put (e := circleElem w dp c)
    rw [visit_circle dp e1 e2 e3, circle_ok h0 h1]
    rfl
  | rect r =>
    obtain ⟨a1, a2, a3, a4, e1, e2, e3, e4⟩ := h
    apply good_put (e := rectElem w dp r)
    rw [visit_rect dp e1 e2 e3 e4, rect_ok (by linarith) (by linarith) a3 a4]
    simp only [Res.bind_ok, Res.pure_eq, shapeOf, Res.ok.injEq, List.cons.injEq, and_true, Svg.Shape.rect.injEq]
    obtain ⟨⟨x1, y1⟩, ⟨x2, y2⟩⟩ := r
    simp
  | seg s =>
    obtain ⟨a1, a2, e1, e2, e3, e4⟩ := h
    show Good t flag rd (drawSeg t flag w cols rows dp s) [.seg s]
    rw [drawSeg_eq, if_neg (by rw [a2]; decide)]
    apply good_put
    rw [visit_seg dp _ e1 e2 e3 e4]
    show (do let s ← segMake t false s.1 s.2; pure [Svg.Shape.seg s]) = _
    rw [a1]; rfl
  | poly closed pts =>
    obtain ⟨a0, a1, a2, e1, ex⟩ := h
    have hchk : checkInput (fun a b => @decide (PtEq t a b) (Classical.propDecidable _)) pts = true := by
      unfold polySet at a1
      split at a1
      · assumption
      · cases a1
    have h2 : ¬ pts.length < 2 := by
      intro h2
      match pts, a0, h2, hchk with
      | [a], _, _, hchk => simp [checkInput] at hchk
      | a :: b :: l, _, h2, _ => simp at h2
    have hread : importPoints rd.stod (fun a b => @decide (PtEq t a b) (Classical.propDecidable _)) (writePoints w.fmt pts) = .ok pts := by
      unfold importPoints
      rw [parsePoints_write w.fmt rd.stod id pts (by
        intro p hp x hx
        obtain ⟨q1, q2⟩ := e1 p hp
        rcases hx with rfl | rfl
        · exact ⟨q1.2.1, q1.2.2.1, q1.1, q1.2.2.2.2.1⟩
        · exact ⟨q2.2.1, q2.2.2.1, q2.1, q2.2.2.2.2.1⟩)]
      simp only [id, Prod.mk.eta, List.map_id', Res.bind_ok]
      rw [dropClosing_checked a0 hchk, Res.bind_ok, a1]
    show Good t flag rd (drawPoly t flag w cols rows dflt dp closed pts) [.poly closed pts]
    rw [drawPoly_eq _ _ _ _ _ _ _ _ _ h2]
    have hpoly : Good t flag rd (put [.elem (polyElem w dp closed pts)]) [.poly closed pts] := by
      apply good_put
      rw [visit_poly dp closed pts ex, hread]; rfl
    have hidx : Good t flag rd (if dp.showIndex then andThen (put [.opening group]) (andThen (put (pts.map indexText)) (put [.closing "g"])) else put []) [] := by
      split
      · exact good_wrap (good_others (by intro x hx; simp only [List.mem_map] at hx; obtain ⟨p, -, rfl⟩ := hx; exact ⟨_, rfl, by simp [shapeNames]⟩))
      · exact good_nil
    have hang : Good t flag rd (if dp.showAngles then compute (getOSegs (fun a b => @decide (PtEq t a b) (Classical.propDecidable _)) closed pts)
            (fun osegs => put ((osegs.tail.map (·.1)).map (drawText w dflt))) else put []) [] := by
      split
      · have ho : ∃ o, getOSegs (fun a b => @decide (PtEq t a b) (Classical.propDecidable _)) closed pts = .ok o := osegs_ok hchk closed
        obtain ⟨o, ho⟩ := ho
        rw [ho]
        exact good_others (by intro x hx; simp only [List.mem_map] at hx; obtain ⟨p, -, rfl⟩ := hx; exact ⟨_, rfl, by simp [shapeNames]⟩)
      · exact good_nil
    simp only [a2, Bool.false_eq_true, if_false]
    have hbody := good_then hpoly (good_then hidx (good_then (good_nil (t := t) (flag := flag) (rd := rd)) hang))
    split
    · exact good_wrap hbody
    · exact hbody
  | ell e =>
    obtain ⟨⟨x, y, a, b, th, rfl, hb, hab, hbig, hok, e1, e2, e3, e4⟩, e5, ex⟩ := h
    show Good t flag rd (drawEllipse t w dp (Ell.new x y a b th)) [.ell (Ell.new x y a b th)]
    rw [new_m _ _ _ _ _ hab] at e5 ⊢
    rcases params_new t x y a b th hb hab with ⟨h, -⟩ | ⟨-, h⟩
    · exact absurd h (not_lt.2 hbig)
    simp only at h
    have hdir := angle_new t x y a b th ht hb hab hok
    generalize hth : Ell.angleOf t (ellMat x y a b th 0 0) (2 * ellMat x y a b th 0 1) (ellMat x y a b th 1 1) (a ^ 2 - b ^ 2) = th' at h hdir
    have e5' := e5 th' (by simp only [Ell.angle, h, Res.bind_ok, Res.pure_eq])
    unfold drawEllipse
    simp only [Ell.getCenter, Ell.getMajMin, Ell.angle, h, Res.bind_ok, Res.pure_eq]
    apply good_put (e := ellElem w dp x y a b (th' * 180 / Real.pi))
    rw [visit_ell dp ex e1 e2 e3 e4 e5', show th' * 180 / Real.pi * Real.pi / 180 = th' by field_simp, import_ellipse ht h1 hd, max_eq_left hab, min_eq_right hab,
      ellMat_sameDir x y a b th th' hdir]
    rfl

theorem good_all {t : Thr ℝ} (ht : 0 < t.nullDenom) (h1 : t.nullDenom ≤ 1) (hd : t.nullDeter ≤ 1) {flag : Bool} {w : Writer} {rd : Reader} (dflt : Draw.Vals) :
    ∀ (l : List (Draw.Vals × Item)) (im : Image) (es : List Elem) (ss : List Svg.Shape), Bal im.body es → importElems t flag rd es = .ok ss →
    (∀ d ∈ l, DrawnExactly t flag w rd d.1 d.2) →
    ∃ im' es', drawAll t flag w dflt im l = (.ok (), im') ∧ im'.cols = im.cols ∧ im'.rows = im.rows ∧ Bal im'.body es' ∧
      importElems t flag rd es' = .ok (ss ++ l.flatMap (fun d => shapeOf d.2))
  | [], im, es, ss, hb, hi, _ => ⟨im, es, rfl, rfl, rfl, hb, by simpa using hi⟩
  | d :: l, im, es, ss, hb, hi, h => by
    obtain ⟨g1, e2, g2, g3⟩ := good_item ht h1 hd im.cols im.rows dflt d.1 d.2 (h d (by simp))
    have hi2 : importElems t flag rd (es ++ e2) = .ok (ss ++ shapeOf d.2) := by rw [import_append hi, g3]; rfl
    obtain ⟨im', es', k1, k2, k3, k4, k5⟩ := good_all ht h1 hd dflt l { im with body := im.body ++ (drawItem t flag w im.cols im.rows dflt d.1 d.2).2 } (es ++ e2) _
      (bal_append hb g2) hi2 (fun x hx => h x (by simp [hx]))
    refine ⟨im', es', ?_, k2, k3, k4, ?_⟩
    · simp only [drawAll, Image.draw, g1]
      exact k1
    · rw [k5]; simp

end H2d.SvgD
