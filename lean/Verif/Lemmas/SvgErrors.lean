import Verif.Spec.SvgErrors
import Verif.Lemmas.SvgFile
import Verif.Lemmas.PipModel
import Verif.Lemmas.Derived
import Verif.Props.Svg

/-!
# Lemmas on the errors in SVG files
-/

namespace H2d.SvgD
open H2d H2d.Spec H2d.Svg

theorem attrOf_some {e : Svg.Elem} {k : String} {v : List Char} (h : attrOf e k = some v) : HasAttr e k v := by
  unfold attrOf at h
  rw [Option.map_eq_some_iff] at h
  obtain ⟨a, h1, h2⟩ := h
  rw [List.find?_eq_some_iff_append] at h1
  obtain ⟨h3, as, bs, h4, h5⟩ := h1
  obtain ⟨a1, a2⟩ := a
  simp only at h2
  subst h2
  have : a1 = k := by simpa using h3
  subst this
  exact ⟨as, bs, h4, fun b hb => by simpa using h5 b hb⟩

theorem attrOf_none {e : Svg.Elem} {k : String} (h : ∀ a ∈ e.attrs, a.1 ≠ k) : attrOf e k = none := by
  unfold attrOf
  rw [Option.map_eq_none_iff, List.find?_eq_none]
  intro a ha
  simpa using h a ha

theorem value_throw {rd : Reader} {e : Svg.Elem} {k : String} (h : ∀ v, HasAttr e k v → rd.query v = none) : getAttribValue rd e k = .throw := by
  unfold getAttribValue
  cases ha : attrOf e k with
  | none => rfl
  | some s =>
    simp only
    rw [h s (attrOf_some ha)]

theorem string_throw {e : Svg.Elem} {k : String} (h : ∀ a ∈ e.attrs, a.1 ≠ k) : getAttribString e k = .throw := by
  unfold getAttribString
  rw [attrOf_none h]

theorem value_safe (rd : Reader) (e : Svg.Elem) (k : String) : getAttribValue rd e k ≠ .ub := by
  unfold getAttribValue
  cases attrOf e k with
  | none => simp
  | some s => simp only; cases rd.query s <;> simp

theorem string_safe (e : Svg.Elem) (k : String) : getAttribString e k ≠ .ub := by
  unfold getAttribString
  cases attrOf e k <;> simp

theorem bind_throw_of {α β : Type} {x : Res α} {f : α → Res β} (h : x ≠ .ub) (hf : x = .throw ∨ ∀ a, f a = .throw) : (x >>= f) = .throw := by
  cases x with
  | ub => exact absurd rfl h
  | throw => rfl
  | ok a =>
    rcases hf with hf | hf
    · cases hf
    · rw [Res.bind_ok]; exact hf a

theorem unreadable_throw (t : Thr ℝ) (flag : Bool) (rd : Reader) (e : Svg.Elem) (h : Unreadable rd e) : visitExit t flag rd e = .throw := by
  have V := value_safe rd e
  have S := string_safe e
  unfold Unreadable at h
  unfold visitExit
  generalize e.name = n at h ⊢
  by_cases n1 : n = "circle"
  · subst n1
    simp only [numericAttrs, stringAttrs, String.reduceEq, if_true, if_false, or_self, List.not_mem_nil, false_and, exists_false, or_false, List.mem_cons, List.mem_singleton] at h ⊢
    obtain ⟨k, hk, h⟩ := h
    have hv := value_throw h
    rcases hk with rfl | rfl | rfl
    · rw [hv]; rfl
    · exact bind_throw_of (V _) (Or.inr fun a => by rw [hv]; rfl)
    · exact bind_throw_of (V _) (Or.inr fun a => bind_throw_of (V _) (Or.inr fun b => by rw [hv]; rfl))
  by_cases n2 : n = "rect"
  · subst n2
    simp only [numericAttrs, stringAttrs, String.reduceEq, if_true, if_false, or_self, List.not_mem_nil, false_and, exists_false, or_false, List.mem_cons, List.mem_singleton] at h ⊢
    obtain ⟨k, hk, h⟩ := h
    have hv := value_throw h
    rcases hk with rfl | rfl | rfl | rfl
    · rw [hv]; rfl
    · exact bind_throw_of (V _) (Or.inr fun a => by rw [hv]; rfl)
    · exact bind_throw_of (V _) (Or.inr fun a => bind_throw_of (V _) (Or.inr fun b => by rw [hv]; rfl))
    · exact bind_throw_of (V _) (Or.inr fun a => bind_throw_of (V _) (Or.inr fun b => bind_throw_of (V _) (Or.inr fun c => by rw [hv]; rfl)))
  by_cases n3 : n = "line"
  · subst n3
    simp only [numericAttrs, stringAttrs, String.reduceEq, if_true, if_false, or_self, List.not_mem_nil, false_and, exists_false, or_false, List.mem_cons, List.mem_singleton] at h ⊢
    obtain ⟨k, hk, h⟩ := h
    have hv := value_throw h
    rcases hk with rfl | rfl | rfl | rfl
    · rw [hv]; rfl
    · exact bind_throw_of (V _) (Or.inr fun a => by rw [hv]; rfl)
    · exact bind_throw_of (V _) (Or.inr fun a => bind_throw_of (V _) (Or.inr fun b => by rw [hv]; rfl))
    · exact bind_throw_of (V _) (Or.inr fun a => bind_throw_of (V _) (Or.inr fun b => bind_throw_of (V _) (Or.inr fun c => by rw [hv]; rfl)))
  by_cases n4 : n = "polygon"
  · subst n4
    simp only [numericAttrs, stringAttrs, String.reduceEq, if_true, if_false, true_or, List.not_mem_nil, false_and, exists_false, false_or, List.mem_cons, or_false, exists_eq_left] at h ⊢
    rw [string_throw h]; rfl
  by_cases n5 : n = "polyline"
  · subst n5
    simp only [numericAttrs, stringAttrs, String.reduceEq, if_true, if_false, or_true, List.not_mem_nil, false_and, exists_false, false_or, List.mem_cons, or_false, exists_eq_left] at h ⊢
    rw [string_throw h]; rfl
  by_cases n6 : n = "path"
  · subst n6
    simp only [numericAttrs, stringAttrs, String.reduceEq, if_true, if_false, or_self, List.not_mem_nil, false_and, exists_false, false_or, List.mem_cons, or_false, exists_eq_left] at h ⊢
    rw [string_throw h]; rfl
  by_cases n7 : n = "ellipse"
  · subst n7
    simp only [numericAttrs, stringAttrs, String.reduceEq, if_true, if_false, or_self, List.not_mem_nil, List.mem_cons, or_false, exists_eq_left] at h ⊢
    rcases h with ⟨k, hk, h⟩ | h
    · have hv := value_throw h
      rcases hk with rfl | rfl | rfl | rfl
      · rw [hv]; rfl
      · exact bind_throw_of (V _) (Or.inr fun a => by rw [hv]; rfl)
      · exact bind_throw_of (V _) (Or.inr fun a => bind_throw_of (V _) (Or.inr fun b => by rw [hv]; rfl))
      · exact bind_throw_of (V _) (Or.inr fun a => bind_throw_of (V _) (Or.inr fun b => bind_throw_of (V _) (Or.inr fun c => by rw [hv]; rfl)))
    · exact bind_throw_of (V _) (Or.inr fun a => bind_throw_of (V _) (Or.inr fun b => bind_throw_of (V _) (Or.inr fun c => bind_throw_of (V _) (Or.inr fun d => by rw [string_throw h]; rfl))))
  · exfalso
    simp only [numericAttrs, stringAttrs, n1, n2, n3, n4, n5, n6, n7, if_false, or_self, List.not_mem_nil, false_and, exists_false] at h

theorem tokenizeLoop_ne (d : Char) : ∀ (s item : List Char), (s ≠ [] ∨ item ≠ []) → tokenizeLoop d item s ≠ []
  | [], item, h => by
    have : item ≠ [] := by simpa using h
    simp [tokenizeLoop, this]
  | c :: s, item, _ => by
    rw [tokenizeLoop]
    split
    · simp
    · exact tokenizeLoop_ne d s (c :: item) (Or.inr (by simp))

theorem parsePointsLoop_safe {K : Type} (stod : List Char → Option K) : ∀ l, parsePointsLoop stod l ≠ .ub ∧ (l ≠ [] → parsePointsLoop stod l ≠ .ok [])
  | [] => by simp [parsePointsLoop]
  | pt :: v1 => by
    obtain ⟨h1, -⟩ := parsePointsLoop_safe stod v1
    rw [parsePointsLoop]
    split
    · split
      · cases hp : parsePointsLoop stod v1 with
        | ub => exact absurd hp h1
        | throw => simp
        | ok o => simp
      · simp
    · simp

theorem importPoints_safe {K : Type} (stod : List Char → Option K) (same : Pt K → Pt K → Bool) {s : List Char} (h : s ≠ []) : importPoints stod same s ≠ .ub := by
  unfold importPoints parsePoints
  obtain ⟨h1, h2⟩ := parsePointsLoop_safe stod (tokenize ' ' s)
  have h3 := h2 (tokenizeLoop_ne ' ' s [] (Or.inl h))
  cases hp : parsePointsLoop stod (tokenize ' ' s) with
  | ub => exact absurd hp h1
  | throw => simp
  | ok o =>
    cases o with
    | nil => exact absurd hp h3
    | cons a l =>
      rw [Res.bind_ok]
      have : ∃ w, dropClosing same (a :: l) = .ok w := by
        unfold dropClosing
        simp only
        split
        · exact ⟨_, rfl⟩
        · exact ⟨_, rfl⟩
      obtain ⟨w, hw⟩ := this
      rw [hw, Res.bind_ok]
      unfold polySet
      split <;> simp

theorem rotate_safe (rd : Reader) (s : List Char) : rotateAttr rd s ≠ .ub := by
  unfold rotateAttr
  split
  · split
    · split
      · split <;> simp
      · simp
    · simp
  · simp

theorem premul_safe (t : Thr ℝ) (a b : Hom ℝ) : Hom.call (Hom.premul t a b) ≠ .ub := by
  unfold Hom.premul
  cases Hom.mul t a b <;> simp [Hom.call]

theorem importEllipse_safe (t : Thr ℝ) (x y rx ry theta : ℝ) : importEllipse t x y rx ry theta ≠ .ub := by
  unfold importEllipse
  refine Pip.bind_ne_ub (premul_safe _ _ _) fun a => Pip.bind_ne_ub (premul_safe _ _ _) fun b => Pip.bind_ne_ub (premul_safe _ _ _) fun c => ?_
  unfold Ell.homMul homEllMat
  split <;> simp

theorem circleMake_safe (t : Thr ℝ) (flag : Bool) (c : Pt ℝ) (r : ℝ) : circleMake t flag c r ≠ .ub := by
  unfold circleMake
  split
  · simp
  · split <;> simp

theorem string_get {e : Svg.Elem} {k : String} {f : List Char → Res (List Svg.Shape)} (h : ∀ v, HasAttr e k v → f v ≠ .ub) : (getAttribString e k >>= f) ≠ .ub := by
  unfold getAttribString
  cases ha : attrOf e k with
  | none => simp
  | some v => exact h v (attrOf_some ha)

theorem visit_safe (t : Thr ℝ) (flag : Bool) (rd : Reader) (e : Svg.Elem) (h : Harmless e) : visitExit t flag rd e ≠ .ub := by
  classical
  have V := value_safe rd e
  have S := string_safe e
  obtain ⟨hp, hd⟩ := h
  unfold visitExit
  split_ifs with n1 n2 n3 n4 n5 n6 n7
  · exact Pip.bind_ne_ub (V _) fun a => Pip.bind_ne_ub (V _) fun b => Pip.bind_ne_ub (V _) fun c => Pip.bind_ne_ub (circleMake_safe _ _ _ _) fun d => by simp
  · exact Pip.bind_ne_ub (V _) fun a => Pip.bind_ne_ub (V _) fun b => Pip.bind_ne_ub (V _) fun c => Pip.bind_ne_ub (V _) fun c' => Pip.bind_ne_ub (Axes.ofPts_ne_ub _ _ _) fun d => by simp
  · exact Pip.bind_ne_ub (V _) fun a => Pip.bind_ne_ub (V _) fun b => Pip.bind_ne_ub (V _) fun c => Pip.bind_ne_ub (V _) fun c' => Pip.bind_ne_ub (Pip.segMake_ne_ub _ _ _ _) fun d => by simp
  · refine string_get fun v hv => Pip.bind_ne_ub (importPoints_safe _ _ ?_) fun d => by simp
    rintro rfl
    exact hp (Or.inl n4) hv
  · refine string_get fun v hv => Pip.bind_ne_ub (importPoints_safe _ _ ?_) fun d => by simp
    rintro rfl
    exact hp (Or.inr n5) hv
  · exact string_get fun v hv => Pip.bind_ne_ub (Props.C53_noabort_partial _ _ v (hd n6 v hv)).2 fun d => by simp
  · exact Pip.bind_ne_ub (V _) fun a => Pip.bind_ne_ub (V _) fun b => Pip.bind_ne_ub (V _) fun c => Pip.bind_ne_ub (V _) fun c' => Pip.bind_ne_ub (S _) fun d =>
      Pip.bind_ne_ub (rotate_safe _ _) fun d' => Pip.bind_ne_ub (importEllipse_safe _ _ _ _ _ _) fun d => by simp
  · simp

theorem elems_safe (t : Thr ℝ) (flag : Bool) (rd : Reader) : ∀ es : List Svg.Elem, (∀ e ∈ es, Harmless e) → importElems t flag rd es ≠ .ub
  | [], _ => by simp [importElems]
  | e :: es, h => by
    rw [importElems]
    exact Pip.bind_ne_ub (visit_safe t flag rd e (h e (by simp))) fun a => Pip.bind_ne_ub (elems_safe t flag rd es fun x hx => h x (by simp [hx])) fun b => by simp

/-! ### Size of the image -/

/-- Value of an attribute after the loop. -/
def After (stod : List Char → Option ℝ) (l : List (String × List Char)) (key : String) (w0 w : ℝ) : Prop := Reads stod l key w ∨ ((∀ a ∈ l, a.1 ≠ key) ∧ w = w0)

theorem size_iff (stod : List Char → Option ℝ) : ∀ (l : List (String × List Char)) (w0 h0 w h : ℝ), (l.map Prod.fst).Nodup →
    (∀ a ∈ l, a.1 = "width" ∨ a.1 = "height" → stod a.2 ≠ none) →
    (imgSizeLoop stod w0 h0 l = .ok (w, h) ↔ After stod l "width" w0 w ∧ After stod l "height" h0 h)
  | [], w0, h0, w, h, _, _ => by
    simp [imgSizeLoop, After, Reads, eq_comm]
  | (k, v) :: l, w0, h0, w, h, hn, hr => by
    simp only [List.map_cons, List.nodup_cons] at hn
    have ih := fun w0 h0 => size_iff stod l w0 h0 w h hn.2 (fun a ha => hr a (by simp [ha]))
    have hk : ∀ a ∈ l, a.1 ≠ k := fun a ha he => hn.1 (by rw [← he]; exact List.mem_map_of_mem ha)
    rw [imgSizeLoop]
    by_cases k1 : k = "width"
    · subst k1
      have hv := hr ("width", v) (by simp) (Or.inl rfl)
      obtain ⟨x, hx⟩ := Option.ne_none_iff_exists'.1 hv
      simp only at hx
      simp only [if_true, hx, Res.bind_ok, String.reduceEq, if_false, ih]
      have e1 : After stod l "width" x w ↔ After stod (("width", v) :: l) "width" w0 w := by
        unfold After Reads
        constructor
        · rintro (⟨u, hu, -⟩ | ⟨-, rfl⟩)
          · exact absurd rfl (hk _ hu)
          · exact Or.inl ⟨v, by simp, hx⟩
        · rintro (⟨u, hu, hs⟩ | ⟨hu, -⟩)
          · rcases List.mem_cons.1 hu with he | hu
            · obtain rfl : u = v := by simpa using he
              rw [hx] at hs
              exact Or.inr ⟨hk, (Option.some.inj hs).symm⟩
            · exact absurd rfl (hk _ hu)
          · exact absurd rfl (hu ("width", v) (by simp))
      have e2 : After stod l "height" h0 h ↔ After stod (("width", v) :: l) "height" h0 h := by
        unfold After Reads
        simp
      rw [e1, e2]
    · by_cases k2 : k = "height"
      · subst k2
        have hv := hr ("height", v) (by simp) (Or.inr rfl)
        obtain ⟨x, hx⟩ := Option.ne_none_iff_exists'.1 hv
        simp only at hx
        simp only [if_true, hx, Res.bind_ok, String.reduceEq, if_false, ih]
        have e1 : After stod l "height" x h ↔ After stod (("height", v) :: l) "height" h0 h := by
          unfold After Reads
          constructor
          · rintro (⟨u, hu, -⟩ | ⟨-, rfl⟩)
            · exact absurd rfl (hk _ hu)
            · exact Or.inl ⟨v, by simp, hx⟩
          · rintro (⟨u, hu, hs⟩ | ⟨hu, -⟩)
            · rcases List.mem_cons.1 hu with he | hu
              · obtain rfl : u = v := by simpa using he
                rw [hx] at hs
                exact Or.inr ⟨hk, (Option.some.inj hs).symm⟩
              · exact absurd rfl (hk _ hu)
            · exact absurd rfl (hu ("height", v) (by simp))
        have e2 : After stod l "width" w0 w ↔ After stod (("height", v) :: l) "width" w0 w := by
          unfold After Reads
          simp
        rw [e1, e2]
      · simp only [k1, k2, if_false, Res.bind_ok, ih]
        have e : ∀ key x y, k ≠ key → (After stod l key x y ↔ After stod ((k, v) :: l) key x y) := by
          intro key x y hne
          unfold After Reads
          simp [hne, Ne.symm hne]
        rw [e _ _ _ k1, e _ _ _ k2]

theorem size_unread (stod : List Char → Option ℝ) : ∀ (l : List (String × List Char)) (w0 h0 : ℝ),
    imgSizeLoop stod w0 h0 l ≠ .ub ∧ ((∃ a ∈ l, (a.1 = "width" ∨ a.1 = "height") ∧ stod a.2 = none) → imgSizeLoop stod w0 h0 l = .throw)
  | [], w0, h0 => by simp [imgSizeLoop]
  | (k, v) :: l, w0, h0 => by
    have ih := fun w0 h0 => size_unread stod l w0 h0
    rw [imgSizeLoop]
    by_cases k1 : k = "width"
    · subst k1
      simp only [if_true, String.reduceEq, if_false]
      cases hx : stod v with
      | none => simp
      | some x =>
        simp only [Res.bind_ok]
        refine ⟨(ih x h0).1, ?_⟩
        rintro ⟨a, ha, hk, hs⟩
        rcases List.mem_cons.1 ha with rfl | ha
        · rw [hx] at hs; cases hs
        · exact (ih x h0).2 ⟨a, ha, hk, hs⟩
    · simp only [k1, if_false, Res.bind_ok]
      by_cases k2 : k = "height"
      · subst k2
        simp only [if_true]
        cases hx : stod v with
        | none => simp
        | some x =>
          simp only [Res.bind_ok]
          refine ⟨(ih w0 x).1, ?_⟩
          rintro ⟨a, ha, hk, hs⟩
          rcases List.mem_cons.1 ha with rfl | ha
          · rw [hx] at hs; cases hs
          · exact (ih w0 x).2 ⟨a, ha, hk, hs⟩
      · simp only [k2, if_false, Res.bind_ok]
        refine ⟨(ih w0 h0).1, ?_⟩
        rintro ⟨a, ha, hk, hs⟩
        rcases List.mem_cons.1 ha with rfl | ha
        · rcases hk with hk | hk
          · exact absurd hk k1
          · exact absurd hk k2
        · exact (ih w0 h0).2 ⟨a, ha, hk, hs⟩

/-! ### Rotation of an ellipse -/

theorem tokenizeLoop_mid (d : Char) : ∀ (s item r : List Char), d ∉ s → tokenizeLoop d item (s ++ d :: r) = (item.reverse ++ s) :: tokenizeLoop d [] r
  | [], item, r, _ => by simp [tokenizeLoop]
  | c :: s, item, r, h => by
    have h1 : c ≠ d := fun e => h (by simp [e])
    have h2 : d ∉ s := fun e => h (by simp [e])
    rw [List.cons_append, tokenizeLoop, if_neg h1, tokenizeLoop_mid d s (c :: item) r h2]
    simp

theorem tokenizeLoop_last (d : Char) : ∀ (s item : List Char), d ∉ s → (s ≠ [] ∨ item ≠ []) → tokenizeLoop d item s = [item.reverse ++ s]
  | [], item, _, h => by
    have : item ≠ [] := by simpa using h
    simp [tokenizeLoop, this]
  | c :: s, item, h, _ => by
    have h1 : c ≠ d := fun e => h (by simp [e])
    have h2 : d ∉ s := fun e => h (by simp [e])
    rw [tokenizeLoop, if_neg h1, tokenizeLoop_last d s (c :: item) h2 (Or.inr (by simp))]
    simp

theorem rotate_read (rd : Reader) {a b c : List Char} (ha : FieldText a) (hb : FieldText b) (hc : FieldText c) :
    rotateAttr rd ("rotate(".toList ++ a ++ [','] ++ b ++ [','] ++ c ++ [')']) =
      (match rd.stod a, rd.stod b, rd.stod c with
        | some angle, some x0, some y0 => .ok ((x0, y0), angle * Real.pi / 180)
        | _, _, _ => .throw) := by
  have e1 : tokenize '(' ("rotate(".toList ++ a ++ [','] ++ b ++ [','] ++ c ++ [')']) = ["rotate".toList, a ++ [','] ++ b ++ [','] ++ c ++ [')']] := by
    have : "rotate(".toList ++ a ++ [','] ++ b ++ [','] ++ c ++ [')'] = "rotate".toList ++ '(' :: (a ++ [','] ++ b ++ [','] ++ c ++ [')']) := by
      have : "rotate(".toList = "rotate".toList ++ ['('] := by decide +kernel
      rw [this]; simp
    rw [this]
    unfold tokenize
    rw [tokenizeLoop_mid '(' "rotate".toList [] _ (by decide +kernel), tokenizeLoop_last]
    · rfl
    · simp [ha.2.1, hb.2.1, hc.2.1]
    · left; simp
  have e2 : tokenize ',' (a ++ [','] ++ b ++ [','] ++ c ++ [')']).dropLast = [a, b, c] := by
    rw [List.dropLast_concat]
    have : a ++ [','] ++ b ++ [','] ++ c = a ++ ',' :: (b ++ ',' :: c) := by simp
    rw [this]
    unfold tokenize
    rw [tokenizeLoop_mid ',' a [] _ ha.2.2, tokenizeLoop_mid ',' b [] _ hb.2.2, tokenizeLoop_last ',' c [] hc.2.2 (Or.inl hc.1)]
    rfl
  unfold rotateAttr
  rw [e1]
  simp only [if_true]
  rw [e2]
  rfl

theorem tokenizeLoop_length (d : Char) : ∀ s item : List Char, (tokenizeLoop d item s).length ≤ s.count d + 1
  | [], item => by rw [tokenizeLoop]; split <;> simp
  | c :: s, item => by
    rw [tokenizeLoop]
    split
    · rename_i h
      subst h
      have := tokenizeLoop_length c s []
      simp only [List.length_cons, List.count_cons_self]
      omega
    · rename_i h
      have := tokenizeLoop_length d s (c :: item)
      rw [List.count_cons_of_ne (fun e => h e)]
      exact this

theorem tokenizeLoop_count (d x : Char) : ∀ s item : List Char, ∀ b ∈ tokenizeLoop d item s, b.count x ≤ item.count x + s.count x
  | [], item, b, hb => by
    rw [tokenizeLoop] at hb
    split at hb
    · simp at hb
    · simp only [List.mem_singleton] at hb
      subst hb
      simp
  | c :: s, item, b, hb => by
    rw [tokenizeLoop] at hb
    split at hb
    · rcases List.mem_cons.1 hb with rfl | hb
      · simp
      · have := tokenizeLoop_count d x s [] b hb
        have h2 : s.count x ≤ (c :: s).count x := List.count_le_count_cons
        simp only [List.count_nil] at this
        omega
    · have := tokenizeLoop_count d x s (c :: item) b hb
      by_cases h : c = x
      · subst h
        simp only [List.count_cons_self] at this ⊢
        omega
      · rw [List.count_cons_of_ne h] at this ⊢
        exact this

theorem tokenizeLoop_two (d : Char) : ∀ (s item a b : List Char) (l : List (List Char)), tokenizeLoop d item s = a :: b :: l → ∃ r, item.reverse ++ s = a ++ d :: r
  | [], item, a, b, l, h => by
    rw [tokenizeLoop] at h
    split at h <;> simp at h
  | c :: s, item, a, b, l, h => by
    rw [tokenizeLoop] at h
    split at h
    · rename_i hc
      simp only [List.cons.injEq] at h
      exact ⟨s, by rw [h.1, hc]⟩
    · obtain ⟨r, hr⟩ := tokenizeLoop_two d s (c :: item) a b l h
      exact ⟨r, by rw [← hr]; simp⟩

theorem rotate_cases (rd : Reader) (s : List Char) : rotateAttr rd s = .throw ∨ ((∃ r, s = "rotate(".toList ++ r) ∧ 2 ≤ s.count ',') := by
  unfold rotateAttr
  split
  · rename_i a b h
    split
    · rename_i ha
      split
      · rename_i u v z h3
        right
        obtain ⟨r, hr⟩ := tokenizeLoop_two '(' s [] a b [] h
        constructor
        · refine ⟨r, ?_⟩
          have : "rotate(".toList = "rotate".toList ++ ['('] := by decide +kernel
          rw [this]
          simpa [ha] using hr
        · have h1 := tokenizeLoop_length ',' b.dropLast []
          unfold tokenize at h3 h
          rw [h3] at h1
          have h2 := tokenizeLoop_count '(' ',' s [] b (by rw [h]; simp)
          have h4 : b.dropLast.count ',' ≤ b.count ',' := (List.dropLast_sublist b).count_le _
          simp only [List.length_cons, List.length_nil, List.count_nil] at h1 h2
          omega
      · left; rfl
    · left; rfl
  · left; rfl

end H2d.SvgD
