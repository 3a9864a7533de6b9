import Verif.Spec.SvgLook
import Verif.Lemmas.SvgAttr

/-! # Lemmas for the colors and the labels in SVG files -/

namespace H2d.SvgD
open H2d H2d.Spec H2d.Svg

theorem nat_chars (n : Nat) : (toString n).toList = Nat.toDigits 10 n := Nat.toList_repr

theorem decimal_snoc {l : List Char} {n d : Nat} (hd : d < 10) (h : decimal l = some n) : decimal (l ++ [d.digitChar]) = some (10 * n + d) := by
  unfold decimal readInt.readNat at *
  have k := Nat.toNat_digitChar_of_lt_ten hd
  split_ifs at h with h0
  rw [if_neg (by simp), List.foldl_append, h]
  have e0 : '0'.toNat = 48 := rfl
  have e9 : '9'.toNat = 57 := rfl
  simp only [List.foldl_cons, List.foldl_nil, Option.bind_some, k, e0, e9]
  rw [if_pos (by omega)]
  congr 1
  omega

theorem decimal_digit {d : Nat} (hd : d < 10) : decimal [d.digitChar] = some d := by
  have : ∀ d : Fin 10, decimal [d.val.digitChar] = some d.val := by decide +kernel
  exact this ⟨d, hd⟩

theorem decimal_digits (n : Nat) : decimal (Nat.toDigits 10 n) = some n := by
  induction n using Nat.strong_induction_on with
  | _ n ih =>
    rw [Nat.toDigits_eq_if (by norm_num)]
    split_ifs with h
    · exact decimal_digit h
    · rw [decimal_snoc (Nat.mod_lt _ (by norm_num)) (ih (n / 10) (Nat.div_lt_self (by omega) (by norm_num)))]
      congr 1
      omega

theorem decimal_nat (n : Nat) : decimal (toString n).toList = some n := by rw [nat_chars]; exact decimal_digits n

theorem readInt_nat (n : Nat) : readInt (toString n).toList = some (n : Int) := by
  have h := decimal_nat n
  unfold readInt
  split
  · rename_i l e
    exfalso
    have k : '-' ∈ Nat.toDigits 10 n := by rw [← nat_chars, e]; simp
    have := Nat.isDigit_of_mem_toDigits (by norm_num) (by norm_num) k
    exact absurd this (by decide)
  · unfold decimal at h
    rw [h]; rfl

theorem readInt_int (n : Int) : readInt (intText n) = some n := by
  unfold intText
  cases n with
  | ofNat n => exact readInt_nat n
  | negSucc n =>
    have e : (toString (Int.negSucc n)).toList = '-' :: (toString (n + 1)).toList := by
      show (Int.repr _).toList = _
      unfold Int.repr
      simp
    have h := decimal_nat (n + 1)
    unfold decimal at h
    rw [e]
    unfold readInt
    simp only [h]
    rfl

theorem rgb_text (c : Nat × Nat × Nat) : IsRgb (colorText c) c := ⟨_, _, _, rfl, decimal_nat _, decimal_nat _, decimal_nat _⟩

theorem hex_two {n : Nat} (h : n < 256) : ∃ a b x y, hexText n = [a, b] ∧ hexDigit a = some x ∧ hexDigit b = some y ∧ n = 16 * x + y := by
  have : ∀ n : Fin 256, (hexText n.val).length = 2 ∧ ∃ x : Fin 16, ∃ y : Fin 16, (hexText n.val).map hexDigit = [some x.val, some y.val] ∧ n.val = 16 * x.val + y.val := by decide +kernel
  obtain ⟨h1, x, y, h2, h3⟩ := this ⟨n, h⟩
  obtain ⟨a, b, e⟩ := List.length_eq_two.1 h1
  simp only at e h2 h3
  rw [e] at h2
  simp only [List.map_cons, List.map_nil, List.cons.injEq, and_true] at h2
  exact ⟨a, b, x, y, e, h2.1, h2.2, h3⟩

theorem hex_color {c : Nat × Nat × Nat} (h : c.1 < 256 ∧ c.2.1 < 256 ∧ c.2.2 < 256) : IsHexColor ('#' :: (hexText c.1 ++ hexText c.2.1 ++ hexText c.2.2)) c := by
  obtain ⟨a, b, x, y, e1, e2, e3, e4⟩ := hex_two h.1
  obtain ⟨a', b', x', y', e1', e2', e3', e4'⟩ := hex_two h.2.1
  obtain ⟨a'', b'', x'', y'', e1'', e2'', e3'', e4''⟩ := hex_two h.2.2
  refine ⟨a, b, a', b', a'', b'', ?_, x, y, x', y', x'', y'', e2, e3, e2', e3', e2'', e3'', Prod.ext e4 (Prod.ext e4' e4'')⟩
  rw [e1, e1', e1'']; rfl

theorem text_at (w : Writer) {dp : Draw.Vals} (h : ByteColor dp) (p : Pt ℝ) : ∃ e, drawText w dp p = .elem e ∧ e.name = "text" ∧ TextAt w dp p e :=
  ⟨_, rfl, rfl, rfl, rfl, ⟨_, rfl, readInt_int _⟩, _, rfl, hex_color h⟩

theorem truncated_floor (x : ℝ) : Truncated x (if 0 ≤ x then ⌊x⌋ else ⌈x⌉) := by
  split_ifs with h
  · have h1 := Int.floor_le x
    have h2 := Int.lt_floor_add_one x
    have h3 : (0 : ℝ) ≤ ⌊x⌋ := by exact_mod_cast Int.floor_nonneg.2 h
    exact ⟨by rw [abs_lt]; constructor <;> linarith, by rw [abs_of_nonneg h3, abs_of_nonneg h]; exact h1⟩
  · have h1 := Int.le_ceil x
    have h2 := Int.ceil_lt_add_one x
    push Not at h
    have h3 : (⌈x⌉ : ℝ) ≤ 0 := by exact_mod_cast Int.ceil_nonpos.2 h.le
    exact ⟨by rw [abs_lt]; constructor <;> linarith, by rw [abs_of_nonpos h3, abs_of_neg h]; linarith⟩

theorem label_at (p : Pt ℝ) : ∃ e, indexText p = .elem e ∧ e.name = "text" ∧ LabelAt p e :=
  ⟨_, rfl, rfl, _, _, _, _, rfl, rfl, readInt_int _, readInt_int _, truncated_floor _, truncated_floor _⟩

/-- All complete elements are texts or are stroked. -/
def Looks (dp : Draw.Vals) (d : Drawn) : Prop := ∀ e, Tok.elem e ∈ d.2 → e.name = "text" ∨ Stroked dp e

theorem looks_put {dp : Draw.Vals} {l : List Tok} (h : ∀ e, Tok.elem e ∈ l → e.name = "text" ∨ Stroked dp e) : Looks dp (put l) := h

theorem looks_then {dp : Draw.Vals} {a b : Drawn} (ha : Looks dp a) (hb : Looks dp b) : Looks dp (andThen a b) := by
  obtain ⟨ra, la⟩ := a
  intro e he
  cases ra with
  | ok u =>
    simp only [andThen, List.mem_append] at he
    exact he.elim (ha e) (hb e)
  | throw => exact ha e he
  | ub => exact ha e he

theorem looks_compute {dp : Draw.Vals} {α : Type} {r : Res α} {k : α → Drawn} (h : ∀ x, Looks dp (k x)) : Looks dp (compute r k) := by
  cases r with
  | ok x => exact h x
  | throw => intro e he; simp [compute] at he
  | ub => intro e he; simp [compute] at he

theorem looks_wrap {dp : Draw.Vals} {a : Drawn} (ha : Looks dp a) : Looks dp (andThen (put [.opening group]) (andThen a (put [.closing "g"]))) :=
  looks_then (looks_put (by simp)) (looks_then ha (looks_put (by simp)))

theorem stroked_of {dp : Draw.Vals} {name : String} {pre post : List (String × List Char)} (h : ∀ a ∈ pre, a.1 ≠ "stroke" ∧ a.1 ≠ "stroke-width") : Stroked dp ⟨name, pre ++ strokeAttrs dp ++ post⟩ := by
  have f : ∀ key, (key = "stroke" ∨ key = "stroke-width") → pre.find? (fun a => a.1 == key) = none := by
    intro key hk
    rw [List.find?_eq_none]
    intro a ha e
    rcases hk with rfl | rfl
    · exact (h a ha).1 (by simpa using e)
    · exact (h a ha).2 (by simpa using e)
  refine ⟨⟨_, ?_, rgb_text _⟩, _, ?_, readInt_int _⟩
  · unfold attrOf
    rw [List.find?_append, List.find?_append, f _ (Or.inl rfl)]
    rfl
  · unfold attrOf
    rw [List.find?_append, List.find?_append, f _ (Or.inr rfl)]
    rfl

theorem stroked_seg (w : Writer) (dp : Draw.Vals) (s : Seg) (l : List (String × List Char)) : Looks dp (put [drawSvgSeg w dp s l]) := by
  apply looks_put
  intro e he
  simp only [drawSvgSeg, List.mem_singleton, Tok.elem.injEq] at he
  subst he
  exact Or.inr (stroked_of (by simp))

theorem looks_segs (w : Writer) (dp : Draw.Vals) (l : List Seg) (x : List (String × List Char)) : Looks dp (put (l.map (fun s => drawSvgSeg w dp s x))) := by
  apply looks_put
  intro e he
  obtain ⟨s, -, hs⟩ := List.mem_map.1 he
  exact stroked_seg w dp s x e (by rw [← hs]; simp [put])

theorem looks_circle (w : Writer) (dp : Draw.Vals) (c : Circle) : Looks dp (put (drawCircle w dp c)) := by
  apply looks_put
  intro e he
  simp only [drawCircle, List.mem_singleton, Tok.elem.injEq] at he
  subst he
  exact Or.inr (stroked_of (by simp))

theorem looks_point (t : Thr ℝ) (flag : Bool) (w : Writer) (cols rows : Nat) (dp : Draw.Vals) (p : Pt ℝ) : Looks dp (drawPoint t flag w cols rows dp p) := by
  apply looks_compute
  intro m
  cases m with
  | nothing => exact looks_put (by simp)
  | dot c => exact looks_circle w dp c
  | strokes l => exact looks_segs w dp l _

theorem looks_points (t : Thr ℝ) (flag : Bool) (w : Writer) (cols rows : Nat) (dp : Draw.Vals) : ∀ l, Looks dp (drawPoints t flag w cols rows dp l)
  | [] => looks_put (by simp)
  | p :: l => looks_then (looks_point t flag w cols rows dp p) (looks_points t flag w cols rows dp l)

theorem looks_seg (t : Thr ℝ) (flag : Bool) (w : Writer) (cols rows : Nat) (dp : Draw.Vals) (s : Seg) : Looks dp (drawSeg t flag w cols rows dp s) := by
  rw [drawSeg_eq]
  have := stroked_seg w dp s (w.extra dp.attr)
  split
  · exact looks_wrap (looks_then this (looks_points _ _ _ _ _ _ _))
  · exact this

theorem looks_texts {α : Type} (dp : Draw.Vals) (l : List α) (k : α → Tok) (h : ∀ a e, k a = .elem e → e.name = "text") : Looks dp (put (l.map k)) := by
  apply looks_put
  intro e he
  obtain ⟨a, -, ha⟩ := List.mem_map.1 he
  exact Or.inl (h a e ha)

theorem looks_item (t : Thr ℝ) (flag : Bool) (w : Writer) (cols rows : Nat) (dflt dp : Draw.Vals) (i : Item) : Looks dp (drawItem t flag w cols rows dflt dp i) := by
  cases i with
  | point p => exact looks_point t flag w cols rows dp p
  | line l =>
    apply looks_compute
    intro s
    cases s with
    | none => exact looks_put (by simp)
    | some s => exact looks_seg t flag w cols rows { dp with showPoints := false } s
  | circle c => exact looks_circle w dp c
  | rect r =>
    apply looks_put
    intro e he
    simp only [drawRect, List.mem_singleton, Tok.elem.injEq] at he
    subst he
    exact Or.inr (stroked_of (by simp))
  | seg s => exact looks_seg t flag w cols rows dp s
  | oseg s =>
    show Looks dp (drawOSeg t w dp s)
    unfold drawOSeg
    refine looks_then ?_ (looks_compute fun a => ?_)
    · intro e he
      simp only [put, List.mem_cons, List.not_mem_nil, or_false, reduceCtorEq, false_or] at he
      exact stroked_seg w dp s (w.extra dp.attr) e (by rw [← he]; simp [put])
    · intro e he
      simp only [put, List.mem_cons, List.not_mem_nil, or_false, reduceCtorEq] at he
      rcases he with he | he | he
      · exact stroked_seg w dp (a.1) [] e (by rw [he]; simp [put])
      · exact stroked_seg w dp (a.2.1) [] e (by rw [he]; simp [put])
      · exact stroked_seg w dp (a.2.2) [] e (by rw [he]; simp [put])
  | poly closed pts =>
    show Looks dp (drawPoly t flag w cols rows dflt dp closed pts)
    by_cases h2 : pts.length < 2
    · unfold drawPoly; rw [if_pos h2]; exact looks_put (by simp)
    · rw [drawPoly_eq _ _ _ _ _ _ _ _ _ h2]
      have hidx : Looks dp (if dp.showIndex then andThen (put [.opening group]) (andThen (put (pts.map indexText)) (put [.closing "g"])) else put []) := by
        split
        · exact looks_wrap (looks_texts dp pts indexText (by intro a e h; simp only [indexText, Tok.elem.injEq] at h; rw [← h]))
        · exact looks_put (by simp)
      have hpts : Looks dp (if dp.showPoints then andThen (put [.opening group]) (andThen (drawPoints t flag w cols rows dp pts) (put [.closing "g"])) else put []) := by
        split
        · exact looks_wrap (looks_points _ _ _ _ _ _ _)
        · exact looks_put (by simp)
      have hpoly : Looks dp (put [.elem (polyElem w dp closed pts)]) := by
        apply looks_put
        intro e he
        simp only [List.mem_singleton, Tok.elem.injEq] at he
        subst he
        right
        have := stroked_of (dp := dp) (name := if closed then "polygon" else "polyline") (pre := []) (post := fillAttrs w dp ++ [("points", writePoints w.fmt pts)]) (by simp)
        simpa [polyElem] using this
      simp only
      have hbody := looks_then hpoly (looks_then hidx (looks_then hpts
        (show Looks dp (if dp.showAngles then compute (getOSegs (fun a b => @decide (PtEq t a b) (Classical.propDecidable _)) closed pts)
            (fun osegs => put ((osegs.tail.map (·.1)).map (drawText w dflt))) else put []) by
          split
          · refine looks_compute fun o => looks_texts dp _ _ ?_
            intro a e h; simp only [drawText, Tok.elem.injEq] at h; rw [← h]
          · exact looks_put (by simp))))
      split
      · exact looks_wrap hbody
      · exact hbody
  | ell e =>
    show Looks dp (drawEllipse t w dp e)
    have key : (drawEllipse t w dp e).2 = [.broken] ∨ ∃ x y a b th, (drawEllipse t w dp e).2 = [.elem (ellElem w dp x y a b th)] := by
      unfold drawEllipse
      cases e.getCenter t with
      | throw => left; rfl
      | ub => left; rfl
      | ok c =>
        cases e.getMajMin t with
        | throw => left; rfl
        | ub => left; rfl
        | ok mm =>
          cases e.angle t with
          | throw => left; rfl
          | ub => left; rfl
          | ok th => right; exact ⟨_, _, _, _, _, rfl⟩
    intro e' he
    rcases key with k | ⟨x, y, a, b, th, k⟩ <;> rw [k] at he
    · simp at he
    · simp only [List.mem_singleton, Tok.elem.injEq] at he
      subst he
      right
      have := stroked_of (dp := dp) (name := "ellipse") (pre := [("cx", w.fmt x), ("cy", w.fmt y), ("rx", w.fmt a), ("ry", w.fmt b)])
        (post := fillAttrs w dp ++ [("transform", "rotate(".toList ++ w.fmt th ++ [','] ++ w.fmt x ++ [','] ++ w.fmt y ++ [')'])]) (by simp)
      simpa [ellElem] using this

/-! ### Texts -/

theorem texts_append (a b : List Tok) : textsOf (a ++ b) = textsOf a ++ textsOf b := List.filterMap_append

/-- A drawing that, if it ends well, has written these texts. -/
def Writes (d : Drawn) (l : List Elem) : Prop := d.1 = .ok () → textsOf d.2 = l

theorem writes_put {l : List Tok} {r : List Elem} (h : textsOf l = r) : Writes (put l) r := fun _ => h

theorem writes_then {a b : Drawn} {la lb : List Elem} (ha : Writes a la) (hb : Writes b lb) : Writes (andThen a b) (la ++ lb) := by
  obtain ⟨ra, ta⟩ := a
  intro h
  cases ra with
  | ok u =>
    simp only [andThen] at h ⊢
    rw [texts_append, ha rfl, hb h]
  | throw => simp [andThen] at h
  | ub => simp [andThen] at h

theorem writes_wrap {a : Drawn} {l : List Elem} (ha : Writes a l) : Writes (andThen (put [.opening group]) (andThen a (put [.closing "g"]))) l := by
  have := writes_then (writes_put (l := [.opening group]) (r := []) rfl) (writes_then ha (writes_put (l := [.closing "g"]) (r := []) rfl))
  simpa using this

theorem texts_segs (w : Writer) (dp : Draw.Vals) (x : List (String × List Char)) : ∀ l : List Seg, textsOf (l.map (fun s => drawSvgSeg w dp s x)) = []
  | [] => rfl
  | s :: l => by
    have := texts_segs w dp x l
    rw [List.map_cons]
    exact this

theorem writes_point (t : Thr ℝ) (flag : Bool) (w : Writer) (cols rows : Nat) (dp : Draw.Vals) (p : Pt ℝ) : Writes (drawPoint t flag w cols rows dp p) [] := by
  unfold drawPoint
  cases pointMark t flag cols rows dp p with
  | throw => intro _; rfl
  | ub => intro _; rfl
  | ok m =>
    cases m with
    | nothing => exact writes_put rfl
    | dot c => exact writes_put rfl
    | strokes l => exact writes_put (texts_segs w dp _ l)

theorem writes_points (t : Thr ℝ) (flag : Bool) (w : Writer) (cols rows : Nat) (dp : Draw.Vals) : ∀ l, Writes (drawPoints t flag w cols rows dp l) []
  | [] => writes_put rfl
  | p :: l => writes_then (writes_point t flag w cols rows dp p) (writes_points t flag w cols rows dp l)

theorem texts_map {k : Pt ℝ → Tok} {Q : Pt ℝ → Elem → Prop} (h : ∀ p, ∃ e, k p = .elem e ∧ e.name = "text" ∧ Q p e) : ∀ l : List (Pt ℝ), List.Forall₂ Q l (textsOf (l.map k))
  | [] => List.Forall₂.nil
  | p :: l => by
    obtain ⟨e, h1, h2, h3⟩ := h p
    have : textsOf ((p :: l).map k) = e :: textsOf (l.map k) := by
      unfold textsOf
      rw [List.map_cons, List.filterMap_cons, h1]
      simp [h2]
    rw [this]
    exact List.Forall₂.cons h3 (texts_map h l)

/-- The first ends of the segments, without the first one. -/
theorem tail_starts {closed : Bool} {pts : List (Pt ℝ)} (h : 2 ≤ pts.length) : (segPairs closed pts).tail.map (·.1) = if closed then pts.tail else pts.tail.dropLast := by
  obtain _ | ⟨a, _ | ⟨b, l⟩⟩ := pts
  · simp at h
  · simp at h
  · unfold segPairs
    rw [if_neg (by simp)]
    cases closed with
    | true =>
      simp only [if_true, cycPairs, List.tail_cons, List.take_succ_cons, List.take_zero, List.cons_append, List.zip_cons_cons]
      rw [List.map_fst_zip]
      simp
    | false =>
      simp only [openPairs, List.tail_cons, List.zip_cons_cons, Bool.false_eq_true, if_false]
      clear h
      induction l generalizing b with
      | nil => rfl
      | cons c l ih => rw [List.zip_cons_cons, List.map_cons, List.dropLast_cons₂, ih]

open Classical in
theorem poly_texts (t : Thr ℝ) (flag : Bool) (w : Writer) (cols rows : Nat) (dflt dp : Draw.Vals) (closed : Bool) (pts : List (Pt ℝ)) (h2 : 2 ≤ pts.length) :
    Writes (drawPoly t flag w cols rows dflt dp closed pts) (textsOf ((if dp.showIndex then pts else []).map indexText) ++
      textsOf ((if dp.showAngles then (if closed then pts.tail else pts.tail.dropLast) else []).map (drawText w dflt))) := by
  rw [drawPoly_eq _ _ _ _ _ _ _ _ _ (by omega)]
  have hidx : Writes (if dp.showIndex then andThen (put [.opening group]) (andThen (put (pts.map indexText)) (put [.closing "g"])) else put []) (textsOf ((if dp.showIndex then pts else []).map indexText)) := by
    split
    · exact writes_wrap (writes_put rfl)
    · exact writes_put rfl
  have hpts : Writes (if dp.showPoints then andThen (put [.opening group]) (andThen (drawPoints t flag w cols rows dp pts) (put [.closing "g"])) else put []) [] := by
    split
    · exact writes_wrap (writes_points _ _ _ _ _ _ _)
    · exact writes_put rfl
  have hpoly : Writes (put [.elem (polyElem w dp closed pts)]) [] := by
    apply writes_put
    cases closed <;> rfl
  have hang : Writes (if dp.showAngles then compute (getOSegs (fun a b => decide (PtEq t a b)) closed pts) (fun osegs => put ((osegs.tail.map (·.1)).map (drawText w dflt))) else put [])
      (textsOf ((if dp.showAngles then (if closed then pts.tail else pts.tail.dropLast) else []).map (drawText w dflt))) := by
    split
    · unfold getOSegs
      split
      · intro h; simp [compute] at h
      · apply writes_put
        rw [tail_starts h2]
    · exact writes_put rfl
  simp only
  have hbody := writes_then hpoly (writes_then hidx (writes_then hpts hang))
  simp only [List.nil_append] at hbody
  split
  · exact writes_wrap hbody
  · exact hbody

/-! ### Colors -/

theorem digits_none : ∀ l : List Char, l.foldl (fun acc c => acc.bind (fun n => if '0'.toNat ≤ c.toNat ∧ c.toNat ≤ '9'.toNat then some (10 * n + (c.toNat - '0'.toNat)) else none)) (none : Option Nat) = none
  | [] => rfl
  | _ :: l => digits_none l

theorem no_comma {s : List Char} {n : Nat} (h : decimal s = some n) : ',' ∉ s := by
  intro hc
  obtain ⟨a, b, rfl⟩ := List.append_of_mem hc
  unfold decimal readInt.readNat at h
  rw [if_neg (by simp), List.foldl_append, List.foldl_cons] at h
  have e : ∀ acc : Option Nat, acc.bind (fun n => if '0'.toNat ≤ ','.toNat ∧ ','.toNat ≤ '9'.toNat then some (10 * n + (','.toNat - '0'.toNat)) else none) = none := by
    intro acc
    cases acc with
    | none => rfl
    | some n => simp
  rw [e, digits_none] at h
  cases h

theorem split_comma : ∀ {a b x y : List Char}, ',' ∉ a → ',' ∉ b → a ++ ([','] ++ x) = b ++ ([','] ++ y) → a = b ∧ x = y
  | [], [], x, y, _, _, e => ⟨rfl, by simpa using e⟩
  | [], c :: b, x, y, _, hb, e => by simp at e; exact absurd (by rw [← e.1]; simp) hb
  | c :: a, [], x, y, ha, _, e => by simp at e; exact absurd (by rw [e.1]; simp) ha
  | c :: a, d :: b, x, y, ha, hb, e => by
    replace e : c :: (a ++ ([','] ++ x)) = d :: (b ++ ([','] ++ y)) := e
    rw [List.cons.injEq] at e
    obtain ⟨h1, h2⟩ := split_comma (fun h => ha (List.mem_cons_of_mem _ h)) (fun h => hb (List.mem_cons_of_mem _ h)) e.2
    exact ⟨by rw [e.1, h1], h2⟩

theorem byte_set {v v' : Draw.Vals} {s : Draw.Setter} (hv : ByteColor v) (h : s.run v = .ok v') : ByteColor v' := by
  cases s <;> simp only [Draw.Setter.run] at h
  case color r g b =>
    simp only [Res.ok.injEq] at h; subst h
    exact ⟨r.isLt, g.isLt, b.isLt⟩
  all_goals
    first
      | (simp only [Res.ok.injEq] at h; subst h; exact hv)
      | (split at h
         · first | (cases h; exact hv) | cases h
         · first | (cases h; exact hv) | cases h)

theorem byte_factory : ByteColor Draw.factory := by unfold ByteColor; decide +kernel

theorem byte_step {w w' : Draw.World} {op : Draw.Op} (hw : (∀ v ∈ w.objs, ByteColor v) ∧ ByteColor w.dflt) (h : Draw.step w op = some w') : (∀ v ∈ w'.objs, ByteColor v) ∧ ByteColor w'.dflt := by
  obtain ⟨h1, h2⟩ := hw
  have add : ∀ x, ByteColor x → ∀ v ∈ w.objs ++ [x], ByteColor v := by
    intro x hx v hv
    rcases List.mem_append.1 hv with k | k
    · exact h1 v k
    · rw [List.mem_singleton.1 k]; exact hx
  cases op with
  | create =>
    simp only [Draw.step, Option.some.injEq] at h; subst h
    exact ⟨add _ h2, h2⟩
  | copy i =>
    simp only [Draw.step] at h
    split at h
    · next v hv =>
      simp only [Option.some.injEq] at h; subst h
      exact ⟨add _ (h1 v (List.mem_of_getElem? hv)), h2⟩
    · simp only [Option.some.injEq] at h; subst h; exact ⟨h1, h2⟩
  | set i s =>
    simp only [Draw.step] at h
    split at h
    · next v hv =>
      split at h
      · next v' hs =>
        simp only [Option.some.injEq] at h; subst h
        refine ⟨fun x hx => ?_, h2⟩
        rcases List.mem_or_eq_of_mem_set hx with k | k
        · exact h1 x k
        · rw [k]; exact byte_set (h1 v (List.mem_of_getElem? hv)) hs
      · simp only [Option.some.injEq] at h; subst h; exact ⟨h1, h2⟩
      · cases h
    · simp only [Option.some.injEq] at h; subst h; exact ⟨h1, h2⟩
  | setDefault i =>
    simp only [Draw.step] at h
    split at h
    · next v hv =>
      simp only [Option.some.injEq] at h; subst h
      exact ⟨h1, h1 v (List.mem_of_getElem? hv)⟩
    · simp only [Option.some.injEq] at h; subst h; exact ⟨h1, h2⟩
  | resetDefault =>
    simp only [Draw.step, Option.some.injEq] at h; subst h
    exact ⟨h1, byte_factory⟩

theorem byte_run (ops : List Draw.Op) (w : Draw.World) (hw : (∀ v ∈ w.objs, ByteColor v) ∧ ByteColor w.dflt) (w' : Draw.World) (h : Draw.run w ops = some w') :
    (∀ v ∈ w'.objs, ByteColor v) ∧ ByteColor w'.dflt := by
  induction ops generalizing w with
  | nil => simp only [Draw.run, Option.some.injEq] at h; subst h; exact hw
  | cons op ops ih =>
    simp only [Draw.run] at h
    split at h
    · next w1 h1 => exact ih w1 (byte_step hw h1) h
    · cases h

end H2d.SvgD
