import Verif.Lemmas.SvgMark

/-!
# Attributes of the user
-/

namespace H2d.SvgD
open H2d H2d.Spec H2d.Svg

theorem holds_iff (sub : List Char) : ∀ s : List Char, holds sub s = true ↔ sub <:+: s
  | [] => by simp [holds]
  | c :: s => by
    rw [holds, Bool.or_eq_true, holds_iff sub s, List.infix_cons_iff, List.isPrefixOf_iff_prefix]

/-- A text that does not hold the separator is on one side of it. -/
theorem infix_sep {sub x y : List Char} {c : Char} (hc : c ∉ sub) (h : sub <:+: x ++ c :: y) : sub <:+: x ∨ sub <:+: y := by
  rw [List.infix_append_iff] at h
  rcases h with h | h | ⟨t1, t2, ht, h1, h2⟩
  · exact Or.inl h
  · rw [List.infix_cons_iff] at h
    rcases h with h | h
    · rw [List.prefix_cons_iff] at h
      rcases h with rfl | ⟨l, rfl, -⟩
      · exact Or.inl (List.nil_infix)
      · simp at hc
    · exact Or.inr h
  · rw [List.prefix_cons_iff] at h2
    rcases h2 with rfl | ⟨l, rfl, -⟩
    · left; rw [ht, List.append_nil]; exact h1.isInfix
    · rw [ht] at hc; simp at hc

theorem infix_key {k : List Char} (hk : '=' ∉ k) (h : "fill=".toList <:+: k ++ ['=']) : "fill".toList <:+ k := by
  have no : ∀ s : List Char, "fill=".toList <:+: s → '=' ∈ s := fun s hs => hs.subset (by decide)
  rw [List.infix_append_iff] at h
  rcases h with h | h | ⟨t1, t2, ht, h1, h2⟩
  · exact absurd (no _ h) hk
  · exact absurd h (by decide)
  · rw [List.prefix_cons_iff] at h2
    rcases h2 with rfl | ⟨l, rfl, hl⟩
    · rw [List.append_nil] at ht; subst ht; exact absurd (no _ h1.isInfix) hk
    · have : l = [] := by simpa using hl
      subst this
      have e : "fill=".toList = "fill".toList ++ ['='] := by decide
      rw [e] at ht
      have := List.append_inj_left' ht rfl
      rw [this]; exact h1

theorem text_cons (a : String × List Char) (l : List (String × List Char)) :
    attrText (a :: l) = (a.1.toList ++ ['=']) ++ '"' :: (a.2 ++ '"' :: ' ' :: attrText l) := by
  simp [attrText]

theorem text_fill : ∀ {l : List (String × List Char)}, UserAttrs l → FillClear l → (holds "fill=".toList (attrText l) = true ↔ ∃ a ∈ l, a.1 = "fill")
  | [], _, _ => by simp [attrText, holds]
  | a :: l, hu, hf => by
    have hu' : UserAttrs l := ⟨(List.nodup_cons.1 hu.1).2, fun b hb => hu.2 b (by simp [hb])⟩
    have ih := text_fill hu' (fun b hb => hf b (by simp [hb]))
    obtain ⟨-, a1, -, -, a2⟩ := hu.2 a (by simp)
    obtain ⟨f1, f2⟩ := hf a (by simp)
    rw [holds_iff] at ih ⊢
    rw [text_cons]
    constructor
    · intro h
      rcases infix_sep (by decide) h with h | h
      · exact ⟨a, by simp, f1 (infix_key a1 h)⟩
      · rcases infix_sep (by decide) h with h | h
        · exact absurd h f2
        · rcases infix_sep (x := []) (by decide) h with h | h
          · exact absurd h (by decide)
          · obtain ⟨b, hb, e⟩ := ih.1 h
            exact ⟨b, by simp [hb], e⟩
    · rintro ⟨b, hb, e⟩
      rcases List.mem_cons.1 hb with rfl | hb
      · rw [e]
        exact List.IsInfix.trans (show "fill=".toList <:+: "fill".toList ++ ['='] by decide) (List.prefix_append _ _).isInfix
      · have := ih.2 ⟨b, hb, e⟩
        refine this.trans ⟨(a.1.toList ++ ['=']) ++ '"' :: (a.2 ++ ['"', ' ']), [], by simp⟩

theorem fill_attrs {w : Writer} {dp : Draw.Vals} {l : List (String × List Char)} (hu : UserAttrs l) (hf : FillClear l) (hg : Gives w dp l) :
    (fillAttrs w dp = l ∧ ∃ a ∈ l, a.1 = "fill") ∨ (fillAttrs w dp = ("fill", "none".toList) :: l ∧ ∀ a ∈ l, a.1 ≠ "fill") := by
  have h := text_fill hu hf
  have htx : dp.attr.toList = attrText l := by rw [hg.1]; exact String.toList_ofList
  unfold fillAttrs holdsFill
  rw [hg.2, htx]
  cases hh : holds "fill=".toList (attrText l)
  · right
    refine ⟨rfl, fun a ha e => ?_⟩
    rw [h.2 ⟨a, ha, e⟩] at hh; cases hh
  · left
    exact ⟨rfl, h.1 hh⟩

/-- Own attributes, then the ones of the user, then other own ones. -/
theorem good_attrs {w : Writer} {dp : Draw.Vals} {l : List (String × List Char)} (hu : UserAttrs l) (hf : FillClear l) (hg : Gives w dp l) (n : String) {own own' : List (String × List Char)}
    (h1 : ((own ++ own').map (·.1)).Nodup) (h2 : ∀ a ∈ own ++ own', a.1 ∈ ownKeys) : GoodAttrs l ⟨n, own ++ fillAttrs w dp ++ own'⟩ := by
  have hperm : (own ++ fillAttrs w dp ++ own').Perm (fillAttrs w dp ++ (own ++ own')) := by
    rw [← List.append_assoc]; exact List.Perm.append_right _ List.perm_append_comm
  have hdis : ∀ a ∈ l, ∀ b ∈ own ++ own', a.1 ≠ b.1 := fun a ha b hb e => (hu.2 a ha).1 (e ▸ h2 b hb)
  have hfo : ∀ b ∈ own ++ own', b.1 ≠ "fill" := by
    intro b hb e
    have := h2 b hb
    rw [e] at this
    exact absurd this (by decide)
  have hbase : ((l ++ (own ++ own')).map (·.1)).Nodup := by
    rw [List.map_append, List.nodup_append]
    refine ⟨hu.1, h1, ?_⟩
    intro x hx y hy
    obtain ⟨a, ha, rfl⟩ := List.mem_map.1 hx
    obtain ⟨b, hb, rfl⟩ := List.mem_map.1 hy
    exact hdis a ha b hb
  rcases fill_attrs hu hf hg with ⟨e, hx⟩ | ⟨e, hx⟩
  · refine ⟨?_, fun _ => ⟨fun a ha => ?_, fun hno => ?_⟩⟩
    · rw [(hperm.map _).nodup_iff, e]; exact hbase
    · simp [e, ha]
    · obtain ⟨a, ha, h⟩ := hx
      exact absurd h (hno a ha)
  · refine ⟨?_, fun _ => ⟨fun a ha => ?_, fun _ => ?_⟩⟩
    · rw [(hperm.map _).nodup_iff, e]
      rw [List.cons_append, List.map_cons, List.nodup_cons]
      refine ⟨?_, hbase⟩
      intro hm
      obtain ⟨b, hb, eb⟩ := List.mem_map.1 hm
      rcases List.mem_append.1 hb with hb | hb
      · exact hx b hb eb
      · exact hfo b hb eb
    · simp [e, ha]
    · simp [e]

/-- All the elements of the drawing. -/
def GoodAll (l : List (String × List Char)) (d : Drawn) : Prop := ∀ e, Tok.elem e ∈ d.2 ∨ Tok.opening e ∈ d.2 → GoodAttrs l e

theorem all_then {l : List (String × List Char)} {a b : Drawn} (ha : GoodAll l a) (hb : GoodAll l b) : GoodAll l (andThen a b) := by
  obtain ⟨ra, la⟩ := a
  obtain ⟨rb, lb⟩ := b
  intro e he
  cases ra with
  | ok u =>
    simp only [andThen, List.mem_append] at he
    rcases he with (h | h) | (h | h)
    · exact ha e (Or.inl h)
    · exact hb e (Or.inl h)
    · exact ha e (Or.inr h)
    · exact hb e (Or.inr h)
  | throw => exact ha e he
  | ub => exact ha e he

theorem all_put {l : List (String × List Char)} {ts : List Tok} (h : ∀ x ∈ ts, ∃ e, (x = .elem e ∨ x = .opening e ∨ ∃ n, x = .closing n) ∧ GoodAttrs l e) : GoodAll l (put ts) := by
  intro e he
  rcases he with he | he
  · obtain ⟨e', h1 | h1 | ⟨n, h1⟩, h2⟩ := h _ he <;> cases h1
    exact h2
  · obtain ⟨e', h1 | h1 | ⟨n, h1⟩, h2⟩ := h _ he <;> cases h1
    exact h2

theorem all_compute {α : Type} {l : List (String × List Char)} {r : Res α} {k : α → Drawn} (h : ∀ x, GoodAll l (k x)) : GoodAll l (compute r k) := by
  cases r with
  | ok x => exact h x
  | throw => intro e he; simp [compute] at he
  | ub => intro e he; simp [compute] at he

theorem group_attrs (l : List (String × List Char)) : GoodAttrs l group := ⟨List.nodup_nil, fun h => absurd h (by decide)⟩

theorem all_wrap {l : List (String × List Char)} {a : Drawn} (ha : GoodAll l a) : GoodAll l (andThen (put [.opening group]) (andThen a (put [.closing "g"]))) := by
  refine all_then (all_put ?_) (all_then ha (all_put ?_))
  · intro x hx
    rw [List.mem_singleton] at hx
    exact ⟨group, Or.inr (Or.inl hx), group_attrs l⟩
  · intro x hx
    rw [List.mem_singleton] at hx
    exact ⟨group, Or.inr (Or.inr ⟨_, hx⟩), group_attrs l⟩

theorem all_elems {l : List (String × List Char)} {ts : List Tok} (h : ∀ x ∈ ts, ∃ e, x = .elem e ∧ GoodAttrs l e) : GoodAll l (put ts) :=
  all_put (fun x hx => let ⟨e, h1, h2⟩ := h x hx; ⟨e, Or.inl h1, h2⟩)

section
variable {w : Writer} {dp : Draw.Vals} {l : List (String × List Char)} (hu : UserAttrs l) (hf : FillClear l) (hg : Gives w dp l)
include hu hf hg

theorem attrs_circle (c : Circle) : GoodAttrs l ⟨"circle", [("cx", w.fmt c.center.1), ("cy", w.fmt c.center.2), ("r", w.fmt c.radius)] ++ strokeAttrs dp ++ fillAttrs w dp⟩ := by
  have := good_attrs hu hf hg "circle" (own := [("cx", w.fmt c.center.1), ("cy", w.fmt c.center.2), ("r", w.fmt c.radius)] ++ strokeAttrs dp) (own' := [])
    (by simp [strokeAttrs]) (by simp [strokeAttrs, ownKeys])
  simpa using this

omit hf in
theorem attrs_seg (s : Seg) : GoodAttrs l (segElem w dp s (w.extra dp.attr)) := by
  refine ⟨?_, fun h => absurd h (by simp [segElem, filledNames])⟩
  unfold segElem
  simp only
  rw [List.map_append, List.nodup_append, hg.2]
  refine ⟨by simp [strokeAttrs], hu.1, ?_⟩
  intro x hx y hy e
  obtain ⟨b, hb, rfl⟩ := List.mem_map.1 hy
  refine (hu.2 b hb).1 ?_
  rw [← e]
  simp only [strokeAttrs, List.map_append, List.map_cons, List.map_nil, List.mem_append, List.mem_cons, List.not_mem_nil, or_false] at hx
  rcases hx with (rfl | rfl | rfl | rfl) | rfl | rfl <;> decide

omit hu hf hg in
theorem attrs_bare (s : Seg) : GoodAttrs l (segElem w dp s []) := by
  refine ⟨?_, fun h => absurd h (by simp [segElem, filledNames])⟩
  simp [segElem, strokeAttrs]

theorem all_point (t : Thr ℝ) (flag : Bool) (cols rows : Nat) (p : Pt ℝ) : GoodAll l (drawPoint t flag w cols rows dp p) := by
  apply all_compute
  intro m
  cases m with
  | nothing => exact all_elems (by simp)
  | dot c =>
    apply all_elems
    intro x hx
    rw [drawCircle, List.mem_singleton] at hx
    exact ⟨_, hx, attrs_circle hu hf hg c⟩
  | strokes l' =>
    apply all_elems
    intro x hx
    obtain ⟨s, -, rfl⟩ := List.mem_map.1 hx
    exact ⟨_, rfl, attrs_seg hu hg s⟩

theorem all_points (t : Thr ℝ) (flag : Bool) (cols rows : Nat) : ∀ ps : List (Pt ℝ), GoodAll l (drawPoints t flag w cols rows dp ps)
  | [] => all_elems (by simp)
  | p :: ps => all_then (all_point hu hf hg t flag cols rows p) (all_points t flag cols rows ps)

theorem all_seg (t : Thr ℝ) (flag : Bool) (cols rows : Nat) (s : Seg) : GoodAll l (drawSeg t flag w cols rows dp s) := by
  rw [drawSeg_eq]
  have hs : GoodAll l (put [.elem (segElem w dp s (w.extra dp.attr))]) := all_elems (by
    intro x hx
    rw [List.mem_singleton] at hx
    exact ⟨_, hx, attrs_seg hu hg s⟩)
  split
  · exact all_wrap (all_then hs (all_points hu hf hg t flag cols rows _))
  · exact hs

theorem all_item (t : Thr ℝ) (flag : Bool) (cols rows : Nat) (dflt : Draw.Vals) (i : Item) : GoodAll l (drawItem t flag w cols rows dflt dp i) := by
  cases i with
  | point p => exact all_point hu hf hg t flag cols rows p
  | line li =>
    apply all_compute
    intro s
    cases s with
    | none => exact all_elems (by simp)
    | some s => exact all_seg (dp := { dp with showPoints := false }) hu hf hg t flag cols rows s
  | circle c =>
    apply all_elems
    intro x hx
    rw [drawCircle, List.mem_singleton] at hx
    exact ⟨_, hx, attrs_circle hu hf hg c⟩
  | rect r =>
    apply all_elems
    intro x hx
    rw [drawRect, List.mem_singleton] at hx
    refine ⟨_, hx, ?_⟩
    have := good_attrs hu hf hg "rect" (own := [("x", w.fmt r.p1.1), ("y", w.fmt r.p1.2), ("width", w.fmt r.width), ("height", w.fmt r.height)] ++ strokeAttrs dp) (own' := [])
      (by simp [strokeAttrs]) (by simp [strokeAttrs, ownKeys])
    simpa using this
  | seg s => exact all_seg hu hf hg t flag cols rows s
  | oseg s =>
    show GoodAll l (drawOSeg t w dp s)
    unfold drawOSeg
    refine all_then (all_put ?_) (all_compute fun a => all_put ?_)
    · intro x hx
      simp only [List.mem_cons, List.not_mem_nil, or_false] at hx
      rcases hx with rfl | rfl
      · exact ⟨group, Or.inr (Or.inl rfl), group_attrs l⟩
      · exact ⟨_, Or.inl rfl, attrs_seg hu hg s⟩
    · intro x hx
      simp only [List.mem_cons, List.not_mem_nil, or_false] at hx
      rcases hx with rfl | rfl | rfl | rfl
      · exact ⟨_, Or.inl rfl, attrs_bare (w := w) (dp := dp) a.1⟩
      · exact ⟨_, Or.inl rfl, attrs_bare (w := w) (dp := dp) a.2.1⟩
      · exact ⟨_, Or.inl rfl, attrs_bare (w := w) (dp := dp) a.2.2⟩
      · exact ⟨group, Or.inr (Or.inr ⟨_, rfl⟩), group_attrs l⟩
  | poly closed pts =>
    show GoodAll l (drawPoly t flag w cols rows dflt dp closed pts)
    by_cases h2 : pts.length < 2
    · unfold drawPoly; rw [if_pos h2]; exact all_elems (by simp)
    · rw [drawPoly_eq _ _ _ _ _ _ _ _ _ h2]
      have hidx : GoodAll l (if dp.showIndex then andThen (put [.opening group]) (andThen (put (pts.map indexText)) (put [.closing "g"])) else put []) := by
        split
        · refine all_wrap (all_elems ?_)
          intro x hx
          obtain ⟨p, -, rfl⟩ := List.mem_map.1 hx
          exact ⟨_, rfl, by simp, fun h => absurd h (by simp [filledNames])⟩
        · exact all_elems (by simp)
      have hpts : GoodAll l (if dp.showPoints then andThen (put [.opening group]) (andThen (drawPoints t flag w cols rows dp pts) (put [.closing "g"])) else put []) := by
        split
        · exact all_wrap (all_points hu hf hg t flag cols rows _)
        · exact all_elems (by simp)
      have hpoly : GoodAll l (put [.elem (polyElem w dp closed pts)]) := by
        apply all_elems
        intro x hx
        rw [List.mem_singleton] at hx
        exact ⟨_, hx, good_attrs hu hf hg _ (own := strokeAttrs dp) (own' := [("points", writePoints w.fmt pts)]) (by simp [strokeAttrs]) (by simp [strokeAttrs, ownKeys])⟩
      simp only
      have hbody := all_then hpoly (all_then hidx (all_then hpts
        (show GoodAll l (if dp.showAngles then compute (getOSegs (fun a b => @decide (PtEq t a b) (Classical.propDecidable _)) closed pts)
            (fun osegs => put ((osegs.tail.map (·.1)).map (drawText w dflt))) else put []) by
          split
          · refine all_compute fun o => all_elems ?_
            intro x hx
            obtain ⟨p, -, rfl⟩ := List.mem_map.1 hx
            exact ⟨_, rfl, by simp, fun h => absurd h (by simp [filledNames])⟩
          · exact all_elems (by simp))))
      split
      · exact all_wrap hbody
      · exact hbody
  | ell e =>
    show GoodAll l (drawEllipse t w dp e)
    have key : (drawEllipse t w dp e).2 = [.broken] ∨ ∃ x y a b th, (drawEllipse t w dp e).2 = [.elem (ellElem w dp x y a b th)] := by
      unfold drawEllipse
      cases e.getCenter t with
      | throw => left; rfl
      | ub => left; rfl
      | ok c =>
        cases e.getMajMin t with
        | throw => left; rfl
        | ub => left; rfl
        | ok mm =>
          cases e.angle t with
          | throw => left; rfl
          | ub => left; rfl
          | ok th => right; exact ⟨_, _, _, _, _, rfl⟩
    intro e' he
    rcases key with k | ⟨x, y, a, b, th, k⟩
    · rw [k] at he; simp at he
    · rw [k] at he
      simp only [List.mem_singleton, Tok.elem.injEq, reduceCtorEq, or_false] at he
      subst he
      exact good_attrs hu hf hg "ellipse" (own := [("cx", w.fmt x), ("cy", w.fmt y), ("rx", w.fmt a), ("ry", w.fmt b)] ++ strokeAttrs dp) (by simp [strokeAttrs]) (by simp [strokeAttrs, ownKeys])

end

end H2d.SvgD
