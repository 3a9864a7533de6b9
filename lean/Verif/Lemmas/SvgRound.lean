import Verif.Lemmas.SvgDoc
import Verif.Lemmas.PipModel

/-!
# SVG files whose numbers are rounded
-/

namespace H2d.SvgD
open H2d H2d.Spec H2d.Svg

theorem eucl_near {d : ℝ} (hd : 0 ≤ d) {p q : Pt ℝ} (h : NearPt d p q) : eucl p q ≤ 2 * d := by
  obtain ⟨h1, h2⟩ := h
  rw [eucl_le_iff (by linarith)]
  rw [abs_le] at h1 h2
  nlinarith [h1.1, h1.2, h2.1, h2.2]

theorem eucl_far {d k : ℝ} (hd : 0 ≤ d) {p q p' q' : Pt ℝ} (hp : NearPt d p p') (hq : NearPt d q q') (h : k + 4 * d ≤ eucl p q) : k ≤ eucl p' q' := by
  have h1 := eucl_near hd hp
  have h2 := eucl_near hd hq
  have h3 := eucl_triangle p p' q
  have h4 := eucl_triangle p' q' q
  rw [eucl_comm q' q] at h4
  linarith

/-- A drawing that ends well, writes balanced tags, and is imported as shapes that are near these ones. -/
def GoodNear (t : Thr ℝ) (flag : Bool) (rd : Reader) (delta : ℝ) (d : Drawn) (s : List Svg.Shape) : Prop :=
  ∃ s', Good t flag rd d s' ∧ List.Forall₂ (NearShape delta) s s'

theorem openPairs_map {P Q : Type} (f : P → Q) (l : List P) : openPairs (l.map f) = (openPairs l).map (Prod.map f f) := by
  unfold openPairs
  rw [← List.map_tail, List.zip_map]

theorem good_near {t : Thr ℝ} (hn : 0 ≤ t.nullDistance) (ho : 0 ≤ t.nullOrthogDistance) {flag : Bool} {w : Writer} {rd : Reader} {delta : ℝ} (hd : 0 ≤ delta) (cols rows : Nat) (dflt dp : Draw.Vals) (i : Item)
    (h : DrawnNearly t w rd delta dp i) : GoodNear t flag rd delta (drawItem t flag w cols rows dflt dp i) (shapeOf i) := by
  cases i with
  | point p => exact absurd h (by simp [DrawnNearly])
  | line l => exact absurd h (by simp [DrawnNearly])
  | oseg s => exact absurd h (by simp [DrawnNearly])
  | ell e => exact absurd h (by simp [DrawnNearly])
  | circle c =>
    obtain ⟨h0, ⟨x, e1, n1⟩, ⟨y, e2, n2⟩, ⟨r, e3, n3⟩⟩ := h
    have hr : t.nullDistance ≤ r := by rw [abs_le] at n3; linarith [n3.1]
    refine ⟨[.circle ⟨(x, y), r⟩], good_put (e := circleElem w dp c) ?_, List.Forall₂.cons ⟨⟨n1, n2⟩, n3⟩ List.Forall₂.nil⟩
    rw [visit_circle dp e1 e2 e3, circle_ok (by linarith) (Or.inr hr)]
    rfl
  | rect r =>
    obtain ⟨a1, a2, ⟨x, e1, n1⟩, ⟨y, e2, n2⟩, ⟨a, e3, n3⟩, ⟨b, e4, n4⟩⟩ := h
    have ha : t.nullOrthogDistance ≤ a := by rw [abs_le] at n3; linarith [n3.1]
    have hb : t.nullOrthogDistance ≤ b := by rw [abs_le] at n4; linarith [n4.1]
    refine ⟨[.rect ⟨(x, y), (x + a, y + b)⟩], good_put (e := rectElem w dp r) ?_, List.Forall₂.cons ⟨⟨n1, n2⟩, ?_, ?_⟩ List.Forall₂.nil⟩
    · rw [visit_rect dp e1 e2 e3 e4, rect_ok (by linarith) (by linarith) ha hb]
      rfl
    · rw [abs_le] at *; constructor <;> simp only <;> linarith [n1.1, n1.2, n3.1, n3.2]
    · rw [abs_le] at *; constructor <;> simp only <;> linarith [n2.1, n2.2, n4.1, n4.2]
  | seg s =>
    obtain ⟨a1, a2, ⟨x1, e1, n1⟩, ⟨y1, e2, n2⟩, ⟨x2, e3, n3⟩, ⟨y2, e4, n4⟩⟩ := h
    have hp1 : NearPt delta s.1 (x1, y1) := ⟨n1, n2⟩
    have hp2 : NearPt delta s.2 (x2, y2) := ⟨n3, n4⟩
    have hfar := eucl_far hd hp1 hp2 a1
    refine ⟨[.seg (fixOrder (x1, y1) (x2, y2))], ?_, List.Forall₂.cons ?_ List.Forall₂.nil⟩
    · show Good t flag rd (drawSeg t flag w cols rows dp s) _
      rw [drawSeg_eq, if_neg (by rw [a2]; decide)]
      apply good_put
      rw [visit_seg dp _ e1 e2 e3 e4, segMake_eq _ hfar]
      rfl
    · rcases Pip.fixOrder_cases (x1, y1) (x2, y2) with hx | hx <;> rw [hx]
      · left; exact ⟨hp1, hp2⟩
      · right; exact ⟨hp1, hp2⟩
  | poly closed pts =>
    obtain ⟨h2, a1, a2, a3, e1, ex⟩ := h
    obtain ⟨rnd, hrnd⟩ : ∃ rnd : ℝ → ℝ, rnd = fun x => (rd.stod (w.fmt x)).getD 0 := ⟨_, rfl⟩
    have hr : ∀ x, NearlyRead w rd delta x → ReadsAs w rd x (rnd x) ∧ |rnd x - x| ≤ delta := by
      rintro x ⟨y, hy, n⟩
      have : rnd x = y := by rw [hrnd]; simp only [hy.2.2.2.2.1, Option.getD_some]
      rw [this]; exact ⟨hy, n⟩
    obtain ⟨f, hf⟩ : ∃ f : Pt ℝ → Pt ℝ, f = fun p => (rnd p.1, rnd p.2) := ⟨_, rfl⟩
    have hnear : ∀ p ∈ pts, NearPt delta p (f p) := by
      intro p hp
      rw [hf]
      exact ⟨(hr _ (e1 p hp).1).2, (hr _ (e1 p hp).2).2⟩
    have hfar : ∀ s ∈ cycPairs pts, ¬ PtEq t (f s.1) (f s.2) := by
      intro s hs
      have m1 : s.1 ∈ pts := (List.of_mem_zip hs).1
      have m2 : s.2 ∈ pts := by
        have := (List.of_mem_zip hs).2
        rcases List.mem_append.1 this with h | h
        · exact List.mem_of_mem_tail h
        · exact List.mem_of_mem_take h
      rw [PtEq, ptDist_eucl, not_lt]
      exact eucl_far hd (hnear _ m1) (hnear _ m2) (a1 s hs)
    have hchk : checkInput (fun a b => @decide (PtEq t a b) (Classical.propDecidable _)) (pts.map f) = true := by
      match pts, h2, hfar with
      | a :: b :: l, _, hfar =>
        simp only [List.map_cons, checkInput, Bool.and_eq_true, List.all_eq_true, Bool.not_eq_true', decide_eq_false_iff_not]
        rw [cycPairs_cons] at hfar
        obtain ⟨m, z, hz⟩ : ∃ m z, b :: l = m ++ [z] := ⟨(b :: l).dropLast, (b :: l).getLast (by simp), (List.dropLast_append_getLast _).symm⟩
        have hsplit : openPairs (a :: (b :: l) ++ [a]) = openPairs (a :: b :: l) ++ [(z, a)] := by
          rw [hz, show a :: (m ++ [z]) ++ [a] = (a :: m) ++ z :: [a] by simp, openPairs_append]
          rfl
        rw [hsplit] at hfar
        constructor
        · intro s hs
          have : s ∈ (openPairs (a :: b :: l)).map (Prod.map f f) := by rw [← openPairs_map]; exact hs
          obtain ⟨q, hq, rfl⟩ := List.mem_map.1 this
          exact hfar q (List.mem_append_left _ hq)
        · have h3 := hfar (z, a) (by simp)
          have h4 : (f b :: l.map f).getLastD (f a) = f z := by
            rw [show f b :: l.map f = (b :: l).map f by rfl, hz]; simp
          rw [h4]
          intro h5
          apply h3
          rw [PtEq, ptDist_eucl] at h5 ⊢
          rwa [eucl_comm]
    have hread : importPoints rd.stod (fun a b => @decide (PtEq t a b) (Classical.propDecidable _)) (writePoints w.fmt pts) = .ok (pts.map f) := by
      unfold importPoints
      rw [parsePoints_write w.fmt rd.stod rnd pts (by
        intro p hp x hx
        obtain ⟨q1, q2⟩ := e1 p hp
        have q1 := (hr _ q1).1
        have q2 := (hr _ q2).1
        rcases hx with rfl | rfl
        · exact ⟨q1.2.1, q1.2.2.1, q1.1, q1.2.2.2.2.1⟩
        · exact ⟨q2.2.1, q2.2.2.1, q2.1, q2.2.2.2.2.1⟩)]
      rw [← hf, Res.bind_ok, dropClosing_checked (by intro h; rw [List.map_eq_nil_iff] at h; rw [h] at h2; simp at h2) hchk, Res.bind_ok]
      unfold polySet
      rw [if_pos hchk]
    refine ⟨[.poly closed (pts.map f)], ?_, List.Forall₂.cons ⟨rfl, ?_⟩ List.Forall₂.nil⟩
    · show Good t flag rd (drawPoly t flag w cols rows dflt dp closed pts) _
      rw [drawPoly_eq _ _ _ _ _ _ _ _ _ (by omega)]
      have hpoly : Good t flag rd (put [.elem (polyElem w dp closed pts)]) [.poly closed (pts.map f)] := by
        apply good_put
        rw [visit_poly dp closed pts ex, hread]; rfl
      have hidx : Good t flag rd (if dp.showIndex then andThen (put [.opening group]) (andThen (put (pts.map indexText)) (put [.closing "g"])) else put []) [] := by
        split
        · exact good_wrap (good_others (by intro x hx; simp only [List.mem_map] at hx; obtain ⟨p, -, rfl⟩ := hx; exact ⟨_, rfl, by simp [shapeNames]⟩))
        · exact good_nil
      simp only [a2, a3, Bool.false_eq_true, if_false]
      have hbody := good_then hpoly (good_then hidx (good_then (good_nil (t := t) (flag := flag) (rd := rd)) (good_nil (t := t) (flag := flag) (rd := rd))))
      split
      · exact good_wrap hbody
      · exact hbody
    · rw [List.forall₂_map_right_iff]
      exact List.forall₂_same.2 hnear

theorem good_near_all {t : Thr ℝ} (hn : 0 ≤ t.nullDistance) (ho : 0 ≤ t.nullOrthogDistance) {flag : Bool} {w : Writer} {rd : Reader} {delta : ℝ} (hd : 0 ≤ delta) (dflt : Draw.Vals) :
    ∀ (l : List (Draw.Vals × Item)) (im : Image) (es : List Elem) (ss : List Svg.Shape), Bal im.body es → importElems t flag rd es = .ok ss →
    (∀ d ∈ l, DrawnNearly t w rd delta d.1 d.2) →
    ∃ im' es' s', drawAll t flag w dflt im l = (.ok (), im') ∧ Bal im'.body es' ∧
      importElems t flag rd es' = .ok (ss ++ s') ∧ List.Forall₂ (NearShape delta) (l.flatMap (fun d => shapeOf d.2)) s'
  | [], im, es, ss, hb, hi, _ => ⟨im, es, [], rfl, hb, by simpa using hi, List.Forall₂.nil⟩
  | d :: l, im, es, ss, hb, hi, h => by
    obtain ⟨s1, ⟨g1, e2, g2, g3⟩, hs1⟩ := good_near (flag := flag) hn ho hd im.cols im.rows dflt d.1 d.2 (h d (by simp))
    have hi2 : importElems t flag rd (es ++ e2) = .ok (ss ++ s1) := by rw [import_append hi, g3]; rfl
    obtain ⟨im', es', s', k1, k4, k5, k6⟩ := good_near_all hn ho hd dflt l { im with body := im.body ++ (drawItem t flag w im.cols im.rows dflt d.1 d.2).2 } (es ++ e2) _
      (bal_append hb g2) hi2 (fun x hx => h x (by simp [hx]))
    refine ⟨im', es', s1 ++ s', ?_, k4, ?_, ?_⟩
    · simp only [drawAll, Image.draw, g1]
      exact k1
    · rw [k5]; simp
    · rw [List.flatMap_cons]
      exact List.rel_append hs1 k6

/-- The ellipse of the examples. -/
theorem angle_hor {t : Thr ℝ} (h : 0 < t.nullDenom ∧ t.nullDenom ≤ 144) : (Ell.new 1 1 3 2 0).angle t = .ok 0 := by
  rw [new_m _ _ _ _ _ (by norm_num)]
  rcases params_new t 1 1 3 2 0 (by norm_num) (by norm_num) with ⟨h', -⟩ | ⟨-, h'⟩
  · norm_num at h'; linarith [h.2]
  · obtain ⟨e00, e11, e01, -⟩ := ellMat_entries 1 1 3 2 0
    simp only [Real.sin_zero, Real.cos_zero] at e00 e11 e01
    simp only [Ell.angle, h', Res.bind_ok, Res.pure_eq, Res.ok.injEq, Ell.angleOf, e00, e11, e01]
    rw [if_pos (by simpa using h.1), if_neg (by norm_num)]

/-- The whole file. -/
theorem file_import {t : Thr ℝ} {flag : Bool} {rd : Reader} {im : Image} {es : List Elem} {ss : List Svg.Shape} (hb : Bal im.body es) (hi : importElems t flag rd es = .ok ss) :
    importFile t flag rd (writeImage im) = some (.ok ss) := by
  have h1 := bal_wrap (rootElem im) (bal_append (bal_elem (⟨"style", []⟩ : Elem)) hb)
  have h2 : writeImage im = [.opening (rootElem im)] ++ ([.elem ⟨"style", []⟩] ++ im.body) ++ [.closing (rootElem im).name] := by simp [writeImage, rootElem]
  unfold importFile
  rw [h2, bal_exits h1]
  simp only [Option.map_some, Option.some.injEq]
  have h3 : importElems t flag rd ([(⟨"style", []⟩ : Elem)] ++ es) = .ok ss := by
    rw [import_append (import_others (by simp [shapeNames])), hi]; rfl
  rw [import_append h3, import_others (by simp [rootElem, shapeNames])]
  simp

theorem exact_int (n : Int) (h : readInt (toString n).toList = some n)
    (h' : '(' ∉ (toString n).toList ∧ ' ' ∉ (toString n).toList ∧ ',' ∉ (toString n).toList ∧ (toString n).toList ≠ []) : Exact intWriter intReader (n : ℝ) := by
  have hf : intWriter.fmt (n : ℝ) = (toString n).toList := by simp [intWriter]
  unfold Exact ReadsAs
  rw [hf]
  refine ⟨h'.2.2.2, h'.2.1, h'.2.2.1, h'.1, ?_, ?_⟩ <;> simp only [intReader, h, Option.map_some]

end H2d.SvgD
