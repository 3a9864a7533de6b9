import Verif.Lemmas.RasterCalls
import Mathlib.Tactic.NormNum

/-!
# C156: drawing on an OpenCV image
-/

set_option linter.unusedSectionVars false

namespace H2d.Props

open H2d H2d.Spec H2d.Raster

/-- **C156, end of the drawing.** The drawing functions of points, circles and segments call each other. Whatever the object and the drawing parameters, at most five calls
are pending at the same time: more room does not change anything, and no drawing stops by lack of it. -/
theorem C156_ends (x : Ctx) (dp : Draw.Vals) (i : Svg.Item) (h : Drawable x dp i) (n : Nat) (hn : 5 ≤ n) :
    drawItem x n dp i = drawItem x 5 dp i ∧ (drawItem x n dp i).1 ≠ .ub := by
  obtain ⟨k, rfl⟩ := Nat.exists_eq_add_of_le' hn
  rw [drawItem_ends]
  exact ⟨rfl, drawItem_ne_ub x dp i h⟩

/-- **C156, segment.** The first call draws the segment between the pixels that are the nearest to its ends; without showing the points it is the only one. -/
theorem C156_segment (x : Ctx) (hr : RoundsHalf x.cvRound) (dp : Draw.Vals) (s : Seg) :
    ∃ c rest, (drawItem x 5 dp (.seg s)).2 = c :: rest ∧ ShowsSeg (askedLook dp) s c ∧
      (dp.showPoints = false → rest = [] ∧ (drawItem x 5 dp (.seg s)).1 = .ok ()) := by
  simp only [lookOf_eq]
  simp only [drawItem]
  rw [run_seg]
  refine ⟨segCall x dp s, _, rfl, shows_segCall x hr dp s, fun hp => ?_⟩
  simp only [hp, segAll]
  exact ⟨rfl, rfl⟩

/-- **C156, polyline.** When nothing throws, each side is drawn, in the order of the polyline, the last one back to the first point if it is closed; and nothing else when neither
points, indexes nor angles are shown. -/
theorem C156_polyline (x : Ctx) (hr : RoundsHalf x.cvRound) (dp : Draw.Vals) (closed : Bool) (pts : List (Pt ℝ)) (h2 : 2 ≤ pts.length)
    (h : (drawItem x 5 dp (.poly closed pts)).1 = .ok ()) :
    ∃ cs, cs.Sublist (drawItem x 5 dp (.poly closed pts)).2 ∧ List.Forall₂ (ShowsSeg (askedLook dp)) (segPairs closed pts) cs ∧
      (dp.showPoints = false → dp.showIndex = false → dp.showAngles = false → (drawItem x 5 dp (.poly closed pts)).2 = cs) := by
  simp only [lookOf_eq]
  simp only [drawItem] at h ⊢
  match pts, h2 with
  | a :: b :: l, _ =>
    simp only [drawPoly] at h ⊢
    simp only [run_seg x 0] at h ⊢
    generalize segPairs closed (a :: b :: l) = sides at *
    have hs := inOrder_sides x hr dp sides
    generalize inOrder (sides.map (fun q => compute (segMake x.t false q.1 q.2) (fun s => segAll x dp s))) = d at *
    obtain ⟨r, ld⟩ := d
    cases r with
    | throw => cases h
    | ub => cases h
    | ok _ =>
      obtain ⟨cs, h1, h2, h3⟩ := hs rfl
      refine ⟨cs, List.Sublist.trans h1 (List.sublist_append_left _ _), h2, fun e1 e2 e3 => ?_⟩
      have := h3 e1
      simp only [e1, e2, e3, Bool.false_eq_true, if_false]
      change ld ++ _ = cs
      simp only at this
      rw [this]
      exact List.append_nil cs

/-- **C156, no exception.** A polyline without two consecutive points that are equal is drawn without an exception when its points are not shown. -/
theorem C156_polyline_ok (x : Ctx) (dp : Draw.Vals) (closed : Bool) (pts : List (Pt ℝ)) (hp : dp.showPoints = false) (hi : dp.showIndex = false)
    (h : ∀ q ∈ segPairs closed pts, ¬ PtEq x.t q.1 q.2) : (drawItem x 5 dp (.poly closed pts)).1 = .ok () := by
  simp only [drawItem]
  match pts with
  | [] => rfl
  | [_] => rfl
  | a :: b :: l =>
    have hall : ∀ sides : List (Pt ℝ × Pt ℝ), (∀ q ∈ sides, ¬ PtEq x.t q.1 q.2) →
        (inOrder (sides.map (fun q => compute (segMake x.t false q.1 q.2) (fun s => run x 5 dp (.seg s))))).1 = .ok () := by
      intro sides
      induction sides with
      | nil => intro _; rfl
      | cons q sides ih =>
        intro hq
        rw [List.map_cons, inOrder]
        have : segMake x.t false q.1 q.2 = .ok (fixOrder q.1 q.2) := by
          unfold segMake; rw [if_neg (hq q (by simp))]; rfl
        rw [this]
        simp only [compute]
        rw [run_seg_bare x 4 dp hp]
        exact ih (fun q' h' => hq q' (by simp [h']))
    have hd := hall _ h
    simp only [drawPoly, hp, hi, Bool.false_eq_true, if_false]
    generalize inOrder ((segPairs closed (a :: b :: l)).map (fun q => compute (segMake x.t false q.1 q.2) (fun s => run x 5 dp (.seg s)))) = d at *
    obtain ⟨r, ld⟩ := d
    simp only at hd
    subst hd
    by_cases ha : dp.showAngles = true
    · simp only [ha, if_true]
      have : getOSegs (fun p q => (open Classical in decide (PtEq x.t p q))) closed (a :: b :: l) = .ok (segPairs closed (a :: b :: l)) := by
        unfold getOSegs
        rw [if_neg]
        rw [Bool.not_eq_true, List.any_eq_false]
        intro q hq
        simpa using h q hq
      rw [this]; rfl
    · simp only [ha, if_false]; rfl

/-- **C156, circle and rectangle.** The center, the radius and the corners lose their decimals: at less than one pixel of the exact ones. -/
theorem C156_circle_rect (x : Ctx) (dp : Draw.Vals) (c : Circle) (r : FRect ℝ) (hc : Drawable x dp (.circle c)) (hr : Drawable x dp (.rect r)) :
    (∃ q n rest, (drawItem x 5 dp (.circle c)).2 = .circle q n (askedLook dp) :: rest ∧ TruncPix q c.center ∧ |(n : ℝ) - c.radius| < 1 ∧
      (dp.showPoints = false → rest = [])) ∧
    (∃ a b rest, (drawItem x 5 dp (.rect r)).2 = .rectangle a b (askedLook dp) :: rest ∧ TruncPix a r.p1 ∧ TruncPix b r.p2 ∧ (dp.showPoints = false → rest = [])) := by
  simp only [lookOf_eq]
  constructor
  · obtain ⟨-, h1, h2, h3⟩ := hc
    obtain ⟨q, hq⟩ := cvPti_sized h1 h2
    obtain ⟨n, hn⟩ := toInt_sized h3
    simp only [drawItem]
    rw [run_circle, circAll, hq, hn]
    refine ⟨q, n, _, rfl, trunc_cvPti hq, (toInt_ok hn).2.1, fun hp => ?_⟩
    rw [hp]; rfl
  · obtain ⟨-, h1, h2, h3, h4⟩ := hr
    obtain ⟨a, ha⟩ := cvPti_sized h1 h2
    obtain ⟨b, hb⟩ := cvPti_sized h3 h4
    simp only [drawItem, drawRect]
    rw [ha, hb]
    refine ⟨a, b, _, rfl, trunc_cvPti ha, trunc_cvPti hb, fun hp => ?_⟩
    rw [hp]; rfl

/-- **C156, point.** A point that is not in the image is not drawn; the mark of a point in the image is not empty (unless an exception occurs), and it does not
go farther from it than the size asked for, whatever the style. -/
theorem C156_point (x : Ctx) (hr : RoundsHalf x.cvRound) (dp : Draw.Vals) (p : Pt ℝ) :
    (¬ InPixels x p → drawItem x 5 dp (.point p) = (.ok (), [])) ∧
    (InPixels x p → (drawItem x 5 dp (.point p)).1 = .ok () → (drawItem x 5 dp (.point p)).2 ≠ []) ∧
    ∀ c ∈ (drawItem x 5 dp (.point p)).2, MarkAround dp p c := by
  simp only [drawItem]
  rw [run_point x 1]
  refine ⟨fun h => ?_, pt_drawn x dp p, pt_around hr dp p⟩
  unfold ptAll
  rw [pointMark_out.1 h]; rfl

/-- **C156, line.** A line is drawn by one call, for the segment that is its part in the image, or by none; the points are not shown even if asked for. -/
theorem C156_line (x : Ctx) (hr : RoundsHalf x.cvRound) (dp : Draw.Vals) (l : V3 ℝ) :
    (lineDrawn x.t x.cols x.rows l = .ok none → drawItem x 5 dp (.line l) = (.ok (), [])) ∧
    (∀ s, lineDrawn x.t x.cols x.rows l = .ok (some s) → ∃ c, drawItem x 5 dp (.line l) = (.ok (), [c]) ∧ ShowsSeg (askedLook dp) s c) := by
  simp only [lookOf_eq]
  constructor
  · intro h; simp only [drawItem, h]; rfl
  · intro s h
    simp only [drawItem, h]
    exact ⟨segCall x dp s, run_seg_bare x 4 _ rfl s, shows_segCall x hr dp s⟩

/-- **C156, line in a SVG file.** The same for the other kind of image: one element `line`, or none, whatever the drawing parameters. -/
theorem C156_svg_line (t : Thr ℝ) (flag : Bool) (w : Svg.Writer) (cols rows : Nat) (dflt dp : Draw.Vals) (l : V3 ℝ) :
    (lineDrawn t cols rows l = .ok none → Svg.drawItem t flag w cols rows dflt dp (.line l) = (.ok (), [])) ∧
    (∀ s, lineDrawn t cols rows l = .ok (some s) → ∃ rest, Svg.drawItem t flag w cols rows dflt dp (.line l) =
      (.ok (), [.elem ⟨"line", [("x1", w.fmt s.1.1), ("y1", w.fmt s.1.2), ("x2", w.fmt s.2.1), ("y2", w.fmt s.2.2)] ++ rest⟩])) := by
  constructor
  · intro h; simp only [Svg.drawItem, h]; rfl
  · intro s h
    simp only [Svg.drawItem, h]
    exact ⟨Svg.strokeAttrs dp ++ w.extra dp.attr, rfl⟩

/-- **C156, look.** All that is drawn has the color, the thickness and the line type that were asked for, except the texts and the mark of the first point of a polyline, which
is dark. -/
theorem C156_look (x : Ctx) (dp : Draw.Vals) (i : Svg.Item) : ∀ c ∈ (drawItem x 5 dp i).2, ∀ k, callLook c = some k →
    k = askedLook dp ∨ ((∃ closed pts, i = .poly closed pts) ∧ dp.showPoints = true ∧ k = { askedLook dp with color := (10, 10, 10) }) := by
  simp only [lookOf_eq]
  have lift : ∀ {d : Drawn} {P : Look → Prop}, LookAll P d → (∀ k, P k → k = lookOf dp ∨
      ((∃ closed pts, i = .poly closed pts) ∧ dp.showPoints = true ∧ k = { lookOf dp with color := (10, 10, 10) })) → LookAll (fun k => k = lookOf dp ∨
      ((∃ closed pts, i = .poly closed pts) ∧ dp.showPoints = true ∧ k = { lookOf dp with color := (10, 10, 10) })) d :=
    fun h hp c hc k hk => hp k (h c hc k hk)
  have one : ∀ c : Prim, callLook c = some (lookOf dp) → LookAll (· = lookOf dp) (put [c]) := by
    intro c hc c' hc' k hk
    rw [List.mem_singleton.1 hc', hc] at hk
    exact (Option.some.inj hk).symm
  have hp : ∀ p, LookAll (· = lookOf dp) (run x 5 dp (.point p)) := fun p => by rw [run_point]; exact look_pt x dp p
  have hs : ∀ s, LookAll (· = lookOf dp) (run x 5 dp (.seg s)) := fun p => by rw [run_seg]; exact look_seg x dp p
  cases i with
  | point p => exact lift (hp p) (fun k h => .inl h)
  | line l =>
    refine lift (P := (· = lookOf dp)) ?_ (fun k h => .inl h)
    refine look_compute (fun s _ => ?_)
    cases s with
    | none => exact look_nil
    | some s =>
      have : LookAll (· = lookOf dp) (put [segCall x dp s]) := one _ rfl
      intro c hc
      exact this c ((run_seg_bare x 4 { dp with showPoints := false } rfl s) ▸ hc)
  | circle c =>
    refine lift (P := (· = lookOf dp)) ?_ (fun k h => .inl h)
    simp only [drawItem]
    rw [run_circle]; exact look_circ x dp c
  | rect r =>
    refine lift (P := (· = lookOf dp)) ?_ (fun k h => .inl h)
    refine look_compute (fun _ _ => look_compute (fun _ _ => look_then (one _ rfl) ?_))
    split_ifs
    · exact look_then (hp _) (hp _)
    · exact look_nil
  | seg s => exact lift (hs s) (fun k h => .inl h)
  | oseg s =>
    refine lift (P := (· = lookOf dp)) ?_ (fun k h => .inl h)
    refine look_then (one _ rfl) (look_compute (fun a _ => ?_))
    intro c hc k hk
    simp only [put, List.mem_cons, List.not_mem_nil, or_false] at hc
    rcases hc with rfl | rfl | rfl <;> exact (Option.some.inj hk).symm
  | poly closed pts =>
    simp only [drawItem]
    match pts with
    | [] => intro c hc; cases hc
    | [_] => intro c hc; cases hc
    | a :: b :: l =>
      refine look_then (lift (P := (· = lookOf dp)) ?_ (fun k h => .inl h)) (look_then ?_ (look_then ?_ ?_))
      · refine look_order (fun d hd => ?_)
        obtain ⟨q, -, rfl⟩ := List.mem_map.1 hd
        exact look_compute (fun s _ => hs s)
      · split_ifs with hsp
        · rw [run_point]
          exact lift (look_pt x { dp with color := (10, 10, 10), style := Draw.nextPointStyle dp.style } a) (fun k h => .inr ⟨⟨_, _, rfl⟩, hsp, h⟩)
        · exact look_nil
      · split_ifs
        · refine look_order (fun d hd => ?_)
          obtain ⟨q, -, rfl⟩ := List.mem_map.1 hd
          refine look_compute (fun _ _ c hc k hk => ?_)
          rw [List.mem_singleton.1 hc] at hk; cases hk
        · exact look_nil
      · by_cases ha : dp.showAngles = true
        · rw [if_pos ha]
          refine look_compute (fun _ _ c hc k hk => ?_)
          obtain ⟨q, -, rfl⟩ := List.mem_map.1 hc
          cases hk
        · rw [if_neg ha]; exact look_nil
  | ell e =>
    refine lift (P := (· = lookOf dp)) ?_ (fun k h => .inl h)
    exact look_compute (fun _ _ => look_compute (fun _ _ => look_compute (fun _ _ => one _ rfl)))

/-- **C156, texts of a polyline.** When nothing throws, the texts are the indexes, one at each point in order (decimals dropped), if they are asked for, then the angles, one at each corner in
order (nearest pixel), if they are asked for. -/
theorem C156_texts (x : Ctx) (hr : RoundsHalf x.cvRound) (dp : Draw.Vals) (closed : Bool) (pts : List (Pt ℝ)) (h2 : 2 ≤ pts.length)
    (h : (drawItem x 5 dp (.poly closed pts)).1 = .ok ()) :
    ∃ a b, textsAt (drawItem x 5 dp (.poly closed pts)).2 = a ++ b ∧
      (if dp.showIndex then List.Forall₂ (fun p q => TruncPix q p) pts a else a = []) ∧
      (if dp.showAngles then List.Forall₂ (fun p q => NearPix q p) (corners closed pts) b else b = []) := by
  simp only [drawItem] at h ⊢
  match pts, h2 with
  | p0 :: p1 :: l, h2 =>
    simp only [drawPoly] at h ⊢
    obtain ⟨k1, k2, k3⟩ := andThen_ok h
    obtain ⟨m1, m2, m3⟩ := andThen_ok k2
    obtain ⟨n1, n2, n3⟩ := andThen_ok m2
    have e1 : NoText (inOrder ((segPairs closed (p0 :: p1 :: l)).map (fun q => compute (segMake x.t false q.1 q.2) (fun s => run x 5 dp (.seg s))))) := by
      refine noText_order (fun d hd => ?_)
      obtain ⟨q, -, rfl⟩ := List.mem_map.1 hd
      exact noText_compute (fun s => by rw [run_seg]; exact noText_seg x dp s)
    have e2 : NoText (if dp.showPoints then run x 5 { dp with color := (10, 10, 10), style := Draw.nextPointStyle dp.style } (.point p0) else put []) := by
      split_ifs
      · rw [run_point]; exact noText_pt x _ _
      · rfl
    rw [k3, m3, n3, textsAt_append, textsAt_append, textsAt_append]
    rw [show textsAt _ = [] from e1, show textsAt _ = [] from e2, List.nil_append, List.nil_append]
    refine ⟨_, _, rfl, ?_, ?_⟩
    · by_cases hi : dp.showIndex = true
      · simp only [hi, if_true] at n1 ⊢
        exact index_texts _ n1
      · simp only [hi, if_false]; rfl
    · by_cases ha : dp.showAngles = true
      · simp only [ha, if_true] at n2 ⊢
        cases hg : getOSegs (fun p q => (open Classical in decide (PtEq x.t p q))) closed (p0 :: p1 :: l) with
        | throw => rw [hg] at n2; cases n2
        | ub => rw [hg] at n2; cases n2
        | ok osegs =>
          have : osegs = segPairs closed (p0 :: p1 :: l) := by
            unfold getOSegs at hg
            split_ifs at hg
            exact (Res.ok.inj hg).symm
          subst this
          simp only [compute, put]
          have hc : (segPairs closed (p0 :: p1 :: l)).tail.map (·.1) ++ (if closed then [p0] else []) = corners closed (p0 :: p1 :: l) := by
            rw [SvgD.tail_starts h2]
            cases closed <;> simp [corners]
          rw [hc]
          exact texts_at _ hr _
      · simp only [ha, if_false]; rfl

/-- **C156, oriented segment and ellipse.** An oriented segment is drawn with its three arrow segments, an ellipse by one call, with the decimals of its center and axes dropped and its angle in degrees. -/
theorem C156_arrow_ellipse (x : Ctx) (hr : RoundsHalf x.cvRound) (dp : Draw.Vals) (s : Seg) (e : Ell) :
    (∀ a, arrowSegs x.t s = .ok a → ∃ cs, drawItem x 5 dp (.oseg s) = (.ok (), cs) ∧ List.Forall₂ (ShowsSeg (askedLook dp)) [s, a.1, a.2.1, a.2.2] cs) ∧
    (∀ par, Drawable x dp (.ell e) → Ell.params x.t e.m = .ok par → ∃ c sz deg, drawItem x 5 dp (.ell e) = (.ok (), [.ellipse c sz deg (askedLook dp)]) ∧
      TruncPix c (par.x0, par.y0) ∧ TruncPix sz (par.a, par.b) ∧ deg * Real.pi = par.theta * 180) := by
  simp only [lookOf_eq]
  constructor
  · intro a ha
    have hs : ∀ q : Pt ℝ × Pt ℝ, ShowsSeg (lookOf dp) q (segCall x dp q) := shows_segCall x hr dp
    refine ⟨[segCall x dp s, segCall x dp a.1, segCall x dp a.2.1, segCall x dp a.2.2], ?_, ?_⟩
    · simp only [drawItem, drawOSeg, ha]; rfl
    · exact .cons (hs _) (.cons (hs _) (.cons (hs _) (.cons (hs _) .nil)))
  · intro par hd hp
    obtain ⟨h1, h2, h3, h4⟩ := hd.2 par hp
    obtain ⟨c, hc⟩ := cvPti_sized (p := (par.x0, par.y0)) h1 h2
    obtain ⟨sz, hz⟩ := cvPti_sized (p := (par.a, par.b)) h3 h4
    refine ⟨c, sz, par.theta * 180 / Real.pi, ?_, trunc_cvPti hc, trunc_cvPti hz, div_mul_cancel₀ _ Real.pi_ne_zero⟩
    simp only [drawItem, drawEllipse, hp, compute, hc, hz]; rfl

/-- **C156, sharpness.** The same point is not at the same pixel in all drawings: the corner (0.75, 0.75) of a rectangle is drawn at (0, 0), and the end of a segment at
the same place is drawn at (1, 1). -/
theorem C156_sharp (x : Ctx) (hr : RoundsHalf x.cvRound) :
    (∃ b, (drawItem x 5 Draw.factory (.rect ⟨(3 / 4, 3 / 4), (5, 5)⟩)).2 = [.rectangle (0, 0) b (askedLook Draw.factory)]) ∧
    (∃ b, (drawItem x 5 Draw.factory (.seg ((3 / 4, 3 / 4), (5, 5)))).2 = [.line (1, 1) b (askedLook Draw.factory)]) := by
  simp only [lookOf_eq]
  constructor
  · have h1 : toInt (3 / 4) = .ok 0 := by
      unfold toInt
      rw [if_pos (by norm_num), show ⌊(3 / 4 : ℝ)⌋ = 0 by rw [Int.floor_eq_iff]; norm_num]
      norm_num
    have h2 : toInt 5 = .ok 5 := by
      unfold toInt
      rw [if_pos (by norm_num), show ⌊(5 : ℝ)⌋ = 5 by rw [Int.floor_eq_iff]; norm_num]
      norm_num
    simp only [drawItem, drawRect, cvPti, h1, h2]
    exact ⟨(5, 5), rfl⟩
  · have h : x.cvRound (3 / 4) = 1 := by
      have := abs_le.1 (hr (3 / 4))
      have a1 : (0 : ℝ) < x.cvRound (3 / 4) := by linarith [this.1]
      have a2 : (x.cvRound (3 / 4) : ℝ) < 2 := by linarith [this.2]
      have b1 : 0 < x.cvRound (3 / 4) := by exact_mod_cast a1
      have b2 : x.cvRound (3 / 4) < 2 := by exact_mod_cast a2
      omega
    simp only [drawItem]
    rw [run_seg_bare x 4 _ rfl]
    exact ⟨cvPtd x.cvRound (5, 5), by simp [put, segCall, cvPtd, h]⟩

/-- An image of 300 x 200 pixels, with the default thresholds. -/
example : ∃ x : Ctx, RoundsHalf x.cvRound ∧ Drawable x { Draw.factory with showPoints := true, style := 5 } (.circle ⟨(10, 20), 5⟩) ∧
    Drawable x Draw.factory (.rect ⟨(1, 2), (30, 40)⟩) ∧ InPixels x (10, 20) ∧
    (∀ q ∈ segPairs true ([(0, 0), (10, 0), (0, 10)] : List (Pt ℝ)), ¬ PtEq x.t q.1 q.2) ∧
    (drawItem x 5 { Draw.factory with showAngles := true } (.poly true [(0, 0), (10, 0), (0, 10)])).1 = .ok () := by
  have hx : ∀ q ∈ segPairs true ([(0, 0), (10, 0), (0, 10)] : List (Pt ℝ)), ¬ PtEq stdR q.1 q.2 := by
    intro q hq
    simp [segPairs, cycPairs] at hq
    have far : ∀ p q : Pt ℝ, 1 ≤ (p.1 - q.1) ^ 2 + (p.2 - q.2) ^ 2 → ¬ PtEq stdR p q := by
      intro p q h
      unfold PtEq ptDist
      rw [not_lt]
      refine le_trans (by simp only [stdR]; norm_num) (Real.le_sqrt_of_sq_le (x := 1) (by nlinarith))
    rcases hq with rfl | rfl | rfl <;> exact far _ _ (by norm_num)
  refine ⟨⟨stdR, true, fun v => round v, 300, 200⟩, fun v => by rw [abs_sub_comm]; exact abs_sub_round v, ?_, ?_, ?_, hx, ?_⟩
  · refine ⟨⟨by decide, ?_, by norm_num, by norm_num⟩, ?_⟩ <;> simp [IntSized, Draw.factory] <;> norm_num
  · refine ⟨⟨by decide, ?_, by norm_num, by norm_num⟩, ?_⟩ <;> simp [IntSized, Draw.factory] <;> norm_num
  · simp [InPixels]
    norm_num
  · exact C156_polyline_ok _ _ _ _ rfl rfl hx

end H2d.Props
