import Verif.Spec.FloatMec
import Verif.Lemmas.FloatMove
import Verif.Props.FloatSign

/-! # C149: moving polylines and rectangles with rounded arithmetic -/

namespace H2d.Props
open H2d H2d.Spec H2d.Fl

variable {F : Arith} {u v : ℝ}

/-- **C149, turns about the origin.** Without any rounding: each point is the exact image. Four quarter turns, two half turns, twice the same mirror, or a turn and the inverse turn give back exactly the same points. -/
theorem C149_turns (F : Arith) (pts : List (ℝ × ℝ)) :
    (∀ r, Fl.moveRun F pts [.rotate r] = pts.map (turned r)) ∧
    Fl.moveRun F pts [.rotate .ccw, .rotate .ccw, .rotate .ccw, .rotate .ccw] = pts ∧ Fl.moveRun F pts [.rotate .cw, .rotate .ccw] = pts ∧
    Fl.moveRun F pts [.rotate .full, .rotate .full] = pts ∧ Fl.moveRun F pts [.rotate .vmirror, .rotate .vmirror] = pts ∧ Fl.moveRun F pts [.rotate .hmirror, .rotate .hmirror] = pts ∧
    Fl.moveRun F pts [.rotate .vmirror, .rotate .hmirror] = Fl.moveRun F pts [.rotate .full] := by
  refine ⟨fun r => List.map_congr_left fun p _ => rotPt_eq r p, ?_, ?_, ?_, ?_, ?_, ?_⟩
  all_goals
    simp only [Fl.moveRun, List.foldl, Fl.moveExec, Fl.moveRes, polyRotate, List.map_map]
    first
    | (conv_rhs => rw [← List.map_id pts])
      refine List.map_congr_left fun p _ => ?_
      simp [rotPt]
    | refine List.map_congr_left fun p _ => ?_
      simp [rotPt]

/-- **C149, histories.** Any list of translations, turns and mirrors about any points, applied to any points: if the exact points on the way have coordinates of size at most `M`, the computed points are the exact ones up to
`((1 + u)^n - 1) M` on each coordinate, where `n` is the number of translations, and twice the number of turns about a point. -/
theorem C149_history (h : FlOk F u v) {M : ℝ} (pts : List (ℝ × ℝ)) (ops : List PolyMove) (hm : ∀ op ∈ ops, ∀ o, op ≠ .moveTo o) (ha : Along (SizeLe M) pts ops) :
    List.Forall₂ (fun p q => |p.1 - q.1| ≤ ((1 + u) ^ roundings ops - 1) * M ∧ |p.2 - q.2| ≤ ((1 + u) ^ roundings ops - 1) * M) (Fl.moveRun F pts ops) (movedBy pts ops) := by
  have h0 : List.Forall₂ (CoordNear (((1 + u) ^ 0 - 1) * M)) pts pts := by
    rw [List.forall₂_same]
    intro p _
    simp [CoordNear]
  have := history_err h ops hm 0 pts pts h0 ha
  rwa [zero_add] at this

/-- A triangle translated by (1/2, 0) then turned about (3,1), in coordinates up to 5; the exact result. -/
example : (∀ op ∈ [PolyMove.translate (1 / 2) 0, .rotateRef .ccw (3, 1)], ∀ o, op ≠ .moveTo o) ∧ Along (SizeLe 5) [(0, 0), (4, 0), (0, 3)] [.translate (1 / 2) 0, .rotateRef .ccw (3, 1)] ∧
    movedBy [(0, 0), (4, 0), (0, 3)] [.translate (1 / 2) 0, .rotateRef .ccw (3, 1)] = [(4, -3 / 2), (4, 5 / 2), (1, -3 / 2)] ∧ roundings [.translate (1 / 2) 0, .rotateRef .ccw (3, 1)] = 3 := by
  refine ⟨by simp, ?_, ?_, rfl⟩
  · simp only [Along, onWay, movedAll, moved, turned, List.map, List.mem_cons, List.not_mem_nil, or_false, forall_eq_or_imp, forall_eq, SizeLe, List.cons_append, List.nil_append, abs_le]
    norm_num
  · simp only [movedBy, List.foldl, movedAll, moved, turned, List.map]
    norm_num

/-- **C149, moveTo.** It throws exactly for an empty polyline. Otherwise each point keeps its place relative to the first one, which is moved to the given point: up to a rounding of the result and slightly more than one
of the displacement. -/
theorem C149_moveTo (h : FlOk F u v) (o : ℝ × ℝ) (b : ℝ × ℝ) (l : List (ℝ × ℝ)) :
    Fl.moveRes F [] (.moveTo o) = .throw ∧
    ∃ l', Fl.moveRes F (b :: l) (.moveTo o) = .ok l' ∧
      List.Forall₂ (fun q' q => |q'.1 - (o.1 + (q.1 - b.1))| ≤ u * |o.1 + (q.1 - b.1)| + u * (1 + u) * |o.1 - b.1| ∧
        |q'.2 - (o.2 + (q.2 - b.2))| ≤ u * |o.2 + (q.2 - b.2)| + u * (1 + u) * |o.2 - b.2|) l' (b :: l) := by
  refine ⟨rfl, _, rfl, ?_⟩
  have : List.Forall₂ (fun q q' : ℝ × ℝ => q = q') (b :: l) (b :: l) := by rw [List.forall₂_same]; exact fun _ _ => rfl
  have h2 := forall2_map (f := fun p => ptTranslate F p (F.rnd (o.1 - b.1)) (F.rnd (o.2 - b.2))) (g := id)
    (S := fun q' q => |q'.1 - (o.1 + (q.1 - b.1))| ≤ u * |o.1 + (q.1 - b.1)| + u * (1 + u) * |o.1 - b.1| ∧ |q'.2 - (o.2 + (q.2 - b.2))| ≤ u * |o.2 + (q.2 - b.2)| + u * (1 + u) * |o.2 - b.2|) this
    (fun p q hpq _ => by subst hpq; exact ⟨moveTo_err h _ _ _, moveTo_err h _ _ _⟩)
  rwa [List.map_id] at h2

/-- **C149, exactness.** If the exact points on the way are representable, all operations, `moveTo` included, are exact. -/
theorem C149_exact (F : Arith) (pts : List (ℝ × ℝ)) (ops : List PolyMove) (ha : Along (fun p => Rep F p.1 ∧ Rep F p.2) pts ops) : Fl.moveRun F pts ops = movedBy pts ops := exact_run ops pts ha

/-- **C149, integers.** With `p` bits: points and centre with integer coordinates of size at most `B`, `3 B ≤ 2^p`. Turns and mirrors about the centre are exact; four quarter turns, or twice a half turn or a mirror, give back
the same points. -/
theorem C149_integers {p : ℕ} (hp : 1 ≤ p) {B : ℤ} (hB : 3 * B ≤ 2 ^ p) (c : ℝ × ℝ) (hc : IntUpTo B c.1 ∧ IntUpTo B c.2) (pts : List (ℝ × ℝ)) (hi : ∀ q ∈ pts, IntUpTo B q.1 ∧ IntUpTo B q.2) :
    (∀ r, Fl.moveRun (binary p) pts [.rotateRef r c] = movedBy pts [.rotateRef r c]) ∧
    Fl.moveRun (binary p) pts [.rotateRef .ccw c, .rotateRef .ccw c, .rotateRef .ccw c, .rotateRef .ccw c] = pts ∧
    Fl.moveRun (binary p) pts [.rotateRef .full c, .rotateRef .full c] = pts ∧ Fl.moveRun (binary p) pts [.rotateRef .vmirror c, .rotateRef .vmirror c] = pts ∧
    Fl.moveRun (binary p) pts [.rotateRef .hmirror c, .rotateRef .hmirror c] = pts ∧ Fl.moveRun (binary p) pts [.rotateRef .cw c, .rotateRef .ccw c] = pts := by
  have neg : ∀ {A : ℤ} {x : ℝ}, IntUpTo A x → IntUpTo A (-x) := by
    rintro A x ⟨m, hm, rfl⟩
    exact ⟨-m, by rwa [abs_neg], by push_cast; rfl⟩
  -- offsets of the points from the centre, kept by the turns
  have gen : ∀ (ops : List PolyMove), (∀ op ∈ ops, ∃ r, op = .rotateRef r c) → ∀ qs : List (ℝ × ℝ), (∀ q ∈ qs, IntUpTo (2 * B) (q.1 - c.1) ∧ IntUpTo (2 * B) (q.2 - c.2)) →
      Along (fun q => Rep (binary p) q.1 ∧ Rep (binary p) q.2) qs ops := by
    have rep1 : ∀ x : ℝ, IntUpTo (2 * B) x → Rep (binary p) x := fun x hx => hx.rnd hp (by have := hc.1.nonneg; linarith)
    have rep2 : ∀ x y : ℝ, IntUpTo B y → IntUpTo (2 * B) x → Rep (binary p) (y + x) := fun x y hy hx => (hy.add hx).rnd hp (by linarith)
    have repP : ∀ (x y : ℝ), IntUpTo B y → IntUpTo (2 * B) (x - y) → Rep (binary p) x := fun x y hy hx => by
      have := rep2 _ _ hy hx
      rwa [add_sub_cancel] at this
    intro ops
    induction ops with
    | nil => intro _ qs hq q hq'; exact ⟨repP _ _ hc.1 (hq q hq').1, repP _ _ hc.2 (hq q hq').2⟩
    | cons op ops ih =>
      intro hops qs hq
      obtain ⟨r, rfl⟩ := hops op (by simp)
      have ht : ∀ q ∈ qs, IntUpTo (2 * B) (turned r (q.1 - c.1, q.2 - c.2)).1 ∧ IntUpTo (2 * B) (turned r (q.1 - c.1, q.2 - c.2)).2 := by
        intro q hq'
        obtain ⟨i1, i2⟩ := hq q hq'
        cases r <;> simp only [turned]
        · exact ⟨neg i2, i1⟩
        · exact ⟨i2, neg i1⟩
        · exact ⟨neg i1, neg i2⟩
        · exact ⟨neg i1, i2⟩
        · exact ⟨i1, neg i2⟩
      refine ⟨fun q hq' => ⟨repP _ _ hc.1 (hq q hq').1, repP _ _ hc.2 (hq q hq').2⟩, fun q hq' => ?_, ih (fun o ho => hops o (by simp [ho])) _ fun q hq' => ?_⟩
      · have e : onWay qs (.rotateRef r c) = (qs.map fun p => (p.1 - c.1, p.2 - c.2)) ++ qs.map (moved (0, 0) (.rotateRef r c)) := by
          rw [← movedAll_map (by simp)]; cases qs <;> rfl
        rw [e, List.mem_append] at hq'
        rcases hq' with hq' | hq'
        · obtain ⟨a, ha, rfl⟩ := List.mem_map.1 hq'
          exact ⟨rep1 _ (hq a ha).1, rep1 _ (hq a ha).2⟩
        · obtain ⟨a, ha, rfl⟩ := List.mem_map.1 hq'
          exact ⟨rep2 _ _ hc.1 (ht a ha).1, rep2 _ _ hc.2 (ht a ha).2⟩
      · rw [movedAll_map (by simp)] at hq'
        obtain ⟨a, ha, rfl⟩ := List.mem_map.1 hq'
        simp only [moved, add_sub_cancel_left]
        exact ht a ha
  have start : ∀ q ∈ pts, IntUpTo (2 * B) (q.1 - c.1) ∧ IntUpTo (2 * B) (q.2 - c.2) := fun q hq => by
    rw [two_mul]; exact ⟨(hi q hq).1.sub hc.1, (hi q hq).2.sub hc.2⟩
  have run : ∀ ops : List PolyMove, (∀ op ∈ ops, ∃ r, op = .rotateRef r c) → Fl.moveRun (binary p) pts ops = movedBy pts ops := fun ops ho => C149_exact _ _ _ (gen ops ho pts start)
  refine ⟨fun r => run _ (by simp), ?_, ?_, ?_, ?_, ?_⟩
  all_goals
    rw [run _ (by simp)]
    simp only [movedBy, List.foldl, movedAll_map (op := .rotateRef _ c) (by simp), List.map_map]
    conv_rhs => rw [← List.map_id pts]
    refine List.map_congr_left fun q _ => ?_
    simp [moved, turned]

/-- `double`, a triangle and a centre with integer coordinates. -/
example : (3 * 100 : ℤ) ≤ 2 ^ 53 ∧ (IntUpTo 100 (7 : ℝ) ∧ IntUpTo 100 (-2 : ℝ)) ∧ ∀ q ∈ [((0 : ℝ), (0 : ℝ)), (40, 0), (0, 30)], IntUpTo 100 q.1 ∧ IntUpTo 100 q.2 := by
  have i : ∀ m : ℤ, |m| ≤ 100 → IntUpTo 100 (m : ℝ) := fun m hm => ⟨m, hm, rfl⟩
  refine ⟨by norm_num, ⟨by exact_mod_cast i 7 (by norm_num), by exact_mod_cast i (-2) (by norm_num)⟩, ?_⟩
  simp only [List.mem_cons, List.not_mem_nil, or_false, forall_eq_or_imp, forall_eq]
  exact ⟨⟨by exact_mod_cast i 0 (by norm_num), by exact_mod_cast i 0 (by norm_num)⟩, ⟨by exact_mod_cast i 40 (by norm_num), by exact_mod_cast i 0 (by norm_num)⟩,
    ⟨by exact_mod_cast i 0 (by norm_num), by exact_mod_cast i 30 (by norm_num)⟩⟩

/-- **C149, rectangles.** Whatever the history of operations and whether they throw, the first point of a rectangle is never after the second one. -/
theorem C149_rect (h : FlOk F u v) (t : Thr ℝ) (ops : List (RectOp ℝ)) : ∀ r : FRect ℝ, r.p1.1 ≤ r.p2.1 ∧ r.p1.2 ≤ r.p2.2 →
    (Fl.rectRun F t r ops).p1.1 ≤ (Fl.rectRun F t r ops).p2.1 ∧ (Fl.rectRun F t r ops).p1.2 ≤ (Fl.rectRun F t r ops).p2.2 := by
  induction ops with
  | nil => exact fun r hr => hr
  | cons op ops ih => exact fun r hr => ih _ (rectExec_ordered h t hr op)

example : (FRect.default : FRect ℝ).p1.1 ≤ (FRect.default : FRect ℝ).p2.1 ∧ (FRect.default : FRect ℝ).p1.2 ≤ (FRect.default : FRect ℝ).p2.2 := by
  simp [FRect.default]

/-- **C149, rectangle from its centre.** With a width and a height that are not negative: an exception may leave the rectangle as it was, but not if both sides exceed the null distance by `4 u (|x| + 2 w)` and `4 u (|y| + 2 h)`.
Otherwise its corners are at the centre minus and plus half the width and half the height, with an error of at most `u (|x| + 9/8 w)` on abscissas and `u (|y| + 9/8 h)` on ordinates. -/
theorem C149_center (h : FlOk F u v) (t : Thr ℝ) (r : FRect ℝ) (p : Pt ℝ) {a b : ℝ} (ha : 0 ≤ a) (hb : 0 ≤ b) :
    ((Fl.rectExec F t r (.setCenter p a b) = r ∧ ¬ (t.nullOrthogDistance + 4 * u * (|p.1| + 2 * a) ≤ a ∧ t.nullOrthogDistance + 4 * u * (|p.2| + 2 * b) ≤ b)) ∨
    ((|(Fl.rectExec F t r (.setCenter p a b)).p1.1 - (p.1 - a / 2)| ≤ u * (|p.1| + 9 / 8 * a) ∧ |(Fl.rectExec F t r (.setCenter p a b)).p1.2 - (p.2 - b / 2)| ≤ u * (|p.2| + 9 / 8 * b)) ∧
     (|(Fl.rectExec F t r (.setCenter p a b)).p2.1 - (p.1 + a / 2)| ≤ u * (|p.1| + 9 / 8 * a) ∧ |(Fl.rectExec F t r (.setCenter p a b)).p2.2 - (p.2 + b / 2)| ≤ u * (|p.2| + 9 / 8 * b)))) := by
  have hx := halfSide_err h p.1 ha
  have hy := halfSide_err h p.2 hb
  by_cases c : ShareCoord F t (F.rnd (p.1 - F.rnd (1 / 2 * a)), F.rnd (p.2 - F.rnd (1 / 2 * b))) (F.rnd (p.1 + F.rnd (1 / 2 * a)), F.rnd (p.2 + F.rnd (1 / 2 * b)))
  · left
    refine ⟨by rw [rectExec_center, Fl.rectOfPts, if_pos c]; rfl, fun hc => ?_⟩
    rcases c with c | c
    · exact absurd c (not_lt.2 (halfSide_far h p.1 ha hc.1))
    · exact absurd c (not_lt.2 (halfSide_far h p.2 hb hc.2))
  · right
    rw [rectExec_center, Fl.rectOfPts, if_neg c]
    simp only [keepIfThrow]
    rw [min_eq_left hx.2.2, min_eq_left hy.2.2, max_eq_right hx.2.2, max_eq_right hy.2.2]
    exact ⟨⟨hx.1, hy.1⟩, hx.2.1, hy.2.1⟩

/-- Centre (2,3), width 4, height 6: the sides exceed the null distance; corners (0,0) and (4,6) without rounding. -/
example : (stdR.nullOrthogDistance + 4 * (1 / 64) * (|(2 : ℝ)| + 2 * 4) ≤ 4 ∧ stdR.nullOrthogDistance + 4 * (1 / 64) * (|(3 : ℝ)| + 2 * 6) ≤ 6) ∧
    Fl.rectExec exactArith stdR ⟨(0, 0), (1, 1)⟩ (.setCenter (2, 3) 4 6) = ⟨(0, 0), (4, 6)⟩ := by
  refine ⟨by norm_num [stdR], ?_⟩
  rw [rectExec_center, Fl.rectOfPts, if_neg]
  · simp only [exactArith, keepIfThrow]; norm_num
  · simp only [exactArith, Fl.ShareCoord]; norm_num [stdR]

/-- **C149, turns about a point are not exact in general.** With `p` bits: a representable point, not the origin, that two half turns about (1,0) bring to the origin; and which a translation by (-1,0) followed by one
by (1,0) brings there too. -/
theorem C149_sharp {p : ℕ} (hp : 6 ≤ p) : ∃ x : ℝ, x ≠ 0 ∧ Rep (binary p) x ∧ Fl.moveRun (binary p) [(x, 0)] [.rotateRef .full (1, 0), .rotateRef .full (1, 0)] = [(0, 0)] ∧
    movedBy [(x, 0)] [.rotateRef .full (1, 0), .rotateRef .full (1, 0)] = [(x, 0)] ∧ Fl.moveRun (binary p) [(x, 0)] [.translate (-1) 0, .translate 1 0] = [(0, 0)] := by
  have h := binary_ok hp
  have r1 : (binary p).rnd 1 = 1 := by
    have : IntUpTo 1 (1 : ℝ) := ⟨1, by norm_num, by norm_num⟩
    exact this.rnd (by omega) (one_le_pow₀ (by norm_num))
  have r2 : (binary p).rnd 2 = 2 := by have := rnd_two h 1; rwa [mul_one, r1, mul_one] at this
  have hx : (0 : ℝ) < 2 ^ (-((p + 3 : ℕ) : ℤ)) := by positivity
  set x : ℝ := 2 ^ (-((p + 3 : ℕ) : ℤ)) with hxd
  have hxp : x * 2 ^ p = 1 / 8 := by
    rw [hxd, zpow_neg, zpow_natCast, pow_add]; field_simp; norm_num
  have hone : (binary p).rnd (1 - x) = 1 := by
    have := roundTo_of (p := p) (by omega) (x := 1 - x) (m := 2 ^ p) (k := -(p : ℤ)) ?_ ?_ ?_
    · change roundTo p (1 - x) = 1
      rw [this, zpow_neg, zpow_natCast]; push_cast; exact mul_inv_cancel₀ (by positivity)
    · rw [show ((p : ℤ) - 1 + -(p : ℤ)) = -1 by ring]
      have h64 : (64 : ℝ) ≤ 2 ^ p := by
        calc (64 : ℝ) = 2 ^ 6 := by norm_num
          _ ≤ 2 ^ p := pow_le_pow_right₀ (by norm_num) hp
      norm_num
      nlinarith
    · rw [add_neg_cancel, zpow_zero]; linarith
    · rw [neg_neg, zpow_natCast]; push_cast
      rw [show (1 - x) * 2 ^ p - 2 ^ p = -(x * 2 ^ p) by ring, hxp]; norm_num
  have hm : (binary p).rnd (x + -1) = -1 := by rw [show x + -1 = -(1 - x) by ring, h.odd, hone]
  have rx : Rep (binary p) x := by
    have := roundTo_exact (p := p) (by omega) (m := 1) (k := -((p + 3 : ℕ) : ℤ)) (by rw [abs_one]; exact one_le_pow₀ (by norm_num))
    rw [Int.cast_one, one_mul] at this
    exact this
  have rz := rnd_zero h
  refine ⟨x, hx.ne', rx, ?_, ?_, ?_⟩
  · simp only [Fl.moveRun, List.foldl, Fl.moveExec, Fl.moveRes, Fl.polyTranslate, polyRotate, List.map, Fl.ptTranslate, rotPt, hm, neg_neg, neg_zero, add_zero, rz]
    norm_num [r1, r2, rz]
  · simp [movedBy, movedAll, moved, turned]
  · simp only [Fl.moveRun, List.foldl, Fl.moveExec, Fl.moveRes, Fl.polyTranslate, List.map, Fl.ptTranslate, hm, add_zero, rz]
    norm_num [rz]

end H2d.Props
