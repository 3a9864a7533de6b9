import Verif.Spec.Move
import Verif.Lemmas.Segment

/-! # Lemmas on moving a scene -/

namespace H2d.Move
open H2d H2d.Spec

theorem after_bind {α β γ : Type} (f : β → γ) (x : Res α) (k : α → Res β) : after f (x >>= k) = x >>= fun a => after f (k a) := by cases x <;> rfl

theorem bind_after {α β γ : Type} (f : α → β) (x : Res α) (k : β → Res γ) : (after f x >>= k) = x >>= fun a => k (f a) := by cases x <;> rfl

theorem after_ok {α β : Type} (f : α → β) (a : α) : after f (.ok a) = .ok (f a) := rfl

theorem after_throw {α β : Type} (f : α → β) : after f (.throw : Res α) = .throw := rfl

theorem after_ite {α β : Type} (f : α → β) (c : Prop) [Decidable c] (x y : Res α) : after f (if c then x else y) = if c then after f x else after f y := by split_ifs <;> rfl

theorem bind_same {α β : Type} {x : Res α} {k k' : α → Res β} (h : ∀ a, x = .ok a → k a = k' a) : (x >>= k) = x >>= k' := by
  cases x with
  | ok a => exact h a rfl
  | throw => rfl
  | ub => rfl

variable (d : Pt ℝ)

theorem mvL_0 (l : V3 ℝ) : mvL d l 0 = l 0 := rfl
theorem mvL_1 (l : V3 ℝ) : mvL d l 1 = l 1 := rfl
theorem mvL_2 (l : V3 ℝ) : mvL d l 2 = l 2 - l 0 * d.1 - l 1 * d.2 := rfl
theorem mvP_1 (p : Pt ℝ) : (mvP d p).1 = p.1 + d.1 := rfl
theorem mvP_2 (p : Pt ℝ) : (mvP d p).2 = p.2 + d.2 := rfl
theorem mvS_1 (s : Seg) : (mvS d s).1 = mvP d s.1 := rfl
theorem mvS_2 (s : Seg) : (mvS d s).2 = mvP d s.2 := rfl

theorem ptDist_mv (p q : Pt ℝ) : ptDist (mvP d p) (mvP d q) = ptDist p q := by
  simp only [ptDist, mvP, add_sub_add_right_eq_sub]

theorem sqDist_mv (p q : Pt ℝ) : sqDist (mvP d p) (mvP d q) = sqDist p q := by
  simp only [sqDist, mvP, add_sub_add_right_eq_sub]

theorem ptLt_mv (p q : Pt ℝ) : ptLt (mvP d p) (mvP d q) = ptLt p q := by
  simp only [ptLt, mvP, add_lt_add_iff_right, gt_iff_lt]

theorem fixOrder_mv (p q : Pt ℝ) : fixOrder (mvP d p) (mvP d q) = mvS d (fixOrder p q) := by
  unfold fixOrder; rw [ptLt_mv]; split_ifs <;> rfl

theorem segMake_mv (t : Thr ℝ) (o : Bool) (p q : Pt ℝ) : segMake t o (mvP d p) (mvP d q) = after (mvS d) (segMake t o p q) := by
  unfold segMake
  simp only [PtEq, ptDist_mv, fixOrder_mv]
  split_ifs <;> rfl

theorem angle_mv (l m : V3 ℝ) : lineAngle (mvL d l) (mvL d m) = lineAngle l m := rfl

/-- Condition under which the normalised line follows. -/
def VOk (t : Thr ℝ) (v : V3 ℝ) : Prop := d.1 = 0 ∨ v 0 = 0 ∨ t.nullDenom * Real.sqrt (v 0 * v 0 + v 1 * v 1) ≤ |v 0|

/-- Steps of the normalisation. -/
noncomputable def flipAll (w : V3 ℝ) : V3 ℝ := if w 0 < 0 then fun i => - w i else w

/-- Last step of the normalisation. -/
noncomputable def flipLast (t : Thr ℝ) (w : V3 ℝ) : V3 ℝ := if |w 0| < t.nullDenom then (if w 1 < 0 then ![w 0, - w 1, - w 2] else w) else w

theorem norm_steps (t : Thr ℝ) (v : V3 ℝ) : normalizeLine t v =
    if Real.sqrt (v 0 * v 0 + v 1 * v 1) ≤ dblEps then .throw else .ok (flipLast t (flipAll (fun i => v i / Real.sqrt (v 0 * v 0 + v 1 * v 1)))) := rfl

theorem mvL_ext {v w : V3 ℝ} (h0 : v 0 = w 0) (h1 : v 1 = w 1) (h2 : v 2 = w 2 - w 0 * d.1 - w 1 * d.2) : v = mvL d w := by
  funext i; fin_cases i
  · exact h0
  · exact h1
  · exact h2

theorem flipAll_mv (w : V3 ℝ) : flipAll (mvL d w) = mvL d (flipAll w) := by
  by_cases h : w 0 < 0
  · have h' : mvL d w 0 < 0 := h
    rw [flipAll, flipAll, if_pos h, if_pos h']
    exact mvL_ext d rfl rfl (by rw [mvL_2]; ring)
  · have h' : ¬ mvL d w 0 < 0 := h
    rw [flipAll, flipAll, if_neg h, if_neg h']

theorem flipLast_mv {t : Thr ℝ} {w : V3 ℝ} (h : w 0 * d.1 = 0 ∨ ¬ |w 0| < t.nullDenom) : flipLast t (mvL d w) = mvL d (flipLast t w) := by
  by_cases h0 : |w 0| < t.nullDenom
  · have h0' : |mvL d w 0| < t.nullDenom := h0
    have hz := h.resolve_right (not_not.2 h0)
    rw [flipLast, flipLast, if_pos h0, if_pos h0']
    by_cases h1 : w 1 < 0
    · have h1' : mvL d w 1 < 0 := h1
      rw [if_pos h1, if_pos h1']
      refine mvL_ext d rfl rfl ?_
      change -(mvL d w 2) = -w 2 - w 0 * d.1 - -w 1 * d.2
      rw [mvL_2]; linarith
    · have h1' : ¬ mvL d w 1 < 0 := h1
      rw [if_neg h1, if_neg h1']
  · have h0' : ¬ |mvL d w 0| < t.nullDenom := h0
    rw [flipLast, flipLast, if_neg h0, if_neg h0']

theorem norm_mv {t : Thr ℝ} {v : V3 ℝ} (h : VOk d t v) : normalizeLine t (mvL d v) = after (mvL d) (normalizeLine t v) := by
  rw [norm_steps, norm_steps, after_ite]
  by_cases hs : Real.sqrt (v 0 * v 0 + v 1 * v 1) ≤ dblEps
  · rw [if_pos hs]; exact if_pos hs
  · rw [if_neg hs]
    refine (if_neg hs).trans ?_
    rw [after_ok]
    have hpos := lt_trans dblEps_pos (not_le.1 hs)
    congr 1
    change flipLast t (flipAll (fun i => mvL d v i / Real.sqrt (v 0 * v 0 + v 1 * v 1))) = _
    rw [show (fun i => mvL d v i / Real.sqrt (v 0 * v 0 + v 1 * v 1)) = mvL d (fun i => v i / Real.sqrt (v 0 * v 0 + v 1 * v 1)) from
      mvL_ext d rfl rfl (by rw [mvL_2]; ring), flipAll_mv, flipLast_mv]
    have e : |flipAll (fun i => v i / Real.sqrt (v 0 * v 0 + v 1 * v 1)) 0| = |v 0| / Real.sqrt (v 0 * v 0 + v 1 * v 1) := by
      unfold flipAll
      split_ifs
      · rw [abs_neg, abs_div, abs_of_pos hpos]
      · rw [abs_div, abs_of_pos hpos]
    rcases h with h | h | h
    · left; rw [h, mul_zero]
    · left
      rw [h, abs_zero, zero_div, abs_eq_zero] at e
      rw [h, e, zero_mul]
    · right
      rw [e, div_lt_iff₀ hpos]; linarith

theorem getXY_mk (p : Pt ℝ) : getXY (mkPt p.1 p.2) = p := by simp [getXY, mkPt]

theorem cross_pts (p q : Pt ℝ) : crossProd (mkPt (mvP d p).1 (mvP d p).2) (mkPt (mvP d q).1 (mvP d q).2) = mvL d (crossProd (mkPt p.1 p.2) (mkPt q.1 q.2)) := by
  funext i; fin_cases i <;> simp [crossProd, mkPt, mvL, mvP]
  ring

theorem vok_pts {t : Thr ℝ} {p q : Pt ℝ} (h : MoveOk t d p q) : VOk d t (crossProd (mkPt p.1 p.2) (mkPt q.1 q.2)) := by
  unfold VOk
  have e0 : crossProd (mkPt p.1 p.2) (mkPt q.1 q.2) 0 = p.2 - q.2 := by simp [crossProd, mkPt]
  have e1 : crossProd (mkPt p.1 p.2) (mkPt q.1 q.2) 1 = q.1 - p.1 := by simp [crossProd, mkPt]
  rw [e0, e1]
  rcases h with h | h | h
  · exact Or.inl h
  · exact Or.inr (Or.inl (by linarith))
  · right; right
    rw [show (p.2 - q.2) * (p.2 - q.2) + (q.1 - p.1) * (q.1 - p.1) = (p.1 - q.1) ^ 2 + (p.2 - q.2) ^ 2 by ring]
    exact h

theorem lineOfPts_mv {t : Thr ℝ} {p q : Pt ℝ} (h : MoveOk t d p q) :
    lineOfPts t (mkPt (mvP d p).1 (mvP d p).2) (mkPt (mvP d q).1 (mvP d q).2) = after (mvL d) (lineOfPts t (mkPt p.1 p.2) (mkPt q.1 q.2)) := by
  unfold lineOfPts
  simp only [getXY_mk, PtEq, ptDist_mv]
  rw [after_ite, cross_pts, norm_mv d (vok_pts d h)]
  rfl

theorem segLine_mv {t : Thr ℝ} {s : Seg} (h : MoveOk t d s.1 s.2) : segLine t (mvS d s) = after (mvL d) (segLine t s) := lineOfPts_mv d h

/-- A normalised line has a unit normal. -/
theorem norm_unit {t : Thr ℝ} {v r : V3 ℝ} (h : normalizeLine t v = .ok r) : UnitNormal r := by
  rcases normalizeLine_spec t v with ⟨-, h2⟩ | ⟨-, r', h2, h3, -⟩
  · rw [h2] at h; cases h
  · rw [h2] at h; cases h
    unfold UnitNormal; nlinarith

theorem segLine_unit {t : Thr ℝ} {s : Seg} {l : V3 ℝ} (h : segLine t s = .ok l) : UnitNormal l := by
  unfold segLine lineOfPts at h
  split_ifs at h
  exact norm_unit h

theorem cross_ne {t : Thr ℝ} (ht : 0 < t.nullAngleValue) {l m : V3 ℝ} (hl : UnitNormal l) (hm : UnitNormal m) (h : ¬ IsParallel t l m) : l 0 * m 1 - l 1 * m 0 ≠ 0 := by
  intro hz
  apply h
  rw [IsParallel, (lineAngle_zero hl.proper hm.proper).2 (by unfold SameDir; linarith)]; exact ht

theorem cross_lines {l m : V3 ℝ} (hz : l 0 * m 1 - l 1 * m 0 ≠ 0) : getXY (crossProd (mvL d l) (mvL d m)) = mvP d (getXY (crossProd l m)) := by
  simp only [getXY, crossProd, mvP, mvL, Matrix.cons_val_zero, Matrix.cons_val_one, Matrix.cons_val]
  apply Prod.ext
  · simp only; rw [div_add' _ _ _ hz]; congr 1; ring
  · simp only; rw [div_add' _ _ _ hz]; congr 1; ring

theorem lineInter_mv {t : Thr ℝ} (ht : 0 < t.nullAngleValue) {l m : V3 ℝ} (hl : UnitNormal l) (hm : UnitNormal m) :
    after getXY (lineInter t (mvL d l) (mvL d m)) = after (fun p => mvP d (getXY p)) (lineInter t l m) := by
  unfold lineInter
  simp only [IsParallel, angle_mv]
  by_cases h : lineAngle l m < t.nullAngleValue
  · simp only [h, if_true]; rfl
  · simp only [h, if_false, after_ok]
    rw [cross_lines d (cross_ne ht hl hm h)]

theorem segInter_mv {t : Thr ℝ} (ht : 0 < t.nullAngleValue) {s s' : Seg} (h : MoveOk t d s.1 s.2) (h' : MoveOk t d s'.1 s'.2) :
    segInter t (mvS d s) (mvS d s') = after (Option.map (mvP d)) (segInter t s s') := by
  unfold segInter
  rw [after_ite]
  refine if_congr (by simp only [SegEq, PtEq, mvS_1, mvS_2, ptDist_mv]) rfl ?_
  rw [segLine_mv d h, segLine_mv d h', bind_after, after_bind]
  refine bind_same fun l hl => ?_
  rw [bind_after, after_bind]
  refine bind_same fun m hm => ?_
  by_cases hp : IsParallel t l m
  · have hp' : IsParallel t (mvL d l) (mvL d m) := hp
    rw [if_pos hp, if_pos hp']; rfl
  have hp' : ¬ IsParallel t (mvL d l) (mvL d m) := hp
  rw [if_neg hp, if_neg hp', lineInter, lineInter, if_neg hp, if_neg hp', Res.bind_ok, Res.bind_ok]
  rw [cross_lines d (cross_ne ht (segLine_unit hl) (segLine_unit hm) hp), after_ite, after_ite]
  refine if_congr ?_ (if_congr ?_ rfl rfl) rfl <;> simp only [segLength, mvS_1, mvS_2, ptDist_mv]

theorem segLineInter_mv {t : Thr ℝ} (ht : 0 < t.nullAngleValue) {s : Seg} {l : V3 ℝ} (h : MoveOk t d s.1 s.2) (hl : UnitNormal l) :
    segLineInter t (mvS d s) (mvL d l) = after (Option.map (mvP d)) (segLineInter t s l) := by
  unfold segLineInter
  rw [segLine_mv d h, bind_after, after_bind]
  refine bind_same fun m hm => ?_
  by_cases hp : IsParallel t l m
  · have hp' : IsParallel t (mvL d l) (mvL d m) := hp
    rw [if_pos hp, if_pos hp']; rfl
  have hp' : ¬ IsParallel t (mvL d l) (mvL d m) := hp
  rw [if_neg hp, if_neg hp', lineInter, lineInter, if_neg hp, if_neg hp', Res.bind_ok, Res.bind_ok]
  rw [cross_lines d (cross_ne ht hl (segLine_unit hm) hp), after_ite]
  refine if_congr ?_ rfl rfl
  simp only [segLength, mvS_1, mvS_2, ptDist_mv]

theorem map_ite' {α β : Type} (f : α → β) (c : Prop) [Decidable c] (x y : Option α) : (if c then x else y).map f = if c then x.map f else y.map f := by split_ifs <;> rfl

theorem lineCircle_mv (l : V3 ℝ) (c : Pt ℝ) (r : ℝ) : lineCircle (mvL d l) (mvP d c) r = (lineCircle l c r).map (mvS d) := by
  have e : (mvP d c).1 * mvL d l 0 + (mvP d c).2 * mvL d l 1 + mvL d l 2 = c.1 * l 0 + c.2 * l 1 + l 2 := by
    simp only [mvL_0, mvL_1, mvL_2, mvP]; ring
  unfold lineCircle
  rw [e]
  dsimp only
  rw [map_ite']
  refine if_congr Iff.rfl rfl ?_
  rw [Option.map_some, ← fixOrder_mv]
  simp only [mvP, mvL_0, mvL_1, ← add_assoc]

theorem ptLabel_mv (t : Thr ℝ) (p c : Pt ℝ) (r : ℝ) : ptLabel t (mvP d p) (mvP d c) r = ptLabel t p c r := by
  unfold ptLabel
  refine if_congr ?_ rfl (if_congr ?_ rfl rfl) <;> simp only [ptDist_mv]

theorem segCircle_mv {t : Thr ℝ} {s : Seg} (h : MoveOk t d s.1 s.2) (c : Pt ℝ) (r : ℝ) :
    segCircle t (mvS d s) (mvP d c) r = after (List.map (mvP d)) (segCircle t s c r) := by
  unfold segCircle
  dsimp only
  rw [mvS_1, mvS_2, ptLabel_mv, ptLabel_mv, after_ite, after_bind, segLine_mv d h, bind_after]
  generalize ptLabel t s.1 c r = g1
  generalize ptLabel t s.2 c r = g2
  refine if_congr Iff.rfl rfl (bind_same fun l hl => ?_)
  rw [lineCircle_mv]
  rcases lineCircle l c r with _ | ⟨p1, p2⟩
  · rfl
  · have e : ∀ p, |ptDist (mvP d s.1) (mvP d p) + ptDist (mvP d s.2) (mvP d p) - segLength (mvS d s)| = |ptDist s.1 p + ptDist s.2 p - segLength s| := by
      intro p; rw [segLength, mvS_1, mvS_2, ptDist_mv, ptDist_mv, ptDist_mv, segLength]
    simp only [Option.map_some]
    rw [after_ite, after_ite, after_ite, after_ite]
    refine if_congr Iff.rfl (if_congr (by rw [mvS_1, e]) rfl rfl) (if_congr Iff.rfl (if_congr (by rw [mvS_1, e]) rfl rfl) ?_)
    cases g1 <;> cases g2 <;> rfl

theorem segDist_mv (s : Seg) (p : Pt ℝ) : segDistTo (mvS d s) (mvP d p) = segDistTo s p := by
  have e : ∀ c : Prop, ∀ [Decidable c] (x y x' y' : Int × Pt ℝ), (if c then (x.1, mvP d x.2) else (y.1, mvP d y.2)) = (((if c then x else y).1, mvP d (if c then x else y).2) : Int × Pt ℝ) := by
    intro c _ x y _ _; split_ifs <;> rfl
  unfold segDistTo
  simp only [mvS_1, mvS_2, mvP_1, mvP_2, add_sub_add_right_eq_sub]
  split_ifs
  · simp only [mvP, add_sub_add_right_eq_sub]
  · simp only [mvP, add_sub_add_right_eq_sub]
  · simp only [add_right_comm _ d.1, add_right_comm _ d.2, add_sub_add_right_eq_sub]

end H2d.Move
