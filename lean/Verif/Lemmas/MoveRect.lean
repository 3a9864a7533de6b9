import Verif.Lemmas.MoveCircle
import Verif.Lemmas.MoveMore
import Verif.Lemmas.Polyline
import Verif.Model.RectArea
import Verif.Model.Search

/-! # Moving a scene: rectangles and searches -/

namespace H2d.Move
open H2d H2d.Spec

variable (d : Pt ℝ)

/-! ### rectangles -/

/-- The sides of a rectangle are horizontal or vertical. -/
theorem ok_side {t : Thr ℝ} (hd : t.nullDenom ≤ 1) {r : FRect ℝ} {p q : Pt ℝ} (h : Piece r 0 p q) : MoveOk t d p q := by
  have key : ∀ {n : Nat} {p q : Pt ℝ}, Piece r n p q → p.1 = q.1 ∨ p.2 = q.2 := by
    intro n p q h
    induction h with
    | left => exact Or.inl rfl
    | top => exact Or.inr rfl
    | right => exact Or.inl rfl
    | bottom => exact Or.inr rfl
    | swap _ ih => exact ih.imp Eq.symm Eq.symm
    | half _ ih =>
      simp only [midPt]
      rcases ih with h | h
      · left; rw [h]; ring
      · right; rw [h]; ring
  rcases key h with h | h
  · refine Or.inr (Or.inr ?_)
    unfold eucl
    rw [h, sub_self, show (0 : ℝ) ^ 2 + (p.2 - q.2) ^ 2 = (p.2 - q.2) ^ 2 by ring, Real.sqrt_sq_eq_abs]
    nlinarith [abs_nonneg (p.2 - q.2)]
  · exact Or.inr (Or.inl h)

theorem rectEq_mv (t : Thr ℝ) (a b : FRect ℝ) : rectEqB t (mvR d a) (mvR d b) = rectEqB t a b := by
  unfold rectEqB
  congr 1 <;> exact decide_eq_decide.2 (ptEq_mv d t _ _)

open Classical in
theorem rectSegLoop_mv {t : Thr ℝ} (ht : 0 < t.nullAngleValue) {seg : Seg} (hs : MoveOk t d seg.1 seg.2) : ∀ {l : List Seg}, (∀ s ∈ l, MoveOk t d s.1 s.2) → ∀ out,
    rectSegLoop t (mvS d seg) (l.map (mvS d)) (out.map (mvP d)) = after (List.map (mvP d)) (rectSegLoop t seg l out)
  | [], _, out => rfl
  | a :: l, hl, out => by
    have ih := rectSegLoop_mv ht hs (l := l) (fun s h => hl s (List.mem_cons_of_mem _ h))
    rw [List.map_cons, rectSegLoop, rectSegLoop, segInter_mv d ht (hl a (by simp)) hs, bind_after, after_bind]
    refine bind_same fun o _ => ?_
    cases o with
    | none => exact ih out
    | some pt =>
      simp only [Option.map_some]
      have fin : ∀ o : List (Pt ℝ), (if (o.map (mvP d)).length = 2 then (pure (o.map (mvP d)) : Res _) else rectSegLoop t (mvS d seg) (l.map (mvS d)) (o.map (mvP d))) =
          after (List.map (mvP d)) (if o.length = 2 then pure o else rectSegLoop t seg l o) := by
        intro o
        rw [List.length_map, after_ite]
        exact if_congr Iff.rfl rfl (ih o)
      match out with
      | [] => exact fin [pt]
      | [q] =>
        simp only [List.map_cons, List.map_nil]
        by_cases h : PtEq t q pt
        · rw [if_pos h, if_pos ((ptEq_mv d t q pt).2 h)]
          exact fin [q]
        · rw [if_neg h, if_neg (fun h' => h ((ptEq_mv d t q pt).1 h'))]
          exact fin [q, pt]
      | a :: b :: out =>
        have := fin (a :: b :: out ++ [pt])
        rw [List.map_append] at this
        exact this

theorem rectSegInter_mv {t : Thr ℝ} (ht : 0 < t.nullAngleValue) (hd : t.nullDenom ≤ 1) (r : FRect ℝ) {seg : Seg} (hs : MoveOk t d seg.1 seg.2) :
    rectSegInter t (mvR d r) (mvS d seg) = after (List.map (mvP d)) (rectSegInter t r seg) := by
  unfold rectSegInter
  rw [rectSegs_mv, bind_after, after_bind]
  exact bind_same fun l hl => rectSegLoop_mv d ht hs (fun s h => ok_side d hd (rectSegs_piece hl s h)) []

theorem setInsert_mv (p : Pt ℝ) : ∀ l : List (Pt ℝ), setInsert (mvP d p) (l.map (mvP d)) = (setInsert p l).map (mvP d)
  | [] => rfl
  | q :: l => by
    rw [List.map_cons, setInsert, setInsert, ptLt_mv, ptLt_mv, setInsert_mv p l]
    split_ifs <;> rfl

theorem rectLoop_mv {t : Thr ℝ} (ht : 0 < t.nullAngleValue) (hd : t.nullDenom ≤ 1) (r : FRect ℝ) : ∀ {l : List Seg}, (∀ s ∈ l, MoveOk t d s.1 s.2) → ∀ pts,
    rectLoop t (mvR d r) (l.map (mvS d)) (pts.map (mvP d)) = after (List.map (mvP d)) (rectLoop t r l pts)
  | [], _, _ => rfl
  | a :: l, hl, pts => by
    have ih := rectLoop_mv ht hd r (l := l) (fun s h => hl s (List.mem_cons_of_mem _ h))
    rw [List.map_cons, rectLoop, rectLoop, rectSegInter_mv d ht hd r (hl a (by simp)), bind_after, after_bind]
    refine bind_same fun o _ => ?_
    match o with
    | [] => exact ih pts
    | [a] => simp only [List.map_cons, List.map_nil, setInsert_mv, ih]
    | [a, b] => simp only [List.map_cons, List.map_nil, setInsert_mv, ih]
    | _ :: _ :: _ :: _ => rfl

theorem rectInter_mv {t : Thr ℝ} (ht : 0 < t.nullAngleValue) (hd : t.nullDenom ≤ 1) (a b : FRect ℝ) :
    rectInter t (mvR d a) (mvR d b) = after (List.map (mvP d)) (rectInter t a b) := by
  unfold rectInter
  rw [rectEq_mv, after_ite, rectSegs_mv, bind_after, after_bind]
  exact if_congr Iff.rfl rfl (bind_same fun l hl => rectLoop_mv d ht hd b (fun s h => ok_side d hd (rectSegs_piece hl s h)) [])

theorem get4_mv (r : FRect ℝ) : (mvR d r).get4Pts = r.get4Pts.map (mvP d) := rfl

theorem rectInside_mv (a b : FRect ℝ) : (mvR d a).isInsideRect (mvR d b) = a.isInsideRect b := by
  unfold FRect.isInsideRect
  rw [get4_mv, List.all_map]
  congr 1
  funext p
  exact insideRect_mv d p b

theorem ptsInside_mv (a b : FRect ℝ) : pointsInside (mvR d a) (mvR d b) = (pointsInside a b).map (mvP d) := by
  unfold pointsInside
  rw [get4_mv, List.filter_map]
  congr 2
  funext p
  exact insideRect_mv d p b

theorem of4_mv (p q r s : Pt ℝ) : FRect.of4Pts (mvP d p) (mvP d q) (mvP d r) (mvP d s) = mvR d (FRect.of4Pts p q r s) := by
  simp only [FRect.of4Pts, mvR, mvP, min_add_add_right, max_add_add_right]

theorem mv_ofPts {t : ℝ} {p q : Pt ℝ} : (do let r ← FRect.ofPts t (mvP d p) (mvP d q); pure (some r) : Res (Option (FRect ℝ))) =
    after (Option.map (mvR d)) (do let r ← FRect.ofPts t p q; pure (some r)) := by
  rw [ofPts_mv, bind_after, after_bind]
  rfl

theorem intersectArea_mv {t : Thr ℝ} (ht : 0 < t.nullAngleValue) (hd : t.nullDenom ≤ 1) (a b : FRect ℝ) :
    intersectArea t (mvR d a) (mvR d b) = after (Option.map (mvR d)) (intersectArea t a b) := by
  unfold intersectArea
  rw [rectEq_mv, after_ite, rectInter_mv d ht hd, bind_after, after_bind]
  refine if_congr Iff.rfl rfl (bind_same fun l _ => ?_)
  match l with
  | [] =>
    simp only [List.map_nil]
    rw [rectInside_mv, rectInside_mv, after_ite, after_ite]
    rfl
  | [_] => rfl
  | [i0, i1] =>
    simp only [List.map_cons, List.map_nil]
    rw [ptsInside_mv, ptsInside_mv]
    rcases pointsInside a b with _ | ⟨x, _ | ⟨y, _ | ⟨z, l1⟩⟩⟩ <;> rcases pointsInside b a with _ | ⟨x', _ | ⟨y', _ | ⟨z', l2⟩⟩⟩ <;>
      first
      | rfl
      | exact mv_ofPts d
      | (simp only [List.map_cons, List.map_nil, of4_mv]; rfl)
  | [v0, v1, v2] =>
    have h1 : ∀ x y z : ℝ, ∀ e : ℝ, min (x + e) (min (y + e) (z + e)) = min x (min y z) + e := by
      intro x y z e; rw [min_add_add_right, min_add_add_right]
    have h2 : ∀ x y z : ℝ, ∀ e : ℝ, max (x + e) (max (y + e) (z + e)) = max x (max y z) + e := by
      intro x y z e; rw [max_add_add_right, max_add_add_right]
    simp only [List.map_cons, List.map_nil, mvP_1, mvP_2, h1, h2]
    rw [after_ite, after_ite]
    refine if_congr (by rw [add_sub_add_right_eq_sub]) rfl (if_congr (by rw [add_sub_add_right_eq_sub]) rfl ?_)
    exact mv_ofPts d (p := (min v0.1 (min v1.1 v2.1), min v0.2 (min v1.2 v2.2))) (q := (max v0.1 (max v1.1 v2.1), max v0.2 (max v1.2 v2.2)))
  | [v0, _, _, v3] => exact mv_ofPts d
  | _ :: _ :: _ :: _ :: _ :: _ => rfl

/-! ### union of rectangles -/

/-- A coordinate of a rectangle, moved. -/
def mvI (e : ℝ) (a : Idx ℝ) : Idx ℝ := ⟨a.val + e, a.rect⟩

theorem idxInsert_mv (e : ℝ) (a : Idx ℝ) : ∀ l : List (Idx ℝ), idxInsert (mvI e a) (l.map (mvI e)) = (idxInsert a l).map (mvI e)
  | [] => rfl
  | b :: l => by
    have h : (mvI e b).lt (mvI e a) = b.lt a := by
      unfold Idx.lt
      exact if_congr (add_left_inj e) rfl (decide_eq_decide.2 (add_lt_add_iff_right e))
    rw [List.map_cons, idxInsert, idxInsert, h, idxInsert_mv e a l]
    split_ifs <;> rfl

theorem coordVec_mv (e a b x y : ℝ) : coordVec (a + e) (b + e) (x + e) (y + e) = (coordVec a b x y).map (mvI e) := by
  have h : ∀ l : List (Idx ℝ), idxSort (l.map (mvI e)) = (idxSort l).map (mvI e) := by
    intro l
    induction l with
    | nil => rfl
    | cons a l ih =>
      have : idxSort (mvI e a :: l.map (mvI e)) = idxInsert (mvI e a) (idxSort (l.map (mvI e))) := rfl
      rw [List.map_cons, this, ih, idxInsert_mv]
      rfl
  exact h [⟨a, 1⟩, ⟨b, 1⟩, ⟨x, 2⟩, ⟨y, 2⟩]

theorem tableCell_mv (e f : ℝ) (vx vy : List (Idx ℝ)) : tableCell (vx.map (mvI e)) (vy.map (mvI f)) = tableCell vx vy := by
  funext r c
  unfold tableCell
  rw [List.getElem?_map, List.getElem?_map]
  cases vx[r]? <;> cases vy[c]? <;> rfl

section
variable {same : Pt ℝ → Pt ℝ → Bool} (hs : ∀ p q, same (mvP d p) (mvP d q) = same p q)
include hs

theorem convertLoop_mv (vx vy : List (Idx ℝ)) : ∀ (l : List (ℕ × ℕ)) (v : List (Pt ℝ)),
    convertLoop same (vx.map (mvI d.1)) (vy.map (mvI d.2)) l (v.map (mvP d)) = after (List.map (mvP d)) (convertLoop same vx vy l v)
  | [], _ => rfl
  | e :: l, v => by
    have ih := convertLoop_mv vx vy l
    rw [convertLoop.eq_def, convertLoop.eq_def same vx vy]
    simp only
    rw [List.getElem?_map, List.getElem?_map]
    cases vx[e.1]? with
    | none => rfl
    | some x =>
      cases vy[e.2]? with
      | none => rfl
      | some y =>
        have hp : ((mvI d.1 x).val, (mvI d.2 y).val) = mvP d (x.val, y.val) := rfl
        simp only [Option.map_some, hp]
        match v with
        | [] => exact ih [(x.val, y.val)]
        | q :: qs =>
          have hl : (qs.map (mvP d)).getLastD (mvP d q) = mvP d (qs.getLastD q) := by
            have : ∀ (l : List (Pt ℝ)) (x : Pt ℝ), (l.map (mvP d)).getLastD (mvP d x) = mvP d (l.getLastD x) := by
              intro l
              induction l with
              | nil => intro x; rfl
              | cons y l ih => intro x; simp only [List.map_cons, List.getLastD_cons, ih]
            exact this qs q
          simp only [List.map_cons, hl, hs]
          cases h : (!same (qs.getLastD q) (x.val, y.val) && !same q (x.val, y.val))
          · exact ih (q :: qs)
          · have := ih (q :: qs ++ [(x.val, y.val)])
            rw [List.map_append] at this
            exact this

theorem addPoints_mv : ∀ (l acc : List (Pt ℝ)), addPoints same (acc.map (mvP d)) (l.map (mvP d)) = after (List.map (mvP d)) (addPoints same acc l)
  | [], acc => by
    cases acc
    · rfl
    · simp only [List.map_nil, addPoints, after, List.map_reverse]
  | p :: l, [] => addPoints_mv l [p]
  | p :: l, b :: acc => by
    have ih := addPoints_mv l (p :: b :: acc)
    simp only [List.map_cons, addPoints, hs] at ih ⊢
    rw [after_ite]
    exact if_congr Iff.rfl rfl ih

theorem minimize_mv {mid : Pt ℝ → Pt ℝ → Pt ℝ → Bool} (hm : ∀ p q r, mid (mvP d p) (mvP d q) (mvP d r) = mid p q r) (closed : Bool) (l : List (Pt ℝ)) :
    minimize same mid closed (l.map (mvP d)) = after (List.map (mvP d)) (minimize same mid closed l) := by
  have hk : ∀ a b, minimizeMark mid (l.map (mvP d)) a b = minimizeMark mid l a b := by
    intro a b
    unfold minimizeMark
    congr 1
    funext i
    simp only [List.length_map, List.getElem?_map]
    cases l[if i = 0 then l.length - 1 else i - 1]? with
    | none => rfl
    | some x =>
      cases l[i]? with
      | none => rfl
      | some y =>
        cases l[if i = l.length - 1 then 0 else i + 1]? with
        | none => rfl
        | some z => exact hm x y z
  have hdrop : ∀ (l : List (Pt ℝ)) (i : Nat) (m : List Nat), dropMarked i m (l.map (mvP d)) = (dropMarked i m l).map (mvP d) := by
    intro l
    induction l with
    | nil => intro i m; cases m <;> rfl
    | cons x l ih =>
      intro i m
      cases m with
      | nil => simp only [List.map_cons, dropMarked, ih]
      | cons k ks =>
        simp only [List.map_cons, dropMarked, ih]
        split_ifs <;> rfl
  unfold minimize
  simp only [List.length_map, hk]
  rw [after_ite, after_ite, hdrop]
  exact if_congr Iff.rfl rfl (if_congr Iff.rfl rfl (addPoints_mv d hs _ []))

theorem unionTable_mv {mid : Pt ℝ → Pt ℝ → Pt ℝ → Bool} (hm : ∀ p q r, mid (mvP d p) (mvP d q) (mvP d r) = mid p q r) (a b : FRect ℝ) :
    unionTable same mid (mvR d a) (mvR d b) = after (List.map (mvP d)) (unionTable same mid a b) := by
  have h1 : coordVec (mvR d a).p1.1 (mvR d a).p2.1 (mvR d b).p1.1 (mvR d b).p2.1 = (coordVec a.p1.1 a.p2.1 b.p1.1 b.p2.1).map (mvI d.1) := coordVec_mv d.1 _ _ _ _
  have h2 : coordVec (mvR d a).p1.2 (mvR d a).p2.2 (mvR d b).p1.2 (mvR d b).p2.2 = (coordVec a.p1.2 a.p2.2 b.p1.2 b.p2.2).map (mvI d.2) := coordVec_mv d.2 _ _ _ _
  unfold unionTable
  simp only [h1, h2, tableCell_mv]
  rw [after_bind]
  refine bind_same fun v _ => ?_
  have h3 : convertToCoord same v ((coordVec a.p1.1 a.p2.1 b.p1.1 b.p2.1).map (mvI d.1)) ((coordVec a.p1.2 a.p2.2 b.p1.2 b.p2.2).map (mvI d.2)) =
      after (List.map (mvP d)) (convertToCoord same v (coordVec a.p1.1 a.p2.1 b.p1.1 b.p2.1) (coordVec a.p1.2 a.p2.2 b.p1.2 b.p2.2)) := by
    unfold convertToCoord
    have := convertLoop_mv d hs (coordVec a.p1.1 a.p2.1 b.p1.1 b.p2.1) (coordVec a.p1.2 a.p2.2 b.p1.2 b.p2.2) v []
    rw [List.map_nil] at this
    rw [this, bind_after, after_bind]
    exact bind_same fun l _ => polySet_mv d hs l
  rw [h3, bind_after, after_bind]
  exact bind_same fun l _ => minimize_mv d hs hm true l
end

theorem unionArea_mv {t : Thr ℝ} (ht : 0 < t.nullAngleValue) (hd : t.nullDenom ≤ 1) (a b : FRect ℝ) :
    unionArea t (mvR d a) (mvR d b) = after (List.map (mvP d)) (unionArea t a b) := by
  have hs : ∀ p q, (stdEnv t).same (mvP d p) (mvP d q) = (stdEnv t).same p q := fun p q => decide_eq_decide.2 (ptEq_mv d t p q)
  have hm : ∀ p q r, (stdEnv t).mid (mvP d p) (mvP d q) (mvP d r) = (stdEnv t).mid p q r := by
    intro p q r
    simp only [stdEnv, sameAngle, mvP, add_sub_add_right_eq_sub]
  have key : (if (mvR d a).p1.1 < (mvR d b).p1.1 then unionTable (stdEnv t).same (stdEnv t).mid (mvR d b) (mvR d a) else unionTable (stdEnv t).same (stdEnv t).mid (mvR d a) (mvR d b)) =
      after (List.map (mvP d)) (if a.p1.1 < b.p1.1 then unionTable (stdEnv t).same (stdEnv t).mid b a else unionTable (stdEnv t).same (stdEnv t).mid a b) := by
    rw [after_ite]
    exact if_congr (by simp only [mvR, mvP, add_lt_add_iff_right]) (unionTable_mv d hs hm b a) (unionTable_mv d hs hm a b)
  unfold unionArea
  rw [rectEq_mv, after_ite, rectInter_mv d ht hd, bind_after, after_bind]
  refine if_congr Iff.rfl rfl (bind_same fun l _ => ?_)
  cases l with
  | nil =>
    simp only [List.map_nil]
    rw [rectInside_mv, rectInside_mv, after_ite, after_ite]
    rfl
  | cons x l => exact key

/-! ### searches -/

section
open H2d.Search
variable {P D : Type} [LinearOrder D] {dist : P → P → D} {eq : P → P → Bool} {f : P → P}

theorem findLoop_mv (hd : ∀ p q, dist (f p) (f q) = dist p q) (he : ∀ p q, eq (f p) (f q) = eq p q) (w : What) (q : P) : ∀ (l : List P) (i r : Nat) (e : D),
    findLoop w dist eq (f q) i (l.map f) r e = findLoop w dist eq q i l r e
  | [], _, _, _ => rfl
  | x :: l, i, r, e => by
    rw [List.map_cons, findLoop, findLoop, hd, he]
    simp only [findLoop_mv hd he w q l]

theorem findPoint_mv (hd : ∀ p q, dist (f p) (f q) = dist p q) (he : ∀ p q, eq (f p) (f q) = eq p q) (w : What) (q : P) (l : List P) :
    findPoint w dist eq (f q) (l.map f) = findPoint w dist eq q l := by
  match l with
  | [] => rfl
  | [_] => rfl
  | a :: b :: l =>
    simp only [List.map_cons, findPoint, hd, he]
    have h1 := findLoop_mv hd he w q l 2 1 (dist q b)
    have h2 := findLoop_mv hd he w q (b :: l) 1 0 (dist q a)
    rw [List.map_cons] at h2
    rw [h1, h2]

theorem nfLoop_mv (hd : ∀ p q, dist (f p) (f q) = dist p q) (he : ∀ p q, eq (f p) (f q) = eq p q) (q : P) : ∀ (l : List P) (i a : Nat) (x : D) (b : Nat) (y : D),
    nfLoop dist eq (f q) i (l.map f) a x b y = nfLoop dist eq q i l a x b y
  | [], _, _, _, _, _ => rfl
  | x :: l, _, _, _, _, _ => by
    rw [List.map_cons, nfLoop, nfLoop, hd, he]
    simp only [nfLoop_mv hd he q l]

theorem findNF_mv (hd : ∀ p q, dist (f p) (f q) = dist p q) (he : ∀ p q, eq (f p) (f q) = eq p q) (q : P) (l : List P) :
    findNearestFarthestPoint dist eq (f q) (l.map f) = findNearestFarthestPoint dist eq q l := by
  match l with
  | [] => rfl
  | [_] => rfl
  | a :: b :: l =>
    simp only [List.map_cons, findNearestFarthestPoint, hd, he]
    have h1 := nfLoop_mv hd he q l 2 1 (dist q b) 1 (dist q b)
    have h2 := nfLoop_mv hd he q (b :: l) 1 0 (dist q a) 0 (dist q a)
    rw [List.map_cons] at h2
    rw [h1, h2]

theorem closestInner_mv (hd : ∀ p q, dist (f p) (f q) = dist p q) (p : P) (i : Nat) : ∀ (l : List P) (j : Nat) (o : Closest D),
    closestInner dist (f p) i j (l.map f) o = closestInner dist p i j l o
  | [], _, _ => rfl
  | y :: l, _, _ => by
    rw [List.map_cons, closestInner, closestInner, hd]
    simp only [closestInner_mv hd p i l]

theorem closestOuter_mv (hd : ∀ p q, dist (f p) (f q) = dist p q) (b : List P) : ∀ (l : List P) (i : Nat) (o : Closest D),
    closestOuter dist (b.map f) i (l.map f) o = closestOuter dist b i l o
  | [], _, _ => rfl
  | y :: l, _, _ => by rw [List.map_cons, closestOuter, closestOuter, closestInner_mv hd, closestOuter_mv hd b l]

theorem closest_mv (hd : ∀ p q, dist (f p) (f q) = dist p q) (a b : List P) : getClosestPoints dist (a.map f) (b.map f) = getClosestPoints dist a b := by
  match a, b with
  | [], _ => rfl
  | _ :: _, [] => rfl
  | x :: xs, y :: ys =>
    have := closestOuter_mv hd (y :: ys) (x :: xs) 0 ⟨dist x y, 0, 0⟩
    simp only [List.map_cons] at this
    simp only [List.map_cons, getClosestPoints, hd, this]
end

/-! ### measures -/

theorem area_mv (l : List (Pt ℝ)) : signedArea (l.map (mvP d)) = signedArea l := signedArea_translate l d.1 d.2

theorem length_mv (closed : Bool) (l : List (Pt ℝ)) : polyLength ptDist closed (l.map (mvP d)) = polyLength ptDist closed l := by
  unfold polyLength
  rw [pairs_mv, List.map_map]
  congr 2
  funext s
  exact ptDist_mv d s.1 s.2

theorem triples_mv {P : Type} (f : P → P) (l : List P) : cycTriples (l.map f) = (cycTriples l).map (fun s => (f s.1, f s.2.1, f s.2.2)) := by
  unfold cycTriples
  rw [List.length_map, ← List.map_drop, ← List.map_dropLast, ← List.map_tail, ← List.map_take, ← List.map_append, ← List.map_append, List.zip_map, List.zip_map]
  rfl

theorem convex_mv (b : Bool) (l : List (Pt ℝ)) : isConvex b (l.map (mvP d)) = isConvex b l := by
  unfold isConvex
  rw [List.length_map, triples_mv, List.map_map]
  have e : ((fun s : Pt ℝ × Pt ℝ × Pt ℝ => crossAt s.1 s.2.1 s.2.2) ∘ fun s : Pt ℝ × Pt ℝ × Pt ℝ => (mvP d s.1, mvP d s.2.1, mvP d s.2.2)) = fun s => crossAt s.1 s.2.1 s.2.2 := by
    funext s
    simp only [Function.comp, crossAt, mvP, add_sub_add_right_eq_sub]
  rw [e]

end H2d.Move
