import Verif.Lemmas.Move
import Verif.Lemmas.PolyState

/-! # Lemmas on moving polylines -/

namespace H2d.Move
open H2d H2d.Spec

variable (d : Pt ℝ)

theorem ok_mv {t : Thr ℝ} {p q : Pt ℝ} (h : MoveOk t d p q) : MoveOk t d q p := by
  rcases h with h | h | h
  · exact Or.inl h
  · exact Or.inr (Or.inl h.symm)
  · right; right
    rw [abs_sub_comm, eucl, show (q.1 - p.1) ^ 2 + (q.2 - p.2) ^ 2 = (p.1 - q.1) ^ 2 + (p.2 - q.2) ^ 2 by ring]
    exact h

theorem ok_fix {t : Thr ℝ} {p q : Pt ℝ} (h : MoveOk t d p q) : MoveOk t d (fixOrder p q).1 (fixOrder p q).2 := by
  unfold fixOrder
  split_ifs
  · exact ok_mv d h
  · exact h

theorem ok_make {t : Thr ℝ} {o : Bool} {p q : Pt ℝ} {s : Seg} (h : MoveOk t d p q) (hs : segMake t o p q = .ok s) : MoveOk t d s.1 s.2 := by
  unfold segMake at hs
  split_ifs at hs
  · cases hs; exact h
  · cases hs; exact ok_fix d h

theorem pairs_mv (closed : Bool) (l : List (Pt ℝ)) : segPairs closed (l.map (mvP d)) = (segPairs closed l).map (mvS d) := segPairs_map closed (mvP d) l

theorem polySegs_mv (t : Thr ℝ) : ∀ l : List Seg, polySegs t (l.map (mvS d)) = after (List.map (mvS d)) (polySegs t l)
  | [] => rfl
  | e :: l => by
    rw [List.map_cons, polySegs, polySegs, mvS_1, mvS_2, segMake_mv, bind_after, after_bind]
    refine bind_same fun s hs => ?_
    rw [polySegs_mv t l, bind_after, after_bind]
    rfl

theorem polySegs_mem {t : Thr ℝ} : ∀ {l : List Seg} {segs : List Seg}, (∀ q ∈ l, MoveOk t d q.1 q.2) → polySegs t l = .ok segs → ∀ s ∈ segs, MoveOk t d s.1 s.2
  | [], segs, _, h, s, hs => by cases h; cases hs
  | e :: l, segs, hl, h, s, hs => by
    rw [polySegs] at h
    cases h1 : segMake t false e.1 e.2 with
    | ok a =>
      cases h2 : polySegs t l with
      | ok r =>
        rw [h1, h2] at h
        cases h
        rcases List.mem_cons.1 hs with rfl | hs
        · exact ok_make d (hl e (by simp)) h1
        · exact polySegs_mem (fun q hq => hl q (by simp [hq])) h2 s hs
      | throw => rw [h1, h2] at h; cases h
      | ub => rw [h1, h2] at h; cases h
    | throw => rw [h1] at h; cases h
    | ub => rw [h1] at h; cases h

theorem concat_mv {α β : Type} {f f' : α → Res (List β)} {g : α → α} {m : β → β} : ∀ {l : List α}, (∀ a ∈ l, f' (g a) = after (List.map m) (f a)) →
    concatRes f' (l.map g) = after (List.map m) (concatRes f l)
  | [], _ => rfl
  | a :: l, h => by
    rw [List.map_cons, concatRes, concatRes, h a (by simp), concat_mv (fun b hb => h b (by simp [hb])), bind_after, after_bind]
    refine bind_same fun i _ => ?_
    rw [bind_after, after_bind]
    refine bind_same fun r _ => ?_
    simp [after]

theorem opt_list (o : Option (Pt ℝ)) : (o.map (mvP d)).toList = o.toList.map (mvP d) := by cases o <;> rfl

theorem segsInterSeg_mv {t : Thr ℝ} (ht : 0 < t.nullAngleValue) {s : Seg} (h : MoveOk t d s.1 s.2) {l : List Seg} (hl : ∀ q ∈ l, MoveOk t d q.1 q.2) :
    segsInterSeg t (mvS d s) (l.map (mvS d)) = after (List.map (mvP d)) (segsInterSeg t s l) := by
  refine concat_mv fun a ha => ?_
  rw [segInter_mv d ht (hl a ha) h, bind_after, after_bind]
  refine bind_same fun i _ => ?_
  rw [opt_list]; rfl

theorem segsInterLine_mv {t : Thr ℝ} (ht : 0 < t.nullAngleValue) {li : V3 ℝ} (h : UnitNormal li) {l : List Seg} (hl : ∀ q ∈ l, MoveOk t d q.1 q.2) :
    segsInterLine t (mvL d li) (l.map (mvS d)) = after (List.map (mvP d)) (segsInterLine t li l) := by
  refine concat_mv fun a ha => ?_
  rw [segLineInter_mv d ht (hl a ha) h, bind_after, after_bind]
  refine bind_same fun i _ => ?_
  rw [opt_list]; rfl

theorem segsInterCircle_mv {t : Thr ℝ} (c : Circle) {l : List Seg} (hl : ∀ q ∈ l, MoveOk t d q.1 q.2) :
    segsInterCircle t (mvC d c) (l.map (mvS d)) = after (List.map (mvP d)) (segsInterCircle t c l) :=
  concat_mv fun a ha => segCircle_mv d (hl a ha) c.center c.radius

theorem segsInterSegs_mv {t : Thr ℝ} (ht : 0 < t.nullAngleValue) {l l' : List Seg} (hl : ∀ q ∈ l, MoveOk t d q.1 q.2) (hl' : ∀ q ∈ l', MoveOk t d q.1 q.2) :
    segsInterSegs t (l'.map (mvS d)) (l.map (mvS d)) = after (List.map (mvP d)) (segsInterSegs t l' l) :=
  concat_mv fun a ha => segsInterSeg_mv d ht (hl a ha) hl'

theorem polyInterSeg_mv {t : Thr ℝ} (ht : 0 < t.nullAngleValue) {closed : Bool} {pts : List (Pt ℝ)} (hp : MoveOkPts t d closed pts) {s : Seg} (h : MoveOk t d s.1 s.2) :
    polyInterSeg t closed (pts.map (mvP d)) (mvS d s) = after (List.map (mvP d)) (polyInterSeg t closed pts s) := by
  unfold polyInterSeg
  rw [pairs_mv, polySegs_mv, bind_after, after_bind]
  exact bind_same fun segs hs => segsInterSeg_mv d ht h (polySegs_mem d hp hs)

theorem polyInterLine_mv {t : Thr ℝ} (ht : 0 < t.nullAngleValue) {closed : Bool} {pts : List (Pt ℝ)} (hp : MoveOkPts t d closed pts) {l : V3 ℝ} (h : UnitNormal l) :
    polyInterLine t closed (pts.map (mvP d)) (mvL d l) = after (List.map (mvP d)) (polyInterLine t closed pts l) := by
  unfold polyInterLine
  rw [pairs_mv, polySegs_mv, bind_after, after_bind]
  exact bind_same fun segs hs => segsInterLine_mv d ht h (polySegs_mem d hp hs)

theorem polyInterCircle_mv {t : Thr ℝ} {closed : Bool} {pts : List (Pt ℝ)} (hp : MoveOkPts t d closed pts) (c : Circle) :
    polyInterCircle t closed (pts.map (mvP d)) (mvC d c) = after (List.map (mvP d)) (polyInterCircle t closed pts c) := by
  unfold polyInterCircle
  rw [pairs_mv, polySegs_mv, bind_after, after_bind]
  exact bind_same fun segs hs => segsInterCircle_mv d c (polySegs_mem d hp hs)

theorem polyInterPoly_mv {t : Thr ℝ} (ht : 0 < t.nullAngleValue) {closed closed' : Bool} {pts pts' : List (Pt ℝ)} (hp : MoveOkPts t d closed pts)
    (hp' : MoveOkPts t d closed' pts') :
    polyInterPoly t closed (pts.map (mvP d)) closed' (pts'.map (mvP d)) = after (List.map (mvP d)) (polyInterPoly t closed pts closed' pts') := by
  unfold polyInterPoly
  rw [pairs_mv, pairs_mv, polySegs_mv, polySegs_mv, bind_after, after_bind]
  refine bind_same fun segs hs => ?_
  cases segs with
  | nil => rfl
  | cons a l =>
    simp only [List.map_cons]
    rw [bind_after, after_bind]
    exact bind_same fun segs' hs' => segsInterSegs_mv d ht (polySegs_mem d hp hs) (polySegs_mem d hp' hs')

theorem noCross_mv {S : Type} {inter inter' : S → S → Bool} {g : S → S} {l : List S} (h : ∀ a ∈ l, ∀ b ∈ l, inter' (g a) (g b) = inter a b) :
    noCross inter' (l.map g) = noCross inter l := by
  unfold noCross
  rw [List.length_map]
  congr 2
  funext i
  dsimp only
  congr 1
  funext j
  rw [List.getElem?_map, List.getElem?_map]
  cases h1 : l[j]? with
  | none => rfl
  | some a =>
    cases h2 : l[i]? with
    | none => rfl
    | some b => exact h a (List.mem_of_getElem? h1) b (List.mem_of_getElem? h2)

theorem interB_mv {t : Thr ℝ} (ht : 0 < t.nullAngleValue) {a b : Seg} (ha : MoveOk t d a.1 a.2) (hb : MoveOk t d b.1 b.2) :
    segInterB t (mvS d a) (mvS d b) = segInterB t a b := by
  unfold segInterB
  rw [mvS_1, mvS_2, mvS_1, mvS_2, fixOrder_mv, fixOrder_mv, segInter_mv d ht (ok_fix d ha) (ok_fix d hb)]
  rcases segInter t (fixOrder a.1 a.2) (fixOrder b.1 b.2) with (_ | _) | _ | _ <;> rfl

theorem isSimple_mv {t : Thr ℝ} (ht : 0 < t.nullAngleValue) {closed : Bool} {pts : List (Pt ℝ)} (hp : MoveOkPts t d closed pts) :
    isSimple (segInterB t) closed (pts.map (mvP d)) = isSimple (segInterB t) closed pts := by
  unfold isSimple
  rw [List.length_map, pairs_mv, noCross_mv fun a ha b hb => interB_mv d ht (hp a ha) (hp b hb)]

/-! ### boxes -/

theorem minLoop_mv {P : Type} {comp : P → P → Bool} {f : P → P} (h : ∀ a b, comp (f a) (f b) = comp a b) : ∀ (l : List P) (i : Nat) (b : P) (bi : Nat),
    minElemLoop comp i (l.map f) (f b) bi = (f (minElemLoop comp i l b bi).1, (minElemLoop comp i l b bi).2)
  | [], _, _, _ => rfl
  | x :: l, i, b, bi => by
    rw [List.map_cons, minElemLoop, minElemLoop, h]
    split_ifs
    · exact minLoop_mv h l _ _ _
    · exact minLoop_mv h l _ _ _

theorem maxLoop_mv {P : Type} {comp : P → P → Bool} {f : P → P} (h : ∀ a b, comp (f a) (f b) = comp a b) : ∀ (l : List P) (b : P),
    maxElemLoop comp (l.map f) (f b) = f (maxElemLoop comp l b)
  | [], _ => rfl
  | x :: l, b => by
    rw [List.map_cons, maxElemLoop, maxElemLoop, h]
    split_ifs
    · exact maxLoop_mv h l _
    · exact maxLoop_mv h l _

theorem extreme_mv (dir : CardDir) (l : List (Pt ℝ)) : getExtremePoint dir (l.map (mvP d)) = after (fun r => (mvP d r.1, r.2)) (getExtremePoint dir l) := by
  cases l with
  | nil => rfl
  | cons x l =>
    rw [List.map_cons, getExtremePoint, getExtremePoint, minLoop_mv]
    · rfl
    · intro a b
      cases dir <;> simp only [extremeComp, mvP, add_lt_add_iff_right, gt_iff_lt]

theorem share_mv (t : ℝ) (p q : Pt ℝ) : shareCommonCoord t (mvP d p) (mvP d q) = shareCommonCoord t p q := by
  simp only [shareCommonCoord, mvP, add_sub_add_right_eq_sub]

theorem same_mv (t : ℝ) (p q : Pt ℝ) : samePt t (mvP d p) (mvP d q) = samePt t p q := by
  simp only [samePt, sqDist_mv]

/-- End of the computation of the box. -/
noncomputable def bbFrom (t : Thr ℝ) (a b e f : Pt ℝ) : Res (Pt ℝ × Pt ℝ) :=
  if samePt t.nullDistance (a.1, b.2) (e.1, f.2) then .throw
  else if shareCommonCoord t.nullOrthogDistance (a.1, b.2) (e.1, f.2) then .throw
  else .ok ((a.1, b.2), (e.1, f.2))

theorem bbFrom_mv (t : Thr ℝ) (a b e f : Pt ℝ) : bbFrom t (mvP d a) (mvP d b) (mvP d e) (mvP d f) = after (mvS d) (bbFrom t a b e f) := by
  unfold bbFrom
  rw [after_ite, after_ite]
  exact if_congr (iff_of_eq (congrArg (· = true) (same_mv d t.nullDistance (a.1, b.2) (e.1, f.2)))) rfl
    (if_congr (iff_of_eq (congrArg (· = true) (share_mv d t.nullOrthogDistance (a.1, b.2) (e.1, f.2)))) rfl rfl)

theorem bbPoints_from (t : Thr ℝ) (x : Pt ℝ) (l : List (Pt ℝ)) : getBB_Points t (x :: l) =
    bbFrom t (minElemLoop (fun a b => decide (a.1 < b.1)) 1 l x 0).1 (minElemLoop (fun a b => decide (a.2 < b.2)) 1 l x 0).1
      (maxElemLoop (fun a b => decide (a.1 < b.1)) l x) (maxElemLoop (fun a b => decide (a.2 < b.2)) l x) := rfl

theorem bbPoints_mv (t : Thr ℝ) (l : List (Pt ℝ)) : getBB_Points t (l.map (mvP d)) = after (mvS d) (getBB_Points t l) := by
  cases l with
  | nil => rfl
  | cons x l =>
    rw [List.map_cons]
    have h1 := minLoop_mv (comp := fun a b : Pt ℝ => decide (a.1 < b.1)) (f := mvP d) (fun a b => by simp only [mvP, add_lt_add_iff_right]) l 1 x 0
    have h2 := minLoop_mv (comp := fun a b : Pt ℝ => decide (a.2 < b.2)) (f := mvP d) (fun a b => by simp only [mvP, add_lt_add_iff_right]) l 1 x 0
    have h3 := maxLoop_mv (comp := fun a b : Pt ℝ => decide (a.1 < b.1)) (f := mvP d) (fun a b => by simp only [mvP, add_lt_add_iff_right]) l x
    have h4 := maxLoop_mv (comp := fun a b : Pt ℝ => decide (a.2 < b.2)) (f := mvP d) (fun a b => by simp only [mvP, add_lt_add_iff_right]) l x
    rw [bbPoints_from, bbPoints_from, h1, h2, h3, h4, bbFrom_mv]

theorem ofPts_mv (t : ℝ) (p q : Pt ℝ) : FRect.ofPts t (mvP d p) (mvP d q) = after (mvR d) (FRect.ofPts t p q) := by
  unfold FRect.ofPts getCorrectPoints
  rw [share_mv]
  split_ifs
  · rfl
  · simp only [Res.bind_ok, mvP, min_add_add_right, max_add_add_right]
    rfl

theorem polyBB_mv (t : Thr ℝ) (l : List (Pt ℝ)) : polyGetBB t (l.map (mvP d)) = after (mvR d) (polyGetBB t l) := by
  unfold polyGetBB
  rw [List.length_map, after_ite, bbPoints_mv, bind_after, after_bind]
  refine if_congr Iff.rfl rfl (bind_same fun ab _ => ?_)
  obtain ⟨a, b⟩ := ab
  change (if shareCommonCoord t.nullOrthogDistance (mvP d a) (mvP d b) then Res.throw else FRect.ofPts t.nullOrthogDistance (mvP d a) (mvP d b)) =
    after (mvR d) (if shareCommonCoord t.nullOrthogDistance a b then Res.throw else FRect.ofPts t.nullOrthogDistance a b)
  rw [after_ite, ofPts_mv]
  exact if_congr (iff_of_eq (congrArg (· = true) (share_mv d _ a b))) rfl rfl

end H2d.Move
