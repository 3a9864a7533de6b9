import Verif.Lemmas.MovePoly

/-! # Lemmas on moving polygons and points, circles -/

namespace H2d.Move
open H2d H2d.Spec

variable (d : Pt ℝ)

/-! ### point in polygon -/

theorem center_mv (s : Seg) : segCenter (mvS d s) = mvP d (segCenter s) := by
  simp only [segCenter, mvS, mvP]
  apply Prod.ext <;> simp only <;> ring

theorem lineDist_mv (l : V3 ℝ) (p : Pt ℝ) : lineDist (mvL d l) (mvP d p) = lineDist l p := by
  unfold lineDist
  rw [mvL_0, mvL_1, mvL_2, mvP_1, mvP_2, show l 0 * (p.1 + d.1) + l 1 * (p.2 + d.2) + (l 2 - l 0 * d.1 - l 1 * d.2) = l 0 * p.1 + l 1 * p.2 + l 2 by ring]

theorem nearLine_mv {t : Thr ℝ} (p : Pt ℝ) : ∀ {l : List Seg}, (∀ s ∈ l, MoveOk t d s.1 s.2) → nearLine t (mvP d p) (l.map (mvS d)) = nearLine t p l
  | [], _ => rfl
  | s :: l, h => by
    rw [List.map_cons, nearLine, nearLine, segLine_mv d (h s (by simp)), bind_after]
    refine bind_same fun li _ => if_congr (by rw [lineDist_mv]) rfl (nearLine_mv p fun q hq => h q (by simp [hq]))

theorem pipCount_mv {t : Thr ℝ} (ht : 0 < t.nullAngleValue) {ref : Seg} (hr : MoveOk t d ref.1 ref.2) : ∀ {l : List Seg}, (∀ s ∈ l, MoveOk t d s.1 s.2) →
    pipCount t (mvS d ref) (l.map (mvS d)) = pipCount t ref l
  | [], _ => rfl
  | s :: l, h => by
    rw [List.map_cons, pipCount, pipCount, segInter_mv d ht (h s (by simp)) hr, bind_after]
    refine bind_same fun i _ => ?_
    rw [pipCount_mv ht hr fun q hq => h q (by simp [hq]), Option.isSome_map]

theorem pipTry_mv {t : Thr ℝ} (ht : 0 < t.nullAngleValue) (pts : List (Pt ℝ)) {segs : List Seg} (hs : ∀ s ∈ segs, MoveOk t d s.1 s.2) (p : Pt ℝ) :
    ∀ {l : List Seg}, (∀ s ∈ l, MoveOk t d p (segCenter s)) → ∀ b, pipTry t (pts.map (mvP d)) (segs.map (mvS d)) (mvP d p) (l.map (mvS d)) b = pipTry t pts segs p l b
  | [], _, _ => rfl
  | s :: l, h, b => by
    rw [List.map_cons, pipTry, pipTry, center_mv, segMake_mv, bind_after]
    refine bind_same fun ref hr => ?_
    have e : ((pts.map (mvP d)).any fun v => open Classical in decide ((segDistTo (mvS d ref) v).1 < t.nullDistance)) = pts.any fun v => open Classical in decide ((segDistTo ref v).1 < t.nullDistance) := by
      rw [List.any_map]
      congr 1
      funext v
      simp only [Function.comp, segDist_mv]
    dsimp only
    rw [e]
    refine if_congr Iff.rfl (pipTry_mv ht pts hs p (fun q hq => h q (by simp [hq])) _) ?_
    rw [pipCount_mv d ht (ok_make d (h s (by simp)) hr) hs]

theorem split_mv (t : Thr ℝ) (o : Bool) (s : Seg) : segSplit t o (mvS d s) = after (fun r => (mvS d r.1, mvS d r.2)) (segSplit t o s) := by
  unfold segSplit
  rw [center_mv, mvS_1, mvS_2, segMake_mv, segMake_mv, bind_after, after_bind]
  refine bind_same fun a _ => ?_
  rw [bind_after, after_bind]
  rfl

theorem splitAll_mv (t : Thr ℝ) : ∀ l : List Seg, splitAll t (l.map (mvS d)) = after (List.map (mvS d)) (splitAll t l)
  | [] => rfl
  | s :: l => by
    rw [List.map_cons, splitAll, splitAll, split_mv, bind_after, after_bind]
    refine bind_same fun a _ => ?_
    rw [splitAll_mv t l, bind_after, after_bind]
    rfl

theorem make_ends {t : Thr ℝ} {p q : Pt ℝ} {s : Seg} (h : segMake t false p q = .ok s) : s = (p, q) ∨ s = (q, p) := by
  unfold segMake at h
  split_ifs at h
  · rename_i h1; cases h1
  · cases h
    unfold fixOrder
    split_ifs
    · exact Or.inr rfl
    · exact Or.inl rfl

theorem piece_make {t : Thr ℝ} {r : FRect ℝ} {n : Nat} {p q : Pt ℝ} {s : Seg} (h : segMake t false p q = .ok s) (hp : Piece r n p q) : Piece r n s.1 s.2 := by
  rcases make_ends h with rfl | rfl
  · exact hp
  · exact hp.swap

theorem midPt_comm (p q : Pt ℝ) : midPt p q = midPt q p := by unfold midPt; rw [add_comm p.1, add_comm p.2]

theorem piece_split {t : Thr ℝ} {r : FRect ℝ} {n : Nat} : ∀ {l l' : List Seg}, (∀ s ∈ l, Piece r n s.1 s.2) → splitAll t l = .ok l' → ∀ s ∈ l', Piece r (n + 1) s.1 s.2
  | [], l', _, h, s, hs => by cases h; cases hs
  | e :: l, l', hl, h, s, hs => by
    rw [splitAll] at h
    cases h1 : segSplit t false e with
    | throw => rw [h1] at h; cases h
    | ub => rw [h1] at h; cases h
    | ok ab =>
      cases h2 : splitAll t l with
      | throw => rw [h1, h2] at h; cases h
      | ub => rw [h1, h2] at h; cases h
      | ok r' =>
        rw [h1, h2] at h
        cases h
        unfold segSplit at h1
        cases h3 : segMake t false e.1 (segCenter e) with
        | throw => rw [h3] at h1; cases h1
        | ub => rw [h3] at h1; cases h1
        | ok a =>
          cases h4 : segMake t false (segCenter e) e.2 with
          | throw => rw [h3, h4] at h1; cases h1
          | ub => rw [h3, h4] at h1; cases h1
          | ok b =>
            rw [h3, h4] at h1
            cases h1
            have he := hl e (by simp)
            rcases List.mem_cons.1 hs with rfl | hs
            · exact piece_make h3 he.half
            · rcases List.mem_cons.1 hs with rfl | hs
              · refine piece_make h4 ?_
                have := he.swap.half
                rw [midPt_comm] at this
                exact this.swap
              · exact piece_split (fun q hq => hl q (by simp [hq])) h2 s hs

theorem pipLoop_mv {t : Thr ℝ} (ht : 0 < t.nullAngleValue) (pts : List (Pt ℝ)) {segs : List Seg} (hs : ∀ s ∈ segs, MoveOk t d s.1 s.2) (p : Pt ℝ) {r : FRect ℝ}
    (hr : ∀ n < 5, ∀ a b, Piece r n a b → MoveOk t d p (midPt a b)) : ∀ (n k : Nat), k + n ≤ 5 → ∀ {bb : List Seg}, (∀ s ∈ bb, Piece r k s.1 s.2) →
    pipLoop t (pts.map (mvP d)) (segs.map (mvS d)) (mvP d p) n (bb.map (mvS d)) = pipLoop t pts segs p n bb
  | 0, _, _, _, _ => rfl
  | n + 1, k, hk, bb, hb => by
    rw [pipLoop, pipLoop, pipTry_mv d ht pts hs p (fun s h => hr k (by omega) _ _ (hb s h))]
    refine bind_same fun o _ => ?_
    cases o with
    | some b => rfl
    | none =>
      refine if_congr Iff.rfl rfl ?_
      rw [splitAll_mv, bind_after]
      exact bind_same fun bb' h' => pipLoop_mv ht pts hs p hr n (k + 1) (by omega) (piece_split hb h')

theorem rectSegs_mv (t : Thr ℝ) (r : FRect ℝ) : rectSegs t (mvR d r) = after (List.map (mvS d)) (rectSegs t r) := by
  unfold rectSegs
  have e1 : ((mvR d r).p1.1, (mvR d r).p2.2) = mvP d (r.p1.1, r.p2.2) := rfl
  have e2 : ((mvR d r).p2.1, (mvR d r).p1.2) = mvP d (r.p2.1, r.p1.2) := rfl
  have e3 : (mvR d r).p1 = mvP d r.p1 := rfl
  have e4 : (mvR d r).p2 = mvP d r.p2 := rfl
  rw [e1, e2, e3, e4, segMake_mv, segMake_mv, segMake_mv, segMake_mv, bind_after, after_bind]
  refine bind_same fun a _ => ?_
  rw [bind_after, after_bind]
  refine bind_same fun b _ => ?_
  rw [bind_after, after_bind]
  refine bind_same fun c _ => ?_
  rw [bind_after, after_bind]
  rfl

theorem rectSegs_piece {t : Thr ℝ} {r : FRect ℝ} {l : List Seg} (h : rectSegs t r = .ok l) : ∀ s ∈ l, Piece r 0 s.1 s.2 := by
  unfold rectSegs at h
  cases h0 : segMake t false r.p1 (r.p1.1, r.p2.2) with
  | throw => rw [h0] at h; cases h
  | ub => rw [h0] at h; cases h
  | ok s0 =>
    cases h1 : segMake t false (r.p1.1, r.p2.2) r.p2 with
    | throw => rw [h0, h1] at h; cases h
    | ub => rw [h0, h1] at h; cases h
    | ok s1 =>
      cases h2 : segMake t false r.p2 (r.p2.1, r.p1.2) with
      | throw => rw [h0, h1, h2] at h; cases h
      | ub => rw [h0, h1, h2] at h; cases h
      | ok s2 =>
        cases h3 : segMake t false (r.p2.1, r.p1.2) r.p1 with
        | throw => rw [h0, h1, h2, h3] at h; cases h
        | ub => rw [h0, h1, h2, h3] at h; cases h
        | ok s3 =>
          rw [h0, h1, h2, h3] at h
          cases h
          intro s hs
          simp only [List.mem_cons, List.not_mem_nil, or_false] at hs
          rcases hs with rfl | rfl | rfl | rfl
          · exact piece_make h0 .left
          · exact piece_make h1 .top
          · exact piece_make h2 .right
          · exact piece_make h3 .bottom

theorem extended_mv (t : ℝ) (r : FRect ℝ) : (mvR d r).getExtended t = after (mvR d) (r.getExtended t) := by
  unfold FRect.getExtended
  rw [← ofPts_mv]
  congr 1 <;> apply Prod.ext <;> simp only [mvR, mvP] <;> ring

theorem ofPts_order {t : ℝ} {p q : Pt ℝ} {r : FRect ℝ} (h : FRect.ofPts t p q = .ok r) : r = ⟨(min p.1 q.1, min p.2 q.2), (max p.1 q.1, max p.2 q.2)⟩ := by
  unfold FRect.ofPts getCorrectPoints at h
  split_ifs at h
  · cases h
  · cases h; rfl

theorem polyBB_order {t : Thr ℝ} {pts : List (Pt ℝ)} {r : FRect ℝ} (h : polyGetBB t pts = .ok r) : r.p1.1 ≤ r.p2.1 ∧ r.p1.2 ≤ r.p2.2 := by
  unfold polyGetBB at h
  split_ifs at h
  cases h1 : getBB_Points t pts with
  | throw => rw [h1] at h; cases h
  | ub => rw [h1] at h; cases h
  | ok ab =>
    obtain ⟨a, b⟩ := ab
    rw [h1] at h
    simp only [Res.bind_ok] at h
    split_ifs at h
    rw [ofPts_order h]
    exact ⟨min_le_max, min_le_max⟩

theorem extended_big {t : ℝ} {r e : FRect ℝ} (h1 : r.p1.1 ≤ r.p2.1) (h2 : r.p1.2 ≤ r.p2.2) (h : r.getExtended t = .ok e) : e = bigBox r := by
  rw [ofPts_order h, bigBox]
  simp only
  rw [min_eq_left (by linarith), min_eq_left (by linarith), max_eq_right (by linarith), max_eq_right (by linarith)]

theorem insideRect_mv (p : Pt ℝ) (r : FRect ℝ) : Pt.isInsideRect (mvP d p) (mvR d r) = Pt.isInsideRect p r := by
  simp only [Pt.isInsideRect, ptIsInside, getCorrectPoints, mvR, mvP, add_lt_add_iff_right, add_le_add_iff_right, gt_iff_lt, min_add_add_right, max_add_add_right]

theorem insidePoly_mv {t : Thr ℝ} (ht : 0 < t.nullAngleValue) {closed : Bool} {pts : List (Pt ℝ)} (hp : MoveOkPts t d closed pts) {p : Pt ℝ} (hr : MoveOkRefs t d pts p) :
    ptInsidePoly t closed (pts.map (mvP d)) (mvP d p) = ptInsidePoly t closed pts p := by
  unfold ptInsidePoly
  rw [isSimple_mv d ht hp, polyBB_mv, bind_after, pairs_mv, polySegs_mv]
  refine if_congr Iff.rfl rfl (bind_same fun box hb => ?_)
  rw [insideRect_mv]
  refine if_congr Iff.rfl rfl ?_
  rw [bind_after]
  refine bind_same fun segs hs => ?_
  have hs' := polySegs_mem d hp hs
  rw [nearLine_mv d p hs']
  refine bind_same fun b _ => if_congr Iff.rfl rfl ?_
  rw [extended_mv, bind_after]
  refine bind_same fun e he => ?_
  rw [rectSegs_mv, bind_after]
  refine bind_same fun bb hbb => ?_
  obtain ⟨o1, o2⟩ := polyBB_order hb
  have := extended_big o1 o2 he
  subst this
  exact pipLoop_mv d ht pts hs' p (hr box hb) 5 0 (by omega) (rectSegs_piece hbb)

end H2d.Move
