import Verif.Model.FloatUnion
import Verif.Model.FloatCentroid
import Verif.Model.FloatHLine
import Verif.Model.FloatSearch
import Verif.Lemmas.PipModel

/-! # No access out of range, whatever the rounding -/

namespace H2d.Fl

open H2d.Pip (bind_ne_ub)

variable (F : Arith) (t : Thr ℝ) (ac : ℝ → ℝ)

theorem segMake_safe (p q : Pt ℝ) : segMake F t p q ≠ .ub := by
  unfold segMake
  split_ifs <;> simp

theorem normalizeLine_safe (l : V3 ℝ) : normalizeLine F t l ≠ .ub := by
  unfold normalizeLine
  simp only
  split_ifs <;> simp

theorem lineOfPts_safe (p q : Pt ℝ) : lineOfPts F t p q ≠ .ub := by
  unfold lineOfPts
  split_ifs
  · simp
  · exact normalizeLine_safe F t _

theorem lineInter_safe (l m : V3 ℝ) : lineInter F t ac l m ≠ .ub := by
  unfold lineInter
  split_ifs <;> simp

theorem segInter_safe (s s' : Seg) : segInter F t ac s s' ≠ .ub := by
  unfold segInter
  split_ifs
  · simp
  · refine bind_ne_ub (lineOfPts_safe F t _ _) fun l1 => bind_ne_ub (lineOfPts_safe F t _ _) fun l2 => ?_
    split_ifs
    · simp
    · refine bind_ne_ub (lineInter_safe F t ac _ _) fun o => ?_
      cases o with
      | none => simp
      | some p =>
        simp only
        split_ifs <;> simp

theorem rectOfPts_safe (p q : Pt ℝ) : rectOfPts F t p q ≠ .ub := by
  unfold rectOfPts
  split_ifs <;> simp

theorem edgeSeg_safe {P S : Type} {mk : P → P → Res S} (hmk : ∀ a b, mk a b ≠ .ub) (pts : List P) (idx : Nat) : Simple.edgeSeg mk pts idx ≠ .ub := by
  unfold Simple.edgeSeg
  split_ifs with h h2
  · simp
  all_goals
    have hn : nbSegs true pts ≤ pts.length := by
      unfold nbSegs
      split_ifs <;> simp
  · have h0 : idx < pts.length := by omega
    rw [List.getElem?_eq_getElem h0, List.getElem?_eq_getElem (show 0 < pts.length by omega)]
    exact hmk _ _
  · have h0 : idx < pts.length := by omega
    have h2' : idx + 1 ≠ nbSegs true pts := by simpa using h2
    rw [List.getElem?_eq_getElem h0, List.getElem?_eq_getElem (show idx + 1 < pts.length by omega)]
    exact hmk _ _

theorem innerLoop_safe {P S : Type} {mk : P → P → Res S} {inter : S → S → Res (Option P)} (hmk : ∀ a b, mk a b ≠ .ub) (hi : ∀ a b, inter a b ≠ .ub) (pts : List P) (s : S) :
    ∀ l, Simple.innerLoop mk inter pts s l ≠ .ub
  | [] => by simp [Simple.innerLoop]
  | j :: js => by
    unfold Simple.innerLoop
    refine bind_ne_ub (edgeSeg_safe hmk _ _) fun a => bind_ne_ub (hi _ _) fun o => ?_
    cases o with
    | none => exact innerLoop_safe hmk hi pts s js
    | some b => simp

theorem outerLoop_safe {P S : Type} {mk : P → P → Res S} {inter : S → S → Res (Option P)} (hmk : ∀ a b, mk a b ≠ .ub) (hi : ∀ a b, inter a b ≠ .ub) (pts : List P) :
    ∀ l, Simple.outerLoop mk inter pts l ≠ .ub
  | [] => by simp [Simple.outerLoop]
  | j :: js => by
    unfold Simple.outerLoop
    refine bind_ne_ub (edgeSeg_safe hmk _ _) fun a => bind_ne_ub (innerLoop_safe hmk hi _ _ _) fun b => ?_
    split_ifs
    · simp
    · exact outerLoop_safe hmk hi pts js

theorem run_safe {P S : Type} {mk : P → P → Res S} {inter : S → S → Res (Option P)} (hmk : ∀ a b, mk a b ≠ .ub) (hi : ∀ a b, inter a b ≠ .ub) (closed : Bool) (pts : List P) :
    Simple.run mk inter closed pts ≠ .ub := by
  unfold Simple.run
  split_ifs
  · simp
  · simp
  · exact bind_ne_ub (outerLoop_safe hmk hi _ _) fun b => by simp

theorem simpleF_safe (closed : Bool) (pts : List (Pt ℝ)) : simpleF F t ac closed pts ≠ .ub := run_safe (segMake_safe F t) (segInter_safe F t ac) closed pts

theorem centroid_safe (closed : Bool) (pts : List (Pt ℝ)) : centroid F t ac closed pts ≠ .ub := by
  unfold centroid
  refine bind_ne_ub (simpleF_safe F t ac _ _) fun b => ?_
  split_ifs <;> simp

theorem polyArea_safe (closed : Bool) (pts : List (Pt ℝ)) : polyArea F t ac closed pts ≠ .ub := by
  unfold polyArea
  refine bind_ne_ub (simpleF_safe F t ac _ _) fun b => ?_
  split_ifs <;> simp

theorem polySegs_safe : ∀ l, polySegs F t l ≠ .ub
  | [] => by simp [polySegs]
  | e :: l => by
    unfold polySegs
    exact bind_ne_ub (segMake_safe F t _ _) fun _ => bind_ne_ub (polySegs_safe l) fun _ => by simp

theorem nearLine_safe (p : Pt ℝ) : ∀ l, nearLine F t p l ≠ .ub
  | [] => by simp [nearLine]
  | s :: l => by
    unfold nearLine
    refine bind_ne_ub (lineOfPts_safe F t _ _) fun li => ?_
    split_ifs
    · simp
    · exact nearLine_safe p l

theorem pipCount_safe (ref : Seg) : ∀ l, pipCount F t ac ref l ≠ .ub
  | [] => by simp [pipCount]
  | s :: l => by
    unfold pipCount
    exact bind_ne_ub (segInter_safe F t ac _ _) fun _ => bind_ne_ub (pipCount_safe ref l) fun _ => by simp

theorem pipTry_safe (pts : List (Pt ℝ)) (segs : List Seg) (p : Pt ℝ) : ∀ l tc, pipTry F t ac pts segs p l tc ≠ .ub
  | [], _ => by simp [pipTry]
  | s :: l, tc => by
    unfold pipTry
    refine bind_ne_ub (segMake_safe F t _ _) fun ref => ?_
    simp only
    split_ifs
    · exact pipTry_safe pts segs p l _
    · exact bind_ne_ub (pipCount_safe F t ac _ _) fun _ => by simp

theorem splitAll_safe : ∀ l, splitAll F t l ≠ .ub
  | [] => by simp [splitAll]
  | s :: l => by
    unfold splitAll
    exact bind_ne_ub (segMake_safe F t _ _) fun _ => bind_ne_ub (segMake_safe F t _ _) fun _ => bind_ne_ub (splitAll_safe l) fun _ => by simp

theorem pipLoop_safe (pts : List (Pt ℝ)) (segs : List Seg) (p : Pt ℝ) : ∀ n l, pipLoop F t ac pts segs p n l ≠ .ub
  | 0, _ => by simp [pipLoop]
  | n + 1, l => by
    unfold pipLoop
    refine bind_ne_ub (pipTry_safe F t ac _ _ _ _ _) fun o => ?_
    cases o with
    | some b => simp
    | none =>
      simp only
      split_ifs
      · simp
      · exact bind_ne_ub (splitAll_safe F t _) fun bb => pipLoop_safe pts segs p n bb

theorem polyGetBB_safe (pts : List (Pt ℝ)) : polyGetBB F t pts ≠ .ub := by
  unfold polyGetBB
  cases pts with
  | nil => simp
  | cons x xs =>
    simp only
    split_ifs
    · simp
    · simp
    · simp
    · exact rectOfPts_safe F t _ _

theorem rectSegs_safe (r : FRect ℝ) : rectSegs F t r ≠ .ub := by
  unfold rectSegs
  exact bind_ne_ub (segMake_safe F t _ _) fun _ => bind_ne_ub (segMake_safe F t _ _) fun _ => bind_ne_ub (segMake_safe F t _ _) fun _ => bind_ne_ub (segMake_safe F t _ _) fun _ => by simp

theorem ptInsidePoly_safe (closed : Bool) (pts : List (Pt ℝ)) (p : Pt ℝ) : Fl.ptInsidePoly F t ac closed pts p ≠ .ub := by
  unfold Fl.ptInsidePoly
  refine bind_ne_ub (simpleF_safe F t ac _ _) fun b => ?_
  split_ifs
  · simp
  · refine bind_ne_ub (polyGetBB_safe F t _) fun bb => ?_
    split_ifs
    · simp
    · refine bind_ne_ub (polySegs_safe F t _) fun segs => bind_ne_ub (nearLine_safe F t _ _) fun b => ?_
      split_ifs
      · simp
      · exact bind_ne_ub (rectOfPts_safe F t _ _) fun ext => bind_ne_ub (rectSegs_safe F t _) fun bb => pipLoop_safe F t ac _ _ _ _ _

/-- The loop returns at most two points. -/
theorem rectSegLoop_safe (s : Seg) : ∀ l out, out.length ≤ 1 → rectSegLoop F t ac s l out ≠ .ub ∧ ∀ r, rectSegLoop F t ac s l out = .ok r → r.length ≤ 2
  | [], out, h => by
    refine ⟨by simp [rectSegLoop], fun r hr => ?_⟩
    unfold rectSegLoop at hr
    cases hr
    omega
  | rseg :: l, out, h => by
    unfold rectSegLoop
    rcases hi : segInter F t ac rseg s with o | _ | _
    · cases o with
      | none => exact rectSegLoop_safe s l out h
      | some pt =>
        match out, h with
        | [], _ =>
          simp only [Res.bind_ok]
          rw [if_neg (by simp)]
          exact rectSegLoop_safe s l _ (by simp)
        | [q], _ =>
          classical
          by_cases hs : PtSame F t q pt
          · have e : (if PtSame F t q pt then [q] else [q] ++ [pt]) = [q] := if_pos hs
            simp only [Res.bind_ok, e]
            rw [if_neg (by simp)]
            exact rectSegLoop_safe s l _ (by simp)
          · have e : (if PtSame F t q pt then [q] else [q] ++ [pt]) = [q] ++ [pt] := if_neg hs
            simp only [Res.bind_ok, e]
            rw [if_pos (by simp)]
            exact ⟨by simp, fun r hr => by cases hr; simp⟩
        | _ :: _ :: _, h => simp at h
    · exact ⟨by simp [bind, Res.bind], fun r hr => by simp [bind, Res.bind] at hr⟩
    · exact absurd hi (segInter_safe F t ac _ _)

theorem rectSegInter_safe (r : FRect ℝ) (s : Seg) : rectSegInter F t ac r s ≠ .ub ∧ ∀ l, rectSegInter F t ac r s = .ok l → l.length ≤ 2 := by
  unfold rectSegInter
  refine ⟨bind_ne_ub (rectSegs_safe F t _) fun l => (rectSegLoop_safe F t ac _ _ _ (by simp)).1, fun out h => ?_⟩
  rcases hi : rectSegs F t r with o | _ | _ <;> rw [hi] at h
  · exact (rectSegLoop_safe F t ac _ _ _ (by simp)).2 _ h
  · cases h
  · cases h

theorem rectLoop_safe (b : FRect ℝ) : ∀ l pts, rectLoop F t ac b l pts ≠ .ub
  | [], _ => by simp [rectLoop]
  | s :: l, pts => by
    unfold rectLoop
    obtain ⟨h1, h2⟩ := rectSegInter_safe F t ac b s
    rcases hi : rectSegInter F t ac b s with o | _ | _
    · have := h2 _ hi
      match o, this with
      | [], _ => exact rectLoop_safe b l _
      | [x], _ => exact rectLoop_safe b l _
      | [x, y], _ => exact rectLoop_safe b l _
      | _ :: _ :: _ :: _, h => simp at h
    · simp [bind, Res.bind]
    · exact absurd hi h1

theorem rectInter_safe (a b : FRect ℝ) : rectInter F t ac a b ≠ .ub := by
  unfold rectInter
  split_ifs
  · simp
  · exact bind_ne_ub (rectSegs_safe F t _) fun l => rectLoop_safe F t ac _ _ _

theorem homInverse_safe (m : Mat ℝ) : homInverse F t m ≠ .ub := by
  unfold homInverse inverse normalizeMat
  split_ifs
  · simp [Res.bind]
  · simp only [Res.bind]
    split_ifs <;> simp

theorem lineImage_safe (m : Mat ℝ) (l : V3 ℝ) : lineImage F t m l ≠ .ub := by
  unfold lineImage
  rcases hi : homInverse F t m with o | _ | _
  · exact normalizeLine_safe F t _
  · simp [Res.bind]
  · exact absurd hi (homInverse_safe F t m)

end H2d.Fl
