import Verif.Model.Raster
import Verif.Spec.Raster
import Verif.Lemmas.PipModel
import Verif.Lemmas.Derived
import Verif.Lemmas.FloatMec
import Verif.Lemmas.Exchange
import Mathlib.Tactic.Linarith

set_option linter.unusedSectionVars false

namespace H2d.Raster

open H2d
open H2d.Svg (pointMark Mark makeSegs strokePairs)

/-- Call for one segment. -/
noncomputable def segCall (x : Ctx) (dp : Draw.Vals) (s : Seg) : Prim := .line (cvPtd x.cvRound s.1) (cvPtd x.cvRound s.2) (lookOf dp)

/-- Drawing of a point with a style other than `Dot`. -/
noncomputable def ptStrokes (x : Ctx) (dp : Draw.Vals) (p : Pt ℝ) : Drawn :=
  compute (pointMark x.t x.flag x.cols x.rows dp p) (fun m =>
    match m with
    | .strokes l => put (l.map (segCall x dp))
    | _ => put [])

/-- Drawing of a circle. -/
noncomputable def circAll (x : Ctx) (dp : Draw.Vals) (c : Circle) : Drawn :=
  compute (cvPti c.center) (fun q => compute (toInt c.radius) (fun r =>
    andThen (put [.circle q r (lookOf dp)]) (if dp.showPoints then ptStrokes x { dp with style := 0 } c.center else put [])))

/-- Drawing of a point. -/
noncomputable def ptAll (x : Ctx) (dp : Draw.Vals) (p : Pt ℝ) : Drawn :=
  compute (pointMark x.t x.flag x.cols x.rows dp p) (fun m =>
    match m with
    | .nothing => put []
    | .dot c => circAll x dp c
    | .strokes l => put (l.map (segCall x dp)))

/-- Drawing of a segment. -/
noncomputable def segAll (x : Ctx) (dp : Draw.Vals) (s : Seg) : Drawn :=
  andThen (put [segCall x dp s]) (if dp.showPoints then andThen (ptAll x dp s.1) (ptAll x dp s.2) else put [])

theorem put_put (a b : List Prim) : andThen (put a) (put b) = put (a ++ b) := rfl

theorem inOrder_puts {α : Type} (f : α → Prim) : ∀ l : List α, inOrder (l.map (fun s => put [f s])) = put (l.map f)
  | [] => rfl
  | a :: l => by rw [List.map_cons, inOrder, inOrder_puts f l, put_put]; rfl

theorem run_seg_bare (x : Ctx) (n : Nat) (dp : Draw.Vals) (hs : dp.showPoints = false) (s : Seg) : run x (n+1) dp (.seg s) = put [segCall x dp s] := by
  rw [run, hs]; rfl

theorem pointMark_dot {t : Thr ℝ} {flag : Bool} {cols rows : Nat} {dp : Draw.Vals} {p : Pt ℝ} {c : Circle}
    (h : pointMark t flag cols rows dp p = .ok (.dot c)) :
    dp.style = 5 ∧ c = ⟨p, dp.pointSize⟩ ∧ 0 ≤ p.1 ∧ p.1 < cols ∧ 0 ≤ p.2 ∧ p.2 < rows := by
  unfold pointMark at h
  split_ifs at h with h1 h2
  · cases h
  · cases h
  rw [not_or, not_lt, not_le] at h1 h2
  have hb : ∀ (r : Res (List Seg)) (m : Mark), (do let l ← r; pure (Mark.strokes l) : Res Mark) = .ok m → ∃ l, m = .strokes l := by
    intro r m hm
    cases r with
    | ok l => exact ⟨l, by simpa using hm.symm⟩
    | throw => cases hm
    | ub => cases hm
  split at h
  · rename_i hst
    have hc : circleMake t flag p dp.pointSize = .ok c := by
      cases hq : circleMake t flag p dp.pointSize with
      | ok c' => rw [hq] at h; simp at h; rw [h]
      | throw => rw [hq] at h; cases h
      | ub => rw [hq] at h; cases h
    refine ⟨Fin.ext hst, ?_, h1.1, h1.2, h2.1, h2.2⟩
    unfold circleMake at hc
    split_ifs at hc
    exact (Res.ok.inj hc).symm
  · obtain ⟨l, hl⟩ := hb _ _ h; cases hl
  · cases hq : makeSegs t (strokePairs dp.ptDelta p false false) with
    | ok l =>
      rw [hq] at h
      cases hq2 : makeSegs t (strokePairs dp.ptDelta p true false) with
      | ok l2 => rw [hq2] at h; simp at h
      | throw => rw [hq2] at h; cases h
      | ub => rw [hq2] at h; cases h
    | throw => rw [hq] at h; cases h
    | ub => rw [hq] at h; cases h
  · obtain ⟨l, hl⟩ := hb _ _ h; cases hl
  · obtain ⟨l, hl⟩ := hb _ _ h; cases hl
  · obtain ⟨l, hl⟩ := hb _ _ h; cases hl
  · cases h

theorem run_point_strokes (x : Ctx) (n : Nat) (dp : Draw.Vals) (hs : dp.style ≠ 5) (p : Pt ℝ) : run x (n+2) dp (.point p) = ptStrokes x dp p := by
  rw [run, ptStrokes]
  cases hm : pointMark x.t x.flag x.cols x.rows dp p with
  | throw => rfl
  | ub => rfl
  | ok m =>
    cases m with
    | nothing => rfl
    | dot c => exact absurd (pointMark_dot hm).1 hs
    | strokes l =>
      simp only [compute]
      rw [← inOrder_puts]
      congr 1

theorem run_circle (x : Ctx) (n : Nat) (dp : Draw.Vals) (c : Circle) : run x (n+3) dp (.circle c) = circAll x dp c := by
  rw [run, circAll, run_point_strokes x n _ (by simp) _]

theorem run_point (x : Ctx) (n : Nat) (dp : Draw.Vals) (p : Pt ℝ) : run x (n+4) dp (.point p) = ptAll x dp p := by
  rw [run, ptAll]
  cases hm : pointMark x.t x.flag x.cols x.rows dp p with
  | throw => rfl
  | ub => rfl
  | ok m =>
    cases m with
    | nothing => rfl
    | dot c => exact run_circle x n dp c
    | strokes l =>
      simp only [compute]
      rw [← inOrder_puts]
      congr 1

theorem run_seg (x : Ctx) (n : Nat) (dp : Draw.Vals) (s : Seg) : run x (n+5) dp (.seg s) = segAll x dp s := by
  rw [run, segAll, run_point, run_point]; rfl

theorem drawItem_ends (x : Ctx) (n : Nat) (dp : Draw.Vals) (i : Svg.Item) : drawItem x (n+5) dp i = drawItem x 5 dp i := by
  have hp : ∀ dp p, run x (n+5) dp (.point p) = run x 5 dp (.point p) := fun dp p => (run_point x (n+1) dp p).trans (run_point x 1 dp p).symm
  have hs : ∀ dp s, run x (n+5) dp (.seg s) = run x 5 dp (.seg s) := fun dp s => (run_seg x n dp s).trans (run_seg x 0 dp s).symm
  cases i with
  | point p => exact hp dp p
  | line l => simp only [drawItem, hs]
  | circle c => exact (run_circle x (n+2) dp c).trans (run_circle x 2 dp c).symm
  | rect r => simp only [drawItem, drawRect, hp]
  | seg s => exact hs dp s
  | oseg s => rfl
  | poly closed pts =>
    simp only [drawItem]
    match pts with
    | [] => rfl
    | [_] => rfl
    | a :: b :: l => simp only [drawPoly, hs, hp]
  | ell e => rfl

/-! ### no undefined behaviour -/

open H2d.Spec

theorem toInt_sized {v : ℝ} (h : IntSized v) : ∃ n, toInt v = .ok n := by
  unfold toInt
  rw [IntSized, abs_lt] at h
  refine ⟨_, if_pos ?_⟩
  by_cases h0 : 0 ≤ v
  · rw [if_pos h0]
    refine ⟨le_trans (by norm_num) (Int.floor_nonneg.2 h0), Int.floor_lt.2 ?_⟩
    have := h.2; norm_num at this ⊢; linarith
  · rw [if_neg h0]
    push Not at h0
    constructor
    · have : (-2 ^ 31 : ℤ) - 1 < ⌈v⌉ := Int.lt_ceil.2 (by push_cast; linarith [h.1])
      omega
    · have : ⌈v⌉ ≤ 0 := Int.ceil_le.2 (by push_cast; exact h0.le)
      exact lt_of_le_of_lt this (by norm_num)

theorem cvPti_sized {p : Pt ℝ} (h1 : IntSized p.1) (h2 : IntSized p.2) : ∃ q, cvPti p = .ok q := by
  obtain ⟨a, ha⟩ := toInt_sized h1
  obtain ⟨b, hb⟩ := toInt_sized h2
  exact ⟨(a, b), by unfold cvPti; rw [ha, hb]; rfl⟩

theorem andThen_ne_ub {a b : Drawn} (ha : a.1 ≠ .ub) (hb : b.1 ≠ .ub) : (andThen a b).1 ≠ .ub := by
  obtain ⟨ra, la⟩ := a
  cases ra with
  | ok _ => exact hb
  | throw => intro h; cases h
  | ub => exact absurd rfl ha

theorem compute_ne_ub {α : Type} {r : Res α} {k : α → Drawn} (hr : r ≠ .ub) (hk : ∀ a, r = .ok a → (k a).1 ≠ .ub) : (compute r k).1 ≠ .ub := by
  cases r with
  | ok a => exact hk a rfl
  | throw => intro h; cases h
  | ub => exact absurd rfl hr

theorem inOrder_ne_ub : ∀ {l : List Drawn}, (∀ d ∈ l, d.1 ≠ .ub) → (inOrder l).1 ≠ .ub
  | [], _ => by intro h; cases h
  | d :: l, h => andThen_ne_ub (h d (by simp)) (inOrder_ne_ub (fun e he => h e (by simp [he])))

theorem put_ne_ub (l : List Prim) : (put l).1 ≠ .ub := by intro h; cases h

theorem makeSegs_ne_ub (t : Thr ℝ) : ∀ l, makeSegs t l ≠ .ub
  | [] => by intro h; cases h
  | q :: l => Pip.bind_ne_ub (Pip.segMake_ne_ub t false _ _) (fun s => Pip.bind_ne_ub (makeSegs_ne_ub t l) (fun r => by intro h; cases h))

theorem pointMark_ne_ub {t : Thr ℝ} {flag : Bool} {cols rows : Nat} {dp : Draw.Vals} (hs : dp.style.val ≤ 5) (p : Pt ℝ) :
    pointMark t flag cols rows dp p ≠ .ub := by
  have hb : ∀ (r : Res (List Seg)), r ≠ .ub → (do let l ← r; pure (Mark.strokes l) : Res Mark) ≠ .ub :=
    fun r hr => Pip.bind_ne_ub hr (fun _ => by intro h; cases h)
  unfold pointMark
  split_ifs
  · intro h; cases h
  · intro h; cases h
  · split
    · exact Pip.bind_ne_ub (by unfold circleMake; split_ifs <;> (intro h; cases h)) (fun _ => by intro h; cases h)
    · exact hb _ (makeSegs_ne_ub t _)
    · exact Pip.bind_ne_ub (makeSegs_ne_ub t _) (fun _ => Pip.bind_ne_ub (makeSegs_ne_ub t _) (fun _ => by intro h; cases h))
    · exact hb _ (makeSegs_ne_ub t _)
    · exact hb _ (makeSegs_ne_ub t _)
    · exact hb _ (makeSegs_ne_ub t _)
    · rcases (by omega : dp.style.val = 0 ∨ dp.style.val = 1 ∨ dp.style.val = 2 ∨ dp.style.val = 3 ∨ dp.style.val = 4 ∨ dp.style.val = 5) with h | h | h | h | h | h <;> simp_all

theorem ptStrokes_ne_ub (x : Ctx) {dp : Draw.Vals} (hs : dp.style.val ≤ 5) (p : Pt ℝ) : (ptStrokes x dp p).1 ≠ .ub :=
  compute_ne_ub (pointMark_ne_ub hs p) (fun m _ => by cases m <;> exact put_ne_ub _)

theorem circAll_ne_ub (x : Ctx) {dp : Draw.Vals} {c : Circle} (h1 : IntSized c.center.1) (h2 : IntSized c.center.2) (h3 : IntSized c.radius) :
    (circAll x dp c).1 ≠ .ub := by
  obtain ⟨q, hq⟩ := cvPti_sized h1 h2
  obtain ⟨r, hr⟩ := toInt_sized h3
  unfold circAll
  rw [hq, hr]
  refine andThen_ne_ub (put_ne_ub _) ?_
  split_ifs
  · exact ptStrokes_ne_ub x (by simp) _
  · exact put_ne_ub _

theorem ptAll_ne_ub (x : Ctx) {dp : Draw.Vals} (hs : dp.style.val ≤ 5) (hz : IntSized dp.pointSize) (hc : x.cols ≤ 2 ^ 31) (hr : x.rows ≤ 2 ^ 31) (p : Pt ℝ) :
    (ptAll x dp p).1 ≠ .ub := by
  refine compute_ne_ub (pointMark_ne_ub hs p) (fun m hm => ?_)
  have hc' : (x.cols : ℝ) ≤ 2 ^ 31 := by exact_mod_cast hc
  have hr' : (x.rows : ℝ) ≤ 2 ^ 31 := by exact_mod_cast hr
  cases m with
  | nothing => exact put_ne_ub _
  | strokes l => exact put_ne_ub _
  | dot c =>
    obtain ⟨-, rfl, a1, a2, a3, a4⟩ := pointMark_dot hm
    exact circAll_ne_ub x (by rw [IntSized, abs_of_nonneg a1]; linarith) (by rw [IntSized, abs_of_nonneg a3]; linarith) hz

theorem segAll_ne_ub (x : Ctx) {dp : Draw.Vals} (hs : dp.style.val ≤ 5) (hz : IntSized dp.pointSize) (hc : x.cols ≤ 2 ^ 31) (hr : x.rows ≤ 2 ^ 31) (s : Seg) :
    (segAll x dp s).1 ≠ .ub := by
  refine andThen_ne_ub (put_ne_ub _) ?_
  split_ifs
  · exact andThen_ne_ub (ptAll_ne_ub x hs hz hc hr _) (ptAll_ne_ub x hs hz hc hr _)
  · exact put_ne_ub _

theorem arrowSegs_ne_ub (t : Thr ℝ) (s : Seg) : arrowSegs t s ≠ .ub := by
  have ho : ∀ l p, orthogLine t l p ≠ .ub := by
    intro l p; unfold orthogLine
    exact Pip.bind_ne_ub (normalizeLine_not_ub t _) (fun _ => normalizeLine_not_ub t _)
  have hg : ∀ l p d, getPoints t l p d ≠ .ub := by
    intro l p d; unfold getPoints; split_ifs <;> (intro h; cases h)
  unfold arrowSegs
  refine Pip.bind_ne_ub (Pip.segLine_ne_ub t s) (fun li => Pip.bind_ne_ub (ho _ _) (fun _ => Pip.bind_ne_ub (hg _ _ _) (fun _ =>
    Pip.bind_ne_ub (hg _ _ _) (fun pB => ?_))))
  exact Pip.bind_ne_ub (ho _ _) (fun _ => Pip.bind_ne_ub (hg _ _ _) (fun _ => by intro h; cases h))

theorem next_style_le {s : Fin 256} (h : s.val ≤ 5) : (Draw.nextPointStyle s).val ≤ 5 := by
  unfold Draw.nextPointStyle
  split_ifs with h5
  · simp
  · have : s.val ≠ 5 := fun h => h5 (Fin.ext h)
    have h4 : s.val ≤ 4 := by omega
    rw [Fin.val_add]
    simp only [Fin.val_one]
    omega

theorem drawItem_ne_ub (x : Ctx) (dp : Draw.Vals) (i : Svg.Item) (h : Drawable x dp i) : (drawItem x 5 dp i).1 ≠ .ub := by
  obtain ⟨⟨hs, hz, hc, hr⟩, h⟩ := h
  have hp : ∀ p, (run x 5 dp (.point p)).1 ≠ .ub := fun p => by rw [run_point]; exact ptAll_ne_ub x hs hz hc hr p
  have hg : ∀ s, (run x 5 dp (.seg s)).1 ≠ .ub := fun p => by rw [run_seg]; exact segAll_ne_ub x hs hz hc hr p
  cases i with
  | point p => exact hp p
  | line l =>
    refine compute_ne_ub ?_ (fun s _ => ?_)
    · unfold lineDrawn
      rw [if_neg (by simp only at h; omega)]
      refine Pip.bind_ne_ub (Axes.ofPts_ne_ub _ _ _) (fun r => Pip.bind_ne_ub (Axes.rectLineInter_ne_ub _ _ _) (fun l => ?_))
      split
      · exact Pip.bind_ne_ub (Pip.segMake_ne_ub _ _ _ _) (fun _ => by intro h; cases h)
      · intro h; cases h
    · cases s with
      | none => exact put_ne_ub _
      | some s => exact (congrArg Prod.fst (run_seg_bare x 4 { dp with showPoints := false } rfl s)).trans_ne (put_ne_ub _)
  | circle c =>
    simp only [drawItem]
    rw [run_circle]; exact circAll_ne_ub x h.1 h.2.1 h.2.2
  | rect r =>
    simp only [drawItem, drawRect]
    obtain ⟨a, ha⟩ := cvPti_sized h.1 h.2.1
    obtain ⟨b, hb⟩ := cvPti_sized h.2.2.1 h.2.2.2
    rw [ha, hb]
    refine andThen_ne_ub (put_ne_ub _) ?_
    split_ifs
    · exact andThen_ne_ub (hp _) (hp _)
    · exact put_ne_ub _
  | seg s => exact hg s
  | oseg s => exact andThen_ne_ub (put_ne_ub _) (compute_ne_ub (arrowSegs_ne_ub _ _) (fun _ _ => put_ne_ub _))
  | poly closed pts =>
    simp only [drawItem]
    match pts, h with
    | [], _ => exact put_ne_ub _
    | [_], _ => exact put_ne_ub _
    | a :: b :: l, h =>
      refine andThen_ne_ub (inOrder_ne_ub ?_) (andThen_ne_ub ?_ (andThen_ne_ub ?_ ?_))
      · intro d hd
        obtain ⟨q, -, rfl⟩ := List.mem_map.1 hd
        exact compute_ne_ub (Pip.segMake_ne_ub _ _ _ _) (fun s _ => hg s)
      · split_ifs
        · rw [run_point]; exact ptAll_ne_ub x (dp := { dp with color := (10, 10, 10), style := Draw.nextPointStyle dp.style }) (next_style_le hs) hz hc hr a
        · exact put_ne_ub _
      · split_ifs with hi
        · refine inOrder_ne_ub (fun d hd => ?_)
          obtain ⟨q, hq, rfl⟩ := List.mem_map.1 hd
          obtain ⟨z, hz⟩ := cvPti_sized (h hi q hq).1 (h hi q hq).2
          rw [hz]; exact put_ne_ub _
        · exact put_ne_ub _
      · split_ifs
        all_goals try exact put_ne_ub _
        all_goals exact compute_ne_ub (by unfold getOSegs; split_ifs <;> (intro h; cases h)) (fun _ _ => put_ne_ub _)
  | ell e =>
    refine compute_ne_ub ?_ (fun par hp => ?_)
    · unfold Ell.params; dsimp only; split_ifs <;> (intro h; cases h)
    · obtain ⟨h1, h2, h3, h4⟩ := h par hp
      obtain ⟨a, ha⟩ := cvPti_sized (p := (par.x0, par.y0)) h1 h2
      obtain ⟨b, hb⟩ := cvPti_sized (p := (par.a, par.b)) h3 h4
      rw [ha, hb]; exact put_ne_ub _

end H2d.Raster
