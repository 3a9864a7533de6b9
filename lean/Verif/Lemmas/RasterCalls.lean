import Verif.Lemmas.Raster
import Verif.Lemmas.SvgLook

set_option linter.unusedSectionVars false

namespace H2d.Raster

open H2d H2d.Spec
open H2d.Svg (pointMark Mark makeSegs strokePairs)

theorem near_cvPtd {r : ℝ → ℤ} (hr : RoundsHalf r) (p : Pt ℝ) : NearPix (cvPtd r p) p := ⟨hr _, hr _⟩

theorem trunc_cvPti {p : Pt ℝ} {q : ℤ × ℤ} (h : cvPti p = .ok q) : TruncPix q p := by
  unfold cvPti at h
  rcases hx : toInt p.1 with a | _ | _ <;> rw [hx] at h <;> try cases h
  rcases hy : toInt p.2 with b | _ | _ <;> rw [hy] at h <;> try cases h
  exact ⟨(toInt_ok hx).2.1, (toInt_ok hx).1, (toInt_ok hy).2.1, (toInt_ok hy).1⟩

theorem segMake_perm {t : Thr ℝ} {p q : Pt ℝ} {s : Seg} (h : segMake t false p q = .ok s) : s = (p, q) ∨ s = (q, p) := by
  unfold segMake at h
  by_cases he : PtEq t p q
  · rw [if_pos he] at h; cases h
  · rw [if_neg he] at h
    simp only [Bool.false_eq_true, if_false, Res.ok.injEq] at h
    subst h
    unfold fixOrder
    split_ifs
    · exact .inr rfl
    · exact .inl rfl

theorem shows_segCall (x : Ctx) (hr : RoundsHalf x.cvRound) (dp : Draw.Vals) (s : Seg) : ShowsSeg (lookOf dp) s (segCall x dp s) :=
  ⟨_, _, rfl, .inl ⟨near_cvPtd hr _, near_cvPtd hr _⟩⟩

theorem shows_side (x : Ctx) (hr : RoundsHalf x.cvRound) (dp : Draw.Vals) {q : Pt ℝ × Pt ℝ} {s : Seg} (h : segMake x.t false q.1 q.2 = .ok s) :
    ShowsSeg (lookOf dp) q (segCall x dp s) := by
  rcases segMake_perm h with rfl | rfl
  · exact shows_segCall x hr dp q
  · exact ⟨_, _, rfl, .inr ⟨near_cvPtd hr _, near_cvPtd hr _⟩⟩

/-! ### look -/

theorem lookOf_eq (dp : Draw.Vals) : askedLook dp = lookOf dp := by
  simp [askedLook, lookOf, beq_eq_decide]


/-- All the calls have this look, except texts. -/
def LookAll (P : Look → Prop) (d : Drawn) : Prop := ∀ c ∈ d.2, ∀ k, callLook c = some k → P k

theorem look_then {P : Look → Prop} {a b : Drawn} (ha : LookAll P a) (hb : LookAll P b) : LookAll P (andThen a b) := by
  obtain ⟨ra, la⟩ := a
  obtain ⟨rb, lb⟩ := b
  cases ra with
  | ok _ =>
    intro c hc
    rcases List.mem_append.1 hc with h | h
    · exact ha c h
    · exact hb c h
  | throw => exact ha
  | ub => exact ha

theorem look_compute {P : Look → Prop} {α : Type} {r : Res α} {k : α → Drawn} (hk : ∀ a, r = .ok a → LookAll P (k a)) : LookAll P (compute r k) := by
  cases r with
  | ok a => exact hk a rfl
  | throw => intro c hc; cases hc
  | ub => intro c hc; cases hc

theorem look_order {P : Look → Prop} : ∀ {l : List Drawn}, (∀ d ∈ l, LookAll P d) → LookAll P (inOrder l)
  | [], _ => by intro c hc; cases hc
  | d :: l, h => look_then (h d (by simp)) (look_order (fun e he => h e (by simp [he])))

theorem look_nil {P : Look → Prop} : LookAll P (put []) := by intro c hc; cases hc

theorem look_put {P : Look → Prop} {l : List Prim} (h : ∀ c ∈ l, ∀ k, callLook c = some k → P k) : LookAll P (put l) := h

theorem look_segs (x : Ctx) (dp : Draw.Vals) (l : List Seg) : LookAll (· = lookOf dp) (put (l.map (segCall x dp))) := by
  intro c hc k hk
  obtain ⟨s, -, rfl⟩ := List.mem_map.1 hc
  exact (Option.some.inj hk).symm

theorem look_strokes (x : Ctx) (dp : Draw.Vals) (p : Pt ℝ) : LookAll (· = lookOf dp) (ptStrokes x dp p) :=
  look_compute (fun m _ => by
    cases m with
    | nothing => exact look_nil
    | dot c => exact look_nil
    | strokes l => exact look_segs x dp l)

theorem look_circ (x : Ctx) (dp : Draw.Vals) (c : Circle) : LookAll (· = lookOf dp) (circAll x dp c) := by
  refine look_compute (fun q _ => look_compute (fun r _ => look_then ?_ ?_))
  · intro c hc k hk
    rw [List.mem_singleton.1 hc] at hk
    exact (Option.some.inj hk).symm
  · split_ifs
    · exact look_strokes x { dp with style := 0 } c.center
    · exact look_nil

theorem look_pt (x : Ctx) (dp : Draw.Vals) (p : Pt ℝ) : LookAll (· = lookOf dp) (ptAll x dp p) :=
  look_compute (fun m _ => by
    cases m with
    | nothing => exact look_nil
    | dot c => exact look_circ x dp c
    | strokes l => exact look_segs x dp l)

theorem look_seg (x : Ctx) (dp : Draw.Vals) (s : Seg) : LookAll (· = lookOf dp) (segAll x dp s) := by
  refine look_then ?_ ?_
  · intro c hc k hk
    rw [List.mem_singleton.1 hc] at hk
    exact (Option.some.inj hk).symm
  · split_ifs
    · exact look_then (look_pt x dp _) (look_pt x dp _)
    · exact look_nil

/-! ### marks -/

theorem makeSegs_ends {t : Thr ℝ} : ∀ {ps : List (Pt ℝ × Pt ℝ)} {l : List Seg}, makeSegs t ps = .ok l →
    l.length = ps.length ∧ ∀ s ∈ l, ∃ q ∈ ps, s = q ∨ s = (q.2, q.1)
  | [], l, h => by simp [makeSegs] at h; subst h; simp
  | q :: ps, l, h => by
    rw [makeSegs] at h
    cases hs : segMake t false q.1 q.2 with
    | ok s =>
      rw [hs, Res.bind_ok] at h
      cases hr : makeSegs t ps with
      | ok r =>
        rw [hr, Res.bind_ok] at h
        obtain rfl : s :: r = l := by simpa using h
        obtain ⟨hl, ih⟩ := makeSegs_ends hr
        refine ⟨by simp [hl], fun s' hs' => ?_⟩
        rcases List.mem_cons.1 hs' with rfl | h'
        · exact ⟨q, by simp, segMake_perm hs⟩
        · obtain ⟨q', hq', e⟩ := ih s' h'
          exact ⟨q', by simp [hq'], e⟩
      | throw => rw [hr] at h; cases h
      | ub => rw [hr] at h; cases h
    | throw => rw [hs] at h; cases h
    | ub => rw [hs] at h; cases h

/-- Both ends of the pair are around the point. -/
def EndsAround (delta : Nat) (p : Pt ℝ) (q : Pt ℝ × Pt ℝ) : Prop :=
  |q.1.1 - p.1| ≤ delta ∧ |q.1.2 - p.2| ≤ delta ∧ |q.2.1 - p.1| ≤ delta ∧ |q.2.2 - p.2| ≤ delta

theorem strokePairs_around (delta : Nat) (p : Pt ℝ) (times diag : Bool) : strokePairs delta p times diag ≠ [] ∧
    ∀ q ∈ strokePairs delta p times diag, EndsAround delta p q := by
  have h1 : ((7 * delta + 5) / 10 : Nat) ≤ delta := by omega
  have h2 : (((7 * delta + 5) / 10 : Nat) : ℝ) ≤ delta := by exact_mod_cast h1
  have h3 : (0 : ℝ) ≤ ((7 * delta + 5) / 10 : Nat) := Nat.cast_nonneg _
  have h4 : (0 : ℝ) ≤ delta := Nat.cast_nonneg _
  unfold strokePairs
  generalize (((7 * delta + 5) / 10 : Nat) : ℝ) = d2 at *
  cases times <;> cases diag <;> simp [EndsAround, abs_of_nonneg h3, abs_of_nonneg h4, h2, h4]

theorem around_swap {delta : Nat} {p : Pt ℝ} {q : Pt ℝ × Pt ℝ} (h : EndsAround delta p q) : EndsAround delta p (q.2, q.1) :=
  ⟨h.2.2.1, h.2.2.2, h.1, h.2.1⟩

theorem makeSegs_around {t : Thr ℝ} {delta : Nat} {p : Pt ℝ} {times diag : Bool} {l : List Seg} (h : makeSegs t (strokePairs delta p times diag) = .ok l) :
    l ≠ [] ∧ ∀ s ∈ l, EndsAround delta p s := by
  obtain ⟨h1, h2⟩ := makeSegs_ends h
  obtain ⟨h3, h4⟩ := strokePairs_around delta p times diag
  refine ⟨fun h0 => h3 (List.length_eq_zero_iff.1 (by rw [← h1, h0]; rfl)), fun s hs => ?_⟩
  obtain ⟨q, hq, rfl | rfl⟩ := h2 s hs
  · exact h4 _ hq
  · exact around_swap (h4 _ hq)

theorem pointMark_strokes {t : Thr ℝ} {flag : Bool} {cols rows : Nat} {dp : Draw.Vals} {p : Pt ℝ} {l : List Seg}
    (h : pointMark t flag cols rows dp p = .ok (.strokes l)) : l ≠ [] ∧ ∀ s ∈ l, EndsAround dp.ptDelta p s := by
  have hb : ∀ (times diag : Bool), (do let l ← makeSegs t (strokePairs dp.ptDelta p times diag); pure (Mark.strokes l) : Res Mark) = .ok (.strokes l) →
      l ≠ [] ∧ ∀ s ∈ l, EndsAround dp.ptDelta p s := by
    intro times diag hm
    cases hq : makeSegs t (strokePairs dp.ptDelta p times diag) with
    | ok l' =>
      rw [hq, Res.bind_ok] at hm
      obtain rfl : l' = l := by simpa using hm
      exact makeSegs_around hq
    | throw => rw [hq] at hm; cases hm
    | ub => rw [hq] at hm; cases hm
  unfold pointMark at h
  split_ifs at h
  · cases h
  · cases h
  split at h
  · cases hq : circleMake t flag p dp.pointSize with
    | ok c' => rw [hq] at h; simp at h
    | throw => rw [hq] at h; cases h
    | ub => rw [hq] at h; cases h
  · exact hb _ _ h
  · cases hq : makeSegs t (strokePairs dp.ptDelta p false false) with
    | ok l1 =>
      rw [hq] at h
      cases hq2 : makeSegs t (strokePairs dp.ptDelta p true false) with
      | ok l2 =>
        rw [hq2, Res.bind_ok, Res.bind_ok] at h
        obtain rfl : l1 ++ l2 = l := by simpa using h
        obtain ⟨a1, a2⟩ := makeSegs_around hq
        obtain ⟨b1, b2⟩ := makeSegs_around hq2
        refine ⟨by simp [a1], fun s hs => ?_⟩
        rcases List.mem_append.1 hs with h' | h'
        · exact a2 s h'
        · exact b2 s h'
      | throw => rw [hq2] at h; cases h
      | ub => rw [hq2] at h; cases h
    | throw => rw [hq] at h; cases h
    | ub => rw [hq] at h; cases h
  · exact hb _ _ h
  · exact hb _ _ h
  · exact hb _ _ h
  · cases h

theorem pointMark_out {t : Thr ℝ} {flag : Bool} {cols rows : Nat} {dp : Draw.Vals} {p : Pt ℝ} :
    (¬ (0 ≤ p.1 ∧ p.1 < cols ∧ 0 ≤ p.2 ∧ p.2 < rows) → pointMark t flag cols rows dp p = .ok .nothing) ∧
    (0 ≤ p.1 ∧ p.1 < cols ∧ 0 ≤ p.2 ∧ p.2 < rows → pointMark t flag cols rows dp p ≠ .ok .nothing) := by
  constructor
  · intro h
    unfold pointMark
    split_ifs with h1 h2
    · rfl
    · rfl
    · rw [not_or, not_lt, not_le] at h1 h2
      exact absurd ⟨h1.1, h1.2, h2.1, h2.2⟩ h
  · rintro ⟨h1, h2, h3, h4⟩ h
    unfold pointMark at h
    rw [if_neg (by rw [not_or, not_lt, not_le]; exact ⟨h1, h2⟩), if_neg (by rw [not_or, not_lt, not_le]; exact ⟨h3, h4⟩)] at h
    have hb : ∀ (r : Res (List Seg)), (do let l ← r; pure (Mark.strokes l) : Res Mark) ≠ .ok .nothing := by
      intro r hm
      cases r with
      | ok l => simp at hm
      | throw => cases hm
      | ub => cases hm
    split at h
    · cases hq : circleMake t flag p dp.pointSize with
      | ok c' => rw [hq] at h; simp at h
      | throw => rw [hq] at h; cases h
      | ub => rw [hq] at h; cases h
    · exact hb _ h
    · cases hq : makeSegs t (strokePairs dp.ptDelta p false false) with
      | ok l1 =>
        rw [hq] at h
        cases hq2 : makeSegs t (strokePairs dp.ptDelta p true false) with
        | ok l2 => rw [hq2] at h; simp at h
        | throw => rw [hq2] at h; cases h
        | ub => rw [hq2] at h; cases h
      | throw => rw [hq] at h; cases h
      | ub => rw [hq] at h; cases h
    · exact hb _ h
    · exact hb _ h
    · exact hb _ h
    · cases h

theorem segCall_around {x : Ctx} (hr : RoundsHalf x.cvRound) {dp : Draw.Vals} {p : Pt ℝ} {s : Seg} (h : EndsAround dp.ptDelta p s) :
    MarkAround dp p (segCall x dp s) := by
  have tri : ∀ (a c d : ℝ), |(x.cvRound a : ℝ) - a| ≤ 1 / 2 → |a - c| ≤ d → |(x.cvRound a : ℝ) - c| ≤ d + 1 / 2 := by
    intro a c d h1 h2
    have := abs_sub_le (x.cvRound a : ℝ) a c
    linarith
  obtain ⟨h1, h2, h3, h4⟩ := h
  exact .inl ⟨_, _, _, rfl, tri _ _ _ (hr _) h1, tri _ _ _ (hr _) h2, tri _ _ _ (hr _) h3, tri _ _ _ (hr _) h4⟩

theorem toInt_pointSize {n : Int} {r : ℤ} (h : toInt (n : ℝ) = .ok r) : r = n := by
  unfold toInt at h
  simp only [Int.floor_intCast, Int.ceil_intCast, ite_self] at h
  split_ifs at h
  exact (Res.ok.inj h).symm

theorem strokes_around {x : Ctx} (hr : RoundsHalf x.cvRound) (dp : Draw.Vals) (p : Pt ℝ) : ∀ c ∈ (ptStrokes x dp p).2, MarkAround dp p c := by
  unfold ptStrokes
  cases hm : pointMark x.t x.flag x.cols x.rows dp p with
  | throw => intro c hc; cases hc
  | ub => intro c hc; cases hc
  | ok m =>
    cases m with
    | nothing => intro c hc; cases hc
    | dot c => intro c hc; cases hc
    | strokes l =>
      intro c hc
      obtain ⟨s, hs, rfl⟩ := List.mem_map.1 hc
      exact segCall_around hr ((pointMark_strokes hm).2 s hs)

theorem pt_around {x : Ctx} (hr : RoundsHalf x.cvRound) (dp : Draw.Vals) (p : Pt ℝ) : ∀ c ∈ (ptAll x dp p).2, MarkAround dp p c := by
  unfold ptAll
  cases hm : pointMark x.t x.flag x.cols x.rows dp p with
  | throw => intro c hc; cases hc
  | ub => intro c hc; cases hc
  | ok m =>
    cases m with
    | nothing => intro c hc; cases hc
    | strokes l =>
      intro c hc
      obtain ⟨s, hs, rfl⟩ := List.mem_map.1 hc
      exact segCall_around hr ((pointMark_strokes hm).2 s hs)
    | dot c =>
      obtain ⟨-, rfl, -⟩ := pointMark_dot hm
      simp only [compute, circAll]
      cases hq : cvPti p with
      | throw => intro c hc; cases hc
      | ub => intro c hc; cases hc
      | ok q =>
        cases hn : toInt (dp.pointSize : ℝ) with
        | throw => intro c hc; cases hc
        | ub => intro c hc; cases hc
        | ok r =>
          have hr' := toInt_pointSize hn
          subst hr'
          intro c hc
          rcases List.mem_append.1 (show c ∈ [Prim.circle q dp.pointSize (lookOf dp)] ++ _ from hc) with h | h
          · rw [List.mem_singleton.1 h]
            exact .inr ⟨q, _, rfl, trunc_cvPti hq⟩
          · by_cases hsp : dp.showPoints = true
            · rw [if_pos hsp] at h
              exact strokes_around hr { dp with style := 0 } p c h
            · rw [if_neg hsp] at h; cases h

theorem pt_drawn (x : Ctx) (dp : Draw.Vals) (p : Pt ℝ) (hp : InPixels x p) (h : (ptAll x dp p).1 = .ok ()) : (ptAll x dp p).2 ≠ [] := by
  unfold ptAll at h ⊢
  cases hm : pointMark x.t x.flag x.cols x.rows dp p with
  | throw => rw [hm] at h; cases h
  | ub => rw [hm] at h; cases h
  | ok m =>
    rw [hm] at h
    cases m with
    | nothing => exact absurd hm (pointMark_out.2 hp)
    | strokes l => simpa [compute, put] using (pointMark_strokes hm).1
    | dot c =>
      simp only [compute, circAll] at h ⊢
      cases hq : cvPti c.center with
      | throw => rw [hq] at h; cases h
      | ub => rw [hq] at h; cases h
      | ok q =>
        cases hn : toInt c.radius with
        | throw => rw [hq, hn] at h; cases h
        | ub => rw [hq, hn] at h; cases h
        | ok r => simp [andThen, put]

/-! ### polylines -/

theorem inOrder_sides (x : Ctx) (hr : RoundsHalf x.cvRound) (dp : Draw.Vals) : ∀ (l : List (Pt ℝ × Pt ℝ)),
    (inOrder (l.map (fun q => compute (segMake x.t false q.1 q.2) (fun s => segAll x dp s)))).1 = .ok () →
    ∃ cs, cs.Sublist (inOrder (l.map (fun q => compute (segMake x.t false q.1 q.2) (fun s => segAll x dp s)))).2 ∧
      List.Forall₂ (ShowsSeg (lookOf dp)) l cs ∧
      (dp.showPoints = false → (inOrder (l.map (fun q => compute (segMake x.t false q.1 q.2) (fun s => segAll x dp s)))).2 = cs)
  | [], _ => ⟨[], List.Sublist.refl _, List.Forall₂.nil, fun _ => rfl⟩
  | q :: l, h => by
    rw [List.map_cons, inOrder] at h ⊢
    cases hs : segMake x.t false q.1 q.2 with
    | throw => rw [hs] at h; cases h
    | ub => rw [hs] at h; cases h
    | ok s =>
      rw [hs] at h
      simp only [compute] at h ⊢
      rcases hd : segAll x dp s with ⟨r0, l0⟩
      rw [hd] at h
      have hl0 : ∃ l1, l0 = segCall x dp s :: l1 ∧ (dp.showPoints = false → l1 = []) := by
        have := congrArg Prod.snd hd
        simp only [segAll, andThen, put] at this
        refine ⟨_, this.symm, fun hp => ?_⟩
        rw [hp]; rfl
      obtain ⟨l1, rfl, hl1⟩ := hl0
      cases r0 with
      | throw => cases h
      | ub => cases h
      | ok _ =>
        obtain ⟨cs, h1, h2, h3⟩ := inOrder_sides x hr dp l h
        refine ⟨segCall x dp s :: cs, ?_, List.Forall₂.cons (shows_side x hr dp hs) h2, fun hp => ?_⟩
        · exact (List.Sublist.trans h1 (List.sublist_append_right l1 _)).cons_cons _
        · have e1 := hl1 hp
          have e2 := h3 hp
          subst e1
          simp only [compute] at e2
          change segCall x dp s :: ([] ++ _) = _
          rw [List.nil_append, e2]

/-! ### texts -/

/-- When the drawing ends normally, the texts are these ones. -/
def Texts (d : Drawn) (P : List (ℤ × ℤ) → Prop) : Prop := d.1 = .ok () → P (textsAt d.2)

theorem textsAt_append : ∀ a b : List Prim, textsAt (a ++ b) = textsAt a ++ textsAt b
  | [], b => rfl
  | .text p :: a, b => by simp [textsAt, textsAt_append a b]
  | .line _ _ _ :: a, b => by simp [textsAt, textsAt_append a b]
  | .circle _ _ _ :: a, b => by simp [textsAt, textsAt_append a b]
  | .rectangle _ _ _ :: a, b => by simp [textsAt, textsAt_append a b]
  | .ellipse _ _ _ _ :: a, b => by simp [textsAt, textsAt_append a b]

/-- No text. -/
def NoText (d : Drawn) : Prop := textsAt d.2 = []

theorem noText_nil : NoText (put []) := rfl

theorem noText_then {a b : Drawn} (ha : NoText a) (hb : NoText b) : NoText (andThen a b) := by
  obtain ⟨ra, la⟩ := a
  obtain ⟨rb, lb⟩ := b
  cases ra with
  | ok _ =>
    change textsAt (la ++ lb) = []
    rw [textsAt_append, show textsAt la = [] from ha, show textsAt lb = [] from hb]; rfl
  | throw => exact ha
  | ub => exact ha

theorem noText_compute {α : Type} {r : Res α} {k : α → Drawn} (hk : ∀ a, NoText (k a)) : NoText (compute r k) := by
  cases r with
  | ok a => exact hk a
  | throw => rfl
  | ub => rfl

theorem noText_order : ∀ {l : List Drawn}, (∀ d ∈ l, NoText d) → NoText (inOrder l)
  | [], _ => rfl
  | d :: l, h => noText_then (h d (by simp)) (noText_order (fun e he => h e (by simp [he])))

theorem noText_segs (x : Ctx) (dp : Draw.Vals) : ∀ l : List Seg, NoText (put (l.map (segCall x dp)))
  | [] => rfl
  | s :: l => noText_segs x dp l

theorem noText_strokes (x : Ctx) (dp : Draw.Vals) (p : Pt ℝ) : NoText (ptStrokes x dp p) :=
  noText_compute (fun m => by
    cases m with
    | nothing => rfl
    | dot c => rfl
    | strokes l => exact noText_segs x dp l)

theorem noText_pt (x : Ctx) (dp : Draw.Vals) (p : Pt ℝ) : NoText (ptAll x dp p) :=
  noText_compute (fun m => by
    cases m with
    | nothing => rfl
    | dot c =>
      refine noText_compute (fun _ => noText_compute (fun _ => noText_then rfl ?_))
      split_ifs
      · exact noText_strokes x _ _
      · rfl
    | strokes l => exact noText_segs x dp l)

theorem noText_seg (x : Ctx) (dp : Draw.Vals) (s : Seg) : NoText (segAll x dp s) := by
  refine noText_then rfl ?_
  split_ifs
  · exact noText_then (noText_pt x dp _) (noText_pt x dp _)
  · rfl

/-- Two drawings in a row that end normally. -/
theorem andThen_ok {a b : Drawn} (h : (andThen a b).1 = .ok ()) : a.1 = .ok () ∧ b.1 = .ok () ∧ (andThen a b).2 = a.2 ++ b.2 := by
  obtain ⟨ra, la⟩ := a
  cases ra with
  | ok _ => exact ⟨rfl, h, rfl⟩
  | throw => cases h
  | ub => cases h

theorem index_texts : ∀ l : List (Pt ℝ), (inOrder (l.map (fun p => compute (cvPti p) (fun q => put [.text q])))).1 = .ok () →
    List.Forall₂ (fun p q => TruncPix q p) l (textsAt (inOrder (l.map (fun p => compute (cvPti p) (fun q => put [.text q])))).2)
  | [], _ => List.Forall₂.nil
  | p :: l, h => by
    rw [List.map_cons, inOrder] at h ⊢
    obtain ⟨h1, h2, h3⟩ := andThen_ok h
    rw [h3, textsAt_append]
    cases hq : cvPti p with
    | ok q =>
      simp only [compute, put, textsAt, List.cons_append, List.nil_append]
      exact List.Forall₂.cons (trunc_cvPti hq) (index_texts l h2)
    | throw => rw [hq] at h1; cases h1
    | ub => rw [hq] at h1; cases h1

theorem texts_at (r : ℝ → ℤ) (hr : RoundsHalf r) : ∀ l : List (Pt ℝ),
    List.Forall₂ (fun p q => NearPix q p) l (textsAt (l.map (fun p => Prim.text (cvPtd r p))))
  | [] => List.Forall₂.nil
  | p :: l => List.Forall₂.cons (near_cvPtd hr p) (texts_at r hr l)

end H2d.Raster
