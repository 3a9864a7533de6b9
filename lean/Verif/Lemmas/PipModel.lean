import Verif.Lemmas.Pip

/-! # Lemmas on the point in polygon algorithm -/

set_option linter.unusedSectionVars false
set_option linter.unusedSimpArgs false

namespace H2d.Pip

open H2d.Spec H2d.Props

theorem polySegs_spec (t : Thr ℝ) : ∀ (l : List (Pt ℝ × Pt ℝ)) (segs : List Seg), polySegs t l = .ok segs →
    segs = l.map (fun e => fixOrder e.1 e.2) ∧ ∀ e ∈ l, t.nullDistance ≤ eucl e.1 e.2
  | [], segs, h => by cases h; simp
  | e :: l, segs, h => by
    unfold polySegs at h
    by_cases h1 : t.nullDistance ≤ eucl e.1 e.2
    · rw [segMake_eq false h1] at h
      simp only [Bool.false_eq_true, if_false, Res.bind_ok] at h
      rcases hr : polySegs t l with r | _ | _
      · rw [hr] at h
        cases h
        obtain ⟨h2, h3⟩ := polySegs_spec t l r hr
        refine ⟨by rw [h2]; rfl, ?_⟩
        intro e' he'
        rcases List.mem_cons.1 he' with rfl | he'
        · exact h1
        · exact h3 e' he'
      · rw [hr] at h; cases h
      · rw [hr] at h; cases h
    · rw [(segMake_throw (t := t) false).2 (not_le.1 h1)] at h; cases h

theorem polySegs_ok (t : Thr ℝ) : ∀ (l : List (Pt ℝ × Pt ℝ)), (∀ e ∈ l, t.nullDistance ≤ eucl e.1 e.2) →
    polySegs t l = .ok (l.map (fun e => fixOrder e.1 e.2))
  | [], _ => rfl
  | e :: l, h => by
    unfold polySegs
    rw [segMake_eq false (h e List.mem_cons_self), polySegs_ok t l (fun e' he' => h e' (List.mem_cons_of_mem _ he'))]
    rfl

theorem nearLine_false (t : Thr ℝ) (p : Pt ℝ) : ∀ (l : List Seg), nearLine t p l = .ok false →
    ∀ s ∈ l, ∃ li, segLine t s = .ok li ∧ t.nullDistance ≤ lineDist li p
  | [], _ => by simp
  | s :: l, h => by
    unfold nearLine at h
    rcases hr : segLine t s with li | _ | _
    · rw [hr] at h
      simp only [Res.bind_ok] at h
      split_ifs at h with h1
      · cases h
      · intro s' hs'
        rcases List.mem_cons.1 hs' with rfl | hs'
        · exact ⟨li, hr, not_lt.1 h1⟩
        · exact nearLine_false t p l h s' hs'
    · rw [hr] at h; cases h
    · rw [hr] at h; cases h

theorem nearLine_true (t : Thr ℝ) (p : Pt ℝ) : ∀ (l : List Seg), nearLine t p l = .ok true →
    ∃ s ∈ l, ∃ li, segLine t s = .ok li ∧ lineDist li p < t.nullDistance
  | [], h => by cases h
  | s :: l, h => by
    unfold nearLine at h
    rcases hr : segLine t s with li | _ | _
    · rw [hr] at h
      simp only [Res.bind_ok] at h
      split_ifs at h with h1
      · exact ⟨s, List.mem_cons_self, li, hr, h1⟩
      · obtain ⟨s', m, r⟩ := nearLine_true t p l h
        exact ⟨s', List.mem_cons_of_mem _ m, r⟩
    · rw [hr] at h; cases h
    · rw [hr] at h; cases h

open Classical in
theorem pipCount_spec (t : Thr ℝ) (ref : Seg) (P : Seg → Prop) : ∀ (l : List Seg) (c : Nat), pipCount t ref l = .ok c →
    (∀ s ∈ l, ∀ i, segInter t s ref = .ok i → (i.isSome = true ↔ P s)) → c = l.countP (fun s => decide (P s))
  | [], c, h, _ => by cases h; rfl
  | s :: l, c, h, H => by
    unfold pipCount at h
    rcases hr : segInter t s ref with i | _ | _
    · rw [hr] at h
      simp only [Res.bind_ok] at h
      rcases hc : pipCount t ref l with c' | _ | _
      · rw [hc] at h
        simp only [Res.bind_ok, Res.pure_eq, Res.ok.injEq] at h
        rw [List.countP_cons, ← pipCount_spec t ref P l c' hc (fun s hs => H s (List.mem_cons_of_mem _ hs)), ← h]
        have := H s List.mem_cons_self i hr
        congr 1
        by_cases hp : P s
        · rw [if_pos (this.2 hp), if_pos (by simpa using hp)]
        · rw [if_neg (fun hh => hp (this.1 hh)), if_neg (by simpa using hp)]
      · rw [hc] at h; cases h
      · rw [hc] at h; cases h
    · rw [hr] at h; cases h
    · rw [hr] at h; cases h

theorem pipTry_true (t : Thr ℝ) (pts : List (Pt ℝ)) (segs : List Seg) (p : Pt ℝ) : ∀ (l : List Seg) (b : Bool),
    pipTry t pts segs p l true ≠ .ok (some b)
  | [], b, h => by cases h
  | s :: l, b, h => by
    unfold pipTry at h
    rcases hr : segMake t false p (segCenter s) with ref | _ | _
    · rw [hr] at h
      simp only [Res.bind_ok, Bool.true_or, if_true] at h
      exact pipTry_true t pts segs p l b h
    · rw [hr] at h; cases h
    · rw [hr] at h; cases h

/-- Only the first segment of the list can give the answer. -/
theorem pipTry_some (t : Thr ℝ) (pts : List (Pt ℝ)) (segs : List Seg) (p : Pt ℝ) (s : Seg) (l : List Seg) (b : Bool)
    (h : pipTry t pts segs p (s :: l) false = .ok (some b)) :
    t.nullDistance ≤ eucl p (segCenter s) ∧ (∀ v ∈ pts, t.nullDistance ≤ (segDistTo (fixOrder p (segCenter s)) v).1) ∧
      ∃ c, pipCount t (fixOrder p (segCenter s)) segs = .ok c ∧ b = decide (c % 2 = 1) := by
  unfold pipTry at h
  by_cases h1 : t.nullDistance ≤ eucl p (segCenter s)
  · rw [segMake_eq false h1] at h
    simp only [Bool.false_eq_true, if_false, Res.bind_ok, Bool.false_or] at h
    split_ifs at h with h2
    · rw [h2] at h
      exact absurd h (pipTry_true t pts segs p l b)
    · refine ⟨h1, ?_, ?_⟩
      · intro v hv
        by_contra hc
        apply h2
        rw [List.any_eq_true]
        exact ⟨v, hv, by simpa using not_le.1 hc⟩
      · rcases hc : pipCount t (fixOrder p (segCenter s)) segs with c | _ | _
        · rw [hc] at h
          simp only [Res.bind_ok, Res.pure_eq, Res.ok.injEq, Option.some.injEq] at h
          exact ⟨c, rfl, h.symm⟩
        · rw [hc] at h; cases h
        · rw [hc] at h; cases h
  · rw [(segMake_throw (t := t) false).2 (not_le.1 h1)] at h; cases h

theorem fixOrder_vert {X Y Y' : ℝ} (h : Y < Y') : fixOrder (X, Y) (X, Y') = ((X, Y), (X, Y')) :=
  fixOrder_of_lt (Or.inr ⟨rfl, h⟩)

theorem splitAll_cons (t : Thr ℝ) (X Y H : ℝ) (hH : 0 < H) (l bb : List Seg) (h : splitAll t (((X, Y), (X, Y + H)) :: l) = .ok bb) :
    ∃ l', bb = ((X, Y), (X, Y + H / 2)) :: l' := by
  have hc : segCenter ((X, Y), (X, Y + H)) = (X, Y + H / 2) := by
    unfold segCenter; simp only; congr 1 <;> ring
  unfold splitAll segSplit at h
  rw [hc] at h
  simp only at h
  by_cases h1 : t.nullDistance ≤ eucl (X, Y) (X, Y + H / 2)
  · rw [segMake_eq false h1] at h
    simp only [Bool.false_eq_true, if_false, Res.bind_ok] at h
    rw [fixOrder_vert (by linarith)] at h
    rcases h2 : segMake t false (X, Y + H / 2) (X, Y + H) with s2 | _ | _
    · rw [h2] at h
      simp only [Res.bind_ok, Res.pure_eq] at h
      rcases h3 : splitAll t l with r | _ | _
      · rw [h3] at h; cases h; exact ⟨_, rfl⟩
      · rw [h3] at h; cases h
      · rw [h3] at h; cases h
    · rw [h2] at h; cases h
    · rw [h2] at h; cases h
  · rw [(segMake_throw (t := t) false).2 (not_le.1 h1)] at h; cases h

theorem pipLoop_ok (t : Thr ℝ) (pts : List (Pt ℝ)) (segs : List Seg) (p : Pt ℝ) (X Y : ℝ) (b : Bool) :
    ∀ (n : Nat) (H : ℝ) (l : List Seg), 0 < H → pipLoop t pts segs p n (((X, Y), (X, Y + H)) :: l) = .ok b →
    ∃ j, 1 ≤ j ∧ j ≤ n ∧ t.nullDistance ≤ eucl p (X, Y + H / 2 ^ j) ∧
      (∀ v ∈ pts, t.nullDistance ≤ (segDistTo (fixOrder p (X, Y + H / 2 ^ j)) v).1) ∧
      ∃ c, pipCount t (fixOrder p (X, Y + H / 2 ^ j)) segs = .ok c ∧ b = decide (c % 2 = 1)
  | 0, H, l, _, h => by cases h
  | n + 1, H, l, hH, h => by
    have hc : segCenter ((X, Y), (X, Y + H)) = (X, Y + H / 2) := by
      unfold segCenter; simp only; congr 1 <;> ring
    unfold pipLoop at h
    rcases hr : pipTry t pts segs p (((X, Y), (X, Y + H)) :: l) false with o | _ | _
    · rw [hr] at h
      simp only [Res.bind_ok] at h
      cases o with
      | some b' =>
        simp only [Res.pure_eq, Res.ok.injEq] at h
        subst h
        have := pipTry_some t pts segs p _ l b' hr
        rw [hc] at this
        exact ⟨1, le_rfl, by omega, by simpa using this⟩
      | none =>
        simp only at h
        split_ifs at h with hn
        rcases hs : splitAll t (((X, Y), (X, Y + H)) :: l) with bb | _ | _
        · rw [hs] at h
          simp only [Res.bind_ok] at h
          obtain ⟨l', rfl⟩ := splitAll_cons t X Y H hH l bb hs
          obtain ⟨j, j1, j2, r⟩ := pipLoop_ok t pts segs p X Y b n (H / 2) l' (by linarith) h
          refine ⟨j + 1, by omega, by omega, ?_⟩
          rw [show H / 2 ^ (j + 1) = H / 2 / 2 ^ j by rw [pow_succ]; field_simp]
          exact r
        · rw [hs] at h; cases h
        · rw [hs] at h; cases h
    · rw [hr] at h; cases h
    · rw [hr] at h; cases h

/-! ### Crossing of an edge and of the reference segment -/

theorem goodSlope_swap {t : Thr ℝ} {p q : Pt ℝ} (h : GoodSlope t p q) : GoodSlope t q p := by
  rcases h with h | h
  · exact Or.inl h.symm
  · right; rw [eucl_comm, abs_sub_comm]; exact h

theorem goodSlope_fix {t : Thr ℝ} {p q : Pt ℝ} (h : GoodSlope t p q) : GoodSlope t (fixOrder p q).1 (fixOrder p q).2 := by
  unfold fixOrder; split_ifs
  · exact goodSlope_swap h
  · exact h

theorem eucl_fix (p q : Pt ℝ) : eucl (fixOrder p q).1 (fixOrder p q).2 = eucl p q := by
  unfold fixOrder; split_ifs
  · exact eucl_comm _ _
  · rfl

theorem onSeg_swap {K : Type} [Field K] [LinearOrder K] [IsStrictOrderedRing K] {a b p : K × K} (h : OnSeg a b p) : OnSeg b a p := by
  obtain ⟨k, h0, h1, rfl⟩ := h
  exact ⟨1 - k, by linarith, by linarith, Prod.ext (by simp only; ring) (by simp only; ring)⟩

theorem onSeg_fix {a b p : Pt ℝ} : OnSeg (fixOrder a b).1 (fixOrder a b).2 p ↔ OnSeg a b p := by
  unfold fixOrder; split_ifs
  · exact ⟨onSeg_swap, onSeg_swap⟩
  · rfl

theorem segAngle_swap_left (s s' : Seg) : segAngle s.swap s' = segAngle s s' := by
  unfold segAngle
  simp only [Prod.fst_swap, Prod.snd_swap]
  rw [eucl_comm s.2 s.1]
  congr 2
  rw [← abs_neg]; congr 1; ring

theorem segAngle_swap_right (s s' : Seg) : segAngle s s'.swap = segAngle s s' := by
  unfold segAngle
  simp only [Prod.fst_swap, Prod.snd_swap]
  rw [eucl_comm s'.2 s'.1]
  congr 2
  rw [← abs_neg]; congr 1; ring

theorem fixOrder_cases (p q : Pt ℝ) : fixOrder p q = (p, q) ∨ fixOrder p q = (p, q).swap := by
  unfold fixOrder; split_ifs
  · right; rfl
  · left; rfl

theorem segAngle_fix (s s' : Seg) : segAngle (fixOrder s.1 s.2) (fixOrder s'.1 s'.2) = segAngle s s' := by
  rcases fixOrder_cases s.1 s.2 with h | h <;> rcases fixOrder_cases s'.1 s'.2 with h' | h' <;> rw [h, h']
  · exact segAngle_swap_right _ _
  · exact segAngle_swap_left _ _
  · rw [segAngle_swap_left, segAngle_swap_right]

theorem crossing {t : Thr ℝ} (h1 : dblEps < t.nullDistance) (h2 : 0 < t.nullAngleValue) {a b p q : Pt ℝ}
    (hab : t.nullDistance ≤ eucl a b) (hpq : t.nullDistance ≤ eucl p q) (ga : GoodSlope t a b) (gp : GoodSlope t p q)
    (hq : q.1 < p.1) (ha : q.1 < a.1) (hb : q.1 < b.1)
    (va : t.nullDistance ≤ (segDistTo (fixOrder p q) a).1) (vb : t.nullDistance ≤ (segDistTo (fixOrder p q) b).1)
    (hl : ∃ li, segLine t (fixOrder a b) = .ok li ∧ t.nullDistance ≤ lineDist li p)
    (hang : (∃ r, OnSeg a b r ∧ OnSeg p q r) → t.nullAngleValue ≤ segAngle (a, b) (p, q))
    (i : Option (Pt ℝ)) (hi : segInter t (fixOrder a b) (fixOrder p q) = .ok i) :
    i.isSome = true ↔ ∃ r, OnSeg a b r ∧ OnSeg p q r := by
  have hp := dblEps_pos
  have hfix : fixOrder p q = (q, p) := by rw [fixOrder_comm]; exact fixOrder_of_lt (Or.inl hq)
  have gs : GoodSeg t (fixOrder a b) := ⟨by rw [eucl_fix]; exact hab, goodSlope_fix ga⟩
  have gr : GoodSeg t (fixOrder p q) := ⟨by rw [eucl_fix]; exact hpq, goodSlope_fix gp⟩
  have hne : (fixOrder p q).1 ≠ (fixOrder p q).2 := by
    rw [hfix]; intro h; simp only at h; rw [h] at hq; exact lt_irrefl _ hq
  have far : ∀ v, t.nullDistance ≤ (segDistTo (fixOrder p q) v).1 → ∀ r, OnSeg q p r → t.nullDistance ≤ eucl v r := by
    intro v hv r hr
    refine le_trans hv ((C19_shortest _ hne v).2 ⟨r, ?_, rfl⟩)
    rw [hfix]; exact hr
  have va' := far a va
  have vb' := far b vb
  have hv1 : ∀ r, OnSeg q p r → t.nullDistance ≤ eucl (fixOrder a b).1 r := by
    rcases fixOrder_cases a b with h | h <;> rw [h]
    · exact va'
    · exact vb'
  have hv2 : ∀ r, OnSeg q p r → t.nullDistance ≤ eucl (fixOrder a b).2 r := by
    rcases fixOrder_cases a b with h | h <;> rw [h]
    · exact vb'
    · exact va'
  have hx1 : q.1 < (fixOrder a b).1.1 := by rcases fixOrder_cases a b with h | h <;> rw [h] <;> assumption
  have hx2 : q.1 < (fixOrder a b).2.1 := by rcases fixOrder_cases a b with h | h <;> rw [h] <;> assumption
  constructor
  · intro his
    obtain ⟨X, rfl⟩ := Option.isSome_iff_exists.1 his
    obtain ⟨⟨k, k', e1, e2⟩, ⟨r, ⟨j, j0, j1, er⟩, dr⟩, r', ⟨j', j0', j1', er'⟩, dr'⟩ := C22_sound_partial t h1 h2 _ _ gs gr X hi
    obtain ⟨li, hli, hd⟩ := hl
    obtain ⟨li', f1, f2, -, f3⟩ := segLine_spec h1 gs.1
    obtain ⟨o1, o2⟩ := f3 gs.2
    rw [show ((fixOrder a b).1, (fixOrder a b).2) = fixOrder a b from rfl, hli] at f1
    cases f1
    set s := fixOrder a b with hs
    rw [hfix] at e2 er'
    simp only at er'
    have hL : 0 < eucl s.1 s.2 := by linarith [gs.1]
    have hr'on : OnSeg q p r' := ⟨j', j0', j1', er'⟩
    have hXr : eucl X r = |k - j| * eucl s.1 s.2 := by
      rw [e1, show r = along s j from er, eucl_along]
    have hXs1 : eucl s.1 X = |k| * eucl s.1 s.2 := by rw [e1, eucl_along_left]
    have hXs2 : eucl s.2 X = |1 - k| * eucl s.1 s.2 := by rw [e1, eucl_along_right]
    have k0 : 0 ≤ k := by
      by_contra hk
      rw [not_le] at hk
      have c1 : eucl s.1 X ≤ eucl X r := by
        rw [hXs1, hXr]
        apply mul_le_mul_of_nonneg_right _ hL.le
        rw [abs_of_neg hk, abs_of_neg (by linarith)]; linarith
      have := eucl_triangle s.1 X r'
      have := hv1 r' hr'on
      linarith
    have k1 : k ≤ 1 := by
      by_contra hk
      rw [not_le] at hk
      have c1 : eucl s.2 X ≤ eucl X r := by
        rw [hXs2, hXr]
        apply mul_le_mul_of_nonneg_right _ hL.le
        rw [abs_of_neg (by linarith), abs_of_pos (by linarith)]; linarith
      have := eucl_triangle s.2 X r'
      have := hv2 r' hr'on
      linarith
    have hX1 : X = (s.1.1 + k * (s.2.1 - s.1.1), s.1.2 + k * (s.2.2 - s.1.2)) := e1
    have hX2 : X = (q.1 + k' * (p.1 - q.1), q.2 + k' * (p.2 - q.2)) := e2
    have hqx : q.1 < X.1 := by
      rw [hX1]; simp only
      have := mul_nonneg (sub_nonneg.2 k1) (sub_pos.2 hx1).le
      have := mul_nonneg k0 (sub_pos.2 hx2).le
      rcases k1.lt_or_eq with h | h
      · have := mul_pos (sub_pos.2 h) (sub_pos.2 hx1)
        linarith
      · rw [h]; linarith
    have k0' : 0 ≤ k' := by
      rw [hX2] at hqx
      simp only at hqx
      by_contra hk
      have := mul_pos (neg_pos.2 (not_le.1 hk)) (sub_pos.2 hq)
      linarith
    have k1' : k' ≤ 1 := by
      by_contra hk
      rw [not_le] at hk
      have hXon : On li X := by rw [e1]; exact on_along o1 o2 k
      have d1 := lineDist_le f2.1.proper p X hXon
      have d2 : eucl p X = |1 - k'| * eucl q p := by rw [e2]; exact eucl_along_right (q, p) k'
      have d3 : eucl X r' = |k' - j'| * eucl q p := by
        rw [e2, show r' = along (q, p) j' from er']; exact eucl_along (q, p) k' j'
      have : eucl p X ≤ eucl X r' := by
        rw [d2, d3]
        apply mul_le_mul_of_nonneg_right _ (eucl_nonneg _ _)
        rw [abs_of_neg (by linarith), abs_of_pos (by linarith)]; linarith
      linarith
    exact ⟨X, onSeg_fix.1 ⟨k, k0, k1, hX1⟩, onSeg_swap ⟨k', k0', k1', hX2⟩⟩
  · rintro ⟨r, r1, r2⟩
    have := C22_complete_partial t h1 h2 _ _ gs gr (by
        rintro ⟨e1, -⟩
        rw [hfix, PtEq, ptDist_eucl] at e1
        have := hv1 q ⟨0, le_rfl, zero_le_one, by simp⟩
        simp only at e1
        linarith) (by rw [segAngle_fix (a, b) (p, q)]; exact hang ⟨r, r1, r2⟩) r (onSeg_fix.2 r1) (onSeg_fix.2 r2)
    rw [hi] at this
    cases this
    rfl

/-! ### Far from the supporting lines -/

theorem along_swap (s : Seg) (k : ℝ) : along s.swap k = along s (1 - k) := by
  unfold along; simp only [Prod.fst_swap, Prod.snd_swap]; apply Prod.ext <;> (simp only; ring)

theorem far_iff {t : Thr ℝ} (h1 : dblEps < t.nullDistance) {a b p : Pt ℝ} (hab : t.nullDistance ≤ eucl a b) (ga : GoodSlope t a b) (d : ℝ) :
    ∃ li, segLine t (fixOrder a b) = .ok li ∧ (d ≤ lineDist li p ↔ ∀ k, d ≤ eucl p (along (a, b) k)) := by
  have hp := dblEps_pos
  have gs : GoodSeg t (fixOrder a b) := ⟨by rw [eucl_fix]; exact hab, goodSlope_fix ga⟩
  obtain ⟨li, f1, f2, -, f3⟩ := segLine_spec h1 gs.1
  obtain ⟨o1, o2⟩ := f3 gs.2
  refine ⟨li, f1, ?_⟩
  have hal : ∀ k, ∃ k', along (a, b) k = along (fixOrder a b) k' := by
    intro k
    rcases fixOrder_cases a b with h | h <;> rw [h]
    · exact ⟨k, rfl⟩
    · exact ⟨1 - k, by rw [along_swap]; congr 1; ring⟩
  have hal' : ∀ k, ∃ k', along (fixOrder a b) k = along (a, b) k' := by
    intro k
    rcases fixOrder_cases a b with h | h <;> rw [h]
    · exact ⟨k, rfl⟩
    · exact ⟨1 - k, by rw [along_swap]⟩
  constructor
  · intro h k
    obtain ⟨k', e⟩ := hal k
    rw [e]
    exact le_trans h (lineDist_le f2.1.proper p _ (on_along o1 o2 k'))
  · intro h
    have hne : (fixOrder a b).1 ≠ (fixOrder a b).2 := by
      intro h0
      have := gs.1
      rw [h0, eucl_self] at this
      linarith
    obtain ⟨k, e⟩ := on_line_param f2.1 hne o1 o2 (foot_on f2.1.proper p)
    rw [← foot_dist f2.1.proper p, e]
    obtain ⟨k', e'⟩ := hal' k
    rw [e']; exact h k'

theorem segPairs_edges {pts : List (Pt ℝ)} (h : 3 ≤ pts.length) : segPairs true pts = polyEdges pts := by
  unfold segPairs polyEdges
  rw [if_neg (by omega), if_pos rfl, cycPairs_eq]

/-! ### The even-odd rule outside of the bounding box -/

section
variable {K : Type} [Field K] [LinearOrder K] [IsStrictOrderedRing K]

theorem edges_mem {P : Type} {pts : List P} {e : P × P} (he : e ∈ polyEdges pts) : e.1 ∈ pts ∧ e.2 ∈ pts := by
  have := List.of_mem_zip (show (e.1, e.2) ∈ pts.zip (pts.rotate 1) from he)
  exact ⟨this.1, List.mem_rotate.1 this.2⟩

theorem not_evenOdd_of_none {pts : List (K × K)} {p : K × K} (h : ∀ e ∈ polyEdges pts, ¬ CrossesRay p e.1 e.2) : ¬ EvenOdd pts p := by
  classical
  unfold EvenOdd
  rw [List.countP_eq_zero.2]
  · decide
  · intro e he; simpa using h e he

theorem onSeg_coord {a b r : K × K} (h : OnSeg a b r) : ∃ s, 0 ≤ s ∧ s ≤ 1 ∧ r.1 = (1 - s) * a.1 + s * b.1 ∧ r.2 = (1 - s) * a.2 + s * b.2 := by
  obtain ⟨s, h0, h1, rfl⟩ := h
  exact ⟨s, h0, h1, by simp only; ring, by simp only; ring⟩

/-- A point for which the rule answers "inside" is strictly inside the bounding box. -/
theorem evenOdd_box {pts : List (K × K)} {p lo hi : K × K} (hT : IsTightBox (fun q => q ∈ pts) lo hi)
    (hp : ∀ e ∈ polyEdges pts, ¬ OnSeg e.1 e.2 p) (hv : p ∉ pts) (h : EvenOdd pts p) : lo.1 < p.1 ∧ p.1 < hi.1 ∧ lo.2 < p.2 ∧ p.2 < hi.2 := by
  classical
  have key : ∀ q : K × K, q.1 < p.1 → q.1 < lo.1 → (∀ r, OnSeg p q r → r = p ∨ r.1 < lo.1 ∨ r.2 < lo.2) → False := by
    intro q q1 q2 hr
    have hout : ∀ v ∈ pts, ¬ OnSeg p q v := by
      intro v hv' ho
      have := hT.contains v hv'
      rcases hr v ho with rfl | h' | h'
      · exact hv hv'
      · linarith
      · linarith
    have := (parity (pts := pts) (p := p) q1 (fun v hv' => lt_of_lt_of_le q2 (hT.contains v hv').1) hout hp).2 h
    rw [List.countP_eq_zero.2] at this
    · simp at this
    · intro e he
      simp only [decide_eq_true_eq]
      rintro ⟨r, r1, r2⟩
      obtain ⟨m1, m2⟩ := edges_mem he
      obtain ⟨b1, b2, b3, b4⟩ := hT.contains _ m1
      obtain ⟨c1, c2, c3, c4⟩ := hT.contains _ m2
      rcases hr r r2 with rfl | h' | h'
      · exact hp e he r1
      all_goals
        obtain ⟨s, s0, s1, e1, e2⟩ := onSeg_coord r1
      · have := mul_nonneg (sub_nonneg.2 s1) (sub_nonneg.2 b1)
        have := mul_nonneg s0 (sub_nonneg.2 c1)
        linarith
      · have := mul_nonneg (sub_nonneg.2 s1) (sub_nonneg.2 b3)
        have := mul_nonneg s0 (sub_nonneg.2 c3)
        linarith
  refine ⟨?_, ?_, ?_, ?_⟩
  · by_contra hc
    rw [not_lt] at hc
    refine key (p.1 - 1, p.2) (by simp) (by simp only; linarith) ?_
    rintro r ⟨s, s0, s1, rfl⟩
    rcases s0.lt_or_eq with h0 | h0
    · right; left; simp only; linarith
    · left; rw [← h0]; simp
  · by_contra hc
    rw [not_lt] at hc
    refine not_evenOdd_of_none ?_ h
    intro e he hray
    rw [crossesRay_iff] at hray
    obtain ⟨m1, m2⟩ := edges_mem he
    have b := (hT.contains _ m1).2.1
    have c := (hT.contains _ m2).2.1
    rcases hray with ⟨x1, x2, x3⟩ | ⟨x1, x2, x3⟩
    · have := mul_nonneg (show 0 ≤ p.1 - e.1.1 by linarith) (neg_nonneg.2 x2)
      have := mul_nonneg (show 0 ≤ p.1 - e.2.1 by linarith) x1.le
      linarith
    · have := mul_nonneg (show 0 ≤ p.1 - e.1.1 by linarith) x1.le
      have := mul_nonneg (show 0 ≤ p.1 - e.2.1 by linarith) (neg_nonneg.2 x2)
      linarith
  · by_contra hc
    rw [not_lt] at hc
    refine key (min p.1 lo.1 - 1, p.2 - 1) (by have := min_le_left p.1 lo.1; simp only; linarith)
      (by have := min_le_right p.1 lo.1; simp only; linarith) ?_
    rintro r ⟨s, s0, s1, rfl⟩
    rcases s0.lt_or_eq with h0 | h0
    · right; right; simp only; linarith
    · left; rw [← h0]; simp
  · by_contra hc
    rw [not_lt] at hc
    refine not_evenOdd_of_none ?_ h
    intro e he hray
    obtain ⟨m1, m2⟩ := edges_mem he
    have b := (hT.contains _ m1).2.2.2
    have c := (hT.contains _ m2).2.2.2
    rcases hray.1 with ⟨x1, -⟩ | ⟨x1, -⟩ <;> linarith

end

theorem polyGetBB_ok {t : Thr ℝ} {pts : List (Pt ℝ)} {r : FRect ℝ} (h : polyGetBB t pts = .ok r) :
    IsTightBox (fun q => q ∈ pts) r.p1 r.p2 ∧ t.nullOrthogDistance ≤ r.p2.1 - r.p1.1 ∧ t.nullOrthogDistance ≤ r.p2.2 - r.p1.2 := by
  unfold polyGetBB at h
  split_ifs at h with hl
  have hne : pts ≠ [] := by rintro rfl; simp at hl
  obtain ⟨lo, hi, hT, he⟩ := getBB_Points_eq t pts hne
  rw [he] at h
  by_cases h1 : samePt t.nullDistance lo hi = true
  · rw [if_pos h1] at h; cases h
  · rw [if_neg h1] at h
    by_cases h2 : shareCommonCoord t.nullOrthogDistance lo hi = true
    · rw [if_pos h2] at h; cases h
    · rw [if_neg h2] at h
      simp only [Res.bind_ok, if_neg h2] at h
      have h2' : shareCommonCoord t.nullOrthogDistance lo hi = false := by simpa using h2
      have hle := IsTightBox.le hT
      rw [ofPts_of_le _ _ _ hle.1 hle.2 h2'] at h
      cases h
      rw [share_iff, not_or, not_lt, not_lt, abs_sub_comm, abs_sub_comm lo.2, abs_of_nonneg (by linarith [hle.1]), abs_of_nonneg (by linarith [hle.2])] at h2
      exact ⟨hT, h2⟩

theorem polyGetBB_eq {t : Thr ℝ} {pts : List (Pt ℝ)} {lo hi : Pt ℝ} (hl : 2 ≤ pts.length) (hT : IsTightBox (fun q => q ∈ pts) lo hi)
    (h0 : t.nullDistance ≤ eucl lo hi) (h1 : t.nullOrthogDistance ≤ hi.1 - lo.1) (h2 : t.nullOrthogDistance ≤ hi.2 - lo.2) (hn : 0 < t.nullDistance) :
    polyGetBB t pts = .ok ⟨lo, hi⟩ := by
  unfold polyGetBB
  have hne : pts ≠ [] := by rintro rfl; simp at hl
  obtain ⟨lo', hi', hT', he⟩ := getBB_Points_eq t pts hne
  obtain ⟨rfl, rfl⟩ := hT.unique hT'
  have hle := IsTightBox.le hT
  have a : ¬ samePt t.nullDistance lo hi = true := by
    rw [samePt_iff, not_lt]
    have := eucl_sq lo hi
    unfold sqDist; nlinarith
  have b : ¬ shareCommonCoord t.nullOrthogDistance lo hi = true := by
    rw [share_iff, not_or, not_lt, not_lt, abs_sub_comm, abs_sub_comm lo.2, abs_of_nonneg (by linarith [hle.1]), abs_of_nonneg (by linarith [hle.2])]
    exact ⟨h1, h2⟩
  rw [if_neg (by omega), he, if_neg a, if_neg b]
  simp only [Res.bind_ok, if_neg b]
  exact ofPts_of_le _ _ _ hle.1 hle.2 (by simpa using b)

theorem insideRect_iff (p : Pt ℝ) (r : FRect ℝ) :
    Pt.isInsideRect p r = true ↔ r.p1.1 < p.1 ∧ p.1 < r.p2.1 ∧ r.p1.2 < p.2 ∧ p.2 < r.p2.2 := by
  unfold Pt.isInsideRect ptIsInside
  simp only [Bool.and_eq_true, decide_eq_true_eq, gt_iff_lt, and_assoc]

/-- What an answer of the algorithm comes from. -/
theorem answer_cases {t : Thr ℝ} (ho : 0 < t.nullOrthogDistance) {pts : List (Pt ℝ)} {p : Pt ℝ} {b : Bool}
    (hs : isSimple (segInterB t) true pts = true) (h : ptInsidePoly t true pts p = .ok b) :
    3 ≤ pts.length ∧ ∃ lo hi, IsTightBox (fun q => q ∈ pts) lo hi ∧ lo.1 < hi.1 ∧ lo.2 < hi.2 ∧
      ((b = false ∧ ¬ (lo.1 < p.1 ∧ p.1 < hi.1 ∧ lo.2 < p.2 ∧ p.2 < hi.2)) ∨
       ((lo.1 < p.1 ∧ p.1 < hi.1 ∧ lo.2 < p.2 ∧ p.2 < hi.2) ∧ (∀ e ∈ polyEdges pts, t.nullDistance ≤ eucl e.1 e.2) ∧
        ((b = false ∧ nearLine t p ((polyEdges pts).map (fun e => fixOrder e.1 e.2)) = .ok true) ∨
         (nearLine t p ((polyEdges pts).map (fun e => fixOrder e.1 e.2)) = .ok false ∧
          ∃ j, 1 ≤ j ∧ j ≤ 5 ∧ t.nullDistance ≤ eucl p (refPoint lo hi j) ∧
            (∀ v ∈ pts, t.nullDistance ≤ (segDistTo (fixOrder p (refPoint lo hi j)) v).1) ∧
            ∃ c, pipCount t (fixOrder p (refPoint lo hi j)) ((polyEdges pts).map (fun e => fixOrder e.1 e.2)) = .ok c ∧ b = decide (c % 2 = 1))))) := by
  have h3 : 3 ≤ pts.length := by
    rw [isSimple_eq] at hs
    simp only [Bool.and_eq_true, decide_eq_true_eq] at hs
    exact hs.1
  refine ⟨h3, ?_⟩
  unfold ptInsidePoly at h
  rw [hs] at h
  simp only [Bool.not_true, Bool.false_eq_true, if_false] at h
  rcases hr : polyGetBB t pts with r | _ | _
  · rw [hr] at h
    simp only [Res.bind_ok] at h
    obtain ⟨hT, w1, w2⟩ := polyGetBB_ok hr
    refine ⟨r.p1, r.p2, hT, by linarith, by linarith, ?_⟩
    by_cases hin : Pt.isInsideRect p r = true
    · right
      rw [hin] at h
      simp only [Bool.not_true, Bool.false_eq_true, if_false] at h
      refine ⟨(insideRect_iff p r).1 hin, ?_⟩
      rw [segPairs_edges h3] at h
      rcases hps : polySegs t (polyEdges pts) with segs | _ | _
      · rw [hps] at h
        simp only [Res.bind_ok] at h
        obtain ⟨rfl, hlen⟩ := polySegs_spec t _ _ hps
        refine ⟨hlen, ?_⟩
        rcases hn : nearLine t p ((polyEdges pts).map (fun e => fixOrder e.1 e.2)) with nb | _ | _
        · rw [hn] at h
          simp only [Res.bind_ok] at h
          cases nb with
          | true =>
            simp only [if_true, Res.pure_eq, Res.ok.injEq] at h
            exact Or.inl ⟨h.symm, hn⟩
          | false =>
            right
            refine ⟨hn, ?_⟩
            simp only [Bool.false_eq_true, if_false] at h
            have he : r.getExtended t.nullOrthogDistance =
                .ok ⟨(r.p1.1 * 2 - r.p2.1, r.p1.2 * 2 - r.p2.2), (r.p2.1 * 2 - r.p1.1, r.p2.2 * 2 - r.p1.2)⟩ := by
              unfold FRect.getExtended
              apply ofPts_of_le
              · simp only; linarith
              · simp only; linarith
              · rw [← Bool.not_eq_true, share_iff, not_or, not_lt, not_lt, abs_sub_comm, abs_sub_comm (r.p1.1 * 2 - r.p2.1, r.p1.2 * 2 - r.p2.2).2]
                constructor
                · rw [abs_of_nonneg] <;> (simp only; linarith)
                · rw [abs_of_nonneg] <;> (simp only; linarith)
            rw [he] at h
            simp only [Res.bind_ok] at h
            rcases hb : rectSegs t ⟨(r.p1.1 * 2 - r.p2.1, r.p1.2 * 2 - r.p2.2), (r.p2.1 * 2 - r.p1.1, r.p2.2 * 2 - r.p1.2)⟩ with bb | _ | _
            · rw [hb] at h
              simp only [Res.bind_ok] at h
              have hH : 0 < 3 * (r.p2.2 - r.p1.2) := by linarith
              have hbb : ∃ l, bb = ((r.p1.1 * 2 - r.p2.1, r.p1.2 * 2 - r.p2.2), (r.p1.1 * 2 - r.p2.1, r.p1.2 * 2 - r.p2.2 + 3 * (r.p2.2 - r.p1.2))) :: l := by
                unfold rectSegs at hb
                rcases q0 : segMake t false (r.p1.1 * 2 - r.p2.1, r.p1.2 * 2 - r.p2.2) (r.p1.1 * 2 - r.p2.1, r.p2.2 * 2 - r.p1.2) with s0 | _ | _
                · simp only at hb
                  rw [q0] at hb
                  simp only [Res.bind_ok] at hb
                  rcases q1 : segMake t false (r.p1.1 * 2 - r.p2.1, r.p2.2 * 2 - r.p1.2) (r.p2.1 * 2 - r.p1.1, r.p2.2 * 2 - r.p1.2) with s1 | _ | _
                  · rw [q1] at hb
                    simp only [Res.bind_ok] at hb
                    rcases q2 : segMake t false (r.p2.1 * 2 - r.p1.1, r.p2.2 * 2 - r.p1.2) (r.p2.1 * 2 - r.p1.1, r.p1.2 * 2 - r.p2.2) with s2 | _ | _
                    · rw [q2] at hb
                      simp only [Res.bind_ok] at hb
                      rcases q3 : segMake t false (r.p2.1 * 2 - r.p1.1, r.p1.2 * 2 - r.p2.2) (r.p1.1 * 2 - r.p2.1, r.p1.2 * 2 - r.p2.2) with s3 | _ | _
                      · rw [q3] at hb
                        simp only [Res.bind_ok, Res.pure_eq, Res.ok.injEq] at hb
                        refine ⟨[s1, s2, s3], ?_⟩
                        rw [← hb]
                        congr 1
                        have hle := (segMake_ok q0).1
                        rw [segMake_eq false hle] at q0
                        simp only [Bool.false_eq_true, if_false, Res.ok.injEq] at q0
                        rw [← q0, fixOrder_vert (by linarith)]
                        congr 2; ring
                      · rw [q3] at hb; cases hb
                      · rw [q3] at hb; cases hb
                    · rw [q2] at hb; cases hb
                    · rw [q2] at hb; cases hb
                  · rw [q1] at hb; cases hb
                  · rw [q1] at hb; cases hb
                · simp only at hb; rw [q0] at hb; cases hb
                · simp only at hb; rw [q0] at hb; cases hb
              obtain ⟨l, rfl⟩ := hbb
              obtain ⟨j, j1, j2, rest⟩ := pipLoop_ok t pts _ p _ _ b 5 _ l hH h
              refine ⟨j, j1, j2, ?_⟩
              rw [show refPoint r.p1 r.p2 j = (r.p1.1 * 2 - r.p2.1, r.p1.2 * 2 - r.p2.2 + 3 * (r.p2.2 - r.p1.2) / 2 ^ j) by
                unfold refPoint; congr 1 <;> ring]
              exact rest
            · rw [hb] at h; cases h
            · rw [hb] at h; cases h
        · rw [hn] at h; cases h
        · rw [hn] at h; cases h
      · rw [hps] at h; cases h
      · rw [hps] at h; cases h
    · left
      have hin' : Pt.isInsideRect p r = false := by simpa using hin
      rw [hin'] at h
      simp only [Bool.not_false, if_true, Res.pure_eq, Res.ok.injEq] at h
      exact ⟨h.symm, fun hh => hin ((insideRect_iff p r).2 hh)⟩
  · rw [hr] at h; cases h
  · rw [hr] at h; cases h

open Classical in
/-- The answer of the last step. -/
theorem last_step {t : Thr ℝ} (h1 : dblEps < t.nullDistance) (h2 : 0 < t.nullAngleValue) {pts : List (Pt ℝ)} {p lo hi : Pt ℝ} {b : Bool}
    (hT : IsTightBox (fun q => q ∈ pts) lo hi) (_hlo : lo.1 < hi.1) (hg : GoodRefs t pts p)
    (hin : lo.1 < p.1 ∧ p.1 < hi.1 ∧ lo.2 < p.2 ∧ p.2 < hi.2) (hlen : ∀ e ∈ polyEdges pts, t.nullDistance ≤ eucl e.1 e.2)
    (hn : nearLine t p ((polyEdges pts).map (fun e => fixOrder e.1 e.2)) = .ok false)
    {j : ℕ} (j1 : 1 ≤ j) (j5 : j ≤ 5) (hd : t.nullDistance ≤ eucl p (refPoint lo hi j))
    (hv : ∀ v ∈ pts, t.nullDistance ≤ (segDistTo (fixOrder p (refPoint lo hi j)) v).1) {c : ℕ}
    (hc : pipCount t (fixOrder p (refPoint lo hi j)) ((polyEdges pts).map (fun e => fixOrder e.1 e.2)) = .ok c) (hb : b = decide (c % 2 = 1)) :
    FarFromLines t.nullDistance pts p ∧ (b = true ↔ EvenOdd pts p) := by
  have hp0 := dblEps_pos
  set q := refPoint lo hi j with hq
  have q1 : q.1 < lo.1 := by rw [hq]; unfold refPoint; simp only; linarith [_hlo]
  have hqp : q.1 < p.1 := by linarith [hin.1]
  have hfar : FarFromLines t.nullDistance pts p := by
    intro e he
    obtain ⟨li, hli, hd'⟩ := nearLine_false t p _ hn (fixOrder e.1 e.2) (List.mem_map.2 ⟨e, he, rfl⟩)
    obtain ⟨li', f1, f2⟩ := far_iff h1 (p := p) (hlen e he) (hg.1 e he) t.nullDistance
    rw [hli] at f1; cases f1
    exact f2.1 hd'
  obtain ⟨gr, gang⟩ := hg.2 lo hi hT j j1 j5
  have hx : ∀ v ∈ pts, q.1 < v.1 := fun v hv' => lt_of_lt_of_le q1 (hT.contains v hv').1
  have hne : (fixOrder p q).1 ≠ (fixOrder p q).2 := by
    rcases fixOrder_cases p q with h | h <;> rw [h] <;> (intro h'; simp only [Prod.fst_swap, Prod.snd_swap] at h'; rw [h'] at hqp; exact lt_irrefl _ hqp)
  have cnt := pipCount_spec t (fixOrder p q) (fun s => ∃ r, OnSeg s.1 s.2 r ∧ OnSeg p q r) _ c hc (by
    intro s hs i hi'
    obtain ⟨e, he, rfl⟩ := List.mem_map.1 hs
    obtain ⟨m1, m2⟩ := edges_mem he
    have := crossing h1 h2 (hlen e he) hd (hg.1 e he) gr hqp (hx _ m1) (hx _ m2) (hv _ m1) (hv _ m2)
      (nearLine_false t p _ hn _ hs) (gang e he) i hi'
    rw [this]
    simp only [onSeg_fix])
  rw [List.countP_map] at cnt
  have hpar := parity (pts := pts) (p := p) (q := q) hqp hx (by
      intro v hv' ho
      have h3 := (C19_shortest _ hne v).2 ⟨v, onSeg_fix.2 ho, rfl⟩
      rw [eucl_self] at h3
      linarith [hv v hv']) (by
      rintro e he ⟨k, -, -, hk⟩
      have h3 := hfar e he k
      rw [show along e k = p from hk.symm, eucl_self] at h3
      linarith)
  refine ⟨hfar, ?_⟩
  rw [← hpar, hb, decide_eq_true_eq, cnt]
  have : (polyEdges pts).countP ((fun s : Seg => decide (∃ r, OnSeg s.1 s.2 r ∧ OnSeg p q r)) ∘ fun e => fixOrder e.1 e.2) =
      (polyEdges pts).countP (fun e => decide (∃ r, OnSeg e.1 e.2 r ∧ OnSeg p q r)) := by
    apply List.countP_congr
    intro e _
    simp only [Function.comp, onSeg_fix]
  rw [this]

/-! ### Computation of the answer -/

theorem nearLine_eq_true {t : Thr ℝ} (h1 : dblEps < t.nullDistance) {p : Pt ℝ} : ∀ (l : List (Pt ℝ × Pt ℝ)),
    (∀ e ∈ l, t.nullDistance ≤ eucl e.1 e.2 ∧ GoodSlope t e.1 e.2) → (∃ e ∈ l, ∃ k, eucl p (along e k) < t.nullDistance) →
    nearLine t p (l.map (fun e => fixOrder e.1 e.2)) = .ok true
  | [], _, h => by obtain ⟨e, he, -⟩ := h; cases he
  | e :: l, hg, h => by
    obtain ⟨g1, g2⟩ := hg e List.mem_cons_self
    obtain ⟨li, f1, f2⟩ := far_iff h1 (p := p) g1 g2 t.nullDistance
    rw [List.map_cons]
    unfold nearLine
    rw [f1]
    simp only [Res.bind_ok]
    split_ifs with hc
    · rfl
    · apply nearLine_eq_true h1 l (fun e' he' => hg e' (List.mem_cons_of_mem _ he'))
      obtain ⟨e', he', k, hk⟩ := h
      rcases List.mem_cons.1 he' with rfl | he'
      · exact absurd (f2.1 (not_lt.1 hc) k) (not_le.2 hk)
      · exact ⟨e', he', k, hk⟩

theorem nearLine_eq_false {t : Thr ℝ} (h1 : dblEps < t.nullDistance) {p : Pt ℝ} : ∀ (l : List (Pt ℝ × Pt ℝ)),
    (∀ e ∈ l, t.nullDistance ≤ eucl e.1 e.2 ∧ GoodSlope t e.1 e.2) → (∀ e ∈ l, ∀ k, t.nullDistance ≤ eucl p (along e k)) →
    nearLine t p (l.map (fun e => fixOrder e.1 e.2)) = .ok false
  | [], _, _ => rfl
  | e :: l, hg, h => by
    obtain ⟨g1, g2⟩ := hg e List.mem_cons_self
    obtain ⟨li, f1, f2⟩ := far_iff h1 (p := p) g1 g2 t.nullDistance
    rw [List.map_cons]
    unfold nearLine
    rw [f1]
    simp only [Res.bind_ok]
    rw [if_neg (not_lt.2 (f2.2 (h e List.mem_cons_self)))]
    exact nearLine_eq_false h1 l (fun e' he' => hg e' (List.mem_cons_of_mem _ he')) (fun e' he' => h e' (List.mem_cons_of_mem _ he'))

theorem segInter_ok {t : Thr ℝ} (h1 : dblEps < t.nullDistance) {s s' : Seg} (h : t.nullDistance ≤ eucl s.1 s.2) (h' : t.nullDistance ≤ eucl s'.1 s'.2) :
    ∃ i, segInter t s s' = .ok i := by
  obtain ⟨l, e1, -⟩ := segLine_spec h1 h
  obtain ⟨m, f1, -⟩ := segLine_spec h1 h'
  unfold segInter
  rw [show segLine t s = .ok l from e1, show segLine t s' = .ok m from f1]
  simp only [Res.bind_ok]
  split_ifs with a b
  · exact ⟨_, rfl⟩
  · exact ⟨_, rfl⟩
  · unfold lineInter
    rw [if_neg b, Res.bind_ok]
    split_ifs <;> exact ⟨_, rfl⟩

theorem pipCount_ok {t : Thr ℝ} (h1 : dblEps < t.nullDistance) {ref : Seg} (hr : t.nullDistance ≤ eucl ref.1 ref.2) : ∀ (l : List (Pt ℝ × Pt ℝ)),
    (∀ e ∈ l, t.nullDistance ≤ eucl e.1 e.2) → ∃ c, pipCount t ref (l.map (fun e => fixOrder e.1 e.2)) = .ok c
  | [], _ => ⟨0, rfl⟩
  | e :: l, h => by
    obtain ⟨i, hi⟩ := segInter_ok h1 (s := fixOrder e.1 e.2) (by rw [eucl_fix]; exact h e List.mem_cons_self) hr
    obtain ⟨c, hc⟩ := pipCount_ok h1 hr l (fun e' he' => h e' (List.mem_cons_of_mem _ he'))
    rw [List.map_cons]
    unfold pipCount
    rw [hi, hc]
    exact ⟨_, rfl⟩

theorem pipTry_first {t : Thr ℝ} {pts : List (Pt ℝ)} {segs : List Seg} {p : Pt ℝ} {s : Seg} (l : List Seg) {c : ℕ}
    (h1 : t.nullDistance ≤ eucl p (segCenter s)) (h2 : ∀ v ∈ pts, t.nullDistance ≤ (segDistTo (fixOrder p (segCenter s)) v).1)
    (h3 : pipCount t (fixOrder p (segCenter s)) segs = .ok c) :
    pipTry t pts segs p (s :: l) false = .ok (some (decide (c % 2 = 1))) := by
  unfold pipTry
  rw [segMake_eq false h1]
  simp only [Bool.false_eq_true, if_false, Res.bind_ok, Bool.false_or]
  rw [if_neg, h3]
  · rfl
  · rw [Bool.not_eq_true, List.any_eq_false]
    intro v hv
    simpa using h2 v hv

/-- The answer, when it is found with the first reference segment. -/
theorem answer_first {t : Thr ℝ} (h1 : dblEps < t.nullDistance) (ho : 0 < t.nullOrthogDistance) {pts : List (Pt ℝ)} {p lo hi : Pt ℝ}
    (hs : isSimple (segInterB t) true pts = true) (hT : IsTightBox (fun q => q ∈ pts) lo hi)
    (w1 : t.nullDistance ≤ hi.1 - lo.1) (w2 : t.nullDistance ≤ hi.2 - lo.2) (w1' : t.nullOrthogDistance ≤ hi.1 - lo.1)
    (w2' : t.nullOrthogDistance ≤ hi.2 - lo.2)
    (hin : lo.1 < p.1 ∧ p.1 < hi.1 ∧ lo.2 < p.2 ∧ p.2 < hi.2)
    (he : ∀ e ∈ polyEdges pts, t.nullDistance ≤ eucl e.1 e.2 ∧ GoodSlope t e.1 e.2) (hf : FarFromLines t.nullDistance pts p)
    (hv : ∀ v ∈ pts, t.nullDistance ≤ (segDistTo (fixOrder p (refPoint lo hi 1)) v).1) {c : ℕ}
    (hc : pipCount t (fixOrder p (refPoint lo hi 1)) ((polyEdges pts).map (fun e => fixOrder e.1 e.2)) = .ok c) :
    ptInsidePoly t true pts p = .ok (decide (c % 2 = 1)) := by
  have h0 := dblEps_pos
  have h3 : 3 ≤ pts.length := by
    rw [isSimple_eq] at hs
    simp only [Bool.and_eq_true, decide_eq_true_eq] at hs
    exact hs.1
  have ex : ∀ a b : Pt ℝ, |a.1 - b.1| ≤ eucl a b := fun a b => by
    rw [eucl]; apply Real.le_sqrt_of_sq_le; rw [sq_abs]; nlinarith [sq_nonneg (a.2 - b.2)]
  have ey : ∀ a b : Pt ℝ, |a.2 - b.2| ≤ eucl a b := fun a b => by
    rw [eucl]; apply Real.le_sqrt_of_sq_le; rw [sq_abs]; nlinarith [sq_nonneg (a.1 - b.1)]
  have hbb := polyGetBB_eq (t := t) (pts := pts) (by omega) hT (by
    refine le_trans w1 (le_trans ?_ (ex lo hi)); rw [abs_sub_comm]; exact le_abs_self _) w1' w2' (by linarith)
  unfold ptInsidePoly
  rw [hs, hbb]
  simp only [Bool.not_true, Bool.false_eq_true, if_false, Res.bind_ok]
  rw [(insideRect_iff p ⟨lo, hi⟩).2 hin]
  simp only [Bool.not_true, Bool.false_eq_true, if_false]
  rw [segPairs_edges h3, polySegs_ok t _ (fun e h => (he e h).1)]
  simp only [Res.bind_ok]
  rw [nearLine_eq_false h1 _ he hf]
  simp only [Res.bind_ok, Bool.false_eq_true, if_false]
  have hext : FRect.getExtended t.nullOrthogDistance ⟨lo, hi⟩ =
      .ok ⟨(lo.1 * 2 - hi.1, lo.2 * 2 - hi.2), (hi.1 * 2 - lo.1, hi.2 * 2 - lo.2)⟩ := by
    unfold FRect.getExtended
    apply ofPts_of_le
    · simp only; linarith
    · simp only; linarith
    · rw [← Bool.not_eq_true, share_iff, not_or, not_lt, not_lt, abs_sub_comm, abs_sub_comm (lo.1 * 2 - hi.1, lo.2 * 2 - hi.2).2]
      constructor
      · rw [abs_of_nonneg] <;> (simp only; linarith)
      · rw [abs_of_nonneg] <;> (simp only; linarith)
  rw [hext]
  simp only [Res.bind_ok]
  have d1 : ∀ x y y' : ℝ, t.nullDistance ≤ y' - y → t.nullDistance ≤ eucl (x, y) (x, y') := fun x y y' h => by
    refine le_trans h (le_trans ?_ (ey _ _)); rw [abs_sub_comm]; exact le_abs_self _
  have d2 : ∀ x x' y : ℝ, t.nullDistance ≤ x' - x → t.nullDistance ≤ eucl (x, y) (x', y) := fun x x' y h => by
    refine le_trans h (le_trans ?_ (ex _ _)); rw [abs_sub_comm]; exact le_abs_self _
  have hsegs : ∃ l, rectSegs t ⟨(lo.1 * 2 - hi.1, lo.2 * 2 - hi.2), (hi.1 * 2 - lo.1, hi.2 * 2 - lo.2)⟩ =
      .ok (((lo.1 * 2 - hi.1, lo.2 * 2 - hi.2), (lo.1 * 2 - hi.1, hi.2 * 2 - lo.2)) :: l) := by
    unfold rectSegs
    simp only
    rw [segMake_eq false (d1 _ _ _ (by linarith)), segMake_eq false (d2 _ _ _ (by linarith)),
      segMake_eq false (by rw [eucl_comm]; exact d1 _ _ _ (by linarith)), segMake_eq false (by rw [eucl_comm]; exact d2 _ _ _ (by linarith))]
    simp only [Res.bind_ok, Bool.false_eq_true, if_false, Res.pure_eq]
    rw [fixOrder_vert (by linarith)]
    exact ⟨_, rfl⟩
  obtain ⟨l, hl⟩ := hsegs
  rw [hl]
  simp only [Res.bind_ok]
  have hcen : segCenter ((lo.1 * 2 - hi.1, lo.2 * 2 - hi.2), (lo.1 * 2 - hi.1, hi.2 * 2 - lo.2)) = refPoint lo hi 1 := by
    unfold segCenter refPoint; simp only; congr 1 <;> ring
  unfold pipLoop
  rw [pipTry_first (c := c) l]
  · rfl
  · rw [hcen]
    refine le_trans ?_ (ex _ _)
    unfold refPoint
    simp only
    rw [abs_of_pos] <;> linarith [hin.1]
  · rw [hcen]; exact hv
  · rw [hcen]; exact hc

theorem bind_ne_ub {α β : Type} {x : Res α} {f : α → Res β} (h : x ≠ .ub) (h' : ∀ a, f a ≠ .ub) : (x >>= f) ≠ .ub := by
  cases x with
  | ok a => exact h' a
  | throw => intro hh; cases hh
  | ub => exact absurd rfl h

theorem segMake_ne_ub (t : Thr ℝ) (o : Bool) (p q : Pt ℝ) : segMake t o p q ≠ .ub := by
  unfold segMake; split_ifs <;> simp

theorem segLine_ne_ub (t : Thr ℝ) (s : Seg) : segLine t s ≠ .ub := by
  unfold segLine lineOfPts; split_ifs
  · simp
  · exact normalizeLine_not_ub t _

theorem segInter_ne_ub (t : Thr ℝ) (s s' : Seg) : segInter t s s' ≠ .ub := by
  unfold segInter
  split_ifs
  · simp
  · refine bind_ne_ub (segLine_ne_ub t s) fun l => bind_ne_ub (segLine_ne_ub t s') fun m => ?_
    split_ifs
    · simp
    · refine bind_ne_ub ?_ fun p => ?_
      · unfold lineInter; split_ifs; simp
      · simp only; split_ifs <;> simp

theorem polySegs_ne_ub (t : Thr ℝ) : ∀ l, polySegs t l ≠ .ub
  | [] => by simp [polySegs]
  | e :: l => by
    unfold polySegs
    exact bind_ne_ub (segMake_ne_ub _ _ _ _) fun _ => bind_ne_ub (polySegs_ne_ub t l) fun _ => by simp

theorem nearLine_ne_ub (t : Thr ℝ) (p : Pt ℝ) : ∀ l, nearLine t p l ≠ .ub
  | [] => by simp [nearLine]
  | s :: l => by
    unfold nearLine
    refine bind_ne_ub (segLine_ne_ub _ _) fun li => ?_
    split_ifs
    · simp
    · exact nearLine_ne_ub t p l

theorem pipCount_ne_ub (t : Thr ℝ) (ref : Seg) : ∀ l, pipCount t ref l ≠ .ub
  | [] => by simp [pipCount]
  | s :: l => by
    unfold pipCount
    exact bind_ne_ub (segInter_ne_ub _ _ _) fun _ => bind_ne_ub (pipCount_ne_ub t ref l) fun _ => by simp

theorem pipTry_ne_ub (t : Thr ℝ) (pts : List (Pt ℝ)) (segs : List Seg) (p : Pt ℝ) : ∀ l tc, pipTry t pts segs p l tc ≠ .ub
  | [], _ => by simp [pipTry]
  | s :: l, tc => by
    unfold pipTry
    refine bind_ne_ub (segMake_ne_ub _ _ _ _) fun ref => ?_
    simp only
    split_ifs
    · exact pipTry_ne_ub t pts segs p l _
    · exact bind_ne_ub (pipCount_ne_ub _ _ _) fun _ => by simp

theorem splitAll_ne_ub (t : Thr ℝ) : ∀ l, splitAll t l ≠ .ub
  | [] => by simp [splitAll]
  | s :: l => by
    unfold splitAll segSplit
    refine bind_ne_ub (bind_ne_ub (segMake_ne_ub _ _ _ _) fun _ => bind_ne_ub (segMake_ne_ub _ _ _ _) fun _ => by simp) fun _ => ?_
    exact bind_ne_ub (splitAll_ne_ub t l) fun _ => by simp

theorem pipLoop_ne_ub (t : Thr ℝ) (pts : List (Pt ℝ)) (segs : List Seg) (p : Pt ℝ) : ∀ n l, pipLoop t pts segs p n l ≠ .ub
  | 0, _ => by simp [pipLoop]
  | n + 1, l => by
    unfold pipLoop
    refine bind_ne_ub (pipTry_ne_ub _ _ _ _ _ _) fun o => ?_
    cases o with
    | some b => simp
    | none =>
      simp only
      split_ifs
      · simp
      · exact bind_ne_ub (splitAll_ne_ub _ _) fun bb => pipLoop_ne_ub t pts segs p n bb

/-- No undefined behaviour. -/
theorem ptInsidePoly_ne_ub (t : Thr ℝ) (closed : Bool) (pts : List (Pt ℝ)) (p : Pt ℝ) : ptInsidePoly t closed pts p ≠ .ub := by
  unfold ptInsidePoly
  split_ifs with hs
  · simp
  · refine bind_ne_ub ?_ fun r => ?_
    · unfold polyGetBB
      split_ifs with hl
      · simp
      · have hne : pts ≠ [] := by rintro rfl; simp at hl
        obtain ⟨lo, hi, -, he⟩ := getBB_Points_eq t pts hne
        rw [he]
        refine bind_ne_ub ?_ fun ab => ?_
        · split_ifs <;> simp
        · simp only
          split_ifs
          · simp
          · unfold FRect.ofPts getCorrectPoints
            split_ifs <;> simp
    · split_ifs
      · simp
      · refine bind_ne_ub (polySegs_ne_ub _ _) fun segs => bind_ne_ub (nearLine_ne_ub _ _ _) fun b => ?_
        split_ifs
        · simp
        · refine bind_ne_ub ?_ fun ext => bind_ne_ub ?_ fun bb => pipLoop_ne_ub _ _ _ _ _ _
          · unfold FRect.getExtended FRect.ofPts getCorrectPoints
            split_ifs <;> simp
          · unfold rectSegs
            exact bind_ne_ub (segMake_ne_ub _ _ _ _) fun _ => bind_ne_ub (segMake_ne_ub _ _ _ _) fun _ =>
              bind_ne_ub (segMake_ne_ub _ _ _ _) fun _ => bind_ne_ub (segMake_ne_ub _ _ _ _) fun _ => by simp

/-! ### Segments that are far from each other, or nearly parallel -/

theorem segInterB_sep {t : Thr ℝ} (h1 : dblEps < t.nullDistance) (h2 : 0 < t.nullAngleValue) {a b : Seg} (ha : GoodSeg t a) (hb : GoodSeg t b)
    (h : (∃ M, (M + t.nullDistance ≤ a.1.1 ∧ M + t.nullDistance ≤ a.2.1 ∧ b.1.1 ≤ M ∧ b.2.1 ≤ M)) ∨
      (∃ M, (M + t.nullDistance ≤ b.1.1 ∧ M + t.nullDistance ≤ b.2.1 ∧ a.1.1 ≤ M ∧ a.2.1 ≤ M)) ∨
      (∃ M, (M + t.nullDistance ≤ a.1.2 ∧ M + t.nullDistance ≤ a.2.2 ∧ b.1.2 ≤ M ∧ b.2.2 ≤ M)) ∨
      (∃ M, (M + t.nullDistance ≤ b.1.2 ∧ M + t.nullDistance ≤ b.2.2 ∧ a.1.2 ≤ M ∧ a.2.2 ≤ M))) :
    segInterB t a b = false ∧ segInter t (fixOrder a.1 a.2) (fixOrder b.1 b.2) = .ok none := by
  have ga : GoodSeg t (fixOrder a.1 a.2) := ⟨by rw [eucl_fix]; exact ha.1, goodSlope_fix ha.2⟩
  have gb : GoodSeg t (fixOrder b.1 b.2) := ⟨by rw [eucl_fix]; exact hb.1, goodSlope_fix hb.2⟩
  obtain ⟨i, hi⟩ := segInter_ok h1 ga.1 gb.1
  have hnone : i = none := by
    cases i with
    | none => rfl
    | some X =>
      exfalso
      obtain ⟨-, ⟨r, hr, dr⟩, r', hr', dr'⟩ := C22_sound_partial t h1 h2 _ _ ga gb X hi
      rw [onSeg_fix] at hr hr'
      have ht : eucl r r' < t.nullDistance := by
        have := eucl_triangle r X r'
        rw [eucl_comm r X] at this
        linarith
      have ex : |r.1 - r'.1| ≤ eucl r r' := by
        rw [eucl]; apply Real.le_sqrt_of_sq_le; rw [sq_abs]; nlinarith [sq_nonneg (r.2 - r'.2)]
      have ey : |r.2 - r'.2| ≤ eucl r r' := by
        rw [eucl]; apply Real.le_sqrt_of_sq_le; rw [sq_abs]; nlinarith [sq_nonneg (r.1 - r'.1)]
      rw [abs_le] at ex ey
      obtain ⟨s, s0, s1, e1, e2⟩ := onSeg_coord hr
      obtain ⟨s', s0', s1', e1', e2'⟩ := onSeg_coord hr'
      have lin : ∀ {M x y u : ℝ}, 0 ≤ u → u ≤ 1 → M ≤ x → M ≤ y → M ≤ (1 - u) * x + u * y := by
        intro M x y u u0 u1 hx hy
        have := mul_nonneg (sub_nonneg.2 u1) (sub_nonneg.2 hx)
        have := mul_nonneg u0 (sub_nonneg.2 hy)
        linarith
      have lin' : ∀ {M x y u : ℝ}, 0 ≤ u → u ≤ 1 → x ≤ M → y ≤ M → (1 - u) * x + u * y ≤ M := by
        intro M x y u u0 u1 hx hy
        have := mul_nonneg (sub_nonneg.2 u1) (sub_nonneg.2 hx)
        have := mul_nonneg u0 (sub_nonneg.2 hy)
        linarith
      rcases h with ⟨M, a1, a2, b1, b2⟩ | ⟨M, a1, a2, b1, b2⟩ | ⟨M, a1, a2, b1, b2⟩ | ⟨M, a1, a2, b1, b2⟩
      · have := lin s0 s1 a1 a2
        have := lin' s0' s1' b1 b2
        linarith
      · have := lin s0' s1' a1 a2
        have := lin' s0 s1 b1 b2
        linarith
      · have := lin s0 s1 a1 a2
        have := lin' s0' s1' b1 b2
        linarith
      · have := lin s0' s1' a1 a2
        have := lin' s0 s1 b1 b2
        linarith
  subst hnone
  refine ⟨?_, hi⟩
  unfold segInterB
  rw [hi]

theorem segInter_par {t : Thr ℝ} (h1 : dblEps < t.nullDistance) {a b : Seg} (ha : GoodSeg t a) (hb : GoodSeg t b)
    (h : segAngle a b < t.nullAngleValue) : segInter t (fixOrder a.1 a.2) (fixOrder b.1 b.2) = .ok none := by
  have hp := dblEps_pos
  have ga : GoodSeg t (fixOrder a.1 a.2) := ⟨by rw [eucl_fix]; exact ha.1, goodSlope_fix ha.2⟩
  have gb : GoodSeg t (fixOrder b.1 b.2) := ⟨by rw [eucl_fix]; exact hb.1, goodSlope_fix hb.2⟩
  rw [← segAngle_fix a b] at h
  generalize fixOrder a.1 a.2 = s at *
  generalize fixOrder b.1 b.2 = s' at *
  obtain ⟨l, e1, e2, -, e3⟩ := segLine_spec h1 ga.1
  obtain ⟨m, f1, f2, -, f3⟩ := segLine_spec h1 gb.1
  obtain ⟨a1, a2⟩ := e3 ga.2
  obtain ⟨b1, b2⟩ := f3 gb.2
  unfold segInter
  split_ifs with hne
  · rfl
  · rw [show segLine t s = .ok l from e1, Res.bind_ok, show segLine t s' = .ok m from f1, Res.bind_ok,
      if_pos (by rw [IsParallel, lineAngle_seg e2.1 f2.1 (by linarith [ga.1]) (by linarith [gb.1]) a1 a2 b1 b2]; exact h)]
    rfl

theorem le_eucl {a b : Pt ℝ} {d : ℝ} (h : d ^ 2 ≤ (a.1 - b.1) ^ 2 + (a.2 - b.2) ^ 2) : d ≤ eucl a b :=
  Real.le_sqrt_of_sq_le h

theorem edges_of_mem {P : Type} {pts : List P} {v : P} (hv : v ∈ pts) : ∃ e ∈ polyEdges pts, e.1 = v := by
  obtain ⟨i, hi, rfl⟩ := List.getElem_of_mem hv
  refine ⟨(pts[i], (pts.rotate 1)[i]'(by rw [List.length_rotate]; exact hi)), ?_, rfl⟩
  unfold polyEdges
  rw [List.mem_iff_getElem]
  exact ⟨i, by rw [List.length_zip, List.length_rotate, min_self]; exact hi, by rw [List.getElem_zip]⟩

theorem eucl_self_lt {d : ℝ} (hd : 0 < d) (p : Pt ℝ) : ¬ d ≤ eucl p p := by
  rw [eucl_self]; exact not_le.2 hd

theorem far_notOn {d : ℝ} (hd : 0 < d) {pts : List (Pt ℝ)} {p : Pt ℝ} (hf : FarFromLines d pts p) :
    (∀ e ∈ polyEdges pts, ¬ OnSeg e.1 e.2 p) ∧ p ∉ pts := by
  constructor
  · rintro e he ⟨s, -, -, hs⟩
    have := hf e he s
    rw [show along e s = p from hs.symm] at this
    exact eucl_self_lt hd p this
  · intro hv
    obtain ⟨e, he, rfl⟩ := edges_of_mem hv
    have := hf e he 0
    rw [along_zero] at this
    exact eucl_self_lt hd _ this

theorem ref_ne {p lo hi : Pt ℝ} {n : ℕ} (h : lo.1 < p.1) (h' : lo.1 < hi.1) : p ≠ refPoint lo hi n := by
  intro hh
  have := congrArg Prod.fst hh
  unfold refPoint at this
  simp only at this
  linarith

theorem ref_far {t : Thr ℝ} {p lo hi v : Pt ℝ} {n : ℕ} (h : lo.1 < p.1) (h' : lo.1 < hi.1) :
    t.nullDistance ≤ (segDistTo (fixOrder p (refPoint lo hi n)) v).1 ↔ ∀ q, OnSeg p (refPoint lo hi n) q → t.nullDistance ≤ eucl v q := by
  have hne : (fixOrder p (refPoint lo hi n)).1 ≠ (fixOrder p (refPoint lo hi n)).2 := by
    rcases fixOrder_cases p (refPoint lo hi n) with hh | hh
    · rw [hh]; exact ref_ne h h'
    · rw [hh]; exact (ref_ne h h').symm
  have hl := C19_shortest _ hne v
  constructor
  · intro hd q hq
    exact le_trans hd (hl.2 ⟨q, onSeg_fix.2 hq, rfl⟩)
  · intro hq
    obtain ⟨q, h1, h2⟩ := hl.1
    rw [h2]
    exact hq q (onSeg_fix.1 h1)

theorem le_of_sq_le_sq' {x y : ℝ} (h : x ^ 2 ≤ y ^ 2) (hy : 0 ≤ y) : x ≤ y := le_trans (le_abs_self x) (by rw [← abs_of_nonneg hy]; exact sq_le_sq.1 h)

/-! ### Numerical criteria, used for the concrete cases -/

theorem goodSeg_of {a b : Pt ℝ} (h1 : (1 / 10 ^ 10) ^ 2 ≤ (a.1 - b.1) ^ 2 + (a.2 - b.2) ^ 2)
    (h2 : a.2 = b.2 ∨ 1 / 10 ^ 10 * (|a.1 - b.1| + |a.2 - b.2|) ≤ |a.2 - b.2|) : GoodSeg stdR (a, b) := by
  refine ⟨le_eucl h1, h2.imp id fun h => le_trans ?_ h⟩
  apply mul_le_mul_of_nonneg_left _ (by norm_num [stdR])
  rw [eucl, Real.sqrt_le_left (by positivity)]
  nlinarith [sq_abs (a.1 - b.1), sq_abs (a.2 - b.2), mul_nonneg (abs_nonneg (a.1 - b.1)) (abs_nonneg (a.2 - b.2))]

theorem far_of_cross {e : Pt ℝ × Pt ℝ} {p : Pt ℝ} {d : ℝ} (h0 : 0 < (e.2.1 - e.1.1) ^ 2 + (e.2.2 - e.1.2) ^ 2)
    (h : d ^ 2 * ((e.2.1 - e.1.1) ^ 2 + (e.2.2 - e.1.2) ^ 2) ≤ ((e.2.1 - e.1.1) * (p.2 - e.1.2) - (e.2.2 - e.1.2) * (p.1 - e.1.1)) ^ 2) (k : ℝ) :
    d ≤ eucl p (along e k) := by
  apply le_eucl
  unfold along
  simp only
  refine le_of_mul_le_mul_right (le_trans h ?_) h0
  nlinarith [sq_nonneg ((e.2.1 - e.1.1) * (p.1 - (e.1.1 + k * (e.2.1 - e.1.1))) + (e.2.2 - e.1.2) * (p.2 - (e.1.2 + k * (e.2.2 - e.1.2))))]

theorem angle_ge {s s' : Seg} {A : ℝ} (hA : ((s.2.1 - s.1.1) ^ 2 + (s.2.2 - s.1.2) ^ 2) * ((s'.2.1 - s'.1.1) ^ 2 + (s'.2.2 - s'.1.2) ^ 2) = A) (hA0 : 0 < A)
    (h : ((s.2.1 - s.1.1) * (s'.2.1 - s'.1.1) + (s.2.2 - s.1.2) * (s'.2.2 - s'.1.2)) ^ 2 ≤ (9 / 10) ^ 2 * A) : stdR.nullAngleValue ≤ segAngle s s' := by
  have hL : (eucl s.1 s.2 * eucl s'.1 s'.2) ^ 2 = A := by
    rw [mul_pow, eucl_sq, eucl_sq, ← hA]; ring
  have hL0 : 0 < eucl s.1 s.2 * eucl s'.1 s'.2 :=
    lt_of_le_of_ne (mul_nonneg (eucl_nonneg _ _) (eucl_nonneg _ _)) (fun hh => by rw [← hh] at hL; norm_num at hL; linarith)
  unfold segAngle
  rw [show stdR.nullAngleValue = 1 / 1000 from rfl, ← Real.arccos_cos (show (0:ℝ) ≤ 1 / 1000 by norm_num) (by linarith [Real.two_le_pi])]
  apply Real.arccos_le_arccos
  have hc : (9:ℝ) / 10 ≤ Real.cos (1 / 1000) := by
    have := Real.one_sub_sq_div_two_le_cos (x := 1 / 1000)
    norm_num at this ⊢; linarith
  refine le_trans ?_ hc
  rw [div_le_iff₀ hL0]
  apply le_of_sq_le_sq' _ (by positivity)
  rw [sq_abs, mul_pow, hL]; exact h

theorem angle_lt {s s' : Seg} {A : ℝ} (hA : ((s.2.1 - s.1.1) ^ 2 + (s.2.2 - s.1.2) ^ 2) * ((s'.2.1 - s'.1.1) ^ 2 + (s'.2.2 - s'.1.2) ^ 2) = A) (hA0 : 0 < A)
    (h : (1 - 2 / 10 ^ 7) ^ 2 * A ≤ ((s.2.1 - s.1.1) * (s'.2.1 - s'.1.1) + (s.2.2 - s.1.2) * (s'.2.2 - s'.1.2)) ^ 2) : segAngle s s' < stdR.nullAngleValue := by
  have hL : (eucl s.1 s.2 * eucl s'.1 s'.2) ^ 2 = A := by
    rw [mul_pow, eucl_sq, eucl_sq, ← hA]; ring
  have hL0 : 0 < eucl s.1 s.2 * eucl s'.1 s'.2 :=
    lt_of_le_of_ne (mul_nonneg (eucl_nonneg _ _) (eucl_nonneg _ _)) (fun hh => by rw [← hh] at hL; norm_num at hL; linarith)
  unfold segAngle
  rw [show stdR.nullAngleValue = 1 / 1000 from rfl, ← Real.arccos_cos (show (0:ℝ) ≤ 1 / 1000 by norm_num) (by linarith [Real.two_le_pi])]
  have hc : Real.cos (1 / 1000) < 1 - 2 / 10 ^ 7 := by
    have := (abs_le.1 (Real.cos_bound (x := 1 / 1000) (by rw [abs_of_pos] <;> norm_num))).2
    rw [abs_of_pos (by norm_num)] at this
    norm_num at this ⊢; linarith
  have hkey : 1 - 2 / 10 ^ 7 ≤ |(s.2.1 - s.1.1) * (s'.2.1 - s'.1.1) + (s.2.2 - s.1.2) * (s'.2.2 - s'.1.2)| / (eucl s.1 s.2 * eucl s'.1 s'.2) := by
    rw [le_div_iff₀ hL0]
    apply le_of_sq_le_sq' _ (abs_nonneg _)
    rw [mul_pow, hL, sq_abs]; exact h
  have hle : |(s.2.1 - s.1.1) * (s'.2.1 - s'.1.1) + (s.2.2 - s.1.2) * (s'.2.2 - s'.1.2)| / (eucl s.1 s.2 * eucl s'.1 s'.2) ≤ 1 := by
    rw [div_le_one hL0]
    apply le_of_sq_le_sq' _ hL0.le
    rw [sq_abs, hL, ← hA]
    nlinarith [sq_nonneg ((s.2.1 - s.1.1) * (s'.2.2 - s'.1.2) - (s.2.2 - s.1.2) * (s'.2.1 - s'.1.1))]
  exact Real.arccos_lt_arccos (Real.neg_one_le_cos _) (lt_of_lt_of_le hc hkey) hle

end H2d.Pip
