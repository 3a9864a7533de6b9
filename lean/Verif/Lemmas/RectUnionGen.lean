import Verif.Lemmas.RectArea

/-!
# The union of two rectangles, from rectangles of ranks

As in `RectArea`, for any equality of points and any test of `minimize()` that agree with those on ranks.
-/

namespace H2d.Rank

variable {f g : ℕ → ℝ} {t : Thr ℝ} {S : Pt ℝ → Pt ℝ → Bool} {D : Pt ℝ → Pt ℝ → Pt ℝ → Bool}

/-- The equality of points agrees with the one on ranks. -/
def SameOk (f g : ℕ → ℝ) (S : Pt ℝ → Pt ℝ → Bool) : Prop := ∀ p q : NP, S (mp f g p) (mp f g q) = same p q

/-- The test of `minimize()` agrees with the one on ranks, on steps parallel to the axes. -/
def MidOk (f g : ℕ → ℝ) (D : Pt ℝ → Pt ℝ → Pt ℝ → Bool) : Prop := ∀ p q r : NP, axTriple p q r = true → D (mp f g p) (mp f g q) (mp f g r) = mid p q r

theorem convertLoop_gen (hS : SameOk f g S) (vx vy : List (Idx ℕ)) :
    ∀ (l : List (ℕ × ℕ)) (v : List NP), convertLoop S (vx.map (mpI f)) (vy.map (mpI g)) l (v.map (mp f g)) = mapRes (List.map (mp f g)) (convertLoop same vx vy l v) := by
  intro l
  induction l with
  | nil => intro v; rfl
  | cons e l ih =>
    intro v
    simp only [convertLoop, List.getElem?_map]
    cases vx[e.1]? with
    | none => rfl
    | some x =>
      cases vy[e.2]? with
      | none => rfl
      | some y =>
        simp only [Option.map_some]
        cases v with
        | nil => exact ih [(x.val, y.val)]
        | cons q qs =>
          simp only [List.map_cons]
          have e1 : (qs.map (mp f g)).getLastD (mp f g q) = mp f g (qs.getLastD q) := by
            rw [List.getLastD_eq_getLast?, List.getLastD_eq_getLast?, List.getLast?_map]
            cases qs.getLast? <;> rfl
          have e2 : (((mpI f x).val, (mpI g y).val) : Pt ℝ) = mp f g (x.val, y.val) := rfl
          rw [e1, e2, hS _ _, hS _ _, ← ih]
          congr 1
          split_ifs <;> simp

theorem checkInput_gen (hS : SameOk f g S) (l : List NP) : checkInput S (l.map (mp f g)) = checkInput same l := by
  cases l with
  | nil => rfl
  | cons a l =>
    cases l with
    | nil => rfl
    | cons b l =>
      simp only [List.map_cons, checkInput]
      have e1 : ((mp f g b) :: l.map (mp f g)).getLastD (mp f g a) = mp f g ((b :: l).getLastD a) := by
        rw [← List.map_cons, List.getLastD_eq_getLast?, List.getLastD_eq_getLast?, List.getLast?_map]
        cases (b :: l).getLast? <;> rfl
      rw [e1, hS _ _]
      congr 1
      have e2 : openPairs (mp f g a :: mp f g b :: l.map (mp f g)) = (openPairs (a :: b :: l)).map (mpS f g) := by
        rw [← List.map_cons, ← List.map_cons]
        exact openPairs_map _ _
      rw [e2, List.all_map]
      congr 1
      funext s
      simp only [Function.comp, mpS, hS _ _]

theorem addPoints_gen (hS : SameOk f g S) : ∀ (l acc : List NP),
    addPoints S (acc.map (mp f g)) (l.map (mp f g)) = mapRes (List.map (mp f g)) (addPoints same acc l) := by
  intro l
  induction l with
  | nil => intro acc; cases acc <;> simp [addPoints, mapRes]
  | cons p l ih =>
    intro acc
    cases acc with
    | nil => exact ih [p]
    | cons b acc =>
      simp only [List.map_cons, addPoints, hS _ _]
      by_cases h : same p b = true
      · rw [if_pos h, if_pos h]; rfl
      · rw [if_neg h, if_neg h]; exact ih (p :: b :: acc)

theorem minimizeMark_gen (hD : MidOk f g D) {pts : List NP} (h : axAll pts = true) :
    minimizeMark D (pts.map (mp f g)) 0 (pts.map (mp f g)).length = minimizeMark mid pts 0 pts.length := by
  unfold minimizeMark
  rw [List.length_map]
  apply List.filter_congr
  intro i hi
  have hi' : i < pts.length := by
    rw [List.mem_range'_1] at hi; omega
  unfold axAll at h
  rw [List.all_eq_true] at h
  have h := h i (List.mem_range.2 hi')
  simp only [List.getElem?_map]
  cases h1 : pts[if i = 0 then pts.length - 1 else i - 1]? with
  | none => rfl
  | some p =>
    cases h2 : pts[i]? with
    | none => rfl
    | some q =>
      cases h3 : pts[if i = pts.length - 1 then 0 else i + 1]? with
      | none => rfl
      | some r =>
        rw [h1, h2, h3] at h
        exact hD _ _ _ h

theorem minimize_gen (hS : SameOk f g S) (hD : MidOk f g D) {pts : List NP} (h : axAll pts = true) :
    minimize S D true (pts.map (mp f g)) = mapRes (List.map (mp f g)) (minimize same mid true pts) := by
  unfold minimize
  simp only [if_true, minimizeMark_gen hD h]
  rw [List.length_map]
  by_cases h1 : pts.length < 3
  · rw [if_pos h1, if_pos h1]; rfl
  · rw [if_neg h1, if_neg h1]
    by_cases h2 : (minimizeMark mid pts 0 pts.length).isEmpty = true
    · rw [if_pos h2, if_pos h2]; rfl
    · rw [if_neg h2, if_neg h2, dropMarked_mp]
      exact addPoints_gen hS _ []

theorem convertToCoord_gen (hS : SameOk f g S) (v : List (ℕ × ℕ)) (vx vy : List (Idx ℕ)) :
    convertToCoord S v (vx.map (mpI f)) (vy.map (mpI g)) = mapRes (List.map (mp f g)) (convertToCoord same v vx vy) := by
  unfold convertToCoord
  have := convertLoop_gen hS vx vy v []
  rw [List.map_nil] at this
  rw [this]
  apply mapRes_bind
  intro a _
  unfold polySet
  rw [checkInput_gen hS]
  split_ifs <;> rfl

theorem unionTable_gen (hf : Emb t.nullDistance f) (hg : Emb t.nullDistance g) (hS : SameOk f g S) (hD : MidOk f g D) (r1 r2 : FRect ℕ) (h : ∀ pts, unionRaw r1 r2 = .ok pts → axAll pts = true) :
    unionTable S D (mpR f g r1) (mpR f g r2) = mapRes (List.map (mp f g)) (unionTable same mid r1 r2) := by
  have e1 := coordVec_mp hf r1.p1.1 r1.p2.1 r2.p1.1 r2.p2.1
  have e2 := coordVec_mp hg r1.p1.2 r1.p2.2 r2.p1.2 r2.p2.2
  unfold unionTable
  simp only [mpR, mp]
  rw [e1, e2, tableCell_mp]
  unfold unionRaw at h
  simp only at h
  cases hp : parseTable (tableCell (coordVec r1.p1.1 r1.p2.1 r2.p1.1 r2.p2.1) (coordVec r1.p1.2 r1.p2.2 r2.p1.2 r2.p2.2)) with
  | throw => rfl
  | ub => rfl
  | ok v =>
    rw [hp] at h
    simp only [Res.bind_ok] at h ⊢
    rw [convertToCoord_gen hS]
    apply mapRes_bind
    intro a ha
    exact minimize_gen hS hD (h a ha)

end H2d.Rank
