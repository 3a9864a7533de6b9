import Verif.Lemmas.Bisect
import Verif.Spec.Pip

/-!
# C84, C85, C86: oriented angles, rotated lines, bisector lines
-/

set_option linter.unusedVariables false
set_option linter.unusedSimpArgs false

namespace H2d.Props
open H2d H2d.Spec H2d.Bis Real

/-- **C84.** The angle between two oriented segments is the one in `(-pi, pi]` of the rotation that gives the direction of the second one from the
direction of the first one. -/
theorem C84_angle (s s' : Seg) (h : s.1 ≠ s.2) (h' : s'.1 ≠ s'.2) (a : ℝ) :
    osegAngle s s' = a ↔ - π < a ∧ a ≤ π ∧ rotOrigin a (unitTo s.1 s.2) = unitTo s'.1 s'.2 := by
  constructor
  · rintro rfl
    exact ⟨(oseg_range s s').1, (oseg_range s s').2, oseg_rot h h'⟩
  · rintro ⟨h1, h2, h3⟩
    exact oseg_unique h h' h1 h2 h3

/-- **C84, other order.** Exchanging the segments changes the sign, but for opposite directions (the angle is pi in both cases). -/
theorem C84_antisymmetric (s s' : Seg) (h : s.1 ≠ s.2) (h' : s'.1 ≠ s'.2) :
    osegAngle s' s = if osegAngle s s' = π then π else - osegAngle s s' := by
  have e := oseg_rot h h'
  obtain ⟨r1, r2⟩ := oseg_range s s'
  have back : ∀ a, rotOrigin (-a) (rotOrigin a (unitTo s.1 s.2)) = unitTo s.1 s.2 := by
    intro a
    unfold rotOrigin
    have := sin_sq_add_cos_sq a
    simp only [cos_neg, sin_neg]
    apply Prod.ext <;> simp only
    · linear_combination (unitTo s.1 s.2).1 * this
    · linear_combination (unitTo s.1 s.2).2 * this
  have hb := back (osegAngle s s')
  rw [e] at hb
  split_ifs with hp
  · rw [hp] at hb
    refine oseg_unique h' h (by linarith [pi_pos]) le_rfl ?_
    rw [← hb]; unfold rotOrigin; simp
  · refine oseg_unique h' h ?_ (by linarith) hb
    have := lt_of_le_of_ne r2 hp
    linarith

/-- **C84, equal directions.** The angle is 0 exactly when the directions are the same one, pi when they are opposite. -/
theorem C84_directions (s s' : Seg) (h : s.1 ≠ s.2) (h' : s'.1 ≠ s'.2) :
    (osegAngle s s' = 0 ↔ unitTo s.1 s.2 = unitTo s'.1 s'.2) ∧
    (osegAngle s s' = π ↔ unitTo s'.1 s'.2 = (- (unitTo s.1 s.2).1, - (unitTo s.1 s.2).2)) := by
  have hp := pi_pos
  constructor
  · rw [C84_angle s s' h h']
    unfold rotOrigin
    simp only [cos_zero, sin_zero, one_mul, zero_mul, sub_zero, zero_add]
    exact ⟨fun g => g.2.2, fun g => ⟨by linarith, by linarith, g⟩⟩
  · rw [C84_angle s s' h h']
    unfold rotOrigin
    simp only [cos_pi, sin_pi, zero_mul, sub_zero, zero_add, neg_mul, one_mul]
    exact ⟨fun g => g.2.2.symm, fun g => ⟨by linarith, le_rfl, g.symm⟩⟩

/-- Non trivial case: from the x axis to the diagonal, and back. -/
example : osegAngle ((0, 0), (2, 0)) ((5, 5), (5, 8)) = π / 2 ∧ osegAngle ((5, 5), (5, 8)) ((0, 0), (2, 0)) = - (π / 2) := by
  have h1 : osegAngle ((0, 0), (2, 0)) ((5, 5), (5, 8)) = π / 2 := by
    have d1 : eucl (0, 0) (2, 0) = 2 := by rw [eucl_eq_iff (by norm_num)]; norm_num
    have d2 : eucl (5, 5) (5, 8) = 3 := by rw [eucl_eq_iff (by norm_num)]; norm_num
    rw [C84_angle _ _ (by norm_num) (by norm_num)]
    refine ⟨by linarith [pi_pos], by linarith [pi_pos], ?_⟩
    unfold rotOrigin unitTo
    simp only [d1, d2, cos_pi_div_two, sin_pi_div_two]
    norm_num
  refine ⟨h1, ?_⟩
  rw [C84_antisymmetric _ _ (by norm_num) (by norm_num), h1, if_neg (by linarith [pi_pos])]

/-- **C85 (partial).** `getRotatedLine( pt, theta )` throws exactly when the point is not on the line for the library, and else gives the image of
the line by the rotation about this point. Missing: results that are nearly horizontal without being so, see `C85_false`. -/
theorem C85_partial (t : Thr ℝ) (ht : 0 < t.nullDenom) (h1 : t.nullDenom ≤ 1) (hd : 0 < t.nullDeter) (hd1 : t.nullDeter ≤ 1) (l : V3 ℝ) (hl : UnitNormal l)
    (p : Pt ℝ) (a : ℝ) :
    (rotatedLine t l p a = .throw ↔ t.nullDistance < lineDist l p) ∧
    (lineDist l p ≤ t.nullDistance → ∃ r, rotatedLine t l p a = .ok r ∧ UnitNormal r ∧
      (r 0 = 0 ∨ t.nullDenom ≤ r 0 → ∀ q, On l q ↔ On r (rotAround p a q))) := by
  constructor
  · constructor
    · intro h
      by_contra hc
      obtain ⟨r, e, -⟩ := rotated_spec ht h1 hd hd1 hl (not_lt.1 hc) a
      rw [e] at h; cases h
    · intro h; unfold rotatedLine; rw [if_pos h]
  · intro h
    obtain ⟨r, e1, e2, -, e4⟩ := rotated_spec ht h1 hd hd1 hl h a
    refine ⟨r, e1, e2.1, fun hb q => ?_⟩
    rw [← On_sameLoc (normalizeLine_same e4 hb), rotLine_on]
    have : rotAround p (-a) (rotAround p a q) = q := by
      unfold rotAround
      have := sin_sq_add_cos_sq a
      simp only [cos_neg, sin_neg]
      apply Prod.ext <;> simp only
      · linear_combination (q.1 - p.1) * this
      · linear_combination (q.2 - p.2) * this
    rw [this]

/-- Non trivial case: a horizontal line, by a quarter of turn. -/
example : ∃ r, rotatedLine stdR (lineH 3) (2, 3) (π / 2) = .ok r ∧ On r (2, 10) ∧ On r (2, 3) := by
  have hu : UnitNormal (lineH 3) := by simp [UnitNormal, lineH]
  have hon : On (lineH 3) (2, 3) := by simp [On, lineH]
  have hld : lineDist (lineH 3) (2, 3) = 0 := (lineDist_eq_zero hu.proper _).2 hon
  obtain ⟨r, e1, -, e3, -⟩ := rotated_spec (t := stdR) (by norm_num [stdR]) (by norm_num [stdR]) (by norm_num [stdR]) (by norm_num [stdR]) hu
    (p := (2, 3)) (by rw [hld]; norm_num [stdR]) (π / 2)
  have hr0 : r 0 = 1 := by rw [e3]; simp [lineH]
  obtain ⟨r', f1, -, f3⟩ := (C85_partial stdR (by norm_num [stdR]) (by norm_num [stdR]) (by norm_num [stdR]) (by norm_num [stdR]) _ hu (2, 3) (π / 2)).2
    (by rw [hld]; norm_num [stdR])
  rw [e1] at f1; cases f1
  have f4 := f3 (Or.inr (by rw [hr0]; norm_num [stdR]))
  refine ⟨r, e1, ?_, ?_⟩
  · have := (f4 (9, 3)).1 (by simp [On, lineH])
    simpa [rotAround, show (3 : ℝ) + (9 - 2) = 10 by norm_num] using this
  · have := (f4 (2, 3)).1 hon
    simpa [rotAround] using this

/-- **C85 is false** in general: when the result is nearly horizontal, it does not even contain the given point. -/
theorem C85_false (t : Thr ℝ) (ht : 0 < t.nullDenom) (h1 : t.nullDenom ≤ 1) (hd : 0 < t.nullDeter) (hd1 : t.nullDeter ≤ 1) (hn : 0 ≤ t.nullDistance) :
    ∃ (l : V3 ℝ) (p : Pt ℝ) (a : ℝ) (r : V3 ℝ), NormLine t l ∧ On l p ∧ rotatedLine t l p a = .ok r ∧ ¬ On r p := by
  have hu : UnitNormal (lineH 0) := by simp [UnitNormal, lineH]
  have hon : On (lineH 0) (1, 0) := by simp [On, lineH]
  have hld : lineDist (lineH 0) (1, 0) = 0 := (lineDist_eq_zero hu.proper _).2 hon
  have hp := two_le_pi
  have s0 : 0 < sin (t.nullDenom / 2) := sin_pos_of_pos_of_lt_pi (by linarith) (by linarith)
  have s1 : sin (t.nullDenom / 2) < t.nullDenom / 2 := sin_lt (by linarith)
  have c0 : 0 < cos (t.nullDenom / 2) := cos_pos_of_mem_Ioo ⟨by linarith, by linarith⟩
  obtain ⟨r, e1, e2, e3, e4⟩ := rotated_spec (t := t) ht h1 hd hd1 hu (p := (1, 0)) (by rw [hld]; exact hn) (t.nullDenom / 2)
  refine ⟨lineH 0, (1, 0), t.nullDenom / 2, r, ⟨hu, by simp [lineH], by simp [lineH]⟩, hon, e1, ?_⟩
  obtain ⟨g1, g2⟩ := normalizeLine_ok e4
  have hs : sqrt (rotLine (lineH 0) (1, 0) (t.nullDenom / 2) 0 * rotLine (lineH 0) (1, 0) (t.nullDenom / 2) 0 +
      rotLine (lineH 0) (1, 0) (t.nullDenom / 2) 1 * rotLine (lineH 0) (1, 0) (t.nullDenom / 2) 1) = 1 := by
    have hu := rotLine_unit hu (1, 0) (t.nullDenom / 2)
    unfold UnitNormal at hu
    rw [show rotLine (lineH 0) (1, 0) (t.nullDenom / 2) 0 * rotLine (lineH 0) (1, 0) (t.nullDenom / 2) 0 +
      rotLine (lineH 0) (1, 0) (t.nullDenom / 2) 1 * rotLine (lineH 0) (1, 0) (t.nullDenom / 2) 1 = 1 by linarith, sqrt_one]
  rw [hs] at g2
  have v0 : rotLine (lineH 0) (1, 0) (t.nullDenom / 2) 0 / 1 = - sin (t.nullDenom / 2) := by simp [rotLine, lineH]
  have v1 : rotLine (lineH 0) (1, 0) (t.nullDenom / 2) 1 / 1 = cos (t.nullDenom / 2) := by simp [rotLine, lineH]
  have v2 : rotLine (lineH 0) (1, 0) (t.nullDenom / 2) 2 / 1 = sin (t.nullDenom / 2) := by simp [rotLine, lineH]
  rw [signFix_band t _ (by rw [v0]; linarith) (by rw [v0]; linarith) (by rw [v1]; exact c0), v0, v1, v2] at g2
  rw [g2]
  unfold On
  simp only [Matrix.cons_val_zero, Matrix.cons_val_one, Matrix.cons_val]
  intro h; linarith

/-- **C86 (partial), closed polylines.** One line per vertex, the bisector of the angle of the two edges at this vertex. Missing: edges and results that
are nearly horizontal without being so, see `C86_false`. -/
theorem C86_closed_partial (t : Thr ℝ) (he : dblEps < t.nullDistance) (ht : 0 < t.nullDenom) (h1 : t.nullDenom ≤ 1) (hd : 0 < t.nullDeter)
    (hd1 : t.nullDeter ≤ 1) (pts : List (Pt ℝ)) (hn : 3 ≤ pts.length) (hg : ∀ e ∈ polyEdges pts, GoodSeg t e) :
    ∃ ms, bisectorLines t true pts = .ok ms ∧ ms.length = pts.length ∧
      ∀ i m, ms[i]? = some m → ∃ a v b, Neighbours pts i a v b ∧ (BisectorSlope t a v b → IsBisector a v b m) := by
  match pts, hn, hg with
  | a :: b :: rest, hn, hg =>
    have hlast : ∃ c, (b :: rest).getLast (by simp) = c ∧ (b :: rest)[rest.length]? = some c :=
      ⟨_, rfl, by rw [List.getLast_eq_getElem, List.getElem?_eq_getElem (by simp)]; simp⟩
    obtain ⟨c, hc1, hc2⟩ := hlast
    have hcyc : cycPairs (a :: b :: rest) = (a :: (b :: rest ++ [a])).zip (b :: rest ++ [a]) := by
      unfold cycPairs
      simp only [List.tail_cons, List.take_succ_cons, List.take_zero]
      rw [show (a :: (b :: rest ++ [a])) = (a :: b :: rest) ++ [a] by simp]
      conv_rhs => rw [← List.append_nil (b :: rest ++ [a])]
      rw [List.zip_append (by simp)]
      simp
    have hedge : polyEdges (a :: b :: rest) = cycPairs (a :: b :: rest) := by rw [cycPairs_eq]; rfl
    have hca : (c, a) ∈ polyEdges (a :: b :: rest) := by
      rw [hedge, hcyc, List.mem_iff_getElem?]
      refine ⟨rest.length + 1, ?_⟩
      rw [List.getElem?_zip_eq_some]
      constructor
      · simp only
        rw [List.getElem?_cons_succ, List.getElem?_append_left (by simp)]; exact hc2
      · simp
    have gc := hg _ hca
    have gc' : GoodSeg t (a, c) := by
      refine ⟨by rw [eucl_comm]; exact gc.1, ?_⟩
      rcases gc.2 with h | h
      · exact Or.inl h.symm
      · right; simp only at h ⊢; rw [eucl_comm, abs_sub_comm]; exact h
    obtain ⟨ms, e1, e2, e3⟩ := bisectorLoop_spec he ht h1 hd hd1 (b :: rest ++ [a]) a c gc' (by
      intro e hee; rw [← hcyc, ← hedge] at hee; exact hg e hee)
    refine ⟨ms, ?_, by rw [e2]; simp, ?_⟩
    · unfold bisectorLines
      rw [if_neg (by omega)]
      simp only [if_true, hc1]
      rw [segMake_eq true gc'.1]
      simp only [if_true, Res.bind_ok]
      rw [hcyc, e1]
    · intro i m hm
      obtain ⟨p, q, r, k1, k2, k3, k4⟩ := e3 i m hm
      have hi : i < rest.length + 2 := by
        have := (List.getElem?_eq_some_iff.1 hm).1; rw [e2] at this; simp at this; omega
      refine ⟨p, q, r, ⟨?_, ?_, ?_⟩, k4⟩
      · rw [List.getElem?_cons_succ, show (a :: (b :: rest ++ [a])) = (a :: b :: rest) ++ [a] by simp, List.getElem?_append_left (by simp; omega)] at k2
        exact k2
      · rw [List.getElem?_cons_succ, List.getElem?_cons_succ] at k3
        simp only [List.length_cons]
        by_cases hl : i + 1 = rest.length + 1 + 1
        · rw [hl, Nat.mod_self]
          rw [show i = rest.length + 1 by omega] at k3
          simpa using k3
        · rw [Nat.mod_eq_of_lt (by omega), List.getElem?_cons_succ]
          rw [List.getElem?_append_left (by simp; omega)] at k3
          exact k3
      · simp only [List.length_cons]
        cases i with
        | zero =>
          simp only [List.getElem?_cons_zero, Option.some.injEq] at k1
          rw [show (0 + (rest.length + 1 + 1) - 1) % (rest.length + 1 + 1) = rest.length + 1 by
            rw [Nat.mod_eq_of_lt (by omega)]; omega, List.getElem?_cons_succ, hc2, k1]
        | succ i =>
          rw [List.getElem?_cons_succ, show (a :: (b :: rest ++ [a])) = (a :: b :: rest) ++ [a] by simp, List.getElem?_append_left (by simp; omega)] at k1
          rw [show (i + 1 + (rest.length + 1 + 1) - 1) = i + (rest.length + 1 + 1) by omega, Nat.add_mod_right, Nat.mod_eq_of_lt (by omega)]
          exact k1

/-- Non trivial case: a right triangle meets the conditions on the edges. -/
example : ∃ ms, bisectorLines stdR true [(0, 0), (4, 0), (0, 3)] = .ok ms ∧ ms.length = 3 := by
  have d1 : eucl (0, 0) (4, 0) = 4 := by rw [eucl_eq_iff (by norm_num)]; norm_num
  have d2 : eucl (4, 0) (0, 3) = 5 := by rw [eucl_eq_iff (by norm_num)]; norm_num
  have d3 : eucl (0, 3) (0, 0) = 3 := by rw [eucl_eq_iff (by norm_num)]; norm_num
  obtain ⟨ms, e1, e2, -⟩ := C86_closed_partial stdR (by norm_num [stdR, dblEps]) (by norm_num [stdR]) (by norm_num [stdR]) (by norm_num [stdR])
    (by norm_num [stdR]) [(0, 0), (4, 0), (0, 3)] (by simp) (by
      intro e he
      rw [show polyEdges [((0 : ℝ), (0 : ℝ)), (4, 0), (0, 3)] = [((0, 0), (4, 0)), ((4, 0), (0, 3)), ((0, 3), (0, 0))] from rfl] at he
      simp only [List.mem_cons, List.not_mem_nil, or_false] at he
      rcases he with rfl | rfl | rfl
      · exact ⟨by simp only [d1]; norm_num [stdR], Or.inl rfl⟩
      · exact ⟨by simp only [d2]; norm_num [stdR], Or.inr (by simp only [d2]; norm_num [stdR])⟩
      · exact ⟨by simp only [d3]; norm_num [stdR], Or.inr (by simp only [d3]; norm_num [stdR])⟩)
  exact ⟨ms, e1, e2⟩

/-- **C86 (partial), open polylines.** One line per vertex that is not an end. -/
theorem C86_open_partial (t : Thr ℝ) (he : dblEps < t.nullDistance) (ht : 0 < t.nullDenom) (h1 : t.nullDenom ≤ 1) (hd : 0 < t.nullDeter)
    (hd1 : t.nullDeter ≤ 1) (pts : List (Pt ℝ)) (hn : 3 ≤ pts.length) (hg : ∀ e ∈ pts.zip pts.tail, GoodSeg t e) :
    ∃ ms, bisectorLines t false pts = .ok ms ∧ ms.length + 2 = pts.length ∧
      ∀ i m, ms[i]? = some m → ∃ a v b, pts[i]? = some a ∧ pts[i + 1]? = some v ∧ pts[i + 2]? = some b ∧
        (BisectorSlope t a v b → IsBisector a v b m) := by
  match pts, hn, hg with
  | a :: b :: rest, hn, hg =>
    have gc : GoodSeg t (a, b) := hg _ (by simp)
    have gc' : GoodSeg t (b, a) := by
      refine ⟨by rw [eucl_comm]; exact gc.1, ?_⟩
      rcases gc.2 with h | h
      · exact Or.inl h.symm
      · right; simp only at h ⊢; rw [eucl_comm, abs_sub_comm]; exact h
    obtain ⟨ms, e1, e2, e3⟩ := bisectorLoop_spec he ht h1 hd hd1 rest b a gc' (by
      intro e hee; exact hg e (by simp only [List.tail_cons, List.zip_cons_cons]; exact List.mem_cons_of_mem _ hee))
    refine ⟨ms, ?_, by rw [e2]; simp, e3⟩
    unfold bisectorLines
    rw [if_neg (by omega)]
    simp only [Bool.false_eq_true, if_false]
    rw [segMake_eq true gc'.1]
    simp only [if_true, Res.bind_ok]
    exact e1

/-- Non trivial case: at the corner of the right angle (0,3), (0,0), (4,0) the bisector is the diagonal. -/
example : ∃ m, bisectorLines stdR false [(0, 3), (0, 0), (4, 0)] = .ok [m] ∧ On m (1, 1) ∧ On m (0, 0) := by
  have d1 : eucl (0, 3) (0, 0) = 3 := by rw [eucl_eq_iff (by norm_num)]; norm_num
  have d1' : eucl (0, 0) (0, 3) = 3 := by rw [eucl_eq_iff (by norm_num)]; norm_num
  have d2 : eucl (0, 0) (4, 0) = 4 := by rw [eucl_eq_iff (by norm_num)]; norm_num
  have hpi := pi_pos
  obtain ⟨ms, e1, e2, e3⟩ := C86_open_partial stdR (by norm_num [stdR, dblEps]) (by norm_num [stdR]) (by norm_num [stdR]) (by norm_num [stdR])
    (by norm_num [stdR]) [(0, 3), (0, 0), (4, 0)] (by simp) (by
      intro e he
      simp only [List.tail_cons, List.zip_cons_cons, List.zip_nil_right, List.mem_cons, List.not_mem_nil, or_false] at he
      rcases he with rfl | rfl
      · exact ⟨by simp only [d1]; norm_num [stdR], Or.inr (by simp only [d1]; norm_num [stdR])⟩
      · exact ⟨by simp only [d2]; norm_num [stdR], Or.inl rfl⟩)
  match ms, e2 with
  | [m], _ =>
    obtain ⟨a, v, b, k1, k2, k3, k4⟩ := e3 0 m rfl
    simp only [List.getElem?_cons_zero, List.getElem?_cons_succ, zero_add, Option.some.injEq] at k1 k2 k3
    subst k1 k2 k3
    obtain ⟨-, g2, g3, -⟩ := k4 ⟨-(π / 2), by linarith, by linarith, by unfold rotOrigin unitTo; simp [d1', d2], by
      right
      unfold rotOrigin unitTo
      simp only [d1']
      rw [show -(π / 2) / 2 = -(π / 4) by ring, cos_neg, sin_neg, cos_pi_div_four, sin_pi_div_four]
      have h2 : (1 : ℝ) ≤ sqrt 2 := by rw [Real.one_le_sqrt]; norm_num
      rw [abs_of_pos (by simp)]
      norm_num [stdR]; linarith⟩
    refine ⟨m, e1, ?_, g2⟩
    unfold unitTo at g3
    simp only [d1', d2] at g3
    norm_num at g3
    exact g3

/-- **C86, too few points.** -/
theorem C86_short (t : Thr ℝ) (closed : Bool) (pts : List (Pt ℝ)) (h : pts.length < 3) : bisectorLines t closed pts = .throw := by
  unfold bisectorLines; rw [if_pos h]

/-- **C86 is false** in general: with the default thresholds, a triangle with an edge of slope 1e-11 makes the call throw. -/
theorem C86_false : ∃ pts : List (Pt ℝ), polySet (fun p q => decide (PtEq stdR p q)) pts = .ok pts ∧ bisectorLines stdR true pts = .throw := by
  set L := sqrt (1000 ^ 2 + (1 / 10 ^ 8) ^ 2) with hL
  have hL2 : L ^ 2 = 1000 ^ 2 + (1 / 10 ^ 8) ^ 2 := sq_sqrt (by norm_num)
  have hL1 : 1000 ≤ L := le_sqrt_of_sq_le (by norm_num)
  have hL3 : L ≤ 1001 := sqrt_le_iff.2 ⟨by norm_num, by norm_num⟩
  have d : eucl (2000, 1 / 10 ^ 8) (1000, 0) = L := by rw [eucl, hL]; congr 1; norm_num
  have d2 : eucl (2000, 1 / 10 ^ 8) (2000, 1000) = 1000 - 1 / 10 ^ 8 := by rw [eucl_eq_iff (by norm_num)]; norm_num
  have d3 : 1000 ≤ eucl (2000, 1000) (1000, 0) := by
    rw [eucl]; exact le_sqrt_of_sq_le (by norm_num)
  have hp : IsFin (mkPt (2000:ℝ) (1 / 10 ^ 8)) := by simp [IsFin, mkPt]
  have hq : IsFin (mkPt (1000:ℝ) 0) := by simp [IsFin, mkPt]
  have e4 := crossProd_norm hp hq
  rw [getXY_mkPt, getXY_mkPt, d, show |mkPt (2000:ℝ) (1 / 10 ^ 8) 2 * mkPt 1000 0 2| = 1 by simp [mkPt], one_mul] at e4
  have hn := normalizeLine_eq stdR (crossProd (mkPt 2000 (1 / 10 ^ 8)) (mkPt 1000 0)) (by
    rw [e4]; have := dblEps_lt_one; linarith)
  rw [e4] at hn
  have v0 : crossProd (mkPt (2000 : ℝ) (1 / 10 ^ 8)) (mkPt 1000 0) 0 / L = (1 / 10 ^ 8) / L := by simp [crossProd, mkPt]
  have v1 : crossProd (mkPt (2000 : ℝ) (1 / 10 ^ 8)) (mkPt 1000 0) 1 / L = -1000 / L := by simp [crossProd, mkPt]; norm_num
  have v2 : crossProd (mkPt (2000 : ℝ) (1 / 10 ^ 8)) (mkPt 1000 0) 2 / L = -(1 / 10 ^ 5) / L := by simp [crossProd, mkPt]; norm_num
  have hL0 : 0 < L := by linarith
  have hsf : signFix stdR (fun i => crossProd (mkPt (2000 : ℝ) (1 / 10 ^ 8)) (mkPt 1000 0) i / L) = ![(1 / 10 ^ 8) / L, 1000 / L, (1 / 10 ^ 5) / L] := by
    have h0 : ¬ (1 / 10 ^ 8) / L < 0 := not_lt.2 (by positivity)
    have h1 : |(1 / 10 ^ 8) / L| < stdR.nullDenom := by
      rw [abs_of_nonneg (by positivity), div_lt_iff₀ hL0]; norm_num [stdR]; linarith
    have h2 : -1000 / L < 0 := by rw [div_neg_iff]; right; exact ⟨by norm_num, hL0⟩
    simp only [signFix, v0, v1, v2, if_neg h0, if_pos h1, if_pos h2]
    rw [neg_div, neg_div, neg_neg, neg_neg]
  rw [hsf] at hn
  refine ⟨[(2000, 1 / 10 ^ 8), (2000, 1000), (1000, 0)], ?_, ?_⟩
  · unfold polySet
    rw [if_pos]
    have k1 : stdR.nullDistance ≤ eucl (2000, 1 / 10 ^ 8) (1000, 0) := by rw [d]; norm_num [stdR]; linarith
    have k2 : stdR.nullDistance ≤ eucl (2000, 1 / 10 ^ 8) (2000, 1000) := by rw [d2]; norm_num [stdR]
    have k3 : stdR.nullDistance ≤ eucl (2000, 1000) (1000, 0) := le_trans (by norm_num [stdR]) d3
    simp only [checkInput, openPairs, List.tail_cons, List.zip_cons_cons, List.zip_nil_right, List.all_cons, List.all_nil, Bool.and_true, PtEq, ptDist_eucl,
      List.getLastD_cons, List.getLastD_nil, Bool.and_eq_true, Bool.not_eq_true', decide_eq_false_iff_not, not_lt]
    exact ⟨⟨k2, k3⟩, k1⟩
  · unfold bisectorLines
    rw [if_neg (by simp)]
    simp only [if_true]
    rw [show ([(2000, 1000), (1000, 0)] : List (Pt ℝ)).getLast (by simp) = (1000, 0) from rfl, segMake_eq true (by rw [d]; norm_num [stdR]; linarith)]
    simp only [if_true, Res.bind_ok]
    unfold cycPairs
    simp only [List.tail_cons, List.take_succ_cons, List.take_zero, List.cons_append, List.zip_cons_cons, bisectorLoop]
    rw [segMake_eq true (by rw [d2]; norm_num [stdR])]
    simp only [if_true, Res.bind_ok]
    have hs : segLine stdR ((2000, 1 / 10 ^ 8), (1000, 0)) = .ok ![(1 / 10 ^ 8) / L, 1000 / L, (1 / 10 ^ 5) / L] := by
      unfold segLine lineOfPts
      rw [getXY_mkPt, getXY_mkPt, if_neg (by rw [PtEq, ptDist_eucl]; simp only [d]; norm_num [stdR]; linarith)]
      exact hn
    rw [hs]
    simp only [Res.bind_ok]
    have ht : ∀ a, rotatedLine stdR ![(1 / 10 ^ 8) / L, 1000 / L, (1 / 10 ^ 5) / L] (2000, 1 / 10 ^ 8) a = .throw := by
      intro a
      unfold rotatedLine
      rw [if_pos]
      unfold lineDist
      simp only [Matrix.cons_val_zero, Matrix.cons_val_one, Matrix.cons_val]
      rw [show 1 / 10 ^ 8 / L * (1 / 10 ^ 8 / L) + 1000 / L * (1000 / L) = 1 by field_simp; rw [hL2]; norm_num, sqrt_one, div_one,
        abs_of_pos (by positivity)]
      rw [show 1 / 10 ^ 8 / L * 2000 + 1000 / L * (1 / 10 ^ 8) + 1 / 10 ^ 5 / L = (4 / 10 ^ 5) / L by field_simp; norm_num]
      rw [gt_iff_lt, lt_div_iff₀ hL0]
      norm_num [stdR]; linarith
    rw [ht]
    rfl

end H2d.Props
