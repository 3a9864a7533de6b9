import Verif.Lemmas.Offset

/-! # C88: offset polygons -/

set_option linter.unusedVariables false
set_option linter.unusedSimpArgs false

namespace H2d.Props
open H2d H2d.Spec H2d.Off Real

/-- **C88 (partial), all polygons.** Without the option for angles, the result is built from one point per vertex, which is at distance `dist` from the
lines of the two edges at this vertex, on their left side (right side when `dist` is negative) when the polygon is run so that it turns right at
its lowest-leftmost vertex, that is, for a simple polygon, clockwise. Missing: that the result is
accepted (see `C88_throw_false`) and goes around the source (see `C88_inside_false`), vertices where the lines are nearly parallel
(see `C88_sharp_false`), edges nearly horizontal or nearly vertical without being so (see `C01_false`), the option. -/
theorem C88_partial (t : Thr ℝ) (h1 : dblEps < t.nullDistance) (h0 : 0 < t.nullAngleValue) (h2 : t.nullAngleValue ≤ π / 2) (d : ℝ) (hd : t.nullDistance ≤ |d|)
    (pts : List (Pt ℝ)) (h3 : 3 ≤ pts.length) (hg : ∀ i a v b, Neighbours pts i a v b → GoodVertex t a v b) :
    ∃ q out, offsetPoly t true false d pts = (polySet (fun p q => decide (PtEq t p q)) out, q) ∧ SameCycle pts q ∧
      (∃ i a v b, Neighbours q i a v b ∧ (∀ x ∈ pts, ¬ LexLt x v) ∧ turnAt a v b < 0) ∧ out.length = pts.length ∧
      ∀ i a v b p, Neighbours q ((i + 1) % q.length) a v b → out[i]? = some p → signedDist a v p = d ∧ signedDist v b p = d := by
  obtain ⟨q, e1, e2, e3⟩ := norm_dir pts (by omega)
  have hgq : ∀ i a v b, Neighbours q i a v b → GoodVertex t a v b := by
    intro i a v b hN
    rcases e3 with ⟨g, -⟩ | ⟨g, -⟩
    · obtain ⟨j, hj⟩ := (g a v b).1 ⟨i, hN⟩
      exact hg j a v b hj
    · obtain ⟨j, hj⟩ := (g a v b).1 ⟨i, hN⟩
      exact goodVertex_swap (hg j b v a hj)
  obtain ⟨out, f1, f2, f3⟩ := off_run h1 h0 h2 hd h3 e1 e2 hgq
  refine ⟨q, out, f1, normalizePoly_cycle _ _ e1, ?_, f2.trans e2, f3⟩
  rcases e3 with ⟨g, i, a, v, b, g1, g2, g3⟩ | ⟨g, i, a, v, b, g1, g2, g3⟩
  · obtain ⟨j, hj⟩ := (g a v b).2 ⟨i, g1⟩
    exact ⟨j, a, v, b, hj, g2, lt_of_le_of_ne g3 (turn_ne h1 h0 (hgq _ _ _ _ hj))⟩
  · obtain ⟨j, hj⟩ := (g b v a).2 ⟨i, g1⟩
    refine ⟨j, b, v, a, hj, g2, ?_⟩
    have e : turnAt b v a = - turnAt a v b := by unfold turnAt; ring
    rw [e]; linarith

/-- **C88 (partial), convex polygons.** Whatever the direction in which the polygon is given, the result is built from one point for each
vertex, that is outside (inside when `dist` is negative), at distance `|dist|` from the lines of both edges at this vertex. For a positive distance, the
polygon is returned. Missing: for a negative distance, that the result is accepted and inside (see `C88_throw_false`, `C88_inside_false`),
nearly flat or very sharp vertices (see `C88_sharp_false`), edges nearly horizontal or nearly vertical without being so (see `C01_false`), the option. -/
theorem C88_convex_partial (t : Thr ℝ) (h1 : dblEps < t.nullDistance) (h0 : 0 < t.nullAngleValue) (h2 : t.nullAngleValue ≤ π / 2) (d : ℝ) (hd : t.nullDistance ≤ |d|)
    (pts : List (Pt ℝ)) (h3 : 3 ≤ pts.length) (hg : ∀ i a v b, Neighbours pts i a v b → GoodVertex t a v b) (s : ℝ) (hs : s = 1 ∨ s = -1) (hc : ConvexOn s pts) :
    ∃ out, (offsetPoly t true false d pts).1 = polySet (fun p q => decide (PtEq t p q)) out ∧ out.length = pts.length ∧
      (∀ p ∈ out, ∃ i a v b, Neighbours pts i a v b ∧ OffsetPoint s d a v b p) ∧
      (∀ i a v b, Neighbours pts i a v b → ∃ p ∈ out, OffsetPoint s d a v b p) ∧
      (0 < d → (offsetPoly t true false d pts).1 = .ok out) := by
  have hp := dblEps_pos
  obtain ⟨q, e1, e2, e3⟩ := norm_dir pts (by omega)
  have hgq : ∀ i a v b, Neighbours q i a v b → GoodVertex t a v b := by
    intro i a v b hN
    rcases e3 with ⟨g, -⟩ | ⟨g, -⟩
    · obtain ⟨j, hj⟩ := (g a v b).1 ⟨i, hN⟩
      exact hg j a v b hj
    · obtain ⟨j, hj⟩ := (g a v b).1 ⟨i, hN⟩
      exact goodVertex_swap (hg j b v a hj)
  obtain ⟨out, f1, f2, f3⟩ := off_run h1 h0 h2 hd h3 e1 e2 hgq
  -- vertices of the normal form and vertices of the polygon
  have key : (∀ i a v b, Neighbours q i a v b → turnAt a v b < 0) ∧
      (∀ i a v b p, Neighbours q i a v b → signedDist a v p = d → signedDist v b p = d → ∃ i' a' v' b', Neighbours pts i' a' v' b' ∧ OffsetPoint s d a' v' b' p) ∧
      (∀ i a v b, Neighbours pts i a v b → ∃ i' a' v' b', Neighbours q i' a' v' b' ∧
        ∀ p, signedDist a' v' p = d → signedDist v' b' p = d → OffsetPoint s d a v b p) := by
    rcases e3 with ⟨g, i, a, v, b, g1, g2, g3⟩ | ⟨g, i, a, v, b, g1, g2, g3⟩
    · have hs' : s = -1 := by
        rcases hs with rfl | rfl
        · have := convex_turn hc g1
          have h' := turn_ne h1 h0 (hg _ _ _ _ g1)
          exact absurd (le_antisymm g3 (by linarith)) h'
        · rfl
      subst hs'
      refine ⟨fun j x y z hj => ?_, fun j x y z p hj k1 k2 => ?_, fun j x y z hj => ?_⟩
      · obtain ⟨j', hj'⟩ := (g x y z).1 ⟨j, hj⟩
        have := convex_turn hc hj'
        exact lt_of_le_of_ne (by linarith) (turn_ne h1 h0 (hg _ _ _ _ hj'))
      · obtain ⟨j', hj'⟩ := (g x y z).1 ⟨j, hj⟩
        exact ⟨j', x, y, z, hj', by rw [k1]; ring, by rw [k2]; ring⟩
      · obtain ⟨j', hj'⟩ := (g x y z).2 ⟨j, hj⟩
        exact ⟨j', x, y, z, hj', fun p k1 k2 => ⟨by rw [k1]; ring, by rw [k2]; ring⟩⟩
    · have hs' : s = 1 := by
        rcases hs with rfl | rfl
        · rfl
        · have := convex_turn hc g1
          linarith
      subst hs'
      refine ⟨fun j x y z hj => ?_, fun j x y z p hj k1 k2 => ?_, fun j x y z hj => ?_⟩
      · obtain ⟨j', hj'⟩ := (g x y z).1 ⟨j, hj⟩
        have := convex_turn hc hj'
        have h' := turn_ne h1 h0 (hg _ _ _ _ hj')
        have e : turnAt x y z = - turnAt z y x := by unfold turnAt; ring
        rw [e]
        have := lt_of_le_of_ne this (by rw [one_mul]; exact h'.symm)
        linarith
      · obtain ⟨j', hj'⟩ := (g x y z).1 ⟨j, hj⟩
        refine ⟨j', z, y, x, hj', ?_, ?_⟩
        · rw [signed_swap, k2]; ring
        · rw [signed_swap, k1]; ring
      · obtain ⟨j', hj'⟩ := (g z y x).2 ⟨j, hj⟩
        refine ⟨j', z, y, x, hj', fun p k1 k2 => ⟨?_, ?_⟩⟩
        · rw [signed_swap, k2]; ring
        · rw [signed_swap, k1]; ring
  obtain ⟨kt, k1, k2⟩ := key
  have hn : 0 < q.length := by omega
  refine ⟨out, by rw [f1], f2.trans e2, ?_, ?_, ?_⟩
  · intro p hp'
    obtain ⟨i, hi⟩ := List.mem_iff_getElem?.1 hp'
    obtain ⟨a, v, b, hN⟩ := exists_neigh (l := q) (i := (i + 1) % q.length) (Nat.mod_lt _ hn)
    obtain ⟨m1, m2⟩ := f3 i a v b p hN hi
    exact k1 _ a v b p hN m1 m2
  · intro i a v b hN
    obtain ⟨j, a', v', b', hj, hw⟩ := k2 i a v b hN
    have hjl := (List.getElem?_eq_some_iff.1 hj.1).1
    have hlt : (j + (q.length - 1)) % q.length < out.length := by rw [f2]; exact Nat.mod_lt _ hn
    refine ⟨out[(j + (q.length - 1)) % q.length], List.getElem_mem _, ?_⟩
    have hN' : Neighbours q (((j + (q.length - 1)) % q.length + 1) % q.length) a' v' b' := by
      rw [Nat.mod_add_mod, show j + (q.length - 1) + 1 = j + q.length by omega, Nat.add_mod_right, Nat.mod_eq_of_lt hjl]
      exact hj
    obtain ⟨m1, m2⟩ := f3 _ a' v' b' _ hN' (List.getElem?_eq_getElem hlt)
    exact hw _ m1 m2
  · intro hpos
    rw [f1]
    simp only
    unfold polySet
    rw [if_pos]
    apply checkInput_cyc
    · intro a b; simp only [PtEq, ptDist_eucl, eucl_comm a b]
    · omega
    · intro i p p' hi hi'
      obtain ⟨a, v, b, hN⟩ := exists_neigh (l := q) (i := (i + 1) % q.length) (Nat.mod_lt _ hn)
      obtain ⟨c, hN'⟩ := neigh_next hN
      obtain ⟨m1, m2⟩ := f3 _ _ _ _ _ hN hi
      rw [f2] at hi'
      obtain ⟨m3, m4⟩ := f3 _ _ _ _ _ hN' hi'
      have g1 := hgq _ _ _ _ hN
      have g2 := hgq _ _ _ _ hN'
      have a1 := g1.1.1
      have a2 := g1.2.2.1.1
      have a3 := g2.2.2.1.1
      simp only at a1 a2 a3
      have := far_next hpos (by linarith) (by linarith) (by linarith) (kt _ _ _ _ hN) (kt _ _ _ _ hN') m1 m2 m3 m4
      rw [decide_eq_false_iff_not, PtEq, ptDist_eucl, not_lt]
      linarith

/-- **C88 (partial), with the option for angles.** For a convex polygon and a positive distance, the corners are cut: the points added for a vertex are on the parallels to the edges at
distance `dist`, on the outer side, and their distance to the vertex is between `dist` and `√2 dist`. Missing: that the result is accepted, polygons that are not
convex, corners for which the point where the parallels meet is not well conditioned (see `C88_split_false`). -/
theorem C88_split_partial (t : Thr ℝ) (h1 : dblEps < t.nullDistance) (h0 : 0 < t.nullAngleValue) (h2 : t.nullAngleValue ≤ π / 2) (d : ℝ) (hd : t.nullDistance ≤ d)
    (pts : List (Pt ℝ)) (h3 : 3 ≤ pts.length) (hg : ∀ i a v b, Neighbours pts i a v b → GoodVertex t a v b) (s : ℝ) (hs : s = 1 ∨ s = -1) (hc : ConvexOn s pts)
    (hk : ∀ i a v b, Neighbours pts i a v b → ∀ p, OffsetPoint s d a v b p → GoodCut t d v p) :
    ∃ out, (offsetPoly t true true d pts).1 = polySet (fun p q => decide (PtEq t p q)) out ∧
      (∀ p ∈ out, ∃ i a v b, Neighbours pts i a v b ∧ CutPoint s d a v b p) ∧
      (∀ i a v b, Neighbours pts i a v b → ∃ p ∈ out, CutPoint s d a v b p) := by
  have hp := dblEps_pos
  obtain ⟨q, e1, e2, e3⟩ := norm_dir pts (by omega)
  -- the direction
  have key : (∀ i a v b, Neighbours q i a v b → GoodVertex t a v b ∧ turnAt a v b < 0 ∧
        (∀ p, signedDist a v p = d → signedDist v b p = d → GoodCut t d v p) ∧ ∃ i' a' b', Neighbours pts i' a' v b' ∧
          ∀ p, (signedDist a v p = d ∨ signedDist v b p = d) → (s * signedDist a' v p = - d ∨ s * signedDist v b' p = - d)) ∧
      (∀ i a v b, Neighbours pts i a v b → ∃ i' a' b', Neighbours q i' a' v b' ∧
          ∀ p, (signedDist a' v p = d ∨ signedDist v b' p = d) → (s * signedDist a v p = - d ∨ s * signedDist v b p = - d)) := by
    rcases e3 with ⟨g, i, a, v, b, g1, g2, g3⟩ | ⟨g, i, a, v, b, g1, g2, g3⟩
    · have hs' : s = -1 := by
        rcases hs with rfl | rfl
        · have := convex_turn hc g1
          have h' := turn_ne h1 h0 (hg _ _ _ _ g1)
          exact absurd (le_antisymm g3 (by linarith)) h'
        · rfl
      subst hs'
      constructor
      · intro j x y z hj
        obtain ⟨j', hj'⟩ := (g x y z).1 ⟨j, hj⟩
        have := convex_turn hc hj'
        refine ⟨hg _ _ _ _ hj', lt_of_le_of_ne (by linarith) (turn_ne h1 h0 (hg _ _ _ _ hj')), fun p k1 k2 => ?_, j', x, z, hj', ?_⟩
        · exact hk _ _ _ _ hj' p ⟨by rw [k1]; ring, by rw [k2]; ring⟩
        · rintro p (k | k)
          · left; rw [k]; ring
          · right; rw [k]; ring
      · intro j x y z hj
        obtain ⟨j', hj'⟩ := (g x y z).2 ⟨j, hj⟩
        refine ⟨j', x, z, hj', ?_⟩
        rintro p (k | k)
        · left; rw [k]; ring
        · right; rw [k]; ring
    · have hs' : s = 1 := by
        rcases hs with rfl | rfl
        · rfl
        · have := convex_turn hc g1
          linarith
      subst hs'
      constructor
      · intro j x y z hj
        obtain ⟨j', hj'⟩ := (g x y z).1 ⟨j, hj⟩
        have := convex_turn hc hj'
        have h' := turn_ne h1 h0 (hg _ _ _ _ hj')
        have e : turnAt x y z = - turnAt z y x := by unfold turnAt; ring
        refine ⟨goodVertex_swap (hg _ _ _ _ hj'), ?_, fun p k1 k2 => ?_, j', z, x, hj', ?_⟩
        · rw [e]
          have := lt_of_le_of_ne this (by rw [one_mul]; exact h'.symm)
          linarith
        · exact hk _ _ _ _ hj' p ⟨by rw [signed_swap, k2]; ring, by rw [signed_swap, k1]; ring⟩
        · rintro p (k | k)
          · right; rw [signed_swap, k]; ring
          · left; rw [signed_swap, k]; ring
      · intro j x y z hj
        obtain ⟨j', hj'⟩ := (g z y x).2 ⟨j, hj⟩
        refine ⟨j', z, x, hj', ?_⟩
        rintro p (k | k)
        · right; rw [signed_swap, k]; ring
        · left; rw [signed_swap, k]; ring
  obtain ⟨k1, k2⟩ := key
  have hseg := osegs_good (t := t) (q := q) (by omega) (fun i a v b hN => (k1 i a v b hN).1.2.2.1.1)
  obtain ⟨out, f1, f2, f3⟩ := loop_forall (t := t) (split := true) (d := d)
    (fun e r => r ≠ [] ∧ ∀ x ∈ r, (signedDist e.1.1 e.1.2 x = d ∨ signedDist e.1.2 e.2.2 x = d) ∧ d ≤ eucl e.1.2 x ∧ eucl e.1.2 x ^ 2 ≤ 2 * d ^ 2)
    (cycPairs (cycPairs q)) (by
      intro e he
      obtain ⟨i, hi⟩ := List.mem_iff_getElem?.1 he
      obtain ⟨a, v, b, rfl, hN⟩ := cyc_cyc q i e hi
      obtain ⟨m1, m2, m3, -⟩ := k1 _ _ _ _ hN
      obtain ⟨p, p1, p2, -, p4⟩ := vertex_split h1 h0 h2 m1 hd m2
      obtain ⟨c1, c2, r1, r2, r3, r4, r5, r6, r7⟩ := p4 (m3 p p1 p2)
      refine ⟨_, r1, ?_, ?_⟩
      · split_ifs <;> simp
      · intro x hx
        split_ifs at hx
        · rw [List.mem_singleton] at hx
          subst hx
          exact ⟨Or.inl r2, r4, r5⟩
        · simp only [List.mem_cons, List.not_mem_nil, or_false] at hx
          rcases hx with rfl | rfl
          · exact ⟨Or.inl r2, r4, r5⟩
          · exact ⟨Or.inr r3, r6, r7⟩)
  refine ⟨out, ?_, ?_, ?_⟩
  · unfold offsetPoly
    rw [if_neg (by simp only [not_or, not_lt]; exact ⟨by rw [abs_of_pos (by linarith)]; exact hd, h3, by simp⟩), e1]
    simp only
    rw [hseg, Res.bind_ok, f1, Res.bind_ok]
  · intro p hp'
    obtain ⟨e, he, r, ⟨-, hr⟩, hx⟩ := f2 p hp'
    obtain ⟨i, hi⟩ := List.mem_iff_getElem?.1 he
    obtain ⟨a, v, b, rfl, hN⟩ := cyc_cyc q i e hi
    obtain ⟨-, -, -, j, a', b', hj, hw⟩ := k1 _ _ _ _ hN
    obtain ⟨w1, w2, w3⟩ := hr p hx
    exact ⟨j, a', v, b', hj, hw p w1, w2, w3⟩
  · intro i a v b hN
    obtain ⟨j, a', b', hj, hw⟩ := k2 i a v b hN
    obtain ⟨r, ⟨hne, hr⟩, hx⟩ := f3 _ (mem_cyc_cyc hj)
    obtain ⟨x, hxr⟩ := List.exists_mem_of_ne_nil r hne
    obtain ⟨w1, w2, w3⟩ := hr x hxr
    exact ⟨x, hx x hxr, hw x w1, w2, w3⟩

/-- **C88, first vertex and direction.** The result does not depend on the vertex the polygon begins with, nor on the direction in which it is
run (the polygon must not turn back on itself at some vertex). -/
theorem C88_start (t : Thr ℝ) (split simple : Bool) (d : ℝ) (pts : List (Pt ℝ)) (hd : pts.Nodup) (k : Nat) :
    (offsetPoly t simple split d (pts.rotate k)).1 = (offsetPoly t simple split d pts).1 ∧
    ((∀ i a b c, Neighbours pts i a b c → ¬ TurnsBack a b c) → (offsetPoly t simple split d pts.reverse).1 = (offsetPoly t simple split d pts).1) := by
  unfold offsetPoly
  rw [List.length_rotate, List.length_reverse]
  by_cases hc : |d| < t.nullDistance ∨ pts.length < 3 ∨ simple = false
  · rw [if_pos hc, if_pos hc, if_pos hc]
    exact ⟨rfl, fun _ => rfl⟩
  · rw [if_neg hc, if_neg hc, if_neg hc]
    have h3 : 3 ≤ pts.length := by
      by_contra h; exact hc (Or.inr (Or.inl (by omega)))
    constructor
    · rw [normalizePoly_rotate pts hd (by omega)]
      split <;> rfl
    · intro hs
      rw [normalizePoly_reverse pts hd (by omega) (fun h3 i a b c hn hm hcol => hs i a b c hn (turnsBack_of_min pts hd h3 i a b c hn hm hcol))]
      split <;> rfl

/-- The hypotheses are met: a square, a positive and a negative distance. -/
example : (offsetPoly stdR true false 1 sq2).1 = .ok [(-1, 3), (3, 3), (3, -1), (-1, -1)] ∧
    (offsetPoly stdR true false (-1 / 2) sq2).1 = .ok [(1 / 2, 3 / 2), (3 / 2, 3 / 2), (3 / 2, 1 / 2), (1 / 2, 1 / 2)] ∧
    (∀ i a v b, Neighbours sq2 i a v b → GoodVertex stdR a v b) ∧ ConvexOn (-1) sq2 := by
  refine ⟨?_, ?_, fun i a v b h => good_sq2 h, ?_⟩
  · rw [sq_off (by norm_num [stdR])]
    norm_num [polySet, checkInput, openPairs, PtEq, ptDist, stdR, Real.sqrt_lt_sqrt_iff, Real.sqrt_lt']
  · rw [sq_off (by norm_num [stdR, abs_of_neg])]
    norm_num [polySet, checkInput, openPairs, PtEq, ptDist, stdR, Real.sqrt_lt']
  · intro e he x hx
    simp only [sq2, polyEdges, List.rotate_cons_succ, List.rotate_zero, List.cons_append, List.nil_append, List.zip_cons_cons, List.zip_nil_right, List.mem_cons,
      List.not_mem_nil, or_false] at he hx
    rcases he with rfl | rfl | rfl | rfl <;> rcases hx with rfl | rfl | rfl | rfl <;> norm_num [turnAt]

/-- The hypotheses of the theorem about the option are met: the square again. -/
example : ∀ i a v b, Neighbours sq2 i a v b → ∀ p, OffsetPoint (-1) 1 a v b p → GoodCut stdR 1 v p := by
  have d1 : eucl (2, 0) (0, 0) = 2 := by rw [eucl_eq_iff (by norm_num)]; norm_num
  have d2 : eucl (0, 0) (0, 2) = 2 := by rw [eucl_eq_iff (by norm_num)]; norm_num
  have d3 : eucl (0, 2) (2, 2) = 2 := by rw [eucl_eq_iff (by norm_num)]; norm_num
  have d4 : eucl (2, 2) (2, 0) = 2 := by rw [eucl_eq_iff (by norm_num)]; norm_num
  have hs2 : √2 ≤ 2 := sqrt_le_iff.2 ⟨by norm_num, by norm_num⟩
  have hs3 : (7 : ℝ) / 5 ≤ √2 := le_sqrt_of_sq_le (by norm_num)
  have key : ∀ v p : Pt ℝ, eucl v p = √2 → |v.1 - p.1| = 1 → |v.2 - p.2| = 1 → GoodCut stdR 1 v p := by
    intro v p h hx hy
    refine ⟨Or.inr ?_, Or.inr ?_, ?_⟩
    · rw [h, hy]; norm_num [stdR]; linarith
    · rw [h, hx]; norm_num [stdR]; linarith
    · rw [h]
      have hcos := Real.one_sub_sq_div_two_le_cos (x := 1 / 1000)
      have hac : arccos (cos (1 / 1000)) = 1 / 1000 := arccos_cos (by norm_num) (by have := Real.two_le_pi; linarith)
      show (1 / 1000 : ℝ) ≤ _
      rw [← hac]
      apply arccos_le_arccos
      have : 1 / √2 ≤ 5 / 7 := by rw [div_le_iff₀ (by linarith)]; linarith
      norm_num at hcos ⊢ this; linarith
  intro i a v b h p ⟨hp1, hp2⟩
  rcases neigh_sq2 h with ⟨-, rfl, rfl, rfl⟩ | ⟨-, rfl, rfl, rfl⟩ | ⟨-, rfl, rfl, rfl⟩ | ⟨-, rfl, rfl, rfl⟩ <;>
    simp only [signedDist, turnAt, d1, d2, d3, d4] at hp1 hp2
  · have e : p = (-1, -1) := by ext <;> simp only <;> linarith
    subst e
    exact key _ _ (by unfold eucl; norm_num) (by norm_num) (by norm_num)
  · have e : p = (-1, 3) := by ext <;> simp only <;> linarith
    subst e
    exact key _ _ (by unfold eucl; norm_num) (by norm_num) (by norm_num)
  · have e : p = (3, 3) := by ext <;> simp only <;> linarith
    subst e
    exact key _ _ (by unfold eucl; norm_num) (by norm_num) (by norm_num)
  · have e : p = (3, -1) := by ext <;> simp only <;> linarith
    subst e
    exact key _ _ (by unfold eucl; norm_num) (by norm_num) (by norm_num)

/-- **C88 is false: failure.** The documentation says that an empty polyline is returned on failure, for whatever reason. For a square of side 2 and a distance of -1, all the new
points are the same one, and the call throws. -/
theorem C88_throw_false : (offsetPoly stdR true false (-1) sq2).1 = .throw := by
  rw [sq_off (by norm_num [stdR])]
  norm_num [polySet, checkInput, openPairs, PtEq, ptDist, stdR]

/-- **C88 is false: inside.** A negative distance larger than what the polygon can take does not give an empty polyline, but one that is not inside:
for the square of side 2 and a distance of -3, all the points are outside of the square. -/
theorem C88_inside_false : ∃ r, (offsetPoly stdR true false (-3) sq2).1 = .ok r ∧ r.length = 4 ∧
    ∀ p ∈ r, ¬ (0 ≤ p.1 ∧ p.1 ≤ 2 ∧ 0 ≤ p.2 ∧ p.2 ≤ 2) := by
  refine ⟨[(3, -1), (-1, -1), (-1, 3), (3, 3)], ?_, rfl, ?_⟩
  · rw [sq_off (by norm_num [stdR])]
    norm_num [polySet, checkInput, openPairs, PtEq, ptDist, stdR, Real.sqrt_lt']
  · intro p hp
    simp only [List.mem_cons, List.not_mem_nil, or_false] at hp
    rcases hp with rfl | rfl | rfl | rfl <;> norm_num

/-- **C88 is false: sharp vertices.** A vertex whose edges make an angle lower than the null angle is dropped: for the triangle (0,0), (10000,1), (10000,-1) and
a distance of 1, the result has two points only. -/
theorem C88_sharp_false : ∃ p p', (offsetPoly stdR true false 1 needle).1 = .ok [p, p'] := needle_off

/-- **C88 is false: nearly flat corners, with the option.** Where the polygon turns by an angle between the null angle and twice its value, the normal of the bisector is parallel to the edges for the
library, and the call throws: (-1500,-1), (0,0), (1500,-1), (0,-1000), with a distance of 1. -/
theorem C88_split_false : (offsetPoly stdR true true 1 kite).1 = .throw := kite_split

/-- **C88 is false: the call changes the object.** It is a const function, but the points of the polygon (as given by `getPts()`, `getPoint()`, the
segments...) are not in the same order after the call. -/
theorem C88_const_false : ∃ pts : List (Pt ℝ), (offsetPoly stdR true false 1 pts).2 ≠ pts := by
  refine ⟨sq2.rotate 1, ?_⟩
  have h : normalizePoly true (sq2.rotate 1) = .ok sq2 := by
    rw [normalizePoly_rotate _ (by simp [sq2]) (by simp [sq2])]; exact norm_sq2
  unfold offsetPoly
  rw [if_neg (by simp [sq2]; norm_num [stdR]), h]
  simp [sq2]

end H2d.Props
