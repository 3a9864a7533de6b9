import Verif.Lemmas.Hull
import Mathlib.Tactic.NormNum
import Mathlib.Algebra.Order.Field.Rat

/-!
# C47: convex hull

`IsSort srt` is the contract of `std::sort` (defined for strict weak orderings only), `same` is the equality of points.
-/

set_option linter.unusedSectionVars false

namespace H2d.Props

open H2d.Spec H2d.Hull

variable {K : Type} [Field K] [LinearOrder K] [IsStrictOrderedRing K]

/-- **C47, the scan.** Any number of points, any threshold, repeated points allowed (but not the lowest one): the scan ends, nothing is popped off an empty stack and no index is out of range.
The only failure is the exception of the polyline constructor; and the vertices of the result are given points, the first one being the lowest point. -/
theorem C47_scan {srt : (Nat → Nat → Bool) → List Nat → List Nat} (hs : IsSort srt) (thr : K) (same : Pt K → Pt K → Bool) (input : List (Pt K))
    (h4 : 4 ≤ input.length) (honce : ∀ p, IsPivot input p → ∀ i j : ℕ, input[i]? = some p → input[j]? = some p → i = j) :
    convexHull srt thr same input ≠ .ub ∧
      ∀ poly, convexHull srt thr same input = .ok poly → 3 ≤ poly.length ∧ (∀ p ∈ poly, p ∈ input) ∧ ∃ p0 ∈ poly.head?, IsPivot input p0 := by
  obtain ⟨V, P, S⟩ := setup hs (by intro h; rw [h] at h4; simp at h4) honce
  have hl := S.len
  obtain ⟨st, e, hI, htop⟩ := convexHull_of (thr := thr) (same := same) S h4 Inv0 (fun _ _ h => h.lt)
    (by
      intro i3 a b rest h h3 _
      obtain ⟨l, hl⟩ := h.base
      refine ⟨?_, ⟨i3 :: l, by rw [hl]; rfl⟩⟩
      intro i hi
      rcases List.mem_cons.1 hi with rfl | hi
      · omega
      · have := h.lt i hi; omega)
    (by
      intro i3 a b rest h h3 hc
      obtain ⟨l, hl⟩ := h.base
      match l with
      | [] =>
        simp only [List.nil_append, List.cons.injEq] at hl
        obtain ⟨rfl, rfl, rfl⟩ := hl
        exact absurd (cw_turn hc) (not_lt.2 (S.sorted 1 i3 le_rfl (h.lt 1 (by simp)) (by omega)))
      | x :: l =>
        have hl' : a :: rest = l ++ [1, 0] := by simpa using (List.cons.inj hl).2
        refine ⟨⟨fun i hi => h.lt i (List.mem_cons_of_mem _ hi), l, hl'⟩, ?_⟩
        rintro rfl
        have := congrArg List.length hl'
        simp at this)
    ⟨by simp, ⟨[2], rfl⟩⟩
  rw [e]
  unfold polySet
  constructor
  · split <;> simp
  · intro poly hp
    split at hp
    · obtain rfl := Res.ok.inj hp
      obtain ⟨l, hst⟩ := hI.base
      refine ⟨?_, ?_, ?_⟩
      · have : l ≠ [] := by
          rintro rfl
          rw [hst] at htop
          simp at htop
          omega
        have := List.length_pos_iff.2 this
        rw [hst]; simp
        omega
      · intro p hp
        obtain ⟨i, hi, rfl⟩ := List.mem_map.1 hp
        exact List.mem_of_getElem? (S.hin i (by have := hI.lt i (List.mem_reverse.1 hi); omega))
      · exact ⟨P 0, by rw [hst]; simp, S.pivot⟩
    · simp at hp

/-- A square with its center: the center is dropped. -/
example : ∃ poly, convexHull insSort (1/10^15 : ℚ) (fun a b => decide (a = b)) [(2, 2), (0, 0), (1, 1), (2, 0), (0, 2)] = .ok poly ∧ poly = [(0, 0), (2, 0), (2, 2), (0, 2)] :=
  ⟨_, by decide +kernel, rfl⟩

example : IsSort (insSort (α := Nat)) := insSort_isSort

/-- **C47 (partial), the hull.** Any number of different points, with no three of them on a line through the lowest point, and no triangle so flat that the threshold takes it for a line:
the result is the convex hull: its vertices are points of the set, and all the points are on the left of (or on) each of its edges. -/
theorem C47_hull_partial {srt : (Nat → Nat → Bool) → List Nat → List Nat} (hs : IsSort srt) (thr : K) (same : Pt K → Pt K → Bool) (input : List (Pt K))
    (h4 : 4 ≤ input.length) (hnd : input.Nodup) (hsame : ∀ a ∈ input, ∀ b ∈ input, a ≠ b → same a b = false)
    (h2 : AtMostTwoPerRay input) (hc : ClearTurns thr input) :
    ∃ poly, convexHull srt thr same input = .ok poly ∧ IsHull input poly := by
  have honce : ∀ p, IsPivot input p → ∀ i j : ℕ, input[i]? = some p → input[j]? = some p → i = j := by
    intro p _ i j hi hj
    exact (List.Nodup.getElem_inj_iff hnd).1 ((List.getElem?_eq_some_iff.1 hi).2.trans (List.getElem?_eq_some_iff.1 hj).2.symm)
  obtain ⟨V, P, S⟩ := setup hs (by intro h; rw [h] at h4; simp at h4) honce
  have hl := S.len
  have hS := S.toSorted hnd h2
  have hm : ∀ i < input.length, P i ∈ input := fun i hi => List.mem_of_getElem? (S.hin i (by omega))
  obtain ⟨st, e, hI, htop⟩ := convexHull_of (thr := thr) (same := same) S h4 (Inv input.length P) (fun _ _ h => h.lt)
    (by
      intro i3 a b rest h h3 hcw
      have hb := h.lt b (by simp)
      have ha := h.lt a (by simp)
      exact h.push hS h3 (not_cw_turn (hc _ (hm a (by omega)) _ (hm b (by omega)) _ (hm i3 h3)) hcw))
    (by
      intro i3 a b rest h h3 hcw
      exact h.pop hS h3 (cw_turn hcw))
    (Inv.init hS h4)
  have hh := Inv.hull S hS h4 hI htop
  exact ⟨_, e.trans (checkInput_hull hh hsame), hh⟩

/-- Six points with two of them on a line through the lowest one, one inside: the hypotheses hold. -/
example : AtMostTwoPerRay ([(2, 2), (0, 0), (1, 1), (2, 0), (0, 3), (3, 1)] : List (Pt ℚ)) ∧ ClearTurns (1/10^15 : ℚ) [(2, 2), (0, 0), (1, 1), (2, 0), (0, 3), (3, 1)] ∧
    ([(2, 2), (0, 0), (1, 1), (2, 0), (0, 3), (3, 1)] : List (Pt ℚ)).Nodup := by
  refine ⟨?_, by unfold ClearTurns; decide +kernel, by decide +kernel⟩
  intro p0 hp
  have : p0 = (0, 0) := pivot_unique hp ⟨by decide +kernel, by decide +kernel⟩
  subst this
  decide +kernel

/-- **C47, up to three points**: the points are given back (if they are different). -/
theorem C47_small (srt : (Nat → Nat → Bool) → List Nat → List Nat) (thr : K) (same : Pt K → Pt K → Bool) (input : List (Pt K)) (h : input.length < 4) (h2 : 2 ≤ input.length)
    (hsame : input.Pairwise (fun a b => same a b = false ∧ same b a = false)) : convexHull srt thr same input = .ok input := by
  unfold convexHull
  rw [if_pos h]
  match input, h2, h with
  | [a, b], _, _ =>
    simp only [List.pairwise_cons, List.mem_cons, List.not_mem_nil, or_false, forall_eq] at hsame
    simp [polySet, checkInput, openPairs, hsame.1.1]
  | [a, b, c], _, _ =>
    simp only [List.pairwise_cons, List.mem_cons, List.not_mem_nil, or_false, forall_eq, forall_eq_or_imp] at hsame
    simp [polySet, checkInput, openPairs, hsame.1.1.1, hsame.1.2.1, hsame.2.1.1]

example : ([(0, 0), (1, 0), (5, 5)] : List (Pt ℚ)).Pairwise (fun a b => decide (a = b) = false ∧ decide (b = a) = false) := by decide +kernel

/-- **C47 is false of the code**: with three points on a line through the lowest one, given in the order far, near, farther, the result is not convex and does not enclose the points.
Here (0,3) is outside of the edge (2,0)-(0,2) of the result. The sort is an insertion sort. -/
theorem C47_false : ∃ input poly : List (Pt ℚ), input.Nodup ∧ convexHull insSort (1/10^15) (fun a b => decide (a = b)) input = .ok poly ∧ ¬ IsHull input poly := by
  refine ⟨[(0, 0), (2, 0), (0, 2), (0, 1), (0, 3)], [(0, 0), (2, 0), (0, 2), (0, 1), (0, 3)], by decide +kernel, by decide +kernel, ?_⟩
  intro h
  exact absurd (h.left ((2, 0), (0, 2)) (by decide +kernel) (0, 3) (by decide +kernel)) (by decide +kernel)

/-- **C47 is false of the code**: the same point twice, and there is no hull, only an exception. -/
theorem C47_repeated_false : convexHull insSort (1/10^15 : ℚ) (fun a b => decide (a = b)) [(0, 0), (1, 0), (1, 0), (1, 1), (0, 1)] = .throw := by decide +kernel

/-- **C47, hidden hazard**: when the lowest point is given twice, the comparison given to `std::sort` is not a strict weak ordering (undefined behaviour). -/
theorem C47_pivot_twice_false : ∃ input : List (Pt ℚ), IsPivot input (0, 0) ∧ ¬ StrictWeakOn (hullComp input (getPivot input)) (hullIota input.length (getPivot input)).tail := by
  refine ⟨[(0, 0), (0, 0), (1, 0), (0, 1)], ⟨by decide +kernel, by decide +kernel⟩, ?_⟩
  intro h
  have := h.incomp 2 (by decide +kernel) 1 (by decide +kernel) 3 (by decide +kernel) (by decide +kernel) (by decide +kernel) (by decide +kernel) (by decide +kernel)
  exact absurd this.1 (by decide +kernel)

end H2d.Props
