import Verif.Lemmas.Search
import Verif.Model.Geom
import Verif.Spec.Search
import Mathlib.Data.Rat.Defs
import Mathlib.Algebra.Order.Ring.Rat
import Mathlib.Tactic.Ring

/-!
# C48, C49, C50: nearest / farthest / closest point searches
-/

namespace H2d.Props

open H2d.Search H2d.Spec

variable {P D : Type} [LinearOrder D]

/-- **C48 (partial), nearest point.** For a container of at least two points of any size, if at least one of
the first two elements differs from the query point, `findNearestPoint` returns the first index of an element different
from the query at minimal distance.

Missing w.r.t. the full statement: containers whose two first elements are both equal to the query,
for which the property is false, see `C48_nearest_false`. -/
theorem C48_nearest_partial (d : P → P → D) (same : P → P → Bool) (q : P) (cont : List P)
    (hsym : ∀ x, same x q = same q x)
    (h0 : ∃ i x, i < 2 ∧ cont[i]? = some x ∧ same q x = false) (hlen : 2 ≤ cont.length) :
    ∃ i, findNearestPoint d same q cont = .ok i ∧ IsNearestOther d same q cont i := by
  match cont, hlen with
  | c0 :: c1 :: rest, _ =>
    by_cases hc0 : same q c0 = true
    · have hc1 : same q c1 = false := by
        obtain ⟨i, x, hi, hx, hs⟩ := h0
        match i, hi with
        | 0, _ => simp at hx; subst hx; simp [hc0] at hs
        | 1, _ => simp at hx; subst hx; exact hs
      have hf : findNearestPoint d same q (c0 :: c1 :: rest) =
          .ok (findLoop .min d same q 2 rest 1 (d q c1)) := by
        simp [findNearestPoint, findPoint, hsym, hc0]
      refine ⟨_, hf, ?_⟩
      rcases findLoop_spec .min d same q rest 2 1 (d q c1) with ⟨h1, h2⟩ | ⟨k, x, h1, h2, h3, h4, h5, h6⟩
      · rw [h1]
        refine ⟨⟨c1, rfl, hc1⟩, ?_, ?_⟩
        · intro x j y hx hy hs
          simp at hx; subst hx
          match j with
          | 0 => simp at hy; subst hy; simp [hc0] at hs
          | 1 => simp at hy; subst hy; exact le_refl _
          | j+2 =>
            simp at hy
            simpa [better] using h2 j y hy hs
        · intro x j y hx hy hs hj
          match j, hj with
          | 0, _ => simp at hy; subst hy; simp [hc0] at hs
      · rw [h1]
        have hidx : (c0 :: c1 :: rest)[2 + k]? = some x := by
          rw [Nat.add_comm]; simpa using h2
        refine ⟨⟨x, hidx, h3⟩, ?_, ?_⟩
        · intro x' j y hx hy hs
          rw [hidx] at hx; simp at hx; subst hx
          match j with
          | 0 => simp at hy; subst hy; simp [hc0] at hs
          | 1 => simp at hy; subst hy; simp [better] at h4; exact h4.le
          | j+2 => simp at hy; simpa [better] using h5 j y hy hs
        · intro x' j y hx hy hs hj
          rw [hidx] at hx; simp at hx; subst hx
          match j with
          | 0 => simp at hy; subst hy; simp [hc0] at hs
          | 1 => simp at hy; subst hy; simpa [better] using h4
          | j+2 => simp at hy; simpa [better] using h6 j y hy hs (by omega)
    · have hc0' : same q c0 = false := by simpa using hc0
      have hf : findNearestPoint d same q (c0 :: c1 :: rest) =
          .ok (findLoop .min d same q 1 (c1 :: rest) 0 (d q c0)) := by
        simp [findNearestPoint, findPoint, hsym, hc0']
      refine ⟨_, hf, ?_⟩
      rcases findLoop_spec .min d same q (c1 :: rest) 1 0 (d q c0) with ⟨h1, h2⟩ | ⟨k, x, h1, h2, h3, h4, h5, h6⟩
      · rw [h1]
        refine ⟨⟨c0, rfl, hc0'⟩, ?_, ?_⟩
        · intro x j y hx hy hs
          simp at hx; subst hx
          match j with
          | 0 => simp at hy; subst hy; exact le_refl _
          | j+1 => rw [List.getElem?_cons_succ] at hy; simpa [better] using h2 j y hy hs
        · intro x j y _ _ _ hj; omega
      · rw [h1]
        have hidx : (c0 :: c1 :: rest)[1 + k]? = some x := by
          rw [Nat.add_comm, List.getElem?_cons_succ]; exact h2
        refine ⟨⟨x, hidx, h3⟩, ?_, ?_⟩
        · intro x' j y hx hy hs
          rw [hidx] at hx; simp at hx; subst hx
          match j with
          | 0 => simp at hy; subst hy; simp [better] at h4; exact h4.le
          | j+1 => rw [List.getElem?_cons_succ] at hy; simpa [better] using h5 j y hy hs
        · intro x' j y hx hy hs hj
          rw [hidx] at hx; simp at hx; subst hx
          match j with
          | 0 => simp at hy; subst hy; simpa [better] using h4
          | j+1 => rw [List.getElem?_cons_succ] at hy; simpa [better] using h6 j y hy hs (by omega)

/-- Non-vacuity of `C48_nearest_partial`, on rational points with the code's distance and equality:
the query is element 0 of the container, the nearest other point is element 2. -/
example :
    (∀ x, samePt (1/10^10 : ℚ) x (0,0) = samePt (1/10^10 : ℚ) (0,0) x) ∧
    (∃ i x, i < 2 ∧ ([(0,0), (5,5), (1,1), (1,1)] : List (ℚ × ℚ))[i]? = some x ∧
      samePt (1/10^10 : ℚ) (0,0) x = false) ∧
    findNearestPoint sqDist (samePt (1/10^10 : ℚ)) (0,0) [(0,0), (5,5), (1,1), (1,1)] = .ok 2 := by
  refine ⟨?_, ⟨1, (5,5), by decide, rfl, by decide +kernel⟩, by decide +kernel⟩
  intro x; simp only [samePt, sqDist]; congr 1; ring_nf

/-- **C48, nearest point: the unrestricted statement is false.** When the two first elements of the container are both equal to
the query point, `findNearestPoint` returns index 1, i.e. the query point itself, although the container
holds a different point. -/
theorem C48_nearest_false :
    ∃ (q : ℚ × ℚ) (cont : List (ℚ × ℚ)),
      2 ≤ cont.length ∧ (∃ i, IsNearestOther sqDist (samePt (1/10^10 : ℚ)) q cont i) ∧
      ∃ i, findNearestPoint sqDist (samePt (1/10^10 : ℚ)) q cont = .ok i ∧
        ¬ IsNearestOther sqDist (samePt (1/10^10 : ℚ)) q cont i := by
  refine ⟨(0,0), [(0,0), (0,0), (3,4)], by decide, ⟨2, ⟨(3,4), rfl, by decide +kernel⟩, ?_, ?_⟩,
    1, by decide +kernel, ?_⟩
  · intro x j y hx hy hs
    simp at hx; subst hx
    match j with
    | 0 => simp at hy; subst hy; revert hs; decide +kernel
    | 1 => simp at hy; subst hy; revert hs; decide +kernel
    | 2 => simp at hy; subst hy; exact le_refl _
    | j+3 => simp at hy
  · intro x j y hx hy hs hj
    match j, hj with
    | 0, _ => simp at hy; subst hy; exact absurd hs (by decide +kernel)
    | 1, _ => simp at hy; subst hy; exact absurd hs (by decide +kernel)
  · intro h
    obtain ⟨x, hx, hs⟩ := h.other
    simp at hx; subst hx; revert hs; decide +kernel

/-- **C48, farthest point.** If some element differs from the query, `findFarthestPoint` returns the first index of an element
different from the query at maximal distance. `hd` says that an element considered equal to the query is nearer
than an element considered different: this holds for the code, where equality is "distance below a threshold". -/
theorem C48_farthest (d : P → P → D) (same : P → P → Bool) (q : P) (cont : List P)
    (hsym : ∀ x, same x q = same q x)
    (hd : ∀ x y, same q x = true → same q y = false → d q x < d q y)
    (h0 : ∃ x ∈ cont, same q x = false) (hlen : 2 ≤ cont.length) :
    ∃ i, findFarthestPoint d same q cont = .ok i ∧ IsFarthestOther d same q cont i := by
  match cont, hlen with
  | c0 :: c1 :: rest, _ =>
    by_cases hc0 : same q c0 = true
    · have hf : findFarthestPoint d same q (c0 :: c1 :: rest) =
          .ok (findLoop .max d same q 2 rest 1 (d q c1)) := by
        simp [findFarthestPoint, findPoint, hsym, hc0]
      refine ⟨_, hf, ?_⟩
      rcases findLoop_spec .max d same q rest 2 1 (d q c1) with ⟨h1, h2⟩ | ⟨k, x, h1, h2, h3, h4, h5, h6⟩
      · rw [h1]
        have hc1 : same q c1 = false := by
          by_contra hc1
          have hc1 : same q c1 = true := by simpa using hc1
          obtain ⟨x, hx, hs⟩ := h0
          simp only [List.mem_cons] at hx
          rcases hx with rfl | rfl | hx
          · simp [hc0] at hs
          · simp [hc1] at hs
          · obtain ⟨k, hk⟩ := List.mem_iff_getElem?.1 hx
            have := h2 k x hk hs
            simp [better] at this
            exact absurd (hd c1 x hc1 hs) (not_lt.2 this)
        refine ⟨⟨c1, rfl, hc1⟩, ?_, ?_⟩
        · intro x j y hx hy hs
          simp at hx; subst hx
          match j with
          | 0 => simp at hy; subst hy; simp [hc0] at hs
          | 1 => simp at hy; subst hy; exact le_refl _
          | j+2 =>
            simp at hy
            simpa [better] using h2 j y hy hs
        · intro x j y hx hy hs hj
          match j, hj with
          | 0, _ => simp at hy; subst hy; simp [hc0] at hs
      · rw [h1]
        have hidx : (c0 :: c1 :: rest)[2 + k]? = some x := by
          rw [Nat.add_comm]; simpa using h2
        refine ⟨⟨x, hidx, h3⟩, ?_, ?_⟩
        · intro x' j y hx hy hs
          rw [hidx] at hx; simp at hx; subst hx
          match j with
          | 0 => simp at hy; subst hy; simp [hc0] at hs
          | 1 => simp at hy; subst hy; simp [better] at h4; exact h4.le
          | j+2 => simp at hy; simpa [better] using h5 j y hy hs
        · intro x' j y hx hy hs hj
          rw [hidx] at hx; simp at hx; subst hx
          match j with
          | 0 => simp at hy; subst hy; simp [hc0] at hs
          | 1 => simp at hy; subst hy; simpa [better] using h4
          | j+2 => simp at hy; simpa [better] using h6 j y hy hs (by omega)
    · have hc0' : same q c0 = false := by simpa using hc0
      have hf : findFarthestPoint d same q (c0 :: c1 :: rest) =
          .ok (findLoop .max d same q 1 (c1 :: rest) 0 (d q c0)) := by
        simp [findFarthestPoint, findPoint, hsym, hc0']
      refine ⟨_, hf, ?_⟩
      rcases findLoop_spec .max d same q (c1 :: rest) 1 0 (d q c0) with ⟨h1, h2⟩ | ⟨k, x, h1, h2, h3, h4, h5, h6⟩
      · rw [h1]
        refine ⟨⟨c0, rfl, hc0'⟩, ?_, ?_⟩
        · intro x j y hx hy hs
          simp at hx; subst hx
          match j with
          | 0 => simp at hy; subst hy; exact le_refl _
          | j+1 => rw [List.getElem?_cons_succ] at hy; simpa [better] using h2 j y hy hs
        · intro x j y _ _ _ hj; omega
      · rw [h1]
        have hidx : (c0 :: c1 :: rest)[1 + k]? = some x := by
          rw [Nat.add_comm, List.getElem?_cons_succ]; exact h2
        refine ⟨⟨x, hidx, h3⟩, ?_, ?_⟩
        · intro x' j y hx hy hs
          rw [hidx] at hx; simp at hx; subst hx
          match j with
          | 0 => simp at hy; subst hy; simp [better] at h4; exact h4.le
          | j+1 => rw [List.getElem?_cons_succ] at hy; simpa [better] using h5 j y hy hs
        · intro x' j y hx hy hs hj
          rw [hidx] at hx; simp at hx; subst hx
          match j with
          | 0 => simp at hy; subst hy; simpa [better] using h4
          | j+1 => rw [List.getElem?_cons_succ] at hy; simpa [better] using h6 j y hy hs (by omega)

/-- Non-vacuity of `C48_farthest`: the compatibility hypothesis holds for the code's distance and equality, for every threshold;
the two first elements are equal to the query. -/
example :
    (∀ (t : ℚ) (q x y : ℚ × ℚ), samePt t q x = true → samePt t q y = false → sqDist q x < sqDist q y) ∧
    findFarthestPoint sqDist (samePt (1/10^10 : ℚ)) (0,0) [(0,0), (0,0), (3,4), (1,1), (4,3)] = .ok 2 := by
  refine ⟨?_, by decide +kernel⟩
  intro t q x y hx hy
  simp [samePt] at hx hy
  exact lt_of_lt_of_le hx hy

/-- **C48, error case.** Both searches throw exactly for containers of less than two points. -/
theorem C48_throws_iff (w : What) (d : P → P → D) (same : P → P → Bool) (q : P) (cont : List P) :
    (findPoint w d same q cont = .throw ↔ cont.length < 2) ∧ findPoint w d same q cont ≠ .ub := by
  match cont with
  | [] => simp [findPoint]
  | [_] => simp [findPoint]
  | c0 :: c1 :: rest =>
    by_cases h : same c0 q = true <;> simp [findPoint, h]

example : findPoint .min sqDist (samePt (1 : ℚ)) (0,0) [((3,4) : ℚ × ℚ)] = .throw := by decide +kernel

/-- **C49.** The combined search returns exactly the results of the two separate searches, or throws with them. -/
theorem C49_nearest_farthest (d : P → P → D) (same : P → P → Bool) (q : P) (cont : List P)
    (hsym : ∀ x, same x q = same q x) :
    findNearestFarthestPoint d same q cont =
      (do let n ← findNearestPoint d same q cont
          let f ← findFarthestPoint d same q cont
          pure (n, f)) := by
  match cont with
  | [] => rfl
  | [_] => rfl
  | c0 :: c1 :: rest =>
    by_cases h : same q c0 = true
    · simp [findNearestFarthestPoint, findNearestPoint, findFarthestPoint, findPoint, hsym, h, nfLoop_eq]
    · have h' : same q c0 = false := by simpa using h
      simp [findNearestFarthestPoint, findNearestPoint, findFarthestPoint, findPoint, hsym, h', nfLoop_eq]

example : findNearestFarthestPoint sqDist (samePt (1/10^10 : ℚ)) (0,0) [(2,2), (9,0), (1,1), (0,9)] = .ok (2, 1) := by
  decide +kernel

/-- **C50.** `getClosestPoints` throws exactly when one polyline is empty; otherwise it returns a pair of valid indexes
and the distance between the designated points, which is minimal over all the pairs. -/
theorem C50_closest (d : P → P → D) (a b : List P) :
    (getClosestPoints d a b = .throw ↔ a = [] ∨ b = []) ∧
    (a ≠ [] → b ≠ [] → ∃ r, getClosestPoints d a b = .ok r ∧ IsClosestPair d a b r.i r.j r.minDist) := by
  match a, b with
  | [], b => simp [getClosestPoints]
  | x :: xs, [] => simp [getClosestPoints]
  | x :: xs, y :: ys =>
    refine ⟨by simp [getClosestPoints], fun _ _ => ⟨_, rfl, ?_⟩⟩
    rcases closestOuter_spec d (y :: ys) (x :: xs) 0 ⟨d x y, 0, 0⟩ with ⟨h1, h2⟩ | ⟨k, l, x', y', h1, h2, h3, h4, h5⟩
    · rw [h1]
      exact ⟨⟨x, y, rfl, rfl, rfl⟩, h2⟩
    · rw [h3]
      exact ⟨⟨x', y', by simpa using h1, h2, rfl⟩, h5⟩

example : ∃ r, getClosestPoints sqDist [((0,0) : ℚ × ℚ), (5,0)] [(9,9), (6,0)] = .ok r ∧ r.i = 1 ∧ r.j = 1 ∧ r.minDist = 1 := by
  exact ⟨⟨1, 1, 1⟩, by decide +kernel, rfl, rfl, rfl⟩

end H2d.Props
