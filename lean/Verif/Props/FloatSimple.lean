import Verif.Lemmas.FloatSimple

/-! # C119: simple polygons with rounded operations -/

namespace H2d.Props

open H2d.Spec H2d.Fl H2d.Simple

/-- **C119, outcome.** For a polygon whose edges are not shorter than twice the null distance, `isSimple()` has an answer: no exception, no access out of the vector. -/
theorem C119_defined {F : Arith} {u v : ℝ} (h : FlOk F u v) {t : Thr ℝ} (ht : 2 * dblEps ≤ t.nullDistance) (ac : ℝ → ℝ) {Λ : ℝ} {pts : List (Pt ℝ)} (hp : EdgesOk F t Λ pts) (closed : Bool) :
    ∃ b, simpleF F t ac closed pts = .ok b ∧ (b = true → 3 ≤ pts.length ∧ closed = true) := by
  obtain ⟨b, e, k⟩ := simpleF_eq h ht ac hp closed
  exact ⟨b, e, fun hb => ⟨(k.1 hb).1, (k.1 hb).2.1⟩⟩

/-- **C119, edges apart.** A polygon of three points or more, whose edges without common vertex are farther apart than `reach` (about the square root of `2 Λ nullDistance` if the precision is high), is said to be simple. -/
theorem C119_apart_partial {F : Arith} {u v : ℝ} (h : FlOk F u v) {t : Thr ℝ} (ht : 2 * dblEps ≤ t.nullDistance) (ac : ℝ → ℝ) {Λ D : ℝ} {pts : List (Pt ℝ)} (hn : 3 ≤ pts.length) (hp : EdgesOk F t Λ pts)
    (hD : reach t u v Λ < D) (ha : EdgesApart D pts) : simpleF F t ac true pts = .ok true := by
  obtain ⟨b, e, k⟩ := simpleF_eq h ht ac hp true
  rw [e, k.2 ⟨hn, rfl, fun i j e e' he he' hij => answerF_apart h ht ac hp hD he he' (ha i j e e' he he' hij)⟩]

/-- **C119, edges that touch or cross.** If two edges without common vertex have a common point, and the null distance is above `350 κ + 13 (u + v) M`, with `κ = u M² / (L S)`, the polygon is said not to be simple. -/
theorem C119_touching_partial {F : Arith} {u v : ℝ} (h : FlOk F u v) {ac : ℝ → ℝ} {t : Thr ℝ} {w Λ M L S : ℝ} (ha : AcosOk ac w) {pts : List (Pt ℝ)} (hp : EdgesOk F t Λ pts) {i j : ℕ} {e e' : Seg} (he : Edge pts i e)
    (he' : Edge pts j e') (hij : NotNeighbours pts.length i j) (hq : SegPair F t u w M L S e e') {P : Pt ℝ} (h1 : OnSeg e.1 e.2 P) (h2 : OnSeg e'.1 e'.2 P)
    (hnd : 350 * (u * M ^ 2 / (L * S)) + 13 * (u + v) * M < t.nullDistance) (closed : Bool) : simpleF F t ac closed pts = .ok false := by
  obtain ⟨b, eb, k⟩ := simpleF_eq h hq.eps ac hp closed
  obtain ⟨q, eq, -⟩ := C116_found h ha hq.fix (Pip.onSeg_fix.2 h1) (Pip.onSeg_fix.2 h2) hnd
  cases b with
  | false => exact eb
  | true =>
    have := (k.1 rfl).2.2 i j e e' he he' hij
    have k2 := answerF_eq h hq.eps ac hp he he'
    rw [eq, this] at k2
    cases k2

/-- **C119, edges that cross.** If two edges without common vertex cross at a distance `r` of their ends, and the null distance is above `52000 κ² / r + 13 (u + v) M`, the polygon is said not to be simple. -/
theorem C119_crossing_partial {F : Arith} {u v : ℝ} (h : FlOk F u v) {ac : ℝ → ℝ} {t : Thr ℝ} {w Λ M L S : ℝ} (ha : AcosOk ac w) {pts : List (Pt ℝ)} (hp : EdgesOk F t Λ pts) {i j : ℕ} {e e' : Seg} (he : Edge pts i e)
    (he' : Edge pts j e') (hij : NotNeighbours pts.length i j) (hq : SegPair F t u w M L S e e') {P : Pt ℝ} (h1 : OnSeg e.1 e.2 P) (h2 : OnSeg e'.1 e'.2 P)
    {r : ℝ} (hr : 0 < r) (hr1 : r ≤ eucl e.1 P) (hr2 : r ≤ eucl e.2 P) (hr3 : r ≤ eucl e'.1 P) (hr4 : r ≤ eucl e'.2 P)
    (hκ : 300 * (u * M ^ 2 / (L * S)) ≤ r) (hnd : 52000 * (u * M ^ 2 / (L * S)) ^ 2 / r + 13 * (u + v) * M < t.nullDistance) (closed : Bool) : simpleF F t ac closed pts = .ok false := by
  obtain ⟨b, eb, k⟩ := simpleF_eq h hq.eps ac hp closed
  have fx : ∀ (e : Seg), r ≤ eucl e.1 P → r ≤ eucl e.2 P → r ≤ eucl (fixOrder e.1 e.2).1 P ∧ r ≤ eucl (fixOrder e.1 e.2).2 P := by
    intro e k1 k2
    rcases Pip.fixOrder_cases e.1 e.2 with h | h <;> rw [h]
    · exact ⟨k1, k2⟩
    · exact ⟨k2, k1⟩
  obtain ⟨q, eq, -⟩ := C116_crossing h ha hq.fix (Pip.onSeg_fix.2 h1) (Pip.onSeg_fix.2 h2) hr (fx e hr1 hr2).1 (fx e hr1 hr2).2 (fx e' hr3 hr4).1 (fx e' hr3 hr4).2 hκ hnd
  cases b with
  | false => exact eb
  | true =>
    have := (k.1 rfl).2.2 i j e e' he he' hij
    have k2 := answerF_eq h hq.eps ac hp he he'
    rw [eq, this] at k2
    cases k2

/-- In `double` with the default thresholds: the rectangle (0,0) (4,0) (4,3) (0,3) is simple. -/
example : simpleF (binary 53) stdR Real.arccos true [(0, 0), (4, 0), (4, 3), (0, 3)] = .ok true := by
  have v0 : eucl (0, 0) (4, 0) = 4 := by rw [eucl_eq_iff (by norm_num)]; norm_num
  have v1 : eucl (4, 0) (4, 3) = 3 := by rw [eucl_eq_iff (by norm_num)]; norm_num
  have v2 : eucl (4, 3) (0, 3) = 4 := by rw [eucl_eq_iff (by norm_num)]; norm_num
  have v3 : eucl (0, 3) (0, 0) = 3 := by rw [eucl_eq_iff (by norm_num)]; norm_num
  have r (k : ℤ) (hk : |k| ≤ 4) : Rep (binary 53) k := rep_small hk
  refine C119_apart_partial (binary_ok (p := 53) (by norm_num)) (t := stdR) (by norm_num [stdR, dblEps]) _ (Λ := 4) (D := 1) (by simp) ⟨?_, ?_⟩ ?_ ?_
  · have r0 := r 0 (by norm_num)
    have r3 := r 3 (by norm_num)
    have r4 := r 4 (by norm_num)
    norm_num at r0 r3 r4
    intro p hp
    simp only [List.mem_cons, List.not_mem_nil, or_false] at hp
    rcases hp with rfl | rfl | rfl | rfl <;> simp [r0, r3, r4]
  · rintro i ⟨p, q⟩ he
    have hi := edge_lt he
    simp only [List.length_cons, List.length_nil] at hi
    obtain ⟨k1, k2⟩ := he
    interval_cases i <;> simp at k1 k2 <;> rw [← k1, ← k2] <;> simp only [v0, v1, v2, v3] <;> norm_num [stdR]
  · unfold reach
    have h0 : slack stdR (2 ^ (-((53 : ℕ) : ℤ))) (2 ^ (-((53 : ℕ) : ℤ))) 4 ≤ 1 / 1000 := by unfold slack; norm_num [stdR]
    have h1 : 0 ≤ slack stdR (2 ^ (-((53 : ℕ) : ℤ))) (2 ^ (-((53 : ℕ) : ℤ))) 4 := by unfold slack; norm_num [stdR]
    generalize slack stdR (2 ^ (-((53 : ℕ) : ℤ))) (2 ^ (-((53 : ℕ) : ℤ))) 4 = d at *
    have : Real.sqrt (d * (2 * 4 + d)) ≤ 1 / 2 := (Real.sqrt_le_left (by norm_num)).2 (by nlinarith)
    exact lt_of_le_of_lt (add_le_add this h0) (by norm_num)
  · rintro i j ⟨p, q⟩ ⟨p', q'⟩ he he' hij
    have hi := edge_lt he
    have hj := edge_lt he'
    simp only [List.length_cons, List.length_nil] at hi hj hij
    obtain ⟨a1, a2⟩ := he
    obtain ⟨b1, b2⟩ := he'
    interval_cases i <;> interval_cases j <;> simp [NotNeighbours] at hij
    all_goals
      simp at a1 a2 b1 b2; rw [← a1, ← a2, ← b1, ← b2]
      rintro x x' ⟨k, k0, k1, rfl⟩ ⟨k', k0', k1', rfl⟩
      first
        | refine le_trans ?_ (abs_fst_le_eucl _ _)
          simp only
          rw [le_abs]; first | (left; linarith; done) | (right; linarith; done)
        | refine le_trans ?_ (abs_snd_le_eucl _ _)
          simp only
          rw [le_abs]; first | (left; linarith; done) | (right; linarith; done)

/-- In `double` with the default thresholds: the bow-tie (0,0) (4,3) (4,0) (0,3) is not. -/
example : simpleF (binary 53) stdR Real.arccos true [(0, 0), (4, 3), (4, 0), (0, 3)] = .ok false := by
  have v0 : eucl (0, 0) (4, 3) = 5 := by rw [eucl_eq_iff (by norm_num)]; norm_num
  have v1 : eucl (4, 3) (4, 0) = 3 := by rw [eucl_eq_iff (by norm_num)]; norm_num
  have v2 : eucl (4, 0) (0, 3) = 5 := by rw [eucl_eq_iff (by norm_num)]; norm_num
  have v3 : eucl (0, 3) (0, 0) = 3 := by rw [eucl_eq_iff (by norm_num)]; norm_num
  have hd : eucl (0, 3) (2, 3 / 2) = 5 / 2 := by rw [eucl_eq_iff (by norm_num)]; norm_num
  have hd2 : eucl (4, 0) (2, 3 / 2) = 5 / 2 := by rw [eucl_eq_iff (by norm_num)]; norm_num
  have hd3 : eucl (0, 0) (2, 3 / 2) = 5 / 2 := by rw [eucl_eq_iff (by norm_num)]; norm_num
  have hd4 : eucl (4, 3) (2, 3 / 2) = 5 / 2 := by rw [eucl_eq_iff (by norm_num)]; norm_num
  have r (k : ℤ) (hk : |k| ≤ 4) : Rep (binary 53) k := rep_small hk
  refine C119_crossing_partial (binary_ok (p := 53) (by norm_num)) (ac := Real.arccos) (t := stdR) acosOk_exact (Λ := 5) (i := 0) (j := 2) (e := ((0, 0), (4, 3))) (e' := ((4, 0), (0, 3))) ⟨?_, ?_⟩ ⟨rfl, rfl⟩ ⟨rfl, rfl⟩
    (by simp [NotNeighbours]) demoPair.symm.swap1.symm (P := (2, 3 / 2)) ⟨1 / 2, by norm_num, by norm_num, by norm_num⟩
    ⟨1 / 2, by norm_num, by norm_num, by norm_num⟩ (r := 1) (by norm_num) (by rw [hd3]; norm_num) (by rw [hd4]; norm_num) (by rw [hd2]; norm_num) (by rw [hd]; norm_num)
    (by norm_num) (by norm_num [stdR]) true
  · have r0 := r 0 (by norm_num)
    have r3 := r 3 (by norm_num)
    have r4 := r 4 (by norm_num)
    norm_num at r0 r3 r4
    intro p hp
    simp only [List.mem_cons, List.not_mem_nil, or_false] at hp
    rcases hp with rfl | rfl | rfl | rfl <;> simp [r0, r3, r4]
  · rintro i ⟨p, q⟩ he
    have hi := edge_lt he
    simp only [List.length_cons, List.length_nil] at hi
    obtain ⟨k1, k2⟩ := he
    interval_cases i <;> simp at k1 k2 <;> rw [← k1, ← k2] <;> simp only [v0, v1, v2, v3] <;> norm_num [stdR]

/-- **C119, far from the origin.** The bound on the precision is needed. With `p` bits, `N = 2^(p-1)`, a polygon of four points with exactly represented coordinates, two opposite edges of which, of length 3,
cross at a right angle, at a distance of at least 1 of their ends: it is said to be simple. -/
theorem C119_far_false {p : ℕ} (hp : 10 ≤ p) {ac : ℝ → ℝ} {w : ℝ} (ha : AcosOk ac w) {t : Thr ℝ} (h0 : 2 * dblEps ≤ t.nullDistance) (h1 : t.nullDistance ≤ 1 / 10) (h2 : t.nullAngleValue ≤ 1) (h3 : t.nullDenom ≤ 1) :
    ∃ (pts : List (Pt ℝ)) (e e' : Seg) (P : Pt ℝ), EdgesOk (binary p) t 3 pts ∧ Edge pts 0 e ∧ Edge pts 2 e' ∧ NotNeighbours pts.length 0 2 ∧ OnSeg e.1 e.2 P ∧ OnSeg e'.1 e'.2 P ∧
      1 ≤ eucl e.1 P ∧ 1 ≤ eucl e.2 P ∧ 1 ≤ eucl e'.1 P ∧ 1 ≤ eucl e'.2 P ∧ sinSegs e e' = 1 ∧ simpleF (binary p) t ac true pts = .ok true := by
  obtain ⟨N, hN⟩ : ∃ N : ℝ, (2 : ℝ) ^ (p - 1) = N := ⟨_, rfl⟩
  have f : ∀ {a b c d e : ℝ}, 0 ≤ e → (a - c) ^ 2 + (b - d) ^ 2 = e ^ 2 → eucl (a, b) (c, d) = e := fun he hh => (eucl_eq_iff he).2 hh
  obtain ⟨-, r0, r1, r3⟩ := far_reps (by omega) hN
  have hF := binary_ok (p := p) (by omega)
  have hu : (2 : ℝ) ^ (-(p : ℤ)) ≤ 1 / 1024 := by
    rw [show (1 / 1024 : ℝ) = 2 ^ (-(10 : ℤ)) by norm_num]
    exact zpow_le_zpow_right₀ (by norm_num) (by omega)
  have v0 : eucl (N, N + 1) (N + 3, N + 1) = 3 := f (by norm_num) (by ring)
  have v1 : eucl (N + 3, N + 1) (N + 1, N + 3) = Real.sqrt 8 := by unfold eucl; congr 1; ring
  have v2 : eucl (N + 1, N + 3) (N + 1, N) = 3 := f (by norm_num) (by ring)
  have v3 : eucl (N + 1, N) (N, N + 1) = Real.sqrt 2 := by unfold eucl; congr 1; ring
  have s8 : 1 ≤ Real.sqrt 8 := Real.le_sqrt_of_sq_le (by norm_num)
  have s8' : Real.sqrt 8 ≤ 3 := (Real.sqrt_le_left (by norm_num)).2 (by norm_num)
  have s2 : 1 ≤ Real.sqrt 2 := Real.le_sqrt_of_sq_le (by norm_num)
  have s2' : Real.sqrt 2 ≤ 3 := (Real.sqrt_le_left (by norm_num)).2 (by norm_num)
  have hE : EdgesOk (binary p) t 3 [(N, N + 1), (N + 3, N + 1), (N + 1, N + 3), (N + 1, N)] := by
    constructor
    · intro p hp
      simp only [List.mem_cons, List.not_mem_nil, or_false] at hp
      rcases hp with rfl | rfl | rfl | rfl <;> simp [r0, r1, r3]
    · rintro i ⟨p, q⟩ he
      have hi := edge_lt he
      simp only [List.length_cons, List.length_nil] at hi
      obtain ⟨k1, k2⟩ := he
      interval_cases i <;> simp at k1 k2 <;> rw [← k1, ← k2] <;> simp only [v0, v1, v2, v3] <;> constructor <;> linarith
  have hreach : reach t (2 ^ (-(p : ℤ))) (2 ^ (-(p : ℤ))) 3 < 3 / 2 := by
    have k0 := dblEps_pos
    have hu0 : (0 : ℝ) ≤ 2 ^ (-(p : ℤ)) := by positivity
    unfold reach
    have b0 : slack t (2 ^ (-(p : ℤ))) (2 ^ (-(p : ℤ))) 3 ≤ 1 / 7 := by unfold slack; linarith
    have b1 : 0 ≤ slack t (2 ^ (-(p : ℤ))) (2 ^ (-(p : ℤ))) 3 := by unfold slack; linarith
    generalize slack t (2 ^ (-(p : ℤ))) (2 ^ (-(p : ℤ))) 3 = d at *
    have : Real.sqrt (d * (2 * 3 + d)) ≤ 1 := (Real.sqrt_le_left (by norm_num)).2 (by nlinarith)
    exact lt_of_le_of_lt (add_le_add this b0) (by norm_num)
  refine ⟨[(N, N + 1), (N + 3, N + 1), (N + 1, N + 3), (N + 1, N)], ((N, N + 1), (N + 3, N + 1)), ((N + 1, N + 3), (N + 1, N)), (N + 1, N + 1), hE, ⟨rfl, rfl⟩, ⟨rfl, rfl⟩, by simp [NotNeighbours],
    ⟨1 / 3, by norm_num, by norm_num, ?_⟩, ⟨2 / 3, by norm_num, by norm_num, ?_⟩, ?_, ?_, ?_, ?_, ?_, ?_⟩
  · apply Prod.ext <;> simp only <;> ring
  · apply Prod.ext <;> simp only <;> ring
  · rw [f (e := 1) (by norm_num) (by ring)]
  · rw [f (e := 2) (by norm_num) (by ring)]; norm_num
  · rw [f (e := 2) (by norm_num) (by ring)]; norm_num
  · rw [f (e := 1) (by norm_num) (by ring)]
  · unfold sinSegs
    simp only
    rw [v0, v2, show (N + 3 - N) * (N - (N + 3)) - (N + 1 - (N + 1)) * (N + 1 - (N + 1)) = -9 by ring]
    norm_num
  · obtain ⟨b, e, k⟩ := simpleF_eq hF h0 ac hE true
    rw [e, k.2 ⟨by simp, rfl, ?_⟩]
    have c02 : answerF (binary p) t ac ((N, N + 1), (N + 3, N + 1)) ((N + 1, N + 3), (N + 1, N)) = none := by
      have g1 : fixOrder (N, N + 1) (N + 3, N + 1) = ((N, N + 1), (N + 3, N + 1)) := by simp [fixOrder, ptLt]
      have g2 : fixOrder (N + 1, N + 3) (N + 1, N) = ((N + 1, N), (N + 1, N + 3)) := by simp [fixOrder, ptLt]
      unfold answerF
      simp only [g1, g2]
      rw [far_none (by omega) hN ha (by linarith) h2 h3]
    have c13 : answerF (binary p) t ac ((N + 3, N + 1), (N + 1, N + 3)) ((N + 1, N), (N, N + 1)) = none := by
      refine answerF_apart hF h0 ac hE hreach (i := 1) (j := 3) ⟨rfl, rfl⟩ ⟨rfl, by simp⟩ ?_
      rintro x x' ⟨k, k0, k1, rfl⟩ ⟨k', k0', k1', rfl⟩
      simp only
      rcases le_total (3 / 2) (N + 3 + k * (N + 1 - (N + 3)) - (N + 1 + k' * (N - (N + 1)))) with hx | hx
      · refine le_trans ?_ ((le_abs_self _).trans (abs_fst_le_eucl _ _))
        exact hx
      · refine le_trans ?_ ((le_abs_self _).trans (abs_snd_le_eucl _ _))
        simp only
        linarith
    rintro i j ⟨q, q'⟩ ⟨q2, q2'⟩ he he' hij
    have hi := edge_lt he
    have hj := edge_lt he'
    simp only [List.length_cons, List.length_nil] at hi hj hij
    obtain ⟨a1, a2⟩ := he
    obtain ⟨b1, b2⟩ := he'
    interval_cases i <;> interval_cases j <;> simp [NotNeighbours] at hij
    all_goals simp at a1 a2 b1 b2; rw [← a1, ← a2, ← b1, ← b2]
    · exact c02
    · exact c13
    · rw [answerF_comm hF]; exact c02
    · rw [answerF_comm hF]; exact c13

/-- The default thresholds. -/
example : 2 * dblEps ≤ stdR.nullDistance ∧ stdR.nullDistance ≤ 1 / 10 ∧ stdR.nullAngleValue ≤ 1 ∧ stdR.nullDenom ≤ 1 ∧ AcosOk Real.arccos 0 :=
  ⟨by norm_num [stdR, dblEps], by norm_num [stdR], by norm_num [stdR], by norm_num [stdR], acosOk_exact⟩

end H2d.Props
