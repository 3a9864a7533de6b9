import Verif.Lemmas.FloatSearch
import Verif.Props.Search

/-!
# C117: searches of points with rounded operations
-/

namespace H2d.Props

open H2d.Spec H2d.Fl

/-- **C117, nearest point.** If one of the two first points is different from the query, the point found is a point of the container, different from the query, and no other
point different from the query is nearer by more than the relative amount `5 u`. -/
theorem C117_nearest {F : Arith} {u v : ℝ} (h : FlOk F u v) (t : Thr ℝ) (q : Pt ℝ) (cont : List (Pt ℝ)) (hlen : 2 ≤ cont.length)
    (h0 : ∃ i x, i < 2 ∧ cont[i]? = some x ∧ ¬ PtSame F t q x) :
    ∃ i x, nearest F t q cont = .ok i ∧ cont[i]? = some x ∧ ¬ PtSame F t q x ∧ ∀ y ∈ cont, ¬ PtSame F t q y → eucl q x ≤ (1 + 5 * u) * eucl q y := by
  obtain ⟨i0, x0, a, b, c⟩ := h0
  obtain ⟨i, e, hi⟩ := C48_nearest_partial (Fl.sqDist F) (sameB F t) q cont (fun x => sameB_comm h t x q) ⟨i0, x0, a, b, sameB_false.2 c⟩ hlen
  obtain ⟨x, hx, hs⟩ := hi.other
  refine ⟨i, x, e, hx, sameB_false.1 hs, fun y hy hyq => ?_⟩
  obtain ⟨j, hj⟩ := List.getElem?_of_mem hy
  exact sqDist_le h (hi.minimal x j y hx hj (sameB_false.2 hyq))

/-- In `double` with the default thresholds: the query is the first point, (1,1) is nearer than (5,5). -/
example : ∃ i x, i < 2 ∧ ([(0, 0), (5, 5), (1, 1)] : List (Pt ℝ))[i]? = some x ∧ ¬ PtSame (binary 53) stdR (0, 0) x := by
  refine ⟨1, (5, 5), by norm_num, rfl, far_not_same (binary_ok (p := 53) (by norm_num)) stdR ?_ (by norm_num [stdR])⟩
  unfold eucl
  apply Real.le_sqrt_of_sq_le
  norm_num [stdR]

/-- **C117, farthest point.** The point found is a point of the container, and no point different from the query is farther by more than the relative amount `5 u`. It is itself different from the
query if some point is at twice the null distance or more. -/
theorem C117_farthest {F : Arith} {u v : ℝ} (h : FlOk F u v) (t : Thr ℝ) (q : Pt ℝ) (cont : List (Pt ℝ)) (hlen : 2 ≤ cont.length) :
    ∃ i x, farthest F t q cont = .ok i ∧ cont[i]? = some x ∧ (∀ y ∈ cont, ¬ PtSame F t q y → eucl q y ≤ (1 + 5 * u) * eucl q x) ∧
      (0 < t.nullDistance → (∃ y ∈ cont, 2 * t.nullDistance ≤ eucl q y) → ¬ PtSame F t q x) := by
  obtain ⟨i, x, e, hx, k⟩ := findFarthest_ge (Fl.sqDist F) (sameB F t) q cont hlen
  have k' : ∀ y ∈ cont, ¬ PtSame F t q y → eucl q y ≤ (1 + 5 * u) * eucl q x := fun y hy hyq =>
    sqDist_le h (k y hy (sameB_false.2 hyq) (by rw [sameB_comm h]; exact sameB_false.2 hyq))
  refine ⟨i, x, e, hx, k', ?_⟩
  rintro ht ⟨y, hy, hd⟩ hs
  have h1 := k' y hy (far_not_same h t hd ht)
  have h2 := abs_le.1 (distPt_err h q x)
  have he := dist_e h
  have hu := h.u_nonneg
  have hu1 := h.u_small
  have hv1 := h.v_small
  have a0 := eucl_nonneg q x
  have h3 : 5 * u * eucl q x ≤ 5 / 64 * eucl q x := mul_le_mul_of_nonneg_right (by linarith) a0
  have h4 : ((1 + u) * (1 + v) - 1) * eucl q x ≤ 1 / 16 * eucl q x := mul_le_mul_of_nonneg_right (by linarith) a0
  have hs' : distPt F q x < t.nullDistance := hs
  linarith [h2.1]

/-- Such points. -/
example : 2 ≤ ([(0, 0), (5, 5), (1, 1)] : List (Pt ℝ)).length ∧ 0 < stdR.nullDistance ∧ ∃ y ∈ ([(0, 0), (5, 5), (1, 1)] : List (Pt ℝ)), 2 * stdR.nullDistance ≤ eucl (0, 0) y := by
  refine ⟨by norm_num, by norm_num [stdR], (5, 5), by simp, ?_⟩
  unfold eucl
  apply Real.le_sqrt_of_sq_le
  norm_num [stdR]

/-- **C117, both at once.** The combined search returns what the two searches return, and throws when they do. -/
theorem C117_both {F : Arith} {u v : ℝ} (h : FlOk F u v) (t : Thr ℝ) (q : Pt ℝ) (cont : List (Pt ℝ)) :
    (∀ i j, nearestFarthest F t q cont = .ok (i, j) ↔ nearest F t q cont = .ok i ∧ farthest F t q cont = .ok j) ∧ (nearestFarthest F t q cont = .throw ↔ cont.length < 2) := by
  have e := C49_nearest_farthest (Fl.sqDist F) (sameB F t) q cont (fun x => sameB_comm h t x q)
  have t1 := C48_throws_iff .min (Fl.sqDist F) (sameB F t) q cont
  have t2 := C48_throws_iff .max (Fl.sqDist F) (sameB F t) q cont
  unfold nearestFarthest nearest farthest
  rw [e]
  unfold Search.findNearestPoint Search.findFarthestPoint
  generalize Search.findPoint .min (Fl.sqDist F) (sameB F t) q cont = A at *
  generalize Search.findPoint .max (Fl.sqDist F) (sameB F t) q cont = B at *
  refine ⟨fun i j => ?_, ?_⟩
  · cases A <;> cases B <;> simp [bind, Res.bind, pure]
  · obtain ⟨t1, n1⟩ := t1
    obtain ⟨t2, n2⟩ := t2
    clear e
    by_cases hc : cont.length < 2
    · rw [t1.2 hc]; simp [hc, bind, Res.bind]
    · have a1 := mt t1.1 hc
      have a2 := mt t2.1 hc
      cases A <;> cases B <;> simp_all [bind, Res.bind, pure]

/-- **C117, closest points of two polylines.** It throws exactly if one is empty. Otherwise the two points are points of the two polylines, the distance reported is theirs up to the relative error `(1+u)(1+v)-1` of a
distance, and no other pair of points is nearer by more than the relative amount `3 (u + v)`. -/
theorem C117_closest {F : Arith} {u v : ℝ} (h : FlOk F u v) (a b : List (Pt ℝ)) :
    (closest F a b = .throw ↔ a = [] ∨ b = []) ∧
    (a ≠ [] → b ≠ [] → ∃ r x y, closest F a b = .ok r ∧ a[r.i]? = some x ∧ b[r.j]? = some y ∧ |r.minDist - eucl x y| ≤ ((1 + u) * (1 + v) - 1) * eucl x y ∧
      ∀ x' ∈ a, ∀ y' ∈ b, eucl x y ≤ (1 + 3 * (u + v)) * eucl x' y') := by
  obtain ⟨h1, h2⟩ := C50_closest (distPt F) a b
  refine ⟨h1, fun ha hb => ?_⟩
  obtain ⟨r, e, hr⟩ := h2 ha hb
  obtain ⟨x, y, hx, hy, hm⟩ := hr.designates
  refine ⟨r, x, y, e, hx, hy, by rw [hm]; exact distPt_err h x y, fun x' hx' y' hy' => distPt_le h ?_⟩
  have := hr.minimal x' hx' y' hy'
  rwa [hm] at this

/-- Two non-empty polylines. -/
example : ([(0, 0), (5, 5)] : List (Pt ℝ)) ≠ [] ∧ ([(1, 0)] : List (Pt ℝ)) ≠ [] := by simp

/-- **C117, the exact nearest point is not always found.** With any precision there are two points with exactly represented coordinates, different from the query, such that the nearest search returns the
farther one (and the farthest search with the order exchanged the nearer one), for all thresholds up to 1. -/
theorem C117_sharp {p : ℕ} (hp : 6 ≤ p) {t : Thr ℝ} (ht : 0 < t.nullDistance) (h1 : t.nullDistance ≤ 1) :
    ∃ q x y : Pt ℝ, (∀ z ∈ [q, x, y], Rep (binary p) z.1 ∧ Rep (binary p) z.2) ∧ ¬ PtSame (binary p) t q x ∧ ¬ PtSame (binary p) t q y ∧ eucl q x < eucl q y ∧
      nearest (binary p) t q [y, x] = .ok 0 ∧ farthest (binary p) t q [x, y] = .ok 0 := by
  obtain ⟨N, hN⟩ : ∃ N : ℝ, (2 : ℝ) ^ (p - 1) = N := ⟨_, rfl⟩
  have hok := binary_ok hp
  obtain ⟨h32, -, r1, -⟩ := far_reps hp hN
  have s1 := far_small hp 1 (by norm_num)
  have s0 := far_small hp 0 (by norm_num)
  push_cast at s0 s1
  obtain ⟨e1, e2⟩ := far_sq hp hN
  have d1 : N + 1 ≤ eucl (0, 0) (N + 1, 0) := by
    unfold eucl
    apply Real.le_sqrt_of_sq_le
    apply le_of_eq; simp only; ring
  have d2 : eucl (0, 0) (N + 1, 0) < eucl (0, 0) (N + 1, 1) := by
    unfold eucl
    apply Real.sqrt_lt_sqrt (by positivity)
    simp only; nlinarith
  have n1 : ¬ PtSame (binary p) t (0, 0) (N + 1, 0) := far_not_same hok t (by linarith) ht
  have n2 : ¬ PtSame (binary p) t (0, 0) (N + 1, 1) := far_not_same hok t (by linarith) ht
  have b1 : sameB (binary p) t (N + 1, 0) (0, 0) = false := by rw [sameB_comm hok]; exact sameB_false.2 n1
  have b2 : sameB (binary p) t (N + 1, 1) (0, 0) = false := by rw [sameB_comm hok]; exact sameB_false.2 n2
  refine ⟨(0, 0), (N + 1, 0), (N + 1, 1), ?_, n1, n2, d2, ?_, ?_⟩
  · intro z hz
    simp only [List.mem_cons, List.not_mem_nil, or_false] at hz
    rcases hz with rfl | rfl | rfl
    · exact ⟨s0, s0⟩
    · exact ⟨r1, s0⟩
    · exact ⟨r1, s1⟩
  · simp [nearest, Search.findNearestPoint, Search.findPoint, Search.findLoop, b2, e1, e2, Search.better]
  · simp [farthest, Search.findFarthestPoint, Search.findPoint, Search.findLoop, b1, e1, e2, Search.better]

/-- The default threshold. -/
example : 0 < stdR.nullDistance ∧ stdR.nullDistance ≤ 1 := ⟨by norm_num [stdR], by norm_num [stdR]⟩

end H2d.Props
