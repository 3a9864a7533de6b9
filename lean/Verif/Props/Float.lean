import Verif.Lemmas.FloatExact
import Verif.Props.Search
import Mathlib.Tactic.NormNum.BigOperators

/-!
# C101–C103: distances, lengths and areas with rounded operations

`u` is the relative error of an operation, `v` of `std::hypot`; for `double`, `u = v = 2^-53`.
-/

namespace H2d.Props

open H2d.Spec H2d.Fl

/-- The arithmetic of `double` (53 bits, nearest, ties to even) meets the hypotheses of all the theorems of this file. -/
example : FlOk (binary 53) ((2 : ℝ) ^ (-53 : ℤ)) ((2 : ℝ) ^ (-53 : ℤ)) := binary_ok (by norm_num)

/-! ## C101 -/

/-- **C101, symmetry.** With rounding, the distance between two points is exactly symmetric. -/
theorem C101_symmetric (F : Arith) (u v : ℝ) (h : FlOk F u v) (p q : ℝ × ℝ) : distPt F p q = distPt F q p := distPt_comm h p q

/-- **C101, null distance.** With rounding, the distance is never negative, and it is null exactly when the coordinates are the same. -/
theorem C101_zero (F : Arith) (u v : ℝ) (h : FlOk F u v) (p q : ℝ × ℝ) : 0 ≤ distPt F p q ∧ (distPt F p q = 0 ↔ p = q) := by
  have he := distPt_err h p q
  obtain ⟨k1, k2⟩ := err_small h
  have h0 := eucl_nonneg p q
  rw [abs_le] at he
  refine ⟨by nlinarith [he.1], ?_⟩
  constructor
  · intro e
    rw [← eucl_eq_zero]
    nlinarith [he.1]
  · rintro rfl
    simp [distPt, rnd_zero h, hyp_zero h]

/-- **C101, error.** The relative error of the distance is at most `(1+u)(1+v)-1`. -/
theorem C101_error (F : Arith) (u v : ℝ) (h : FlOk F u v) (p q : ℝ × ℝ) : |distPt F p q - eucl p q| ≤ ((1 + u) * (1 + v) - 1) * eucl p q := distPt_err h p q

/-- **C101, triangle inequality.** It holds up to the relative error. -/
theorem C101_triangle (F : Arith) (u v : ℝ) (h : FlOk F u v) (p q r : ℝ × ℝ) :
    (2 - (1 + u) * (1 + v)) * distPt F p r ≤ (1 + u) * (1 + v) * (distPt F p q + distPt F q r) := by
  obtain ⟨k1, k2⟩ := err_small h
  have a := abs_le.1 (distPt_err h p r)
  have b := abs_le.1 (distPt_err h p q)
  have c := abs_le.1 (distPt_err h q r)
  have t := eucl_triangle p q r
  set k := (1 + u) * (1 + v) - 1 with hk
  have e : (1 + u) * (1 + v) = 1 + k := by rw [hk]; ring
  rw [e]
  have h1 : distPt F p r ≤ (1 + k) * eucl p r := by linarith [a.2]
  have h2 : (1 - k) * eucl p q ≤ distPt F p q := by linarith [b.1]
  have h3 : (1 - k) * eucl q r ≤ distPt F q r := by linarith [c.1]
  have h4 : (1 - k) * distPt F p r ≤ (1 - k) * ((1 + k) * eucl p r) := mul_le_mul_of_nonneg_left h1 (by linarith)
  have h5 : (1 - k) * ((1 + k) * eucl p r) ≤ (1 - k) * ((1 + k) * (eucl p q + eucl q r)) :=
    mul_le_mul_of_nonneg_left (mul_le_mul_of_nonneg_left t (by linarith)) (by linarith)
  have h6 : (1 + k) * ((1 - k) * eucl p q + (1 - k) * eucl q r) ≤ (1 + k) * (distPt F p q + distPt F q r) := mul_le_mul_of_nonneg_left (by linarith) (by linarith)
  nlinarith

/-- **C101, equality of points and points inside circles.** The comparison of a distance with a threshold (null distance, radius) is right as soon as the exact distance is
not closer to the threshold than the relative error. -/
theorem C101_compare (F : Arith) (u v : ℝ) (h : FlOk F u v) (t : Thr ℝ) (p q : ℝ × ℝ) (r : ℝ) :
    ((1 + u) * (1 + v) * eucl p q < r → PtInCirc F p q r) ∧ (r ≤ (2 - (1 + u) * (1 + v)) * eucl p q → ¬ PtInCirc F p q r) ∧
    ((1 + u) * (1 + v) * eucl p q < t.nullDistance → PtSame F t p q) ∧ (t.nullDistance ≤ (2 - (1 + u) * (1 + v)) * eucl p q → ¬ PtSame F t p q) := by
  have a := abs_le.1 (distPt_err h p q)
  refine ⟨fun k => ?_, fun k => ?_, fun k => ?_, fun k => ?_⟩
  · show distPt F p q < r; linarith [a.2]
  · show ¬ distPt F p q < r; linarith [a.1]
  · show distPt F p q < t.nullDistance; linarith [a.2]
  · show ¬ distPt F p q < t.nullDistance; linarith [a.1]

/-- With `double`, (3,4) is inside the circle of radius 5.1 around the origin. -/
example : PtInCirc (binary 53) (3, 4) (0, 0) 5.1 := by
  have e : eucl (3, 4) (0, 0) = 5 := by rw [eucl_eq_iff (by norm_num)]; norm_num
  refine (C101_compare _ _ _ (binary_ok (p := 53) (by norm_num)) stdR (3, 4) (0, 0) 5.1).1 ?_
  rw [e]; norm_num

/-- **C101, nearest point.** With rounding, `findNearestPoint` returns a point whose distance is minimal among the other points up to the relative error of a squared distance. -/
theorem C101_nearest (F : Arith) (u v : ℝ) (h : FlOk F u v) (same : ℝ × ℝ → ℝ × ℝ → Bool) (q : ℝ × ℝ) (cont : List (ℝ × ℝ)) (hsym : ∀ x, same x q = same q x)
    (h0 : ∃ i x, i < 2 ∧ cont[i]? = some x ∧ same q x = false) (hlen : 2 ≤ cont.length) :
    ∃ (i : ℕ) (x : ℝ × ℝ), Search.findNearestPoint (Fl.sqDist F) same q cont = .ok i ∧ cont[i]? = some x ∧ same q x = false ∧
      ∀ y ∈ cont, same q y = false → (2 - (1 + u) ^ 4) * eucl q x ^ 2 ≤ (1 + u) ^ 4 * eucl q y ^ 2 := by
  obtain ⟨i, h1, h2⟩ := C48_nearest_partial (Fl.sqDist F) same q cont hsym h0 hlen
  obtain ⟨x, hx, hs⟩ := h2.other
  refine ⟨i, x, h1, hx, hs, ?_⟩
  intro y hy hsy
  obtain ⟨j, hj⟩ := List.mem_iff_getElem?.1 hy
  have := h2.minimal x j y hx hj hsy
  have a := abs_le.1 (sqDist_err h q x)
  have b := abs_le.1 (sqDist_err h q y)
  linarith [a.1, b.2]

/-- Three points and the query (0,0), which is one of them, with `double`. -/
example : ∃ i x, i < 2 ∧ ([(0, 0), (3, 4), (1, 1)] : List (ℝ × ℝ))[i]? = some x ∧ decide ((0, 0) = x) = false := ⟨1, (3, 4), by norm_num, rfl, by simp⟩

/-! ## C102 -/

/-- **C102, length.** The length of a polyline with `n` segments, computed with rounding, has a relative error of at most `(1+u)^(n+1) (1+v) - 1`. -/
theorem C102_length (F : Arith) (u v : ℝ) (h : FlOk F u v) (closed : Bool) (pts : List (ℝ × ℝ)) :
    |polyLen F closed pts - ((segPairs closed pts).map fun e => eucl e.1 e.2).sum| ≤
      ((1 + u) ^ ((segPairs closed pts).length + 1) * (1 + v) - 1) * ((segPairs closed pts).map fun e => eucl e.1 e.2).sum := by
  have := (sumFl_err h (e := (1 + u) * (1 + v) - 1) (err_small h).1 ((segPairs closed pts).map fun e => (distPt F e.1 e.2, eucl e.1 e.2, eucl e.1 e.2)) (by
    intro x hx
    obtain ⟨e, -, rfl⟩ := List.mem_map.1 hx
    exact ⟨distPt_err h _ _, le_of_eq (abs_of_nonneg (eucl_nonneg _ _))⟩)).1
  simp only [List.map_map, List.length_map] at this
  rw [polyLen_eq]
  refine this.trans (le_of_eq ?_)
  rw [pow_succ]
  congr 1
  ring

/-- **C102, sign.** The computed length is never negative, and it is null exactly when all the segments have null length. -/
theorem C102_zero (F : Arith) (u v : ℝ) (h : FlOk F u v) (closed : Bool) (pts : List (ℝ × ℝ)) :
    0 ≤ polyLen F closed pts ∧ (polyLen F closed pts = 0 ↔ ∀ e ∈ segPairs closed pts, e.1 = e.2) := by
  unfold polyLen
  induction segPairs closed pts using List.reverseRecOn with
  | nil => simp
  | append_singleton l x ih =>
    rw [List.foldl_append]
    simp only [List.foldl_cons, List.foldl_nil, List.mem_append, List.mem_singleton]
    generalize List.foldl (fun s e => F.rnd (s + distPt F e.1 e.2)) 0 l = s at *
    obtain ⟨d0, d1⟩ := C101_zero F u v h x.1 x.2
    refine ⟨rnd_nonneg h (by linarith [ih.1]), ?_⟩
    rw [rnd_eq_zero h]
    constructor
    · intro e
      have e1 : s = 0 := by linarith [ih.1]
      have e2 : distPt F x.1 x.2 = 0 := by linarith [ih.1]
      rintro y (hy | rfl)
      · exact ih.2.1 e1 y hy
      · exact d1.1 e2
    · intro e
      rw [ih.2.2 fun y hy => e y (Or.inl hy), d1.2 (e x (Or.inr rfl)), add_zero]

/-- A closed triangle has three segments. -/
example : (segPairs true ([(0, 0), (3, 0), (0, 4)] : List (ℝ × ℝ))).length = 3 := rfl

/-! ## C103 -/

/-- **C103, area.** Error of the signed area of a polygon of `n` points, computed with rounding: relative to the sum of the absolute values of the products, not to the area. -/
theorem C103_area (F : Arith) (u v : ℝ) (h : FlOk F u v) (pts : List (ℝ × ℝ)) :
    |Fl.signedArea F pts - H2d.signedArea pts| ≤
      ((1 + u) ^ (2 * pts.length + 2) - 1) * (((cycPairs pts).map fun e => |e.1.1 * e.2.2| + |e.1.2 * e.2.1|).sum / 2) := by
  have hlen : (cycPairs pts).length = pts.length := by unfold cycPairs; cases pts <;> simp
  have key := sumFl_err h (e := u) h.u_nonneg ((cycPairs pts).flatMap fun e =>
      [(F.rnd (e.1.1 * e.2.2), e.1.1 * e.2.2, |e.1.1 * e.2.2|), (- F.rnd (e.1.2 * e.2.1), - (e.1.2 * e.2.1), |e.1.2 * e.2.1|)]) (by
    intro x hx
    obtain ⟨e, -, he⟩ := List.mem_flatMap.1 hx
    simp only [List.mem_cons, List.not_mem_nil, or_false] at he
    rcases he with rfl | rfl
    · exact ⟨h.err _, le_rfl⟩
    · refine ⟨?_, by simp⟩
      simp only
      rw [show - F.rnd (e.1.2 * e.2.1) - - (e.1.2 * e.2.1) = - (F.rnd (e.1.2 * e.2.1) - e.1.2 * e.2.1) by ring, abs_neg]
      exact h.err _)
  have e1 : (((cycPairs pts).flatMap fun e => [(F.rnd (e.1.1 * e.2.2), e.1.1 * e.2.2, |e.1.1 * e.2.2|), (- F.rnd (e.1.2 * e.2.1), - (e.1.2 * e.2.1), |e.1.2 * e.2.1|)]).map Prod.fst) =
      (cycPairs pts).flatMap fun e => [F.rnd (e.1.1 * e.2.2), - F.rnd (e.1.2 * e.2.1)] := by rw [List.map_flatMap]; rfl
  have e2 : (((cycPairs pts).flatMap fun e => [(F.rnd (e.1.1 * e.2.2), e.1.1 * e.2.2, |e.1.1 * e.2.2|), (- F.rnd (e.1.2 * e.2.1), - (e.1.2 * e.2.1), |e.1.2 * e.2.1|)]).map fun x => x.2.1).sum =
      2 * H2d.signedArea pts := by
    unfold H2d.signedArea
    induction cycPairs pts with
    | nil => simp
    | cons e l ih =>
      simp only [List.flatMap_cons, List.map_append, List.sum_append, ih, List.map_cons, List.map_nil, List.sum_cons, List.sum_nil]; ring
  have e3 : (((cycPairs pts).flatMap fun e => [(F.rnd (e.1.1 * e.2.2), e.1.1 * e.2.2, |e.1.1 * e.2.2|), (- F.rnd (e.1.2 * e.2.1), - (e.1.2 * e.2.1), |e.1.2 * e.2.1|)]).map fun x => x.2.2).sum =
      ((cycPairs pts).map fun e => |e.1.1 * e.2.2| + |e.1.2 * e.2.1|).sum := by
    induction cycPairs pts with
    | nil => simp
    | cons e l ih =>
      simp only [List.flatMap_cons, List.map_append, List.sum_append, ih, List.map_cons, List.map_nil, List.sum_cons, List.sum_nil]; ring
  have e4 : ((cycPairs pts).flatMap fun e => [(F.rnd (e.1.1 * e.2.2), e.1.1 * e.2.2, |e.1.1 * e.2.2|), (- F.rnd (e.1.2 * e.2.1), - (e.1.2 * e.2.1), |e.1.2 * e.2.1|)]).length =
      2 * pts.length := by
    rw [← hlen]
    induction cycPairs pts with
    | nil => simp
    | cons e l ih => simp only [List.flatMap_cons, List.length_append, ih, List.length_cons, List.length_nil]; ring
  rw [e1, e2, e3, e4, ← area_eq] at key
  unfold Fl.signedArea
  obtain ⟨k1, k2⟩ := key
  generalize List.foldl _ _ (cycPairs pts) = s at *
  generalize ((cycPairs pts).map fun e => |e.1.1 * e.2.2| + |e.1.2 * e.2.1|).sum = A at *
  generalize H2d.signedArea pts = S at *
  have h1 : |s / 2 - S| ≤ ((1 + u) ^ (2 * pts.length) * (1 + u) - 1) * (A / 2) := by
    rw [show s / 2 - S = (s - 2 * S) / 2 by ring, abs_div, abs_two]
    linarith
  have h2 : |S| ≤ A / 2 := by rw [abs_mul, abs_two] at k2; linarith
  have := rnd_near h h1 h2
  refine this.trans (le_of_eq ?_)
  ring

/-- **C103, direction.** When the area is larger than the error, the computed area has the right sign, hence the direction of the polygon is right. -/
theorem C103_sign (F : Arith) (u v : ℝ) (h : FlOk F u v) (pts : List (ℝ × ℝ))
    (hb : ((1 + u) ^ (2 * pts.length + 2) - 1) * (((cycPairs pts).map fun e => |e.1.1 * e.2.2| + |e.1.2 * e.2.1|).sum / 2) < |H2d.signedArea pts|) :
    (0 < Fl.signedArea F pts ↔ 0 < H2d.signedArea pts) ∧ (Fl.signedArea F pts < 0 ↔ H2d.signedArea pts < 0) :=
  sign_of_err (C103_area F u v h pts) hb

/-- The square (1,1) (2,1) (2,2) (1,2) with `double`. -/
example : ((1 + (2 : ℝ) ^ (-53 : ℤ)) ^ (2 * ([(1, 1), (2, 1), (2, 2), (1, 2)] : List (ℝ × ℝ)).length + 2) - 1) *
    (((cycPairs ([(1, 1), (2, 1), (2, 2), (1, 2)] : List (ℝ × ℝ))).map fun e => |e.1.1 * e.2.2| + |e.1.2 * e.2.1|).sum / 2) <
    |H2d.signedArea ([(1, 1), (2, 1), (2, 2), (1, 2)] : List (ℝ × ℝ))| := by
  simp [cycPairs, H2d.signedArea]
  norm_num

/-- **C103, integers.** With `p`-bit numbers, the area of a polygon of `n` points with integer coordinates of absolute value at most `B` is exact if `2 n B² ≤ 2^p`. -/
theorem C103_integers (p : ℕ) (hp : 6 ≤ p) (B : ℤ) (pts : List (ℝ × ℝ)) (hi : ∀ q ∈ pts, IntUpTo B q.1 ∧ IntUpTo B q.2) (hB : 2 * pts.length * B ^ 2 ≤ 2 ^ p) :
    Fl.signedArea (binary p) pts = H2d.signedArea pts := by
  have hlen : (cycPairs pts).length = pts.length := by unfold cycPairs; cases pts <;> simp
  have h := binary_ok hp
  obtain ⟨h1, m, hm, h2⟩ := area_exact (p := p) (by omega) (B := B) (cycPairs pts) (fun e he => by
    obtain ⟨a, b⟩ := mem_cycPairs he
    exact ⟨(hi _ a).1, (hi _ a).2, (hi _ b).1, (hi _ b).2⟩) (by rw [hlen]; exact hB)
  unfold Fl.signedArea
  rw [h1, h.half, h2, binary_rnd, roundTo_int (by omega) (hm.trans (by rw [hlen]; exact hB)), ← h2]
  unfold H2d.signedArea
  congr 2

/-- Four points with coordinates up to 10⁶, with `double`. -/
example : 2 * (([(0, 0), (1000000, 3), (999999, 1000000), (-1, 1)] : List (ℝ × ℝ)).length : ℤ) * 1000000 ^ 2 ≤ 2 ^ 53 := by norm_num

/-- **C103, the bound is needed.** Whatever the number of bits, there is a square with integer coordinates, all exactly represented, of area 1, whose computed area is null.
With `double` its corner is (2^52,2^52). -/
theorem C103_sharp (p : ℕ) (hp : 6 ≤ p) : ∃ pts : List (ℝ × ℝ), (∀ q ∈ pts, Rep (binary p) q.1 ∧ Rep (binary p) q.2) ∧ H2d.signedArea pts = 1 ∧ Fl.signedArea (binary p) pts = 0 := by
  have h4 := four_le_int (p := p) (by omega)
  have hpp := pow_pred_int (p := p) (by omega)
  have key := rnd_multiple (p := p) (by omega)
  have hsq := rnd_succ_sq (p := p) (by omega)
  have i0 : (binary p).rnd 0 = 0 := roundTo_zero
  have i1 : (binary p).rnd (2 ^ (p - 1)) = 2 ^ (p - 1) := by
    have := roundTo_int (p := p) (by omega) (m := 2 ^ (p - 1)) (by rw [abs_of_pos (by positivity)]; omega)
    push_cast at this; exact this
  have i2 : (binary p).rnd (2 ^ (p - 1) + 1) = 2 ^ (p - 1) + 1 := by
    have := roundTo_int (p := p) (by omega) (m := 2 ^ (p - 1) + 1) (by rw [abs_of_pos (by positivity)]; omega)
    push_cast at this; exact this
  have hN : ((2 ^ (p - 1) : ℤ) : ℝ) = 2 ^ (p - 1) := by push_cast; rfl
  have k0 := key (2 ^ (p - 1)) (by rw [abs_of_pos (by positivity)]; omega)
  have k1 := key (2 ^ (p - 1) + 1) (by rw [abs_of_pos (by positivity)]; omega)
  have k2 := key (2 ^ (p - 1) + 2) (by rw [abs_of_pos (by positivity)]; omega)
  have k3 := key (-1) (by rw [abs_neg, abs_one]; omega)
  push_cast at k0 k1 k2 k3
  generalize (2 : ℝ) ^ (p - 1) = N at *
  refine ⟨[(N, N), (N + 1, N), (N + 1, N + 1), (N, N + 1)], ?_, ?_, ?_⟩
  · simp [Rep, i1, i2]
  · simp [H2d.signedArea, cycPairs]; ring
  · simp only [Fl.signedArea, cycPairs, List.tail_cons, List.take_succ_cons, List.take_zero, List.cons_append, List.nil_append, List.zip_cons_cons, List.zip_nil_right,
      List.foldl_cons, List.foldl_nil, zero_add]
    rw [k0, k0, mul_comm N (N + 1), k1, show N * N - (N + 1) * N = -1 * N by ring, k3, hsq, show -1 * N + N * (N + 2) = (N + 1) * N by ring, k1, sub_self, i0, zero_add,
      show N * (N + 2) = (N + 2) * N by ring, k2, show (N + 2) * N - (N + 1) * N = N by ring, i1, show N + N * N = (N + 1) * N by ring, k1, sub_self, i0, zero_div, i0]

end H2d.Props
