import Verif.Model.Construct
import Verif.Spec.Construct
import Verif.Lemmas.RectMore

/-! # Lemmas on regular polygons and parallelograms -/

set_option linter.unusedSimpArgs false
set_option linter.unusedVariables false

namespace H2d.Build
open H2d H2d.Spec H2d.Props Real

theorem rot_eucl (a : ℝ) (p : Pt ℝ) : eucl p (rotOrigin a p) = 2 * |sin (a / 2)| * eucl (0, 0) p := by
  rw [eucl_eq_iff (by have := eucl_nonneg (0, 0) p; positivity), mul_pow, mul_pow, sq_abs, eucl_sq]
  unfold rotOrigin
  have h1 : cos a = 1 - 2 * sin (a / 2) ^ 2 := by
    have := cos_two_mul (a / 2)
    rw [cos_sq', show 2 * (a / 2) = a by ring] at this; linarith
  have h2 := sin_sq_add_cos_sq a
  simp only
  rw [show sin (a / 2) ^ 2 = (1 - cos a) / 2 by rw [h1]; ring]
  linear_combination (p.1 ^ 2 + p.2 ^ 2) * h2

theorem regPoint_zero (rad : ℝ) (n : ℕ) : regPoint rad n 0 = (rad, 0) := by simp [regPoint]

theorem regPoint_succ (rad : ℝ) (n i : ℕ) : regPoint rad n (i + 1) = rotOrigin (2 * π / n) (regPoint rad n i) := by
  unfold regPoint rotOrigin
  simp only
  rw [show 2 * π / n * ((i + 1 : ℕ) : ℝ) = 2 * π / n + 2 * π / n * i by push_cast; ring, cos_add, sin_add]
  apply Prod.ext <;> simp only <;> ring

theorem regPoint_last (rad : ℝ) {n : ℕ} (hn : 0 < n) : regPoint rad n n = regPoint rad n 0 := by
  rw [regPoint_zero]
  unfold regPoint
  have : (n : ℝ) ≠ 0 := by positivity
  simp only
  rw [div_mul_cancel₀ _ this]; simp

theorem regPoint_eucl {rad : ℝ} (hr : 0 ≤ rad) (n i : ℕ) : eucl (0, 0) (regPoint rad n i) = rad := by
  rw [eucl_eq_iff hr]
  unfold regPoint; simp only
  linear_combination rad ^ 2 * sin_sq_add_cos_sq (2 * π / n * i)

theorem regPoint_dist {rad : ℝ} (hr : 0 ≤ rad) {n : ℕ} (hn : 1 ≤ n) (i : ℕ) : eucl (regPoint rad n i) (regPoint rad n (i + 1)) = 2 * rad * sin (π / n) := by
  have hn' : (1 : ℝ) ≤ n := by exact_mod_cast hn
  rw [regPoint_succ, rot_eucl, regPoint_eucl hr, show 2 * π / n / 2 = π / n by ring,
    abs_of_nonneg (sin_nonneg_of_nonneg_of_le_pi (by positivity) (div_le_self pi_pos.le hn'))]
  ring

/-- Edges of the closed polygon of the points `f 0, ..., f (n-1)`. -/
theorem edges_range {P : Type} (f : ℕ → P) {n : ℕ} (h : f n = f 0) {e : P × P} (he : e ∈ polyEdges ((List.range n).map f)) :
    ∃ i < n, e = (f i, f (i + 1)) := by
  unfold polyEdges at he
  obtain ⟨i, hi, rfl⟩ := List.getElem_of_mem he
  rw [List.length_zip, List.length_rotate, List.length_map, List.length_range, min_self] at hi
  refine ⟨i, hi, ?_⟩
  rw [List.getElem_zip, List.getElem_rotate]
  simp only [List.getElem_map, List.getElem_range, List.length_map, List.length_range, Prod.mk.injEq, true_and]
  by_cases h1 : i + 1 = n
  · rw [h1, Nat.mod_self, h]
  · rw [Nat.mod_eq_of_lt (by omega)]

theorem range_edges {P : Type} (f : ℕ → P) {n : ℕ} (h : f n = f 0) {i : ℕ} (hi : i < n) : (f i, f (i + 1)) ∈ polyEdges ((List.range n).map f) := by
  unfold polyEdges
  rw [List.mem_iff_getElem]
  refine ⟨i, by simpa using hi, ?_⟩
  rw [List.getElem_zip, List.getElem_rotate]
  simp only [List.getElem_map, List.getElem_range, List.length_map, List.length_range, Prod.mk.injEq, true_and]
  by_cases h1 : i + 1 = n
  · rw [h1, Nat.mod_self, h]
  · rw [Nat.mod_eq_of_lt (by omega)]

theorem polySet_range {same : Pt ℝ → Pt ℝ → Bool} (f : ℕ → Pt ℝ) {n : ℕ} (hn : 2 ≤ n) (h : f n = f 0) (hs : ∀ i < n, same (f i) (f (i + 1)) = false)
    (hc : ∀ p q, same p q = same q p) : polySet same ((List.range n).map f) = .ok ((List.range n).map f) := by
  unfold polySet
  rw [if_pos]
  obtain ⟨m, rfl⟩ : ∃ m, n = m + 2 := ⟨n - 2, by omega⟩
  have e : (List.range (m + 2)).map f = f 0 :: (List.range (m + 1)).map (fun i => f (i + 1)) := by
    rw [List.range_succ_eq_map]; simp
  have e' : (List.range (m + 1)).map (fun i => f (i + 1)) = f 1 :: (List.range m).map (fun i => f (i + 2)) := by
    rw [List.range_succ_eq_map]; simp
  have hl : ((List.range (m + 1)).map (fun i => f (i + 1))).getLastD (f 0) = f (m + 1) := by
    rw [List.range_succ]; simp
  have ho : ∀ s ∈ openPairs ((List.range (m + 2)).map f), same s.1 s.2 = false := by
    intro s hs'
    unfold openPairs at hs'
    obtain ⟨i, hi, rfl⟩ := List.getElem_of_mem hs'
    rw [List.length_zip, List.length_tail, List.length_map, List.length_range] at hi
    rw [List.getElem_zip, List.getElem_tail]
    simp only [List.getElem_map, List.getElem_range]
    exact hs i (by omega)
  rw [e] at ho ⊢
  rw [e'] at ho ⊢
  unfold checkInput
  rw [e'] at hl
  simp only [Bool.and_eq_true, List.all_eq_true, Bool.not_eq_true']
  refine ⟨ho, ?_⟩
  rw [hl, hc, ← h]
  exact hs (m + 1) (by omega)

theorem third_cos {n : ℕ} (hn : 3 ≤ n) : 1 / 2 ≤ cos (π / n) := by
  rw [← cos_pi_div_three]
  have h3 : (3 : ℝ) ≤ n := by exact_mod_cast hn
  have := pi_pos
  apply cos_le_cos_of_nonneg_of_le_pi (by positivity) (by linarith)
  gcongr

theorem third_sin {n : ℕ} (hn : 3 ≤ n) : 0 < sin (π / n) := by
  have h3 : (3 : ℝ) ≤ n := by exact_mod_cast hn
  have := pi_pos
  apply sin_pos_of_pos_of_lt_pi (by positivity)
  rw [div_lt_iff₀ (by positivity)]; nlinarith

theorem lineOfPt_spec {t : Thr ℝ} {p : Pt ℝ} (h : dblEps < eucl (0, 0) p) (hs : GoodSlope t (0, 0) p) :
    ∃ l, lineOfPt t p = .ok l ∧ UnitNormal l ∧ On l p ∧ On l (0, 0) := by
  have hp := isFin_mkPt p.1 p.2
  have hq := isFin_mkPt (0 : ℝ) 0
  have e3 := crossProd_norm hp hq
  rw [getXY_mkPt, getXY_mkPt] at e3
  have e4 : |mkPt p.1 p.2 2 * mkPt (0 : ℝ) 0 2| = 1 := by simp [mkPt]
  rw [e4, one_mul, eucl_comm] at e3
  have hd : 0 < eucl (0, 0) p := lt_trans dblEps_pos h
  obtain ⟨r, e5⟩ : ∃ r, normalizeLine t (crossProd (mkPt p.1 p.2) (mkPt 0 0)) = .ok r :=
    ⟨_, normalizeLine_eq t _ (by rw [e3]; exact h)⟩
  have hz := normalizeLine_zero e5
  rw [e3, crossProd_zero hp hq, e4, one_mul, getXY_mkPt, getXY_mkPt] at hz
  refine ⟨r, e5, (normalizeLine_norm e5).1, ?_⟩
  have hb : r 0 = 0 ∨ t.nullDenom ≤ r 0 := by
    rcases hs with hs | hs
    · left; simp only at hs; simp only [← hs] at hz; simpa using hz
    · right; rw [hz, le_div_iff₀ hd, abs_sub_comm]; exact hs
  have hsame := normalizeLine_same e5 hb
  rw [← onLine_mkPt, ← onLine_mkPt]
  exact ⟨(OnLine_sameLine hsame).1 (crossProd_inc1 _ _), (OnLine_sameLine hsame).1 (crossProd_inc2 _ _)⟩

theorem regPoint_one (rad : ℝ) (n : ℕ) : regPoint rad n 1 = (rad * (1 - 2 * sin (π / n) ^ 2), rad * (2 * sin (π / n) * cos (π / n))) := by
  unfold regPoint
  have h : 2 * π / n * ((1 : ℕ) : ℝ) = 2 * (π / n) := by push_cast; ring
  simp only
  rw [h, cos_two_mul, sin_two_mul, cos_sq']
  apply Prod.ext <;> simp only <;> ring

theorem center_fix (p q : Pt ℝ) : segCenter (fixOrder p q) = ((p.1 + q.1) / 2, (p.2 + q.2) / 2) := by
  rcases Pip.fixOrder_cases p q with hx | hx <;> rw [hx]
  · rfl
  · unfold segCenter; simp only [Prod.swap]; apply Prod.ext <;> simp only <;> ring

theorem regPoly_spec {t : Thr ℝ} (h1 : 4 * dblEps < t.nullDistance) (h2 : 0 < t.nullAngleValue) (h3 : t.nullAngleValue ≤ π / 2) (h4 : t.nullDenom ≤ 1 / 2)
    {rad : ℝ} (hr : 0 < rad) {n : ℕ} (hn : 3 ≤ n) (hd : t.nullDistance ≤ 2 * rad * sin (π / n)) (hs : t.nullDenom ≤ sin (π / n)) :
    regPoly t rad n = .ok ((List.range n).map (regPoint rad n), 2 * rad * sin (π / n), rad * cos (π / n)) := by
  have he := dblEps_pos
  have hc := third_cos hn
  have hsn := third_sin hn
  have hsc := sin_sq_add_cos_sq (π / n)
  have hs1 := sin_le_one (π / n)
  unfold regPoly
  rw [if_neg (by omega), if_neg (not_le.2 hr)]
  simp only [Int.toNat_natCast]
  have d01 : eucl (rad, 0) (regPoint rad n 1) = 2 * rad * sin (π / n) := by
    rw [← regPoint_zero rad n]; exact regPoint_dist hr.le (by omega) 0
  rw [segMake_eq false (by rw [d01]; exact hd)]
  simp only [Bool.false_eq_true, if_false, Res.bind_ok]
  rw [center_fix]
  have em : ((((rad, 0) : Pt ℝ).1 + (regPoint rad n 1).1) / 2, (((rad, 0) : Pt ℝ).2 + (regPoint rad n 1).2) / 2) =
      (rad * cos (π / n) * cos (π / n), rad * cos (π / n) * sin (π / n)) := by
    rw [regPoint_one]; apply Prod.ext <;> simp only
    · linear_combination (-rad) * hsc
    · ring
  rw [em]
  have dm : eucl (0, 0) (rad * cos (π / n) * cos (π / n), rad * cos (π / n) * sin (π / n)) = rad * cos (π / n) := by
    rw [eucl_eq_iff (by positivity)]; simp only; linear_combination (rad ^ 2 * cos (π / n) ^ 2) * hsc
  have hrc : dblEps < rad * cos (π / n) := by nlinarith
  obtain ⟨l, e1, e2, e3, e4⟩ := lineOfPt_spec (t := t) (p := (rad * cos (π / n) * cos (π / n), rad * cos (π / n) * sin (π / n)))
    (by rw [dm]; exact hrc)
    (by
      right; rw [dm]; simp only
      rw [abs_sub_comm, sub_zero, abs_of_nonneg (by positivity)]
      nlinarith)
  rw [e1]
  simp only [Res.bind_ok]
  have hl2 : l 2 = 0 := by unfold On at e4; simpa using e4
  have hperp : l 0 * cos (π / n) + l 1 * sin (π / n) = 0 := by
    unfold On at e3; rw [hl2] at e3; simp only at e3
    have : rad * cos (π / n) * (l 0 * cos (π / n) + l 1 * sin (π / n)) = 0 := by linarith
    rcases mul_eq_zero.1 this with h | h
    · nlinarith
    · exact h
  have gs : GoodSeg t (fixOrder (rad, 0) (regPoint rad n 1)) := by
    refine Inside.goodSeg_fix (e := ((rad, 0), regPoint rad n 1)) ⟨by rw [d01]; exact hd, Or.inr ?_⟩
    simp only [d01]
    rw [regPoint_one]; simp only
    rw [abs_sub_comm, sub_zero, abs_of_nonneg (by positivity)]
    nlinarith [mul_pos hr hsn]
  have ha : lineSegAngle l (fixOrder (rad, 0) (regPoint rad n 1)) = π / 2 := by
    have := RectM.lineSegAngle_fix l ((rad, 0), regPoint rad n 1)
    simp only at this
    rw [this]
    unfold lineSegAngle
    simp only
    rw [regPoint_one]; simp only
    rw [show l 1 * (rad * (1 - 2 * sin (π / n) ^ 2) - rad) - l 0 * (rad * (2 * sin (π / n) * cos (π / n)) - 0) = 0 by
      linear_combination (-2 * rad * sin (π / n)) * hperp]
    simp
  have hal : along (fixOrder (rad, 0) (regPoint rad n 1)) (1 / 2) = (rad * cos (π / n) * cos (π / n), rad * cos (π / n) * sin (π / n)) := by
    rw [← em]
    rcases Pip.fixOrder_cases (rad, 0) (regPoint rad n 1) with hx | hx <;> rw [hx] <;> unfold along <;> simp only [Prod.swap] <;>
      apply Prod.ext <;> simp only <;> ring
  have hpos : 0 < eucl (fixOrder (rad, 0) (regPoint rad n 1)).1 (fixOrder (rad, 0) (regPoint rad n 1)).2 := by linarith [gs.1]
  rw [RectM.segLine_at (k := 1 / 2) (by linarith) h2 gs e2 (by rw [ha]; exact h3) (by rw [hal]; exact e3) (by nlinarith) (by nlinarith), hal]
  simp only [Res.bind_ok]
  rw [ptDist_eucl, dm, polySet_range (regPoint rad n) (by omega) (regPoint_last rad (by omega))]
  · simp only [Res.bind_ok, getPoint]
    have g0 : ((List.range n).map (regPoint rad n))[0]? = some (regPoint rad n 0) := by
      rw [List.getElem?_map, List.getElem?_range (by omega)]; rfl
    have g1 : ((List.range n).map (regPoint rad n))[1]? = some (regPoint rad n 1) := by
      rw [List.getElem?_map, List.getElem?_range (by omega)]; rfl
    rw [g0, g1]
    simp only [Res.bind_ok, Res.pure_eq]
    rw [ptDist_eucl, regPoint_dist hr.le (by omega) 0]
  · intro i _
    simp only [decide_eq_false_iff_not, PtEq, ptDist_eucl]
    rw [regPoint_dist hr.le (by omega)]; exact not_lt.2 hd
  · intro p q; simp only [PtEq, ptDist_eucl, eucl_comm p q]

/-- The vertices are all on the left of each edge. -/
theorem cos_odd_le {n : ℕ} (hn : 3 ≤ n) (i j : ℕ) (hi : i < n) (hj : j < n) : cos (2 * π / n * j - 2 * π / n * i - π / n) ≤ cos (π / n) := by
  have h3 : (3 : ℝ) ≤ n := by exact_mod_cast hn
  have hp := pi_pos
  have key : ∀ m : ℝ, 1 ≤ m → m ≤ 2 * n - 1 → cos (m * (π / n)) ≤ cos (π / n) := by
    intro m m1 m2
    have hd : 0 < π / n := by positivity
    have hdn : π / n * n = π := by field_simp
    by_cases h : m ≤ n
    · apply cos_le_cos_of_nonneg_of_le_pi hd.le
      · nlinarith
      · nlinarith
    · push Not at h
      rw [← cos_two_pi_sub]
      apply cos_le_cos_of_nonneg_of_le_pi hd.le
      · nlinarith
      · nlinarith
  have hjn : (j : ℝ) + 1 ≤ n := by exact_mod_cast hj
  have hin : (i : ℝ) + 1 ≤ n := by exact_mod_cast hi
  have hj0 : (0 : ℝ) ≤ j := by positivity
  have hi0 : (0 : ℝ) ≤ i := by positivity
  rcases Nat.lt_or_ge i j with h | h
  · have h' : (i : ℝ) + 1 ≤ j := by exact_mod_cast h
    rw [show 2 * π / n * j - 2 * π / n * i - π / n = (2 * j - 2 * i - 1) * (π / n) by ring]
    exact key _ (by linarith) (by linarith)
  · have h' : (j : ℝ) ≤ i := by exact_mod_cast h
    rw [← cos_neg, show -(2 * π / n * j - 2 * π / n * i - π / n) = (2 * i - 2 * j + 1) * (π / n) by ring]
    exact key _ (by linarith) (by linarith)

theorem edge_side (rad : ℝ) (n i j : ℕ) :
    ((regPoint rad n (i + 1)).1 - (regPoint rad n i).1) * ((regPoint rad n j).2 - (regPoint rad n i).2) -
      ((regPoint rad n (i + 1)).2 - (regPoint rad n i).2) * ((regPoint rad n j).1 - (regPoint rad n i).1) =
    2 * rad ^ 2 * sin (π / n) * (cos (π / n) - cos (2 * π / n * j - 2 * π / n * i - π / n)) := by
  have e1 : 2 * π / n * ((i + 1 : ℕ) : ℝ) = (2 * π / n * i + π / n) + π / n := by push_cast; ring
  have e2 : 2 * π / n * (i : ℝ) = (2 * π / n * i + π / n) - π / n := by ring
  have e3 : 2 * π / n * j - 2 * π / n * i - π / n = 2 * π / n * j - (2 * π / n * i + π / n) := by ring
  unfold regPoint
  simp only
  rw [e1, e3]
  generalize hA : 2 * π / n * (i : ℝ) + π / n = A at *
  generalize 2 * π / n * (j : ℝ) = B
  rw [show 2 * π / n * (i : ℝ) = A - π / n by linarith]
  generalize π / n = D
  rw [cos_add, sin_add, cos_sub, sin_sub, cos_sub]
  have hA := sin_sq_add_cos_sq A
  linear_combination (2 * rad ^ 2 * sin D * cos D) * hA

theorem edge_dist {rad : ℝ} (hr : 0 < rad) {n : ℕ} (hn : 3 ≤ n) (i : ℕ) :
    IsLeast {d | ∃ q, OnSeg (regPoint rad n i) (regPoint rad n (i + 1)) q ∧ eucl (0, 0) q = d} (rad * cos (π / n)) := by
  have hc := third_cos hn
  have hsc := sin_sq_add_cos_sq (π / n)
  have key : ∀ k : ℝ, eucl (0, 0) ((regPoint rad n i).1 + k * ((regPoint rad n (i + 1)).1 - (regPoint rad n i).1),
      (regPoint rad n i).2 + k * ((regPoint rad n (i + 1)).2 - (regPoint rad n i).2)) ^ 2 =
      rad ^ 2 * (cos (π / n) ^ 2 + (1 - 2 * k) ^ 2 * sin (π / n) ^ 2) := by
    intro k
    rw [eucl_sq]
    have e1 : 2 * π / n * ((i + 1 : ℕ) : ℝ) = (2 * π / n * i + π / n) + π / n := by push_cast; ring
    unfold regPoint
    simp only
    rw [e1]
    generalize hA : 2 * π / n * (i : ℝ) + π / n = A at *
    rw [show 2 * π / n * (i : ℝ) = A - π / n by linarith]
    generalize π / n = D
    rw [cos_add, sin_add, cos_sub, sin_sub]
    have hA := sin_sq_add_cos_sq A
    linear_combination (rad ^ 2 * (cos D ^ 2 + (1 - 2 * k) ^ 2 * sin D ^ 2)) * hA
  constructor
  · refine ⟨_, ⟨1 / 2, by norm_num, by norm_num, rfl⟩, ?_⟩
    rw [eucl_eq_iff (by positivity), ← eucl_sq, key]; ring
  · rintro d ⟨q, ⟨k, k0, k1, rfl⟩, rfl⟩
    refine (sq_le_sq₀ (by positivity) (eucl_nonneg _ _)).1 ?_
    rw [key]
    have : 0 ≤ rad ^ 2 * ((1 - 2 * k) ^ 2 * sin (π / n) ^ 2) := by positivity
    nlinarith

/-- The last point of `setParallelogram`, from the two lines. -/
theorem parallelogram_of {t : Thr ℝ} (h1 : dblEps < t.nullDistance) (h2 : 0 < t.nullAngleValue) {p1 p2 p3 q : Pt ℝ} (d1 : t.nullDistance ≤ eucl p1 p2)
    (d2 : t.nullDistance ≤ eucl p3 p2) {l m : V3 ℝ} (hl : segLine t (p1, p2) = .ok l) (hm : segLine t (p3, p2) = .ok m) (nl : NormLine t l) (nm : NormLine t m)
    (ha : t.nullAngleValue ≤ lineAngle l m) (q1 : l 0 * q.1 + l 1 * q.2 = l 0 * p3.1 + l 1 * p3.2) (q2 : m 0 * q.1 + m 1 * q.2 = m 0 * p1.1 + m 1 * p1.2)
    (d3 : t.nullDistance ≤ eucl p3 q) (d4 : t.nullDistance ≤ eucl p1 q) : parallelogram t p1 p2 p3 = .ok [p1, p2, p3, q] := by
  obtain ⟨l', e1, e2, e3, e4, e5, e6⟩ := C05_through t l nl p3
  obtain ⟨m', f1, f2, f3, f4, f5, f6⟩ := C05_through t m nm p1
  have hang : lineAngle l' m' = lineAngle l m := by unfold lineAngle angleCos; rw [e5, e6, f5, f6]
  obtain ⟨g1, -, -, g4⟩ := lineInter_spec h2 e4 f4 (show ¬ IsParallel t l' m' by rw [IsParallel, hang]; exact not_lt.2 ha)
  have hq := g4 q (by unfold On at e2 ⊢; rw [e5, e6] at e2 ⊢; linarith) (by unfold On at f2 ⊢; rw [f5, f6] at f2 ⊢; linarith)
  have hl' : lineOfPts t (mkPt p1.1 p1.2) (mkPt p2.1 p2.2) = .ok l := hl
  have hm' : lineOfPts t (mkPt p3.1 p3.2) (mkPt p2.1 p2.2) = .ok m := hm
  unfold parallelogram
  rw [hl', hm']
  simp only [Res.bind_ok]
  rw [e1, f1]
  simp only [Res.bind_ok]
  rw [g1]
  simp only [Res.bind_ok, ← hq]
  unfold polySet
  rw [if_pos]
  rw [eucl_comm p3 p2] at d2
  simp [checkInput, openPairs, PtEq, ptDist_eucl, d1, d2, d3, d4]

theorem parallelogram_throw {t : Thr ℝ} {p1 p2 p3 : Pt ℝ} (h : eucl p1 p2 < t.nullDistance ∨ eucl p3 p2 < t.nullDistance) : parallelogram t p1 p2 p3 = .throw := by
  unfold parallelogram
  by_cases h1 : eucl p1 p2 < t.nullDistance
  · rw [show lineOfPts t (mkPt p1.1 p1.2) (mkPt p2.1 p2.2) = .throw by
      unfold lineOfPts; rw [getXY_mkPt, getXY_mkPt, if_pos (by rw [PtEq, ptDist_eucl]; exact h1)]]
    rfl
  · have h2 := h.resolve_left h1
    rcases hr : lineOfPts t (mkPt p1.1 p1.2) (mkPt p2.1 p2.2) with b | _ | _
    · simp only [Res.bind_ok]
      rw [show lineOfPts t (mkPt p3.1 p3.2) (mkPt p2.1 p2.2) = .throw by
        unfold lineOfPts; rw [getXY_mkPt, getXY_mkPt, if_pos (by rw [PtEq, ptDist_eucl]; exact h2)]]
      rfl
    · rfl
    · exfalso
      unfold lineOfPts at hr
      split_ifs at hr
      exact normalizeLine_not_ub _ _ hr

end H2d.Build
