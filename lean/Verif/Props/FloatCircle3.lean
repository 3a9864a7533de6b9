import Verif.Lemmas.FloatCircle3Def

/-! # Circles through points, bisectors and collinear points with rounded arithmetic: C143 -/

namespace H2d.Props

open H2d H2d.Fl H2d.Spec

/-- **C143, two points.** Circle from two points with floating-point coordinates up to `M`: an exception exactly if the points are equal for the library. Otherwise, the center is within `3/2 u M` of the middle, the radius within
`(2 u + v) d` of half of the distance `d`, and both points are on the circle within the sum of these. -/
theorem C143_two {F : Arith} {u v : ℝ} (h : FlOk F u v) {t : Thr ℝ} {M : ℝ} {p q : Pt ℝ} (hp : Rep F p.1 ∧ Rep F p.2) (hq : Rep F q.1 ∧ Rep F q.2) (hM : |p.1| ≤ M ∧ |p.2| ≤ M) (hM' : |q.1| ≤ M ∧ |q.2| ≤ M) :
    (Fl.PtSame F t p q ∧ Fl.circle2 F t p q = .throw) ∨ ∃ c, Fl.circle2 F t p q = .ok c ∧ eucl c.center ((p.1 + q.1) / 2, (p.2 + q.2) / 2) ≤ 3 / 2 * u * M ∧
      |c.radius - eucl p q / 2| ≤ (2 * u + v) * eucl p q ∧ |eucl c.center p - c.radius| ≤ 3 / 2 * u * M + (2 * u + v) * eucl p q ∧ |eucl c.center q - c.radius| ≤ 3 / 2 * u * M + (2 * u + v) * eucl p q :=
  circle2_all h hp hq hM hM'

/-- **C143, bisector (partial).** Two points whose line is horizontal, vertical, or far enough from both: every point `O` of the computed bisector is at the same distance of both points, within `45 u B`, `B` being a bound of all
the coordinates. Missing: nearly horizontal or vertical lines (`C143_false`). -/
theorem C143_bisector_partial {F : Arith} {u v : ℝ} (h : FlOk F u v) {t : Thr ℝ} {p q : Pt ℝ} (hp : Rep F p.1 ∧ Rep F p.2) (hq : Rep F q.1 ∧ Rep F q.2) (hg : Slopes t p q) (hpq : p ≠ q) {B : ℝ}
    (hM : |p.1| ≤ B ∧ |p.2| ≤ B) (hM' : |q.1| ≤ B ∧ |q.2| ≤ B) {m : V3 ℝ} (hm : Fl.segBisector F t (fixOrder p q) = .ok m) {O : Pt ℝ} (hO : |O.1| ≤ B ∧ |O.2| ≤ B) (hon : m 0 * O.1 + m 1 * O.2 + m 2 = 0) :
    |eucl O p - eucl O q| ≤ 45 * u * B := bisector_equidistant h hp hq hg hpq hM hM' hm hO hon

/-- **C143, three points (partial).** Three points with coordinates up to `M`, the sine of each angle being at least `S`, on a circle of center `O` and radius `R`: if the constructor does not throw, the center is within
`130 u (M + R) / S` of `O`, and the radius and the three points are right with a similar error. Missing: pairs of points that are nearly horizontal or vertical (`C143_false`). -/
theorem C143_three_partial {F : Arith} {u v : ℝ} (h : FlOk F u v) {t : Thr ℝ} {ac : ℝ → ℝ} {M R S : ℝ} {p1 p2 p3 O : Pt ℝ} (ht : Three F t M p1 p2 p3) (hS0 : 0 < S) (hSu : 100 * u ≤ S) (hS : SinAtLeast S p1 p2 p3)
    (hne : p1 ≠ p2 ∧ p1 ≠ p3 ∧ p2 ≠ p3) (hO : Through O R p1 p2 p3) {c : Option Circle} (hc : Fl.circle3 F t ac p1 p2 p3 = .ok c) :
    ∃ d, c = some d ∧ eucl d.center O ≤ 130 * u * (M + R) / S ∧ |d.radius - R| ≤ 130 * u * (M + R) / S + 3 * (u + v) * (M + R) ∧
      ∀ p ∈ [p1, p2, p3], |eucl d.center p - d.radius| ≤ 260 * u * (M + R) / S + 3 * (u + v) * (M + R) := circle3_all h ht hS0 hSu hS hne hO hc

/-- **C143, no exception.** Three such points, not too close nor too flat for the precision and the thresholds: not collinear for the library, and the constructor does not throw. -/
theorem C143_defined {F : Arith} {u v : ℝ} (h : FlOk F u v) {t : Thr ℝ} {ac : ℝ → ℝ} {w M L S : ℝ} (ha : AcosOk ac w) {p1 p2 p3 : Pt ℝ} (ht : WideTriangle F t u v w M L S p1 p2 p3) (hS0 : 0 < S) :
    Fl.areCollinear F t p1 p2 p3 = .ok false ∧ ∃ c, Fl.circle3 F t ac p1 p2 p3 = .ok c := ⟨notCollinear h ht, circle3_defined h ha ht hS0⟩

/-- **C143, points of a line (partial).** Three points of a line, the error of the computation being less than the null distance: collinear for the library, and the constructor of the circle throws.
Missing: nearly horizontal lines (`C106_false`). -/
theorem C143_collinear_partial {F : Arith} {u v : ℝ} (h : FlOk F u v) {t : Thr ℝ} (ac : ℝ → ℝ) {M L : ℝ} {p1 p2 p3 : Pt ℝ} (ht : Three F t M p1 p2 p3) (heps : 2 * dblEps ≤ t.nullDistance)
    (hap : L ≤ eucl p1 p2 ∧ L ≤ eucl p1 p3 ∧ L ≤ eucl p2 p3) (hlong : 2 * t.nullDistance ≤ L) (hsharp : 1000 * u * M ^ 2 ≤ L ^ 2) (hprec : 14 * (u + v) * M + 150 * u * M ^ 3 / L ^ 2 < t.nullDistance)
    (hon : OnOneLine p1 p2 p3) : Fl.areCollinear F t p1 p2 p3 = .ok true ∧ Fl.circle3 F t ac p1 p2 p3 = .throw := by
  have e := collinear_true h ht heps hap hlong hsharp hprec hon
  refine ⟨e, ?_⟩
  unfold Fl.circle3
  rw [e]
  rfl

/-- **C143 is false** for nearly horizontal segments, even without any rounding: a point of the bisector of (0,0) and (2^40,1), whose distances to both points differ by more than 1. -/
theorem C143_false : ∃ m O, Fl.segBisector exactArith stdR (fixOrder (0, 0) (2 ^ 40, 1)) = .ok m ∧ m 0 * O.1 + m 1 * O.2 + m 2 = 0 ∧ 1 < |eucl O (0, 0) - eucl O (2 ^ 40, 1)| := by
  obtain ⟨X, hX⟩ : ∃ X : ℝ, X = 2 ^ 40 := ⟨_, rfl⟩
  have hX1 : 1000 ≤ X := by rw [hX]; norm_num
  rw [← hX]
  refine ⟨_, ((X ^ 2 + (X ^ 2 - 1) / 2) / X, X ^ 2), bisector_flat hX, ?_, ?_⟩
  · simp only [Matrix.cons_val_zero, Matrix.cons_val_one, Matrix.cons_val]
    have : 0 < Real.sqrt (X ^ 2 + 1) := Real.sqrt_pos.2 (by positivity)
    field_simp
    ring
  · obtain ⟨Y, hY⟩ : ∃ Y, Y = (X ^ 2 + (X ^ 2 - 1) / 2) / X := ⟨_, rfl⟩
    rw [← hY]
    have hYX : Y * X = X ^ 2 + (X ^ 2 - 1) / 2 := by rw [hY]; field_simp
    have hY0 : 0 ≤ Y := by rw [hY]; apply div_nonneg <;> nlinarith
    have hY2 : Y ≤ 3 / 2 * X := by nlinarith
    have e1 := eucl_sq (Y, X ^ 2) (0, 0)
    have e2 := eucl_sq (Y, X ^ 2) (X, 1)
    simp only at e1 e2
    have b : ∀ {a : ℝ}, 0 ≤ a → a ^ 2 ≤ (3 / 2 * X) ^ 2 + (X ^ 2) ^ 2 → a ≤ 11 / 10 * X ^ 2 := by
      intro a ha hle
      have h2 : 1000 ^ 2 ≤ X ^ 2 := pow_le_pow_left₀ (by norm_num) hX1 2
      refine (sq_le_sq₀ ha (by positivity)).1 ?_
      have : 1000 ^ 2 * X ^ 2 ≤ X ^ 2 * X ^ 2 := mul_le_mul_of_nonneg_right h2 (sq_nonneg X)
      linarith [sq_nonneg X]
    have b1 := b (eucl_nonneg (Y, X ^ 2) (0, 0)) (by rw [e1]; nlinarith)
    have b2 := b (eucl_nonneg (Y, X ^ 2) (X, 1)) (by rw [e2]; nlinarith)
    have hd : (eucl (Y, X ^ 2) (0, 0) - eucl (Y, X ^ 2) (X, 1)) * (eucl (Y, X ^ 2) (0, 0) + eucl (Y, X ^ 2) (X, 1)) = 4 * X ^ 2 - 2 := by
      have : eucl (Y, X ^ 2) (0, 0) ^ 2 - eucl (Y, X ^ 2) (X, 1) ^ 2 = 4 * X ^ 2 - 2 := by rw [e1, e2]; linear_combination 2 * hYX
      linear_combination this
    have n1 := eucl_nonneg (Y, X ^ 2) (0, 0)
    have n2 := eucl_nonneg (Y, X ^ 2) (X, 1)
    by_contra hle
    rw [not_lt] at hle
    have := (abs_le.1 hle).2
    nlinarith

/-- The circle of (0,0), (4,0), (0,3) in `double`: it is found, with the center within 10^-12 of (2, 3/2) and the radius within 10^-12 of 5/2. -/
example : ∃ d, Fl.circle3 (binary 53) stdR Real.arccos (0, 0) (4, 0) (0, 3) = .ok (some d) ∧ eucl d.center (2, 3 / 2) ≤ 1 / 10 ^ 12 ∧ |d.radius - 5 / 2| ≤ 1 / 10 ^ 12 := by
  have hw := demo_wide
  obtain ⟨-, c, hc⟩ := C143_defined (binary_ok (p := 53) (by norm_num)) acosOk_exact hw (by norm_num)
  obtain ⟨d, rfl, h1, h2, -⟩ := C143_three_partial (binary_ok (p := 53) (by norm_num)) hw.toThree (S := 3 / 5) (by norm_num) (by norm_num) hw.sin (by norm_num) (O := (2, 3 / 2)) (R := 5 / 2) (by
    intro p hp
    simp only [List.mem_cons, List.not_mem_nil, or_false] at hp
    rw [eucl_eq_iff (by norm_num)]
    rcases hp with rfl | rfl | rfl <;> norm_num) hc
  exact ⟨d, hc, h1.trans (by norm_num), h2.trans (by norm_num)⟩

/-- The circle of two points: the bound of `C143_two` for (0,0) and (4,0). -/
example : ∃ c, Fl.circle2 (binary 53) stdR (0, 0) (4, 0) = .ok c ∧ |c.radius - 2| ≤ 1 / 10 ^ 14 := by
  have hw := demo_wide
  have d1 : eucl (0, 0) (4, 0) = 4 := by rw [eucl_eq_iff (by norm_num)]; norm_num
  rcases C143_two (binary_ok (p := 53) (by norm_num)) (t := stdR) (M := 4) (p := (0, 0)) (q := (4, 0)) (hw.rep _ (by simp)) (hw.rep _ (by simp)) (by norm_num) (by norm_num) with ⟨h, -⟩ | ⟨c, hc, -, h, -⟩
  · have e := (abs_le.1 (distPt_err (binary_ok (p := 53) (by norm_num)) (0, 0) (4, 0))).1
    rw [d1] at e
    have h' : Fl.distPt (binary 53) (0, 0) (4, 0) < 1 / 10 ^ 10 := h
    exfalso
    norm_num at e
    linarith
  · refine ⟨c, hc, ?_⟩
    rw [d1] at h
    norm_num at h ⊢
    linarith

/-- Its circle. -/
example : Through (2, 3 / 2) (5 / 2) (0, 0) (4, 0) (0, 3) := by
  intro p hp
  simp only [List.mem_cons, List.not_mem_nil, or_false] at hp
  rw [eucl_eq_iff (by norm_num)]
  rcases hp with rfl | rfl | rfl <;> norm_num

/-- Three points of a line. -/
example : OnOneLine (0, 0) (1, 1) (3, 3) ∧ Slopes stdR (0, 0) (1, 1) := by
  refine ⟨⟨1, -1, 0, by norm_num, ?_⟩, ?_⟩
  · intro p hp
    simp only [List.mem_cons, List.not_mem_nil, or_false] at hp
    rcases hp with rfl | rfl | rfl <;> norm_num
  · have e : eucl (0, 0) (1, 1) ≤ 2 := by
      unfold eucl; apply Real.sqrt_le_iff.2; norm_num
    have e0 : 0 < eucl (0, 0) (1, 1) := lt_of_le_of_ne (eucl_nonneg _ _) (Ne.symm fun k => by have := eucl_eq_zero.1 k; norm_num at this)
    have k : (1:ℝ) / 2 ≤ 1 / eucl (0, 0) (1, 1) := one_div_le_one_div_of_le e0 e
    constructor <;> right <;> norm_num [stdR] at k ⊢ <;> linarith

end H2d.Props
