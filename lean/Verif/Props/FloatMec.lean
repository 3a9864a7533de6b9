import Verif.Lemmas.FloatMec
import Verif.Lemmas.Float

/-! # Circles from a container of points with rounded arithmetic: C142 -/

namespace H2d.Props

open H2d H2d.Fl H2d.Spec

/-- **C142, no access out of range.** Circle from a container of any number of points (possibly all the same, or collinear): whatever the rounding, the thresholds, and the random values, the constructor gives a circle or
throws; it never reads or writes outside the vector it copies the points to. -/
theorem C142_safe (F : Arith) (t : Thr ℝ) (ac : ℝ → ℝ) (rnd : ℕ → ℕ) (pts : List (Pt ℝ)) : Fl.circleOfPts F t ac rnd pts ≠ .ub := circleOfPts_safe F t ac rnd pts

/-- **C142, two or three of the points.** Whatever the rounding and the random values, the circle that comes out is the one that the two points constructor, or the three points constructor, builds from points of the container
(each one used at most as many times as it appears there). -/
theorem C142_points (F : Arith) (hyp : ∀ a b, 0 ≤ F.hyp a b) (t : Thr ℝ) (ac : ℝ → ℝ) (rnd : ℕ → ℕ) (pts : List (Pt ℝ)) (c : Option Circle) (h : Fl.circleOfPts F t ac rnd pts = .ok c) :
    FromPoints F t ac pts c := circleOfPts_from F t ac hyp rnd pts c h

/-- **C142, random draws.** Whatever the computation of small circles, the test of a point inside a circle and the random values: the search ends after at most `n + n(n-1)/2 + n(n-1)(n-2)/6` random draws for `n` points, and
the vector holds the same points at the end, in another order. -/
theorem C142_draws {P C : Type} (triv : List P → Res C) (inside : P → C → Bool) (rnd : ℕ → ℕ) (htriv : ∀ R, triv R ≠ .ub) (V : List P) :
    (welzlG triv inside rnd V.length 0 V []).2.2 ≤ V.length.choose 1 + V.length.choose 2 + V.length.choose 3 ∧ (welzlG triv inside rnd V.length 0 V []).2.1.Perm V := by
  have h := welzlG_spec triv inside rnd htriv V.length 0 V [] le_rfl (by simp)
  have hp := h.1.append_right (List.drop V.length (welzlG triv inside rnd V.length 0 V []).2.1)
  rw [List.take_append_drop, h.2.1, List.take_length, List.drop_length, List.append_nil] at hp
  refine ⟨?_, hp⟩
  have := h.2.2.2.2
  rwa [List.length_nil, Nat.sub_zero, maxDraws_three, Nat.zero_add] at this

/-- **C142, this number of draws is reached** if no point is found inside any circle: with such a test the cost is cubic. -/
theorem C142_draws_sharp {P C : Type} (triv : List P → Res C) (rnd : ℕ → ℕ) (htriv : ∀ R, ∃ c, triv R = .ok c) (V : List P) :
    (welzlG triv (fun _ _ => false) rnd V.length 0 V []).2.2 = V.length.choose 1 + V.length.choose 2 + V.length.choose 3 := by
  have := (welzlG_never triv rnd htriv V.length 0 V [] le_rfl (by simp)).2.2
  rwa [List.length_nil, Nat.sub_zero, maxDraws_three, Nat.zero_add] at this

/-- **C142, with real numbers** the model of the other theorems about enclosing circles (C37) is the same search, hence has the same bound. -/
theorem C142_real (t : Thr ℝ) (rnd : ℕ → ℕ) (pts : List (Pt ℝ)) :
    (H2d.welzl t rnd pts.length 0 pts []).1 ≠ .ub ∧ (H2d.welzl t rnd pts.length 0 pts []).2.2 ≤ pts.length.choose 1 + pts.length.choose 2 + pts.length.choose 3 := by
  rw [welzl_eq]
  exact ⟨(welzlG_spec _ _ rnd (minTrivial_ne_ub t) pts.length 0 pts [] le_rfl (by simp)).2.2.1, (C142_draws _ _ rnd (minTrivial_ne_ub t) pts).1⟩

/-- The hypothesis on the distances holds for binary formats. -/
example : ∀ a b, 0 ≤ (binary 53).hyp a b := by
  intro a b
  have h := binary_ok (p := 53) (by norm_num)
  have h1 := (abs_le.1 (h.hypErr a b)).1
  have h2 := mul_nonneg (sub_nonneg.2 (h.v_small.trans (by norm_num : (1:ℝ) / 64 ≤ 1))) (Real.sqrt_nonneg (a ^ 2 + b ^ 2))
  linarith

/-- Four points on a line, computations without rounding error: the circle of the two extreme points, and random values that find it. -/
example (t : Thr ℝ) (ht : t.nullDistance = 1) (ac : ℝ → ℝ) :
    Fl.circleOfPts ⟨id, fun a b => Real.sqrt (a ^ 2 + b ^ 2)⟩ t ac (fun k => if k < 2 then 3 - k else 0) [(0, 0), (4, 0), (1, 0), (2, 0)] = .ok (some ⟨(2, 0), 2⟩) := by
  have h16 : Real.sqrt 16 = 4 := by rw [show (16:ℝ) = 4 ^ 2 by norm_num]; exact Real.sqrt_sq (by norm_num)
  have h4 : Real.sqrt 4 = 2 := by rw [show (4:ℝ) = 2 ^ 2 by norm_num]; exact Real.sqrt_sq (by norm_num)
  have h0 : ∀ x, ¬ Real.sqrt x < 0 := fun x => not_lt.2 (Real.sqrt_nonneg x)
  norm_num [Fl.circleOfPts, welzlG, Fl.minTrivial, inCircle, PtInCirc, distPt, Fl.circle2, PtSame, Fl.segMake, Fl.center, fixOrder, ptLt, h16, h4, h0, ht]

end H2d.Props
