import Verif.Lemmas.PolyState
import Mathlib.Tactic.NormNum
import Mathlib.Tactic.FieldSimp
import Mathlib.Tactic.LinearCombination
import Mathlib.Algebra.Order.Field.Rat

/-!
# C39: attributes of a polyline after any history; C61: centroid
-/

set_option linter.unusedSectionVars false

namespace H2d.Props

open H2d.Spec

variable {K : Type} [Field K] [LinearOrder K] [IsStrictOrderedRing K]

/-- **C39, length, area and simplicity.** After any history of calls on a new object (without undefined behaviour, and without
change through a reference obtained by an earlier call), these queries answer what a new object with the same points would answer. -/
theorem C39_attributes_partial (e : Env K) (he : GoodEnv e) (closed : Bool) (ops : List (POp K)) (s : PState K)
    (hr : ∀ op ∈ ops, POp.isRetained op = false) (h : polyRun e closed {} ops = some s) :
    (qLength e closed s).1 = freshLen e closed s.pts ∧
    (qArea e closed s).1 = freshArea e closed s.pts ∧
    (qSimple e closed s).1 = freshSimple e closed s.pts := by
  have := run_inv he ops (c := true) (PInv.reset []) hr h
  exact ⟨(qLength_spec this).1, (qArea_spec this).1, (qSimple_spec this).1⟩

/-- **C39, centroid.** Same for the centroid, for the histories where no call of `translate()`/`moveTo()` is done after the last of
`rotate()`, `clear()` or change of the points through `getPts()`, or after the start if there is none. Without this
restriction it is false, see `C39_centroid_false`. -/
theorem C39_centroid_partial (e : Env K) (he : GoodEnv e) (closed : Bool) (ops1 ops2 : List (POp K)) (op : POp K) (s : PState K)
    (hop : (∃ r, op = .rotate r) ∨ (∃ r p, op = .rotateRef r p) ∨ (∃ p, op = .edit p) ∨ op = .clear)
    (hr : ∀ op ∈ ops2, POp.isRetained op = false) (hm : ∀ op ∈ ops2, POp.isMove op = false)
    (h : polyRun e closed {} (ops1 ++ op :: ops2) = some s) :
    (qCentroid e closed s).1 = freshCentroid e closed s.pts := by
  rw [polyRun_append, Option.bind_eq_some_iff] at h
  obtain ⟨s1, -, h2⟩ := h
  simp only [polyRun, Option.bind_eq_some_iff] at h2
  obtain ⟨s2, h3, h4⟩ := h2
  have hi := run_inv he ops2 (exec_reset op hop h3) hr h4
  have hf : ops2.any POp.isMove = false := by
    rw [List.any_eq_false]; intro o ho; simp [hm o ho]
  rw [hf] at hi
  exact qCentroid_val hi

/-- **C39, centroid, no move at all.** -/
theorem C39_centroid_nomove_partial (e : Env K) (he : GoodEnv e) (closed : Bool) (ops : List (POp K)) (s : PState K)
    (hr : ∀ op ∈ ops, POp.isRetained op = false) (hm : ∀ op ∈ ops, POp.isMove op = false)
    (h : polyRun e closed {} ops = some s) :
    (qCentroid e closed s).1 = freshCentroid e closed s.pts := by
  have hi := run_inv he ops (c := true) (PInv.reset []) hr h
  have hf : ops.any POp.isMove = false := by
    rw [List.any_eq_false]; intro o ho; simp [hm o ho]
  rw [hf] at hi
  exact qCentroid_val hi

/-- **C39, negation (centroid).** A triangle, whose centroid is asked for, then translated: the centroid that is returned is the old one.
A triangle has no pair of sides that are not neighbours, so that the result does not depend on how intersections are computed. -/
theorem C39_centroid_false (e : Env ℚ) (hs : ∀ p q, e.same p q = decide (p = q)) :
    ∃ (ops : List (POp ℚ)) (s : PState ℚ), polyRun e true {} ops = some s ∧ (∀ op ∈ ops, POp.isRetained op = false) ∧
      (qCentroid e true s).1 = .ok (1, 1) ∧ freshCentroid e true s.pts = .ok (11, 1) := by
  obtain ⟨same, segLen, inter, mid⟩ := e
  have : same = fun p q => decide (p = q) := by funext p q; exact hs p q
  subst this
  refine ⟨[.set [(0,0), (3,0), (0,3)], .centroid, .translate 10 0],
    { pts := [(10,0), (13,0), (10,3)], simple := some true, cent := some (1,1) }, ?_, ?_, ?_, ?_⟩
  · have h1 : centroidRaw ([(0,0), (3,0), (0,3)] : List (Pt ℚ)) = (1, 1) := by decide +kernel
    have h2 : checkInput (fun p q : Pt ℚ => decide (p = q)) [(0,0), (3,0), (0,3)] = true := by decide +kernel
    have h3 : freshSimple ⟨fun p q : Pt ℚ => decide (p = q), segLen, inter, mid⟩ true [(0,0), (3,0), (0,3)] = .ok true := by rfl
    simp [polyRun, POp.exec, h2, PState.reset, PState.translate, qCentroid, qSimple, h3, h1, polyTranslate]
    norm_num
  · intro op hop
    simp at hop
    rcases hop with rfl | rfl | rfl <;> rfl
  · rfl
  · have h1 : centroidRaw ([(10,0), (13,0), (10,3)] : List (Pt ℚ)) = (11, 1) := by decide +kernel
    have h3 : freshSimple ⟨fun p q : Pt ℚ => decide (p = q), segLen, inter, mid⟩ true [(10,0), (13,0), (10,3)] = .ok true := by rfl
    rw [freshCentroid, h3]; simp [h1]

/-- **C39, negation (reference).** `auto& v = poly.getPts(); poly.area(); v = ...; poly.area();` gives the old area. -/
theorem C39_retained_false (e : Env ℚ) (hs : ∀ p q, e.same p q = decide (p = q)) :
    ∃ (ops : List (POp ℚ)) (s : PState ℚ), polyRun e true {} ops = some s ∧
      (qArea e true s).1 = .ok (9/2) ∧ freshArea e true s.pts = .ok 18 := by
  obtain ⟨same, segLen, inter, mid⟩ := e
  have : same = fun p q => decide (p = q) := by funext p q; exact hs p q
  subst this
  refine ⟨[.set [(0,0), (3,0), (0,3)], .area, .retained [(0,0), (6,0), (0,6)]],
    { pts := [(0,0), (6,0), (0,6)], simple := some true, area := some (9/2) }, ?_, ?_, ?_⟩
  · have h1 : |signedArea ([(0,0), (3,0), (0,3)] : List (Pt ℚ))| = 9/2 := by decide +kernel
    have h2 : checkInput (fun p q : Pt ℚ => decide (p = q)) [(0,0), (3,0), (0,3)] = true := by decide +kernel
    have h3 : freshSimple ⟨fun p q : Pt ℚ => decide (p = q), segLen, inter, mid⟩ true [(0,0), (3,0), (0,3)] = .ok true := by rfl
    simp [polyRun, POp.exec, h2, PState.reset, qArea, qSimple, h3, h1]
  · rfl
  · have h1 : |signedArea ([(0,0), (6,0), (0,6)] : List (Pt ℚ))| = 18 := by decide +kernel
    have h3 : freshSimple ⟨fun p q : Pt ℚ => decide (p = q), segLen, inter, mid⟩ true [(0,0), (6,0), (0,6)] = .ok true := by rfl
    rw [freshArea, h3]; simp [h1]

/- The hypotheses can be met: an environment, and a history with all kinds of calls that has a result. -/
example : ∃ e : Env ℚ, GoodEnv e ∧ ∃ s, polyRun e true {}
    [.set [(0,0), (4,0), (4,4), (0,4)], .area, .compare, .translate 1 2, .length, .isConvex, .rotate .ccw, .centroid, .minimize, .area] = some s ∧
    (qArea e true s).1 = .ok 16 := by
  refine ⟨⟨fun p q => decide (p = q), sqDist, fun _ _ => false, fun _ _ _ => false⟩, ?_, ?_⟩
  · refine ⟨fun p q => by simp [eq_comm], fun p q => by simp only [sqDist]; ring, ⟨fun _ _ => rfl, fun _ _ => rfl⟩, ?_, ?_, fun _ _ _ _ => rfl⟩
    · intro dx dy p q
      simp only [decide_eq_decide]
      constructor
      · intro h
        have h1 := congrArg Prod.fst h; have h2 := congrArg Prod.snd h
        simp at h1 h2; exact Prod.ext h1 h2
      · rintro rfl; rfl
    · intro dx dy p q; simp only [sqDist]; ring
  · have : (polyRun (K := ℚ) ⟨fun p q => decide (p = q), sqDist, fun _ _ => false, fun _ _ _ => false⟩ true {}
      [.set [(0,0), (4,0), (4,4), (0,4)], .area, .compare, .translate 1 2, .length, .isConvex, .rotate .ccw, .centroid, .minimize, .area]).isSome = true := by
      decide +kernel
    obtain ⟨s, hs⟩ := Option.isSome_iff_exists.1 this
    refine ⟨s, hs, ?_⟩
    have h2 : (match polyRun (K := ℚ) ⟨fun p q => decide (p = q), sqDist, fun _ _ => false, fun _ _ _ => false⟩ true {}
      [.set [(0,0), (4,0), (4,4), (0,4)], .area, .compare, .translate 1 2, .length, .isConvex, .rotate .ccw, .centroid, .minimize, .area] with
      | some s => (qArea ⟨fun p q => decide (p = q), sqDist, fun _ _ => false, fun _ _ _ => false⟩ true s).1
      | none => .throw) = .ok 16 := by decide +kernel
    rw [hs] at h2
    exact h2

/-! ## C61: the centroid -/

/-- **C61, starting vertex and direction.** -/
theorem C61_start_direction (pts : List (Pt K)) (k : Nat) :
    centroidRaw (pts.rotate k) = centroidRaw pts ∧ centroidRaw pts.reverse = centroidRaw pts :=
  ⟨centroidRaw_rotate pts k, centroidRaw_reverse pts⟩

/-- **C61, triangle.** The centroid of a non flat triangle is the mean of its vertices. -/
theorem C61_triangle (a b c : Pt K) (h : ¬ Collinear3 a b c) :
    centroidRaw [a, b, c] = ((a.1 + b.1 + c.1) / 3, (a.2 + b.2 + c.2) / 3) := by
  have hA : signedArea [a, b, c] = ((b.1 - a.1) * (c.2 - a.2) - (c.1 - a.1) * (b.2 - a.2)) / 2 := by
    simp [signedArea, cycPairs]; ring
  have hne : signedArea [a, b, c] ≠ 0 := by
    rw [hA]
    intro h0
    apply h
    simp only [Collinear3]
    have : (b.1 - a.1) * (c.2 - a.2) - (c.1 - a.1) * (b.2 - a.2) = 0 := by
      have h2 : (2 : K) ≠ 0 := two_ne_zero
      rcases div_eq_zero_iff.1 h0 with h | h
      · exact h
      · exact absurd h h2
    linarith
  have h6 : (6 : K) * signedArea [a, b, c] ≠ 0 := mul_ne_zero (by norm_num) hne
  have h3 : (3 : K) ≠ 0 := three_ne_zero
  simp only [centroidRaw]
  refine Prod.ext ?_ ?_
  · simp only
    rw [div_eq_div_iff h6 h3, hA]
    simp [cycPairs]; ring
  · simp only
    rw [div_eq_div_iff h6 h3, hA]
    simp [cycPairs]; ring

/-- **C61, cut.** If a polygon is cut along the diagonal `p`-`q`, its centroid is the mean of the centroids of the parts, weighted by
their signed areas. Together with `C61_triangle` this characterises the centroid. -/
theorem C61_cut (p q : Pt K) (l m : List (Pt K)) (h1 : signedArea (p :: l ++ [q]) ≠ 0) (h2 : signedArea (q :: m ++ [p]) ≠ 0)
    (h0 : signedArea (p :: l ++ q :: m) ≠ 0) :
    signedArea (p :: l ++ q :: m) * (centroidRaw (p :: l ++ q :: m)).1 =
      signedArea (p :: l ++ [q]) * (centroidRaw (p :: l ++ [q])).1 + signedArea (q :: m ++ [p]) * (centroidRaw (q :: m ++ [p])).1 ∧
    signedArea (p :: l ++ q :: m) * (centroidRaw (p :: l ++ q :: m)).2 =
      signedArea (p :: l ++ [q]) * (centroidRaw (p :: l ++ [q])).2 + signedArea (q :: m ++ [p]) * (centroidRaw (q :: m ++ [p])).2 := by
  have key : ∀ f : Pt K × Pt K → K, (f (q, p) + f (p, q) = 0) →
      ((cycPairs (p :: l ++ q :: m)).map f).sum = ((cycPairs (p :: l ++ [q])).map f).sum + ((cycPairs (q :: m ++ [p])).map f).sum := by
    intro f hf
    obtain ⟨e1, e2, e3⟩ := cycPairs_cut p q l m
    rw [e1, e2, e3]
    simp only [List.map_append, List.sum_append, List.map_cons, List.map_nil, List.sum_cons, List.sum_nil]
    linear_combination -hf
  have hm : ∀ A X : K, A ≠ 0 → A * (X / (6 * A)) = X / 6 := by
    intro A X hA; field_simp
  simp only [centroidRaw]
  rw [hm _ _ h0, hm _ _ h1, hm _ _ h2, hm _ _ h0, hm _ _ h1, hm _ _ h2]
  rw [key _ (by ring), key _ (by ring)]
  constructor <;> ring

/-- **C61, translation.** The centroid of a polygon with an area moves with it. -/
theorem C61_translate (pts : List (Pt K)) (dx dy : K) (h : signedArea pts ≠ 0) :
    centroidRaw (polyTranslate dx dy pts) = ((centroidRaw pts).1 + dx, (centroidRaw pts).2 + dy) := by
  have hx : ((cycPairs (polyTranslate dx dy pts)).map (fun s : Pt K × Pt K => (s.1.1 + s.2.1) * (s.1.1 * s.2.2 - s.2.1 * s.1.2))).sum =
      ((cycPairs pts).map (fun s : Pt K × Pt K => (s.1.1 + s.2.1) * (s.1.1 * s.2.2 - s.2.1 * s.1.2))).sum + 6 * signedArea pts * dx := by
    simp only [polyTranslate, cycPairs_map, List.map_map]
    have : ((fun s : Pt K × Pt K => (s.1.1 + s.2.1) * (s.1.1 * s.2.2 - s.2.1 * s.1.2)) ∘
        Prod.map (fun p : Pt K => (p.1 + dx, p.2 + dy)) (fun p : Pt K => (p.1 + dx, p.2 + dy))) =
        fun s => ((s.1.1 + s.2.1) * (s.1.1 * s.2.2 - s.2.1 * s.1.2) + (3 * dx) * (s.1.1 * s.2.2 - s.1.2 * s.2.1)) +
          ((2 * dx * dx * s.2.2 + dx * s.2.1 * s.2.2 - dy * s.2.1 * s.2.1 - 2 * dx * dy * s.2.1) -
           (2 * dx * dx * s.1.2 + dx * s.1.1 * s.1.2 - dy * s.1.1 * s.1.1 - 2 * dx * dy * s.1.1)) := by
      funext s; simp only [Function.comp, Prod.map]; ring
    rw [this, sum_map_add', sum_cyc_sub (fun p : Pt K => 2 * dx * dx * p.2 + dx * p.1 * p.2 - dy * p.1 * p.1 - 2 * dx * dy * p.1),
      sum_map_add', sum_map_mul', signedArea]
    ring
  have hy : ((cycPairs (polyTranslate dx dy pts)).map (fun s : Pt K × Pt K => (s.1.2 + s.2.2) * (s.1.1 * s.2.2 - s.2.1 * s.1.2))).sum =
      ((cycPairs pts).map (fun s : Pt K × Pt K => (s.1.2 + s.2.2) * (s.1.1 * s.2.2 - s.2.1 * s.1.2))).sum + 6 * signedArea pts * dy := by
    simp only [polyTranslate, cycPairs_map, List.map_map]
    have : ((fun s : Pt K × Pt K => (s.1.2 + s.2.2) * (s.1.1 * s.2.2 - s.2.1 * s.1.2)) ∘
        Prod.map (fun p : Pt K => (p.1 + dx, p.2 + dy)) (fun p : Pt K => (p.1 + dx, p.2 + dy))) =
        fun s => ((s.1.2 + s.2.2) * (s.1.1 * s.2.2 - s.2.1 * s.1.2) + (3 * dy) * (s.1.1 * s.2.2 - s.1.2 * s.2.1)) +
          ((2 * dx * dy * s.2.2 + dx * s.2.2 * s.2.2 - dy * s.2.1 * s.2.2 - 2 * dy * dy * s.2.1) -
           (2 * dx * dy * s.1.2 + dx * s.1.2 * s.1.2 - dy * s.1.1 * s.1.2 - 2 * dy * dy * s.1.1)) := by
      funext s; simp only [Function.comp, Prod.map]; ring
    rw [this, sum_map_add', sum_cyc_sub (fun p : Pt K => 2 * dx * dy * p.2 + dx * p.2 * p.2 - dy * p.1 * p.2 - 2 * dy * dy * p.1),
      sum_map_add', sum_map_mul', signedArea]
    ring
  simp only [centroidRaw]
  rw [hx, hy, signedArea_translate]
  refine Prod.ext ?_ ?_ <;> simp only <;> field_simp

/-- **C61, linear maps** (scaling, quarter turns, mirrors): the centroid of a polygon with an area follows. -/
theorem C61_linear (a b c d : K) (hdet : a * d - b * c ≠ 0) (pts : List (Pt K)) (h : signedArea pts ≠ 0) :
    centroidRaw (pts.map (fun p : Pt K => (a * p.1 + b * p.2, c * p.1 + d * p.2))) =
      (a * (centroidRaw pts).1 + b * (centroidRaw pts).2, c * (centroidRaw pts).1 + d * (centroidRaw pts).2) := by
  have key : ∀ u v : K, ((cycPairs pts).map ((fun s : Pt K × Pt K => (u * s.1.1 + v * s.1.2 + (u * s.2.1 + v * s.2.2)) *
        ((a * d - b * c) * (s.1.1 * s.2.2 - s.2.1 * s.1.2))))).sum =
      (a * d - b * c) * (u * ((cycPairs pts).map (fun s : Pt K × Pt K => (s.1.1 + s.2.1) * (s.1.1 * s.2.2 - s.2.1 * s.1.2))).sum +
      v * ((cycPairs pts).map (fun s : Pt K × Pt K => (s.1.2 + s.2.2) * (s.1.1 * s.2.2 - s.2.1 * s.1.2))).sum) := by
    intro u v
    rw [← sum_map_mul' _ u, ← sum_map_mul' _ v, ← sum_map_add', ← sum_map_mul']
    congr 1
    apply List.map_congr_left
    intro s _; ring
  simp only [centroidRaw, signedArea_linear, cycPairs_map, List.map_map]
  have e1 : ((fun s : Pt K × Pt K => (s.1.1 + s.2.1) * (s.1.1 * s.2.2 - s.2.1 * s.1.2)) ∘
      Prod.map (fun p : Pt K => (a * p.1 + b * p.2, c * p.1 + d * p.2)) (fun p : Pt K => (a * p.1 + b * p.2, c * p.1 + d * p.2))) =
      (fun s : Pt K × Pt K => (a * s.1.1 + b * s.1.2 + (a * s.2.1 + b * s.2.2)) * ((a * d - b * c) * (s.1.1 * s.2.2 - s.2.1 * s.1.2))) := by
    funext s; simp only [Function.comp, Prod.map]; ring
  have e2 : ((fun s : Pt K × Pt K => (s.1.2 + s.2.2) * (s.1.1 * s.2.2 - s.2.1 * s.1.2)) ∘
      Prod.map (fun p : Pt K => (a * p.1 + b * p.2, c * p.1 + d * p.2)) (fun p : Pt K => (a * p.1 + b * p.2, c * p.1 + d * p.2))) =
      (fun s : Pt K × Pt K => (c * s.1.1 + d * s.1.2 + (c * s.2.1 + d * s.2.2)) * ((a * d - b * c) * (s.1.1 * s.2.2 - s.2.1 * s.1.2))) := by
    funext s; simp only [Function.comp, Prod.map]; ring
  rw [e1, e2, key a b, key c d]
  refine Prod.ext ?_ ?_ <;> simp only <;> field_simp

example : ¬ Collinear3 ((0,0) : Pt ℚ) (3,0) (0,3) ∧ signedArea ([(0,0), (4,0), (1,1), (0,4)] : List (Pt ℚ)) ≠ 0 ∧
    signedArea ([(0,0), (4,0), (1,1)] : List (Pt ℚ)) ≠ 0 ∧ signedArea ([(1,1), (0,4), (0,0)] : List (Pt ℚ)) ≠ 0 := by
  refine ⟨by norm_num [Collinear3], ?_, ?_, ?_⟩ <;> decide +kernel

end H2d.Props
