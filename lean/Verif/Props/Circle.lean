import Verif.Lemmas.CircleDemo
import Verif.Spec.Objects

/-!
# C27 (circle part), C35, C36, C37, C38: circles

Exact reals, thresholds are parameters.
-/

set_option linter.unusedSectionVars false
set_option linter.unusedSimpArgs false

namespace H2d.Props

open H2d.Spec

/-! ## C27 -/

/-- **C27, circles: strict order.** -/
theorem C27_circle_strict_order :
    (∀ a : Circle, ¬ CircInCirc a a) ∧ (∀ a b c : Circle, CircInCirc a b → CircInCirc b c → CircInCirc a c) := by
  simp only [CircInCirc, ptDist_eucl]
  refine ⟨fun a h => ?_, fun a b c h1 h2 => ?_⟩
  · rw [eucl_self] at h; linarith
  · have := eucl_triangle a.center b.center c.center; linarith

/-- **C27, circles: a circle is inside another one exactly when all its points, edge included, are inside it.** -/
theorem C27_circle_spec (a b : Circle) (ha : 0 ≤ a.radius) :
    CircInCirc a b ↔ ∀ p, eucl p a.center ≤ a.radius → PtInCircle p b := by
  simp only [CircInCirc, PtInCircle, ptDist_eucl]
  constructor
  · intro h p hp
    have := eucl_triangle p a.center b.center; linarith
  · intro h
    rcases (eucl_nonneg b.center a.center).eq_or_lt with h0 | h0
    · have e := eucl_eq_zero.1 h0.symm
      have h1 : eucl (a.center.1 + a.radius, a.center.2) a.center = a.radius := by rw [eucl_eq_iff ha]; ring
      have h2 := h (a.center.1 + a.radius, a.center.2) h1.le
      rw [e, eucl_self, add_zero]; rw [e, h1] at h2; exact h2
    · have h1 : eucl (along (b.center, a.center) (1 + a.radius / eucl b.center a.center)) a.center = a.radius := by
        have := eucl_along (b.center, a.center) (1 + a.radius / eucl b.center a.center) 1
        rw [along_one] at this
        rw [this]
        simp only [add_sub_cancel_left]
        rw [abs_of_nonneg (by positivity)]; field_simp
      have h2 := h _ h1.le
      rw [eucl_comm] at h2
      have h3 := eucl_along_left (b.center, a.center) (1 + a.radius / eucl b.center a.center)
      simp only at h3
      rw [h3, abs_of_nonneg (by positivity)] at h2
      have h4 : (1 + a.radius / eucl b.center a.center) * eucl b.center a.center = a.radius + eucl b.center a.center := by field_simp; ring
      rw [h4, eucl_comm b.center] at h2
      exact h2

/-- **C27, circles: containment is compatible with points.** -/
theorem C27_circle_points (a b : Circle) (h : CircInCirc a b) (p : Pt ℝ) (hp : PtInCircle p a) : PtInCircle p b := by
  simp only [CircInCirc, PtInCircle, ptDist_eucl] at *
  have := eucl_triangle p a.center b.center; linarith

/-- **C27, circle in a rectangle**: all the points of the circle are inside the rectangle, and conversely. -/
theorem C27_circle_in_rect (a : Circle) (ha : 0 ≤ a.radius) (r : FRect ℝ) :
    CircInRect a r ↔ ∀ p : Pt ℝ, eucl p a.center ≤ a.radius → Pt.isInsideRect p r = true := by
  simp only [CircInRect, Pt.isInsideRect, ptIsInside, Bool.and_eq_true, decide_eq_true_eq]
  constructor
  · rintro ⟨h1, h2, h3, h4⟩ p hp
    rw [eucl_le_iff' ha, eucl_sq] at hp
    have a1 : |p.1 - a.center.1| ≤ a.radius := by rw [← abs_of_nonneg ha, ← sq_le_sq]; nlinarith [sq_nonneg (p.2 - a.center.2)]
    have a2 : |p.2 - a.center.2| ≤ a.radius := by rw [← abs_of_nonneg ha, ← sq_le_sq]; nlinarith [sq_nonneg (p.1 - a.center.1)]
    rw [abs_le] at a1 a2
    refine ⟨⟨?_, ?_⟩, ?_, ?_⟩ <;> linarith
  · intro h
    have e1 : eucl (a.center.1 + a.radius, a.center.2) a.center = a.radius := by rw [eucl_eq_iff ha]; ring
    have e2 : eucl (a.center.1 - a.radius, a.center.2) a.center = a.radius := by rw [eucl_eq_iff ha]; ring
    have e3 : eucl (a.center.1, a.center.2 + a.radius) a.center = a.radius := by rw [eucl_eq_iff ha]; ring
    have e4 : eucl (a.center.1, a.center.2 - a.radius) a.center = a.radius := by rw [eucl_eq_iff ha]; ring
    exact ⟨(h _ e1.le).1.2, (h _ e2.le).1.1, (h _ e3.le).2.2, (h _ e4.le).2.1⟩

/-- **C27, rectangle in a circle**: all the points of the rectangle, edge included, are inside the circle, and conversely. -/
theorem C27_rect_in_circle (r : FRect ℝ) (hr : ProperRect r) (a : Circle) :
    RectInCirc r a ↔ ∀ p : Pt ℝ, Extent (.rect r) p → PtInCircle p a := by
  simp only [RectInCirc, PtInCircle, ptDist_eucl, FRect.get4Pts, List.mem_cons, List.not_mem_nil, or_false, forall_eq_or_imp, forall_eq]
  obtain ⟨h1, h2⟩ := hr
  constructor
  · rintro ⟨c1, c2, c3, c4⟩ p ⟨p1, p2, p3, p4⟩
    have hp : 0 < a.radius := lt_of_le_of_lt (eucl_nonneg _ _) c1
    rw [eucl_lt_iff hp] at *
    simp only at c1 c2 c3 c4
    have hx : (p.1 - a.center.1) ^ 2 ≤ max ((r.p1.1 - a.center.1) ^ 2) ((r.p2.1 - a.center.1) ^ 2) := by
      rcases le_total a.center.1 p.1 with h | h
      · apply le_max_of_le_right; nlinarith
      · apply le_max_of_le_left; nlinarith
    have hy : (p.2 - a.center.2) ^ 2 ≤ max ((r.p1.2 - a.center.2) ^ 2) ((r.p2.2 - a.center.2) ^ 2) := by
      rcases le_total a.center.2 p.2 with h | h
      · apply le_max_of_le_right; nlinarith
      · apply le_max_of_le_left; nlinarith
    rcases max_choice ((r.p1.1 - a.center.1) ^ 2) ((r.p2.1 - a.center.1) ^ 2) with e | e <;>
    rcases max_choice ((r.p1.2 - a.center.2) ^ 2) ((r.p2.2 - a.center.2) ^ 2) with f | f <;>
    rw [e] at hx <;> rw [f] at hy <;> linarith
  · intro h
    refine ⟨h _ ?_, h _ ?_, h _ ?_, h _ ?_⟩ <;> refine ⟨?_, ?_, ?_, ?_⟩ <;> (try simp only []) <;> first | exact le_refl _ | exact h1.le | exact h2.le

/-- A circle in a circle, a circle in a rectangle and a rectangle in a circle. -/
example : CircInCirc ⟨(1, 1), 1⟩ ⟨(0, 0), 4⟩ ∧ CircInRect ⟨(1, 1), 1⟩ ⟨(-1, -1), (3, 4)⟩ ∧ RectInCirc ⟨(-1, -1), (3, 4)⟩ ⟨(0, 0), 6⟩ := by
  refine ⟨?_, ?_, ?_⟩
  · simp only [CircInCirc, ptDist_eucl]
    have : eucl (1, 1) (0, 0) < 2 := by rw [eucl_lt_iff (by norm_num)]; norm_num
    linarith
  · simp only [CircInRect]; norm_num
  · simp only [RectInCirc, PtInCircle, ptDist_eucl, FRect.get4Pts, List.mem_cons, List.not_mem_nil, or_false, forall_eq_or_imp, forall_eq]
    refine ⟨?_, ?_, ?_, ?_⟩ <;> rw [eucl_lt_iff (by norm_num)] <;> norm_num

/-! ## C35 -/

/-- **C35, what the check is.** While the global flag is not set, the constructor throws exactly for radii below the null distance (negative ones included). -/
theorem C35_check (t : Thr ℝ) (h0 : 0 < t.nullDistance) (c : Pt ℝ) (r : ℝ) :
    (circleMake t false c r = .throw ↔ r < t.nullDistance) ∧ (t.nullDistance ≤ r → circleMake t false c r = .ok ⟨c, r⟩) := by
  have key : circleMake t false c r = if r < t.nullDistance then .throw else .ok ⟨c, r⟩ := by
    unfold circleMake
    simp only [Bool.false_eq_true, not_false_eq_true, and_true]
    by_cases h : r < t.nullDistance
    · rw [if_pos h]
      by_cases h1 : |r| < t.nullDistance
      · rw [if_pos h1]
      · rw [if_neg h1, if_pos]
        by_contra h2
        rw [abs_of_nonneg (not_lt.1 h2)] at h1; exact h1 h
    · have h' := not_lt.1 h
      rw [if_neg h, if_neg (by rw [abs_of_nonneg (by linarith)]; exact h), if_neg (by linarith)]
  rw [key]
  constructor
  · split_ifs with h <;> simp [h]
  · intro h; rw [if_neg (not_lt.2 h)]

/-- **C35 (partial).** After a history in which every construction from four points or more succeeded (all other operations being free to fail), circles
of radius below the null distance are rejected. Missing: histories with a failed construction (`C35_false`). -/
theorem C35_history_partial (t : Thr ℝ) (h0 : 0 < t.nullDistance) (ops : List CircOp)
    (hs : ∀ rnd pts, .container rnd pts ∈ ops → 4 ≤ pts.length → ∃ c, (circleOfPts t false rnd pts).1 = .ok c) (c : Pt ℝ) (r : ℝ) :
    circleMake t (flagAfter t ops) c r = .throw ↔ r < t.nullDistance := by
  have : flagAfter t ops = false := by
    unfold flagAfter
    suffices h : ∀ ops' : List CircOp, (∀ op ∈ ops', op ∈ ops) → ops'.foldl (fun f op => (op.exec t f).2) false = false from h ops (fun _ h => h)
    intro ops' hsub
    induction ops' with
    | nil => rfl
    | cons op ops' ih =>
      rw [List.foldl_cons]
      have e : (op.exec t false).2 = false := by
        cases op with
        | make c r => rfl
        | two p q => rfl
        | three p q r => rfl
        | container rnd pts =>
          by_cases h4 : 4 ≤ pts.length
          · exact (circleOfPts_flag false false rnd h4).2.2 (hs rnd pts (hsub _ List.mem_cons_self) h4)
          · exact circleOfPts_few false rnd (by omega)
      rw [e]
      exact ih (fun op hop => hsub op (List.mem_cons_of_mem _ hop))
  rw [this]
  exact (C35_check t h0 c r).1

/-- **C35, exact state.** After any history the check is off exactly when the last construction from four points or more failed. -/
theorem C35_flag (t : Thr ℝ) (ops : List CircOp) :
    flagAfter t ops = true ↔ ∃ before rnd pts after, ops = before ++ .container rnd pts :: after ∧ 4 ≤ pts.length ∧
      (¬ ∃ c, (circleOfPts t false rnd pts).1 = .ok c) ∧ ∀ rnd' pts', .container rnd' pts' ∈ after → pts'.length < 4 := by
  induction ops using List.reverseRecOn with
  | nil => simp [flagAfter]
  | append_singleton ops op ih =>
    have e : flagAfter t (ops ++ [op]) = (op.exec t (flagAfter t ops)).2 := by simp [flagAfter]
    by_cases hb : ∃ rnd pts, op = .container rnd pts ∧ 4 ≤ pts.length
    · obtain ⟨rnd, pts, rfl, h4⟩ := hb
      rw [e]
      obtain ⟨f1, f2⟩ := circleOfPts_flag (t := t) (flagAfter t ops) false rnd h4
      have e2 : (CircOp.exec t (flagAfter t ops) (.container rnd pts)).2 = true ↔ ¬ ∃ c, (circleOfPts t false rnd pts).1 = .ok c := by
        show (circleOfPts t (flagAfter t ops) rnd pts).2 = true ↔ _
        rw [← f1, ← f2]; simp
      rw [e2]
      constructor
      · intro h
        exact ⟨ops, rnd, pts, [], rfl, h4, h, by simp⟩
      · rintro ⟨before, rnd', pts', after, h, h4', h5, h6⟩
        rcases List.eq_nil_or_concat after with rfl | ⟨after', x, rfl⟩
        · have := List.append_inj_right' h (by simp)
          simp only [List.cons.injEq, CircOp.container.injEq, and_true] at this
          rw [this.1, this.2]; exact h5
        · rw [List.concat_eq_append, ← List.cons_append, ← List.append_assoc] at h
          have := List.append_inj_right' h (by simp)
          simp only [List.cons.injEq, and_true] at this
          have := h6 rnd pts (by rw [this]; simp)
          omega
    · have e2 : (op.exec t (flagAfter t ops)).2 = flagAfter t ops := by
        cases op with
        | make c r => rfl
        | two p q => rfl
        | three p q r => rfl
        | container rnd pts =>
          have : ¬ 4 ≤ pts.length := fun h => hb ⟨rnd, pts, rfl, h⟩
          exact circleOfPts_few _ rnd (by omega)
      rw [e, e2, ih]
      constructor
      · rintro ⟨before, rnd, pts, after, h, h4, h5, h6⟩
        refine ⟨before, rnd, pts, after ++ [op], by rw [h]; simp, h4, h5, fun rnd' pts' hm => ?_⟩
        rcases List.mem_append.1 hm with hm | hm
        · exact h6 rnd' pts' hm
        · by_contra hh
          exact hb ⟨rnd', pts', (List.mem_singleton.1 hm).symm, by omega⟩
      · rintro ⟨before, rnd, pts, after, h, h4, h5, h6⟩
        rcases List.eq_nil_or_concat after with rfl | ⟨after', x, rfl⟩
        · have := List.append_inj_right' h (by simp)
          simp only [List.cons.injEq, and_true] at this
          exact absurd ⟨rnd, pts, this, h4⟩ hb
        · rw [List.concat_eq_append, ← List.cons_append, ← List.append_assoc] at h
          have := List.append_inj_left' h (by simp)
          exact ⟨before, rnd, pts, after', this, h4, h5, fun rnd' pts' hm => h6 rnd' pts' (by simp [hm])⟩

/-- **C35 is false of the code.** After the failed construction of a circle from four equal points (whatever the random choices), a circle of radius 0 is accepted. -/
theorem C35_false (t : Thr ℝ) (h0 : 0 < t.nullDistance) (p : Pt ℝ) (rnd : ℕ → ℕ) (c : Pt ℝ) :
    let op := CircOp.container rnd [p, p, p, p]
    (op.exec t false).1 = .throw ∧ circleMake t (flagAfter t [op]) c 0 = .ok ⟨c, 0⟩ := by
  have e := (welzl_replicate h0 p rnd 4).2.2 4 0 (by norm_num) (by norm_num)
  have e' : (welzl t rnd 4 0 [p, p, p, p] []).1 = .throw := e
  have e2 : circleOfPts t false rnd [p, p, p, p] = (.throw, true) := by
    rw [circleOfPts_four false rnd (by simp)]
    simp only [List.length_cons, List.length_nil, Nat.reduceAdd, zero_add, e']
  refine ⟨by show (circleOfPts t false rnd [p, p, p, p]).1 = _; rw [e2], ?_⟩
  have : flagAfter t [CircOp.container rnd [p, p, p, p]] = true := by
    show (circleOfPts t false rnd [p, p, p, p]).2 = true; rw [e2]
  rw [this]
  simp [circleMake]

/-! ## C36 -/

/-- **C36 (partial).** When the pairs of points are not nearly horizontal nor nearly vertical, the circle from three points passes through them; it is refused
exactly when the points are collinear for the library, or when two sides of the triangle are parallel for the library. Missing: nearly horizontal or vertical pairs, for which the bisectors
are wrong (`C01_false`, `C06_false`); the second cause of failure is not a collinearity (`C36_false`). -/
theorem C36_circle_partial (t : Thr ℝ) (h1 : dblEps < t.nullDistance) (h2 : 0 < t.nullAngleValue) (p1 p2 p3 : Pt ℝ) (g12 : GoodPair t p1 p2)
    (g13 : GoodPair t p1 p3) (g23 : GoodPair t p2 p3) :
    (circle3 t p1 p2 p3 = .throw ↔ NearCollinear t p1 p2 p3 ∨ ThinAngle t p1 p2 p3) ∧ circle3 t p1 p2 p3 ≠ .ub ∧
    ∀ c, circle3 t p1 p2 p3 = .ok c → eucl p1 c.center = c.radius ∧ eucl p2 c.center = c.radius ∧ eucl p3 c.center = c.radius := by
  rcases circle3_spec h1 h2 g12 g13 g23 with ⟨h, e⟩ | ⟨h, h', c, e, e'⟩
  · rw [e]; simp [h]
  · rw [e]
    refine ⟨by simp [h, h'], by simp, fun c' hc' => ?_⟩
    simp only [Res.ok.injEq] at hc'; subst hc'; exact e'

/-- **C36, order (partial).** Under the same condition the outcome does not depend on the order of the points (both exchanges generate all the orders). -/
theorem C36_order_partial (t : Thr ℝ) (h1 : dblEps < t.nullDistance) (h2 : 0 < t.nullAngleValue) (p1 p2 p3 : Pt ℝ) (g12 : GoodPair t p1 p2)
    (g13 : GoodPair t p1 p3) (g23 : GoodPair t p2 p3) :
    circle3 t p1 p2 p3 = circle3 t p2 p1 p3 ∧ circle3 t p1 p2 p3 = circle3 t p1 p3 p2 := by
  have hp := dblEps_pos
  have tn : ¬ NearCollinear t p1 p2 p3 → turnAt p1 p2 p3 ≠ 0 := by
    intro h h0
    unfold NearCollinear at h
    push Not at h
    have : 0 < max (max (eucl p1 p2) (eucl p1 p3)) (eucl p2 p3) := lt_max_of_lt_left (lt_max_of_lt_left (by linarith [h.1.1]))
    have h3 := h.2
    rw [h0, abs_zero] at h3
    nlinarith
  have n1 := @NearCollinear.comm12 t p1 p2 p3
  have n2 := @NearCollinear.comm23 t p1 p2 p3
  have t1 := @ThinAngle.comm12 t p1 p2 p3
  have t2 := @ThinAngle.comm23 t p1 p2 p3
  have fin : ∀ c c' : Circle, ¬ NearCollinear t p1 p2 p3 → (eucl p1 c.center = c.radius ∧ eucl p2 c.center = c.radius ∧ eucl p3 c.center = c.radius) →
      (eucl p1 c'.center = c'.radius ∧ eucl p2 c'.center = c'.radius ∧ eucl p3 c'.center = c'.radius) → c = c' := by
    intro c c' hn ha hb
    obtain ⟨x, y⟩ := circum_unique (tn hn) ha.1 ha.2.1 ha.2.2 hb.1 hb.2.1 hb.2.2
    cases c; cases c'; simp_all
  rcases circle3_spec h1 h2 g12 g13 g23 with ⟨h, e⟩ | ⟨h, h', c, e, e'⟩
  · rcases circle3_spec h1 h2 g12.symm g23 g13 with ⟨-, f⟩ | ⟨k, k', -⟩
    · rcases circle3_spec h1 h2 g13 g12 g23.symm with ⟨-, g⟩ | ⟨k, k', -⟩
      · rw [e, f, g]; simp
      · exact absurd h (by tauto)
    · exact absurd h (by tauto)
  · rcases circle3_spec h1 h2 g12.symm g23 g13 with ⟨k, -⟩ | ⟨-, -, d, f, f'⟩
    · exact absurd k (by tauto)
    · rcases circle3_spec h1 h2 g13 g12 g23.symm with ⟨k, -⟩ | ⟨-, -, u, g, g'⟩
      · exact absurd k (by tauto)
      · rw [e, f, g, fin c d h e' (by tauto), fin d u h (by tauto) (by tauto)]; simp

/-- The hypotheses of C36 are met, and a circle is built. -/
example : GoodPair stdR (0, 0) (4, 0) ∧ GoodPair stdR (0, 0) (0, 3) ∧ GoodPair stdR (4, 0) (0, 3) ∧
    ¬ NearCollinear stdR (0, 0) (4, 0) (0, 3) ∧ ∃ c, circle3 stdR (0, 0) (4, 0) (0, 3) = .ok c := by
  have e1 : eucl (0, 0) (4, 0) = 4 := by rw [eucl_eq_iff (by norm_num)]; norm_num
  have e2 : eucl (0, 0) (0, 3) = 3 := by rw [eucl_eq_iff (by norm_num)]; norm_num
  have e3 : eucl (4, 0) (0, 3) = 5 := by rw [eucl_eq_iff (by norm_num)]; norm_num
  have g1 : GoodPair stdR (0, 0) (4, 0) := ⟨Or.inl rfl, Or.inr (by rw [e1]; norm_num [stdR])⟩
  have g2 : GoodPair stdR (0, 0) (0, 3) := ⟨Or.inr (by rw [e2]; norm_num [stdR]), Or.inl rfl⟩
  have g3 : GoodPair stdR (4, 0) (0, 3) := ⟨Or.inr (by rw [e3]; norm_num [stdR]), Or.inr (by rw [e3]; norm_num [stdR])⟩
  have hn : ¬ NearCollinear stdR (0, 0) (4, 0) (0, 3) := by
    unfold NearCollinear
    rw [e1, e2, e3]; norm_num [stdR, turnAt]
  have e4 : eucl (4, 0) (0, 0) = 4 := by rw [eucl_comm, e1]
  have e5 : eucl (0, 3) (0, 0) = 3 := by rw [eucl_comm, e2]
  have e6 : eucl (0, 3) (4, 0) = 5 := by rw [eucl_comm, e3]
  have ht : ¬ ThinAngle stdR (0, 0) (4, 0) (0, 3) := by
    have key : ∀ x : ℝ, x ≤ 9 / 10 → ¬ Real.arccos x < stdR.nullAngleValue := by
      intro x hx h
      have h1 := Real.cos_le_cos_of_nonneg_of_le_pi (Real.arccos_nonneg x) (by have := Real.two_le_pi; norm_num [stdR]; linarith) h.le
      have h2 := Real.one_sub_sq_div_two_le_cos (x := stdR.nullAngleValue)
      have h3 : Real.cos (Real.arccos x) ≤ 9 / 10 := by
        rcases le_total (-1) x with h4 | h4
        · rw [Real.cos_arccos h4 (by linarith)]; exact hx
        · rw [Real.arccos_of_le_neg_one h4]; simp; norm_num
      norm_num [stdR] at h1 h2
      linarith
    unfold ThinAngle segAngle
    simp only [e1, e2, e3, e4, e5, e6, not_or]
    refine ⟨key _ ?_, key _ ?_, key _ ?_⟩ <;> norm_num [abs_of_pos]
  refine ⟨g1, g2, g3, hn, ?_⟩
  rcases circle3_spec (t := stdR) (by norm_num [stdR, dblEps]) (by norm_num [stdR]) g1 g2 g3 with ⟨h, -⟩ | ⟨-, -, c, h, -⟩
  · exact absurd h (by tauto)
  · exact ⟨c, h⟩

/-- **C36 is false of the code**: with the default thresholds, three points that the library does not consider as collinear are refused, because the angle of two sides is too small. -/
theorem C36_false : ∃ p1 p2 p3, areCollinear stdR p1 p2 p3 = .ok false ∧ circle3 stdR p1 p2 p3 = .throw := by
  have e1 : eucl (0, 0) (1000, 0) = 1000 := by rw [eucl_eq_iff (by norm_num)]; norm_num
  have e2 : eucl (0, 0) (500, 1 / 10) ≤ 501 ∧ 500 ≤ eucl (0, 0) (500, 1 / 10) := by
    constructor
    · rw [eucl_le_iff' (by norm_num), eucl_sq]; norm_num
    · rw [← sq_le_sq₀ (by norm_num) (eucl_nonneg _ _), eucl_sq]; norm_num
  have e3 : eucl (1000, 0) (500, 1 / 10) ≤ 501 ∧ 500 ≤ eucl (1000, 0) (500, 1 / 10) := by
    constructor
    · rw [eucl_le_iff' (by norm_num), eucl_sq]; norm_num
    · rw [← sq_le_sq₀ (by norm_num) (eucl_nonneg _ _), eucl_sq]; norm_num
  have g1 : GoodPair stdR (0, 0) (1000, 0) := ⟨Or.inl rfl, Or.inr (by rw [e1]; norm_num [stdR])⟩
  have g2 : GoodPair stdR (0, 0) (500, 1 / 10) := by
    constructor
    · right
      have : stdR.nullDenom * eucl (0, 0) (500, 1 / 10) ≤ stdR.nullDenom * 501 := mul_le_mul_of_nonneg_left e2.1 (by norm_num [stdR])
      exact this.trans (by norm_num [stdR, abs_of_pos])
    · right
      have : stdR.nullDenom * eucl (0, 0) (500, 1 / 10) ≤ stdR.nullDenom * 501 := mul_le_mul_of_nonneg_left e2.1 (by norm_num [stdR])
      exact this.trans (by norm_num [stdR, abs_of_pos])
  have g3 : GoodPair stdR (1000, 0) (500, 1 / 10) := by
    constructor
    · right
      have : stdR.nullDenom * eucl (1000, 0) (500, 1 / 10) ≤ stdR.nullDenom * 501 := mul_le_mul_of_nonneg_left e3.1 (by norm_num [stdR])
      exact this.trans (by norm_num [stdR, abs_of_pos])
    · right
      have : stdR.nullDenom * eucl (1000, 0) (500, 1 / 10) ≤ stdR.nullDenom * 501 := mul_le_mul_of_nonneg_left e3.1 (by norm_num [stdR])
      exact this.trans (by norm_num [stdR, abs_of_pos])
  have hd : dblEps < stdR.nullDistance := by norm_num [stdR, dblEps]
  refine ⟨(0, 0), (1000, 0), (500, 1 / 10), ?_, ?_⟩
  · obtain ⟨b, h1, h2⟩ := C68_collinear_partial stdR hd (0, 0) (1000, 0) (500, 1 / 10) g1.1 g2.1 g3.1
    rw [h1]
    cases b with
    | false => rfl
    | true =>
      exfalso
      have hm : max (max (eucl (0, 0) (1000, 0)) (eucl (0, 0) (500, 1 / 10))) (eucl (1000, 0) (500, 1 / 10)) = (1000 : ℝ) := by
        rw [e1, max_eq_left (le_max_of_le_left (by linarith [e3.1])), max_eq_left (by linarith [e2.1])]
      rcases h2.1 rfl with h | h
      · rw [e1] at h
        have : stdR.nullDistance < 1 := by norm_num [stdR]
        have := e2.2
        have := e3.2
        rcases h with h | h | h <;> linarith
      · rw [hm] at h
        norm_num [stdR, turnAt, abs_of_pos] at h
  · rcases circle3_spec hd (by norm_num [stdR]) g1 g2 g3 with ⟨-, h⟩ | ⟨-, h, -⟩
    · exact h
    · exfalso
      apply h
      left
      unfold segAngle
      simp only [e1]
      rw [show stdR.nullAngleValue = 1 / 1000 from rfl]
      have hpi := Real.two_le_pi
      have hc := Real.cos_lt_one_div_sqrt_sq_add_one (x := 1 / 1000) (by linarith) (by linarith) (by norm_num)
      rw [← Real.arccos_cos (x := 1 / 1000) (by norm_num) (by linarith)]
      apply Real.arccos_lt_arccos (Real.neg_one_le_cos _)
      · refine hc.trans_le ?_
        have hL := e2.2
        have hs : (0:ℝ) < √((1 / 1000) ^ 2 + 1) := Real.sqrt_pos.2 (by norm_num)
        rw [div_le_div_iff₀ hs (by linarith)]
        have h3 : eucl (0, 0) (500, 1 / 10) ≤ 500 * √((1 / 1000) ^ 2 + 1) := by
          rw [eucl_le_iff' (by positivity), eucl_sq, mul_pow, Real.sq_sqrt (by norm_num)]; norm_num
        have h4 : |((1000:ℝ) - 0) * (500 - 0) + (0 - 0) * (1 / 10 - 0)| = 500000 := by norm_num
        rw [h4]; linarith
      · have hL := e2.2
        rw [div_le_one (by linarith)]
        have h4 : |((1000:ℝ) - 0) * (500 - 0) + (0 - 0) * (1 / 10 - 0)| = 500000 := by norm_num
        rw [h4]; linarith

/-! ## C37 -/

/-- **C37, two points.** The circle built from two points is the smallest one enclosing them. -/
theorem C37_two (t : Thr ℝ) (flag : Bool) (rnd : ℕ → ℕ) (p q : Pt ℝ) :
    ((circleOfPts t flag rnd [p, q]).1 = .throw ↔ eucl p q < t.nullDistance) ∧
    ∀ c, (circleOfPts t flag rnd [p, q]).1 = .ok c → IsMEC [p, q] c.center c.radius := by
  show (circle2 t p q = .throw ↔ _) ∧ ∀ c, circle2 t p q = .ok c → _
  rcases circle2_spec (t := t) p q with ⟨h, e⟩ | ⟨h, e⟩
  · rw [e]; simp [h]
  · rw [e]
    refine ⟨by simp [h], fun c hc => ?_⟩
    simp only [Res.ok.injEq] at hc
    subst hc
    obtain ⟨m1, m2⟩ := eucl_mid p q
    refine ⟨by have := eucl_nonneg p q; simp only; linarith, ?_, fun o' r' h' => ?_⟩
    · intro x hx
      simp only [List.mem_cons, List.not_mem_nil, or_false] at hx
      rcases hx with rfl | rfl
      · exact m1.le
      · exact m2.le
    · have a1 := h' p (by simp)
      have a2 := h' q (by simp)
      have := eucl_triangle p o' q
      rw [eucl_comm o' q] at this
      simp only; linarith

/-- **C37 (partial).** From four points or more, whatever the random choices, the circle built encloses all the points and no smaller circle does.
Missing: sets of three points (`C37_false`); nearly horizontal or vertical pairs (`C01_false`, `C06_false`). -/
theorem C37_mec_partial (t : Thr ℝ) (h1 : dblEps < t.nullDistance) (h2 : 0 < t.nullAngleValue) (flag : Bool) (rnd : ℕ → ℕ) (pts : List (Pt ℝ))
    (h4 : 4 ≤ pts.length) (hg : ∀ p ∈ pts, ∀ q ∈ pts, GoodPair t p q) :
    (circleOfPts t flag rnd pts).1 ≠ .ub ∧ ∀ c, (circleOfPts t flag rnd pts).1 = .ok c → IsMEC pts c.center c.radius := by
  obtain ⟨w1, w2, -⟩ := circleOfPts_spec (by linarith [dblEps_pos]) flag rnd h4 (trip_sound h1 h2 hg)
  have hne : pts ≠ [] := by rintro rfl; simp at h4
  exact ⟨w2, fun c hc => (best_mec hne c).1 (w1 c hc)⟩

/-- **C37, success (partial).** If moreover the points are at least the null distance apart, and every three of them are exactly collinear or far enough from that for the library, the circle is built
(and the check of the radius is on afterwards). -/
theorem C37_built_partial (t : Thr ℝ) (h1 : dblEps < t.nullDistance) (h2 : 0 < t.nullAngleValue) (flag : Bool) (rnd : ℕ → ℕ) (pts : List (Pt ℝ))
    (h4 : 4 ≤ pts.length) (hg : ∀ p ∈ pts, ∀ q ∈ pts, GoodPair t p q) (hd : pts.Pairwise (fun a b => t.nullDistance ≤ eucl a b))
    (h3 : ∀ a ∈ pts, ∀ b ∈ pts, ∀ c ∈ pts, turnAt a b c ≠ 0 → ¬ NearCollinear t a b c ∧ ¬ ThinAngle t a b c) :
    ∃ c, circleOfPts t flag rnd pts = (.ok c, false) ∧ IsMEC pts c.center c.radius := by
  obtain ⟨w1, w2, w3⟩ := circleOfPts_spec (by linarith [dblEps_pos]) flag rnd h4 (trip_total h1 h2 hg h3)
  have hne : pts ≠ [] := by rintro rfl; simp at h4
  obtain ⟨c, hc⟩ := w3 rfl hd
  exact ⟨c, hc, (best_mec hne c).1 (w1 c (by rw [hc]))⟩

/-- **C37, random choices (partial).** Neither the random choices nor the order of the points change the circle. -/
theorem C37_random_partial (t : Thr ℝ) (h1 : dblEps < t.nullDistance) (h2 : 0 < t.nullAngleValue) (flag flag' : Bool) (rnd rnd' : ℕ → ℕ) (pts pts' : List (Pt ℝ))
    (hp : pts.Perm pts') (h4 : 4 ≤ pts.length) (hg : ∀ p ∈ pts, ∀ q ∈ pts, GoodPair t p q) (c c' : Circle)
    (hc : (circleOfPts t flag rnd pts).1 = .ok c) (hc' : (circleOfPts t flag' rnd' pts').1 = .ok c') : c = c' := by
  have h0 : 0 < t.nullDistance := by linarith [dblEps_pos]
  have hg' : ∀ p ∈ pts', ∀ q ∈ pts', GoodPair t p q := fun p hp' q hq' => hg p (hp.mem_iff.2 hp') q (hp.mem_iff.2 hq')
  have b1 := (circleOfPts_spec h0 flag rnd h4 (trip_sound h1 h2 hg)).1 c hc
  have b2 := (circleOfPts_spec h0 flag' rnd' (by rw [← hp.length_eq]; exact h4) (trip_sound h1 h2 hg')).1 c' hc'
  have hne : pts ≠ [] := by rintro rfl; simp at h4
  exact best_unique hne b1 (b2.perm hp.symm)

/-- The hypotheses of the above are met by the corners of a rectangle; the circle has radius 5/2. -/
example : ∃ c, (circleOfPts stdR false (fun k => k * k + 1) [(0, 0), (3, 4), (3, 0), (0, 4)]) = (.ok c, false) ∧ c.radius = 5 / 2 := rect_circle _ _

/-- **C37 is false of the code for three points**: the circle through them is built, even when a smaller one encloses them. -/
theorem C37_false : ∃ pts c, ∀ flag rnd, (circleOfPts stdR flag rnd pts).1 = .ok c ∧ ¬ IsMEC pts c.center c.radius := by
  have e1 : eucl ((0:ℝ), (0:ℝ)) (4, 0) = 4 := by rw [eucl_eq_iff (by norm_num)]; norm_num
  have e2 : eucl (0, 0) (2, 1) ≤ 9 / 4 ∧ 2 ≤ eucl (0, 0) (2, 1) := by
    constructor
    · rw [eucl_le_iff' (by norm_num), eucl_sq]; norm_num
    · rw [← sq_le_sq₀ (by norm_num) (eucl_nonneg _ _), eucl_sq]; norm_num
  have e3 : eucl (4, 0) (2, 1) ≤ 9 / 4 ∧ 2 ≤ eucl (4, 0) (2, 1) := by
    constructor
    · rw [eucl_le_iff' (by norm_num), eucl_sq]; norm_num
    · rw [← sq_le_sq₀ (by norm_num) (eucl_nonneg _ _), eucl_sq]; norm_num
  have g1 : GoodPair stdR (0, 0) (4, 0) := ⟨Or.inl rfl, Or.inr (by rw [e1]; norm_num [stdR])⟩
  have g2 : GoodPair stdR (0, 0) (2, 1) := by
    have : stdR.nullDenom * eucl (0, 0) (2, 1) ≤ stdR.nullDenom * (9 / 4) := mul_le_mul_of_nonneg_left e2.1 (by norm_num [stdR])
    exact ⟨Or.inr (this.trans (by norm_num [stdR, abs_of_pos])), Or.inr (this.trans (by norm_num [stdR, abs_of_pos]))⟩
  have g3 : GoodPair stdR (4, 0) (2, 1) := by
    have : stdR.nullDenom * eucl (4, 0) (2, 1) ≤ stdR.nullDenom * (9 / 4) := mul_le_mul_of_nonneg_left e3.1 (by norm_num [stdR])
    exact ⟨Or.inr (this.trans (by norm_num [stdR, abs_of_pos])), Or.inr (this.trans (by norm_num [stdR, abs_of_pos]))⟩
  have hd : dblEps < stdR.nullDistance := by norm_num [stdR, dblEps]
  have hm : max (max (eucl (0, 0) (4, 0)) (eucl (0, 0) (2, 1))) (eucl (4, 0) (2, 1)) = (4 : ℝ) := by
    rw [e1, max_eq_left (le_max_of_le_left (by linarith [e3.1])), max_eq_left (by linarith [e2.1])]
  have hn : ¬ NearCollinear stdR (0, 0) (4, 0) (2, 1) := by
    unfold NearCollinear
    rw [hm, e1]
    have : stdR.nullDistance < 1 := by norm_num [stdR]
    rintro ((h | h | h) | h)
    · linarith
    · linarith
    · linarith
    · norm_num [stdR, turnAt, abs_of_pos] at h
  have ht : ¬ ThinAngle stdR (0, 0) (4, 0) (2, 1) := by
    have key : ∀ x : ℝ, x ≤ 99 / 100 → ¬ Real.arccos x < stdR.nullAngleValue := by
      intro x hx h
      have h1 := Real.cos_le_cos_of_nonneg_of_le_pi (Real.arccos_nonneg x) (by have := Real.two_le_pi; norm_num [stdR]; linarith) h.le
      have h2 := Real.one_sub_sq_div_two_le_cos (x := stdR.nullAngleValue)
      have h3 : Real.cos (Real.arccos x) ≤ 99 / 100 := by
        rcases le_total (-1) x with h4 | h4
        · rw [Real.cos_arccos h4 (by linarith)]; exact hx
        · rw [Real.arccos_of_le_neg_one h4]; simp; norm_num
      norm_num [stdR] at h1 h2
      linarith
    have e2' : (221 / 100 : ℝ) ≤ eucl (0, 0) (2, 1) := by rw [← sq_le_sq₀ (by norm_num) (eucl_nonneg _ _), eucl_sq]; norm_num
    have e3' : (221 / 100 : ℝ) ≤ eucl (4, 0) (2, 1) := by rw [← sq_le_sq₀ (by norm_num) (eucl_nonneg _ _), eucl_sq]; norm_num
    unfold ThinAngle segAngle
    simp only [e1, eucl_comm (4, 0) (0, 0), eucl_comm (2, 1) (0, 0), eucl_comm (2, 1) (4, 0), not_or]
    refine ⟨key _ ?_, key _ ?_, key _ ?_⟩
    · rw [div_le_iff₀ (by linarith)]; norm_num [abs_of_pos]; linarith
    · rw [div_le_iff₀ (by linarith)]; norm_num [abs_of_pos]; linarith
    · rw [div_le_iff₀ (by nlinarith)]; norm_num [abs_of_pos]; nlinarith
  rcases circle3_spec (t := stdR) hd (by norm_num [stdR]) g1 g2 g3 with ⟨h, -⟩ | ⟨-, -, c, h, q1, q2, q3⟩
  · exact absurd h (by tauto)
  · refine ⟨[(0, 0), (4, 0), (2, 1)], c, fun flag rnd => ⟨h, ?_⟩⟩
    rintro ⟨-, -, hmin⟩
    have hc := hmin (2, 0) 2 (by
      simp only [List.mem_cons, List.not_mem_nil, or_false, forall_eq_or_imp, forall_eq]
      refine ⟨?_, ?_, ?_⟩ <;> rw [eucl_le_iff' (by norm_num), eucl_sq] <;> norm_num)
    have s1 := congrArg (· ^ 2) q1
    have s2 := congrArg (· ^ 2) q2
    have s3 := congrArg (· ^ 2) q3
    simp only [eucl_sq] at s1 s2 s3
    have hr := eucl_nonneg (0, 0) c.center
    rw [q1] at hr
    have x2 : c.center.1 = 2 := by nlinarith
    rw [x2] at s1 s3
    have y2 : c.center.2 = - 3 / 2 := by nlinarith
    rw [y2] at s1
    nlinarith

/-- **C37 is false of the code when points are repeated**: nothing is built from copies of the same point. -/
theorem C37_repeated_false (t : Thr ℝ) (h0 : 0 < t.nullDistance) (flag : Bool) (p : Pt ℝ) (n : ℕ) (hn : 4 ≤ n) (rnd : ℕ → ℕ) :
    circleOfPts t flag rnd (List.replicate n p) = (.throw, true) ∧ IsMEC (List.replicate n p) p 0 := by
  constructor
  · rw [circleOfPts_four flag rnd (by simpa using hn)]
    have e := (welzl_replicate h0 p rnd n).2.2 n 0 (by omega) (le_refl _)
    simp only [List.length_replicate, e]
  · refine ⟨le_refl _, ?_, fun o' r' h => ?_⟩
    · intro q hq; rw [List.eq_of_mem_replicate hq, eucl_self]
    · exact (eucl_nonneg p o').trans (h p (List.mem_replicate.2 ⟨by omega, rfl⟩))

/-! ## C38 -/

/-- **C38 (partial).** The computation never meets a division by 0 nor the root of a negative number; the points reported are on both circles; when the circles are not equal for the library, every common point is reported, up to
the null distance when both points are closer than that; nothing is reported when the circles are too far apart, one inside the other, or with the same center.
Missing: different circles that the library considers as equal (`C38_false`). -/
theorem C38_inter_partial (t : Thr ℝ) (h0 : 0 < t.nullDistance) (a b : Circle) (ha : 0 ≤ a.radius) (hb : 0 ≤ b.radius) :
    ∃ pts, circInter t a b = some pts ∧ pts.length ≤ 2 ∧
      (∀ p ∈ pts, eucl p a.center = a.radius ∧ eucl p b.center = b.radius) ∧
      (¬ CircEq t a b → (∀ q, eucl q a.center = a.radius → eucl q b.center = b.radius → q ∈ pts) ∨
        ∃ p, pts = [p] ∧ ∀ q, eucl q a.center = a.radius → eucl q b.center = b.radius → eucl p q < t.nullDistance) ∧
      (a.radius + b.radius < eucl a.center b.center ∨ eucl a.center b.center < |a.radius - b.radius| ∨ a.center = b.center → pts = []) := by
  obtain ⟨⟨x1, y1⟩, r1⟩ := a
  obtain ⟨⟨x2, y2⟩, r2⟩ := b
  simp only at ha hb
  unfold circInter
  by_cases heq : CircEq t ⟨(x1, y1), r1⟩ ⟨(x2, y2), r2⟩
  · rw [if_pos heq]
    exact ⟨[], rfl, by simp, by simp, fun h => absurd heq h, fun _ => rfl⟩
  · rw [if_neg heq]
    simp only
    simp only [CircEq, PtEq, ptDist_eucl] at heq
    have hD := eucl_sq (x1, y1) (x2, y2)
    simp only at hD
    have hd0 := eucl_nonneg (x1, y1) (x2, y2)
    set d := eucl (x1, y1) (x2, y2) with hd
    have e2 : (x1 - x2) * (x1 - x2) + (y1 - y2) * (y1 - y2) = d ^ 2 := by rw [hD]; ring
    rw [e2]
    -- equations of a common point
    have circ : ∀ {q : Pt ℝ} {x y r : ℝ}, 0 ≤ r → (eucl q (x, y) = r ↔ (q.1 - x) ^ 2 + (q.2 - y) ^ 2 = r ^ 2) := fun hr => eucl_eq_iff hr
    -- necessary conditions for a common point
    have nec : ∀ q, eucl q (x1, y1) = r1 → eucl q (x2, y2) = r2 → d ≤ r1 + r2 ∧ |r1 - r2| ≤ d := by
      intro q h1 h2
      have t1 := eucl_triangle (x1, y1) q (x2, y2)
      have t2 := eucl_triangle q (x1, y1) (x2, y2)
      have t3 := eucl_triangle q (x2, y2) (x1, y1)
      rw [eucl_comm (x1, y1) q] at t1
      rw [eucl_comm (x2, y2) (x1, y1)] at t3
      rw [h1, h2] at t1 t2 t3
      rw [abs_le]
      refine ⟨by linarith, by linarith, by linarith⟩
    by_cases c1 : d ^ 2 > r1 * r1 + r2 * r2 + 2 * r1 * r2
    · rw [if_pos c1]
      refine ⟨[], rfl, by simp, by simp, fun _ => Or.inl fun q h1 h2 => ?_, fun _ => rfl⟩
      have := (nec q h1 h2).1
      nlinarith
    rw [if_neg c1]
    by_cases c2 : d ^ 2 < r1 * r1 + r2 * r2 - 2 * r1 * r2
    · rw [if_pos c2]
      refine ⟨[], rfl, by simp, by simp, fun _ => Or.inl fun q h1 h2 => ?_, fun _ => rfl⟩
      have := (nec q h1 h2).2
      have h3 : (r1 - r2) ^ 2 ≤ d ^ 2 := by rw [← sq_abs]; exact pow_le_pow_left₀ (abs_nonneg _) this 2
      nlinarith
    rw [if_neg c2]
    have f1 : d ^ 2 ≤ (r1 + r2) ^ 2 := by nlinarith
    have f2 : (r1 - r2) ^ 2 ≤ d ^ 2 := by nlinarith
    have hdpos : 0 < d := by
      rcases hd0.eq_or_lt with h | h
      · exfalso
        rw [← h] at f2 heq
        have : r1 - r2 = 0 := pow_eq_zero_iff two_ne_zero |>.1 (le_antisymm (by simpa using f2) (sq_nonneg _))
        exact heq ⟨by linarith, h0⟩
      · exact h
    rw [Real.sqrt_sq hd0]
    set k := (r1 * r1 - r2 * r2 + d ^ 2) / 2 / d with hk
    have hk2 : 2 * d * k = r1 ^ 2 - r2 ^ 2 + d ^ 2 := by rw [hk]; field_simp
    have hh : 0 ≤ r1 * r1 - k * k := by
      have : 0 ≤ 4 * d ^ 2 * (r1 * r1 - k * k) := by
        have e : 4 * d ^ 2 * (r1 * r1 - k * k) = ((r1 + r2) ^ 2 - d ^ 2) * (d ^ 2 - (r1 - r2) ^ 2) := by
          have : 4 * d ^ 2 * (k * k) = (r1 ^ 2 - r2 ^ 2 + d ^ 2) ^ 2 := by rw [← hk2]; ring
          linear_combination (-1) * this
        rw [e]; exact mul_nonneg (by linarith) (by linarith)
      by_contra hneg
      have : 4 * d ^ 2 * (r1 * r1 - k * k) < 0 := mul_neg_of_pos_of_neg (by positivity) (not_le.1 hneg)
      linarith
    rw [if_neg (by push Not; exact ⟨hdpos.ne', hh⟩)]
    have hs : Real.sqrt (r1 * r1 - k * k) ^ 2 = r1 * r1 - k * k := Real.sq_sqrt hh
    set h := Real.sqrt (r1 * r1 - k * k) with hhd
    set p3 : Pt ℝ := ((x2 - x1) * k / d + x1 + (y1 - y2) * h / d, (y2 - y1) * k / d + y1 - (x1 - x2) * h / d) with hp3
    set p4 : Pt ℝ := ((x2 - x1) * k / d + x1 - (y1 - y2) * h / d, (y2 - y1) * k / d + y1 + (x1 - x2) * h / d) with hp4
    have hdne := hdpos.ne'
    have on3 : eucl p3 (x1, y1) = r1 ∧ eucl p3 (x2, y2) = r2 := by
      rw [circ ha, circ hb, hp3]
      constructor
      · field_simp
        linear_combination (k ^ 2 + h ^ 2) * (-hD) + d ^ 2 * hs
      · field_simp
        linear_combination ((d - k) ^ 2 + h ^ 2) * (-hD) + d ^ 2 * hs - d ^ 2 * hk2
    have on4 : eucl p4 (x1, y1) = r1 ∧ eucl p4 (x2, y2) = r2 := by
      rw [circ ha, circ hb, hp4]
      constructor
      · field_simp
        linear_combination (k ^ 2 + h ^ 2) * (-hD) + d ^ 2 * hs
      · field_simp
        linear_combination ((d - k) ^ 2 + h ^ 2) * (-hD) + d ^ 2 * hs - d ^ 2 * hk2
    have all : ∀ q, eucl q (x1, y1) = r1 → eucl q (x2, y2) = r2 → q = p3 ∨ q = p4 := by
      intro q h1 h2
      rw [circ ha] at h1
      rw [circ hb] at h2
      set u := ((q.1 - x1) * (x2 - x1) + (q.2 - y1) * (y2 - y1)) / d with hu
      set v := ((q.1 - x1) * (y1 - y2) + (q.2 - y1) * (x2 - x1)) / d with hv
      have hud : u * d = (q.1 - x1) * (x2 - x1) + (q.2 - y1) * (y2 - y1) := by rw [hu]; field_simp
      have hvd : v * d = (q.1 - x1) * (y1 - y2) + (q.2 - y1) * (x2 - x1) := by rw [hv]; field_simp
      have huk : u = k := by
        have : 2 * d * u = 2 * d * k := by rw [hk2]; linear_combination 2 * hud + h1 - h2 + (-1) * hD
        exact mul_left_cancel₀ (by positivity) this
      have q1 : q.1 = x1 + (u * (x2 - x1) + v * (y1 - y2)) / d := by
        field_simp
        apply mul_left_cancel₀ hdne
        linear_combination q.1 * d ^ 0 * (hD) * 1 + (-(x2 - x1)) * hud - (y1 - y2) * hvd - x1 * hD
      have q2 : q.2 = y1 + (u * (y2 - y1) + v * (x2 - x1)) / d := by
        field_simp
        apply mul_left_cancel₀ hdne
        linear_combination q.2 * hD + (-(y2 - y1)) * hud - (x2 - x1) * hvd - y1 * hD
      have hv2 : v ^ 2 = h ^ 2 := by
        rw [hs]
        have : d ^ 2 * (u ^ 2 + v ^ 2) = d ^ 2 * r1 ^ 2 := by
          rw [← h1]
          have : d ^ 2 * (u ^ 2 + v ^ 2) = (u * d) ^ 2 + (v * d) ^ 2 := by ring
          rw [this, hud, hvd, hD]; ring
        have := mul_left_cancel₀ (pow_ne_zero 2 hdne) this
        rw [huk] at this; linarith
      rcases sq_eq_sq_iff_eq_or_eq_neg.1 hv2 with hv' | hv'
      · left
        rw [huk, hv'] at q1 q2
        refine Prod.ext ?_ ?_
        · rw [q1, hp3]; simp only; field_simp; ring
        · rw [q2, hp3]; simp only; field_simp; ring
      · right
        rw [huk, hv'] at q1 q2
        refine Prod.ext ?_ ?_
        · rw [q1, hp4]; simp only; field_simp; ring
        · rw [q2, hp4]; simp only; field_simp; ring
    have last : (r1 + r2 < d ∨ d < |r1 - r2| ∨ (x1, y1) = (x2, y2)) → False := by
      rintro (g | g | g)
      · nlinarith
      · have : d ^ 2 < (r1 - r2) ^ 2 := by rw [← sq_abs (r1 - r2)]; exact pow_lt_pow_left₀ g hd0 two_ne_zero
        linarith
      · rw [hd, g, eucl_self] at hdpos; exact lt_irrefl _ hdpos
    refine ⟨_, rfl, by split_ifs <;> simp, ?_, fun _ => ?_, fun g => (last g).elim⟩
    · intro p hp
      split_ifs at hp
      · rw [List.mem_singleton.1 hp]; exact on3
      · simp only [List.mem_cons, List.not_mem_nil, or_false] at hp
        rcases hp with hp | hp <;> rw [hp]
        · exact on3
        · exact on4
    · split_ifs with hc
      · right
        refine ⟨p3, rfl, fun q h1 h2 => ?_⟩
        rcases all q h1 h2 with hq | hq <;> rw [hq]
        · rw [eucl_self]; exact h0
        · rwa [PtEq, ptDist_eucl] at hc
      · left
        intro q h1 h2
        rcases all q h1 h2 with hq | hq <;> rw [hq] <;> simp

/-- The hypotheses of C38 are met by intersecting circles, and the points are found. -/
example : ∃ pts, circInter stdR ⟨(0, 0), 5⟩ ⟨(6, 0), 5⟩ = some pts ∧ (3, 4) ∈ pts ∧ (3, -4) ∈ pts := by
  obtain ⟨pts, h1, -, -, h2, -⟩ := C38_inter_partial stdR (by norm_num [stdR]) ⟨(0, 0), 5⟩ ⟨(6, 0), 5⟩ (by norm_num) (by norm_num)
  have e1 : eucl (3, 4) (0, 0) = 5 := by rw [eucl_eq_iff (by norm_num)]; norm_num
  have e2 : eucl (3, 4) (6, 0) = 5 := by rw [eucl_eq_iff (by norm_num)]; norm_num
  have e3 : eucl (3, -4) (0, 0) = 5 := by rw [eucl_eq_iff (by norm_num)]; norm_num
  have e4 : eucl (3, -4) (6, 0) = 5 := by rw [eucl_eq_iff (by norm_num)]; norm_num
  have e5 : eucl (0, 0) (6, 0) = 6 := by rw [eucl_eq_iff (by norm_num)]; norm_num
  have e6 : eucl (3, 4) (3, -4) = 8 := by rw [eucl_eq_iff (by norm_num)]; norm_num
  have hn : ¬ CircEq stdR ⟨(0, 0), 5⟩ ⟨(6, 0), 5⟩ := by
    rintro ⟨-, h⟩
    rw [PtEq, ptDist_eucl, e5] at h; norm_num [stdR] at h
  rcases h2 hn with h | ⟨p, -, h⟩
  · exact ⟨pts, h1, h _ e1 e2, h _ e3 e4⟩
  · exfalso
    have a1 := h _ e1 e2
    have a2 := h _ e3 e4
    have := eucl_triangle (3, 4) p (3, -4)
    rw [eucl_comm _ p, e6] at this
    have : stdR.nullDistance < 1 := by norm_num [stdR]
    linarith

/-- **C38 is false of the code** for circles with the same radius and centers closer than the null distance: they meet, and nothing is reported. -/
theorem C38_false (t : Thr ℝ) (h0 : 0 < t.nullDistance) (r : ℝ) (hr : t.nullDistance ≤ r) :
    ∃ a b q, circleMake t false a.center a.radius = .ok a ∧ circleMake t false b.center b.radius = .ok b ∧ a ≠ b ∧ a.radius = r ∧
      eucl q a.center = a.radius ∧ eucl q b.center = b.radius ∧ circInter t a b = some [] := by
  set n := t.nullDistance with hn
  refine ⟨⟨(0, 0), r⟩, ⟨(n / 2, 0), r⟩, (n / 4, Real.sqrt (r ^ 2 - (n / 4) ^ 2)), (C35_check t h0 _ r).2 hr, (C35_check t h0 _ r).2 hr, ?_, rfl, ?_, ?_, ?_⟩
  · intro h; simp at h; linarith
  · simp only
    rw [eucl_eq_iff (by linarith)]; simp only [sub_zero]
    rw [Real.sq_sqrt (by nlinarith)]; ring
  · simp only
    rw [eucl_eq_iff (by linarith)]; simp only [sub_zero]
    rw [Real.sq_sqrt (by nlinarith)]; ring
  · unfold circInter
    rw [if_pos]
    refine ⟨rfl, ?_⟩
    rw [PtEq, ptDist_eucl, eucl_lt_iff h0]
    simp only; nlinarith

end H2d.Props
