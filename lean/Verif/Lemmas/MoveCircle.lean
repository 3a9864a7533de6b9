import Verif.Lemmas.MoveMore
import Verif.Model.Hull

/-! # Lemmas on moving circles and hulls -/

namespace H2d.Move
open H2d H2d.Spec

variable (d : Pt ℝ)

theorem ptEq_mv (t : Thr ℝ) (p q : Pt ℝ) : PtEq t (mvP d p) (mvP d q) ↔ PtEq t p q := by rw [PtEq, ptDist_mv]

theorem omap_ite {α β : Type} (f : α → β) (c : Prop) [Decidable c] (x y : Option α) : Option.map f (if c then x else y) = if c then x.map f else y.map f := map_ite' f c x y

theorem circInter_mv (t : Thr ℝ) (a b : Circle) : circInter t (mvC d a) (mvC d b) = (circInter t a b).map (List.map (mvP d)) := by
  have e : ∀ u v w : ℝ, u + w - (v + w) = u - v := fun u v w => by ring
  unfold circInter
  dsimp only
  rw [omap_ite, omap_ite, omap_ite, omap_ite]
  have ex : ((mvC d a).center.1 - (mvC d b).center.1) = a.center.1 - b.center.1 := e _ _ _
  have ey : ((mvC d a).center.2 - (mvC d b).center.2) = a.center.2 - b.center.2 := e _ _ _
  have ex' : ((mvC d b).center.1 - (mvC d a).center.1) = b.center.1 - a.center.1 := e _ _ _
  have ey' : ((mvC d b).center.2 - (mvC d a).center.2) = b.center.2 - a.center.2 := e _ _ _
  rw [ex, ey, ex', ey']
  have er : (mvC d a).radius = a.radius := rfl
  have er' : (mvC d b).radius = b.radius := rfl
  refine if_congr (by rw [CircEq, CircEq, er, er']; exact and_congr_right fun _ => ptEq_mv d t _ _) rfl
    (if_congr Iff.rfl rfl (if_congr Iff.rfl rfl (if_congr Iff.rfl rfl ?_)))
  rw [Option.map_some]
  have hl : ∀ (c : Prop) [Decidable c] (x y : List (Pt ℝ)), List.map (mvP d) (if c then x else y) = if c then x.map (mvP d) else y.map (mvP d) := by
    intro c _ x y; split_ifs <;> rfl
  rw [hl, er, er']
  congr 1
  generalize Real.sqrt ((a.center.1 - b.center.1) * (a.center.1 - b.center.1) + (a.center.2 - b.center.2) * (a.center.2 - b.center.2)) = D
  generalize (a.radius * a.radius - b.radius * b.radius + ((a.center.1 - b.center.1) * (a.center.1 - b.center.1) + (a.center.2 - b.center.2) * (a.center.2 - b.center.2))) / 2 / D = k
  generalize Real.sqrt (a.radius * a.radius - k * k) = h
  have q3 : (((b.center.1 - a.center.1) * k / D + (mvC d a).center.1 + (a.center.2 - b.center.2) * h / D, (b.center.2 - a.center.2) * k / D + (mvC d a).center.2 - (a.center.1 - b.center.1) * h / D) : Pt ℝ) =
      mvP d ((b.center.1 - a.center.1) * k / D + a.center.1 + (a.center.2 - b.center.2) * h / D, (b.center.2 - a.center.2) * k / D + a.center.2 - (a.center.1 - b.center.1) * h / D) := by
    apply Prod.ext <;> simp only [mvC, mvP] <;> ring
  have q4 : (((b.center.1 - a.center.1) * k / D + (mvC d a).center.1 - (a.center.2 - b.center.2) * h / D, (b.center.2 - a.center.2) * k / D + (mvC d a).center.2 + (a.center.1 - b.center.1) * h / D) : Pt ℝ) =
      mvP d ((b.center.1 - a.center.1) * k / D + a.center.1 - (a.center.2 - b.center.2) * h / D, (b.center.2 - a.center.2) * k / D + a.center.2 + (a.center.1 - b.center.1) * h / D) := by
    apply Prod.ext <;> simp only [mvC, mvP] <;> ring
  rw [q3, q4]
  exact if_congr (ptEq_mv d t _ _) rfl rfl

theorem circle2_mv (t : Thr ℝ) (p q : Pt ℝ) : circle2 t (mvP d p) (mvP d q) = after (mvC d) (circle2 t p q) := by
  unfold circle2
  rw [after_ite, segMake_mv, bind_after, after_bind]
  refine if_congr (ptEq_mv d t _ _) rfl (bind_same fun s _ => ?_)
  rw [center_mv, segLength, mvS_1, mvS_2, ptDist_mv]
  rfl

theorem largest_mv (p q r : Pt ℝ) : largestDistancePoints (mvP d p) (mvP d q) (mvP d r) =
    (mvP d (largestDistancePoints p q r).1, mvP d (largestDistancePoints p q r).2.1, mvP d (largestDistancePoints p q r).2.2) := by
  unfold largestDistancePoints
  simp only [sqDist_mv]
  split_ifs <;> rfl

/-- All pairs of three points. -/
def Three (P : Pt ℝ → Pt ℝ → Prop) (p q r : Pt ℝ) : Prop := P p q ∧ P q p ∧ P p r ∧ P r p ∧ P q r ∧ P r q

theorem three_largest {P : Pt ℝ → Pt ℝ → Prop} {p q r : Pt ℝ} (h : Three P p q r) :
    P (largestDistancePoints p q r).1 (largestDistancePoints p q r).2.1 ∧ P (largestDistancePoints p q r).1 (largestDistancePoints p q r).2.2 := by
  obtain ⟨h1, h2, h3, h4, h5, h6⟩ := h
  unfold largestDistancePoints
  dsimp only
  split_ifs <;> constructor <;> assumption

theorem both_ok {t : Thr ℝ} {p q : Pt ℝ} (h : MoveOkBoth t d p q) : MoveOk t d p q := h.imp id And.left

theorem both_symm {t : Thr ℝ} {p q : Pt ℝ} (h : MoveOkBoth t d p q) : MoveOkBoth t d q p := by
  rcases h with h | ⟨h1, h2⟩
  · exact Or.inl h
  · by_cases hd : d.1 = 0
    · exact Or.inl hd
    · refine Or.inr ⟨(ok_mv d (Or.inr h1)).resolve_left hd, ?_⟩
      rcases h2 with h2 | h2
      · exact Or.inl h2.symm
      · right
        rw [abs_sub_comm, eucl, show (q.1 - p.1) ^ 2 + (q.2 - p.2) ^ 2 = (p.1 - q.1) ^ 2 + (p.2 - q.2) ^ 2 by ring]
        exact h2

theorem collinear_mv {t : Thr ℝ} {p q r : Pt ℝ} (h : Three (MoveOkBoth t d) p q r) : areCollinear t (mvP d p) (mvP d q) (mvP d r) = areCollinear t p q r := by
  unfold areCollinear
  refine if_congr (or_congr (ptEq_mv d t _ _) (or_congr (ptEq_mv d t _ _) (ptEq_mv d t _ _))) rfl ?_
  dsimp only
  rw [largest_mv, lineOfPts_mv d (both_ok d (three_largest h).1), bind_after]
  refine bind_same fun l _ => ?_
  rw [lineDist_mv]

/-- Normalising a line keeps the proportion of its first two coefficients. -/
theorem norm_abs {t : Thr ℝ} {v r : V3 ℝ} (h : normalizeLine t v = .ok r) : |r 0| = |v 0| / Real.sqrt (v 0 * v 0 + v 1 * v 1) ∧ |r 1| = |v 1| / Real.sqrt (v 0 * v 0 + v 1 * v 1) := by
  rw [norm_steps] at h
  split_ifs at h with hs
  have hpos := lt_trans dblEps_pos (not_le.1 hs)
  cases h
  have e : ∀ i, |flipAll (fun i => v i / Real.sqrt (v 0 * v 0 + v 1 * v 1)) i| = |v i| / Real.sqrt (v 0 * v 0 + v 1 * v 1) := by
    intro i
    unfold flipAll
    split_ifs
    · rw [abs_neg, abs_div, abs_of_pos hpos]
    · rw [abs_div, abs_of_pos hpos]
  rw [← e 0, ← e 1]
  unfold flipLast
  split_ifs
  · constructor
    · rfl
    · exact abs_neg _
  · exact ⟨rfl, rfl⟩
  · exact ⟨rfl, rfl⟩

theorem bisector_mv {t : Thr ℝ} {s : Seg} (h : MoveOkBoth t d s.1 s.2) : segBisector t (mvS d s) = after (mvL d) (segBisector t s) := by
  unfold segBisector
  rw [segLine_mv d (both_ok d h), bind_after, after_bind, center_mv]
  refine bind_same fun l hl => ?_
  have hu := segLine_unit hl
  have hq : l 1 = 0 ∨ d.1 = 0 ∨ t.nullDenom ≤ |l 1| := by
    unfold segLine lineOfPts at hl
    split_ifs at hl
    have := (norm_abs hl).2
    have e0 : crossProd (mkPt s.1.1 s.1.2) (mkPt s.2.1 s.2.2) 0 = s.1.2 - s.2.2 := by simp [crossProd, mkPt]
    have e1 : crossProd (mkPt s.1.1 s.1.2) (mkPt s.2.1 s.2.2) 1 = s.2.1 - s.1.1 := by simp [crossProd, mkPt]
    rw [e0, e1] at this
    rcases h with h | ⟨-, h | h⟩
    · exact Or.inr (Or.inl h)
    · left
      rw [h, sub_self, abs_zero, zero_div] at this
      exact abs_eq_zero.1 this
    · right; right
      have e2 : Real.sqrt ((s.1.2 - s.2.2) * (s.1.2 - s.2.2) + (s.2.1 - s.1.1) * (s.2.1 - s.1.1)) = eucl s.1 s.2 := by
        unfold eucl; congr 1; ring
      rw [e2, abs_sub_comm] at this
      have hnn : 0 ≤ eucl s.1 s.2 := Real.sqrt_nonneg _
      rcases hnn.lt_or_eq with hp | hp
      · rw [this, le_div_iff₀ hp]; exact h
      · exfalso
        rcases normalizeLine_spec t (crossProd (mkPt s.1.1 s.1.2) (mkPt s.2.1 s.2.2)) with ⟨-, h2⟩ | ⟨h2, -⟩
        · rw [h2] at hl; cases hl
        · rw [e0, e1, e2, ← hp] at h2
          exact absurd h2 (not_lt.2 dblEps_pos.le)
  have sq1 : Real.sqrt (-l 1 * -l 1 + l 0 * l 0) = 1 := by
    unfold UnitNormal at hu
    rw [show -l 1 * -l 1 + l 0 * l 0 = 1 by nlinarith, Real.sqrt_one]
  unfold orthogLine lineOfValues
  rw [after_bind]
  have e : (![-mvL d l 1, mvL d l 0, mvL d l 1 * (mvP d (segCenter s)).1 - mvL d l 0 * (mvP d (segCenter s)).2] : V3 ℝ) =
      mvL d ![-l 1, l 0, l 1 * (segCenter s).1 - l 0 * (segCenter s).2] := by
    refine mvL_ext d rfl rfl ?_
    change l 1 * ((segCenter s).1 + d.1) - l 0 * ((segCenter s).2 + d.2) = l 1 * (segCenter s).1 - l 0 * (segCenter s).2 - -l 1 * d.1 - l 0 * d.2
    ring
  rw [e, norm_mv, bind_after]
  · refine bind_same fun o ho => norm_mv d ?_
    have hu' := norm_unit ho
    have := (norm_abs ho).1
    change |o 0| = |-l 1| / Real.sqrt (-l 1 * -l 1 + l 0 * l 0) at this
    rw [sq1, div_one, abs_neg] at this
    have sq2 : Real.sqrt (o 0 * o 0 + o 1 * o 1) = 1 := by
      unfold UnitNormal at hu'
      rw [show o 0 * o 0 + o 1 * o 1 = 1 by nlinarith, Real.sqrt_one]
    rcases hq with hq | hq | hq
    · right; left
      rw [hq, abs_zero] at this
      exact abs_eq_zero.1 this
    · exact Or.inl hq
    · right; right
      rw [sq2, mul_one, this]; exact hq
  · rcases hq with hq | hq | hq
    · right; left
      change -l 1 = 0
      rw [hq, neg_zero]
    · exact Or.inl hq
    · right; right
      change t.nullDenom * Real.sqrt (-l 1 * -l 1 + l 0 * l 0) ≤ |-l 1|
      rw [sq1, mul_one, abs_neg]; exact hq

theorem bisector_unit {t : Thr ℝ} {s : Seg} {l : V3 ℝ} (h : segBisector t s = .ok l) : UnitNormal l := by
  unfold segBisector orthogLine at h
  cases h1 : segLine t s with
  | throw => rw [h1] at h; cases h
  | ub => rw [h1] at h; cases h
  | ok m =>
    rw [h1] at h
    simp only [Res.bind_ok] at h
    cases h2 : lineOfValues t (-m 1) (m 0) (m 1 * (segCenter s).1 - m 0 * (segCenter s).2) with
    | throw => rw [h2] at h; cases h
    | ub => rw [h2] at h; cases h
    | ok o =>
      rw [h2] at h
      exact norm_unit h

theorem both_make {t : Thr ℝ} {p q : Pt ℝ} {s : Seg} (h : MoveOkBoth t d p q) (hs : segMake t false p q = .ok s) : MoveOkBoth t d s.1 s.2 := by
  rcases make_ends hs with rfl | rfl
  · exact h
  · exact both_symm d h

theorem circle3_mv {t : Thr ℝ} (ht : 0 < t.nullAngleValue) {p q r : Pt ℝ} (h : Three (MoveOkBoth t d) p q r) :
    circle3 t (mvP d p) (mvP d q) (mvP d r) = after (mvC d) (circle3 t p q r) := by
  unfold circle3
  rw [collinear_mv d h, after_bind]
  refine bind_same fun b _ => ?_
  rw [after_ite]
  refine if_congr Iff.rfl rfl ?_
  rw [largest_mv]
  dsimp only
  rw [segMake_mv, segMake_mv, bind_after, after_bind]
  refine bind_same fun s1 h1 => ?_
  rw [bind_after, after_bind]
  refine bind_same fun s2 h2 => ?_
  rw [bisector_mv d (both_make d (three_largest h).1 h1), bisector_mv d (both_make d (three_largest h).2 h2), bind_after, after_bind]
  refine bind_same fun l hl => ?_
  rw [bind_after, after_bind]
  refine bind_same fun m hm => ?_
  by_cases hp : IsParallel t l m
  · have hp' : IsParallel t (mvL d l) (mvL d m) := hp
    rw [if_pos hp, if_pos hp']; rfl
  have hp' : ¬ IsParallel t (mvL d l) (mvL d m) := hp
  rw [if_neg hp, if_neg hp', lineInter, lineInter, if_neg hp, if_neg hp', Res.bind_ok, Res.bind_ok]
  rw [cross_lines d (cross_ne ht (bisector_unit hl) (bisector_unit hm) hp), ptDist_mv]
  rfl

/-! ### minimum enclosing circle -/

theorem inCircle_mv (p : Pt ℝ) (c : Circle) : PtInCircle (mvP d p) (mvC d c) ↔ PtInCircle p c := by
  unfold PtInCircle mvC
  rw [ptDist_mv]

theorem valid_mv (c : Circle) (l : List (Pt ℝ)) : ValidCircle (mvC d c) (l.map (mvP d)) ↔ ValidCircle c l := by
  unfold ValidCircle
  rw [List.forall_mem_map]
  exact forall₂_congr fun p _ => inCircle_mv d p c

theorem trivial_mv {t : Thr ℝ} (ht : 0 < t.nullAngleValue) {S : Pt ℝ → Prop} (hS : ∀ p q, S p → S q → MoveOkBoth t d p q) {R : List (Pt ℝ)} (hR : ∀ p ∈ R, S p) (hn : R ≠ []) :
    minTrivial t (R.map (mvP d)) = after (mvC d) (minTrivial t R) := by
  match R, hn with
  | [a], _ =>
    simp only [List.map_cons, List.map_nil, minTrivial, circleMake]
    rw [after_ite, after_ite]
    rfl
  | [a, b], _ => exact circle2_mv d t a b
  | a :: b :: c :: P, _ =>
    have h3 : Three (MoveOkBoth t d) a b c := by
      have ha := hR a (by simp)
      have hb := hR b (by simp)
      have hc := hR c (by simp)
      exact ⟨hS _ _ ha hb, hS _ _ hb ha, hS _ _ ha hc, hS _ _ hc ha, hS _ _ hb hc, hS _ _ hc hb⟩
    simp only [List.map_cons, minTrivial]
    have hv : ∀ c1, ValidCircle (mvC d c1) (mvP d a :: mvP d b :: mvP d c :: P.map (mvP d)) ↔ ValidCircle c1 (a :: b :: c :: P) := fun c1 => valid_mv d c1 (a :: b :: c :: P)
    rw [circle2_mv, circle2_mv, circle2_mv, circle3_mv d ht h3, bind_after, after_bind]
    refine bind_same fun c1 _ => ?_
    rw [after_ite, bind_after, after_bind]
    refine if_congr (hv c1) rfl (bind_same fun c2 _ => ?_)
    rw [after_ite, bind_after, after_bind]
    refine if_congr (hv c2) rfl (bind_same fun c3 _ => ?_)
    rw [after_ite]
    exact if_congr (hv c3) rfl rfl

/-- The result of the recursion, moved. -/
def mvW (r : Res Circle × List (Pt ℝ) × ℕ) : Res Circle × List (Pt ℝ) × ℕ := (after (mvC d) r.1, r.2.1.map (mvP d), r.2.2)

theorem set_mem {S : Pt ℝ → Prop} {P : List (Pt ℝ)} (hP : ∀ p ∈ P, S p) {i : Nat} {q : Pt ℝ} (hq : S q) : ∀ p ∈ P.set i q, S p := by
  intro p hp
  rcases List.mem_or_eq_of_mem_set hp with h | rfl
  · exact hP p h
  · exact hq

theorem welzl_in {t : Thr ℝ} (rnd : ℕ → ℕ) {S : Pt ℝ → Prop} : ∀ (n k : ℕ) (P R : List (Pt ℝ)), (∀ p ∈ P, S p) → (∀ p ∈ (welzl t rnd n k P R).2.1, S p)
  | 0, k, P, R, hP => hP
  | n + 1, k, P, R, hP => by
    rw [welzl]
    split_ifs
    · exact hP
    · dsimp only
      cases h1 : P[rnd k % (n + 1)]? with
      | none => exact hP
      | some p =>
        cases h2 : P[n]? with
        | none => exact hP
        | some q =>
          have hP' := set_mem (i := n) (set_mem (i := rnd k % (n + 1)) hP (hP q (List.mem_of_getElem? h2))) (hP p (List.mem_of_getElem? h1))
          have ih := welzl_in (t := t) rnd n (k + 1) _ R hP'
          simp only
          rcases hw : welzl t rnd n (k + 1) ((P.set (rnd k % (n + 1)) q).set n p) R with ⟨_ | _ | _, P', k'⟩
          · rw [hw] at ih
            dsimp only
            split_ifs
            · exact ih
            · exact welzl_in rnd n k' P' _ ih
          · rw [hw] at ih; exact ih
          · rw [hw] at ih; exact ih

theorem welzl_mv {t : Thr ℝ} (ht : 0 < t.nullAngleValue) (rnd : ℕ → ℕ) {S : Pt ℝ → Prop} (hS : ∀ p q, S p → S q → MoveOkBoth t d p q) :
    ∀ (n k : ℕ) (P R : List (Pt ℝ)), (∀ p ∈ P, S p) → (∀ p ∈ R, S p) → (n ≠ 0 ∨ R ≠ []) →
    welzl t rnd n k (P.map (mvP d)) (R.map (mvP d)) = mvW d (welzl t rnd n k P R)
  | 0, k, P, R, _, hR, hn => by
    rw [welzl, welzl, trivial_mv d ht hS hR (hn.resolve_left (by simp))]
    rfl
  | n + 1, k, P, R, hP, hR, _ => by
    rw [welzl, welzl, List.length_map]
    by_cases h3 : R.length = 3
    · rw [if_pos h3, if_pos h3, trivial_mv d ht hS hR (by intro h; rw [h] at h3; simp at h3)]
      rfl
    · rw [if_neg h3, if_neg h3]
      dsimp only
      rw [List.getElem?_map, List.getElem?_map]
      cases h1 : P[rnd k % (n + 1)]? with
      | none => rfl
      | some p =>
        cases h2 : P[n]? with
        | none => rfl
        | some q =>
          have hp := hP p (List.mem_of_getElem? h1)
          have hP' := set_mem (i := n) (set_mem (i := rnd k % (n + 1)) hP (hP q (List.mem_of_getElem? h2))) hp
          have hR' : ∀ x ∈ R ++ [p], S x := by
            intro x hx
            rcases List.mem_append.1 hx with hx | hx
            · exact hR x hx
            · rw [List.mem_singleton.1 hx]; exact hp
          simp only [Option.map_some]
          rw [← List.map_set, ← List.map_set]
          have hin := welzl_in (t := t) rnd n (k + 1) _ R hP'
          by_cases h0 : n ≠ 0 ∨ R ≠ []
          · rw [welzl_mv ht rnd hS n (k + 1) _ R hP' hR h0]
            rcases hw : welzl t rnd n (k + 1) ((P.set (rnd k % (n + 1)) q).set n p) R with ⟨c | _ | _, P', k'⟩
            · rw [hw] at hin
              simp only [mvW, after]
              by_cases hc : PtInCircle p c
              · rw [if_pos hc, if_pos ((inCircle_mv d p c).2 hc)]
              · rw [if_neg hc, if_neg (fun h => hc ((inCircle_mv d p c).1 h))]
                have := welzl_mv ht rnd hS n k' P' (R ++ [p]) hin hR' (Or.inr (by simp))
                rw [List.map_append] at this
                exact this
            · rfl
            · rfl
          · obtain ⟨hn0, hR0⟩ : n = 0 ∧ R = [] := by
              constructor
              · by_contra h; exact h0 (Or.inl h)
              · by_contra h; exact h0 (Or.inr h)
            subst hn0
            subst hR0
            have hz : minTrivial t [] = .ok ⟨(0, 0), 0⟩ := by
              simp [minTrivial, circleMake]
            have hneg : ∀ x : Pt ℝ, ¬ PtInCircle x ⟨(0, 0), 0⟩ := fun x => not_lt.2 (Real.sqrt_nonneg _)
            simp only [List.map_nil, welzl, hz]
            rw [if_neg (hneg _), if_neg (hneg _)]
            simp only [List.nil_append]
            have := trivial_mv d ht hS (R := [p]) (by simpa using hp) (by simp)
            rw [List.map_cons, List.map_nil] at this
            rw [this]
            rfl

theorem circleOfPts_mv {t : Thr ℝ} (ht : 0 < t.nullAngleValue) (flag : Bool) (rnd : ℕ → ℕ) {pts : List (Pt ℝ)} (h : ∀ p ∈ pts, ∀ q ∈ pts, MoveOkBoth t d p q) :
    circleOfPts t flag rnd (pts.map (mvP d)) = (after (mvC d) (circleOfPts t flag rnd pts).1, (circleOfPts t flag rnd pts).2) := by
  match pts, h with
  | [], _ => rfl
  | [_], _ => rfl
  | [a, b], _ => simp only [List.map_cons, List.map_nil, circleOfPts, circle2_mv]
  | [a, b, c], h =>
    simp only [List.map_cons, List.map_nil, circleOfPts]
    rw [circle3_mv d ht]
    refine ⟨h _ (by simp) _ (by simp), h _ (by simp) _ (by simp), h _ (by simp) _ (by simp), h _ (by simp) _ (by simp), h _ (by simp) _ (by simp), h _ (by simp) _ (by simp)⟩
  | a :: b :: c :: e :: l, h =>
    have hw := welzl_mv d ht rnd (S := fun p => p ∈ a :: b :: c :: e :: l) (fun p q hp hq => h p hp q hq) (a :: b :: c :: e :: l).length 0 (a :: b :: c :: e :: l) []
      (fun p hp => hp) (by simp) (Or.inl (by simp))
    simp only [List.map_cons, circleOfPts]
    rw [List.map_nil, List.map_cons, List.map_cons, List.map_cons, List.map_cons] at hw
    have hlen : (mvP d a :: mvP d b :: mvP d c :: mvP d e :: List.map (mvP d) l).length = (a :: b :: c :: e :: l).length := by simp
    rw [hlen, hw]
    rcases welzl t rnd (a :: b :: c :: e :: l).length 0 (a :: b :: c :: e :: l) [] with ⟨r | _ | _, P', k'⟩
    · simp only [mvW, after]
      have hm : circleMake t true (mvC d r).center (mvC d r).radius = after (mvC d) (circleMake t true r.center r.radius) := by
        unfold circleMake
        rw [after_ite, after_ite]
        rfl
      rw [hm]
      cases circleMake t true r.center r.radius <;> rfl
    · rfl
    · rfl

/-! ### convex hull -/

theorem pivot_mv (l : List (Pt ℝ)) : getPivot (l.map (mvP d)) = getPivot l := by
  unfold getPivot
  rw [extreme_mv]
  cases getExtremePoint CardDir.bottom l <;> rfl

theorem comp_mv (l : List (Pt ℝ)) (piv : Nat) : hullComp (l.map (mvP d)) piv = hullComp l piv := by
  funext i j
  unfold hullComp
  rw [List.getElem?_map, List.getElem?_map, List.getElem?_map]
  cases l[piv]? with
  | none => rfl
  | some a =>
    cases l[i]? with
    | none => rfl
    | some b =>
      cases l[j]? with
      | none => rfl
      | some c => simp only [Option.map_some, mvP, add_sub_add_right_eq_sub]

theorem orient_mv (t : ℝ) (p q r : Pt ℝ) : chOrientation t (mvP d p) (mvP d q) (mvP d r) = chOrientation t p q r := by
  simp only [chOrientation, mvP, add_sub_add_right_eq_sub]

theorem hullPt_mv (l : List (Pt ℝ)) (v : List Nat) (i : Nat) : hullPt (l.map (mvP d)) v i = after (mvP d) (hullPt l v i) := by
  unfold hullPt
  cases v[i]? with
  | none => rfl
  | some k =>
    simp only [List.getElem?_map]
    cases l[k]? <;> rfl

theorem hullLoop_mv (t : ℝ) (l : List (Pt ℝ)) (v : List Nat) : ∀ (n i j k : Nat) (h f : List Nat), hullLoop t (l.map (mvP d)) v n i j k h f = hullLoop t l v n i j k h f
  | 0, _, _, _, _, _ => rfl
  | n + 1, i, j, k, h, f => by
    rw [hullLoop.eq_def, hullLoop.eq_def t l]
    simp only
    rw [hullPt_mv, hullPt_mv, hullPt_mv]
    rcases hullPt l v i with p | _ | _ <;> rcases hullPt l v j with q | _ | _ <;> rcases hullPt l v k with r | _ | _ <;> cases v[k]? <;> try rfl
    simp only [after, orient_mv]
    simp only [hullLoop_mv t l v n]

theorem hullCopy_mv (l : List (Pt ℝ)) : ∀ h : List Nat, hullCopy (l.map (mvP d)) h = after (List.map (mvP d)) (hullCopy l h)
  | [] => rfl
  | k :: h => by
    rw [hullCopy, hullCopy, List.getElem?_map]
    cases l[k]? with
    | none => rfl
    | some p =>
      simp only [Option.map_some]
      rw [hullCopy_mv l h, bind_after, after_bind]
      rfl

theorem polySet_mv {same : Pt ℝ → Pt ℝ → Bool} (hs : ∀ p q, same (mvP d p) (mvP d q) = same p q) (l : List (Pt ℝ)) : polySet same (l.map (mvP d)) = after (List.map (mvP d)) (polySet same l) := by
  have hc : checkInput same (l.map (mvP d)) = checkInput same l := by
    match l with
    | [] => rfl
    | [_] => rfl
    | a :: b :: l =>
      simp only [List.map_cons, checkInput]
      have e : openPairs (mvP d a :: mvP d b :: l.map (mvP d)) = (openPairs (a :: b :: l)).map (mvS d) := by
        have := List.zip_map (f := mvP d) (g := mvP d) (l₁ := a :: b :: l) (l₂ := b :: l)
        simp only [List.map_cons] at this
        exact this
      have e2 : (mvP d b :: l.map (mvP d)).getLastD (mvP d a) = mvP d ((b :: l).getLastD a) := by
        have : ∀ (l : List (Pt ℝ)) (x : Pt ℝ), (l.map (mvP d)).getLastD (mvP d x) = mvP d (l.getLastD x) := by
          intro l
          induction l with
          | nil => intro x; rfl
          | cons y l ih => intro x; simp only [List.map_cons, List.getLastD_cons, ih]
        exact this (b :: l) a
      rw [e, e2, List.all_map, hs]
      congr 2
      funext s
      simp only [Function.comp, mvS, hs]
  unfold polySet
  rw [after_ite, hc]
  rfl

theorem hull_mv (srt : (Nat → Nat → Bool) → List Nat → List Nat) (thr : ℝ) {same : Pt ℝ → Pt ℝ → Bool} (hs : ∀ p q, same (mvP d p) (mvP d q) = same p q) (l : List (Pt ℝ)) :
    convexHull srt thr same (l.map (mvP d)) = after (List.map (mvP d)) (convexHull srt thr same l) := by
  unfold convexHull
  rw [List.length_map, after_ite]
  refine if_congr Iff.rfl (polySet_mv d hs l) ?_
  dsimp only
  rw [pivot_mv, show sortPoints srt (l.map (mvP d)) (getPivot l) = sortPoints srt l (getPivot l) by unfold sortPoints; rw [List.length_map, comp_mv]]
  rcases (sortPoints srt l (getPivot l))[0]? with _ | a <;> rcases (sortPoints srt l (getPivot l))[1]? with _ | b <;> rcases (sortPoints srt l (getPivot l))[2]? with _ | c <;> try rfl
  simp only [hullLoop_mv]
  rcases hullLoop thr l (sortPoints srt l (getPivot l)) (2 * l.length) 1 2 3 [c, b, a] [1, 0] with _ | h | _ | _ <;> try rfl
  simp only
  rw [hullCopy_mv, bind_after, after_bind]
  exact bind_same fun v _ => polySet_mv d hs v

end H2d.Move
