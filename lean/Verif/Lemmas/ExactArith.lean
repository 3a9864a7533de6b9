import Verif.Model.FloatSegCirc
import Verif.Model.FloatSegLine
import Verif.Model.FloatUnion
import Verif.Model.FloatInside
import Verif.Model.FloatCentroid
import Verif.Model.FloatHLine
import Verif.Model.FloatSearch
import Verif.Spec.ExactArith
import Verif.Lemmas.FloatMec
import Verif.Lemmas.FloatLine
import Verif.Lemmas.LineOps

/-! # The rounded operations without rounding are those over the reals -/

namespace H2d.Exact
open H2d.Spec

local notation "E" => exactArith

theorem rnd_eq (x : ℝ) : exactArith.rnd x = x := rfl
theorem hyp_eq (a b : ℝ) : exactArith.hyp a b = Real.sqrt (a * a + b * b) := by simp only [exactArith, sq]

theorem dist_eq (p q : Pt ℝ) : Fl.distPt E p q = ptDist p q := by simp only [Fl.distPt, rnd_eq, hyp_eq, ptDist]
theorem same_iff (t : Thr ℝ) (p q : Pt ℝ) : Fl.PtSame E t p q ↔ PtEq t p q := by rw [Fl.PtSame, dist_eq]
theorem sqDist_eq (p q : Pt ℝ) : Fl.sqDist E p q = sqDist p q := by simp only [Fl.sqDist, rnd_eq, sqDist]
theorem center_eq (p q : Pt ℝ) : Fl.center E p q = segCenter (p, q) := by simp only [Fl.center, rnd_eq, segCenter]
theorem cross_eq (a b : V3 ℝ) : Fl.crossProd E a b = crossProd a b := by simp only [Fl.crossProd, rnd_eq, crossProd]
theorem norm_eq (t : Thr ℝ) (v : V3 ℝ) : Fl.normalizeLine E t v = normalizeLine t v := by
  by_cases h : Real.sqrt (v 0 * v 0 + v 1 * v 1) ≤ dblEps
  · rw [(normalizeLine_throw t v).2 h]
    simp only [Fl.normalizeLine]
    rw [if_pos (by rw [hyp_eq]; exact h)]
  · rw [normalizeLine_eq t v (not_le.1 h), Fl.normalizeLine_ok t v (by rw [hyp_eq]; exact not_le.1 h)]
    simp only [hyp_eq, rnd_eq]
theorem getXY_eq (p : V3 ℝ) : Fl.getXY E p = getXY p := by simp only [Fl.getXY, rnd_eq, getXY]
theorem mkPt_xy (p : Pt ℝ) : getXY (mkPt p.1 p.2) = p := by simp [getXY, mkPt]

theorem lineOfPts_eq (t : Thr ℝ) (p q : Pt ℝ) : Fl.lineOfPts E t p q = lineOfPts t (mkPt p.1 p.2) (mkPt q.1 q.2) := by
  rw [Fl.lineOfPts, lineOfPts, mkPt_xy, mkPt_xy, cross_eq, norm_eq]
  by_cases h : PtEq t p q
  · rw [if_pos h, if_pos ((same_iff t p q).2 h)]
  · rw [if_neg h, if_neg (fun c => h ((same_iff t p q).1 c))]

theorem segLine_eq (t : Thr ℝ) (s : Seg) : Fl.lineOfPts E t s.1 s.2 = segLine t s := by rw [lineOfPts_eq, segLine]

theorem lineDist_eq (l : V3 ℝ) (p : Pt ℝ) : Fl.lineDist E l p = lineDist l p := by simp only [Fl.lineDist, lineDist, rnd_eq, hyp_eq]

theorem orthog_eq (t : Thr ℝ) (l : V3 ℝ) (p : Pt ℝ) : Fl.orthogLine E t l p = orthogLine t l p := by
  simp only [Fl.orthogLine, orthogLine, lineOfValues, norm_eq, rnd_eq]

theorem bisector_eq (t : Thr ℝ) (s : Seg) : Fl.segBisector E t s = segBisector t s := by
  simp only [Fl.segBisector, segBisector, segLine_eq, orthog_eq, center_eq]

theorem largest_eq (p1 p2 p3 : Pt ℝ) : Fl.largestDistancePoints E p1 p2 p3 = largestDistancePoints p1 p2 p3 := by
  simp only [Fl.largestDistancePoints, largestDistancePoints, sqDist_eq]

theorem segMake_eq (t : Thr ℝ) (p q : Pt ℝ) : Fl.segMake E t p q = segMake t false p q := by
  rw [Fl.segMake, segMake]
  by_cases h : PtEq t p q
  · rw [if_pos h, if_pos ((same_iff t p q).2 h)]
  · rw [if_neg h, if_neg (fun c => h ((same_iff t p q).1 c))]; rfl

theorem collinear_eq (t : Thr ℝ) (p1 p2 p3 : Pt ℝ) : Fl.areCollinear E t p1 p2 p3 = areCollinear t p1 p2 p3 := by
  rw [Fl.areCollinear, areCollinear]
  by_cases h : PtEq t p1 p2 ∨ PtEq t p2 p3 ∨ PtEq t p1 p3
  · rw [if_pos h, if_pos (by simpa only [same_iff] using h)]
  · rw [if_neg h, if_neg (by simpa only [same_iff] using h)]
    simp only [largest_eq, lineOfPts_eq, lineDist_eq]

section
variable {t : Thr ℝ} (ht : Spec.ExactThr t)

theorem sqrt_sqrtF (x : ℝ) (hx : 0 ≤ x) : Fl.sqrtF E x = some (Real.sqrt x) := by rw [Fl.sqrtF, if_neg (not_lt.2 hx), rnd_eq]
theorem divF_eq (x y : ℝ) (hy : y ≠ 0) : Fl.divF E x y = some (x / y) := by rw [Fl.divF, if_neg hy, rnd_eq]

include ht in
theorem parallel_eq (l m : V3 ℝ) : (Fl.isParallel E t Real.arccos l m = true) ↔ IsParallel t l m := by
  have e : Fl.lineAngle E Real.arccos l m = if Real.sqrt ((l 0 * l 0 + l 1 * l 1) * (m 0 * m 0 + m 1 * m 1)) = 0 then none else some (lineAngle l m) := by
    rw [Fl.lineAngle, Fl.cosArg]
    simp only [Fl.norm2, rnd_eq]
    rw [sqrt_sqrtF _ (mul_nonneg (add_nonneg (mul_self_nonneg _) (mul_self_nonneg _)) (add_nonneg (mul_self_nonneg _) (mul_self_nonneg _)))]
    by_cases h : Real.sqrt ((l 0 * l 0 + l 1 * l 1) * (m 0 * m 0 + m 1 * m 1)) = 0
    · simp only [h, Fl.divF, if_true, Option.bind_eq_bind, Option.bind_some, Option.bind_none]
    · rw [if_neg h]
      simp only [Option.bind_eq_bind, Option.bind_some, divF_eq _ _ h, Option.pure_def, lineAngle]
      have h0 : 0 ≤ angleCos l m := abs_nonneg _
      change (if (if angleCos l m > 1 then (1 : ℝ) else angleCos l m) < -1 ∨ 1 < (if angleCos l m > 1 then (1 : ℝ) else angleCos l m) then none
        else some (Real.arccos (if angleCos l m > 1 then (1 : ℝ) else angleCos l m))) = _
      by_cases h1 : angleCos l m > 1
      · simp only [if_pos h1]; rw [if_neg (by norm_num)]
      · simp only [if_neg h1]; rw [if_neg (by rintro (c | c) <;> linarith)]
  rw [Fl.isParallel, e]
  by_cases h : Real.sqrt ((l 0 * l 0 + l 1 * l 1) * (m 0 * m 0 + m 1 * m 1)) = 0
  · rw [if_pos h]
    have : angleCos l m = 0 := by rw [angleCos, h]; simp
    simp only [Bool.false_eq_true, false_iff, IsParallel, lineAngle, this]
    rw [if_neg (by norm_num), Real.arccos_zero]
    exact not_lt.2 ht.le
  · rw [if_neg h]
    simp

theorem norm_dir {v l : V3 ℝ} (h : normalizeLine t v = .ok l) : HasDir l := by
  have n := (normalizeLine_norm h).1
  rw [UnitNormal] at n
  rw [HasDir]; nlinarith

theorem segLine_dir {s : Seg} {l : V3 ℝ} (h : segLine t s = .ok l) : HasDir l := by
  rw [segLine, lineOfPts] at h
  split_ifs at h
  exact norm_dir h

theorem lineOfPts_dir {p q l : V3 ℝ} (h : lineOfPts t p q = .ok l) : HasDir l := by
  rw [lineOfPts] at h
  split_ifs at h
  exact norm_dir h

theorem orthog_dir {m l : V3 ℝ} {p : Pt ℝ} (h : orthogLine t m p = .ok l) : HasDir l := by
  rw [orthogLine] at h
  rcases hx : lineOfValues t (- m 1) (m 0) (m 1 * p.1 - m 0 * p.2) with a | _ | _ <;> rw [hx] at h <;> try cases h
  exact norm_dir h

theorem bisector_dir {s : Seg} {l : V3 ℝ} (h : segBisector t s = .ok l) : HasDir l := by
  rw [segBisector] at h
  rcases hx : segLine t s with a | _ | _ <;> rw [hx] at h <;> try cases h
  exact orthog_dir h

include ht in
theorem crossXY_eq {l m : V3 ℝ} (hl : HasDir l) (hm : HasDir m) (hp : ¬ IsParallel t l m) : Fl.crossXY E l m = some (getXY (crossProd l m)) := by
  rw [Fl.crossXY]
  simp only [cross_eq, getXY_eq]
  rw [if_neg]
  intro h
  apply hp
  have h0 : l 0 * m 1 - l 1 * m 0 = 0 := by simpa [crossProd] using h
  have e : (l 0 * l 0 + l 1 * l 1) * (m 0 * m 0 + m 1 * m 1) = (l 0 * m 0 + l 1 * m 1) ^ 2 := by linear_combination (l 0 * m 1 - l 1 * m 0) * h0
  have p := mul_pos hl hm
  have hn : l 0 * m 0 + l 1 * m 1 ≠ 0 := by
    intro c; rw [e, c] at p; norm_num at p
  have c1 : angleCos l m = 1 := by
    rw [angleCos, e, Real.sqrt_sq_eq_abs, abs_div, abs_abs, div_self (abs_ne_zero.2 hn)]
  rw [IsParallel, lineAngle, c1, if_neg (lt_irrefl _), Real.arccos_one]
  exact ht.pos

include ht in
theorem lineInter_eq {l m : V3 ℝ} (hl : HasDir l) (hm : HasDir m) : Fl.lineInter E t Real.arccos l m = (lineInter t l m >>= fun p => .ok (some (getXY p))) := by
  rw [Fl.lineInter, lineInter]
  by_cases h : IsParallel t l m
  · rw [if_pos h, if_pos ((parallel_eq ht l m).2 h)]; rfl
  · rw [if_neg h, if_neg (fun c => h ((parallel_eq ht l m).1 c)), crossXY_eq ht hl hm h]; rfl

theorem between_iff (s : Seg) (p : Pt ℝ) : Fl.Between E t s p ↔ |ptDist s.1 p + ptDist s.2 p - segLength s| < t.nullDistance := by
  rw [Fl.Between]; simp only [rnd_eq, dist_eq, segLength]

include ht in
theorem segInter_eq (s s' : Seg) : Fl.segInter E t Real.arccos s s' = segInter t s s' := by
  rw [Fl.segInter, segInter]
  by_cases h : SegEq t s s'
  · rw [if_pos h, if_pos ⟨(same_iff ..).2 h.1, (same_iff ..).2 h.2⟩]
  · rw [if_neg h, if_neg (fun c => h ⟨(same_iff ..).1 c.1, (same_iff ..).1 c.2⟩), segLine_eq, segLine_eq]
    rcases h1 : segLine t s with l | _ | _ <;> try rfl
    rcases h2 : segLine t s' with m | _ | _ <;> try rfl
    simp only [Res.bind_ok]
    by_cases hp : IsParallel t l m
    · rw [if_pos hp, if_pos ((parallel_eq ht l m).2 hp)]
    · rw [if_neg hp, if_neg (fun c => hp ((parallel_eq ht l m).1 c)), lineInter_eq ht (segLine_dir h1) (segLine_dir h2), lineInter, if_neg hp]
      simp only [Res.bind_ok, between_iff]

include ht in
theorem segLineInter_eq (s : Seg) {li : V3 ℝ} (hl : HasDir li) : Fl.segLineInter E t Real.arccos s li = segLineInter t s li := by
  rw [Fl.segLineInter, segLineInter, segLine_eq]
  rcases h1 : segLine t s with l | _ | _ <;> try rfl
  simp only [Res.bind_ok]
  by_cases hp : IsParallel t li l
  · rw [if_pos hp, if_pos ((parallel_eq ht li l).2 hp)]
  · rw [if_neg hp, if_neg (fun c => hp ((parallel_eq ht li l).1 c)), lineInter_eq ht hl (segLine_dir h1), lineInter, if_neg hp]
    simp only [Res.bind_ok, between_iff]

/-- The two points of `Fl.lineCircle` are not ordered. -/
theorem lineCircle_eq {l : V3 ℝ} (hl : HasDir l) (c : Pt ℝ) {r : ℝ} (hr : 0 ≤ r) :
    (Fl.lineCircle E l c r).map (fun o => o.map fun p => fixOrder p.1 p.2) = some (lineCircle l c r) := by
  rw [Fl.lineCircle, lineCircle]
  simp only [Fl.norm2, Fl.lineAt, rnd_eq]
  have hs : Real.sqrt (l 0 * l 0 + l 1 * l 1) ≠ 0 := (Real.sqrt_pos.2 hl).ne'
  rw [sqrt_sqrtF _ hl.le]
  simp only [Option.bind_eq_bind, Option.bind_some, divF_eq _ _ hs]
  by_cases h : r < |c.1 * l 0 + c.2 * l 1 + l 2| / Real.sqrt (l 0 * l 0 + l 1 * l 1)
  · rw [if_pos h, if_pos h]; rfl
  · rw [if_neg h, if_neg h]
    simp only [Option.bind_some, divF_eq _ _ hl.ne']
    rw [sqrt_sqrtF]
    · rfl
    · have h0 : 0 ≤ |c.1 * l 0 + c.2 * l 1 + l 2| / Real.sqrt (l 0 * l 0 + l 1 * l 1) := div_nonneg (abs_nonneg _) (Real.sqrt_nonneg _)
      exact div_nonneg (by nlinarith [not_lt.1 h]) hl.le

theorem label_eq (p c : Pt ℝ) (r : ℝ) : Fl.ptLabel E t p c r = ptLabel t p c r := by simp only [Fl.ptLabel, ptLabel, rnd_eq, dist_eq]

theorem segCircle_eq (s : Seg) (c : Pt ℝ) {r : ℝ} (hr : 0 ≤ r) : Fl.segCircle E t s c r = (segCircle t s c r >>= fun l => .ok (some l)) := by
  rw [Fl.segCircle, segCircle]
  simp only [label_eq, segLine_eq]
  by_cases h : ptLabel t s.1 c r = .inside ∧ ptLabel t s.2 c r = .inside
  · rw [if_pos h, if_pos h]; rfl
  · rw [if_neg h, if_neg h]
    rcases h1 : segLine t s with l | _ | _ <;> try rfl
    simp only [Res.bind_ok]
    have e := lineCircle_eq (segLine_dir h1) c hr
    rcases h2 : Fl.lineCircle E l c r with _ | _ | pts
    · rw [h2] at e; simp at e
    · rw [h2] at e
      simp only [Option.map_some, Option.map_none, Option.some.injEq] at e
      rw [← e]; rfl
    · rw [h2] at e
      simp only [Option.map_some, Option.some.injEq] at e
      rw [← e]
      simp only [between_iff]
      split_ifs <;> first | rfl | (exfalso; linarith)

theorem circInter_eq (a b : Circle) : Fl.circInter E t a b = circInter t a b := by
  rw [Fl.circInter, circInter]
  by_cases h : CircEq t a b
  · rw [if_pos h, if_pos ⟨h.1, (same_iff ..).2 h.2⟩]
  · rw [if_neg h, if_neg (fun c => h ⟨c.1, (same_iff ..).1 c.2⟩)]
    simp only [rnd_eq, same_iff]
    generalize hd : (a.center.1 - b.center.1) * (a.center.1 - b.center.1) + (a.center.2 - b.center.2) * (a.center.2 - b.center.2) = d2
    have hd0 : 0 ≤ d2 := by rw [← hd]; exact add_nonneg (mul_self_nonneg _) (mul_self_nonneg _)
    by_cases h1 : d2 > a.radius * a.radius + b.radius * b.radius + 2 * a.radius * b.radius
    · rw [if_pos h1, if_pos h1]
    by_cases h2 : d2 < a.radius * a.radius + b.radius * b.radius - 2 * a.radius * b.radius
    · rw [if_neg h1, if_neg h1, if_pos h2, if_pos h2]
    · rw [if_neg h1, if_neg h1, if_neg h2, if_neg h2, sqrt_sqrtF _ hd0]
      simp only [Option.bind_eq_bind, Option.bind_some]
      by_cases hz : Real.sqrt d2 = 0
      · rw [if_pos (Or.inl hz), Fl.divF, if_pos hz]; rfl
      · simp only [divF_eq _ _ hz, Option.bind_some]
        by_cases hn : a.radius * a.radius - (a.radius * a.radius - b.radius * b.radius + d2) / 2 / Real.sqrt d2 * ((a.radius * a.radius - b.radius * b.radius + d2) / 2 / Real.sqrt d2) < 0
        · rw [if_pos (Or.inr hn), Fl.sqrtF, if_pos hn]; rfl
        · rw [if_neg (by rintro (c | c) <;> contradiction), sqrt_sqrtF _ (not_lt.1 hn)]
          simp only [Option.bind_some, divF_eq _ _ hz]
          rfl

theorem segDistTo_eq {s : Seg} (h : s.1 ≠ s.2) (p : Pt ℝ) : Fl.segDistTo E s.1 s.2 p = some (segDistTo s p) := by
  have hn : (s.2.1 - s.1.1) * (s.2.1 - s.1.1) + (s.2.2 - s.1.2) * (s.2.2 - s.1.2) ≠ 0 := by
    intro c
    apply h
    have c1 : s.2.1 - s.1.1 = 0 := by nlinarith [mul_self_nonneg (s.2.1 - s.1.1), mul_self_nonneg (s.2.2 - s.1.2)]
    have c2 : s.2.2 - s.1.2 = 0 := by nlinarith [mul_self_nonneg (s.2.1 - s.1.1), mul_self_nonneg (s.2.2 - s.1.2)]
    ext <;> linarith
  rw [Fl.segDistTo, segDistTo]
  simp only [Fl.norm2, rnd_eq, divF_eq _ _ hn, Option.bind_eq_bind, Option.bind_some]
  rw [sqrt_sqrtF _ (add_nonneg (mul_self_nonneg _) (mul_self_nonneg _))]
  rfl

theorem circle2_eq (p q : Pt ℝ) : Fl.circle2 E t p q = circle2 t p q := by
  rw [Fl.circle2, circle2]
  by_cases h : PtEq t p q
  · rw [if_pos h, if_pos ((same_iff t p q).2 h)]
  · rw [if_neg h, if_neg (fun c => h ((same_iff t p q).1 c))]
    simp only [segMake_eq, center_eq, dist_eq, rnd_eq, segLength]

include ht in
theorem circle3_eq (p1 p2 p3 : Pt ℝ) : Fl.circle3 E t Real.arccos p1 p2 p3 = (circle3 t p1 p2 p3 >>= fun c => .ok (some c)) := by
  rw [Fl.circle3, circle3, collinear_eq]
  rcases h0 : areCollinear t p1 p2 p3 with b | _ | _ <;> try rfl
  simp only [Res.bind_ok]
  cases b
  · simp only [Bool.false_eq_true, if_false, largest_eq, segMake_eq, bisector_eq]
    rcases h1 : segMake t false (largestDistancePoints p1 p2 p3).1 (largestDistancePoints p1 p2 p3).2.1 with s1 | _ | _ <;> try rfl
    rcases h2 : segMake t false (largestDistancePoints p1 p2 p3).1 (largestDistancePoints p1 p2 p3).2.2 with s2 | _ | _ <;> try rfl
    simp only [Res.bind_ok]
    rcases h3 : segBisector t s1 with l1 | _ | _ <;> try rfl
    rcases h4 : segBisector t s2 with l2 | _ | _ <;> try rfl
    simp only [Res.bind_ok]
    by_cases hp : IsParallel t l1 l2
    · rw [if_pos hp, if_pos ((parallel_eq ht l1 l2).2 hp)]; rfl
    · rw [if_neg hp, if_neg (fun c => hp ((parallel_eq ht l1 l2).1 c)), lineInter_eq ht (bisector_dir h3) (bisector_dir h4), lineInter, if_neg hp]
      simp only [Res.bind_ok, dist_eq]
      rfl
  · rfl

theorem inCircle_eq (p : Pt ℝ) (c : Circle) : (Fl.inCircle E p (some c) = true) ↔ PtInCircle p c := by
  simp only [Fl.inCircle, decide_eq_true_eq, Fl.PtInCirc, dist_eq]

theorem valid_iff (c : Circle) (pts : List (Pt ℝ)) : (Fl.validCircle E c pts = true) ↔ ValidCircle c pts := by
  simp only [Fl.validCircle, List.all_eq_true, inCircle_eq]

include ht in
theorem minTrivial_eq (R : List (Pt ℝ)) : Fl.minTrivial E t Real.arccos R = (minTrivial t R >>= fun c => .ok (some c)) := by
  match R with
  | [] => simp [Fl.minTrivial, minTrivial, circleMake]
  | [a] => simp [Fl.minTrivial, minTrivial, circleMake]
  | [a, b] => rw [Fl.minTrivial, minTrivial, circle2_eq]; rfl
  | a :: b :: c :: P =>
    rw [Fl.minTrivial, minTrivial]
    simp only [circle2_eq, valid_iff, circle3_eq ht]
    rcases circle2 t a b with c1 | _ | _ <;> try rfl
    simp only [Res.bind_ok]
    split_ifs with h1
    · rfl
    rcases circle2 t a c with c2 | _ | _ <;> try rfl
    simp only [Res.bind_ok]
    split_ifs with h2
    · rfl
    rcases circle2 t b c with c3 | _ | _ <;> try rfl
    simp only [Res.bind_ok]
    split_ifs with h3 <;> rfl

theorem welzlG_map {P C : Type} (triv : List P → Res C) (inside : P → C → Bool) (triv' : List P → Res (Option C)) (inside' : P → Option C → Bool) (rnd : ℕ → ℕ)
    (h1 : ∀ R, triv' R = (triv R >>= fun c => .ok (some c))) (h2 : ∀ p c, inside' p (some c) = inside p c) : ∀ (n k : ℕ) (V R : List P),
    welzlG triv' inside' rnd n k V R = ((welzlG triv inside rnd n k V R).1 >>= fun c => .ok (some c), (welzlG triv inside rnd n k V R).2) := by
  intro n
  induction n with
  | zero => intro k V R; rw [welzlG, welzlG, h1]
  | succ n ih =>
    intro k V R
    rw [welzlG, welzlG]
    by_cases hR : R.length = 3
    · rw [if_pos hR, if_pos hR, h1]
    · rw [if_neg hR, if_neg hR]
      simp only
      rcases V[rnd k % (n + 1)]? with _ | p
      · rfl
      · rcases V[n]? with _ | q
        · rfl
        · simp only [ih]
          rcases welzlG triv inside rnd n (k + 1) ((V.set (rnd k % (n + 1)) q).set n p) R with ⟨_ | _ | _, U, k'⟩
          · simp only [Res.bind_ok, h2]
            split_ifs <;> rfl
          · rfl
          · rfl

theorem welzlG_from {P C : Type} (triv : List P → Res C) (inside : P → C → Bool) (rnd : ℕ → ℕ) : ∀ (n k : ℕ) (V R : List P) (d : C),
    (welzlG triv inside rnd n k V R).1 = .ok d → ∃ R', triv R' = .ok d := by
  intro n
  induction n with
  | zero => intro k V R d h; exact ⟨R, h⟩
  | succ n ih =>
    intro k V R d h
    rw [welzlG] at h
    by_cases hR : R.length = 3
    · rw [if_pos hR] at h; exact ⟨R, h⟩
    · rw [if_neg hR] at h
      simp only at h
      rcases hv : V[rnd k % (n + 1)]? with _ | p
      · simp [hv] at h
      · rcases hq : V[n]? with _ | q
        · simp [hv, hq] at h
        · simp only [hv, hq] at h
          rcases hw : welzlG triv inside rnd n (k + 1) ((V.set (rnd k % (n + 1)) q).set n p) R with ⟨c | _ | _, U, k'⟩ <;> rw [hw] at h
          · simp only at h
            split_ifs at h
            · exact ih _ _ _ _ (by rw [hw]; exact h)
            · exact ih _ _ _ _ h
          · cases h
          · cases h

theorem circle2_nonneg {p q : Pt ℝ} {c : Circle} (h : circle2 t p q = .ok c) : 0 ≤ c.radius := by
  rw [circle2] at h
  split_ifs at h
  rcases hx : segMake t false p q with s | _ | _ <;> rw [hx] at h <;> try cases h
  exact div_nonneg (Real.sqrt_nonneg _) (by norm_num)

theorem circle3_nonneg {p1 p2 p3 : Pt ℝ} {c : Circle} (h : circle3 t p1 p2 p3 = .ok c) : 0 ≤ c.radius := by
  rw [circle3] at h
  rcases h0 : areCollinear t p1 p2 p3 with b | _ | _ <;> rw [h0] at h <;> try cases h
  cases b
  · simp only [Res.bind_ok, Bool.false_eq_true, if_false] at h
    rcases h1 : segMake t false (largestDistancePoints p1 p2 p3).1 (largestDistancePoints p1 p2 p3).2.1 with s1 | _ | _ <;> rw [h1] at h <;> try cases h
    rcases h2 : segMake t false (largestDistancePoints p1 p2 p3).1 (largestDistancePoints p1 p2 p3).2.2 with s2 | _ | _ <;> rw [h2] at h <;> try cases h
    simp only [Res.bind_ok] at h
    rcases h3 : segBisector t s1 with l1 | _ | _ <;> rw [h3] at h <;> try cases h
    rcases h4 : segBisector t s2 with l2 | _ | _ <;> rw [h4] at h <;> try cases h
    simp only [Res.bind_ok] at h
    by_cases hp : IsParallel t l1 l2
    · rw [if_pos hp] at h; cases h
    · rw [if_neg hp, lineInter, if_neg hp] at h
      cases h
      exact Real.sqrt_nonneg _
  · cases h

theorem minTrivial_nonneg {R : List (Pt ℝ)} {d : Circle} (h : minTrivial t R = .ok d) : 0 ≤ d.radius := by
  match R with
  | [] => simp [minTrivial, circleMake] at h; rw [← h]
  | [a] => simp [minTrivial, circleMake] at h; rw [← h]
  | [a, b] => exact circle2_nonneg h
  | a :: b :: c :: P =>
    rw [minTrivial] at h
    rcases h1 : circle2 t a b with c1 | _ | _ <;> rw [h1] at h <;> try cases h
    simp only [Res.bind_ok] at h
    split_ifs at h
    · cases h; exact circle2_nonneg h1
    rcases h2 : circle2 t a c with c2 | _ | _ <;> rw [h2] at h <;> try cases h
    simp only [Res.bind_ok] at h
    split_ifs at h
    · cases h; exact circle2_nonneg h2
    rcases h3 : circle2 t b c with c3 | _ | _ <;> rw [h3] at h <;> try cases h
    simp only [Res.bind_ok] at h
    split_ifs at h
    · cases h; exact circle2_nonneg h3
    · exact circle3_nonneg h

include ht in
theorem circleOfPts_eq (flag : Bool) (rnd : ℕ → ℕ) (pts : List (Pt ℝ)) :
    Fl.circleOfPts E t Real.arccos rnd pts = ((circleOfPts t flag rnd pts).1 >>= fun c => .ok (some c)) := by
  match pts with
  | [] => rfl
  | [_] => rfl
  | [a, b] => rw [Fl.circleOfPts, circleOfPts, circle2_eq]; rfl
  | [a, b, c] => rw [Fl.circleOfPts, circleOfPts, circle3_eq ht]
  | a :: b :: c :: d :: l =>
    rw [Fl.circleOfPts, circleOfPts, welzl_eq]
    · rw [welzlG_map (minTrivial t) (fun p c => open Classical in decide (PtInCircle p c)) _ _ rnd (minTrivial_eq ht) (fun p c => by
        rw [Bool.eq_iff_iff, inCircle_eq]; simp)]
      rcases hw : (welzlG (minTrivial t) (fun p c => open Classical in decide (PtInCircle p c)) rnd (a :: b :: c :: d :: l).length 0 (a :: b :: c :: d :: l) []).1 with e | _ | _
      · obtain ⟨R', hR⟩ := welzlG_from _ _ _ _ _ _ _ _ hw
        have h0 := minTrivial_nonneg hR
        simp only [circleMake, not_true_eq_false, and_false, if_false, not_lt.2 h0, Res.bind_ok]
      · rfl
      · rfl
    all_goals simp

theorem polySegs_eq (l : List (Pt ℝ × Pt ℝ)) : Fl.polySegs E t l = polySegs t l := by
  induction l with
  | nil => rfl
  | cons e l ih => rw [Fl.polySegs, polySegs, segMake_eq, ih]

theorem nearLine_eq (p : Pt ℝ) (l : List Seg) : Fl.nearLine E t p l = nearLine t p l := by
  induction l with
  | nil => rfl
  | cons e l ih => rw [Fl.nearLine, nearLine, segLine_eq]; simp only [lineDist_eq, ih]

include ht in
theorem pipCount_eq (ref : Seg) (l : List Seg) : Fl.pipCount E t Real.arccos ref l = pipCount t ref l := by
  induction l with
  | nil => rfl
  | cons e l ih => rw [Fl.pipCount, pipCount, segInter_eq ht, ih]

include ht in
theorem segMake_ne {o : Bool} {p q : Pt ℝ} {s : Seg} (h : segMake t o p q = .ok s) : s.1 ≠ s.2 := by
  have hne : p ≠ q := by
    intro c
    have : PtEq t p q := by rw [c, PtEq, ptDist]; simpa using ht.dist
    rw [segMake, if_pos this] at h
    cases h
  rw [segMake] at h
  split_ifs at h
  · cases h; exact hne
  · injection h with h
    rw [← h, fixOrder]
    split_ifs
    · exact hne.symm
    · exact hne

theorem vertexClose_eq {ref : Seg} (h : ref.1 ≠ ref.2) (v : Pt ℝ) : Fl.vertexClose E t ref v = open Classical in decide ((segDistTo ref v).1 < t.nullDistance) := by
  rw [Fl.vertexClose, segDistTo_eq h]

include ht in
theorem pipTry_eq (pts : List (Pt ℝ)) (segs : List Seg) (p : Pt ℝ) : ∀ (l : List Seg) (b : Bool), Fl.pipTry E t Real.arccos pts segs p l b = pipTry t pts segs p l b := by
  intro l
  induction l with
  | nil => intro b; rfl
  | cons s l ih =>
    intro b
    rw [Fl.pipTry, pipTry, segMake_eq, center_eq]
    rcases h1 : segMake t false p (segCenter (s.1, s.2)) with ref | _ | _
    · have hv : (fun v => Fl.vertexClose E t ref v) = fun v => open Classical in decide ((segDistTo ref v).1 < t.nullDistance) := by
        funext v; exact vertexClose_eq (segMake_ne ht h1) v
      simp only [Res.bind_ok, ih, pipCount_eq ht]
      rw [show Fl.vertexClose E t ref = _ from hv]
    · rfl
    · rfl

theorem splitAll_eq (l : List Seg) : Fl.splitAll E t l = splitAll t l := by
  induction l with
  | nil => rfl
  | cons s l ih =>
    rw [Fl.splitAll, splitAll, ih, segSplit]
    simp only [segMake_eq, center_eq]
    rcases segMake t false s.1 (segCenter s) with a | _ | _ <;> try rfl
    rcases segMake t false (segCenter s) s.2 with b | _ | _ <;> rfl

include ht in
theorem pipLoop_eq (pts : List (Pt ℝ)) (segs : List Seg) (p : Pt ℝ) : ∀ (n : ℕ) (bb : List Seg), Fl.pipLoop E t Real.arccos pts segs p n bb = pipLoop t pts segs p n bb := by
  intro n
  induction n with
  | zero => intro bb; rfl
  | succ n ih =>
    intro bb
    rw [Fl.pipLoop, pipLoop, pipTry_eq ht, splitAll_eq]
    rcases pipTry t pts segs p bb false with o | _ | _ <;> try rfl
    rcases o with _ | o
    · simp only [Res.bind_ok, ih]
    · rfl

theorem share_iff (p q : Pt ℝ) : Fl.ShareCoord E t p q ↔ shareCommonCoord t.nullOrthogDistance p q = true := by
  simp only [Fl.ShareCoord, rnd_eq, shareCommonCoord, Bool.or_eq_true, decide_eq_true_eq]

theorem rectOfPts_eq (p q : Pt ℝ) : Fl.rectOfPts E t p q = FRect.ofPts t.nullOrthogDistance p q := by
  rw [Fl.rectOfPts, FRect.ofPts, getCorrectPoints]
  by_cases h : shareCommonCoord t.nullOrthogDistance p q = true
  · rw [if_pos h, if_pos ((share_iff p q).2 h)]; rfl
  · rw [if_neg h, if_neg (fun c => h ((share_iff p q).1 c))]; rfl

include ht in
theorem samePt_iff (p q : Pt ℝ) : samePt t.nullDistance p q = true ↔ PtEq t p q := by
  rw [samePt, decide_eq_true_eq, PtEq, ptDist, sqDist, Real.sqrt_lt' ht.dist, sq]

include ht in
theorem polyGetBB_eq (pts : List (Pt ℝ)) : Fl.polyGetBB E t pts = polyGetBB t pts := by
  unfold Fl.polyGetBB polyGetBB
  by_cases hl : pts.length < 2
  · rw [if_pos hl, if_pos hl]
  · rw [if_neg hl, if_neg hl]
    match pts with
    | [] => rfl
    | x :: xs =>
      simp only [getBB_Points, same_iff, share_iff, rectOfPts_eq, samePt_iff ht]
      split_ifs with h1 h2 <;> first | rfl | skip
      simp only [Res.bind_ok, h2]
      rfl

theorem getExtended_eq (r : FRect ℝ) : Fl.getExtended E t r = r.getExtended t.nullOrthogDistance := by
  rw [Fl.getExtended, FRect.getExtended, rectOfPts_eq]; rfl

theorem rectSegs_eq (r : FRect ℝ) : Fl.rectSegs E t r = rectSegs t r := by simp only [Fl.rectSegs, rectSegs, segMake_eq]

include ht in
theorem simple_eq (closed : Bool) (pts : List (Pt ℝ)) : Fl.simpleF E t Real.arccos closed pts = simpleR t closed pts := by
  rw [Fl.simpleF, simpleR]
  congr 1
  · funext p q; exact segMake_eq t p q
  · funext s s'; exact segInter_eq ht s s'

end

end H2d.Exact
