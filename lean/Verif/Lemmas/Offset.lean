import Verif.Model.Offset
import Verif.Spec.Offset
import Verif.Lemmas.PolyNorm
import Verif.Lemmas.PolyConvex
import Verif.Lemmas.Bisect
import Verif.Props.Segment
import Verif.Props.SegmentOps

/-! # Lemmas for offset polygons -/

set_option linter.unusedVariables false
set_option linter.unusedSimpArgs false

namespace H2d.Off
open H2d H2d.Spec Real

/-- The line of the chosen parallel segment: points at the given signed distance, on the left when positive. -/
theorem side_line {t : Thr ℝ} (h1 : dblEps < t.nullDistance) (h2 : t.nullAngleValue ≤ π / 2) {s : Seg} (hs : GoodSeg t s) (hx : GoodSlopeX t s.1 s.2)
    {d : ℝ} (hd : t.nullDistance ≤ |d|) :
    ∃ ps l w, segParallel t true s |d| = .ok ps ∧ (if d < 0 then ps.2 else ps.1) = shift w s ∧ segLine t (shift w s) = .ok l ∧ NormLine t l ∧
      On l (shift w s).1 ∧ On l (shift w s).2 ∧ (∀ p, On l p ↔ turnAt s.1 s.2 p = d * eucl s.1 s.2) := by
  have hp := dblEps_pos
  have hL : 0 < eucl s.1 s.2 := by linarith [hs.1]
  obtain ⟨v, e1, e2, e3, e4⟩ := Props.C21_parallel_partial t h1 h2 true s (Or.inl rfl) hs hx |d| hd
  obtain ⟨e5, -⟩ := e4 rfl
  have hc : (s.2.1 - s.1.1) * v.2 - (s.2.2 - s.1.2) * v.1 = |d| * eucl s.1 s.2 := by
    obtain ⟨r, g1, g2, -⟩ := Props.C23_side t s (shift v s).1
    rw [e5] at g1; cases g1
    have hpos := (g2.1 rfl).1
    unfold turnAt shift at hpos
    simp only at hpos
    have hpos' : 0 < (s.2.1 - s.1.1) * v.2 - (s.2.2 - s.1.2) * v.1 := by linarith
    have hsq : ((s.2.1 - s.1.1) * v.2 - (s.2.2 - s.1.2) * v.1) ^ 2 = (|d| * eucl s.1 s.2) ^ 2 := by
      rw [mul_pow, ← e2, eucl_sq]
      linear_combination (-(v.1 * (s.2.1 - s.1.1) + v.2 * (s.2.2 - s.1.2))) * e3
    exact (sq_eq_sq₀ hpos'.le (by positivity)).1 hsq
  have key : ∀ w : ℝ × ℝ, (s.2.1 - s.1.1) * w.2 - (s.2.2 - s.1.2) * w.1 = d * eucl s.1 s.2 →
      ∃ l, segLine t (shift w s) = .ok l ∧ NormLine t l ∧
      On l (shift w s).1 ∧ On l (shift w s).2 ∧ (∀ p, On l p ↔ turnAt s.1 s.2 p = d * eucl s.1 s.2) := by
    intro w hw
    have he : eucl (shift w s).1 (shift w s).2 = eucl s.1 s.2 := by
      unfold eucl shift; simp only; congr 1; ring
    have hg : GoodSeg t (shift w s) := by
      refine ⟨by rw [he]; exact hs.1, ?_⟩
      rcases hs.2 with g | g
      · left; unfold shift; simp [g]
      · right; rw [he]; unfold shift; simp only; rw [add_sub_add_right_eq_sub]; exact g
    obtain ⟨l, f1, f2, -, f3⟩ := segLine_spec h1 hg.1
    obtain ⟨o1, o2⟩ := f3 hg.2
    refine ⟨l, f1, f2, o1, o2, fun p => ?_⟩
    obtain ⟨e, k1, k2, k3⟩ := unit_dir f2.1 o1 o2
    have he0 : e ≠ 0 := by
      rintro rfl
      rw [he] at k1
      have := pow_pos hL 2
      rw [← k1] at this; norm_num at this
    unfold shift at k2 k3 o1 o2
    simp only at k2 k3 o1 o2
    unfold On at *
    simp only at o1 o2
    unfold turnAt
    rw [← hw]
    have k2' : s.2.1 - s.1.1 = e * l 1 := by linarith
    have k3' : s.2.2 - s.1.2 = -(e * l 0) := by linarith
    rw [k2', k3']
    constructor
    · intro h; linear_combination e * h - e * o2
    · intro h
      have : e * (l 0 * p.1 + l 1 * p.2 + l 2) = 0 := by linear_combination h + e * o2
      exact (mul_eq_zero.1 this).resolve_left he0
  by_cases hneg : d < 0
  · obtain ⟨l, g1, g2⟩ := key (-v.1, -v.2) (by simp only; rw [abs_of_neg hneg] at hc; linarith)
    exact ⟨_, l, (-v.1, -v.2), e1, by rw [if_pos hneg], g1, g2⟩
  · obtain ⟨l, g1, g2⟩ := key v (by rw [abs_of_nonneg (not_lt.1 hneg)] at hc; linarith)
    exact ⟨_, l, v, e1, by rw [if_neg hneg], g1, g2⟩

theorem segAngle_shift (s s' : Seg) (w w' : ℝ × ℝ) : segAngle (shift w s) (shift w' s') = segAngle s s' := by
  unfold segAngle
  have e : ∀ (w : ℝ × ℝ) (s : Seg), eucl (shift w s).1 (shift w s).2 = eucl s.1 s.2 := by
    intro w s; unfold eucl shift; simp only; congr 1; ring
  rw [e, e]
  congr 2
  unfold shift; simp only
  congr 1; ring

/-- The two parallel lines at a vertex. -/
theorem vertex_run {t : Thr ℝ} (h1 : dblEps < t.nullDistance) (h2 : t.nullAngleValue ≤ π / 2) {s s' : Seg}
    (hs : GoodSeg t s) (hx : GoodSlopeX t s.1 s.2) (hs' : GoodSeg t s') (hx' : GoodSlopeX t s'.1 s'.2) {d : ℝ} (hd : t.nullDistance ≤ |d|) :
    ∃ l l' w w', UnitNormal l ∧ UnitNormal l' ∧ On l (shift w s).1 ∧ On l (shift w s).2 ∧ On l' (shift w' s').1 ∧ On l' (shift w' s').2 ∧
      (∀ p, On l p ↔ turnAt s.1 s.2 p = d * eucl s.1 s.2) ∧ (∀ p, On l' p ↔ turnAt s'.1 s'.2 p = d * eucl s'.1 s'.2) ∧ lineAngle l l' = segAngle s s' ∧
      ∀ split, offsetVertex t split d s s' = if IsParallel t l l' then .ok [] else (do
      let ptInt ← lineInter t l l'
      if split = false ∨ 0 < osegAngle s s' ∨ d < 0 then pure [getXY ptInt]
      else do
        let oseg ← segMake t true s'.1 (getXY ptInt)
        let ptCut ← segPointAt t oseg (min (segLength oseg) d)
        let lo ← segLine t oseg
        let oli ← orthogLine t lo ptCut
        let c1 ← lineInter t oli l
        let c2 ← lineInter t oli l'
        pure (if PtEq t (getXY c1) (getXY c2) then [getXY c1] else [getXY c1, getXY c2])) := by
  have hp := dblEps_pos
  obtain ⟨ps, l, w, a1, a2, a3, a4, a5, a6, a7⟩ := side_line h1 h2 hs hx hd
  obtain ⟨ps', l', w', b1, b2, b3, b4, b5, b6, b7⟩ := side_line h1 h2 hs' hx' hd
  have hL : 0 < eucl s.1 s.2 := by linarith [hs.1]
  have hL' : 0 < eucl s'.1 s'.2 := by linarith [hs'.1]
  have e : ∀ (w : ℝ × ℝ) (s : Seg), eucl (shift w s).1 (shift w s).2 = eucl s.1 s.2 := by
    intro w s; unfold eucl shift; simp only; congr 1; ring
  have hang : lineAngle l l' = segAngle s s' := by
    rw [lineAngle_seg a4.1 b4.1 (by rw [e]; exact hL) (by rw [e]; exact hL') a5 a6 b5 b6, segAngle_shift]
  refine ⟨l, l', w, w', a4.1, b4.1, a5, a6, b5, b6, a7, b7, hang, fun split => ?_⟩
  unfold offsetVertex
  rw [a1, Res.bind_ok, b1, Res.bind_ok, a2, b2]
  simp only
  rw [a3, Res.bind_ok, b3, Res.bind_ok]
  rfl

/-- What is added for a vertex, without the option. -/
theorem vertex_spec {t : Thr ℝ} (h1 : dblEps < t.nullDistance) (h0 : 0 < t.nullAngleValue) (h2 : t.nullAngleValue ≤ π / 2) {s s' : Seg}
    (hs : GoodSeg t s) (hx : GoodSlopeX t s.1 s.2) (hs' : GoodSeg t s') (hx' : GoodSlopeX t s'.1 s'.2) {d : ℝ} (hd : t.nullDistance ≤ |d|) :
    (segAngle s s' < t.nullAngleValue → ∀ split, offsetVertex t split d s s' = .ok []) ∧
    (t.nullAngleValue ≤ segAngle s s' → ∃ p, offsetVertex t false d s s' = .ok [p] ∧
      turnAt s.1 s.2 p = d * eucl s.1 s.2 ∧ turnAt s'.1 s'.2 p = d * eucl s'.1 s'.2) := by
  obtain ⟨l, l', w, w', u, u', -, -, -, -, a7, b7, hang, hrun⟩ := vertex_run h1 h2 hs hx hs' hx' hd
  constructor
  · intro h split
    rw [hrun, if_pos (by rw [IsParallel, hang]; exact h)]
  · intro h
    have hnp : ¬ IsParallel t l l' := by rw [IsParallel, hang]; exact not_lt.2 h
    obtain ⟨c1, c2, c3, -⟩ := lineInter_spec h0 u u' hnp
    refine ⟨getXY (crossProd l l'), ?_, (a7 _).1 c2, (b7 _).1 c3⟩
    rw [hrun, if_neg hnp, c1, Res.bind_ok, if_pos (Or.inl rfl)]
    rfl

/-- The loop without the option, no vertex being flat. -/
theorem loop_spec {t : Thr ℝ} (h1 : dblEps < t.nullDistance) (h0 : 0 < t.nullAngleValue) (h2 : t.nullAngleValue ≤ π / 2) {d : ℝ} (hd : t.nullDistance ≤ |d|)
    (L : List (Seg × Seg)) (hL : ∀ e ∈ L, GoodSeg t e.1 ∧ GoodSlopeX t e.1.1 e.1.2 ∧ GoodSeg t e.2 ∧ GoodSlopeX t e.2.1 e.2.2 ∧ t.nullAngleValue ≤ segAngle e.1 e.2) :
    ∃ out, offsetLoop t false d L = .ok out ∧ out.length = L.length ∧ ∀ (i : Nat) (e : Seg × Seg) (p : Pt ℝ), L[i]? = some e → out[i]? = some p →
      turnAt e.1.1 e.1.2 p = d * eucl e.1.1 e.1.2 ∧ turnAt e.2.1 e.2.2 p = d * eucl e.2.1 e.2.2 := by
  induction L with
  | nil => exact ⟨[], rfl, rfl, by simp⟩
  | cons e L ih =>
    obtain ⟨out, g1, g2, g3⟩ := ih (fun x hx => hL x (List.mem_cons_of_mem _ hx))
    obtain ⟨k1, k2, k3, k4, k5⟩ := hL e (by simp)
    obtain ⟨p, v1, v2, v3⟩ := (vertex_spec h1 h0 h2 k1 k2 k3 k4 hd).2 k5
    refine ⟨p :: out, ?_, by simp [g2], ?_⟩
    · unfold offsetLoop
      rw [v1, Res.bind_ok, g1, Res.bind_ok]
      rfl
    · intro i e' q he hq
      cases i with
      | zero =>
        simp only [List.getElem?_cons_zero, Option.some.injEq] at he hq
        subst he hq
        exact ⟨v2, v3⟩
      | succ i =>
        rw [List.getElem?_cons_succ] at he hq
        exact g3 i e' q he hq

/-- Pairs of consecutive edges. -/
theorem cyc_cyc (q : List (Pt ℝ)) (i : Nat) (e : Seg × Seg) (h : (cycPairs (cycPairs q))[i]? = some e) :
    ∃ a v b, e = ((a, v), (v, b)) ∧ Neighbours q ((i + 1) % q.length) a v b := by
  rw [cycPairs_eq, cycPairs_eq] at h
  have hi : i < q.length := by
    have := (List.getElem?_eq_some_iff.1 h).1
    simp at this; omega
  have hn : 0 < q.length := by omega
  have hg : ∀ j, j < q.length → ∃ x y, (q.zip (q.rotate 1))[j]? = some (x, y) ∧ q[j]? = some x ∧ q[(j + 1) % q.length]? = some y := by
    intro j hj
    have hj' : (j + 1) % q.length < q.length := Nat.mod_lt _ hn
    refine ⟨q[j], q[(j + 1) % q.length], ?_, List.getElem?_eq_getElem hj, List.getElem?_eq_getElem hj'⟩
    rw [List.getElem?_zip_eq_some]
    refine ⟨List.getElem?_eq_getElem hj, ?_⟩
    rw [List.getElem?_rotate hj, List.getElem?_eq_getElem hj']
  rw [List.getElem?_zip_eq_some] at h
  obtain ⟨z1, z2⟩ := h
  rw [List.getElem?_rotate (by simpa using hi)] at z2
  simp only [List.length_zip, List.length_rotate, min_self] at z2
  obtain ⟨x, y, y1, y2, y3⟩ := hg i hi
  obtain ⟨x', y', w1, w2, w3⟩ := hg _ (Nat.mod_lt (i + 1) hn)
  rw [y1] at z1; rw [w1] at z2
  simp only [Option.some.injEq] at z1 z2
  rw [y3] at w2
  simp only [Option.some.injEq] at w2
  subst w2
  refine ⟨x, y, y', Prod.ext z1.symm z2.symm, y3, w3, ?_⟩
  rw [← y2]
  congr 1
  rw [Nat.add_sub_assoc hn, Nat.mod_add_mod, show i + 1 + (q.length - 1) = i + q.length by omega, Nat.add_mod_right, Nat.mod_eq_of_lt hi]

theorem neigh_rot {l q : List (Pt ℝ)} {k : Nat} (h : q = l.rotate k) (a v b : Pt ℝ) :
    (∃ j, Neighbours q j a v b) ↔ ∃ i, Neighbours l i a v b := by
  constructor
  · rintro ⟨j, hj⟩
    rw [h] at hj
    exact ⟨_, Neighbours.rotate hj⟩
  · rintro ⟨i, hi⟩
    obtain ⟨k', hk'⟩ : q ~r l := by rw [h]; exact List.IsRotated.forall l k
    rw [← hk'] at hi
    exact ⟨_, Neighbours.rotate hi⟩

theorem neigh_rev (l : List (Pt ℝ)) (a v b : Pt ℝ) :
    (∃ j, Neighbours l.reverse j a v b) ↔ ∃ i, Neighbours l i b v a := by
  constructor
  · rintro ⟨j, hj⟩; exact ⟨_, Neighbours.reverse hj⟩
  · rintro ⟨i, hi⟩
    rw [← l.reverse_reverse] at hi
    exact ⟨_, Neighbours.reverse hi⟩

/-- Direction of the normal form. -/
theorem norm_dir (l : List (Pt ℝ)) (h2 : 2 ≤ l.length) : ∃ q, normalizePoly true l = .ok q ∧ q.length = l.length ∧
    (((∀ a v b, (∃ j, Neighbours q j a v b) ↔ ∃ i, Neighbours l i a v b) ∧
        ∃ i a b c, Neighbours l i a b c ∧ (∀ x ∈ l, ¬ LexLt x b) ∧ turnAt a b c ≤ 0) ∨
     ((∀ a v b, (∃ j, Neighbours q j a v b) ↔ ∃ i, Neighbours l i b v a) ∧
        ∃ i a b c, Neighbours l i a b c ∧ (∀ x ∈ l, ¬ LexLt x b) ∧ 0 < turnAt a b c)) := by
  obtain ⟨b, a, rest, e1, e2⟩ := normalizePoly_closed l h2
  obtain ⟨i, hN, hmin⟩ := neighbours_min l rest b a e1
  have hturn : turnAt (rest.getLastD a) b a = - orientDet a b (rest.getLastD a) := by unfold turnAt orientDet; ring
  have r2 : (b :: a :: rest) ~r l := by rw [← e1]; exact rotateToMin_isRotated l
  refine ⟨_, e2, ?_, ?_⟩
  · split_ifs
    · rw [(rotateToMin_isRotated _).perm.length_eq, List.length_reverse, r2.perm.length_eq]
    · exact r2.perm.length_eq
  by_cases hc : orientDet a b (rest.getLastD a) < 0
  · right
    rw [if_pos hc]
    refine ⟨?_, i, _, _, _, hN, hmin, by rw [hturn]; linarith⟩
    have r1 := rotateToMin_isRotated (b :: a :: rest).reverse
    obtain ⟨k, hk⟩ := (r1.trans r2.reverse).symm
    intro x v y
    rw [neigh_rot hk.symm, neigh_rev]
  · left
    rw [if_neg hc]
    refine ⟨?_, i, _, _, _, hN, hmin, by rw [hturn]; linarith⟩
    obtain ⟨k, hk⟩ := r2.symm
    intro x v y
    rw [neigh_rot hk.symm]

theorem turn_ne {t : Thr ℝ} (h1 : dblEps < t.nullDistance) (h0 : 0 < t.nullAngleValue) {a v b : Pt ℝ} (h : GoodVertex t a v b) : turnAt a v b ≠ 0 := by
  have hp := dblEps_pos
  intro h'
  have k1 : 0 < eucl a v := by have := h.1.1; simp only at this; linarith
  have k2 : 0 < eucl v b := by have := h.2.2.1.1; simp only at this; linarith
  have := h.2.2.2.2
  rw [segAngle] at this
  simp only at this
  have e : |(v.1 - a.1) * (b.1 - v.1) + (v.2 - a.2) * (b.2 - v.2)| = eucl a v * eucl v b := by
    rw [← abs_of_nonneg (mul_pos k1 k2).le, ← sq_eq_sq_iff_abs_eq_abs, mul_pow, eucl_sq, eucl_sq]
    unfold turnAt at h'
    linear_combination (-((v.1 - a.1) * (b.2 - v.2) - (v.2 - a.2) * (b.1 - v.1))) * h'
  rw [e, div_self (mul_pos k1 k2).ne', Real.arccos_one] at this
  linarith

theorem neigh_edge {l : List (Pt ℝ)} {i : Nat} {a v b : Pt ℝ} (h : Neighbours l i a v b) : (v, b) ∈ polyEdges l := by
  unfold polyEdges
  rw [List.mem_iff_getElem?]
  refine ⟨i, ?_⟩
  rw [List.getElem?_zip_eq_some]
  refine ⟨h.1, ?_⟩
  rw [List.getElem?_rotate (List.getElem?_eq_some_iff.1 h.1).1]
  exact h.2.1

theorem convex_turn {l : List (Pt ℝ)} {s : ℝ} (hs : ConvexOn s l) {i : Nat} {a v b : Pt ℝ} (h : Neighbours l i a v b) : 0 ≤ s * turnAt a v b := by
  have := hs _ (neigh_edge h) a (List.mem_of_getElem? h.2.2)
  simp only at this
  have e : turnAt v b a = turnAt a v b := by unfold turnAt; ring
  rw [← e]; exact this

theorem exists_neigh {l : List (Pt ℝ)} {i : Nat} (hi : i < l.length) : ∃ a v b, Neighbours l i a v b :=
  ⟨_, _, _, List.getElem?_eq_getElem hi, List.getElem?_eq_getElem (Nat.mod_lt _ (by omega)), List.getElem?_eq_getElem (Nat.mod_lt _ (by omega))⟩

theorem neigh_next {l : List (Pt ℝ)} {i : Nat} {a v b : Pt ℝ} (h : Neighbours l i a v b) : ∃ c, Neighbours l ((i + 1) % l.length) v b c := by
  have hi := (List.getElem?_eq_some_iff.1 h.1).1
  have hn : 0 < l.length := by omega
  refine ⟨_, h.2.1, List.getElem?_eq_getElem (Nat.mod_lt _ hn), ?_⟩
  rw [← h.1]
  congr 1
  rw [Nat.add_sub_assoc hn, Nat.mod_add_mod, show i + 1 + (l.length - 1) = i + l.length by omega, Nat.add_mod_right, Nat.mod_eq_of_lt hi]

theorem neigh_uniq {l : List (Pt ℝ)} {i : Nat} {a v b a' v' b' : Pt ℝ} (h : Neighbours l i a v b) (h' : Neighbours l i a' v' b') : a = a' ∧ v = v' ∧ b = b' := by
  obtain ⟨h1, h2, h3⟩ := h
  obtain ⟨g1, g2, g3⟩ := h'
  rw [h1] at g1; rw [h2] at g2; rw [h3] at g3
  simp only [Option.some.injEq] at g1 g2 g3
  exact ⟨g3, g1, g2⟩

theorem le_of_sq_le_sq' {x y : ℝ} (h : x ^ 2 ≤ y ^ 2) (hy : 0 ≤ y) : x ≤ y := abs_le_of_sq_le_sq' h hy |>.2

theorem nonpos_of_mul {x y : ℝ} (hy : y < 0) (h : 0 ≤ x * y) : x ≤ 0 := by
  by_contra hc; exact absurd (mul_neg_of_pos_of_neg (not_le.1 hc) hy) (not_lt.2 h)

theorem nonneg_of_mul {x y : ℝ} (hy : y < 0) (h : x * y ≤ 0) : 0 ≤ x := by
  by_contra hc; exact absurd (mul_pos_of_neg_of_neg (not_le.1 hc) hy) (not_lt.2 h)

theorem segAngle_swap (a v b : Pt ℝ) : segAngle (b, v) (v, a) = segAngle (a, v) (v, b) := by
  unfold segAngle
  simp only
  rw [eucl_comm b v, eucl_comm v a, mul_comm (eucl v b)]
  congr 3
  ring

theorem goodSeg_swap {t : Thr ℝ} {a b : Pt ℝ} (h : GoodSeg t (a, b)) : GoodSeg t (b, a) := by
  refine ⟨by have := h.1; rw [eucl_comm] at this; exact this, ?_⟩
  rcases h.2 with g | g
  · left; exact g.symm
  · right; rw [eucl_comm, abs_sub_comm]; exact g

theorem goodX_swap {t : Thr ℝ} {a b : Pt ℝ} (h : GoodSlopeX t a b) : GoodSlopeX t b a := by
  rcases h with g | g
  · left; exact g.symm
  · right; rw [eucl_comm, abs_sub_comm]; exact g

theorem goodVertex_swap {t : Thr ℝ} {a v b : Pt ℝ} (h : GoodVertex t a v b) : GoodVertex t b v a :=
  ⟨goodSeg_swap h.2.2.1, goodX_swap h.2.2.2.1, goodSeg_swap h.1, goodX_swap h.2.1, by rw [segAngle_swap]; exact h.2.2.2.2⟩

theorem signed_iff {a b p : Pt ℝ} (h : 0 < eucl a b) (d : ℝ) : signedDist a b p = d ↔ turnAt a b p = d * eucl a b := by
  unfold signedDist; rw [div_eq_iff h.ne']

theorem signed_swap (a b p : Pt ℝ) : signedDist b a p = - signedDist a b p := by
  unfold signedDist; rw [eucl_comm b a, ← neg_div]; congr 1; unfold turnAt; ring

/-- The whole call on a normalised polygon. -/
theorem off_run {t : Thr ℝ} (h1 : dblEps < t.nullDistance) (h0 : 0 < t.nullAngleValue) (h2 : t.nullAngleValue ≤ π / 2) {d : ℝ} (hd : t.nullDistance ≤ |d|)
    {pts q : List (Pt ℝ)} (h3 : 3 ≤ pts.length) (hq : normalizePoly true pts = .ok q) (hl : q.length = pts.length)
    (hg : ∀ i a v b, Neighbours q i a v b → GoodVertex t a v b) :
    ∃ out, offsetPoly t true false d pts = (polySet (fun p q => decide (PtEq t p q)) out, q) ∧ out.length = q.length ∧
      ∀ i a v b p, Neighbours q ((i + 1) % q.length) a v b → out[i]? = some p → signedDist a v p = d ∧ signedDist v b p = d := by
  have hp := dblEps_pos
  have hseg : getOSegs (fun p q => decide (PtEq t p q)) true q = .ok (cycPairs q) := by
    unfold getOSegs segPairs
    rw [if_neg (by omega : ¬ q.length < 2)]
    simp only [if_true]
    rw [if_neg]
    simp only [List.any_eq_true, not_exists, not_and, decide_eq_true_eq]
    rintro ⟨x, y⟩ hm he
    obtain ⟨i, hi⟩ := List.mem_iff_getElem?.1 hm
    rw [cycPairs_eq, List.getElem?_zip_eq_some] at hi
    obtain ⟨z1, z2⟩ := hi
    simp only at z1 z2
    have hlt := (List.getElem?_eq_some_iff.1 z1).1
    rw [List.getElem?_rotate hlt] at z2
    have hlt' : (i + q.length - 1) % q.length < q.length := Nat.mod_lt _ (by omega)
    have := (hg i _ _ _ ⟨z1, z2, List.getElem?_eq_getElem hlt'⟩).2.2.1.1
    rw [PtEq, ptDist_eucl] at he
    simp only at this he
    linarith
  have hlen : (cycPairs (cycPairs q)).length = q.length := by simp [cycPairs_eq]
  obtain ⟨out, g1, g2, g3⟩ := loop_spec h1 h0 h2 hd (cycPairs (cycPairs q)) (by
    intro e he
    obtain ⟨i, hi⟩ := List.mem_iff_getElem?.1 he
    obtain ⟨a, v, b, rfl, hN⟩ := cyc_cyc q i e hi
    exact hg _ _ _ _ hN)
  refine ⟨out, ?_, g2.trans hlen, ?_⟩
  · unfold offsetPoly
    rw [if_neg (by simp only [not_or, not_lt]; exact ⟨hd, h3, by simp⟩), hq]
    simp only
    rw [hseg, Res.bind_ok, g1, Res.bind_ok]
  · intro i a v b p hN hp'
    have hi : i < (cycPairs (cycPairs q)).length := by rw [← g2]; exact (List.getElem?_eq_some_iff.1 hp').1
    have he := List.getElem?_eq_getElem hi
    obtain ⟨a', v', b', e1, hN'⟩ := cyc_cyc q i _ he
    obtain ⟨n1, n2, n3⟩ := hN
    obtain ⟨m1, m2, m3⟩ := hN'
    rw [m1] at n1; rw [m2] at n2; rw [m3] at n3
    simp only [Option.some.injEq] at n1 n2 n3
    subst n1 n2 n3
    have := g3 i _ p he hp'
    rw [e1] at this
    have hgood := hg _ _ _ _ ⟨m1, m2, m3⟩
    have k1 : 0 < eucl a' v' := by have := hgood.1.1; simp only at this; linarith
    have k2 : 0 < eucl v' b' := by have := hgood.2.2.1.1; simp only at this; linarith
    rw [signed_iff k1, signed_iff k2]
    exact this

theorem checkInput_cyc {same : Pt ℝ → Pt ℝ → Bool} (hsym : ∀ a b, same a b = same b a) {l : List (Pt ℝ)} (h2 : 2 ≤ l.length)
    (h : ∀ i p p', l[i]? = some p → l[(i + 1) % l.length]? = some p' → same p p' = false) : checkInput same l = true := by
  match l, h2 with
  | a :: b :: l, _ =>
    unfold checkInput
    simp only [Bool.and_eq_true, List.all_eq_true, Bool.not_eq_true']
    constructor
    · rintro ⟨x, y⟩ hm
      obtain ⟨i, hi⟩ := List.mem_iff_getElem?.1 hm
      rw [openPairs, List.getElem?_zip_eq_some] at hi
      obtain ⟨z1, z2⟩ := hi
      rw [List.getElem?_tail] at z2
      have hlt := (List.getElem?_eq_some_iff.1 z2).1
      exact h i x y z1 (by rw [Nat.mod_eq_of_lt hlt]; exact z2)
    · rw [hsym]
      refine h (l.length + 1) _ _ ?_ ?_
      · have : (b :: l).getLastD a = (a :: b :: l).getLast (by simp) := by
          rw [List.getLast_cons (by simp)]; rw [List.getLastD_eq_getLast?, List.getLast?_eq_getLast_of_ne_nil (by simp)]; rfl
        rw [this, ← List.getLast?_eq_getLast_of_ne_nil (by simp), List.getLast?_eq_getElem?]
        rfl
      · simp

/-- Two consecutive new points of a polygon that turns right are farther from each other than the ends of the edge. -/
theorem far_next {a v b c p p' : Pt ℝ} {d : ℝ} (hd : 0 < d) (l1 : 0 < eucl a v) (l2 : 0 < eucl v b) (l3 : 0 < eucl b c)
    (t1 : turnAt a v b < 0) (t2 : turnAt v b c < 0) (a1 : signedDist a v p = d) (a2 : signedDist v b p = d) (b1 : signedDist v b p' = d) (b2 : signedDist b c p' = d) :
    eucl v b ≤ eucl p p' := by
  rw [signed_iff (by assumption)] at a1 a2 b1 b2
  have s1 := eucl_sq a v
  have s2 := eucl_sq v b
  have s3 := eucl_sq b c
  set A := eucl a v with hA
  set B := eucl v b with hB
  set C := eucl b c with hC
  unfold turnAt at *
  -- projections on the edge
  have hm : ((b.1 - v.1) * (p.1 - v.1) + (b.2 - v.2) * (p.2 - v.2)) ≤ 0 := by
    -- m * turn = d * B * (A * B - dot)
    have key : ((b.1 - v.1) * (p.1 - v.1) + (b.2 - v.2) * (p.2 - v.2)) * ((v.1 - a.1) * (b.2 - v.2) - (v.2 - a.2) * (b.1 - v.1)) =
        d * B * (A * B - ((v.1 - a.1) * (b.1 - v.1) + (v.2 - a.2) * (b.2 - v.2))) := by
      linear_combination B ^ 2 * a1 - ((v.1 - a.1) * (b.1 - v.1) + (v.2 - a.2) * (b.2 - v.2)) * a2 - ((v.1 - a.1) * (p.2 - v.2) - (v.2 - a.2) * (p.1 - v.1)) * s2
    have hdot : (v.1 - a.1) * (b.1 - v.1) + (v.2 - a.2) * (b.2 - v.2) ≤ A * B := by
      apply le_of_sq_le_sq' _ (by positivity)
      rw [mul_pow, s1, s2]
      linarith [sq_nonneg ((v.1 - a.1) * (b.2 - v.2) - (v.2 - a.2) * (b.1 - v.1))]
    have : 0 ≤ d * B * (A * B - ((v.1 - a.1) * (b.1 - v.1) + (v.2 - a.2) * (b.2 - v.2))) := by
      apply mul_nonneg (by positivity); linarith
    rw [← key] at this
    exact nonpos_of_mul t1 this
  have hm' : B ^ 2 ≤ ((b.1 - v.1) * (p'.1 - v.1) + (b.2 - v.2) * (p'.2 - v.2)) := by
    have key : ((b.1 - v.1) * (p'.1 - b.1) + (b.2 - v.2) * (p'.2 - b.2)) * ((b.1 - v.1) * (c.2 - b.2) - (b.2 - v.2) * (c.1 - b.1)) =
        - (d * B * (C * B - ((c.1 - b.1) * (b.1 - v.1) + (c.2 - b.2) * (b.2 - v.2)))) := by
      linear_combination (- B ^ 2) * b2 + ((c.1 - b.1) * (b.1 - v.1) + (c.2 - b.2) * (b.2 - v.2)) * b1 + ((c.1 - b.1) * (p'.2 - c.2) - (c.2 - b.2) * (p'.1 - c.1)) * s2
    have hdot : (c.1 - b.1) * (b.1 - v.1) + (c.2 - b.2) * (b.2 - v.2) ≤ C * B := by
      apply le_of_sq_le_sq' _ (by positivity)
      rw [mul_pow, s3, s2]
      linarith [sq_nonneg ((c.1 - b.1) * (b.2 - v.2) - (c.2 - b.2) * (b.1 - v.1))]
    have : 0 ≤ d * B * (C * B - ((c.1 - b.1) * (b.1 - v.1) + (c.2 - b.2) * (b.2 - v.2))) := by
      apply mul_nonneg (by positivity); linarith
    have h4 : 0 ≤ (b.1 - v.1) * (p'.1 - b.1) + (b.2 - v.2) * (p'.2 - b.2) := nonneg_of_mul t2 (by rw [key]; linarith)
    rw [s2]; linarith
  have hpd : B ^ 2 ≤ (b.1 - v.1) * (p'.1 - p.1) + (b.2 - v.2) * (p'.2 - p.2) := by linarith
  have h5 : (b.1 - v.1) * (p'.1 - p.1) + (b.2 - v.2) * (p'.2 - p.2) ≤ B * eucl p p' := by
    apply le_of_sq_le_sq' _ (mul_nonneg l2.le (eucl_nonneg _ _))
    rw [mul_pow, s2, eucl_sq]
    linarith [sq_nonneg ((b.1 - v.1) * (p'.2 - p.2) - (b.2 - v.2) * (p'.1 - p.1))]
  have : B * B ≤ B * eucl p p' := by linarith [sq B]
  exact le_of_mul_le_mul_left this l2

end H2d.Off

namespace H2d.Off
open H2d H2d.Spec Real

/-- A square, clockwise from its lowest-leftmost vertex. -/
def sq2 : List (Pt ℝ) := [(0, 0), (0, 2), (2, 2), (2, 0)]

/-- A triangle with a sharp vertex. -/
def needle : List (Pt ℝ) := [(0, 0), (10000, 1), (10000, -1)]

theorem norm_of_first {l : List (Pt ℝ)} {b a : Pt ℝ} {rest : List (Pt ℝ)} (hl : l = b :: a :: rest) (hd : l.Nodup) (hm : ∀ q ∈ l, ¬ LexLt q b)
    (ho : 0 ≤ orientDet a b (rest.getLastD a)) : normalizePoly true l = .ok l := by
  subst hl
  obtain ⟨b', a', rest', e1, e2⟩ := normalizePoly_closed (b :: a :: rest) (by simp)
  rw [rotateToMin_of_head _ hd b (by simp) (by
    intro q hq; have := hm q hq; rw [← ptLt_iff] at this; simpa using this)] at e1
  simp only [List.cons.injEq] at e1
  obtain ⟨rfl, rfl, rfl⟩ := e1
  rw [e2, if_neg (not_lt.2 ho)]

theorem norm_sq2 : normalizePoly true sq2 = .ok sq2 := by
  apply norm_of_first (by rw [sq2])
  · simp [sq2]
  · intro q hq
    simp only [sq2, List.mem_cons, List.not_mem_nil, or_false] at hq
    rcases hq with rfl | rfl | rfl | rfl <;> norm_num [LexLt]
  · norm_num [orientDet]

theorem norm_needle : normalizePoly true needle = .ok needle := by
  apply norm_of_first (by rw [needle])
  · norm_num [needle]
  · intro q hq
    simp only [needle, List.mem_cons, List.not_mem_nil, or_false] at hq
    rcases hq with rfl | rfl | rfl <;> norm_num [LexLt]
  · norm_num [orientDet]

theorem neigh_sq2 {i : Nat} {a v b : Pt ℝ} (h : Neighbours sq2 i a v b) :
    (i = 0 ∧ a = (2, 0) ∧ v = (0, 0) ∧ b = (0, 2)) ∨ (i = 1 ∧ a = (0, 0) ∧ v = (0, 2) ∧ b = (2, 2)) ∨
    (i = 2 ∧ a = (0, 2) ∧ v = (2, 2) ∧ b = (2, 0)) ∨ (i = 3 ∧ a = (2, 2) ∧ v = (2, 0) ∧ b = (0, 0)) := by
  obtain ⟨h1, h2, h3⟩ := h
  have hi : i < 4 := (List.getElem?_eq_some_iff.1 h1).1
  have : i = 0 ∨ i = 1 ∨ i = 2 ∨ i = 3 := by omega
  rcases this with rfl | rfl | rfl | rfl <;> simp [sq2] at h1 h2 h3 <;> subst h1 h2 h3 <;> simp

theorem sq_angle (a v b : Pt ℝ) (h : (v.1 - a.1) * (b.1 - v.1) + (v.2 - a.2) * (b.2 - v.2) = 0) : stdR.nullAngleValue ≤ segAngle (a, v) (v, b) := by
  have : segAngle (a, v) (v, b) = π / 2 := by
    unfold segAngle; simp only; rw [h]; simp
  rw [this]; have := Real.two_le_pi; norm_num [stdR]; linarith

theorem good_sq2 {i : Nat} {a v b : Pt ℝ} (h : Neighbours sq2 i a v b) : GoodVertex stdR a v b := by
  have d1 : eucl (2, 0) (0, 0) = 2 := by rw [eucl_eq_iff (by norm_num)]; norm_num
  have d2 : eucl (0, 0) (0, 2) = 2 := by rw [eucl_eq_iff (by norm_num)]; norm_num
  have d3 : eucl (0, 2) (2, 2) = 2 := by rw [eucl_eq_iff (by norm_num)]; norm_num
  have d4 : eucl (2, 2) (2, 0) = 2 := by rw [eucl_eq_iff (by norm_num)]; norm_num
  rcases neigh_sq2 h with ⟨-, rfl, rfl, rfl⟩ | ⟨-, rfl, rfl, rfl⟩ | ⟨-, rfl, rfl, rfl⟩ | ⟨-, rfl, rfl, rfl⟩ <;>
    refine ⟨⟨?_, ?_⟩, ?_, ⟨?_, ?_⟩, ?_, sq_angle _ _ _ (by norm_num)⟩ <;> simp only [GoodSlope, GoodSlopeX, d1, d2, d3, d4] <;> norm_num [stdR]

/-- The points built for the square. -/
theorem sq_off {d : ℝ} (hd : stdR.nullDistance ≤ |d|) : offsetPoly stdR true false d sq2 =
    (polySet (fun p q => decide (PtEq stdR p q)) [(-d, 2 + d), (2 + d, 2 + d), (2 + d, -d), (-d, -d)], sq2) := by
  have hp : stdR.nullDistance = 1 / 10 ^ 10 := rfl
  obtain ⟨out, f1, f2, f3⟩ := off_run (t := stdR) (pts := sq2) (q := sq2) (by rw [hp]; unfold dblEps; norm_num) (by norm_num [stdR])
    (by have := Real.two_le_pi; norm_num [stdR]; linarith) hd (by simp [sq2]) norm_sq2 rfl (fun i a v b h => good_sq2 h)
  have d1 : eucl (2, 0) (0, 0) = 2 := by rw [eucl_eq_iff (by norm_num)]; norm_num
  have d2 : eucl (0, 0) (0, 2) = 2 := by rw [eucl_eq_iff (by norm_num)]; norm_num
  have d3 : eucl (0, 2) (2, 2) = 2 := by rw [eucl_eq_iff (by norm_num)]; norm_num
  have d4 : eucl (2, 2) (2, 0) = 2 := by rw [eucl_eq_iff (by norm_num)]; norm_num
  match out, f2 with
  | [p0, p1, p2, p3], _ =>
    have g0 := f3 0 (0, 0) (0, 2) (2, 2) p0 (by simp [Neighbours, sq2]) rfl
    have g1 := f3 1 (0, 2) (2, 2) (2, 0) p1 (by simp [Neighbours, sq2]) rfl
    have g2 := f3 2 (2, 2) (2, 0) (0, 0) p2 (by simp [Neighbours, sq2]) rfl
    have g3 := f3 3 (2, 0) (0, 0) (0, 2) p3 (by simp [Neighbours, sq2]) rfl
    simp only [signedDist, turnAt, d1, d2, d3, d4] at g0 g1 g2 g3
    rw [f1]
    have e0 : p0 = (-d, 2 + d) := by ext <;> simp only <;> linarith [g0.1, g0.2]
    have e1 : p1 = (2 + d, 2 + d) := by ext <;> simp only <;> linarith [g1.1, g1.2]
    have e2 : p2 = (2 + d, -d) := by ext <;> simp only <;> linarith [g2.1, g2.2]
    have e3 : p3 = (-d, -d) := by ext <;> simp only <;> linarith [g3.1, g3.2]
    rw [e0, e1, e2, e3]

theorem needle_off : ∃ p p', (offsetPoly stdR true false 1 needle).1 = .ok [p, p'] := by
  have hp := dblEps_pos
  have hn : dblEps < stdR.nullDistance := by unfold dblEps; norm_num [stdR]
  have h0 : 0 < stdR.nullAngleValue := by norm_num [stdR]
  have h2 : stdR.nullAngleValue ≤ π / 2 := by have := Real.two_le_pi; norm_num [stdR]; linarith
  have hd : stdR.nullDistance ≤ |(1 : ℝ)| := by norm_num [stdR]
  obtain ⟨L, hL⟩ : ∃ L, L = √(100000001 : ℝ) := ⟨_, rfl⟩
  have hLs : L ^ 2 = 100000001 := by rw [hL]; exact sq_sqrt (by norm_num)
  have hL1 : 10000 ≤ L := by rw [hL]; exact le_sqrt_of_sq_le (by norm_num)
  have hL2 : L ≤ 10001 := by rw [hL]; exact sqrt_le_iff.2 ⟨by norm_num, by norm_num⟩
  have d1 : eucl (0, 0) (10000, 1) = L := by rw [eucl, hL]; congr 1; norm_num
  have d2 : eucl (10000, 1) (10000, -1) = 2 := by rw [eucl_eq_iff (by norm_num)]; norm_num
  have d3 : eucl (10000, -1) (0, 0) = L := by rw [eucl, hL]; congr 1; norm_num
  have s1 : GoodSeg stdR ((0, 0), (10000, 1)) := by
    refine ⟨?_, Or.inr ?_⟩ <;> simp only [d1] <;> norm_num [stdR] <;> linarith
  have s2 : GoodSeg stdR ((10000, 1), (10000, -1)) := by
    refine ⟨?_, Or.inr ?_⟩ <;> simp only [d2] <;> norm_num [stdR]
  have s3 : GoodSeg stdR ((10000, -1), (0, 0)) := by
    refine ⟨?_, Or.inr ?_⟩ <;> simp only [d3] <;> norm_num [stdR] <;> linarith
  have x1 : GoodSlopeX stdR (0, 0) (10000, 1) := Or.inr (by simp only [d1]; norm_num [stdR]; linarith)
  have x2 : GoodSlopeX stdR (10000, 1) (10000, -1) := Or.inl rfl
  have x3 : GoodSlopeX stdR (10000, -1) (0, 0) := Or.inr (by simp only [d3]; norm_num [stdR]; linarith)
  have big : stdR.nullAngleValue ≤ arccos (1 / L) := by
    have hcos := Real.one_sub_sq_div_two_le_cos (x := 1 / 1000)
    have hl : 1 / L ≤ 1 / 10000 := one_div_le_one_div_of_le (by norm_num) hL1
    have : arccos (cos (1 / 1000)) = 1 / 1000 := arccos_cos (by norm_num) (by have := Real.two_le_pi; linarith)
    show (1 / 1000 : ℝ) ≤ _
    rw [← this]
    exact arccos_le_arccos (by norm_num at hcos ⊢; norm_num at hl; linarith)
  have a1 : stdR.nullAngleValue ≤ segAngle ((0, 0), (10000, 1)) ((10000, 1), (10000, -1)) := by
    refine big.trans (le_of_eq ?_)
    unfold segAngle; simp only [d1, d2]; congr 1; norm_num; field_simp
  have a2 : stdR.nullAngleValue ≤ segAngle ((10000, 1), (10000, -1)) ((10000, -1), (0, 0)) := by
    refine big.trans (le_of_eq ?_)
    unfold segAngle; simp only [d3, d2]; congr 1; norm_num; field_simp
  have a3 : segAngle ((10000, -1), (0, 0)) ((0, 0), (10000, 1)) < stdR.nullAngleValue := by
    have hb := abs_le.1 (Real.cos_bound (x := 1 / 1000) (by norm_num [abs_of_pos]))
    have : arccos (cos (1 / 1000)) = 1 / 1000 := arccos_cos (by norm_num) (by have := Real.two_le_pi; linarith)
    show _ < (1 / 1000 : ℝ)
    rw [← this]
    unfold segAngle; simp only [d3, d1]
    rw [← sq, hLs]
    apply arccos_lt_arccos (neg_one_le_cos _)
    · have := hb.2; norm_num [abs_of_pos] at this ⊢; linarith
    · norm_num
  obtain ⟨p, v1, v2, v3⟩ := (vertex_spec hn h0 h2 s1 x1 s2 x2 hd).2 a1
  obtain ⟨p', w1, w2, w3⟩ := (vertex_spec hn h0 h2 s2 x2 s3 x3 hd).2 a2
  have u1 := (vertex_spec hn h0 h2 s3 x3 s1 x1 hd).1 a3 false
  have hseg : getOSegs (fun p q => decide (PtEq stdR p q)) true needle = .ok (cycPairs needle) := by
    unfold getOSegs segPairs
    rw [if_neg (show ¬ needle.length < 2 by simp [needle])]
    simp only [if_true]
    rw [if_neg]
    simp only [needle, cycPairs, List.tail_cons, List.take_succ_cons, List.take_zero, List.cons_append, List.nil_append, List.zip_cons_cons, List.zip_nil_right,
      List.any_cons, List.any_nil, PtEq, ptDist_eucl, d1, d2, d3]
    norm_num [stdR]; linarith
  have hloop : offsetLoop stdR false 1 (cycPairs (cycPairs needle)) = .ok [p, p'] := by
    simp only [needle, cycPairs, List.tail_cons, List.take_succ_cons, List.take_zero, List.cons_append, List.nil_append, List.zip_cons_cons, List.zip_nil_right]
    unfold offsetLoop
    rw [v1, Res.bind_ok]
    unfold offsetLoop
    simp only
    rw [w1, Res.bind_ok]
    unfold offsetLoop
    simp only
    rw [u1, Res.bind_ok]
    rfl
  refine ⟨p, p', ?_⟩
  unfold offsetPoly
  rw [if_neg (by simp [needle]; norm_num [stdR]), norm_needle]
  simp only
  rw [hseg, Res.bind_ok, hloop, Res.bind_ok]
  unfold polySet
  rw [if_pos]
  -- the two points are far from each other
  simp only [turnAt, d1, d2, d3] at v2 v3 w2 w3
  have hy : 1 ≤ p.2 := by
    have : p.1 = 10001 := by linarith
    rw [this] at v2; linarith
  have hy' : p'.2 ≤ -1 := by
    have : p'.1 = 10001 := by linarith
    rw [this] at w3; linarith
  have hfar : 2 ≤ eucl p p' := by
    apply le_sqrt_of_sq_le
    have : 0 ≤ (p'.1 - p.1) ^ 2 := sq_nonneg _
    nlinarith
  simp only [checkInput, openPairs, List.tail_cons, List.zip_cons_cons, List.zip_nil_right, List.all_cons, List.all_nil, Bool.and_true, PtEq, ptDist_eucl,
    List.getLastD_cons, List.getLastD_nil, Bool.and_eq_true, Bool.not_eq_true', decide_eq_false_iff_not, not_lt, and_self]
  norm_num [stdR]; linarith

end H2d.Off

namespace H2d.Off
open H2d H2d.Spec Real

/-- The normal of a segment at a point of it, as a line: points and direction. -/
theorem cut_line {t : Thr ℝ} (h1 : dblEps < t.nullDistance) {v p : Pt ℝ} {d : ℝ} (hm : t.nullDistance ≤ eucl v p) (hs : GoodSlope t v p) (hx : GoodSlopeX t v p)
    (hd0 : 0 ≤ d) :
    ∃ cut lo o, segPointAt t (v, p) d = .ok cut ∧ segLine t (v, p) = .ok lo ∧ orthogLine t lo cut = .ok o ∧ UnitNormal o ∧
      On o cut ∧ On o (cut.1 - (p.2 - v.2), cut.2 + (p.1 - v.1)) ∧
      ∀ x, On o x → (x.1 - v.1) * (p.1 - v.1) + (x.2 - v.2) * (p.2 - v.2) = d * eucl v p := by
  have hp := dblEps_pos
  have hL : 0 < eucl v p := by linarith
  obtain ⟨g1, -⟩ := (Props.C20_pointAt_partial t h1 (v, p) hm hs d).2 hd0
  obtain ⟨lo, f1, f2, -, f3⟩ := segLine_spec h1 hm
  obtain ⟨o1, o2⟩ := f3 hs
  obtain ⟨e, he, u1, u2⟩ := unit_dir (s := (v, p)) f2.1 o1 o2
  have hee : |e| = eucl v p := by rw [← abs_of_pos hL]; exact (sq_eq_sq_iff_abs_eq_abs _ _).1 he
  have he0 : e ≠ 0 := by rintro rfl; rw [abs_zero] at hee; linarith
  simp only at u1 u2
  have hb : lo 1 = 0 ∨ t.nullDenom ≤ |lo 1| := by
    rcases hx with hx | hx
    · left
      have : e * lo 1 = 0 := by rw [← u1, hx]; ring
      exact (mul_eq_zero.1 this).resolve_left he0
    · right
      rw [abs_sub_comm, u1, abs_mul, hee, mul_comm] at hx
      exact le_of_mul_le_mul_left hx hL
  obtain ⟨o, k1, k2, k3⟩ := orthogLine_spec (t := t) f2.1 (along (v, p) (d / eucl v p))
  obtain ⟨k, hk0, hk⟩ := k3 hb
  have q0 : o 0 = - (k * lo 1) := by rw [hk]; simp
  have q1 : o 1 = k * lo 0 := by rw [hk]; simp
  have q2 : o 2 = k * (lo 1 * (along (v, p) (d / eucl v p)).1 - lo 0 * (along (v, p) (d / eucl v p)).2) := by rw [hk]; simp
  refine ⟨_, lo, o, g1, f1, k1, k2.1, ?_, ?_, ?_⟩
  · unfold On; rw [q0, q1, q2]; ring
  · unfold On; rw [q0, q1, q2]; simp only; rw [u1, u2]; ring
  · intro x hx'
    unfold On at hx'
    rw [q0, q1, q2] at hx'
    have hx2 : lo 1 * (x.1 - (along (v, p) (d / eucl v p)).1) - lo 0 * (x.2 - (along (v, p) (d / eucl v p)).2) = 0 := by
      have : k * (lo 1 * (x.1 - (along (v, p) (d / eucl v p)).1) - lo 0 * (x.2 - (along (v, p) (d / eucl v p)).2)) = 0 := by linear_combination - hx'
      exact (mul_eq_zero.1 this).resolve_left hk0
    have hsq : eucl v p ^ 2 = (p.1 - v.1) ^ 2 + (p.2 - v.2) ^ 2 := by rw [eucl_sq]; ring
    unfold along at hx2
    simp only at hx2
    have h3 : d * eucl v p = d / eucl v p * ((p.1 - v.1) ^ 2 + (p.2 - v.2) ^ 2) := by rw [← hsq]; field_simp
    rw [h3, u1, u2]
    rw [u1, u2] at hx2
    linear_combination e * hx2

theorem dot_abs {a v p : Pt ℝ} {d : ℝ} (h : turnAt a v p = d * eucl a v) (w : Pt ℝ) (x : Pt ℝ) (hL : 0 < eucl a v) (hm : 0 < eucl v p) (hd : 0 < d) :
    segAngle (x, (x.1 - (p.2 - v.2), x.2 + (p.1 - v.1))) (shift w (a, v)) = arccos (d / eucl v p) := by
  unfold segAngle
  have e1 : eucl x (x.1 - (p.2 - v.2), x.2 + (p.1 - v.1)) = eucl v p := by unfold eucl; simp only; congr 1; ring
  have e2 : eucl (shift w (a, v)).1 (shift w (a, v)).2 = eucl a v := by unfold eucl shift; simp only; congr 1; ring
  simp only [e1]
  rw [e2]
  congr 1
  have : (x.1 - (p.2 - v.2) - x.1) * ((shift w (a, v)).2.1 - (shift w (a, v)).1.1) + (x.2 + (p.1 - v.1) - x.2) * ((shift w (a, v)).2.2 - (shift w (a, v)).1.2) = - (d * eucl a v) := by
    rw [← h]; unfold shift turnAt; simp only; ring
  rw [this, abs_neg, abs_of_pos (by positivity)]
  field_simp

/-- Where a cut point is. `g` is the vector of the edge. -/
theorem cut_dist {g v p x : Pt ℝ} {d A : ℝ} (hd : 0 < d) (hL : 0 < A) (s1 : A ^ 2 = g.1 ^ 2 + g.2 ^ 2) (hm : d < eucl v p)
    (h : g.1 * (p.2 - v.2) - g.2 * (p.1 - v.1) = d * A) (hx : g.1 * (x.2 - v.2) - g.2 * (x.1 - v.1) = d * A)
    (hc : (x.1 - v.1) * (p.1 - v.1) + (x.2 - v.2) * (p.2 - v.2) = d * eucl v p) : d ≤ eucl v x ∧ eucl v x ^ 2 ≤ 2 * d ^ 2 := by
  have s2 : eucl v p ^ 2 = (p.1 - v.1) ^ 2 + (p.2 - v.2) ^ 2 := by rw [eucl_sq]; ring
  have s3 : eucl v x ^ 2 = (x.1 - v.1) ^ 2 + (x.2 - v.2) ^ 2 := by rw [eucl_sq]; ring
  have hX := eucl_nonneg v x
  set M := eucl v p
  set X := eucl v x
  have hM : 0 < M := by linarith
  obtain ⟨T, hT⟩ : ∃ T, T = (p.1 - v.1) * (x.2 - v.2) - (p.2 - v.2) * (x.1 - v.1) := ⟨_, rfl⟩
  obtain ⟨S, hS⟩ : ∃ S, S = g.1 * (p.1 - v.1) + g.2 * (p.2 - v.2) := ⟨_, rfl⟩
  have hXT : X ^ 2 * M ^ 2 = d ^ 2 * M ^ 2 + T ^ 2 := by
    rw [s3, s2, hT]
    have : d ^ 2 * ((p.1 - v.1) ^ 2 + (p.2 - v.2) ^ 2) = (d * M) ^ 2 := by rw [← s2]; ring
    rw [this, ← hc]; ring
  have hSA : S ^ 2 = A ^ 2 * (M ^ 2 - d ^ 2) := by
    have : A ^ 2 * (M ^ 2 - d ^ 2) = A ^ 2 * M ^ 2 - (d * A) ^ 2 := by ring
    rw [this, ← h, s1, s2, hS]; ring
  have hTS : T * S = d * A * M * (M - d) := by
    have e1 : d * A * M * (M - d) = M ^ 2 * (d * A) - (d * M) * (d * A) := by ring
    rw [e1]
    nth_rewrite 1 [← hx]
    rw [← hc, ← h, s2, hT, hS]; ring
  have hT2 : T ^ 2 ≤ d ^ 2 * M ^ 2 := by
    have h1 : T ^ 2 * (M + d) = d ^ 2 * M ^ 2 * (M - d) := by
      have h2 : T ^ 2 * S ^ 2 = (d * A * M * (M - d)) ^ 2 := by rw [← hTS]; ring
      rw [hSA] at h2
      have h3 : A ^ 2 * (M - d) ≠ 0 := mul_ne_zero (by positivity) (by linarith)
      apply mul_left_cancel₀ h3
      linear_combination h2
    have : 0 ≤ d ^ 2 * M ^ 2 * (2 * d) := by positivity
    have h5 : T ^ 2 * (M + d) ≤ d ^ 2 * M ^ 2 * (M + d) := by rw [h1]; nlinarith
    exact le_of_mul_le_mul_right h5 (by linarith)
  have hM2 : 0 < M ^ 2 := by positivity
  constructor
  · have : d ^ 2 * M ^ 2 ≤ X ^ 2 * M ^ 2 := by rw [hXT]; linarith [sq_nonneg T]
    exact (sq_le_sq₀ hd.le hX).1 (le_of_mul_le_mul_right this hM2)
  · have : X ^ 2 * M ^ 2 ≤ 2 * d ^ 2 * M ^ 2 := by rw [hXT]; linarith
    exact le_of_mul_le_mul_right this hM2

/-- The point where the two parallels meet is farther from the vertex than the distance. -/
theorem apex_far {a v b p : Pt ℝ} {d : ℝ} (hd0 : 0 < d) (k1 : 0 < eucl a v) (k2 : 0 < eucl v b) (ht : turnAt a v b < 0) (p1 : turnAt a v p = d * eucl a v)
    (p2 : turnAt v b p = d * eucl v b) : d < eucl v p := by
  by_contra hc
  push Not at hc
  have hsq : eucl v p ^ 2 ≤ d ^ 2 := pow_le_pow_left₀ (eucl_nonneg _ _) hc 2
  have s1 := eucl_sq a v
  have s2 := eucl_sq v b
  have s3 := eucl_sq v p
  have e1 : ((v.1 - a.1) * (p.1 - v.1) + (v.2 - a.2) * (p.2 - v.2)) ^ 2 ≤ 0 := by
    have : ((v.1 - a.1) * (p.1 - v.1) + (v.2 - a.2) * (p.2 - v.2)) ^ 2 = eucl a v ^ 2 * (eucl v p ^ 2 - d ^ 2) := by
      have : eucl a v ^ 2 * (eucl v p ^ 2 - d ^ 2) = eucl a v ^ 2 * eucl v p ^ 2 - (d * eucl a v) ^ 2 := by ring
      rw [this, ← p1, s1, s3]; unfold turnAt; ring
    rw [this]; exact mul_nonpos_of_nonneg_of_nonpos (sq_nonneg _) (by linarith)
  have e2 : ((b.1 - v.1) * (p.1 - v.1) + (b.2 - v.2) * (p.2 - v.2)) ^ 2 ≤ 0 := by
    have : ((b.1 - v.1) * (p.1 - v.1) + (b.2 - v.2) * (p.2 - v.2)) ^ 2 = eucl v b ^ 2 * (eucl v p ^ 2 - d ^ 2) := by
      have : eucl v b ^ 2 * (eucl v p ^ 2 - d ^ 2) = eucl v b ^ 2 * eucl v p ^ 2 - (d * eucl v b) ^ 2 := by ring
      rw [this, ← p2, s2, s3]; unfold turnAt; ring
    rw [this]; exact mul_nonpos_of_nonneg_of_nonpos (sq_nonneg _) (by linarith)
  have e1' : (v.1 - a.1) * (p.1 - v.1) + (v.2 - a.2) * (p.2 - v.2) = 0 := pow_eq_zero_iff (two_ne_zero) |>.1 (le_antisymm e1 (sq_nonneg _))
  have e2' : (b.1 - v.1) * (p.1 - v.1) + (b.2 - v.2) * (p.2 - v.2) = 0 := pow_eq_zero_iff (two_ne_zero) |>.1 (le_antisymm e2 (sq_nonneg _))
  have e3 : turnAt a v b * eucl v p ^ 2 = 0 := by
    rw [s3]; unfold turnAt
    linear_combination ((b.2 - v.2) * (p.1 - v.1) - (b.1 - v.1) * (p.2 - v.2)) * e1' + ((v.1 - a.1) * (p.2 - v.2) - (v.2 - a.2) * (p.1 - v.1)) * e2'
  have e4 : eucl v p ^ 2 = 0 := (mul_eq_zero.1 e3).resolve_left ht.ne
  have e5 : eucl v p = 0 := pow_eq_zero_iff (two_ne_zero) |>.1 e4
  have e6 : v = p := eucl_eq_zero.1 e5
  rw [← e6] at p1
  unfold turnAt at p1
  have : 0 < d * eucl a v := by positivity
  rw [← p1] at this
  simp at this

/-- What is added for a vertex where the polygon turns right, with the option. -/
theorem vertex_split {t : Thr ℝ} (h1 : dblEps < t.nullDistance) (h0 : 0 < t.nullAngleValue) (h2 : t.nullAngleValue ≤ π / 2) {a v b : Pt ℝ} (hg : GoodVertex t a v b)
    {d : ℝ} (hd : t.nullDistance ≤ d) (ht : turnAt a v b < 0) :
    ∃ p, signedDist a v p = d ∧ signedDist v b p = d ∧
      (GoodSlope t v p → GoodSlopeX t v p → arccos (d / eucl v p) < t.nullAngleValue → offsetVertex t true d (a, v) (v, b) = .throw) ∧
      (GoodCut t d v p → ∃ c1 c2, offsetVertex t true d (a, v) (v, b) = .ok (if PtEq t c1 c2 then [c1] else [c1, c2]) ∧
        signedDist a v c1 = d ∧ signedDist v b c2 = d ∧ d ≤ eucl v c1 ∧ eucl v c1 ^ 2 ≤ 2 * d ^ 2 ∧ d ≤ eucl v c2 ∧ eucl v c2 ^ 2 ≤ 2 * d ^ 2) := by
  have hp := dblEps_pos
  have hd0 : 0 < d := by linarith
  obtain ⟨l, l', w, w', u, u', z1, z2, z3, z4, a7, b7, hang, hrun⟩ := vertex_run h1 h2 hg.1 hg.2.1 hg.2.2.1 hg.2.2.2.1 (d := d) (by rw [abs_of_pos hd0]; exact hd)
  simp only at a7 b7
  have k1 : 0 < eucl a v := by have := hg.1.1; simp only at this; linarith
  have k2 : 0 < eucl v b := by have := hg.2.2.1.1; simp only at this; linarith
  have hnp : ¬ IsParallel t l l' := by rw [IsParallel, hang]; exact not_lt.2 hg.2.2.2.2
  obtain ⟨c1, c2, c3, -⟩ := lineInter_spec h0 u u' hnp
  set p := getXY (crossProd l l') with hpdef
  have p1 := (a7 _).1 c2
  have p2 := (b7 _).1 c3
  -- not a left turn
  have hneg : ¬ 0 < osegAngle (a, v) (v, b) := by
    intro hpos
    have hne : a ≠ v := by rintro rfl; rw [eucl_self] at k1; exact lt_irrefl _ k1
    have hne' : v ≠ b := by rintro rfl; rw [eucl_self] at k2; exact lt_irrefl _ k2
    have hs := (Bis.oseg_cos_sin (s := (a, v)) (s' := (v, b)) hne hne').2
    have hr := Bis.oseg_range (a, v) (v, b)
    have : 0 ≤ sin (osegAngle (a, v) (v, b)) := sin_nonneg_of_nonneg_of_le_pi hpos.le hr.2
    simp only at hs
    have h5 : turnAt a v b = sin (osegAngle (a, v) (v, b)) * (eucl a v * eucl v b) := by rw [hs]; unfold turnAt; ring
    rw [h5] at ht
    have : 0 ≤ sin (osegAngle (a, v) (v, b)) * (eucl a v * eucl v b) := by positivity
    linarith
  have hge : d < eucl v p := apex_far hd0 k1 k2 ht p1 p2
  have hm0 : 0 < eucl v p := by linarith
  have hrun' : ∀ cut lo o, segPointAt t (v, p) d = .ok cut → segLine t (v, p) = .ok lo → orthogLine t lo cut = .ok o →
      offsetVertex t true d (a, v) (v, b) = (do
        let c1 ← lineInter t o l
        let c2 ← lineInter t o l'
        pure (if PtEq t (getXY c1) (getXY c2) then [getXY c1] else [getXY c1, getXY c2])) := by
    intro cut lo o q1 q2 q3
    rw [hrun, if_neg hnp, c1, Res.bind_ok, if_neg (by
      simp only [not_or]; exact ⟨by simp, hneg, not_lt.2 hd0.le⟩)]
    simp only
    rw [segMake_eq true (by linarith : t.nullDistance ≤ eucl v p), Res.bind_ok]
    simp only [if_true]
    have hl : segLength (v, p) = eucl v p := by unfold segLength; rw [ptDist_eucl]
    rw [hl, min_eq_right hge.le, q1, Res.bind_ok, q2, Res.bind_ok, q3, Res.bind_ok]
  refine ⟨p, (signed_iff k1 _).2 p1, (signed_iff k2 _).2 p2, ?_, ?_⟩
  · intro g1 g2 g3
    obtain ⟨cut, lo, o, q1, q2, q3, q4, q5, q6, -⟩ := cut_line h1 (by linarith : t.nullDistance ≤ eucl v p) g1 g2 hd0.le
    rw [hrun' cut lo o q1 q2 q3]
    have : lineAngle o l = arccos (d / eucl v p) := by
      rw [← dot_abs p1 w cut k1 hm0 hd0]
      exact lineAngle_seg q4 u (by
        simp only; rw [show eucl cut (cut.1 - (p.2 - v.2), cut.2 + (p.1 - v.1)) = eucl v p by unfold eucl; simp only; congr 1; ring]; exact hm0) (by
        rw [show eucl (shift w (a, v)).1 (shift w (a, v)).2 = eucl a v by unfold eucl shift; simp only; congr 1; ring]; exact k1) q5 q6 z1 z2
    unfold lineInter
    rw [if_pos (by rw [IsParallel, this]; exact g3), Res.bind_throw]
  · rintro ⟨g1, g2, g3⟩
    obtain ⟨cut, lo, o, q1, q2, q3, q4, q5, q6, q7⟩ := cut_line h1 (by linarith : t.nullDistance ≤ eucl v p) g1 g2 hd0.le
    have hcl : 0 < eucl cut (cut.1 - (p.2 - v.2), cut.2 + (p.1 - v.1)) := by
      rw [show eucl cut (cut.1 - (p.2 - v.2), cut.2 + (p.1 - v.1)) = eucl v p by unfold eucl; simp only; congr 1; ring]; exact hm0
    have an1 : lineAngle o l = arccos (d / eucl v p) := by
      rw [← dot_abs p1 w cut k1 hm0 hd0]
      exact lineAngle_seg q4 u hcl (by
        rw [show eucl (shift w (a, v)).1 (shift w (a, v)).2 = eucl a v by unfold eucl shift; simp only; congr 1; ring]; exact k1) q5 q6 z1 z2
    have p2' : turnAt b v p = - d * eucl b v := by
      rw [eucl_comm b v, neg_mul, ← p2]; unfold turnAt; ring
    have an2 : lineAngle o l' = arccos (d / eucl v p) := by
      have hx : segAngle (cut, (cut.1 - (p.2 - v.2), cut.2 + (p.1 - v.1))) (shift w' (v, b)) = arccos (d / eucl v p) := by
        unfold segAngle
        have e1 : eucl cut (cut.1 - (p.2 - v.2), cut.2 + (p.1 - v.1)) = eucl v p := by unfold eucl; simp only; congr 1; ring
        have e2 : eucl (shift w' (v, b)).1 (shift w' (v, b)).2 = eucl v b := by unfold eucl shift; simp only; congr 1; ring
        simp only [e1]
        rw [e2]
        congr 1
        have : (cut.1 - (p.2 - v.2) - cut.1) * ((shift w' (v, b)).2.1 - (shift w' (v, b)).1.1) +
            (cut.2 + (p.1 - v.1) - cut.2) * ((shift w' (v, b)).2.2 - (shift w' (v, b)).1.2) = - (d * eucl v b) := by
          rw [← p2]; unfold shift turnAt; simp only; ring
        rw [this, abs_neg, abs_of_pos (by positivity)]
        field_simp
      rw [← hx]
      exact lineAngle_seg q4 u' hcl (by
        rw [show eucl (shift w' (v, b)).1 (shift w' (v, b)).2 = eucl v b by unfold eucl shift; simp only; congr 1; ring]; exact k2) q5 q6 z3 z4
    have n1 : ¬ IsParallel t o l := by rw [IsParallel, an1]; exact not_lt.2 g3
    have n2 : ¬ IsParallel t o l' := by rw [IsParallel, an2]; exact not_lt.2 g3
    obtain ⟨i1, i2, i3, -⟩ := lineInter_spec h0 q4 u n1
    obtain ⟨j1, j2, j3, -⟩ := lineInter_spec h0 q4 u' n2
    refine ⟨_, _, by rw [hrun' cut lo o q1 q2 q3, i1, Res.bind_ok, j1, Res.bind_ok]; rfl, ?_, ?_, ?_⟩
    · exact (signed_iff k1 _).2 ((a7 _).1 i3)
    · exact (signed_iff k2 _).2 ((b7 _).1 j3)
    · obtain ⟨m1, m2⟩ := cut_dist (g := (v.1 - a.1, v.2 - a.2)) hd0 k1 (by rw [eucl_sq]; ring) hge p1 ((a7 _).1 i3) (q7 _ i2)
      obtain ⟨m3, m4⟩ := cut_dist (g := (b.1 - v.1, b.2 - v.2)) hd0 k2 (by rw [eucl_sq]; ring) hge (by
        rw [← p2]; unfold turnAt; ring) (by rw [← (b7 _).1 j3]; unfold turnAt; ring) (q7 _ j2)
      exact ⟨m1, m2, m3, m4⟩

theorem loop_forall {t : Thr ℝ} {split : Bool} {d : ℝ} (P : Seg × Seg → List (Pt ℝ) → Prop) (L : List (Seg × Seg))
    (h : ∀ e ∈ L, ∃ r, offsetVertex t split d e.1 e.2 = .ok r ∧ P e r) :
    ∃ out, offsetLoop t split d L = .ok out ∧ (∀ x ∈ out, ∃ e ∈ L, ∃ r, P e r ∧ x ∈ r) ∧ (∀ e ∈ L, ∃ r, P e r ∧ ∀ x ∈ r, x ∈ out) := by
  induction L with
  | nil => exact ⟨[], rfl, by simp, by simp⟩
  | cons e L ih =>
    obtain ⟨out, g1, g2, g3⟩ := ih (fun x hx => h x (List.mem_cons_of_mem _ hx))
    obtain ⟨r, r1, r2⟩ := h e (by simp)
    refine ⟨r ++ out, ?_, ?_, ?_⟩
    · unfold offsetLoop
      rw [r1, Res.bind_ok, g1, Res.bind_ok]; rfl
    · intro x hx
      rcases List.mem_append.1 hx with hx | hx
      · exact ⟨e, by simp, r, r2, hx⟩
      · obtain ⟨e', he', r', k1, k2⟩ := g2 x hx
        exact ⟨e', List.mem_cons_of_mem _ he', r', k1, k2⟩
    · intro e' he'
      rcases List.mem_cons.1 he' with rfl | he'
      · exact ⟨r, r2, fun x hx => List.mem_append_left _ hx⟩
      · obtain ⟨r', k1, k2⟩ := g3 e' he'
        exact ⟨r', k1, fun x hx => List.mem_append_right _ (k2 x hx)⟩

theorem mem_cyc_cyc {q : List (Pt ℝ)} {i : Nat} {a v b : Pt ℝ} (h : Neighbours q i a v b) : ((a, v), (v, b)) ∈ cycPairs (cycPairs q) := by
  have hi := (List.getElem?_eq_some_iff.1 h.1).1
  have hn : 0 < q.length := by omega
  have hlen : (cycPairs (cycPairs q)).length = q.length := by simp [cycPairs_eq]
  have hlt : (i + (q.length - 1)) % q.length < (cycPairs (cycPairs q)).length := by rw [hlen]; exact Nat.mod_lt _ hn
  obtain ⟨a', v', b', e, hN⟩ := cyc_cyc q _ _ (List.getElem?_eq_getElem hlt)
  rw [Nat.mod_add_mod, show i + (q.length - 1) + 1 = i + q.length by omega, Nat.add_mod_right, Nat.mod_eq_of_lt hi] at hN
  obtain ⟨rfl, rfl, rfl⟩ := neigh_uniq h hN
  rw [← e]; exact List.getElem_mem _

theorem osegs_good {t : Thr ℝ} {q : List (Pt ℝ)} (h3 : 3 ≤ q.length) (hg : ∀ i a v b, Neighbours q i a v b → t.nullDistance ≤ eucl v b) :
    getOSegs (fun p q => decide (PtEq t p q)) true q = .ok (cycPairs q) := by
  unfold getOSegs segPairs
  rw [if_neg (by omega : ¬ q.length < 2)]
  simp only [if_true]
  rw [if_neg]
  simp only [List.any_eq_true, not_exists, not_and, decide_eq_true_eq]
  rintro ⟨x, y⟩ hm he
  obtain ⟨i, hi⟩ := List.mem_iff_getElem?.1 hm
  rw [cycPairs_eq, List.getElem?_zip_eq_some] at hi
  obtain ⟨z1, z2⟩ := hi
  simp only at z1 z2
  have hlt := (List.getElem?_eq_some_iff.1 z1).1
  rw [List.getElem?_rotate hlt] at z2
  have hlt' : (i + q.length - 1) % q.length < q.length := Nat.mod_lt _ (by omega)
  have := hg i _ _ _ ⟨z1, z2, List.getElem?_eq_getElem hlt'⟩
  rw [PtEq, ptDist_eucl] at he
  simp only at this he
  linarith

/-- A flat kite. -/
def kite : List (Pt ℝ) := [(-1500, -1), (0, 0), (1500, -1), (0, -1000)]

theorem norm_kite : normalizePoly true kite = .ok kite := by
  apply norm_of_first (by rw [kite])
  · norm_num [kite]
  · intro q hq
    simp only [kite, List.mem_cons, List.not_mem_nil, or_false] at hq
    rcases hq with rfl | rfl | rfl | rfl <;> norm_num [LexLt]
  · norm_num [orientDet]

theorem kite_split : (offsetPoly stdR true true 1 kite).1 = .throw := by
  have hn : dblEps < stdR.nullDistance := by unfold dblEps; norm_num [stdR]
  have h0 : 0 < stdR.nullAngleValue := by norm_num [stdR]
  have h2 : stdR.nullAngleValue ≤ π / 2 := by have := Real.two_le_pi; norm_num [stdR]; linarith
  obtain ⟨L, hL⟩ : ∃ L, L = √(2250001 : ℝ) := ⟨_, rfl⟩
  have hLs : L ^ 2 = 2250001 := by rw [hL]; exact sq_sqrt (by norm_num)
  have hL1 : 1500 ≤ L := by rw [hL]; exact le_sqrt_of_sq_le (by norm_num)
  have hL2 : L ≤ 1501 := by rw [hL]; exact sqrt_le_iff.2 ⟨by norm_num, by norm_num⟩
  have hL3 : L ≤ 1500 + 1 / 2990 := by rw [hL]; exact sqrt_le_iff.2 ⟨by norm_num, by norm_num⟩
  have d1 : eucl (-1500, -1) (0, 0) = L := by rw [eucl, hL]; congr 1; norm_num
  have d2 : eucl (0, 0) (1500, -1) = L := by rw [eucl, hL]; congr 1; norm_num
  have d3 : 1 ≤ eucl (1500, -1) (0, -1000) := by rw [eucl]; exact le_sqrt_of_sq_le (by norm_num)
  have d4 : 1 ≤ eucl (0, -1000) (-1500, -1) := by rw [eucl]; exact le_sqrt_of_sq_le (by norm_num)
  have hcos := Real.one_sub_sq_div_two_le_cos (x := 1 / 1000)
  have hb := (abs_le.1 (Real.cos_bound (x := 1 / 1000) (by norm_num [abs_of_pos]))).2
  have hac : arccos (cos (1 / 1000)) = 1 / 1000 := arccos_cos (by norm_num) (by have := Real.two_le_pi; linarith)
  have hgv : GoodVertex stdR (-1500, -1) (0, 0) (1500, -1) := by
    refine ⟨⟨?_, Or.inr ?_⟩, Or.inr ?_, ⟨?_, Or.inr ?_⟩, Or.inr ?_, ?_⟩
    · simp only [d1]; norm_num [stdR]; linarith
    · simp only [d1]; norm_num [stdR]; linarith
    · simp only [d1]; norm_num [stdR]; linarith
    · simp only [d2]; norm_num [stdR]; linarith
    · simp only [d2]; norm_num [stdR]; linarith
    · simp only [d2]; norm_num [stdR]; linarith
    · show (1 / 1000 : ℝ) ≤ _
      rw [← hac]
      unfold segAngle
      apply arccos_le_arccos
      simp only [d1, d2]
      rw [← sq, hLs]
      norm_num at hcos ⊢; linarith
  obtain ⟨p, p1, p2, p3, -⟩ := vertex_split hn h0 h2 hgv (d := 1) (by norm_num [stdR]) (by norm_num [turnAt])
  rw [signed_iff (by rw [d1]; linarith), d1] at p1
  rw [signed_iff (by rw [d2]; linarith), d2] at p2
  unfold turnAt at p1 p2
  simp only at p1 p2
  have x0 : p.1 = 0 := by linarith
  have y0 : p.2 = L / 1500 := by linarith
  have hp : p = (0, L / 1500) := Prod.ext x0 y0
  subst hp
  have e : eucl (0, 0) (0, L / 1500) = L / 1500 := by rw [eucl_eq_iff (by positivity)]; simp
  have hth := p3 (Or.inr (by rw [e]; simp only [zero_sub, abs_neg]; rw [abs_of_pos (by positivity)]; norm_num [stdR]; linarith)) (Or.inl rfl) (by
    rw [e]
    show _ < (1 / 1000 : ℝ)
    rw [← hac]
    apply arccos_lt_arccos (neg_one_le_cos _)
    · have h6 : 1 / (L / 1500) = 1500 / L := by field_simp
      rw [h6, lt_div_iff₀ (by linarith)]
      norm_num [abs_of_pos] at hb
      have h7 : cos (1 / 1000) ≤ 1 - 1 / 2000000 + 1 / 10 ^ 12 := by norm_num; linarith
      calc cos (1 / 1000) * L ≤ (1 - 1 / 2000000 + 1 / 10 ^ 12) * L := by gcongr
        _ ≤ (1 - 1 / 2000000 + 1 / 10 ^ 12) * (1500 + 1 / 2990) := by gcongr
        _ < 1500 := by norm_num
    · rw [one_div_div, div_le_one (by linarith)]; exact hL1)
  have hseg := osegs_good (t := stdR) (q := kite) (by simp [kite]) (by
    intro i a v b hN
    obtain ⟨n1, n2, -⟩ := hN
    have hi : i < 4 := (List.getElem?_eq_some_iff.1 n1).1
    have : i = 0 ∨ i = 1 ∨ i = 2 ∨ i = 3 := by omega
    rcases this with rfl | rfl | rfl | rfl <;> simp [kite] at n1 n2 <;> subst n1 n2
    · rw [d1]; norm_num [stdR]; linarith
    · rw [d2]; norm_num [stdR]; linarith
    · exact le_trans (by norm_num [stdR]) d3
    · exact le_trans (by norm_num [stdR]) d4)
  unfold offsetPoly
  rw [if_neg (by simp [kite]; norm_num [stdR]), norm_kite]
  simp only
  rw [hseg, Res.bind_ok]
  simp only [kite, cycPairs, List.tail_cons, List.take_succ_cons, List.take_zero, List.cons_append, List.nil_append, List.zip_cons_cons, List.zip_nil_right]
  unfold offsetLoop
  simp only
  rw [hth, Res.bind_throw, Res.bind_throw]

end H2d.Off
