import Verif.Model.Edits
import Verif.Props.Line
import Verif.Props.Circle

/-! # Lemmas on the editing of circles, results of intersections, lines and one coordinate -/

namespace H2d.Edit

open H2d.Spec H2d.Props

theorem circAfter_append (t : Thr ℝ) (a b : List CircEdit) :
    circAfter t (a ++ b) = b.foldl (fun s op => (op.exec t s.1 s.2).2) (circAfter t a) := by
  unfold circAfter; rw [List.foldl_append]

theorem assign_keep {c : Circle} {r : Res Circle} (h : (assignRes c r).1 ≠ .ok ()) : (assignRes c r).2 = c := by
  cases r with
  | ok d => exact absurd rfl h
  | throw => rfl
  | ub => rfl

theorem assign_prop {c : Circle} {r : Res Circle} {P : Circle → Prop} (hc : P c) (hr : ∀ d, r = .ok d → P d) : P (assignRes c r).2 := by
  cases r with
  | ok d => exact hr d rfl
  | throw => exact hc
  | ub => exact hc

theorem make_radius {t : Thr ℝ} {flag : Bool} {p : Pt ℝ} {r : ℝ} {d : Circle} (h : circleMake t flag p r = .ok d) : 0 ≤ d.radius := by
  unfold circleMake at h
  by_cases h1 : |r| < t.nullDistance ∧ ¬ flag = true
  · rw [if_pos h1] at h; cases h
  · rw [if_neg h1] at h
    by_cases h2 : r < 0
    · rw [if_pos h2] at h; cases h
    · rw [if_neg h2] at h; cases h; exact not_lt.1 h2

theorem two_ok {t : Thr ℝ} {p q : Pt ℝ} {d : Circle} (h : circle2 t p q = .ok d) :
    ¬ PtEq t p q ∧ d = ⟨segCenter (fixOrder p q), segLength (fixOrder p q) / 2⟩ := by
  unfold circle2 at h
  by_cases h1 : PtEq t p q
  · rw [if_pos h1] at h; cases h
  · rw [if_neg h1] at h
    unfold segMake at h
    rw [if_neg h1, Res.bind_ok] at h
    simp only [Bool.false_eq_true, if_false] at h
    cases h
    exact ⟨h1, rfl⟩

theorem two_radius_eq {t : Thr ℝ} {p q : Pt ℝ} {d : Circle} (h : circle2 t p q = .ok d) : d.radius = eucl p q / 2 := by
  obtain ⟨-, rfl⟩ := two_ok h
  have e : segLength (fixOrder p q) = eucl p q := by
    unfold segLength fixOrder
    rw [ptDist_eucl]
    split_ifs
    · exact eucl_comm _ _
    · rfl
  simp only [e]

theorem two_center {t : Thr ℝ} {p q : Pt ℝ} {d : Circle} (h : circle2 t p q = .ok d) : eucl d.center p = eucl p q / 2 ∧ eucl d.center q = eucl p q / 2 := by
  obtain ⟨-, rfl⟩ := two_ok h
  have e : segCenter (fixOrder p q) = ((p.1 + q.1) / 2, (p.2 + q.2) / 2) := by
    unfold segCenter fixOrder
    split_ifs
    · ext <;> simp <;> ring
    · rfl
  have hp : 0 ≤ eucl p q / 2 := by have := eucl_nonneg p q; linarith
  simp only [e]
  rw [eucl_eq_iff hp, eucl_eq_iff hp, div_pow, eucl_sq]
  constructor <;> ring

theorem two_radius {t : Thr ℝ} {p q : Pt ℝ} {d : Circle} (h : circle2 t p q = .ok d) : t.nullDistance / 2 ≤ d.radius ∧ 0 ≤ d.radius := by
  have e := two_radius_eq h
  obtain ⟨h1, -⟩ := two_ok h
  rw [PtEq, ptDist_eucl, not_lt] at h1
  have := eucl_nonneg p q
  rw [e]
  exact ⟨by linarith, by linarith⟩

theorem three_radius {t : Thr ℝ} {p q r : Pt ℝ} {d : Circle} (h : circle3 t p q r = .ok d) : 0 ≤ d.radius := by
  unfold circle3 at h
  cases h1 : areCollinear t p q r with
  | throw => rw [h1] at h; cases h
  | ub => rw [h1] at h; cases h
  | ok b =>
    rw [h1, Res.bind_ok] at h
    cases b with
    | true => rw [if_pos rfl] at h; cases h
    | false =>
      rw [if_neg (by simp)] at h
      simp only at h
      generalize segMake t false _ _ = a1 at h
      cases a1 <;> first | (cases h; done) | skip
      rw [Res.bind_ok] at h
      generalize segMake t false _ _ = a2 at h
      cases a2 <;> first | (cases h; done) | skip
      rw [Res.bind_ok] at h
      generalize segBisector t _ = a3 at h
      cases a3 <;> first | (cases h; done) | skip
      rw [Res.bind_ok] at h
      generalize segBisector t _ = a4 at h
      cases a4 <;> first | (cases h; done) | skip
      rw [Res.bind_ok] at h
      rename_i li1 li2
      by_cases hp : IsParallel t li1 li2
      · rw [if_pos hp] at h; cases h
      · rw [if_neg hp] at h
        generalize lineInter t _ _ = a5 at h
        cases a5 <;> first | (cases h; done) | skip
        rw [Res.bind_ok] at h
        cases h
        exact Real.sqrt_nonneg _

theorem container_radius {t : Thr ℝ} {flag : Bool} {rnd : ℕ → ℕ} {pts : List (Pt ℝ)} {d : Circle} (h : (circleOfPts t flag rnd pts).1 = .ok d) : 0 ≤ d.radius := by
  unfold circleOfPts at h
  split at h
  · cases h
  · cases h
  · exact (two_radius h).2
  · exact three_radius h
  · rename_i hw _ _ _ _
    cases hw : (welzl t rnd pts.length 0 pts []).1 with
    | throw => rw [hw] at h; cases h
    | ub => rw [hw] at h; cases h
    | ok e =>
      rw [hw] at h
      cases hm : circleMake t true e.center e.radius with
      | throw => simp only [hm] at h; cases h
      | ub => simp only [hm] at h; cases h
      | ok e' => simp only [hm] at h; cases h; exact make_radius hm

theorem exec_nonneg {t : Thr ℝ} {c : Circle} {flag : Bool} (hc : 0 ≤ c.radius) {op : CircEdit} (h1 : ∀ r, op ≠ .radius r) (h2 : ∀ r, op ≠ .writeRadius r) :
    0 ≤ (op.exec t c flag).2.1.radius := by
  cases op with
  | center p => exact hc
  | radius r => exact absurd rfl (h1 r)
  | both p r => exact assign_prop (P := fun d => 0 ≤ d.radius) hc (fun d h => make_radius h)
  | two p q => exact assign_prop (P := fun d => 0 ≤ d.radius) hc (fun d h => (two_radius h).2)
  | three p q r => exact assign_prop (P := fun d => 0 ≤ d.radius) hc (fun d h => three_radius h)
  | container rnd pts => exact assign_prop (P := fun d => 0 ≤ d.radius) hc (fun d h => container_radius h)
  | translate dx dy => exact hc
  | moveTo p => exact hc
  | writeRadius r => exact absurd rfl (h2 r)
  | writeCenter p => exact hc
  | other o => exact hc

theorem sort_perm (l : List (Pt ℝ)) : List.Perm (sortPts l) l := List.mergeSort_perm l _

theorem sort_sorted (l : List (Pt ℝ)) : (sortPts l).Pairwise (fun p q => ¬ LexLt q p) := by
  have h := List.pairwise_mergeSort (le := fun p q : Pt ℝ => !ptLt q p) ?_ ?_ l
  · refine h.imp ?_
    intro a b hab hlt
    rw [← ptLt_iff] at hlt
    simp [hlt] at hab
  · intro a b c h1 h2
    simp only [Bool.not_eq_true'] at *
    by_contra h
    have h3 : LexLt c a := by rw [← ptLt_iff]; simpa using h
    have h4 : ¬ LexLt b a := by rw [← ptLt_iff, h1]; simp
    have h5 : ¬ LexLt c b := by rw [← ptLt_iff, h2]; simp
    unfold LexLt at *
    grind
  · intro a b
    by_cases h : ptLt b a = true
    · have h' : ptLt a b = false := by
        rw [← Bool.not_eq_true]
        intro h2
        rw [ptLt_iff] at h h2
        unfold LexLt at *
        grind
      simp [h, h']
    · simp only [Bool.not_eq_true] at h; simp [h]

theorem interM_perm (ops : List InterMOp) : List.Perm (interMAfter ops) (ops.flatMap InterMOp.given) := by
  induction ops using List.reverseRecOn with
  | nil => exact List.Perm.refl _
  | append_singleton ops op ih =>
    have e : interMAfter (ops ++ [op]) = op.exec (interMAfter ops) := by unfold interMAfter; rw [List.foldl_append]; rfl
    rw [e, List.flatMap_append]
    cases op with
    | add p => exact List.Perm.append ih (by simp [InterMOp.given])
    | addV l => exact List.Perm.append ih (by simp [InterMOp.given])
    | get => simp only [InterMOp.exec, List.flatMap_cons, InterMOp.given, List.flatMap_nil, List.append_nil]; exact (sort_perm _).trans ih
    | convert => simp only [InterMOp.exec, List.flatMap_cons, InterMOp.given, List.flatMap_nil, List.append_nil]; exact (sort_perm _).trans ih

end H2d.Edit
