import Verif.Spec.FloatMec
import Verif.Lemmas.FloatSafe
import Mathlib.Data.List.Perm.Subperm
import Mathlib.Data.Nat.Choose.Basic
import Mathlib.Tactic.Ring

/-! # Welzl's algorithm over any operations -/

namespace H2d

/-- Largest number of random draws: `n` points left, `r` points to be chosen for the boundary. -/
def maxDraws : ℕ → ℕ → ℕ
  | 0, _ => 0
  | _ + 1, 0 => 0
  | n + 1, r + 1 => 1 + maxDraws n (r + 1) + maxDraws n r

theorem maxDraws_three (n : ℕ) : maxDraws n 3 = n.choose 1 + n.choose 2 + n.choose 3 := by
  have h0 : ∀ n, maxDraws n 0 = 0 := fun n => by cases n <;> rfl
  have h1 : ∀ n, maxDraws n 1 = n := by
    intro n
    induction n with
    | zero => rfl
    | succ n ih => simp only [maxDraws, ih, h0]; omega
  have h2 : ∀ n, maxDraws n 2 = n + n.choose 2 := by
    intro n
    induction n with
    | zero => rfl
    | succ n ih =>
      have e := Nat.choose_succ_succ' n 1
      simp only [Nat.choose_one_right, Nat.reduceAdd] at e
      rw [maxDraws, ih, h1, e]; omega
  induction n with
  | zero => rfl
  | succ n ih =>
    have e := Nat.choose_succ_succ' n 1
    have e' := Nat.choose_succ_succ' n 2
    simp only [Nat.choose_one_right, Nat.reduceAdd] at e e'
    rw [maxDraws, ih, h2, e, e', Nat.choose_one_right, Nat.choose_one_right]; omega

section
variable {P C : Type} (triv : List P → Res C) (inside : P → C → Bool) (rnd : ℕ → ℕ)

/-- Exchange of two elements: the first `n + 1` elements are the chosen one and the `n` first ones of the new vector. -/
theorem swapG_take (V : List P) (n idx : ℕ) (hi : idx ≤ n) (p q : P) (hp : V[idx]? = some p) (hq : V[n]? = some q) :
    (((V.set idx q).set n p).take n ++ [p]).Perm (V.take (n + 1)) ∧ ((V.set idx q).set n p).drop (n + 1) = V.drop (n + 1) := by
  have hn : n < V.length := (List.getElem?_eq_some_iff.1 hq).1
  constructor
  · have e1 : ((V.set idx q).set n p).take n ++ [p] = ((V.set idx q).set n p).take (n + 1) := by
      rw [List.take_add_one, List.getElem?_set_self (by simpa using hn)]; rfl
    rw [e1]
    have e2 : ((V.set idx q).set n p).take (n + 1) = ((V.take (n + 1)).set idx q).set n p := by
      rw [List.take_set, List.take_set]
    rw [e2]
    have hl : (V.take (n + 1)).length = n + 1 := by simp; omega
    have hq' : (V.take (n + 1))[n]? = some q := by rw [List.getElem?_take_of_lt (by omega)]; exact hq
    have hp' : (V.take (n + 1))[idx]? = some p := by rw [List.getElem?_take_of_lt (by omega)]; exact hp
    generalize V.take (n + 1) = W at hl hq' hp'
    have hq2 : W[n]'(by omega) = q := (List.getElem?_eq_some_iff.1 hq').2
    have hp2 : W[idx]'(by omega) = p := (List.getElem?_eq_some_iff.1 hp').2
    subst hq2 hp2
    exact List.set_set_perm (by omega) (by omega)
  · rw [List.drop_set_of_lt (by omega), List.drop_set_of_lt (by omega)]

theorem take_snoc' (V : List P) (n : ℕ) (q : P) (hq : V[n]? = some q) : V.take n ++ [q] = V.take (n + 1) := by
  rw [List.take_add_one, hq]; rfl

/-- Two vectors with the same end, the first parts being the same up to the order. -/
theorem take_perm_of {V W : List P} {n : ℕ} (h1 : (V.take n).Perm (W.take n)) (h2 : V.drop n = W.drop n) : V.Perm W := by
  rw [← List.take_append_drop n V, ← List.take_append_drop n W, h2]
  exact h1.append_right _

theorem welzlG_spec (htriv : ∀ R, triv R ≠ .ub) : ∀ (n k : ℕ) (V R : List P), n ≤ V.length → R.length ≤ 3 →
    ((welzlG triv inside rnd n k V R).2.1.take n).Perm (V.take n) ∧ (welzlG triv inside rnd n k V R).2.1.drop n = V.drop n ∧
    (welzlG triv inside rnd n k V R).1 ≠ .ub ∧
    (∀ d, (welzlG triv inside rnd n k V R).1 = .ok d → ∃ R', R'.length ≤ 3 ∧ R'.Subperm (R ++ V.take n) ∧ triv R' = .ok d) ∧
    (welzlG triv inside rnd n k V R).2.2 ≤ k + maxDraws n (3 - R.length) := by
  intro n
  induction n with
  | zero =>
    intro k V R _ h3
    refine ⟨List.Perm.refl _, rfl, htriv R, ?_, Nat.le_add_right _ _⟩
    intro d hd
    exact ⟨R, h3, by simpa using (List.Subperm.refl R), hd⟩
  | succ n ih =>
    intro k V R hn h3
    rw [welzlG]
    by_cases hR : R.length = 3
    · rw [if_pos hR]
      exact ⟨List.Perm.refl _, rfl, htriv R, fun d hd => ⟨R, h3, (List.sublist_append_left R _).subperm, hd⟩, Nat.le_add_right _ _⟩
    · rw [if_neg hR]
      have hi : rnd k % (n + 1) ≤ n := Nat.le_of_lt_succ (Nat.mod_lt (rnd k) (Nat.succ_pos n))
      simp only
      generalize rnd k % (n + 1) = idx at hi
      obtain ⟨p, hp⟩ : ∃ p, V[idx]? = some p := ⟨_, List.getElem?_eq_getElem (by omega)⟩
      obtain ⟨q, hq⟩ : ∃ q, V[n]? = some q := ⟨_, List.getElem?_eq_getElem (by omega)⟩
      rw [hp, hq]
      simp only
      obtain ⟨s1, s2⟩ := swapG_take V n idx hi p q hp hq
      have hl : ((V.set idx q).set n p).length = V.length := by simp
      have hWn : ((V.set idx q).set n p)[n]? = some p := List.getElem?_set_self (by simpa using by omega)
      generalize (V.set idx q).set n p = W at s1 s2 hl hWn
      have hD : maxDraws (n + 1) (3 - R.length) = 1 + maxDraws n (3 - R.length) + maxDraws n (3 - (R ++ [p]).length) := by
        have e : 3 - R.length = (3 - (R ++ [p]).length) + 1 := by simp; omega
        rw [e, maxDraws]
      have hlift : ∀ U : List P, (U.take n).Perm (W.take n) → U.drop n = W.drop n →
          (U.take (n + 1)).Perm (V.take (n + 1)) ∧ U.drop (n + 1) = V.drop (n + 1) := by
        intro U u1 u2
        have hUn : U[n]? = some p := by
          have := congrArg (fun l => l[0]?) u2
          simpa [List.getElem?_drop, hWn] using this
        refine ⟨?_, ?_⟩
        · rw [← take_snoc' U n p hUn]; exact (u1.append_right _).trans s1
        · have := congrArg (List.drop 1) u2
          rw [List.drop_drop, List.drop_drop] at this
          rw [← s2, ← this]
      have hsub : ∀ (U R' : List P), (U.take n).Perm (W.take n) → R'.Subperm (R ++ [p] ++ U.take n) → R'.Subperm (R ++ V.take (n + 1)) := by
        intro U R' u1 u2
        refine u2.trans ?_
        refine List.Perm.subperm ?_
        rw [List.append_assoc]
        refine List.Perm.append_left R ?_
        exact (List.perm_append_comm.trans (u1.append_right [p])).trans s1
      obtain ⟨a1, a2, a3, a4, a5⟩ := ih (k + 1) W R (by omega) h3
      rcases hw : welzlG triv inside rnd n (k + 1) W R with ⟨r, U, k'⟩
      rw [hw] at a1 a2 a3 a4 a5
      simp only at a1 a2 a3 a4 a5
      obtain ⟨l1, l2⟩ := hlift U a1 a2
      rcases r with d | _ | _
      · simp only
        by_cases hin : inside p d = true
        · rw [if_pos hin]
          refine ⟨l1, l2, by simp, ?_, by simp only; omega⟩
          intro d' hd'
          obtain ⟨R', b1, b2, b3⟩ := a4 d' hd'
          refine ⟨R', b1, hsub W R' (List.Perm.refl _) (b2.trans ?_), b3⟩
          exact ((List.sublist_append_left R [p]).append (List.Sublist.refl _)).subperm
        · rw [if_neg hin]
          have hUl : n ≤ U.length := by
            have h1 := a1.length_eq
            have h2 : (W.take n).length = n := by simp; omega
            rw [h2, List.length_take] at h1
            omega
          obtain ⟨c1, c2, c3, c4, c5⟩ := ih k' U (R ++ [p]) hUl (by simp; omega)
          obtain ⟨m1, m2⟩ := hlift _ (c1.trans a1) (c2.trans a2)
          refine ⟨m1, m2, c3, ?_, by omega⟩
          intro d' hd'
          obtain ⟨R', b1, b2, b3⟩ := c4 d' hd'
          exact ⟨R', b1, hsub U R' a1 b2, b3⟩
      · exact ⟨l1, l2, by simp, fun d hd => by simp at hd, by simp only; omega⟩
      · exact absurd rfl a3

theorem welzlG_perm : ∀ (n k : ℕ) (V R : List P), n ≤ V.length → ((welzlG triv inside rnd n k V R).2.1.take n).Perm (V.take n) := by
  intro n k V R hn
  have h : ∀ (n k : ℕ) (V R : List P), n ≤ V.length → ((welzlG triv inside rnd n k V R).2.1.take n).Perm (V.take n) ∧ (welzlG triv inside rnd n k V R).2.1.drop n = V.drop n := by
    intro n
    induction n with
    | zero => intro k V R _; exact ⟨List.Perm.refl _, rfl⟩
    | succ n ih =>
      intro k V R hn
      rw [welzlG]
      by_cases hR : R.length = 3
      · rw [if_pos hR]; exact ⟨List.Perm.refl _, rfl⟩
      · rw [if_neg hR]
        have hi : rnd k % (n + 1) ≤ n := Nat.le_of_lt_succ (Nat.mod_lt (rnd k) (Nat.succ_pos n))
        simp only
        generalize rnd k % (n + 1) = idx at hi
        obtain ⟨p, hp⟩ : ∃ p, V[idx]? = some p := ⟨_, List.getElem?_eq_getElem (by omega)⟩
        obtain ⟨q, hq⟩ : ∃ q, V[n]? = some q := ⟨_, List.getElem?_eq_getElem (by omega)⟩
        rw [hp, hq]
        simp only
        obtain ⟨s1, s2⟩ := swapG_take V n idx hi p q hp hq
        have hl : ((V.set idx q).set n p).length = V.length := by simp
        have hWn : ((V.set idx q).set n p)[n]? = some p := List.getElem?_set_self (by simpa using by omega)
        generalize (V.set idx q).set n p = W at s1 s2 hl hWn
        have hlift : ∀ U : List P, (U.take n).Perm (W.take n) → U.drop n = W.drop n →
            (U.take (n + 1)).Perm (V.take (n + 1)) ∧ U.drop (n + 1) = V.drop (n + 1) := by
          intro U u1 u2
          have hUn : U[n]? = some p := by
            have := congrArg (fun l => l[0]?) u2
            simpa [List.getElem?_drop, hWn] using this
          refine ⟨?_, ?_⟩
          · rw [← take_snoc' U n p hUn]; exact (u1.append_right _).trans s1
          · have := congrArg (List.drop 1) u2
            rw [List.drop_drop, List.drop_drop] at this
            rw [← s2, ← this]
        obtain ⟨a1, a2⟩ := ih (k + 1) W R (by omega)
        rcases hw : welzlG triv inside rnd n (k + 1) W R with ⟨r, U, k'⟩
        rw [hw] at a1 a2
        simp only at a1 a2
        obtain ⟨l1, l2⟩ := hlift U a1 a2
        rcases r with d | _ | _
        · simp only
          by_cases hin : inside p d = true
          · rw [if_pos hin]; exact ⟨l1, l2⟩
          · rw [if_neg hin]
            have hUl : n ≤ U.length := by
              have h1 := a1.length_eq
              have h2 : (W.take n).length = n := by simp; omega
              rw [h2, List.length_take] at h1
              omega
            obtain ⟨c1, c2⟩ := ih k' U (R ++ [p]) hUl
            exact hlift _ (c1.trans a1) (c2.trans a2)
        · exact ⟨l1, l2⟩
        · exact ⟨l1, l2⟩
  exact (h n k V R hn).1

/-- If the circles of less than two points contain nothing, the boundary has two points at least (as soon as there are two points). -/
theorem welzlG_two (hsmall : ∀ R d p, R.length < 2 → triv R = .ok d → inside p d = false) : ∀ (n k : ℕ) (V R : List P) (d : C), R.length ≤ 3 →
    (welzlG triv inside rnd n k V R).1 = .ok d → ∃ R', triv R' = .ok d ∧ (2 ≤ R.length + n → 2 ≤ R'.length) ∧ R'.length ≤ 3 ∧ R'.Subperm (R ++ V.take n) := by
  intro n
  induction n with
  | zero =>
    intro k V R d h3 hd
    exact ⟨R, hd, fun h => h, h3, by simpa using (List.Subperm.refl R)⟩
  | succ n ih =>
    intro k V R d h3 hd
    rw [welzlG] at hd
    by_cases hR : R.length = 3
    · rw [if_pos hR] at hd
      exact ⟨R, hd, fun _ => by omega, h3, (List.sublist_append_left R _).subperm⟩
    · rw [if_neg hR] at hd
      have hi : rnd k % (n + 1) ≤ n := Nat.le_of_lt_succ (Nat.mod_lt (rnd k) (Nat.succ_pos n))
      simp only at hd
      generalize rnd k % (n + 1) = idx at hi hd
      rcases hp : V[idx]? with _ | p
      · rw [hp] at hd; simp at hd
      rcases hq : V[n]? with _ | q
      · rw [hp, hq] at hd; simp at hd
      rw [hp, hq] at hd
      simp only at hd
      obtain ⟨s1, s2⟩ := swapG_take V n idx hi p q hp hq
      have hn : n < V.length := (List.getElem?_eq_some_iff.1 hq).1
      have hl : ((V.set idx q).set n p).length = V.length := by simp
      generalize (V.set idx q).set n p = W at s1 s2 hl hd
      have hsub : ∀ (U R' : List P), (U.take n).Perm (W.take n) → R'.Subperm (R ++ [p] ++ U.take n) → R'.Subperm (R ++ V.take (n + 1)) := by
        intro U R' u1 u2
        refine u2.trans (List.Perm.subperm ?_)
        rw [List.append_assoc]
        exact List.Perm.append_left R ((List.perm_append_comm.trans (u1.append_right [p])).trans s1)
      rcases hw : welzlG triv inside rnd n (k + 1) W R with ⟨r, U, k'⟩
      rw [hw] at hd
      rcases r with d' | _ | _
      · simp only at hd
        by_cases hin : inside p d' = true
        · rw [if_pos hin] at hd
          simp only [Res.ok.injEq] at hd
          subst hd
          obtain ⟨R', b1, b2, b3, b4⟩ := ih (k + 1) W R d' h3 (by rw [hw])
          refine ⟨R', b1, fun _ => ?_, b3, hsub W R' (List.Perm.refl _) (b4.trans ?_)⟩
          · by_contra hlt
            rw [hsmall R' d' p (by omega) b1] at hin
            cases hin
          · exact ((List.sublist_append_left R [p]).append (List.Sublist.refl _)).subperm
        · rw [if_neg hin] at hd
          obtain ⟨R', b1, b2, b3, b4⟩ := ih k' U (R ++ [p]) d (by simp; omega) hd
          refine ⟨R', b1, fun h => b2 (by simp; omega), b3, hsub U R' ?_ b4⟩
          have := welzlG_perm triv inside rnd n (k + 1) W R (by omega)
          rw [hw] at this
          exact this
      · simp at hd
      · simp at hd

end

open Classical in
/-- The algorithm over the reals (`H2d.welzl`) is the one over any operations. -/
theorem welzl_eq (t : Thr ℝ) (rnd : ℕ → ℕ) : ∀ (n k : ℕ) (V R : List (Pt ℝ)),
    welzl t rnd n k V R = welzlG (minTrivial t) (fun p c => decide (PtInCircle p c)) rnd n k V R := by
  intro n
  induction n with
  | zero => intro k V R; rfl
  | succ n ih =>
    intro k V R
    rw [welzl, welzlG]
    by_cases hR : R.length = 3
    · rw [if_pos hR, if_pos hR]
    · rw [if_neg hR, if_neg hR]
      simp only
      rcases V[rnd k % (n + 1)]? with _ | p
      · rfl
      · rcases V[n]? with _ | q
        · rfl
        · simp only [ih]
          rcases welzlG (minTrivial t) (fun p c => decide (PtInCircle p c)) rnd n (k + 1) ((V.set (rnd k % (n + 1)) q).set n p) R with ⟨_ | _ | _, U, k'⟩
          · simp only [decide_eq_true_eq]
          · rfl
          · rfl

/-- If no point is inside: exactly the largest number of draws. -/
theorem welzlG_never {P C : Type} (triv : List P → Res C) (rnd : ℕ → ℕ) (htriv : ∀ R, ∃ c, triv R = .ok c) : ∀ (n k : ℕ) (V R : List P), n ≤ V.length → R.length ≤ 3 →
    (∃ c, (welzlG triv (fun _ _ => false) rnd n k V R).1 = .ok c) ∧ (welzlG triv (fun _ _ => false) rnd n k V R).2.1.length = V.length ∧
    (welzlG triv (fun _ _ => false) rnd n k V R).2.2 = k + maxDraws n (3 - R.length) := by
  intro n
  induction n with
  | zero =>
    intro k V R _ _
    exact ⟨htriv R, rfl, rfl⟩
  | succ n ih =>
    intro k V R hn h3
    rw [welzlG]
    by_cases hR : R.length = 3
    · rw [if_pos hR, hR]
      exact ⟨htriv R, rfl, rfl⟩
    · rw [if_neg hR]
      have hi : rnd k % (n + 1) ≤ n := Nat.le_of_lt_succ (Nat.mod_lt (rnd k) (Nat.succ_pos n))
      simp only
      generalize rnd k % (n + 1) = idx at hi
      obtain ⟨p, hp⟩ : ∃ p, V[idx]? = some p := ⟨_, List.getElem?_eq_getElem (by omega)⟩
      obtain ⟨q, hq⟩ : ∃ q, V[n]? = some q := ⟨_, List.getElem?_eq_getElem (by omega)⟩
      rw [hp, hq]
      simp only
      have hl : ((V.set idx q).set n p).length = V.length := by simp
      generalize (V.set idx q).set n p = W at hl
      obtain ⟨⟨c, h1⟩, h2, h4⟩ := ih (k + 1) W R (by omega) h3
      generalize welzlG triv (fun _ _ => false) rnd n (k + 1) W R = r at h1 h2 h4
      obtain ⟨r1, r2, r3⟩ := r
      simp only at h1 h2 h4
      subst h1
      simp only [Bool.false_eq_true, if_false]
      obtain ⟨g1, g2, g4⟩ := ih r3 r2 (R ++ [p]) (by omega) (by simp; omega)
      refine ⟨g1, g2.trans (h2.trans hl), g4.trans ?_⟩
      rw [h4, List.length_append, List.length_singleton]
      obtain ⟨r, hr⟩ : ∃ r, 3 - R.length = r + 1 := ⟨2 - R.length, by omega⟩
      rw [hr, show 3 - (R.length + 1) = r by omega, maxDraws]
      omega

theorem lineOfPts_ne_ub (t : Thr ℝ) (p q : V3 ℝ) : lineOfPts t p q ≠ .ub := by
  unfold lineOfPts; split_ifs
  · simp
  · exact normalizeLine_not_ub t _

theorem areCollinear_ne_ub (t : Thr ℝ) (p1 p2 p3 : Pt ℝ) : areCollinear t p1 p2 p3 ≠ .ub := by
  unfold areCollinear
  split_ifs
  · simp
  · exact Pip.bind_ne_ub (lineOfPts_ne_ub t _ _) fun _ => by simp

theorem segMake_ne_ub (t : Thr ℝ) (o : Bool) (p q : Pt ℝ) : segMake t o p q ≠ .ub := by
  unfold segMake; split_ifs <;> simp

theorem segBisector_ne_ub (t : Thr ℝ) (s : Seg) : segBisector t s ≠ .ub :=
  Pip.bind_ne_ub (lineOfPts_ne_ub t _ _) fun _ => Pip.bind_ne_ub (normalizeLine_not_ub t _) fun _ => normalizeLine_not_ub t _

theorem circle2_ne_ub (t : Thr ℝ) (p q : Pt ℝ) : circle2 t p q ≠ .ub := by
  unfold circle2
  split_ifs
  · simp
  · exact Pip.bind_ne_ub (segMake_ne_ub t _ _ _) fun _ => by simp

theorem circle3_ne_ub (t : Thr ℝ) (p1 p2 p3 : Pt ℝ) : circle3 t p1 p2 p3 ≠ .ub := by
  refine Pip.bind_ne_ub (areCollinear_ne_ub t _ _ _) fun col => ?_
  split_ifs
  · simp
  · refine Pip.bind_ne_ub (segMake_ne_ub t _ _ _) fun s1 => Pip.bind_ne_ub (segMake_ne_ub t _ _ _) fun s2 => Pip.bind_ne_ub (segBisector_ne_ub t _) fun l1 =>
      Pip.bind_ne_ub (segBisector_ne_ub t _) fun l2 => ?_
    split_ifs
    · simp
    · refine Pip.bind_ne_ub ?_ fun _ => by simp
      unfold lineInter; split_ifs; simp

theorem minTrivial_ne_ub (t : Thr ℝ) (R : List (Pt ℝ)) : minTrivial t R ≠ .ub := by
  have hm : ∀ c r, circleMake t true c r ≠ .ub := fun c r => by unfold circleMake; split_ifs <;> simp
  match R with
  | [] => exact hm _ _
  | [a] => exact hm _ _
  | [a, b] => exact circle2_ne_ub t _ _
  | a :: b :: c :: P =>
    refine Pip.bind_ne_ub (circle2_ne_ub t _ _) fun c1 => ?_
    split_ifs
    · simp
    · refine Pip.bind_ne_ub (circle2_ne_ub t _ _) fun c2 => ?_
      split_ifs
      · simp
      · refine Pip.bind_ne_ub (circle2_ne_ub t _ _) fun c3 => ?_
        split_ifs
        · simp
        · exact circle3_ne_ub t _ _ _

namespace Fl

open H2d.Pip (bind_ne_ub)
open Spec

variable (F : Arith) (t : Thr ℝ) (ac : ℝ → ℝ)

theorem orthogLine_safe (l : V3 ℝ) (p : Pt ℝ) : orthogLine F t l p ≠ .ub :=
  bind_ne_ub (normalizeLine_safe F t _) fun _ => normalizeLine_safe F t _

theorem segBisector_safe (s : Seg) : segBisector F t s ≠ .ub :=
  bind_ne_ub (lineOfPts_safe F t _ _) fun _ => orthogLine_safe F t _ _

theorem areCollinear_safe (p1 p2 p3 : Pt ℝ) : areCollinear F t p1 p2 p3 ≠ .ub := by
  unfold areCollinear
  split_ifs
  · simp
  · exact bind_ne_ub (lineOfPts_safe F t _ _) fun _ => by simp

theorem circle2_safe (p q : Pt ℝ) : circle2 F t p q ≠ .ub := by
  unfold circle2
  split_ifs
  · simp
  · exact bind_ne_ub (segMake_safe F t _ _) fun _ => by simp

theorem circle3_safe (p1 p2 p3 : Pt ℝ) : circle3 F t ac p1 p2 p3 ≠ .ub := by
  refine bind_ne_ub (areCollinear_safe F t _ _ _) fun col => ?_
  split_ifs
  · simp
  · refine bind_ne_ub (segMake_safe F t _ _) fun s1 => bind_ne_ub (segMake_safe F t _ _) fun s2 => bind_ne_ub (segBisector_safe F t _) fun l1 =>
      bind_ne_ub (segBisector_safe F t _) fun l2 => ?_
    split_ifs
    · simp
    · exact bind_ne_ub (lineInter_safe F t ac _ _) fun _ => by simp

theorem minTrivial_safe (R : List (Pt ℝ)) : minTrivial F t ac R ≠ .ub := by
  match R with
  | [] => simp [minTrivial]
  | [a] => simp [minTrivial]
  | [a, b] => exact bind_ne_ub (circle2_safe F t _ _) fun _ => by simp
  | a :: b :: c :: P =>
    refine bind_ne_ub (circle2_safe F t _ _) fun c1 => ?_
    split_ifs
    · simp
    · refine bind_ne_ub (circle2_safe F t _ _) fun c2 => ?_
      split_ifs
      · simp
      · refine bind_ne_ub (circle2_safe F t _ _) fun c3 => ?_
        split_ifs
        · simp
        · exact circle3_safe F t ac _ _ _

theorem circleOfPts_safe (rnd : ℕ → ℕ) (pts : List (Pt ℝ)) : circleOfPts F t ac rnd pts ≠ .ub := by
  match pts with
  | [] => simp [circleOfPts]
  | [a] => simp [circleOfPts]
  | [a, b] => exact bind_ne_ub (circle2_safe F t _ _) fun _ => by simp
  | [a, b, c] => exact circle3_safe F t ac _ _ _
  | a :: b :: c :: d :: P => exact (welzlG_spec _ _ _ (minTrivial_safe F t ac) _ _ _ _ le_rfl (by simp)).2.2.1

/-- The circle of two or three points. -/
theorem minTrivial_from (R : List (Pt ℝ)) (h2 : 2 ≤ R.length) (h3 : R.length ≤ 3) (c : Option Circle) (h : minTrivial F t ac R = .ok c) : FromPoints F t ac R c := by
  match R, h2, h3 with
  | [a, b], _, _ =>
    simp only [minTrivial] at h
    rcases h1 : circle2 F t a b with d | _ | _ <;> rw [h1] at h <;> simp at h
    exact Or.inl ⟨a, b, d, List.Subperm.refl _, h1, h.symm⟩
  | [a, b, e], _, _ =>
    simp only [minTrivial] at h
    rcases h1 : circle2 F t a b with d | _ | _ <;> rw [h1] at h <;> simp at h
    by_cases v1 : validCircle F d [a, b, e] = true
    · rw [if_pos v1] at h
      simp at h
      exact Or.inl ⟨a, b, d, (List.sublist_append_left [a, b] [e]).subperm, h1, h.symm⟩
    · rw [if_neg v1] at h
      rcases h2 : circle2 F t a e with d2 | _ | _ <;> rw [h2] at h <;> simp at h
      by_cases v2 : validCircle F d2 [a, b, e] = true
      · rw [if_pos v2] at h
        simp at h
        exact Or.inl ⟨a, e, d2, (List.Sublist.cons_cons a (List.sublist_cons_self b [e])).subperm, h2, h.symm⟩
      · rw [if_neg v2] at h
        rcases h3 : circle2 F t b e with d3 | _ | _ <;> rw [h3] at h <;> simp at h
        by_cases v3 : validCircle F d3 [a, b, e] = true
        · rw [if_pos v3] at h
          simp at h
          exact Or.inl ⟨b, e, d3, (List.sublist_cons_self a [b, e]).subperm, h3, h.symm⟩
        · rw [if_neg v3] at h
          exact Or.inr ⟨a, b, e, List.Subperm.refl _, h⟩

theorem fromPoints_mono {R pts : List (Pt ℝ)} (hs : R.Subperm pts) {c : Option Circle} (h : FromPoints F t ac R c) : FromPoints F t ac pts c := by
  rcases h with ⟨a, b, d, h1, h2⟩ | ⟨a, b, e, h1, h2⟩
  · exact Or.inl ⟨a, b, d, h1.trans hs, h2⟩
  · exact Or.inr ⟨a, b, e, h1.trans hs, h2⟩

/-- No point is inside a circle of null radius. -/
theorem small_empty (hyp : ∀ a b, 0 ≤ F.hyp a b) (R : List (Pt ℝ)) (d : Option Circle) (p : Pt ℝ) (h2 : R.length < 2) (h : minTrivial F t ac R = .ok d) :
    inCircle F p d = false := by
  have key : ∀ c : Pt ℝ, inCircle F p (some ⟨c, 0⟩) = false := by
    intro c
    unfold inCircle PtInCirc distPt
    simpa using hyp _ _
  match R, h2 with
  | [], _ => simp [minTrivial] at h; subst h; exact key _
  | [a], _ => simp [minTrivial] at h; subst h; exact key _

theorem circleOfPts_from (hyp : ∀ a b, 0 ≤ F.hyp a b) (rnd : ℕ → ℕ) (pts : List (Pt ℝ)) (c : Option Circle) (h : circleOfPts F t ac rnd pts = .ok c) :
    FromPoints F t ac pts c := by
  match pts with
  | [] => simp [circleOfPts] at h
  | [a] => simp [circleOfPts] at h
  | [a, b] =>
    simp only [circleOfPts] at h
    rcases h1 : circle2 F t a b with d | _ | _ <;> rw [h1] at h <;> simp at h
    exact Or.inl ⟨a, b, d, List.Subperm.refl _, h1, h.symm⟩
  | [a, b, e] => exact Or.inr ⟨a, b, e, List.Subperm.refl _, h⟩
  | a :: b :: e :: d :: P =>
    obtain ⟨R', h1, h2, h3, h4⟩ := welzlG_two _ _ rnd (small_empty F t ac hyp) (a :: b :: e :: d :: P).length 0 (a :: b :: e :: d :: P) [] c (by simp) h
    rw [List.take_length, List.nil_append] at h4
    exact fromPoints_mono F t ac h4 (minTrivial_from F t ac R' (h2 (by simp)) h3 c h1)

end Fl

end H2d
