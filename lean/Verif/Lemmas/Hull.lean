import Verif.Spec.Hull
import Verif.Lemmas.BB
import Verif.Lemmas.Polyline
import Mathlib.Tactic.Linarith
import Mathlib.Tactic.Ring
import Mathlib.Tactic.LinearCombination

set_option linter.unusedSectionVars false
set_option linter.unusedSimpArgs false

namespace H2d.Hull
open H2d H2d.Spec

variable {K : Type} [Field K] [LinearOrder K] [IsStrictOrderedRing K]

/-! ### The loop -/

/-- Clockwise. -/
def cw (thr : K) (p q r : Pt K) : Prop := chOrientation thr p q r = 1

theorem hullLoop_inv {thr : K} {input : List (Pt K)} {v2 : List Nat} {V : Nat → Nat} {P : Nat → Pt K}
    (hV : ∀ i < v2.length, v2[i]? = some (V i)) (hP : ∀ i < v2.length, hullPt input v2 i = .ok (P i))
    (Inv : Nat → List Nat → Prop)
    (hlt : ∀ i3 st, Inv i3 st → ∀ i ∈ st, i < i3)
    (hpush : ∀ i3 a b rest, Inv i3 (b :: a :: rest) → i3 < v2.length → ¬ cw thr (P a) (P b) (P i3) → Inv (i3 + 1) (i3 :: b :: a :: rest))
    (hpop : ∀ i3 a b rest, Inv i3 (b :: a :: rest) → i3 < v2.length → cw thr (P a) (P b) (P i3) → Inv i3 (a :: rest) ∧ rest ≠ []) :
    ∀ fuel a b i3 rest, Inv i3 (b :: a :: rest) → i3 < v2.length → 2 * (v2.length - i3) + (rest.length + 2) ≤ fuel →
      ∃ st, hullLoop thr input v2 fuel a b i3 ((b :: a :: rest).map V) (a :: rest) = some (.ok (st.map V)) ∧ Inv v2.length st ∧ st.head? = some (v2.length - 1) := by
  intro fuel
  induction fuel with
  | zero => intro a b i3 rest _ _ h; omega
  | succ fuel ih =>
    intro a b i3 rest hI h3 hf
    have hb : b < i3 := hlt _ _ hI b (by simp)
    have ha : a < i3 := hlt _ _ hI a (by simp)
    simp only [hullLoop, hP a (by omega), hP b (by omega), hP i3 h3, hV i3 h3]
    by_cases hc : cw thr (P a) (P b) (P i3)
    · obtain ⟨hI', hne⟩ := hpop _ _ _ _ hI h3 hc
      have hc' : chOrientation thr (P a) (P b) (P i3) = 1 := hc
      rw [if_neg (by rw [not_not]; exact hc')]
      cases rest with
      | nil => exact absurd rfl hne
      | cons c rest =>
        simp only [List.map_cons, if_pos h3]
        have := ih c a i3 rest hI' h3 (by simp only [List.length_cons] at hf; omega)
        simpa only [List.map_cons] using this
    · have hI' := hpush _ _ _ _ hI h3 hc
      have hc' : chOrientation thr (P a) (P b) (P i3) ≠ 1 := hc
      rw [if_pos hc']
      by_cases h4 : i3 + 1 < v2.length
      · rw [if_pos h4]
        have := ih b i3 (i3 + 1) (a :: rest) hI' h4 (by simp only [List.length_cons] at *; omega)
        simpa only [List.map_cons] using this
      · rw [if_neg h4]
        refine ⟨i3 :: b :: a :: rest, by simp only [List.map_cons], ?_⟩
        have : i3 + 1 = v2.length := by omega
        rw [← this]; exact ⟨hI', rfl⟩

theorem cw_turn {thr : K} {p q r : Pt K} (h : cw thr p q r) : turn p q r < 0 := by
  unfold cw chOrientation at h
  simp only at h
  split_ifs at h with h1 h2
  · exact absurd h (by decide)
  · unfold turn; linarith

theorem not_cw_turn {thr : K} {p q r : Pt K} (hc : turn p q r = 0 ∨ thr ≤ |turn p q r|) (h : ¬ cw thr p q r) : 0 ≤ turn p q r := by
  by_contra hn
  rw [not_le] at hn
  apply h
  unfold cw chOrientation
  have e : (q.2 - p.2) * (r.1 - q.1) - (q.1 - p.1) * (r.2 - q.2) = - turn p q r := by unfold turn; ring
  simp only [e]
  rcases hc with hc | hc
  · rw [hc] at hn; exact absurd hn (lt_irrefl _)
  · rw [abs_neg, if_neg (not_lt.2 hc), if_pos (by linarith)]

/-! ### Identities between turns -/

theorem turn_id1 (a b c p r : Pt K) : turn a b r * turn b c p = turn a b p * turn b c r + turn a b c * turn p b r := by unfold turn; ring
theorem turn_id2 (a b p r q : Pt K) : turn a b p * turn b r q = turn a b r * turn p q b + turn a b q * turn p b r := by unfold turn; ring
theorem turn_id3 (a b p r q : Pt K) : turn a b p * turn a r q = turn a b q * turn p a r - turn a b r * turn p a q := by unfold turn; ring
theorem turn_rot (a b c : Pt K) : turn a b c = turn b c a := by unfold turn; ring
theorem turn_swap (a b c : Pt K) : turn a b c = - turn a c b := by unfold turn; ring
theorem turn_self (a b : Pt K) : turn a b b = 0 := by unfold turn; ring
theorem turn_self' (a b : Pt K) : turn a b a = 0 := by unfold turn; ring
theorem turn_self'' (a b : Pt K) : turn a a b = 0 := by unfold turn; ring

/-- After the pivot in the scan direction: above, or at the same height on the right. -/
def Up (p q : Pt K) : Prop := p.2 < q.2 ∨ (p.2 = q.2 ∧ p.1 < q.1)

/-- Same ray: the second point is a positive multiple of the first (seen from the pivot). -/
theorem same_ray {p a b : Pt K} (ha : Up p a) (hb : Up p b) (h : turn p a b = 0) :
    ∃ l : K, 0 < l ∧ b.1 - p.1 = l * (a.1 - p.1) ∧ b.2 - p.2 = l * (a.2 - p.2) := by
  unfold turn at h
  rcases ha with ha | ⟨ha, ha'⟩
  · have h0 : 0 < a.2 - p.2 := by linarith
    have hb' : p.2 < b.2 := by
      rcases hb with hb | ⟨hb, hb'⟩
      · exact hb
      · exfalso
        have h1 : (a.2 - p.2) * (b.1 - p.1) = 0 := by rw [hb] at h ; linarith [show (a.1 - p.1) * (b.2 - b.2) = 0 by ring, show (a.2 - b.2) * (b.1 - p.1) = (a.2 - p.2) * (b.1 - p.1) by rw [hb]]
        rcases mul_eq_zero.1 h1 with h2 | h2 <;> linarith
    refine ⟨(b.2 - p.2) / (a.2 - p.2), div_pos (by linarith) h0, ?_, ?_⟩
    · rw [div_mul_eq_mul_div, eq_div_iff h0.ne']; linarith
    · rw [div_mul_cancel₀ _ h0.ne']
  · have h0 : 0 < a.1 - p.1 := by linarith
    have e : a.2 - p.2 = 0 := by linarith
    rw [e] at h
    have hb2 : b.2 - p.2 = 0 := by
      have : (a.1 - p.1) * (b.2 - p.2) = 0 := by linarith
      rcases mul_eq_zero.1 this with h2 | h2
      · linarith
      · exact h2
    have hb' : p.1 < b.1 := by
      rcases hb with hb | ⟨hb, hb'⟩
      · linarith
      · exact hb'
    refine ⟨(b.1 - p.1) / (a.1 - p.1), div_pos (by linarith) h0, ?_, ?_⟩
    · rw [div_mul_cancel₀ _ h0.ne']
    · rw [hb2, e, mul_zero]

/-- Being aligned with the pivot is transitive. -/
theorem ray_trans {p a b c : Pt K} (ha : Up p a) (hb : Up p b) (hc : Up p c) (h1 : turn p a b = 0) (h2 : turn p b c = 0) : turn p a c = 0 := by
  obtain ⟨l, _, e1, e2⟩ := same_ray ha hb h1
  obtain ⟨m, _, e3, e4⟩ := same_ray hb hc h2
  unfold turn
  rw [e3, e4, e1, e2]; ring

/-! ### The scan on sorted points -/

/-- The hypotheses on the sorted points `P 0 ... P (n-1)`, `P 0` is the pivot. -/
structure Sorted (n : ℕ) (P : ℕ → Pt K) : Prop where
  up : ∀ i, 1 ≤ i → i < n → Up (P 0) (P i)
  sorted : ∀ i j, 1 ≤ i → i < j → j < n → 0 ≤ turn (P 0) (P i) (P j)
  two : ∀ i j k, 1 ≤ i → i < j → j < k → k < n → ¬ (turn (P 0) (P i) (P j) = 0 ∧ turn (P 0) (P j) (P k) = 0)
  diff : ∀ i j, i < j → j < n → P i ≠ P j

namespace Sorted
variable {n : ℕ} {P : ℕ → Pt K} (h : Sorted n P)
include h

theorem sorted' {i j : ℕ} (hij : i ≤ j) (hj : j < n) : 0 ≤ turn (P 0) (P i) (P j) := by
  rcases hij.eq_or_lt with e | e
  · rw [e, turn_self]
  · rcases Nat.eq_zero_or_pos i with e0 | e0
    · rw [e0, turn_self'']
    · exact h.sorted i j e0 e hj

/-- Three different points on one ray. -/
theorem two' {i j k : ℕ} (hi : 1 ≤ i) (hij : i < j) (hjk : j < k) (hk : k < n) (h1 : turn (P 0) (P i) (P j) = 0) : turn (P 0) (P j) (P k) ≠ 0 :=
  fun h2 => h.two i j k hi hij hjk hk ⟨h1, h2⟩

/-- `r` is on the left of an edge of the chain when it is on the left of the next one. -/
theorem left_step {a b c r : ℕ} (hab : a < b) (hbc : b < c) (hcr : c < r) (hr : r < n)
    (k1 : 0 ≤ turn (P a) (P b) (P c)) (k2 : 0 ≤ turn (P a) (P b) (P 0)) (k3 : 0 ≤ turn (P b) (P c) (P 0)) (k4 : 0 ≤ turn (P b) (P c) (P r)) :
    0 ≤ turn (P a) (P b) (P r) := by
  have hb1 : 1 ≤ b := by omega
  have s1 := h.sorted b r hb1 (by omega) hr
  rcases Nat.eq_zero_or_pos a with e0 | ha
  · rw [e0]; exact s1
  rcases k3.eq_or_lt with e | e
  · -- b and c are on the same ray
    exfalso
    have ray : turn (P 0) (P b) (P c) = 0 := by rw [turn_rot]; exact e.symm
    obtain ⟨l, hl, e1, e2⟩ := same_ray (h.up b hb1 (by omega)) (h.up c (by omega) (by omega)) ray
    have nray := h.two' hb1 hbc hcr hr ray
    have sbr : 0 < turn (P 0) (P b) (P r) := by
      refine lt_of_le_of_ne s1 fun hz => nray ?_
      have r0 : turn (P 0) (P c) (P b) = 0 := by rw [turn_swap, ray, neg_zero]
      exact ray_trans (h.up c (by omega) (by omega)) (h.up b hb1 (by omega)) (h.up r (by omega) hr) r0 hz.symm
    have i1 : turn (P b) (P c) (P r) = (l - 1) * turn (P 0) (P b) (P r) := by
      have x1 : (P c).1 - (P b).1 = (l - 1) * ((P b).1 - (P 0).1) := by linear_combination e1
      have x2 : (P c).2 - (P b).2 = (l - 1) * ((P b).2 - (P 0).2) := by linear_combination e2
      unfold turn
      rw [x1, x2]; ring
    have i2 : turn (P a) (P b) (P c) = - (l - 1) * turn (P 0) (P a) (P b) := by
      have x1 : (P c).1 - (P a).1 = (l - 1) * ((P b).1 - (P 0).1) + ((P b).1 - (P a).1) := by linear_combination e1
      have x2 : (P c).2 - (P a).2 = (l - 1) * ((P b).2 - (P 0).2) + ((P b).2 - (P a).2) := by linear_combination e2
      unfold turn
      rw [x1, x2]; ring
    have hl1 : 0 ≤ l - 1 := by
      rw [i1] at k4
      exact nonneg_of_mul_nonneg_left k4 sbr
    have hl2 : l ≠ 1 := by
      rintro rfl
      refine h.diff b c hbc (by omega) (Prod.ext ?_ ?_) <;> linarith
    have hl3 : 0 < l - 1 := lt_of_le_of_ne hl1 (fun hz => hl2 (by linarith))
    have sab := h.sorted a b ha hab (by omega)
    rw [i2] at k1
    have : turn (P 0) (P a) (P b) = 0 := by
      by_contra hne
      have : 0 < turn (P 0) (P a) (P b) := lt_of_le_of_ne sab (Ne.symm hne)
      have := mul_pos hl3 this
      linarith
    exact h.two' ha hab hbc (by omega) this ray
  · have := turn_id1 (P a) (P b) (P c) (P 0) (P r)
    have hh : 0 ≤ turn (P a) (P b) (P r) * turn (P b) (P c) (P 0) := by
      rw [this]; exact add_nonneg (mul_nonneg k2 k4) (mul_nonneg k1 s1)
    exact nonneg_of_mul_nonneg_left hh e

end Sorted

/-- The invariant of the scan; the stack is given from the top. -/
structure Inv (n : ℕ) (P : ℕ → Pt K) (i3 : ℕ) (st : List ℕ) : Prop where
  bound : i3 ≤ n
  lt : ∀ i ∈ st, i < i3
  dec : st.Pairwise (fun x y => y < x)
  base : ∃ l, st = l ++ [1, 0]
  edges : ∀ e ∈ st.zip st.tail, ∀ q < i3, 0 ≤ turn (P e.2) (P e.1) (P q)
  top : ∀ s ∈ st.head?, s + 1 = i3 ∨ (∃ b, s < b ∧ b < i3 ∧ (i3 < n → turn (P s) (P b) (P i3) < 0) ∧ ∀ q < i3, 0 ≤ turn (P s) (P b) (P q))

theorem Inv.pop {n : ℕ} {P : ℕ → Pt K} (h : Sorted n P) {i3 a b : ℕ} {rest : List ℕ} (hI : Inv n P i3 (b :: a :: rest)) (h3 : i3 < n)
    (hc : turn (P a) (P b) (P i3) < 0) : Inv n P i3 (a :: rest) ∧ rest ≠ [] := by
  obtain ⟨l, hl⟩ := hI.base
  have hbase : ∃ l', a :: rest = l' ++ [1, 0] := by
    match l with
    | [] =>
      simp only [List.nil_append, List.cons.injEq] at hl
      obtain ⟨rfl, rfl, rfl⟩ := hl
      exact absurd hc (not_lt.2 (h.sorted 1 i3 le_rfl (hI.lt 1 (by simp)) h3))
    | x :: l => exact ⟨l, by simpa using (List.cons.inj hl).2⟩
  have hne : rest ≠ [] := by
    rintro rfl
    obtain ⟨l', hl'⟩ := hbase
    have := congrArg List.length hl'
    simp at this
  refine ⟨⟨hI.bound, fun i hi => hI.lt i (List.mem_cons_of_mem _ hi), (List.pairwise_cons.1 hI.dec).2, hbase, ?_, ?_⟩, hne⟩
  · intro e he
    exact hI.edges e (by
      simp only [List.tail_cons, List.zip_cons_cons] at he ⊢
      exact List.mem_cons_of_mem _ he)
  · intro s hs
    simp only [List.head?_cons, Option.mem_def, Option.some.injEq] at hs
    subst hs
    right
    refine ⟨b, (List.pairwise_cons.1 hI.dec).1 a (by simp), hI.lt b (by simp), fun _ => hc, ?_⟩
    exact hI.edges (b, a) (by simp)

/-- `r` is on the left of all the edges of the chain. -/
theorem chain_left {n : ℕ} {P : ℕ → Pt K} (h : Sorted n P) {r : ℕ} (hr : r < n) :
    ∀ (st : List ℕ) (b a : ℕ), (b :: a :: st).Pairwise (fun x y => y < x) → b < r →
      (∀ e ∈ (b :: a :: st).zip (a :: st), ∀ q < r, 0 ≤ turn (P e.2) (P e.1) (P q)) → 0 ≤ turn (P a) (P b) (P r) →
      ∀ e ∈ (b :: a :: st).zip (a :: st), 0 ≤ turn (P e.2) (P e.1) (P r) := by
  intro st
  induction st with
  | nil =>
    intro b a _ _ _ h0 e he
    simp only [List.zip_cons_cons, List.zip_nil_right, List.mem_singleton] at he
    subst he; exact h0
  | cons c st ih =>
    intro b a hd hb hE h0 e he
    rw [List.zip_cons_cons] at he
    rcases List.mem_cons.1 he with he | he
    · subst he; exact h0
    · have hd' := (List.pairwise_cons.1 hd).2
      have hab : a < b := (List.pairwise_cons.1 hd).1 a (by simp)
      have hca : c < a := (List.pairwise_cons.1 hd').1 c (by simp)
      have e1 := hE (b, a) (by simp)
      have e2 := hE (a, c) (by simp)
      refine ih a c hd' (by omega) (fun e he => hE e (by rw [List.zip_cons_cons]; exact List.mem_cons_of_mem _ he)) ?_ e he
      exact h.left_step hca hab hb hr (e2 b hb) (e2 0 (by omega)) (e1 0 (by omega)) h0

/-- The new edge has all the points on its left. -/
theorem new_edge {n : ℕ} {P : ℕ → Pt K} (h : Sorted n P) {r a b : ℕ} {rest : List ℕ} (hI : Inv n P r (b :: a :: rest)) (hr : r < n)
    (h0 : 0 ≤ turn (P a) (P b) (P r)) : ∀ q < r, 0 ≤ turn (P b) (P r) (P q) := by
  intro q hq
  have hab : a < b := (List.pairwise_cons.1 hI.dec).1 a (by simp)
  have hbr : b < r := hI.lt b (by simp)
  have hE := hI.edges (b, a) (by simp)
  have sbr := h.sorted b r (by omega) hbr hr
  by_cases hqb : q ≤ b
  · -- before the top
    have sqb := h.sorted' hqb (by omega)
    have k0 : 0 ≤ turn (P a) (P b) (P 0) := hE 0 (by omega)
    rcases k0.eq_or_lt with e | e
    · -- a is the pivot, or on the ray of b
      have eab : turn (P 0) (P a) (P b) = 0 := by rw [turn_rot]; exact e.symm
      -- then q is on the segment from the pivot to b
      have seg : ∃ m : K, m ≤ 1 ∧ (P q).1 - (P 0).1 = m * ((P b).1 - (P 0).1) ∧ (P q).2 - (P 0).2 = m * ((P b).2 - (P 0).2) := by
        obtain ⟨l, hl⟩ := hI.base
        rcases Nat.eq_zero_or_pos a with ha | ha
        · -- the stack is [b, 0]: b = 1
          have hl0 : l = [] := by
            match l with
            | [] => rfl
            | [x] => simp at hl; omega
            | x :: y :: l =>
              exfalso
              simp only [List.cons_append, List.cons.injEq] at hl
              have hd := hI.dec
              have := (List.pairwise_cons.1 (List.pairwise_cons.1 hd).2).1 1 (by rw [hl.2.2]; simp)
              omega
          subst hl0
          simp only [List.nil_append, List.cons.injEq] at hl
          obtain ⟨rfl, rfl, -⟩ := hl
          rcases Nat.le_one_iff_eq_zero_or_eq_one.1 hqb with rfl | rfl
          · exact ⟨0, zero_le_one, by ring, by ring⟩
          · exact ⟨1, le_rfl, by ring, by ring⟩
        · obtain ⟨lam, hlam, e1, e2⟩ := same_ray (h.up a ha (by omega)) (h.up b (by omega) (by omega)) eab
          have nray := h.two' ha hab hbr hr eab
          have sbr' : 0 < turn (P 0) (P b) (P r) := lt_of_le_of_ne sbr (Ne.symm nray)
          have i1 : turn (P a) (P b) (P r) * lam = (lam - 1) * turn (P 0) (P b) (P r) := by
            have x1 : (P b).1 = lam * ((P a).1 - (P 0).1) + (P 0).1 := by linear_combination e1
            have x2 : (P b).2 = lam * ((P a).2 - (P 0).2) + (P 0).2 := by linear_combination e2
            unfold turn; rw [x1, x2]; ring
          have hl1 : 0 ≤ lam - 1 := by
            have : 0 ≤ turn (P a) (P b) (P r) * lam := mul_nonneg h0 hlam.le
            rw [i1] at this
            exact nonneg_of_mul_nonneg_left this sbr'
          have hl2 : lam ≠ 1 := by
            rintro rfl
            refine h.diff a b hab (by omega) (Prod.ext ?_ ?_) <;> linarith
          have hl3 : 0 < lam - 1 := lt_of_le_of_ne hl1 (fun hz => hl2 (by linarith))
          -- a is the first point after the pivot
          have ha1 : a = 1 := by
            match l with
            | [] =>
              simp only [List.nil_append, List.cons.injEq] at hl
              omega
            | [x] =>
              simp only [List.cons_append, List.nil_append, List.cons.injEq] at hl
              exact hl.2.1
            | x :: y :: l =>
              exfalso
              simp only [List.cons_append, List.cons.injEq] at hl
              obtain ⟨rfl, rfl, hl⟩ := hl
              cases rest with
              | nil => simp at hl
              | cons c rest =>
                have hca : c < a := (List.pairwise_cons.1 (List.pairwise_cons.1 hI.dec).2).1 c (by simp)
                have hc1 : 1 ≤ c := by
                  match l with
                  | [] => simp at hl; omega
                  | z :: l =>
                    simp only [List.cons_append, List.cons.injEq] at hl
                    have hd := (List.pairwise_cons.1 (List.pairwise_cons.1 (List.pairwise_cons.1 hI.dec).2).2).1 1 (by rw [hl.2]; simp)
                    omega
                have hE2 := hI.edges (a, c) (by simp) b hbr
                simp only at hE2
                have i2 : turn (P c) (P a) (P b) = - (lam - 1) * turn (P 0) (P c) (P a) := by
                  have x1 : (P b).1 = lam * ((P a).1 - (P 0).1) + (P 0).1 := by linear_combination e1
                  have x2 : (P b).2 = lam * ((P a).2 - (P 0).2) + (P 0).2 := by linear_combination e2
                  unfold turn; rw [x1, x2]; ring
                have sca := h.sorted c a hc1 hca (by omega)
                have : turn (P 0) (P c) (P a) = 0 := by
                  by_contra hne
                  have : 0 < turn (P 0) (P c) (P a) := lt_of_le_of_ne sca (Ne.symm hne)
                  have := mul_pos hl3 this
                  rw [i2] at hE2
                  linarith
                exact h.two' hc1 hca hab (by omega) this eab
          subst ha1
          rcases Nat.eq_zero_or_pos q with rfl | hq0
          · exact ⟨0, zero_le_one, by ring, by ring⟩
          rcases hqb.eq_or_lt with rfl | hqb'
          · exact ⟨1, le_rfl, by ring, by ring⟩
          · rcases (show q = 1 ∨ 1 < q by omega) with rfl | hq1
            · refine ⟨lam⁻¹, inv_le_one_of_one_le₀ (by linarith), ?_, ?_⟩
              · rw [e1, inv_mul_cancel_left₀ hlam.ne']
              · rw [e2, inv_mul_cancel_left₀ hlam.ne']
            · -- three on the ray
              exfalso
              have s1 := h.sorted 1 q le_rfl hq1 (by omega)
              have s2 := h.sorted q b (by omega) hqb' (by omega)
              have i3 : turn (P 0) (P q) (P b) = - lam * turn (P 0) (P 1) (P q) := by
                have x1 : (P b).1 = lam * ((P 1).1 - (P 0).1) + (P 0).1 := by linear_combination e1
                have x2 : (P b).2 = lam * ((P 1).2 - (P 0).2) + (P 0).2 := by linear_combination e2
                unfold turn; rw [x1, x2]; ring
              have z1 : turn (P 0) (P 1) (P q) = 0 := by
                by_contra hne
                have : 0 < turn (P 0) (P 1) (P q) := lt_of_le_of_ne s1 (Ne.symm hne)
                have := mul_pos hlam this
                rw [i3] at s2
                linarith
              exact h.two 1 q b le_rfl hq1 hqb' (by omega) ⟨z1, by rw [i3, z1, mul_zero]⟩
      obtain ⟨m, hm, f1, f2⟩ := seg
      have : turn (P b) (P r) (P q) = (1 - m) * turn (P 0) (P b) (P r) := by
        have x1 : (P q).1 = m * ((P b).1 - (P 0).1) + (P 0).1 := by linear_combination f1
        have x2 : (P q).2 = m * ((P b).2 - (P 0).2) + (P 0).2 := by linear_combination f2
        unfold turn; rw [x1, x2]; ring
      rw [this]
      exact mul_nonneg (by linarith) sbr
    · have := turn_id2 (P a) (P b) (P 0) (P r) (P q)
      have hh : 0 ≤ turn (P a) (P b) (P 0) * turn (P b) (P r) (P q) := by
        rw [this]; exact add_nonneg (mul_nonneg h0 sqb) (mul_nonneg (hE q hq) sbr)
      exact nonneg_of_mul_nonneg_right hh e
  · -- after the top: a point has been removed
    rw [not_le] at hqb
    rcases hI.top b (by simp) with htop | ⟨c, hbc, hcr, hcw, hcl⟩
    · omega
    have hcw := hcw hr
    have k0 : 0 ≤ turn (P b) (P c) (P 0) := hcl 0 (by omega)
    have sbq := h.sorted b q (by omega) hqb (by omega)
    rcases k0.eq_or_lt with e | e
    · have ebc : turn (P 0) (P b) (P c) = 0 := by rw [turn_rot]; exact e.symm
      obtain ⟨lam, hlam, e1, e2⟩ := same_ray (h.up b (by omega) (by omega)) (h.up c (by omega) (by omega)) ebc
      have i1 : ∀ z : Pt K, turn (P b) (P c) z = (lam - 1) * turn (P 0) (P b) z := by
        intro z
        have x1 : (P c).1 = lam * ((P b).1 - (P 0).1) + (P 0).1 := by linear_combination e1
        have x2 : (P c).2 = lam * ((P b).2 - (P 0).2) + (P 0).2 := by linear_combination e2
        unfold turn; rw [x1, x2]; ring
      have hl : lam - 1 < 0 := by
        by_contra hn
        rw [not_lt] at hn
        rw [i1] at hcw
        have := mul_nonneg hn sbr
        linarith
      by_cases hqc : q = c
      · subst hqc
        rw [turn_swap]; linarith
      · have hq1 := hcl q hq
        rw [i1] at hq1
        have z : turn (P 0) (P b) (P q) = 0 := by
          by_contra hne
          have : 0 < turn (P 0) (P b) (P q) := lt_of_le_of_ne sbq (Ne.symm hne)
          have := mul_neg_of_neg_of_pos hl this
          linarith
        exfalso
        have zcq : turn (P 0) (P c) (P q) = 0 :=
          ray_trans (h.up c (by omega) (by omega)) (h.up b (by omega) (by omega)) (h.up q (by omega) (by omega)) (by rw [turn_swap, ebc, neg_zero]) z
        rcases lt_or_gt_of_ne hqc with hlt | hlt
        · exact h.two b q c (by omega) hqb hlt (by omega) ⟨z, by rw [turn_swap, zcq, neg_zero]⟩
        · exact h.two b c q (by omega) hbc hlt (by omega) ⟨ebc, zcq⟩
    · have := turn_id3 (P b) (P c) (P 0) (P r) (P q)
      have hh : 0 ≤ turn (P b) (P c) (P 0) * turn (P b) (P r) (P q) := by
        rw [this]
        have p1 := mul_nonneg (hcl q hq) sbr
        have p2 := mul_nonneg (neg_nonneg.2 hcw.le) sbq
        linarith
      exact nonneg_of_mul_nonneg_right hh e

theorem Inv.push {n : ℕ} {P : ℕ → Pt K} (h : Sorted n P) {r a b : ℕ} {rest : List ℕ} (hI : Inv n P r (b :: a :: rest)) (hr : r < n)
    (h0 : 0 ≤ turn (P a) (P b) (P r)) : Inv n P (r + 1) (r :: b :: a :: rest) := by
  obtain ⟨l, hl⟩ := hI.base
  refine ⟨hr, ?_, ?_, ⟨r :: l, by rw [hl]; rfl⟩, ?_, ?_⟩
  · intro i hi
    rcases List.mem_cons.1 hi with rfl | hi
    · omega
    · have := hI.lt i hi; omega
  · exact List.pairwise_cons.2 ⟨fun i hi => hI.lt i hi, hI.dec⟩
  · intro e he q hq
    simp only [List.tail_cons, List.zip_cons_cons] at he
    rcases List.mem_cons.1 he with rfl | he2
    · rcases (Nat.lt_succ_iff_lt_or_eq.1 hq) with hq | rfl
      · exact new_edge h hI hr h0 q hq
      · simp only [turn_self]; exact le_rfl
    · rcases (Nat.lt_succ_iff_lt_or_eq.1 hq) with hq | hq
      · exact hI.edges e (by simpa only [List.tail_cons, List.zip_cons_cons] using he2) q hq
      · rw [hq]
        exact chain_left h hr rest b a hI.dec (hI.lt b (by simp))
          (fun e he => hI.edges e (by simpa only [List.tail_cons] using he)) h0 e (by simpa only [List.zip_cons_cons] using he2)
  · intro s hs
    simp only [List.head?_cons, Option.mem_def, Option.some.injEq] at hs
    subst hs
    exact Or.inl rfl

/-! ### The sort -/

theorem pivot_spec {input : List (Pt K)} (h : input ≠ []) : ∃ p0, input[getPivot input]? = some p0 ∧ IsPivot input p0 := by
  match input, h with
  | x :: xs, _ =>
    obtain ⟨p, k, h1, h2, h3, _⟩ := minElemLoop_cons (extremeComp_swo (K := K) .bottom) x xs
    have e : getPivot (x :: xs) = k := by unfold getPivot getExtremePoint; simp only [h1]
    refine ⟨p, by rw [e]; exact h2, List.mem_of_getElem? h2, ?_⟩
    intro q hq
    have := h3 q hq
    rw [Bool.eq_false_iff, Ne, extremeComp_iff] at this
    simp only [Below, not_or, not_and, not_lt] at this
    rcases this.1.eq_or_lt with e | e
    · exact Or.inr ⟨e, this.2 e.symm⟩
    · exact Or.inl e

theorem pivot_up {input : List (Pt K)} {p0 q : Pt K} (h : IsPivot input p0) (hq : q ∈ input) (hne : q ≠ p0) : Up p0 q := by
  rcases h.2 q hq with e | ⟨e, e'⟩
  · exact Or.inl e
  · refine Or.inr ⟨e, lt_of_le_of_ne e' fun hx => hne (Prod.ext hx.symm e.symm)⟩

theorem pivot_unique {input : List (Pt K)} {p q : Pt K} (hp : IsPivot input p) (hq : IsPivot input q) : p = q := by
  rcases hp.2 q hq.1 with e | ⟨e, e'⟩
  · rcases hq.2 p hp.1 with e2 | ⟨e2, _⟩ <;> linarith
  · rcases hq.2 p hp.1 with e2 | ⟨_, e2⟩
    · linarith
    · exact Prod.ext (le_antisymm e' e2) e

theorem turn_trans {p a b c : Pt K} (ha : Up p a) (hb : Up p b) (hc : Up p c) (h1 : 0 < turn p a b) (h2 : 0 < turn p b c) : 0 < turn p a c := by
  have id : turn p a c * (b.2 - p.2) = turn p a b * (c.2 - p.2) + turn p b c * (a.2 - p.2) := by unfold turn; ring
  have ya : 0 ≤ a.2 - p.2 := by rcases ha with h | ⟨h, _⟩ <;> linarith
  have yb : 0 ≤ b.2 - p.2 := by rcases hb with h | ⟨h, _⟩ <;> linarith
  have yc : 0 ≤ c.2 - p.2 := by rcases hc with h | ⟨h, _⟩ <;> linarith
  rcases yb.eq_or_lt with e | e
  · exfalso
    have hx : 0 < b.1 - p.1 := by
      rcases hb with h | ⟨_, h⟩ <;> linarith
    unfold turn at h1
    rw [← e] at h1
    have := mul_nonneg ya hx.le
    linarith
  · have : 0 < turn p a c * (b.2 - p.2) := by
      rw [id]
      rcases ya.eq_or_lt with e1 | e1
      · rcases yc.eq_or_lt with e2 | e2
        · exfalso
          have hx : 0 < c.1 - p.1 := by
            rcases hc with h | ⟨_, h⟩ <;> linarith
          unfold turn at h2
          rw [← e2] at h2
          have := mul_pos e hx
          linarith
        · have := mul_pos h1 e2
          have := mul_nonneg h2.le ya
          linarith
      · have := mul_pos h2 e1
        have := mul_nonneg h1.le yc
        linarith
    exact pos_of_mul_pos_left this e.le

theorem hullIota_spec {n piv : ℕ} (h : piv < n) : ∃ l, hullIota n piv = piv :: l ∧ (piv :: l).Perm (List.range n) := by
  have h0 : 0 < (List.range n).length := by rw [List.length_range]; omega
  have hp : piv < (List.range n).length := by rw [List.length_range]; exact h
  have := List.set_set_perm hp h0
  simp only [List.getElem_range] at this
  unfold hullIota
  cases hl : ((List.range n).set piv 0) with
  | nil =>
    have := congrArg List.length hl
    simp at this; omega
  | cons x l =>
    rw [hl] at this
    exact ⟨l, rfl, this⟩

/-- The set-up of the scan. -/
structure Setup (srt : (Nat → Nat → Bool) → List Nat → List Nat) (input : List (Pt K)) (v2 : List Nat) (V : Nat → Nat) (P : Nat → Pt K) : Prop where
  len : v2.length = input.length
  hV : ∀ i < v2.length, v2[i]? = some (V i)
  hin : ∀ i < v2.length, input[V i]? = some (P i)
  inj : ∀ i < v2.length, ∀ j < v2.length, V i = V j → i = j
  surj : ∀ k < input.length, ∃ i < v2.length, V i = k
  pivot : IsPivot input (P 0)
  up : ∀ i, 1 ≤ i → i < v2.length → Up (P 0) (P i)
  sorted : ∀ i j, 1 ≤ i → i < j → j < v2.length → 0 ≤ turn (P 0) (P i) (P j)

/-- The pivot appears once. -/
theorem setup {srt : (Nat → Nat → Bool) → List Nat → List Nat} (hs : IsSort srt) {input : List (Pt K)} (hne : input ≠ [])
    (honce : ∀ p, IsPivot input p → ∀ i j : ℕ, input[i]? = some p → input[j]? = some p → i = j) :
    ∃ V P, Setup srt input (sortPoints srt input (getPivot input)) V P := by
  obtain ⟨p0, hp0, hpiv⟩ := pivot_spec hne
  set piv := getPivot input with hpv
  have hlt : piv < input.length := by
    by_contra hc
    rw [List.getElem?_eq_none (not_lt.1 hc)] at hp0
    simp at hp0
  obtain ⟨l, hl, hperm⟩ := hullIota_spec hlt
  have hmem : ∀ i ∈ l, i < input.length ∧ i ≠ piv := by
    intro i hi
    have h1 : i ∈ List.range input.length := hperm.subset (List.mem_cons_of_mem _ hi)
    have hnd : (piv :: l).Nodup := hperm.symm.nodup List.nodup_range
    exact ⟨List.mem_range.1 h1, fun e => (List.nodup_cons.1 hnd).1 (e ▸ hi)⟩
  have hup : ∀ i ∈ l, ∃ q, input[i]? = some q ∧ Up p0 q := by
    intro i hi
    obtain ⟨h1, h2⟩ := hmem i hi
    refine ⟨input[i], List.getElem?_eq_getElem h1, pivot_up hpiv (List.getElem_mem h1) ?_⟩
    intro hc
    exact h2 (honce p0 hpiv i piv (by rw [List.getElem?_eq_getElem h1, hc]) hp0)
  have hcomp : ∀ {i j : ℕ} {q r : Pt K}, input[i]? = some q → input[j]? = some r → hullComp input piv i j = decide (0 < turn p0 q r) := by
    intro i j q r hi hj
    unfold hullComp
    rw [hp0, hi, hj]
    simp only [gt_iff_lt, decide_eq_decide]
    unfold turn
    rw [show (q.1 - p0.1) * (r.2 - p0.2) - (r.1 - p0.1) * (q.2 - p0.2) = (q.1 - p0.1) * (r.2 - p0.2) - (q.2 - p0.2) * (r.1 - p0.1) by ring]
  have hswo : StrictWeakOn (hullComp input piv) l := by
    refine ⟨?_, ?_, ?_⟩
    · intro a ha
      obtain ⟨q, hq, _⟩ := hup a ha
      rw [hcomp hq hq, turn_self]; simp
    · intro a ha b hb c hc
      obtain ⟨q, hq, uq⟩ := hup a ha
      obtain ⟨r, hr, ur⟩ := hup b hb
      obtain ⟨s, hs, us⟩ := hup c hc
      rw [hcomp hq hr, hcomp hr hs, hcomp hq hs]
      simp only [decide_eq_true_eq]
      exact turn_trans uq ur us
    · intro a ha b hb c hc
      obtain ⟨q, hq, uq⟩ := hup a ha
      obtain ⟨r, hr, ur⟩ := hup b hb
      obtain ⟨s, hs, us⟩ := hup c hc
      rw [hcomp hq hr, hcomp hr hs, hcomp hq hs, hcomp hr hq, hcomp hs hr, hcomp hs hq]
      simp only [decide_eq_false_iff_not, not_lt]
      intro h1 h2 h3 h4
      rw [turn_swap] at h2 h4
      have z1 : turn p0 q r = 0 := le_antisymm h1 (by linarith)
      have z2 : turn p0 r s = 0 := le_antisymm h3 (by linarith)
      have z3 := ray_trans uq ur us z1 z2
      exact ⟨z3.le, by rw [turn_swap, z3, neg_zero]⟩
  obtain ⟨hp1, hp2⟩ := hs _ _ hswo
  have hv2 : sortPoints srt input piv = piv :: srt (hullComp input piv) l := by unfold sortPoints; rw [hl]
  set v2 := sortPoints srt input piv with hv2d
  have hperm2 : v2.Perm (List.range input.length) := by
    rw [hv2]; exact (List.Perm.cons piv hp1).trans hperm
  have hlen : v2.length = input.length := by rw [hperm2.length_eq, List.length_range]
  have hnd : v2.Nodup := hperm2.symm.nodup List.nodup_range
  have hVi : ∀ i < v2.length, v2[i]? = some (v2.getD i 0) := by
    intro i hi
    rw [List.getD_eq_getElem?_getD, List.getElem?_eq_getElem hi]; rfl
  have hVlt : ∀ i < v2.length, v2.getD i 0 < input.length := by
    intro i hi
    have := hperm2.subset (List.mem_of_getElem? (hVi i hi))
    exact List.mem_range.1 this
  have hin : ∀ i < v2.length, input[v2.getD i 0]? = some (input.getD (v2.getD i 0) (0, 0)) := by
    intro i hi
    rw [List.getD_eq_getElem?_getD (l := input), List.getElem?_eq_getElem (hVlt i hi)]; rfl
  have hV0 : v2.getD 0 0 = piv := by rw [hv2]; rfl
  have hP0 : input.getD (v2.getD 0 0) (0, 0) = p0 := by
    rw [hV0, List.getD_eq_getElem?_getD, hp0]; rfl
  have htail : ∀ i, 1 ≤ i → i < v2.length → v2.getD i 0 ∈ l := by
    intro i h1 hi
    obtain ⟨j, rfl⟩ : ∃ j, i = j + 1 := ⟨i - 1, by omega⟩
    have h2 := hVi (j + 1) hi
    rw [hv2, List.getElem?_cons_succ] at h2
    rw [hv2]
    exact hp1.subset (List.mem_of_getElem? h2)
  refine ⟨fun i => v2.getD i 0, fun i => input.getD (v2.getD i 0) (0, 0), hlen, hVi, hin, ?_, ?_, ?_, ?_, ?_⟩
  · intro i hi j hj hij
    have h1 := hVi i hi
    have h2 := hVi j hj
    rw [← hij] at h2
    exact (List.Nodup.getElem_inj_iff hnd).1 (by
      rw [List.getElem?_eq_getElem hi] at h1
      rw [List.getElem?_eq_getElem hj] at h2
      exact (Option.some.inj h1).trans (Option.some.inj h2).symm)
  · intro k hk
    have : k ∈ v2 := hperm2.symm.subset (List.mem_range.2 hk)
    obtain ⟨i, hi, e⟩ := List.mem_iff_getElem.1 this
    refine ⟨i, hi, ?_⟩
    have h1 := hVi i hi
    rw [List.getElem?_eq_getElem hi] at h1
    exact (Option.some.inj h1).symm.trans e
  · simp only [hP0]; exact hpiv
  · intro i h1 hi
    obtain ⟨q, hq, uq⟩ := hup _ (htail i h1 hi)
    rw [hin i hi] at hq
    simp only [hP0]
    rw [Option.some.inj hq]; exact uq
  · intro i j h1 hij hj
    obtain ⟨i, rfl⟩ : ∃ k, i = k + 1 := ⟨i - 1, by omega⟩
    obtain ⟨j, rfl⟩ : ∃ k, j = k + 1 := ⟨j - 1, by omega⟩
    simp only [hP0]
    have hlen' : v2.length = (srt (hullComp input piv) l).length + 1 := by rw [hv2]; rfl
    have hi' : i < (srt (hullComp input piv) l).length := by omega
    have hj' : j < (srt (hullComp input piv) l).length := by omega
    have := List.pairwise_iff_getElem.1 hp2 i j hi' hj' (by omega)
    have e1 : v2.getD (i + 1) 0 = (srt (hullComp input piv) l)[i] := by
      rw [hv2, List.getD_eq_getElem?_getD, List.getElem?_cons_succ, List.getElem?_eq_getElem hi']; rfl
    have e2 : v2.getD (j + 1) 0 = (srt (hullComp input piv) l)[j] := by
      rw [hv2, List.getD_eq_getElem?_getD, List.getElem?_cons_succ, List.getElem?_eq_getElem hj']; rfl
    rw [← e1, ← e2, hcomp (hin _ hj) (hin _ (by omega))] at this
    simp only [decide_eq_false_iff_not, not_lt] at this
    rw [turn_swap]; linarith

/-! ### The whole function -/

theorem hullCopy_ok {input : List (Pt K)} {V : Nat → Nat} {P : Nat → Pt K} : ∀ (st : List ℕ), (∀ i ∈ st, input[V i]? = some (P i)) →
    hullCopy input (st.map V) = .ok (st.map P) := by
  intro st
  induction st with
  | nil => intro _; rfl
  | cons i st ih =>
    intro h
    simp only [List.map_cons, hullCopy, h i (by simp), ih (fun j hj => h j (List.mem_cons_of_mem _ hj)), Res.bind_ok, Res.pure_eq]

theorem convexHull_of {srt : (Nat → Nat → Bool) → List Nat → List Nat} {thr : K} {same : Pt K → Pt K → Bool} {input : List (Pt K)} {V : Nat → Nat} {P : Nat → Pt K}
    (S : Setup srt input (sortPoints srt input (getPivot input)) V P) (h4 : 4 ≤ input.length)
    (Inv : Nat → List Nat → Prop)
    (hlt : ∀ i3 st, Inv i3 st → ∀ i ∈ st, i < i3)
    (hpush : ∀ i3 a b rest, Inv i3 (b :: a :: rest) → i3 < input.length → ¬ cw thr (P a) (P b) (P i3) → Inv (i3 + 1) (i3 :: b :: a :: rest))
    (hpop : ∀ i3 a b rest, Inv i3 (b :: a :: rest) → i3 < input.length → cw thr (P a) (P b) (P i3) → Inv i3 (a :: rest) ∧ rest ≠ [])
    (hinit : Inv 3 [2, 1, 0]) :
    ∃ st, convexHull srt thr same input = polySet same (st.reverse.map P) ∧ Inv input.length st ∧ st.head? = some (input.length - 1) := by
  set v2 := sortPoints srt input (getPivot input) with hv2
  have hl := S.len
  have hP : ∀ i < v2.length, hullPt input v2 i = .ok (P i) := by
    intro i hi
    unfold hullPt
    rw [S.hV i hi]; simp only [S.hin i hi]
  obtain ⟨st, e, hI, htop⟩ := hullLoop_inv (thr := thr) S.hV hP Inv hlt (by rw [hl]; exact hpush) (by rw [hl]; exact hpop)
    (2 * input.length) 1 2 3 [0] hinit (by omega) (by simp only [List.length_singleton]; omega)
  rw [hl] at hI htop
  refine ⟨st, ?_, hI, htop⟩
  unfold convexHull
  rw [if_neg (by omega)]
  simp only
  rw [← hv2]
  simp only [S.hV 0 (by omega), S.hV 1 (by omega), S.hV 2 (by omega)]
  simp only [List.map_cons, List.map_nil] at e
  simp only [e]
  rw [← List.map_reverse, hullCopy_ok]
  · rfl
  · intro i hi
    exact S.hin i (by have := hlt _ _ hI i (List.mem_reverse.1 hi); omega)

theorem Setup.toSorted {srt : (Nat → Nat → Bool) → List Nat → List Nat} {input : List (Pt K)} {v2 : List Nat} {V : Nat → Nat} {P : Nat → Pt K}
    (S : Setup srt input v2 V P) (hnd : input.Nodup) (h2 : AtMostTwoPerRay input) : Sorted input.length P := by
  have hl := S.len
  have hne : ∀ i j, i < j → j < input.length → P i ≠ P j := by
    intro i j hij hj hc
    have h1 := S.hin i (by omega)
    have h3 := S.hin j (by omega)
    rw [hc] at h1
    have : V i = V j := by
      have hi' : V i < input.length := (List.getElem?_eq_some_iff.1 h1).1
      have hj' : V j < input.length := (List.getElem?_eq_some_iff.1 h3).1
      exact (List.Nodup.getElem_inj_iff hnd).1 ((List.getElem?_eq_some_iff.1 h1).2.trans (List.getElem?_eq_some_iff.1 h3).2.symm)
    have := S.inj i (by omega) j (by omega) this
    omega
  have hm : ∀ i < input.length, P i ∈ input := fun i hi => List.mem_of_getElem? (S.hin i (by omega))
  refine ⟨fun i h1 hi => S.up i h1 (by omega), fun i j h1 hij hj => S.sorted i j h1 hij (by omega), ?_, hne⟩
  intro i j k h1 hij hjk hk
  exact h2 (P 0) S.pivot _ (hm i (by omega)) _ (hm j (by omega)) _ (hm k hk) (hne 0 i (by omega) (by omega)).symm (hne 0 j (by omega) (by omega)).symm
    (hne 0 k (by omega) (by omega)).symm (hne i j hij (by omega)) (hne i k (by omega) hk) (hne j k hjk hk)

theorem Inv.init {n : ℕ} {P : ℕ → Pt K} (h : Sorted n P) (hn : 4 ≤ n) : Inv n P 3 [2, 1, 0] := by
  have s12 := h.sorted 1 2 le_rfl (by omega) (by omega)
  refine ⟨by omega, by simp, by simp, ⟨[2], rfl⟩, ?_, ?_⟩
  · intro e he q hq
    simp only [List.tail_cons, List.zip_cons_cons, List.zip_nil_right, List.mem_cons, List.not_mem_nil, or_false] at he
    have hq' : q = 0 ∨ q = 1 ∨ q = 2 := by omega
    rcases he with rfl | rfl <;> rcases hq' with rfl | rfl | rfl <;>
      simp only [turn_self, turn_self', le_refl, s12]
    rw [← turn_rot]; exact s12
  · intro s hs
    simp only [List.head?_cons, Option.mem_def, Option.some.injEq] at hs
    subst hs
    exact Or.inl rfl

theorem mem_openPairs_cyc {Q : Type} {a : Q} {l : List Q} {e : Q × Q} (h : e ∈ cycPairs (a :: l)) : e ∈ openPairs (a :: l) ∨ e = ((a :: l).getLast (by simp), a) := by
  rw [cycPairs_cons] at h
  rcases List.eq_nil_or_concat l with rfl | ⟨m, x, rfl⟩
  · right; simpa [openPairs] using h
  · rw [List.concat_eq_append] at h ⊢
    have e1 : a :: (m ++ [x]) ++ [a] = (a :: m) ++ x :: [a] := by simp
    rw [e1, openPairs_append] at h
    rcases List.mem_append.1 h with h | h
    · left; simpa using h
    · right
      simp only [openPairs, List.tail_cons, List.zip_cons_cons, List.zip_nil_right, List.mem_singleton] at h
      rw [h]; simp

/-- The whole result, from the invariant at the end. -/
theorem Inv.hull {srt : (Nat → Nat → Bool) → List Nat → List Nat} {input : List (Pt K)} {v2 : List Nat} {V : Nat → Nat} {P : Nat → Pt K}
    (S : Setup srt input v2 V P) (h : Sorted input.length P) (h4 : 4 ≤ input.length) {st : List ℕ} (hI : Inv input.length P input.length st)
    (htop : st.head? = some (input.length - 1)) : IsHull input (st.reverse.map P) := by
  have hl := S.len
  obtain ⟨l, hst⟩ := hI.base
  have hlne : l ≠ [] := by
    rintro rfl
    rw [hst] at htop
    simp at htop
    omega
  have hm : ∀ p ∈ input, ∃ i < input.length, P i = p := by
    intro p hp
    obtain ⟨k, hk, e⟩ := List.mem_iff_getElem.1 hp
    obtain ⟨i, hi, hVi⟩ := S.surj k hk
    refine ⟨i, by omega, ?_⟩
    have := S.hin i hi
    rw [hVi, List.getElem?_eq_getElem hk, e] at this
    exact (Option.some.inj this).symm
  refine ⟨?_, ?_, ?_, ?_⟩
  · rw [hst]
    simp only [List.length_map, List.length_reverse, List.length_append, List.length_cons, List.length_nil]
    have := List.length_pos_iff.2 hlne
    omega
  · intro p hp
    obtain ⟨i, hi, rfl⟩ := List.mem_map.1 hp
    exact List.mem_of_getElem? (S.hin i (by have := hI.lt i (List.mem_reverse.1 hi); omega))
  · apply List.Nodup.map_on
    · intro i hi j hj hij
      have hi' := hI.lt i (List.mem_reverse.1 hi)
      have hj' := hI.lt j (List.mem_reverse.1 hj)
      by_contra hc
      rcases lt_or_gt_of_ne hc with e | e
      · exact h.diff i j e hj' hij
      · exact h.diff j i e hi' hij.symm
    · rw [List.nodup_reverse]
      exact hI.dec.imp (fun hxy => (Nat.ne_of_lt hxy).symm)
  · intro e he p hp
    obtain ⟨q, hq, rfl⟩ := hm p hp
    have he' : e ∈ cycPairs (st.reverse.map P) := he
    rw [H2d.cycPairs_map] at he'
    obtain ⟨e0, he0, rfl⟩ := List.mem_map.1 he'
    have hrev : st.reverse = 0 :: (1 :: l.reverse) := by rw [hst]; simp
    rw [hrev] at he0
    rcases mem_openPairs_cyc he0 with h1 | h1
    · rw [← hrev, openPairs_reverse, List.mem_reverse, List.mem_map] at h1
      obtain ⟨e1, he1, rfl⟩ := h1
      exact hI.edges e1 he1 q hq
    · have hlast : (0 :: 1 :: l.reverse).getLast (by simp) = input.length - 1 := by
        have : (0 :: 1 :: l.reverse).getLast? = some (input.length - 1) := by
          rw [← hrev, List.getLast?_reverse]; exact htop
        rw [List.getLast?_eq_some_getLast (by simp)] at this
        exact Option.some.inj this
      rw [h1, hlast]
      simp only [Prod.map]
      rw [turn_rot]
      exact h.sorted' (by omega) (by omega)

theorem checkInput_hull {same : Pt K → Pt K → Bool} {input poly : List (Pt K)} (h : IsHull input poly)
    (hsame : ∀ a ∈ input, ∀ b ∈ input, a ≠ b → same a b = false) : polySet same poly = .ok poly := by
  unfold polySet
  rw [if_pos]
  match poly, h with
  | [], h => exact absurd h.size (by simp)
  | [_], h => exact absurd h.size (by simp)
  | a :: b :: l, h =>
    simp only [checkInput, Bool.and_eq_true, Bool.not_eq_true', List.all_eq_true]
    constructor
    · intro s hs
      have hne : s.1 ≠ s.2 := by
        intro hc
        obtain ⟨i, hi, e⟩ := List.mem_iff_getElem.1 hs
        have hlen : (openPairs (a :: b :: l)).length = l.length + 1 := by simp [openPairs]
        have e1 : s = ((a :: b :: l)[i]'(by simp; omega), (a :: b :: l)[i + 1]'(by simp; omega)) := by
          rw [← e]; simp only [openPairs]; rw [List.getElem_zip]; simp only [List.tail_cons, List.getElem_cons_succ]
        rw [e1] at hc
        have := (List.Nodup.getElem_inj_iff h.nodup).1 hc
        omega
      have hm : s.1 ∈ a :: b :: l ∧ s.2 ∈ a :: b :: l := by
        have := List.of_mem_zip (show (s.1, s.2) ∈ (a :: b :: l).zip (a :: b :: l).tail from hs)
        exact ⟨this.1, List.mem_of_mem_tail this.2⟩
      exact hsame _ (h.sub _ hm.1) _ (h.sub _ hm.2) hne
    · have hmem : (b :: l).getLastD a ∈ b :: l := by
        rw [List.getLastD_eq_getLast?, List.getLast?_eq_some_getLast (by simp)]
        exact List.getLast_mem _
      refine hsame _ (h.sub _ (by simp)) _ (h.sub _ (List.mem_cons_of_mem _ hmem)) ?_
      intro hc
      exact (List.nodup_cons.1 h.nodup).1 (hc ▸ hmem)

/-! ### Insertion sort -/

theorem insOne_perm {α : Type} (comp : α → α → Bool) (x : α) : ∀ l, (insOne comp x l).Perm (x :: l)
  | [] => List.Perm.refl _
  | y :: l => by
    unfold insOne
    split
    · exact ((insOne_perm comp x l).cons y).trans (List.Perm.swap _ _ _)
    · exact List.Perm.refl _

theorem insSort_perm {α : Type} (comp : α → α → Bool) : ∀ l, (insSort comp l).Perm l
  | [] => List.Perm.refl _
  | x :: l => (insOne_perm comp x _).trans ((insSort_perm comp l).cons x)

theorem insOne_pairwise {α : Type} {comp : α → α → Bool} {x : α} : ∀ l, StrictWeakOn comp (x :: l) →
    l.Pairwise (fun a b => comp b a = false) → (insOne comp x l).Pairwise (fun a b => comp b a = false)
  | [], _, _ => by simp [insOne]
  | y :: l, hs, hp => by
    obtain ⟨h1, h2⟩ := List.pairwise_cons.1 hp
    have asym : ∀ a ∈ x :: y :: l, ∀ b ∈ x :: y :: l, comp a b = true → comp b a = false := by
      intro a ha b hb h
      by_contra hc
      rw [Bool.not_eq_false] at hc
      have := hs.trans a ha b hb a ha h hc
      rw [hs.irrefl a ha] at this
      simp at this
    unfold insOne
    split
    · rename_i hyx
      refine List.pairwise_cons.2 ⟨?_, insOne_pairwise l ⟨fun a ha => hs.irrefl a (by grind), fun a ha b hb c hc => hs.trans a (by grind) b (by grind) c (by grind), fun a ha b hb c hc => hs.incomp a (by grind) b (by grind) c (by grind)⟩ h2⟩
      intro b hb
      have := (insOne_perm comp x l).subset hb
      rcases List.mem_cons.1 this with rfl | hb'
      · exact asym y (by simp) b (by simp) hyx
      · exact h1 b hb'
    · rename_i hyx
      rw [Bool.not_eq_true] at hyx
      refine List.pairwise_cons.2 ⟨?_, hp⟩
      intro b hb
      rcases List.mem_cons.1 hb with rfl | hb'
      · exact hyx
      · have hby := h1 b hb'
        have mb : b ∈ x :: y :: l := by simp [hb']
        by_contra hc
        rw [Bool.not_eq_false] at hc
        cases hxy : comp x y with
        | true =>
          have := hs.trans b mb x (by simp) y (by simp) hc hxy
          rw [hby] at this; simp at this
        | false =>
          cases hyb : comp y b with
          | true =>
            have := hs.trans y (by simp) b mb x (by simp) hyb hc
            rw [hyx] at this; simp at this
          | false =>
            have := (hs.incomp x (by simp) y (by simp) b mb hxy hyx hyb hby).2
            rw [hc] at this; simp at this

theorem insSort_isSort {α : Type} : IsSort (insSort (α := α)) := by
  intro comp l hs
  refine ⟨insSort_perm comp l, ?_⟩
  induction l with
  | nil => simp [insSort]
  | cons x l ih =>
    have hs' : StrictWeakOn comp l := ⟨fun a ha => hs.irrefl a (by grind), fun a ha b hb c hc => hs.trans a (by grind) b (by grind) c (by grind), fun a ha b hb c hc => hs.incomp a (by grind) b (by grind) c (by grind)⟩
    have hm : ∀ a ∈ x :: insSort comp l, a ∈ x :: l := by
      intro a ha
      rcases List.mem_cons.1 ha with rfl | h
      · simp
      · exact List.mem_cons_of_mem _ ((insSort_perm comp l).subset h)
    exact insOne_pairwise _ ⟨fun a ha => hs.irrefl a (hm a ha), fun a ha b hb c hc => hs.trans a (hm a ha) b (hm b hb) c (hm c hc), fun a ha b hb c hc => hs.incomp a (hm a ha) b (hm b hb) c (hm c hc)⟩ (ih hs')

/-- The part of the invariant that needs nothing but the sort. -/
structure Inv0 (i3 : ℕ) (st : List ℕ) : Prop where
  lt : ∀ i ∈ st, i < i3
  base : ∃ l, st = l ++ [1, 0]

end H2d.Hull
