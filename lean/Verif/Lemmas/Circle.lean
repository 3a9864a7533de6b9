import Verif.Lemmas.Circle3

/-!
# Lemmas on circles
-/

set_option linter.unusedSectionVars false
set_option linter.unusedSimpArgs false

namespace H2d

open H2d.Spec

/-- Every finite set is enclosed by a circle. -/
theorem exists_feas (S : List (Pt ℝ)) : ∃ c, Feas c S [] := by
  induction S with
  | nil => exact ⟨⟨(0, 0), 0⟩, le_refl _, by simp, by simp⟩
  | cons p S ih =>
    obtain ⟨c, h1, h2, -⟩ := ih
    refine ⟨⟨c.center, max c.radius (eucl p c.center)⟩, le_max_of_le_left h1, ?_, by simp⟩
    intro q hq
    rcases List.mem_cons.1 hq with rfl | hq
    · exact le_max_right _ _
    · exact le_max_of_le_left (h2 q hq)

theorem best_mec {S : List (Pt ℝ)} (hS : S ≠ []) (c : Circle) : Best c S [] ↔ IsMEC S c.center c.radius := by
  constructor
  · rintro ⟨⟨h0, h1, -⟩, h2⟩
    refine ⟨h0, h1, fun o' r' h => ?_⟩
    obtain ⟨x, hx⟩ := List.exists_mem_of_ne_nil S hS
    exact h2 ⟨o', r'⟩ ⟨(eucl_nonneg _ _).trans (h x hx), h, by simp⟩
  · rintro ⟨h0, h1, h2⟩
    exact ⟨⟨h0, h1, by simp⟩, fun c' h' => h2 _ _ h'.2.1⟩

/-- Construction from at least four points. -/
theorem circleOfPts_four {t : Thr ℝ} (flag : Bool) (rnd : ℕ → ℕ) {pts : List (Pt ℝ)} (h : 4 ≤ pts.length) :
    circleOfPts t flag rnd pts = (match (welzl t rnd pts.length 0 pts []).1 with
    | .ok d =>
      match circleMake t true d.center d.radius with
      | .ok c => (.ok c, false)
      | r => (r, true)
    | r => (r, true)) := by
  match pts, h with
  | a :: b :: c :: d :: l, _ => rfl

theorem circleOfPts_few {t : Thr ℝ} (flag : Bool) (rnd : ℕ → ℕ) {pts : List (Pt ℝ)} (h : pts.length < 4) :
    (circleOfPts t flag rnd pts).2 = flag := by
  match pts, h with
  | [], _ => rfl
  | [a], _ => rfl
  | [a, b], _ => rfl
  | [a, b, c], _ => rfl
  | a :: b :: c :: d :: l, h => simp at h; omega

theorem circleOfPts_flag {t : Thr ℝ} (flag flag' : Bool) (rnd : ℕ → ℕ) {pts : List (Pt ℝ)} (h : 4 ≤ pts.length) :
    circleOfPts t flag rnd pts = circleOfPts t flag' rnd pts ∧
    ((circleOfPts t flag rnd pts).2 = false ↔ ∃ c, (circleOfPts t flag rnd pts).1 = .ok c) := by
  rw [circleOfPts_four flag rnd h, circleOfPts_four flag' rnd h]
  refine ⟨rfl, ?_⟩
  cases (welzl t rnd pts.length 0 pts []).1 with
  | ok d => simp only; cases circleMake t true d.center d.radius <;> simp
  | throw => simp
  | ub => simp

/-- Result of the construction from at least four points. -/
theorem circleOfPts_spec {t : Thr ℝ} (h0 : 0 < t.nullDistance) {ok : Bool} (flag : Bool) (rnd : ℕ → ℕ) {pts : List (Pt ℝ)} (h : 4 ≤ pts.length)
    (hU : Trip t ok (fun p => p ∈ pts)) :
    (∀ d, (circleOfPts t flag rnd pts).1 = .ok d → Best d pts []) ∧ (circleOfPts t flag rnd pts).1 ≠ .ub ∧
      (ok = true → pts.Pairwise (fun a b => t.nullDistance ≤ eucl a b) → ∃ d, circleOfPts t flag rnd pts = (.ok d, false)) := by
  obtain ⟨w1, w2, -, -, -, w3⟩ := welzl_spec h0 hU rnd pts.length 0 pts [] (le_refl _) (by simp) (fun p hp => by simpa using hp) (by simp) (by
    rw [List.take_length]; exact exists_feas pts)
  rw [List.take_length] at w1 w3
  rw [circleOfPts_four flag rnd h]
  cases hw : (welzl t rnd pts.length 0 pts []).1 with
  | ok d =>
    have hb := w1 d hw
    have e : circleMake t true d.center d.radius = .ok d := by
      unfold circleMake; rw [if_neg (by simp), if_neg (not_lt.2 hb.1.1)]
    simp only [e]
    refine ⟨fun d' hd' => ?_, by simp, fun _ _ => ⟨d, rfl⟩⟩
    simp only [Res.ok.injEq] at hd'
    rw [← hd']; exact hb
  | throw =>
    refine ⟨by simp, by simp, fun ho hp => ?_⟩
    obtain ⟨d, hd⟩ := w3 ho (by simpa using hp)
    rw [hw] at hd; cases hd
  | ub => exact absurd hw w2

/-- Condition on the points from the conditions on pairs. -/
theorem trip_sound {t : Thr ℝ} (h1 : dblEps < t.nullDistance) (h2 : 0 < t.nullAngleValue) {pts : List (Pt ℝ)}
    (hg : ∀ p ∈ pts, ∀ q ∈ pts, GoodPair t p q) : Trip t false (fun p => p ∈ pts) := by
  intro a b c ha hb hc _ _ _ _
  rcases circle3_spec h1 h2 (hg a ha b hb) (hg a ha c hc) (hg b hb c hc) with ⟨-, h⟩ | ⟨-, -, d, h, h'⟩
  · rw [h]; simp
  · rw [h]
    refine ⟨fun d' hd' => ?_, by simp, by simp⟩
    simp only [Res.ok.injEq] at hd'; subst hd'; exact h'

theorem trip_total {t : Thr ℝ} (h1 : dblEps < t.nullDistance) (h2 : 0 < t.nullAngleValue) {pts : List (Pt ℝ)}
    (hg : ∀ p ∈ pts, ∀ q ∈ pts, GoodPair t p q)
    (h3 : ∀ a ∈ pts, ∀ b ∈ pts, ∀ c ∈ pts, turnAt a b c ≠ 0 → ¬ NearCollinear t a b c ∧ ¬ ThinAngle t a b c) : Trip t true (fun p => p ∈ pts) := by
  intro a b c ha hb hc _ _ _ ht
  obtain ⟨n1, n2⟩ := h3 a ha b hb c hc ht
  rcases circle3_spec h1 h2 (hg a ha b hb) (hg a ha c hc) (hg b hb c hc) with ⟨h, -⟩ | ⟨-, -, d, h, h'⟩
  · exact absurd h (by tauto)
  · rw [h]
    refine ⟨fun d' hd' => ?_, by simp, fun _ => ⟨d, rfl⟩⟩
    simp only [Res.ok.injEq] at hd'; subst hd'; exact h'

/-- The algorithm on copies of one point. -/
theorem welzl_replicate {t : Thr ℝ} (h0 : 0 < t.nullDistance) (p : Pt ℝ) (rnd : ℕ → ℕ) (m : ℕ) :
    (∀ k, 1 ≤ m → welzl t rnd 1 k (List.replicate m p) [p] = (.throw, List.replicate m p, k + 1)) ∧
    (∀ k, 1 ≤ m → welzl t rnd 1 k (List.replicate m p) [] = (.ok ⟨p, 0⟩, List.replicate m p, k + 1)) ∧
    (∀ n k, 2 ≤ n → n ≤ m → (welzl t rnd n k (List.replicate m p) []).1 = .throw) := by
  have step : ∀ n k R, R.length ≠ 3 → n < m → welzl t rnd (n + 1) k (List.replicate m p) R = (match welzl t rnd n (k + 1) (List.replicate m p) R with
        | (.ok d, P, k) => if PtInCircle p d then (.ok d, P, k) else welzl t rnd n k P (R ++ [p])
        | r => r) := by
    intro n k R hR hn
    have hidx : rnd k % (n + 1) < n + 1 := Nat.mod_lt _ (Nat.succ_pos _)
    rw [welzl, if_neg hR]
    simp only [List.getElem?_replicate, hn, if_true, (by omega : rnd k % (n + 1) < m), List.set_replicate_self]
    rfl
  have nin : ∀ q : Pt ℝ, ¬ PtInCircle p ⟨q, 0⟩ := by intro q h; simp only [PtInCircle, ptDist_eucl] at h; exact absurd h (not_lt.2 (eucl_nonneg _ _))
  have one : ∀ k, 1 ≤ m → welzl t rnd 1 k (List.replicate m p) [p] = (.throw, List.replicate m p, k + 1) := by
    intro k hm
    rw [step 0 k [p] (by simp) (by omega)]
    have e : welzl t rnd 0 (k + 1) (List.replicate m p) [p] = (.ok ⟨p, 0⟩, List.replicate m p, k + 1) := by simp [welzl, minTrivial, circleMake]
    simp only [e, if_neg (nin p)]
    have : circle2 t p p = .throw := by
      rcases circle2_spec (t := t) p p with ⟨_, h⟩ | ⟨h, _⟩
      · exact h
      · rw [eucl_self] at h; linarith
    simp [welzl, minTrivial, this]
  have one' : ∀ k, 1 ≤ m → welzl t rnd 1 k (List.replicate m p) [] = (.ok ⟨p, 0⟩, List.replicate m p, k + 1) := by
    intro k hm
    rw [step 0 k [] (by simp) (by omega)]
    have e : welzl t rnd 0 (k + 1) (List.replicate m p) [] = (.ok ⟨(0, 0), 0⟩, List.replicate m p, k + 1) := by simp [welzl, minTrivial, circleMake]
    simp only [e, if_neg (nin (0, 0))]
    simp [welzl, minTrivial, circleMake]
  refine ⟨one, one', ?_⟩
  intro n k hn
  induction n, hn using Nat.le_induction generalizing k with
  | base =>
    intro hm
    rw [step 1 k [] (by simp) (by omega), one' (k + 1) (by omega)]
    simp only [if_neg (nin p), List.nil_append]
    rw [one _ (by omega)]
  | succ n hn ih =>
    intro hm
    rw [step n k [] (by simp) (by omega)]
    have := ih (k + 1) (by omega)
    rcases hw : welzl t rnd n (k + 1) (List.replicate m p) [] with ⟨r, P, k'⟩
    rw [hw] at this
    simp only at this
    subst this
    rfl

end H2d
