import Verif.Spec.Circle
import Verif.Lemmas.Segment
import Mathlib.Data.List.Perm.Basic

/-!
# Smallest enclosing circle: the recursive algorithm
-/

set_option linter.unusedSectionVars false
set_option linter.unusedSimpArgs false

namespace H2d

open H2d.Spec

/-- The circle encloses the points of `S` and passes through those of `R`. -/
def Feas (c : Circle) (S R : List (Pt ℝ)) : Prop :=
  0 ≤ c.radius ∧ (∀ p ∈ S, eucl p c.center ≤ c.radius) ∧ ∀ p ∈ R, eucl p c.center = c.radius

/-- Smallest of these. -/
def Best (c : Circle) (S R : List (Pt ℝ)) : Prop := Feas c S R ∧ ∀ c', Feas c' S R → c.radius ≤ c'.radius

theorem Feas.perm {c : Circle} {S S' R : List (Pt ℝ)} (h : Feas c S R) (hp : S.Perm S') : Feas c S' R :=
  ⟨h.1, fun p hp' => h.2.1 p (hp.mem_iff.2 hp'), h.2.2⟩

theorem Best.perm {c : Circle} {S S' R : List (Pt ℝ)} (h : Best c S R) (hp : S.Perm S') : Best c S' R :=
  ⟨h.1.perm hp, fun c' h' => h.2 c' (h'.perm hp.symm)⟩

theorem eucl_le_iff' {p q : Pt ℝ} {r : ℝ} (hr : 0 ≤ r) : eucl p q ≤ r ↔ eucl p q ^ 2 ≤ r ^ 2 := by
  rw [sq_le_sq₀ (eucl_nonneg _ _) hr]

theorem eucl_eq_iff' {p q : Pt ℝ} {r : ℝ} (hr : 0 ≤ r) : eucl p q = r ↔ eucl p q ^ 2 = r ^ 2 :=
  (pow_left_inj₀ (eucl_nonneg _ _) hr two_ne_zero).symm

/-- Weighted mean of two points. -/
noncomputable def mix (w : ℝ) (a b : Pt ℝ) : Pt ℝ := ((1 - w) * a.1 + w * b.1, (1 - w) * a.2 + w * b.2)

theorem mix_sq (w : ℝ) (a b x : Pt ℝ) :
    eucl x (mix w a b) ^ 2 = (1 - w) * eucl x a ^ 2 + w * eucl x b ^ 2 - w * (1 - w) * eucl a b ^ 2 := by
  simp only [eucl_sq, mix]; ring

/-- If `p` is not inside the smallest circle for the other points, some circle not larger than a given one passes through `p`. -/
theorem feas_push {d c1 : Circle} {S R : List (Pt ℝ)} {p : Pt ℝ} (hd : Best d S R) (hp : d.radius ≤ eucl p d.center) (h1 : Feas c1 (p :: S) R) :
    ∃ c2, Feas c2 S (R ++ [p]) ∧ c2.radius ≤ c1.radius := by
  obtain ⟨⟨hd0, hdS, hdR⟩, hmin⟩ := hd
  obtain ⟨h10, h1S, h1R⟩ := h1
  have h1S' : ∀ q ∈ S, eucl q c1.center ≤ c1.radius := fun q hq => h1S q (List.mem_cons_of_mem _ hq)
  have h1p := h1S p List.mem_cons_self
  have hle : d.radius ≤ c1.radius := hmin c1 ⟨h10, h1S', h1R⟩
  rcases hp.eq_or_lt with he | hlt
  · refine ⟨d, ⟨hd0, hdS, fun q hq => ?_⟩, hle⟩
    rcases List.mem_append.1 hq with hq | hq
    · exact hdR q hq
    · rw [List.mem_singleton.1 hq]; exact he.symm
  · have fd : 0 < eucl p d.center ^ 2 - d.radius ^ 2 := by nlinarith
    have f1 : eucl p c1.center ^ 2 - c1.radius ^ 2 ≤ 0 := by have := (eucl_le_iff' h10).1 h1p; linarith
    set A := eucl p d.center ^ 2 - d.radius ^ 2 with hA
    set B := eucl p c1.center ^ 2 - c1.radius ^ 2 with hB
    have hAB : 0 < A - B := by linarith
    set w := A / (A - B) with hw
    have w0 : 0 ≤ w := by positivity
    have w1 : w ≤ 1 := by rw [hw, div_le_one hAB]; linarith
    have hz : (1 - w) * A + w * B = 0 := by rw [hw]; field_simp; ring
    set o := mix w d.center c1.center with ho
    have key : ∀ x, eucl x o ^ 2 - eucl p o ^ 2 = (1 - w) * (eucl x d.center ^ 2 - d.radius ^ 2) + w * (eucl x c1.center ^ 2 - c1.radius ^ 2) := by
      intro x
      rw [ho, mix_sq, mix_sq]
      linear_combination (-1) * hz
    have hr0 := eucl_nonneg p o
    refine ⟨⟨o, eucl p o⟩, ⟨hr0, fun x hx => ?_, fun x hx => ?_⟩, ?_⟩
    · show eucl x o ≤ eucl p o
      rw [eucl_le_iff' hr0]
      have k := key x
      have a1 := (eucl_le_iff' hd0).1 (hdS x hx)
      have a2 := (eucl_le_iff' h10).1 (h1S' x hx)
      nlinarith
    · show eucl x o = eucl p o
      rcases List.mem_append.1 hx with hx | hx
      · rw [eucl_eq_iff' hr0]
        have k := key x
        rw [hdR x hx, h1R x hx] at k
        linarith
      · rw [List.mem_singleton.1 hx]
    · show eucl p o ≤ c1.radius
      rw [eucl_le_iff' h10]
      have k : eucl p o ^ 2 = (1 - w) * d.radius ^ 2 + w * c1.radius ^ 2 - w * (1 - w) * eucl d.center c1.center ^ 2 := by
        rw [ho, mix_sq]; linear_combination hz
      have m1 : 0 ≤ w * (1 - w) * eucl d.center c1.center ^ 2 := by
        have : 0 ≤ 1 - w := by linarith
        positivity
      have m2 : d.radius ^ 2 ≤ c1.radius ^ 2 := by nlinarith
      nlinarith

/-- The smallest circle is unique. -/
theorem best_unique {c c' : Circle} {S R : List (Pt ℝ)} (hS : S ≠ []) (h : Best c S R) (h' : Best c' S R) : c = c' := by
  have hr : c.radius = c'.radius := le_antisymm (h.2 _ h'.1) (h'.2 _ h.1)
  obtain ⟨⟨h0, hs, hR⟩, hm⟩ := h
  obtain ⟨⟨h0', hs', hR'⟩, hm'⟩ := h'
  set o := mix (1 / 2) c.center c'.center with ho
  have key : ∀ x, eucl x o ^ 2 = (eucl x c.center ^ 2 + eucl x c'.center ^ 2) / 2 - eucl c.center c'.center ^ 2 / 4 := by
    intro x; rw [ho, mix_sq]; ring
  have hle : ∀ x ∈ S, eucl x o ^ 2 ≤ c.radius ^ 2 - eucl c.center c'.center ^ 2 / 4 := by
    intro x hx
    have a1 := (eucl_le_iff' h0).1 (hs x hx)
    have a2 := (eucl_le_iff' h0').1 (hs' x hx)
    rw [key x]; rw [← hr] at a2; linarith
  obtain ⟨x, hx⟩ := List.exists_mem_of_ne_nil S hS
  have hnn : 0 ≤ c.radius ^ 2 - eucl c.center c'.center ^ 2 / 4 := le_trans (sq_nonneg _) (hle x hx)
  have hf : Feas ⟨o, Real.sqrt (c.radius ^ 2 - eucl c.center c'.center ^ 2 / 4)⟩ S R := by
    refine ⟨Real.sqrt_nonneg _, fun q hq => ?_, fun q hq => ?_⟩
    · simp only; rw [eucl_le_iff' (Real.sqrt_nonneg _), Real.sq_sqrt hnn]; exact hle q hq
    · simp only; rw [eucl_eq_iff' (Real.sqrt_nonneg _), Real.sq_sqrt hnn, key, hR q hq, hR' q hq, hr]; ring
  have h1 := hm _ hf
  simp only at h1
  have h2 : c.radius ^ 2 ≤ c.radius ^ 2 - eucl c.center c'.center ^ 2 / 4 := by
    rw [← Real.sq_sqrt hnn]; exact pow_le_pow_left₀ h0 h1 2
  have h3 : eucl c.center c'.center = 0 := by
    have := sq_nonneg (eucl c.center c'.center)
    exact pow_eq_zero_iff two_ne_zero |>.1 (by linarith)
  have h4 := eucl_eq_zero.1 h3
  cases c; cases c'; simp_all

/-- Three distinct points of a circle are not collinear. -/
theorem turn_ne_zero {a b c o : Pt ℝ} {r : ℝ} (ha : eucl a o = r) (hb : eucl b o = r) (hc : eucl c o = r) (h1 : a ≠ b) (h2 : b ≠ c) (h3 : a ≠ c) :
    turnAt a b c ≠ 0 := by
  intro h
  have sa : (a.1 - o.1) ^ 2 + (a.2 - o.2) ^ 2 = r ^ 2 := by rw [← ha, eucl_sq]
  have sb : (b.1 - o.1) ^ 2 + (b.2 - o.2) ^ 2 = r ^ 2 := by rw [← hb, eucl_sq]
  have sc : (c.1 - o.1) ^ 2 + (c.2 - o.2) ^ 2 = r ^ 2 := by rw [← hc, eucl_sq]
  have hD : (b.1 - a.1) ^ 2 + (b.2 - a.2) ^ 2 ≠ 0 := by
    intro h'
    have := sq_nonneg (b.1 - a.1); have := sq_nonneg (b.2 - a.2)
    have x1 : b.1 - a.1 = 0 := pow_eq_zero_iff two_ne_zero |>.1 (by linarith)
    have x2 : b.2 - a.2 = 0 := pow_eq_zero_iff two_ne_zero |>.1 (by linarith)
    exact h1 (Prod.ext (by linarith) (by linarith))
  set D := (b.1 - a.1) ^ 2 + (b.2 - a.2) ^ 2 with hDd
  set k := ((c.1 - a.1) * (b.1 - a.1) + (c.2 - a.2) * (b.2 - a.2)) / D with hk
  have hkD : k * D = (c.1 - a.1) * (b.1 - a.1) + (c.2 - a.2) * (b.2 - a.2) := by rw [hk]; field_simp
  unfold turnAt at h
  have c1 : c.1 - a.1 = k * (b.1 - a.1) := by
    apply mul_right_cancel₀ hD
    linear_combination (b.1 - a.1) * (-hkD) + (c.1 - a.1) * hDd + (-(b.2 - a.2)) * h
  have c2 : c.2 - a.2 = k * (b.2 - a.2) := by
    apply mul_right_cancel₀ hD
    linear_combination (b.2 - a.2) * (-hkD) + (c.2 - a.2) * hDd + ((b.1 - a.1)) * h
  have e : k * (k - 1) * D = 0 := by
    have x1 : c.1 = a.1 + k * (b.1 - a.1) := by linarith
    have x2 : c.2 = a.2 + k * (b.2 - a.2) := by linarith
    rw [x1, x2] at sc
    rw [hDd]
    linear_combination sc - k * sb - (1 - k) * sa
  rcases mul_eq_zero.1 ((mul_eq_zero.1 e).resolve_right hD) with hk0 | hk1
  · exact h3 (Prod.ext (by rw [hk0] at c1; linarith) (by rw [hk0] at c2; linarith))
  · have hk1 : k = 1 := by linarith
    exact h2 (Prod.ext (by rw [hk1] at c1; linarith) (by rw [hk1] at c2; linarith))

/-- One circle at most goes through three points that are not collinear. -/
theorem circum_unique {a b c o o' : Pt ℝ} {r r' : ℝ} (ht : turnAt a b c ≠ 0) (ha : eucl a o = r) (hb : eucl b o = r) (hc : eucl c o = r)
    (ha' : eucl a o' = r') (hb' : eucl b o' = r') (hc' : eucl c o' = r') : o = o' ∧ r = r' := by
  have sa : (a.1 - o.1) ^ 2 + (a.2 - o.2) ^ 2 = r ^ 2 := by rw [← ha, eucl_sq]
  have sb : (b.1 - o.1) ^ 2 + (b.2 - o.2) ^ 2 = r ^ 2 := by rw [← hb, eucl_sq]
  have sc : (c.1 - o.1) ^ 2 + (c.2 - o.2) ^ 2 = r ^ 2 := by rw [← hc, eucl_sq]
  have ta : (a.1 - o'.1) ^ 2 + (a.2 - o'.2) ^ 2 = r' ^ 2 := by rw [← ha', eucl_sq]
  have tb : (b.1 - o'.1) ^ 2 + (b.2 - o'.2) ^ 2 = r' ^ 2 := by rw [← hb', eucl_sq]
  have tc : (c.1 - o'.1) ^ 2 + (c.2 - o'.2) ^ 2 = r' ^ 2 := by rw [← hc', eucl_sq]
  have e1 : (o.1 - o'.1) * (b.1 - a.1) + (o.2 - o'.2) * (b.2 - a.2) = 0 := by linarith
  have e2 : (o.1 - o'.1) * (c.1 - b.1) + (o.2 - o'.2) * (c.2 - b.2) = 0 := by linarith
  unfold turnAt at ht
  have x1 : o.1 - o'.1 = 0 := by
    apply (mul_eq_zero.1 (?_ : (o.1 - o'.1) * ((b.1 - a.1) * (c.2 - b.2) - (b.2 - a.2) * (c.1 - b.1)) = 0)).resolve_right ht
    linear_combination (c.2 - b.2) * e1 - (b.2 - a.2) * e2
  have x2 : o.2 - o'.2 = 0 := by
    apply (mul_eq_zero.1 (?_ : (o.2 - o'.2) * ((b.1 - a.1) * (c.2 - b.2) - (b.2 - a.2) * (c.1 - b.1)) = 0)).resolve_right ht
    linear_combination (b.1 - a.1) * e2 - (c.1 - b.1) * e1
  have : o = o' := Prod.ext (by linarith) (by linarith)
  subst this
  exact ⟨rfl, ha.symm.trans ha'⟩

/-- Circle from two points. -/
theorem circle2_spec {t : Thr ℝ} (p q : Pt ℝ) :
    (eucl p q < t.nullDistance ∧ circle2 t p q = .throw) ∨
    (t.nullDistance ≤ eucl p q ∧ circle2 t p q = .ok ⟨((p.1 + q.1) / 2, (p.2 + q.2) / 2), eucl p q / 2⟩) := by
  unfold circle2
  simp only [PtEq, ptDist_eucl]
  by_cases h : eucl p q < t.nullDistance
  · left; exact ⟨h, by rw [if_pos h]⟩
  · right
    refine ⟨not_lt.1 h, ?_⟩
    rw [if_neg h]
    unfold segMake
    simp only [PtEq, ptDist_eucl, if_neg h, Res.bind_ok, Res.pure_eq, Bool.false_eq_true, if_false]
    unfold fixOrder
    split_ifs
    · simp only [segCenter, segLength, ptDist_eucl, eucl_comm q p, add_comm q.1, add_comm q.2]
    · simp only [segCenter, segLength, ptDist_eucl]

theorem eucl_mid (p q : Pt ℝ) : eucl p ((p.1 + q.1) / 2, (p.2 + q.2) / 2) = eucl p q / 2 ∧ eucl q ((p.1 + q.1) / 2, (p.2 + q.2) / 2) = eucl p q / 2 := by
  have h := eucl_nonneg p q
  constructor <;>
  · rw [eucl_eq_iff' (by linarith), div_pow, eucl_sq, eucl_sq]; simp only; ring

/-- What is required of the points: every three of them that can be joined by a circle give it (`ok`: and give one). -/
def Trip (t : Thr ℝ) (ok : Bool) (U : Pt ℝ → Prop) : Prop :=
  ∀ a b c, U a → U b → U c → t.nullDistance ≤ eucl a b → t.nullDistance ≤ eucl b c → t.nullDistance ≤ eucl a c → turnAt a b c ≠ 0 →
    (∀ d, circle3 t a b c = .ok d → eucl a d.center = d.radius ∧ eucl b d.center = d.radius ∧ eucl c d.center = d.radius) ∧
    circle3 t a b c ≠ .ub ∧ (ok = true → ∃ d, circle3 t a b c = .ok d)

/-- Base case of the algorithm. -/
theorem minTrivial_spec {t : Thr ℝ} (h0 : 0 < t.nullDistance) {ok : Bool} {U : Pt ℝ → Prop} (hU : Trip t ok U) {S R : List (Pt ℝ)} (hR : R.length ≤ 3)
    (hS : R.length < 3 → S = []) (hRU : ∀ p ∈ R, U p) (hf : ∃ c, Feas c S R) :
    (∀ d, minTrivial t R = .ok d → Best d S R) ∧ minTrivial t R ≠ .ub ∧
      (ok = true → R.Pairwise (fun a b => t.nullDistance ≤ eucl a b) → ∃ d, minTrivial t R = .ok d) := by
  match R, hR, hS, hRU, hf with
  | [], _, hS, _, _ =>
    have : S = [] := hS (by simp)
    subst this
    have e : minTrivial t [] = .ok ⟨(0, 0), 0⟩ := by simp [minTrivial, circleMake]
    rw [e]
    refine ⟨fun d hd => ?_, by simp, fun _ _ => ⟨_, rfl⟩⟩
    simp only [Res.ok.injEq] at hd
    subst hd
    exact ⟨⟨le_refl _, by simp, by simp⟩, fun c' h' => h'.1⟩
  | [a], _, hS, _, _ =>
    have : S = [] := hS (by simp)
    subst this
    have e : minTrivial t [a] = .ok ⟨a, 0⟩ := by simp [minTrivial, circleMake]
    rw [e]
    refine ⟨fun d hd => ?_, by simp, fun _ _ => ⟨_, rfl⟩⟩
    simp only [Res.ok.injEq] at hd
    subst hd
    exact ⟨⟨le_refl _, by simp, by simp [eucl_self]⟩, fun c' h' => h'.1⟩
  | [a, b], _, hS, _, _ =>
    have : S = [] := hS (by simp)
    subst this
    have e : minTrivial t [a, b] = circle2 t a b := rfl
    rw [e]
    rcases circle2_spec (t := t) a b with ⟨h, e⟩ | ⟨h, e⟩
    · rw [e]
      refine ⟨by simp, by simp, fun _ hp => ?_⟩
      simp only [List.pairwise_cons, List.mem_singleton, forall_eq] at hp
      exact absurd hp.1 (not_le.2 h)
    · rw [e]
      refine ⟨fun d hd => ?_, by simp, fun _ _ => ⟨_, rfl⟩⟩
      simp only [Res.ok.injEq] at hd
      subst hd
      obtain ⟨m1, m2⟩ := eucl_mid a b
      refine ⟨⟨by have := eucl_nonneg a b; simp only; linarith, by simp, ?_⟩, fun c' h' => ?_⟩
      · intro p hp
        rcases List.mem_cons.1 hp with rfl | hp
        · exact m1
        · rw [List.mem_singleton.1 hp]; exact m2
      · have h1 := h'.2.2 a (by simp)
        have h2 := h'.2.2 b (by simp)
        have := eucl_triangle a c'.center b
        rw [eucl_comm c'.center b] at this
        simp only; linarith
  | [a, b, c], _, hS, hRU, hf =>
    obtain ⟨c', hc'⟩ := hf
    have g1 := hc'.2.2 a (by simp)
    have g2 := hc'.2.2 b (by simp)
    have g3 := hc'.2.2 c (by simp)
    have nv : ∀ p q : Pt ℝ, p ∈ [a, b, c] → ¬ ValidCircle ⟨((p.1 + q.1) / 2, (p.2 + q.2) / 2), eucl p q / 2⟩ [a, b, c] := by
      intro p q hp hv
      have := hv p hp
      simp only [PtInCircle, ptDist_eucl, (eucl_mid p q).1] at this
      exact lt_irrefl _ this
    simp only [minTrivial]
    rcases circle2_spec (t := t) a b with ⟨h1, e1⟩ | ⟨h1, e1⟩
    · rw [e1]
      refine ⟨by simp, by simp, fun _ hp => ?_⟩
      simp only [List.pairwise_cons, List.mem_cons, List.mem_singleton, List.not_mem_nil, or_false, forall_eq_or_imp, forall_eq] at hp
      exact absurd hp.1.1 (not_le.2 h1)
    rw [e1, Res.bind_ok, if_neg (nv a b (by simp))]
    rcases circle2_spec (t := t) a c with ⟨h2, e2⟩ | ⟨h2, e2⟩
    · rw [e2]
      refine ⟨by simp, by simp, fun _ hp => ?_⟩
      simp only [List.pairwise_cons, List.mem_cons, List.mem_singleton, List.not_mem_nil, or_false, forall_eq_or_imp, forall_eq] at hp
      exact absurd hp.1.2 (not_le.2 h2)
    rw [e2, Res.bind_ok, if_neg (nv a c (by simp))]
    rcases circle2_spec (t := t) b c with ⟨h3, e3⟩ | ⟨h3, e3⟩
    · rw [e3]
      refine ⟨by simp, by simp, fun _ hp => ?_⟩
      simp only [List.pairwise_cons, List.mem_cons, List.mem_singleton, List.not_mem_nil, or_false, forall_eq_or_imp, forall_eq] at hp
      exact absurd hp.2.1 (not_le.2 h3)
    rw [e3, Res.bind_ok, if_neg (nv b c (by simp))]
    have ne : ∀ p q : Pt ℝ, t.nullDistance ≤ eucl p q → p ≠ q := by rintro p q h rfl; rw [eucl_self] at h; linarith
    have tn := turn_ne_zero g1 g2 g3 (ne _ _ h1) (ne _ _ h3) (ne _ _ h2)
    obtain ⟨u1, u2, u3⟩ := hU a b c (hRU a (by simp)) (hRU b (by simp)) (hRU c (by simp)) h1 h3 h2 tn
    refine ⟨fun d hd => ?_, u2, fun ho _ => u3 ho⟩
    obtain ⟨v1, v2, v3⟩ := u1 d hd
    have huniq : ∀ c'', Feas c'' S [a, b, c] → d = c'' := by
      intro c'' h''
      obtain ⟨w1, w2⟩ := circum_unique tn v1 v2 v3 (h''.2.2 a (by simp)) (h''.2.2 b (by simp)) (h''.2.2 c (by simp))
      cases d; cases c''; simp_all
    have := huniq c' hc'
    subst this
    exact ⟨hc', fun c'' h'' => by rw [← huniq c'' h'']⟩
  | a :: b :: c :: d :: R, hR, _, _, _ => simp at hR; omega

/-- Swapping two elements. -/
theorem swap_take {P : List (Pt ℝ)} {n i : ℕ} {p q : Pt ℝ} (hi : i ≤ n) (hp : P[i]? = some p) (hq : P[n]? = some q) :
    (P.take (n + 1)).Perm (p :: ((P.set i q).set n p).take n) ∧ ((P.set i q).set n p).length = P.length ∧
      ((P.set i q).set n p).drop (n + 1) = P.drop (n + 1) ∧ (((P.set i q).set n p).take (n + 1)).Perm (P.take (n + 1)) := by
  obtain ⟨hi', hp'⟩ := List.getElem?_eq_some_iff.1 hp
  obtain ⟨hn', hq'⟩ := List.getElem?_eq_some_iff.1 hq
  have main : (P.take (n + 1)).Perm (((P.set i q).set n p).take (n + 1)) := by
    set Q := P.take (n + 1) with hQ
    have hl : Q.length = n + 1 := by simp [hQ]; omega
    have hQi : i < Q.length := by omega
    have hQn : n < Q.length := by omega
    have h := List.set_set_perm (as := Q) (i := i) (j := n) hQi hQn
    have e1 : Q[i] = p := by simp [hQ, hp']
    have e2 : Q[n] = q := by simp [hQ, hq']
    rw [e1, e2] at h
    refine h.symm.trans ?_
    have e3 : (Q.set i q).set n p = ((P.set i q).set n p).take (n + 1) := by rw [hQ, ← List.take_set, ← List.take_set]
    rw [e3]
  refine ⟨main.trans ?_, by simp, ?_, main.symm⟩
  · rw [List.take_add_one]
    have e4 : ((P.set i q).set n p)[n]? = some p := by simp [List.getElem?_set, hn']
    rw [e4]
    simp
  · rw [List.drop_set_of_lt (by omega), List.drop_set_of_lt (by omega)]

theorem take_succ_perm {Q P1 P : List (Pt ℝ)} {n : ℕ} (h1 : (Q.take n).Perm (P1.take n)) (h2 : Q.drop n = P1.drop n)
    (h3 : (P1.take (n + 1)).Perm (P.take (n + 1))) (h4 : P1.drop (n + 1) = P.drop (n + 1)) :
    (Q.take (n + 1)).Perm (P.take (n + 1)) ∧ Q.drop (n + 1) = P.drop (n + 1) := by
  constructor
  · refine List.Perm.trans ?_ h3
    rw [List.take_add, List.take_add, h2]
    exact h1.append_right _
  · rw [← h4, ← List.drop_drop, ← List.drop_drop, h2]

/-- The algorithm. -/
theorem welzl_spec {t : Thr ℝ} (h0 : 0 < t.nullDistance) {ok : Bool} {U : Pt ℝ → Prop} (hU : Trip t ok U) (rnd : ℕ → ℕ) :
    ∀ (n k : ℕ) (P R : List (Pt ℝ)), n ≤ P.length → R.length ≤ 3 → (∀ p ∈ P.take n, U p) → (∀ p ∈ R, U p) → (∃ c, Feas c (P.take n) R) →
      (∀ d, (welzl t rnd n k P R).1 = .ok d → Best d (P.take n) R) ∧ (welzl t rnd n k P R).1 ≠ .ub ∧
      ((welzl t rnd n k P R).2.1.take n).Perm (P.take n) ∧ (welzl t rnd n k P R).2.1.drop n = P.drop n ∧
      (welzl t rnd n k P R).2.1.length = P.length ∧
      (ok = true → (P.take n ++ R).Pairwise (fun a b => t.nullDistance ≤ eucl a b) → ∃ d, (welzl t rnd n k P R).1 = .ok d) := by
  intro n
  induction n with
  | zero =>
    intro k P R _ hR _ hRU hf
    obtain ⟨b1, b2, b3⟩ := minTrivial_spec h0 hU hR (S := P.take 0) (fun _ => by simp) hRU hf
    refine ⟨fun d hd => b1 d hd, b2, by simp [welzl], by simp [welzl], by simp [welzl], fun ho hp => b3 ho ?_⟩
    simpa using hp
  | succ n ih =>
    intro k P R hn hR hPU hRU hf
    by_cases h3 : R.length = 3
    · obtain ⟨b1, b2, b3⟩ := minTrivial_spec h0 hU hR (S := P.take (n + 1)) (fun h => by omega) hRU hf
      have e : welzl t rnd (n + 1) k P R = (minTrivial t R, P, k) := by simp [welzl, h3]
      rw [e]
      exact ⟨b1, b2, List.Perm.refl _, rfl, rfl, fun ho hp => b3 ho (List.pairwise_append.1 hp).2.1⟩
    · have hidx : rnd k % (n + 1) < n + 1 := Nat.mod_lt _ (Nat.succ_pos _)
      obtain ⟨p, hp⟩ : ∃ p, P[rnd k % (n + 1)]? = some p := ⟨_, List.getElem?_eq_getElem (by omega)⟩
      obtain ⟨q, hq⟩ : ∃ q, P[n]? = some q := ⟨_, List.getElem?_eq_getElem (by omega)⟩
      obtain ⟨s1, s2, s3, s4⟩ := swap_take (by omega) hp hq
      set P1 := (P.set (rnd k % (n + 1)) q).set n p with hP1
      have hUp : U p := hPU p (s1.mem_iff.2 List.mem_cons_self)
      have hU1 : ∀ x ∈ P1.take n, U x := fun x hx => hPU x (s1.mem_iff.2 (List.mem_cons_of_mem _ hx))
      obtain ⟨c1, hc1⟩ := hf
      have hc1' := hc1.perm s1
      have hf1 : ∃ c, Feas c (P1.take n) R := ⟨c1, hc1'.1, fun x hx => hc1'.2.1 x (List.mem_cons_of_mem _ hx), hc1'.2.2⟩
      obtain ⟨i1, i2, i3, i6, i4, i5⟩ := ih (k + 1) P1 R (by omega) hR hU1 hRU hf1
      have unf : welzl t rnd (n + 1) k P R = (match welzl t rnd n (k + 1) P1 R with
        | (.ok d, P, k) => if PtInCircle p d then (.ok d, P, k) else welzl t rnd n k P (R ++ [p])
        | r => r) := by
        rw [welzl, if_neg h3]; simp only [hp, hq, ← hP1]; rfl
      rw [unf]
      rcases hw : welzl t rnd n (k + 1) P1 R with ⟨r1, P2, k2⟩
      rw [hw] at i1 i2 i3 i4 i5 i6
      simp only at i1 i2 i3 i4 i5 i6
      have l1 : P1.length = P.length := s2
      have hpw1 : (P.take (n + 1) ++ R).Pairwise (fun a b => t.nullDistance ≤ eucl a b) → (P1.take n ++ (R ++ [p])).Pairwise (fun a b => t.nullDistance ≤ eucl a b) := by
        intro h
        have hsym : ∀ {x y : Pt ℝ}, t.nullDistance ≤ eucl x y → t.nullDistance ≤ eucl y x := fun {x y} h => by rw [eucl_comm]; exact h
        refine (List.Perm.pairwise_iff hsym ?_).1 h
        refine (s1.append_right R).trans ?_
        rw [← List.append_assoc]
        simpa using (List.perm_append_singleton p (P1.take n ++ R)).symm
      cases r1 with
      | ub => exact absurd rfl i2
      | throw =>
        obtain ⟨k1, k2⟩ := take_succ_perm i3 i6 s4 s3
        refine ⟨by simp, by simp, k1, k2, ?_, ?_⟩
        · simp only; omega
        · intro ho hpw
          have := (List.pairwise_append.1 (by simpa [List.append_assoc] using hpw1 hpw : ((P1.take n ++ R) ++ [p]).Pairwise _)).1
          obtain ⟨d, hd⟩ := i5 ho this
          cases hd
      | ok d =>
        have hb := i1 d rfl
        simp only
        by_cases hin : PtInCircle p d
        · rw [if_pos hin]
          simp only [PtInCircle, ptDist_eucl] at hin
          obtain ⟨k1, k2⟩ := take_succ_perm i3 i6 s4 s3
          refine ⟨fun d' hd' => ?_, by simp, k1, k2, ?_, fun _ _ => ⟨_, rfl⟩⟩
          · simp only [Res.ok.injEq] at hd'
            subst hd'
            refine Best.perm ⟨⟨hb.1.1, fun x hx => ?_, hb.1.2.2⟩, fun c' h' => hb.2 c' ⟨h'.1, fun x hx => h'.2.1 x (List.mem_cons_of_mem _ hx), h'.2.2⟩⟩ s1.symm
            rcases List.mem_cons.1 hx with rfl | hx
            · exact hin.le
            · exact hb.1.2.1 x hx
          · simp only; omega
        · rw [if_neg hin]
          simp only [PtInCircle, ptDist_eucl] at hin
          have hin := not_lt.1 hin
          obtain ⟨c2, hc2, -⟩ := feas_push hb hin hc1'
          have hmem2 : ∀ x, x ∈ P2.take n ↔ x ∈ P1.take n := fun x => i3.mem_iff
          have hU2 : ∀ x ∈ P2.take n, U x := fun x hx => hU1 x ((hmem2 x).1 hx)
          have hRU2 : ∀ x ∈ R ++ [p], U x := by
            intro x hx
            rcases List.mem_append.1 hx with hx | hx
            · exact hRU x hx
            · rw [List.mem_singleton.1 hx]; exact hUp
          obtain ⟨j1, j2, j3, j6, j4, j5⟩ := ih k2 P2 (R ++ [p]) (by omega) (by simp; omega) hU2 hRU2 ⟨c2, hc2.perm i3.symm⟩
          obtain ⟨k1, k2'⟩ := take_succ_perm (j3.trans i3) (j6.trans i6) s4 s3
          refine ⟨fun e he => ?_, j2, k1, k2', by omega, fun ho hpw => j5 ho ?_⟩
          · have hbe := (j1 e he).perm i3
            refine Best.perm ⟨⟨hbe.1.1, fun x hx => ?_, fun x hx => hbe.1.2.2 x (List.mem_append_left _ hx)⟩, fun c' h' => ?_⟩ s1.symm
            · rcases List.mem_cons.1 hx with rfl | hx
              · exact (hbe.1.2.2 x (by simp)).le
              · exact hbe.1.2.1 x hx
            · obtain ⟨c3, hc3, hle⟩ := feas_push hb hin h'
              exact (hbe.2 c3 hc3).trans hle
          · have := hpw1 hpw
            have hsym : ∀ {x y : Pt ℝ}, t.nullDistance ≤ eucl x y → t.nullDistance ≤ eucl y x := fun {x y} h => by rw [eucl_comm]; exact h
            exact (List.Perm.pairwise_iff hsym (i3.symm.append_right _)).1 this

end H2d
