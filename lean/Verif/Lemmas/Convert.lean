import Verif.Model.Convert
import Verif.Lemmas.FloatPipLast

/-! # Lemmas on conversions between number types -/

namespace H2d.Conv
open H2d.Spec H2d.Fl H2d.Pip

variable {F G : Arith} {u v : ℝ}

/-- A number with `p` bits is an integer with at most `p` bits times a power of 2. -/
theorem rep_form {p : ℕ} (hp : 1 ≤ p) {x : ℝ} (h : Rep (binary p) x) : ∃ m k : ℤ, |m| ≤ 2 ^ p ∧ x = m * (2 : ℝ) ^ k := by
  have key : ∀ y : ℝ, 0 < y → ∃ m k : ℤ, |m| ≤ 2 ^ p ∧ roundPos p y = m * (2 : ℝ) ^ k := by
    intro y hy
    have h := roundPos_pos hp hy
    have hb := (roundPos_bounds hp hy).2
    unfold roundPos at h hb
    have hm : 0 < nearestEven (y * (2 : ℝ) ^ ((p : ℤ) - 1 - Int.log 2 y)) := by
      have := pos_of_mul_pos_left h (two_zpow_pos _).le
      exact_mod_cast this
    have hm2 : nearestEven (y * (2 : ℝ) ^ ((p : ℤ) - 1 - Int.log 2 y)) ≤ 2 ^ p := by
      have e : (2 : ℝ) ^ (Int.log 2 y + 1) = (2 : ℝ) ^ p * (2 : ℝ) ^ (Int.log 2 y - ((p : ℤ) - 1)) := by
        rw [← zpow_natCast, ← zpow_add₀ (by norm_num)]; congr 1; ring
      rw [e] at hb
      have := le_of_mul_le_mul_right hb (two_zpow_pos _)
      exact_mod_cast this
    exact ⟨_, _, by rwa [abs_of_pos hm], rfl⟩
  have h' : roundTo p x = x := h
  rcases lt_trichotomy x 0 with hx | rfl | hx
  · obtain ⟨m, k, hm, e⟩ := key (-x) (by linarith)
    refine ⟨-m, k, by rwa [abs_neg], ?_⟩
    rw [← h', ← neg_neg x, roundTo_neg, roundTo_pos (by linarith), e]; push_cast; ring
  · exact ⟨0, 0, by simp, by simp⟩
  · obtain ⟨m, k, hm, e⟩ := key x hx
    exact ⟨m, k, hm, by rw [← e, ← roundTo_pos hx, h']⟩

/-- A number with `p` bits has `q` bits. -/
theorem rep_wider {p q : ℕ} (hp : 1 ≤ p) (hpq : p ≤ q) {x : ℝ} (h : Rep (binary p) x) : Rep (binary q) x := by
  obtain ⟨m, k, hm, rfl⟩ := rep_form hp h
  exact roundTo_exact (by omega) (hm.trans (pow_le_pow_right₀ (by norm_num) hpq))

theorem pt_rep {p : Pt ℝ} (h : Rep F p.1 ∧ Rep F p.2) : pt F p = p := Prod.ext h.1 h.2

theorem pt_close (h : FlOk F u v) (p : Pt ℝ) : eucl (pt F p) p ≤ u * eucl p (0, 0) := by
  have a := h.err p.1
  have b := h.err p.2
  have hu := h.u_nonneg
  rw [← Real.sqrt_sq hu]
  unfold eucl pt
  rw [← Real.sqrt_mul (by positivity)]
  apply Real.sqrt_le_sqrt
  simp only [sub_zero]
  have a' := pow_le_pow_left₀ (abs_nonneg _) a 2
  have b' := pow_le_pow_left₀ (abs_nonneg _) b 2
  rw [sq_abs, mul_pow, sq_abs] at a' b'
  linarith

theorem dist_close (h : FlOk F u v) (p q : Pt ℝ) : |eucl (pt F p) (pt F q) - eucl p q| ≤ u * (eucl p (0, 0) + eucl q (0, 0)) := by
  have a := pt_close h p
  have b := pt_close h q
  have c1 := eucl_triangle (pt F p) p (pt F q)
  have c2 := eucl_triangle p q (pt F q)
  have c3 := eucl_triangle p (pt F p) q
  have c4 := eucl_triangle (pt F p) (pt F q) q
  rw [eucl_comm p (pt F p)] at c3
  rw [eucl_comm q (pt F q)] at c2
  rw [abs_le]
  constructor <;> linarith

theorem cycPairs_map {P Q : Type} (f : P → Q) (l : List P) : cycPairs (l.map f) = (cycPairs l).map (fun e => (f e.1, f e.2)) := by
  unfold cycPairs
  rw [← List.map_tail, ← List.map_take, ← List.map_append, List.zip_map]
  rfl

theorem openPairs_map {P Q : Type} (f : P → Q) (l : List P) : openPairs (l.map f) = (openPairs l).map (fun e => (f e.1, f e.2)) := by
  unfold openPairs
  rw [← List.map_tail, List.zip_map]
  rfl

theorem segPairs_map {P Q : Type} (f : P → Q) (closed : Bool) (l : List P) : segPairs closed (l.map f) = (segPairs closed l).map (fun e => (f e.1, f e.2)) := by
  unfold segPairs
  rw [List.length_map, cycPairs_map, openPairs_map]
  split_ifs <;> simp

theorem sum_close {α : Type} (l : List α) (f g e : α → ℝ) (h : ∀ x ∈ l, |f x - g x| ≤ e x) : |(l.map f).sum - (l.map g).sum| ≤ (l.map e).sum := by
  induction l with
  | nil => simp
  | cons a l ih =>
    simp only [List.map_cons, List.sum_cons]
    have h1 := h a (by simp)
    have h2 := ih fun x hx => h x (by simp [hx])
    have := abs_add_le (f a - g a) ((l.map f).sum - (l.map g).sum)
    rw [show f a + (l.map f).sum - (g a + (l.map g).sum) = (f a - g a) + ((l.map f).sum - (l.map g).sum) by ring]
    linarith

theorem mul_close (h : FlOk F u v) (x y : ℝ) : |F.rnd x * F.rnd y - x * y| ≤ (2 * u + u ^ 2) * |x * y| := by
  have a := h.err x
  have b := h.err y
  have hu := h.u_nonneg
  rw [abs_mul, show F.rnd x * F.rnd y - x * y = (F.rnd x - x) * (F.rnd y - y) + (F.rnd x - x) * y + x * (F.rnd y - y) by ring]
  have h1 := abs_add_le ((F.rnd x - x) * (F.rnd y - y) + (F.rnd x - x) * y) (x * (F.rnd y - y))
  have h2 := abs_add_le ((F.rnd x - x) * (F.rnd y - y)) ((F.rnd x - x) * y)
  rw [abs_mul, abs_mul] at h2
  rw [abs_mul x] at h1
  have p1 := mul_le_mul a b (abs_nonneg _) (by positivity)
  have p2 := mul_le_mul_of_nonneg_right a (abs_nonneg y)
  have p3 := mul_le_mul_of_nonneg_left b (abs_nonneg x)
  nlinarith

theorem rnd_lt (h : FlOk F u v) {x y : ℝ} (hxy : F.rnd x < F.rnd y) : x < y := by
  by_contra k
  exact absurd (h.mono (not_lt.1 k)) (not_le.2 hxy)

theorem rnd_pos' (h : FlOk F u v) {x : ℝ} (hx : 0 < x) : 0 < F.rnd x := by
  have a := h.err x
  have b := h.u_small
  rw [abs_of_pos hx, abs_le] at a
  nlinarith

/-- For `p` bits, `2^p + 1/2` rounds to `2^p`, and it has `p + 2` bits. -/
theorem narrow_half {p q : ℕ} (hp : 1 ≤ p) (hq : p + 2 ≤ q) : (binary p).rnd ((2 : ℝ) ^ p + 1 / 2) = (2 : ℝ) ^ p ∧ Rep (binary q) ((2 : ℝ) ^ p + 1 / 2) ∧ Rep (binary p) ((2 : ℝ) ^ p) := by
  obtain ⟨r, rfl⟩ : ∃ r, p = r + 1 := ⟨p - 1, by omega⟩
  have hN : (1 : ℝ) ≤ 2 ^ r := one_le_pow₀ (by norm_num)
  refine ⟨?_, ?_, ?_⟩
  · have := roundTo_of (p := r + 1) (by omega) (x := (2 : ℝ) ^ (r + 1) + 1 / 2) (m := 2 ^ r) (k := 1) ?_ ?_ ?_
    · show roundTo (r + 1) _ = _
      rw [this]; push_cast; rw [pow_succ]; norm_num
    · rw [show (((r + 1 : ℕ) : ℤ) - 1 + 1) = ((r + 1 : ℕ) : ℤ) by push_cast; ring, zpow_natCast]; linarith
    · rw [show (((r + 1 : ℕ) : ℤ) + 1) = ((r + 1 + 1 : ℕ) : ℤ) by push_cast; ring, zpow_natCast, pow_succ _ (r + 1), pow_succ]; linarith
    · push_cast
      rw [pow_succ]
      norm_num
      rw [show (2 ^ r * 2 + 1 / 2) * (1 / 2) - 2 ^ r = (1 / 4 : ℝ) by ring]
      norm_num
  · have := roundTo_exact (p := q) (by omega) (m := 2 ^ (r + 2) + 1) (k := -1) ?_
    · have e : (((2 ^ (r + 2) + 1 : ℤ)) : ℝ) * 2 ^ (-1 : ℤ) = (2 : ℝ) ^ (r + 1) + 1 / 2 := by
        push_cast; rw [pow_succ _ (r + 1)]; norm_num; ring
      rw [e] at this
      exact this
    · rw [abs_of_pos (by positivity)]
      calc (2 ^ (r + 2) + 1 : ℤ) ≤ 2 ^ (r + 2) + 2 ^ (r + 2) := by have : (1 : ℤ) ≤ 2 ^ (r + 2) := one_le_pow₀ (by norm_num); linarith
        _ = 2 ^ (r + 1 + 2) := by ring
        _ ≤ 2 ^ q := pow_le_pow_right₀ (by norm_num) hq
  · have := roundTo_exact (p := r + 1) (by omega) (m := 1) (k := (r + 1 : ℕ)) (by rw [abs_one]; exact one_le_pow₀ (by norm_num))
    rw [zpow_natCast, Int.cast_one, one_mul] at this
    exact this

theorem insideRect_iff (p : Pt ℝ) (r : FRect ℝ) : Pt.isInsideRect p r = true ↔ r.p1.1 < p.1 ∧ p.1 < r.p2.1 ∧ r.p1.2 < p.2 ∧ p.2 < r.p2.2 := by
  simp only [Pt.isInsideRect, ptIsInside, Bool.and_eq_true, decide_eq_true_eq, gt_iff_lt, and_assoc]

theorem check_of_cyc (h : FlOk F u v) {t : Thr ℝ} {pts : List (Pt ℝ)} (h1 : pts.length ≠ 1) (hf : ∀ e ∈ cycPairs pts, ¬ PtSame F t e.1 e.2) :
    (open Classical in checkInput (fun a b => decide (PtSame F t a b)) pts) = true := by
  classical
  match pts, h1 with
  | [], _ => rfl
  | [_], h1 => exact absurd rfl h1
  | a :: b :: l, _ =>
    have hsub : cycPairs (a :: b :: l) = openPairs (a :: b :: l) ++ [((b :: l).getLastD a, a)] := by
      have : ∀ (x : Pt ℝ) (m : List (Pt ℝ)), (x :: m).zip (m ++ [a]) = (x :: m).zip m ++ [(m.getLastD x, a)] := by
        intro x m
        induction m generalizing x with
        | nil => rfl
        | cons y m ih => simp only [List.cons_append, List.zip_cons_cons, ih y, List.getLastD_cons]
      exact this a (b :: l)
    rw [hsub] at hf
    unfold checkInput
    simp only [Bool.and_eq_true, List.all_eq_true, Bool.not_eq_true', decide_eq_false_iff_not]
    refine ⟨fun e he => hf e (List.mem_append_left _ he), fun k => hf _ (List.mem_append_right _ (List.mem_singleton.2 rfl)) ?_⟩
    show distPt F _ _ < _
    rw [distPt_comm h]
    exact k

end H2d.Conv
