import Verif.Lemmas.FloatErr
import Verif.Lemmas.PolyConvex

/-! # Cases without error, and the rounding of particular numbers -/

namespace H2d.Fl

open H2d.Spec

theorem nearestEven_of {x : ℝ} {m : ℤ} (h : |x - m| < 1 / 2) : nearestEven x = m := by
  have h1 := nearestEven_err x
  have h2 : |(nearestEven x : ℝ) - m| < 1 := by
    have := abs_add_le ((nearestEven x : ℝ) - x) (x - m)
    rw [sub_add_sub_cancel] at this
    linarith
  have h3 : |nearestEven x - m| < 1 := by exact_mod_cast h2
  rw [Int.abs_lt_one_iff] at h3
  omega

/-- The rounding of a number, from the position of its last bit. -/
theorem roundTo_of {p : ℕ} (hp : 1 ≤ p) {x : ℝ} {m k : ℤ} (h1 : (2 : ℝ) ^ ((p : ℤ) - 1 + k) ≤ x) (h2 : x < (2 : ℝ) ^ ((p : ℤ) + k)) (h : |x * (2 : ℝ) ^ (-k) - m| < 1 / 2) :
    roundTo p x = m * (2 : ℝ) ^ k := by
  have hx : 0 < x := lt_of_lt_of_le (two_zpow_pos _) h1
  rw [roundTo_pos hx]
  unfold roundPos
  have e : Int.log 2 x = (p : ℤ) - 1 + k := log_unique h1 (by rw [show (p : ℤ) - 1 + k + 1 = (p : ℤ) + k by ring]; exact h2)
  rw [e, show (p : ℤ) - 1 - ((p : ℤ) - 1 + k) = -k by ring, show (p : ℤ) - 1 + k - ((p : ℤ) - 1) = k by ring, nearestEven_of h]

theorem roundTo_int {p : ℕ} (hp : 1 ≤ p) {m : ℤ} (h : |m| ≤ 2 ^ p) : roundTo p m = m := by
  have := roundTo_exact hp (k := 0) h
  simpa using this

theorem binary_rnd (p : ℕ) (x : ℝ) : (binary p).rnd x = roundTo p x := rfl

theorem _root_.H2d.Spec.IntUpTo.rnd {p : ℕ} (hp : 1 ≤ p) {B : ℤ} {x : ℝ} (hx : IntUpTo B x) (hB : B ≤ 2 ^ p) : (binary p).rnd x = x := by
  obtain ⟨m, hm, rfl⟩ := hx
  rw [binary_rnd, roundTo_int hp (hm.trans hB)]

theorem _root_.H2d.Spec.IntUpTo.mul {A B : ℤ} {x y : ℝ} (hx : IntUpTo A x) (hy : IntUpTo B y) : IntUpTo (A * B) (x * y) := by
  obtain ⟨m, hm, rfl⟩ := hx
  obtain ⟨n, hn, rfl⟩ := hy
  refine ⟨m * n, ?_, by push_cast; rfl⟩
  rw [abs_mul]
  exact mul_le_mul hm hn (abs_nonneg _) ((abs_nonneg _).trans hm)

theorem _root_.H2d.Spec.IntUpTo.add {A B : ℤ} {x y : ℝ} (hx : IntUpTo A x) (hy : IntUpTo B y) : IntUpTo (A + B) (x + y) := by
  obtain ⟨m, hm, rfl⟩ := hx
  obtain ⟨n, hn, rfl⟩ := hy
  exact ⟨m + n, (abs_add_le _ _).trans (add_le_add hm hn), by push_cast; rfl⟩

theorem _root_.H2d.Spec.IntUpTo.sub {A B : ℤ} {x y : ℝ} (hx : IntUpTo A x) (hy : IntUpTo B y) : IntUpTo (A + B) (x - y) := by
  obtain ⟨m, hm, rfl⟩ := hx
  obtain ⟨n, hn, rfl⟩ := hy
  exact ⟨m - n, (abs_sub _ _).trans (add_le_add hm hn), by push_cast; rfl⟩

theorem _root_.H2d.Spec.IntUpTo.mono {A B : ℤ} {x : ℝ} (hx : IntUpTo A x) (h : A ≤ B) : IntUpTo B x := by
  obtain ⟨m, hm, rfl⟩ := hx
  exact ⟨m, hm.trans h, rfl⟩

theorem _root_.H2d.Spec.IntUpTo.nonneg {A : ℤ} {x : ℝ} (hx : IntUpTo A x) : 0 ≤ A := by
  obtain ⟨m, hm, -⟩ := hx
  exact (abs_nonneg _).trans hm

/-- The cross products are exact on small integers. -/
theorem cross_exact {p : ℕ} (hp : 1 ≤ p) {B : ℤ} (hB : 8 * B ^ 2 ≤ 2 ^ p) {a1 a2 b1 b2 c1 c2 d1 d2 : ℝ}
    (ha1 : IntUpTo B a1) (ha2 : IntUpTo B a2) (hb1 : IntUpTo B b1) (hb2 : IntUpTo B b2)
    (hc1 : IntUpTo B c1) (hc2 : IntUpTo B c2) (hd1 : IntUpTo B d1) (hd2 : IntUpTo B d2) :
    (binary p).rnd ((binary p).rnd ((binary p).rnd (a1 - a2) * (binary p).rnd (b1 - b2)) - (binary p).rnd ((binary p).rnd (c1 - c2) * (binary p).rnd (d1 - d2))) =
      (a1 - a2) * (b1 - b2) - (c1 - c2) * (d1 - d2) := by
  have h0 := ha1.nonneg
  have i1 := ha1.sub ha2
  have i2 := hb1.sub hb2
  have i3 := hc1.sub hc2
  have i4 := hd1.sub hd2
  have l1 : B + B ≤ 2 ^ p := by nlinarith
  have l2 : (B + B) * (B + B) ≤ 2 ^ p := by nlinarith
  have l3 : (B + B) * (B + B) + (B + B) * (B + B) ≤ 2 ^ p := by nlinarith
  rw [i1.rnd hp l1, i2.rnd hp l1, i3.rnd hp l1, i4.rnd hp l1, (i1.mul i2).rnd hp l2, (i3.mul i4).rnd hp l2, ((i1.mul i2).sub (i3.mul i4)).rnd hp l3]

theorem area_exact {p : ℕ} (hp : 1 ≤ p) {B : ℤ} (l : List (Pt ℝ × Pt ℝ)) (hl : ∀ e ∈ l, IntUpTo B e.1.1 ∧ IntUpTo B e.1.2 ∧ IntUpTo B e.2.1 ∧ IntUpTo B e.2.2)
    (hB : 2 * l.length * B ^ 2 ≤ 2 ^ p) :
    l.foldl (fun s e => (binary p).rnd ((binary p).rnd (s + (binary p).rnd (e.1.1 * e.2.2)) - (binary p).rnd (e.1.2 * e.2.1))) 0 = (l.map fun e => e.1.1 * e.2.2 - e.1.2 * e.2.1).sum ∧
    IntUpTo (2 * l.length * B ^ 2) ((l.map fun e => e.1.1 * e.2.2 - e.1.2 * e.2.1).sum) := by
  induction l using List.reverseRecOn with
  | nil => exact ⟨rfl, 0, by simp, by simp⟩
  | append_singleton l x ih =>
    simp only [List.length_append, List.length_cons, List.length_nil, zero_add] at hB ⊢
    push_cast at hB ⊢
    have hB2 : 0 ≤ B ^ 2 := sq_nonneg B
    have hl0 : (0 : ℤ) ≤ 2 * l.length * B ^ 2 := by positivity
    obtain ⟨i1, i2⟩ := ih (fun y hy => hl y (by simp [hy])) (by nlinarith)
    obtain ⟨x1, x2, x3, x4⟩ := hl x (by simp)
    rw [List.foldl_append]
    simp only [List.foldl_cons, List.foldl_nil, List.map_append, List.map_cons, List.map_nil, List.sum_append, List.sum_cons, List.sum_nil, add_zero]
    rw [i1]
    generalize (l.map fun e => e.1.1 * e.2.2 - e.1.2 * e.2.1).sum = s at *
    have j1 := x1.mul x4
    have j2 := x2.mul x3
    rw [j1.rnd hp (by nlinarith), j2.rnd hp (by nlinarith), (i2.add j1).rnd hp (by nlinarith), ((i2.add j1).sub j2).rnd hp (by nlinarith)]
    exact ⟨by ring, by rw [← add_sub_assoc]; exact ((i2.add j1).sub j2).mono (by nlinarith)⟩

theorem mem_cycPairs {P : Type} {pts : List P} {e : P × P} (h : e ∈ cycPairs pts) : e.1 ∈ pts ∧ e.2 ∈ pts := by
  unfold cycPairs at h
  have := List.of_mem_zip (a := e.1) (b := e.2) h
  refine ⟨this.1, ?_⟩
  rcases List.mem_append.1 this.2 with h | h
  · exact List.mem_of_mem_tail h
  · exact List.mem_of_mem_take h

/-- With `N = 2^(p-1)`: the products of multiples of `N`. -/
theorem rnd_multiple {p : ℕ} (hp : 1 ≤ p) (m : ℤ) (hm : |m| ≤ 2 ^ p) : (binary p).rnd (m * 2 ^ (p - 1)) = m * 2 ^ (p - 1) := by
  have := roundTo_exact hp (k := ((p - 1 : ℕ) : ℤ)) hm
  rwa [zpow_natCast] at this

theorem pow_pred {p : ℕ} (hp : 1 ≤ p) : (2 : ℝ) ^ p = 2 * 2 ^ (p - 1) := by
  rw [← pow_succ']; congr 1; omega

theorem pow_pred_int {p : ℕ} (hp : 1 ≤ p) : (2 : ℤ) ^ p = 2 * 2 ^ (p - 1) := by
  rw [← pow_succ']; congr 1; omega

theorem four_le {p : ℕ} (hp : 3 ≤ p) : (4 : ℝ) ≤ 2 ^ (p - 1) := by
  calc (4 : ℝ) = 2 ^ 2 := by norm_num
    _ ≤ 2 ^ (p - 1) := pow_le_pow_right₀ (by norm_num) (by omega)

theorem four_le_int {p : ℕ} (hp : 3 ≤ p) : (4 : ℤ) ≤ 2 ^ (p - 1) := by exact_mod_cast four_le hp

/-- `(N+1)²` is rounded to `N²+2N`. -/
theorem rnd_succ_sq {p : ℕ} (hp : 3 ≤ p) : (binary p).rnd ((2 ^ (p - 1) + 1) * (2 ^ (p - 1) + 1)) = (2 ^ (p - 1)) * (2 ^ (p - 1) + 2) := by
  have h4 := four_le hp
  set N : ℝ := 2 ^ (p - 1) with hN
  have hz : (2 : ℝ) ^ ((p - 1 : ℕ) : ℤ) = N := by rw [zpow_natCast]
  have e1 : (2 : ℝ) ^ ((p : ℤ) - 1 + ((p - 1 : ℕ) : ℤ)) = N * N := by
    rw [zpow_add₀ (by norm_num), hz, show (p : ℤ) - 1 = ((p - 1 : ℕ) : ℤ) by omega, hz]
  have e2 : (2 : ℝ) ^ ((p : ℤ) + ((p - 1 : ℕ) : ℤ)) = 2 * N * N := by
    rw [zpow_add₀ (by norm_num), hz, zpow_natCast, pow_pred (by omega)]
  have := roundTo_of (p := p) (by omega) (x := (N + 1) * (N + 1)) (m := 2 ^ (p - 1) + 2) (k := ((p - 1 : ℕ) : ℤ)) (by rw [e1]; nlinarith) (by rw [e2]; nlinarith) (by
    rw [zpow_neg, hz]
    push_cast
    rw [← hN, show (N + 1) * (N + 1) * N⁻¹ - (N + 2) = N⁻¹ by field_simp; ring, abs_of_pos (by positivity)]
    rw [inv_lt_comm₀ (by positivity) (by norm_num)]; norm_num; linarith)
  rw [binary_rnd, this, hz]
  push_cast
  rw [← hN]; ring

/-- `(N+1)(N-1)` is rounded to `N²`. -/
theorem rnd_pred_sq {p : ℕ} (hp : 4 ≤ p) : (binary p).rnd ((2 ^ (p - 1) + 1) * (2 ^ (p - 1) - 1)) = (2 ^ (p - 1)) * (2 ^ (p - 1)) := by
  have h8 : (8 : ℝ) ≤ 2 ^ (p - 1) := by
    calc (8 : ℝ) = 2 ^ 3 := by norm_num
      _ ≤ 2 ^ (p - 1) := pow_le_pow_right₀ (by norm_num) (by omega)
  set N : ℝ := 2 ^ (p - 1) with hN
  have hz : (2 : ℝ) ^ ((p - 2 : ℕ) : ℤ) = N / 2 := by
    rw [zpow_natCast, hN, show p - 1 = (p - 2) + 1 by omega, pow_succ]; ring
  have hz' : (2 : ℝ) ^ ((p - 1 : ℕ) : ℤ) = N := by rw [zpow_natCast]
  have e1 : (2 : ℝ) ^ ((p : ℤ) - 1 + ((p - 2 : ℕ) : ℤ)) = N * (N / 2) := by
    rw [zpow_add₀ (by norm_num), hz, show (p : ℤ) - 1 = ((p - 1 : ℕ) : ℤ) by omega, hz']
  have e2 : (2 : ℝ) ^ ((p : ℤ) + ((p - 2 : ℕ) : ℤ)) = 2 * N * (N / 2) := by
    rw [zpow_add₀ (by norm_num), hz, zpow_natCast, pow_pred (by omega)]
  have := roundTo_of (p := p) (by omega) (x := (N + 1) * (N - 1)) (m := 2 ^ p) (k := ((p - 2 : ℕ) : ℤ)) (by rw [e1]; nlinarith) (by rw [e2]; nlinarith) (by
    rw [zpow_neg, hz]
    push_cast
    rw [pow_pred (by omega), ← hN, show (N + 1) * (N - 1) * (N / 2)⁻¹ - 2 * N = - (2 * N⁻¹) by field_simp; ring, abs_neg, abs_of_pos (by positivity)]
    have : N⁻¹ ≤ 1 / 8 := by rw [inv_le_comm₀ (by positivity) (by norm_num)]; norm_num; linarith
    linarith)
  rw [binary_rnd, this, hz]
  push_cast
  rw [pow_pred (by omega), ← hN]; ring

theorem convexLoop_congr {T : Type} (l : List T) (f g : T → ℝ) (h : ∀ t ∈ l, (0 < f t ↔ 0 < g t)) (s : Int) : convexLoop s (l.map f) = convexLoop s (l.map g) := by
  induction l generalizing s with
  | nil => rfl
  | cons x l ih =>
    have hx : (f x > 0) = (g x > 0) := propext (h x (by simp))
    have ih := fun s => ih (fun t ht => h t (by simp [ht])) s
    simp only [List.map_cons, convexLoop, hx, ih]

theorem mem_of_cycTriples {P : Type} {pts : List P} {a b c : P} (h : (a, b, c) ∈ cycTriples pts) : a ∈ pts ∧ b ∈ pts ∧ c ∈ pts := by
  obtain ⟨i, h1, h2, h3⟩ := (mem_cycTriples pts a b c).1 h
  exact ⟨List.mem_of_getElem? h3, List.mem_of_getElem? h1, List.mem_of_getElem? h2⟩

/-- Adding 1 to a large number does not change it. -/
theorem rnd_far {p : ℕ} (hp : 3 ≤ p) : (binary p).rnd (2 ^ (p + 2) + 1) = 2 ^ (p + 2) ∧ (binary p).rnd (2 ^ (p + 2) - 1) = 2 ^ (p + 2) ∧ (binary p).rnd (2 ^ (p + 2)) = 2 ^ (p + 2) := by
  have hp8 : (8 : ℝ) ≤ 2 ^ p := by
    calc (8 : ℝ) = 2 ^ 3 := by norm_num
      _ ≤ 2 ^ p := pow_le_pow_right₀ (by norm_num) hp
  have e : (2 : ℝ) ^ (p + 2) = 4 * 2 ^ p := by rw [pow_add]; ring
  have z : (2 : ℝ) ^ (p : ℤ) = 2 ^ p := zpow_natCast _ _
  have z1 : (2 : ℝ) ^ ((p : ℤ) - 1) = 2 ^ p / 2 := by rw [zpow_sub_one₀ (by norm_num), z]; ring
  have h2 : (2 : ℝ) ≠ 0 := by norm_num
  refine ⟨?_, ?_, ?_⟩
  · have := roundTo_of (p := p) (by omega) (x := 2 ^ (p + 2) + 1) (m := 2 ^ (p - 1)) (k := 3)
      (by rw [zpow_add₀ h2, z1, e]; norm_num; linarith) (by rw [zpow_add₀ h2, z, e]; norm_num; linarith)
      (by
        push_cast
        have := pow_pred (p := p) (by omega)
        rw [e, show (2 : ℝ) ^ (-3 : ℤ) = 1 / 8 by norm_num, this]
        rw [show (4 * (2 * 2 ^ (p - 1)) + 1) * (1 / 8) - (2 : ℝ) ^ (p - 1) = 1 / 8 by ring]; norm_num [abs_of_pos])
    rw [binary_rnd, this]
    push_cast
    rw [e, pow_pred (p := p) (by omega)]; norm_num; ring
  · have := roundTo_of (p := p) (by omega) (x := 2 ^ (p + 2) - 1) (m := 2 ^ p) (k := 2)
      (by rw [zpow_add₀ h2, z1, e]; norm_num; linarith) (by rw [zpow_add₀ h2, z, e]; norm_num; linarith)
      (by
        push_cast
        rw [e, show (2 : ℝ) ^ (-2 : ℤ) = 1 / 4 by norm_num]
        rw [show (4 * 2 ^ p - 1) * (1 / 4) - (2 : ℝ) ^ p = - (1 / 4) by ring]; norm_num [abs_of_pos])
    rw [binary_rnd, this]
    push_cast
    rw [e]; norm_num; ring
  · have := roundTo_exact (p := p) (by omega) (m := 1) (k := ((p + 2 : ℕ) : ℤ)) (by rw [abs_one]; exact one_le_pow₀ (by norm_num))
    rw [zpow_natCast, Int.cast_one, one_mul] at this
    exact this

theorem rnd_half_half {F : Arith} {u v : ℝ} (h : FlOk F u v) (x : ℝ) : F.rnd (F.rnd x / 2) = F.rnd x / 2 := by rw [h.half, h.idem]

/-- The middle of two numbers is between them. -/
theorem mid_between {F : Arith} {u v : ℝ} (h : FlOk F u v) {a b : ℝ} (ha : Rep F a) (hb : Rep F b) (hab : a ≤ b) :
    a ≤ F.rnd (F.rnd (a + b) / 2) ∧ F.rnd (F.rnd (a + b) / 2) ≤ b := by
  rw [rnd_half_half h]
  have h1 : F.rnd (2 * a) ≤ F.rnd (a + b) := h.mono (by linarith)
  have h2 : F.rnd (a + b) ≤ F.rnd (2 * b) := h.mono (by linarith)
  rw [rnd_two h, ha] at h1
  rw [rnd_two h, hb] at h2
  constructor <;> linarith

end H2d.Fl
