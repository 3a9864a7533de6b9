import Verif.Model.FloatCentroid
import Verif.Lemmas.FloatErr
import Verif.Lemmas.FloatExact
import Verif.Props.Float

/-! # Lemmas for the centroid with rounded operations -/

namespace H2d.Fl
open H2d.Spec

variable {F : Arith} {u v : ℝ}

theorem gamma_le {u : ℝ} (hu : 0 ≤ u) (k : ℕ) (h : k * u ≤ 1 / 16) : (1 + u) ^ k - 1 ≤ 16 / 15 * (k * u) := by
  have h0 : 0 ≤ k * u := by positivity
  have h1 : (1 + u) ^ k ≤ Real.exp (k * u) := by
    rw [Real.exp_nat_mul]
    exact pow_le_pow_left₀ (by linarith) (by linarith [Real.add_one_le_exp u]) k
  have h2 := Real.exp_bound_div_one_sub_of_interval h0 (by linarith)
  have h3 : 1 / (1 - k * u) ≤ 1 + 16 / 15 * (k * u) := by
    rw [div_le_iff₀ (by linarith)]
    nlinarith
  linarith

theorem edgeProd_err (h : FlOk F u v) (e : Pt ℝ × Pt ℝ) :
    |edgeProd F e - (e.1.1 * e.2.2 - e.2.1 * e.1.2)| ≤ ((1 + u) ^ 2 - 1) * (|e.1.1 * e.2.2| + |e.2.1 * e.1.2|) := by
  have e1 := h.err (e.1.1 * e.2.2)
  have e2 := h.err (e.2.1 * e.1.2)
  have h1 : |F.rnd (e.1.1 * e.2.2) - F.rnd (e.2.1 * e.1.2) - (e.1.1 * e.2.2 - e.2.1 * e.1.2)| ≤ ((1 + u) - 1) * (|e.1.1 * e.2.2| + |e.2.1 * e.1.2|) := by
    rw [show F.rnd (e.1.1 * e.2.2) - F.rnd (e.2.1 * e.1.2) - (e.1.1 * e.2.2 - e.2.1 * e.1.2) = (F.rnd (e.1.1 * e.2.2) - e.1.1 * e.2.2) - (F.rnd (e.2.1 * e.1.2) - e.2.1 * e.1.2) by ring]
    refine (abs_sub _ _).trans ?_
    linarith
  have := rnd_near h h1 (abs_sub _ _)
  refine this.trans (le_of_eq ?_)
  ring

theorem moment_term (h : FlOk F u v) {a b : ℝ} (hb : |a| ≤ b) (e : Pt ℝ × Pt ℝ) :
    |F.rnd (F.rnd a * edgeProd F e) - a * (e.1.1 * e.2.2 - e.2.1 * e.1.2)| ≤ ((1 + u) ^ 4 - 1) * (b * (|e.1.1 * e.2.2| + |e.2.1 * e.1.2|)) ∧
    |a * (e.1.1 * e.2.2 - e.2.1 * e.1.2)| ≤ b * (|e.1.1 * e.2.2| + |e.2.1 * e.1.2|) := by
  have hu := h.u_nonneg
  have hP := abs_sub (e.1.1 * e.2.2) (e.2.1 * e.1.2)
  have hc := edgeProd_err h e
  generalize e.1.1 * e.2.2 - e.2.1 * e.1.2 = P at *
  generalize |e.1.1 * e.2.2| + |e.2.1 * e.1.2| = m at *
  have hm : 0 ≤ m := le_trans (abs_nonneg _) hP
  have hb0 : 0 ≤ b := le_trans (abs_nonneg _) hb
  have h2 : |a * P| ≤ b * m := by rw [abs_mul]; exact mul_le_mul hb hP (abs_nonneg _) hb0
  refine ⟨?_, h2⟩
  have ea := h.err a
  have ha : |F.rnd a| ≤ (1 + u) * b := by
    have := abs_add_le (F.rnd a - a) a
    rw [sub_add_cancel] at this
    nlinarith
  have h1 : |F.rnd a * edgeProd F e - a * P| ≤ ((1 + u) ^ 3 - 1) * (b * m) := by
    rw [show F.rnd a * edgeProd F e - a * P = F.rnd a * (edgeProd F e - P) + (F.rnd a - a) * P by ring]
    refine (abs_add_le _ _).trans ?_
    rw [abs_mul, abs_mul]
    have k1 := mul_le_mul ha hc (abs_nonneg _) (by positivity)
    have k2 : |F.rnd a - a| * |P| ≤ (u * b) * m := mul_le_mul (ea.trans (mul_le_mul_of_nonneg_left hb hu)) hP (abs_nonneg _) (by positivity)
    refine (add_le_add k1 k2).trans (le_of_eq ?_)
    ring
  refine (rnd_near h h1 h2).trans (le_of_eq ?_)
  ring

theorem cyc_length (pts : List (Pt ℝ)) : (cycPairs pts).length = pts.length := by unfold cycPairs; cases pts <;> simp

theorem sum_le_card {α : Type} (f : α → ℝ) (c : ℝ) : ∀ l : List α, (∀ x ∈ l, f x ≤ c) → (l.map f).sum ≤ l.length * c
  | [], _ => by simp
  | x :: l, h => by
    have := sum_le_card f c l fun y hy => h y (List.mem_cons_of_mem _ hy)
    have hx := h x List.mem_cons_self
    simp only [List.map_cons, List.sum_cons, List.length_cons, Nat.cast_add, Nat.cast_one]
    linarith

/-- Error of a moment. -/
theorem moment_err (h : FlOk F u v) (f : Pt ℝ → ℝ) {M : ℝ} {pts : List (Pt ℝ)} (hf : ∀ p ∈ pts, |f p| ≤ M) (hM : ∀ p ∈ pts, |p.1| ≤ M ∧ |p.2| ≤ M) (hn : 3 ≤ pts.length) (hu : pts.length * u ≤ 1 / 50) :
    |(cycPairs pts).foldl (fun s e => F.rnd (s + F.rnd (F.rnd (f e.1 + f e.2) * edgeProd F e))) 0 - ((cycPairs pts).map (fun e => (f e.1 + f e.2) * (e.1.1 * e.2.2 - e.2.1 * e.1.2))).sum| ≤
      10 * (pts.length ^ 2 * u * M ^ 3) := by
  have hu0 := h.u_nonneg
  have hmem : ∀ e ∈ cycPairs pts, e.1 ∈ pts ∧ e.2 ∈ pts := fun e he => mem_cycPairs he
  have hn' : (3 : ℝ) ≤ pts.length := by exact_mod_cast hn
  have hM0 : 0 ≤ M := by
    obtain _ | ⟨p, l⟩ := pts
    · simp at hn
    · exact (abs_nonneg _).trans (hM p List.mem_cons_self).1
  have key := sumFl_err h (e := (1 + u) ^ 4 - 1) (by linarith [one_le_pow₀ (n := 4) (by linarith : (1 : ℝ) ≤ 1 + u)])
    ((cycPairs pts).map fun e => (F.rnd (F.rnd (f e.1 + f e.2) * edgeProd F e), (f e.1 + f e.2) * (e.1.1 * e.2.2 - e.2.1 * e.1.2), (|f e.1| + |f e.2|) * (|e.1.1 * e.2.2| + |e.2.1 * e.1.2|))) (by
    intro x hx
    obtain ⟨e, -, rfl⟩ := List.mem_map.1 hx
    exact moment_term h (abs_add_le _ _) e)
  simp only [List.map_map, Function.comp_def, List.length_map, cyc_length] at key
  have e1 : sumFl F ((cycPairs pts).map fun e => F.rnd (F.rnd (f e.1 + f e.2) * edgeProd F e)) = (cycPairs pts).foldl (fun s e => F.rnd (s + F.rnd (F.rnd (f e.1 + f e.2) * edgeProd F e))) 0 := by
    unfold sumFl; rw [List.foldl_map]
  rw [e1] at key
  refine key.1.trans ?_
  have b1 := sum_le_card (fun e : Pt ℝ × Pt ℝ => (|f e.1| + |f e.2|) * (|e.1.1 * e.2.2| + |e.2.1 * e.1.2|)) (4 * M ^ 3) (cycPairs pts) (by
    intro e he
    obtain ⟨m1, m2⟩ := hmem e he
    have p1 : |e.1.1 * e.2.2| ≤ M * M := by rw [abs_mul]; exact mul_le_mul (hM _ m1).1 (hM _ m2).2 (abs_nonneg _) hM0
    have p2 : |e.2.1 * e.1.2| ≤ M * M := by rw [abs_mul]; exact mul_le_mul (hM _ m2).1 (hM _ m1).2 (abs_nonneg _) hM0
    have := mul_le_mul (add_le_add (hf _ m1) (hf _ m2)) (add_le_add p1 p2) (by positivity) (by linarith)
    linarith)
  rw [cyc_length] at b1
  have b2 : (1 + u) ^ pts.length * (1 + ((1 + u) ^ 4 - 1)) - 1 ≤ 16 / 15 * ((pts.length + 4) * u) := by
    have := gamma_le hu0 (pts.length + 4) (by push_cast; nlinarith)
    push_cast at this
    refine le_trans (le_of_eq ?_) this
    ring
  have b3 : 16 / 15 * ((pts.length + 4) * u) ≤ 112 / 45 * (pts.length * u) := by nlinarith
  have b4 : 0 ≤ ((cycPairs pts).map fun e : Pt ℝ × Pt ℝ => (|f e.1| + |f e.2|) * (|e.1.1 * e.2.2| + |e.2.1 * e.1.2|)).sum := List.sum_nonneg (by
    intro x hx
    obtain ⟨e, -, rfl⟩ := List.mem_map.1 hx
    positivity)
  refine (mul_le_mul (b2.trans b3) b1 b4 (by positivity)).trans ?_
  have : 0 ≤ (pts.length : ℝ) ^ 2 * u * M ^ 3 := by positivity
  nlinarith

/-- Error of the area. -/
theorem area_err (h : FlOk F u v) {M : ℝ} {pts : List (Pt ℝ)} (hM : ∀ p ∈ pts, |p.1| ≤ M ∧ |p.2| ≤ M) (hn : 3 ≤ pts.length) (hu : pts.length * u ≤ 1 / 50) :
    |signedArea F pts - H2d.signedArea pts| ≤ 128 / 45 * (pts.length ^ 2 * u * M ^ 2) ∧ |H2d.signedArea pts| ≤ pts.length * M ^ 2 := by
  have hu0 := h.u_nonneg
  have hmem : ∀ e ∈ cycPairs pts, e.1 ∈ pts ∧ e.2 ∈ pts := fun e he => mem_cycPairs he
  have hn' : (3 : ℝ) ≤ pts.length := by exact_mod_cast hn
  have hM0 : 0 ≤ M := by
    obtain _ | ⟨p, l⟩ := pts
    · simp at hn
    · exact (abs_nonneg _).trans (hM p List.mem_cons_self).1
  have key := Props.C103_area F u v h pts
  have b1 := sum_le_card (fun e : Pt ℝ × Pt ℝ => |e.1.1 * e.2.2| + |e.1.2 * e.2.1|) (2 * M ^ 2) (cycPairs pts) (by
    intro e he
    obtain ⟨m1, m2⟩ := hmem e he
    have p1 : |e.1.1 * e.2.2| ≤ M * M := by rw [abs_mul]; exact mul_le_mul (hM _ m1).1 (hM _ m2).2 (abs_nonneg _) hM0
    have p2 : |e.1.2 * e.2.1| ≤ M * M := by rw [abs_mul]; exact mul_le_mul (hM _ m1).2 (hM _ m2).1 (abs_nonneg _) hM0
    linarith)
  rw [cyc_length] at b1
  have b2 : (1 + u) ^ (2 * pts.length + 2) - 1 ≤ 16 / 15 * ((2 * pts.length + 2) * u) := by
    have := gamma_le hu0 (2 * pts.length + 2) (by push_cast; nlinarith)
    push_cast at this
    exact this
  have b3 : 16 / 15 * ((2 * pts.length + 2) * u) ≤ 128 / 45 * (pts.length * u) := by nlinarith
  have b4 : 0 ≤ ((cycPairs pts).map fun e : Pt ℝ × Pt ℝ => |e.1.1 * e.2.2| + |e.1.2 * e.2.1|).sum := List.sum_nonneg (by
    intro x hx
    obtain ⟨e, -, rfl⟩ := List.mem_map.1 hx
    positivity)
  constructor
  · refine key.trans ?_
    refine (mul_le_mul (b2.trans b3) (div_le_div_of_nonneg_right b1 (by norm_num : (0 : ℝ) ≤ 2)) (by positivity) (by positivity)).trans (le_of_eq ?_)
    ring
  · unfold H2d.signedArea
    rw [abs_div, abs_two, div_le_iff₀ (by norm_num)]
    have a1 : ∀ l : List (Pt ℝ × Pt ℝ), |(l.map (fun s => s.1.1 * s.2.2 - s.1.2 * s.2.1)).sum| ≤ (l.map fun e => |e.1.1 * e.2.2| + |e.1.2 * e.2.1|).sum := by
      intro l
      induction l with
      | nil => simp
      | cons e l ih =>
        simp only [List.map_cons, List.sum_cons]
        exact (abs_add_le _ _).trans (add_le_add (abs_sub _ _) ih)
    have := a1 (cycPairs pts)
    linarith

/-- Error of a quotient. -/
theorem divide_err (h : FlOk F u v) {N N' D D' dN dD : ℝ} (hN : |N' - N| ≤ dN) (hD : |D' - D| ≤ dD) (h2 : 2 * dD ≤ |D|) (h0 : D ≠ 0) :
    D' ≠ 0 ∧ |F.rnd (N' / D') - N / D| ≤ (1 + u) * (2 * (dN + |N / D| * dD) / |D|) + u * |N / D| := by
  have hu0 := h.u_nonneg
  have hp : 0 < |D| := abs_pos.2 h0
  have hDl : |D| / 2 ≤ |D'| := by
    have := abs_add_le D' (D - D')
    rw [add_sub_cancel, abs_sub_comm D D'] at this
    linarith
  have hp' : 0 < |D'| := by linarith
  have h0' : D' ≠ 0 := abs_pos.1 hp'
  refine ⟨h0', ?_⟩
  have e1 : N' / D' - N / D = (N' - N - N / D * (D' - D)) / D' := by field_simp; ring
  have k1 : |N' / D' - N / D| ≤ 2 * (dN + |N / D| * dD) / |D| := by
    rw [e1, abs_div, div_le_div_iff₀ hp' hp]
    have a1 : |N' - N - N / D * (D' - D)| ≤ dN + |N / D| * dD := by
      refine (abs_sub _ _).trans (add_le_add hN ?_)
      rw [abs_mul]
      exact mul_le_mul_of_nonneg_left hD (abs_nonneg _)
    have a2 : 0 ≤ dN + |N / D| * dD := le_trans (abs_nonneg _) a1
    calc |N' - N - N / D * (D' - D)| * |D| ≤ (dN + |N / D| * dD) * (2 * |D'|) := mul_le_mul a1 (by linarith) (abs_nonneg _) a2
      _ = 2 * (dN + |N / D| * dD) * |D'| := by ring
  have k2 := h.err (N' / D')
  have k3 := abs_add_le (N' / D' - N / D) (N / D)
  rw [sub_add_cancel] at k3
  have k4 := abs_add_le (F.rnd (N' / D') - N' / D') (N' / D' - N / D)
  rw [sub_add_sub_cancel] at k4
  nlinarith

/-- The far square of area 1 has a computed area equal to 0. -/
theorem far_area {p : ℕ} (hp : 6 ≤ p) {N : ℝ} (hNe : (2 : ℝ) ^ (p - 1) = N) : H2d.signedArea [(N, N), (N + 1, N), (N + 1, N + 1), (N, N + 1)] = 1 ∧ Fl.signedArea (binary p) [(N, N), (N + 1, N), (N + 1, N + 1), (N, N + 1)] = 0 := by
  have h4 := four_le_int (p := p) (by omega)
  have hpp := pow_pred_int (p := p) (by omega)
  have key := rnd_multiple (p := p) (by omega)
  have hsq := rnd_succ_sq (p := p) (by omega)
  have i0 : (binary p).rnd 0 = 0 := roundTo_zero
  have i1 : (binary p).rnd (2 ^ (p - 1)) = 2 ^ (p - 1) := by
    have := roundTo_int (p := p) (by omega) (m := 2 ^ (p - 1)) (by rw [abs_of_pos (by positivity)]; omega)
    push_cast at this; exact this
  have hN : ((2 ^ (p - 1) : ℤ) : ℝ) = 2 ^ (p - 1) := by push_cast; rfl
  have k0 := key (2 ^ (p - 1)) (by rw [abs_of_pos (by positivity)]; omega)
  have k1 := key (2 ^ (p - 1) + 1) (by rw [abs_of_pos (by positivity)]; omega)
  have k2 := key (2 ^ (p - 1) + 2) (by rw [abs_of_pos (by positivity)]; omega)
  have k3 := key (-1) (by rw [abs_neg, abs_one]; omega)
  push_cast at k0 k1 k2 k3
  rw [hNe] at *
  constructor
  · simp [H2d.signedArea, cycPairs]; ring
  · simp only [Fl.signedArea, cycPairs, List.tail_cons, List.take_succ_cons, List.take_zero, List.cons_append, List.nil_append, List.zip_cons_cons, List.zip_nil_right,
      List.foldl_cons, List.foldl_nil, zero_add]
    rw [k0, k0, mul_comm N (N + 1), k1, show N * N - (N + 1) * N = -1 * N by ring, k3, hsq, show -1 * N + N * (N + 2) = (N + 1) * N by ring, k1, sub_self, i0, zero_add,
      show N * (N + 2) = (N + 2) * N by ring, k2, show (N + 2) * N - (N + 1) * N = N by ring, i1, show N + N * N = (N + 1) * N by ring, k1, sub_self, i0, zero_div, i0]

end H2d.Fl
