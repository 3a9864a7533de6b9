import Verif.Lemmas.FloatSegs
import Verif.Lemmas.Search
import Verif.Model.FloatSearch

/-! # Lemmas for the searches with rounded operations -/

namespace H2d.Fl
open H2d.Spec

variable {F : Arith} {u v : ℝ}

/-- Comparison of computed squared distances. -/
theorem sqDist_le (h : FlOk F u v) {q x y : Pt ℝ} (hxy : sqDist F q x ≤ sqDist F q y) : eucl q x ≤ (1 + 5 * u) * eucl q y := by
  have h1 := abs_le.1 (sqDist_err h q x)
  have h2 := abs_le.1 (sqDist_err h q y)
  have he := pow4_le h
  have hu := h.u_nonneg
  have hu1 := h.u_small
  have a0 := eucl_nonneg q x
  have b0 := eucl_nonneg q y
  generalize (1 + u) ^ 4 - 1 = e at *
  generalize eucl q x = A at *
  generalize eucl q y = B at *
  have hA := mul_le_mul_of_nonneg_right he (sq_nonneg A)
  have hB := mul_le_mul_of_nonneg_right he (sq_nonneg B)
  have k : (1 - 33 / 8 * u) * A ^ 2 ≤ (1 + 33 / 8 * u) * B ^ 2 := by linarith [h1.1, h2.2]
  refine (abs_le_of_sq_le_sq' ?_ (by positivity)).2
  rw [mul_pow]
  have k2 : (1 + 33 / 8 * u) * B ^ 2 ≤ (1 - 33 / 8 * u) * ((1 + 5 * u) ^ 2 * B ^ 2) := by
    have : 1 + 33 / 8 * u ≤ (1 - 33 / 8 * u) * (1 + 5 * u) ^ 2 := by
      nlinarith [mul_nonneg hu (sub_nonneg.2 hu1), mul_nonneg (mul_nonneg hu hu) (sub_nonneg.2 hu1)]
    have := mul_le_mul_of_nonneg_right this (sq_nonneg B)
    linarith
  exact le_of_mul_le_mul_left (k.trans k2) (by linarith)

/-- Comparison of computed distances. -/
theorem distPt_le (h : FlOk F u v) {p q x y : Pt ℝ} (hxy : distPt F p x ≤ distPt F q y) : eucl p x ≤ (1 + 3 * (u + v)) * eucl q y := by
  have h1 := abs_le.1 (distPt_err h p x)
  have h2 := abs_le.1 (distPt_err h q y)
  have he := dist_e h
  have hu := h.u_nonneg
  have hu1 := h.u_small
  have hv := h.v_nonneg
  have hv1 := h.v_small
  have a0 := eucl_nonneg p x
  have b0 := eucl_nonneg q y
  generalize (1 + u) * (1 + v) - 1 = e at *
  generalize eucl p x = A at *
  generalize eucl q y = B at *
  have hA := mul_le_mul_of_nonneg_right he a0
  have hB := mul_le_mul_of_nonneg_right he b0
  have k : (1 - 65 / 64 * (u + v)) * A ≤ (1 + 65 / 64 * (u + v)) * B := by linarith [h1.1, h2.2]
  have k2 : (1 + 65 / 64 * (u + v)) * B ≤ (1 - 65 / 64 * (u + v)) * ((1 + 3 * (u + v)) * B) := by
    have : 1 + 65 / 64 * (u + v) ≤ (1 - 65 / 64 * (u + v)) * (1 + 3 * (u + v)) := by nlinarith
    have := mul_le_mul_of_nonneg_right this b0
    linarith
  exact le_of_mul_le_mul_left (k.trans k2) (by linarith)

/-- The farthest of all: what is always true. -/
theorem findFarthest_ge {P D : Type} [LinearOrder D] (d : P → P → D) (same : P → P → Bool) (q : P) (cont : List P) (hlen : 2 ≤ cont.length) :
    ∃ i x, Search.findFarthestPoint d same q cont = .ok i ∧ cont[i]? = some x ∧ ∀ y ∈ cont, same q y = false → same y q = false → d q y ≤ d q x := by
  match cont, hlen with
  | c0 :: c1 :: rest, _ =>
    unfold Search.findFarthestPoint Search.findPoint
    simp only
    split_ifs with hc
    · rcases Search.findLoop_spec .max d same q rest 2 1 (d q c1) with ⟨e, k⟩ | ⟨k, x, e, hx, -, hb, k1, -⟩
      · rw [e]
        refine ⟨1, c1, rfl, rfl, fun y hy h1 h2 => ?_⟩
        rcases List.mem_cons.1 hy with rfl | hy
        · rw [hc] at h2; cases h2
        rcases List.mem_cons.1 hy with rfl | hy
        · exact le_rfl
        obtain ⟨n, hn⟩ := List.getElem?_of_mem hy
        have := k n y hn h1
        simpa [Search.better] using this
      · rw [e]
        refine ⟨2 + k, x, rfl, by rw [show 2 + k = k + 1 + 1 by omega]; simpa using hx, fun y hy h1 h2 => ?_⟩
        rcases List.mem_cons.1 hy with rfl | hy
        · rw [hc] at h2; cases h2
        rcases List.mem_cons.1 hy with rfl | hy
        · simp [Search.better] at hb; exact hb.le
        obtain ⟨n, hn⟩ := List.getElem?_of_mem hy
        have := k1 n y hn h1
        simpa [Search.better] using this
    · rcases Search.findLoop_spec .max d same q (c1 :: rest) 1 0 (d q c0) with ⟨e, k⟩ | ⟨k, x, e, hx, -, hb, k1, -⟩
      · rw [e]
        refine ⟨0, c0, rfl, rfl, fun y hy h1 h2 => ?_⟩
        rcases List.mem_cons.1 hy with rfl | hy
        · exact le_rfl
        obtain ⟨n, hn⟩ := List.getElem?_of_mem hy
        have := k n y hn h1
        simpa [Search.better] using this
      · rw [e]
        refine ⟨1 + k, x, rfl, by rw [show 1 + k = k + 1 by omega]; simpa using hx, fun y hy h1 h2 => ?_⟩
        rcases List.mem_cons.1 hy with rfl | hy
        · simp [Search.better] at hb; exact hb.le
        obtain ⟨n, hn⟩ := List.getElem?_of_mem hy
        have := k1 n y hn h1
        simpa [Search.better] using this

theorem sameB_false {F : Arith} {t : Thr ℝ} {p q : Pt ℝ} : sameB F t p q = false ↔ ¬ PtSame F t p q := by simp [sameB]

theorem sameB_comm (h : FlOk F u v) (t : Thr ℝ) (p q : Pt ℝ) : sameB F t p q = sameB F t q p := by
  unfold sameB PtSame
  rw [distPt_comm h]

/-- `N (N+2) + 1` is rounded to `N (N+2)`. -/
theorem rnd_far_plus {p : ℕ} (hp : 6 ≤ p) {N : ℝ} (hN : (2 : ℝ) ^ (p - 1) = N) : (binary p).rnd (N * (N + 2) + 1) = N * (N + 2) := by
  have := rnd_succ_sq (p := p) (by omega)
  rw [hN] at this
  rw [show N * (N + 2) + 1 = (N + 1) * (N + 1) by ring, this]

theorem far_sq {p : ℕ} (hp : 6 ≤ p) {N : ℝ} (hN : (2 : ℝ) ^ (p - 1) = N) : sqDist (binary p) (0, 0) (N + 1, 1) = N * (N + 2) ∧ sqDist (binary p) (0, 0) (N + 1, 0) = N * (N + 2) := by
  have hok := binary_ok hp
  obtain ⟨h32, -, r1, -⟩ := far_reps hp hN
  have s1 := far_small hp 1 (by norm_num)
  have s0 := far_small hp 0 (by norm_num)
  have k := rnd_succ_sq (p := p) (by omega)
  rw [hN] at k
  push_cast at s0 s1
  have n1 : (binary p).rnd (-(N + 1)) = -(N + 1) := by rw [hok.odd, r1]
  have n2 : (binary p).rnd (-1) = -1 := by rw [hok.odd, s1]
  unfold sqDist
  simp only [zero_sub, sub_zero, s0, mul_zero, add_zero, n1, n2, mul_neg, neg_mul, neg_neg, mul_one, s1, k]
  refine ⟨rnd_far_plus hp hN, ?_⟩
  rw [← k, hok.idem]

end H2d.Fl
