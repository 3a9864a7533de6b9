import Verif.Lemmas.FloatCentroid
import Verif.Props.FloatSimple

/-! # C121: centroid with rounded operations -/

namespace H2d.Props

open H2d.Spec H2d.Fl H2d.Simple

/-- **C121, error.** A polygon of `n` points with coordinates up to `M`, taken as simple, with an area `A` that is not too small for the precision: `centroid()` is a point, each coordinate of which is within
`n² u M² (4 M + 7 |c|) / |A|` of the one, `c`, of the exact centroid. -/
theorem C121_error_partial {F : Arith} {u v : ℝ} (h : FlOk F u v) {t : Thr ℝ} {ac : ℝ → ℝ} {pts : List (Pt ℝ)} {M : ℝ} (hM : ∀ p ∈ pts, |p.1| ≤ M ∧ |p.2| ≤ M) (hs : simpleF F t ac true pts = .ok true) (hn : 3 ≤ pts.length)
    (hu : pts.length * u ≤ 1 / 50) (h0 : H2d.signedArea pts ≠ 0) (hA : 7 * (pts.length ^ 2 * u * M ^ 2) ≤ |H2d.signedArea pts|) :
    ∃ q, Fl.centroid F t ac true pts = .ok (some q) ∧
      |q.1 - (H2d.centroidRaw pts).1| ≤ pts.length ^ 2 * u * M ^ 2 * (4 * M + 7 * |(H2d.centroidRaw pts).1|) / |H2d.signedArea pts| ∧
      |q.2 - (H2d.centroidRaw pts).2| ≤ pts.length ^ 2 * u * M ^ 2 * (4 * M + 7 * |(H2d.centroidRaw pts).2|) / |H2d.signedArea pts| := by
  have hu0 := h.u_nonneg
  have hu1 := h.u_small
  have hn' : (3 : ℝ) ≤ pts.length := by exact_mod_cast hn
  obtain ⟨ea, ba⟩ := area_err h hM hn hu
  have ex := moment_err h Prod.fst (fun p hp => (hM p hp).1) hM hn hu
  have ey := moment_err h Prod.snd (fun p hp => (hM p hp).2) hM hn hu
  have hM0 : 0 ≤ M := by
    obtain _ | ⟨p, l⟩ := pts
    · simp at hn
    · exact (abs_nonneg _).trans (hM p List.mem_cons_self).1
  have eC : Fl.centroid F t ac true pts = .ok (Fl.centroidRaw F pts) := by unfold Fl.centroid; rw [hs]; rfl
  rw [eC]
  unfold Fl.centroidRaw H2d.centroidRaw
  simp only
  change |momentX F pts - _| ≤ _ at ex
  change |momentY F pts - _| ≤ _ at ey
  generalize ((cycPairs pts).map (fun e => (e.1.1 + e.2.1) * (e.1.1 * e.2.2 - e.2.1 * e.1.2))).sum = NX at *
  generalize ((cycPairs pts).map (fun e => (e.1.2 + e.2.2) * (e.1.1 * e.2.2 - e.2.1 * e.1.2))).sum = NY at *
  generalize momentX F pts = NX' at *
  generalize momentY F pts = NY' at *
  generalize H2d.signedArea pts = A at *
  generalize Fl.signedArea F pts = A' at *
  have hq : 0 ≤ (pts.length : ℝ) ^ 2 * u * M ^ 2 := by positivity
  have e3 : (pts.length : ℝ) ^ 2 * u * M ^ 3 = pts.length ^ 2 * u * M ^ 2 * M := by ring
  rw [e3] at ex ey
  have hua : u * |A| ≤ 1 / 3 * (pts.length ^ 2 * u * M ^ 2) := by
    have k1 := mul_le_mul_of_nonneg_left ba hu0
    have k2 : 0 ≤ (pts.length - 3 : ℝ) * (pts.length * u * M ^ 2) := mul_nonneg (by linarith) (by positivity)
    nlinarith
  generalize (pts.length : ℝ) ^ 2 * u * M ^ 2 = Q at *
  have pA : 0 < |A| := abs_pos.2 h0
  have eD : |F.rnd (6 * A') - 6 * A| ≤ 1941 / 100 * Q := by
    have k1 := h.err (6 * A')
    have k2 := abs_add_le (F.rnd (6 * A') - 6 * A') (6 * A' - 6 * A)
    rw [sub_add_sub_cancel] at k2
    have k3 := abs_add_le (A' - A) A
    rw [sub_add_cancel] at k3
    have k4 : |6 * A' - 6 * A| = 6 * |A' - A| := by rw [← mul_sub, abs_mul]; norm_num
    have k5 : |6 * A'| = 6 * |A'| := by rw [abs_mul]; norm_num
    rw [k5] at k1
    rw [k4] at k2
    have k6 : u * |A'| ≤ 1 / 64 * (128 / 45 * Q) + 1 / 3 * Q := by
      have := mul_le_mul_of_nonneg_left k3 hu0
      have j := mul_le_mul hu1 ea (abs_nonneg _) (by norm_num)
      linarith
    linarith
  have e6 : |6 * A| = 6 * |A| := by rw [abs_mul]; norm_num
  have fin : ∀ N N' : ℝ, |N' - N| ≤ 10 * (Q * M) → F.rnd (6 * A') ≠ 0 ∧ |F.rnd (N' / F.rnd (6 * A')) - N / (6 * A)| ≤ Q * (4 * M + 7 * |N / (6 * A)|) / |A| := by
    intro N N' hN
    obtain ⟨k1, k2⟩ := divide_err h hN eD (by rw [e6]; linarith) (by intro e; exact h0 (by linarith))
    refine ⟨k1, k2.trans ?_⟩
    rw [e6]
    have hc := abs_nonneg (N / (6 * A))
    generalize |N / (6 * A)| = c at *
    have e1 : 2 * (10 * (Q * M) + c * (1941 / 100 * Q)) / (6 * |A|) = (10 / 3 * (Q * M) + 647 / 100 * (c * Q)) / |A| := by field_simp; ring
    have e2 : u * c = u * |A| * c / |A| := by field_simp
    rw [e1, e2, ← mul_div_assoc, ← add_div]
    apply div_le_div_of_nonneg_right _ pA.le
    have j1 := mul_le_mul_of_nonneg_right hua hc
    have j2 : 0 ≤ Q * M := by positivity
    have j3 : 0 ≤ c * Q := by positivity
    nlinarith [mul_le_mul_of_nonneg_right hu1 (by positivity : 0 ≤ 10 / 3 * (Q * M) + 647 / 100 * (c * Q))]
  obtain ⟨k0, kx⟩ := fin NX NX' ex
  obtain ⟨-, ky⟩ := fin NY NY' ey
  exact ⟨_, by rw [if_neg k0], kx, ky⟩

/-- The rectangle (0,0) (4,0) (4,3) (0,3), in `double`: the error is below 10^-13. -/
example : ((([(0, 0), (4, 0), (4, 3), (0, 3)] : List (Pt ℝ)).length : ℝ) ^ 2 * 2 ^ (-((53 : ℕ) : ℤ)) * 4 ^ 2 * (4 * 4 + 7 * |2|) / |H2d.signedArea ([(0, 0), (4, 0), (4, 3), (0, 3)] : List (Pt ℝ))| ≤ 1 / 10 ^ 13) ∧
    H2d.centroidRaw ([(0, 0), (4, 0), (4, 3), (0, 3)] : List (Pt ℝ)) = (2, 3 / 2) ∧
    7 * ((([(0, 0), (4, 0), (4, 3), (0, 3)] : List (Pt ℝ)).length : ℝ) ^ 2 * 2 ^ (-((53 : ℕ) : ℤ)) * 4 ^ 2) ≤ |H2d.signedArea ([(0, 0), (4, 0), (4, 3), (0, 3)] : List (Pt ℝ))| := by
  simp [H2d.signedArea, H2d.centroidRaw, cycPairs]
  norm_num

/-- **C121, exceptions.** There is an exception exactly when the polygon is not taken as simple (given edges that are long enough). -/
theorem C121_throws {F : Arith} {u v : ℝ} (h : FlOk F u v) {t : Thr ℝ} (ht : 2 * dblEps ≤ t.nullDistance) (ac : ℝ → ℝ) {Λ : ℝ} {pts : List (Pt ℝ)} (hp : EdgesOk F t Λ pts) (closed : Bool) :
    Fl.centroid F t ac closed pts = .throw ↔ simpleF F t ac closed pts = .ok false := by
  obtain ⟨b, e, -⟩ := simpleF_eq h ht ac hp closed
  unfold Fl.centroid
  rw [e]
  cases b <;> simp [Res.bind_ok]

/-- **C121, far from the origin.** The bound on the area is needed: with `p` bits, the square of side 1 whose corner is (2^(p-1), 2^(p-1)), the coordinates of which are exactly represented, is taken as simple, and has
a computed centroid whose coordinates are not numbers (division by zero). -/
theorem C121_far_false {p : ℕ} (hp : 10 ≤ p) (ac : ℝ → ℝ) {t : Thr ℝ} (h0 : 2 * dblEps ≤ t.nullDistance) (h1 : t.nullDistance ≤ 1 / 10) :
    ∃ pts : List (Pt ℝ), EdgesOk (binary p) t 1 pts ∧ EdgesApart 1 pts ∧ H2d.signedArea pts = 1 ∧ Fl.centroid (binary p) t ac true pts = .ok none := by
  obtain ⟨N, hN⟩ : ∃ N : ℝ, (2 : ℝ) ^ (p - 1) = N := ⟨_, rfl⟩
  obtain ⟨-, r0, r1, -⟩ := far_reps (by omega) hN
  obtain ⟨a1, a0⟩ := far_area (by omega) hN
  have f : ∀ {a b c d e : ℝ}, 0 ≤ e → (a - c) ^ 2 + (b - d) ^ 2 = e ^ 2 → eucl (a, b) (c, d) = e := fun he hh => (eucl_eq_iff he).2 hh
  have v0 : eucl (N, N) (N + 1, N) = 1 := f (by norm_num) (by ring)
  have v1 : eucl (N + 1, N) (N + 1, N + 1) = 1 := f (by norm_num) (by ring)
  have v2 : eucl (N + 1, N + 1) (N, N + 1) = 1 := f (by norm_num) (by ring)
  have v3 : eucl (N, N + 1) (N, N) = 1 := f (by norm_num) (by ring)
  have hu : (2 : ℝ) ^ (-(p : ℤ)) ≤ 1 / 1024 := by
    rw [show (1 / 1024 : ℝ) = 2 ^ (-(10 : ℤ)) by norm_num]
    exact zpow_le_zpow_right₀ (by norm_num) (by omega)
  have hE : EdgesOk (binary p) t 1 [(N, N), (N + 1, N), (N + 1, N + 1), (N, N + 1)] := by
    constructor
    · intro p hp
      simp only [List.mem_cons, List.not_mem_nil, or_false] at hp
      rcases hp with rfl | rfl | rfl | rfl <;> simp [r0, r1]
    · rintro i ⟨p, q⟩ he
      have hi := edge_lt he
      simp only [List.length_cons, List.length_nil] at hi
      obtain ⟨k1, k2⟩ := he
      interval_cases i <;> simp at k1 k2 <;> rw [← k1, ← k2] <;> simp only [v0, v1, v2, v3] <;> constructor <;> linarith
  have hA : EdgesApart 1 [(N, N), (N + 1, N), (N + 1, N + 1), (N, N + 1)] := by
    rintro i j ⟨p, q⟩ ⟨p', q'⟩ he he' hij
    have hi := edge_lt he
    have hj := edge_lt he'
    simp only [List.length_cons, List.length_nil] at hi hj hij
    obtain ⟨a1, a2⟩ := he
    obtain ⟨b1, b2⟩ := he'
    interval_cases i <;> interval_cases j <;> simp [NotNeighbours] at hij
    all_goals
      simp at a1 a2 b1 b2; rw [← a1, ← a2, ← b1, ← b2]
      rintro x x' ⟨k, k0, k1, rfl⟩ ⟨k', k0', k1', rfl⟩
      first
        | refine le_trans ?_ (abs_fst_le_eucl _ _)
          simp only
          rw [le_abs]; first | (left; linarith; done) | (right; linarith; done)
        | refine le_trans ?_ (abs_snd_le_eucl _ _)
          simp only
          rw [le_abs]; first | (left; linarith; done) | (right; linarith; done)
  refine ⟨_, hE, hA, a1, ?_⟩
  have hs : simpleF (binary p) t ac true [(N, N), (N + 1, N), (N + 1, N + 1), (N, N + 1)] = .ok true := by
    refine C119_apart_partial (binary_ok (p := p) (by omega)) h0 ac (by simp) hE ?_ hA
    have k0 := dblEps_pos
    have hu0 : (0 : ℝ) ≤ 2 ^ (-(p : ℤ)) := by positivity
    unfold reach
    have b0 : slack t (2 ^ (-(p : ℤ))) (2 ^ (-(p : ℤ))) 1 ≤ 1 / 8 := by unfold slack; linarith
    have b1 : 0 ≤ slack t (2 ^ (-(p : ℤ))) (2 ^ (-(p : ℤ))) 1 := by unfold slack; linarith
    generalize slack t (2 ^ (-(p : ℤ))) (2 ^ (-(p : ℤ))) 1 = d at *
    have : Real.sqrt (d * (2 * 1 + d)) ≤ 3 / 4 := (Real.sqrt_le_left (by norm_num)).2 (by nlinarith)
    exact lt_of_le_of_lt (add_le_add this b0) (by norm_num)
  unfold Fl.centroid
  rw [hs, Res.bind_ok, if_pos rfl, Res.pure_eq]
  unfold Fl.centroidRaw
  have i0 : (binary p).rnd 0 = 0 := roundTo_zero
  simp only [a0, mul_zero, i0, if_true]

/-- The default thresholds. -/
example : 2 * dblEps ≤ stdR.nullDistance ∧ stdR.nullDistance ≤ 1 / 10 := ⟨by norm_num [stdR, dblEps], by norm_num [stdR]⟩

end H2d.Props
