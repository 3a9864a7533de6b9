import Verif.Model.Colors
import Verif.Spec.Float
import Verif.Lemmas.FloatExact
import Mathlib.Tactic.Linarith

/-!
# Random colours: bounds
-/

namespace H2d.Fl
open H2d H2d.Spec

variable {F : Arith} {u v : ℝ}

theorem toByte_ok {x : ℝ} {a b : ℕ} (hb : b < 256) (h1 : (a : ℝ) ≤ x) (h2 : x ≤ b) : ∃ n, toByte x = .ok n ∧ a ≤ n ∧ n ≤ b := by
  have h0 : 0 ≤ x := le_trans (Nat.cast_nonneg a) h1
  have k1 : (a : ℤ) ≤ ⌊x⌋ := Int.le_floor.2 (by exact_mod_cast h1)
  have k2 : ⌊x⌋ ≤ (b : ℤ) := by
    have := le_trans (Int.floor_le x) h2
    exact_mod_cast this
  refine ⟨⌊x⌋.toNat, ?_, by omega, by omega⟩
  unfold toByte
  rw [if_pos h0]
  exact if_pos ⟨by omega, by omega⟩

theorem colorComp_ok (hF : FlOk F u v) (hrep : ∀ n : ℕ, n < 256 → Rep F n) {M a b r : ℕ} (hM : 0 < M) (hab : a < b) (hb : b < 256) (hr : r ≤ M) :
    ∃ n, colorComp F M a b r = .ok n ∧ a ≤ n ∧ n ≤ b := by
  have r0 : F.rnd 0 = 0 := by have := hrep 0 (by norm_num); simpa [Rep] using this
  have r1 : F.rnd 1 = 1 := by have := hrep 1 (by norm_num); simpa [Rep] using this
  have ra : F.rnd (a : ℝ) = a := hrep a (by omega)
  have rb : F.rnd (b : ℝ) = b := hrep b hb
  have rd : F.rnd ((b : ℝ) - a) = b - a := by
    have := hrep (b - a) (by omega)
    unfold Rep at this
    rwa [Nat.cast_sub hab.le] at this
  have pM : 0 < F.rnd (M : ℝ) := by
    have : (1 : ℝ) ≤ M := by exact_mod_cast hM
    have := hF.mono this
    rw [r1] at this
    linarith
  have pr : 0 ≤ F.rnd (r : ℝ) := by
    have := hF.mono (Nat.cast_nonneg r : (0 : ℝ) ≤ r)
    rwa [r0] at this
  have le : F.rnd (r : ℝ) ≤ F.rnd M := hF.mono (by exact_mod_cast hr)
  have q1 : F.rnd (F.rnd (1 * F.rnd (r : ℝ)) / F.rnd M) ≤ 1 := by
    rw [one_mul, hF.idem, ← r1]
    exact hF.mono ((div_le_one pM).2 le)
  have q0 : 0 ≤ F.rnd (F.rnd (1 * F.rnd (r : ℝ)) / F.rnd M) := by
    rw [one_mul, hF.idem]
    have := hF.mono (div_nonneg pr pM.le)
    rwa [r0] at this
  have hd : (0 : ℝ) < b - a := by
    have : (a : ℝ) < b := by exact_mod_cast hab
    linarith
  generalize hq : F.rnd (F.rnd (1 * F.rnd (r : ℝ)) / F.rnd M) = q at q0 q1
  have p1 : F.rnd (q * (b - a)) ≤ b - a := by
    calc F.rnd (q * (b - a)) ≤ F.rnd ((b : ℝ) - a) := hF.mono (by nlinarith)
      _ = b - a := rd
  have p0 : 0 ≤ F.rnd (q * (b - a)) := by
    have := hF.mono (mul_nonneg q0 hd.le)
    rwa [r0] at this
  have s1 : F.rnd (F.rnd (q * (b - a)) + a) ≤ b := by
    calc F.rnd (F.rnd (q * (b - a)) + a) ≤ F.rnd (b : ℝ) := hF.mono (by linarith)
      _ = b := rb
  have s0 : (a : ℝ) ≤ F.rnd (F.rnd (q * (b - a)) + a) := by
    calc (a : ℝ) = F.rnd a := ra.symm
      _ ≤ _ := hF.mono (by linarith)
  obtain ⟨n, e, l⟩ := toByte_ok hb s0 s1
  refine ⟨n, ?_, l⟩
  have es : intSub (b : ℤ) (a : ℤ) = .ok ((b : ℤ) - a) := if_pos ⟨by omega, by omega⟩
  unfold colorComp
  rw [es]
  show toByte _ = _
  push_cast
  rw [rd, ra, hq]
  exact e

theorem colorLoop_ok (hF : FlOk F u v) (hrep : ∀ n : ℕ, n < 256 → Rep F n) {M a b : ℕ} (hM : 0 < M) (hab : a < b) (hb : b < 256) {rand : ℕ → ℕ} (hr : ∀ i, rand i ≤ M) :
    ∀ n i, ∃ l, colorLoop F M a b rand n i = .ok l ∧ l.length = n ∧ ∀ c ∈ l, (a ≤ c.1 ∧ c.1 ≤ b) ∧ (a ≤ c.2.1 ∧ c.2.1 ≤ b) ∧ (a ≤ c.2.2 ∧ c.2.2 ≤ b)
  | 0, i => ⟨[], rfl, rfl, by simp⟩
  | n + 1, i => by
      obtain ⟨x, ex, hx⟩ := colorComp_ok hF hrep hM hab hb (hr i)
      obtain ⟨y, ey, hy⟩ := colorComp_ok hF hrep hM hab hb (hr (i + 1))
      obtain ⟨z, ez, hz⟩ := colorComp_ok hF hrep hM hab hb (hr (i + 2))
      obtain ⟨l, el, hl, hc⟩ := colorLoop_ok hF hrep hM hab hb hr n (i + 3)
      refine ⟨(x, y, z) :: l, ?_, by simp [hl], ?_⟩
      · unfold colorLoop
        rw [ex, ey, ez, el]
        rfl
      · intro c hcm
        rcases List.mem_cons.1 hcm with rfl | h
        · exact ⟨hx, hy, hz⟩
        · exact hc c h

theorem colorLoop_prefix {M : ℕ} {minv maxv : ℤ} {rand : ℕ → ℕ} : ∀ (n m i : ℕ) {l l'}, n ≤ m → colorLoop F M minv maxv rand n i = .ok l → colorLoop F M minv maxv rand m i = .ok l' → l <+: l'
  | 0, m, i, l, l', _, h, _ => by cases h; exact List.nil_prefix
  | n + 1, 0, i, l, l', hm, _, _ => absurd hm (by omega)
  | n + 1, m + 1, i, l, l', hm, h, h' => by
      unfold colorLoop at h h'
      rcases hx : colorComp F M minv maxv (rand i) with x | _ | _ <;> rw [hx] at h h' <;> try cases h
      rcases hy : colorComp F M minv maxv (rand (i + 1)) with y | _ | _ <;> rw [hy] at h h' <;> try cases h
      rcases hz : colorComp F M minv maxv (rand (i + 2)) with z | _ | _ <;> rw [hz] at h h' <;> try cases h
      rcases h1 : colorLoop F M minv maxv rand n (i + 3) with l1 | _ | _ <;> rw [h1] at h <;> try cases h
      rcases h2 : colorLoop F M minv maxv rand m (i + 3) with l2 | _ | _ <;> rw [h2] at h' <;> try cases h'
      exact List.cons_prefix_cons.2 ⟨rfl, colorLoop_prefix n m (i + 3) (by omega) h1 h2⟩

theorem toByte_no_throw (x : ℝ) : toByte x ≠ .throw := by
  unfold toByte
  intro h
  by_cases k : 0 ≤ (if 0 ≤ x then ⌊x⌋ else ⌈x⌉) ∧ (if 0 ≤ x then ⌊x⌋ else ⌈x⌉) < 256
  · simp only [if_pos k] at h; cases h
  · simp only [if_neg k] at h; cases h

theorem colorComp_no_throw (M : ℕ) (a b : ℤ) (r : ℕ) : colorComp F M a b r ≠ .throw := by
  unfold colorComp intSub
  by_cases k : -2 ^ 31 ≤ b - a ∧ b - a < 2 ^ 31
  · rw [if_pos k]; exact toByte_no_throw _
  · rw [if_neg k]; intro h; cases h

theorem colorLoop_no_throw (M : ℕ) (a b : ℤ) (rand : ℕ → ℕ) : ∀ n i, colorLoop F M a b rand n i ≠ .throw
  | 0, i => by intro h; cases h
  | n + 1, i => by
      intro h
      unfold colorLoop at h
      rcases hx : colorComp F M a b (rand i) with x | _ | _ <;> rw [hx] at h
      · rcases hy : colorComp F M a b (rand (i + 1)) with y | _ | _ <;> rw [hy] at h
        · rcases hz : colorComp F M a b (rand (i + 2)) with z | _ | _ <;> rw [hz] at h
          · rcases h1 : colorLoop F M a b rand n (i + 3) with l | _ | _ <;> rw [h1] at h
            · cases h
            · exact colorLoop_no_throw M a b rand n (i + 3) h1
            · cases h
          · exact colorComp_no_throw M a b _ hz
          · cases h
        · exact colorComp_no_throw M a b _ hy
        · cases h
      · exact colorComp_no_throw M a b _ hx
      · cases h

theorem toByte_ub_int {n : ℤ} (h : n < 0 ∨ 256 ≤ n) : toByte (n : ℝ) = .ub := by
  unfold toByte
  have e : (if (0 : ℝ) ≤ n then ⌊(n : ℝ)⌋ else ⌈(n : ℝ)⌉) = n := by
    split
    · exact Int.floor_intCast n
    · exact Int.ceil_intCast n
  simp only [e]
  exact if_neg (by omega)

theorem comp_ub {M : ℕ} {a b : ℤ} {r : ℕ} {n : ℤ} (hn : n < 0 ∨ 256 ≤ n) (h : F.rnd (F.rnd (F.rnd (F.rnd (1 * F.rnd r) / F.rnd M) * F.rnd ((b : ℝ) - a)) + F.rnd a) = n) :
    colorComp F M a b r = .ub := by
  unfold colorComp intSub
  by_cases k : -2 ^ 31 ≤ b - a ∧ b - a < 2 ^ 31
  · rw [if_pos k]
    show toByte _ = _
    push_cast
    rw [h]
    exact toByte_ub_int hn
  · rw [if_neg k]; rfl

theorem gen_ub {M : ℕ} {a b : ℤ} {rand : ℕ → ℕ → ℕ} {time : ℕ} (hab : a < b) (h : colorComp F M a b (rand time 0) = .ub) : genRandomColors F M rand time 1 a b = .ub := by
  unfold genRandomColors
  rw [if_neg (by omega)]
  unfold colorLoop
  rw [h]
  rfl

end H2d.Fl
