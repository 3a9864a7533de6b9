import Verif.Model.Search
import Mathlib.Order.Basic
import Mathlib.Tactic.Common

namespace H2d.Search

variable {P D : Type} [LinearOrder D]

theorem better_irrefl (w : What) (a : D) : better w a a = false := by
  cases w <;> simp [better]

theorem better_trans (w : What) {a b c : D} (h1 : better w a b = true) (h2 : better w b c = true) :
    better w a c = true := by
  cases w <;> simp [better] at * <;> exact lt_trans ‹_› ‹_›

theorem not_better_trans (w : What) {a b c : D} (h1 : better w a b = false) (h2 : better w b c = false) :
    better w a c = false := by
  cases w <;> simp [better] at * <;> exact le_trans ‹_› ‹_›

theorem better_of_better_of_not (w : What) {a b c : D} (h1 : better w a b = true) (h2 : better w c b = false) :
    better w a c = true := by
  cases w <;> simp [better] at *
  · exact lt_of_lt_of_le h1 h2
  · exact lt_of_le_of_lt h2 h1

theorem not_better_of_better (w : What) {a b : D} (h1 : better w a b = true) : better w b a = false := by
  cases w <;> simp [better] at * <;> exact h1.le

/-- Full description of the result of the search loop. -/
theorem findLoop_spec (w : What) (d : P → P → D) (eq : P → P → Bool) (q : P) (xs : List P) :
    ∀ (i resIdx : Nat) (resDist : D),
      (findLoop w d eq q i xs resIdx resDist = resIdx ∧
        ∀ (k : Nat) (y : P), xs[k]? = some y → eq q y = false → better w (d q y) resDist = false) ∨
      (∃ (k : Nat) (x : P), findLoop w d eq q i xs resIdx resDist = i + k ∧ xs[k]? = some x ∧ eq q x = false ∧
        better w (d q x) resDist = true ∧
        (∀ (k' : Nat) (y : P), xs[k']? = some y → eq q y = false → better w (d q y) (d q x) = false) ∧
        (∀ (k' : Nat) (y : P), xs[k']? = some y → eq q y = false → k' < k → better w (d q x) (d q y) = true)) := by
  induction xs with
  | nil => intro i r rd; left; simp [findLoop]
  | cons x xs ih =>
    intro i r rd
    by_cases hx : eq q x = true
    · -- element equal to the query: skipped
      have hs : findLoop w d eq q i (x :: xs) r rd = findLoop w d eq q (i+1) xs r rd := by
        simp [findLoop, hx]
      rw [hs]
      rcases ih (i+1) r rd with ⟨h1, h2⟩ | ⟨k, z, h1, h2, h3, h4, h5, h6⟩
      · left
        refine ⟨h1, fun k y hy he => ?_⟩
        cases k with
        | zero => simp at hy; subst hy; simp [hx] at he
        | succ k => simp at hy; exact h2 k y hy he
      · right
        refine ⟨k+1, z, by rw [h1]; omega, by simpa using h2, h3, h4, ?_, ?_⟩
        · intro k' y hy he
          cases k' with
          | zero => simp at hy; subst hy; simp [hx] at he
          | succ k' => simp at hy; exact h5 k' y hy he
        · intro k' y hy he hlt
          cases k' with
          | zero => simp at hy; subst hy; simp [hx] at he
          | succ k' => simp at hy; exact h6 k' y hy he (by omega)
    · have hx' : eq q x = false := by simpa using hx
      by_cases hb : better w (d q x) rd = true
      · have hs : findLoop w d eq q i (x :: xs) r rd = findLoop w d eq q (i+1) xs i (d q x) := by
          simp [findLoop, hx', hb]
        rw [hs]
        right
        rcases ih (i+1) i (d q x) with ⟨h1, h2⟩ | ⟨k, z, h1, h2, h3, h4, h5, h6⟩
        · refine ⟨0, x, by simpa using h1, rfl, hx', hb, ?_, ?_⟩
          · intro k' y hy he
            cases k' with
            | zero => simp at hy; subst hy; exact better_irrefl w _
            | succ k' => simp at hy; exact h2 k' y hy he
          · intro k' y _ _ hlt; omega
        · refine ⟨k+1, z, by rw [h1]; omega, by simpa using h2, h3, better_trans w h4 hb, ?_, ?_⟩
          · intro k' y hy he
            cases k' with
            | zero => simp at hy; subst hy; exact not_better_of_better w h4
            | succ k' => simp at hy; exact h5 k' y hy he
          · intro k' y hy he hlt
            cases k' with
            | zero => simp at hy; subst hy; exact h4
            | succ k' => simp at hy; exact h6 k' y hy he (by omega)
      · have hb' : better w (d q x) rd = false := by simpa using hb
        have hs : findLoop w d eq q i (x :: xs) r rd = findLoop w d eq q (i+1) xs r rd := by
          simp [findLoop, hx', hb']
        rw [hs]
        rcases ih (i+1) r rd with ⟨h1, h2⟩ | ⟨k, z, h1, h2, h3, h4, h5, h6⟩
        · left
          refine ⟨h1, fun k y hy he => ?_⟩
          cases k with
          | zero => simp at hy; subst hy; exact hb'
          | succ k => simp at hy; exact h2 k y hy he
        · right
          have h4' : better w (d q z) (d q x) = true := better_of_better_of_not w h4 hb'
          refine ⟨k+1, z, by rw [h1]; omega, by simpa using h2, h3, h4, ?_, ?_⟩
          · intro k' y hy he
            cases k' with
            | zero => simp at hy; subst hy; exact not_better_of_better w h4'
            | succ k' => simp at hy; exact h5 k' y hy he
          · intro k' y hy he hlt
            cases k' with
            | zero => simp at hy; subst hy; exact h4'
            | succ k' => simp at hy; exact h6 k' y hy he (by omega)

/-- The combined loop computes the results of the two separate loops. -/
theorem nfLoop_eq (d : P → P → D) (eq : P → P → Bool) (q : P) (xs : List P) :
    ∀ (i iMin : Nat) (mn : D) (iMax : Nat) (mx : D),
      nfLoop d eq q i xs iMin mn iMax mx =
        (findLoop .min d eq q i xs iMin mn, findLoop .max d eq q i xs iMax mx) := by
  induction xs with
  | nil => intros; rfl
  | cons x xs ih =>
    intro i iMin mn iMax mx
    by_cases hx : eq q x = true
    · simp [nfLoop, findLoop, hx, ih]
    · have hx' : eq q x = false := by simpa using hx
      by_cases h1 : mx < d q x <;> by_cases h2 : d q x < mn <;>
        simp [nfLoop, findLoop, hx', better, h1, h2, ih]

/-- Inner loop of the closest-point search. -/
theorem closestInner_spec (d : P → P → D) (p : P) (i : Nat) (ys : List P) :
    ∀ (j : Nat) (out : Closest D),
      (closestInner d p i j ys out = out ∧ ∀ y ∈ ys, out.minDist ≤ d p y) ∨
      (∃ (k : Nat) (y : P), ys[k]? = some y ∧ closestInner d p i j ys out = ⟨d p y, i, j + k⟩ ∧
        d p y < out.minDist ∧ ∀ z ∈ ys, d p y ≤ d p z) := by
  induction ys with
  | nil => intro j out; left; simp [closestInner]
  | cons y ys ih =>
    intro j out
    by_cases h : d p y < out.minDist
    · have hs : closestInner d p i j (y :: ys) out = closestInner d p i (j+1) ys ⟨d p y, i, j⟩ := by
        simp [closestInner, h]
      rw [hs]
      right
      rcases ih (j+1) ⟨d p y, i, j⟩ with ⟨h1, h2⟩ | ⟨k, z, h1, h2, h3, h4⟩
      · refine ⟨0, y, rfl, by simpa using h1, h, ?_⟩
        intro z hz
        rcases List.mem_cons.1 hz with rfl | hz
        · exact le_refl _
        · exact h2 z hz
      · refine ⟨k+1, z, by simpa using h1, by rw [h2]; simp; omega, lt_trans h3 h, ?_⟩
        intro z' hz
        rcases List.mem_cons.1 hz with rfl | hz
        · exact h3.le
        · exact h4 z' hz
    · have hs : closestInner d p i j (y :: ys) out = closestInner d p i (j+1) ys out := by
        simp [closestInner, h]
      rw [hs]
      have h' : out.minDist ≤ d p y := not_lt.1 h
      rcases ih (j+1) out with ⟨h1, h2⟩ | ⟨k, z, h1, h2, h3, h4⟩
      · left
        refine ⟨h1, fun z hz => ?_⟩
        rcases List.mem_cons.1 hz with rfl | hz
        · exact h'
        · exact h2 z hz
      · right
        refine ⟨k+1, z, by simpa using h1, by rw [h2]; simp; omega, h3, ?_⟩
        intro z' hz
        rcases List.mem_cons.1 hz with rfl | hz
        · exact (lt_of_lt_of_le h3 h').le
        · exact h4 z' hz

/-- Outer loop of the closest-point search. -/
theorem closestOuter_spec (d : P → P → D) (b : List P) (xs : List P) :
    ∀ (i : Nat) (out : Closest D),
      (closestOuter d b i xs out = out ∧ ∀ x ∈ xs, ∀ y ∈ b, out.minDist ≤ d x y) ∨
      (∃ (k l : Nat) (x y : P), xs[k]? = some x ∧ b[l]? = some y ∧
        closestOuter d b i xs out = ⟨d x y, i + k, l⟩ ∧
        d x y < out.minDist ∧ ∀ x' ∈ xs, ∀ y' ∈ b, d x y ≤ d x' y') := by
  induction xs with
  | nil => intro i out; left; simp [closestOuter]
  | cons x xs ih =>
    intro i out
    have hs : closestOuter d b i (x :: xs) out = closestOuter d b (i+1) xs (closestInner d x i 0 b out) := rfl
    rw [hs]
    rcases closestInner_spec d x i b 0 out with ⟨h1, h2⟩ | ⟨l, y, hy, h1, h2, h3⟩
    · rw [h1]
      rcases ih (i+1) out with ⟨g1, g2⟩ | ⟨k, l, x', y', g1, g2, g3, g4, g5⟩
      · left
        refine ⟨g1, fun x' hx' y hy => ?_⟩
        rcases List.mem_cons.1 hx' with rfl | hx'
        · exact h2 y hy
        · exact g2 x' hx' y hy
      · right
        refine ⟨k+1, l, x', y', by simpa using g1, g2, by rw [g3]; simp; omega, g4, ?_⟩
        intro z hz w hw
        rcases List.mem_cons.1 hz with rfl | hz
        · exact (lt_of_lt_of_le g4 (h2 w hw)).le
        · exact g5 z hz w hw
    · rw [h1]
      right
      rcases ih (i+1) ⟨d x y, i, 0 + l⟩ with ⟨g1, g2⟩ | ⟨k, l', x', y', g1, g2, g3, g4, g5⟩
      · refine ⟨0, l, x, y, rfl, hy, by rw [g1]; simp, h2, ?_⟩
        intro z hz w hw
        rcases List.mem_cons.1 hz with rfl | hz
        · exact h3 w hw
        · exact g2 z hz w hw
      · refine ⟨k+1, l', x', y', by simpa using g1, g2, by rw [g3]; simp; omega, lt_trans g4 h2, ?_⟩
        intro z hz w hw
        rcases List.mem_cons.1 hz with rfl | hz
        · exact (lt_of_lt_of_le g4 (h3 w hw)).le
        · exact g5 z hz w hw

end H2d.Search
