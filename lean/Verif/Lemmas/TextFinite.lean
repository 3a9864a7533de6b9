import Verif.Spec.Text
import Mathlib.Algebra.Order.Ring.Abs
import Mathlib.Data.Fintype.Pi
import Mathlib.Data.Fintype.Option
import Mathlib.Data.Fintype.BigOperators
import Mathlib.Combinatorics.Pigeonhole
import Mathlib.Data.Rat.Encodable
import Mathlib.Data.Rat.Cast.Order
import Mathlib.Tactic.NormNum
import Mathlib.Tactic.Ring

/-!
# There are finitely many short texts
-/

namespace H2d.Text
open H2d H2d.Spec

theorem short_texts {K : Type} (num : K → List Char) (A : Finset Char) (N : ℕ) (S : Finset K) (hS : ∀ x ∈ S, (num x).length ≤ N ∧ ∀ c ∈ num x, c ∈ A)
    (hc : (A.card + 1) ^ N < S.card) : ∃ x ∈ S, ∃ y ∈ S, x ≠ y ∧ num x = num y := by
  classical
  let f : K → Fin N → Option A := fun x i => if h : i.1 < (num x).length then (if k : (num x)[i.1] ∈ A then some ⟨_, k⟩ else none) else none
  have hcard : (Finset.univ : Finset (Fin N → Option A)).card < S.card := by
    rw [Finset.card_univ, Fintype.card_fun, Fintype.card_option, Fintype.card_coe, Fintype.card_fin]
    exact hc
  obtain ⟨x, hx, y, hy, hne, he⟩ := Finset.exists_ne_map_eq_of_card_lt_of_maps_to hcard (f := f) (fun _ _ => Finset.mem_univ _)
  refine ⟨x, hx, y, hy, hne, ?_⟩
  have val : ∀ z ∈ S, ∀ i : Fin N, (f z i).map (fun a => a.1) = (num z)[i.1]? := by
    intro z hz i
    show Option.map _ (if h : i.1 < (num z).length then (if k : (num z)[i.1] ∈ A then some (⟨_, k⟩ : A) else none) else none) = _
    by_cases h : i.1 < (num z).length
    · rw [dif_pos h, dif_pos ((hS z hz).2 _ (List.getElem_mem h)), List.getElem?_eq_getElem h]
      rfl
    · rw [dif_neg h, List.getElem?_eq_none (by omega)]
      rfl
  apply List.ext_getElem?
  intro i
  by_cases h : i < N
  · rw [← val x hx ⟨i, h⟩, ← val y hy ⟨i, h⟩, he]
  · have := (hS x hx).1
    have := (hS y hy).1
    rw [List.getElem?_eq_none (by omega), List.getElem?_eq_none (by omega)]

/-- A way of writing rational numbers, for the examples. -/
def demoNum (x : ℚ) : List Char := List.replicate (Encodable.encode x + 1) '1'

theorem demoNum_writes : Writes demoNum := by
  constructor
  · intro x c hc
    rw [List.eq_of_mem_replicate hc]
    decide
  · intro x
    simp [demoNum]
  · intro x y h
    have := congrArg List.length h
    simp only [demoNum, List.length_replicate, Nat.add_right_cancel_iff] at this
    exact Encodable.encode_injective this

end H2d.Text
