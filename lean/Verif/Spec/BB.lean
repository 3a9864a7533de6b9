import Mathlib.Algebra.Order.Field.Basic

/-! # What "extreme point" and "smallest enclosing rectangle" mean -/

namespace H2d.Spec

/-- `p` is above `q`, ties broken by the smaller `x`. -/
def Above {K : Type} [LinearOrder K] (p q : K × K) : Prop := q.2 < p.2 ∨ (p.2 = q.2 ∧ p.1 < q.1)
/-- `p` is below `q`, ties broken by the smaller `x`. -/
def Below {K : Type} [LinearOrder K] (p q : K × K) : Prop := p.2 < q.2 ∨ (p.2 = q.2 ∧ p.1 < q.1)
/-- `p` is at the left of `q`, ties broken by the smaller `y`. -/
def LeftOf {K : Type} [LinearOrder K] (p q : K × K) : Prop := p.1 < q.1 ∨ (p.1 = q.1 ∧ p.2 < q.2)
/-- `p` is at the right of `q`, ties broken by the smaller `y`. -/
def RightOf {K : Type} [LinearOrder K] (p q : K × K) : Prop := q.1 < p.1 ∨ (p.1 = q.1 ∧ p.2 < q.2)

/-- `p` is found in `cont` for the first time at index `i`, and precedes every other element for `prec`. -/
structure IsFirstFor {P : Type} (prec : P → P → Prop) (cont : List P) (p : P) (i : Nat) : Prop where
  found : cont[i]? = some p
  best  : ∀ q ∈ cont, q = p ∨ prec p q
  first : ∀ (j : Nat) q, j < i → cont[j]? = some q → q ≠ p

/-- The rectangle of opposite corners `lo` and `hi` contains the set `S` and each of its four sides is touched by a point of `S`:
it is the smallest rectangle containing `S`. -/
structure IsTightBox {K : Type} [LinearOrder K] (S : K × K → Prop) (lo hi : K × K) : Prop where
  contains : ∀ p, S p → lo.1 ≤ p.1 ∧ p.1 ≤ hi.1 ∧ lo.2 ≤ p.2 ∧ p.2 ≤ hi.2
  left     : ∃ p, S p ∧ p.1 = lo.1
  right    : ∃ p, S p ∧ p.1 = hi.1
  bottom   : ∃ p, S p ∧ p.2 = lo.2
  top      : ∃ p, S p ∧ p.2 = hi.2

/-- A tight box is included in any rectangle that contains the set (so it is unique). -/
theorem IsTightBox.smallest {K : Type} [LinearOrder K] {S : K × K → Prop} {lo hi : K × K} (h : IsTightBox S lo hi)
    {lo' hi' : K × K} (h' : ∀ p, S p → lo'.1 ≤ p.1 ∧ p.1 ≤ hi'.1 ∧ lo'.2 ≤ p.2 ∧ p.2 ≤ hi'.2) :
    lo'.1 ≤ lo.1 ∧ hi.1 ≤ hi'.1 ∧ lo'.2 ≤ lo.2 ∧ hi.2 ≤ hi'.2 := by
  obtain ⟨a, ha, ha'⟩ := h.left
  obtain ⟨b, hb, hb'⟩ := h.right
  obtain ⟨c, hc, hc'⟩ := h.bottom
  obtain ⟨d, hd, hd'⟩ := h.top
  rw [← ha', ← hb', ← hc', ← hd']
  exact ⟨(h' a ha).1, (h' b hb).2.1, (h' c hc).2.2.1, (h' d hd).2.2.2⟩

/-- Same set, same tight box. -/
theorem IsTightBox.unique {K : Type} [LinearOrder K] {S : K × K → Prop} {lo hi lo' hi' : K × K}
    (h : IsTightBox S lo hi) (h' : IsTightBox S lo' hi') : lo = lo' ∧ hi = hi' := by
  have a := h.smallest h'.contains
  have b := h'.smallest h.contains
  exact ⟨Prod.ext (le_antisymm b.1 a.1) (le_antisymm b.2.2.1 a.2.2.1),
    Prod.ext (le_antisymm a.2.1 b.2.1) (le_antisymm a.2.2.2 b.2.2.2)⟩

/-- The points of the segment from `a` to `b`. -/
def OnSeg {K : Type} [Field K] [LinearOrder K] (a b p : K × K) : Prop :=
  ∃ s : K, 0 ≤ s ∧ s ≤ 1 ∧ p = (a.1 + s * (b.1 - a.1), a.2 + s * (b.2 - a.2))

end H2d.Spec
