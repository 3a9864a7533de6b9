import Verif.Model.Hull

/-!
# Vocabulary for the convex hull
-/

namespace H2d.Spec

/-- What `std::sort` asks of its comparison, on the elements of the list: a strict weak ordering. -/
structure StrictWeakOn {α : Type} (comp : α → α → Bool) (l : List α) : Prop where
  irrefl : ∀ a ∈ l, comp a a = false
  trans : ∀ a ∈ l, ∀ b ∈ l, ∀ c ∈ l, comp a b = true → comp b c = true → comp a c = true
  incomp : ∀ a ∈ l, ∀ b ∈ l, ∀ c ∈ l, comp a b = false → comp b a = false → comp b c = false → comp c b = false → comp a c = false ∧ comp c a = false

/-- The contract of `std::sort`: for a strict weak ordering, a permutation in which no element is smaller than a previous one. -/
def IsSort {α : Type} (srt : (α → α → Bool) → List α → List α) : Prop :=
  ∀ comp l, StrictWeakOn comp l → (srt comp l).Perm l ∧ (srt comp l).Pairwise (fun a b => comp b a = false)

/-- Insertion of an element before the first one that is not smaller. -/
def insOne {α : Type} (comp : α → α → Bool) (x : α) : List α → List α
  | [] => [x]
  | y :: l => if comp y x then y :: insOne comp x l else x :: y :: l

/-- Insertion sort: a stable sort. -/
def insSort {α : Type} (comp : α → α → Bool) : List α → List α
  | [] => []
  | x :: l => insOne comp x (insSort comp l)

section
variable {K : Type} [Field K] [LinearOrder K]

/-- Twice the signed area of the triangle: positive when `c` is on the left of the line from `a` to `b`. -/
def turn (a b c : Pt K) : K := (b.1 - a.1) * (c.2 - a.2) - (b.2 - a.2) * (c.1 - a.1)

/-- The lowest point, and the left-most one of these. -/
def IsPivot (input : List (Pt K)) (p : Pt K) : Prop := p ∈ input ∧ ∀ q ∈ input, p.2 < q.2 ∨ (p.2 = q.2 ∧ p.1 ≤ q.1)

/-- Among the points other than the pivot, no three are on the same line through the pivot. -/
def AtMostTwoPerRay (input : List (Pt K)) : Prop :=
  ∀ p0, IsPivot input p0 → ∀ a ∈ input, ∀ b ∈ input, ∀ c ∈ input, a ≠ p0 → b ≠ p0 → c ≠ p0 → a ≠ b → a ≠ c → b ≠ c →
    ¬ (turn p0 a b = 0 ∧ turn p0 b c = 0)

/-- No triangle has an area so small that the code takes its vertices as aligned when they are not. -/
def ClearTurns (thr : K) (input : List (Pt K)) : Prop := ∀ a ∈ input, ∀ b ∈ input, ∀ c ∈ input, turn a b c = 0 ∨ thr ≤ |turn a b c|

/-- `poly` is the convex hull of the points, counter-clockwise: its vertices are points of the set, different, and all the points are on the left of (or on) each edge. -/
structure IsHull (input poly : List (Pt K)) : Prop where
  size : 3 ≤ poly.length
  sub : ∀ p ∈ poly, p ∈ input
  nodup : poly.Nodup
  left : ∀ e ∈ poly.zip (poly.tail ++ poly.take 1), ∀ p ∈ input, 0 ≤ turn e.1 e.2 p

end

end H2d.Spec
