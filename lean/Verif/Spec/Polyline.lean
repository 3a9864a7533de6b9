import Verif.Model.Geom
import Mathlib.Data.List.Rotate

/-! # Specifications for polylines -/

namespace H2d.Spec

/-- `l'` is the same closed cycle of vertices as `l`: same sequence from another starting vertex, possibly run in the other direction. -/
def SameCycle {P : Type} (l l' : List P) : Prop := ∃ k, l' = l.rotate k ∨ l' = l.reverse.rotate k

/-- What is needed of segment/segment intersection to talk about simplicity of a polygon:
it depends neither on the order of the operands, nor on the direction in which the segments are run. -/
structure InterSymm {P : Type} (inter : P × P → P × P → Bool) : Prop where
  comm : ∀ a b, inter a b = inter b a
  swap : ∀ a b, inter a.swap b.swap = inter a b

/-- The intersection predicate is not affected by the map `f` of the plane. -/
def InterInvariant {P : Type} (inter : P × P → P × P → Bool) (f : P → P) : Prop :=
  ∀ a b, inter (Prod.map f f a) (Prod.map f f b) = inter a b

/-- Lexicographic order on points. -/
def LexLt {K : Type} [LinearOrder K] (p q : K × K) : Prop := p.1 < q.1 ∨ (p.1 = q.1 ∧ p.2 < q.2)

/-- The three points are on a common line. -/
def Collinear3 {K : Type} [Ring K] (a b c : K × K) : Prop :=
  (b.1 - a.1) * (c.2 - a.2) = (c.1 - a.1) * (b.2 - a.2)

/-- `b` is the vertex in position `i` of the closed cycle, `a` the previous one, `c` the next one. -/
def Neighbours {P : Type} (l : List P) (i : Nat) (a b c : P) : Prop :=
  l[i]? = some b ∧ l[(i + 1) % l.length]? = some c ∧ l[(i + l.length - 1) % l.length]? = some a

/-- The polygon turns left (`> 0`), right (`< 0`) or not at all (`= 0`) at `b` when coming from `a` and going to `c`. -/
def turnAt {K : Type} [Ring K] (a b c : K × K) : K := (b.1 - a.1) * (c.2 - b.2) - (b.2 - a.2) * (c.1 - b.1)

/-- Both lists have the same size and corresponding points are closer than `t`. -/
def CloseLists {K : Type} [Ring K] [LinearOrder K] (t : K) (l l' : List (K × K)) : Prop :=
  l.length = l'.length ∧ ∀ (i : Nat) (p q : K × K), l[i]? = some p → l'[i]? = some q → (q.1 - p.1)^2 + (q.2 - p.2)^2 < t^2

/-- Direction does not change at `b`: the vector to the next vertex is a positive multiple of the vector from the previous one. -/
def SameDirection {K : Type} [Ring K] [LinearOrder K] (a b c : K × K) : Prop :=
  ∃ k : K, 0 < k ∧ c.1 - b.1 = k * (b.1 - a.1) ∧ c.2 - b.2 = k * (b.2 - a.2)

/-- The polyline turns back on itself at `b`: the next vertex is in the direction of the previous one. -/
def TurnsBack {K : Type} [Ring K] [LinearOrder K] (a b c : K × K) : Prop :=
  ∃ k : K, 0 < k ∧ c.1 - b.1 = k * (a.1 - b.1) ∧ c.2 - b.2 = k * (a.2 - b.2)

/-- The vertex `i` is one that `minimize()` is to remove: direction does not change there (as decided by `mid`), and it is not an end of
an open polyline. -/
def Redundant {P : Type} (mid : P → P → P → Bool) (closed : Bool) (pts : List P) (i : Nat) : Prop :=
  (closed = true ∨ (0 < i ∧ i + 1 < pts.length)) ∧ ∃ a b c, Neighbours pts i a b c ∧ mid a b c = true

end H2d.Spec
