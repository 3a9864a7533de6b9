import Verif.Model.Text

/-!
# What a text must show
-/

namespace H2d.Spec
open H2d

variable {K : Type} [Field K] [LinearOrder K]

/-- The characters with which `std::ostream` writes a finite number with the locale "C", an infinite value or a NaN. -/
def numChars : List Char := "0123456789+-.einfaxpbcd".toList

/-- A good way of writing the numbers: with usual characters, something, and two values never have the same text. (True of `std::setprecision(17)` for the values of `double`.) -/
structure Writes (num : K → List Char) : Prop where
  chars : ∀ x, ∀ c ∈ num x, c ∈ numChars
  some : ∀ x, num x ≠ []
  inj : ∀ x y, num x = num y → x = y

/-- Two points that a user cannot tell from each other: same coordinates, or, at infinity, same values. -/
def SamePt (t : Thr K) (p q : V3 K) : Prop :=
  (|p 2| < t.nullDenom ∧ |q 2| < t.nullDenom ∧ p = q) ∨
  (¬ |p 2| < t.nullDenom ∧ ¬ |q 2| < t.nullDenom ∧ p 0 / p 2 = q 0 / q 2 ∧ p 1 / p 2 = q 1 / q 2)

/-- Two primitives of the same type, with the same values. -/
def SamePrim (t : Thr K) : Text.Shape K → Text.Shape K → Prop
  | .point p, .point q => SamePt t p q
  | .line l, .line m => l = m
  | .segment a b, .segment c d => SamePt t a c ∧ SamePt t b d
  | .osegment a b, .osegment c d => SamePt t a c ∧ SamePt t b d
  | .rect a b, .rect c d => SamePt t a c ∧ SamePt t b d
  | .circle c r, .circle d s => SamePt t c d ∧ r = s
  | .ellipse a b c d e, .ellipse a' b' c' d' e' => a = a' ∧ b = b' ∧ c = c' ∧ d = d' ∧ e = e'
  | .opoly l, .opoly m => List.Forall₂ (SamePt t) l m
  | .cpoly l, .cpoly m => List.Forall₂ (SamePt t) l m
  | _, _ => False

/-- A point at infinity and a line with the same three values. -/
def LineAndInf (t : Thr K) : Text.Shape K → Text.Shape K → Prop
  | .point p, .line l => |p 2| < t.nullDenom ∧ p = l
  | .line l, .point p => |p 2| < t.nullDenom ∧ p = l
  | _, _ => False

end H2d.Spec
