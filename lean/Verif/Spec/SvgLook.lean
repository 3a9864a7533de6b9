import Verif.Spec.SvgDoc

/-! # Vocabulary for the colors and the labels in SVG files -/

namespace H2d.Spec
open H2d H2d.Svg

/-- Decimal digits. -/
def decimal (s : List Char) : Option Nat := readInt.readNat s

/-- Value of a hexadecimal digit. -/
def hexDigit (c : Char) : Option Nat :=
  if '0'.toNat ≤ c.toNat ∧ c.toNat ≤ '9'.toNat then some (c.toNat - '0'.toNat)
  else if 'a'.toNat ≤ c.toNat ∧ c.toNat ≤ 'f'.toNat then some (c.toNat - 'a'.toNat + 10)
  else none

/-- The text is a color `rgb(r,g,b)` of SVG. -/
def IsRgb (s : List Char) (c : Nat × Nat × Nat) : Prop :=
  ∃ r g b, s = "rgb(".toList ++ r ++ [','] ++ g ++ [','] ++ b ++ [')'] ∧ decimal r = some c.1 ∧ decimal g = some c.2.1 ∧ decimal b = some c.2.2

/-- The text is a color `#rrggbb` of SVG. -/
def IsHexColor (s : List Char) (c : Nat × Nat × Nat) : Prop :=
  ∃ r r' g g' b b' : Char, s = ['#', r, r', g, g', b, b'] ∧ ∃ x x' y y' z z', hexDigit r = some x ∧ hexDigit r' = some x' ∧ hexDigit g = some y ∧ hexDigit g' = some y' ∧ hexDigit b = some z ∧
    hexDigit b' = some z' ∧ c = (16 * x + x', 16 * y + y', 16 * z + z')

/-- The element is drawn with this color and this thickness. -/
def Stroked (dp : Draw.Vals) (e : Elem) : Prop :=
  (∃ s, attrOf e "stroke" = some s ∧ IsRgb s dp.color) ∧ ∃ s, attrOf e "stroke-width" = some s ∧ readInt s = some (dp.lineThickness : Int)

/-- The texts, in their order. -/
def textsOf (l : List Tok) : List Elem := l.filterMap (fun k => match k with
  | .elem e => if e.name = "text" then some e else none
  | _ => none)

/-- The number without its fractional part. -/
def Truncated (x : ℝ) (n : Int) : Prop := |x - n| < 1 ∧ |(n : ℝ)| ≤ |x|

/-- The text is at this point, up to the truncation of the coordinates. -/
def LabelAt (p : Pt ℝ) (e : Elem) : Prop :=
  ∃ sx sy nx ny, attrOf e "x" = some sx ∧ attrOf e "y" = some sy ∧ readInt sx = some nx ∧ readInt sy = some ny ∧ Truncated p.1 nx ∧ Truncated p.2 ny

/-- The text is at this point, with this size and this color. -/
def TextAt (w : Writer) (dp : Draw.Vals) (p : Pt ℝ) (e : Elem) : Prop :=
  attrOf e "x" = some (w.fmt p.1) ∧ attrOf e "y" = some (w.fmt p.2) ∧ (∃ s, attrOf e "font-size" = some (s ++ ['p', 'x']) ∧ readInt s = some (dp.fontSize : Int)) ∧
    ∃ s, attrOf e "fill" = some s ∧ IsHexColor s dp.color

/-- Each component on 8 bits. -/
def ByteColor (dp : Draw.Vals) : Prop := dp.color.1 < 256 ∧ dp.color.2.1 < 256 ∧ dp.color.2.2 < 256

end H2d.Spec
