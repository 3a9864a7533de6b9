import Verif.Model.SvgDoc
import Verif.Spec.Svg

/-!
# Vocabulary for the errors in SVG files
-/

namespace H2d.Spec
open H2d H2d.Svg

/-- Attributes that must hold a number. -/
def numericAttrs (name : String) : List String :=
  if name = "circle" then ["cx", "cy", "r"]
  else if name = "rect" then ["x", "y", "width", "height"]
  else if name = "line" then ["x1", "y1", "x2", "y2"]
  else if name = "ellipse" then ["cx", "cy", "rx", "ry"]
  else []

/-- Attributes that must be there. -/
def stringAttrs (name : String) : List String :=
  if name = "polygon" ∨ name = "polyline" then ["points"]
  else if name = "path" then ["d"]
  else if name = "ellipse" then ["transform"]
  else []

/-- The attribute is there, with this value (the first one, when it is given several times). -/
def HasAttr (e : Svg.Elem) (key : String) (v : List Char) : Prop := ∃ pre post, e.attrs = pre ++ (key, v) :: post ∧ ∀ a ∈ pre, a.1 ≠ key

/-- An attribute of the shape is not there, or one of its numbers cannot be read. -/
def Unreadable (rd : Reader) (e : Svg.Elem) : Prop :=
  (∃ k ∈ numericAttrs e.name, ∀ v, HasAttr e k v → rd.query v = none) ∨ ∃ k ∈ stringAttrs e.name, ∀ a ∈ e.attrs, a.1 ≠ k

/-- No empty list of points; in a path, each "close path" letter is the last character or is followed by another letter. -/
def Harmless (e : Svg.Elem) : Prop :=
  ((e.name = "polygon" ∨ e.name = "polyline") → ¬ HasAttr e "points" []) ∧ (e.name = "path" → ∀ v, HasAttr e "d" v → CloseThenLetter v)

/-- The attribute is there and holds this number. -/
def Reads (stod : List Char → Option ℝ) (attrs : List (String × List Char)) (key : String) (x : ℝ) : Prop := ∃ v, (key, v) ∈ attrs ∧ stod v = some x

/-- A text without parenthesis and comma. -/
def FieldText (s : List Char) : Prop := s ≠ [] ∧ '(' ∉ s ∧ ',' ∉ s

end H2d.Spec
