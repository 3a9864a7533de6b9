import Verif.Model.SvgDoc
import Verif.Spec.Ellipse
import Verif.Spec.Svg
import Verif.Spec.Line
import Verif.Spec.Axes

/-!
# Vocabulary for SVG files
-/

namespace H2d.Spec
open H2d H2d.Svg

/-- The text of the number holds no space, comma or parenthesis, and is read back as `y`, by both ways of reading numbers. -/
def ReadsAs (w : Writer) (rd : Reader) (x y : ℝ) : Prop :=
  w.fmt x ≠ [] ∧ ' ' ∉ w.fmt x ∧ ',' ∉ w.fmt x ∧ '(' ∉ w.fmt x ∧ rd.stod (w.fmt x) = some y ∧ rd.query (w.fmt x) = some y

/-- The number is written with enough digits to be read back. -/
def Exact (w : Writer) (rd : Reader) (x : ℝ) : Prop := ReadsAs w rd x x

/-- The object that is drawn, as an imported shape. -/
def shapeOf : Item → List Svg.Shape
  | .circle c => [.circle c]
  | .rect r => [.rect r]
  | .seg s => [.seg s]
  | .poly closed pts => [.poly closed pts]
  | .ell e => [.ell e]
  | _ => []

open Classical in
/-- An object that the constructors accept (and an ellipse whose values can be computed), drawn without its points, with numbers that are written exactly,
and user attributes that do not replace the ones of the shape. -/
def DrawnExactly (t : Thr ℝ) (flag : Bool) (w : Writer) (rd : Reader) (dp : Draw.Vals) : Item → Prop
  | .circle c => 0 ≤ c.radius ∧ (flag = true ∨ t.nullDistance ≤ c.radius) ∧ Exact w rd c.center.1 ∧ Exact w rd c.center.2 ∧ Exact w rd c.radius
  | .rect r => r.p1.1 < r.p2.1 ∧ r.p1.2 < r.p2.2 ∧ t.nullOrthogDistance ≤ r.p2.1 - r.p1.1 ∧ t.nullOrthogDistance ≤ r.p2.2 - r.p1.2 ∧
      Exact w rd r.p1.1 ∧ Exact w rd r.p1.2 ∧ Exact w rd (r.p2.1 - r.p1.1) ∧ Exact w rd (r.p2.2 - r.p1.2)
  | .seg s => segMake t false s.1 s.2 = .ok s ∧ dp.showPoints = false ∧ Exact w rd s.1.1 ∧ Exact w rd s.1.2 ∧ Exact w rd s.2.1 ∧ Exact w rd s.2.2
  | .poly _ pts => pts ≠ [] ∧ polySet (fun a b => decide (PtEq t a b)) pts = .ok pts ∧ dp.showPoints = false ∧ (∀ p ∈ pts, Exact w rd p.1 ∧ Exact w rd p.2) ∧
      ∀ a ∈ w.extra dp.attr, a.1 ≠ "points"
  | .ell e => (∃ x y a b th, e = Ell.new x y a b th ∧ 0 < b ∧ b ≤ a ∧ t.nullDenom ≤ 4 * a ^ 2 * b ^ 2 ∧ AngleOk t a b th ∧
      Exact w rd x ∧ Exact w rd y ∧ Exact w rd a ∧ Exact w rd b) ∧ (∀ th, e.angle t = .ok th → Exact w rd (th * 180 / Real.pi)) ∧
      ∀ a ∈ w.extra dp.attr, a.1 ≠ "transform"
  | _ => False

/-- The number is written with fewer digits: it is read back with an error of at most `delta`. -/
def NearlyRead (w : Writer) (rd : Reader) (delta x : ℝ) : Prop := ∃ y, ReadsAs w rd x y ∧ |y - x| ≤ delta

/-- Coordinates that differ by at most `delta`. -/
def NearPt (delta : ℝ) (p q : Pt ℝ) : Prop := |q.1 - p.1| ≤ delta ∧ |q.2 - p.2| ≤ delta

/-- Same kind of shape, and about the same location: twice the error for the second corner of a rectangle, as its position is computed from two numbers.
The ends of a segment may be exchanged. -/
def NearShape (delta : ℝ) : Svg.Shape → Svg.Shape → Prop
  | .circle c, .circle c' => NearPt delta c.center c'.center ∧ |c'.radius - c.radius| ≤ delta
  | .rect r, .rect r' => NearPt delta r.p1 r'.p1 ∧ NearPt (2 * delta) r.p2 r'.p2
  | .seg s, .seg s' => (NearPt delta s.1 s'.1 ∧ NearPt delta s.2 s'.2) ∨ (NearPt delta s.1 s'.2 ∧ NearPt delta s.2 s'.1)
  | .poly closed pts, .poly closed' pts' => closed' = closed ∧ List.Forall₂ (NearPt delta) pts pts'
  | _, _ => False

/-- An object that is large enough for the error (circles, rectangles, segments, polylines), drawn without its points, with user attributes that do not replace the ones of the shape. -/
def DrawnNearly (t : Thr ℝ) (w : Writer) (rd : Reader) (delta : ℝ) (dp : Draw.Vals) : Item → Prop
  | .circle c => t.nullDistance + delta ≤ c.radius ∧ NearlyRead w rd delta c.center.1 ∧ NearlyRead w rd delta c.center.2 ∧ NearlyRead w rd delta c.radius
  | .rect r => t.nullOrthogDistance + delta ≤ r.p2.1 - r.p1.1 ∧ t.nullOrthogDistance + delta ≤ r.p2.2 - r.p1.2 ∧
      NearlyRead w rd delta r.p1.1 ∧ NearlyRead w rd delta r.p1.2 ∧ NearlyRead w rd delta (r.p2.1 - r.p1.1) ∧ NearlyRead w rd delta (r.p2.2 - r.p1.2)
  | .seg s => t.nullDistance + 4 * delta ≤ eucl s.1 s.2 ∧ dp.showPoints = false ∧
      NearlyRead w rd delta s.1.1 ∧ NearlyRead w rd delta s.1.2 ∧ NearlyRead w rd delta s.2.1 ∧ NearlyRead w rd delta s.2.2
  | .poly _ pts => 2 ≤ pts.length ∧ (∀ s ∈ cycPairs pts, t.nullDistance + 4 * delta ≤ eucl s.1 s.2) ∧ dp.showPoints = false ∧ dp.showAngles = false ∧
      (∀ p ∈ pts, NearlyRead w rd delta p.1 ∧ NearlyRead w rd delta p.2) ∧ ∀ a ∈ w.extra dp.attr, a.1 ≠ "points"
  | _ => False

/-- The XML parser accepts the file. -/
def WellFormed (file : List Tok) : Prop := (exits [] file).isSome

/-- The point is one of the image. -/
def InImg (cols rows : Nat) (p : Pt ℝ) : Prop := 0 ≤ p.1 ∧ p.1 < cols ∧ 0 ≤ p.2 ∧ p.2 < rows

/-- Image of a point by the half-turn around `c`. -/
def halfTurn (c p : Pt ℝ) : Pt ℝ := (2 * c.1 - p.1, 2 * c.2 - p.2)

/-- The symbol of a point, for the six styles (0: plus, 1: times, 2: star, 3: diamond, 4: square, 5: dot) and a size.
It is symmetric around the point, and fits in a square of half-side `size`. Plus, times and star: strokes whose middle is the point, on the axes for the first one, on the diagonals for the second one,
both for the third one. Diamond and square: four strokes that make a closed contour, with corners on the axes for the first one, on the diagonals for the second one. Dot: a circle. -/
def IsSymbol (style : Nat) (size : ℝ) (radius : ℝ) (p : Pt ℝ) : Mark → Prop
  | .nothing => False
  | .dot c => style = 5 ∧ c = ⟨p, radius⟩
  | .strokes l =>
      let ends := l.map (·.1) ++ l.map (·.2)
      l.length = (if style ≤ 1 then 2 else 4) ∧ (∀ e ∈ ends, |e.1 - p.1| ≤ size ∧ |e.2 - p.2| ≤ size ∧ e ≠ p) ∧
      (∀ s ∈ l, ∃ s' ∈ l, SameEnds s' (halfTurn p s.1) (halfTurn p s.2)) ∧
      (style ≤ 2 ∧ (∀ s ∈ l, middle s.1 s.2 = p) ∨ (style = 3 ∨ style = 4) ∧ ∀ e ∈ ends, ∃ s ∈ l, ∃ s' ∈ l, s ≠ s' ∧ (s.1 = e ∨ s.2 = e) ∧ (s'.1 = e ∨ s'.2 = e)) ∧
      (style = 0 ∨ style = 2 ∨ style = 3 → ∀ e, (e = (p.1 + size, p.2) ∨ e = (p.1 - size, p.2) ∨ e = (p.1, p.2 + size) ∨ e = (p.1, p.2 - size)) → e ∈ ends) ∧
      (style = 1 ∨ style = 2 ∨ style = 4 → ∃ d, 0 < d ∧ |d - 7 / 10 * size| ≤ 1 / 2 ∧
        ∀ e, (e = (p.1 + d, p.2 + d) ∨ e = (p.1 - d, p.2 + d) ∨ e = (p.1 + d, p.2 - d) ∨ e = (p.1 - d, p.2 - d)) → e ∈ ends)

/-- The elements that are written for a symbol. -/
def Shows (w : Writer) : Mark → List Tok → Prop
  | .nothing, l => l = []
  | .dot c, l => ∃ rest, l = [.elem ⟨"circle", [("cx", w.fmt c.center.1), ("cy", w.fmt c.center.2), ("r", w.fmt c.radius)] ++ rest⟩]
  | .strokes ss, l => List.Forall₂ (fun s k => ∃ rest, k = Tok.elem ⟨"line", [("x1", w.fmt s.1.1), ("y1", w.fmt s.1.2), ("x2", w.fmt s.2.1), ("y2", w.fmt s.2.2)] ++ rest⟩) ss l

/-- `rotate(angle,c)` in a SVG file (angle in radians). -/
noncomputable def svgRotate (angle : ℝ) (c p : Pt ℝ) : Pt ℝ :=
  (c.1 + (p.1 - c.1) * Real.cos angle - (p.2 - c.2) * Real.sin angle, c.2 + (p.1 - c.1) * Real.sin angle + (p.2 - c.2) * Real.cos angle)

/-- The text of attributes, as a user writes it. -/
def attrText (l : List (String × List Char)) : List Char := l.flatMap (fun a => a.1.toList ++ ['=', '"'] ++ a.2 ++ ['"', ' '])

/-- The elements that have an inside. -/
def filledNames : List String := ["circle", "rect", "polygon", "polyline", "ellipse"]

/-- The names of the attributes that are written for the shapes, other than `fill`. -/
def ownKeys : List String := ["cx", "cy", "r", "rx", "ry", "x", "y", "width", "height", "x1", "y1", "x2", "y2", "points", "transform", "stroke", "stroke-width"]

/-- Attributes of a user: different names, without the characters that have a meaning in the text, and not the ones of the shapes. -/
def UserAttrs (l : List (String × List Char)) : Prop :=
  (l.map (·.1)).Nodup ∧ ∀ a ∈ l, a.1 ∉ ownKeys ∧ '=' ∉ a.1.toList ∧ '"' ∉ a.1.toList ∧ ' ' ∉ a.1.toList ∧ '"' ∉ a.2

/-- The text `fill=` is found only for the attribute `fill`: no other name ends with `fill`, no value holds `fill=`. -/
def FillClear (l : List (String × List Char)) : Prop :=
  ∀ a ∈ l, ("fill".toList <:+ a.1.toList → a.1 = "fill") ∧ ¬ "fill=".toList <:+: a.2

/-- The string given by the user is the text of these attributes, and the XML parser reads it as such. -/
def Gives (w : Writer) (dp : Draw.Vals) (l : List (String × List Char)) : Prop := dp.attr = String.ofList (attrText l) ∧ w.extra dp.attr = l

/-- No attribute is given twice; the elements that have an inside hold the attributes of the user, and are not filled if the user gives no attribute `fill`. -/
def GoodAttrs (l : List (String × List Char)) (e : Elem) : Prop :=
  (e.attrs.map (·.1)).Nodup ∧ (e.name ∈ filledNames → (∀ a ∈ l, a ∈ e.attrs) ∧ ((∀ a ∈ l, a.1 ≠ "fill") → ("fill", "none".toList) ∈ e.attrs))

/-- The names of the elements that become shapes. -/
def shapeNames : List String := ["circle", "rect", "line", "polygon", "polyline", "path", "ellipse"]

/-- For the examples: integers written in full, no user attributes. -/
noncomputable def intWriter : Writer := ⟨fun x => (toString ⌊x⌋).toList, fun _ => []⟩

/-- For the examples: integers. -/
def intReader : Reader := ⟨fun s => (readInt s).map (fun n : Int => (n : ℝ)), fun s => (readInt s).map (fun n : Int => (n : ℝ))⟩

open Classical in
/-- For the examples: the numbers 1 and 2, and 90 radians in degrees. -/
noncomputable def vertWriter : Writer := ⟨fun x => if x = 90 * 180 / Real.pi then ['a'] else if x = 2 then ['2'] else ['1'], fun _ => []⟩

/-- For the examples: the same numbers. -/
noncomputable def vertReader : Reader :=
  ⟨fun s => if s = ['a'] then some (90 * 180 / Real.pi) else (readInt s).map (fun n : Int => (n : ℝ)), fun s => if s = ['a'] then some (90 * 180 / Real.pi) else (readInt s).map (fun n : Int => (n : ℝ))⟩

end H2d.Spec
