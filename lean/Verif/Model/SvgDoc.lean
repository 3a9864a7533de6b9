import Verif.Model.Svg
import Verif.Model.Bisect
import Verif.Model.Axes
import Verif.Model.DrawParams

/-!
# SVG files: drawing of the shapes, and import

A file is a list of tags. The text of the tags is not modelled (names, `=`, quotes), only the names and the values of the attributes: the XML parser (tinyxml2, outside of the repository)
is taken as giving back the names and values that were written, and as calling `VisitExit()` at the end of each element (`exits`). Contents of `<text>`, `<style>` are not modelled.

Parameters: `fmt`, printing of a number (`operator<<`); `stod`, `std::stod` (`none`: exception); `query`, conversion made by `QueryDoubleAttribute()` of tinyxml2 (`none`: failure);
`extra`: the attributes in the string given by the user (`DrawParams::setAttrString()`).
The conversion to `float` in the drawing of points is not modelled.
-/

namespace H2d.Svg
open H2d

/-- Element: name and attributes, in the order of the text. -/
structure Elem where
  name : String
  attrs : List (String × List Char)
  deriving DecidableEq

/-- Tags: `<name ...>`, `</name>`, a complete element `<name .../>` (or `<text ...> </text>`), and the beginning of a tag when its writing was stopped by an exception. -/
inductive Tok where
  | opening (e : Elem)
  | closing (name : String)
  | elem (e : Elem)
  | broken
  deriving DecidableEq

/-- The XML parser: the elements in the order of the calls of `VisitExit()`, `none` when the tags do not match. First argument: the elements that are open. -/
def exits : List Elem → List Tok → Option (List Elem)
  | [], [] => some []
  | _ :: _, [] => none
  | st, .elem e :: r => (exits st r).map (e :: ·)
  | st, .opening e :: r => exits (e :: st) r
  | e :: st, .closing n :: r => if e.name = n then (exits st r).map (e :: ·) else none
  | [], .closing _ :: _ => none
  | _, .broken :: _ => none

/-! ### Drawing -/

/-- A drawing: how it ends, and what it has written. -/
abbrev Drawn := Res Unit × List Tok

/-- Writes some tags. -/
def put (l : List Tok) : Drawn := (.ok (), l)

/-- One drawing after another: an exception stops it, what was written before stays. -/
def andThen (a b : Drawn) : Drawn :=
  match a.1 with
  | .ok _ => (b.1, a.2 ++ b.2)
  | r => (r, a.2)

/-- A computation made before some tags are written. -/
def compute {α : Type} (r : Res α) (k : α → Drawn) : Drawn :=
  match r with
  | .ok x => k x
  | .throw => (.throw, [])
  | .ub => (.ub, [])

/-- How numbers and user attributes are written. -/
structure Writer where
  fmt : ℝ → List Char
  extra : String → List (String × List Char)

/-- An integer on the stream. -/
def intText (n : Int) : List Char := (toString n).toList

/-- `getSvgRgbColor()` (homog2d.hpp:690-699). -/
def colorText (c : Nat × Nat × Nat) : List Char :=
  "rgb(".toList ++ (toString c.1).toList ++ [','] ++ (toString c.2.1).toList ++ [','] ++ (toString c.2.2).toList ++ [')']

/-- The string holds `sub`: `std::string::find()` (homog2d.hpp:678). -/
def holds (sub : List Char) : List Char → Bool
  | [] => sub.isEmpty
  | c :: s => sub.isPrefixOf (c :: s) || holds sub s

/-- `holdsFill()` (homog2d.hpp:675-681). -/
def holdsFill (dp : Draw.Vals) : Bool := holds "fill=".toList dp.attr.toList

/-- The attribute `fill`, and the ones of the user (homog2d.hpp:12084-12086, 12107-12109, 12131-12133, 12318-12320, 683-688). -/
def fillAttrs (w : Writer) (dp : Draw.Vals) : List (String × List Char) :=
  (if holdsFill dp then [] else [("fill", "none".toList)]) ++ w.extra dp.attr

/-- Attributes `stroke`, `stroke-width` (homog2d.hpp:12081-12083, 12104-12106, 12128-12130, 12158-12159, 12315-12317). -/
def strokeAttrs (dp : Draw.Vals) : List (String × List Char) :=
  [("stroke", colorText dp.color), ("stroke-width", intText dp.lineThickness)]

/-- `Circle_::draw()` (homog2d.hpp:12075-12088). -/
def drawCircle (w : Writer) (dp : Draw.Vals) (c : Circle) : List Tok :=
  [.elem ⟨"circle", [("cx", w.fmt c.center.1), ("cy", w.fmt c.center.2), ("r", w.fmt c.radius)] ++ strokeAttrs dp ++ fillAttrs w dp⟩]

/-- `Ellipse_::draw()` (homog2d.hpp:12094-12112). The values are computed after the beginning of the tag has been written (12096-12097). -/
noncomputable def drawEllipse (t : Thr ℝ) (w : Writer) (dp : Draw.Vals) (e : Ell) : Drawn :=
  let r : Res (List Tok) := do
    let c ← e.getCenter t
    let mm ← e.getMajMin t
    let angle ← e.angle t
    pure [.elem ⟨"ellipse", [("cx", w.fmt c.1), ("cy", w.fmt c.2), ("rx", w.fmt mm.1), ("ry", w.fmt mm.2)] ++ strokeAttrs dp ++ fillAttrs w dp ++
    [("transform", "rotate(".toList ++ w.fmt (angle * 180 / Real.pi) ++ [','] ++ w.fmt c.1 ++ [','] ++ w.fmt c.2 ++ [')'])]⟩]
  match r with
  | .ok l => put l
  | .throw => (.throw, [.broken])
  | .ub => (.ub, [.broken])

/-- `FRect_::draw()` (homog2d.hpp:12118-12134). -/
noncomputable def drawRect (w : Writer) (dp : Draw.Vals) (r : FRect ℝ) : List Tok :=
  [.elem ⟨"rect", [("x", w.fmt r.p1.1), ("y", w.fmt r.p1.2), ("width", w.fmt r.width), ("height", w.fmt r.height)] ++ strokeAttrs dp ++ fillAttrs w dp⟩]

/-- `priv::drawSvgSeg()` (homog2d.hpp:12141-12173); `attribs` is empty by default. -/
def drawSvgSeg (w : Writer) (dp : Draw.Vals) (s : Seg) (attribs : List (String × List Char)) : Tok :=
  .elem ⟨"line", [("x1", w.fmt s.1.1), ("y1", w.fmt s.1.2), ("x2", w.fmt s.2.1), ("y2", w.fmt s.2.2)] ++ strokeAttrs dp ++ attribs⟩

/-- The strokes of `detail::drawPt()` (homog2d.hpp:11378-11439) are `Segment_` objects, built from these pairs of points, in this order. `times`: cases `Times` and `Squ`, otherwise `Plus` and `Diam`.
`diag` is `drawDiag`; the branch `ps == Squ` without `drawDiag` is not used (11780). `std::round(0.7*delta)` is the nearest integer, the half being rounded up. -/
def strokePairs (delta : Nat) (p : Pt ℝ) (times diag : Bool) : List (Pt ℝ × Pt ℝ) :=
  let d : ℝ := delta
  let d2 : ℝ := ((7 * delta + 5) / 10 : Nat)
  let v0 : Pt ℝ := if times then (p.1 - d2, p.2 + d2) else (p.1 - d, p.2)
  let v1 : Pt ℝ := if times then (p.1 + d2, p.2 - d2) else (p.1 + d, p.2)
  let v2 : Pt ℝ := if times then (p.1 + d2, p.2 + d2) else (p.1, p.2 - d)
  let v3 : Pt ℝ := if times then (p.1 - d2, p.2 - d2) else (p.1, p.2 + d)
  if diag then [(v0, v2), (v2, v1), (v1, v3), (v0, v3)] else [(v0, v1), (v2, v3)]

/-- Construction of the strokes (homog2d.hpp:11426-11437): one after the other. -/
noncomputable def makeSegs (t : Thr ℝ) : List (Pt ℝ × Pt ℝ) → Res (List Seg)
  | [] => .ok []
  | q :: l => do
    let s ← segMake t false q.1 q.2
    let r ← makeSegs t l
    pure (s :: r)

/-- What is drawn for a point. -/
inductive Mark where
  | nothing
  | dot (c : Circle)
  | strokes (l : List Seg)

/-- Drawing of a point, `impl_draw_LP()` (homog2d.hpp:11748-11789), values of `PtStyle`: 484-492. `flag` is the value of `thr::doNotCheckRadius()`. -/
noncomputable def pointMark (t : Thr ℝ) (flag : Bool) (cols rows : Nat) (dp : Draw.Vals) (p : Pt ℝ) : Res Mark :=
  if p.1 < 0 ∨ (cols : ℝ) ≤ p.1 then .ok .nothing
  else if p.2 < 0 ∨ (rows : ℝ) ≤ p.2 then .ok .nothing
  else
    match dp.style.val with
    | 5 => do
      let c ← circleMake t flag p dp.pointSize
      pure (.dot c)
    | 0 => do
      let l ← makeSegs t (strokePairs dp.ptDelta p false false)
      pure (.strokes l)
    | 2 => do
      let l ← makeSegs t (strokePairs dp.ptDelta p false false)
      let l2 ← makeSegs t (strokePairs dp.ptDelta p true false)
      pure (.strokes (l ++ l2))
    | 3 => do
      let l ← makeSegs t (strokePairs dp.ptDelta p false true)
      pure (.strokes l)
    | 4 => do
      let l ← makeSegs t (strokePairs dp.ptDelta p true true)
      pure (.strokes l)
    | 1 => do
      let l ← makeSegs t (strokePairs dp.ptDelta p true false)
      pure (.strokes l)
    | _ => .ub

/-- The tags of the drawing of a point (homog2d.hpp:11748-11789); the strokes are drawn without their points (11409-11410).
Simplified: the strokes are all built before the first one is drawn (a stroke is drawn as soon as it is built in the code: some may have been written before an exception). -/
noncomputable def drawPoint (t : Thr ℝ) (flag : Bool) (w : Writer) (cols rows : Nat) (dp : Draw.Vals) (p : Pt ℝ) : Drawn :=
  compute (pointMark t flag cols rows dp p) (fun m =>
    match m with
    | .nothing => put []
    | .dot c => put (drawCircle w dp c)
    | .strokes l => put (l.map (fun s => drawSvgSeg w dp s (w.extra dp.attr))))

/-- The drawing of several points, one after the other (homog2d.hpp:12205-12206, 12347-12348). -/
noncomputable def drawPoints (t : Thr ℝ) (flag : Bool) (w : Writer) (cols rows : Nat) (dp : Draw.Vals) : List (Pt ℝ) → Drawn
  | [] => put []
  | p :: l => andThen (drawPoint t flag w cols rows dp p) (drawPoints t flag w cols rows dp l)

/-- The element `<g>`. -/
def group : Elem := ⟨"g", []⟩

/-- `SegVec::draw()` (homog2d.hpp:12183-12212) of a non-oriented segment. -/
noncomputable def drawSeg (t : Thr ℝ) (flag : Bool) (w : Writer) (cols rows : Nat) (dp : Draw.Vals) (s : Seg) : Drawn :=
  andThen (put ((if dp.showPoints then [.opening group] else []) ++ [drawSvgSeg w dp s (w.extra dp.attr)]))
    (andThen (if dp.showPoints then drawPoints t flag w cols rows dp [s.1, s.2] else put [])
      (put (if dp.showPoints then [.closing "g"] else [])))

/-- `SegVec::draw()` (homog2d.hpp:12183-12212) of an oriented segment: the points are never drawn. -/
noncomputable def drawOSeg (t : Thr ℝ) (w : Writer) (dp : Draw.Vals) (s : Seg) : Drawn :=
  andThen (put [.opening group, drawSvgSeg w dp s (w.extra dp.attr)])
    (compute (arrowSegs t s) (fun a => put [drawSvgSeg w dp a.1 [], drawSvgSeg w dp a.2.1 [], drawSvgSeg w dp a.2.2 [], .closing "g"]))

/-- A number in base 16, with at least two digits: `std::hex`, `std::setfill('0')`, `std::setw(2)` (homog2d.hpp:12047-12050). -/
def hexText (n : Nat) : List Char := (if n < 16 then ['0'] else []) ++ Nat.toDigits 16 n

/-- Text at a point: `drawText()` (homog2d.hpp:12042-12052). -/
def drawText (w : Writer) (dp : Draw.Vals) (p : Pt ℝ) : Tok :=
  .elem ⟨"text", [("x", w.fmt p.1), ("y", w.fmt p.2), ("font-size", intText dp.fontSize ++ "px".toList), ("fill", '#' :: (hexText dp.color.1 ++ hexText dp.color.2.1 ++ hexText dp.color.2.2))]⟩

/-- Index of a point of a polyline (homog2d.hpp:12333-12339): the coordinates are truncated. The conversion to `int` of a value that is not in its range is not modelled. -/
noncomputable def indexText (p : Pt ℝ) : Tok :=
  .elem ⟨"text", [("x", intText (if 0 ≤ p.1 then ⌊p.1⌋ else ⌈p.1⌉)), ("y", intText (if 0 ≤ p.2 then ⌊p.2⌋ else ⌈p.2⌉)), ("class", "txt1".toList)]⟩

open Classical in
/-- `PolylineBase::draw()` (homog2d.hpp:12306-12370). The angles are written with the default parameters `dflt` (12364). -/
noncomputable def drawPoly (t : Thr ℝ) (flag : Bool) (w : Writer) (cols rows : Nat) (dflt dp : Draw.Vals) (closed : Bool) (pts : List (Pt ℝ)) : Drawn :=
  if pts.length < 2 then put []
  else
    let g := dp.showIndex || dp.showPoints
    andThen (put (if g then [.opening group] else []))
      (andThen (put [.elem ⟨if closed then "polygon" else "polyline", strokeAttrs dp ++ fillAttrs w dp ++ [("points", writePoints w.fmt pts)]⟩])
        (andThen (put (if dp.showIndex then [.opening group] ++ pts.map indexText ++ [.closing "g"] else []))
          (andThen (if dp.showPoints then andThen (put [.opening group]) (andThen (drawPoints t flag w cols rows dp pts) (put [.closing "g"])) else put [])
            (andThen
              (if dp.showAngles then compute (getOSegs (fun a b => decide (PtEq t a b)) closed pts) (fun osegs => put ((osegs.tail.map (·.1)).map (drawText w dflt)))
                else put [])
              (put (if g then [.closing "g"] else []))))))

/-- What can be drawn. -/
inductive Item where
  | point (p : Pt ℝ)
  | line (l : V3 ℝ)
  | circle (c : Circle)
  | rect (r : FRect ℝ)
  | seg (s : Seg)
  | oseg (s : Seg)
  | poly (closed : Bool) (pts : List (Pt ℝ))
  | ell (e : Ell)

/-- The image: size, and what has been written in it (homog2d.hpp:712-719, `Image<SvgImage>`). -/
structure Image where
  cols : Nat
  rows : Nat
  body : List Tok

/-- Tags written by the drawing of one object: `Image::draw( object, dp )` (homog2d.hpp:889-894); line: 11717-11740, without the points of the segment (11736). -/
noncomputable def drawItem (t : Thr ℝ) (flag : Bool) (w : Writer) (cols rows : Nat) (dflt dp : Draw.Vals) : Item → Drawn
  | .point p => drawPoint t flag w cols rows dp p
  | .line l => compute (lineDrawn t cols rows l) (fun s =>
    match s with
    | none => put []
    | some s => drawSeg t flag w cols rows { dp with showPoints := false } s)
  | .circle c => put (drawCircle w dp c)
  | .rect r => put (drawRect w dp r)
  | .seg s => drawSeg t flag w cols rows dp s
  | .oseg s => drawOSeg t w dp s
  | .poly closed pts => drawPoly t flag w cols rows dflt dp closed pts
  | .ell e => drawEllipse t w dp e

/-- Drawing of an object on an image: outcome and new state of the image. -/
noncomputable def Image.draw (t : Thr ℝ) (flag : Bool) (w : Writer) (dflt : Draw.Vals) (im : Image) (dp : Draw.Vals) (i : Item) : Res Unit × Image :=
  let d := drawItem t flag w im.cols im.rows dflt dp i
  (d.1, { im with body := im.body ++ d.2 })

/-- A sequence of drawings on an image (homog2d.hpp:889-902, 11247-11259, 11314-11373 without the indexes); an exception stops it. -/
noncomputable def drawAll (t : Thr ℝ) (flag : Bool) (w : Writer) (dflt : Draw.Vals) : Image → List (Draw.Vals × Item) → Res Unit × Image
  | im, [] => (.ok (), im)
  | im, d :: l =>
    match im.draw t flag w dflt d.1 d.2 with
    | (.ok _, im') => drawAll t flag w dflt im' l
    | (r, im') => (r, im')

/-- `Image<SvgImage>( width, height )` (homog2d.hpp:827-832). -/
def newImage (width height : Nat) : Image := ⟨width, height, []⟩

/-- Root element (homog2d.hpp:844-846). -/
def rootElem (im : Image) : Elem :=
  ⟨"svg", [("version", "1.1".toList), ("width", (toString im.cols).toList), ("height", (toString im.rows).toList), ("style", "background-color:white;".toList),
    ("xmlns", "http://www.w3.org/2000/svg".toList)]⟩

/-- The file: `write()` (homog2d.hpp:837-853). -/
def writeImage (im : Image) : List Tok := [.opening (rootElem im), .elem ⟨"style", []⟩] ++ im.body ++ [.closing "svg"]

/-! ### Import -/

/-- How numbers are read. -/
structure Reader where
  stod : List Char → Option ℝ
  query : List Char → Option ℝ

/-- First attribute that has this name. -/
def attrOf (e : Elem) (key : String) : Option (List Char) := (e.attrs.find? (fun a => a.1 == key)).map (·.2)

/-- `getAttribValue()` (homog2d.hpp:12921-12928). -/
def getAttribValue (rd : Reader) (e : Elem) (key : String) : Res ℝ :=
  match attrOf e key with
  | none => .throw
  | some s =>
    match rd.query s with
    | none => .throw
    | some x => .ok x

/-- `getAttribString()` (homog2d.hpp:12936-12942). -/
def getAttribString (e : Elem) (key : String) : Res (List Char) :=
  match attrOf e key with
  | none => .throw
  | some s => .ok s

/-- `getEllipseRotateAttr()` (homog2d.hpp:12489-12516). `substr(0,size()-1)` drops the last character; for an empty string the size wraps and nothing is dropped. -/
noncomputable def rotateAttr (rd : Reader) (s : List Char) : Res (Pt ℝ × ℝ) :=
  match tokenize '(' s with
  | [a, b] =>
    if a = "rotate".toList then
      match tokenize ',' b.dropLast with
      | [u, v, z] =>
        match rd.stod u, rd.stod v, rd.stod z with
        | some angle, some x0, some y0 => .ok ((x0, y0), angle * Real.pi / 180)
        | _, _, _ => .throw
      | _ => .throw
    else .throw
  | _ => .throw

/-- Result of the import: `CommonType_` (homog2d.hpp:413-424), with the types that can be imported. -/
inductive Shape where
  | circle (c : Circle)
  | rect (r : FRect ℝ)
  | seg (s : Seg)
  | poly (closed : Bool) (pts : List (Pt ℝ))
  | ell (e : Ell)

/-- Construction of the ellipse (homog2d.hpp:13058-13061). -/
noncomputable def importEllipse (t : Thr ℝ) (x y rx ry theta : ℝ) : Res Ell := do
  let h ← Hom.call (Hom.default.addTranslation t (-x) (-y))
  let h ← Hom.call (h.addRotation t (Real.cos theta) (Real.sin theta))
  let h ← Hom.call (h.addTranslation t x y)
  Ell.homMul t h (Ell.new x y rx ry 0)

open Classical in
/-- `Visitor::VisitExit()` (homog2d.hpp:12970-13077): the shapes added for an element. An exception of type `std::string` is thrown again as a `std::runtime_error` (13071-13073). -/
noncomputable def visitExit (t : Thr ℝ) (flag : Bool) (rd : Reader) (e : Elem) : Res (List Shape) :=
  if e.name = "circle" then do
    let cx ← getAttribValue rd e "cx"
    let cy ← getAttribValue rd e "cy"
    let r ← getAttribValue rd e "r"
    let c ← circleMake t flag (cx, cy) r
    pure [.circle c]
  else if e.name = "rect" then do
    let x1 ← getAttribValue rd e "x"
    let y1 ← getAttribValue rd e "y"
    let w ← getAttribValue rd e "width"
    let h ← getAttribValue rd e "height"
    let r ← FRect.ofPts t.nullOrthogDistance (x1, y1) (x1 + w, y1 + h)
    pure [.rect r]
  else if e.name = "line" then do
    let x1 ← getAttribValue rd e "x1"
    let y1 ← getAttribValue rd e "y1"
    let x2 ← getAttribValue rd e "x2"
    let y2 ← getAttribValue rd e "y2"
    let s ← segMake t false (x1, y1) (x2, y2)
    pure [.seg s]
  else if e.name = "polygon" then do
    let s ← getAttribString e "points"
    let pts ← importPoints rd.stod (fun a b => decide (PtEq t a b)) s
    pure [.poly true pts]
  else if e.name = "polyline" then do
    let s ← getAttribString e "points"
    let pts ← importPoints rd.stod (fun a b => decide (PtEq t a b)) s
    pure [.poly false pts]
  else if e.name = "path" then do
    let s ← getAttribString e "d"
    let l ← importPath rd.stod (fun a b => decide (PtEq t a b)) s
    pure (l.map (fun p => .poly p.1 p.2))
  else if e.name = "ellipse" then do
    let x ← getAttribValue rd e "cx"
    let y ← getAttribValue rd e "cy"
    let rx ← getAttribValue rd e "rx"
    let ry ← getAttribValue rd e "ry"
    let tr ← getAttribString e "transform"
    let rot ← rotateAttr rd tr
    let ell ← importEllipse t x y rx ry rot.2
    pure [.ell ell]
  else pure []

/-- The whole file is visited: `Visitor`, `get()` (homog2d.hpp:12868-12914). An exception ends the import. -/
noncomputable def importElems (t : Thr ℝ) (flag : Bool) (rd : Reader) : List Elem → Res (List Shape)
  | [] => .ok []
  | e :: l => do
    let a ← visitExit t flag rd e
    let b ← importElems t flag rd l
    pure (a ++ b)

/-- Import of a file; `none` when it is not well formed. -/
noncomputable def importFile (t : Thr ℝ) (flag : Bool) (rd : Reader) (file : List Tok) : Option (Res (List Shape)) :=
  (exits [] file).map (importElems t flag rd)

/-- Root element of a file: its first tag. -/
def rootOf : List Tok → Option Elem
  | .opening e :: _ => some e
  | .elem e :: _ => some e
  | _ => none

/-- Loop of `getImgSize()` (homog2d.hpp:13101-13109). -/
def imgSizeLoop (stod : List Char → Option ℝ) : ℝ → ℝ → List (String × List Char) → Res (ℝ × ℝ)
  | w, h, [] => .ok (w, h)
  | w, h, a :: l => do
    let w ← if a.1 = "width" then (match stod a.2 with | some x => .ok x | none => .throw) else .ok w
    let h ← if a.1 = "height" then (match stod a.2 with | some x => .ok x | none => .throw) else .ok h
    imgSizeLoop stod w h l

open Classical in
/-- `getImgSize()` (homog2d.hpp:13096-13113). -/
noncomputable def getImgSize (stod : List Char → Option ℝ) (root : Elem) : Res (ℝ × ℝ) := do
  let s ← imgSizeLoop stod (-1) (-1) root.attrs
  if s.1 = -1 ∨ s.2 = -1 then .throw else .ok s

end H2d.Svg
