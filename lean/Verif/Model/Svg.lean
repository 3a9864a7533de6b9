import Verif.Model.Polyline

/-!
# SVG export and import of polylines

Strings are lists of characters (no `NUL`, they come from a `const char*`). Printing and parsing of numbers (`operator<<`, `std::stod`) are parameters: `fmt`, and `stod` that is `none` when it throws.
Reading `*it` at the end of a `std::string` is taken as reading the terminating `NUL`.
Compiled with assertions: a failed `assert` is `ub`.
-/

namespace H2d.Svg
open H2d

/-! ### Polygons and polylines -/

/-- Attribute `points` written by `PolylineBase::draw` (homog2d.hpp:12322-12323). The rest of the element (colour, thickness...) is not modelled. -/
def writePoints {K : Type} (fmt : K → List Char) (pts : List (Pt K)) : List Char :=
  pts.flatMap (fun pt => fmt pt.1 ++ [','] ++ fmt pt.2 ++ [' '])

/-- `std::getline` loop of `tokenize` (homog2d.hpp:12474-12484), `item` is the part read so far, reversed: a delimiter ends an item, the end of the string ends an item only if it is not empty. -/
def tokenizeLoop (delim : Char) : List Char → List Char → List (List Char)
  | item, [] => if item = [] then [] else [item.reverse]
  | item, c :: s => if c = delim then item.reverse :: tokenizeLoop delim [] s else tokenizeLoop delim (c :: item) s

/-- `svgp::tokenize` (homog2d.hpp:12474-12484). -/
def tokenize (delim : Char) (s : List Char) : List (List Char) := tokenizeLoop delim [] s

/-- Loop of `parsePoints` (homog2d.hpp:12531-12539). -/
def parsePointsLoop {K : Type} (stod : List Char → Option K) : List (List Char) → Res (List (Pt K))
  | [] => .ok []
  | pt :: v1 =>
    match tokenize ',' pt with
    | [a, b] =>
      match stod a, stod b with
      | some x, some y => do
        let out ← parsePointsLoop stod v1
        pure ((x, y) :: out)
      | _, _ => .throw
    | _ => .throw

/-- `svgp::parsePoints` (homog2d.hpp:12524-12541). -/
def parsePoints {K : Type} (stod : List Char → Option K) (s : List Char) : Res (List (Pt K)) := parsePointsLoop stod (tokenize ' ' s)

/-- Removal of the last point when it is equal to the first (homog2d.hpp:12952-12953, 13033-13034). `front()`, `back()` of an empty vector are undefined. -/
def dropClosing {K : Type} (same : Pt K → Pt K → Bool) (pts : List (Pt K)) : Res (List (Pt K)) :=
  match pts with
  | [] => .ub
  | a :: l => if same a (l.getLastD a) then .ok (a :: l).dropLast else .ok (a :: l)

/-- Elements `polygon`, `polyline`: `importSvgPoints` (homog2d.hpp:12947-12956) and construction of the polyline (13009-13021), given the attribute `points`. -/
def importPoints {K : Type} (stod : List Char → Option K) (same : Pt K → Pt K → Bool) (s : List Char) : Res (List (Pt K)) := do
  let v ← parsePoints stod s
  let v ← dropClosing same v
  polySet same v

/-! ### Paths -/

/-- `svgp::isDigit` (homog2d.hpp:12545-12548). -/
def isDigit (c : Char) : Bool := (decide ('0'.toNat ≤ c.toNat) && decide (c.toNat ≤ '9'.toNat)) || c == '.' || c == '-'

/-- Skipped characters (homog2d.hpp:12564). -/
def isSep (c : Char) : Bool := c == ' ' || c == ','

/-- `svgp::getNextElem` (homog2d.hpp:12561-12586): the element, and the part of the string after it. -/
def getNextElem (s : List Char) : List Char × List Char :=
  match s.dropWhile isSep with
  | [] => ([], [])
  | c :: r => if isDigit c then ((c :: r).takeWhile isDigit, (c :: r).dropWhile isDigit) else ([c], r)

/-- `SvgPathCommand` (homog2d.hpp:12612-12632). -/
structure PathCmd where
  rel : Bool := false
  cmd : Char := 'M'
  nb : Nat := 2
  deriving DecidableEq

/-- `svgp::numberValues` (homog2d.hpp:12592-12606). -/
def numberValues (c : Char) : Option Nat :=
  if c = 'M' ∨ c = 'L' ∨ c = 'T' then some 2
  else if c = 'H' ∨ c = 'V' then some 1
  else if c = 'C' then some 6
  else if c = 'S' ∨ c = 'Q' then some 4
  else if c = 'A' then some 7
  else if c = 'Z' then some 0
  else none

/-- `isNewPolyline` (homog2d.hpp:12626-12631). -/
def PathCmd.isNewPolyline (m : PathCmd) : Bool := m.cmd == 'm' || m.cmd == 'M' || m.cmd == 'z' || m.cmd == 'Z'

/-- `svgPathCommandIsAllowed` (homog2d.hpp:12551-12556). -/
def cmdAllowed (c : Char) : Bool := c == 'M' || c == 'L' || c == 'H' || c == 'V' || c == 'Z'

/-- `svgp::getCommand` (homog2d.hpp:12698-12736), with `setCommand` (12621-12625). -/
def getCommand (c : Char) : Res PathCmd :=
  match numberValues c with
  | some n => .ok ⟨false, c, n⟩
  | none =>
    if 'a'.toNat ≤ c.toNat ∧ c.toNat ≤ 'z'.toNat then
      match numberValues (Char.ofNat (c.toNat - 32)) with
      | some n => .ok ⟨true, Char.ofNat (c.toNat - 32), n⟩
      | none => .throw
    else .throw

/-- `svgp::generateNewPoint` (homog2d.hpp:12638-12694). -/
def generateNewPoint {K : Type} [Add K] (mode : PathCmd) (prev : Pt K) (val : List K) : Res (Pt K) :=
  if mode.cmd = 'M' ∨ mode.cmd = 'L' then
    match val with
    | [x, y] => .ok (if mode.rel then (prev.1 + x, prev.2 + y) else (x, y))
    | _ => .ub
  else if mode.cmd = 'H' then
    match val with
    | [x] => .ok (if mode.rel then (x + prev.1, prev.2) else (x, prev.2))
    | _ => .ub
  else if mode.cmd = 'V' then
    match val with
    | [y] => .ok (if mode.rel then (prev.1, y + prev.2) else (prev.1, y))
    | _ => .ub
  else .ub

/-- `svgp::purgeSetDupes` (homog2d.hpp:12742-12755), for a set that is not empty (guard at 12850). `same` is the equality of points. -/
def purgeSetDupes {P : Type} (same : P → P → Bool) : List P → List P
  | [] => []
  | [a] => [a]
  | a :: b :: l => if same a b then purgeSetDupes same (b :: l) else a :: purgeSetDupes same (b :: l)

/-- The variables of `parsePath` (homog2d.hpp:12802-12812): `vout` is `done ++ [cur]` (`idx` is always the last one), `values`/`prev` are the members of `SvgValuesBuffer` (12760-12788). -/
structure PState (K : Type) where
  mode : PathCmd
  done : List (List (Pt K))
  cur : List (Pt K)
  values : List K
  prev : Pt K

section
variable {K : Type} [Add K]

/-- `SvgValuesBuffer::storeValues` (homog2d.hpp:12770-12783). -/
def storeValues (st : PState K) : Res (PState K) :=
  if st.values.length ≠ st.mode.nb then .throw
  else do
    let pt ← generateNewPoint st.mode st.prev st.values
    pure { st with cur := st.cur ++ [pt], prev := pt, values := [] }

/-- homog2d.hpp:12820-12821, 12845-12846. -/
def storeIfAny (st : PState K) : Res (PState K) := if st.values.length ≠ 0 then storeValues st else .ok st

/-- homog2d.hpp:12838-12839. -/
def storeIfFull (st : PState K) : Res (PState K) := if st.values.length = st.mode.nb then storeValues st else .ok st

/-- Body of the loop of `parsePath` for element `e` (homog2d.hpp:12818-12841). -/
def pathStep (stod : List Char → Option K) (e : List Char) (st : PState K) : Res (PState K) :=
  match e with
  | [c] =>
    if isDigit c then pathValue stod e st
    else do
      let st ← storeIfAny st
      let mode ← getCommand c
      if !cmdAllowed mode.cmd then .throw
      else if mode.isNewPolyline && !st.cur.isEmpty then pure { st with mode := mode, done := st.done ++ [st.cur], cur := [] }
      else pure { st with mode := mode }
  | _ => pathValue stod e st
where
  /-- homog2d.hpp:12838-12840, with `addValue` (12784-12787). -/
  pathValue (stod : List Char → Option K) (e : List Char) (st : PState K) : Res (PState K) := do
    let st ← storeIfFull st
    match stod e with
    | some x => pure { st with values := st.values ++ [x] }
    | none => .throw

/-- The `do ... while` loop of `parsePath` (homog2d.hpp:12813-12843), at most `fuel` iterations, `none` if it is not finished by then. -/
def pathLoop (stod : List Char → Option K) : Nat → List Char → PState K → Option (Res (PState K))
  | 0, _, _ => none
  | fuel + 1, s, st =>
    match pathStep stod (getNextElem s).1 st with
    | .ok st' => if (getNextElem s).2 = [] then some (.ok st') else pathLoop stod fuel (getNextElem s).2 st'
    | .throw => some .throw
    | .ub => some .ub

/-- End of `parsePath` (homog2d.hpp:12845-12858). -/
def pathEnd (same : Pt K → Pt K → Bool) (st : PState K) : Res (List (List (Pt K)) × Bool) := do
  let st ← storeIfAny st
  let vout := (st.done ++ [st.cur]).map (fun v => if v = [] then v else purgeSetDupes same v)
  let vout := if (vout.getLastD []).isEmpty then vout.dropLast else vout
  pure (vout, st.mode.cmd == 'Z')
end

/-- `svgp::parsePath` (homog2d.hpp:12800-12859). A loop that is not finished after as many iterations as there are characters is given as `ub`; the theorems show that it does not happen. -/
def parsePath {K : Type} [Add K] [Zero K] [DecidableEq K] (stod : List Char → Option K) (same : Pt K → Pt K → Bool) (s : List Char) : Res (List (List (Pt K)) × Bool) :=
  if s = [] then .throw
  else
    match pathLoop stod s.length s ⟨{}, [], [], [], (0, 0)⟩ with
    | some (.ok st) => pathEnd same st
    | some .throw => .throw
    | some .ub => .ub
    | none => .ub

/-- Loop of the element `path` (homog2d.hpp:13030-13040): `out` has the polylines added so far. An exception ends it (13042) and leaves those. -/
def importPathLoop {K : Type} (same : Pt K → Pt K → Bool) (closed : Bool) : List (List (Pt K)) → List (Bool × List (Pt K)) → Res (List (Bool × List (Pt K)))
  | [], out => .ok out
  | v :: vs, out =>
    match dropClosing same v with
    | .ok v' =>
      match polySet same v' with
      | .ok p => importPathLoop same closed vs (out ++ [(closed, p)])
      | .throw => .ok out
      | .ub => .ub
    | .throw => .ok out
    | .ub => .ub

/-- Element `path` of `Visitor::VisitExit` (homog2d.hpp:13023-13049): the polylines (with their type) that are added. All the exceptions are caught. -/
def importPath {K : Type} [Add K] [Zero K] [DecidableEq K] (stod : List Char → Option K) (same : Pt K → Pt K → Bool) (s : List Char) : Res (List (Bool × List (Pt K))) :=
  match parsePath stod same s with
  | .ok r => importPathLoop same r.2 r.1 []
  | .throw => .ok []
  | .ub => .ub

end H2d.Svg
