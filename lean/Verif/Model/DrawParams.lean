import Verif.Model.Basic

/-!
# Drawing parameters and their shared default values: class `img::DrawParams`
-/

namespace H2d.Draw

/-- `DrawParams::Dp_values` (homog2d.hpp:525-548). `style` is the underlying value of `PtStyle` (484-492), on 8 bits.
Default member values: 527-538. -/
structure Vals where
  color : Nat × Nat × Nat := (80, 80, 80)
  lineThickness : Int := 1
  pointSize : Int := 4
  lineType : Int := 1
  ptDelta : Nat := 5
  style : Fin 256 := 0
  enhancePoint : Bool := false
  showPoints : Bool := false
  showIndex : Bool := false
  showAngles : Bool := false
  fontSize : Int := 20
  attr : String := ""
deriving DecidableEq

/-- `Dp_values()` (homog2d.hpp:525-538), with the default color (431-435). -/
def factory : Vals := {}

/-- `PtStyle::Dot`, the last one (homog2d.hpp:491). -/
def dot : Fin 256 := 5

/-- `nextPointStyle()` (homog2d.hpp:541-547). -/
def nextPointStyle (s : Fin 256) : Fin 256 := if s = dot then 0 else s + 1

/-- The setters of `DrawParams` (homog2d.hpp:585-652); `uint8_t` arguments are `Fin 256`. -/
inductive Setter where
  | pointStyle (s : Fin 256) | pointSize (n : Fin 256) | thickness (n : Fin 256) | color (r g b : Fin 256)
  | selectPoint | showPoints (b : Bool) | fontSize (n : Int) | showIndex (b : Bool) | showAngles (b : Bool) | attr (s : String)

/-- Effect of a setter: value or exception (585-652). `fontSize` with a value of 1 or less stops the program (`assert`, 629). -/
def Setter.run (v : Vals) : Setter → Res Vals
  | .pointStyle s => if dot < s then .throw else .ok { v with style := s }
  | .pointSize n => if n.val % 2 = 0 then .throw else .ok { v with pointSize := n.val, ptDelta := n.val }
  | .thickness n => .ok { v with lineThickness := n.val }
  | .color r g b => .ok { v with color := (r.val, g.val, b.val) }
  | .selectPoint => .ok { v with enhancePoint := true }
  | .showPoints b => .ok { v with showPoints := b }
  | .fontSize n => if 1 < n then .ok { v with fontSize := n } else .ub
  | .showIndex b => .ok { v with showIndex := b }
  | .showAngles b => .ok { v with showAngles := b }
  | .attr s => .ok { v with attr := s }

/-- The shared default (`p_getDefault()`, homog2d.hpp:566-570) and the living objects. -/
structure World where
  dflt : Vals
  objs : List Vals

/-- Start of the program. -/
def World.start : World := { dflt := factory, objs := [] }

/-- What a program can do. -/
inductive Op where
  | create                        -- 573-576
  | copy (i : Nat)                -- implicit copy constructor
  | set (i : Nat) (s : Setter)
  | setDefault (i : Nat)          -- 577-580
  | resetDefault                  -- 581-584

/-- One step; an object that does not exist can't be used: nothing is done. If the setter throws, the object is what it was
(the checks come before the changes, 587, 594). `none`: the program was stopped by the assert. -/
def step (w : World) : Op → Option World
  | .create => some { w with objs := w.objs ++ [w.dflt] }
  | .copy i => match w.objs[i]? with
    | some v => some { w with objs := w.objs ++ [v] }
    | none => some w
  | .set i s => match w.objs[i]? with
    | some v => match s.run v with
      | .ok v' => some { w with objs := w.objs.set i v' }
      | .throw => some w
      | .ub => none
    | none => some w
  | .setDefault i => match w.objs[i]? with
    | some v => some { w with dflt := v }
    | none => some w
  | .resetDefault => some { w with dflt := factory }

/-- A history. -/
def run : World → List Op → Option World
  | w, [] => some w
  | w, op :: ops => match step w op with
    | some w' => run w' ops
    | none => none

end H2d.Draw
