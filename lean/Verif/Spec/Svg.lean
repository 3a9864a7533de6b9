import Verif.Model.Svg

/-!
# Vocabulary for SVG: what a path means, and how it can be written

The meaning follows the SVG recommendation (https://www.w3.org/TR/SVG2/paths.html), for the commands M, L, H, V, Z in both forms.
-/

namespace H2d.Spec
open H2d

/-! ### Meaning of a path -/

/-- A drawing command; `rel` for the lower case form. -/
inductive PathSeg (K : Type) where
  | line (rel : Bool) (x y : K)
  | hline (rel : Bool) (x : K)
  | vline (rel : Bool) (y : K)

/-- "move to", drawing commands, and maybe "close path". -/
structure SubPath (K : Type) where
  rel : Bool
  x : K
  y : K
  segs : List (PathSeg K)
  closed : Bool

section
variable {K : Type} [Add K]

/-- The point reached by a command, from the current point. -/
def PathSeg.target (cur : Pt K) : PathSeg K → Pt K
  | .line false x y => (x, y)
  | .line true x y => (cur.1 + x, cur.2 + y)
  | .hline false x => (x, cur.2)
  | .hline true x => (cur.1 + x, cur.2)
  | .vline false y => (cur.1, y)
  | .vline true y => (cur.1, cur.2 + y)

/-- The successive points. -/
def trace (cur : Pt K) : List (PathSeg K) → List (Pt K)
  | [] => []
  | s :: l => s.target cur :: trace (s.target cur) l

/-- First point of a sub-path, from the current point. -/
def SubPath.start (cur : Pt K) (s : SubPath K) : Pt K := if s.rel then (cur.1 + s.x, cur.2 + s.y) else (s.x, s.y)

/-- Vertices of a sub-path. -/
def SubPath.vertices (cur : Pt K) (s : SubPath K) : List (Pt K) := s.start cur :: trace (s.start cur) s.segs

/-- Current point after a sub-path: "close path" goes back to its first point. -/
def SubPath.after (cur : Pt K) (s : SubPath K) : Pt K :=
  if s.closed then s.start cur else (trace (s.start cur) s.segs).getLastD (s.start cur)

/-- Vertices of the sub-paths. -/
def pathMeaning (cur : Pt K) : List (SubPath K) → List (List (Pt K))
  | [] => []
  | s :: l => s.vertices cur :: pathMeaning (s.after cur) l

end

/-! ### Writing a path -/

/-- Letter of a command. -/
def PathSeg.letter {K : Type} : PathSeg K → Char
  | .line false _ _ => 'L'
  | .line true _ _ => 'l'
  | .hline false _ => 'H'
  | .hline true _ => 'h'
  | .vline false _ => 'V'
  | .vline true _ => 'v'

/-- Arguments of a command. -/
def PathSeg.args {K : Type} : PathSeg K → List K
  | .line _ x y => [x, y]
  | .hline _ x => [x]
  | .vline _ y => [y]

/-- A number is written with characters `0-9 . -` only, and read back by `stod`. -/
def NumFor {K : Type} (stod : List Char → Option K) (x : K) (s : List Char) : Prop :=
  s ≠ [] ∧ (∀ c ∈ s, c.isDigit ∨ c = '.' ∨ c = '-') ∧ stod s = some x

/-- The commands, as a list of words (letters and numbers). A letter can be left out when it is the implied one, `c`. -/
inductive WritesSegs {K : Type} (stod : List Char → Option K) : Char → List (PathSeg K) → List (List Char) → Prop where
  | nil (c) : WritesSegs stod c [] []
  | letter (c) {s l ws us} : List.Forall₂ (NumFor stod) s.args us → WritesSegs stod s.letter l ws → WritesSegs stod c (s :: l) ([s.letter] :: us ++ ws)
  | implied {s l ws us} : List.Forall₂ (NumFor stod) s.args us → WritesSegs stod s.letter l ws → WritesSegs stod s.letter (s :: l) (us ++ ws)

/-- A sub-path: after "move to", the implied command is "line to". -/
def WritesSub {K : Type} (stod : List Char → Option K) (s : SubPath K) (ws : List (List Char)) : Prop :=
  ∃ ux uy us zs, NumFor stod s.x ux ∧ NumFor stod s.y uy ∧ WritesSegs stod (if s.rel then 'l' else 'L') s.segs us ∧
    (if s.closed then zs = [['Z']] ∨ zs = [['z']] else zs = []) ∧
    ws = [if s.rel then 'm' else 'M'] :: ux :: uy :: us ++ zs

/-- A list of sub-paths. -/
inductive WritesPath {K : Type} (stod : List Char → Option K) : List (SubPath K) → List (List Char) → Prop where
  | nil : WritesPath stod [] []
  | cons {s l ws us} : WritesSub stod s us → WritesPath stod l ws → WritesPath stod (s :: l) (us ++ ws)

/-- A word that is a number (and not a letter). -/
def IsNumWord (w : List Char) : Prop := w ≠ [] ∧ ∀ c ∈ w, c.isDigit ∨ c = '.' ∨ c = '-'

/-- The words are laid out with spaces and commas, at least one of them between two numbers. `prevNum`: the previous word is a number. -/
inductive Spells : (prevNum : Prop) → List (List Char) → List Char → Prop where
  | nil (p) : Spells p [] []
  | cons {p w ws sep str} : (∀ c ∈ sep, c = ' ' ∨ c = ',') → (p → IsNumWord w → sep ≠ []) → Spells (IsNumWord w) ws str → Spells p (w :: ws) (sep ++ w ++ str)

/-- The string is a way of writing these sub-paths. -/
def IsPathString {K : Type} (stod : List Char → Option K) (l : List (SubPath K)) (str : List Char) : Prop :=
  ∃ ws, WritesPath stod l ws ∧ Spells False ws str

/-- Wherever a "close path" letter is, it is the last character, or the next one (after spaces and commas) is another letter. -/
def CloseThenLetter (str : List Char) : Prop :=
  ∀ pre post z, str = pre ++ z :: post → (z = 'z' ∨ z = 'Z') → post = [] ∨
    ∃ sep c post', post = sep ++ c :: post' ∧ (∀ d ∈ sep, d = ' ' ∨ d = ',') ∧ c ≠ ' ' ∧ c ≠ ',' ∧ ¬ (c.isDigit ∨ c = '.' ∨ c = '-')

/-- A number parser for the examples: integers. -/
def readInt (s : List Char) : Option Int :=
  match s with
  | '-' :: l => (readNat l).map (fun n => -(n : Int))
  | l => (readNat l).map (fun n => (n : Int))
where
  /-- Decimal digits. -/
  readNat (l : List Char) : Option Nat :=
    if l = [] then none
    else l.foldl (fun acc c => acc.bind (fun n => if '0'.toNat ≤ c.toNat ∧ c.toNat ≤ '9'.toNat then some (10 * n + (c.toNat - '0'.toNat)) else none)) (some 0)

end H2d.Spec
