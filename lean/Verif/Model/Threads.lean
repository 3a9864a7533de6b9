import Verif.Model.PolyState
import Verif.Model.Homogr

/-!
# Several threads calling const members on the same object

A thread does one elementary access to the shared object at a time, in the order of the code; a schedule is the list of the
numbers of the threads that do the successive accesses. Simplification: the memory is sequentially consistent and each access to
a word (a number, a boolean, a pointer, the coordinates of a vertex) is done at once. It is the most favourable reading of the code: for the standard, two
unordered accesses to a word, one being a write, are undefined behaviour.
-/

namespace H2d

/-- The accesses done by the threads, one by one: `step` is what a thread does, with the memory, when its turn comes. -/
def runThreads {M T : Type} (step : M → T → M × T) : List ℕ → M × (ℕ → T) → M × (ℕ → T)
  | [], s => s
  | i :: is, s => runThreads step is ((step s.1 (s.2 i)).1, fun j => if j = i then (step s.1 (s.2 i)).2 else s.2 j)

/-- A word of an attribute. -/
inductive Word (K : Type) where
  | num (x : K)
  | bit (b : Bool)
  deriving DecidableEq

/-- The attributes of `PolylineAttribs` (homog2d.hpp:5878-5892). -/
inductive Attr where
  | len | simple | area | cent
  deriving DecidableEq

/-- Number of words of the value: the centroid is a `Point2d_`, with three of them (homog2d.hpp:5880-5883, 3800). -/
def Attr.width : Attr → ℕ
  | .cent => 3
  | _ => 1

/-- The mutable members of a polyline (homog2d.hpp:6092-6094): the points, the flag of the normalisation, and, for each attribute, the
`_value` (word by word) and the `_valIsCorrect` of its `ValueFlag` (5858-5873). -/
structure PMem (K : Type) where
  pts : List (Pt K)
  norm : Bool
  cell : Attr → ℕ → Word K
  flag : Attr → Bool

/-- Const calls on a polyline. `points` is a copy of `getPts()`, `compare` is what `operator ==` does with one of its operands. -/
inductive PCall where
  | length | isSimple | area | centroid | points | compare
  deriving DecidableEq

/-- Where a thread is in its current call. -/
inductive PPc (K : Type) where
  | idle                                        -- between two calls
  | size                                        -- `size()<3`, in isSimple()
  | test (a : Attr)                             -- `isBad()`
  | scan (a : Attr) (acc : List (Pt K))         -- computation: the vertices read so far
  | store (a : Attr) (ws : List (Word K)) (j : ℕ)  -- `_value = v` in `set()`: next word
  | mark (a : Attr)                             -- `_valIsCorrect = true` in `set()`
  | load (a : Attr) (acc : List (Word K))       -- `value()`: the words read so far
  | norm                                        -- `p_normalizePoly()`
  | copy (acc : List (Pt K))                    -- reads the vertices

/-- A thread: calls not returned yet (the first one is the current one), place in it, and outcomes of the others. -/
structure PThread (K : Type) where
  todo : List PCall
  pc : PPc K
  out : List (PCall × Res (List (Word K)))

/-- A thread that has not started. -/
def PThread.start (K : Type) (prog : List PCall) : PThread K := ⟨prog, .idle, []⟩

section
variable {K : Type} [Field K] [LinearOrder K]

/-- The words of a vertex, or of a point. -/
def ptWords (p : Pt K) : List (Word K) := [.num p.1, .num p.2]

/-- Value of an attribute, computed from the vertices (homog2d.hpp:7391-7413, 7473-7476, 7491, 7529-7549). Simplification: the vertices
are read one by one, once and in order; the code reads each one several times. The words of the centroid are those of
`Point2d_(cx,cy)`. -/
def Attr.compute (e : Env K) (closed : Bool) (pts : List (Pt K)) : Attr → Res (List (Word K))
  | .len => (freshLen e closed pts).bind fun v => .ok [.num v]
  | .simple => (freshSimple e closed pts).bind fun b => .ok [.bit b]
  | .area => .ok [.num |signedArea pts|]
  | .cent => .ok [.num (centroidRaw pts).1, .num (centroidRaw pts).2, .num 1]

/-- First access of a call: `length()` (homog2d.hpp:7471), `isSimple()`, called by the two others (7387, 7487, 7524), `p_normalizePoly()` (6542). -/
def PCall.entry : PCall → PPc K
  | .length => .test .len
  | .isSimple | .area | .centroid => .size
  | .points => .copy []
  | .compare => .norm

/-- The current call returns. -/
def PThread.ret (th : PThread K) (r : Res (List (Word K))) : PThread K :=
  match th.todo with
  | [] => { th with pc := .idle }
  | c :: cs => { todo := cs, pc := .idle, out := th.out ++ [(c, r)] }

/-- After the answer of `isSimple()` (homog2d.hpp:7487-7490, 7524-7527). -/
def PThread.afterSimple (th : PThread K) (b : Bool) : PThread K :=
  match th.todo.head? with
  | some .area => if b then { th with pc := .test .area } else th.ret (.ok [.num 0])
  | some .centroid => if b then { th with pc := .test .cent } else th.ret .throw
  | _ => th.ret (.ok [.bit b])

/-- The value of an attribute has been read. -/
def PThread.gotValue (th : PThread K) (a : Attr) (ws : List (Word K)) : PThread K :=
  match a, ws with
  | .simple, .bit b :: _ => th.afterSimple b
  | _, _ => th.ret (.ok ws)

/-- One access by a thread: `isSimple()`, `length()`, `area()`, `centroid()` (homog2d.hpp:7385-7417, 7469-7479, 7485-7493, 7522-7553),
`ValueFlag::set/value/isBad` (5863-5872), `p_normalizePoly()` and `operator ==` (7569-7610, 6537-6555). Simplification: the whole of `p_normalizePoly()`
is one access. -/
def polyStep (e : Env K) (closed : Bool) (m : PMem K) (th : PThread K) : PMem K × PThread K :=
  match th.pc with
  | .idle =>
      match th.todo with
      | [] => (m, th)
      | c :: _ => (m, { th with pc := c.entry })
  | .size => (m, if m.pts.length < 3 ∨ closed = false then th.afterSimple false else { th with pc := .test .simple })
  | .test a => (m, if m.flag a then { th with pc := .load a [] } else { th with pc := .scan a [] })
  | .scan a acc =>
      match m.pts[acc.length]? with
      | some p => (m, { th with pc := .scan a (acc ++ [p]) })
      | none =>
          match a.compute e closed acc with
          | .ok ws => (m, { th with pc := .store a ws 0 })
          | .throw => (m, th.ret .throw)
          | .ub => (m, th.ret .ub)
  | .store a ws j =>
      match ws[j]? with
      | some w => ({ m with cell := fun a' j' => if a' = a ∧ j' = j then w else m.cell a' j' }, { th with pc := .store a ws (j + 1) })
      | none => (m, { th with pc := .mark a })
  | .mark a => ({ m with flag := fun a' => if a' = a then true else m.flag a' }, { th with pc := .load a [] })
  | .load a acc =>
      if acc.length < a.width then (m, { th with pc := .load a (acc ++ [m.cell a acc.length]) })
      else (m, th.gotValue a acc)
  | .norm =>
      if m.norm ∨ m.pts = [] then (m, { th with pc := .copy [] })
      else
        match normalizePoly closed m.pts with
        | .ok q => ({ m with pts := q, norm := true }, { th with pc := .copy [] })
        | .throw => (m, th.ret .throw)
        | .ub => (m, th.ret .ub)
  | .copy acc =>
      match m.pts[acc.length]? with
      | some p => (m, { th with pc := .copy (acc ++ [p]) })
      | none => (m, th.ret (.ok (acc.flatMap ptWords)))

/-- A new polyline (homog2d.hpp:6092-6094, 5858-5861): no attribute is known; the words of the values may be anything. -/
def PMem.new (pts : List (Pt K)) (cell : Attr → ℕ → Word K) : PMem K := ⟨pts, false, cell, fun _ => false⟩

end

/-! ## The product of a homography with a line -/

/-- The members of a homography that the product with a line reads or writes (homog2d.hpp:1475, 2037-2038): the matrix, the flag `_hasChanged`, the pointer
`_hmt`; and the matrices allocated for it, `none` once deleted. -/
structure HMem (K : Type) where
  m : Mat K
  changed : Bool
  ptr : Option ℕ
  heap : List (Option (Mat K))

/-- Where a thread is in the product (homog2d.hpp:9680-9695). -/
inductive HPc (K : Type) where
  | idle
  | testNull                       -- 9680
  | alloc                          -- 9682: `new`
  | setPtr (id : ℕ)                -- 9682: move assignment of the `unique_ptr`, deletes the previous matrix
  | setChanged                     -- 9683
  | testChanged                    -- 9686
  | compute                        -- 9688-9689
  | deref (mi : Mat K)             -- 9690: the pointer is read
  | store (id : ℕ) (mi : Mat K) (j : ℕ)   -- 9690: next word
  | clear                          -- 9691
  | derefProd                      -- 9695: the pointer is read
  | load (id : ℕ) (acc : List K)   -- 9695: the words read so far

/-- A thread: lines to be transformed, place in the product, and outcomes. -/
structure HThread (K : Type) where
  todo : List (V3 K)
  pc : HPc K
  out : List (V3 K × Res (V3 K))

/-- A thread that has not started. -/
def HThread.start (K : Type) (prog : List (V3 K)) : HThread K := ⟨prog, .idle, []⟩

section
variable {K : Type} [Field K] [LinearOrder K]

/-- The current product ends. -/
def HThread.ret (th : HThread K) (r : V3 K → Res (V3 K)) : HThread K :=
  match th.todo with
  | [] => { th with pc := .idle }
  | l :: ls => { todo := ls, pc := .idle, out := th.out ++ [(l, r l)] }

/-- Row and column of word `j` of a matrix. -/
def cellOf (j : ℕ) : Fin 3 × Fin 3 := (⟨j / 3 % 3, Nat.mod_lt _ (by decide)⟩, ⟨j % 3, Nat.mod_lt _ (by decide)⟩)

/-- The matrix whose words are in a list. -/
def matOfWords (ws : List K) : Mat K := fun i j => ws.getD (3 * i.1 + j.1) 0

/-- One access by a thread that computes `h * line` (homog2d.hpp:9678-9695), before the final normalisation of the line. An access to a deleted matrix is undefined behaviour: the
call is said to return `ub`. Simplification: the copy of the homography and the inverse are one access (the matrix is not written by anyone). -/
def homStep (t : Thr K) (s : HMem K) (th : HThread K) : HMem K × HThread K :=
  match th.pc with
  | .idle =>
      match th.todo with
      | [] => (s, th)
      | _ :: _ => (s, { th with pc := .testNull })
  | .testNull => (s, if s.ptr = none then { th with pc := .alloc } else { th with pc := .testChanged })
  | .alloc => ({ s with heap := s.heap ++ [some fun _ _ => 0] }, { th with pc := .setPtr s.heap.length })
  | .setPtr id =>
      ({ s with ptr := some id, heap := match s.ptr with | some old => s.heap.set old none | none => s.heap }, { th with pc := .setChanged })
  | .setChanged => ({ s with changed := true }, { th with pc := .testChanged })
  | .testChanged => (s, if s.changed then { th with pc := .compute } else { th with pc := .derefProd })
  | .compute =>
      match Hom.invTransp t { m := s.m, isNorm := false, changed := s.changed, hmt := none } with
      | .ok mi => (s, { th with pc := .deref mi })
      | .throw => (s, th.ret fun _ => .throw)
      | .ub => (s, th.ret fun _ => .ub)
  | .deref mi =>
      match s.ptr with
      | some id => (s, { th with pc := .store id mi 0 })
      | none => (s, th.ret fun _ => .ub)
  | .store id mi j =>
      if j < 9 then
        match s.heap[id]? with
        | some (some a) => ({ s with heap := s.heap.set id (some (a.write (cellOf j).1 (cellOf j).2 (mi (cellOf j).1 (cellOf j).2))) },
            { th with pc := .store id mi (j + 1) })
        | _ => (s, th.ret fun _ => .ub)
      else (s, { th with pc := .clear })
  | .clear => ({ s with changed := false }, { th with pc := .derefProd })
  | .derefProd =>
      match s.ptr with
      | some id => (s, { th with pc := .load id [] })
      | none => (s, th.ret fun _ => .ub)
  | .load id acc =>
      if acc.length < 9 then
        match s.heap[id]? with
        | some (some a) => (s, { th with pc := .load id (acc ++ [a (cellOf acc.length).1 (cellOf acc.length).2]) })
        | _ => (s, th.ret fun _ => .ub)
      else (s, th.ret fun l => .ok ((matOfWords acc).app l))

/-- A homography that has never transformed a line (homog2d.hpp:2037-2038). -/
def HMem.new (m : Mat K) : HMem K := ⟨m, true, none, []⟩

end

end H2d
