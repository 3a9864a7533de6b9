import Verif.Model.Threads

/-! # Specification of concurrent calls -/

namespace H2d.Spec

variable {K : Type} [Field K] [LinearOrder K]

/-- What a call must return: its outcome on a new object with these vertices, called by a single thread. -/
def alone (e : Env K) (closed : Bool) (pts : List (Pt K)) : PCall → Res (List (Word K))
  | .length => (freshLen e closed pts).bind fun v => .ok [.num v]
  | .isSimple => (freshSimple e closed pts).bind fun b => .ok [.bit b]
  | .area => (freshArea e closed pts).bind fun v => .ok [.num v]
  | .centroid => (freshCentroid e closed pts).bind fun c => .ok [.num c.1, .num c.2, .num 1]
  | .points | .compare => .ok (pts.flatMap fun p => [.num p.1, .num p.2])

/-- Each attribute that is flagged as known has the right value. -/
structure Coherent (e : Env K) (closed : Bool) (m : PMem K) : Prop where
  len : m.flag .len = true → ∃ v, freshLen e closed m.pts = .ok v ∧ m.cell .len 0 = .num v
  simple : m.flag .simple = true → ∃ b, freshSimple e closed m.pts = .ok b ∧ m.cell .simple 0 = .bit b
  area : m.flag .area = true → m.cell .area 0 = .num |signedArea m.pts|
  cent : m.flag .cent = true → m.cell .cent 0 = .num (centroidRaw m.pts).1 ∧ m.cell .cent 1 = .num (centroidRaw m.pts).2 ∧ m.cell .cent 2 = .num 1

/-- What this call needs is known: it has nothing to compute. The area and the centroid need simplicity, and their own value if the polyline is simple; polylines that are open, or
with less than 3 points, are never simple. -/
def Ready (e : Env K) (closed : Bool) (m : PMem K) : PCall → Prop
  | .length => m.flag .len = true
  | .isSimple => (m.pts.length < 3 ∨ closed = false) ∨ m.flag .simple = true
  | .area => (m.pts.length < 3 ∨ closed = false) ∨ m.flag .simple = true ∧ (freshSimple e closed m.pts = .ok true → m.flag .area = true)
  | .centroid => (m.pts.length < 3 ∨ closed = false) ∨ m.flag .simple = true ∧ (freshSimple e closed m.pts = .ok true → m.flag .cent = true)
  | .points => True
  | .compare => m.norm = true ∨ m.pts = []

/-- The threads, before their first access, with the calls each of them will make. -/
def starting (K : Type) (prog : ℕ → List PCall) : ℕ → PThread K := fun i => .start K (prog i)

/-- The threads, before their first access, with the lines each of them will transform. -/
def startingH (prog : ℕ → List (V3 K)) : ℕ → HThread K := fun i => .start K (prog i)

/-- The transformed line, for a single thread: the outcome of the product with a homography that has never been used. -/
def lineAlone (t : Thr K) (m : Mat K) (l : V3 K) : Res (V3 K) :=
  (Hom.appLineRaw t { m := m, isNorm := false, changed := true, hmt := none } l).1

/-- The homography has transformed a line before: the cached matrix is allocated, and right unless `_hasChanged` is set. -/
structure Warm (t : Thr K) (s : HMem K) : Prop where
  live : ∃ id a, s.ptr = some id ∧ s.heap[id]? = some (some a) ∧
    (s.changed = false → Hom.invTransp t { m := s.m, isNorm := false, changed := true, hmt := none } = .ok a)

end H2d.Spec
