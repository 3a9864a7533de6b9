import Verif.Model.RectArea

/-!
# Two rectangles up to order: the computation on ranks

When the coordinates of two rectangles are equal or far enough, what the code does only depends on the order of these coordinates, hence on their ranks.
-/

namespace H2d.Rank

abbrev NP := ℕ × ℕ
abbrev NS := NP × NP

/-- A horizontal or vertical segment with ordered ends. -/
def Ax (s : NS) : Bool := (s.1.1 == s.2.1 && decide (s.1.2 < s.2.2)) || (s.1.2 == s.2.2 && decide (s.1.1 < s.2.1))

def vert (s : NS) : Bool := s.1.1 == s.2.1

/-- Intersection of two such segments. -/
def axInter (s s' : NS) : Option NP :=
  if s == s' then none
  else if vert s then
    if vert s' then none
    else if decide (s.1.2 ≤ s'.1.2) && decide (s'.1.2 ≤ s.2.2) && decide (s'.1.1 ≤ s.1.1) && decide (s.1.1 ≤ s'.2.1) then some (s.1.1, s'.1.2) else none
  else
    if vert s' then
      if decide (s'.1.2 ≤ s.1.2) && decide (s.1.2 ≤ s'.2.2) && decide (s.1.1 ≤ s'.1.1) && decide (s'.1.1 ≤ s.2.1) then some (s'.1.1, s.1.2) else none
    else none

/-- The four segments of a rectangle. -/
def segs (r : FRect ℕ) : List NS :=
  [(r.p1, (r.p1.1, r.p2.2)), ((r.p1.1, r.p2.2), r.p2), ((r.p2.1, r.p1.2), r.p2), (r.p1, (r.p2.1, r.p1.2))]

def segLoop (seg : NS) : List NS → List NP → List NP
  | [], out => out
  | rseg :: l, out =>
    match axInter rseg seg with
    | none => segLoop seg l out
    | some pt =>
      let out' := match out with
        | [q] => if q == pt then out else out ++ [pt]
        | _ => out ++ [pt]
      if out'.length = 2 then out' else segLoop seg l out'

def interLoop (other : FRect ℕ) : List NS → List NP → Option (List NP)
  | [], pts => some pts
  | rseg :: l, pts =>
    match segLoop rseg (segs other) [] with
    | [] => interLoop other l pts
    | [a] => interLoop other l (setInsert a pts)
    | [a, b] => interLoop other l (setInsert b (setInsert a pts))
    | _ => none

def inter (a b : FRect ℕ) : Option (List NP) := if a == b then some [] else interLoop b (segs a) []

def corners (r : FRect ℕ) : List NP := [r.p1, (r.p1.1, r.p2.2), r.p2, (r.p2.1, r.p1.2)]

def ptIn (p : NP) (r : FRect ℕ) : Bool :=
  (decide (p.1 > r.p1.1) && decide (p.1 < r.p2.1)) && (decide (p.2 > r.p1.2) && decide (p.2 < r.p2.2))

def isInside (a b : FRect ℕ) : Bool := (corners a).all (fun p => ptIn p b)
def pointsIn (a b : FRect ℕ) : List NP := (corners a).filter (fun p => ptIn p b)

/-- Rectangle from two points that differ in both coordinates. -/
def ofPts (p q : NP) : Option (FRect ℕ) :=
  if p.1 == q.1 || p.2 == q.2 then none else some ⟨(min p.1 q.1, min p.2 q.2), (max p.1 q.1, max p.2 q.2)⟩

/-- `none`: failure. -/
def intersectArea (a b : FRect ℕ) : Option (Option (FRect ℕ)) :=
  if a == b then some (some b)
  else
    match inter a b with
    | some [] => if isInside a b then some (some a) else if isInside b a then some (some b) else some none
    | some [_] => some none
    | some [v0, _, _, v3] => (ofPts v0 v3).map some
    | some [v0, v1, v2] =>
      (ofPts (min v0.1 (min v1.1 v2.1), min v0.2 (min v1.2 v2.2)) (max v0.1 (max v1.1 v2.1), max v0.2 (max v1.2 v2.2))).map some
    | some [i0, i1] =>
      match pointsIn a b, pointsIn b a with
      | [], [] => some none
      | [_], [_] => (ofPts i0 i1).map some
      | [q0, q1], [] => some (some ⟨(min (min (min i0.1 i1.1) q0.1) q1.1, min (min (min i0.2 i1.2) q0.2) q1.2), (max (max (max i0.1 i1.1) q0.1) q1.1, max (max (max i0.2 i1.2) q0.2) q1.2)⟩)
      | [], [q0, q1] => some (some ⟨(min (min (min i0.1 i1.1) q0.1) q1.1, min (min (min i0.2 i1.2) q0.2) q1.2), (max (max (max i0.1 i1.1) q0.1) q1.1, max (max (max i0.2 i1.2) q0.2) q1.2)⟩)
      | _, _ => none
    | _ => none

/-- Test of `minimize()` for axis-aligned steps. -/
def mid (p q r : NP) : Bool :=
  (p.1 == q.1 && q.1 == r.1 && (decide (p.2 < q.2) == decide (q.2 < r.2))) || (p.2 == q.2 && q.2 == r.2 && (decide (p.1 < q.1) == decide (q.1 < r.1)))

def same (p q : NP) : Bool := p == q

/-- The points of the union. -/
def union (a b : FRect ℕ) : Option (Res (List NP)) :=
  if a == b then some (.ok (corners b))
  else
    match inter a b with
    | some [] => some (if isInside a b then .ok (corners b) else if isInside b a then .ok (corners a) else .ok [])
    | some _ => some (if a.p1.1 < b.p1.1 then unionTable same mid b a else unionTable same mid a b)
    | none => none

/-- The relative positions of two intervals. -/
def allen : List (ℕ × ℕ × ℕ × ℕ) :=
  [(0, 1, 2, 3), (0, 1, 1, 2), (0, 2, 1, 3), (0, 1, 0, 2), (0, 3, 1, 2), (0, 2, 1, 2), (0, 1, 0, 1),
   (2, 3, 0, 1), (1, 2, 0, 1), (1, 3, 0, 2), (0, 2, 0, 1), (1, 2, 0, 3), (1, 2, 0, 2)]

def rectA (x y : ℕ × ℕ × ℕ × ℕ) : FRect ℕ := ⟨(x.1, y.1), (x.2.1, y.2.1)⟩
def rectB (x y : ℕ × ℕ × ℕ × ℕ) : FRect ℕ := ⟨(x.2.2.1, y.2.2.1), (x.2.2.2, y.2.2.2)⟩

/-- The open rectangles have a common point. -/
def overlap (a b : FRect ℕ) : Bool :=
  decide (max a.p1.1 b.p1.1 < min a.p2.1 b.p2.1) && decide (max a.p1.2 b.p1.2 < min a.p2.2 b.p2.2)

def common (a b : FRect ℕ) : FRect ℕ := ⟨(max a.p1.1 b.p1.1, max a.p1.2 b.p1.2), (min a.p2.1 b.p2.1, min a.p2.2 b.p2.2)⟩

/-- The ends of a segment, in order. -/
def ordS (s : NS) : NS := if ptLt s.1 s.2 then s else (s.2, s.1)

def interB (a b : NS) : Bool := (axInter (ordS a) (ordS b)).isSome

/-- Axis-aligned triple of consecutive points. -/
def axTriple (p q r : NP) : Bool := Ax (ordS (p, q)) && Ax (ordS (q, r))

/-- All the triples that `minimize()` looks at are axis-aligned. -/
def axAll (pts : List NP) : Bool :=
  (List.range pts.length).all (fun i =>
    match pts[if i = 0 then pts.length - 1 else i - 1]?, pts[i]?, pts[if i = pts.length - 1 then 0 else i + 1]? with
    | some p, some q, some r => axTriple p q r
    | _, _, _ => false)

/-- Coefficient of `f i * g j` in twice the signed area. -/
def coef (i j : ℕ) (pts : List NP) : ℤ :=
  ((cycPairs pts).map (fun s => (if s.1.1 = i ∧ s.2.2 = j then 1 else 0) - (if s.2.1 = i ∧ s.1.2 = j then 1 else 0))).sum

/-- Coefficient of `f i * g j` in the area of a rectangle. -/
def coefR (i j : ℕ) (r : FRect ℕ) : ℤ :=
  (if r.p2.1 = i ∧ r.p2.2 = j then 1 else 0) + (if r.p1.1 = i ∧ r.p1.2 = j then 1 else 0) -
    (if r.p1.1 = i ∧ r.p2.2 = j then 1 else 0) - (if r.p2.1 = i ∧ r.p1.2 = j then 1 else 0)

/-- The union polygon before `minimize()`. -/
def unionRaw (r1 r2 : FRect ℕ) : Res (List NP) := do
  let vx := coordVec r1.p1.1 r1.p2.1 r2.p1.1 r2.p2.1
  let vy := coordVec r1.p1.2 r1.p2.2 r2.p1.2 r2.p2.2
  let vpts ← parseTable (tableCell vx vy)
  convertToCoord same vpts vx vy

/-- What is checked on the polygon returned for two overlapping rectangles. -/
def goodPoly (a b : FRect ℕ) (pts : List NP) : Bool :=
  decide (3 ≤ pts.length) && pts.all (fun p => decide (p.1 < 4) && decide (p.2 < 4)) && (segPairs true pts).all (fun s => Ax (ordS s)) &&
  noCross interB (segPairs true pts) &&
  (List.range 4).all (fun i => (List.range 4).all (fun j => decide (coef i j pts = - 2 * (coefR i j a + coefR i j b - coefR i j (common a b)))))

/-- The whole check for one relative position. -/
def check (a b : FRect ℕ) : Bool :=
  decide (intersectArea a b = some (if overlap a b then some (common a b) else none)) &&
  (!overlap a b ||
    match union a b with
    | some (.ok pts) => goodPoly a b pts
    | _ => false) &&
  (match inter a b with
    | some (_ :: _) =>
      match if a.p1.1 < b.p1.1 then unionRaw b a else unionRaw a b with
      | .ok pts => axAll pts
      | _ => !overlap a b
    | _ => true)


theorem check_all : ∀ x ∈ allen, ∀ y ∈ allen, check (rectA x y) (rectB x y) = true := by decide +kernel

end H2d.Rank
