import Verif.Model.Homogr

/-!
# Vocabulary for homogeneous points, lines and homographies
-/

namespace H2d.Spec

variable {K : Type} [Field K] [LinearOrder K]

/-- The point is not at infinity. -/
def IsFin (p : V3 K) : Prop := p 2 ≠ 0

/-- Point `p` is on line `l`: `a.x + b.y + c = 0` in homogeneous coordinates. -/
def OnLine (l p : V3 K) : Prop := l 0 * p 0 + l 1 * p 1 + l 2 * p 2 = 0

/-- Both triples denote the same location (possibly at infinity). -/
def SameLoc (p q : V3 K) : Prop := ∃ k : K, k ≠ 0 ∧ ∀ i, q i = k * p i

/-- Elementary transformations of the plane. -/
inductive Elem (K : Type) where
  | translation (tx ty : K)
  | rotation (c s : K)
  | scale (kx ky : K)

/-- What they do on coordinates. -/
def Elem.act : Elem K → K × K → K × K
  | .translation tx ty, p => (p.1 + tx, p.2 + ty)
  | .rotation c s, p => (c * p.1 - s * p.2, s * p.1 + c * p.2)
  | .scale kx ky, p => (kx * p.1, ky * p.2)

/-- The call `addTranslation`, `addRotation`, `addScale`. -/
def Elem.add (t : Thr K) (h : Hom K) : Elem K → Res Unit × Hom K
  | .translation tx ty => h.addTranslation t tx ty
  | .rotation c s => h.addRotation t c s
  | .scale kx ky => h.addScale t kx ky

/-- The call `setTranslation`, `setRotation`, `setScale`. -/
def Elem.set (h : Hom K) : Elem K → Hom K
  | .translation tx ty => h.setTranslation tx ty
  | .rotation c s => h.setRotation c s
  | .scale kx ky => h.setScale kx ky

/-- A chain of `add*` calls; stops at the first exception. -/
def addChain (t : Thr K) : Hom K → List (Elem K) → Res (Hom K)
  | h, [] => .ok h
  | h, e :: es => match e.add t h with
    | (.ok _, h') => addChain t h' es
    | (_, _) => .throw

/-- Operations that change the matrix without telling the cached inverse. -/
def HOp.silent : HOp K → Bool
  | .init => true
  | .transpose => true
  | .write _ _ _ => true
  | _ => false

/-- Objects as left by a constructor (nothing is cached). -/
def Fresh (h : Hom K) : Prop := h.changed = true ∧ h.hmt = none

/-- Operations after which the flag "normalised" may be wrong: element writes, and assignment of a matrix that is not normalised. -/
def HOp.breaksFlag : HOp K → Prop
  | .write _ _ _ => True
  | .assign o => o.m 2 2 ≠ 1
  | _ => False

end H2d.Spec
