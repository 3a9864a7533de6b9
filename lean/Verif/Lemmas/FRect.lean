import Verif.Lemmas.BB
import Verif.Model.Rotate

set_option linter.unusedSectionVars false

namespace H2d

open H2d.Spec

variable {K : Type} [Field K] [LinearOrder K] [IsStrictOrderedRing K]

theorem ofPts_cases (t : K) (pa pb : Pt K) :
    (FRect.ofPts t pa pb = .throw ∧ (|pa.1 - pb.1| < t ∨ |pa.2 - pb.2| < t)) ∨
    (FRect.ofPts t pa pb = .ok ⟨(min pa.1 pb.1, min pa.2 pb.2), (max pa.1 pb.1, max pa.2 pb.2)⟩ ∧
      t ≤ |pa.1 - pb.1| ∧ t ≤ |pa.2 - pb.2|) := by
  by_cases h : shareCommonCoord t pa pb = true
  · left; refine ⟨by simp [FRect.ofPts, getCorrectPoints, h], (share_iff _ _ _).1 h⟩
  · right
    refine ⟨by simp [FRect.ofPts, getCorrectPoints, h], ?_⟩
    rw [share_iff] at h
    push Not at h
    exact h

/-- Corner points of the bounding box of the rotated rectangle. -/
def rotLo (rot : Rotate) (r : FRect K) : Pt K :=
  match rot with
  | .ccw => (-r.p2.2, r.p1.1)
  | .cw => (r.p1.2, -r.p2.1)
  | .full => (-r.p2.1, -r.p2.2)
  | .vmirror => (-r.p2.1, r.p1.2)
  | .hmirror => (r.p1.1, -r.p2.2)

def rotHi (rot : Rotate) (r : FRect K) : Pt K :=
  match rot with
  | .ccw => (-r.p1.2, r.p2.1)
  | .cw => (r.p2.2, -r.p1.1)
  | .full => (-r.p1.1, -r.p1.2)
  | .vmirror => (-r.p1.1, r.p2.2)
  | .hmirror => (r.p2.1, -r.p1.2)

theorem rot_tight (rot : Rotate) (r : FRect K) (hx : r.p1.1 ≤ r.p2.1) (hy : r.p1.2 ≤ r.p2.2) :
    IsTightBox (· ∈ polyRotate rot r.get4Pts) (rotLo rot r) (rotHi rot r) := by
  cases rot <;> simp only [polyRotate, FRect.get4Pts, rotPt, List.map, rotLo, rotHi] <;>
  refine ⟨?_, ?_, ?_, ?_, ?_⟩ <;> simp [hx, hy]

theorem rotate_eq (th : Thr K) (rot : Rotate) (r : FRect K) (hx : r.p1.1 ≤ r.p2.1) (hy : r.p1.2 ≤ r.p2.2) :
    r.rotate th rot = (if samePt th.nullDistance r.p1 r.p2 || shareCommonCoord th.nullOrthogDistance r.p1 r.p2 then .throw
      else .ok ⟨rotLo rot r, rotHi rot r⟩) := by
  obtain ⟨lo, hi, hT, he⟩ := getBB_Points_eq th (polyRotate rot r.get4Pts) (by simp [polyRotate, FRect.get4Pts])
  obtain ⟨rfl, rfl⟩ := IsTightBox.unique hT (rot_tight rot r hx hy)
  have hs : samePt th.nullDistance (rotLo rot r) (rotHi rot r) = samePt th.nullDistance r.p1 r.p2 := by
    rw [Bool.eq_iff_iff, samePt_iff, samePt_iff]
    have : sqDist (rotLo rot r) (rotHi rot r) = sqDist r.p1 r.p2 := by
      cases rot <;> simp only [sqDist, rotLo, rotHi] <;> ring
    rw [this]
  have hc : shareCommonCoord th.nullOrthogDistance (rotLo rot r) (rotHi rot r) = shareCommonCoord th.nullOrthogDistance r.p1 r.p2 := by
    rw [Bool.eq_iff_iff, share_iff, share_iff]
    have e1 : ∀ u v : K, |-u - -v| = |u - v| := fun u v => by rw [← abs_neg]; congr 1; ring
    have e2 : ∀ u v : K, |-v - -u| = |u - v| := fun u v => by congr 1; ring
    cases rot <;> simp only [rotLo, rotHi, e2] <;> tauto
  have hle := IsTightBox.le hT
  simp only [FRect.rotate, polyGetBB]
  rw [he, hs, hc]
  have hlen : ¬ (polyRotate rot r.get4Pts).length < 2 := by simp [polyRotate, FRect.get4Pts]
  simp only [hlen, if_false]
  by_cases h1 : samePt th.nullDistance r.p1 r.p2 = true
  · simp [h1]
  · by_cases h2 : shareCommonCoord th.nullOrthogDistance r.p1 r.p2 = true
    · simp [h1, h2]
    · have h2' : shareCommonCoord th.nullOrthogDistance r.p1 r.p2 = false := by simpa using h2
      simp [h1, h2', hc, ofPts_of_le _ _ _ hle.1 hle.2 (hc.trans h2')]

end H2d
