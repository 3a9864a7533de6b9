import Verif.Lemmas.Inside

/-! # Intersections of polylines -/

set_option linter.unusedSimpArgs false

namespace H2d.Inside
open H2d H2d.Spec

theorem polyInterSeg_ok' {t : Thr ℝ} (h1 : dblEps < t.nullDistance) {closed : Bool} {pts : List (Pt ℝ)} (h2p : 2 ≤ pts.length)
    (he : ∀ e ∈ edgesOf closed pts, t.nullDistance ≤ eucl e.1 e.2) {s : Seg} (hl : t.nullDistance ≤ eucl s.1 s.2) : ∃ i, polyInterSeg t closed pts s = .ok i := by
  unfold polyInterSeg
  rw [segPairs_edgesOf h2p, Pip.polySegs_ok t _ he, Res.bind_ok]
  apply concatRes_spec
  intro a ha
  obtain ⟨e, hm, rfl⟩ := List.mem_map.1 ha
  obtain ⟨i, hi⟩ := segInter_ok' h1 (he e hm) hl
  exact ⟨i.toList, by rw [hi]; rfl⟩

theorem mem_polyInterSeg_pairs {t : Thr ℝ} {closed : Bool} {pts : List (Pt ℝ)} {s : Seg} {r : List (Pt ℝ)}
    (h : polyInterSeg t closed pts s = .ok r) (p : Pt ℝ) :
    p ∈ r ↔ ∃ e ∈ segPairs closed pts, segInter t (fixOrder e.1 e.2) s = .ok (some p) := by
  unfold polyInterSeg at h
  rcases hp : polySegs t (segPairs closed pts) with segs | _ | _ <;> rw [hp] at h
  · obtain ⟨rfl, -⟩ := Pip.polySegs_spec t _ _ hp
    obtain ⟨m1, m2⟩ := concatRes_ok _ _ h
    constructor
    · intro hp
      obtain ⟨a, ha, i, hi, hpi⟩ := m2 p hp
      obtain ⟨e, he, rfl⟩ := List.mem_map.1 ha
      refine ⟨e, he, ?_⟩
      rcases hr : segInter t (fixOrder e.1 e.2) s with o | _ | _ <;> rw [hr] at hi
      · cases hi
        cases o with
        | none => simp at hpi
        | some o => simp at hpi; rw [hpi]
      · cases hi
      · cases hi
    · rintro ⟨e, he, hh⟩
      obtain ⟨i, hi, hi'⟩ := m1 _ (List.mem_map_of_mem (f := fun e : Seg => fixOrder e.1 e.2) he)
      rw [hh] at hi
      cases hi
      exact hi' p (by simp)
  · cases h
  · cases h

theorem mem_polyInterSeg {t : Thr ℝ} {closed : Bool} {pts : List (Pt ℝ)} (h2p : 2 ≤ pts.length) {s : Seg} {r : List (Pt ℝ)}
    (h : polyInterSeg t closed pts s = .ok r) (p : Pt ℝ) :
    p ∈ r ↔ ∃ e ∈ edgesOf closed pts, segInter t (fixOrder e.1 e.2) s = .ok (some p) := by
  rw [mem_polyInterSeg_pairs h, segPairs_edgesOf h2p]

theorem mem_polyInterPoly_pairs {t : Thr ℝ} {closed closed' : Bool} {pts pts' : List (Pt ℝ)} {r : List (Pt ℝ)}
    (h : polyInterPoly t closed pts closed' pts' = .ok r) (p : Pt ℝ) :
    p ∈ r ↔ ∃ e ∈ segPairs closed pts, ∃ e' ∈ segPairs closed' pts', segInter t (fixOrder e'.1 e'.2) (fixOrder e.1 e.2) = .ok (some p) := by
  obtain ⟨l, hl, rfl⟩ := polyInterPoly_eq h
  obtain ⟨m1, m2⟩ := concatRes_ok _ _ hl
  constructor
  · intro hp
    obtain ⟨a, ha, i, hi, hpi⟩ := m2 p hp
    obtain ⟨e, he, rfl⟩ := List.mem_map.1 ha
    exact ⟨e, he, (mem_polyInterSeg_pairs hi p).1 hpi⟩
  · rintro ⟨e, he, hh⟩
    obtain ⟨i, hi, hi'⟩ := m1 _ (List.mem_map_of_mem (f := fun e : Seg => fixOrder e.1 e.2) he)
    exact hi' p ((mem_polyInterSeg_pairs hi p).2 hh)

theorem mem_polyInterPoly {t : Thr ℝ} {closed closed' : Bool} {pts pts' : List (Pt ℝ)} (h2p : 2 ≤ pts.length) (h2p' : 2 ≤ pts'.length) {r : List (Pt ℝ)}
    (h : polyInterPoly t closed pts closed' pts' = .ok r) (p : Pt ℝ) :
    p ∈ r ↔ ∃ e ∈ edgesOf closed pts, ∃ e' ∈ edgesOf closed' pts', segInter t (fixOrder e'.1 e'.2) (fixOrder e.1 e.2) = .ok (some p) := by
  rw [mem_polyInterPoly_pairs h, segPairs_edgesOf h2p, segPairs_edgesOf h2p']

theorem polyInterPoly_ok {t : Thr ℝ} (h1 : dblEps < t.nullDistance) {closed closed' : Bool} {pts pts' : List (Pt ℝ)} (h2p : 2 ≤ pts.length) (h2p' : 2 ≤ pts'.length)
    (he : ∀ e ∈ edgesOf closed pts, t.nullDistance ≤ eucl e.1 e.2) (he' : ∀ e ∈ edgesOf closed' pts', t.nullDistance ≤ eucl e.1 e.2) :
    ∃ r, polyInterPoly t closed pts closed' pts' = .ok r := by
  unfold polyInterPoly
  rw [segPairs_edgesOf h2p, segPairs_edgesOf h2p', Pip.polySegs_ok t _ he, Pip.polySegs_ok t _ he']
  simp only [Res.bind_ok]
  have key : ∃ r, segsInterSegs t ((edgesOf closed' pts').map (fun e => fixOrder e.1 e.2)) ((edgesOf closed pts).map (fun e => fixOrder e.1 e.2)) = .ok r := by
    apply concatRes_spec
    intro a ha
    obtain ⟨e, hm, rfl⟩ := List.mem_map.1 ha
    apply concatRes_spec
    intro a ha
    obtain ⟨e', hm', rfl⟩ := List.mem_map.1 ha
    obtain ⟨i, hi⟩ := segInter_ok' h1 (he' e' hm') (s := fixOrder e.1 e.2) (by rw [Pip.eucl_fix]; exact he e hm)
    exact ⟨i.toList, by rw [hi]; rfl⟩
  split
  · exact ⟨[], rfl⟩
  · exact key

theorem segLineInter_ok {t : Thr ℝ} (h1 : dblEps < t.nullDistance) (h2 : 0 < t.nullAngleValue) {s : Seg} (hs : GoodSeg t s) {l : V3 ℝ} (hl : UnitNormal l) :
    ∃ i, segLineInter t s l = .ok i := by
  obtain ⟨m, e1, e2, -, -⟩ := segLine_spec h1 hs.1
  unfold segLineInter
  rw [show segLine t s = .ok m from e1, Res.bind_ok]
  split_ifs with hp
  · exact ⟨_, rfl⟩
  · obtain ⟨c1, -⟩ := lineInter_spec h2 hl e2.1 hp
    rw [c1, Res.bind_ok]
    simp only
    split_ifs
    · exact ⟨_, rfl⟩
    · exact ⟨_, rfl⟩

end H2d.Inside
