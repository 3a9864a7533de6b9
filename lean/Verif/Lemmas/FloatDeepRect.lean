import Verif.Lemmas.FloatDeepPip
import Verif.Lemmas.FloatPipModel
import Verif.Lemmas.FloatSafe

/-! # Limits of the format: point inside a polygon, rectangles, inverse of a homography -/

namespace H2d.Fl
open H2d H2d.Spec

variable {f : Format} {e n : ℤ} {over : ℝ → ℝ}

theorem grid_rectOfPts {F : Arith} {t : Thr ℝ} {a b : ℤ} {p q : Pt ℝ} {r : FRect ℝ} (h1 : GridPt a b p) (h2 : GridPt a b q) (h : rectOfPts F t p q = .ok r) : GridRect a b r := by
  unfold rectOfPts at h
  split_ifs at h
  obtain rfl := Res.ok.inj h
  refine ⟨⟨?_, ?_⟩, ?_, ?_⟩
  · rcases min_choice p.1 q.1 with k | k
    · show Grid a b (min p.1 q.1); rw [k]; exact h1.1
    · show Grid a b (min p.1 q.1); rw [k]; exact h2.1
  · rcases min_choice p.2 q.2 with k | k
    · show Grid a b (min p.2 q.2); rw [k]; exact h1.2
    · show Grid a b (min p.2 q.2); rw [k]; exact h2.2
  · rcases max_choice p.1 q.1 with k | k
    · show Grid a b (max p.1 q.1); rw [k]; exact h1.1
    · show Grid a b (max p.1 q.1); rw [k]; exact h2.1
  · rcases max_choice p.2 q.2 with k | k
    · show Grid a b (max p.2 q.2); rw [k]; exact h1.2
    · show Grid a b (max p.2 q.2); rw [k]; exact h2.2

theorem agree_polyGetBB (hf : Fits f e n) (over : ℝ → ℝ) (t : Thr ℝ) {pts : List (Pt ℝ)} (h : ∀ p ∈ pts, GridPt e n p) :
    polyGetBB (f.arith over) t pts = polyGetBB (binary f.p) t pts ∧ ∀ r, polyGetBB (binary f.p) t pts = .ok r → GridRect e n r := by
  obtain ⟨g1, g2, g3, g4, g5⟩ := fits_bounds hf
  unfold polyGetBB
  by_cases hl : pts.length < 2
  · rw [if_pos hl, if_pos hl]
    exact ⟨rfl, fun r hr => by cases hr⟩
  rw [if_neg hl, if_neg hl]
  match pts, h with
  | [], _ => exact ⟨rfl, fun r hr => by cases hr⟩
  | x :: xs, h =>
    obtain ⟨a, k, ea, ma, -⟩ := minElemLoop_cons (coordComp_swo (fun p : Pt ℝ => p.1)) x xs
    obtain ⟨b, k', eb, mb, -⟩ := minElemLoop_cons (coordComp_swo (fun p : Pt ℝ => p.2)) x xs
    obtain ⟨mc, -⟩ := maxElemLoop_spec (coordComp_swo (fun p : Pt ℝ => p.1)) xs x
    obtain ⟨md, -⟩ := maxElemLoop_spec (coordComp_swo (fun p : Pt ℝ => p.2)) xs x
    have ga := h _ (List.mem_of_getElem? ma)
    have gb := h _ (List.mem_of_getElem? mb)
    have gc := h _ mc
    have gd := h _ md
    simp only [ea, eb]
    generalize maxElemLoop (fun a b : Pt ℝ => decide (a.1 < b.1)) xs x = c at *
    generalize maxElemLoop (fun a b : Pt ℝ => decide (a.2 < b.2)) xs x = d at *
    have p1 : GridPt e n (a.1, b.2) := ⟨ga.1, gb.2⟩
    have p2 : GridPt e n (c.1, d.2) := ⟨gc.1, gd.2⟩
    have e1 : PtSame (f.arith over) t (a.1, b.2) (c.1, d.2) ↔ PtSame (binary f.p) t (a.1, b.2) (c.1, d.2) := by
      unfold PtSame
      rw [(agree_dist hf over p1 p2).1]
    have e2 : ShareCoord (f.arith over) t (a.1, b.2) (c.1, d.2) ↔ ShareCoord (binary f.p) t (a.1, b.2) (c.1, d.2) := by
      unfold ShareCoord
      rw [((p1.1.sub p2.1).step g1 over (by omega) (by omega)).1, ((p1.2.sub p2.2).step g1 over (by omega) (by omega)).1]
    constructor
    · exact if_congr e1 rfl (if_congr e2 rfl (rectOfPts_step g1 over t p1 p2 (by omega) (by omega)))
    · intro r hr
      split_ifs at hr
      exact grid_rectOfPts p1 p2 hr

theorem agree_getExtended (hp : 1 ≤ f.p) (over : ℝ → ℝ) (t : Thr ℝ) {r : FRect ℝ} (h : GridRect e n r) (he : f.emin ≤ e) (hn : n + 3 ≤ f.emax - 1) :
    getExtended (f.arith over) t r = getExtended (binary f.p) t r ∧ ∀ x, getExtended (binary f.p) t r = .ok x → GridRect e (n + 2) x := by
  have g2 : Grid 0 1 (2 : ℝ) := ⟨⟨2, by norm_num⟩, by norm_num⟩
  have one : ∀ {x y : ℝ}, Grid e n x → Grid e n y → (f.arith over).rnd ((f.arith over).rnd (x * 2) - y) = (binary f.p).rnd ((binary f.p).rnd (x * 2) - y) ∧
      Grid e (n + 2) ((binary f.p).rnd ((binary f.p).rnd (x * 2) - y)) := fun {x y} hx hy => by
    obtain ⟨a1, a2⟩ := (hx.mul g2).step hp over (by omega) (by omega)
    rw [a1]
    obtain ⟨b1, b2⟩ := ((a2.mono (show e ≤ _ by omega) le_rfl).sub (hy.mono le_rfl (show n ≤ n + 1 by omega))).step hp over (by omega) (by omega)
    exact ⟨b1, b2.mono le_rfl (by omega)⟩
  obtain ⟨a1, a2⟩ := one h.1.1 h.2.1
  obtain ⟨b1, b2⟩ := one h.1.2 h.2.2
  obtain ⟨c1, c2⟩ := one h.2.1 h.1.1
  obtain ⟨d1, d2⟩ := one h.2.2 h.1.2
  unfold getExtended
  rw [a1, b1, c1, d1]
  exact ⟨rectOfPts_step hp over t ⟨a2, b2⟩ ⟨c2, d2⟩ he (by omega), fun x hx => grid_rectOfPts ⟨a2, b2⟩ ⟨c2, d2⟩ hx⟩

theorem agree_rectSegs (hf : Fits f e n) (over : ℝ → ℝ) (t : Thr ℝ) {r : FRect ℝ} (h : GridRect e n r) :
    rectSegs (f.arith over) t r = rectSegs (binary f.p) t r ∧ ∀ l, rectSegs (binary f.p) t r = .ok l → ∀ s ∈ l, GridSeg e n s := by
  have q1 : GridPt e n (r.p1.1, r.p2.2) := ⟨h.1.1, h.2.2⟩
  have q2 : GridPt e n (r.p2.1, r.p1.2) := ⟨h.2.1, h.1.2⟩
  unfold rectSegs
  rw [agree_segMake hf over t h.1 q1, agree_segMake hf over t q1 h.2, agree_segMake hf over t h.2 q2, agree_segMake hf over t q2 h.1]
  refine ⟨rfl, fun l hl => ?_⟩
  rcases e1 : segMake (binary f.p) t r.p1 (r.p1.1, r.p2.2) with s1 | _ | _ <;> rw [e1] at hl <;> try cases hl
  rcases e2 : segMake (binary f.p) t (r.p1.1, r.p2.2) r.p2 with s2 | _ | _ <;> rw [e2] at hl <;> try cases hl
  rcases e3 : segMake (binary f.p) t r.p2 (r.p2.1, r.p1.2) with s3 | _ | _ <;> rw [e3] at hl <;> try cases hl
  rcases e4 : segMake (binary f.p) t (r.p2.1, r.p1.2) r.p1 with s4 | _ | _ <;> rw [e4] at hl <;> try cases hl
  intro s hs
  simp only [List.mem_cons, List.not_mem_nil, or_false] at hs
  rcases hs with rfl | rfl | rfl | rfl
  · exact grid_segMake h.1 q1 e1
  · exact grid_segMake q1 h.2 e2
  · exact grid_segMake h.2 q2 e3
  · exact grid_segMake q2 h.1 e4

theorem agree_ptInsidePoly (hf : FitsDeep f (e - 5) (n + 2)) (he : e ≤ 0) (hn : 0 ≤ n) (over : ℝ → ℝ) (t : Thr ℝ) (ac : ℝ → ℝ) (closed : Bool) {pts : List (Pt ℝ)} {p : Pt ℝ} (h : ∀ q ∈ pts, GridPt e n q) (hp : GridPt e n p) :
    ptInsidePoly (f.arith over) t ac closed pts p = ptInsidePoly (binary f.p) t ac closed pts p := by
  obtain ⟨h1, h2, h3, h4, h5, h6⟩ := deep_bounds hf
  have h2' : (6 : ℤ) ≤ f.p := by exact_mod_cast h2
  have hf0 : FitsDeep f e n := ⟨h2, he, hn, by omega, by omega⟩
  have hf2 : Fits f e (n + 2) := ⟨h2, he, by omega, by omega, by omega⟩
  have hf' := deep_fits hf0
  have up : ∀ {q : Pt ℝ}, GridPt e n q → GridPt (e - 5) (n + 2) q := fun hq => GridPt.mono' hq (by omega) (by omega)
  unfold ptInsidePoly
  rw [agree_simple hf0 over t ac closed h]
  rcases simpleF (binary f.p) t ac closed pts with b | _ | _
  · simp only [Res.bind_ok]
    rcases b with _ | _
    · simp only [Bool.not_false, if_true]
    simp only [Bool.not_true, Bool.false_eq_true, if_false]
    obtain ⟨b1, b2⟩ := agree_polyGetBB hf' over t h
    rw [b1]
    rcases e2 : polyGetBB (binary f.p) t pts with r | _ | _
    · simp only [Res.bind_ok]
      split_ifs with hin
      · rfl
      have hs : ∀ x ∈ segPairs closed pts, GridPt e n x.1 ∧ GridPt e n x.2 := segPairs_mem h
      obtain ⟨s1, s2⟩ := agree_polySegs hf' over t hs
      rw [s1]
      rcases e3 : polySegs (binary f.p) t (segPairs closed pts) with segs | _ | _
      · simp only [Res.bind_ok]
        have hsegs := s2 segs e3
        rw [agree_nearLine hf0 over t hp hsegs]
        rcases nearLine (binary f.p) t p segs with b | _ | _
        · simp only [Res.bind_ok]
          split_ifs with hb
          · rfl
          obtain ⟨x1, x2⟩ := agree_getExtended h1 over t (b2 r e2) (by omega) (by omega)
          rw [x1]
          rcases e4 : getExtended (binary f.p) t r with ext | _ | _
          · simp only [Res.bind_ok]
            obtain ⟨y1, y2⟩ := agree_rectSegs hf2 over t (x2 ext e4)
            rw [y1]
            rcases e5 : rectSegs (binary f.p) t ext with bb | _ | _
            · simp only [Res.bind_ok]
              exact agree_pipLoop hf over t ac (fun q hq => up (h q hq)) (fun s hs => ⟨up (hsegs s hs).1, up (hsegs s hs).2⟩) (up hp) 5 e bb (by push_cast; omega) he (y2 bb e5)
            · simp only [Res.bind_throw]
            · simp only [Res.bind_ub]
          · simp only [Res.bind_throw]
          · simp only [Res.bind_ub]
        · simp only [Res.bind_throw]
        · simp only [Res.bind_ub]
      · simp only [Res.bind_throw]
      · simp only [Res.bind_ub]
    · simp only [Res.bind_throw]
    · simp only [Res.bind_ub]
  · simp only [Res.bind_throw]
  · simp only [Res.bind_ub]

/-! ### Rectangles -/

theorem agree_rectSegLoop (hf : FitsDeep f e n) (over : ℝ → ℝ) (t : Thr ℝ) (ac : ℝ → ℝ) {seg : Seg} (hs : GridSeg e n seg) :
    ∀ (l : List Seg) (out : List (Pt ℝ)), (∀ s ∈ l, GridSeg e n s) → (∀ p ∈ out, InterGrid f e n p) →
      rectSegLoop (f.arith over) t ac seg l out = rectSegLoop (binary f.p) t ac seg l out ∧ ∀ r, rectSegLoop (binary f.p) t ac seg l out = .ok r → ∀ p ∈ r, InterGrid f e n p := by
  classical
  intro l
  induction l with
  | nil => exact fun out _ ho => ⟨rfl, fun r hr => by cases hr; exact ho⟩
  | cons s l ih =>
    intro out hl ho
    have hl' : ∀ x ∈ l, GridSeg e n x := fun x hx => hl x (by simp [hx])
    obtain ⟨i1, i2⟩ := agree_segInter hf over t ac (hl s (by simp)) hs
    unfold rectSegLoop
    rw [i1]
    rcases e1 : segInter (binary f.p) t ac s seg with x | _ | _
    · simp only [Res.bind_ok]
      rcases x with _ | pt
      · exact ih out hl' ho
      · have hpt := i2 pt e1
        have fin : ∀ out' : List (Pt ℝ), (∀ p ∈ out', InterGrid f e n p) →
            (if out'.length = 2 then pure out' else rectSegLoop (f.arith over) t ac seg l out') = (if out'.length = 2 then pure out' else rectSegLoop (binary f.p) t ac seg l out') ∧
            ∀ r, (if out'.length = 2 then pure out' else rectSegLoop (binary f.p) t ac seg l out') = .ok r → ∀ p ∈ r, InterGrid f e n p := by
          intro out' ho'
          split_ifs
          · exact ⟨rfl, fun r hr => by cases hr; exact ho'⟩
          · exact ih out' hl' ho'
        have hap : ∀ p ∈ out ++ [pt], InterGrid f e n p := fun p hp => by
          rcases List.mem_append.1 hp with k | k
          · exact ho p k
          · rw [List.mem_singleton.1 k]; exact hpt
        match out, ho, hap with
        | [], _, hap => exact fin _ hap
        | [q], ho, hap =>
          have hq := agree_same hf over t (ho q (by simp)) hpt
          dsimp only
          by_cases k : PtSame (binary f.p) t q pt
          · simp only [if_pos k, if_pos (hq.2 k)]
            exact fin _ ho
          · have k2 : ¬ PtSame (f.arith over) t q pt := fun k' => k (hq.1 k')
            simp only [if_neg k, if_neg k2]
            exact fin _ hap
        | _ :: _ :: _, _, hap => exact fin _ hap
    · exact ⟨rfl, fun r hr => by cases hr⟩
    · exact ⟨rfl, fun r hr => by cases hr⟩

theorem agree_rectSegInter (hf : FitsDeep f e n) (over : ℝ → ℝ) (t : Thr ℝ) (ac : ℝ → ℝ) {r : FRect ℝ} (h : GridRect e n r) {seg : Seg} (hs : GridSeg e n seg) :
    rectSegInter (f.arith over) t ac r seg = rectSegInter (binary f.p) t ac r seg ∧ ∀ l, rectSegInter (binary f.p) t ac r seg = .ok l → ∀ p ∈ l, InterGrid f e n p := by
  obtain ⟨y1, y2⟩ := agree_rectSegs (deep_fits hf) over t h
  unfold rectSegInter
  rw [y1]
  rcases e1 : rectSegs (binary f.p) t r with l | _ | _
  · simp only [Res.bind_ok]
    exact agree_rectSegLoop hf over t ac hs l [] (y2 l e1) (by simp)
  · exact ⟨rfl, fun r hr => by cases hr⟩
  · exact ⟨rfl, fun r hr => by cases hr⟩

theorem setInsert_all {Q : Pt ℝ → Prop} {a : Pt ℝ} {l : List (Pt ℝ)} (ha : Q a) (hl : ∀ p ∈ l, Q p) : ∀ p ∈ setInsert a l, Q p := by
  induction l with
  | nil => intro p hp; rw [List.mem_singleton.1 hp]; exact ha
  | cons x l ih =>
    intro p hp
    unfold setInsert at hp
    have hx := hl x (by simp)
    have hl' : ∀ p ∈ l, Q p := fun q hq => hl q (by simp [hq])
    split_ifs at hp
    · rcases List.mem_cons.1 hp with rfl | k
      · exact ha
      · exact hl p k
    · rcases List.mem_cons.1 hp with rfl | k
      · exact hx
      · exact ih hl' p k
    · exact hl p hp

theorem agree_rectLoop (hf : FitsDeep f e n) (over : ℝ → ℝ) (t : Thr ℝ) (ac : ℝ → ℝ) {r : FRect ℝ} (h : GridRect e n r) :
    ∀ (l : List Seg) (pts : List (Pt ℝ)), (∀ s ∈ l, GridSeg e n s) → (∀ p ∈ pts, InterGrid f e n p) →
      rectLoop (f.arith over) t ac r l pts = rectLoop (binary f.p) t ac r l pts ∧ ∀ x, rectLoop (binary f.p) t ac r l pts = .ok x → ∀ p ∈ x, InterGrid f e n p := by
  intro l
  induction l with
  | nil => exact fun out _ ho => ⟨rfl, fun r hr => by cases hr; exact ho⟩
  | cons s l ih =>
    intro pts hl ho
    have hl' : ∀ x ∈ l, GridSeg e n x := fun x hx => hl x (by simp [hx])
    obtain ⟨i1, i2⟩ := agree_rectSegInter hf over t ac h (hl s (by simp))
    have ins : ∀ {a : Pt ℝ} {q : List (Pt ℝ)}, InterGrid f e n a → (∀ p ∈ q, InterGrid f e n p) → ∀ p ∈ setInsert a q, InterGrid f e n p := fun ha hq p hp => by
      exact setInsert_all ha hq p hp
    unfold rectLoop
    rw [i1]
    rcases e1 : rectSegInter (binary f.p) t ac r s with x | _ | _
    · simp only [Res.bind_ok]
      have hx := i2 x e1
      match x, hx with
      | [], _ => exact ih pts hl' ho
      | [a], hx => exact ih _ hl' (ins (hx a (by simp)) ho)
      | [a, b], hx => exact ih _ hl' (ins (hx b (by simp)) (ins (hx a (by simp)) ho))
      | _ :: _ :: _ :: _, _ => exact ⟨rfl, fun r hr => by cases hr⟩
    · exact ⟨rfl, fun r hr => by cases hr⟩
    · exact ⟨rfl, fun r hr => by cases hr⟩

theorem agree_rectEqB (hf : FitsDeep f e n) (over : ℝ → ℝ) (t : Thr ℝ) {a b : FRect ℝ} (ha : GridRect e n a) (hb : GridRect e n b) : rectEqB (f.arith over) t a b = rectEqB (binary f.p) t a b := by
  unfold rectEqB
  rw [decide_eq_decide.2 (agree_same hf over t (InterGrid.of hf ha.1) (InterGrid.of hf hb.1)), decide_eq_decide.2 (agree_same hf over t (InterGrid.of hf ha.2) (InterGrid.of hf hb.2))]

theorem agree_rectInter (hf : FitsDeep f e n) (over : ℝ → ℝ) (t : Thr ℝ) (ac : ℝ → ℝ) {a b : FRect ℝ} (ha : GridRect e n a) (hb : GridRect e n b) :
    rectInter (f.arith over) t ac a b = rectInter (binary f.p) t ac a b ∧ ∀ x, rectInter (binary f.p) t ac a b = .ok x → ∀ p ∈ x, InterGrid f e n p := by
  unfold rectInter
  rw [agree_rectEqB hf over t ha hb]
  by_cases hq : rectEqB (binary f.p) t a b = true
  · rw [if_pos hq, if_pos hq]
    exact ⟨rfl, fun x hx => by cases hx; simp⟩
  · rw [if_neg hq, if_neg hq]
    obtain ⟨y1, y2⟩ := agree_rectSegs (deep_fits hf) over t ha
    rw [y1]
    rcases e1 : rectSegs (binary f.p) t a with l | _ | _
    · simp only [Res.bind_ok]
      exact agree_rectLoop hf over t ac hb l [] (y2 l e1) (by simp)
    · exact ⟨rfl, fun r hr => by cases hr⟩
    · exact ⟨rfl, fun r hr => by cases hr⟩

theorem grid_min3 {a b : ℤ} {x y z : ℝ} (hx : Grid a b x) (hy : Grid a b y) (hz : Grid a b z) : Grid a b (min x (min y z)) ∧ Grid a b (max x (max y z)) := by
  constructor
  · rcases min_choice x (min y z) with k | k <;> rw [k]
    · exact hx
    · rcases min_choice y z with k | k <;> rw [k]
      · exact hy
      · exact hz
  · rcases max_choice x (max y z) with k | k <;> rw [k]
    · exact hx
    · rcases max_choice y z with k | k <;> rw [k]
      · exact hy
      · exact hz

theorem agree_intersectArea (hf : FitsDeep f e n) (over : ℝ → ℝ) (t : Thr ℝ) (ac : ℝ → ℝ) {a b : FRect ℝ} (ha : GridRect e n a) (hb : GridRect e n b) :
    intersectArea (f.arith over) t ac a b = intersectArea (binary f.p) t ac a b := by
  obtain ⟨h1, h2, h3, h4, h5, h6⟩ := deep_bounds hf
  have h2' : (6 : ℤ) ≤ f.p := by exact_mod_cast h2
  have hrect : ∀ {p q : Pt ℝ}, InterGrid f e n p → InterGrid f e n q → rectOfPts (f.arith over) t p q = rectOfPts (binary f.p) t p q := fun hp hq => rectOfPts_step h1 over t hp hq (by omega) (by omega)
  have hsub : ∀ {x y : ℝ}, Grid (5 * e - 4 * n - 3 * f.p - 5) (5 * n - 4 * e + 2 * f.p + 6) x → Grid (5 * e - 4 * n - 3 * f.p - 5) (5 * n - 4 * e + 2 * f.p + 6) y →
      (f.arith over).rnd (x - y) = (binary f.p).rnd (x - y) := fun hx hy => ((hx.sub hy).step h1 over (by omega) (by omega)).1
  unfold intersectArea
  obtain ⟨i1, i2⟩ := agree_rectInter hf over t ac ha hb
  rw [agree_rectEqB hf over t ha hb, i1]
  by_cases hq : rectEqB (binary f.p) t a b = true
  · rw [if_pos hq, if_pos hq]
  rw [if_neg hq, if_neg hq]
  rcases e1 : rectInter (binary f.p) t ac a b with x | _ | _
  · simp only [Res.bind_ok]
    have hx := i2 x e1
    match x, hx with
    | [], _ => rfl
    | [_], _ => rfl
    | [v0, v1], hx => simp only [hrect (hx v0 (by simp)) (hx v1 (by simp))]
    | [v0, v1, v2], hx =>
      obtain ⟨x1, x2⟩ := grid_min3 (hx v0 (by simp)).1 (hx v1 (by simp)).1 (hx v2 (by simp)).1
      obtain ⟨y1, y2⟩ := grid_min3 (hx v0 (by simp)).2 (hx v1 (by simp)).2 (hx v2 (by simp)).2
      simp only [hsub x2 x1, hsub y2 y1, hrect (p := (min v0.1 (min v1.1 v2.1), min v0.2 (min v1.2 v2.2))) (q := (max v0.1 (max v1.1 v2.1), max v0.2 (max v1.2 v2.2))) ⟨x1, y1⟩ ⟨x2, y2⟩]
    | [v0, v1, v2, v3], hx => simp only [hrect (hx v0 (by simp)) (hx v3 (by simp))]
    | _ :: _ :: _ :: _ :: _ :: _, _ => rfl
  · rfl
  · rfl

/-! ### Homographies -/

theorem agree_det2 (hf : Fits f e n) (over : ℝ → ℝ) {m : Mat ℝ} (hm : ∀ i j, Grid e n (m i j)) (a b c d i j k l : Fin 3) :
    det2 (f.arith over) m a b c d i j k l = det2 (binary f.p) m a b c d i j k l ∧ Grid (e + e) (n + n + 1) (det2 (binary f.p) m a b c d i j k l) := by
  obtain ⟨g1, g2, g3, g4, g5⟩ := fits_bounds hf
  exact (products_step g1 over (hm a b) (hm k l) (hm c d) (hm i j) (by omega) (by omega)).2

theorem agree_determ (hf : FitsDeep f e n) (over : ℝ → ℝ) {m : Mat ℝ} (hm : ∀ i j, Grid e n (m i j)) :
    determ (f.arith over) m = determ (binary f.p) m ∧ Grid (3 * e) (3 * n + 3) (determ (binary f.p) m) := by
  obtain ⟨h1, h2, h3, h4, h5, h6⟩ := deep_bounds hf
  have h2' : (6 : ℤ) ≤ f.p := by exact_mod_cast h2
  have one : ∀ (i j a b c d a' b' c' d' : Fin 3), (f.arith over).rnd (m i j * det2 (f.arith over) m a b c d a' b' c' d') = (binary f.p).rnd (m i j * det2 (binary f.p) m a b c d a' b' c' d') ∧
      Grid (3 * e) (3 * n + 1) ((binary f.p).rnd (m i j * det2 (binary f.p) m a b c d a' b' c' d')) := fun i j a b c d a' b' c' d' => by
    obtain ⟨d1, d2⟩ := agree_det2 (deep_fits hf) over hm a b c d a' b' c' d'
    rw [d1]
    exact (((hm i j).mul d2).mono (show 3 * e ≤ _ by omega) (show _ ≤ 3 * n + 1 by omega)).step h1 over (by omega) (by omega)
  obtain ⟨a1, a2⟩ := one 0 0 1 1 1 2 2 1 2 2
  obtain ⟨b1, b2⟩ := one 0 1 1 0 1 2 2 0 2 2
  obtain ⟨c1, c2⟩ := one 0 2 1 0 1 1 2 0 2 1
  obtain ⟨d1, d2⟩ := (a2.sub b2).step h1 over (by omega) (by omega)
  obtain ⟨k1, k2⟩ := (d2.add (c2.mono le_rfl (show _ ≤ 3 * n + 1 + 1 by omega))).step h1 over (by omega) (by omega)
  unfold determ
  simp only [a1, b1, c1, d1]
  exact ⟨k1, k2.mono le_rfl (by omega)⟩

theorem agree_adjugate (hf : Fits f e n) (over : ℝ → ℝ) {m : Mat ℝ} (hm : ∀ i j, Grid e n (m i j)) :
    adjugate (f.arith over) m = adjugate (binary f.p) m ∧ ∀ i j, Grid (e + e) (n + n + 1) (adjugate (binary f.p) m i j) := by
  have d := fun a b c d' i j k l => agree_det2 hf over hm a b c d' i j k l
  unfold adjugate
  simp only [fun a b c d' i j k l => (d a b c d' i j k l).1]
  refine ⟨trivial, fun i j => ?_⟩
  have p := fun a b c d' i j k l => (d a b c d' i j k l).2
  fin_cases i <;> fin_cases j <;> first | exact p _ _ _ _ _ _ _ _ | exact (p _ _ _ _ _ _ _ _).neg

/-- Size of the values of an inverse. -/
abbrev InvGrid (f : Format) (e n : ℤ) (m : Mat ℝ) : Prop := ∀ i j, Grid (2 * e - 3 * n - f.p - 2) (2 * n - 3 * e + 1) (m i j)

theorem agree_inverse (hf : FitsDeep f e n) (over : ℝ → ℝ) (t : Thr ℝ) (ht : 0 < t.nullDeter) {m : Mat ℝ} (hm : ∀ i j, Grid e n (m i j)) :
    inverse (f.arith over) t m = inverse (binary f.p) t m ∧ ∀ b, inverse (binary f.p) t m = .ok b → InvGrid f e n b := by
  obtain ⟨h1, h2, h3, h4, h5, h6⟩ := deep_bounds hf
  have h2' : (6 : ℤ) ≤ f.p := by exact_mod_cast h2
  obtain ⟨d1, d2⟩ := agree_determ hf over hm
  obtain ⟨a1, a2⟩ := agree_adjugate (deep_fits hf) over hm
  unfold inverse
  rw [d1, a1]
  by_cases h : |determ (binary f.p) m| < t.nullDeter
  · rw [if_pos h, if_pos h]
    exact ⟨rfl, fun b hb => by cases hb⟩
  rw [if_neg h, if_neg h]
  have h0 : determ (binary f.p) m ≠ 0 := by
    intro k
    rw [k, abs_zero] at h
    exact h ht
  have q := fun i j => agree_div h1 over (a2 i j) (d2.ge h0) d2.2 (by omega) (by omega)
  constructor
  · congr 1
    funext i j
    exact (q i j).1
  · intro b hb
    obtain rfl := Res.ok.inj hb
    exact fun i j => (q i j).2.mono (by omega) (by omega)

theorem agree_homInverse (hf : FitsDeep f e n) (over : ℝ → ℝ) (t : Thr ℝ) (ht : 0 < t.nullDeter) (ht' : 0 < t.nullDenom) {m : Mat ℝ} (hm : ∀ i j, Grid e n (m i j)) :
    homInverse (f.arith over) t m = homInverse (binary f.p) t m ∧ ∀ b, homInverse (binary f.p) t m = .ok b → ∀ i j, Grid (5 * e - 5 * n - 2 * f.p - 2) (5 * n - 5 * e + f.p + 3) (b i j) := by
  obtain ⟨h1, h2, h3, h4, h5, h6⟩ := deep_bounds hf
  have h2' : (6 : ℤ) ≤ f.p := by exact_mod_cast h2
  obtain ⟨i1, i2⟩ := agree_inverse hf over t ht hm
  unfold homInverse
  rw [i1]
  rcases e1 : inverse (binary f.p) t m with b | _ | _
  · have hb := i2 b e1
    show normalizeMat (f.arith over) t b = normalizeMat (binary f.p) t b ∧ ∀ b', normalizeMat (binary f.p) t b = .ok b' → _
    unfold normalizeMat
    by_cases h : |b 2 2| < t.nullDenom
    · rw [if_pos h, if_pos h]
      exact ⟨rfl, fun b hb => by cases hb⟩
    rw [if_neg h, if_neg h]
    have h0 : b 2 2 ≠ 0 := by
      intro k
      rw [k, abs_zero] at h
      exact h ht'
    have q := fun i j => agree_div h1 over (hb i j) ((hb 2 2).ge h0) (hb 2 2).2 (by omega) (by omega)
    have eq : (fun i j => (f.arith over).rnd (b i j / b 2 2)) = fun i j => (binary f.p).rnd (b i j / b 2 2) := by
      funext i j
      exact (q i j).1
    have q2 : ∀ i j, Grid (5 * e - 5 * n - 2 * f.p - 2) (5 * n - 5 * e + f.p + 3) ((binary f.p).rnd (b i j / b 2 2)) := fun i j => (q i j).2.mono (by omega) (by omega)
    constructor
    · exact congrArg (fun n : Mat ℝ => Res.ok (if n 2 2 < 0 then fun i j => - n i j else n)) eq
    intro b' hb'
    obtain rfl := Res.ok.inj hb'
    intro i j
    split_ifs
    · exact (q2 i j).neg
    · exact q2 i j
  · exact ⟨rfl, fun r hr => by cases hr⟩
  · exact ⟨rfl, fun r hr => by cases hr⟩

theorem agree_normalize' (hp : 1 ≤ f.p) (over : ℝ → ℝ) (t : Thr ℝ) {a b : ℤ} {v : V3 ℝ} (h : ∀ i, Grid a b (v i)) (ha : f.emin + f.p - 1 ≤ a - (b + 1)) (hab : a ≤ b + 1) (hb : b + 1 ≤ f.emax - 1) (hb' : b - a ≤ f.emax - 1) (hb0 : 0 ≤ b + 1) :
    normalizeLine (f.arith over) t v = normalizeLine (binary f.p) t v := by
  obtain ⟨a1, a2, a3⟩ := hyp_step hp over (h 0) (h 1) (by omega) (by omega)
  unfold normalizeLine
  simp only [a1]
  by_cases hs : (binary f.p).hyp (v 0) (v 1) ≤ dblEps
  · rw [if_pos hs, if_pos hs]
  · rw [if_neg hs, if_neg hs]
    have hne : v 0 ≠ 0 ∨ v 1 ≠ 0 := by
      by_contra hc
      push Not at hc
      apply hs
      rw [hc.1, hc.2]
      show roundTo f.p (Real.sqrt (0 ^ 2 + 0 ^ 2)) ≤ _
      have : (0 : ℝ) ^ 2 + 0 ^ 2 = 0 := by norm_num
      rw [this, Real.sqrt_zero, roundTo_zero]
      unfold dblEps
      positivity
    have hy : (2 : ℝ) ^ a ≤ |(binary f.p).hyp (v 0) (v 1)| := le_trans (a3 hne) (le_abs_self _)
    have eq : ∀ i, (f.arith over).rnd (v i / (binary f.p).hyp (v 0) (v 1)) = (binary f.p).rnd (v i / (binary f.p).hyp (v 0) (v 1)) := fun i => (agree_div hp over (h i) hy a2.2 (by omega) (by omega)).1
    simp only [eq]

theorem agree_lineImage (hf : FitsImage f e n) (over : ℝ → ℝ) (t : Thr ℝ) (ht : 0 < t.nullDeter) (ht' : 0 < t.nullDenom) {m : Mat ℝ} (hm : ∀ i j, Grid e n (m i j)) {l : V3 ℝ} (hl : LineGrid f e n l) :
    lineImage (f.arith over) t m l = lineImage (binary f.p) t m l := by
  obtain ⟨hf0, h7, h8⟩ := hf
  obtain ⟨h1, h2, h3, h4, h5, h6⟩ := deep_bounds hf0
  have h2' : (6 : ℤ) ≤ f.p := by exact_mod_cast h2
  obtain ⟨i1, i2⟩ := agree_homInverse hf0 over t ht ht' hm
  unfold lineImage
  rw [i1]
  rcases e1 : homInverse (binary f.p) t m with b | _ | _
  · have hb := i2 b e1
    have hl' : ∀ i, Grid (2 * e - n - f.p - 1) (2 * n + 1 - e) (l i) := fun i => by
      fin_cases i
      · exact hl.1.mono (by omega) (by omega)
      · exact hl.2.1.mono (by omega) (by omega)
      · exact hl.2.2
    have prod : ∀ i j, (f.arith over).rnd (b j i * l j) = (binary f.p).rnd (b j i * l j) ∧ Grid (7 * e - 6 * n - 3 * f.p - 3) (7 * n - 6 * e + f.p + 4) ((binary f.p).rnd (b j i * l j)) := fun i j =>
      (((hb j i).mul (hl' j)).mono (show 7 * e - 6 * n - 3 * f.p - 3 ≤ _ by omega) (show _ ≤ 7 * n - 6 * e + f.p + 4 by omega)).step h1 over (by omega) (by omega)
    have val : ∀ i, app (f.arith over) b.transpose l i = app (binary f.p) b.transpose l i ∧ Grid (7 * e - 6 * n - 3 * f.p - 3) (7 * n - 6 * e + f.p + 6) (app (binary f.p) b.transpose l i) := fun i => by
      obtain ⟨a1, a2⟩ := prod i 0
      obtain ⟨b1, b2⟩ := prod i 1
      obtain ⟨c1, c2⟩ := prod i 2
      obtain ⟨d1, d2⟩ := (a2.add b2).step h1 over (by omega) (by omega)
      obtain ⟨k1, k2⟩ := (d2.add (c2.mono le_rfl (show _ ≤ 7 * n - 6 * e + f.p + 4 + 1 by omega))).step h1 over (by omega) (by omega)
      unfold app Mat.transpose
      rw [a1, b1, c1, d1]
      exact ⟨k1, k2.mono le_rfl (by omega)⟩
    show normalizeLine (f.arith over) t (app (f.arith over) b.transpose l) = normalizeLine (binary f.p) t (app (binary f.p) b.transpose l)
    rw [funext fun i => (val i).1]
    exact agree_normalize' h1 over t (fun i => (val i).2) (by omega) (by omega) (by omega) (by omega) (by omega)
  · rfl
  · rfl

/-! ### Searches -/

section
variable {P D : Type} [LinearOrder D] {d d' : P → P → D} {eq eq' : P → P → Bool} {q : P}

theorem findLoop_congr (w : Search.What) : ∀ (l : List P) (i r : ℕ) (x : D), (∀ y ∈ l, d q y = d' q y ∧ eq q y = eq' q y) → Search.findLoop w d eq q i l r x = Search.findLoop w d' eq' q i l r x := by
  intro l
  induction l with
  | nil => intro i r x _; rfl
  | cons y l ih =>
    intro i r x h
    obtain ⟨h1, h2⟩ := h y (by simp)
    have hl : ∀ z ∈ l, d q z = d' q z ∧ eq q z = eq' q z := fun z hz => h z (by simp [hz])
    unfold Search.findLoop
    rw [h1, h2, ih _ _ _ hl, ih _ _ _ hl]

theorem findPoint_congr (w : Search.What) {cont : List P} (h : ∀ y ∈ cont, d q y = d' q y ∧ eq q y = eq' q y ∧ eq y q = eq' y q) : Search.findPoint w d eq q cont = Search.findPoint w d' eq' q cont := by
  match cont, h with
  | [], _ => rfl
  | [_], _ => rfl
  | a :: b :: l, h =>
    have hl : ∀ y ∈ b :: l, d q y = d' q y ∧ eq q y = eq' q y := fun y hy => ⟨(h y (List.mem_cons_of_mem _ hy)).1, (h y (List.mem_cons_of_mem _ hy)).2.1⟩
    unfold Search.findPoint
    dsimp only
    rw [(h a (by simp)).2.2, (h a (by simp)).1, (h b (by simp)).1, findLoop_congr w (b :: l) _ _ _ hl, findLoop_congr w l _ _ _ fun y hy => hl y (List.mem_cons_of_mem _ hy)]

theorem nfLoop_congr : ∀ (l : List P) (i a : ℕ) (x : D) (b : ℕ) (y : D), (∀ z ∈ l, d q z = d' q z ∧ eq q z = eq' q z) → Search.nfLoop d eq q i l a x b y = Search.nfLoop d' eq' q i l a x b y := by
  intro l
  induction l with
  | nil => intro i a x b y _; rfl
  | cons z l ih =>
    intro i a x b y h
    obtain ⟨h1, h2⟩ := h z (by simp)
    have hl : ∀ z ∈ l, d q z = d' q z ∧ eq q z = eq' q z := fun z hz => h z (by simp [hz])
    unfold Search.nfLoop
    simp only [h1, h2]
    rw [ih _ _ _ _ _ hl, ih _ _ _ _ _ hl]

theorem nearestFarthest_congr {cont : List P} (h : ∀ y ∈ cont, d q y = d' q y ∧ eq q y = eq' q y) : Search.findNearestFarthestPoint d eq q cont = Search.findNearestFarthestPoint d' eq' q cont := by
  match cont, h with
  | [], _ => rfl
  | [_], _ => rfl
  | a :: b :: l, h =>
    have hl : ∀ y ∈ b :: l, d q y = d' q y ∧ eq q y = eq' q y := fun y hy => h y (List.mem_cons_of_mem _ hy)
    unfold Search.findNearestFarthestPoint
    dsimp only
    rw [(h a (by simp)).2, (h a (by simp)).1, (h b (by simp)).1, nfLoop_congr (b :: l) _ _ _ _ _ hl, nfLoop_congr l _ _ _ _ _ fun y hy => hl y (List.mem_cons_of_mem _ hy)]

theorem closestInner_congr (p : P) (i : ℕ) : ∀ (l : List P) (j : ℕ) (out : Search.Closest D), (∀ y ∈ l, d p y = d' p y) → Search.closestInner d p i j l out = Search.closestInner d' p i j l out := by
  intro l
  induction l with
  | nil => intro j out _; rfl
  | cons y l ih =>
    intro j out h
    have hl : ∀ z ∈ l, d p z = d' p z := fun z hz => h z (by simp [hz])
    unfold Search.closestInner
    simp only [h y (by simp)]
    rw [ih _ _ hl, ih _ _ hl]

theorem closest_congr {a b : List P} (h : ∀ x ∈ a, ∀ y ∈ b, d x y = d' x y) : Search.getClosestPoints d a b = Search.getClosestPoints d' a b := by
  have outer : ∀ (l : List P) (i : ℕ) (out : Search.Closest D), (∀ x ∈ l, ∀ y ∈ b, d x y = d' x y) → Search.closestOuter d b i l out = Search.closestOuter d' b i l out := by
    intro l
    induction l with
    | nil => intro i out _; rfl
    | cons x l ih =>
      intro i out h
      unfold Search.closestOuter
      rw [closestInner_congr x i b 0 out (h x (by simp)), ih _ _ fun z hz => h z (by simp [hz])]
  match a, b, h, outer with
  | [], _, _, _ => rfl
  | _ :: _, [], _, _ => rfl
  | x :: xs, y :: ys, h, outer =>
    unfold Search.getClosestPoints
    simp only
    rw [h x (by simp) y (by simp), outer _ _ _ h]

end

theorem agree_sameB (hf : Fits f e n) (over : ℝ → ℝ) (t : Thr ℝ) {p q : Pt ℝ} (hp : GridPt e n p) (hq : GridPt e n q) : sameB (f.arith over) t p q = sameB (binary f.p) t p q := by
  unfold sameB PtSame
  rw [(agree_dist hf over hp hq).1]

end H2d.Fl
