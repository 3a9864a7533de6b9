import Verif.Lemmas.Simple
import Verif.Lemmas.FloatSegs
import Verif.Spec.FloatSimple
import Verif.Props.FloatCross

/-! # Lemmas for simple polygons with rounded operations -/

namespace H2d.Fl
open H2d.Spec H2d.Simple

variable {F : Arith} {u v : ℝ}

/-- A point for which the sum of distances to the ends is not much above the length is near the line. -/
theorem ellipse_cross {s : Seg} {q : Pt ℝ} {δ : ℝ} (hδ : 0 ≤ δ) (hd : eucl s.1 q + eucl s.2 q ≤ eucl s.1 s.2 + δ) :
    (2 * ((s.2.1 - s.1.1) * (q.2 - s.1.2) - (s.2.2 - s.1.2) * (q.1 - s.1.1))) ^ 2 ≤ δ * (2 * eucl s.1 s.2 + δ) * eucl s.1 s.2 ^ 2 := by
  have eA := eucl_sq s.1 q
  have eB := eucl_sq s.2 q
  have eL := eucl_sq s.1 s.2
  have hA := eucl_nonneg s.1 q
  have hB := eucl_nonneg s.2 q
  have hL := eucl_nonneg s.1 s.2
  generalize eucl s.1 q = A at *
  generalize eucl s.2 q = B at *
  generalize eucl s.1 s.2 = L at *
  obtain ⟨⟨x1, y1⟩, x2, y2⟩ := s
  obtain ⟨x, y⟩ := q
  simp only at *
  set C := (x2 - x1) * (y - y1) - (y2 - y1) * (x - x1) with hC
  set D := (x2 - x1) * (x - x1) + (y2 - y1) * (y - y1) with hD
  have i1 : D ^ 2 + C ^ 2 = L ^ 2 * A ^ 2 := by rw [eA, eL]; ring
  have i2 : (L ^ 2 - D) ^ 2 + C ^ 2 = L ^ 2 * B ^ 2 := by rw [eB, eL]; ring
  clear_value C D
  have i3 : D * (L ^ 2 - D) + C ^ 2 ≤ L ^ 2 * (A * B) := by
    refine (abs_le_of_sq_le_sq' ?_ (by positivity)).2
    have : (L ^ 2 * (A * B)) ^ 2 = (D ^ 2 + C ^ 2) * ((L ^ 2 - D) ^ 2 + C ^ 2) := by rw [i1, i2]; ring
    have k : (D ^ 2 + C ^ 2) * ((L ^ 2 - D) ^ 2 + C ^ 2) - (D * (L ^ 2 - D) + C ^ 2) ^ 2 = (D * C - (L ^ 2 - D) * C) ^ 2 := by ring
    rw [this]
    linarith [sq_nonneg (D * C - (L ^ 2 - D) * C)]
  have i4 : (A + B) ^ 2 ≤ (L + δ) ^ 2 := pow_le_pow_left₀ (by positivity) hd 2
  have i5 := mul_le_mul_of_nonneg_left i4 (sq_nonneg L)
  have k1 : L ^ 2 * (A + B) ^ 2 = L ^ 2 * A ^ 2 + L ^ 2 * B ^ 2 + 2 * (L ^ 2 * (A * B)) := by ring
  have k2 : L ^ 2 * (L + δ) ^ 2 = L ^ 4 + δ * (2 * L + δ) * L ^ 2 := by ring
  have k3 : D ^ 2 + (L ^ 2 - D) ^ 2 + 2 * (D * (L ^ 2 - D)) = L ^ 4 := by ring
  rw [mul_pow]
  linarith

/-- A point that is taken to be on a segment is near it. -/
theorem between_near (h : FlOk F u v) {t : Thr ℝ} (ht : 0 ≤ t.nullDistance) {s : Seg} {p : Pt ℝ} {Λ : ℝ} (h0 : 0 < eucl s.1 s.2) (hΛ : eucl s.1 s.2 ≤ Λ) (hb : Between F t s p) :
    ∃ q, OnSeg s.1 s.2 q ∧ eucl p q ≤ reach t u v Λ / 2 := by
  have b := between_only h hb
  have hu := h.u_nonneg
  have hv := h.v_nonneg
  have hsl : 4 * (u + v) * eucl s.1 s.2 + 11 / 10 * t.nullDistance ≤ slack t u v Λ := by
    unfold slack
    have := mul_le_mul_of_nonneg_left hΛ (by positivity : 0 ≤ 4 * (u + v))
    linarith
  have hs0 : 0 ≤ slack t u v Λ := le_trans (by positivity) hsl
  have hd : eucl s.1 p + eucl s.2 p ≤ eucl s.1 s.2 + slack t u v Λ := by linarith
  have c := ellipse_cross hs0 hd
  have c2 : slack t u v Λ * (2 * eucl s.1 s.2 + slack t u v Λ) ≤ slack t u v Λ * (2 * Λ + slack t u v Λ) := mul_le_mul_of_nonneg_left (by linarith) hs0
  have c3 : |(s.2.1 - s.1.1) * (p.2 - s.1.2) - (s.2.2 - s.1.2) * (p.1 - s.1.1)| ≤ Real.sqrt (slack t u v Λ * (2 * Λ + slack t u v Λ)) / 2 * eucl s.1 s.2 := by
    apply abs_le_of_sq_le_sq _ (by positivity)
    have hΛ0 : 0 ≤ Λ := by linarith
    have e := Real.sq_sqrt (show 0 ≤ slack t u v Λ * (2 * Λ + slack t u v Λ) by positivity)
    have c4 := mul_le_mul_of_nonneg_right c2 (sq_nonneg (eucl s.1 s.2))
    rw [mul_pow, div_pow, e]
    linarith
  obtain ⟨k, k0, k1, hk⟩ := seg_near h0 hd c3
  refine ⟨Spec.along s k, (onSeg_along s _).2 ⟨k, k0, k1, rfl⟩, hk.trans (le_of_eq ?_)⟩
  unfold reach; ring

theorem segInter_some {t : Thr ℝ} {ac : ℝ → ℝ} {s s' : Seg} {p : Pt ℝ} (e : segInter F t ac s s' = .ok (some p)) : Between F t s p ∧ Between F t s' p := by
  unfold segInter at e
  split_ifs at e with h0
  · cases e
  · rcases lineOfPts_ub (F := F) t s.1 s.2 with e1 | ⟨l, e1⟩ <;> rw [e1] at e
    · cases e
    rcases lineOfPts_ub (F := F) t s'.1 s'.2 with e2 | ⟨m, e2⟩ <;> rw [e2] at e
    · cases e
    simp only [Res.bind_ok] at e
    split_ifs at e with hp
    · cases e
    · unfold lineInter at e
      rw [if_neg hp, Res.bind_ok] at e
      generalize crossXY F l m = c at e
      rcases c with _ | q
      · cases e
      · simp only at e
        split_ifs at e with b1 b2
        · simp only [Res.pure_eq, Res.ok.injEq, Option.some.injEq] at e
          subst e; exact ⟨b1, b2⟩
        · cases e
        · cases e

theorem segInter_total (h : FlOk F u v) {t : Thr ℝ} (ht : 2 * dblEps ≤ t.nullDistance) (ac : ℝ → ℝ) {s s' : Seg} (r1 : Rep F s.1.1 ∧ Rep F s.1.2) (r2 : Rep F s.2.1 ∧ Rep F s.2.2)
    (r3 : Rep F s'.1.1 ∧ Rep F s'.1.2) (r4 : Rep F s'.2.1 ∧ Rep F s'.2.2) (hs : 2 * t.nullDistance ≤ eucl s.1 s.2) (hs' : 2 * t.nullDistance ≤ eucl s'.1 s'.2) :
    ∃ o, segInter F t ac s s' = .ok o := by
  have hp := dblEps_pos
  have n0 : 0 < t.nullDistance := by linarith
  rcases Props.C106_defined F u v h t ht s.1 s.2 r1 r2 with ⟨l, e1⟩ | ⟨k, -⟩
  swap
  · exact absurd k (far_not_same h t hs n0)
  rcases Props.C106_defined F u v h t ht s'.1 s'.2 r3 r4 with ⟨m, e2⟩ | ⟨k, -⟩
  swap
  · exact absurd k (far_not_same h t hs' n0)
  unfold segInter
  split_ifs with h0
  · exact ⟨_, rfl⟩
  · rw [e1, Res.bind_ok, e2, Res.bind_ok]
    split_ifs with hpar
    · exact ⟨_, rfl⟩
    · unfold lineInter
      rw [if_neg hpar, Res.bind_ok]
      rcases crossXY F l m with _ | q
      · exact ⟨_, rfl⟩
      · simp only
        split_ifs <;> exact ⟨_, rfl⟩

/-- The answer of the intersection of two edges. -/
noncomputable def answerF (F : Arith) (t : Thr ℝ) (ac : ℝ → ℝ) (e e' : Seg) : Option (Pt ℝ) :=
  match segInter F t ac (fixOrder e.1 e.2) (fixOrder e'.1 e'.2) with
  | .ok o => o
  | _ => none

theorem fix_rep {e : Seg} (h1 : Rep F e.1.1 ∧ Rep F e.1.2) (h2 : Rep F e.2.1 ∧ Rep F e.2.2) :
    (Rep F (fixOrder e.1 e.2).1.1 ∧ Rep F (fixOrder e.1 e.2).1.2) ∧ Rep F (fixOrder e.1 e.2).2.1 ∧ Rep F (fixOrder e.1 e.2).2.2 := by
  rcases Pip.fixOrder_cases e.1 e.2 with h | h <;> rw [h]
  · exact ⟨h1, h2⟩
  · exact ⟨h2, h1⟩

theorem edge_mem {pts : List (Pt ℝ)} {i : ℕ} {e : Seg} (h : Edge pts i e) : e.1 ∈ pts ∧ e.2 ∈ pts := ⟨List.mem_of_getElem? h.1, List.mem_of_getElem? h.2⟩

theorem answerF_eq (h : FlOk F u v) {t : Thr ℝ} (ht : 2 * dblEps ≤ t.nullDistance) (ac : ℝ → ℝ) {Λ : ℝ} {pts : List (Pt ℝ)} (hp : EdgesOk F t Λ pts) {i j : ℕ} {e e' : Seg} (he : Edge pts i e) (he' : Edge pts j e') :
    segInter F t ac (fixOrder e.1 e.2) (fixOrder e'.1 e'.2) = .ok (answerF F t ac e e') := by
  obtain ⟨r1, r2⟩ := fix_rep (hp.1 _ (edge_mem he).1) (hp.1 _ (edge_mem he).2)
  obtain ⟨r3, r4⟩ := fix_rep (hp.1 _ (edge_mem he').1) (hp.1 _ (edge_mem he').2)
  obtain ⟨o, ho⟩ := segInter_total h ht ac r1 r2 r3 r4 (by rw [fix_len]; exact (hp.2 i e he).1) (by rw [fix_len]; exact (hp.2 j e' he').1)
  unfold answerF
  rw [ho]

theorem answerF_comm (h : FlOk F u v) (t : Thr ℝ) (ac : ℝ → ℝ) (e e' : Seg) : answerF F t ac e e' = answerF F t ac e' e := by
  unfold answerF
  rw [segInter_comm h]

theorem segMake_ok (h : FlOk F u v) {t : Thr ℝ} (ht : 0 < t.nullDistance) {p q : Pt ℝ} (hd : 2 * t.nullDistance ≤ eucl p q) : segMake F t p q = .ok (fixOrder p q) :=
  if_neg (far_not_same h t hd ht)

theorem simpleF_eq (h : FlOk F u v) {t : Thr ℝ} (ht : 2 * dblEps ≤ t.nullDistance) (ac : ℝ → ℝ) {Λ : ℝ} {pts : List (Pt ℝ)} (hp : EdgesOk F t Λ pts) (closed : Bool) :
    ∃ b, simpleF F t ac closed pts = .ok b ∧ (b = true ↔ 3 ≤ pts.length ∧ closed = true ∧ ∀ i j e e', Edge pts i e → Edge pts j e' → NotNeighbours pts.length i j → answerF F t ac e e' = none) := by
  have hp0 := dblEps_pos
  refine run_eq (g := fun e => fixOrder e.1 e.2) (c := answerF F t ac) (fun i e he => segMake_ok h (by linarith) (hp.2 i e he).1) (fun i j e e' he he' _ => answerF_eq h ht ac hp he he') (fun i j e e' _ _ _ y => ?_) closed
  rw [answerF_comm h]; exact y

theorem answerF_apart (h : FlOk F u v) {t : Thr ℝ} (ht : 2 * dblEps ≤ t.nullDistance) (ac : ℝ → ℝ) {Λ D : ℝ} {pts : List (Pt ℝ)} (hp : EdgesOk F t Λ pts) (hD : reach t u v Λ < D) {i j : ℕ} {e e' : Seg}
    (he : Edge pts i e) (he' : Edge pts j e') (ha : ∀ q q', OnSeg e.1 e.2 q → OnSeg e'.1 e'.2 q' → D ≤ eucl q q') : answerF F t ac e e' = none := by
  have hp0 := dblEps_pos
  have := answerF_eq h ht ac hp he he'
  rcases hc : answerF F t ac e e' with _ | p
  · rfl
  · rw [hc] at this
    obtain ⟨b1, b2⟩ := segInter_some this
    have k1 := hp.2 i e he
    have k2 := hp.2 j e' he'
    obtain ⟨q, hq, d1⟩ := between_near h (by linarith) (Λ := Λ) (by rw [fix_len]; linarith) (by rw [fix_len]; exact k1.2) b1
    obtain ⟨q', hq', d2⟩ := between_near h (by linarith) (Λ := Λ) (by rw [fix_len]; linarith) (by rw [fix_len]; exact k2.2) b2
    have h3 := ha q q' (Pip.onSeg_fix.1 hq) (Pip.onSeg_fix.1 hq')
    have h4 := eucl_triangle q p q'
    rw [eucl_comm q p] at h4
    linarith

theorem _root_.H2d.Spec.SegPair.swap1 {t : Thr ℝ} {w M L S : ℝ} {s s' : Seg} (hp : SegPair F t u w M L S s s') : SegPair F t u w M L S s.swap s' where
  rep1 := ⟨hp.rep1.2.1, hp.rep1.1, hp.rep1.2.2.2.2.1, hp.rep1.2.2.2.2.2, hp.rep1.2.2.1, hp.rep1.2.2.2.1⟩
  rep2 := hp.rep2
  slope1 := by
    have := hp.slope1
    unfold SlopeOk at *
    simp only [Prod.fst_swap, Prod.snd_swap]
    rw [abs_sub_comm, eucl_comm s.2 s.1]
    exact this.imp Eq.symm id
  slope2 := hp.slope2
  L_pos := hp.L_pos
  len1 := by simp only [Prod.fst_swap, Prod.snd_swap]; rw [eucl_comm s.2 s.1]; exact hp.len1
  len2 := hp.len2
  S_pos := hp.S_pos
  sin := by
    have := hp.sin
    unfold sinSegs at *
    simp only [Prod.fst_swap, Prod.snd_swap]
    rw [eucl_comm s.2 s.1, ← abs_neg, show -((s.1.1 - s.2.1) * (s'.2.2 - s'.1.2) - (s.1.2 - s.2.2) * (s'.2.1 - s'.1.1)) = (s.2.1 - s.1.1) * (s'.2.2 - s'.1.2) - (s.2.2 - s.1.2) * (s'.2.1 - s'.1.1) by ring]
    exact this
  small := hp.small
  thr := hp.thr
  eps := hp.eps
  angle := hp.angle

theorem _root_.H2d.Spec.SegPair.fix {t : Thr ℝ} {w M L S : ℝ} {s s' : Seg} (hp : SegPair F t u w M L S s s') : SegPair F t u w M L S (fixOrder s.1 s.2) (fixOrder s'.1 s'.2) := by
  rcases Pip.fixOrder_cases s.1 s.2 with h | h <;> rcases Pip.fixOrder_cases s'.1 s'.2 with h' | h' <;> rw [h, h']
  · exact hp
  · exact hp.symm.swap1.symm
  · exact hp.swap1
  · exact hp.swap1.symm.swap1.symm

end H2d.Fl
