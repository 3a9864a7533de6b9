import Verif.Model.FloatPolyCirc
import Verif.Spec.FloatPolyCirc
import Verif.Props.FloatSegCirc
import Verif.Lemmas.FloatSegLine
import Verif.Lemmas.RectMore

/-! # Intersections of polylines and rectangles with a circle, with rounded operations -/

namespace H2d.Fl
open H2d.Spec H2d.Props

variable {F : Arith} {u v : ℝ}

theorem along_flip (s : Seg) (k : ℝ) : Spec.along (s.2, s.1) k = Spec.along s (1 - k) := by
  simp only [Spec.along]; apply Prod.ext <;> simp only <;> ring

theorem clearOf_flip {c : Pt ℝ} {r m d : ℝ} {s : Seg} (h : ClearOf c r m d s) : ClearOf c r m d (s.2, s.1) := by
  rcases h with ⟨h1, h2⟩ | h | ⟨h1, h2⟩ | ⟨h1, h2⟩ | ⟨k, h0, h1, hk, ha, hb⟩
  · exact .inside h2 h1
  · exact .outside fun k k0 k1 => by rw [along_flip]; exact h _ (by linarith) (by linarith)
  · exact .enters h2 h1
  · exact .leaves h2 h1
  · exact .through (1 - k) (by linarith) (by linarith) (by rw [along_flip, sub_sub_cancel]; exact hk) hb ha

theorem segCirc_flip {t : Thr ℝ} {M L : ℝ} {s : Seg} {c : Pt ℝ} {r : ℝ} (h : SegCirc F t u M L s c r) : SegCirc F t u M L (s.2, s.1) c r :=
  ⟨segRep_swap h.rep, slope_swap h.slope, h.L_pos, by rw [eucl_comm]; exact h.len, h.small, h.thr, h.eps, h.cx, h.cy, h.rad⟩

theorem onSeg_flip {a b X : Pt ℝ} (h : OnSeg a b X) : OnSeg b a X := by
  obtain ⟨k, k0, k1, rfl⟩ := h
  exact ⟨1 - k, by linarith, by linarith, by apply Prod.ext <;> simp only <;> ring⟩

theorem nearSeg_flip {s : Seg} {e : ℝ} {q : Pt ℝ} (h : NearSeg (s.2, s.1) e q) : NearSeg s e q := by
  obtain ⟨k, k0, k1, hk⟩ := h
  exact ⟨1 - k, by linarith, by linarith, by rwa [along_flip] at hk⟩

theorem meets_flip {M L d : ℝ} {c : Pt ℝ} {r : ℝ} {s : Seg} {pts : List (Pt ℝ)} (h : Meets u M L d c r [(s.2, s.1)] pts) : Meets u M L d c r [s] pts := by
  refine ⟨h.circle, fun q hq => ?_, fun e he X hX hc => ?_⟩
  · obtain ⟨e, he, k⟩ := h.seg q hq
    rw [List.mem_singleton] at he; subst he
    exact ⟨s, by simp, nearSeg_flip k⟩
  · rw [List.mem_singleton] at he; subst he
    obtain ⟨q, hq, k⟩ := h.found (e.2, e.1) (by simp) X (onSeg_flip hX) hc
    exact ⟨q, hq, by rw [eucl_comm e.1 e.2]; exact k⟩

theorem cuts_flip (c : Pt ℝ) (r : ℝ) (s : Seg) : cuts c r (s.2, s.1) = cuts c r s := by
  have hex : (∃ k, 0 ≤ k ∧ k ≤ 1 ∧ eucl (Spec.along (s.2, s.1) k) c < r) ↔ ∃ k, 0 ≤ k ∧ k ≤ 1 ∧ eucl (Spec.along s k) c < r := by
    constructor
    · rintro ⟨k, k0, k1, hk⟩
      exact ⟨1 - k, by linarith, by linarith, by rwa [along_flip] at hk⟩
    · rintro ⟨k, k0, k1, hk⟩
      exact ⟨1 - k, by linarith, by linarith, by rwa [along_flip, sub_sub_cancel]⟩
  unfold cuts
  rw [hex]
  clear hex
  generalize (∃ k, 0 ≤ k ∧ k ≤ 1 ∧ eucl (Spec.along s k) c < r) = P
  split_ifs <;> first | rfl | (exfalso; simp only at *; tauto)

/-- One segment: the number of points, and where they are. -/
theorem circ_one (h : FlOk F u v) {t : Thr ℝ} {M L d : ℝ} {s : Seg} {c : Pt ℝ} {r : ℝ} (hp : SegCirc F t u M L s c r) (hthr : 1500 * scErr u M L + 13 * (u + v) * M < t.nullDistance)
    (hd : scMargin u v M L t.nullDistance ≤ d) (hc : ClearOf c r (scMargin u v M L t.nullDistance) d s) :
    ∃ pts, segCircle F t s c r = .ok (some pts) ∧ pts.length = cuts c r s ∧ Meets u M L d c r [s] pts := by
  obtain ⟨hM, h3, e0, x1, -⟩ := sc_sizes h hp
  have hnd : 0 < t.nullDistance := lt_of_lt_of_le (by have := dblEps_pos; linarith) hp.eps
  have uv : 0 ≤ (u + v) * M := mul_nonneg (add_nonneg h.u_nonneg h.v_nonneg) hM.le
  have m1 : 12 * ((u + v) * M) + 2 * t.nullDistance ≤ scMargin u v M L t.nullDistance := by unfold scMargin; linarith
  have m0 : 0 < scMargin u v M L t.nullDistance := by linarith
  have d0 : 0 < d := m0.trans_le hd
  rcases hc with ⟨h1, h2⟩ | ho | ⟨h1, h2⟩ | ⟨h1, h2⟩ | ⟨k, k0, k1, hk, ha, hb⟩
  · refine ⟨[], C145_inside_partial h t hp.rad (by linarith) (by linarith), ?_, by simp, by simp, ?_⟩
    · unfold cuts
      rw [if_pos (iff_of_true (by linarith) (by linarith)), if_neg (fun k => k.1 (by linarith))]; rfl
    · intro e he X hX hX'
      rw [List.mem_singleton] at he; subst he
      obtain ⟨k, k0, k1, rfl⟩ := hX
      have := along_max e c (a := 0) (b := 1) (k := k) (x := r - d) k0 k1 (by rw [along_zero]; linarith) (by rw [along_one]; linarith)
      unfold Spec.along at this
      rw [hX'] at this; linarith
  · have q1 := ho 0 le_rfl zero_le_one
    have q2 := ho 1 zero_le_one le_rfl
    rw [along_zero] at q1; rw [along_one] at q2
    refine ⟨[], C145_outside_partial h hp ho, ?_, by simp, by simp, ?_⟩
    · unfold cuts
      rw [if_pos (iff_of_false (by linarith) (by linarith)), if_neg]; · rfl
      rintro ⟨-, k, k0, k1, hk⟩
      linarith [ho k k0 k1]
    · intro e he X hX hX'
      rw [List.mem_singleton] at he; subst he
      obtain ⟨k, k0, k1, rfl⟩ := hX
      have := ho k k0 k1
      unfold Spec.along at this
      rw [hX'] at this; linarith
  · obtain ⟨q, e, c1, c2, c3⟩ := C145_crossing_partial h hp hthr (A := s.1) (B := s.2) (Or.inl rfl) hd h1 h2
    refine ⟨[q], e, ?_, ?_, ?_, ?_⟩
    · unfold cuts
      rw [if_neg (fun k => absurd (k.1 (by linarith)) (by linarith))]; rfl
    · intro q' hq'; rw [List.mem_singleton] at hq'; subst hq'; exact c1
    · intro q' hq'; rw [List.mem_singleton] at hq'; subst hq'; exact ⟨s, by simp, c2⟩
    · intro e he X hX hX'
      rw [List.mem_singleton] at he; subst he
      exact ⟨q, by simp, c3 X hX hX'⟩
  · obtain ⟨q, e, c1, c2, c3⟩ := C145_crossing_partial h hp hthr (A := s.2) (B := s.1) (Or.inr rfl) hd h2 h1
    refine ⟨[q], e, ?_, ?_, ?_, ?_⟩
    · unfold cuts
      rw [if_neg (fun k => absurd (k.2 (by linarith)) (by linarith))]; rfl
    · intro q' hq'; rw [List.mem_singleton] at hq'; subst hq'; exact c1
    · intro q' hq'; rw [List.mem_singleton] at hq'; subst hq'; exact ⟨s, by simp, c2⟩
    · intro e he X hX hX'
      rw [List.mem_singleton] at he; subst he
      exact ⟨q, by simp, c3 X hX hX'⟩
  · obtain ⟨q, q', a, b, e, hab, c1, c2, c3⟩ := C145_through_partial h hp hthr k0 k1 hd hk ha hb
    have mem : ∀ x, x ∈ [q, q'] ↔ x = a ∨ x = b := by
      intro x
      rcases hab with hab | hab <;> obtain ⟨rfl, rfl⟩ := Prod.mk.inj hab <;> simp [or_comm]
    refine ⟨[q, q'], e, ?_, ?_, ?_, ?_⟩
    · unfold cuts
      rw [if_pos (iff_of_false (by linarith) (by linarith)), if_pos ⟨by linarith, k, k0, k1, by linarith⟩]; rfl
    · intro x hx; exact (c1 x ((mem x).1 hx)).1
    · intro x hx; exact ⟨s, by simp, (c1 x ((mem x).1 hx)).2⟩
    · intro e he X hX hX'
      rw [List.mem_singleton] at he; subst he
      obtain ⟨i, i0, i1, rfl⟩ := hX
      rcases le_total i k with hik | hik
      · exact ⟨a, (mem a).2 (Or.inl rfl), c2 i i0 hik hX'⟩
      · exact ⟨b, (mem b).2 (Or.inr rfl), c3 i hik i1 hX'⟩

theorem circ_fix (h : FlOk F u v) {t : Thr ℝ} {M L d : ℝ} {s : Seg} {c : Pt ℝ} {r : ℝ} (hp : SegCirc F t u M L s c r) (hthr : 1500 * scErr u M L + 13 * (u + v) * M < t.nullDistance)
    (hd : scMargin u v M L t.nullDistance ≤ d) (hc : ClearOf c r (scMargin u v M L t.nullDistance) d s) :
    ∃ pts, segCircle F t (fixOrder s.1 s.2) c r = .ok (some pts) ∧ pts.length = cuts c r s ∧ Meets u M L d c r [s] pts := by
  unfold fixOrder
  split_ifs
  · obtain ⟨pts, h1, h2, h3⟩ := circ_one h (segCirc_flip hp) hthr hd (clearOf_flip hc)
    exact ⟨pts, h1, by rw [h2, cuts_flip], meets_flip h3⟩
  · exact circ_one h hp hthr hd hc

theorem meets_append {M L d : ℝ} {c : Pt ℝ} {r : ℝ} {e : Seg} {es : List Seg} {a b : List (Pt ℝ)} (h : Meets u M L d c r [e] a) (h' : Meets u M L d c r es b) {x : List (Pt ℝ)} (hx : ∀ q, q ∈ x ↔ q ∈ a ∨ q ∈ b) :
    Meets u M L d c r (e :: es) x := by
  refine ⟨fun q hq => ?_, fun q hq => ?_, fun e' he' X hX hc => ?_⟩
  · rcases (hx q).1 hq with k | k
    · exact h.circle q k
    · exact h'.circle q k
  · rcases (hx q).1 hq with k | k
    · obtain ⟨e', he', n⟩ := h.seg q k
      rw [List.mem_singleton] at he'; subst he'
      exact ⟨e', by simp, n⟩
    · obtain ⟨e', he', n⟩ := h'.seg q k
      exact ⟨e', by simp [he'], n⟩
  · rcases List.mem_cons.1 he' with rfl | he'
    · obtain ⟨q, hq, n⟩ := h.found e' (by simp) X hX hc
      exact ⟨q, (hx q).2 (Or.inl hq), n⟩
    · obtain ⟨q, hq, n⟩ := h'.found e' he' X hX hc
      exact ⟨q, (hx q).2 (Or.inr hq), n⟩

theorem meets_nil (u M L d : ℝ) (c : Pt ℝ) (r : ℝ) : Meets u M L d c r [] [] := ⟨by simp, by simp, by simp⟩

/-- The intersections of a list of edges with a circle. -/
theorem circ_list (h : FlOk F u v) {t : Thr ℝ} {M L d : ℝ} {c : Pt ℝ} {r : ℝ} (hthr : 1500 * scErr u M L + 13 * (u + v) * M < t.nullDistance) (hd : scMargin u v M L t.nullDistance ≤ d) :
    ∀ es : List Seg, (∀ e ∈ es, SegCirc F t u M L e c r ∧ ClearOf c r (scMargin u v M L t.nullDistance) d e) →
      ∃ pts, segsInterCircle F t c r (es.map fun e => fixOrder e.1 e.2) = .ok (some pts) ∧ pts.length = (es.map (cuts c r)).sum ∧ Meets u M L d c r es pts
  | [], _ => ⟨[], rfl, rfl, meets_nil ..⟩
  | e :: es, H => by
    obtain ⟨a, a1, a2, a3⟩ := circ_fix h (H e (by simp)).1 hthr hd (H e (by simp)).2
    obtain ⟨b, b1, b2, b3⟩ := circ_list h hthr hd es fun e' he' => H e' (by simp [he'])
    refine ⟨a ++ b, ?_, by simp [a2, b2], meets_append a3 b3 (by simp)⟩
    rw [List.map_cons, segsInterCircle, a1, Res.bind_ok, b1, Res.bind_ok]
    rfl

theorem cuts_le (c : Pt ℝ) (r : ℝ) (e : Seg) : cuts c r e ≤ 2 := by unfold cuts; split_ifs <;> simp

/-- The same with points in a set. -/
theorem circ_set (h : FlOk F u v) {t : Thr ℝ} {M L d : ℝ} {c : Pt ℝ} {r : ℝ} (hthr : 1500 * scErr u M L + 13 * (u + v) * M < t.nullDistance) (hd : scMargin u v M L t.nullDistance ≤ d) :
    ∀ (es : List Seg), (∀ e ∈ es, SegCirc F t u M L e c r ∧ ClearOf c r (scMargin u v M L t.nullDistance) d e) → ∀ out, SortedPts out →
      ∃ pts new, rectCircleLoop F t c r (es.map fun e => fixOrder e.1 e.2) out = .ok (some pts) ∧ SortedPts pts ∧ (∀ q, q ∈ pts ↔ q ∈ out ∨ q ∈ new) ∧ Meets u M L d c r es new
  | [], _, out, ho => ⟨out, [], rfl, ho, by simp, meets_nil ..⟩
  | e :: es, H, out, ho => by
    obtain ⟨a, a1, a2, a3⟩ := circ_fix h (H e (by simp)).1 hthr hd (H e (by simp)).2
    have hl := cuts_le c r e
    rw [← a2] at hl
    rw [List.map_cons, rectCircleLoop, a1, Res.bind_ok]
    have key : ∀ out', SortedPts out' → (∀ q, q ∈ out' ↔ q ∈ out ∨ q ∈ a) → ∃ pts new, rectCircleLoop F t c r (es.map fun e => fixOrder e.1 e.2) out' = .ok (some pts) ∧ SortedPts pts ∧
        (∀ q, q ∈ pts ↔ q ∈ out ∨ q ∈ new) ∧ Meets u M L d c r (e :: es) new := by
      intro out' so hm
      obtain ⟨pts, new, p1, p2, p3, p4⟩ := circ_set h hthr hd es (fun e' he' => H e' (by simp [he'])) out' so
      refine ⟨pts, a ++ new, p1, p2, fun q => ?_, meets_append a3 p4 (by simp)⟩
      rw [p3, hm, List.mem_append, or_assoc]
    rcases a with _ | ⟨x, _ | ⟨y, _ | ⟨z, l⟩⟩⟩
    · exact key out ho (by simp)
    · obtain ⟨s1, s2⟩ := RectM.setInsert_spec x out ho
      exact key _ s1 fun q => by rw [s2, List.mem_singleton, or_comm]
    · obtain ⟨s1, s2⟩ := RectM.setInsert_spec x out ho
      obtain ⟨s3, s4⟩ := RectM.setInsert_spec y _ s1
      refine key _ s3 fun q => ?_
      rw [s4, s2]; simp only [List.mem_cons, List.not_mem_nil, or_false]; tauto
    · simp at hl

/-- A segment that avoids the circle at its ends cuts it an odd number of times exactly when one end only is inside. -/
theorem cuts_odd {c : Pt ℝ} {r : ℝ} {e : Seg} : Odd (cuts c r e) ↔ ¬ (eucl e.1 c < r ↔ eucl e.2 c < r) := by
  unfold cuts
  by_cases k : (eucl e.1 c < r ↔ eucl e.2 c < r)
  · rw [if_pos k]
    refine iff_of_false ?_ (fun n => n k)
    split_ifs <;> decide
  · rw [if_neg k]
    exact iff_of_true odd_one k

open Classical in
/-- Around a closed list of points, a property changes an even number of times. -/
theorem sum_even (P : Pt ℝ → Prop) (f : Seg → ℕ) (hf : ∀ e, Odd (f e) ↔ ¬ (P e.1 ↔ P e.2)) (pts : List (Pt ℝ)) : Even ((polyEdges pts).map f).sum := by
  have zip : ∀ a b : List (Pt ℝ), a.length = b.length → (Even ((a.zip b).map f).sum ↔ (Even (a.countP fun p => decide (P p)) ↔ Even (b.countP fun p => decide (P p)))) := by
    intro a
    induction a with
    | nil => intro b hb; rw [List.length_nil, eq_comm, List.length_eq_zero_iff] at hb; subst hb; simp
    | cons x a ih =>
      intro b hb
      rcases b with _ | ⟨y, b⟩
      · simp at hb
      rw [List.zip_cons_cons, List.map_cons, List.sum_cons, Nat.even_add, ih b (by simpa using hb), List.countP_cons, List.countP_cons]
      have h1 := hf (x, y)
      rw [← Nat.not_even_iff_odd, not_iff_not] at h1
      simp only at h1
      rw [h1]
      by_cases px : P x <;> by_cases py : P y <;> simp [px, py, Nat.even_add_one, -Nat.not_even_iff_odd] <;> tauto
  unfold polyEdges
  rw [zip _ _ (by simp), (List.rotate_perm pts 1).countP_eq]

end H2d.Fl
