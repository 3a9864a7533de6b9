import Verif.Lemmas.FloatRectFar
import Verif.Lemmas.FloatExact

/-! # Two rectangles with a common corner, with rounded operations -/

namespace H2d.Fl

open H2d.Spec H2d.Rank

section
variable {F : Arith} {u v : ℝ} {t : Thr ℝ} {M η : ℝ} {f g f' g' : ℕ → ℝ}

/-- A side: what does not depend on the computed coordinates. -/
structure SideRep (F : Arith) (M : ℝ) (f g : ℕ → ℝ) (s : NS) : Prop where
  ax : Ax s = true
  r1 : Rep F (f s.1.1) ∧ |f s.1.1| ≤ M
  r2 : Rep F (g s.1.2) ∧ |g s.1.2| ≤ M
  r3 : Rep F (f s.2.1) ∧ |f s.2.1| ≤ M
  r4 : Rep F (g s.2.2) ∧ |g s.2.2| ≤ M

theorem SideRep.side {s : NS} (hs : SideRep F M f g s) (hv : s.1.1 = s.2.1 → axisC F (f s.1.1) (g s.1.2) (g s.2.2) = f' s.1.1)
    (hh : s.1.2 = s.2.2 → axisC F (g s.1.2) (f s.1.1) (f s.2.1) = g' s.1.2) : Side F M f g f' g' s := ⟨hs.ax, hs.r1, hs.r2, hs.r3, hs.r4, hv, hh⟩

theorem ax_cases {s : NS} (h : Ax s = true) : (s.1.1 = s.2.1 ∧ s.1.2 ≠ s.2.2) ∨ (s.1.2 = s.2.2 ∧ s.1.1 ≠ s.2.1) := by
  simp only [Ax, Bool.or_eq_true, Bool.and_eq_true, beq_iff_eq, decide_eq_true_eq] at h
  omega

/-- A vertical side of the first rectangle. -/
theorem segInter_V (h : FlOk F u v) (hA : AxisExact F) {ac : ℝ → ℝ} {w : ℝ} (ha : AcosOk ac w) (ht : RectThr t) (n : Near F t u v M η f g f' g') {s s' : NS} (h1 : SideRep F M f g s) (h2 : SideRep F M f g s')
    (e2 : s'.1.1 = s'.2.1) (hv : axisC F (f s'.1.1) (g s'.1.2) (g s'.2.2) = f' s'.1.1) (hh : s.1.2 = s.2.2 → axisC F (g s.1.2) (f s.1.1) (f s.2.1) = g' s.1.2) :
    segInter F t ac (mpS f g s) (mpS f g s') = .ok ((axInter s s').map (mp f' g')) := by
  have k2 : s'.1.2 ≠ s'.2.2 := by rcases ax_cases h2.ax with k | k; exacts [k.2, absurd e2 k.2]
  rcases ax_cases h1.ax with ⟨e1, k1⟩ | ⟨e1, k1⟩
  · -- the coordinates of the points play no role
    by_cases he : s = s'
    · subst he
      exact segInter_mp' h hA ha ht n s s (h1.side (fun _ => hv) hh) (h1.side (fun _ => hv) hh)
    have np := n.pos
    have f2 : Emb (2 * t.nullDistance) f := emb_weak (by linarith) (by linarith) n.hf
    have g2 : Emb (2 * t.nullDistance) g := emb_weak (by linarith) (by linarith) n.hg
    have ns : ¬ SegSame F t (mpS f g s) (mpS f g s') := by
      rintro ⟨q1, q2⟩
      exact he (Prod.ext ((same_mp' h hA np f2 g2 _ _).1 q1) ((same_mp' h hA np f2 g2 _ _).1 q2))
    have x1 := h1.ax
    have x2 := h2.ax
    obtain ⟨⟨a, b⟩, c, d⟩ := s
    obtain ⟨⟨a', b'⟩, c', d'⟩ := s'
    have he' : ((((a, b), c, d) : NS) == ((a', b'), c', d')) = false := by rw [beq_eq_false_iff_ne]; exact he
    simp only at e1 e2 k1 k2
    subst e1 e2
    have y1 : b < d := by simp only [Ax, Bool.or_eq_true, Bool.and_eq_true, beq_iff_eq, decide_eq_true_eq] at x1; omega
    have y2 : b' < d' := by simp only [Ax, Bool.or_eq_true, Bool.and_eq_true, beq_iff_eq, decide_eq_true_eq] at x2; omega
    have gp := n.hg.gap b d y1
    have gp' := n.hg.gap b' d' y2
    have l1 := vLine h hA ht n.eps h1.r1.1 h1.r2.1 h1.r4.1 (show 2 * t.nullDistance ≤ g d - g b by linarith)
    have l2 := vLine h hA ht n.eps h2.r1.1 h2.r2.1 h2.r4.1 (show 2 * t.nullDistance ≤ g d' - g b' by linarith)
    simp only at l1 l2
    unfold segInter
    rw [if_neg ns]
    simp only [mpS, mp, l1, l2, Res.bind_ok, (axis_angle h hA ha ht _ 0 _ 0).1, if_true, Res.pure_eq]
    simp [axInter, he', vert]
  · exact segInter_mp' h hA ha ht n s s' (h1.side (fun e => absurd e k1) hh) (h2.side (fun _ => hv) (fun e => absurd e k2))

/-- A horizontal side of the first rectangle. -/
theorem segInter_H (h : FlOk F u v) (hA : AxisExact F) {ac : ℝ → ℝ} {w : ℝ} (ha : AcosOk ac w) (ht : RectThr t) (n : Near F t u v M η f g f' g') {s s' : NS} (h1 : SideRep F M f g s) (h2 : SideRep F M f g s')
    (e2 : s'.1.2 = s'.2.2) (hh : axisC F (g s'.1.2) (f s'.1.1) (f s'.2.1) = g' s'.1.2) (hv : s.1.1 = s.2.1 → axisC F (f s.1.1) (g s.1.2) (g s.2.2) = f' s.1.1) :
    segInter F t ac (mpS f g s) (mpS f g s') = .ok ((axInter s s').map (mp f' g')) := by
  have k2 : s'.1.1 ≠ s'.2.1 := by rcases ax_cases h2.ax with k | k; exacts [absurd e2 k.2, k.2]
  rcases ax_cases h1.ax with ⟨e1, k1⟩ | ⟨e1, k1⟩
  · exact segInter_mp' h hA ha ht n s s' (h1.side hv (fun e => absurd e k1)) (h2.side (fun e => absurd e k2) (fun _ => hh))
  · by_cases he : s = s'
    · subst he
      exact segInter_mp' h hA ha ht n s s (h1.side hv (fun _ => hh)) (h1.side hv (fun _ => hh))
    have np := n.pos
    have f2 : Emb (2 * t.nullDistance) f := emb_weak (by linarith) (by linarith) n.hf
    have g2 : Emb (2 * t.nullDistance) g := emb_weak (by linarith) (by linarith) n.hg
    have ns : ¬ SegSame F t (mpS f g s) (mpS f g s') := by
      rintro ⟨q1, q2⟩
      exact he (Prod.ext ((same_mp' h hA np f2 g2 _ _).1 q1) ((same_mp' h hA np f2 g2 _ _).1 q2))
    have x1 := h1.ax
    have x2 := h2.ax
    obtain ⟨⟨a, b⟩, c, d⟩ := s
    obtain ⟨⟨a', b'⟩, c', d'⟩ := s'
    have he' : ((((a, b), c, d) : NS) == ((a', b'), c', d')) = false := by rw [beq_eq_false_iff_ne]; exact he
    simp only at e1 e2 k1 k2
    subst e1 e2
    have y1 : a < c := by simp only [Ax, Bool.or_eq_true, Bool.and_eq_true, beq_iff_eq, decide_eq_true_eq] at x1; omega
    have y2 : a' < c' := by simp only [Ax, Bool.or_eq_true, Bool.and_eq_true, beq_iff_eq, decide_eq_true_eq] at x2; omega
    have gp := n.hf.gap a c y1
    have gp' := n.hf.gap a' c' y2
    have l1 := hLine h hA n.eps h1.r2.1 h1.r1.1 h1.r3.1 (show 2 * t.nullDistance ≤ f c - f a by linarith)
    have l2 := hLine h hA n.eps h2.r2.1 h2.r1.1 h2.r3.1 (show 2 * t.nullDistance ≤ f c' - f a' by linarith)
    simp only at l1 l2
    unfold segInter
    rw [if_neg ns]
    simp only [mpS, mp, l1, l2, Res.bind_ok, (axis_angle h hA ha ht 0 _ 0 _).2.1, if_true, Res.pure_eq]
    have hv : (a == c) = false := by rw [beq_eq_false_iff_ne]; omega
    have hv' : (a' == c') = false := by rw [beq_eq_false_iff_ne]; omega
    simp [axInter, he', vert, hv, hv']

/-- The computed coordinates of the sides of a rectangle. -/
noncomputable def axX (F : Arith) (f g : ℕ → ℝ) (r : FRect ℕ) (i : ℕ) : ℝ := if i = r.p1.1 ∨ i = r.p2.1 then axisC F (f i) (g r.p1.2) (g r.p2.2) else f i
noncomputable def axY (F : Arith) (f g : ℕ → ℝ) (r : FRect ℕ) (i : ℕ) : ℝ := if i = r.p1.2 ∨ i = r.p2.2 then axisC F (g i) (f r.p1.1) (f r.p2.1) else g i

theorem segs_rep {r : FRect ℕ} (hp : Proper r) (hr : RectRep F M (mpR f g r)) : ∀ s ∈ segs r, SideRep F M f g s := by
  obtain ⟨h1, h2⟩ := hp
  have ax := segs_ax (r := r) ⟨h1, h2⟩
  have a1 := hr.x1
  have a2 := hr.y1
  have a3 := hr.x2
  have a4 := hr.y2
  simp only [mpR, mp] at a1 a2 a3 a4
  intro s hs
  have hax := ax s hs
  simp only [segs, List.mem_cons, List.not_mem_nil, or_false] at hs
  rcases hs with rfl | rfl | rfl | rfl
  · exact ⟨hax, a1, a2, a1, a4⟩
  · exact ⟨hax, a1, a4, a3, a4⟩
  · exact ⟨hax, a3, a2, a3, a4⟩
  · exact ⟨hax, a1, a2, a3, a2⟩

theorem segs_x {r : FRect ℕ} (hp : Proper r) : ∀ s ∈ segs r, s.1.1 = s.2.1 → axisC F (f s.1.1) (g s.1.2) (g s.2.2) = axX F f g r s.1.1 := by
  obtain ⟨h1, h2⟩ := hp
  intro s hs e
  simp only [segs, List.mem_cons, List.not_mem_nil, or_false] at hs
  rcases hs with rfl | rfl | rfl | rfl
  · simp [axX]
  · exact absurd e h1.ne
  · simp [axX]
  · exact absurd e h1.ne

theorem segs_y {r : FRect ℕ} (hp : Proper r) : ∀ s ∈ segs r, s.1.2 = s.2.2 → axisC F (g s.1.2) (f s.1.1) (f s.2.1) = axY F f g r s.1.2 := by
  obtain ⟨h1, h2⟩ := hp
  intro s hs e
  simp only [segs, List.mem_cons, List.not_mem_nil, or_false] at hs
  rcases hs with rfl | rfl | rfl | rfl
  · exact absurd e h2.ne
  · simp [axY]
  · exact absurd e h2.ne
  · simp [axY]

/-- A side of the first rectangle against the second one; the coordinates may be common. -/
theorem rectSegInter_V (h : FlOk F u v) (hA : AxisExact F) {ac : ℝ → ℝ} {w : ℝ} (ha : AcosOk ac w) (ht : RectThr t) (hM : 0 ≤ M) {a b : FRect ℕ} (pa : Proper a) (pb : Proper b) (ra : RectRep F M (mpR f g a)) (rb : RectRep F M (mpR f g b))
    (n : Near F t u v M η f g (axX F f g a) (axY F f g b)) {s : NS} (hs : s ∈ segs a) (e : s.1.1 = s.2.1) :
    rectSegInter F t ac (mpR f g b) (mpS f g s) = .ok ((segLoop s (segs b) []).map (mp (axX F f g a) (axY F f g b))) := by
  unfold rectSegInter
  rw [rectSegs_mp' h n pb]
  simp only [Res.bind_ok]
  exact rectSegLoop_gen h hA n hM s (segs b) [] (fun s' hs' => segInter_V h hA ha ht n (segs_rep pb rb s' hs') (segs_rep pa ra s hs) e (segs_x pa s hs e) (segs_y pb s' hs'))

theorem rectSegInter_H (h : FlOk F u v) (hA : AxisExact F) {ac : ℝ → ℝ} {w : ℝ} (ha : AcosOk ac w) (ht : RectThr t) (hM : 0 ≤ M) {a b : FRect ℕ} (pa : Proper a) (pb : Proper b) (ra : RectRep F M (mpR f g a)) (rb : RectRep F M (mpR f g b))
    (n : Near F t u v M η f g (axX F f g b) (axY F f g a)) {s : NS} (hs : s ∈ segs a) (e : s.1.2 = s.2.2) :
    rectSegInter F t ac (mpR f g b) (mpS f g s) = .ok ((segLoop s (segs b) []).map (mp (axX F f g b) (axY F f g a))) := by
  unfold rectSegInter
  rw [rectSegs_mp' h n pb]
  simp only [Res.bind_ok]
  exact rectSegLoop_gen h hA n hM s (segs b) [] (fun s' hs' => segInter_H h hA ha ht n (segs_rep pb rb s' hs') (segs_rep pa ra s hs) e (segs_y pa s hs e) (segs_x pb s' hs'))

theorem near_axX (h : FlOk F u v) {L : ℝ} {r : FRect ℕ} (hr : RectRep F M (mpR f g r)) (hL : 0 < L) (hl : LongSides L (mpR f g r)) (i : ℕ) : |axX F f g r i - f i| ≤ 9 * (u * M ^ 2 / L) := by
  have η0 : 0 ≤ 9 * (u * M ^ 2 / L) := by have := h.u_nonneg; positivity
  unfold axX
  split_ifs with c
  · have m : |f i| ≤ M := by rcases c with rfl | rfl; exacts [hr.x1.2, hr.x2.2]
    exact axisC_err h m hr.y1.2 hr.y2.2 hL (by have := hl.2; simp only [mpR, mp] at this; linarith)
  · exact near_self η0

theorem near_axY (h : FlOk F u v) {L : ℝ} {r : FRect ℕ} (hr : RectRep F M (mpR f g r)) (hL : 0 < L) (hl : LongSides L (mpR f g r)) (i : ℕ) : |axY F f g r i - g i| ≤ 9 * (u * M ^ 2 / L) := by
  have η0 : 0 ≤ 9 * (u * M ^ 2 / L) := by have := h.u_nonneg; positivity
  unfold axY
  split_ifs with c
  · have m : |g i| ≤ M := by rcases c with rfl | rfl; exacts [hr.y1.2, hr.y2.2]
    exact axisC_err h m hr.x1.2 hr.x2.2 hL (by have := hl.1; simp only [mpR, mp] at this; linarith)
  · exact near_self η0

end

/-! ### The example -/

/-- The largest number below 1. -/
noncomputable def witX : ℝ := 1 - (2 : ℝ) ^ (-53 : ℤ)

noncomputable def witF : ℕ → ℝ
  | 0 => -1
  | 1 => 0
  | n + 2 => witX + n

noncomputable def witG : ℕ → ℝ
  | 0 => 0
  | 1 => 3
  | n + 2 => 4 + n

theorem witX_bounds : 1 / 2 < witX ∧ witX < 1 ∧ witX = 1 - 1 / 2 ^ 53 := by
  unfold witX
  refine ⟨?_, ?_, ?_⟩ <;> norm_num [zpow_neg]

theorem witX_rep : Rep (binary 53) witX := by
  have := roundTo_exact (p := 53) (by norm_num) (m := 2 ^ 53 - 1) (k := -53) (by norm_num)
  have e : (((2 ^ 53 - 1 : ℤ) : ℝ)) * (2 : ℝ) ^ (-53 : ℤ) = witX := by
    rw [witX_bounds.2.2]; norm_num [zpow_neg]
  rw [e] at this
  exact this

theorem step_emb {n : ℝ} (hn : 0 < n) {f : ℕ → ℝ} (h : ∀ i, f i + n ≤ f (i + 1)) : Emb n f := by
  refine ⟨hn, fun i j hij => ?_⟩
  induction j with
  | zero => omega
  | succ j ih =>
    rcases Nat.lt_succ_iff_lt_or_eq.1 hij with q | q
    · have := ih q
      have := h j
      linarith
    · subst q; exact h i

theorem wit_emb {n : ℝ} (hn : 0 < n) (h1 : n ≤ 1 / 2) : Emb n witF ∧ Emb n witG := by
  obtain ⟨x1, x2, -⟩ := witX_bounds
  constructor <;> refine step_emb hn fun i => ?_
  · rcases i with _ | _ | i
    · simp only [witF]; linarith
    · simp only [witF, Nat.cast_zero]; linarith
    · simp only [witF]; push_cast; linarith
  · rcases i with _ | _ | i
    · simp only [witG]; linarith
    · simp only [witG, Nat.cast_zero]; linarith
    · simp only [witG]; push_cast; linarith

theorem wit_left : axisC (binary 53) witX 0 4 = witX := by
  have r4 : (binary 53).rnd 4 = 4 := by exact_mod_cast rep_small (n := 4) (by norm_num)
  have r0 : (binary 53).rnd 0 = 0 := roundTo_zero
  have r4x : (binary 53).rnd (witX * 4) = witX * 4 := by
    have := roundTo_exact (p := 53) (by norm_num) (m := 2 ^ 53 - 1) (k := -51) (by norm_num)
    have e : (((2 ^ 53 - 1 : ℤ) : ℝ)) * (2 : ℝ) ^ (-51 : ℤ) = witX * 4 := by
      rw [witX_bounds.2.2]; norm_num [zpow_neg]
    rw [e] at this
    exact this
  unfold axisC
  rw [r4x, zero_mul, r0, sub_zero, sub_zero, r4x, r4, mul_div_cancel_right₀ _ (by norm_num)]
  exact witX_rep

theorem wit_right : axisC (binary 53) witX 3 4 = 1 := by
  have r1 : (binary 53).rnd 1 = 1 := (binary_axis (by norm_num)).one
  have r4x : (binary 53).rnd (witX * 4) = witX * 4 := by
    have := roundTo_exact (p := 53) (by norm_num) (m := 2 ^ 53 - 1) (k := -51) (by norm_num)
    have e : (((2 ^ 53 - 1 : ℤ) : ℝ)) * (2 : ℝ) ^ (-51 : ℤ) = witX * 4 := by
      rw [witX_bounds.2.2]; norm_num [zpow_neg]
    rw [e] at this
    exact this
  have r3x : (binary 53).rnd (3 * witX) = 3 - 1 / 2 ^ 51 := by
    have := roundTo_of (p := 53) (by norm_num) (x := 3 * witX) (m := 3 * 2 ^ 51 - 1) (k := -51) (by rw [witX_bounds.2.2]; norm_num) (by rw [witX_bounds.2.2]; norm_num)
      (by rw [witX_bounds.2.2, abs_lt]; constructor <;> norm_num)
    have e : (((3 * 2 ^ 51 - 1 : ℤ) : ℝ)) * (2 : ℝ) ^ (-51 : ℤ) = 3 - 1 / 2 ^ 51 := by norm_num [zpow_neg]
    rw [e] at this
    exact this
  unfold axisC
  rw [r4x, r3x, show witX * 4 - (3 - 1 / 2 ^ 51) = 1 by rw [witX_bounds.2.2]; norm_num, show (4 : ℝ) - 3 = 1 by norm_num, r1, div_one, r1]

/-- `[-1,X]×[0,4]` and `[0,X]×[3,4]`. -/
def witA : FRect ℕ := ⟨(0, 0), (2, 2)⟩
def witB : FRect ℕ := ⟨(1, 1), (2, 2)⟩

theorem wit_mp : mpR witF witG witA = ⟨(-1, 0), (witX, 4)⟩ ∧ mpR witF witG witB = ⟨(0, 3), (witX, 4)⟩ := by
  simp [mpR, mp, witA, witB, witF, witG]

theorem wit_throw {ac : ℝ → ℝ} {w : ℝ} (ha : AcosOk ac w) : Fl.intersectArea (binary 53) stdR ac ⟨(-1, 0), (witX, 4)⟩ ⟨(0, 3), (witX, 4)⟩ = .throw := by
  obtain ⟨x1, x2, x3⟩ := witX_bounds
  have h := binary_ok (p := 53) (by norm_num)
  have hA := binary_axis (p := 53) (by norm_num)
  have ht := stdR_thr
  have i : ∀ n : ℤ, |n| ≤ 4 → Rep (binary 53) (n : ℝ) := fun n hn => rep_small hn
  have rX := witX_rep
  have bX : |witX| ≤ 4 := by rw [abs_le]; constructor <;> linarith
  have rA : RectRep (binary 53) 4 (mpR witF witG witA) := by
    rw [wit_mp.1]
    exact ⟨⟨by exact_mod_cast i (-1) (by norm_num), by norm_num⟩, ⟨by exact_mod_cast i 0 (by norm_num), by norm_num⟩, ⟨rX, bX⟩, ⟨by exact_mod_cast i 4 (by norm_num), by norm_num⟩⟩
  have rB : RectRep (binary 53) 4 (mpR witF witG witB) := by
    rw [wit_mp.2]
    exact ⟨⟨by exact_mod_cast i 0 (by norm_num), by norm_num⟩, ⟨by exact_mod_cast i 3 (by norm_num), by norm_num⟩, ⟨rX, bX⟩, ⟨by exact_mod_cast i 4 (by norm_num), by norm_num⟩⟩
  have lA : LongSides (1 / 2) (mpR witF witG witA) := by
    rw [wit_mp.1]; constructor <;> simp only <;> linarith
  have lB : LongSides (1 / 2) (mpR witF witG witB) := by
    rw [wit_mp.2]; constructor <;> simp only <;> linarith
  have L0 : (0 : ℝ) < 1 / 2 := by norm_num
  obtain ⟨eF, eG⟩ := wit_emb (n := 3 * stdR.nullDistance) (by norm_num [stdR]) (by norm_num [stdR])
  have mk : ∀ {r r' : FRect ℕ}, RectRep (binary 53) 4 (mpR witF witG r) → LongSides (1 / 2) (mpR witF witG r) → RectRep (binary 53) 4 (mpR witF witG r') → LongSides (1 / 2) (mpR witF witG r') →
      Near (binary 53) stdR ((2 : ℝ) ^ (-((53 : ℕ) : ℤ))) ((2 : ℝ) ^ (-((53 : ℕ) : ℤ))) 4 (9 * ((2 : ℝ) ^ (-((53 : ℕ) : ℤ)) * 4 ^ 2 / (1 / 2))) witF witG (axX (binary 53) witF witG r) (axY (binary 53) witF witG r') :=
    fun h1 h2 h3 h4 => ⟨by positivity, eF, eG, near_axX h h1 L0 h2, near_axY h h3 L0 h4, by norm_num [stdR, zpow_neg], by norm_num [stdR, dblEps]⟩
  have nV := mk rA lA rB lB
  have nH := mk rB lB rA lA
  have pA : Proper witA := by unfold Rank.Proper; decide
  have pB : Proper witB := by unfold Rank.Proper; decide
  have s0 := rectSegInter_V h hA ha ht (by norm_num) pA pB rA rB nV (s := ((0, 0), (0, 2))) (by decide) rfl
  have s1 := rectSegInter_H h hA ha ht (by norm_num) pA pB rA rB nH (s := ((0, 2), (2, 2))) (by decide) rfl
  have s2 := rectSegInter_V h hA ha ht (by norm_num) pA pB rA rB nV (s := ((2, 0), (2, 2))) (by decide) rfl
  have s3 := rectSegInter_H h hA ha ht (by norm_num) pA pB rA rB nH (s := ((0, 0), (2, 0))) (by decide) rfl
  rw [show segLoop ((0, 0), (0, 2)) (segs witB) [] = [] by decide] at s0
  rw [show segLoop ((0, 2), (2, 2)) (segs witB) [] = [(1, 2), (2, 2)] by decide] at s1
  rw [show segLoop ((2, 0), (2, 2)) (segs witB) [] = [(2, 2), (2, 1)] by decide] at s2
  rw [show segLoop ((0, 0), (2, 0)) (segs witB) [] = [] by decide] at s3
  simp only [List.map_nil, List.map_cons] at s0 s1 s2 s3
  have k1 : mp (axX (binary 53) witF witG witB) (axY (binary 53) witF witG witA) (2, 2) = (1, axY (binary 53) witF witG witA 2) := by
    simp only [mp]
    rw [show axX (binary 53) witF witG witB 2 = 1 by simp only [axX, witB, witF, witG]; simpa using wit_right]
  have k2 : ∀ j, mp (axX (binary 53) witF witG witA) (axY (binary 53) witF witG witB) (2, j) = (witX, axY (binary 53) witF witG witB j) := by
    intro j
    simp only [mp]
    rw [show axX (binary 53) witF witG witA 2 = witX by simp only [axX, witA, witF, witG]; simpa using wit_left]
  have e0 := abs_le.1 (nH.ef 1)
  have e1 := abs_le.1 (nV.eg 1)
  have e2 := abs_le.1 (nV.eg 2)
  have sm : 9 * ((2 : ℝ) ^ (-((53 : ℕ) : ℤ)) * 4 ^ 2 / (1 / 2)) ≤ 1 / 10 := by norm_num [zpow_neg]
  rw [show mp (axX (binary 53) witF witG witB) (axY (binary 53) witF witG witA) (1, 2) = (axX (binary 53) witF witG witB 1, axY (binary 53) witF witG witA 2) from rfl, k1] at s1
  rw [k2, k2] at s2
  generalize axX (binary 53) witF witG witB 1 = a1 at *
  generalize axY (binary 53) witF witG witA 2 = y2 at *
  generalize axY (binary 53) witF witG witB 1 = b1 at *
  generalize axY (binary 53) witF witG witB 2 = b2 at *
  have f1 : witF 1 = 0 := rfl
  have g1 : witG 1 = 3 := rfl
  have g2 : witG 2 = 4 := by simp [witG]
  rw [f1] at e0; rw [g1] at e1; rw [g2] at e2
  have hi : Fl.rectInter (binary 53) stdR ac (mpR witF witG witA) (mpR witF witG witB) = .ok [(a1, y2), (witX, b1), (witX, b2), (1, y2)] := by
    unfold Fl.rectInter
    rw [mpR_eq' h hA nV, if_neg (by decide), rectSegs_mp' h nV pA]
    simp only [Res.bind_ok]
    rw [show (segs witA).map (mpS witF witG) = [mpS witF witG ((0, 0), (0, 2)), mpS witF witG ((0, 2), (2, 2)), mpS witF witG ((2, 0), (2, 2)), mpS witF witG ((0, 0), (2, 0))] from rfl]
    simp only [rectLoop, s0, s1, s2, s3, Res.bind_ok]
    have l1 : a1 < witX := by linarith
    have l2 : a1 < 1 := by linarith
    have l3 : b1 < b2 := by linarith
    have i1 : setInsert ((a1, y2) : Pt ℝ) [] = [(a1, y2)] := rfl
    have i2 : setInsert ((1, y2) : Pt ℝ) [(a1, y2)] = [(a1, y2), (1, y2)] := by simp [setInsert, ptLt, l2, not_lt.2 l2.le]
    have i3 : setInsert ((witX, b2) : Pt ℝ) [(a1, y2), (1, y2)] = [(a1, y2), (witX, b2), (1, y2)] := by simp [setInsert, ptLt, l1, x2, not_lt.2 l1.le]
    have i4 : setInsert ((witX, b1) : Pt ℝ) [(a1, y2), (witX, b2), (1, y2)] = [(a1, y2), (witX, b1), (witX, b2), (1, y2)] := by simp [setInsert, ptLt, l1, l3, not_lt.2 l1.le]
    rw [i1, i2, i3, i4]
  rw [← wit_mp.1, ← wit_mp.2]
  unfold Fl.intersectArea
  rw [mpR_eq' h hA nV, if_neg (by decide), hi]
  simp only [Res.bind_ok]
  unfold rectOfPts
  rw [if_pos]
  · rfl
  · right
    simp only [sub_self, rnd_zero h, abs_zero]
    norm_num [stdR]

end H2d.Fl
