import Verif.Lemmas.FloatUnion

/-! # Area of the union and IoU with rounded operations -/

namespace H2d.Fl

open H2d.Spec H2d.Rank H2d.Simple

variable {F : Arith} {u v : ℝ} {t : Thr ℝ} {M L : ℝ} {f g : ℕ → ℝ}

/-! ### The polygon is simple -/

/-- Two edges parallel to the axes. -/
theorem edges_inter (h : FlOk F u v) (hA : AxisExact F) {ac : ℝ → ℝ} {w : ℝ} (ha : AcosOk ac w) (ht : RectThr t) (hf : Emb (3 * t.nullDistance) f) (hg : Emb (3 * t.nullDistance) g) (hL : 0 < L)
    (eps : 2 * dblEps ≤ t.nullDistance) (noise : 36 * (u * M ^ 2 / L) + 11 * (u + v) * M < t.nullDistance) {s s' : NS} (h1 : SideRep F M f g s) (h2 : SideRep F M f g s')
    (l1 : L ≤ |f s.1.1 - f s.2.1| + |g s.1.2 - g s.2.2|) (l2 : L ≤ |f s'.1.1 - f s'.2.1| + |g s'.1.2 - g s'.2.2|) :
    ∃ o, segInter F t ac (mpS f g s) (mpS f g s') = .ok o ∧ o.isSome = (axInter s s').isSome := by
  have η0 : 0 ≤ 9 * (u * M ^ 2 / L) := by have := h.u_nonneg; positivity
  have errX : ∀ {s : NS}, SideRep F M f g s → L ≤ |f s.1.1 - f s.2.1| + |g s.1.2 - g s.2.2| → s.1.1 = s.2.1 → |axisC F (f s.1.1) (g s.1.2) (g s.2.2) - f s.1.1| ≤ 9 * (u * M ^ 2 / L) := by
    intro s hs hl e
    have k : s.1.2 < s.2.2 := by
      have := hs.ax
      simp only [Ax, Bool.or_eq_true, Bool.and_eq_true, beq_iff_eq, decide_eq_true_eq] at this; omega
    have := hg.lt_iff.2 k
    rw [e, sub_self, abs_zero, abs_sub_comm, abs_of_pos (by linarith)] at hl
    exact axisC_err h hs.r1.2 hs.r2.2 hs.r4.2 hL (by linarith)
  have errY : ∀ {s : NS}, SideRep F M f g s → L ≤ |f s.1.1 - f s.2.1| + |g s.1.2 - g s.2.2| → s.1.2 = s.2.2 → |axisC F (g s.1.2) (f s.1.1) (f s.2.1) - g s.1.2| ≤ 9 * (u * M ^ 2 / L) := by
    intro s hs hl e
    have k : s.1.1 < s.2.1 := by
      have := hs.ax
      simp only [Ax, Bool.or_eq_true, Bool.and_eq_true, beq_iff_eq, decide_eq_true_eq] at this; omega
    have := hf.lt_iff.2 k
    rw [e, sub_self, abs_zero, abs_sub_comm, abs_of_pos (by linarith)] at hl
    exact axisC_err h hs.r2.2 hs.r1.2 hs.r3.2 hL (by linarith)
  have mk : ∀ {i j : ℕ} {p q : ℝ}, |p - f i| ≤ 9 * (u * M ^ 2 / L) → |q - g j| ≤ 9 * (u * M ^ 2 / L) →
      Near F t u v M (9 * (u * M ^ 2 / L)) f g (fun k => if k = i then p else f k) (fun k => if k = j then q else g k) := by
    intro i j p q hp hq
    refine ⟨η0, hf, hg, fun k => ?_, fun k => ?_, by linarith, eps⟩
    · split_ifs with c
      · rw [c]; exact hp
      · exact near_self η0
    · split_ifs with c
      · rw [c]; exact hq
      · exact near_self η0
  rcases ax_cases h2.ax with ⟨e2, k2⟩ | ⟨e2, k2⟩
  · rcases ax_cases h1.ax with ⟨e1, k1⟩ | ⟨e1, k1⟩
    · have n := mk (i := s'.1.1) (j := 0) (q := g 0) (errX h2 l2 e2) (near_self η0)
      have := segInter_V h hA ha ht n h1 h2 e2 (by simp) (fun e => absurd e k1)
      exact ⟨_, this, by simp⟩
    · have n := mk (i := s'.1.1) (j := s.1.2) (errX h2 l2 e2) (errY h1 l1 e1)
      have := segInter_V h hA ha ht n h1 h2 e2 (by simp) (fun _ => by simp)
      exact ⟨_, this, by simp⟩
  · rcases ax_cases h1.ax with ⟨e1, k1⟩ | ⟨e1, k1⟩
    · have n := mk (i := s.1.1) (j := s'.1.2) (errX h1 l1 e1) (errY h2 l2 e2)
      have := segInter_H h hA ha ht n h1 h2 e2 (by simp) (fun _ => by simp)
      exact ⟨_, this, by simp⟩
    · have n := mk (i := 0) (j := s'.1.2) (p := f 0) (near_self η0) (errY h2 l2 e2)
      have := segInter_H h hA ha ht n h1 h2 e2 (by simp) (fun e => absurd e k1)
      exact ⟨_, this, by simp⟩

theorem noCross_not {S : Type} {inter : S → S → Bool} {l : List S} (h : noCross inter l = true) {i j : ℕ} {a b : S} (hi : l[i]? = some a) (hj : l[j]? = some b) (hij : i + 2 ≤ j) (hn : ¬ (i = 0 ∧ j + 1 = l.length)) :
    inter b a = false := by
  have lj := (List.getElem?_eq_some_iff.1 hj).1
  unfold noCross at h
  simp only [Bool.not_eq_true', List.any_eq_false, List.mem_range] at h
  have := h i (by omega)
  simp only [Bool.not_eq_true, List.any_eq_false, List.mem_range'_1] at this
  have := this j ⟨hij, by split_ifs with c <;> omega⟩
  rw [hi, hj] at this
  simpa using this

/-- Representable vertices. -/
def VertRep (F : Arith) (M : ℝ) (f g : ℕ → ℝ) (p : NP) : Prop := (Rep F (f p.1) ∧ |f p.1| ≤ M) ∧ Rep F (g p.2) ∧ |g p.2| ≤ M

theorem sideRep_ord {s : NS} (hx : Ax (ordS s) = true) (h1 : VertRep F M f g s.1) (h2 : VertRep F M f g s.2) : SideRep F M f g (ordS s) := by
  refine ⟨hx, ?_, ?_, ?_, ?_⟩ <;> unfold ordS <;> split_ifs
  exacts [h1.1, h2.1, h1.2, h2.2, h2.1, h1.1, h2.2, h1.2]

theorem len_ord {s : NS} (hl : L ≤ |f s.1.1 - f s.2.1| + |g s.1.2 - g s.2.2|) : L ≤ |f (ordS s).1.1 - f (ordS s).2.1| + |g (ordS s).1.2 - g (ordS s).2.2| := by
  unfold ordS
  split_ifs
  · exact hl
  · rw [abs_sub_comm, abs_sub_comm (g s.2.2)]; exact hl

/-- `isSimple()` on a polygon with edges parallel to the axes. -/
theorem simple_mp' (h : FlOk F u v) (hA : AxisExact F) {ac : ℝ → ℝ} {w : ℝ} (ha : AcosOk ac w) (ht : RectThr t) (hf : Emb (3 * t.nullDistance) f) (hg : Emb (3 * t.nullDistance) g) (hL : 0 < L)
    (eps : 2 * dblEps ≤ t.nullDistance) (noise : 36 * (u * M ^ 2 / L) + 11 * (u + v) * M < t.nullDistance) {pts : List NP} (h3 : 3 ≤ pts.length) (hv : ∀ p ∈ pts, VertRep F M f g p)
    (hax : ∀ s ∈ segPairs true pts, Ax (ordS s) = true) (hl : ∀ s ∈ segPairs true pts, L ≤ |f s.1.1 - f s.2.1| + |g s.1.2 - g s.2.2|) (hn : noCross interB (segPairs true pts) = true) :
    simpleF F t ac true (pts.map (mp f g)) = .ok true := by
  have np : 0 < t.nullDistance := by have := dblEps_pos; linarith
  have f1 : Emb t.nullDistance f := emb_weak np (by linarith) hf
  have g1 : Emb t.nullDistance g := emb_weak np (by linarith) hg
  have sp : segPairs true pts = cycPairs pts := by unfold segPairs; rw [if_neg (by omega), if_pos rfl]
  rw [sp] at hax hl hn
  have edge : ∀ {i : ℕ} {e : Seg}, Edge (pts.map (mp f g)) i e → ∃ s, (cycPairs pts)[i]? = some s ∧ e = mpS f g s ∧ s.1 ∈ pts ∧ s.2 ∈ pts := by
    intro i e he
    have := cyc_edge.2 he
    rw [cycPairs_mp, List.getElem?_map] at this
    obtain ⟨s, hs, rfl⟩ := Option.map_eq_some_iff.1 this
    exact ⟨s, hs, rfl, mem_cycPairs (List.mem_of_getElem? hs)⟩
  have ne : ∀ {s : NS}, Ax (ordS s) = true → s.1 ≠ s.2 := by
    intro s hs e
    have := axOrd_iff.1 hs
    rw [e] at this
    tauto
  have hE : EdgesOk F t (4 * M) (pts.map (mp f g)) := by
    constructor
    · intro p hp
      obtain ⟨q, hq, rfl⟩ := List.mem_map.1 hp
      exact ⟨(hv q hq).1.1, (hv q hq).2.1⟩
    · intro i e he
      obtain ⟨s, hs, rfl, m1, m2⟩ := edge he
      have hx := hax s (List.mem_of_getElem? hs)
      constructor
      · have := eucl_far_mp (by linarith) hf hg (ne hx)
        simp only [mpS]; linarith
      · have b1 := (hv _ m1).1.2
        have b2 := (hv _ m2).1.2
        have b3 := (hv _ m1).2.2
        have b4 := (hv _ m2).2.2
        have k1 : |f s.1.1 - f s.2.1| ≤ 2 * M := by rw [abs_le] at *; constructor <;> linarith
        have k2 : |g s.1.2 - g s.2.2| ≤ 2 * M := by rw [abs_le] at *; constructor <;> linarith
        have : eucl (mp f g s.1) (mp f g s.2) ≤ 3 / 2 * (2 * M) := eucl_le_max k1 k2
        have : 0 ≤ M := (abs_nonneg _).trans b1
        simp only [mpS]; linarith
  obtain ⟨b, hb, hb'⟩ := simpleF_eq h eps ac hE true
  rw [hb, hb'.2 ⟨by rw [List.length_map]; exact h3, rfl, ?_⟩]
  have key : ∀ i j e e', Edge (pts.map (mp f g)) i e → Edge (pts.map (mp f g)) j e' → i < j → NotNeighbours (pts.map (mp f g)).length i j → answerF F t ac e' e = none := by
    intro i j e e' he he' hij hnn
    have li := edge_lt he
    have lj := edge_lt he'
    rw [notN_iff li lj hij, List.length_map] at hnn
    obtain ⟨s, hs, rfl, m1, m2⟩ := edge he
    obtain ⟨s', hs', rfl, m3, m4⟩ := edge he'
    have hno := noCross_not hn hs hs' hnn.1 (by rw [H2d.cycPairs_length]; exact hnn.2)
    have hx := hax s (List.mem_of_getElem? hs)
    have hx' := hax s' (List.mem_of_getElem? hs')
    obtain ⟨o, ho, hs1⟩ := edges_inter h hA ha ht hf hg hL eps noise (sideRep_ord hx' (hv _ m3) (hv _ m4)) (sideRep_ord hx (hv _ m1) (hv _ m2)) (len_ord (hl s' (List.mem_of_getElem? hs'))) (len_ord (hl s (List.mem_of_getElem? hs)))
    unfold answerF
    simp only [mpS] at ho ⊢
    rw [fixOrder_mp f1 g1, fixOrder_mp f1 g1]
    simp only [mpS]
    rw [ho]
    have : o.isSome = false := hs1.trans hno
    simpa using this
  intro i j e e' he he' hnn
  rcases Nat.lt_or_ge i j with q | q
  · rw [answerF_comm h]; exact key i j e e' he he' q hnn
  · exact key j i e' e he' he (lt_of_le_of_ne q (fun c => hnn.1 c.symm)) (notN_symm hnn)

/-! ### Areas -/

/-- The vertices of the union have coordinates of the rectangles, and are at most twelve. -/
def coordsOk (x y : ℕ × ℕ × ℕ × ℕ) : Bool :=
  match union (rectA x y) (rectB x y) with
  | some (.ok pts) => decide (pts.length ≤ 12) && pts.all (fun p => decide (p.1 ∈ [x.1, x.2.1, x.2.2.1, x.2.2.2]) && decide (p.2 ∈ [y.1, y.2.1, y.2.2.1, y.2.2.2]))
  | _ => true

theorem coordsOk_all : ∀ x ∈ allen, ∀ y ∈ allen, coordsOk x y = true := by decide +kernel

/-- Error of the area of a rectangle with nearby coordinates. -/
theorem rectArea_near (h : FlOk F u v) {κ : ℝ} {r s : FRect ℝ} (hr : NearRect (9 * κ) r s) (k0 : 0 ≤ κ) (hw : L ≤ s.p2.1 - s.p1.1) (hh : L ≤ s.p2.2 - s.p1.2) (hw' : s.p2.1 - s.p1.1 ≤ 2 * M) (hh' : s.p2.2 - s.p1.2 ≤ 2 * M)
    (hκ : 108 * κ ≤ L) (hu : u * M ^ 2 ≤ κ * L) (hL : 0 < L) : |rectArea F r - s.area| ≤ 120 * (κ * M) ∧ 0 < rectArea F r := by
  have us := h.u_small
  have u0 := h.u_nonneg
  have hM : 0 < M := by linarith
  have uM : u * M ≤ 2 * κ := by
    have : u * M * M ≤ 2 * κ * M := by nlinarith
    exact le_of_mul_le_mul_right this hM
  obtain ⟨r1, r2, r3, r4⟩ := hr
  rw [abs_le] at r1 r2 r3 r4
  have side : ∀ {p q c : ℝ}, |q - c| ≤ 18 * κ → L ≤ c → c ≤ 2 * M → p = F.rnd q → |p - c| ≤ 23 * κ := by
    rintro p q c hq hc hc' rfl
    have e := h.err q
    have : |q| ≤ 2 * M + 18 * κ := by rw [abs_le] at hq ⊢; constructor <;> linarith
    have e' : u * |q| ≤ u * (2 * M + 18 * κ) := mul_le_mul_of_nonneg_left this u0
    have e2 : u * κ ≤ 1 / 64 * κ := mul_le_mul_of_nonneg_right us k0
    have := abs_add_le (F.rnd q - q) (q - c)
    rw [sub_add_sub_cancel] at this
    linarith
  have w1 := side (q := r.p2.1 - r.p1.1) (by rw [abs_le]; constructor <;> linarith) hw hw' rfl
  have h1 := side (q := r.p2.2 - r.p1.2) (by rw [abs_le]; constructor <;> linarith) hh hh' rfl
  unfold rectArea
  rw [show rectHeight F r = F.rnd (r.p2.2 - r.p1.2) from rfl, show rectWidth F r = F.rnd (r.p2.1 - r.p1.1) from rfl, show s.area = (s.p2.2 - s.p1.2) * (s.p2.1 - s.p1.1) from rfl]
  generalize F.rnd (r.p2.1 - r.p1.1) = W at *
  generalize F.rnd (r.p2.2 - r.p1.2) = H at *
  generalize s.p2.1 - s.p1.1 = cw at *
  generalize s.p2.2 - s.p1.2 = ch at *
  have w2 := abs_le.1 w1
  have h2 := abs_le.1 h1
  have W0 : 0 < W := by linarith
  have H0 : 0 < H := by linarith
  have W1 : W ≤ 5 / 2 * M := by linarith
  have H1 : H ≤ 5 / 2 * M := by linarith
  have P : |H * W - ch * cw| ≤ 104 * (κ * M) := by
    rw [show H * W - ch * cw = (H - ch) * W + ch * (W - cw) by ring]
    refine (abs_add_le _ _).trans ?_
    rw [abs_mul, abs_mul, abs_of_pos W0, abs_of_pos (show 0 < ch by linarith)]
    have q1 := mul_le_mul h1 W1 W0.le (by linarith)
    have q2 := mul_le_mul hh' w1 (abs_nonneg _) (by linarith)
    have : 0 ≤ κ * M := by positivity
    linarith
  have E := h.err (H * W)
  rw [abs_of_pos (mul_pos H0 W0)] at E
  have B : u * (H * W) ≤ 25 / 2 * (κ * M) := by
    have q1 : H * W ≤ 25 / 4 * M ^ 2 := by
      have := mul_le_mul H1 W1 W0.le (by linarith)
      linarith
    have q2 := mul_le_mul_of_nonneg_left q1 u0
    have q3 : κ * L ≤ κ * (2 * M) := mul_le_mul_of_nonneg_left (by linarith) k0
    linarith
  refine ⟨?_, Conv.rnd_pos' h (mul_pos H0 W0)⟩
  have := abs_add_le (F.rnd (H * W) - H * W) (H * W - ch * cw)
  rw [sub_add_sub_cancel] at this
  have : 0 ≤ κ * M := by positivity
  linarith

/-- Error of a quotient that is at most 1. -/
theorem quot_near {A A' S S' e₁ e₂ : ℝ} (hS : 0 < S) (hS' : 0 < S') (hA : 0 ≤ A) (hAS : A ≤ S) (h1 : |A' - A| ≤ e₁) (h2 : |S' - S| ≤ e₂) : |A' / S' - A / S| ≤ (e₁ + e₂) / S' := by
  rw [div_sub_div _ _ hS'.ne' hS.ne', abs_div, abs_of_pos (mul_pos hS' hS), div_le_div_iff₀ (mul_pos hS' hS) hS']
  have : |A' * S - S' * A| ≤ (e₁ + e₂) * S := by
    rw [show A' * S - S' * A = (A' - A) * S + A * (S - S') by ring]
    refine (abs_add_le _ _).trans ?_
    rw [abs_mul, abs_mul, abs_of_pos hS, abs_of_nonneg hA, abs_sub_comm S S']
    have q1 := mul_le_mul_of_nonneg_right h1 hS.le
    have q2 := mul_le_mul hAS h2 (abs_nonneg _) hS.le
    linarith
  nlinarith

theorem _root_.H2d.Spec.RectsApart.L0 {a b : FRect ℝ} (hp : RectsApart F t u v M L a b) : 0 < L := by
  have := hp.eps; have := hp.gap; have := dblEps_pos; linarith

theorem _root_.H2d.Spec.RectsApart.weak {a b : FRect ℝ} (hp : RectsApart F t u v M L a b) : RectApart F t u v M L a b where
  ra := hp.ra
  rb := hp.rb
  L0 := hp.L0
  la := ⟨hp.apart.wa, hp.apart.ha⟩
  lb := ⟨hp.apart.wb, hp.apart.hb⟩
  apart := apart_weak hp.gap hp.apart
  eps := hp.eps
  noise := hp.noise

theorem _root_.H2d.Spec.RectsApart.pair {a b : FRect ℝ} (hp : RectsApart F t u v M L a b) (k : FarRects L a b) : RectPair F t u v M L a b where
  ra := hp.ra
  rb := hp.rb
  L0 := hp.L0
  la := k.sa
  lb := k.sb
  far := by
    have g := hp.gap
    exact ⟨⟨by linarith [k.sa.1], by linarith [k.sa.2]⟩, ⟨by linarith [k.sb.1], by linarith [k.sb.2]⟩, fun x hx y hy => g.trans (k.x x hx y hy), fun x hx y hy => g.trans (k.y x hx y hy)⟩
  eps := hp.eps
  noise := hp.noise

theorem _root_.H2d.Spec.RectsApart.symm {a b : FRect ℝ} (hp : RectsApart F t u v M L a b) : RectsApart F t u v M L b a :=
  ⟨hp.rb, hp.ra, hp.gap, apartRects_symm hp.apart, hp.eps, hp.noise, hp.area⟩

theorem farRects_symm {n : ℝ} {a b : FRect ℝ} (k : FarRects n a b) : FarRects n b a :=
  ⟨k.sb, k.sa, fun p hp' q hq => by rw [abs_sub_comm]; exact k.x q hq p hp', fun p hp' q hq => by rw [abs_sub_comm]; exact k.y q hq p hp'⟩

/-- The area of the union. -/
theorem unionSize_near (h : FlOk F u v) (hA : AxisExact F) {ac : ℝ → ℝ} {w : ℝ} (ha : AcosOk ac w) (ht : RectThr t) {at2 : ℝ → ℝ → ℝ} {w' : ℝ} (hw : Atan2Ok at2 w') (hwt : 7 * w' < t.nullAngleValue) {a b : FRect ℝ}
    (hp : RectsApart F t u v M L a b) (ho : Overlap a b) :
    ∃ pts ar, unionArea F t ac at2 a b = .ok pts ∧ polyArea F t ac true pts = .ok ar ∧ |ar - unionSize a b| ≤ 410 * (u * M ^ 2) := by
  have L0 := hp.L0
  have hre := unionArea_apart h hA ha ht hw hwt hp.weak
  rw [hre]
  have np : 0 < t.nullDistance := by have := hp.eps; have := dblEps_pos; linarith
  have A := hp.apart
  obtain ⟨f, hf, x, hx, e1, e2, e3, e4⟩ := exists_emb L0 A.wa A.wb A.x11 A.x12 A.x21 A.x22
  obtain ⟨g, hg, y, hy, e5, e6, e7, e8⟩ := exists_emb L0 A.ha A.hb A.y11 A.y12 A.y21 A.y22
  have ea : a = mpR f g (rectA x y) := by
    obtain ⟨⟨_, _⟩, _, _⟩ := a
    simp only at e1 e2 e5 e6
    subst e1 e2 e5 e6; rfl
  have eb : b = mpR f g (rectB x y) := by
    obtain ⟨⟨_, _⟩, _, _⟩ := b
    simp only at e3 e4 e7 e8
    subst e3 e4 e7 e8; rfl
  have M0 : 0 ≤ M := (abs_nonneg _).trans hp.ra.x1.2
  obtain ⟨ra, rb, gap, far, eps, noise, area⟩ := hp
  have u0 := h.u_nonneg
  have hsz : L ≤ 2 * M := by
    have := far.wa
    have := (abs_le.1 ra.x1.2).1
    have := (abs_le.1 ra.x2.2).2
    linarith
  have hu12 : u ≤ 1 / 600 := by
    have Mp : 0 < M := by linarith
    have k : L ^ 3 ≤ (2 * M) ^ 3 := pow_le_pow_left₀ L0.le hsz 3
    have : u * M ^ 3 * 5000 ≤ 8 * M ^ 3 := by nlinarith
    have M3 : 0 < M ^ 3 := by positivity
    by_contra hc
    rw [not_le] at hc
    nlinarith
  subst ea eb
  obtain ⟨pA, pB⟩ := proper_AB hx hy
  have sx := allen_small x hx
  have sy := allen_small y hy
  have f1 : Emb t.nullDistance f := emb_weak np (by linarith) hf
  have g1 : Emb t.nullDistance g := emb_weak np (by linarith) hg
  have f3 : Emb (3 * t.nullDistance) f := emb_weak (by linarith) gap hf
  have g3 : Emb (3 * t.nullDistance) g := emb_weak (by linarith) gap hg
  have hc := check_all x hx y hy
  have hco := coordsOk_all x hx y hy
  rw [overlap_mp f1 g1] at ho
  unfold check at hc
  unfold coordsOk at hco
  simp only [Bool.and_eq_true, decide_eq_true_eq, ho, Bool.not_true, Bool.false_or] at hc
  obtain ⟨⟨-, h2⟩, h3⟩ := hc
  cases hu : union (rectA x y) (rectB x y) with
  | none => rw [hu] at h2; simp at h2
  | some r =>
    rw [hu] at h2 hco
    cases r with
    | throw => simp at h2
    | ub => simp at h2
    | ok pts =>
      simp only at h2 hco
      have hun := unionArea_mp ht f1 g1 pA pB hu (by
        intro q l hi pts' hp
        rw [hi] at h3
        simp only [hp] at h3
        exact h3)
      have hAr := freshArea_mp ht f1 g1 pA pB ⟨sx.2.2.1, sy.2.2.1⟩ ⟨sx.2.2.2, sy.2.2.2⟩ h2
      simp only [Bool.and_eq_true, decide_eq_true_eq, List.all_eq_true, List.mem_cons, List.not_mem_nil, or_false] at hco
      unfold goodPoly at h2
      simp only [Bool.and_eq_true, decide_eq_true_eq, List.all_eq_true, List.mem_range] at h2
      obtain ⟨⟨⟨⟨q1, -⟩, q3⟩, q4⟩, -⟩ := h2
      have hv : ∀ p ∈ pts, VertRep F M f g p := by
        intro p hpp
        obtain ⟨c1, c2⟩ := hco.2 p hpp
        constructor
        · rcases c1 with c | c | c | c <;> rw [c]
          exacts [ra.x1, ra.x2, rb.x1, rb.x2]
        · rcases c2 with c | c | c | c <;> rw [c]
          exacts [ra.y1, ra.y2, rb.y1, rb.y2]
      have hlen : ∀ s ∈ segPairs true pts, L ≤ |f s.1.1 - f s.2.1| + |g s.1.2 - g s.2.2| := by
        intro s hs
        rcases axOrd_iff.1 (q3 s hs) with ⟨-, c⟩ | ⟨-, c⟩
        · have := hg.far c
          have := abs_nonneg (f s.1.1 - f s.2.1)
          linarith
        · have := hf.far c
          have := abs_nonneg (g s.1.2 - g s.2.2)
          linarith
      have hs := simple_mp' h hA ha ht f3 g3 L0 eps noise q1 hv q3 hlen q4
      refine ⟨_, |signedArea F (pts.map (mp f g))|, hun, ?_, ?_⟩
      · unfold polyArea
        rw [hs]; rfl
      · have l12 : ((pts.map (mp f g)).length : ℝ) ≤ 12 := by rw [List.length_map]; exact_mod_cast hco.1
        have l0 : (0 : ℝ) ≤ (pts.map (mp f g)).length := Nat.cast_nonneg _
        have := (area_err h (M := M) (pts := pts.map (mp f g)) (by
          intro p hpp
          obtain ⟨q, hq, rfl⟩ := List.mem_map.1 hpp
          exact ⟨(hv q hq).1.2, (hv q hq).2.2⟩) (by rw [List.length_map]; exact q1) (by
          have := mul_le_mul l12 hu12 u0 (by norm_num)
          linarith)).1
        have hsq : ((pts.map (mp f g)).length : ℝ) ^ 2 ≤ 144 := by nlinarith
        have hM2 : 0 ≤ u * M ^ 2 := by positivity
        have hb : 128 / 45 * (((pts.map (mp f g)).length : ℝ) ^ 2 * u * M ^ 2) ≤ 410 * (u * M ^ 2) := by
          have := mul_le_mul_of_nonneg_right hsq hM2
          nlinarith
        rw [hAr.2] at this
        rw [unionSize, mpR_common f1 g1]
        have k := abs_abs_sub_abs_le_abs_sub (signedArea F (pts.map (mp f g))) (-((mpR f g (rectA x y)).area + (mpR f g (rectB x y)).area - (mpR f g (common (rectA x y) (rectB x y))).area))
        have hpos : 0 ≤ (mpR f g (rectA x y)).area + (mpR f g (rectB x y)).area - (mpR f g (common (rectA x y) (rectB x y))).area := by
          have := common_area_le (a := mpR f g (rectA x y)) (b := mpR f g (rectB x y)) ⟨by linarith [far.wa], by linarith [far.ha]⟩ ⟨by linarith [far.wb], by linarith [far.hb]⟩ ((overlap_mp f1 g1 _ _).2 ho)
          rw [mpR_common f1 g1] at this
          have ka : 0 ≤ (mpR f g (rectA x y)).area := this.1.le.trans this.2.1
          linarith [this.2.2]
        rw [abs_neg, abs_of_nonneg hpos] at k
        exact (k.trans this).trans hb

/-- IoU of two rectangles that overlap, when the common rectangle is found. -/
theorem iou_core (h : FlOk F u v) (hA : AxisExact F) {ac : ℝ → ℝ} {w : ℝ} (ha : AcosOk ac w) (ht : RectThr t) {at2 : ℝ → ℝ → ℝ} {w' : ℝ} (hw : Atan2Ok at2 w') (hwt : 7 * w' < t.nullAngleValue) {a b : FRect ℝ}
    (hp : RectsApart F t u v M L a b) (ho : Overlap a b) {r : FRect ℝ} (r1 : intersectArea F t ac a b = .ok (some r)) (r2 : NearRect (9 * (u * M ^ 2 / L)) r (commonRect a b)) :
    ∃ x, rectIoU F t ac at2 a b = .ok x ∧ 0 < x ∧ |x - (commonRect a b).area / unionSize a b| ≤ 1200 * (u * M ^ 3 / L ^ 3) := by
  have L0 := hp.L0
  obtain ⟨pts, ar, p1, p2, p3⟩ := unionSize_near h hA ha ht hw hwt hp ho
  have np : 0 < t.nullDistance := by have := hp.eps; have := dblEps_pos; linarith
  have u0 := h.u_nonneg
  have us := h.u_small
  have sa : LongSides L a := ⟨hp.apart.wa, hp.apart.ha⟩
  have sb : LongSides L b := ⟨hp.apart.wb, hp.apart.hb⟩
  have ax1 := abs_le.1 hp.ra.x1.2
  have ax2 := abs_le.1 hp.ra.x2.2
  have ay1 := abs_le.1 hp.ra.y1.2
  have ay2 := abs_le.1 hp.ra.y2.2
  have M0 : 0 < M := by linarith [sa.1, ax1.1, ax2.2]
  have hsz : L ≤ 2 * M := by linarith [sa.1, ax1.1, ax2.2]
  have k0 : 0 ≤ u * M ^ 2 / L := by positivity
  have noise := hp.noise
  have gap := hp.gap
  have hκ : 108 * (u * M ^ 2 / L) ≤ L := by
    have : 0 ≤ 11 * (u + v) * M := by have := h.v_nonneg; positivity
    linarith
  have huκ : u * M ^ 2 ≤ u * M ^ 2 / L * L := by rw [div_mul_cancel₀ _ L0.ne']
  -- the common rectangle
  obtain ⟨o1, o2⟩ := (overlap_coord a b).1 ho
  have wide : ∀ {p q r s : ℝ}, p + L ≤ q → r + L ≤ s → Apart L p s → Apart L q r → max p r < min q s → L ≤ min q s - max p r := by
    intro p q r s h1 h2 h3 h4 h5
    obtain ⟨h5, h6⟩ := max_lt_iff.1 h5
    rw [lt_min_iff] at h5 h6
    have h3 := h3.resolve_left h5.2.ne
    have h4 := h4.resolve_left h6.1.ne'
    rw [abs_sub_comm, abs_of_pos (by linarith)] at h3
    rw [abs_of_pos (by linarith)] at h4
    rcases le_total p r with c | c <;> rcases le_total q s with d | d <;> simp only [c, d, max_eq_left, max_eq_right, min_eq_left, min_eq_right] <;> linarith
  have cw : L ≤ (commonRect a b).p2.1 - (commonRect a b).p1.1 := wide sa.1 sb.1 hp.apart.x12 hp.apart.x21 o1
  have ch : L ≤ (commonRect a b).p2.2 - (commonRect a b).p1.2 := wide sa.2 sb.2 hp.apart.y12 hp.apart.y21 o2
  have cw' : (commonRect a b).p2.1 - (commonRect a b).p1.1 ≤ 2 * M := by
    have := min_le_left a.p2.1 b.p2.1
    have := le_max_left a.p1.1 b.p1.1
    simp only [commonRect]; linarith [ax1.1, ax2.2]
  have ch' : (commonRect a b).p2.2 - (commonRect a b).p1.2 ≤ 2 * M := by
    have := min_le_left a.p2.2 b.p2.2
    have := le_max_left a.p1.2 b.p1.2
    simp only [commonRect]; linarith [ay1.1, ay2.2]
  obtain ⟨a1, a2⟩ := rectArea_near h r2 k0 cw ch cw' ch' hκ huκ L0
  obtain ⟨c1, c2, c3⟩ := common_area_le (a := a) (b := b) ⟨by linarith [sa.1], by linarith [sa.2]⟩ ⟨by linarith [sb.1], by linarith [sb.2]⟩ ho
  have aL : L * L ≤ a.area := by
    show L * L ≤ (a.p2.2 - a.p1.2) * (a.p2.1 - a.p1.1)
    exact mul_le_mul (by linarith [sa.2]) (by linarith [sa.1]) L0.le (by linarith [sa.2])
  have S1 : L * L ≤ unionSize a b := by unfold unionSize; linarith
  have AS : (commonRect a b).area ≤ unionSize a b := by unfold unionSize; linarith
  have LL : 0 < L * L := by positivity
  -- everything in units of `L²`
  have area := hp.area
  obtain ⟨ε, hε⟩ : ∃ ε, ε = u * M ^ 3 / L ^ 3 := ⟨_, rfl⟩
  have ε0 : 0 ≤ ε := by rw [hε]; positivity
  have ε1 : 5000 * ε ≤ 1 := by
    rw [hε, ← mul_div_assoc, div_le_one (by positivity)]; exact area
  have t1 : u * M ^ 2 / L * M = ε * (L * L) := by rw [hε]; field_simp
  have t2 : u * M ^ 2 ≤ 2 * (ε * (L * L)) := by
    rw [← t1, div_mul_eq_mul_div, ← mul_div_assoc, le_div_iff₀ L0]
    have := mul_le_mul_of_nonneg_left hsz (show 0 ≤ u * M ^ 2 by positivity)
    linarith
  have t3 : u ≤ 8 * ε := by
    rw [hε, ← mul_div_assoc, le_div_iff₀ (by positivity)]
    have k : L ^ 3 ≤ (2 * M) ^ 3 := pow_le_pow_left₀ L0.le hsz 3
    have := mul_le_mul_of_nonneg_left k u0
    have e : u * (2 * M) ^ 3 = 8 * (u * M ^ 3) := by ring
    rw [e] at this
    exact this
  rw [t1] at a1
  have p4 : |ar - unionSize a b| ≤ 820 * (ε * (L * L)) := by linarith
  have p5 := abs_le.1 p4
  have b1 : 5000 * (ε * (L * L)) ≤ L * L := by
    rw [← mul_assoc]
    exact mul_le_of_le_one_left LL.le ε1
  have ar1 : 4 / 5 * (L * L) ≤ ar := by linarith
  have ar0 : 0 < ar := by linarith
  have Q := quot_near (by linarith : 0 < unionSize a b) ar0 c1.le AS a1 p4
  have Q2 : (120 * (ε * (L * L)) + 820 * (ε * (L * L))) / ar ≤ 1175 * ε := by
    rw [div_le_iff₀ ar0]
    have := mul_le_mul_of_nonneg_left ar1 (show 0 ≤ 1175 * ε by linarith)
    have e : 1175 * ε * (4 / 5 * (L * L)) = 940 * (ε * (L * L)) := by ring
    rw [e] at this
    linarith
  have Q3 := Q.trans Q2
  have q1 : (commonRect a b).area / unionSize a b ≤ 1 := by rw [div_le_one (by linarith)]; exact AS
  have q0 : 0 ≤ (commonRect a b).area / unionSize a b := div_nonneg c1.le (by linarith)
  unfold rectIoU
  rw [r1]
  simp only [Res.bind_ok, p1, p2]
  rw [if_neg ar0.ne']
  refine ⟨_, rfl, Conv.rnd_pos' h (div_pos a2 ar0), ?_⟩
  rw [← hε]
  have E := h.err (rectArea F r / ar)
  have Q4 := abs_le.1 Q3
  have E2 : u * |rectArea F r / ar| ≤ u * (5 / 4) := mul_le_mul_of_nonneg_left (by rw [abs_of_pos (div_pos a2 ar0)]; linarith) u0
  have := abs_add_le (F.rnd (rectArea F r / ar) - rectArea F r / ar) (rectArea F r / ar - (commonRect a b).area / unionSize a b)
  rw [sub_add_sub_cancel] at this
  linarith

theorem iou_near (h : FlOk F u v) (hA : AxisExact F) {ac : ℝ → ℝ} {w : ℝ} (ha : AcosOk ac w) (ht : RectThr t) {at2 : ℝ → ℝ → ℝ} {w' : ℝ} (hw : Atan2Ok at2 w') (hwt : 7 * w' < t.nullAngleValue) {a b : FRect ℝ}
    (hp : RectsApart F t u v M L a b) (hf : FarRects L a b) :
    (Overlap a b → ∃ x, rectIoU F t ac at2 a b = .ok x ∧ 0 < x ∧ |x - (commonRect a b).area / unionSize a b| ≤ 1200 * (u * M ^ 3 / L ^ 3)) ∧ (¬ Overlap a b → rectIoU F t ac at2 a b = .ok 0) := by
  have k := rectArea_pair h hA ha ht (hp.pair hf)
  constructor
  · intro ho
    obtain ⟨r, r1, r2⟩ := k.1 ho
    exact iou_core h hA ha ht hw hwt hp ho r1 r2
  · intro ho
    unfold rectIoU
    rw [k.2 ho]; rfl

theorem iou_self (h : FlOk F u v) (hA : AxisExact F) {ac : ℝ → ℝ} {w : ℝ} (ha : AcosOk ac w) (ht : RectThr t) {at2 : ℝ → ℝ → ℝ} {w' : ℝ} (hw : Atan2Ok at2 w') (hwt : 7 * w' < t.nullAngleValue) {a : FRect ℝ}
    (hp : RectsApart F t u v M L a a) : ∃ x, rectIoU F t ac at2 a a = .ok x ∧ |x - 1| ≤ 1200 * (u * M ^ 3 / L ^ 3) := by
  have L0 := hp.L0
  have u0 := h.u_nonneg
  have sa : LongSides L a := ⟨hp.apart.wa, hp.apart.ha⟩
  have np : 0 < t.nullDistance := by have := hp.eps; have := dblEps_pos; linarith
  have he : rectEqB F t a a = true := by
    have : ∀ p, PtSame F t p p := fun p => same_self h hA np p
    simp only [rectEqB, Bool.and_eq_true, decide_eq_true_eq]
    exact ⟨this _, this _⟩
  have hc : commonRect a a = a := by simp [commonRect]
  have hov : Overlap a a := ⟨((a.p1.1 + a.p2.1) / 2, (a.p1.2 + a.p2.2) / 2), by have := sa.1; have := sa.2; refine ⟨⟨?_, ?_, ?_, ?_⟩, ?_, ?_, ?_, ?_⟩ <;> simp only <;> linarith⟩
  have hz : 0 ≤ 9 * (u * M ^ 2 / L) := by positivity
  obtain ⟨x, x1, -, x3⟩ := iou_core h hA ha ht hw hwt hp hov (r := a) (by unfold intersectArea; rw [if_pos he]) (by rw [hc]; simp [NearRect, hz])
  refine ⟨x, x1, ?_⟩
  have pos : 0 < a.area := by
    show 0 < (a.p2.2 - a.p1.2) * (a.p2.1 - a.p1.1)
    exact mul_pos (by linarith [sa.2]) (by linarith [sa.1])
  rwa [hc, unionSize, hc, add_sub_cancel_right, div_self pos.ne'] at x3

theorem atan2Ok_exact : Atan2Ok H2d.atan2 0 := ⟨le_rfl, by norm_num, fun y x => by simp⟩

end H2d.Fl
