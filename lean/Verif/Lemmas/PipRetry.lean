import Verif.Lemmas.PipModel

/-! # The rounds of the point in polygon algorithm -/

namespace H2d.Pip
open H2d.Spec H2d.Props

variable {t : Thr ℝ} {pts : List (Pt ℝ)} {segs : List Seg} {p : Pt ℝ}

theorem fst_le_eucl (a b : Pt ℝ) : |a.1 - b.1| ≤ eucl a b := by
  rw [eucl]; apply Real.le_sqrt_of_sq_le; rw [sq_abs]; nlinarith [sq_nonneg (a.2 - b.2)]

theorem snd_le_eucl (a b : Pt ℝ) : |a.2 - b.2| ≤ eucl a b := by
  rw [eucl]; apply Real.le_sqrt_of_sq_le; rw [sq_abs]; nlinarith [sq_nonneg (a.1 - b.1)]

/-- A segment on the border of a rectangle, at a distance at least `d` of `p`, of length at least `ℓ`. -/
def Side (d ℓ : ℝ) (p : Pt ℝ) (s : Seg) : Prop :=
  (s.1.1 = s.2.1 ∧ d ≤ |p.1 - s.1.1| ∧ ℓ ≤ |s.1.2 - s.2.2|) ∨ (s.1.2 = s.2.2 ∧ d ≤ |p.2 - s.1.2| ∧ ℓ ≤ |s.1.1 - s.2.1|)

theorem Side.fix {d ℓ : ℝ} {a b : Pt ℝ} (h : Side d ℓ p (a, b)) : Side d ℓ p (fixOrder a b) := by
  rcases fixOrder_cases a b with e | e <;> rw [e]
  · exact h
  · rcases h with ⟨e, k, l⟩ | ⟨e, k, l⟩
    · exact Or.inl ⟨e.symm, by simp only at e k; show d ≤ |p.1 - b.1|; rw [← e]; exact k, by rw [abs_sub_comm]; exact l⟩
    · exact Or.inr ⟨e.symm, by simp only at e k; show d ≤ |p.2 - b.2|; rw [← e]; exact k, by rw [abs_sub_comm]; exact l⟩

theorem Side.dist {d ℓ : ℝ} {s : Seg} (h : Side d ℓ p s) : d ≤ eucl p (segCenter s) := by
  rcases h with ⟨e, k, -⟩ | ⟨e, k, -⟩
  · refine k.trans (le_trans (le_of_eq ?_) (fst_le_eucl _ _))
    show _ = |p.1 - (s.1.1 + s.2.1) / 2|
    rw [← e]; congr 1; ring
  · refine k.trans (le_trans (le_of_eq ?_) (snd_le_eucl _ _))
    show _ = |p.2 - (s.1.2 + s.2.2) / 2|
    rw [← e]; congr 1; ring

theorem Side.length {d ℓ : ℝ} {s : Seg} (h : Side d ℓ p s) : ℓ ≤ eucl s.1 s.2 := by
  rcases h with ⟨-, -, k⟩ | ⟨-, -, k⟩
  · exact k.trans (snd_le_eucl _ _)
  · exact k.trans (fst_le_eucl _ _)

theorem Side.split {d ℓ : ℝ} {s : Seg} (h : Side d ℓ p s) : Side d (ℓ / 2) p (s.1, segCenter s) ∧ Side d (ℓ / 2) p (segCenter s, s.2) := by
  have half : ∀ x y : ℝ, |x - (x + y) / 2| = |x - y| / 2 ∧ |(x + y) / 2 - y| = |x - y| / 2 := fun x y => by
    rw [show x - (x + y) / 2 = (x - y) / 2 by ring, show (x + y) / 2 - y = (x - y) / 2 by ring, abs_div, abs_two]; exact ⟨rfl, rfl⟩
  rcases h with ⟨e, k, l⟩ | ⟨e, k, l⟩
  · have c : (segCenter s).1 = s.1.1 := by show (s.1.1 + s.2.1) / 2 = _; rw [← e]; ring
    obtain ⟨a, b⟩ := half s.1.2 s.2.2
    exact ⟨Or.inl ⟨c.symm, k, by show _ ≤ |s.1.2 - (s.1.2 + s.2.2) / 2|; rw [a]; linarith⟩,
      Or.inl ⟨c.trans e, by simp only; rw [c]; exact k, by show _ ≤ |(s.1.2 + s.2.2) / 2 - s.2.2|; rw [b]; linarith⟩⟩
  · have c : (segCenter s).2 = s.1.2 := by show (s.1.2 + s.2.2) / 2 = _; rw [← e]; ring
    obtain ⟨a, b⟩ := half s.1.1 s.2.1
    exact ⟨Or.inr ⟨c.symm, k, by show _ ≤ |s.1.1 - (s.1.1 + s.2.1) / 2|; rw [a]; linarith⟩,
      Or.inr ⟨c.trans e, by simp only; rw [c]; exact k, by show _ ≤ |(s.1.1 + s.2.1) / 2 - s.2.1|; rw [b]; linarith⟩⟩

theorem splitAll_ok {d ℓ : ℝ} (hl : t.nullDistance ≤ ℓ / 2) : ∀ l : List Seg, (∀ s ∈ l, Side d ℓ p s) → ∃ r, splitAll t l = .ok r ∧ ∀ s ∈ r, Side d (ℓ / 2) p s
  | [], _ => ⟨[], rfl, by simp⟩
  | s :: l, H => by
    obtain ⟨r, e, k⟩ := splitAll_ok hl l fun s' hs' => H s' (List.mem_cons_of_mem _ hs')
    obtain ⟨k1, k2⟩ := (H s List.mem_cons_self).split
    refine ⟨fixOrder s.1 (segCenter s) :: fixOrder (segCenter s) s.2 :: r, ?_, ?_⟩
    · unfold splitAll segSplit
      rw [segMake_eq false (hl.trans k1.length), Res.bind_ok, segMake_eq false (hl.trans k2.length), Res.bind_ok, e]
      rfl
    · intro s' hs'
      rcases List.mem_cons.1 hs' with rfl | hs'
      · exact k1.fix
      · rcases List.mem_cons.1 hs' with rfl | hs'
        · exact k2.fix
        · exact k s' hs'

theorem pipTry_skip : ∀ l : List Seg, (∀ s ∈ l, t.nullDistance ≤ eucl p (segCenter s)) → pipTry t pts segs p l true = .ok none
  | [], _ => rfl
  | s :: l, H => by
    unfold pipTry
    rw [segMake_eq false (H s List.mem_cons_self), Res.bind_ok]
    simp only [Bool.true_or, if_true]
    exact pipTry_skip l fun s' hs' => H s' (List.mem_cons_of_mem _ hs')

theorem pipTry_none {s : Seg} {l : List Seg} (H : ∀ s' ∈ s :: l, t.nullDistance ≤ eucl p (segCenter s')) (hc : ∃ x ∈ pts, (segDistTo (fixOrder p (segCenter s)) x).1 < t.nullDistance) :
    pipTry t pts segs p (s :: l) false = .ok none := by
  classical
  unfold pipTry
  rw [segMake_eq false (H s List.mem_cons_self), Res.bind_ok]
  have : pts.any (fun v => decide ((segDistTo (fixOrder p (segCenter s)) v).1 < t.nullDistance)) = true := by
    obtain ⟨x, hx, k⟩ := hc
    exact List.any_eq_true.2 ⟨x, hx, by simpa using k⟩
  simp only [Bool.false_eq_true, if_false, Bool.false_or]
  rw [if_pos (by convert this)]
  rw [show ∀ b, b = true → pipTry t pts segs p l b = pipTry t pts segs p l true from fun b hb => by rw [hb]]
  · exact pipTry_skip l fun s' hs' => H s' (List.mem_cons_of_mem _ hs')
  · convert this

/-- When `n + 1` rounds are left, an answer is given as soon as no vertex is close to the reference segment. -/
theorem pipLoop_retry {d X Y : ℝ} (h0 : 0 < t.nullDistance) (hd : t.nullDistance ≤ d) : ∀ (n : ℕ) (H : ℝ) (l : List Seg) {ℓ : ℝ}, 0 < H → 2 ^ n * t.nullDistance ≤ ℓ →
    (∀ s ∈ ((X, Y), (X, Y + H)) :: l, Side d ℓ p s) → (∀ j, 1 ≤ j → j ≤ n + 1 → ∃ c, pipCount t (fixOrder p (X, Y + H / 2 ^ j)) segs = .ok c) →
    (∃ j, 1 ≤ j ∧ j ≤ n + 1 ∧ ∀ x ∈ pts, t.nullDistance ≤ (segDistTo (fixOrder p (X, Y + H / 2 ^ j)) x).1) → ∃ b, pipLoop t pts segs p (n + 1) (((X, Y), (X, Y + H)) :: l) = .ok b
  | n, H, l, ℓ, hH, hl, HS, hc, he => by
    have hcen : segCenter ((X, Y), (X, Y + H)) = (X, Y + H / 2) := by unfold segCenter; simp only; congr 1 <;> ring
    have hfar : ∀ s' ∈ ((X, Y), (X, Y + H)) :: l, t.nullDistance ≤ eucl p (segCenter s') := fun s' hs' => hd.trans (HS s' hs').dist
    by_cases hm : ∀ x ∈ pts, t.nullDistance ≤ (segDistTo (fixOrder p (X, Y + H / 2)) x).1
    · obtain ⟨c, e⟩ := hc 1 (le_refl _) (by omega)
      rw [pow_one] at e
      refine ⟨decide (c % 2 = 1), ?_⟩
      unfold pipLoop
      rw [pipTry_first (c := c) l (hfar _ List.mem_cons_self) (by rw [hcen]; exact hm) (by rw [hcen]; exact e)]
      rfl
    · obtain ⟨j, j1, j2, hj⟩ := he
      have hjm : j ≠ 1 := by rintro rfl; rw [pow_one] at hj; exact hm hj
      obtain ⟨n, rfl⟩ : ∃ k, n = k + 1 := ⟨n - 1, by omega⟩
      push Not at hm
      obtain ⟨x, hx, hxc⟩ := hm
      have hp2 : (1 : ℝ) ≤ 2 ^ n := one_le_pow₀ (by norm_num)
      have hl2 : 2 ^ n * t.nullDistance ≤ ℓ / 2 := by rw [pow_succ] at hl; linarith
      have hl3 : t.nullDistance ≤ ℓ / 2 := by
        have := mul_le_mul_of_nonneg_right hp2 h0.le
        linarith
      obtain ⟨r, er, kr⟩ := splitAll_ok hl3 _ HS
      obtain ⟨l', rfl⟩ := splitAll_cons t X Y H hH l r er
      have pw : ∀ j : ℕ, H / 2 / 2 ^ j = H / 2 ^ (j + 1) := fun j => by rw [pow_succ]; field_simp
      obtain ⟨b, hb⟩ := pipLoop_retry h0 hd n (H / 2) l' (by linarith) hl2 kr (fun j q1 q2 => by rw [pw]; exact hc (j + 1) (by omega) (by omega)) ⟨j - 1, by omega, by omega, by rw [pw, show j - 1 + 1 = j by omega]; exact hj⟩
      refine ⟨b, ?_⟩
      unfold pipLoop
      rw [pipTry_none hfar ⟨x, hx, by rw [hcen]; exact hxc⟩, Res.bind_ok]
      simp only [Nat.add_eq_zero_iff, one_ne_zero, and_false, if_false]
      rw [er, Res.bind_ok]
      exact hb

/-- An answer is given when no vertex is close to one of the reference segments. -/
theorem answer_retry (h1 : dblEps < t.nullDistance) {lo hi : Pt ℝ} (hs : isSimple (segInterB t) true pts = true) (hT : IsTightBox (fun q => q ∈ pts) lo hi)
    (w1 : 6 * t.nullDistance ≤ hi.1 - lo.1) (w2 : 6 * t.nullDistance ≤ hi.2 - lo.2) (w1' : t.nullOrthogDistance ≤ hi.1 - lo.1) (w2' : t.nullOrthogDistance ≤ hi.2 - lo.2)
    (hin : lo.1 < p.1 ∧ p.1 < hi.1 ∧ lo.2 < p.2 ∧ p.2 < hi.2) (he : ∀ e ∈ polyEdges pts, t.nullDistance ≤ eucl e.1 e.2 ∧ GoodSlope t e.1 e.2) (hf : FarFromLines t.nullDistance pts p)
    {n : ℕ} (n1 : 1 ≤ n) (n5 : n ≤ 5) (hv : ∀ v ∈ pts, t.nullDistance ≤ (segDistTo (fixOrder p (refPoint lo hi n)) v).1) : ∃ b, ptInsidePoly t true pts p = .ok b := by
  have h0 := dblEps_pos
  have h3 : 3 ≤ pts.length := by
    rw [isSimple_eq] at hs
    simp only [Bool.and_eq_true, decide_eq_true_eq] at hs
    exact hs.1
  have hbb := polyGetBB_eq (t := t) (pts := pts) (by omega) hT (by
    refine le_trans (show t.nullDistance ≤ hi.1 - lo.1 by linarith) (le_trans ?_ (fst_le_eucl lo hi)); rw [abs_sub_comm]; exact le_abs_self _) w1' w2' (by linarith)
  unfold ptInsidePoly
  rw [hs, hbb]
  simp only [Bool.not_true, Bool.false_eq_true, if_false, Res.bind_ok]
  rw [(insideRect_iff p ⟨lo, hi⟩).2 hin]
  simp only [Bool.not_true, Bool.false_eq_true, if_false]
  rw [segPairs_edges h3, polySegs_ok t _ (fun e h => (he e h).1)]
  simp only [Res.bind_ok]
  rw [nearLine_eq_false h1 _ he hf]
  simp only [Res.bind_ok, Bool.false_eq_true, if_false]
  have hext : FRect.getExtended t.nullOrthogDistance ⟨lo, hi⟩ =
      .ok ⟨(lo.1 * 2 - hi.1, lo.2 * 2 - hi.2), (hi.1 * 2 - lo.1, hi.2 * 2 - lo.2)⟩ := by
    unfold FRect.getExtended
    apply ofPts_of_le
    · simp only; linarith
    · simp only; linarith
    · rw [← Bool.not_eq_true, share_iff, not_or, not_lt, not_lt, abs_sub_comm, abs_sub_comm (lo.1 * 2 - hi.1, lo.2 * 2 - hi.2).2]
      constructor
      · rw [abs_of_nonneg] <;> (simp only; linarith)
      · rw [abs_of_nonneg] <;> (simp only; linarith)
  rw [hext]
  simp only [Res.bind_ok]
  obtain ⟨p1, p2, p3, p4⟩ := hin
  obtain ⟨X, hX⟩ : ∃ X, X = lo.1 * 2 - hi.1 := ⟨_, rfl⟩
  obtain ⟨Y, hY⟩ : ∃ Y, Y = lo.2 * 2 - hi.2 := ⟨_, rfl⟩
  obtain ⟨X', hX'⟩ : ∃ X, X = hi.1 * 2 - lo.1 := ⟨_, rfl⟩
  obtain ⟨Y', hY'⟩ : ∃ Y, Y = hi.2 * 2 - lo.2 := ⟨_, rfl⟩
  rw [← hX, ← hY, ← hX', ← hY']
  have s1 : Side (6 * t.nullDistance) (18 * t.nullDistance) p ((X, Y), (X, Y')) := Or.inl ⟨rfl, le_trans (by simp only; linarith) (le_abs_self _), le_trans (by simp only; linarith) (neg_le_abs _)⟩
  have s2 : Side (6 * t.nullDistance) (18 * t.nullDistance) p ((X, Y'), (X', Y')) := Or.inr ⟨rfl, le_trans (by simp only; linarith) (neg_le_abs _), le_trans (by simp only; linarith) (neg_le_abs _)⟩
  have s3 : Side (6 * t.nullDistance) (18 * t.nullDistance) p ((X', Y'), (X', Y)) := Or.inl ⟨rfl, le_trans (by simp only; linarith) (neg_le_abs _), le_trans (by simp only; linarith) (le_abs_self _)⟩
  have s4 : Side (6 * t.nullDistance) (18 * t.nullDistance) p ((X', Y), (X, Y)) := Or.inr ⟨rfl, le_trans (by simp only; linarith) (le_abs_self _), le_trans (by simp only; linarith) (le_abs_self _)⟩
  have hq : ∀ {s : Seg}, Side (6 * t.nullDistance) (18 * t.nullDistance) p s → t.nullDistance ≤ eucl s.1 s.2 := fun k => le_trans (by linarith) k.length
  have hsegs : rectSegs t ⟨(X, Y), (X', Y')⟩ = .ok [((X, Y), (X, Y + (Y' - Y))), fixOrder (X, Y') (X', Y'), fixOrder (X', Y') (X', Y), fixOrder (X', Y) (X, Y)] := by
    unfold rectSegs
    simp only
    rw [segMake_eq false (hq s1), segMake_eq false (hq s2), segMake_eq false (hq s3), segMake_eq false (hq s4)]
    simp only [Res.bind_ok, Bool.false_eq_true, if_false, Res.pure_eq]
    rw [fixOrder_vert (by linarith), show Y + (Y' - Y) = Y' by ring]
  rw [hsegs, Res.bind_ok]
  have hr : ∀ j : ℕ, ((X, Y + (Y' - Y) / 2 ^ j) : Pt ℝ) = refPoint lo hi j := fun j => by
    unfold refPoint
    rw [hX, hY, hY']
    refine Prod.ext (by simp only; ring) ?_
    simp only
    rw [show hi.2 * 2 - lo.2 - (lo.2 * 2 - hi.2) = 3 * (hi.2 - lo.2) by ring, mul_comm lo.2 2]
  refine pipLoop_retry (by linarith) (show t.nullDistance ≤ 6 * t.nullDistance by linarith) 4 (Y' - Y) _ (ℓ := 18 * t.nullDistance) (by linarith) (by norm_num; linarith) ?_ ?_ ?_
  · intro s hs
    rw [show Y + (Y' - Y) = Y' by ring] at hs
    simp only [List.mem_cons, List.not_mem_nil, or_false] at hs
    rcases hs with rfl | rfl | rfl | rfl
    · exact s1
    · exact s2.fix
    · exact s3.fix
    · exact s4.fix
  · intro j j1 j5
    rw [hr]
    refine pipCount_ok h1 ?_ _ fun e h => (he e h).1
    rw [eucl_fix]
    refine le_trans ?_ (fst_le_eucl _ _)
    unfold refPoint
    simp only
    rw [abs_of_pos] <;> linarith
  · exact ⟨n, n1, n5, by rw [hr]; exact hv⟩

end H2d.Pip
