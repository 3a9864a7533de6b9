import Verif.Lemmas.Text
import Verif.Lemmas.TextFinite

/-!
# C136: texts written on a stream
-/

namespace H2d.Props
open H2d H2d.Spec H2d.Text

variable {K : Type} [Field K] [LinearOrder K] {num : K → List Char} {t : Thr K}

/-- C136. Two primitives with the same text are of the same type and have the same values; the only exception is a line and a point at infinity with the same three values. -/
theorem C136_text (hw : Writes num) (s s' : Shape K) (h : shapeText num t s = shapeText num t s') : SamePrim t s s' ∨ LineAndInf t s s' :=
  (shape_cut hw (Or.inl rfl) (Or.inl rfl) (by simpa using h)).1

/-- C136. Two containers with the same text have the same number of elements and the same elements. -/
theorem C136_container (hw : Writes num) (l m : List (Shape K)) (h : containerText num t l = containerText num t m) :
    l.length = m.length ∧ List.Forall₂ (fun s s' => SamePrim t s s' ∨ LineAndInf t s s') l m := by
  unfold containerText at h
  obtain ⟨_, h⟩ := cutChar (repr_no_newline _) (repr_no_newline _) (List.append_cancel_left h)
  have := elems_cut hw h
  exact ⟨this.length_eq, this⟩

/-- C136. With runtime polymorphism, two objects with the same text have the same type and the same values, without exception. -/
theorem C136_root (hw : Writes num) (s s' : Shape K) (h : rootText num t s = rootText num t s') : SamePrim t s s' := by
  have nl : ∀ s : Shape K, '\n' ∉ typeName s := by intro s; cases s <;> simp [typeName]
  obtain ⟨e, h⟩ := cutChar (nl s) (nl s') (List.append_cancel_left h)
  rcases C136_text hw s s' h with k | k
  · exact k
  · cases s <;> cases s' <;> first | exact k.elim | exact absurd e (by simp [typeName])

/-- C136. Two homographies with the same text have the same nine values. -/
theorem C136_matrix (hw : Writes num) (m n : Mat K) (h : homogText num m = homogText num n) : m = n := by
  unfold homogText at h
  obtain ⟨e0, h⟩ := row_cut hw (List.append_cancel_left h)
  obtain ⟨e1, h⟩ := row_cut hw h
  obtain ⟨e2, _⟩ := row_cut hw (r := []) (r' := []) (by simpa using h)
  funext i
  fin_cases i
  · exact e0
  · exact e1
  · exact e2

/-- C136. The numbers of a homography are aligned: if no number needs more than six characters, the text always has the same length, 87 characters. -/
theorem C136_columns (m : Mat K) (h : ∀ i j, (num (m i j)).length ≤ 6) : (homogText num m).length = 87 := by
  have p : ∀ i j, (padded num (m i j)).length = 6 := fun i j => by have := h i j; simp only [padded, List.length_append, List.length_replicate]; omega
  simp [homogText, rowText, p]

example : (homogText (K := ℚ) (fun _ => ['1', '.', '5']) (fun _ _ => 3 / 2)).length = 87 := C136_columns _ (by simp)

/-- C136. Two intersections (circle, rectangle) with the same text have the same answer and the same points. -/
theorem C136_intersection (hw : Writes num) (b c : Bool) (p q p' q' : V3 K) (h : inters2Text num t b p q = inters2Text num t c p' q') : b = c ∧ SamePt t p p' ∧ SamePt t q q' := by
  unfold inters2Text at h
  have h := List.append_cancel_left h
  simp only [List.cons.injEq] at h
  obtain ⟨e0, h⟩ := h
  obtain ⟨e1, h⟩ := pt_cut hw (List.append_cancel_left h)
  obtain ⟨e2, _⟩ := pt_cut hw (r := []) (r' := []) (by simpa using List.append_cancel_left h)
  refine ⟨?_, e1, e2⟩
  revert e0
  cases b <;> cases c <;> simp

/-- Numbers written in this way exist, and the texts are not trivial: the points of a closed polyline. -/
example : Writes demoNum ∧ shapeText demoNum ⟨1, 1, 1, 1, 1⟩ (.cpoly [mkPt 0 0, mkPt 1 2]) ≠ shapeText demoNum ⟨1, 1, 1, 1, 1⟩ (.cpoly [mkPt 0 0, mkPt 1 3]) := by
  refine ⟨demoNum_writes, fun h => ?_⟩
  rcases C136_text demoNum_writes _ _ h with k | k
  · have k : List.Forall₂ _ _ _ := k
    simp [SamePt, mkPt] at k
  · exact k

/-- C136: a line and a point at infinity can have the same text. -/
theorem C136_line_false (num : K → List Char) (t : Thr K) (v : V3 K) (h : |v 2| < t.nullDenom) : shapeText num t (.point v) = shapeText num t (.line v) := by
  have k : isInf t v = true := by simpa [isInf] using h
  show ptText num t v = tripleText num v
  unfold ptText
  rw [if_pos k]

/-- C136: with texts of at most `N` characters there are different points with the same text as soon as there are more values than texts. With the default precision (6 digits, 13 characters at most
of 16 different ones) this holds for the values of `double`. -/
theorem C136_digits_false [IsStrictOrderedRing K] (num : K → List Char) (ht : t.nullDenom ≤ 1) (A : Finset Char) (N : ℕ) (S : Finset K) (hS : ∀ x ∈ S, (num x).length ≤ N ∧ ∀ c ∈ num x, c ∈ A)
    (hc : (A.card + 1) ^ N < S.card) :
    ∃ x ∈ S, ∃ y ∈ S, shapeText num t (.point (mkPt x 0)) = shapeText num t (.point (mkPt y 0)) ∧ ¬ SamePrim t (.point (mkPt x 0)) (.point (mkPt y 0)) := by
  obtain ⟨x, hx, y, hy, hne, he⟩ := short_texts num A N S hS hc
  refine ⟨x, hx, y, hy, ?_, ?_⟩
  · have k : ∀ z : K, ptText num t (mkPt z 0) = '[' :: (num z ++ ',' :: (num 0 ++ [']'])) := by
      intro z
      unfold ptText
      rw [if_neg (by simp [isInf, mkPt]; exact ht)]
      simp [getXY, mkPt]
    show ptText num t _ = ptText num t _
    rw [k, k, he]
  · intro h
    have h : SamePt t (mkPt x 0) (mkPt y 0) := h
    rcases h with ⟨h, _⟩ | ⟨_, _, h, _⟩
    · simp only [mkPt, Matrix.cons_val, abs_one] at h
      exact absurd h (not_lt.2 ht)
    · exact hne (by simpa [mkPt] using h)

/-- C136: the text of the intersection with a polyline does not show the points: they are not written on the stream that is given but on `std::cout`. -/
theorem C136_polyline_false (num : K → List Char) (t : Thr K) (l m : List (V3 K)) : (intersMText num t l).1 = (intersMText num t m).1 ↔ l.length = m.length := by
  constructor
  · intro h
    have h := (cutChar (repr_no_newline _) (repr_no_newline _) (List.append_cancel_left h)).1
    exact repr_inj h
  · intro h
    unfold intersMText
    rw [h]

end H2d.Props
