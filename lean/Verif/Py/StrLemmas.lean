import Verif.Py.Str
/-
Lemmas about the string functions of `Verif.Py.Str`.
-/

namespace Verif

/-! ### strip -/

theorem lstripBy_append_of_all (p : Char → Bool) (l s : Str) (h : l.all p = true) :
    lstripBy p (l ++ s) = lstripBy p s := by
  induction l with
  | nil => rfl
  | cons c cs ih =>
    simp only [List.all_cons, Bool.and_eq_true] at h
    simp only [lstripBy, List.cons_append] at *
    rw [List.dropWhile_cons_of_pos h.1]
    exact ih h.2

theorem rstripBy_append_of_all (p : Char → Bool) (s r : Str) (h : r.all p = true) :
    rstripBy p (s ++ r) = rstripBy p s := by
  unfold rstripBy
  rw [List.reverse_append]
  congr 1
  exact lstripBy_append_of_all p r.reverse s.reverse (by simpa using h)

theorem lstripBy_of_all (p : Char → Bool) (l : Str) (h : l.all p = true) : lstripBy p l = [] := by
  have := lstripBy_append_of_all p l [] h
  simpa [lstripBy] using this

theorem rstripBy_of_all (p : Char → Bool) (l : Str) (h : l.all p = true) : rstripBy p l = [] := by
  have := rstripBy_append_of_all p [] l h
  simpa [rstripBy] using this

/-- Splitting off the leading run. -/
theorem lstripBy_spec (p : Char → Bool) (s : Str) :
    ∃ l, s = l ++ lstripBy p s ∧ l.all p = true := by
  refine ⟨s.takeWhile p, ?_, ?_⟩
  · exact (List.takeWhile_append_dropWhile (p := p) (l := s)).symm
  · induction s with
    | nil => rfl
    | cons c cs ih =>
      by_cases hc : p c = true
      · rw [List.takeWhile_cons_of_pos hc]; simp [hc, ih]
      · rw [List.takeWhile_cons_of_neg hc]; rfl

theorem rstripBy_spec (p : Char → Bool) (s : Str) :
    ∃ r, s = rstripBy p s ++ r ∧ r.all p = true := by
  obtain ⟨l, h1, h2⟩ := lstripBy_spec p s.reverse
  refine ⟨l.reverse, ?_, by simpa using h2⟩
  have := congrArg List.reverse h1
  simpa [rstripBy, lstripBy] using this

theorem stripBy_spec (p : Char → Bool) (s : Str) :
    ∃ l r, s = l ++ stripBy p s ++ r ∧ l.all p = true ∧ r.all p = true := by
  obtain ⟨l, h1, h2⟩ := lstripBy_spec p s
  obtain ⟨r, h3, h4⟩ := rstripBy_spec p (lstripBy p s)
  refine ⟨l, r, ?_, h2, h4⟩
  unfold stripBy
  conv => lhs; rw [h1, h3]
  rw [List.append_assoc]

theorem stripBy_pad (p : Char → Bool) (l s r : Str) (hl : l.all p = true) (hr : r.all p = true) :
    stripBy p (l ++ s ++ r) = stripBy p s := by
  unfold stripBy
  rw [List.append_assoc, lstripBy_append_of_all p l _ hl]
  -- remove the right padding
  by_cases h : s.all p = true
  · rw [lstripBy_append_of_all p s r h, lstripBy_of_all p s h, lstripBy_of_all p r hr]
  · have : lstripBy p (s ++ r) = lstripBy p s ++ r := by
      clear hl hr
      induction s with
      | nil => simp at h
      | cons c cs ih =>
        by_cases hc : p c = true
        · have h' : ¬ cs.all p = true := by
            intro hh; apply h; simp [hc, hh]
          have e1 : lstripBy p ((c :: cs) ++ r) = lstripBy p (cs ++ r) := by
            simp [lstripBy, List.dropWhile_cons_of_pos hc]
          have e2 : lstripBy p (c :: cs) = lstripBy p cs := by
            simp [lstripBy, List.dropWhile_cons_of_pos hc]
          rw [e1, e2]; exact ih h'
        · have e1 : lstripBy p ((c :: cs) ++ r) = (c :: cs) ++ r := by
            simp [lstripBy, List.dropWhile_cons_of_neg hc]
          have e2 : lstripBy p (c :: cs) = c :: cs := by
            simp [lstripBy, List.dropWhile_cons_of_neg hc]
          rw [e1, e2]
    rw [this, rstripBy_append_of_all p _ r hr]

theorem contains_iff (p s : Str) : contains p s = true ↔ p <:+: s := by
  induction s with
  | nil => simp [contains]
  | cons c cs ih => simp [contains, ih, List.infix_cons_iff]

theorem contains_eq_false (p s : Str) : contains p s = false ↔ ¬ p <:+: s := by
  rw [← contains_iff]; simp

end Verif
