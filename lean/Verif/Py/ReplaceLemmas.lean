import Verif.Py.RegexLemmas
import Verif.Py.StrLemmas
/-
Lemmas about `str.replace`, `str.strip` and infixes.
-/

namespace Verif

theorem scanSub_pre (m : Str → Option (Nat × Str)) (k : Nat) (pre pre' s : Str) :
    scanSub (fun _ r => m r) k pre s = scanSub (fun _ r => m r) k pre' s := by
  induction s generalizing k pre pre' with
  | nil => cases k <;> rfl
  | cons c cs ih =>
    cases k with
    | zero =>
      simp only [scanSub]
      split
      · rw [ih 0 (c :: pre) (c :: pre')]
      · rw [ih _ (c :: pre) (c :: pre')]
      · rw [ih 0 (c :: pre) (c :: pre')]
    | succ k => simp only [scanSub]; exact ih _ _ _

theorem replace_nil {old : Str} (new : Str) (h : old ≠ []) : replace old new [] = [] := by
  cases old with
  | nil => exact absurd rfl h
  | cons c cs => simp [replace, scanSub]

theorem replace_cons {old : Str} (new : Str) (c : Char) (cs : Str) (h : ¬ old <+: c :: cs) :
    replace old new (c :: cs) = c :: replace old new cs := by
  have h' : old.isPrefixOf (c :: cs) = false := by
    rw [Bool.eq_false_iff, ne_eq, List.isPrefixOf_iff_prefix]; exact h
  unfold replace
  simp only [scanSub, h', Bool.false_eq_true, if_false]
  rw [scanSub_pre (fun r => if old.isPrefixOf r = true then some (old.length, new) else none) 0 [c] []]

theorem replace_match (old new s : Str) (h : old ≠ []) :
    replace old new (old ++ s) = new ++ replace old new s := by
  unfold replace
  rw [scanSub_match _ [] old s new h]
  · rw [scanSub_pre (fun r => if old.isPrefixOf r = true then some (old.length, new) else none) 0 _ []]
  · simp

/-- Nothing is replaced if the text does not occur. -/
theorem replace_id (old new s : Str) (h : ¬ old <:+: s) : replace old new s = s := by
  have h0 : old ≠ [] := by rintro rfl; exact h (List.nil_infix)
  induction s with
  | nil => exact replace_nil new h0
  | cons c cs ih =>
    rw [List.infix_cons_iff] at h
    rw [replace_cons new c cs fun hp => h (.inl hp), ih fun hi => h (.inr hi)]

theorem replace_one_nil (x : Char) (s : Str) : replace [x] [] s = s.filter (· ≠ x) := by
  induction s with
  | nil => rfl
  | cons c cs ih =>
    by_cases h : x = c
    · subst h
      have := replace_match [x] [] cs (by simp)
      simp only [List.singleton_append, List.nil_append] at this
      rw [this, ih]; simp
    · rw [replace_cons [] c cs (by simp [h]), ih]
      have : c ≠ x := fun e => h e.symm
      simp [this]

theorem not_infix_of_not_mem {p s : Str} (c : Char) (hc : c ∈ p) (h : c ∉ s) : ¬ p <:+: s :=
  fun hi => h (hi.subset hc)

/-- An occurrence cannot straddle a character that it does not contain. -/
theorem infix_straddle {p a b : Str} {c : Char} (hc : c ∉ p) (h : p <:+: a ++ c :: b) : p <:+: a ∨ p <:+: b := by
  obtain ⟨u, v, huv⟩ := h
  by_cases h1 : (u ++ p).length ≤ a.length
  · left
    have : u ++ p <+: a ++ c :: b := ⟨v, huv⟩
    have := List.prefix_of_prefix_length_le this (List.prefix_append a _) h1
    obtain ⟨t, ht⟩ := this
    exact ⟨u, t, ht⟩
  · by_cases h2 : u.length ≤ a.length
    · exfalso
      -- the character lies inside `p`
      have hu : u <+: a := List.prefix_of_prefix_length_le (l₃ := a ++ c :: b) ⟨p ++ v, by rw [← huv]; simp⟩
        (List.prefix_append a _) h2
      obtain ⟨t, ht⟩ := hu
      rw [← ht] at huv h1
      simp only [List.append_assoc, List.append_cancel_left_eq, List.length_append, Nat.add_le_add_iff_left,
        Nat.not_le] at huv h1
      have ht : t <+: p := List.prefix_of_prefix_length_le (l₃ := p ++ v) ⟨c :: b, huv.symm⟩
        (List.prefix_append p _) (by omega)
      obtain ⟨q, hq⟩ := ht
      rw [← hq] at huv h1
      simp only [List.append_assoc, List.append_cancel_left_eq] at huv
      cases q with
      | nil => simp at h1
      | cons d q =>
        simp only [List.cons_append, List.cons.injEq] at huv
        apply hc
        rw [← hq, huv.1]; simp
    · right
      have ha : a ++ [c] <+: u := List.prefix_of_prefix_length_le (l₃ := u ++ (p ++ v)) ⟨b, by rw [← List.append_assoc, huv]; simp⟩
        (List.prefix_append _ _) (by simp; omega)
      obtain ⟨t, ht⟩ := ha
      rw [← ht] at huv
      simp only [List.append_assoc, List.append_cancel_left_eq, List.cons_append, List.nil_append,
        List.cons.injEq, true_and] at huv
      exact ⟨t, v, by simpa using huv⟩

theorem strip_id (s : Str) (h1 : ∀ c, s.head? = some c → isSpace c = false)
    (h2 : ∀ c, s.getLast? = some c → isSpace c = false) : strip s = s := by
  have e1 : ∀ t : Str, (∀ c, t.head? = some c → isSpace c = false) → lstripBy isSpace t = t := by
    intro t ht
    cases t with
    | nil => rfl
    | cons c cs => simp [lstripBy, ht c rfl]
  unfold strip stripBy
  rw [e1 s h1]
  unfold rstripBy
  have := e1 s.reverse (by intro c hc; rw [List.head?_reverse] at hc; exact h2 c hc)
  unfold lstripBy at this
  rw [this, List.reverse_reverse]

end Verif
