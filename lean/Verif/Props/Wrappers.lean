import Verif.Model.Normalize
import Verif.Py.ReplaceLemmas
import Verif.Py.StrLemmas
import Verif.Spec.Basic
import Verif.Spec.Toy
/-
Property C18: unwrapping of nested `\text{...}`, `\mbox{...}` and set-builder answers terminates.
-/

namespace Verif

variable {X V S : Type}

/-! ### A weight that no step increases

"{cases}" and "{array}" are replaced by the longer "{matrix}", so the length alone does not decrease. -/

/-- Weight of a character: `s` and `y` count twice. -/
def charWt (c : Char) : Nat := if c = 's' ∨ c = 'y' then 2 else 1

/-- Weight of a string. -/
def wt (s : Str) : Nat := (s.map charWt).sum

theorem wt_append (a b : Str) : wt (a ++ b) = wt a + wt b := by simp [wt]
theorem wt_cons (c : Char) (s : Str) : wt (c :: s) = charWt c + wt s := by simp [wt]

theorem wt_le (s : Str) : wt s ≤ 2 * s.length := by
  induction s with
  | nil => simp [wt]
  | cons c cs ih =>
    rw [wt_cons, List.length_cons]
    have : charWt c ≤ 2 := by unfold charWt; split <;> omega
    omega

theorem le_wt (s : Str) : s.length ≤ wt s := by
  induction s with
  | nil => simp [wt]
  | cons c cs ih =>
    rw [wt_cons, List.length_cons]
    have : 1 ≤ charWt c := by unfold charWt; split <;> omega
    omega

theorem wt_infix {a b : Str} (h : a <:+: b) : wt a ≤ wt b := by
  obtain ⟨u, v, rfl⟩ := h
  simp only [wt_append]; omega

theorem wt_replace (old new s : Str) (h0 : old ≠ []) (h : wt new ≤ wt old) : wt (replace old new s) ≤ wt s := by
  induction hn : s.length using Nat.strongRecOn generalizing s with
  | ind n ih =>
    by_cases hp : old <+: s
    · obtain ⟨t, rfl⟩ := hp
      rw [replace_match old new t h0, wt_append, wt_append]
      have : 0 < old.length := List.length_pos_iff.2 h0
      have := ih t.length (by rw [← hn]; simp; omega) t rfl
      omega
    · cases s with
      | nil => rw [replace_nil new h0]; exact Nat.le_refl _
      | cons c cs =>
        rw [replace_cons new c cs hp, wt_cons, wt_cons]
        have := ih cs.length (by rw [← hn]; simp) cs rfl
        omega

theorem wt_stripBlank (s : Str) : wt (stripBlank s) ≤ wt s := by
  obtain ⟨l, r, h, _⟩ := stripBy_spec (· == ' ') s
  apply wt_infix
  exact ⟨l, r, h.symm⟩

theorem wt_matrixNormalize (s : Str) : wt (matrixNormalize s) ≤ wt s := by
  have h1 : ∀ s, wt (if contains s%"{cases}" s then replace s%"{cases}" s%"{matrix}" s else s) ≤ wt s := by
    intro s; split
    · exact wt_replace _ _ _ (by simp) (by decide)
    · exact Nat.le_refl _
  have h2 : ∀ s, wt (if contains s%"{array}" s then replace s%"{array}" s%"{matrix}" s else s) ≤ wt s := by
    intro s; split
    · exact wt_replace _ _ _ (by simp) (by decide)
    · exact Nat.le_refl _
  have h3 : ∀ (b : Bool) s, wt (if b = true then replace s%"\\\\" s%"\\" s else s) ≤ wt s := by
    intro b s; split
    · exact wt_replace _ _ _ (by simp) (by decide)
    · exact Nat.le_refl _
  unfold matrixNormalize
  exact Nat.le_trans (h3 _ _) (Nat.le_trans (h2 _) (h1 s))

/-! ### The content of a wrapper is shorter -/

theorem reSearch_mem {r : Re} {s : Str} {t : RSt} (h : reSearch r s = some t) :
    ∃ a b, s = a ++ b ∧ t ∈ r.run ⟨a.reverse, b, []⟩ := by
  obtain ⟨a, b, hab, hm, _⟩ := (searchFrom_some_iff r [] s t).1 h
  refine ⟨a, b, hab, ?_⟩
  rw [List.append_nil] at hm
  exact List.mem_of_head? hm

theorem mem_run_grp {n : Nat} {r : Re} {s t : RSt} (h : t ∈ (Re.grp n r).run s) :
    ∃ t' u, t' ∈ r.run s ∧ s.rest = u ++ t.rest ∧ t = ⟨t'.pre, t'.rest, (n, u) :: t'.caps⟩ := by
  simp only [run_grp, List.mem_map] at h
  obtain ⟨t', h', rfl⟩ := h
  obtain ⟨u, hu, _⟩ := run_split r s t' h'
  refine ⟨t', u, h', hu, ?_⟩
  simp [hu]

theorem mem_run_chr {p : Char → Bool} {s t : RSt} (h : t ∈ (Re.chr p).run s) :
    ∃ c, p c = true ∧ s.rest = c :: t.rest ∧ t.pre = c :: s.pre ∧ t.caps = s.caps := by
  cases s with
  | mk pre rest caps =>
    cases rest with
    | nil => simp at h
    | cons c cs =>
      simp only [run_chr_cons] at h
      split at h
      · simp at h; subst h; exact ⟨c, ‹_›, rfl, rfl, rfl⟩
      · simp at h

theorem mem_run_eos {s t : RSt} (h : t ∈ Re.eos.run s) : t = s := by
  simp only [run_eos] at h
  split at h
  · simpa using h
  · simp at h

theorem mem_run_lit {p : Str} {s t : RSt} (h : t ∈ (Re.lit p).run s) :
    s.rest = p ++ t.rest ∧ t.caps = s.caps := by
  rw [run_lit] at h
  split at h
  · rename_i hp
    simp only [List.mem_singleton] at h
    subst h
    rw [List.isPrefixOf_iff_prefix] at hp
    obtain ⟨v, hv⟩ := hp
    exact ⟨by simp [RSt.adv, ← hv], rfl⟩
  · simp at h

/-- The content of `\text{...}` or `\mbox{...}` is a proper part of the answer. -/
theorem textRe_content {s : Str} {t : RSt} (h : reSearch textRe s = some t) :
    wt (t.groupD 2) + 5 ≤ wt s := by
  obtain ⟨a, b, hab, ht⟩ := reSearch_mem h
  simp only [textRe, Re.cat, run_seq, List.mem_flatMap] at ht
  obtain ⟨t0, h0, t1, h1, t2, h2, t3, h3, t4, h4, t5, h5, t6, h6, t7, h7, h8⟩ := ht
  have e0 : b = t0.rest := by
    simp only [run_bos] at h0; split at h0
    · simp at h0; rw [h0]
    · simp at h0
  obtain ⟨c1, _, e1, _⟩ := mem_run_chr h1
  obtain ⟨u2, e2, _⟩ := run_split _ _ _ h2
  obtain ⟨t3', u3, h3', e3, q3⟩ := mem_run_grp h3
  obtain ⟨c4, _, e4, _⟩ := mem_run_chr h4
  obtain ⟨u5, e5, _⟩ := run_split _ _ _ h5
  obtain ⟨t6', u6, h6', e6, q6⟩ := mem_run_grp h6
  obtain ⟨c7, _, e7, _, k7⟩ := mem_run_chr h7
  have e8 := mem_run_eos h8
  have hg : t.groupD 2 = u6 := by
    rw [e8]; simp [RSt.groupD, RSt.group, k7, q6]
  have hl3 : u3.length = 4 := by
    rw [run_alt, List.mem_append] at h3'
    have hr : t3.rest = t3'.rest := by rw [q3]
    rcases h3' with h | h
    · have := (mem_run_lit h).1
      rw [e3, hr] at this
      rw [List.append_cancel_right this]; rfl
    · have := (mem_run_lit h).1
      rw [e3, hr] at this
      rw [List.append_cancel_right this]; rfl
  rw [hg, hab, e0, e1, e2, e3, e4, e5, e6, e7]
  have := le_wt u3
  simp only [wt_append, wt_cons]
  have : 1 ≤ charWt c1 := by unfold charWt; split <;> omega
  omega

/-- The condition part of `\{ ... | ... \}` is a proper part of the answer. -/
theorem setBuilderRe_content {s : Str} {t : RSt} (h : reSearch setBuilderRe s = some t) :
    wt (t.groupD 2) + 5 ≤ wt s := by
  obtain ⟨a, b, hab, ht⟩ := reSearch_mem h
  simp only [setBuilderRe, Re.cat, run_seq, List.mem_flatMap] at ht
  obtain ⟨t0, h0, t1, h1, t2, h2, t3, h3, t4, h4, t5, h5, h6⟩ := ht
  have e0 : b = t0.rest := by
    simp only [run_bos] at h0; split at h0
    · simp at h0; rw [h0]
    · simp at h0
  have e1 := (mem_run_lit h1).1
  obtain ⟨t2', u2, _, e2, q2⟩ := mem_run_grp h2
  obtain ⟨c3, _, e3, _⟩ := mem_run_chr h3
  obtain ⟨t4', u4, _, e4, q4⟩ := mem_run_grp h4
  obtain ⟨e5, k5⟩ := mem_run_lit h5
  have e6 := mem_run_eos h6
  have hg : t.groupD 2 = u4 := by
    rw [e6]; simp [RSt.groupD, RSt.group, k5, q4]
  rw [hg, hab, e0, e1, e2, e3, e4, e5]
  have h1 : wt s%"\\{" = 2 := by decide
  have h2 : wt s%"\\}" = 2 := by decide
  rw [wt_append, wt_append, wt_append, h1, wt_cons, wt_append, wt_append, h2]
  have : 1 ≤ charWt c3 := by unfold charWt; split <;> omega
  omega

/-! ### C18 -/

/-- `string_normalize` in an interpreter that does `base` where the recursion limit is reached. -/
def normalizeWithLimit (E : Env X V S) (base : Str → M X Norm) : Nat → Str → M X Norm
  | 0, s => base s
  | n + 1, s => M.tryExcept (normBody E (normalizeWithLimit E base n) s) fun e => do
      M.print (errLine e)
      pure (.str s)

theorem normBody_congr (E : Env X V S) (f g : Str → M X Norm) (s : Str)
    (h : ∀ t, wt t + 5 ≤ wt s → f t = g t) : normBody E f s = normBody E g s := by
  have hw : wt (matrixNormalize (stripBlank s)) ≤ wt s :=
    Nat.le_trans (wt_matrixNormalize _) (wt_stripBlank s)
  unfold normBody
  simp only
  split
  · rename_i t ht
    exact h _ (Nat.le_trans (textRe_content ht) hw)
  · split
    · rename_i t ht
      split
      · rfl
      · exact h _ (Nat.le_trans (setBuilderRe_content ht) hw)
    · rfl

theorem normalizeWithLimit_congr (E : Env X V S) (base base' : Str → M X Norm) (n m : Nat) (s : Str)
    (hn : wt s < 5 * n) (hm : wt s < 5 * m) :
    normalizeWithLimit E base n s = normalizeWithLimit E base' m s := by
  induction n generalizing m s with
  | zero => omega
  | succ n ih =>
    cases m with
    | zero => omega
    | succ m =>
      simp only [normalizeWithLimit]
      rw [normBody_congr E _ (normalizeWithLimit E base' m) s]
      intro t ht
      exact ih m t (by omega) (by omega)

theorem stringNormalize_eq_limit (E : Env X V S) (n : Nat) (s : Str) :
    stringNormalize E n s = normalizeWithLimit E (fun _ => M.raise .recursionError) n s := by
  induction n generalizing s with
  | zero => rfl
  | succ n ih =>
    simp only [stringNormalize, normalizeWithLimit]
    rw [show stringNormalize E n = normalizeWithLimit E (fun _ => M.raise .recursionError) n from funext ih]

/-- C18: with a recursion limit greater than the length of the answer the limit is never reached: whatever
would happen there (`base`) has no influence on the result, the printed text or the external state. -/
theorem C18_limit_never_reached (E : Env X V S) (base : Str → M X Norm) (n : Nat) (s : Str) (h : s.length < n) :
    stringNormalize E n s = normalizeWithLimit E base n s := by
  rw [stringNormalize_eq_limit]
  have := wt_le s
  exact normalizeWithLimit_congr E _ _ n n s (by omega) (by omega)

/-- C18: the result does not depend on the recursion limit once it exceeds the length of the answer. -/
theorem C18_limit_independent (E : Env X V S) (n m : Nat) (s : Str) (hn : s.length < n) (hm : s.length < m) :
    stringNormalize E n s = stringNormalize E m s := by
  rw [stringNormalize_eq_limit, stringNormalize_eq_limit]
  have := wt_le s
  exact normalizeWithLimit_congr E _ _ n m s (by omega) (by omega)

/-- The limit matters below the nesting depth, and the content is really unwrapped. -/
example : (stringNormalize failEnv 1 s%"\\text{\\mbox{7}}" ⟨(), []⟩).1 = .ok (.str s%"\\text{\\mbox{7}}") ∧
    (stringNormalize failEnv 3 s%"\\text{\\mbox{7}}" ⟨(), []⟩).1 = .ok (.str s%"7") := by decide +kernel

example : (s%"\\text{\\mbox{7}}").length < 16 := by decide

/-- Unwrapping can make the answer longer than it was, because `{cases}` becomes `{matrix}`. -/
example : matrixNormalize s%"{cases}" = s%"{matrix}" := by decide +kernel

end Verif
