import Verif.Model.Normalize
import Verif.Py.DeadLemmas
import Verif.Props.Wrappers
/-
Strings on which all stages of `string_normalize` before the last one do nothing.  Used by the properties of
the normaliser.
-/

namespace Verif
open Re

variable {X V S : Type}

/-- Characters that mean nothing to the stages before the last one. -/
def quiet (c : Char) : Bool :=
  !asciiAlpha c && !(s%" \\_%$:^{}").contains c && !([7, 8, 9, 12, 13] : List Nat).contains c.toNat &&
    decide (c.toNat < 128)

/-- A string of quiet characters. -/
def Quiet (s : Str) : Prop := ∀ c ∈ s, quiet c = true

theorem quiet_alpha {c : Char} (h : quiet c = true) : asciiAlpha c = false := by
  simp only [quiet, Bool.and_eq_true, Bool.not_eq_true'] at h
  exact h.1.1.1

/-- Every unit has a character other than a dot that is not quiet. -/
theorem unit_not_quiet : ∀ u ∈ unitAll, ∃ x ∈ u, (x == '.') = false ∧ quiet x = false := by
  decide +kernel

theorem dead_unitRe {A : Char → Bool} {u : Str} {x : Char} (hx : x ∈ u) (hd : (x == '.') = false)
    (h : A x = false) : (unitRe u).Dead A := by
  apply dead_cat (r := c x)
  · rw [List.mem_map]; exact ⟨x, hx, by simp [hd]⟩
  · exact dead_c h

section
variable {s : Str} (hs : Quiet s)
include hs

theorem quiet_stripBlank : stripBlank s = s := by
  have hb : ∀ c ∈ s, (c == ' ') = false := by
    intro c hc
    rw [beq_eq_false_iff_ne]
    rintro rfl
    have := hs _ hc
    revert this; decide
  have e1 : ∀ t : Str, (∀ c ∈ t, (c == ' ') = false) → lstripBy (· == ' ') t = t := by
    intro t ht
    cases t with
    | nil => rfl
    | cons c cs => simp [lstripBy, ht c (by simp)]
  unfold stripBlank stripBy
  rw [e1 s hb]
  unfold rstripBy
  have := e1 s.reverse (by intro c hc; exact hb c (by simpa using hc))
  unfold lstripBy at this
  rw [this, List.reverse_reverse]

theorem quiet_matrixNormalize : matrixNormalize s = s := by
  unfold matrixNormalize
  rw [contains_alpha (p := s%"{cases}") (x := '{') (by simp) (by decide) hs]
  simp only [Bool.false_eq_true, if_false]
  rw [contains_alpha (p := s%"{array}") (x := '{') (by simp) (by decide) hs]
  simp only [Bool.false_eq_true, if_false]
  rw [replace_alpha (p := s%"\\\\") (x := '\\') (by simp) (by decide) hs]
  simp

theorem quiet_textRe : reSearch textRe s = none := by
  apply reSearch_dead (A := quiet) _ _ _ hs
  exact dead_cat (r := c '\\') (by simp) (dead_c (by decide))

theorem quiet_setBuilderRe : reSearch setBuilderRe s = none := by
  apply reSearch_dead (A := quiet) _ _ _ hs
  exact dead_cat (r := lit s%"\\{") (by simp) (dead_lit (x := '{') (by simp) (by decide))

theorem quiet_removeSpacing : removeSpacing s = s := by
  unfold removeSpacing
  have h1 : ∀ p : Str, '\\' ∈ p ∨ '{' ∈ p → ∀ new, reSubConst (lit p) new s = s := by
    rintro p (h | h) new
    · exact reSubConst_dead (dead_lit h (by decide)) hs
    · exact reSubConst_dead (dead_lit h (by decide)) hs
  simp only
  rw [h1 s%"\\:" (by simp), h1 s%"\\," (by simp), h1 s%"\\;" (by simp), h1 s%"\\!" (by simp),
    h1 s%"{,}" (by simp)]

theorem quiet_baseReadings (U : Uni) : baseReadings U s = none := by
  unfold baseReadings
  rw [reSearch_dead (A := quiet) _ _ _ hs]
  exact dead_cat (r := c '_') (by simp) (dead_c (by decide))

theorem quiet_percentStep (U : Uni) : percentStep U s = .inr s := by
  unfold percentStep
  rw [contains_alpha (x := '%') (by simp) (by decide) hs]
  simp

theorem quiet_middle : middle s = s := by
  have h1 : removeDollar s = s := by
    unfold removeDollar
    rw [replace_alpha (p := s%"\\$") (x := '$') (by simp) (by decide) hs,
      replace_alpha (p := s%"$") (x := '$') (by simp) (by decide) hs]
  have h2 : andOrStep s = s := by
    apply reSubConst_dead (A := quiet) _ hs
    refine dead_cat (List.mem_cons_of_mem _ (List.mem_cons_of_mem _ (List.mem_singleton.2 rfl))) ?_
    apply dead_grp
    apply dead_alt
    · apply dead_grp
      exact dead_cat (r := lit s%"\\text{") (by simp) (dead_lit (x := '{') (by simp) (by decide))
    · exact dead_cat (r := c ' ') (by simp) (dead_c (by decide))
  have h3 : wordsAndControls s = s := by
    unfold wordsAndControls
    simp only
    rw [replace_alpha (p := s%"million") (x := 'm') (by simp) (by decide) hs,
      replace_alpha (p := s%"billion") (x := 'b') (by simp) (by decide) hs,
      replace_alpha (p := s%"trillion") (x := 't') (by simp) (by decide) hs,
      replace_alpha (p := [Char.ofNat 12]) (x := Char.ofNat 12) (by simp) (by decide) hs,
      replace_alpha (p := [Char.ofNat 8]) (x := Char.ofNat 8) (by simp) (by decide) hs,
      replace_alpha (p := [Char.ofNat 7]) (x := Char.ofNat 7) (by simp) (by decide) hs,
      replace_alpha (p := [Char.ofNat 9]) (x := Char.ofNat 9) (by simp) (by decide) hs,
      replace_alpha (p := [Char.ofNat 13]) (x := Char.ofNat 13) (by simp) (by decide) hs]
  have h4 : leftRight s = s := by
    have h : ∀ p : Str, '\\' ∈ p → ∀ new, reSubConst (lit p) new s = s := by
      intro p h new
      exact reSubConst_dead (dead_lit h (by decide)) hs
    unfold leftRight
    simp only
    rw [h s%"\\left(" (by simp), h s%"\\left[" (by simp), h s%"\\right)" (by simp), h s%"\\right]" (by simp)]
  have h5 : memberStep s = s := by
    apply reSubConst_dead (A := quiet) _ hs
    exact dead_cat (r := lit s%"\\in") (by simp) (dead_lit (x := '\\') (by simp) (by decide))
  unfold middle
  rw [h1, h2, h3, h4, h5]

omit hs in
theorem quiet_ci (x : Char) (hx : asciiAlpha x = true) : (ci x).Dead quiet := by
  intro y hy
  rw [beq_eq_false_iff_ne]
  have hy' := quiet_alpha hy
  rintro rfl
  unfold asciiToLower at hx
  split at hx
  · rename_i hu
    simp [asciiAlpha, hu] at hy'
  · rw [hx] at hy'; exact Bool.noConfusion hy'

omit hs in
theorem quiet_meridiemAlt : meridiemAlt.Dead quiet := by
  apply dead_alt
  · exact dead_cat (r := c '\\') (by simp) (dead_c (by decide))
  · exact dead_cat (r := ci 'm') (by simp) (quiet_ci 'm' (by decide))

theorem quiet_time (U : Uni) : strToTimeList U s = .str s := by
  unfold strToTimeList
  rw [reSearch_dead (A := quiet) (timeRe1 U) s (dead_cat (r := grp 2 meridiemAlt) (by simp)
    (dead_grp (quiet_meridiemAlt))) hs]
  simp only
  rw [reSearch_dead (A := quiet) (timeRe2 U) s (dead_cat (r := c ':') (by simp) (dead_c (by decide))) hs]

omit hs in
theorem foldl_id {α β : Type} (f : α → β → α) (l : List β) (a : α) (h : ∀ b ∈ l, f a b = a) : l.foldl f a = a := by
  induction l with
  | nil => rfl
  | cons b bs ih =>
    rw [List.foldl_cons, h b (by simp)]
    exact ih (fun b' hb' => h b' (by simp [hb']))

theorem quiet_unitsStep (U : Uni) : unitsStep U s = s := by
  have h1 : textUnits U s = s := by
    apply foldl_id
    intro u _
    rw [reSubConst_dead (A := quiet) (r := textUnitRe U s%"text" u) _ hs,
      reSubConst_dead (A := quiet) (r := textUnitRe U s%"mbox" u) _ hs]
    · exact dead_cat (r := c '{') (by simp) (dead_c (by decide))
    · exact dead_cat (r := c '{') (by simp) (dead_c (by decide))
  have h2 : anyText U s = s := by
    apply reSubConst_dead (A := quiet) _ hs
    exact dead_cat (r := lit s%"text{") (by simp) (dead_lit (x := '{') (by simp) (by decide))
  have hu : ∀ u ∈ unitAll, (unitRe u).Dead quiet := by
    intro u hu
    obtain ⟨x, hx, hd, hq⟩ := unit_not_quiet u hu
    exact dead_unitRe hx hd hq
  have h3 : bareUnits U s = s := by
    unfold bareUnits
    rw [foldl_id (fun s u => reSubConst (longUnitRe U u) [] s) unitLong s]
    · apply foldl_id
      intro u h
      apply reSubConst_dead (A := quiet) _ hs
      exact dead_cat (r := unitRe u) (by simp) (hu u (by simp [unitAll, h]))
    · intro u h
      apply reSubConst_dead (A := quiet) _ hs
      exact dead_cat (r := unitRe u) (by simp) (hu u (by simp [unitAll, h]))
  unfold unitsStep
  rw [h1, h2, h3]

theorem quiet_circRe : reSearch circRe s = none := by
  apply reSearch_dead (A := quiet) _ _ _ hs
  exact dead_cat (r := c '^') (by simp) (dead_c (by decide))

/-- Only the last stage matters for a string of quiet characters. -/
theorem quiet_normBody (E : Env X V S) (rec : Str → M X Norm) :
    normBody E rec s = (do let a ← further E s; pure (.str a)) := by
  unfold normBody
  simp only
  rw [quiet_stripBlank hs, quiet_matrixNormalize hs, quiet_textRe hs, quiet_setBuilderRe hs]
  simp only
  unfold normTail
  simp only
  rw [quiet_removeSpacing hs, quiet_baseReadings hs]
  simp only
  rw [quiet_percentStep hs]
  simp only
  rw [quiet_middle hs, quiet_time hs]
  simp only
  rw [quiet_unitsStep hs]
  unfold degrees
  rw [quiet_circRe hs]
  simp

end

/-- Digits are quiet. -/
theorem quiet_digit {c : Char} (h : asciiDigit c = true) : quiet c = true := by
  have hc : 48 ≤ c.toNat ∧ c.toNat ≤ 57 := by simpa [asciiDigit] using h
  have h1 : asciiAlpha c = false := by
    simp [asciiAlpha, asciiLower, asciiUpper]; omega
  have h2 : (s%" \\_%$:^{}").contains c = false := by
    rw [Bool.eq_false_iff]
    intro hm
    rw [List.contains_iff_mem] at hm
    have : ∀ x ∈ s%" \\_%$:^{}", asciiDigit x = false := by decide
    rw [this c hm] at h; exact Bool.noConfusion h
  have h3 : ([7, 8, 9, 12, 13] : List Nat).contains c.toNat = false := by
    rw [Bool.eq_false_iff]
    intro hm
    rw [List.contains_iff_mem] at hm
    simp at hm; omega
  unfold quiet
  rw [h1, h2, h3]
  simp; omega

end Verif
