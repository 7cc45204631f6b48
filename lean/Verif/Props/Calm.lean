import Verif.Props.LastStage
/-
Mathematical answers without any of the notations that the stages before the last one treat specially.
-/

namespace Verif
open Re

variable {X V S : Type}

/-- The characters of ordinary mathematical answers: printable ASCII except `$ % : _ |` and the letters
`d e g m M n o`, which the words of the normaliser (units, `and`, `or`, `\text`, ...) are made of. -/
def mathChar (c : Char) : Bool := decide (32 ≤ c.toNat) && decide (c.toNat < 127) && !(s%"$%:_|degmMno").contains c

/-- Character sequences with a meaning to the normaliser that can still be written with those characters. -/
def special : List Str :=
  [s%"ft", s%"\\\\", s%"\\:", s%"\\,", s%"\\;", s%"\\!", s%"{,}", s%"\\circ", s%"{array}"]

/-- Ordinary mathematical answers. -/
structure Calm (s : Str) : Prop where
  chars : ∀ c ∈ s, mathChar c = true
  words : ∀ p ∈ special, ¬ p <:+: s

theorem Calm.infix {s t : Str} (h : Calm s) (hi : t <:+: s) : Calm t :=
  ⟨fun c hc => h.chars c (hi.subset hc), fun p hp h' => h.words p hp (h'.trans hi)⟩

theorem math_no {s : Str} (h : ∀ c ∈ s, mathChar c = true) {x : Char} (hx : mathChar x = false) : x ∉ s :=
  fun hm => by rw [h x hm] at hx; cases hx

theorem math_absent {s p : Str} (h : ∀ c ∈ s, mathChar c = true) {x : Char} (hp : x ∈ p) (hx : mathChar x = false) : ¬ p <:+: s :=
  not_infix_of_not_mem x hp (math_no h hx)

theorem math_noControl {s : Str} (h : ∀ c ∈ s, mathChar c = true) : noControl s := by
  intro c hc hm
  have := h c hc
  simp only [mathChar, Bool.and_eq_true, decide_eq_true_eq] at this
  simp only [List.mem_cons, List.not_mem_nil, or_false] at hm
  omega

/-- Every unit but `ft` has a character that is not in the alphabet. -/
theorem math_units : ∀ u ∈ unitLong ++ unitShort, u = s%"ft" ∨ ∃ x ∈ u, x ≠ '.' ∧ mathChar x = false := by decide +kernel

theorem bareUnits_of {U : Uni} {s : Str} (h : ∀ u ∈ unitLong ++ unitShort, ∀ w, (unitRe u).Lang w → ¬ w <:+: s) :
    bareUnits U s = s := by
  unfold bareUnits
  rw [foldl_id (fun s u => reSubConst (longUnitRe U u) [] s) unitLong s]
  · apply foldl_id
    intro u hm
    exact reSubConst_id_of_part (r := unitRe u) (by simp) (h u (by simp [hm]))
  · intro u hm
    exact reSubConst_id_of_part (r := unitRe u) (by simp) (h u (by simp [hm]))

theorem math_bareUnits {U : Uni} {s : Str} (h : ∀ c ∈ s, mathChar c = true) (hft : ¬ s%"ft" <:+: s) : bareUnits U s = s := by
  apply bareUnits_of
  intro u hu w hw hi
  rcases math_units u hu with rfl | ⟨x, h1, h2, h3⟩
  · rw [unitRe_lit (by decide), lang_lit] at hw
    subst hw; exact hft hi
  · exact math_no h h3 (hi.subset (unitRe_lang_mem hw h1 h2))

theorem math_unitsStep {U : Uni} {s : Str} (h : ∀ c ∈ s, mathChar c = true) (hft : ¬ s%"ft" <:+: s) : unitsStep U s = s := by
  unfold unitsStep
  rw [textUnits_id (.inr ⟨math_absent h (x := 'e') (by simp) rfl, math_absent h (x := 'm') (by simp) rfl⟩),
    anyText_id (math_absent h (x := 'e') (by simp) rfl), math_bareUnits h hft]

theorem math_time {U : Uni} {s : Str} (h : ∀ c ∈ s, mathChar c = true) : strToTimeList U s = .str s :=
  time_id (timeRe1_none (math_no h rfl) (math_no h rfl)) (math_no h rfl)

theorem math_member {s : Str} (h : ∀ c ∈ s, mathChar c = true) : memberStep s = s :=
  memberStep_id (math_absent h (x := 'n') (by simp) rfl)

theorem calm_removeSpacing {s : Str} (h : Calm s) : removeSpacing s = s :=
  removeSpacing_id (h.words _ (by simp [special])) (h.words _ (by simp [special])) (h.words _ (by simp [special]))
    (h.words _ (by simp [special])) (h.words _ (by simp [special]))

theorem textRe_none' {s : Str} (h1 : ¬ s%"text" <:+: s) (h2 : ¬ s%"mbox" <:+: s) : reSearch textRe s = none := by
  refine reSearch_none_of_part (r := grp 1 (alt (lit s%"text") (lit s%"mbox"))) (by simp) ?_
  intro u hu
  rcases hu with hu | hu
  · rw [lang_lit.1 hu]; exact h1
  · rw [lang_lit.1 hu]; exact h2

theorem setBuilderRe_none' {s : Str} (h : '|' ∉ s) : reSearch setBuilderRe s = none :=
  reSearch_none_of_part (r := c '|') (by simp) (c_absent h)

theorem stripBlank_infix (s : Str) : stripBlank s <:+: s := by
  obtain ⟨l, r, h, _⟩ := stripBy_spec (· == ' ') s
  exact ⟨l, r, by rw [stripBlank]; exact h.symm⟩

theorem calm_matrix {s : Str} (h : Calm s) : matrixNormalize s = s :=
  matrixNormalize_id (math_absent h.chars (x := 'e') (by simp) rfl) (h.words _ (by simp [special])) (h.words _ (by simp [special]))

/-- Without wrapper, the text goes to the tail. -/
theorem normBody_nowrap (E : Env X V S) (rec : Str → M X Norm) {s t : Str} (h : matrixNormalize (stripBlank s) = t)
    (h1 : ¬ s%"text" <:+: t) (h2 : ¬ s%"mbox" <:+: t) (h3 : '|' ∉ t) : normBody E rec s = normTail E t := by
  unfold normBody
  simp only [h]
  rw [textRe_none' h1 h2, setBuilderRe_none' h3]

/-- The tail, if the middle stages turn the text into a calm one. -/
theorem normTail_calm (E : Env X V S) {s t : Str} (h1 : removeSpacing s = s) (h2 : '_' ∉ s) (h3 : '%' ∉ s)
    (h4 : middle s = t) (ht : ∀ c ∈ t, mathChar c = true) (hft : ¬ s%"ft" <:+: t) (hc : ¬ s%"\\circ" <:+: t) :
    normTail E s = (do let a ← further E t; pure (.str a)) := by
  rw [normTail_str E h1 h2 h3 (t' := t) (by rw [h4]; exact math_time ht), math_unitsStep ht hft, degrees_none E hc]

theorem calm_middle {s : Str} (h : Calm s) : middle s = s :=
  middle_id (math_no h.chars rfl) (math_absent h.chars (x := 'n') (by simp) rfl) (math_absent h.chars (x := 'o') (by simp) rfl)
    (math_absent h.chars (x := 'o') (by simp) rfl) (math_noControl h.chars) (math_absent h.chars (x := 'e') (by simp) rfl)
    (math_absent h.chars (x := 'g') (by simp) rfl) (math_absent h.chars (x := 'n') (by simp) rfl)

/-- Only the last stage (and the blanks around) matter for a calm text. -/
theorem calm_normBody (E : Env X V S) (rec : Str → M X Norm) {s : Str} (h : Calm s) :
    normBody E rec s = (do let a ← further E (stripBlank s); pure (.str a)) := by
  have h' := h.infix (stripBlank_infix s)
  rw [normBody_nowrap E rec (calm_matrix h') (math_absent h'.chars (x := 'e') (by simp) rfl) (math_absent h'.chars (x := 'm') (by simp) rfl)
    (math_no h'.chars rfl)]
  exact normTail_calm E (calm_removeSpacing h') (math_no h'.chars rfl) (math_no h'.chars rfl) (calm_middle h') h'.chars
    (h'.words _ (by simp [special])) (h'.words _ (by simp [special]))

/-- `str(value)` never raises. -/
def StrTotal (E : Env X V S) : Prop := ∀ v x, ∃ r x', E.str v x = (.ok r, x')

theorem further_ok (E : Env X V S) (hE : StrTotal E) (u : Str) (w : World X) : ∃ r w', further E u w = (.ok r, w') := by
  unfold further canonInt
  by_cases h : strIsInt E.U (furtherPure E.U u) = true
  · rw [if_pos h]
    cases hx : E.l2s (furtherPure E.U u) w.ext with
    | mk r x =>
      cases r with
      | error e => exact ⟨furtherPure E.U u, { w with ext := x }, by simp [M.bind_run, M.ext, hx]⟩
      | ok v =>
        obtain ⟨r, x', h'⟩ := hE v x
        exact ⟨r, { w with ext := x' }, by simp [M.bind_run, M.ext, hx, h']⟩
  · rw [if_neg h]
    exact ⟨_, w, rfl⟩

/-- Two answers that are the same to the last stage have the same normal form. -/
theorem same_normal (E : Env X V S) (hE : StrTotal E) {n m : Nat} {s t u : Str}
    (h1 : normBody E (stringNormalize E n) s = (do let a ← further E u; pure (.str a)))
    (h2 : normBody E (stringNormalize E m) t = (do let a ← further E u; pure (.str a))) :
    stringNormalize E (n + 1) s = stringNormalize E (m + 1) t := by
  funext w
  obtain ⟨r, w', hr⟩ := further_ok E hE u w
  simp only [stringNormalize, M.tryExcept_run, h1, h2, M.bind_run, hr]
  rfl

end Verif
