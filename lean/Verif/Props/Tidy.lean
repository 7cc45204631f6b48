import Verif.Props.Fractions
/-
A wide class of texts that the normaliser leaves as they are.
-/

namespace Verif
open Re

variable {X V S : Type}

/-- Character sequences that have a meaning to the normaliser wherever they stand. -/
def clearSpecial : List Str :=
  [s%"\\;", s%"\\!", s%"{cases}", s%"{array}", s%"text", s%"mbox", s%"llion", s%"\\left(", s%"\\left[",
   s%"\\right)", s%"\\right]", s%"\\circ", s%"\\tfrac", s%"\\cfrac", s%"\\dfrac", s%"centimeter", s%"second", s%"degree", s%"dollar", s%"minute", s%"radian", s%"square", s%"pound", s%"month", s%"units",
   s%"meter", s%"edges", s%"mile", s%"hour", s%"year", s%"cent", s%"foot", s%"feet", s%"inch", s%"yard", s%"week", s%"day",
   s%"rad", s%"mph"]

/-- Character sequences that have a meaning to the normaliser. -/
def tidySpecial : List Str := [s%"\\\\", s%"am", s%"pm", s%"a.m", s%"p.m", s%"\\in"] ++ clearSpecial

/-- Answers in LaTeX notation: printable ASCII characters except upper-case letters, blanks and `$ % : ,`; none of the words with a
meaning to the normaliser; not starting with a brace; no digit directly before `\frac` (a mixed number) or `_` (the base of a
number). -/
structure Tidy (s : Str) : Prop where
  chars : ∀ c ∈ s, 33 ≤ c.toNat ∧ c.toNat < 127 ∧ asciiUpper c = false ∧ c ∉ s%"$%:,"
  words : ∀ p ∈ tidySpecial, ¬ p <:+: s
  head : s.head? ≠ some '{' ∧ ¬ s%"\\{" <+: s
  mixed : ∀ u v d, s = u ++ d :: s%"\\frac" ++ v → asciiDigit d = false
  base : ∀ u v d, s = u ++ d :: '_' :: v → asciiDigit d = false

/-- As `Tidy`, with commas: not behind a backslash and not in braces of their own. -/
structure Neat (s : Str) : Prop where
  chars : ∀ c ∈ s, 33 ≤ c.toNat ∧ c.toNat < 127 ∧ asciiUpper c = false ∧ c ∉ s%"$%:"
  words : ∀ p ∈ tidySpecial, ¬ p <:+: s
  head : s.head? ≠ some '{' ∧ ¬ s%"\\{" <+: s
  mixed : ∀ u v d, s = u ++ d :: s%"\\frac" ++ v → asciiDigit d = false
  base : ∀ u v d, s = u ++ d :: '_' :: v → asciiDigit d = false
  commas : ¬ s%"\\," <:+: s ∧ ¬ s%"{,}" <:+: s

/-- As `Neat`, with double backslashes in matrices, with `am` and `pm` if there is no digit at the beginning, and with `\in` if there is
no letter before it. -/
structure Clear (s : Str) : Prop where
  chars : ∀ c ∈ s, 33 ≤ c.toNat ∧ c.toNat < 127 ∧ asciiUpper c = false ∧ c ∉ s%"$%:"
  words : ∀ p ∈ clearSpecial, ¬ p <:+: s
  slashes : ¬ s%"\\\\" <:+: s ∨ (¬ s%"\\\\begin" <:+: s ∧ s%"\\begin" <:+: s ∧ s%"matrix" <:+: s)
  clock : (∀ p ∈ [s%"am", s%"pm", s%"a.m", s%"p.m"], ¬ p <:+: s) ∨ ∀ c, s.head? = some c → asciiDigit c = false
  letter : ∀ u v c, s = u ++ c :: s%"\\in" ++ v → asciiAlpha c = false
  builder : ¬ s%"\\{" <+: s ∨ '|' ∉ s
  mixed : ∀ u v d, s = u ++ d :: s%"\\frac" ++ v → asciiDigit d = false
  base : ∀ u v d, s = u ++ d :: '_' :: v → asciiDigit d = false
  commas : ¬ s%"\\," <:+: s ∧ ¬ s%"{,}" <:+: s

namespace Clear
variable {s : Str} (h : Clear s)
include h

theorem no {x : Char} (hx : x.toNat < 33 ∨ 127 ≤ x.toNat ∨ asciiUpper x = true ∨ x ∈ s%"$%:") : x ∉ s := by
  intro hm
  obtain ⟨h1, h2, h3, h4⟩ := h.chars x hm
  rcases hx with hx | hx | hx | hx
  · omega
  · omega
  · rw [h3] at hx; cases hx
  · exact h4 hx

theorem absent {x : Char} {p : Str} (hp : x ∈ p) (hx : x.toNat < 33 ∨ 127 ≤ x.toNat ∨ asciiUpper x = true ∨ x ∈ s%"$%:") :
    ¬ p <:+: s := not_infix_of_not_mem x hp (h.no hx)

theorem noBlank : ' ' ∉ s := h.no (by decide)

theorem word {p q : Str} (hp : p ∈ clearSpecial) (hq : p <:+: q) : ¬ q <:+: s := fun hi => h.words p hp (hq.trans hi)

theorem noControl : noControl s := by
  intro c hc hm
  have := (h.chars c hc).1
  simp only [List.mem_cons, List.not_mem_nil, or_false] at hm
  omega

theorem digit {U : Uni} {c : Char} (hc : c ∈ s) (hd : isDigit U c = true) : asciiDigit c = true := by
  have := h.chars c hc
  unfold isDigit at hd
  rwa [if_pos (by omega)] at hd

theorem space {c : Char} (hc : c ∈ s) : isSpace c = false := by
  have := h.chars c hc
  simp only [isSpace]
  simp
  omega

theorem member : memberStep s = s := by
  apply reSubConst_of_lang
  rintro u ⟨a, u', rfl, ha, b, c', rfl, hb, hc⟩ hi
  obtain ⟨hne, hl⟩ := lang_plus_chr (p := asciiAlpha) ha
  have hb0 : b = [] := by
    have := lang_star_chr (p := isSpace) hb
    cases b with
    | nil => rfl
    | cons x xs =>
      have := h.space (c := x) (hi.subset (by simp))
      rw [lang_star_chr (p := isSpace) hb x (by simp)] at this
      cases this
  subst hb0
  have hc := lang_lit.1 hc
  subst hc
  obtain ⟨l, r, hlr⟩ := hi
  obtain ⟨d, hlast⟩ : ∃ d, a.getLast? = some d := by
    cases hl : a.getLast? with
    | none => exact absurd (List.getLast?_eq_none_iff.1 hl) hne
    | some d => exact ⟨d, rfl⟩
  obtain ⟨i, hi⟩ := List.getLast?_eq_some_iff.1 hlast
  have := h.letter (l ++ i) r d (by rw [← hlr, hi]; simp)
  rw [hl d (List.mem_of_getLast? hlast)] at this
  cases this

theorem andOr : andOrStep s = s := by
  apply reSubConst_of_lang
  rintro u ⟨x, y, rfl, _, x', z, rfl, _, hz⟩ hi
  have hi' : z <:+: s := List.IsInfix.trans ⟨x ++ x', [], by simp⟩ hi
  rcases hz with hz | hz
  · obtain ⟨a, v, b, rfl, hv⟩ := lang_cat_mem (r := lit s%"\\text{") (by simp) hz
    rw [lang_lit.1 hv] at hi'
    exact h.word (p := s%"text") (by decide) ⟨s%"\\", s%"{", rfl⟩ (List.IsInfix.trans ⟨a, b, rfl⟩ hi')
  · obtain ⟨a, v, b, rfl, hv⟩ := lang_cat_mem (r := c ' ') (by simp) hz
    rw [lang_c.1 hv] at hi'
    exact h.noBlank (hi'.subset (by simp))

theorem leftRight : leftRight s = s := by
  unfold Verif.leftRight
  simp only [reSubConst_lit]
  rw [replace_id s%"\\left(" _ _ (h.words _ (by decide)), replace_id s%"\\left[" _ _ (h.words _ (by decide)),
    replace_id s%"\\right)" _ _ (h.words _ (by decide)), replace_id s%"\\right]" _ _ (h.words _ (by decide))]

theorem middle : middle s = s := by
  unfold Verif.middle
  rw [removeDollar_id (h.no (by decide)), h.andOr, wordsAndControls_id (h.words _ (by decide)) h.noControl, h.leftRight, h.member]

/-- A word of `[ap]\.?m\.?` in lower case. -/
theorem meridiem (hw : ∀ p ∈ [s%"am", s%"pm", s%"a.m", s%"p.m"], ¬ p <:+: s) {u : Str} (hu : meridiemAlt.Lang u) : ¬ u <:+: s := by
  have ciC : ∀ (x : Char) (v : Str), (ci x).Lang v → v <:+: s → v = [x] := by
    rintro x v ⟨y, rfl, hy⟩ hi
    have hm : y ∈ s := hi.subset (by simp)
    simp only [asciiToLower, (h.chars y hm).2.2.1, Bool.false_eq_true, if_false, beq_iff_eq] at hy
    rw [hy]
  have key : ∀ v, meridiemRe.Lang v → ¬ v <:+: s := by
    rintro v ⟨a, b, rfl, ⟨y, rfl, hy⟩, b1, b2, rfl, hb1, b3, b4, rfl, hb3, _⟩ hi
    have hm : y ∈ s := hi.subset (by simp)
    simp only [asciiToLower, (h.chars y hm).2.2.1, Bool.false_eq_true, if_false, Bool.or_eq_true, beq_iff_eq] at hy
    have h3 := ciC 'm' b3 hb3 (List.IsInfix.trans ⟨[y] ++ b1, b4, by simp⟩ hi)
    subst h3
    have hb : b1 = [] ∨ b1 = s%"." := by
      rcases hb1 with hb1 | hb1
      · exact .inr (lang_c.1 hb1)
      · exact .inl hb1
    have hi' : [y] ++ b1 ++ s%"m" <:+: s := List.IsInfix.trans ⟨[], b4, by simp⟩ hi
    rcases hy with rfl | rfl <;> rcases hb with rfl | rfl
    · exact hw s%"am" (by decide) hi'
    · exact hw s%"a.m" (by decide) hi'
    · exact hw s%"pm" (by decide) hi'
    · exact hw s%"p.m" (by decide) hi'
  rcases hu with hu | hu
  · obtain ⟨a, v, b, rfl, hv⟩ := lang_cat_mem (r := meridiemRe) (by simp) hu
    exact fun hi => key v hv (List.IsInfix.trans ⟨a, b, rfl⟩ hi)
  · exact key u hu

theorem time {U : Uni} : strToTimeList U s = .str s := by
  refine time_id ?_ (h.no (by decide))
  rcases h.clock with hw | hd
  · unfold timeRe1
    exact reSearch_none_of_part (r := grp 2 meridiemAlt) (by simp) fun u hu => h.meridiem hw hu
  · cases hm : reSearch (timeRe1 U) s with
    | none => rfl
    | some t =>
      obtain ⟨u, hu, hl⟩ := reSearch_bos_lang hm
      obtain ⟨x, y, rfl, ⟨x1, x2, rfl, ⟨d, rfl, hd'⟩, _⟩, _⟩ := lang_cat_cons.1 hl
      have hc : d ∈ s := by rw [hu]; simp
      have := hd d (by rw [hu]; simp)
      rw [h.digit hc hd'] at this
      cases this

omit h in
theorem units_listed : ∀ u ∈ unitLong, '.' ∉ u ∧ (u ∈ clearSpecial ∨ ∃ x ∈ u, 127 ≤ x.toNat) := by decide +kernel

theorem unitsStep {U : Uni} : unitsStep U s = s := by
  have h1 : ¬ s%"text" <:+: s := h.words _ (by decide)
  have h2 : ¬ s%"mbox" <:+: s := h.words _ (by decide)
  unfold Verif.unitsStep
  rw [textUnits_id (.inr ⟨h1, h2⟩), anyText_id (h.word (p := s%"text") (by decide) ⟨[], s%"{", rfl⟩)]
  unfold bareUnits
  rw [foldl_id (fun s u => reSubConst (longUnitRe U u) [] s) unitLong s]
  · apply foldl_id
    intro u hm
    refine reSubConst_id_of_part (r := plus (c ' ')) (by simp) ?_
    rintro w ⟨a, b, rfl, ha, _⟩ hi
    rw [lang_c.1 ha] at hi
    exact h.noBlank (hi.subset (by simp))
  · intro u hm
    refine reSubConst_id_of_part (r := unitRe u) (by simp) ?_
    intro w hw hi
    obtain ⟨hd, hu⟩ := units_listed u hm
    rw [unitRe_lit hd, lang_lit] at hw
    subst hw
    rcases hu with hu | ⟨x, hx, hx'⟩
    · exact h.words _ hu hi
    · exact h.absent hx (.inr (.inl hx')) hi

theorem removeSpacing : removeSpacing s = s :=
  removeSpacing_id (h.absent (x := ':') (by simp) (by decide)) h.commas.1 (h.words _ (by decide)) (h.words _ (by decide)) h.commas.2

theorem baseReadings {U : Uni} : baseReadings U s = none := by
  have : reSearch (baseRe U) s = none := by
    unfold baseRe
    refine reSearch_of_lang ?_
    rintro u ⟨a0, u', rfl, _, a, u'', rfl, ha, b, c', rfl, hb, _⟩ hi
    obtain ⟨hne, hd⟩ := lang_plus_chr (p := isDigit U) ha
    rw [lang_c.1 hb] at hi
    obtain ⟨l, r, hlr⟩ := hi
    obtain ⟨d, hlast⟩ : ∃ d, a.getLast? = some d := by
      cases hl : a.getLast? with
      | none => exact absurd (List.getLast?_eq_none_iff.1 hl) hne
      | some d => exact ⟨d, rfl⟩
    have hmem : d ∈ a := List.mem_of_getLast? hlast
    obtain ⟨i, hi⟩ : ∃ i, a = i ++ [d] := by
      obtain ⟨i, hi⟩ := List.getLast?_eq_some_iff.1 hlast
      exact ⟨i, hi⟩
    have hs : s = (l ++ a0 ++ i) ++ d :: '_' :: (c' ++ r) := by rw [← hlr, hi]; simp
    have hms : d ∈ s := by rw [hs]; simp
    have := h.base _ _ d hs
    rw [h.digit hms (hd d hmem)] at this
    cases this
  unfold Verif.baseReadings
  rw [this]

theorem setBuilder : reSearch setBuilderRe s = none := by
  cases hm : reSearch setBuilderRe s with
  | none => rfl
  | some t =>
    obtain ⟨u, hu, hl⟩ := reSearch_bos_lang hm
    obtain ⟨x, y, rfl, hx, _, _, rfl, -, _, _, rfl, hb, -⟩ := lang_cat_cons.1 hl
    rw [lang_lit.1 hx] at hu
    rcases h.builder with hn | hn
    · exact absurd ⟨_, by rw [hu, List.append_assoc]⟩ hn
    · rw [lang_c.1 hb] at hu
      exact absurd (by rw [hu]; simp) hn

theorem latexReplace : latexReplace s = s := by
  have hu : ∀ x : Char, 127 ≤ x.toNat → ∀ new, replace [x] new s = s := fun x hx new =>
    replace_id _ _ _ (h.absent (x := x) (by simp) (.inr (.inl hx)))
  unfold Verif.latexReplace
  rw [replace_id s%"\\tfrac" _ _ (h.words _ (by decide)), replace_id s%"\\cfrac" _ _ (h.words _ (by decide)),
    replace_id s%"\\dfrac" _ _ (h.words _ (by decide)),
    hu '√' (by decide), hu 'π' (by decide), hu '∞' (by decide), hu '∪' (by decide), hu '·' (by decide), hu '×' (by decide)]

theorem injectMixed {U : Uni} : injectMixed U s = s := by
  rw [Verif.injectMixed]
  have e1 : ∀ f, reSub (mixedRe1 U) f s = s := by
    intro f
    refine reSub_id_of_part (r := plus (c ' ')) (by simp) ?_
    rintro u ⟨a, b, rfl, ha, _⟩ hi
    rw [lang_c.1 ha] at hi
    exact h.noBlank (hi.subset (by simp))
  have e2 : ∀ f, reSub (mixedRe2 U) f s = s := by
    intro f
    apply reSub_of_lang
    rintro u ⟨a, u', rfl, ha, b, c', rfl, hb, hc⟩ hi
    obtain ⟨hne, hd⟩ := lang_plus_chr (p := isDigit U) ha
    have hb0 : b = [] := by
      have := lang_star_chr (p := (· == ' ')) hb
      cases b with
      | nil => rfl
      | cons x xs =>
        have hx := this x (by simp)
        rw [beq_iff_eq] at hx
        subst hx
        exact absurd (hi.subset (by simp)) h.noBlank
    subst hb0
    obtain ⟨c1, c2, rfl, hc1, _⟩ := lang_cat_cons.1 hc
    rw [lang_lit.1 hc1] at hi
    obtain ⟨l, r, hlr⟩ := hi
    obtain ⟨d, hlast⟩ : ∃ d, a.getLast? = some d := by
      cases hl : a.getLast? with
      | none => exact absurd (List.getLast?_eq_none_iff.1 hl) hne
      | some d => exact ⟨d, rfl⟩
    have hmem : d ∈ a := List.mem_of_getLast? hlast
    obtain ⟨i, hi⟩ : ∃ i, a = i ++ [d] := by
      obtain ⟨i, hi⟩ := List.getLast?_eq_some_iff.1 hlast
      exact ⟨i, hi⟩
    have hs : s = (l ++ i) ++ d :: s%"\\frac" ++ (c2 ++ r) := by rw [← hlr, hi]; simp
    have hms : d ∈ s := by rw [hs]; simp
    have := h.mixed _ _ d hs
    rw [h.digit hms (hd d hmem)] at this
    cases this
  simp only [e1, e2]

theorem furtherPure {U : Uni} (h0 : s.head? ≠ some '{') (hc : canonFloat U s = s) : furtherPure U s = s := by
  have hp : (if contains s%"\\" s = true then parseLatexStr s else s) = s := by
    split
    · rw [parseLatexStr_eq, h.latexReplace]
      exact strip_of_no_space _ fun c hc => h.space hc
    · rfl
  unfold Verif.furtherPure
  simp only [stripBraces_id h0, hc, hp]
  rw [dash_id _ h.noBlank, h.injectMixed, replace_id _ _ _ (not_infix_of_not_mem ' ' (by simp) h.noBlank)]
  apply lower_id
  intro c hc'
  exact ⟨by have := h.chars c hc'; omega, (h.chars c hc').2.2.1⟩

/-- Everything before the last stage leaves the text as it is. -/
theorem normBody (E : Env X V S) (rec : Str → M X Norm) : normBody E rec s = (do let a ← further E s; pure (.str a)) := by
  have hm : matrixNormalize (stripBlank s) = s := by
    rw [stripBlank_noblank h.noBlank]
    rcases h.slashes with h1 | ⟨h1, h2, h3⟩
    · rw [matrixNormalize_id (h.words _ (by decide)) (h.words _ (by decide)) h1]
    · unfold matrixNormalize
      rw [(contains_eq_false _ _).2 (h.words s%"{cases}" (by decide))]
      simp only [Bool.false_eq_true, if_false]
      rw [(contains_eq_false _ _).2 (h.words s%"{array}" (by decide))]
      simp only [Bool.false_eq_true, if_false]
      rw [(contains_eq_false _ _).2 h1, (contains_iff _ _).2 h2, (contains_iff _ _).2 h3]
      simp
  have ht : reSearch textRe s = none := textRe_none' (h.words _ (by decide)) (h.words _ (by decide))
  unfold Verif.normBody
  simp only [hm, ht, h.setBuilder]
  unfold normTail
  simp only [h.removeSpacing, h.baseReadings, percentStep_id (U := E.U) (h.no (x := '%') (by decide)), h.middle, h.time, h.unitsStep]
  rw [degrees_none E (h.words _ (by decide))]

/-- The text is its own normal form, unless it reads as an integer. -/
theorem fixed (E : Env X V S) (n : Nat) (h0 : s.head? ≠ some '{') (hf : ∀ x, pyFloat E.U s = some x → isIntFloat x = false)
    (h2 : strIsInt E.U s = false) : Always (stringNormalize E (n + 1) s) (.str s) := by
  have h1 : canonFloat E.U s = s := by
    unfold canonFloat
    cases hp : pyFloat E.U s with
    | none => rfl
    | some x => simp [hf x hp]
  apply always_normalize
  rw [h.normBody]
  unfold further
  rw [h.furtherPure h0 h1, canonInt_id E h2]
  exact Always.bind (Always.pure _) (Always.pure _)

end Clear

namespace Neat
variable {s : Str} (h : Neat s)
include h

theorem clear : Clear s where
  chars := h.chars
  words p hp := h.words p (List.mem_append_right _ hp)
  slashes := .inl (h.words _ (by decide))
  clock := .inl fun p hp => h.words p (List.mem_append_left _ (List.mem_cons_of_mem _ (List.mem_append_left [s%"\\in"] hp)))
  letter u v c e := absurd ⟨u ++ [c], v, by rw [e]; simp⟩ (h.words s%"\\in" (by decide))
  builder := .inl h.head.2
  mixed := h.mixed
  base := h.base
  commas := h.commas

theorem digit {U : Uni} {c : Char} (hc : c ∈ s) (hd : isDigit U c = true) : asciiDigit c = true := h.clear.digit hc hd

theorem space {c : Char} (hc : c ∈ s) : isSpace c = false := h.clear.space hc

/-- The text is its own normal form, unless it reads as an integer. -/
theorem fixed (E : Env X V S) (n : Nat) (hf : ∀ x, pyFloat E.U s = some x → isIntFloat x = false) (h2 : strIsInt E.U s = false) :
    Always (stringNormalize E (n + 1) s) (.str s) := h.clear.fixed E n h.head.1 hf h2

end Neat

namespace Tidy
variable {s : Str} (h : Tidy s)
include h

theorem noComma : ',' ∉ s := fun hm => (h.chars _ hm).2.2.2 (by decide)

theorem neat : Neat s where
  chars c hc := by
    obtain ⟨h1, h2, h3, h4⟩ := h.chars c hc
    exact ⟨h1, h2, h3, fun hm => h4 (List.mem_append_left s%"," hm)⟩
  words := h.words
  head := h.head
  mixed := h.mixed
  base := h.base
  commas := ⟨not_infix_of_not_mem ',' (by simp) h.noComma, not_infix_of_not_mem ',' (by simp) h.noComma⟩

theorem space {c : Char} (hc : c ∈ s) : isSpace c = false := h.neat.space hc

/-- The text is its own normal form, unless it reads as an integer. -/
theorem fixed (E : Env X V S) (n : Nat) (hf : ∀ x, pyFloat E.U s = some x → isIntFloat x = false) :
    Always (stringNormalize E (n + 1) s) (.str s) := by
  refine h.neat.fixed E n hf ?_
  unfold strIsInt
  rw [stripCommas_nocomma h.noComma]
  cases hp : pyFloat E.U s with
  | none => rfl
  | some x => exact hf x hp

end Tidy

/-! ### Deciding it -/

/-- no digit directly before the word -/
def noDigitBefore (p : Str) : Str → Bool
  | [] => true
  | d :: s => !(asciiDigit d && p.isPrefixOf s) && noDigitBefore p s

theorem noDigitBefore_spec {p s : Str} (h : noDigitBefore p s = true) {u v : Str} {d : Char} (e : s = u ++ d :: p ++ v) :
    asciiDigit d = false := by
  induction u generalizing s with
  | nil =>
    subst e
    simp only [noDigitBefore, List.nil_append, List.cons_append, Bool.and_eq_true] at h
    cases hd : asciiDigit d with
    | false => rfl
    | true =>
      have : p.isPrefixOf (p ++ v) = true := List.isPrefixOf_iff_prefix.2 ⟨v, rfl⟩
      simp [hd, this] at h
  | cons x u ih =>
    subst e
    simp only [noDigitBefore, List.cons_append, Bool.and_eq_true] at h
    exact ih h.2 rfl

def tidyB (s : Str) : Bool :=
  s.all (fun c => decide (33 ≤ c.toNat) && decide (c.toNat < 127) && !asciiUpper c && !(s%"$%:,").contains c) &&
    tidySpecial.all (fun p => !contains p s) && !(s.head? == some '{') && !(s%"\\{").isPrefixOf s &&
    noDigitBefore s%"\\frac" s && noDigitBefore s%"_" s

theorem tidyB_sound {s : Str} (h : tidyB s = true) : Tidy s := by
  simp only [tidyB, Bool.and_eq_true, List.all_eq_true, decide_eq_true_eq, Bool.not_eq_true'] at h
  obtain ⟨⟨⟨⟨⟨h1, h2⟩, h3⟩, h4⟩, h5⟩, h6⟩ := h
  refine ⟨fun c hc => ?_, fun p hp => (contains_eq_false p s).1 (h2 p hp), ⟨by simpa using h3, ?_⟩, ?_, ?_⟩
  · obtain ⟨⟨⟨a, b⟩, c'⟩, d⟩ := h1 c hc
    exact ⟨a, b, c', fun hm => by rw [List.contains_iff_mem.2 hm] at d; cases d⟩
  · intro hp
    rw [List.isPrefixOf_iff_prefix.2 hp] at h4
    cases h4
  · intro u v d e; exact noDigitBefore_spec h5 e
  · intro u v d e; exact noDigitBefore_spec h6 (v := v) (by simpa using e)

example : Tidy s%"\\frac{1}{2}\\cdot\\sqrt{2}+\\sin(\\frac{\\pi}{6})-\\log_{2}8" := tidyB_sound (by decide +kernel)
example : ¬ Tidy s%"2\\frac{1}{2}" := fun h => by have := h.mixed [] s%"{1}{2}" '2' rfl; revert this; decide

/-- **C30**, the fixed points of the normaliser: every tidy text that does not read as an integer is its own normal form, for every
environment and in every state. -/
theorem C30_tidy (E : Env X V S) (n : Nat) {s : Str} (h : Tidy s) (hf : ∀ x, pyFloat E.U s = some x → isIntFloat x = false) :
    Always (stringNormalize E (n + 1) s) (.str s) := h.fixed E n hf

end Verif
