import Verif.Props.Clock
import Verif.Props.Bounds
import Verif.Props.Transpose
/-
Letters are not told apart by case: answers that differ only in case are judged equivalent (C128).
-/

namespace Verif
open Re

variable {X V S : Type}

/-! ### Specification -/

/-- Answers in LaTeX notation, with capitals and with double backslashes in matrices: printable ASCII characters except blanks and
`$ % :`; none of the words with a meaning to the normaliser; not beginning with a brace; no time of day. -/
structure Cased (s : Str) : Prop where
  chars : ∀ c ∈ s, 33 ≤ c.toNat ∧ c.toNat < 127 ∧ c ∉ s%"$%:"
  words : ∀ p ∈ clearSpecial, ¬ p <:+: s
  slashes : ¬ s%"\\\\" <:+: s ∨ (¬ s%"\\\\begin" <:+: s ∧ s%"\\begin" <:+: s ∧ s%"matrix" <:+: s)
  clock : (∀ p ∈ [s%"am", s%"pm", s%"a.m", s%"p.m"], ¬ p <:+: s.map asciiToLower) ∨ ∀ c, s.head? = some c → asciiDigit c = false
  letter : ∀ u v c, s = u ++ c :: s%"\\in" ++ v → asciiAlpha c = false
  head : s.head? ≠ some '{'
  builder : ¬ s%"\\{" <+: s ∨ '|' ∉ s
  mixed : ∀ u v d, s = u ++ d :: s%"\\frac" ++ v → asciiDigit d = false
  base : ∀ u v d, s = u ++ d :: '_' :: v → asciiDigit d = false
  commas : ¬ s%"\\," <:+: s ∧ ¬ s%"{,}" <:+: s

/-! ### Proofs -/

namespace Cased
variable {s : Str} (h : Cased s)
include h

theorem no {x : Char} (hx : x.toNat < 33 ∨ 127 ≤ x.toNat ∨ x ∈ s%"$%:") : x ∉ s := by
  intro hm
  obtain ⟨h1, h2, h4⟩ := h.chars x hm
  rcases hx with hx | hx | hx
  · omega
  · omega
  · exact h4 hx

theorem absent {x : Char} {p : Str} (hp : x ∈ p) (hx : x.toNat < 33 ∨ 127 ≤ x.toNat ∨ x ∈ s%"$%:") :
    ¬ p <:+: s := not_infix_of_not_mem x hp (h.no hx)

theorem noBlank : ' ' ∉ s := h.no (by decide)

theorem word {p q : Str} (hp : p ∈ clearSpecial) (hq : p <:+: q) : ¬ q <:+: s := fun hi => h.words p hp (hq.trans hi)

theorem noControl : noControl s := by
  intro c hc hm
  have := (h.chars c hc).1
  simp only [List.mem_cons, List.not_mem_nil, or_false] at hm
  omega

theorem digit {U : Uni} {c : Char} (hc : c ∈ s) (hd : isDigit U c = true) : asciiDigit c = true := by
  have := h.chars c hc
  unfold isDigit at hd
  rwa [if_pos (by omega)] at hd

theorem space {c : Char} (hc : c ∈ s) : isSpace c = false := by
  have := h.chars c hc
  simp only [isSpace]
  simp
  omega

theorem member : memberStep s = s := by
  apply reSubConst_of_lang
  rintro u ⟨a, u', rfl, ha, b, c', rfl, hb, hc⟩ hi
  obtain ⟨hne, hl⟩ := lang_plus_chr (p := asciiAlpha) ha
  have hb0 : b = [] := by
    have := lang_star_chr (p := isSpace) hb
    cases b with
    | nil => rfl
    | cons x xs =>
      have := h.space (c := x) (hi.subset (by simp))
      rw [lang_star_chr (p := isSpace) hb x (by simp)] at this
      cases this
  subst hb0
  have hc := lang_lit.1 hc
  subst hc
  obtain ⟨l, r, hlr⟩ := hi
  obtain ⟨d, hlast⟩ : ∃ d, a.getLast? = some d := by
    cases hl : a.getLast? with
    | none => exact absurd (List.getLast?_eq_none_iff.1 hl) hne
    | some d => exact ⟨d, rfl⟩
  obtain ⟨i, hi⟩ := List.getLast?_eq_some_iff.1 hlast
  have := h.letter (l ++ i) r d (by rw [← hlr, hi]; simp)
  rw [hl d (List.mem_of_getLast? hlast)] at this
  cases this

theorem andOr : andOrStep s = s := by
  apply reSubConst_of_lang
  rintro u ⟨x, y, rfl, _, x', z, rfl, _, hz⟩ hi
  have hi' : z <:+: s := List.IsInfix.trans ⟨x ++ x', [], by simp⟩ hi
  rcases hz with hz | hz
  · obtain ⟨a, v, b, rfl, hv⟩ := lang_cat_mem (r := lit s%"\\text{") (by simp) hz
    rw [lang_lit.1 hv] at hi'
    exact h.word (p := s%"text") (by decide) ⟨s%"\\", s%"{", rfl⟩ (List.IsInfix.trans ⟨a, b, rfl⟩ hi')
  · obtain ⟨a, v, b, rfl, hv⟩ := lang_cat_mem (r := c ' ') (by simp) hz
    rw [lang_c.1 hv] at hi'
    exact h.noBlank (hi'.subset (by simp))

theorem leftRight : leftRight s = s := by
  unfold Verif.leftRight
  simp only [reSubConst_lit]
  rw [replace_id s%"\\left(" _ _ (h.words _ (by decide)), replace_id s%"\\left[" _ _ (h.words _ (by decide)),
    replace_id s%"\\right)" _ _ (h.words _ (by decide)), replace_id s%"\\right]" _ _ (h.words _ (by decide))]

theorem middle : middle s = s := by
  unfold Verif.middle
  rw [removeDollar_id (h.no (by decide)), h.andOr, wordsAndControls_id (h.words _ (by decide)) h.noControl, h.leftRight, h.member]

omit h in
/-- A word of `[ap]\.?m\.?`. -/
theorem meridiem (hw : ∀ p ∈ [s%"am", s%"pm", s%"a.m", s%"p.m"], ¬ p <:+: s.map asciiToLower) {u : Str} (hu : meridiemAlt.Lang u) :
    ¬ u <:+: s := by
  have key : ∀ v, meridiemRe.Lang v → ¬ v <:+: s := by
    rintro v ⟨a, b, rfl, ⟨y, rfl, hy⟩, b1, b2, rfl, hb1, b3, b4, rfl, ⟨z, rfl, hz⟩, _⟩ hi
    simp only [Bool.or_eq_true, beq_iff_eq] at hy hz
    have hb : b1 = [] ∨ b1 = s%"." := by
      rcases hb1 with hb1 | hb1
      · exact .inr (lang_c.1 hb1)
      · exact .inl hb1
    have hi' : ([y] ++ b1 ++ [z]).map asciiToLower <:+: s.map asciiToLower :=
      (List.IsInfix.trans (l₂ := [y] ++ (b1 ++ ([z] ++ b4))) ⟨[], b4, by simp⟩ hi).map _
    have hd : asciiToLower '.' = '.' := by decide
    rcases hy with hy | hy <;> rcases hb with rfl | rfl <;>
      simp only [List.map_cons, List.map_nil, hy, hz, hd, List.cons_append, List.nil_append] at hi'
    · exact hw s%"am" (by decide) hi'
    · exact hw s%"a.m" (by decide) hi'
    · exact hw s%"pm" (by decide) hi'
    · exact hw s%"p.m" (by decide) hi'
  rcases hu with hu | hu
  · obtain ⟨a, v, b, rfl, hv⟩ := lang_cat_mem (r := meridiemRe) (by simp) hu
    exact fun hi => key v hv (List.IsInfix.trans ⟨a, b, rfl⟩ hi)
  · exact key u hu

theorem time {U : Uni} : strToTimeList U s = .str s := by
  refine time_id ?_ (h.no (by decide))
  rcases h.clock with hw | hd
  · unfold timeRe1
    exact reSearch_none_of_part (r := grp 2 meridiemAlt) (by simp) fun u hu => Cased.meridiem hw hu
  · cases hm : reSearch (timeRe1 U) s with
    | none => rfl
    | some t =>
      obtain ⟨u, hu, hl⟩ := reSearch_bos_lang hm
      obtain ⟨x, y, rfl, ⟨x1, x2, rfl, ⟨d, rfl, hd'⟩, _⟩, _⟩ := lang_cat_cons.1 hl
      have hc : d ∈ s := by rw [hu]; simp
      have := hd d (by rw [hu]; simp)
      rw [h.digit hc hd'] at this
      cases this

theorem unitsStep {U : Uni} : unitsStep U s = s := by
  have h1 : ¬ s%"text" <:+: s := h.words _ (by decide)
  have h2 : ¬ s%"mbox" <:+: s := h.words _ (by decide)
  unfold Verif.unitsStep
  rw [textUnits_id (.inr ⟨h1, h2⟩), anyText_id (h.word (p := s%"text") (by decide) ⟨[], s%"{", rfl⟩)]
  unfold bareUnits
  rw [foldl_id (fun s u => reSubConst (longUnitRe U u) [] s) unitLong s]
  · apply foldl_id
    intro u hm
    refine reSubConst_id_of_part (r := plus (c ' ')) (by simp) ?_
    rintro w ⟨a, b, rfl, ha, _⟩ hi
    rw [lang_c.1 ha] at hi
    exact h.noBlank (hi.subset (by simp))
  · intro u hm
    refine reSubConst_id_of_part (r := unitRe u) (by simp) ?_
    intro w hw hi
    obtain ⟨hd, hu⟩ := Clear.units_listed u hm
    rw [unitRe_lit hd, lang_lit] at hw
    subst hw
    rcases hu with hu | ⟨x, hx, hx'⟩
    · exact h.words _ hu hi
    · exact h.absent hx (.inr (.inl hx')) hi

theorem removeSpacing : removeSpacing s = s :=
  removeSpacing_id (h.absent (x := ':') (by simp) (by decide)) h.commas.1 (h.words _ (by decide)) (h.words _ (by decide)) h.commas.2

theorem baseReadings {U : Uni} : baseReadings U s = none := by
  have : reSearch (baseRe U) s = none := by
    unfold baseRe
    refine reSearch_of_lang ?_
    rintro u ⟨a0, u', rfl, _, a, u'', rfl, ha, b, c', rfl, hb, _⟩ hi
    obtain ⟨hne, hd⟩ := lang_plus_chr (p := isDigit U) ha
    rw [lang_c.1 hb] at hi
    obtain ⟨l, r, hlr⟩ := hi
    obtain ⟨d, hlast⟩ : ∃ d, a.getLast? = some d := by
      cases hl : a.getLast? with
      | none => exact absurd (List.getLast?_eq_none_iff.1 hl) hne
      | some d => exact ⟨d, rfl⟩
    have hmem : d ∈ a := List.mem_of_getLast? hlast
    obtain ⟨i, hi⟩ : ∃ i, a = i ++ [d] := by
      obtain ⟨i, hi⟩ := List.getLast?_eq_some_iff.1 hlast
      exact ⟨i, hi⟩
    have hs : s = (l ++ a0 ++ i) ++ d :: '_' :: (c' ++ r) := by rw [← hlr, hi]; simp
    have hms : d ∈ s := by rw [hs]; simp
    have := h.base _ _ d hs
    rw [h.digit hms (hd d hmem)] at this
    cases this
  unfold Verif.baseReadings
  rw [this]

theorem setBuilder : reSearch setBuilderRe s = none := by
  cases hm : reSearch setBuilderRe s with
  | none => rfl
  | some t =>
    obtain ⟨u, hu, hl⟩ := reSearch_bos_lang hm
    obtain ⟨x, y, rfl, hx, _, _, rfl, -, _, _, rfl, hb, -⟩ := lang_cat_cons.1 hl
    rw [lang_lit.1 hx] at hu
    rcases h.builder with hn | hn
    · exact absurd ⟨_, by rw [hu, List.append_assoc]⟩ hn
    · rw [lang_c.1 hb] at hu
      exact absurd (by rw [hu]; simp) hn

theorem latexReplace : latexReplace s = s := by
  have hu : ∀ x : Char, 127 ≤ x.toNat → ∀ new, replace [x] new s = s := fun x hx new =>
    replace_id _ _ _ (h.absent (x := x) (by simp) (.inr (.inl hx)))
  unfold Verif.latexReplace
  rw [replace_id s%"\\tfrac" _ _ (h.words _ (by decide)), replace_id s%"\\cfrac" _ _ (h.words _ (by decide)),
    replace_id s%"\\dfrac" _ _ (h.words _ (by decide)),
    hu '√' (by decide), hu 'π' (by decide), hu '∞' (by decide), hu '∪' (by decide), hu '·' (by decide), hu '×' (by decide)]

theorem injectMixed {U : Uni} : injectMixed U s = s := by
  rw [Verif.injectMixed]
  have e1 : ∀ f, reSub (mixedRe1 U) f s = s := by
    intro f
    refine reSub_id_of_part (r := plus (c ' ')) (by simp) ?_
    rintro u ⟨a, b, rfl, ha, _⟩ hi
    rw [lang_c.1 ha] at hi
    exact h.noBlank (hi.subset (by simp))
  have e2 : ∀ f, reSub (mixedRe2 U) f s = s := by
    intro f
    apply reSub_of_lang
    rintro u ⟨a, u', rfl, ha, b, c', rfl, hb, hc⟩ hi
    obtain ⟨hne, hd⟩ := lang_plus_chr (p := isDigit U) ha
    have hb0 : b = [] := by
      have := lang_star_chr (p := (· == ' ')) hb
      cases b with
      | nil => rfl
      | cons x xs =>
        have hx := this x (by simp)
        rw [beq_iff_eq] at hx
        subst hx
        exact absurd (hi.subset (by simp)) h.noBlank
    subst hb0
    obtain ⟨c1, c2, rfl, hc1, _⟩ := lang_cat_cons.1 hc
    rw [lang_lit.1 hc1] at hi
    obtain ⟨l, r, hlr⟩ := hi
    obtain ⟨d, hlast⟩ : ∃ d, a.getLast? = some d := by
      cases hl : a.getLast? with
      | none => exact absurd (List.getLast?_eq_none_iff.1 hl) hne
      | some d => exact ⟨d, rfl⟩
    have hmem : d ∈ a := List.mem_of_getLast? hlast
    obtain ⟨i, hi⟩ : ∃ i, a = i ++ [d] := by
      obtain ⟨i, hi⟩ := List.getLast?_eq_some_iff.1 hlast
      exact ⟨i, hi⟩
    have hs : s = (l ++ i) ++ d :: s%"\\frac" ++ (c2 ++ r) := by rw [← hlr, hi]; simp
    have hms : d ∈ s := by rw [hs]; simp
    have := h.mixed _ _ d hs
    rw [h.digit hms (hd d hmem)] at this
    cases this
  simp only [e1, e2]

theorem furtherPure {U : Uni} (h0 : s.head? ≠ some '{') (hc : canonFloat U s = s) : furtherPure U s = s.map asciiToLower := by
  have hp : (if contains s%"\\" s = true then parseLatexStr s else s) = s := by
    split
    · rw [parseLatexStr_eq, h.latexReplace]
      exact strip_of_no_space _ fun c hc => h.space hc
    · rfl
  unfold Verif.furtherPure
  simp only [stripBraces_id h0, hc, hp]
  rw [dash_id _ h.noBlank, h.injectMixed, replace_id _ _ _ (not_infix_of_not_mem ' ' (by simp) h.noBlank)]
  exact lower_ascii U [] s fun c hc' => by have := h.chars c hc'; omega

/-- Everything before the last stage leaves the text as it is. -/
theorem normBody (E : Env X V S) (rec : Str → M X Norm) : normBody E rec s = (do let a ← further E s; pure (.str a)) := by
  have hm : matrixNormalize (stripBlank s) = s := by
    rw [stripBlank_noblank h.noBlank]
    rcases h.slashes with h1 | ⟨h1, h2, h3⟩
    · rw [matrixNormalize_id (h.words _ (by decide)) (h.words _ (by decide)) h1]
    · unfold matrixNormalize
      rw [(contains_eq_false _ _).2 (h.words s%"{cases}" (by decide))]
      simp only [Bool.false_eq_true, if_false]
      rw [(contains_eq_false _ _).2 (h.words s%"{array}" (by decide))]
      simp only [Bool.false_eq_true, if_false]
      rw [(contains_eq_false _ _).2 h1, (contains_iff _ _).2 h2, (contains_iff _ _).2 h3]
      simp
  have ht : reSearch textRe s = none := textRe_none' (h.words _ (by decide)) (h.words _ (by decide))
  unfold Verif.normBody
  simp only [hm, ht, h.setBuilder]
  unfold normTail
  simp only [h.removeSpacing, h.baseReadings, percentStep_id (U := E.U) (h.no (x := '%') (by decide)), h.middle, h.time, h.unitsStep]
  rw [degrees_none E (h.words _ (by decide))]

/-- The normal form is the text in lower case. -/
theorem lowered (E : Env X V S) (n : Nat) (hf : ∀ x, pyFloat E.U s = some x → isIntFloat x = false)
    (h2 : strIsInt E.U (s.map asciiToLower) = false) : Always (stringNormalize E (n + 1) s) (.str (s.map asciiToLower)) := by
  have h1 : canonFloat E.U s = s := by
    unfold canonFloat
    cases hp : pyFloat E.U s with
    | none => rfl
    | some x => simp [hf x hp]
  apply always_normalize
  rw [h.normBody]
  unfold further
  rw [h.furtherPure h.head h1, canonInt_id E h2]
  exact Always.bind (Always.pure _) (Always.pure _)

end Cased


def casedB (s : Str) : Bool :=
  s.all (fun c => decide (33 ≤ c.toNat) && decide (c.toNat < 127) && !(s%"$%:").contains c) &&
    clearSpecial.all (fun p => !contains p s) && !contains s%"\\\\" s && ([s%"am", s%"pm", s%"a.m", s%"p.m"] : List Str).all
      (fun p => !contains p (s.map asciiToLower)) && !contains s%"\\in" s && !(s.head? == some '{') && !(s%"\\{").isPrefixOf s &&
    noDigitBefore s%"\\frac" s && noDigitBefore s%"_" s && !contains s%"\\," s && !contains s%"{,}" s

theorem casedB_sound {s : Str} (h : casedB s = true) : Cased s := by
  simp only [casedB, Bool.and_eq_true, List.all_eq_true, decide_eq_true_eq, Bool.not_eq_true'] at h
  obtain ⟨⟨⟨⟨⟨⟨⟨⟨⟨⟨h1, h2⟩, h3⟩, h4⟩, h5⟩, h6⟩, h7⟩, h8⟩, h9⟩, h10⟩, h11⟩ := h
  refine ⟨fun c hc => ?_, fun p hp => (contains_eq_false p s).1 (h2 p hp), .inl ((contains_eq_false _ s).1 h3),
    .inl fun p hp => (contains_eq_false p _).1 (h4 p hp), fun u v c e => ?_, by simpa using h6, .inl ?_, fun u v d e => noDigitBefore_spec h8 e,
    fun u v d e => noDigitBefore_spec h9 (v := v) (by simpa using e), (contains_eq_false _ s).1 h10, (contains_eq_false _ s).1 h11⟩
  · obtain ⟨⟨a, b⟩, d⟩ := h1 c hc
    exact ⟨a, b, fun hm => by rw [List.contains_iff_mem.2 hm] at d; cases d⟩
  · exact absurd ⟨u ++ [c], v, by rw [e]; simp⟩ ((contains_eq_false s%"\\in" s).1 h5)
  · intro hp
    rw [List.isPrefixOf_iff_prefix.2 hp] at h7
    cases h7

/-- **C128, the normal form.**  The normal form of an answer is the answer in lower case. -/
theorem C128_normal (E : Env X V S) {s : Str} (h : Cased s) (hf : ∀ x, pyFloat E.U s = some x → isIntFloat x = false)
    (hi : strIsInt E.U (s.map asciiToLower) = false) (n : Nat) : Always (stringNormalize E (n + 1) s) (.str (s.map asciiToLower)) :=
  h.lowered E n hf hi

/-- **C128.**  Answers that differ only in the case of letters are judged equivalent, whatever the CAS says. -/
theorem C128_case (E : Env X V S) {s t : Str} (hs : Cased s) (ht : Cased t) (e : s.map asciiToLower = t.map asciiToLower)
    (hf : ∀ x, pyFloat E.U s = some x → isIntFloat x = false) (hg : ∀ x, pyFloat E.U t = some x → isIntFloat x = false)
    (hi : strIsInt E.U (s.map asciiToLower) = false) (n : Nat) (verbose : Bool) :
    Always (isEquiv E (n + 2) (some s) (some t) verbose) true := by
  have h2 := ht.lowered E n hg (e ▸ hi)
  rw [← e] at h2
  exact L2S.isEquiv_common (hs.lowered E n hf hi) h2 verbose

end Verif

namespace Verif.L2S
open Verif Verif.Reading Verif.Grammar

theorem pair_of_fst {α β : Type} {p : α × β} {a : α} (h : p.1 = a) : p = (a, p.2) := by rw [← h]

theorem read_Aa : (latex2sympy textLib 1 s%"A+2a" [] startWorld).1 = .ok (.add [.sym s%"A" none, .mul [.num 2, .sym s%"a" none]]) := by
  kernel_rfl

theorem read_aA : (latex2sympy textLib 1 s%"a+2A" [] startWorld).1 = .ok (.add [.sym s%"a" none, .mul [.num 2, .sym s%"A" none]]) := by
  kernel_rfl

/-- **C128 is violated**: `A+2a` and `a+2A` are judged equivalent by every CAS, though they are different functions; and so are `\Pi` and
the number `\pi`. -/
theorem C128_refuted {X V S : Type} (E : Env X V S) (n : Nat) (verbose : Bool) :
    Always (isEquiv E (n + 2) (some s%"A+2a") (some s%"a+2A") verbose) true ∧
    Always (isEquiv E (n + 2) (some s%"\\Pi") (some s%"\\pi") verbose) true ∧
    ∀ ρ : Str → ℝ, ρ s%"A" ≠ ρ s%"a" → ∃ v v' w w', latex2sympy textLib 1 s%"A+2a" [] startWorld = (.ok v, w) ∧
      latex2sympy textLib 1 s%"a+2A" [] startWorld = (.ok v', w') ∧
      den (realInterp (fun n _ => ρ n) none) v ≠ den (realInterp (fun n _ => ρ n) none) v' := by
  refine ⟨?_, ?_, fun ρ hρ => ?_⟩
  · exact C128_case E (casedB_sound (by decide +kernel)) (casedB_sound (by decide +kernel)) (by decide)
      (fun x h => by cases h) (fun x h => by cases h) rfl n verbose
  · exact C128_case E (casedB_sound (by decide +kernel)) (casedB_sound (by decide +kernel)) (by decide)
      (fun x h => by cases h) (fun x h => by cases h) rfl n verbose
  · refine ⟨_, _, _, _, pair_of_fst read_Aa, pair_of_fst read_aA, ?_⟩
    simp [den, denSum, denProd, realInterp]
    intro h
    apply hρ
    linarith

/-- `\frac{X_{1}+Y}{2}` and `\frac{x_{1}+y}{2}` are judged equivalent. -/
example {X V S : Type} (E : Env X V S) (n : Nat) (verbose : Bool) :
    Always (isEquiv E (n + 2) (some s%"\\frac{X_{1}+Y}{2}") (some s%"\\frac{x_{1}+y}{2}") verbose) true :=
  C128_case E (casedB_sound (by decide +kernel)) (casedB_sound (by decide +kernel)) (by decide)
    (fun x h => by cases h) (fun x h => by cases h) rfl n verbose

end Verif.L2S
