import Verif.Props.AndOr
import Verif.Props.Marks
/-
Property C31: membership prefixes.
-/

namespace Verif
open Re

variable {X V S : Type}

/-! ### Leading blanks do not matter to the last stage -/

theorem reSub_cons {y : Char} {r : Re} (hl : r.Local y) {f : Str → RSt → Str} (hf : ∀ m t t', RSt.caps t = RSt.caps t' → f m t = f m t')
    {x : Char} {s : Str} (h : r.run ⟨[], x :: s, []⟩ = []) : reSub r f (x :: s) = x :: reSub r f s := by
  have hp : ∀ k pre s, scanSub (r.scanner f) k pre s = scanSub (fun _ s => r.scanner f [] s) k [] s := by
    intro k pre s
    rw [scanSub_congr _ (fun _ s => r.scanner f [] s) (fun pre s => scanner_pre hl hf pre s)]
    exact scanSub_pre (fun s => r.scanner f [] s) k pre [] s
  unfold reSub
  have hm : r.scanner f [] (x :: s) = none := by
    unfold Re.scanner Re.matchAt; rw [h]; rfl
  simp only [scanSub, hm]
  rw [hp 0 [x], hp 0 []]

theorem tidy_lead (U : Uni) (s : Str) : tidy U (' ' :: s) = tidy U s := by
  have hd : ∀ t : Str, run (grp 1 (plus (d U))) ⟨[], ' ' :: t, []⟩ = [] := by
    intro t
    have : isDigit U ' ' = false := rfl
    simp [plus, d, Re.run, this]
  unfold tidy dash
  have h1 : reSubConst (.seq (c '-') (many (c ' '))) s%"-" (' ' :: s) = ' ' :: reSubConst (.seq (c '-') (many (c ' '))) s%"-" s :=
    reSub_cons local_dash (fun _ _ _ _ => rfl) rfl
  rw [h1, injectMixed_eq, reSub_cons local_mixed1 plusSub_caps (run_cat_nil (hd _)), reSub_cons local_mixed2 plusSub_caps (run_cat_nil (hd _)),
    replace_one_nil, List.filter_cons_of_neg (by simp), injectMixed_eq, replace_one_nil]

theorem tidy_blanks (U : Uni) (k : Nat) (s : Str) : tidy U (blanks k ++ s) = tidy U s := by
  induction k with
  | zero => rfl
  | succ k ih => rw [blanks_succ, List.cons_append, tidy_lead, ih]

theorem blanks_space (k : Nat) : ∀ c ∈ blanks k, isSpace c = true := fun c hc => by rw [blanks_mem hc]; decide

theorem latexReplace_blanks (k : Nat) (s : Str) : latexReplace (blanks k ++ s) = blanks k ++ latexReplace s := by
  induction k with
  | zero => rfl
  | succ k ih =>
    rw [blanks_succ, List.cons_append, show ' ' :: (blanks k ++ s) = [] ++ ' ' :: (blanks k ++ s) from rfl, latexReplace_barrier (.inr rfl), ih]
    rfl

/-- Leading blanks do not matter to the last stage, unless they hide enclosing braces. -/
theorem furtherPure_lead {U : Uni} {s : Str} (h : s.head? ≠ some '{') (k : Nat) : furtherPure U (blanks k ++ s) = furtherPure U s := by
  have b1 : stripBraces s = s := by
    unfold stripBraces; rw [if_neg]; simp [h]
  have b2 : stripBraces (blanks k ++ s) = blanks k ++ s := by
    cases k with
    | zero => exact b1
    | succ k => unfold stripBraces; rw [if_neg]; simp [blanks_succ]
  have hf : pyFloat U (blanks k ++ s) = pyFloat U s := by
    have := pyFloat_pad (U := U) (blanks k) s [] (blanks_space k) (by simp)
    simpa using this
  have he : contains s%"e" (blanks k ++ s) = contains s%"e" s := by
    rw [Bool.eq_iff_iff, contains_iff, contains_iff]
    exact ⟨fun h => infix_drop (fun hm => by have := blanks_mem hm; revert this; decide) h, fun h => h.trans ⟨blanks k, [], by simp⟩⟩
  have hs : contains s%"\\" (blanks k ++ s) = contains s%"\\" s := by
    rw [Bool.eq_iff_iff, contains_iff, contains_iff]
    exact ⟨fun h => infix_drop (fun hm => by have := blanks_mem hm; revert this; decide) h, fun h => h.trans ⟨blanks k, [], by simp⟩⟩
  have hc : canonFloat U (blanks k ++ s) = canonFloat U s ∨ (canonFloat U (blanks k ++ s) = blanks k ++ s ∧ canonFloat U s = s) := by
    unfold canonFloat floatToLatexScientific
    rw [hf, he]
    cases pyFloat U s with
    | none => exact .inr ⟨rfl, rfl⟩
    | some x =>
      simp only
      by_cases h1 : isIntFloat x = true
      · rw [if_pos h1, if_pos h1]
        by_cases h2 : contains s%"e" s = true
        · rw [if_pos h2, if_pos h2]
          by_cases h3 : x.neZero = true
          · rw [if_pos h3, if_pos h3]; exact .inl rfl
          · rw [if_neg h3, if_neg h3]; exact .inr ⟨rfl, rfl⟩
        · rw [if_neg h2, if_neg h2]
          cases x.roundInt with
          | none => exact .inr ⟨rfl, rfl⟩
          | some n => exact .inl rfl
      · rw [if_neg h1, if_neg h1]; exact .inr ⟨rfl, rfl⟩
  unfold furtherPure
  simp only [b1, b2]
  rcases hc with hc | ⟨h1, h2⟩
  · rw [hc]
  · rw [h1, h2, hs]
    apply congrArg (lower U)
    show tidy U _ = tidy U _
    by_cases h3 : contains s%"\\" s = true
    · rw [if_pos h3, if_pos h3, parseLatexStr_eq, parseLatexStr_eq, latexReplace_blanks]
      have : strip (blanks k ++ latexReplace s) = strip (latexReplace s) := by
        have := stripBy_pad isSpace (blanks k) (latexReplace s) [] (by rw [List.all_eq_true]; exact blanks_space k) rfl
        rw [List.append_nil] at this
        exact this
      rw [this]
    · rw [if_neg h3, if_neg h3, tidy_blanks]

/-! ### C31 -/

/-- A letter of the alphabet of ordinary answers. -/
def Letters (l : Str) : Prop := l ≠ [] ∧ ∀ c ∈ l, asciiAlpha c = true ∧ mathChar c = true

theorem member_step {l t : Str} (hl : Letters l) (j k : Nat) (ht : ∀ c ∈ t, mathChar c = true) :
    memberStep (l ++ blanks j ++ s%"\\in" ++ (blanks k ++ t)) = blanks k ++ t := by
  have hn : 'n' ∉ blanks k ++ t := by
    simp only [List.mem_append, not_or]
    exact ⟨fun h => by have := blanks_mem h; revert this; decide, math_no ht rfl⟩
  unfold memberStep reSubConst reSub
  have h3 := First.lit s%"\\in" ((blanks j).reverse ++ (l.reverse ++ [])) (blanks k ++ t) []
  have h2 := First.cat_cons (First.many (p := isSpace) (blanks j) (s%"\\in" ++ (blanks k ++ t)) (l.reverse ++ []) [] (blanks_space j) (by simp; decide))
    (First.cat_one h3)
  have h1 := First.cat_cons (First.plus (p := asciiAlpha) l (blanks j ++ (s%"\\in" ++ (blanks k ++ t))) [] [] hl.1 (fun c hc => (hl.2 c hc).1)
    (by
      intro x hx
      cases j with
      | zero => simp [blanks] at hx; rw [← hx]; decide
      | succ j => simp [blanks_succ] at hx; rw [← hx]; decide)) h2
  have hne : l ++ blanks j ++ s%"\\in" ≠ [] := by simp
  have h0 : memberRe.First ⟨[], (l ++ blanks j ++ s%"\\in") ++ (blanks k ++ t), []⟩
      ⟨(s%"\\in").reverse ++ ((blanks j).reverse ++ (l.reverse ++ [])), blanks k ++ t, []⟩ := by
    have e : (l ++ blanks j ++ s%"\\in") ++ (blanks k ++ t) = l ++ (blanks j ++ (s%"\\in" ++ (blanks k ++ t))) := by simp
    rw [e]; exact h1
  rw [scanSub_match _ [] (l ++ blanks j ++ s%"\\in") (blanks k ++ t) [] hne (First.scanner _ h0)]
  rw [List.nil_append]
  apply scan_id_of_lang
  rintro u ⟨a, b, rfl, -, b1, b2, rfl, -, h4⟩ hi
  rw [lang_lit.1 h4] at hi
  exact hn (hi.subset (by simp))

theorem member_normBody (E : Env X V S) (rec : Str → M X Norm) {l t : Str} (hl : Letters l) (j k : Nat) (ht : Calm t) (hne : t ≠ [])
    (hlast : t.getLast? ≠ some ' ') :
    normBody E rec (l ++ blanks j ++ s%"\\in" ++ (blanks k ++ t)) = (do let a ← further E (blanks k ++ t); pure (.str a)) := by
  have hr : ∀ c ∈ blanks k ++ t, mathChar c = true := by
    intro c hc
    rcases List.mem_append.1 hc with h | h
    · rw [blanks_mem h]; decide
    · exact ht.chars c h
  have ha : ∀ c ∈ l ++ blanks j, (asciiAlpha c = true ∨ c = ' ') ∧ mathChar c = true := by
    intro c hc
    rcases List.mem_append.1 hc with h | h
    · exact ⟨.inl (hl.2 c h).1, (hl.2 c h).2⟩
    · rw [blanks_mem h]; exact ⟨.inr rfl, by decide⟩
  have hx : ∀ x, asciiAlpha x = false → x ≠ ' ' → x ∉ l ++ blanks j := by
    intro x h1 h2 hm
    rcases (ha x hm).1 with h | h
    · rw [h] at h1; cases h1
    · exact h2 h
  have no : ∀ x, mathChar x = false → x ≠ 'n' → x ∉ l ++ blanks j ++ s%"\\in" ++ (blanks k ++ t) := by
    intro x h1 h2 hm
    simp only [List.mem_append, or_assoc] at hm
    have h1' : ∀ c, mathChar c = true → x ≠ c := fun c hc e => by rw [e, hc] at h1; cases h1
    rcases hm with h | h | h | h | h
    · exact h1' x (hl.2 x h).2 rfl
    · exact h1' x (by rw [blanks_mem h]; decide) rfl
    · simp only [List.mem_cons, List.not_mem_nil, or_false] at h
      rcases h with rfl | rfl | rfl
      · exact absurd h1 (by decide)
      · exact absurd h1 (by decide)
      · exact h2 rfl
    · exact h1' x (by rw [blanks_mem h]; decide) rfl
    · exact h1' x (ht.chars x h) rfl
  -- a special word can only be in the text of the set
  have word : ∀ (x : Char) (p : Str), asciiAlpha x = false → x ≠ ' ' → apart (x :: p) s%"\\in" = true →
      x :: p <:+: l ++ blanks j ++ s%"\\in" ++ (blanks k ++ t) → x :: p <:+: t := by
    intro x p h1 h2 h3 hi
    rw [List.append_assoc] at hi
    have hi' := apart_infix h3 (infix_drop (hx x h1 h2) hi)
    exact infix_drop (fun hm => h2 (blanks_mem hm)) hi'
  have sp : ∀ p ∈ special, p ≠ s%"ft" → p ≠ s%"\\circ" → ¬ p <:+: l ++ blanks j ++ s%"\\in" ++ (blanks k ++ t) := by
    intro p hp h1 h2 hi
    have : ∀ p ∈ special, p ≠ s%"ft" → p ≠ s%"\\circ" → ∃ x q, p = x :: q ∧ asciiAlpha x = false ∧ x ≠ ' ' ∧ apart (x :: q) s%"\\in" = true := by
      unfold special; simp; decide
    obtain ⟨x, q, e, h3, h4, h5⟩ := this p hp h1 h2
    rw [e] at hi
    exact ht.words p hp (by rw [e]; exact word x q h3 h4 h5 hi)
  have hst : stripBlank (l ++ blanks j ++ s%"\\in" ++ (blanks k ++ t)) = l ++ blanks j ++ s%"\\in" ++ (blanks k ++ t) := by
    apply stripBlank_id
    · obtain ⟨y, ys, rfl⟩ := List.exists_cons_of_ne_nil hl.1
      have := (hl.2 y (by simp)).1
      intro e
      simp at e
      rw [e] at this
      revert this; decide
    · rw [List.getLast?_append_of_ne_nil _ (by simp [hne]), List.getLast?_append_of_ne_nil _ hne]
      exact hlast
  have hctl : noControl (l ++ blanks j ++ s%"\\in" ++ (blanks k ++ t)) := by
    intro c hc
    simp only [List.mem_append, or_assoc] at hc
    rcases hc with h | h | h | h | h
    · exact math_noControl (fun c hc => (hl.2 c hc).2) c h
    · rw [blanks_mem h]; decide
    · revert c; decide
    · rw [blanks_mem h]; decide
    · exact math_noControl ht.chars c h
  rw [normBody_nowrap E rec (t := l ++ blanks j ++ s%"\\in" ++ (blanks k ++ t))
    (by rw [hst]; exact matrixNormalize_id (not_infix_of_not_mem 'e' (by simp) (no _ rfl (by decide))) (sp _ (by simp [special]) (by decide) (by decide))
          (sp _ (by simp [special]) (by decide) (by decide)))
    (not_infix_of_not_mem 'e' (by simp) (no _ rfl (by decide))) (not_infix_of_not_mem 'm' (by simp) (no _ rfl (by decide))) (no _ rfl (by decide))]
  refine normTail_calm E ?_ (no _ rfl (by decide)) (no _ rfl (by decide)) ?_ hr ?_ ?_
  · apply removeSpacing_id <;> exact sp _ (by simp [special]) (by decide) (by decide)
  · unfold middle
    rw [removeDollar_id (no _ rfl (by decide)), andOrStep_id (not_infix_of_not_mem 'd' (by simp) (no _ rfl (by decide)))
      (not_infix_of_not_mem 'o' (by simp) (no _ rfl (by decide))), wordsAndControls_id (not_infix_of_not_mem 'o' (by simp) (no _ rfl (by decide))) hctl,
      leftRight_id (not_infix_of_not_mem 'e' (by simp) (no _ rfl (by decide))) (not_infix_of_not_mem 'g' (by simp) (no _ rfl (by decide))),
      member_step hl j k ht.chars]
  · exact fun hi => ht.words s%"ft" (by simp [special]) (infix_drop (fun hm => by have := blanks_mem hm; revert this; decide) hi)
  · exact fun hi => ht.words s%"\\circ" (by simp [special]) (infix_drop (fun hm => by have := blanks_mem hm; revert this; decide) hi)

/-- C31, first part: "x \in S" has the normal form of S, unless S is enclosed in bare braces. -/
theorem C31_member_partial (E : Env X V S) (hE : StrTotal E) (n : Nat) (l t : Str) (j k : Nat) (hl : Letters l) (ht : Calm t) (hne : t ≠ [])
    (h1 : t.head? ≠ some ' ') (h2 : t.getLast? ≠ some ' ') (h3 : t.head? ≠ some '{') :
    stringNormalize E (n + 1) (l ++ blanks j ++ s%"\\in" ++ (blanks k ++ t)) = stringNormalize E (n + 1) t := by
  apply same_normal E hE (u := t)
  · rw [member_normBody E _ hl j k ht hne h2]
    unfold further
    rw [furtherPure_lead h3]
  · rw [calm_normBody E _ ht, stripBlank_id h1 h2]

/-- With bare braces the claim fails: they are removed from "{1,2}" but kept in "x \in {1,2}". -/
theorem C31_braces_refuted :
    (stringNormalize failEnv 3 s%"x \\in {1,2}" ⟨(), []⟩).1 = .ok (.str s%"{1,2}") ∧
    (stringNormalize failEnv 3 s%"{1,2}" ⟨(), []⟩).1 = .ok (.str s%"1,2") := by
  constructor <;> decide +kernel

/-- C31, second part: the step changes nothing if no `\in` follows a letter (with or without white space in between). -/
theorem C31_untouched_partial (s : Str) (h : ∀ a b, s = a ++ s%"\\in" ++ b → ∀ x, (rstripBy isSpace a).getLast? = some x → asciiAlpha x = false) :
    memberStep s = s := by
  apply reSubConst_of_lang
  rintro u ⟨a, b, rfl, ha, b1, b2, rfl, hb, h4⟩ ⟨p, q, e⟩
  obtain ⟨hne, hd⟩ := lang_plus_chr (p := asciiAlpha) ha
  have hb' := lang_star_chr (p := isSpace) hb
  rw [lang_lit.1 h4] at e
  obtain ⟨x, hx⟩ : ∃ x, a.getLast? = some x := ⟨_, List.getLast?_eq_some_getLast hne⟩
  obtain ⟨a', rfl⟩ := List.getLast?_eq_some_iff.1 hx
  have hxa := hd x (by simp)
  have hsp : isSpace x = false := by
    have h1 : (97 ≤ x.toNat ∧ x.toNat ≤ 122) ∨ (65 ≤ x.toNat ∧ x.toNat ≤ 90) := by
      simpa [asciiAlpha, asciiLower, asciiUpper] using hxa
    simp only [isSpace, decide_eq_false_iff_not]; omega
  have := h (p ++ (a' ++ [x]) ++ b1) q (by rw [← e]; simp) x (by
    rw [rstripBy_append_of_all _ _ _ (by rw [List.all_eq_true]; exact hb')]
    unfold rstripBy
    simp [hsp])
  rw [this] at hxa; cases hxa

/-- Without that condition the claim fails: `\infty` loses its beginning. -/
theorem C31_infty_refuted : (stringNormalize failEnv 3 s%"x \\to \\infty" ⟨(), []⟩).1 = .ok (.str s%"x\\fty") := by decide +kernel

/-- Cases covered: "x \in (0,1]" and `(-\infty,\infty)`. -/
example : Letters s%"x" ∧ Calm s%"(0,1]" := ⟨⟨by decide, by decide⟩, by decide, by decide⟩
example : memberStep s%"(-\\infty,\\infty)" = s%"(-\\infty,\\infty)" := by decide +kernel

end Verif
