import Verif.Props.Unions
import Verif.Props.Equations

/-! # C102: sets in braces

A set `\{a,b,...\}` is read as a list and judged element by element, in the order in which the elements are written; it is never
judged equivalent to a list in another notation.  A list in plain braces `{a,b,...}` is judged as the list without brackets. -/

namespace Verif

variable {X V S : Type}

/-! ### Specification -/

/-- The text of a set: `\{a,b,...\}`, or `{a,b,...}`. -/
def bracedText (slash : Bool) (es : List Str) : Str :=
  if slash then s%"\\{" ++ join s%"," es ++ s%"\\}" else s%"{" ++ join s%"," es ++ s%"}"

/-- The set `\{a,b,...\}` as it is written in LaTeX. -/
abbrev setText (es : List Str) : Str := bracedText true es

/-- The text of a list without brackets or in plain braces. -/
def looseText (curly : Bool) (es : List Str) : Str := if curly then bracedText false es else join s%"," es

/-! ### Occurrences in sets -/

theorem braced_eq (b : Bool) (es : List Str) : bracedText b es =
    (if b then s%"\\" else []) ++ '{' :: (join s%"," es ++ ((if b then s%"\\" else []) ++ s%"}")) := by
  cases b <;> simp [bracedText]

theorem infix_concat {p m : Str} {y : Char} (h : p <:+: m ++ [y]) : p <:+: m ∨ ∃ q, p = q ++ [y] ∧ q <:+ m := by
  by_cases hh : p.head? = some '{'
  · exact infix_enclosed (x := 'x') (by rw [hh]; simp) (List.IsInfix.trans h ⟨['x'], [], by simp⟩)
  · exact infix_enclosed hh (List.IsInfix.trans h ⟨['{'], [], by simp⟩)

theorem infix_tail {p m : Str} {b : Bool} (h2 : '}' ∉ p) (h3 : p.getLast? ≠ some '\\')
    (h : p <:+: m ++ ((if b then s%"\\" else []) ++ s%"}")) : p <:+: m := by
  have hd : ∀ {x : Char}, x ∉ p → x ∉ p.dropLast := fun h hm => h (List.dropLast_subset _ hm)
  have e : m ++ ((if b then s%"\\" else []) ++ s%"}") = (m ++ if b then s%"\\" else []) ++ '}' :: [] := by simp
  rw [e] at h
  rcases infix_delim (hd h2) h with h | h | ⟨h, -⟩
  · cases b with
    | false => simpa using h
    | true =>
      simp only [if_true] at h
      rcases infix_concat h with h | ⟨q, rfl, -⟩
      · exact h
      · simp at h3
  · rw [List.infix_nil.1 h]; exact List.nil_infix
  · rw [h] at h2; simp at h2

theorem braced_infix {p : Str} {b : Bool} {es : List Str} (h1 : '{' ∉ p) (h2 : '}' ∉ p) (h3 : p.getLast? ≠ some '\\')
    (h : p <:+: bracedText b es) : p <:+: join s%"," es := by
  rw [braced_eq] at h
  rcases infix_delim (fun hm => h1 (List.dropLast_subset _ hm)) h with h | h | ⟨h, -⟩
  · cases b with
    | false =>
      have h : p = [] := by simpa using h
      rw [h]; exact List.nil_infix
    | true =>
      simp only [if_true] at h
      obtain ⟨u, v, e⟩ := h
      have hl := congrArg List.length e
      simp only [List.length_append, List.length_cons, List.length_nil] at hl
      match p with
      | [] => exact List.nil_infix
      | [c] =>
        simp only [List.length_cons, List.length_nil] at hl
        obtain rfl := List.eq_nil_of_length_eq_zero (l := u) (by omega)
        obtain rfl := List.eq_nil_of_length_eq_zero (l := v) (by omega)
        simp at e
        rw [e] at h3
        simp at h3
      | c :: d :: p => simp only [List.length_cons] at hl; omega
  · exact infix_tail h2 h3 h
  · rw [h] at h1; simp at h1

section
variable {es : List Str} (h : Pieces es) {b : Bool}
include h

theorem Pieces.joinComma : ',' ∈ join s%"," es := h.comma none

/-- the beginning of a set is not the name of an environment -/
theorem Pieces.noEnvironment {p : Str} (hp : depth p < 0) (hc : ',' ∉ p) {t : Str} : ¬ p <+: join s%"," es ++ t := by
  rintro ⟨r, hr⟩
  rcases prefix_of_append hr with ⟨z, h1, -⟩ | ⟨z, h1, -⟩
  · exact hc (by rw [h1]; exact List.mem_append_left _ h.joinComma)
  · have := join_nonneg es (fun e he => (h.piece e he).element) p z h1
    omega

theorem braced_words : ∀ p ∈ clearSpecial, ¬ p <:+: bracedText b es := by
  intro p hp hi
  have key : ∀ p ∈ clearSpecial, ('{' ∉ p ∧ '}' ∉ p ∧ p.getLast? ≠ some '\\') ∨ p = s%"{cases}" ∨ p = s%"{array}" := by decide +kernel
  rcases key p hp with ⟨h1, h2, h3⟩ | h1
  · exact pieces_word h.piece (List.mem_append_right _ hp) (braced_infix h1 h2 h3 hi)
  · obtain ⟨q, rfl, hq1, hq2, hq3, hq4⟩ : ∃ q, p = '{' :: (q ++ s%"}") ∧ depth (q ++ s%"}") < 0 ∧ ',' ∉ q ++ s%"}" ∧ (∃ q' x, q = q' ++ [x] ∧ x ≠ '\\') ∧
        depth q = 0 := by
      rcases h1 with rfl | rfl
      · exact ⟨s%"cases", rfl, by decide, by decide, ⟨s%"case", 's', rfl, by decide⟩, by decide⟩
      · exact ⟨s%"array", rfl, by decide, by decide, ⟨s%"arra", 'y', rfl, by decide⟩, by decide⟩
    have main : ¬ '{' :: (q ++ s%"}") <:+: join s%"," es ++ ((if b then s%"\\" else []) ++ s%"}") := by
      intro hi
      have e : join s%"," es ++ ((if b then s%"\\" else []) ++ s%"}") = (join s%"," es ++ if b then s%"\\" else []) ++ ['}'] := by simp
      rw [e] at hi
      rcases infix_concat hi with hi | ⟨r, hr, hs⟩
      · refine pieces_word h.piece (List.mem_append_right _ hp) ?_
        cases b with
        | false => simpa using hi
        | true =>
          rcases infix_concat hi with hi | ⟨r, hr, hs⟩
          · exact hi
          · have := (List.append_inj' (s₁ := '{' :: q) (t₁ := s%"}") hr rfl).2
            simp at this
      · obtain rfl : '{' :: q = r := List.append_inj_left' (t₁ := s%"}") (t₂ := s%"}") hr rfl
        obtain ⟨q', x, rfl, hx⟩ := hq3
        cases b with
        | false =>
          have hs : '{' :: (q' ++ [x]) <:+ join s%"," es := by simpa using hs
          have h2 := join_nonneg es (fun e he => (h.piece e he).element)
          obtain ⟨u, hu⟩ := hs
          have h3 := h2 u _ hu.symm
          have h4 : depth (join s%"," es) = 0 := (join_depth es fun e he => (h.piece e he).element)
          rw [← hu, depth_append, depth_cons] at h4
          have h5 : bracketDelta '{' = 1 := by decide
          omega
        | true =>
          obtain ⟨u, hu⟩ := hs
          have := (List.append_inj' (s₁ := u ++ '{' :: q') (t₁ := [x]) (t₂ := s%"\\") (by simpa using hu) rfl).2
          simp only [List.cons.injEq, and_true] at this
          exact hx this
    have first : ¬ '{' :: (q ++ s%"}") <:+: '{' :: (join s%"," es ++ ((if b then s%"\\" else []) ++ s%"}")) := by
      intro hi
      rcases List.infix_cons_iff.1 hi with hi | hi
      · exact h.noEnvironment hq1 hq2 (List.cons_prefix_cons.1 hi).2
      · exact main hi
    rw [braced_eq] at hi
    cases b with
    | false => exact first (by simpa using hi)
    | true =>
      rcases List.infix_cons_iff.1 hi with hi | hi
      · have := (List.cons_prefix_cons.1 hi).1
        revert this; decide
      · exact first hi

theorem braced_chars {c : Char} (hc : c ∈ bracedText b es) : 33 ≤ c.toNat ∧ c.toNat < 127 ∧ asciiUpper c = false ∧ c ∉ s%"$%:" := by
  have key : ∀ c ∈ s%"\\{},", 33 ≤ c.toNat ∧ c.toNat < 127 ∧ asciiUpper c = false ∧ c ∉ s%"$%:" := by decide
  have : c ∈ s%"\\{}," ∨ c ∈ join s%"," es := by
    cases b <;> simp [bracedText] at hc ⊢ <;> tauto
  rcases this with h1 | h1
  · exact key c h1
  · rcases mem_join h1 with rfl | ⟨e, he, hc⟩
    · decide
    · exact (h.piece e he).tidy.neat.chars c hc

omit h in
/-- A word that stands in no element and does not begin or end in a sign of the set. -/
theorem braced_word {p : Str} (hp : p ≠ []) (h1 : '{' ∉ p) (h2 : '}' ∉ p) (h3 : p.getLast? ≠ some '\\') (hc : ',' ∉ p)
    (hi : p <:+: bracedText b es) : ∃ e ∈ es, p <:+: e := infix_join hp hc (braced_infix h1 h2 h3 hi)

omit h in
theorem braced_head : (bracedText b es).head? = some (if b then '\\' else '{') := by cases b <;> simp [bracedText]

theorem braced_slashes : ¬ s%"\\\\" <:+: bracedText b es := by
  intro hi
  rw [braced_eq] at hi
  have main : ¬ s%"\\\\" <:+: join s%"," es ++ ((if b then s%"\\" else []) ++ s%"}") := by
    intro hi
    have e : join s%"," es ++ ((if b then s%"\\" else []) ++ s%"}") = (join s%"," es ++ if b then s%"\\" else []) ++ ['}'] := by simp
    rw [e] at hi
    rcases infix_concat hi with hi | ⟨q, hq, -⟩
    · cases b with
      | false => exact pieces_word h.piece (p := s%"\\\\") (by decide) (by simpa using hi)
      | true =>
        rcases infix_concat hi with hi | ⟨q, hq, hs⟩
        · exact pieces_word h.piece (p := s%"\\\\") (by decide) hi
        · obtain rfl : s%"\\" = q := List.append_inj_left' (t₁ := s%"\\") hq rfl
          obtain ⟨e, he, hs⟩ := suffix_join (by simp) (by decide) hs
          exact (h.piece e he).slash hs
    · have := (List.append_inj' (s₁ := s%"\\") (t₁ := s%"\\") hq rfl).2
      revert this; decide
  rcases infix_delim (by decide) hi with hi | hi | ⟨hi, -⟩
  · cases b with
    | false => simp at hi
    | true =>
      have := hi.length_le
      simp at this
  · exact main hi
  · revert hi; decide

theorem braced_clear (hbar : b = true → ∀ e ∈ es, '|' ∉ e) : Clear (bracedText b es) where
  chars c hc := braced_chars h hc
  words := braced_words h
  slashes := .inl (braced_slashes h)
  clock := .inr (by
    intro c hc
    rw [braced_head, Option.some.injEq] at hc
    subst hc
    cases b <;> decide)
  letter u v c e := by
    cases hc : asciiAlpha c with
    | false => rfl
    | true =>
      have hne : ∀ x : Char, asciiAlpha x = false → x ≠ c := by rintro x hx rfl; rw [hc] at hx; cases hx
      obtain ⟨e, he, hi⟩ := braced_word (p := c :: s%"\\in") (by simp) (by simp [hne '{' (by decide)]) (by simp [hne '}' (by decide)])
        (by simp) (by simp [hne ',' (by decide)]) ⟨u, v, e.symm⟩
      exact absurd (List.IsInfix.trans ⟨[c], [], by simp⟩ hi) ((h.piece e he).tidy.words s%"\\in" (by decide))
  builder := by
    cases b with
    | false => exact .inl (by simp [bracedText])
    | true =>
      refine .inr fun hm => ?_
      have : '|' ∈ join s%"," es := by simpa [bracedText] using hm
      rcases mem_join this with h1 | ⟨e, he, h1⟩
      · revert h1; decide
      · exact hbar rfl e he h1
  mixed u v d e := by
    cases hc : asciiDigit d with
    | false => rfl
    | true =>
      have hne : ∀ x : Char, asciiDigit x = false → x ≠ d := by rintro x hx rfl; rw [hc] at hx; cases hx
      obtain ⟨e, he, u', v', hi⟩ := braced_word (p := d :: s%"\\frac") (by simp) (by simp [hne '{' (by decide)])
        (by simp [hne '}' (by decide)]) (by simp) (by simp [hne ',' (by decide)]) ⟨u, v, e.symm⟩
      rw [(h.piece e he).tidy.mixed u' v' d hi.symm] at hc
      cases hc
  base u v d e := by
    cases hc : asciiDigit d with
    | false => rfl
    | true =>
      have hne : ∀ x : Char, asciiDigit x = false → x ≠ d := by rintro x hx rfl; rw [hc] at hx; cases hx
      obtain ⟨e, he, u', v', hi⟩ := braced_word (p := d :: s%"_") (by simp) (by simp [hne '{' (by decide)])
        (by simp [hne '}' (by decide)]) (by simp) (by simp [hne ',' (by decide)]) ⟨u, v, by rw [e]; simp⟩
      rw [(h.piece e he).tidy.base u' v' d (by rw [← hi]; simp)] at hc
      cases hc
  commas := by
    refine ⟨fun hi => (pieces_commas h.piece).1 (braced_infix (by decide) (by decide) (by decide) hi), fun hi => ?_⟩
    have hi : s%"{," <:+: bracedText b es := List.IsInfix.trans ⟨[], s%"}", rfl⟩ hi
    have first : ¬ s%"{," <:+: '{' :: (join s%"," es ++ ((if b then s%"\\" else []) ++ s%"}")) := by
      intro hi
      rcases List.infix_cons_iff.1 hi with hi | hi
      · have hi := (List.cons_prefix_cons.1 hi).2
        match es, h with
        | e :: es', h =>
          have h1 := h.piece e (by simp)
          have h2 := h1.tidy.noComma
          match e, h1.nonempty with
          | c :: e, _ =>
            have : ∃ t, join s%"," ((c :: e) :: es') = c :: t := by cases es' <;> exact ⟨_, rfl⟩
            obtain ⟨t, ht⟩ := this
            rw [ht] at hi
            have := (List.cons_prefix_cons.1 hi).1
            rw [this] at h2
            simp at h2
        | [], h => exact absurd h.two (by simp)
      · exact (pieces_commas h.piece).2 (infix_tail (by decide) (by decide) hi)
    rw [braced_eq] at hi
    cases b with
    | false => exact first (by simpa using hi)
    | true =>
      rcases List.infix_cons_iff.1 hi with hi | hi
      · have := (List.cons_prefix_cons.1 hi).1
        revert this; decide
      · exact first hi

theorem braced_comma : ',' ∈ bracedText b es := by
  have := h.joinComma
  cases b <;> simp [bracedText, this]

theorem braced_thousands (U : Uni) : ¬ ThousandsComma U (bracedText b es) := by
  intro ht
  rw [braced_eq] at ht
  refine pieces_thousands h U ((if b then s%"\\" else []) ++ s%"}") ?_ (by cases b <;> decide)
    (thousands_skip (c := '{') (by cases b <;> decide) (by decide) (by simp [isDigit, asciiDigit]) ht)
  intro c hc
  cases b <;> simp at hc <;> subst hc <;> simp [isDigit, asciiDigit]

theorem set_strip (hbar : ∀ e ∈ es, '|' ∉ e) : strip (setText es) = setText es :=
  strip_of_no_space _ fun _ hc => (braced_clear h (b := true) fun _ => hbar).space hc

/-- A set is its own normal form. -/
theorem set_fixed (hbar : ∀ e ∈ es, '|' ∉ e) (E : Env X V S) (n : Nat) :
    Always (stringNormalize E (n + 1) (setText es)) (.str (setText es)) := by
  have hcl : litChar E.U ',' = false := by
    simp [litChar, isDigit, asciiDigit, isSpace]; decide
  have hp : pyFloat E.U (setText es) = none := pyFloat_none ',' (braced_comma h) hcl
  refine (braced_clear h fun _ => hbar).fixed E n (by rw [braced_head]; simp) (fun x hx => by rw [hp] at hx; cases hx) ?_
  unfold strIsInt
  rw [stripCommas_id _ _ (braced_thousands h E.U), hp]

/-- The normal form of a list in plain braces is the list without brackets. -/
theorem loose_normal (E : Env X V S) (n : Nat) (curly : Bool) :
    stringNormalize E (n + 1) (looseText curly es) = pure (.str (join s%"," es)) := by
  have hcl : litChar E.U ',' = false := by
    simp [litChar, isDigit, asciiDigit, isSpace]; decide
  have hN : Neat (join s%"," es) := bare_neat h
  have hp : pyFloat E.U (join s%"," es) = none := pyFloat_none ',' h.joinComma hcl
  have h1 : canonFloat E.U (join s%"," es) = join s%"," es := by unfold canonFloat; rw [hp]
  have h2 : stripBraces (bracedText false es) = stripBraces (join s%"," es) := by
    rw [stripBraces_id hN.head.1]
    unfold stripBraces
    have e : bracedText false es = '{' :: (join s%"," es ++ ['}']) := by simp [bracedText]
    have hl : ('{' :: (join s%"," es ++ ['}'])).getLast? = some '}' := by
      rw [← List.cons_append, List.getLast?_concat]
    rw [e, hl]
    simp
  have h3 : furtherPure E.U (bracedText false es) = join s%"," es := by
    have := hN.clear.furtherPure hN.head.1 h1
    unfold furtherPure at this ⊢
    rw [h2]
    exact this
  have h4 : strIsInt E.U (join s%"," es) = false := by
    have := pieces_thousands h E.U [] (by simp) (by simp)
    rw [List.append_nil] at this
    unfold strIsInt
    rw [stripCommas_id _ _ this, hp]
  have key : ∀ s, Clear s → furtherPure E.U s = join s%"," es → stringNormalize E (n + 1) s = pure (.str (join s%"," es)) := by
    intro s hs hf
    rw [stringNormalize, hs.normBody]
    unfold further
    rw [hf, canonInt_id E h4]
    rfl
  cases curly with
  | true => exact key _ (braced_clear h (b := false) (by simp)) h3
  | false => exact key _ hN.clear (hN.clear.furtherPure hN.head.1 h1)

theorem set_depth : depth (setText es) = 0 ∧ ∀ u v, setText es = u ++ ',' :: v → depth u ≠ 0 := by
  have hj := join_depth es fun e he => (h.piece e he).element
  have hn := join_nonneg es fun e he => (h.piece e he).element
  have d1 : depth s%"\\{" = 1 := by decide
  have d2 : depth s%"\\}" = -1 := by decide
  have e0 : setText es = s%"\\{" ++ (join s%"," es ++ s%"\\}") := by simp [bracedText]
  rw [e0]
  refine ⟨by rw [depth_append, depth_append, hj, d1, d2]; rfl, fun u v e => ?_⟩
  rcases prefix_of_append e with ⟨z, e1, e2⟩ | ⟨z, e1, e2⟩
  · exfalso
    cases z with
    | nil =>
      rw [List.nil_append] at e2
      have hcm := h.piece
      match es, h with
      | e :: es', h =>
        have h1 := h.piece e (by simp)
        have h2 := h1.tidy.noComma
        match e, h1.nonempty with
        | c :: e, _ =>
          have : ∃ t, join s%"," ((c :: e) :: es') = c :: t := by cases es' <;> exact ⟨_, rfl⟩
          obtain ⟨t, ht⟩ := this
          rw [ht] at e2
          simp only [List.cons_append, List.cons.injEq] at e2
          rw [← e2.1] at h2
          simp at h2
      | [], h => exact absurd h.two (by simp)
    | cons c z =>
      simp only [List.cons_append, List.cons.injEq] at e2
      have : ',' ∈ s%"\\{" := by rw [e1, e2.1]; simp
      revert this; decide
  · rw [e1, depth_append, d1]
    rcases prefix_of_append e2 with ⟨y, f1, f2⟩ | ⟨y, f1, f2⟩
    · have := hn z y f1
      omega
    · have : ',' ∈ s%"\\}" := by rw [f2]; simp
      exact absurd this (by decide)

/-- A set is not split. -/
theorem set_unsplit (hbar : ∀ e ∈ es, '|' ∉ e) (U : Uni) (ord : List Str → List Str) :
    splitTuple U ord (setText es) none = .ok (.str (setText es)) := by
  unfold splitTuple
  simp only [stripCommas_id _ _ (braced_thousands h U)]
  have h1 := scanBrackets_fst 0 true (setText es)
  rw [(set_depth h).1, add_zero] at h1
  have peel : peelBrackets (scanBrackets 0 true (setText es)).2 (setText es) = (setText es, .set) := by
    unfold peelBrackets
    rw [braced_head]
    split
    · simp
    · rfl
  have loop : splitLoop 0 [] (setText es) = [setText es] := by
    have := splitLoop_piece 0 [] (setText es) [] (by simpa using (set_depth h).2)
    rw [List.append_nil] at this
    rw [this]
    have hne : setText es ≠ [] := by simp [bracedText]
    simp [splitLoop, hne, set_strip h hbar]
  generalize scanBrackets 0 true (setText es) = r at h1 peel
  obtain ⟨r1, r2⟩ := r
  simp only at h1 peel
  subst h1
  simp [peel, loop]

theorem set_notMatrix : strIsMat (setText es) = false := by
  refine (contains_eq_false _ _).2 fun hi => ?_
  obtain ⟨e, he, hi⟩ := braced_word (by simp) (by decide) (by decide) (by decide) (by decide) hi
  exact (h.plain e he).2.2 hi

end

/-! ### The comparison -/

theorem elemsEquiv_mixed (eq : EqFun X) (s t : Str) (verbose : Bool) {e e' : Elems} (h : e.sameType e' = false) :
    Always (elemsEquiv eq s t verbose e e') (false, true) := by
  cases e <;> cases e' <;> first
    | exact Bool.noConfusion h
    | (unfold elemsEquiv; dsimp only; split <;> exact Always.pure _)

theorem possibleTuple_of {E : Env X V S} {eq : EqFun X} {s t : Str} {verbose : Bool} {e e' : Elems} {r : Bool × Bool}
    (h1 : splitTuple E.U E.setOrder s none = .ok e) (h2 : splitTuple E.U E.setOrder t none = .ok e')
    (h3 : Always (elemsEquiv eq s t verbose e e') r) : Always (possibleTuple E eq s t verbose) r := by
  unfold possibleTuple
  rw [h1, h2]
  refine Always.bind (a := e) (fun w => ⟨w, rfl⟩) ?_
  refine Always.bind (a := e') (fun w => ⟨w, rfl⟩) ?_
  exact print_always _ _ h3

/-- The verdict on two texts with different normal forms, if the first normal form has no brackets. -/
theorem isEquiv_normal {E : Env X V S} {s₀ t₀ s t : Str} {n : Nat} {verbose : Bool} {p : Bool × Bool} {r : Bool}
    (hs : Always (stringNormalize E n s₀) (.str s)) (ht : Always (stringNormalize E n t₀) (.str t))
    (ss : strip s₀ = s₀) (st : strip t₀ = t₀) (hne₀ : s₀ ≠ t₀) (hne : s ≠ t) (h0 : t ≠ []) (hb : hasBracket s = false)
    (ms : strIsMat s = false) (mt : strIsMat t = false) (hp : Always (possibleTuple E (isEquivStr E n) s t verbose) p)
    (hr : if p.1 = false ∧ p.2 = false then Always (areEqualUnderSympy E n s t verbose) r else p.1 = r) :
    Always (isEquiv E (n + 1) (some s₀) (some t₀) verbose) r := by
  have hem : t.isEmpty = false := by simpa using h0
  simp only [isEquiv, isEquivStr, ss, st]
  rw [if_neg hne₀]
  apply hs.bind
  apply ht.bind
  apply print_always
  unfold compareNorms
  simp only [hne, decide_false, Bool.false_eq_true, if_false]
  apply Always.tryExcept
  unfold isLatexEquiv
  simp only [hem, hb, ms, mt, Bool.or_self, Bool.and_false, Bool.false_eq_true, if_false]
  refine (Always.pure (false, false)).bind ?_
  simp only [Bool.not_false, if_true]
  refine hp.bind ?_
  refine (Always.pure p).bind ?_
  obtain ⟨c, d⟩ := p
  cases c <;> cases d <;> simp at hr ⊢
  · exact hr
  · rw [← hr]; exact Always.pure _
  · rw [← hr]; exact Always.pure _
  · rw [← hr]; exact Always.pure _

/-- every notation of a list is normalised to a text in round or square brackets or without brackets -/
theorem Pieces.normal {bs : List Str} (pb : Pieces bs) (E : Env X V S) (n : Nat) (f : Frame) :
    ∃ f' : Frame, f' ≠ some .curly ∧ Always (stringNormalize E (n + 1) (f.text bs)) (.str (f'.text bs)) ∧
      Verif.strip (f.text bs) = f.text bs ∧ (hasBracket (f.text bs) = false → hasBracket (f'.text bs) = false) := by
  by_cases hf : f = some .curly
  · subst hf
    refine ⟨none, by simp, ?_, strip_of_no_space _ fun _ hc => (braced_clear pb (b := false) (by simp)).space hc, ?_⟩
    · have := loose_normal pb E n true
      rw [show (Frame.text (some .curly) bs) = looseText true bs from rfl, this]
      exact Always.pure _
    · have hm : ∀ p : Str, contains p (Frame.text (some .curly) bs) = false → contains p (join s%"," bs) = false := by
        intro p h
        rw [contains_eq_false] at h ⊢
        exact fun h' => h (List.IsInfix.trans h' ⟨s%"{", s%"}", by rfl⟩)
      intro h
      simp only [hasBracket, Bool.or_eq_false_iff] at h ⊢
      exact ⟨⟨⟨hm _ h.1.1.1, hm _ h.1.1.2⟩, hm _ h.1.2⟩, hm _ h.2⟩
  · exact ⟨f, hf, pb.fixed E n hf, pb.strip hf, id⟩

/-- **C102**, notations.  A set in `\{...\}` and a list in any other brackets or without brackets are judged not equivalent. -/
theorem C102_notations_partial {E : Env X V S} {as bs : List Str} (pa : Pieces as) (pb : Pieces bs)
    (ha : ∀ a ∈ as, '|' ∉ a) (f : Frame) (n : Nat) (verbose : Bool) :
    (hasBracket (setText as) = false → Always (isEquiv E (n + 2) (some (setText as)) (some (f.text bs)) verbose) false) ∧
    (hasBracket (f.text bs) = false → Always (isEquiv E (n + 2) (some (f.text bs)) (some (setText as)) verbose) false) := by
  obtain ⟨g, hg, hn, hst, hbr⟩ := pb.normal E n f
  have h1 := set_unsplit pa ha E.U E.setOrder
  have h2 := splitTuple_spells (pb.spells E.U hg) E.setOrder
  have hne : setText as ≠ g.text bs := by
    intro he
    rw [he, h2] at h1
    rcases g with _ | _ | _ | _ <;> first
      | exact absurd rfl hg
      | simp [kindOf, RetType.wrap] at h1
  by_cases hi : Nonempty (World X)
  swap
  · exact ⟨fun _ w => (hi ⟨w⟩).elim, fun _ w => (hi ⟨w⟩).elim⟩
  obtain ⟨w⟩ := hi
  have hne₀ : setText as ≠ f.text bs := by
    intro he
    have := (set_fixed pa ha E n).unique w (he ▸ hn)
    exact hne (Norm.str.inj this)
  have e1 : (RetType.wrap E.setOrder (kindOf g) bs).sameType (.str (setText as)) = false := by
    rcases g with _ | _ | _ | _ <;> rfl
  have e2 : (Elems.str (setText as)).sameType (RetType.wrap E.setOrder (kindOf g) bs) = false := by
    rcases g with _ | _ | _ | _ <;> rfl
  have z1 : setText as ≠ [] := by simp [bracedText]
  have z2 : g.text bs ≠ [] := by
    intro h
    have := pb.comma g
    rw [h] at this
    cases this
  refine ⟨fun hb => ?_, fun hb => ?_⟩
  · exact isEquiv_normal (set_fixed pa ha E n) hn (set_strip pa ha) hst hne₀ hne z2 hb (set_notMatrix pa)
      (pb.notMatrix g) (possibleTuple_of h1 h2 (elemsEquiv_mixed _ _ _ _ e2)) rfl
  · exact isEquiv_normal hn (set_fixed pa ha E n) hst (set_strip pa ha) hne₀.symm hne.symm z1 (hbr hb) (pb.notMatrix g)
      (set_notMatrix pa) (possibleTuple_of h2 h1 (elemsEquiv_mixed _ _ _ _ e1)) rfl

/-- **C102**, plain braces.  A list in plain braces `{...}` gets the verdicts of the list without brackets, as reference and as
prediction. -/
theorem C102_braces {E : Env X V S} {as bs : List Str} (pa : Pieces as) (pb : Pieces bs) {n : Nat} {verbose r : Bool}
    (h : Always (isEquiv E (n + 2) (some (join s%"," as)) (some (join s%"," bs)) verbose) r) (c d : Bool) :
    Always (isEquiv E (n + 2) (some (looseText c as)) (some (looseText d bs)) verbose) r := by
  by_cases hi : Nonempty (World X)
  swap
  · exact fun w => (hi ⟨w⟩).elim
  obtain ⟨w⟩ := hi
  have st : ∀ {es : List Str}, Pieces es → ∀ c, strip (looseText c es) = looseText c es := by
    intro es he c
    cases c with
    | true => exact strip_of_no_space _ fun _ hc => (braced_clear he (b := false) (by simp)).space hc
    | false => exact he.strip (f := none) (by simp)
  have all : ∀ c d, isEquiv E (n + 2) (some (looseText c as)) (some (looseText d bs)) verbose =
      if looseText c as = looseText d bs then pure true else (do
        if verbose then M.print normLine
        compareNorms E (isEquivStr E (n + 1)) (n + 1) verbose (.str (join s%"," as)) (.str (join s%"," bs))) := by
    intro c d
    simp only [isEquiv]
    rw [isEquivStr, st pa c, st pb d, loose_normal pa, loose_normal pb]
    rfl
  have h' : Always (isEquiv E (n + 2) (some (looseText false as)) (some (looseText false bs)) verbose) r := h
  rw [all] at h' ⊢
  by_cases he : join s%"," as = join s%"," bs
  · have hr : true = r := by
      rw [if_pos (show looseText false as = looseText false bs from he)] at h'
      exact (Always.pure true).unique w h'
    rw [← hr]
    split
    · exact Always.pure _
    · apply print_always
      unfold compareNorms
      simpa [he] using Always.pure true
  · rw [if_neg (show looseText false as ≠ looseText false bs from he)] at h'
    rwa [if_neg]
    intro hx
    have h1 := loose_normal pa E 0 c
    rw [hx, loose_normal pb] at h1
    have := congrArg (fun m : M X Norm => (m w).1) h1
    simp only [M.pure_run, Except.ok.injEq, Norm.str.injEq] at this
    exact he this.symm

end Verif

namespace Verif.L2S
open Verif Verif.Reading Verif.Grammar

section
variable {K : Type} [Field K] [LinearOrder K] [IsStrictOrderedRing K] {Y S : Type}

/-- A set of numbers in LaTeX notation: its elements, without variables, have the values `xs`.  SymPy makes numbers of these values of
them, and `parse_expr` raises on the text. -/
structure SetAnswer (E : Env (St Y) SV S) (I : Interp K) (Is : SV → K → Prop) (es : List Str) (xs : List K) : Prop where
  pieces : Pieces es
  bars : ∀ e ∈ es, '|' ∉ e
  two : 2 ≤ xs.length
  denotes : ∃ us, ∃ wide : Bool, Listing I (fun _ => False) wide ',' us (xs.map .value) ∧
    Written ([.cmd s%"{"] ++ us ++ [.cmd s%"}"]) (setText es)
  value : ∀ w vs w', E.l2s (setText es) w = (.ok (.list vs), w') → ∀ v ∈ vs, ∀ x, v.scalar = true → den I v = x → Is v x
  parseExpr : ∀ w, ∃ e w', E.parseExpr (replace s%"^" s%"**" (setText es)) w = (.error e, w')

variable {E : Env (St Y) SV S} {L : Lib Y} {I : Interp K} {Is Ev : SV → K → Prop} {N : Nat}

omit [LinearOrder K] [IsStrictOrderedRing K] in
theorem listing_assuming {style : Style} {us : List Sign} {xs : List K} (r : Option Bool)
    (h : Listing I (fun _ => False) style ',' us (xs.map .value)) :
    Listing (I.assuming r) (fun _ => False) style ',' us (xs.map .value) := by
  have key : ∀ {us : List Sign} {ms : List (Meaning K)}, Listing I (fun _ => False) style ',' us ms →
      Listing (I.assuming r) (fun _ => False) style ',' us ms := by
    have item : ∀ {us : List Sign} {m : Meaning K}, Item I (fun _ => False) style us m → Item (I.assuming r) (fun _ => False) style us m := by
      intro us m h
      cases h with
      | expr h => exact .expr (denotes_assuming r h fun _ h => h)
      | rel ho h h' => exact .rel ho (denotes_assuming r h fun _ h => h) (denotes_assuming r h' fun _ h => h)
    intro us ms h
    induction h with
    | one h => exact .one (item h)
    | cons h _ h3 ih => exact .cons (item h) ih h3
  exact key h

theorem SetAnswer.l2s (hL : SoundLib I L) (hp : ∀ s t, parseText s = some t → L.parse s = .ok t) (hl : UsesLatex2sympy E L N)
    {es : List Str} {xs : List K} (h : SetAnswer E I Is es xs) :
    RetP (E.l2s (setText es)) fun v => ∃ vs, v = .list vs ∧ List.Forall₂ Is vs xs := by
  intro w
  obtain ⟨us, wide, hd, hw⟩ := h.denotes
  obtain ⟨vs, w', h1, h2⟩ := C87_list_partial (hL.assuming w.g.isReal) hp N [] ⟨w, []⟩ ⟨rfl, fun _ h => h.elim⟩ (.inl rfl)
    (l := [.cmd s%"{"]) (q := [.cmd s%"}"]) (by decide) (listing_assuming w.g.isReal hd) (by simpa using h.two) hw
  have e : E.l2s (setText es) w = (.ok (.list vs), w'.ext) := by rw [hl, h1]
  refine ⟨_, _, e, vs, rfl, ?_⟩
  have hv := h.value w vs _ e
  clear h1 e hd hw
  have key : ∀ {vs : List SV} {xs : List K}, List.Forall₂ (Says (I.assuming w.g.isReal)) vs (xs.map .value) →
      (∀ v ∈ vs, ∀ x, v.scalar = true → den I v = x → Is v x) → List.Forall₂ Is vs xs := by
    intro vs
    induction vs with
    | nil =>
      intro xs h _
      cases xs with
      | nil => exact .nil
      | cons x xs => cases h
    | cons v vs ih =>
      intro xs h hv
      cases xs with
      | nil => cases h
      | cons x xs =>
        cases h with
        | cons h1 h2 =>
          refine .cons ?_ (ih h2 fun v hm => hv v (by simp [hm]))
          cases h1 with
          | value a b => exact hv v (by simp) x a (by rw [← b, den_assuming])
  exact key h2 hv

theorem SetAnswer.reads (hL : SoundLib I L) (hp : ∀ s t, parseText s = some t → L.parse s = .ok t) (hl : UsesLatex2sympy E L N)
    {es : List Str} {xs : List K} (h : SetAnswer E I Is es xs) :
    ReadsAs E (setText es) fun v => ∃ vs, v = .list vs ∧ List.Forall₂ Is vs xs := by
  unfold ReadsAs sympyParse
  apply AlwaysP.bind (P := fun p : Option SV × Option SV => ∃ v, p = (some v, none) ∧ ∃ vs, v = .list vs ∧ List.Forall₂ Is vs xs)
  · unfold parseCands12
    apply AlwaysP.bind (P := fun o => ∃ v, o = some v ∧ ∃ vs, v = .list vs ∧ List.Forall₂ Is vs xs)
    · apply AlwaysP.tryExcept
      apply (h.l2s hL hp hl).always.bind
      intro v hv
      exact AlwaysP.pure ⟨v, rfl, hv⟩
    · rintro _ ⟨v, rfl, hv⟩
      exact AlwaysP.pure ⟨v, rfl, hv⟩
  · rintro _ ⟨v, rfl, hv⟩
    have h3 : Always (parseCand3 E (setText es) (some v) none) none := by
      unfold parseCand3
      exact Fails.tryExcept (fails_ext h.parseExpr).bind fun _ => Always.pure none
    apply h3.bindP
    refine AlwaysP.pure ⟨fun u hu => ?_, v, by simp⟩
    simp only [List.mem_cons, Option.some.injEq, reduceCtorEq, List.not_mem_nil, or_false] at hu
    rwa [hu]

open Classical in
theorem allPairs_real (H : RealArith E Is Ev) (n : Nat) : ∀ {vs ws : List SV} {xs ys : List K}, List.Forall₂ Is vs xs →
    List.Forall₂ Is ws ys → vs.length = ws.length →
    Always (allPairs (eqTyped E (areEqual E (n + 1))) vs ws) (decide (List.Forall₂ WithinTolerance xs ys)) := by
  have ty : ∀ {v x}, Is v x → Always (getType E v) .expr := by
    intro v x h
    unfold getType
    rw [H.view h]
    exact Always.pure _
  intro vs
  induction vs with
  | nil =>
    intro ws xs ys h1 h2 hl
    cases ws with
    | nil => cases h1; cases h2; simpa [allPairs] using Always.pure true
    | cons _ _ => cases hl
  | cons v vs ih =>
    intro ws xs ys h1 h2 hl
    cases ws with
    | nil => cases hl
    | cons u ws =>
      cases h1 with
      | @cons _ x _ xs a1 a2 =>
        cases h2 with
        | @cons _ y _ ys b1 b2 =>
          have first : Always (eqTyped E (areEqual E (n + 1)) v u) (decide (WithinTolerance x y)) := by
            apply (ty a1).bind
            apply (ty b1).bind
            exact areEqual_real H n a1 b1
          unfold allPairs
          apply first.bind
          by_cases hxy : WithinTolerance x y
          · have := ih a2 b2 (by simpa using hl)
            simpa [hxy] using this
          · simpa [hxy] using Always.pure false

open Classical in
/-- **C102.**  Two sets of numbers written `\{...\}` are judged equivalent exactly if their elements agree within the tolerance, in the
order in which they are written. -/
theorem C102_sets_partial (H : RealArith E Is Ev) (hL : SoundLib I L) (hp : ∀ s t, parseText s = some t → L.parse s = .ok t)
    (hl : UsesLatex2sympy E L N) (hv : ∀ vs, E.view (.list vs) = .list vs) {as bs : List Str} {xs ys : List K}
    (ha : SetAnswer E I Is as xs) (hb : SetAnswer E I Is bs ys) (hbr : hasBracket (setText as) = false) (n : Nat) (verbose : Bool) :
    Always (isEquiv E (n + 3) (some (setText as)) (some (setText bs)) verbose) (decide (List.Forall₂ WithinTolerance xs ys)) := by
  by_cases hw : Nonempty (World (St Y))
  swap
  · exact fun w => (hw ⟨w⟩).elim
  obtain ⟨w⟩ := hw
  have cas : ∀ {as bs : List Str} {xs ys : List K}, SetAnswer E I Is as xs → SetAnswer E I Is bs ys →
      Always (areEqualUnderSympy E (n + 2) (setText as) (setText bs) verbose) (decide (List.Forall₂ WithinTolerance xs ys)) := by
    intro as bs xs ys ha hb
    refine areEqualUnderSympy_by (ha.reads hL hp hl) (hb.reads hL hp hl) ?_ verbose
    rintro _ _ ⟨vs, rfl, h1⟩ ⟨ws, rfl, h2⟩
    have ty : ∀ vs, Always (getType E (.list vs)) .vec := by
      intro vs
      unfold getType
      rw [hv]
      exact Always.pure _
    apply (ty vs).bind
    apply (ty ws).bind
    show Always (areEqualBody E (areEqual E (n + 1)) (.list vs) (.list ws) .vec .vec) _
    unfold areEqualBody
    have el : ∀ vs, Always (listElems E (.list vs)) vs := by
      intro vs
      unfold listElems
      rw [hv]
      exact Always.pure _
    apply (el vs).bind
    apply (el ws).bind
    by_cases hlen : vs.length = ws.length
    · simpa [hlen] using allPairs_real H n h1 h2 hlen
    · have : ¬ List.Forall₂ WithinTolerance xs ys := by
        intro h
        exact hlen (h1.length_eq.trans (h.length_eq.trans h2.length_eq.symm))
      simpa [hlen, this] using Always.pure false
  by_cases he : setText as = setText bs
  · have h1 := cas ha hb
    have h2 := cas ha ha
    rw [← he] at h1
    have hr : ∀ xs : List K, List.Forall₂ WithinTolerance xs xs := fun xs =>
      List.forall₂_same.2 fun x _ => @of_decide_eq_true _ (Classical.dec _) (withinTolerance_refl x)
    rw [decide_eq_true (hr xs)] at h2
    rw [h1.unique w h2, he]
    simp only [isEquiv, isEquivStr, if_true]
    exact Always.pure _
  · refine isEquiv_normal (p := (false, false)) (set_fixed ha.pieces ha.bars E (n + 1)) (set_fixed hb.pieces hb.bars E (n + 1))
      (set_strip ha.pieces ha.bars) (set_strip hb.pieces hb.bars) he he (by simp [bracedText]) hbr (set_notMatrix ha.pieces)
      (set_notMatrix hb.pieces) ?_ (by simpa using cas ha hb)
    refine possibleTuple_of (set_unsplit ha.pieces ha.bars _ _) (set_unsplit hb.pieces hb.bars _ _) ?_
    simpa [elemsEquiv] using Always.pure (false, false)

end

/-- Sets of two digits are answers of this kind. -/
theorem digit_set (i j : Fin 10) {as : List Str} {x y : ℝ} (ha : as = [natStr i.val, natStr j.val]) (hx : x = ((i.val : ℚ) : ℝ))
    (hy : y = ((j.val : ℚ) : ℝ))
    (hw : writtenB ([.cmd s%"{"] ++ ([.digit i] ++ .mark ',' :: [.digit j]) ++ [.cmd s%"}"]) (setText as) = true)
    (hp : piecesB as = true) : SetAnswer realEnv reals IsReal as [x, y] where
  pieces := piecesB_sound hp
  bars := by
    intro e he hc
    rw [ha] at he
    have : e = natStr i.val ∨ e = natStr j.val := by simpa using he
    rcases this with rfl | rfl
    · exact absurd (natStr_digits _ _ hc) (by decide)
    · exact absurd (natStr_digits _ _ hc) (by decide)
  two := by simp
  denotes := ⟨_, false, by
    rw [hx, hy]
    exact .cons (.expr (digit_denotes reals i)) (.one (.expr (digit_denotes reals j))) (fun _ => rfl), writtenB_sound hw⟩
  value := fun _ _ _ _ _ _ _ h1 h2 => ⟨h1, h2⟩
  parseExpr := fun w => ⟨_, w, rfl⟩

theorem set12 : SetAnswer realEnv reals IsReal [s%"1", s%"2"] [1, 2] :=
  digit_set 1 2 (by decide +kernel) (by norm_num) (by norm_num) (by decide +kernel) (by decide +kernel)

theorem set21 : SetAnswer realEnv reals IsReal [s%"2", s%"1"] [2, 1] :=
  digit_set 2 1 (by decide +kernel) (by norm_num) (by norm_num) (by decide +kernel) (by decide +kernel)

theorem set13 : SetAnswer realEnv reals IsReal [s%"1", s%"3"] [1, 3] :=
  digit_set 1 3 (by decide +kernel) (by norm_num) (by norm_num) (by decide +kernel) (by decide +kernel)

/-- `\{1,2\}` and `\{1,3\}` are judged not equivalent. -/
example (n : Nat) (verbose : Bool) :
    Always (isEquiv realEnv (n + 3) (some s%"\\{1,2\\}") (some s%"\\{1,3\\}") verbose) false :=
  (C102_sets_partial realEnv_arith (nodeLib_sound _ none _) grammarLib_parse realEnv_uses (fun _ => rfl) set12 set13
    (by decide +kernel) n verbose).no (by
      simp only [List.forall₂_cons, not_and]
      intro _ h
      rw [WithinTolerance, abs_of_pos (by norm_num : (0 : ℝ) < 2), abs_of_neg (by norm_num : (2 - 3 : ℝ) < 0)] at h
      norm_num at h)

/-- **C102 is violated for the order of the elements**: `\{1,2\}` and `\{2,1\}` are the same set, and are judged not equivalent. -/
theorem C102_order_refuted (n : Nat) (verbose : Bool) :
    Always (isEquiv realEnv (n + 3) (some s%"\\{1,2\\}") (some s%"\\{2,1\\}") verbose) false ∧
    SetAnswer realEnv reals IsReal [s%"1", s%"2"] [1, 2] ∧ SetAnswer realEnv reals IsReal [s%"2", s%"1"] [2, 1] ∧
    ({1, 2} : Set ℝ) = {2, 1} := by
  refine ⟨(C102_sets_partial realEnv_arith (nodeLib_sound _ none _) grammarLib_parse realEnv_uses (fun _ => rfl) set12 set21
    (by decide +kernel) n verbose).no ?_, set12, set21, Set.pair_comm 1 2⟩
  simp only [List.forall₂_cons, not_and]
  intro h
  rw [WithinTolerance, abs_of_pos (by norm_num : (0 : ℝ) < 1), abs_of_neg (by norm_num : (1 - 2 : ℝ) < 0)] at h
  norm_num at h

/-- **C102 is violated for the notation**: the set `\{1,2\}` is judged different from the same elements in plain braces, which are
judged equivalent to the list without brackets. -/
theorem C102_notation_refuted {X V S : Type} (E : Env X V S) (n : Nat) (verbose : Bool) :
    Always (isEquiv E (n + 2) (some s%"\\{1,2\\}") (some s%"{1,2}") verbose) false ∧
    Always (isEquiv E (n + 2) (some s%"{1,2}") (some s%"\\{1,2\\}") verbose) false ∧
    Always (isEquiv E (n + 2) (some s%"1,2") (some s%"{1,2}") verbose) true := by
  have p : Pieces [s%"1", s%"2"] := piecesB_sound (by decide +kernel)
  refine ⟨?_, ?_, ?_⟩
  · exact (C102_notations_partial p p (by decide +kernel) (some .curly) n verbose).1 (by decide +kernel)
  · exact (C102_notations_partial p p (by decide +kernel) (some .curly) n verbose).2 (by decide +kernel)
  · refine C102_braces p p (c := false) (d := true) ?_
    simp only [isEquiv, isEquivStr, if_true]
    exact Always.pure _

end Verif.L2S
