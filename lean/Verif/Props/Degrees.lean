import Verif.Props.LastStage
/-
Property C24: degrees.
-/

namespace Verif
open Re

variable {X V S : Type}

/-! ### Specification -/

/-- A decimal numeral: optional minus sign, digits, optionally a point and digits. -/
structure Numeral where
  neg : Bool
  int : Str
  frac : Option Str
  int_digits : ∀ c ∈ int, asciiDigit c = true
  frac_digits : ∀ f, frac = some f → f ≠ [] ∧ ∀ c ∈ f, asciiDigit c = true
  nonempty : int ≠ [] ∨ frac ≠ none

def Numeral.fracText (x : Numeral) : Str := match x.frac with | some f => '.' :: f | none => []

/-- The text of a numeral. -/
def Numeral.text (x : Numeral) : Str := (if x.neg then s%"-" else []) ++ x.int ++ x.fracText

/-! ### Proof -/

theorem Numeral.body_plain (x : Numeral) : ∀ c ∈ x.int ++ x.fracText, asciiDigit c = true ∨ c = '.' := by
  intro c hc
  rcases List.mem_append.1 hc with h | h
  · exact .inl (x.int_digits c h)
  · unfold Numeral.fracText at h
    cases hf : x.frac with
    | none => rw [hf] at h; cases h
    | some f =>
      rw [hf] at h
      rcases List.mem_cons.1 h with rfl | h
      · exact .inr rfl
      · exact .inl ((x.frac_digits f hf).2 c h)

theorem Numeral.plain (x : Numeral) : ∀ c ∈ x.text, Verif.plain c = true := by
  intro c hc
  unfold Numeral.text at hc
  rw [List.append_assoc] at hc
  rcases List.mem_append.1 hc with h | h
  · split at h
    · rw [List.mem_singleton.1 h]; decide
    · cases h
  · rcases x.body_plain c h with h | rfl
    · simp [Verif.plain, h]
    · decide

theorem Numeral.ne_nil (x : Numeral) : x.text ≠ [] := by
  unfold Numeral.text Numeral.fracText
  rcases x.nonempty with h | h
  · simp [h]
  · cases hf : x.frac with
    | none => exact absurd hf h
    | some f => simp

/-- What the last stage does with a plain number: an integer is printed by the CAS, anything else stays. -/
theorem further_plain (E : Env X V S) (hE : PrintsIntegers E) (s : Str) (hs : ∀ c ∈ s, plain c = true) :
    ∃ r, Always (further E s) r ∧ (∀ c ∈ r, plain c = true) ∧ (r = s ∨ ∃ x z, pyFloat E.U s = some x ∧ isIntFloat x = true ∧
      x.roundInt = some z ∧ r = intStr z) := by
  have he : contains s%"e" s = false := (contains_eq_false _ _).2 (not_infix_of_not_mem 'e' (by simp)
    (fun h => absurd (hs _ h) (by decide)))
  have hsc : stripCommas E.U s = s := by
    apply reSub_of_lang
    rintro u ⟨a, b, rfl, _, hb⟩ hi
    obtain ⟨b1, b2, rfl, hb1, _⟩ := hb
    obtain ⟨p, v, q, rfl, hv⟩ := lang_cat_mem (r := c ',') (by simp) hb1
    rw [lang_c.1 hv] at hi
    exact absurd (hs _ (hi.subset (by simp : ',' ∈ _))) (by decide)
  have key : (∃ x z, pyFloat E.U s = some x ∧ isIntFloat x = true ∧ x.roundInt = some z ∧ canonFloat E.U s = intStr z) ∨
      (canonFloat E.U s = s ∧ strIsInt E.U s = false) := by
    unfold canonFloat strIsInt
    rw [hsc]
    cases hf : pyFloat E.U s with
    | none => right; simp
    | some x =>
      simp only
      by_cases hi : isIntFloat x = true
      · left
        have : ∃ z, x.roundInt = some z := by
          cases x with
          | nan => exact absurd hi (by decide)
          | inf b => exact absurd hi (by cases b <;> decide)
          | fin b m e => exact ⟨_, rfl⟩
        obtain ⟨z, hz⟩ := this
        refine ⟨x, z, rfl, hi, hz, ?_⟩
        rw [hi, he, hz]; simp
      · right
        rw [Bool.not_eq_true] at hi
        rw [hi]; simp
  rcases key with ⟨x, z, h1, h2, h3, h4⟩ | ⟨h1, h2⟩
  · exact ⟨intStr z, further_int E hE s z hs h4, intStr_allPlain z, .inr ⟨x, z, h1, h2, h3, rfl⟩⟩
  · refine ⟨s, ?_, hs, .inl rfl⟩
    unfold further
    rw [furtherPure_plain E.U s hs (by rw [h1]; exact hs), h1, canonInt_id E h2]
    exact Always.pure _

/-- The spellings of the degree sign. -/
def DegreeSign (p : Str) : Prop := p = s%"^\\circ" ∨ p = s%"^{\\circ}"

theorem first_circ {p : Str} (hp : DegreeSign p) (pre : Str) (caps : List (Nat × Str)) :
    circRe.First ⟨pre, p, caps⟩ ⟨p.reverse ++ pre, [], caps⟩ := by
  rcases hp with rfl | rfl <;> rfl

/-- The degree alphabet. -/
def degChar (c : Char) : Bool := plain c || (s%"^\\circ{}").contains c

theorem deg_units : ∀ u ∈ unitLong ++ unitShort, ∃ x ∈ u, x ≠ '.' ∧ degChar x = false := by decide +kernel

theorem circ_run_none {pre rest : Str} {caps : List (Nat × Str)} (h : ∀ x, rest.head? = some x → x ≠ '^') :
    circRe.run ⟨pre, rest, caps⟩ = [] :=
  run_cat_nil (run_chr_empty fun x hx => by simpa using h x hx)

theorem plain_ne {c x : Char} (h : plain c = true) (hx : plain x = false) : c ≠ x := by
  rintro rfl; rw [h] at hx; cases hx

/-- Removing the degree sign. -/
theorem circ_removed {s p : Str} (hs : ∀ c ∈ s, plain c = true) (hp : DegreeSign p) : reSubConst circRe [] (s ++ p) = s := by
  unfold reSubConst reSub
  rw [scanSub_skip]
  · have hsc := First.scanner (fun _ _ => []) (cs := []) (pre := s.reverse ++ []) (by rw [List.append_nil p]; exact first_circ hp _ [])
    have hne : p ≠ [] := by rcases hp with rfl | rfl <;> simp
    have := scanSub_match (circRe.scanner fun _ _ => []) (s.reverse ++ []) p [] _ hne hsc
    rw [List.append_nil p] at this
    rw [this]
    have hm : ∀ pre, circRe.matchAt pre [] = none := fun _ => rfl
    simp only [scanSub, Re.scanner, hm]
    simp
  · intro a₁ a₂ e hne
    have : circRe.matchAt (a₁.reverse ++ []) (a₂ ++ p) = none := by
      unfold Re.matchAt
      rw [circ_run_none]
      · rfl
      · intro x hx
        obtain ⟨y, ys, rfl⟩ := List.exists_cons_of_ne_nil hne
        simp at hx; subst hx
        exact plain_ne (hs y (by rw [e]; simp)) (by decide)
    simp only [Re.scanner, this]

theorem circ_found {s p : Str} (hs : ∀ c ∈ s, plain c = true) (hp : DegreeSign p) : (reSearch circRe (s ++ p)).isSome = true := by
  have : reSearch circRe (s ++ p) = some ⟨p.reverse ++ (s.reverse ++ []), [], []⟩ := by
    refine (searchFrom_some_iff _ _ _ _).2 ⟨s, p, rfl, first_circ hp _ _, ?_⟩
    intro a₁ a₂ e hne
    unfold Re.matchAt
    rw [circ_run_none]
    · rfl
    · intro x hx
      obtain ⟨y, ys, rfl⟩ := List.exists_cons_of_ne_nil hne
      simp at hx; subst hx
      exact plain_ne (hs y (by rw [e]; simp)) (by decide)
  rw [this]; rfl

theorem circ_replaced (U : Uni) (x : Numeral) {p : Str} (hp : DegreeSign p) : circSub U (x.text ++ p) = x.text ++ s%"/180*\\pi" := by
  have hpne : p ≠ [] := by rcases hp with rfl | rfl <;> simp
  have hhead : ∀ y, p.head? = some y → y = '^' := by
    rcases hp with rfl | rfl <;> (intro y hy; simp at hy; exact hy.symm)
  have hd : ∀ c ∈ x.int, isDigit U c = true := fun c hc => isDigit_of_ascii U (x.int_digits c hc)
  -- the match of the number
  have hfirst : ∀ pre, ∃ caps pre', RSt.groupD ⟨pre', [], caps⟩ 1 = x.int ∧ RSt.groupD ⟨pre', [], caps⟩ 2 = x.fracText ∧
      (circNumRe U).First ⟨pre, x.int ++ x.fracText ++ p, []⟩ ⟨pre', [], caps⟩ := by
    intro pre
    rw [List.append_assoc]
    cases hf : x.frac with
    | none =>
      have hft : x.fracText = [] := by unfold Numeral.fracText; rw [hf]
      rw [hft, List.nil_append]
      refine ⟨_, _, ?_, ?_, First.cat_cons (First.grp (First.many x.int p pre [] hd ?_)) (First.cat_cons (First.opt_none ?_)
        (First.cat_cons (First.many [] p _ _ (by simp) ?_) (First.cat_one (first_circ hp _ _))))⟩
      · rfl
      · rfl
      · intro y hy; rw [hhead y hy]; rfl
      · have : (c '.').run ⟨x.int.reverse ++ pre, p, [(1, x.int)]⟩ = [] :=
          run_chr_empty (fun y hy => by rw [hhead y hy]; rfl)
        simp [this]
      · intro y hy; rw [hhead y hy]; rfl
    | some f =>
      have hft : x.fracText = '.' :: f := by unfold Numeral.fracText; rw [hf]
      obtain ⟨hfne, hfd⟩ := x.frac_digits f hf
      have hfd' : ∀ c ∈ f, isDigit U c = true := fun c hc => isDigit_of_ascii U (hfd c hc)
      rw [hft]
      refine ⟨_, _, ?_, ?_, First.cat_cons (First.grp (First.many x.int ('.' :: f ++ p) pre [] hd ?_)) (First.cat_cons
        (First.opt_some (First.grp (u := '.' :: f) (cs := p) (First.seq (First.c '.' _ _ _) (First.plus f p _ _ hfne hfd' ?_))))
        (First.cat_cons (First.many [] p _ _ (by simp) ?_) (First.cat_one (first_circ hp _ _))))⟩
      · rfl
      · rfl
      · rintro y ⟨⟩; rfl
      · intro y hy; rw [hhead y hy]; rfl
      · intro y hy; rw [hhead y hy]; rfl
  have hbody : ∀ pre, scanSub ((circNumRe U).scanner fun _ t => t.groupD 1 ++ t.groupD 2 ++ s%"/180*\\pi") 0 pre (x.int ++ x.fracText ++ p) =
      x.int ++ x.fracText ++ s%"/180*\\pi" := by
    intro pre
    obtain ⟨caps, pre', h1, h2, h⟩ := hfirst pre
    have hsc := First.scanner (fun _ t => t.groupD 1 ++ t.groupD 2 ++ s%"/180*\\pi") (cs := []) (u := x.int ++ x.fracText ++ p) (by
      rw [List.append_nil (x.int ++ x.fracText ++ p)]; exact h)
    have := scanSub_match ((circNumRe U).scanner fun _ t => t.groupD 1 ++ t.groupD 2 ++ s%"/180*\\pi") pre
      (x.int ++ x.fracText ++ p) [] _ (by simp [hpne]) hsc
    rw [List.append_nil (x.int ++ x.fracText ++ p)] at this
    rw [this, h1, h2]
    have hm : ∀ pre, (circNumRe U).matchAt pre [] = none := fun _ => rfl
    simp only [scanSub, Re.scanner, hm]
    simp
  unfold circSub reSub Numeral.text
  by_cases hneg : x.neg = true
  · rw [if_pos hneg]
    have hm : (circNumRe U).matchAt [] ('-' :: (x.int ++ x.fracText ++ p)) = none := by
      unfold Re.matchAt
      have h1 : (circNumRe U).run ⟨[], '-' :: (x.int ++ x.fracText ++ p), []⟩ = [] := by
        have hnd : isDigit U '-' = false := rfl
        unfold circNumRe
        refine run_seq_nil' ?_
        intro t ht
        have e1 : (many (d U)).run ⟨[], '-' :: (x.int ++ x.fracText ++ p), []⟩ = [⟨[], '-' :: (x.int ++ x.fracText ++ p), []⟩] :=
          run_many_none (by rintro y ⟨⟩; exact hnd)
        rw [List.append_assoc] at e1
        simp [e1] at ht
        subst ht
        refine run_seq_nil' ?_
        intro t ht
        have e2 : t = ⟨[], '-' :: (x.int ++ (x.fracText ++ p)), [(1, [])]⟩ := by
          simpa [opt, c] using ht
        subst e2
        refine run_seq_nil' ?_
        intro t ht
        have e3 := run_many_none (p := (· == ' ')) (pre := []) (cs := '-' :: (x.int ++ (x.fracText ++ p))) (caps := [(1, [])])
          (by rintro y ⟨⟩; rfl)
        have e3' : (many (c ' ')).run ⟨[], '-' :: (x.int ++ (x.fracText ++ p)), [(1, [])]⟩ = [⟨[], '-' :: (x.int ++ (x.fracText ++ p)), [(1, [])]⟩] := e3
        rw [e3'] at ht
        rw [List.mem_singleton.1 ht]
        exact circ_run_none (by rintro y ⟨⟩; decide)
      rw [h1]; rfl
    have hsc : (circNumRe U).scanner (fun _ t => t.groupD 1 ++ t.groupD 2 ++ s%"/180*\\pi") [] ('-' :: (x.int ++ x.fracText ++ p)) = none := by
      simp only [Re.scanner, hm]
    have : s%"-" ++ x.int ++ x.fracText ++ p = '-' :: (x.int ++ x.fracText ++ p) := by simp
    rw [this]
    simp only [scanSub, hsc]
    rw [hbody]
    simp
  · rw [if_neg hneg]
    simp only [List.nil_append]
    exact hbody []

/-- The last stage leaves the reading in radians alone. -/
theorem further_radians (E : Env X V S) (s : Str) (hs : ∀ c ∈ s, plain c = true) (h0 : s ≠ []) :
    Always (further E (s ++ s%"/180*\\pi")) (s ++ s%"/180*\\pi") := by
  have hmem : ∀ c ∈ s ++ s%"/180*\\pi", plain c = true ∨ c ∈ s%"/180*\\pi" := fun c hc => by
    rcases List.mem_append.1 hc with h | h
    · exact .inl (hs c h)
    · exact .inr h
  have hno : ∀ x, plain x = false → x ∉ s%"/180*\\pi" → x ∉ s ++ s%"/180*\\pi" := by
    intro x h1 h2 h3
    rcases hmem x h3 with h | h
    · rw [h] at h1; cases h1
    · exact h2 h
  have hslash : '/' ∈ s ++ s%"/180*\\pi" := by simp
  have hfp : furtherPure E.U (s ++ s%"/180*\\pi") = s ++ s%"/180*\\pi" := by
    have h1 : canonFloat E.U (s ++ s%"/180*\\pi") = s ++ s%"/180*\\pi" := by
      unfold canonFloat; rw [pyFloat_none '/' hslash rfl]
    have h2 : parseLatexStr (s ++ s%"/180*\\pi") = s ++ s%"/180*\\pi" := by
      unfold parseLatexStr
      simp only
      rw [replace_id s%"\\tfrac" _ _ (not_infix_of_not_mem 't' (by simp) (hno 't' rfl (by decide))),
        replace_id s%"\\cfrac" _ _ (not_infix_of_not_mem 'c' (by simp) (hno 'c' rfl (by decide))),
        replace_id s%"\\dfrac" _ _ (not_infix_of_not_mem 'd' (by simp) (hno 'd' rfl (by decide))),
        replace_id s%"√" _ _ (not_infix_of_not_mem '√' (by simp) (hno '√' rfl (by decide))),
        replace_id s%"π" _ _ (not_infix_of_not_mem 'π' (by simp) (hno 'π' rfl (by decide))),
        replace_id s%"∞" _ _ (not_infix_of_not_mem '∞' (by simp) (hno '∞' rfl (by decide))),
        replace_id s%"∪" _ _ (not_infix_of_not_mem '∪' (by simp) (hno '∪' rfl (by decide))),
        replace_id s%"·" _ _ (not_infix_of_not_mem '·' (by simp) (hno '·' rfl (by decide))),
        replace_id s%"×" _ _ (not_infix_of_not_mem '×' (by simp) (hno '×' rfl (by decide)))]
      apply strip_id
      · intro c hc
        obtain ⟨a, as, rfl⟩ := List.exists_cons_of_ne_nil h0
        simp at hc; subst hc
        have := hs a (by simp)
        have h3 : 45 ≤ a.toNat ∧ a.toNat ≤ 57 := by
          simp only [plain, Bool.or_eq_true, beq_iff_eq] at this
          rcases this with (h | rfl) | rfl
          · have : 48 ≤ a.toNat ∧ a.toNat ≤ 57 := by simpa [asciiDigit] using h
            omega
          · decide
          · decide
        simp only [isSpace, decide_eq_false_iff_not]; omega
      · intro c hc
        simp at hc; subst hc; decide
    unfold furtherPure
    simp only
    rw [stripBraces_id (fun e => hno '{' rfl (by decide) (List.mem_of_head? e)), h1]
    rw [(contains_iff s%"\\" _).2 ⟨s ++ s%"/180*", s%"pi", by simp⟩]
    simp only [if_true]
    rw [h2, dash_id _ (hno ' ' rfl (by decide))]
    have h3 : injectMixed E.U (s ++ s%"/180*\\pi") = s ++ s%"/180*\\pi" := by
      unfold injectMixed
      simp only
      have e1 : reSub (mixedRe1 E.U) (fun _ t => t.groupD 1 ++ s%"+" ++ t.groupD 2) (s ++ s%"/180*\\pi") = s ++ s%"/180*\\pi" := by
        refine reSub_id_of_part (r := plus (c ' ')) (by simp) ?_
        intro u hu hi
        obtain ⟨a, b, rfl, ha, _⟩ := hu
        rw [lang_c.1 ha] at hi
        exact hno ' ' rfl (by decide) (hi.subset (by simp))
      rw [e1]
      refine reSub_id_of_part (r := grp 2 (cat [lit s%"\\frac", digitOrBraced E.U 3, digitOrBraced E.U 4])) (by simp) ?_
      intro u hu hi
      obtain ⟨a, v, b, rfl, hv⟩ := lang_cat_mem (r := lit s%"\\frac") (by simp) hu
      rw [lang_lit.1 hv] at hi
      exact hno 'f' rfl (by decide) (hi.subset (by simp))
    rw [h3, replace_id _ _ _ (not_infix_of_not_mem ' ' (by simp) (hno ' ' rfl (by decide)))]
    apply lower_id
    intro c hc
    rcases hmem c hc with h | h
    · exact plain_ascii h
    · have : ∀ c ∈ s%"/180*\\pi", c.toNat < 128 ∧ asciiUpper c = false := by decide
      exact this c h
  unfold further
  rw [hfp, canonInt_id E (strIsInt_false (x := '/') hslash rfl (by decide))]
  exact Always.pure _

/-- The stages before the degrees do nothing. -/
theorem deg_normBody (E : Env X V S) (rec : Str → M X Norm) (s p : Str) (hs : ∀ c ∈ s, plain c = true) (h0 : s ≠ [])
    (hp : DegreeSign p) : normBody E rec (s ++ p) = degrees E (s ++ p) := by
  have hA : ∀ c ∈ s ++ p, degChar c = true := by
    intro c hc
    rcases List.mem_append.1 hc with h | h
    · simp [degChar, hs c h]
    · have : ∀ c ∈ s%"^\\circ{}", degChar c = true := by decide
      apply this
      rcases hp with rfl | rfl
      · have h' : ∀ c ∈ s%"^\\circ", c ∈ s%"^\\circ{}" := by decide
        exact h' c h
      · have h' : ∀ c ∈ s%"^{\\circ}", c ∈ s%"^\\circ{}" := by decide
        exact h' c h
  have hno : ∀ x, degChar x = false → x ∉ s ++ p := fun x hx hm => by rw [hA x hm] at hx; cases hx
  obtain ⟨a, as, rfl⟩ := List.exists_cons_of_ne_nil h0
  have ha := hs a (by simp)
  have hbs : '\\' ∉ a :: as := fun h => plain_ne (hs _ h) (by decide) rfl
  have hdouble : ¬ s%"\\\\" <:+: a :: as ++ p := by
    have e : ∃ u y, p = u ++ '\\' :: ('c' :: y) ∧ '\\' ∉ u ∧ '\\' ∉ 'c' :: y := by
      rcases hp with rfl | rfl
      · exact ⟨s%"^", s%"irc", rfl, by decide, by decide⟩
      · exact ⟨s%"^{", s%"irc}", rfl, by decide, by decide⟩
    obtain ⟨u, y, rfl, h1, h2⟩ := e
    intro hi
    rw [← List.append_assoc] at hi
    have := once_infix (p := s%"\\") (by rw [List.mem_append, not_or]; exact ⟨hbs, h1⟩) h2 hi
    simp at this
  have hmat : matrixNormalize (stripBlank (a :: as ++ p)) = a :: as ++ p := by
    rw [stripBlank_noblank (hno ' ' rfl)]
    exact matrixNormalize_id (not_infix_of_not_mem 'a' (by simp) (hno 'a' rfl)) (not_infix_of_not_mem 'a' (by simp) (hno 'a' rfl)) hdouble
  have hctl : noControl (a :: as ++ p) := noControl_alpha (A := degChar) hA (by decide)
  rw [normBody_unwrapped E rec hmat (by intro e; simp at e; exact plain_ne ha (by decide) e)]
  rw [normTail_str E (t := a :: as ++ p) (t' := a :: as ++ p)]
  · rw [unitsStep_id (.inr ⟨not_infix_of_not_mem 't' (by simp) (hno 't' rfl), not_infix_of_not_mem 'm' (by simp) (hno 'm' rfl)⟩)]
    intro u hu
    obtain ⟨x, h1, h2, h3⟩ := deg_units u hu
    exact ⟨x, h1, h2, hno x h3⟩
  · exact removeSpacing_id (not_infix_of_not_mem ':' (by simp) (hno ':' rfl)) (not_infix_of_not_mem ',' (by simp) (hno ',' rfl))
      (not_infix_of_not_mem ';' (by simp) (hno ';' rfl)) (not_infix_of_not_mem '!' (by simp) (hno '!' rfl))
      (not_infix_of_not_mem ',' (by simp) (hno ',' rfl))
  · exact hno '_' rfl
  · exact hno '%' rfl
  · rw [middle_id (hno '$' rfl) (not_infix_of_not_mem 'n' (by simp) (hno 'n' rfl)) (not_infix_of_not_mem 'o' (by simp) (hno 'o' rfl))
      (not_infix_of_not_mem 'l' (by simp) (hno 'l' rfl)) hctl (not_infix_of_not_mem 'l' (by simp) (hno 'l' rfl))
      (not_infix_of_not_mem 'g' (by simp) (hno 'g' rfl)) (not_infix_of_not_mem 'n' (by simp) (hno 'n' rfl))]
    exact time_id (timeRe1_none (hno 'm' rfl) (hno 'M' rfl)) (hno ':' rfl)

theorem degrees_of (E : Env X V S) (n : Nat) (x : Numeral) {p r : Str} (hp : DegreeSign p) (hr : Always (further E x.text) r) :
    ∃ o, Always (stringNormalize E (n + 1) x.text) (.str r) ∧ Always (stringNormalize E (n + 1) (x.text ++ p)) o ∧
      ReadingsAre o [r, x.text ++ s%"/180*\\pi"] := by
  refine ⟨_, ?_, ?_, readingsAre_setOrder E _⟩
  · apply always_normalize
    rw [quiet_normBody (fun c hc => plain_quiet (x.plain c hc))]
    exact Always.bind hr (Always.pure _)
  · apply always_normalize
    rw [deg_normBody E _ _ _ x.plain x.ne_nil hp]
    unfold degrees
    rw [circ_found x.plain hp, circ_removed x.plain hp, circ_replaced E.U x hp]
    exact Always.bind hr (Always.bind (further_radians E _ x.plain x.ne_nil) (Always.pure _))

/-- C24: a decimal numeral `x` with a degree sign has exactly two readings: the normal form of `x`, and `x/180*\pi`.
The normal form is `x` itself, or the nearest integer if `x` is within 10⁻⁷ of it. -/
theorem C24_degrees (E : Env X V S) (hE : PrintsIntegers E) (n : Nat) (x : Numeral) (p : Str) (hp : DegreeSign p) :
    ∃ r o, Always (stringNormalize E (n + 1) x.text) (.str r) ∧ Always (stringNormalize E (n + 1) (x.text ++ p)) o ∧
      ReadingsAre o [r, x.text ++ s%"/180*\\pi"] ∧
      (r = x.text ∨ ∃ f z, pyFloat E.U x.text = some f ∧ isIntFloat f = true ∧ f.roundInt = some z ∧ r = intStr z) := by
  obtain ⟨r, hr, _, hr'⟩ := further_plain E hE x.text x.plain
  obtain ⟨o, h1, h2, h3⟩ := degrees_of E n x hp hr
  exact ⟨r, o, h1, h2, h3, hr'⟩

/-- An integer as a numeral. -/
def Numeral.ofInt (k : ℤ) : Numeral := ⟨decide (k < 0), natStr k.natAbs, none, natStr_digits _, by simp, .inl (natStr_ne_nil _)⟩

theorem Numeral.ofInt_text (k : ℤ) : (Numeral.ofInt k).text = intStr k := by
  rw [intStr_sign]; unfold Numeral.ofInt Numeral.text Numeral.fracText signStr; simp

/-- C24 for integers (up to 2^53, see C20): the readings are literally the number and `number/180*\pi`. -/
theorem C24_integer_degrees (E : Env X V S) (hE : PrintsIntegers E) (n : Nat) (k : ℤ) (hk : k.natAbs ≤ 2 ^ 53) (p : Str)
    (hp : DegreeSign p) : ∃ o, Always (stringNormalize E (n + 1) (intStr k ++ p)) o ∧
      ReadingsAre o [intStr k, intStr k ++ s%"/180*\\pi"] := by
  have := further_small E hE k hk
  rw [← Numeral.ofInt_text] at this
  obtain ⟨o, _, h2, h3⟩ := degrees_of E n _ hp this
  rw [Numeral.ofInt_text] at h2 h3
  exact ⟨o, h2, h3⟩

example : (stringNormalize ratEnv 1 s%"-22.50^{\\circ}" ⟨(), []⟩).1 =
    .ok (.set [s%"-22.50", s%"-22.50/180*\\pi"]) := by decide +kernel

example : (stringNormalize ratEnv 1 s%"90^\\circ" ⟨(), []⟩).1 = .ok (.set [s%"90", s%"90/180*\\pi"]) := by decide +kernel

end Verif
