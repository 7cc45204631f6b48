import Verif.Props.Balance
import Verif.Props.GrammarFuel
import Verif.Props.GrammarTrees
import Verif.Props.ReadingCalculus
/-
What is accepted: exactly the texts whose tokens the grammar derives (C91), and what follows for the
brackets of texts (C89).  The rule `math` does not require the end of the text, so ANTLR may also return
the tree of a beginning of the text; this is the condition `ReadsPart`.
-/

namespace Verif.Grammar
open Verif Verif.L2S Verif.PS

/-- **C91.**  The texts that are read as a whole are exactly those whose division into longest tokens
(C88) is derived from the rule `math` of the grammar. -/
theorem C91_text (s : Str) :
    (∃ m, parseText s = some m) ↔ ∃ ts, Divided [] s ts ∧ Derives (r .math) (ts.map (·.kind)) := by
  constructor
  · rintro ⟨m, h⟩
    rw [parseText, Option.bind_eq_some_iff] at h
    obtain ⟨ts, h1, h2⟩ := h
    exact ⟨ts, (C88_tokens s ts).1 h1, (C91_tokens ts).1 ⟨m, h2⟩⟩
  · rintro ⟨ts, h1, h2⟩
    obtain ⟨m, h⟩ := (C91_tokens ts).2 h2
    exact ⟨m, by rw [parseText, (C88_tokens s ts).2 h1]; exact h⟩

/-- **C92, texts.**  The tree of a text stands for its tokens. -/
theorem C92_text {s : Str} {m : MathTree} (h : parseText s = some m) :
    ∃ ts, Divided [] s ts ∧ Spells (.math m) ts := by
  rw [parseText, Option.bind_eq_some_iff] at h
  obtain ⟨ts, h1, h2⟩ := h
  exact ⟨ts, (C88_tokens s ts).1 h1, C92_tree h2⟩

/-- `us` are tokens at the beginning of the text -/
def Beginning (us : List Tok) (s : Str) : Prop := (us.flatMap fun t => t.gap ++ t.text) <+: s ∧
  ∀ t ∈ us, Skipped t.gap ∧ ∃ rx, (t.kind, rx) ∈ rules ∧ rx.Matches t.text

/-- ANTLR without an exception: the tree is one that the grammar gives to a beginning of the text. -/
def ReadsPart {Y : Type} (L : Lib Y) : Prop := ∀ s t, L.parse s = .ok t →
  ∃ us n, Beginning us s ∧ (t, []) ∈ math n us

section
variable {Y : Type} {L : Lib Y} {n : Nat} {s : Str} {vals : List (Str × PV)} {w w' : World (St Y)} {v : SV}

theorem accepted_parse (h : latex2sympy L (n + 1) s vals w = (.ok v, w')) :
    ∃ t, L.parse (prepare s) = .ok t := by
  cases hp : L.parse (prepare s) with
  | ok t => exact ⟨t, rfl⟩
  | error e =>
    rw [latex2sympy] at h
    simp only [M.bind_run, modG, M.ext, M.lift_run, hp] at h
    cases congrArg Prod.fst h

/-- **C91, only grammatical texts.**  If `latex2sympy` returns a value, a beginning of the prepared text
is derived by the grammar. -/
theorem C91_accepted (hp : ReadsPart L) (h : latex2sympy L (n + 1) s vals w = (.ok v, w')) :
    ∃ us, Beginning us (prepare s) ∧ Derives (PS.r .math) (us.map (·.kind)) := by
  obtain ⟨t, ht⟩ := accepted_parse h
  obtain ⟨us, m, h1, h2⟩ := hp _ _ ht
  obtain ⟨us', h3, h4⟩ := (acc_math (n := m) (N := 0) (Nat.zero_le _)).sound us _ h2
  rw [List.append_nil] at h3
  exact ⟨us, h1, h3 ▸ h4⟩

omit n s vals w w' v in
/-- **C92, part.**  Whatever parse of a beginning of the text ANTLR chooses, its tree stands for the tokens
of this beginning. -/
theorem C92_part (hp : ReadsPart L) {s : Str} {m : MathTree} (h : L.parse s = .ok m) :
    ∃ us, Beginning us s ∧ Spells (.math m) us := by
  obtain ⟨us, n, h1, h2⟩ := hp _ _ h
  obtain ⟨us', h3, h4⟩ := yields_math n us _ h2
  rw [List.append_nil] at h3
  exact ⟨us, h1, h3 ▸ h4⟩

/-- **C89, part.**  If `latex2sympy` returns a value, the part of the prepared text that was read has
balanced brackets. -/
theorem C89_part (hp : ReadsPart L) (h : latex2sympy L (n + 1) s vals w = (.ok v, w')) :
    ∃ part, part ≠ [] ∧ part <+: prepare s ∧ EvenText part := by
  obtain ⟨t, ht⟩ := accepted_parse h
  obtain ⟨us, m, h1, h2⟩ := hp _ _ ht
  refine ⟨_, ?_, h1.1, even_tokens h1.2 h2⟩
  obtain ⟨us', h3, h4⟩ := (acc_math (n := m) (N := 0) (Nat.zero_le _)).sound us _ h2
  rw [List.append_nil] at h3
  subst h3
  have := derives_solid h4 rfl
  match us, this with
  | u :: us, _ =>
    obtain ⟨-, rx, h5, h6⟩ := h1.2 u (List.mem_cons_self ..)
    have : u.text ≠ [] := fun e => rule_length _ h5 (e ▸ h6)
    simp [this]

/-- **C89, rejected.**  A text that, after preparation, begins with a closing bracket raises an
exception, whatever the state. -/
theorem C89_rejected_partial (hp : ReadsPart L) {c : Char} {s' : Str} (hs : prepare s = c :: s')
    (hc : c ∈ [')', ']', '}']) : ∃ e w', latex2sympy L (n + 1) s vals w = (.error e, w') := by
  rcases hl : latex2sympy L (n + 1) s vals w with ⟨_ | v, w'⟩
  · exact ⟨_, _, rfl⟩
  · obtain ⟨part, h1, h2, h3⟩ := C89_part hp hl
    match part, h1 with
    | d :: part, _ =>
      rw [hs] at h2
      obtain rfl : d = c := (List.cons_prefix_cons.1 h2).1
      have := h3.2 [d] ⟨part, rfl⟩
      simp only [List.mem_cons, List.not_mem_nil, or_false] at hc
      rcases hc with rfl | rfl | rfl <;> exact absurd this (by decide)

end

/-! ### Concrete texts -/

/-- a parser that reads the longest beginning of the text that has a parse -/
def partParse (s : Str) : Except PyErr MathTree := match lex s with
  | none => .error .other
  | some ts => match (List.range (ts.length + 1)).reverse.findSome? (fun k => parseTokens (ts.take k)) with
    | none => .error .other
    | some t => .ok t

noncomputable def partLib : Lib Unit := nodeLib partParse

theorem partLib_reads : ReadsPart partLib := by
  intro s t h
  change partParse s = .ok t at h
  rw [partParse] at h
  split at h
  · cases h
  · rename_i ts hts
    split at h
    · cases h
    · rename_i t' ht
      cases h
      obtain ⟨k, -, hk⟩ := List.exists_of_findSome?_eq_some ht
      obtain ⟨⟨e, rfl, -⟩, h2⟩ := C88_text hts
      refine ⟨ts.take k, _, ⟨?_, fun u hu => h2 u (List.mem_of_mem_take hu)⟩, mem_math hk⟩
      refine List.IsPrefix.trans ⟨(ts.drop k).flatMap fun t => t.gap ++ t.text, ?_⟩ (List.prefix_append _ _)
      rw [← List.flatMap_append, List.take_append_drop]

/-- **C89 is violated if the parser stops at the end of a phrase**, as the rule `math` does: then
`(x+1))` is converted like `(x+1)`, and the last bracket is not noticed. -/
theorem C89_rest_refuted : ¬ EvenText (prepare s%"(x+1))") ∧ ReadsPart partLib ∧
    (latex2sympy partLib 1 s%"(x+1))" [] startWorld).1 = (latex2sympy partLib 1 s%"(x+1)" [] startWorld).1 ∧
    ∃ v, (latex2sympy partLib 1 s%"(x+1))" [] startWorld).1 = .ok v := by
  refine ⟨fun h => ?_, partLib_reads, by kernel_rfl, ?_⟩
  · rw [show prepare s%"(x+1))" = s%"(x+1))" by decide +kernel] at h
    exact absurd h.1 (by decide +kernel)
  · have h : (latex2sympy partLib 1 s%"(x+1))" [] startWorld).1.toOption.isSome = true := by kernel_rfl
    cases hr : (latex2sympy partLib 1 s%"(x+1))" [] startWorld).1 with
    | ok v => exact ⟨v, rfl⟩
    | error e => rw [hr] at h; cases h

/-- The grammar derives `\frac12`, and it does not derive `1+`, `\frac{1}` or `E`. -/
example : (∃ ts, Divided [] s%"\\frac12" ts ∧ Derives (PS.r .math) (ts.map (·.kind))) ∧
    ∀ s ∈ [s%"1+", s%"\\frac{1}", s%"E"], ¬ ∃ ts, Divided [] s ts ∧ Derives (PS.r .math) (ts.map (·.kind)) := by
  refine ⟨(C91_text _).1 ⟨.one (.juxt [.frac (.digit s%"1") none (.digit s%"2") none]), by kernel_rfl⟩,
    fun s hs h => ?_⟩
  obtain ⟨m, hm⟩ := (C91_text s).2 h
  simp only [List.mem_cons, List.not_mem_nil, or_false] at hs
  rcases hs with rfl | rfl | rfl
  · rw [show parseText s%"1+" = none by kernel_rfl] at hm; cases hm
  · rw [show parseText s%"\\frac{1}" = none by kernel_rfl] at hm; cases hm
  · rw [show parseText s%"E" = none by kernel_rfl] at hm; cases hm

/-- The tree of a matrix with a row operation stands for its tokens. -/
example : ∃ m, parseText s%"\\begin{pmatrix}1&2\\\\3&x\\end{pmatrix}\\xrightarrow{R_1-2R_2}" = some m ∧
    ∃ ts, Divided [] s%"\\begin{pmatrix}1&2\\\\3&x\\end{pmatrix}\\xrightarrow{R_1-2R_2}" ts ∧ Spells (.math m) ts := by
  have h : ∃ m, parseText s%"\\begin{pmatrix}1&2\\\\3&x\\end{pmatrix}\\xrightarrow{R_1-2R_2}" = some m := by
    rw [← Option.isSome_iff_exists]
    kernel_rfl
  obtain ⟨m, h⟩ := h
  exact ⟨m, h, C92_text h⟩

end Verif.Grammar
