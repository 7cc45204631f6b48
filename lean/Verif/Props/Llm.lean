import Verif.Model.Llm
import Verif.Model.Prompts
import Verif.Py.RegexLemmas
import Verif.Spec.Toy
import Verif.Py.ReplaceLemmas
/-
Properties C55-C59: `get_llm_type` and `create_llm` of llm_models.py.
-/

namespace Verif

variable {X : Type}

/-! ### Specifications -/

/-- `t` is the type named by the response: the first `Type:` is followed by white space `sp`, then
by `t`, which ends at the end of the line or of the text, and starts with no white space. -/
def TypeLine (text t : Str) : Prop :=
  ∃ p sp rest : Str,
    text = p ++ s%"Type:" ++ sp ++ t ++ rest ∧
    (∀ a b, text = a ++ s%"Type:" ++ b → p.length ≤ a.length) ∧
    (∀ c ∈ sp, isSpace c = true) ∧
    (∀ c ∈ t, c ≠ '\n') ∧
    (∀ c cs, t ++ rest = c :: cs → isSpace c = false) ∧
    (∀ c cs, rest = c :: cs → c = '\n')

/-- External state after `k` calls. -/
def afterCalls {α : Type} (call : Ext X α) : Nat → X → X
  | 0, x => x
  | k + 1, x => afterCalls call k (call x).2

/-- The result of the call number `k` (from 0) names the type `t`. -/
def NamesType (call : Ext X (Option Str)) (x : X) (k : Nat) (t : Str) : Prop :=
  ∃ text, (call (afterCalls call k x)).1 = .ok (some text) ∧ TypeLine text t

/-! ### C58 -/

theorem takeWhile_eq_take (p : Char → Bool) (s : Str) : s.take (runLen p s) = s.takeWhile p := by
  unfold runLen
  induction s with
  | nil => rfl
  | cons c cs ih => by_cases h : p c = true <;> simp [h, ih]

theorem drop_runLen (p : Char → Bool) (s : Str) : s.drop (runLen p s) = s.dropWhile p := by
  unfold runLen
  induction s with
  | nil => rfl
  | cons c cs ih => by_cases h : p c = true <;> simp [h, ih]

/-- The text captured by `Type:[\s]*(.*)` at a given position. -/
def typeCapture (b : Str) : Str := (((b.drop 5).dropWhile isSpace).takeWhile (· != '\n'))

theorem typeRe_matchAt (pre b : Str) :
    (typeRe.matchAt pre b).map (fun t => t.groupD 1) =
      if (s%"Type:").isPrefixOf b then some (typeCapture b) else none := by
  simp only [Re.matchAt, typeRe, Re.cat, Re.many, Re.ws, Re.dot, run_seq, run_lit]
  by_cases h : (s%"Type:").isPrefixOf b = true
  · simp only [h, if_true, List.flatMap_cons, List.flatMap_nil, List.append_nil]
    rw [run_seq, run_many_chr_head isSpace]
    simp only [List.flatMap_cons, run_grp]
    rw [run_many_chr_head (· != '\n')]
    simp only [List.map_cons, List.cons_append, List.head?_cons, Option.map_some]
    simp only [RSt.groupD, RSt.group, List.lookup_cons_self, Option.getD_some, typeCapture, RSt.adv]
    simp only [List.length_cons, List.length_nil, Nat.zero_add, Nat.reduceAdd]
    rw [drop_runLen isSpace]
    congr 1
    generalize List.dropWhile isSpace (List.drop 5 b) = z
    have : z.length - (z.drop (runLen (· != '\n') z)).length = runLen (· != '\n') z := by
      have := runLen_le (· != '\n') z
      simp; omega
    rw [this, takeWhile_eq_take]
  · simp [h]

theorem dropWhile_head_neg {p : Char → Bool} {s : Str} {c : Char} {cs : Str}
    (h : s.dropWhile p = c :: cs) : p c = false := by
  induction s with
  | nil => simp at h
  | cons x xs ih =>
    by_cases hx : p x = true
    · simp [hx] at h; exact ih h
    · simp only [List.dropWhile_cons, hx] at h
      simp at h; rw [← h.1]; simpa using hx

theorem mem_takeWhile_pos {p : Char → Bool} {s : Str} {c : Char} (h : c ∈ s.takeWhile p) :
    p c = true := by
  induction s with
  | nil => simp at h
  | cons x xs ih =>
    by_cases hx : p x = true
    · simp [hx] at h
      rcases h with h | h
      · rw [h]; exact hx
      · exact ih h
    · simp [hx] at h

theorem typeRe_matchAt_some (pre b : Str) (t : RSt) (h : typeRe.matchAt pre b = some t) :
    (s%"Type:").isPrefixOf b = true ∧ t.groupD 1 = typeCapture b := by
  have := typeRe_matchAt pre b
  rw [h] at this
  by_cases hp : (s%"Type:").isPrefixOf b = true
  · rw [if_pos hp] at this; simp at this; exact ⟨hp, this⟩
  · rw [if_neg hp] at this; simp at this

theorem typeRe_matchAt_none (pre b : Str) :
    typeRe.matchAt pre b = none ↔ ¬ (s%"Type:").isPrefixOf b = true := by
  have := typeRe_matchAt pre b
  cases h : typeRe.matchAt pre b with
  | none =>
    rw [h] at this
    by_cases hp : (s%"Type:").isPrefixOf b = true
    · rw [if_pos hp] at this; simp at this
    · simp [hp]
  | some t =>
    rw [h] at this
    by_cases hp : (s%"Type:").isPrefixOf b = true
    · simp [hp]
    · rw [if_neg hp] at this; simp at this

/-- **C58**.  The text that `get_llm_type` reads off a response is exactly the rest of the line after
the first `Type:` (white space after the colon skipped). -/
theorem C58_type_line (text t : Str) : extractType text = some t ↔ TypeLine text t := by
  unfold extractType reSearch
  constructor
  · intro h
    simp only [Option.map_eq_some_iff] at h
    obtain ⟨st, hst, ht⟩ := h
    obtain ⟨a, b, hab, hm, hno⟩ := (searchFrom_some_iff typeRe [] text st).1 hst
    obtain ⟨hp, hg⟩ := typeRe_matchAt_some _ _ _ hm
    rw [hg] at ht
    obtain ⟨z, hz⟩ := List.isPrefixOf_iff_prefix.1 hp
    subst hz
    have hcap : typeCapture (s%"Type:" ++ z) = (z.dropWhile isSpace).takeWhile (· != '\n') := rfl
    rw [hcap] at ht
    refine ⟨a, z.takeWhile isSpace, (z.dropWhile isSpace).dropWhile (· != '\n'), ?_, ?_, ?_, ?_, ?_, ?_⟩
    · rw [← ht, hab]
      simp only [List.append_assoc, List.append_cancel_left_eq]
      rw [List.takeWhile_append_dropWhile, List.takeWhile_append_dropWhile]
    · intro a' b' hab'
      apply Nat.le_of_not_lt
      intro hlt
      have hpre : a' <+: a := by
        have h1 : a' <+: text := ⟨s%"Type:" ++ b', by rw [hab', List.append_assoc]⟩
        have h2 : a <+: text := ⟨s%"Type:" ++ z, hab.symm⟩
        exact List.prefix_of_prefix_length_le h1 h2 (Nat.le_of_lt hlt)
      obtain ⟨a₂, ha₂⟩ := hpre
      have hne : a₂ ≠ [] := by
        intro h0; subst h0; simp at ha₂; subst ha₂; omega
      have := hno a' a₂ ha₂.symm hne
      rw [typeRe_matchAt_none] at this
      apply this
      rw [List.isPrefixOf_iff_prefix]
      have h3 : a' ++ (a₂ ++ (s%"Type:" ++ z)) = a' ++ (s%"Type:" ++ b') := by
        rw [← List.append_assoc, ha₂, ← hab, hab', List.append_assoc]
      exact ⟨b', (List.append_cancel_left h3).symm⟩
    · intro c hc; exact mem_takeWhile_pos hc
    · intro c hc
      rw [← ht] at hc
      have := mem_takeWhile_pos hc
      simpa using this
    · intro c cs hcs
      rw [← ht, List.takeWhile_append_dropWhile] at hcs
      exact dropWhile_head_neg hcs
    · intro c cs hcs
      have := dropWhile_head_neg hcs
      simpa using this
  · rintro ⟨p, sp, rest, htext, hfirst, hsp, hnl, hhead, hrest⟩
    have key : ∃ st, searchFrom typeRe [] text = some st := by
      cases h : searchFrom typeRe [] text with
      | some st => exact ⟨st, rfl⟩
      | none =>
        rw [searchFrom_none_iff] at h
        have := h p (s%"Type:" ++ (sp ++ t ++ rest)) (by rw [htext]; simp [List.append_assoc])
        rw [typeRe_matchAt_none] at this
        exact absurd (List.isPrefixOf_iff_prefix.2 ⟨_, rfl⟩) this
    obtain ⟨st, hst⟩ := key
    rw [hst]
    simp only [Option.map_some, Option.some.injEq]
    obtain ⟨a, b, hab, hm, hno⟩ := (searchFrom_some_iff typeRe [] text st).1 hst
    obtain ⟨hp, hg⟩ := typeRe_matchAt_some _ _ _ hm
    rw [hg]
    obtain ⟨z, hz⟩ := List.isPrefixOf_iff_prefix.1 hp
    subst hz
    have hlen : a.length = p.length := by
      apply Nat.le_antisymm _ (hfirst a z (by rw [hab, List.append_assoc]))
      apply Nat.le_of_not_lt
      intro hlt
      have hpre : p <+: a := by
        have h1 : p <+: text := ⟨s%"Type:" ++ (sp ++ t ++ rest), by rw [htext]; simp [List.append_assoc]⟩
        have h2 : a <+: text := ⟨_, hab.symm⟩
        exact List.prefix_of_prefix_length_le h1 h2 (Nat.le_of_lt hlt)
      obtain ⟨a₂, ha₂⟩ := hpre
      have hne : a₂ ≠ [] := by
        intro h0; subst h0; simp at ha₂; subst ha₂; omega
      have := hno p a₂ ha₂.symm hne
      rw [typeRe_matchAt_none] at this
      apply this
      rw [List.isPrefixOf_iff_prefix]
      have h3 : p ++ (a₂ ++ (s%"Type:" ++ z)) = p ++ (s%"Type:" ++ (sp ++ t ++ rest)) := by
        rw [← List.append_assoc, ha₂, ← hab, htext]; simp [List.append_assoc]
      exact ⟨_, (List.append_cancel_left h3).symm⟩
    have heq : a ++ (s%"Type:" ++ z) = p ++ (s%"Type:" ++ (sp ++ (t ++ rest))) := by
      rw [← hab, htext]; simp [List.append_assoc]
    have h1 := List.append_inj heq hlen
    have hz : z = sp ++ (t ++ rest) := List.append_cancel_left h1.2
    have hcap : typeCapture (s%"Type:" ++ z) = (z.dropWhile isSpace).takeWhile (· != '\n') := rfl
    rw [hcap, hz]
    have hd : (sp ++ (t ++ rest)).dropWhile isSpace = t ++ rest := by
      rw [List.dropWhile_append_of_pos hsp]
      cases htr : t ++ rest with
      | nil => rfl
      | cons c cs => simp [hhead c cs htr]
    rw [hd, List.takeWhile_append_of_pos (by intro c hc; simpa using hnl c hc)]
    cases rest with
    | nil => simp
    | cons c cs => simp [hrest c cs rfl]

example : TypeLine s%"Analysis: ...\nType:  Real\nType: Set" s%"Real" := by
  rw [← C58_type_line]; decide +kernel
example : ∀ t, ¬ TypeLine s%"type: Real" t := by
  intro t h
  rw [← C58_type_line] at h
  have : extractType s%"type: Real" = none := by decide +kernel
  rw [this] at h; cases h

/-! ### C56 -/

theorem countChar_append (c : Char) (a b : Str) : countChar c (a ++ b) = countChar c a + countChar c b := by
  simp [countChar]

/-- **C56**.  The answer text put into the prompt starts and ends with a dollar and contains exactly
these two; what is between them is the answer without its dollars. -/
theorem C56_one_dollar_pair (answer : Str) :
    ∃ body, wrapDollar answer = s%"$" ++ body ++ s%"$" ∧ '$' ∉ body ∧
      body = answer.filter (· ≠ '$') := by
  unfold wrapDollar
  by_cases h : (startsWith s%"$" answer && endsWith s%"$" answer && countChar '$' answer == 2) = true
  · rw [if_pos h]
    simp only [Bool.and_eq_true, beq_iff_eq] at h
    obtain ⟨⟨h1, h2⟩, h3⟩ := h
    obtain ⟨z, hz⟩ := List.isPrefixOf_iff_prefix.1 h1
    obtain ⟨y, hy⟩ := List.isPrefixOf_iff_prefix.1 h2
    have hy' : answer = y.reverse ++ ['$'] := by
      have := congrArg List.reverse hy; simpa using this.symm
    cases hyr : y.reverse with
    | nil =>
      rw [hy', hyr] at h3; simp [countChar] at h3
    | cons d body =>
      rw [hyr] at hy'
      have hd : d = '$' := by
        rw [hy'] at hz; simp at hz; exact hz.1.symm
      subst hd
      have hno : '$' ∉ body := by
        rw [hy'] at h3
        simp [countChar] at h3
        exact fun hm => h3 _ hm rfl
      refine ⟨body, by simpa using hy', hno, ?_⟩
      rw [hy']
      have : body.filter (· ≠ '$') = body := by
        apply List.filter_eq_self.2
        intro c hc; simp; intro h; subst h; exact hno hc
      simpa using this.symm
  · rw [if_neg h]
    refine ⟨_, rfl, ?_, ?_⟩
    · rw [replace_one_nil]; simp
    · rw [replace_one_nil]

example : wrapDollar s%"a$b" = s%"$ab$" := by decide +kernel
example : wrapDollar s%"$ab$" = s%"$ab$" := by decide +kernel

/-! ### C57 -/

/-- **C57**.  A prompt type other than 1 and 2 is an error, and neither the LLM nor anything else is
called: the program state does not change. -/
theorem C57_bad_prompt_type (t1 t2 : Str) (call : List Message → Ext X (Option Str)) (q a : Str)
    (pt : Int) (n : Nat) (h1 : pt ≠ 1) (h2 : pt ≠ 2) (w : World X) :
    getLlmType t1 t2 call q a pt n w = (.error .valueError, w) := by
  simp [getLlmType, h1, h2]

/-- **C57**, providers. -/
theorem C57_bad_provider (llm : Str) :
    (createLlm llm = .error .valueError ↔ llm ≠ s%"openai" ∧ llm ≠ s%"tongyi") ∧
    (createLlm llm = .ok .openai ↔ llm = s%"openai") ∧
    (createLlm llm = .ok .tongyi ↔ llm = s%"tongyi") := by
  unfold createLlm
  by_cases h1 : llm = s%"openai"
  · subst h1; decide
  · by_cases h2 : llm = s%"tongyi"
    · subst h2; decide
    · simp [h1, h2]

example : createLlm s%"azure" = .error .valueError := by decide

/-! ### C59 -/

/-- Braces doubled: how a literal text is written in a format template. -/
def escapeBraces : Str → Str
  | [] => []
  | c :: cs => if c = '{' then '{' :: '{' :: escapeBraces cs
    else if c = '}' then '}' :: '}' :: escapeBraces cs else c :: escapeBraces cs

/-- Inverse of `escapeBraces`, only used to exhibit the literal parts of the templates. -/
def unescapeBraces : Str → Str
  | '{' :: '{' :: cs => '{' :: unescapeBraces cs
  | '}' :: '}' :: cs => '}' :: unescapeBraces cs
  | c :: cs => c :: unescapeBraces cs
  | [] => []

/-- The text starts no brace pair: it is empty or begins with a field or a plain character. -/
theorem parseFormat_escape (lit : Str) (cur rest : Str) :
    parseFormat cur none (escapeBraces lit ++ rest) = parseFormat (lit.reverse ++ cur) none rest := by
  induction lit generalizing cur with
  | nil => rfl
  | cons c cs ih =>
    unfold escapeBraces
    by_cases h1 : c = '{'
    · subst h1; simp [parseFormat, ih]
    · by_cases h2 : c = '}'
      · subst h2; simp [parseFormat, ih]
      · rw [if_neg h1, if_neg h2, List.cons_append, parseFormat]
        · rw [ih]; simp
        all_goals (intros; simp_all)

theorem parseFormat_field (name : Str) (hn : '}' ∉ name) (acc rest : Str) (segs : List Seg)
    (h : parseFormat [] none rest = .ok segs) :
    parseFormat [] (some acc) (name ++ '}' :: rest) =
      .ok (Seg.field (acc.reverse ++ name) :: segs) := by
  induction name generalizing acc with
  | nil => simp [parseFormat, h]; rfl
  | cons c cs ih =>
    have hc : c ≠ '}' := by intro h'; subst h'; simp at hn
    rw [List.cons_append, parseFormat]
    · rw [ih (by simp at hn; exact hn.2)]; simp
    · exact hc

theorem parseFormat_lit_field (name : Str) (c : Char) (cs : Str) (hname : name = c :: cs)
    (hc : c ≠ '{') (hn : '}' ∉ name) (cur rest : Str) (segs : List Seg)
    (h : parseFormat [] none rest = .ok segs) :
    parseFormat cur none ('{' :: name ++ '}' :: rest) =
      .ok (.lit cur.reverse :: Seg.field name :: segs) := by
  subst hname
  have := parseFormat_field (c :: cs) hn [] rest segs h
  rw [List.cons_append, List.cons_append, parseFormat]
  · rw [List.cons_append] at this
    rw [this]; rfl
  · simp only [List.cons_append] at *
    intro r h'; simp at h'; exact hc h'.1

/-- A template with the literal parts `a`, `b`, `c`. -/
def twoFieldTemplate (a b c : Str) : Str :=
  escapeBraces a ++ s%"{question}" ++ escapeBraces b ++ s%"{ground_truth}" ++ escapeBraces c

theorem strFormat_twoField (a b c q g : Str) :
    strFormat (twoFieldTemplate a b c) [(s%"question", q), (s%"ground_truth", g)] =
      .ok (a ++ q ++ b ++ g ++ c) := by
  have h3 : parseFormat [] none (escapeBraces c) = .ok [.lit c] := by
    have := parseFormat_escape c [] []
    simpa [parseFormat] using this
  have h2 : parseFormat [] none (escapeBraces b ++ (s%"{ground_truth}" ++ escapeBraces c)) =
      .ok [.lit b, .field s%"ground_truth", .lit c] := by
    rw [parseFormat_escape]
    have := parseFormat_lit_field s%"ground_truth" 'g' s%"round_truth" rfl (by decide) (by decide)
      (b.reverse ++ []) (escapeBraces c) _ h3
    simpa using this
  have h1 : parseFormat [] none (twoFieldTemplate a b c) =
      .ok [.lit a, .field s%"question", .lit b, .field s%"ground_truth", .lit c] := by
    unfold twoFieldTemplate
    rw [List.append_assoc, List.append_assoc, List.append_assoc, parseFormat_escape]
    have := parseFormat_lit_field s%"question" 'q' s%"uestion" rfl (by decide) (by decide)
      (a.reverse ++ []) _ _ h2
    simpa using this
  unfold strFormat
  rw [h1]
  have e1 : [(s%"question", q), (s%"ground_truth", g)].lookup s%"question" = some q := by
    simp [List.lookup]
  have e2 : [(s%"question", q), (s%"ground_truth", g)].lookup s%"ground_truth" = some g := by
    simp only [List.lookup]
    have : (s%"ground_truth" == s%"question") = false := by decide
    simp [this]
  show fillSegs _ _ = _
  simp only [fillSegs, e1, e2]
  simp [bind, Except.bind, List.append_assoc]

theorem escapeBraces_append (a b : Str) : escapeBraces (a ++ b) = escapeBraces a ++ escapeBraces b := by
  induction a with
  | nil => rfl
  | cons c cs ih => 
    simp only [List.cons_append, escapeBraces, ih]
    split
    · rfl
    · split <;> rfl

theorem escapeBraces_join (ls : List Str) :
    escapeBraces (join ['\n'] ls) = join ['\n'] (ls.map escapeBraces) := by
  induction ls with
  | nil => rfl
  | cons x xs ih =>
    cases xs with
    | nil => rfl
    | cons y ys =>
      simp only [join, List.map_cons] at *
      rw [escapeBraces_append, escapeBraces_append, ih]; rfl

theorem join_append (sep : Str) (xs ys : List Str) (hx : xs ≠ []) (hy : ys ≠ []) :
    join sep (xs ++ ys) = join sep xs ++ sep ++ join sep ys := by
  induction xs with
  | nil => exact absurd rfl hx
  | cons x xs ih =>
    cases xs with
    | nil => cases ys with
      | nil => exact absurd rfl hy
      | cons y ys => rfl
    | cons x' xs =>
      simp only [List.cons_append, join] at *
      rw [ih (by simp)]; simp [List.append_assoc]

/-- The literal lines of a template before the question, with single braces. -/
def literalLines (ls : List Str) : List Str := (ls.take (ls.length - 3)).map unescapeBraces

/-- The text before the question. -/
def literalHead (ls : List Str) : Str := join ['\n'] (literalLines ls) ++ s%"\nQuestion: "

theorem template_of_lines (ls hs : List Str) (hne : hs ≠ [])
    (h : ls = hs.map escapeBraces ++ [s%"Question: {question}", s%"Answer: {ground_truth}", s%"Analysis:"]) :
    join ['\n'] ls = twoFieldTemplate (join ['\n'] hs ++ s%"\nQuestion: ") s%"\nAnswer: " s%"\nAnalysis:" := by
  subst h
  rw [join_append _ _ _ (by simpa using hne) (by simp)]
  unfold twoFieldTemplate
  rw [escapeBraces_append, escapeBraces_join]
  simp only [List.append_assoc]
  rfl

/-- Both templates of prompts.py have this shape. -/
theorem templates_shape :
    promptTemplate = twoFieldTemplate (literalHead promptTemplateLines) s%"\nAnswer: " s%"\nAnalysis:" ∧
    promptTemplate2 = twoFieldTemplate (literalHead promptTemplate2Lines) s%"\nAnswer: " s%"\nAnalysis:" := by
  constructor
  · exact template_of_lines _ (literalLines promptTemplateLines) (by decide +kernel) (by decide +kernel)
  · exact template_of_lines _ (literalLines promptTemplate2Lines) (by decide +kernel) (by decide +kernel)

/-- The prompt for a question and an answer, from the literal text of the template. -/
def promptText (head question answer : Str) : Str :=
  head ++ question ++ s%"\nAnswer: " ++ answer ++ s%"\nAnalysis:"

/-- **C59**.  Each template of prompts.py is a literal text followed by the two fields, and formatting it
inserts question and answer verbatim, whatever they contain: nothing in them is interpreted and the
formatting never fails. -/
theorem C59_prompt_verbatim (template : Str)
    (ht : template = promptTemplate ∨ template = promptTemplate2) :
    ∃ head : Str,
      template = escapeBraces head ++ s%"{question}\nAnswer: {ground_truth}\nAnalysis:" ∧
      ∀ q g : Str, strFormat template [(s%"question", q), (s%"ground_truth", g)] =
        .ok (promptText head q g) := by
  have gen : ∀ head, template = twoFieldTemplate head s%"\nAnswer: " s%"\nAnalysis:" →
      template = escapeBraces head ++ s%"{question}\nAnswer: {ground_truth}\nAnalysis:" ∧
      ∀ q g : Str, strFormat template [(s%"question", q), (s%"ground_truth", g)] =
        .ok (promptText head q g) := by
    intro head h
    refine ⟨?_, ?_⟩
    · rw [h]; unfold twoFieldTemplate; simp only [List.append_assoc]; rfl
    · intro q g; rw [h, strFormat_twoField]; rfl
  rcases ht with ht | ht
  · exact ⟨_, gen _ (ht.trans templates_shape.1)⟩
  · exact ⟨_, gen _ (ht.trans templates_shape.2)⟩

example : strFormat promptTemplate [(s%"question", s%"{x}"), (s%"ground_truth", s%"$}$")] =
    .ok (promptText (literalHead promptTemplateLines) s%"{x}" s%"$}$") := by
  rw [templates_shape.1, strFormat_twoField]; rfl

/-! ### C55 -/

theorem typeLoop_spec (call : List Message → Ext X (Option Str)) (msgs : List Message) (n : Nat)
    (w : World X) :
    (∃ k t, k < n ∧ NamesType (call msgs) w.ext k t ∧ (∀ j < k, ∀ t', ¬ NamesType (call msgs) w.ext j t') ∧
      typeLoop call msgs n w = (.ok (some t), ⟨afterCalls (call msgs) (k + 1) w.ext, w.out⟩)) ∨
    ((∀ j < n, ∀ t', ¬ NamesType (call msgs) w.ext j t') ∧
      typeLoop call msgs n w = (.ok none, ⟨afterCalls (call msgs) n w.ext, w.out⟩)) := by
  induction n generalizing w with
  | zero => right; exact ⟨by intro j hj; omega, rfl⟩
  | succ n ih =>
    have step : ∀ x', (call msgs w.ext).2 = x' → (∀ t, ¬ NamesType (call msgs) w.ext 0 t) →
        typeLoop call msgs (n + 1) w = typeLoop call msgs n ⟨x', w.out⟩ →
        (∃ k t, k < n + 1 ∧ NamesType (call msgs) w.ext k t ∧
          (∀ j < k, ∀ t', ¬ NamesType (call msgs) w.ext j t') ∧
          typeLoop call msgs (n + 1) w = (.ok (some t), ⟨afterCalls (call msgs) (k + 1) w.ext, w.out⟩)) ∨
        ((∀ j < n + 1, ∀ t', ¬ NamesType (call msgs) w.ext j t') ∧
          typeLoop call msgs (n + 1) w = (.ok none, ⟨afterCalls (call msgs) (n + 1) w.ext, w.out⟩)) := by
      intro x' hx h0 hrun
      have shift : ∀ k t, NamesType (call msgs) w.ext (k + 1) t ↔ NamesType (call msgs) x' k t := by
        intro k t; unfold NamesType; simp only [afterCalls]; rw [hx]
      rcases ih ⟨x', w.out⟩ with ⟨k, t, hk, hnt, hno, hr⟩ | ⟨hno, hr⟩
      · left
        refine ⟨k + 1, t, by omega, (shift k t).2 hnt, ?_, ?_⟩
        · intro j hj t'
          cases j with
          | zero => exact h0 t'
          | succ j => rw [shift]; exact hno j (by omega) t'
        · rw [hrun, hr, ← hx]; rfl
      · right
        refine ⟨?_, ?_⟩
        · intro j hj t'
          cases j with
          | zero => exact h0 t'
          | succ j => rw [shift]; exact hno j (by omega) t'
        · rw [hrun, hr, ← hx]; rfl
    cases hc : call msgs w.ext with
    | mk r x' =>
      cases r with
      | error e =>
        apply step x' (by rw [hc])
        · rintro t ⟨text, h, _⟩; simp [afterCalls, hc] at h
        · simp [typeLoop, M.ext, hc]
      | ok o =>
        cases o with
        | none =>
          apply step x' (by rw [hc])
          · rintro t ⟨text, h, _⟩; simp [afterCalls, hc] at h
          · simp [typeLoop, M.ext, hc]
        | some text =>
          cases ht : extractType text with
          | none =>
            apply step x' (by rw [hc])
            · rintro t ⟨text', h, h'⟩
              simp [afterCalls, hc] at h; subst h
              rw [← C58_type_line, ht] at h'; cases h'
            · simp [typeLoop, M.ext, hc, ht]
          | some t =>
            left
            refine ⟨0, t, by omega, ⟨text, by simp [afterCalls, hc], (C58_type_line _ _).1 ht⟩, by
              intro j hj; omega, ?_⟩
            simp [typeLoop, M.ext, hc, ht, afterCalls]

/-- **C55**.  With either prompt type, `get_llm_type` sends one and the same message again and again, at most
`max_try` times.  It stops after the first call whose response names a type and returns that type; it
returns `None` exactly when all `max_try` calls failed or named no type.  It never raises, whatever the
LLM does, and prints nothing. -/
theorem C55_retries_bounded (call : List Message → Ext X (Option Str)) (q a : Str) (pt : Int)
    (hpt : pt = 1 ∨ pt = 2) (maxTry : Nat) :
    ∃ head : Str, ∀ w : World X,
      let f := call [⟨s%"user", promptText head q (wrapDollar a)⟩]
      (∃ k t, k < maxTry ∧ NamesType f w.ext k t ∧ (∀ j < k, ∀ t', ¬ NamesType f w.ext j t') ∧
        getLlmType promptTemplate promptTemplate2 call q a pt maxTry w =
          (.ok (some t), ⟨afterCalls f (k + 1) w.ext, w.out⟩)) ∨
      ((∀ j < maxTry, ∀ t', ¬ NamesType f w.ext j t') ∧
        getLlmType promptTemplate promptTemplate2 call q a pt maxTry w =
          (.ok none, ⟨afterCalls f maxTry w.ext, w.out⟩)) := by
  rcases hpt with hpt | hpt
  · obtain ⟨head, _, h⟩ := C59_prompt_verbatim promptTemplate (Or.inl rfl)
    refine ⟨head, fun w => ?_⟩
    have : getLlmType promptTemplate promptTemplate2 call q a pt maxTry w =
        typeLoop call [⟨s%"user", promptText head q (wrapDollar a)⟩] maxTry w := by
      simp [getLlmType, hpt, h]
    rw [this]
    exact typeLoop_spec call _ maxTry w
  · obtain ⟨head, _, h⟩ := C59_prompt_verbatim promptTemplate2 (Or.inr rfl)
    refine ⟨head, fun w => ?_⟩
    have : getLlmType promptTemplate promptTemplate2 call q a pt maxTry w =
        typeLoop call [⟨s%"user", promptText head q (wrapDollar a)⟩] maxTry w := by
      simp [getLlmType, hpt, h]
    rw [this]
    exact typeLoop_spec call _ maxTry w

/-- A call that counts itself in the first component of the external state. -/
def counted {α : Type} (call : List Message → Ext X α) (msgs : List Message) : Ext (Nat × X) α :=
  fun s => let r := call msgs s.2; (r.1, (s.1 + 1, r.2))

theorem afterCalls_counted {α : Type} (call : List Message → Ext X α) (msgs : List Message) (k : Nat)
    (s : Nat × X) : (afterCalls (counted call msgs) k s).1 = s.1 + k := by
  induction k generalizing s with
  | zero => rfl
  | succ k ih => simp only [afterCalls]; rw [ih]; simp [counted]; omega

/-- **C55**, counting: the number of calls is at most `max_try`. -/
theorem C55_call_count (call : List Message → Ext X (Option Str)) (q a : Str) (pt : Int)
    (maxTry : Nat) (w : World (Nat × X)) :
    (getLlmType promptTemplate promptTemplate2 (counted call) q a pt maxTry w).2.ext.1 ≤ w.ext.1 + maxTry := by
  by_cases hpt : pt = 1 ∨ pt = 2
  · obtain ⟨head, h⟩ := C55_retries_bounded (counted call) q a pt hpt maxTry
    rcases h w with ⟨k, t, hk, _, _, hr⟩ | ⟨_, hr⟩
    · rw [hr]; simp only [afterCalls_counted]; omega
    · rw [hr]; simp only [afterCalls_counted]; omega
  · rw [not_or] at hpt
    rw [C57_bad_prompt_type _ _ _ _ _ _ _ hpt.1 hpt.2]; simp

/-- A call that records its messages in the first component of the external state. -/
def recorded {α : Type} (call : List Message → Ext X α) (msgs : List Message) : Ext (List (List Message) × X) α :=
  fun s => let r := call msgs s.2; (r.1, (s.1 ++ [msgs], r.2))

theorem afterCalls_recorded {α : Type} (call : List Message → Ext X α) (msgs : List Message) (k : Nat)
    (s : List (List Message) × X) : (afterCalls (recorded call msgs) k s).1 = s.1 ++ List.replicate k msgs := by
  induction k generalizing s with
  | zero => simp [afterCalls]
  | succ k ih => rw [afterCalls, ih]; simp [recorded, List.replicate_succ]

theorem replace_dollar (s : Str) : replace s%"$" [] s = s.filter (· ≠ '$') := by
  induction s with
  | nil => simp [replace_nil]
  | cons c cs ih =>
    by_cases h : c = '$'
    · subst h
      have := replace_match s%"$" [] cs (by simp)
      simp only [List.singleton_append] at this
      simp [this, ih]
    · rw [replace_cons _ _ _ (by simp [List.prefix_cons_iff]; exact fun e => h e.symm), ih]
      simp [h]

theorem wrapDollar_eq (a : Str) : wrapDollar a = '$' :: a.filter (· ≠ '$') ++ ['$'] := by
  unfold wrapDollar
  rw [replace_dollar]
  split
  · rename_i h
    simp only [startsWith, endsWith, Bool.and_eq_true, countChar, beq_iff_eq, List.isPrefixOf_iff_prefix] at h
    obtain ⟨⟨h1, h2⟩, h3⟩ := h
    cases a with
    | nil => simp at h1
    | cons x r =>
      obtain rfl : x = '$' := by
        obtain ⟨t, ht⟩ := h1
        simpa using (List.cons.inj ht).1.symm
      rcases List.eq_nil_or_concat r with rfl | ⟨m, y, rfl⟩
      · simp at h3
      · obtain rfl : y = '$' := by
          obtain ⟨t, ht⟩ := h2
          simp at ht
          exact ht.1.symm
        have hm : m.filter (· == '$') = [] := by
          have : (m.filter (· == '$')).length = 0 := by simpa using h3
          exact List.length_eq_zero_iff.1 this
        have : m.filter (· ≠ '$') = m := by
          rw [List.filter_eq_self]
          intro c hc
          rw [List.filter_eq_nil_iff] at hm
          simpa using hm c hc
        simp at this ⊢
        rw [List.filter_eq_self.2 (by simpa using this)]
  · simp

/-- **C59**, what is sent: the question comes verbatim after the literal text of the template chosen by the prompt type,
the answer after it without its dollars and between two of them, in one message of the user, and nothing else is ever
sent. -/
theorem C59_message_sent :
    ∃ head1 head2 : Str,
      promptTemplate = escapeBraces head1 ++ s%"{question}\nAnswer: {ground_truth}\nAnalysis:" ∧
      promptTemplate2 = escapeBraces head2 ++ s%"{question}\nAnswer: {ground_truth}\nAnalysis:" ∧
      ∀ (X : Type) (call : List Message → Ext X (Option Str)) (q a : Str) (pt : Int), pt = 1 ∨ pt = 2 →
        ∀ (maxTry : Nat) (w : World (List (List Message) × X)), ∃ k ≤ maxTry,
          (getLlmType promptTemplate promptTemplate2 (recorded call) q a pt maxTry w).2.ext.1 =
            w.ext.1 ++ List.replicate k [⟨s%"user",
              (if pt = 1 then head1 else head2) ++ q ++ s%"\nAnswer: " ++
                ('$' :: a.filter (· ≠ '$') ++ ['$']) ++ s%"\nAnalysis:"⟩] := by
  obtain ⟨head1, e1, h1⟩ := C59_prompt_verbatim promptTemplate (Or.inl rfl)
  obtain ⟨head2, e2, h2⟩ := C59_prompt_verbatim promptTemplate2 (Or.inr rfl)
  refine ⟨head1, head2, e1, e2, ?_⟩
  intro X call q a pt hpt maxTry w
  rw [← wrapDollar_eq]
  have : getLlmType promptTemplate promptTemplate2 (recorded call) q a pt maxTry w =
      typeLoop (recorded call) [⟨s%"user", promptText (if pt = 1 then head1 else head2) q (wrapDollar a)⟩] maxTry w := by
    rcases hpt with hpt | hpt <;> simp [getLlmType, hpt, h1, h2]
  rw [this]
  rcases typeLoop_spec (recorded call) _ maxTry w with ⟨k, t, hk, _, _, hr⟩ | ⟨_, hr⟩
  · exact ⟨k + 1, hk, by rw [hr]; exact afterCalls_recorded _ _ _ _⟩
  · exact ⟨maxTry, Nat.le_refl _, by rw [hr]; exact afterCalls_recorded _ _ _ _⟩

/-- An LLM that fails, then answers garbage, then a type. -/
def exampleLlm (_ : List Message) : Ext Nat (Option Str) := fun k =>
  (if k = 0 then .error .other else if k = 1 then .ok (some s%"?") else .ok (some s%"Type: Real"), k + 1)

example : typeLoop exampleLlm [] 5 ⟨0, []⟩ = (.ok (some s%"Real"), ⟨3, []⟩) := by decide +kernel
example : typeLoop exampleLlm [] 2 ⟨0, []⟩ = (.ok none, ⟨2, []⟩) := by decide +kernel

end Verif
