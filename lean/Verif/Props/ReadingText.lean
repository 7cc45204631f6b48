import Verif.Props.ReadingMeans
import Verif.Py.RegexCalc
import Mathlib.Data.List.Chain
/-
The textual preparation of `latex2sympy` does not change texts of the notation, and the theorem that
they are converted to their values.
-/

namespace Verif.Grammar
open Verif Verif.L2S Verif.Reading

/-! ### Occurrences in a written text -/

theorem infix_cons_cases {p : Str} {c : Char} {s : Str} (h : p <:+: c :: s) :
    p <+: c :: s ∨ p <:+: s := List.infix_cons_iff.1 h

/-- where a text that does not begin with a blank occurs: inside a sign and what follows -/
theorem infix_append {p a s : Str} (h : p <:+: a ++ s) :
    (∃ a1 a2, a = a1 ++ a2 ∧ a2 ≠ [] ∧ p <+: a2 ++ s) ∨ p <:+: s := by
  induction a with
  | nil => exact .inr h
  | cons c a ih =>
    rcases infix_cons_cases h with h | h
    · exact .inl ⟨[], c :: a, rfl, by simp, h⟩
    · rcases ih h with ⟨a1, a2, rfl, h1, h2⟩ | h
      · exact .inl ⟨c :: a1, a2, rfl, h1, h2⟩
      · exact .inr h

theorem written_infix {p : Str} {c : Char} (hp : p.head? = some c)
    (hc : c ≠ ' ' ∧ c ≠ '\t' ∧ c ≠ '\r' ∧ c ≠ '\n') {ws : List Sign} {s : Str} (h : Written ws s)
    (hi : p <:+: s) :
    ∃ us w vs a b s', ws = us ++ w :: vs ∧ w.text = a ++ b ∧ b ≠ [] ∧ Ends w s' ∧ Written vs s' ∧
      p <+: b ++ s' := by
  have blank : ∀ {b a1 a2 s : Str}, blanks b → b = a1 ++ a2 → a2 ≠ [] → p <+: a2 ++ s → False := by
    intro b a1 a2 s hb h1 h2 h3
    cases a2 with
    | nil => exact h2 rfl
    | cons d a2 =>
      cases p with
      | nil => simp at hp
      | cons e p =>
        simp only [List.head?_cons, Option.some.injEq] at hp
        subst hp
        have hd : e = d := by
          obtain ⟨t, ht⟩ := h3
          simp only [List.cons_append, List.cons.injEq] at ht
          exact ht.1
        have := hb e (by rw [h1, hd]; simp)
        tauto
  induction h with
  | @nil b hb =>
    rcases infix_append (s := []) (by simpa using hi) with ⟨a1, a2, h1, h2, h3⟩ | h
    · exact (blank hb h1 h2 h3).elim
    · have : p = [] := by simpa using h
      rw [this] at hp; simp at hp
  | @cons b w ws s hb he hw ih =>
    rw [List.append_assoc] at hi
    rcases infix_append hi with ⟨a1, a2, h1, h2, h3⟩ | hi
    · exact (blank hb h1 h2 h3).elim
    · rcases infix_append hi with ⟨a1, a2, h1, h2, h3⟩ | hi
      · exact ⟨[], w, ws, a1, a2, s, rfl, h1, h2, he, hw, h3⟩
      · obtain ⟨us, v, vs, a, b', s', h1, h2⟩ := ih hi
        exact ⟨w :: us, v, vs, a, b', s', by rw [h1]; rfl, h2⟩

/-- the characters of signs -/
def signChar (c : Char) : Bool :=
  latin c || (decide ('0' ≤ c) && decide (c ≤ '9')) || (markKinds.map (·.1)).contains c || c == '\\'
    || c == '%'

theorem mark_chars : markKinds.all (fun p => signChar p.1) = true := by decide +kernel

theorem cmd_chars : cmdKinds.all (fun p => p.1.all fun c => latin c || c == '%' || c == '{' || c == '}' ||
    c == '\\') = true := by
  decide +kernel

theorem greek_chars : greekNames.all (fun n => n.all latin) = true := by decide +kernel

theorem variable_latin {c : Char} (h : isVariable c = true) : latin c = true := by
  simp only [isVariable, Bool.and_eq_true] at h
  exact h.1

theorem greek_text {n : Str} {b : Bool} (hn : n ∈ greekNames) {c : Char}
    (hc : c ∈ (Sign.greek n b).text) : c = '\\' ∨ latin c = true ∨ c = ' ' := by
  simp only [Sign.text, List.mem_cons, List.mem_append] at hc
  rcases hc with rfl | hc | hc
  · exact .inl rfl
  · exact .inr (.inl (List.all_eq_true.1 (List.all_eq_true.1 greek_chars _ hn) c hc))
  · cases b
    · simp at hc
    · exact .inr (.inr (by simpa using hc))

theorem diff_text {v : Char} (hv : isVariable v = true) {c : Char}
    (hc : c ∈ (Sign.diff v).text) : latin c = true := by
  simp only [Sign.text, List.mem_cons, List.not_mem_nil, or_false] at hc
  rcases hc with rfl | rfl
  · decide
  · exact variable_latin hv

theorem token_chars {w : Sign} {k : Kind} (h : HasKind w k) :
    ∀ c ∈ w.text, signChar c = true ∨ c = ' ' := by
  intro c hc
  cases h with
  | @greek n b hn =>
    rcases greek_text hn hc with rfl | h | rfl
    · exact .inl (by decide)
    · exact .inl (by simp [signChar, h])
    · exact .inr rfl
  | @diff v hv => exact .inl (by simp [signChar, diff_text hv hc])
  | dLetter =>
    simp only [Sign.text, List.mem_singleton] at hc
    subst hc; exact .inl (by decide)
  | @digit d =>
    simp only [Sign.text, List.mem_singleton] at hc
    subst hc
    refine .inl ?_
    revert d; decide
  | @letter v hv =>
    simp only [Sign.text, List.mem_singleton] at hc
    subst hc
    exact .inl (by simp [signChar, variable_latin hv])
  | euler =>
    simp only [Sign.text, List.mem_singleton] at hc
    subst hc; exact .inl (by decide)
  | @mark v k hv =>
    simp only [Sign.text, List.mem_singleton] at hc
    subst hc
    exact .inl (List.all_eq_true.1 mark_chars _ hv)
  | @cmd n k hn =>
    simp only [Sign.text, List.mem_cons] at hc
    refine .inl ?_
    rcases hc with rfl | hc
    · decide
    · have := List.all_eq_true.1 (List.all_eq_true.1 cmd_chars _ hn) c hc
      simp only [Bool.or_eq_true, beq_iff_eq] at this
      rcases this with (((h | rfl) | rfl) | rfl) | rfl
      · simp [signChar, h]
      all_goals decide

/-- a backslash begins a command -/
theorem backslash_cmd {w : Sign} {k : Kind} (h : HasKind w k) {a b : Str}
    (hw : w.text = a ++ '\\' :: b) : (a = [] ∧ ((w = .cmd b ∧ (b, k) ∈ cmdKinds) ∨
      ∃ n bl, w = .greek n bl ∧ n ∈ greekNames ∧ b = n ++ if bl then [' '] else [])) ∨
      (w = .cmd s%"\\" ∧ b = []) := by
  cases h with
  | @greek n bl hn =>
    cases a with
    | nil =>
      simp only [Sign.text, List.nil_append, List.cons.injEq, true_and] at hw
      exact .inl ⟨rfl, .inr ⟨n, bl, rfl, hn, hw.symm⟩⟩
    | cons c a =>
      exfalso
      simp only [Sign.text, List.cons_append, List.cons.injEq] at hw
      have hm : '\\' ∈ n ++ if bl then [' '] else [] := by rw [hw.2]; simp
      rcases List.mem_append.1 hm with hm | hm
      · have := List.all_eq_true.1 (List.all_eq_true.1 greek_chars _ hn) _ hm
        revert this; decide
      · cases bl <;> simp at hm
  | @diff v hv =>
    exact absurd (diff_text hv (c := '\\') (by rw [hw]; simp)) (by decide)
  | dLetter =>
    have : '\\' ∈ (Sign.letter 'd').text := by rw [hw]; simp
    simp [Sign.text] at this
  | @digit d =>
    have : '\\' ∈ (Sign.digit d).text := by rw [hw]; simp
    simp only [Sign.text, List.mem_singleton] at this
    exfalso; clear hw; revert d; decide
  | @letter v hv =>
    have : '\\' ∈ (Sign.letter v).text := by rw [hw]; simp
    simp only [Sign.text, List.mem_singleton] at this
    subst this
    exact absurd hv (by decide)
  | euler =>
    have : '\\' ∈ (Sign.letter 'e').text := by rw [hw]; simp
    simp [Sign.text] at this
  | @mark v k hv =>
    have : '\\' ∈ (Sign.mark v).text := by rw [hw]; simp
    simp only [Sign.text, List.mem_singleton] at this
    subst this
    simp [markKinds] at hv
  | @cmd n k hn =>
    cases a with
    | nil =>
      simp only [Sign.text, List.nil_append, List.cons.injEq, true_and] at hw
      subst hw
      exact .inl ⟨rfl, .inl ⟨rfl, hn⟩⟩
    | cons c a =>
      simp only [Sign.text, List.cons_append, List.cons.injEq] at hw
      have tbl : ∀ p ∈ cmdKinds, '\\' ∈ p.1 → p.1 = s%"\\" := by decide +kernel
      have := tbl _ hn (by rw [hw.2]; simp)
      simp only at this
      subst this
      refine .inr ⟨rfl, ?_⟩
      have := congrArg List.length hw.2
      simp only [List.length_append, List.length_cons, List.length_nil] at this
      exact List.eq_nil_of_length_eq_zero (by omega)

/-- commands that the preparation replaces (or words that contain one) -/
def prepared : List Str :=
  [s%"dfrac", s%"tfrac", s%"mathrm", s%"rm", s%"begin{matrix}", s%"end{matrix}", s%"displaystyle",
   s%"quad", s%"qquad", s%","]

theorem prepared_table : (cmdKinds.map (·.1) ++ greekNames).all (fun n => prepared.all fun q =>
    !q.isPrefixOf n && (!n.isPrefixOf q ||
      (!([s%"%", s%"{", s%"}"] ++ environments).contains n && n != s%"\\" && match q.drop n.length with
        | c :: _ => latin c
        | [] => false))) = true := by decide +kernel

theorem prepared_words : ∀ q ∈ prepared, ∃ w ∈ commandWords, w <+: q := by
  simp only [← List.isPrefixOf_iff_prefix]
  decide +kernel

theorem not_prepared {ws : List Sign} {s : Str} (h : Written ws s) (hk : ∀ w ∈ ws, isToken w)
    {q : Str} (hq : q ∈ prepared) : ¬ ('\\' :: q) <:+: s := by
  intro hi
  obtain ⟨us, w, vs, a, b, s', rfl, h1, h2, h3, -, h5⟩ := written_infix (c := '\\') rfl (by decide) h hi
  obtain ⟨k, hw⟩ := hk w (by simp)
  cases b with
  | nil => exact h2 rfl
  | cons c b =>
    obtain ⟨rfl, h6⟩ : '\\' = c ∧ q <+: b ++ s' := by
      obtain ⟨t, ht⟩ := h5
      simp only [List.cons_append, List.cons.injEq] at ht
      exact ⟨ht.1, t, ht.2⟩
    rcases backslash_cmd hw h1 with ⟨-, h7⟩ | ⟨rfl, rfl⟩
    · obtain ⟨n, s'', hn, he, h7⟩ : ∃ n s'', n ∈ cmdKinds.map (·.1) ++ greekNames ∧ b ++ s' = n ++ s'' ∧
          (n ∉ [s%"%", s%"{", s%"}"] ++ environments → n ≠ s%"\\" →
            ∀ c, s''.head? = some c → latin c = false) := by
        rcases h7 with ⟨rfl, hb⟩ | ⟨n, bl, rfl, hn, rfl⟩
        · refine ⟨b, s', List.mem_append_left _ (List.mem_map.2 ⟨_, hb, rfl⟩), rfl, fun hn hn' => ?_⟩
          rw [Ends, if_neg hn, if_neg hn'] at h3
          exact h3.1
        · cases bl with
          | false => exact ⟨n, s', List.mem_append_right _ hn, by simp, fun _ _ c hc => (h3 rfl c hc).1⟩
          | true =>
            refine ⟨n, ' ' :: s', List.mem_append_right _ hn, by simp, fun _ _ c hc => ?_⟩
            simp only [List.head?_cons, Option.some.injEq] at hc
            subst hc; decide
      rw [he] at h6
      have tbl := List.all_eq_true.1 (List.all_eq_true.1 prepared_table _ hn) q hq
      simp only [Bool.and_eq_true, Bool.not_eq_true', Bool.or_eq_true] at tbl
      obtain ⟨t1, t2⟩ := tbl
      rcases List.prefix_or_prefix_of_prefix h6 (List.prefix_append n s'') with h8 | h8
      · rw [List.isPrefixOf_iff_prefix.2 h8] at t1
        cases t1
      · rw [List.isPrefixOf_iff_prefix.2 h8] at t2
        obtain ⟨⟨t3, t4⟩, t5⟩ := t2.resolve_left (by simp)
        obtain ⟨r, rfl⟩ := h8
        rw [List.drop_left] at t5
        cases r with
        | nil => cases t5
        | cons c r =>
          have h9 := (List.prefix_append_right_inj n).1 h6
          obtain ⟨t, ht⟩ := h9
          have := h7 (by simpa using t3) (by simpa using t4) c (by rw [← ht]; rfl)
          simp only [this, Bool.false_eq_true] at t5
    · obtain ⟨v, hv, hp⟩ := prepared_words q hq
      rw [Ends, if_neg (by decide), if_pos rfl] at h3
      exact h3 v hv (hp.trans h6)

theorem written_chars {ws : List Sign} {s : Str} (h : Written ws s) (hk : ∀ w ∈ ws, isToken w) :
    ∀ c ∈ s, signChar c = true ∨ c = ' ' ∨ c = '\t' ∨ c = '\r' ∨ c = '\n' := by
  induction h with
  | nil hb => exact fun c hc => .inr (hb c hc)
  | cons hb _ _ ih =>
    intro c hc
    simp only [List.mem_append] at hc
    rcases hc with (hc | hc) | hc
    · exact .inr (hb c hc)
    · obtain ⟨k, hk⟩ := hk _ List.mem_cons_self
      exact (token_chars hk c hc).imp_right .inl
    · exact ih (fun w hw => hk w (by simp [hw])) c hc

/-! ### Subscripts -/

/-- an underscore does not follow a parenthesis -/
def subOk (a b : Sign) : Prop := b = .mark '_' → a ≠ .mark ')'

section
variable {K : Type} [Field K] {I : Interp K} {free : Str → Prop}

theorem map_digit_chain (ds : List (Fin 10)) : List.IsChain subOk (ds.map Sign.digit) := by
  rw [List.isChain_map]
  induction ds with
  | nil => simp
  | cons d ds ih => cases ds <;> simp_all [subOk]

theorem numeral_sub {us : List Sign} {q : Rat} (h : Numeral us q) :
    List.IsChain subOk us ∧ ∀ w ∈ us.head?, w ≠ .mark '_' := by
  cases h with
  | @whole ip _ =>
    refine ⟨map_digit_chain _, ?_⟩
    cases ip <;> simp
  | @point ip fp _ =>
    constructor
    · rw [List.isChain_append]
      refine ⟨map_digit_chain _, ?_, ?_⟩
      · rw [List.isChain_cons]
        refine ⟨?_, map_digit_chain _⟩
        cases fp <;> simp [subOk]
      · simp [subOk]
    · cases ip <;> simp

theorem brackets_sub : ∀ b ∈ brackets, (∀ w ∈ b.1.head?, w ≠ .mark '_') ∧ b.1 ≠ [] ∧
    (∀ w ∈ b.1, w ≠ .mark '_') ∧ (∀ w ∈ b.2.1, w ≠ .mark '_') := by decide +kernel

theorem chain_of_not {us : List Sign} (h : ∀ w ∈ us, w ≠ .mark '_') : List.IsChain subOk us := by
  induction us with
  | nil => simp
  | cons u us ih =>
    rw [List.isChain_cons]
    refine ⟨fun v hv e => ?_, ih fun w hw => h w (by simp [hw])⟩
    exact absurd e (h v (by simp [List.mem_of_mem_head? hv]))

theorem chain_append {us vs : List Sign} (h1 : List.IsChain subOk us) (h2 : List.IsChain subOk vs)
    (h3 : ∀ w ∈ vs.head?, w ≠ .mark '_') : List.IsChain subOk (us ++ vs) := by
  rw [List.isChain_append]
  exact ⟨h1, h2, fun x _ y hy e => absurd e (h3 y hy)⟩

theorem chain_cons {w : Sign} {vs : List Sign} (h2 : List.IsChain subOk vs)
    (h3 : ∀ w ∈ vs.head?, w ≠ .mark '_') : List.IsChain subOk (w :: vs) := by
  rw [List.isChain_cons]
  exact ⟨fun y hy e => absurd e (h3 y hy), h2⟩

theorem chain_under {nm : Str} {vs : List Sign} (h2 : List.IsChain subOk vs)
    (h3 : ∀ w ∈ vs.head?, w ≠ .mark '_') : List.IsChain subOk (.cmd nm :: .mark '_' :: vs) := by
  rw [List.isChain_cons]
  exact ⟨by simp [subOk], chain_cons h2 h3⟩

theorem variable_sub {w : Sign} {n : Str} (h : Variable w n) : w ≠ .mark '_' := by
  cases h <;> simp

omit [Field K] in
theorem endless_sub {us : List Sign} {b : Bound K} (h : Endless us b) :
    List.IsChain subOk us ∧ ∀ w ∈ us.head?, w ≠ .mark '_' := by
  cases h <;> exact ⟨chain_of_not (by decide), by decide⟩

theorem head_append {us vs : List Sign} (hn : us ≠ []) (h : ∀ w ∈ us.head?, w ≠ .mark '_') :
    ∀ w ∈ (us ++ vs).head?, w ≠ .mark '_' := by
  cases us with
  | nil => exact absurd rfl hn
  | cons u us => simpa using h

theorem denotes_sub {wide : Style} {l : Level} {ws : List Sign} {x : K}
    (h : Denotes I free wide l ws x) :
    List.IsChain subOk ws ∧ ∀ w ∈ ws.head?, w ≠ .mark '_' := by
  have br : ∀ {l q o} {us : List Sign}, (l, q, o) ∈ brackets →
      (List.IsChain subOk us ∧ ∀ w ∈ us.head?, w ≠ .mark '_') →
      List.IsChain subOk (l ++ us ++ q) ∧ ∀ w ∈ (l ++ us ++ q).head?, w ≠ .mark '_' := by
    intro l q o us hb ih
    obtain ⟨h1, h2, h3, h4⟩ := brackets_sub _ hb
    refine ⟨chain_append (chain_append (chain_of_not h3) ih.1 ih.2) (chain_of_not h4) ?_, ?_⟩
    · exact fun w hw => h4 w (List.mem_of_mem_head? hw)
    · rw [List.append_assoc]
      exact head_append h2 h1
  have arrow : ∀ a ∈ arrows, a ≠ .mark '_' := by decide +kernel
  have op : ∀ o ∈ timesSigns ++ overSigns, o ≠ .mark '_' := by decide +kernel
  have bin : ∀ {us vs : List Sign} {o : Sign}, us ≠ [] → o ≠ .mark '_' →
      (List.IsChain subOk us ∧ ∀ w ∈ us.head?, w ≠ .mark '_') →
      (List.IsChain subOk vs ∧ ∀ w ∈ vs.head?, w ≠ .mark '_') →
      List.IsChain subOk (us ++ o :: vs) ∧ ∀ w ∈ (us ++ o :: vs).head?, w ≠ .mark '_' := by
    intro us vs o hn ho h1 h2
    exact ⟨chain_append h1.1 (chain_cons h2.1 h2.2) (by simpa using ho), head_append hn h1.2⟩
  have pre : ∀ {us : List Sign} {o : Sign}, o ≠ .mark '_' →
      (List.IsChain subOk us ∧ ∀ w ∈ us.head?, w ≠ .mark '_') →
      List.IsChain subOk (o :: us) ∧ ∀ w ∈ (o :: us).head?, w ≠ .mark '_' := by
    intro us o ho h
    exact ⟨chain_cons h.1 h.2, by simpa using ho⟩
  have app : ∀ {us vs : List Sign}, us ≠ [] →
      (List.IsChain subOk us ∧ ∀ w ∈ us.head?, w ≠ .mark '_') →
      (List.IsChain subOk vs ∧ ∀ w ∈ vs.head?, w ≠ .mark '_') →
      List.IsChain subOk (us ++ vs) ∧ ∀ w ∈ (us ++ vs).head?, w ≠ .mark '_' := by
    intro us vs hn h1 h2
    exact ⟨chain_append h1.1 h2.1 h2.2, head_append hn h1.2⟩
  have one : ∀ {o : Sign}, o ≠ .mark '_' →
      List.IsChain subOk [o] ∧ ∀ w ∈ [o].head?, w ≠ .mark '_' := by
    intro o ho
    exact ⟨by simp, by simpa using ho⟩
  have app' : ∀ {us vs : List Sign}, (List.IsChain subOk us ∧ ∀ w ∈ us.head?, w ≠ .mark '_') →
      (List.IsChain subOk vs ∧ ∀ w ∈ vs.head?, w ≠ .mark '_') →
      List.IsChain subOk (us ++ vs) ∧ ∀ w ∈ (us ++ vs).head?, w ≠ .mark '_' := by
    intro us vs h1 h2
    cases us with
    | nil => exact h2
    | cons u us => exact app (by simp) h1 h2
  have above : ∀ {us : List Sign} {b : Bound K}, EndlessAbove us b →
      List.IsChain subOk us ∧ ∀ w ∈ us.head?, w ≠ .mark '_' := by
    intro us b h
    cases h with
    | inf => exact one (by decide)
    | braces h => exact app (by simp) (pre (by decide) (endless_sub h)) (one (by decide))
  induction h with
  | term _ ih | signed _ ih | product _ ih | factor _ ih | power _ ih | base _ ih | app _ ih
  | long _ ih | pointBase _ ih
  | bareSigned _ ih | bare _ ih | bareFactor _ ih | bareApp _ ih | restFactor _ _ ih => exact ih
  | add h _ ih1 ih2 | sub h _ ih1 ih2 | pow h _ ih1 ih2 | mod h _ ih1 ih2 =>
    exact bin (not_nil h) (by decide) ih1 ih2
  | mul ho h _ ih1 ih2 | div ho h _ ih1 ih2 | bareMul _ ho h _ ih1 ih2 | bareDiv _ ho h _ ih1 ih2 =>
    exact bin (not_nil h) (op _ (by simp [ho])) ih1 ih2
  | pos _ ih | neg _ ih | barePos _ ih | bareNeg _ ih | pointNeg _ ih => exact pre (by decide) ih
  | juxt h _ _ ih1 ih2 | appJuxt h _ _ ih1 ih2 | bareJuxt h _ _ ih1 ih2
  | restJuxt h _ _ _ ih1 ih2 => exact app (not_nil h) ih1 ih2
  | fact h ih => exact app (not_nil h) ih (one (by decide))
  | expBraces _ ih | partBraces _ ih | argParens _ ih =>
    exact app (by simp) (pre (by decide) ih) (one (by decide))
  | expDigit | partDigit => exact one (by simp)
  | expLetter hv _ | letter hv _ | pointName hv _ => exact one (variable_sub hv)
  | number h => exact numeral_sub h
  | percent h =>
    refine ⟨chain_append (numeral_sub h).1 (one (by decide)).1 (one (by decide)).2, ?_⟩
    cases h with
    | @whole ip _ => cases ip <;> simp
    | @point ip fp _ => cases ip <;> simp
  | pi => exact one (by decide)
  | letterPow hv _ _ ih => exact pre (variable_sub hv) (pre (by decide) ih)
  | euler => exact one (by decide)
  | eulerPow _ ih => exact pre (by decide) (pre (by decide) ih)
  | bracket hb _ ih | bracketFn hb _ ih => exact br hb ih
  | frac _ _ ih1 ih2 => exact app (by simp) (pre (by decide) ih1) ih2
  | sqrt _ ih | log _ ih | ln _ ih | appLog _ _ ih | appLn _ _ ih => exact pre (by decide) ih
  | root _ _ _ ih1 ih2 =>
    exact app (by simp) (pre (by decide) (pre (by decide) ih1)) (pre (by decide) ih2)
  | binom _ _ ih1 ih2 =>
    exact app (by simp) (app (by simp) (pre (by decide) (pre (by decide) ih1))
      (pre (by decide) (pre (by decide) ih2))) (one (by decide))
  | argLeft _ ih =>
    exact app (by simp) (pre (by decide) (pre (by decide) ih)) (pre (by decide) (one (by decide)))
  | func hf _ ih | appFunc hf _ _ ih => exact pre (by simp) ih
  | funcPow hf _ _ _ _ ih1 ih2 | appFuncPow hf _ _ _ _ _ _ ih1 ih2 =>
    exact app (by simp) (pre (by simp) (pre (by decide) ih1)) ih2
  | logBase _ _ ih1 ih2 | appLogBase _ _ _ _ ih1 ih2 =>
    exact app (by simp) ⟨chain_under ih1.1 ih1.2, by simp⟩ ih2
  | funcInv _ _ ih | appFuncInv _ _ _ ih =>
    exact pre (by simp) (pre (by decide) (pre (by decide) (pre (by decide) (pre (by decide)
      (pre (by decide) ih)))))
  | derivative _ _ h0 _ _ ih =>
    exact pre (by simp) (pre (by decide) (pre (by decide) (pre (by decide) (pre (by decide)
      (pre (by simp) (pre (by decide) (ih _ h0)))))))
  | @integral _ _ _ d e as bs c w vs x lo hi S f k₀ _ _ _ h1 h2 h3 h4 _ h0 _ _ ih1 ih2 ih3 =>
    have ha : List.IsChain subOk as ∧ ∀ w ∈ as.head?, w ≠ .mark '_' := by
      by_cases h : ∃ y, lo = .fin y
      · exact ih1 _ h.choose_spec
      · exact above (h2 fun y hy => h ⟨y, hy⟩)
    have hb : List.IsChain subOk bs ∧ ∀ w ∈ bs.head?, w ≠ .mark '_' := by
      by_cases h : ∃ y, hi = .fin y
      · exact ih2 _ h.choose_spec
      · exact above (h4 fun y hy => h ⟨y, hy⟩).2
    have h5 := app' ha (pre (o := .mark '^') (by decide)
      (app' hb (app' (ih3 _ h0) (one (o := .diff c) (by simp)))))
    exact ⟨chain_under h5.1 h5.2, by simp⟩
  | @integralOne _ _ _ d e as bs c lo hi _ _ _ h1 h2 h3 h4 ih1 ih2 =>
    have ha : List.IsChain subOk as ∧ ∀ w ∈ as.head?, w ≠ .mark '_' := by
      by_cases h : ∃ y, lo = .fin y
      · exact ih1 _ h.choose_spec
      · exact above (h2 fun y hy => h ⟨y, hy⟩)
    have hb : List.IsChain subOk bs ∧ ∀ w ∈ bs.head?, w ≠ .mark '_' := by
      by_cases h : ∃ y, hi = .fin y
      · exact ih2 _ h.choose_spec
      · exact above (h4 fun y hy => h ⟨y, hy⟩).2
    have h5 := app' ha (pre (o := .mark '^') (by decide) (app' hb (one (o := .diff c) (by simp))))
    exact ⟨chain_under h5.1 h5.2, by simp⟩
  | @antiderivative _ _ _ c w vs x S f k₀ _ _ _ h0 _ _ ih =>
    exact pre (by simp) (app' (ih _ h0) (one (o := .diff c) (by simp)))
  | @sum _ _ _ nm op v i as e bs o w vs x lo hi S f k₀ _ hv _ h1 h2 h3 h4 _ h0 _ _ ih1 ih2 ih3 =>
    have ha : List.IsChain subOk as ∧ ∀ w ∈ as.head?, w ≠ .mark '_' := by
      by_cases h : ∃ y, lo = .fin y
      · exact ih1 _ h.choose_spec
      · exact endless_sub (h2 fun y hy => h ⟨y, hy⟩)
    have hb : List.IsChain subOk bs ∧ ∀ w ∈ bs.head?, w ≠ .mark '_' := by
      by_cases h : ∃ y, hi = .fin y
      · exact ih2 _ h.choose_spec
      · exact above (h4 fun y hy => h ⟨y, hy⟩).2
    have h5 := pre (o := v) (variable_sub hv) (pre (o := .mark '=') (by decide)
      (app' ha (pre (o := .mark '}') (by decide) (pre (o := .mark '^') (by decide)
        (app' hb (ih3 _ h0))))))
    exact ⟨chain_under (pre (by decide) h5).1 (by simp), by simp⟩
  | limInfinity hq hv _ hp h0 _ _ ih =>
    have h5 := pre (variable_sub hv) (pre (arrow _ hq)
      (app' (endless_sub hp) (pre (o := .mark '}') (by decide) (ih _ h0))))
    exact ⟨chain_under (pre (by decide) h5).1 (by simp), by simp⟩
  | limBoth hq hv _ _ h0 _ _ ih1 ih2 =>
    have h5 := pre (variable_sub hv) (pre (arrow _ hq)
      (app' ih1 (pre (o := .mark '}') (by decide) (ih2 _ h0))))
    exact ⟨chain_under (pre (by decide) h5).1 (by simp), by simp⟩
  | limRight hq hv _ _ h0 _ _ ih1 ih2 =>
    have h5 := pre (variable_sub hv) (pre (arrow _ hq)
      (app' ih1 (pre (o := .mark '^') (by decide) (pre (o := .mark '{') (by decide)
        (pre (o := .mark '+') (by decide) (pre (o := .mark '}') (by decide)
          (pre (o := .mark '}') (by decide) (ih2 _ h0))))))))
    exact ⟨chain_under (pre (by decide) h5).1 (by simp), by simp⟩
  | limLeft hq hv _ _ h0 _ _ ih1 ih2 =>
    have h5 := pre (variable_sub hv) (pre (arrow _ hq)
      (app' ih1 (pre (o := .mark '^') (by decide) (pre (o := .mark '{') (by decide)
        (pre (o := .mark '-') (by decide) (pre (o := .mark '}') (by decide)
          (pre (o := .mark '}') (by decide) (ih2 _ h0))))))))
    exact ⟨chain_under (pre (by decide) h5).1 (by simp), by simp⟩

end

/-- the first character of a written text that begins with an underscore -/
theorem written_underscore {ws : List Sign} {s : Str} (h : Written ws ('_' :: s))
    (hk : ∀ w ∈ ws, isToken w) : ws.head? = some (.mark '_') := by
  generalize hs : '_' :: s = s' at h
  cases h with
  | @nil b hb =>
    have := hb '_' (by rw [← hs]; simp)
    revert this; decide
  | @cons b w ws s' hb he hw =>
    cases b with
    | cons c b =>
      simp only [List.cons_append, List.cons.injEq] at hs
      have := hb c (by simp)
      rw [← hs.1] at this
      exact absurd this (by decide)
    | nil =>
      obtain ⟨k, hk⟩ := hk w (by simp)
      rw [List.nil_append] at hs
      simp only [List.head?_cons, Option.some.injEq]
      cases hk with
      | @digit d =>
        simp only [Sign.text, List.cons_append, List.cons.injEq] at hs
        have := hs.1
        clear hs he hk; exfalso; revert d; decide
      | @letter c hc =>
        simp only [Sign.text, List.cons_append, List.cons.injEq] at hs
        rw [← hs.1] at hc
        exact absurd hc (by decide)
      | euler | dLetter | greek | diff => simp [Sign.text] at hs
      | @mark c k hc =>
        simp only [Sign.text, List.cons_append, List.cons.injEq] at hs
        rw [hs.1]
      | cmd => simp [Sign.text] at hs

/-- a closing parenthesis is a sign -/
theorem paren_mark {w : Sign} {k : Kind} (h : HasKind w k) {a b : Str}
    (hw : w.text = a ++ ')' :: b) : b = [] ∧ w = .mark ')' := by
  have hm : ')' ∈ w.text := by rw [hw]; simp
  cases h with
  | @digit d =>
    simp only [Sign.text, List.mem_singleton] at hm
    clear hw; exfalso; revert d; decide
  | @letter v hv =>
    simp only [Sign.text, List.mem_singleton] at hm
    subst hm
    exact absurd hv (by decide)
  | euler | dLetter => simp [Sign.text] at hm
  | @greek n b hn => exact absurd (greek_text hn hm) (by decide)
  | @diff v hv => exact absurd (diff_text hv hm) (by decide)
  | @mark v k hv =>
    simp only [Sign.text, List.mem_singleton] at hm
    subst hm
    cases a with
    | nil => simp only [Sign.text, List.nil_append, List.cons.injEq, true_and] at hw; exact ⟨hw.symm, rfl⟩
    | cons c a => simp [Sign.text] at hw
  | @cmd n k hn =>
    simp only [Sign.text, List.mem_cons] at hm
    rcases hm with hm | hm
    · simp at hm
    · exact absurd (List.all_eq_true.1 (List.all_eq_true.1 cmd_chars _ hn) _ hm) (by decide)

theorem not_perm {ws : List Sign} {s : Str} (h : Written ws s) (hk : ∀ w ∈ ws, isToken w)
    (hc : List.IsChain subOk ws) : ¬ s%")_{" <:+: s := by
  intro hi
  obtain ⟨us, w, vs, a, b, s', rfl, h1, h2, h3, h4, h5⟩ :=
    written_infix (c := ')') rfl (by decide) h hi
  obtain ⟨k, hw⟩ := hk w (by simp)
  cases b with
  | nil => exact h2 rfl
  | cons c b =>
    obtain ⟨rfl, h6⟩ : ')' = c ∧ s%"_{" <+: b ++ s' := by
      obtain ⟨t, ht⟩ := h5
      simp only [List.cons_append, List.cons.injEq] at ht
      exact ⟨ht.1, t, by simpa using ht.2⟩
    obtain ⟨rfl, rfl⟩ := paren_mark hw h1
    obtain ⟨t, ht⟩ := h6
    simp only [List.cons_append, List.nil_append] at ht
    rw [← ht] at h4
    have := written_underscore h4 fun w hw => hk w (by simp [hw])
    cases vs with
    | nil => cases this
    | cons v vs =>
      cases this
      rw [List.isChain_append] at hc
      exact (List.isChain_cons.1 hc.2.1).1 _ rfl rfl rfl

theorem permStep_id {s : Str} (h : ¬ s%")_{" <:+: s) : permStep s = s := by
  refine reSub_of_lang _ fun u hu hi => h ?_
  obtain ⟨a, v, b, rfl, hv⟩ := lang_cat_mem (r := Re.lit s%")_{") (by simp) hu
  rw [lang_lit] at hv
  subst hv
  exact (List.infix_append a _ b).trans hi

/-- **Preparation.**  A text of the notation is not changed before it is parsed. -/
theorem prepare_written {ws : List Sign} {s : Str} (h : Written ws s) (hk : ∀ w ∈ ws, isToken w)
    (hc : List.IsChain subOk ws) : prepare s = s := by
  have np : ∀ {q : Str} {p new : Str}, q ∈ prepared → ('\\' :: q) <:+: p → replace p new s = s :=
    fun hq hp => replace_id _ _ _ fun hi => not_prepared h hk hq (hp.trans hi)
  have nc : ∀ {c : Char} {new : Str}, signChar c = false ∧ c ≠ ' ' ∧ c ≠ '\t' ∧ c ≠ '\r' ∧ c ≠ '\n' →
      replace [c] new s = s := by
    intro c new hcc
    refine replace_id _ _ _ (not_infix_of_not_mem c (by simp) fun hm => ?_)
    have := written_chars h hk c hm
    rw [hcc.1] at this
    have h2 := hcc.2
    simp only [Bool.false_eq_true, false_or] at this
    tauto
  rw [prepare]
  rw [np (q := s%"dfrac") (by decide) (List.infix_refl _), np (q := s%"tfrac") (by decide) (List.infix_refl _),
    np (q := s%"mathrm") (p := s%"\\mathrm{T}") (by decide) ⟨[], s%"{T}", rfl⟩, np (q := s%"mathrm") (p := s%"\\mathrm{d}") (by decide) ⟨[], s%"{d}", rfl⟩,
    np (q := s%"rm") (p := s%"{\\rm d}") (by decide) ⟨s%"{", s%" d}", rfl⟩,
    np (q := s%"begin{matrix}") (p := s%"\\left[\\begin{matrix}") (by decide) ⟨s%"\\left[", [], rfl⟩,
    np (q := s%"end{matrix}") (p := s%"\\end{matrix}\\right]") (by decide) ⟨[], s%"\\right]", rfl⟩,
    permStep_id (not_perm h hk hc), np (q := s%"displaystyle") (by decide) (List.infix_refl _),
    np (q := s%"quad") (by decide) (List.infix_refl _), np (q := s%"qquad") (by decide) (List.infix_refl _),
    nc (c := '~') (by decide), np (q := s%",") (by decide) (List.infix_refl _), nc (c := '$') (by decide)]

end Verif.Grammar
