import Verif.Props.L2SArith
/-
C67: symbols of the LaTeX converter are named canonically.
-/

namespace Verif.L2S
open Verif

/-! ### Specification -/

/-- PS.g4:193-246 `GREEK_LETTER` -/
def greekLetters : List Str :=
  [s%"\\char\"000391", s%"\\alpha", s%"\\char\"000392", s%"\\beta", s%"\\Gamma", s%"\\gamma",
   s%"\\Delta", s%"\\delta", s%"\\char\"000190", s%"\\epsilon", s%"\\varepsilon",
   s%"\\char\"000396", s%"\\zeta", s%"\\char\"000397", s%"\\eta", s%"\\Theta", s%"\\theta",
   s%"\\vartheta", s%"\\char\"000399", s%"\\iota", s%"\\char\"00039A", s%"\\kappa", s%"\\Lambda",
   s%"\\lambda", s%"\\char\"00039C", s%"\\mu", s%"\\char\"00039D", s%"\\nu", s%"\\Xi", s%"\\xi",
   s%"\\char\"00039F", s%"\\omicron", s%"\\Pi", s%"\\varpi", s%"\\char\"0003A1", s%"\\rho",
   s%"\\varrho", s%"\\Sigma", s%"\\sigma", s%"\\varsigma", s%"\\char\"0003A4", s%"\\tau",
   s%"\\Upsilon", s%"\\upsilon", s%"\\Phi", s%"\\phi", s%"\\varphi", s%"\\char\"0003A7",
   s%"\\chi", s%"\\Psi", s%"\\psi", s%"\\Omega", s%"\\omega"]

/-- PS.g4:250-293 `OTHER_SYMBOL` -/
def otherSymbols : List Str :=
  [s%"\\Bbbk", s%"\\wp", s%"\\nabla", s%"\\bigstar", s%"\\angle", s%"\\nexists", s%"\\diagdown",
   s%"\\measuredangle", s%"\\eth", s%"\\diagup", s%"\\sphericalangle", s%"\\clubsuit",
   s%"\\varnothing", s%"\\Diamond", s%"\\complement", s%"\\diamondsuit", s%"\\imath", s%"\\Finv",
   s%"\\triangledown", s%"\\heartsuit", s%"\\jmath", s%"\\Game", s%"\\triangle", s%"\\spadesuit",
   s%"\\ell", s%"\\hbar", s%"\\vartriangle", s%"\\hslash", s%"\\blacklozenge", s%"\\lozenge",
   s%"\\blacksquare", s%"\\mho", s%"\\blacktriangle", s%"\\sharp", s%"\\prime", s%"\\Im",
   s%"\\flat", s%"\\square", s%"\\backprime", s%"\\Re", s%"\\natural", s%"\\surd",
   s%"\\circledS"]

/-- PS.g4:308-349 `accent_symbol` -/
def accentNames : List Str :=
  [s%"\\acute", s%"\\bar", s%"\\overline", s%"\\breve", s%"\\check", s%"\\widecheck", s%"\\dot",
   s%"\\ddot", s%"\\grave", s%"\\hat", s%"\\tilde", s%"\\widetilde", s%"\\vec",
   s%"\\overrightarrow", s%"\\bm", s%"\\boldsymbol", s%"\\text", s%"\\textit", s%"\\mathbb",
   s%"\\mathbin", s%"\\mathbf", s%"\\mathcal", s%"\\mathclap", s%"\\mathclose",
   s%"\\mathellipsis", s%"\\mathfrak", s%"\\mathinner", s%"\\mathit", s%"\\mathnormal",
   s%"\\mathop", s%"\\mathopen", s%"\\mathord", s%"\\mathpunct", s%"\\mathrel", s%"\\mathring",
   s%"\\mathrlap", s%"\\mathrm", s%"\\mathscr", s%"\\mathsf", s%"\\mathsterling", s%"\\mathtt"]

/-- The name tokens of the grammar: a letter, a Greek letter or other symbol (with at most one blank
behind it), or an accent over a nonempty text.  The text must not contain an underscore; no token of
the grammar is `\\h`. -/
inductive Token : NameTok → Prop
  | letter {c} : asciiAlpha c = true → Token (.letter [c])
  | greek {g} : g ∈ greekLetters → Token (.greek g)
  | greekBlank {g} : g ∈ greekLetters → Token (.greek (g ++ s%" "))
  | other {g} : g ∈ otherSymbols → Token (.other g)
  | otherBlank {g} : g ∈ otherSymbols → Token (.other (g ++ s%" "))
  | accent {n base} : n ∈ accentNames → base ≠ [] → '_' ∉ base → base ≠ s%"\\h" →
      Token (.accent n base)

/-- The accents written in two ways. -/
def synonyms : List (Str × Str) :=
  [(s%"\\overline", s%"\\bar"), (s%"\\overrightarrow", s%"\\vec"), (s%"\\widetilde", s%"\\tilde")]

/-- The preferred command of an accent. -/
def preferred (n : Str) : Str := (synonyms.lookup n).getD n

/-- Two tokens are the same name: equal up to a blank after a command and up to the synonyms
`\\overline`/`\\bar`, `\\overrightarrow`/`\\vec`, `\\widetilde`/`\\tilde`. -/
inductive SameName : NameTok → NameTok → Prop
  | letter {c} : SameName (.letter c) (.letter c)
  | greek {g a b} : g ∈ greekLetters → (a = g ∨ a = g ++ s%" ") → (b = g ∨ b = g ++ s%" ") →
      SameName (.greek a) (.greek b)
  | other {g a b} : g ∈ otherSymbols → (a = g ∨ a = g ++ s%" ") → (b = g ∨ b = g ++ s%" ") →
      SameName (.other a) (.other b)
  | accent {n n' base} : preferred n = preferred n' → SameName (.accent n base) (.accent n' base)

/-! ### Lemmas -/

theorem append_cons_inj {c : Char} : ∀ {a a' b b' : Str}, c ∉ a → c ∉ a' →
    a ++ c :: b = a' ++ c :: b' → a = a' ∧ b = b'
  | [], [], b, b', _, _, h => by simpa using h
  | [], x :: a', b, b', _, h', h => by
    simp only [List.nil_append, List.cons_append, List.cons.injEq] at h
    exact absurd (by rw [h.1]; simp) h'
  | x :: a, [], b, b', h', _, h => by
    simp only [List.nil_append, List.cons_append, List.cons.injEq] at h
    exact absurd (by rw [h.1]; simp) h'
  | x :: a, y :: a', b, b', h1, h2, h => by
    simp only [List.cons_append, List.cons.injEq] at h
    obtain ⟨e1, e2⟩ := append_cons_inj (fun hm => h1 (by simp [hm])) (fun hm => h2 (by simp [hm])) h.2
    exact ⟨by rw [h.1, e1], e2⟩

/-- the name of an accent -/
inductive AccentText : Str → Str → Str → Prop
  | bar {n b} : preferred n = s%"\\bar" → AccentText n b (b ++ s%"bar")
  | vec {n b} : preferred n = s%"\\vec" → AccentText n b (b ++ s%"vec")
  | tilde {n b} : preferred n = s%"\\tilde" → AccentText n b (b ++ s%"tilde")
  | rest {n b} : preferred n = n → '{' ∉ n → '_' ∉ n → n ∉ [s%"\\bar", s%"\\vec", s%"\\tilde"] →
      AccentText n b (n ++ '{' :: (b ++ s%"}"))

theorem accent_text {n : Str} (h : n ∈ accentNames) (b : Str) :
    AccentText n b (nameText (.accent n b)) := by
  simp only [accentNames, List.mem_cons, List.not_mem_nil, or_false] at h
  rcases h with rfl | rfl | rfl | rfl | rfl | rfl | rfl | rfl | rfl | rfl | rfl | rfl | rfl | rfl | rfl | rfl | rfl | rfl | rfl | rfl | rfl | rfl | rfl | rfl | rfl | rfl | rfl | rfl | rfl | rfl | rfl | rfl | rfl | rfl | rfl | rfl | rfl | rfl | rfl | rfl | rfl <;>
  first
  | exact .bar (by decide)
  | exact .vec (by decide)
  | exact .tilde (by decide)
  | exact .rest (by decide) (by decide) (by decide) (by decide)

theorem greek_text {g : Str} (h : g ∈ greekLetters) :
    nameText (.greek g) = g.drop 1 ∧ nameText (.greek (g ++ s%" ")) = g.drop 1 ∧
    g = '\\' :: g.drop 1 ∧ 2 ≤ (g.drop 1).length ∧ '_' ∉ g ∧ '\\' ∉ g.drop 1 ∧ '}' ∉ g ∧
    ¬ s%"bar" <:+ g.drop 1 ∧ ¬ s%"vec" <:+ g.drop 1 ∧ ¬ s%"tilde" <:+ g.drop 1 := by
  revert h; revert g; decide +kernel

theorem other_text {g : Str} (h : g ∈ otherSymbols) :
    nameText (.other g) = g ∧ nameText (.other (g ++ s%" ")) = g ∧
    g = '\\' :: g.drop 1 ∧ 2 ≤ (g.drop 1).length ∧ '_' ∉ g ∧ '}' ∉ g ∧
    (s%"bar" <:+ g → g = s%"\\hbar") ∧ ¬ s%"vec" <:+ g ∧ ¬ s%"tilde" <:+ g := by
  revert h; revert g; decide +kernel

/-- what a token's name looks like -/
inductive Shape : NameTok → Str → Prop
  | letter {c} : asciiAlpha c = true → Shape (.letter [c]) [c]
  | greek {g a} : g ∈ greekLetters → (a = g ∨ a = g ++ s%" ") → Shape (.greek a) (g.drop 1)
  | other {g a} : g ∈ otherSymbols → (a = g ∨ a = g ++ s%" ") → Shape (.other a) g
  | accent {n b s} : b ≠ [] → '_' ∉ b → b ≠ s%"\\h" → AccentText n b s → Shape (.accent n b) s

theorem Token.shape {t : NameTok} (h : Token t) : Shape t (nameText t) := by
  cases h with
  | letter h => exact .letter h
  | greek h => rw [(greek_text h).1]; exact .greek h (.inl rfl)
  | greekBlank h => rw [(greek_text h).2.1]; exact .greek h (.inr rfl)
  | other h =>
    have := Shape.other h (.inl rfl)
    rwa [(other_text h).1]
  | otherBlank h =>
    have := Shape.other h (.inr rfl)
    rwa [(other_text h).2.1]
  | accent h h1 h2 h3 => exact .accent h1 h2 h3 (accent_text h _)

theorem last_ne {a b : Str} {x y : Char} (h : a ++ [x] = b ++ [y]) : x = y := by
  have := congrArg List.getLast? h
  simpa using this

theorem AccentText.last {n b s : Str} (h : AccentText n b s) :
    ∃ p x, s = p ++ [x] ∧ (x = 'r' ∨ x = 'c' ∨ x = 'e' ∨ x = '}') := by
  cases h with
  | bar => exact ⟨b ++ s%"ba", 'r', by simp, by simp⟩
  | vec => exact ⟨b ++ s%"ve", 'c', by simp, by simp⟩
  | tilde => exact ⟨b ++ s%"tild", 'e', by simp, by simp⟩
  | rest => exact ⟨n ++ '{' :: b, '}', by simp, by simp⟩

theorem AccentText.inj {n b n' b' s : Str} (h : AccentText n b s) (h' : AccentText n' b' s) :
    preferred n = preferred n' ∧ b = b' := by
  have e4 : ∀ a a' : Str, a ++ s%"bar" ≠ a' ++ s%"vec" := by
    intro a a' e
    exact absurd (last_ne (a := a ++ s%"ba") (b := a' ++ s%"ve") (by simpa using e)) (by decide)
  have e5 : ∀ a a' : Str, a ++ s%"bar" ≠ a' ++ s%"tilde" := by
    intro a a' e
    exact absurd (last_ne (a := a ++ s%"ba") (b := a' ++ s%"tild") (by simpa using e)) (by decide)
  have e6 : ∀ a a' : Str, a ++ s%"vec" ≠ a' ++ s%"tilde" := by
    intro a a' e
    exact absurd (last_ne (a := a ++ s%"ve") (b := a' ++ s%"tild") (by simpa using e)) (by decide)
  have e1 : ∀ a m c : Str, a ++ s%"bar" ≠ m ++ '{' :: (c ++ s%"}") := by
    intro a m c e
    exact absurd (last_ne (a := a ++ s%"ba") (b := m ++ '{' :: c) (by simpa using e)) (by decide)
  have e2 : ∀ a m c : Str, a ++ s%"vec" ≠ m ++ '{' :: (c ++ s%"}") := by
    intro a m c e
    exact absurd (last_ne (a := a ++ s%"ve") (b := m ++ '{' :: c) (by simpa using e)) (by decide)
  have e3 : ∀ a m c : Str, a ++ s%"tilde" ≠ m ++ '{' :: (c ++ s%"}") := by
    intro a m c e
    exact absurd (last_ne (a := a ++ s%"tild") (b := m ++ '{' :: c) (by simpa using e)) (by decide)
  generalize hs : s = s' at h'
  cases h with
  | bar h1 =>
    cases h' with
    | bar h2 => exact ⟨h1.trans h2.symm, List.append_cancel_right hs⟩
    | vec => exact absurd hs (e4 _ _)
    | tilde => exact absurd hs (e5 _ _)
    | rest => exact absurd hs (e1 _ _ _)
  | vec h1 =>
    cases h' with
    | bar => exact absurd hs.symm (e4 _ _)
    | vec h2 => exact ⟨h1.trans h2.symm, List.append_cancel_right hs⟩
    | tilde => exact absurd hs (e6 _ _)
    | rest => exact absurd hs (e2 _ _ _)
  | tilde h1 =>
    cases h' with
    | bar => exact absurd hs.symm (e5 _ _)
    | vec => exact absurd hs.symm (e6 _ _)
    | tilde h2 => exact ⟨h1.trans h2.symm, List.append_cancel_right hs⟩
    | rest => exact absurd hs (e3 _ _ _)
  | rest h1 h2 h3 =>
    cases h' with
    | bar => exact absurd hs.symm (e1 _ _ _)
    | vec => exact absurd hs.symm (e2 _ _ _)
    | tilde => exact absurd hs.symm (e3 _ _ _)
    | rest g1 g2 g3 =>
      obtain ⟨rfl, e⟩ := append_cons_inj h2 g2 hs
      exact ⟨rfl, List.append_cancel_right e⟩

theorem AccentText.length {n b s : Str} (h : AccentText n b s) : 2 ≤ s.length := by
  cases h <;> simp <;> omega

/-- a name of an accent is not a Greek letter or another symbol -/
theorem AccentText.not_word {n b s : Str} (h : AccentText n b s) (h1 : '}' ∉ s)
    (h2 : s%"bar" <:+ s → False) (h3 : ¬ s%"vec" <:+ s) (h4 : ¬ s%"tilde" <:+ s) : False := by
  cases h with
  | bar => exact h2 ⟨b, rfl⟩
  | vec => exact h3 ⟨b, rfl⟩
  | tilde => exact h4 ⟨b, rfl⟩
  | rest => exact h1 (by simp)

theorem not_mem_drop {c : Char} {g : Str} (h : c ∉ g) : c ∉ g.drop 1 :=
  fun hm => h (List.mem_of_mem_drop hm)

theorem Shape.inj {t t' : NameTok} {s : Str} (h : Shape t s) (h' : Shape t' s) : SameName t t' := by
  generalize hs : s = s' at h'
  cases h with
  | @letter c hc =>
    cases h' with
    | letter => cases hs; exact .letter
    | greek hg => have := (greek_text hg).2.2.2.1; rw [← hs] at this; simp at this
    | @other g a hg =>
      obtain ⟨-, -, e, hl, -⟩ := other_text hg
      rw [e] at hs; simp only [List.cons.injEq] at hs
      rw [← hs.2] at hl; simp at hl
    | accent _ _ _ ha => have := ha.length; rw [← hs] at this; simp at this
  | @greek g a hg hga =>
    have gt := greek_text hg
    cases h' with
    | letter => have := gt.2.2.2.1; rw [hs] at this; simp at this
    | @greek g' a' hg' hga' =>
      have gt' := greek_text hg'
      have : g = g' := by rw [gt.2.2.1, gt'.2.2.1, hs]
      subst this
      exact .greek hg hga hga'
    | @other g' a' hg' hga' =>
      have := (other_text hg').2.2.1
      exact absurd (by rw [hs, this]; simp) gt.2.2.2.2.2.1
    | accent _ _ _ ha =>
      obtain ⟨-, -, -, -, -, -, h1, h2, h3, h4⟩ := gt
      rw [hs] at h2 h3 h4
      exact (ha.not_word (by rw [← hs]; exact not_mem_drop h1) h2 h3 h4).elim
  | @other g a hg hga =>
    have ot := other_text hg
    cases h' with
    | @letter c hc =>
      obtain ⟨-, -, e, hl, -⟩ := ot
      rw [e] at hs; simp only [List.cons.injEq] at hs
      rw [hs.2] at hl; simp at hl
    | @greek g' a' hg' hga' =>
      have gt' := greek_text hg'
      exact absurd (by rw [← hs, ot.2.2.1]; simp) gt'.2.2.2.2.2.1
    | @other g' a' hg' hga' => subst hs; exact .other hg hga hga'
    | @accent n b s hb hu hh ha =>
      obtain ⟨-, -, -, -, -, h1, h2, h3, h4⟩ := ot
      subst hs
      refine (ha.not_word h1 (fun hsuf => ?_) h3 h4).elim
      have e := h2 hsuf
      subst e
      generalize hx : s%"\\hbar" = x at ha
      cases ha with
      | bar =>
        refine hh (List.append_cancel_right (bs := s%"bar") ?_)
        rw [← hx]; rfl
      | vec => rw [hx] at h3; exact h3 ⟨b, rfl⟩
      | tilde => rw [hx] at h4; exact h4 ⟨b, rfl⟩
      | rest => rw [hx] at h1; exact h1 (by simp)
  | @accent n b s hb hu hh ha =>
    cases h' with
    | letter => have := ha.length; rw [hs] at this; simp at this
    | greek hg =>
      obtain ⟨-, -, -, -, -, -, h1, h2, h3, h4⟩ := greek_text hg
      rw [← hs] at h2 h3 h4
      exact (ha.not_word (by rw [hs]; exact not_mem_drop h1) h2 h3 h4).elim
    | @other g a hg hga =>
      obtain ⟨-, -, -, -, -, h1, h2, h3, h4⟩ := other_text hg
      subst hs
      refine (ha.not_word h1 (fun hsuf => ?_) h3 h4).elim
      have e := h2 hsuf
      subst e
      generalize hx : s%"\\hbar" = x at ha
      cases ha with
      | bar =>
        refine hh (List.append_cancel_right (bs := s%"bar") ?_)
        rw [← hx]; rfl
      | vec => rw [hx] at h3; exact h3 ⟨b, rfl⟩
      | tilde => rw [hx] at h4; exact h4 ⟨b, rfl⟩
      | rest => rw [hx] at h1; exact h1 (by simp)
    | @accent n' b' s' hb' hu' hh' ha' =>
      subst hs
      obtain ⟨h1, rfl⟩ := ha.inj ha'
      exact .accent h1

theorem Shape.no_underscore {t : NameTok} {s : Str} (h : Shape t s) : '_' ∉ s := by
  cases h with
  | letter h => intro hm; rw [List.mem_singleton] at hm; subst hm; exact absurd h (by decide)
  | greek hg => exact not_mem_drop (greek_text hg).2.2.2.2.1
  | other hg => exact (other_text hg).2.2.2.2.1
  | accent hb hu hh ha =>
    cases ha with
    | bar => simp only [List.mem_append, not_or]; exact ⟨hu, by decide⟩
    | vec => simp only [List.mem_append, not_or]; exact ⟨hu, by decide⟩
    | tilde => simp only [List.mem_append, not_or]; exact ⟨hu, by decide⟩
    | rest h1 h2 h3 =>
      simp only [List.mem_append, List.mem_cons, not_or]
      exact ⟨h3, by decide, hu, by decide, by simp⟩

theorem subText_inj {s s' : Str} (h : subText (some s) = subText (some s')) : strip s = strip s' := by
  simp only [subText] at h
  split at h <;> split at h <;> rename_i h1 h2
  · simpa using h
  · have := congrArg List.length h; simp at this; omega
  · have := congrArg List.length h; simp at this; omega
  · simpa using h

theorem name_inj {t t' : NameTok} (ht : Token t) (ht' : Token t') {s s' : Option Str}
    (h : nameText t ++ subText s = nameText t' ++ subText s') :
    SameName t t' ∧ s.map strip = s'.map strip := by
  have hu := ht.shape.no_underscore
  have hu' := ht'.shape.no_underscore
  have cons : ∀ s, ∃ r, subText (some s) = '_' :: r := by
    intro s; simp only [subText]; split
    · exact ⟨_, rfl⟩
    · exact ⟨_, rfl⟩
  have done : nameText t = nameText t' → SameName t t' := fun e =>
    ht.shape.inj (by rw [e]; exact ht'.shape)
  cases s with
  | none =>
    cases s' with
    | none => exact ⟨done (by simpa [subText] using h), rfl⟩
    | some s' =>
      obtain ⟨r, hr⟩ := cons s'
      rw [hr, subText, List.append_nil] at h
      exact absurd (by rw [h]; simp) hu
  | some s =>
    cases s' with
    | none =>
      obtain ⟨r, hr⟩ := cons s
      rw [hr, subText, List.append_nil] at h
      exact absurd (by rw [← h]; simp) hu'
    | some s' =>
      obtain ⟨r, hr⟩ := cons s
      obtain ⟨r', hr'⟩ := cons s'
      rw [hr, hr'] at h
      obtain ⟨e1, e2⟩ := append_cons_inj hu hu' h
      have e3 := subText_inj (hr.trans (by rw [e2, hr']))
      exact ⟨done e1, by rw [Option.map_some, Option.map_some, e3]⟩

theorem nameText_same {t t' : NameTok} (ht : Token t) (ht' : Token t') (h : SameName t t') :
    nameText t = nameText t' := by
  cases h with
  | letter => rfl
  | greek hg ha hb =>
    obtain ⟨e1, e2, -⟩ := greek_text hg
    rcases ha with rfl | rfl <;> rcases hb with rfl | rfl <;> simp only [e1, e2]
  | other hg ha hb =>
    obtain ⟨e1, e2, -⟩ := other_text hg
    rcases ha with rfl | rfl <;> rcases hb with rfl | rfl <;> simp only [e1, e2]
  | @accent n n' base hp =>
    cases ht with
    | accent hn _ _ _ =>
      cases ht' with
      | accent hn' _ _ _ =>
        have h1 := accent_text hn base
        have h2 := accent_text hn' base
        generalize nameText (.accent n base) = s at h1 ⊢
        generalize nameText (.accent n' base) = s' at h2 ⊢
        cases h1 with
        | bar g =>
          cases h2 with
          | bar => rfl
          | vec k => exact absurd (g.symm.trans (hp.trans k)) (by decide)
          | tilde k => exact absurd (g.symm.trans (hp.trans k)) (by decide)
          | rest k _ _ hx => rw [k, g] at hp; subst hp; simp at hx
        | vec g =>
          cases h2 with
          | bar k => exact absurd (g.symm.trans (hp.trans k)) (by decide)
          | vec => rfl
          | tilde k => exact absurd (g.symm.trans (hp.trans k)) (by decide)
          | rest k _ _ hx => rw [k, g] at hp; subst hp; simp at hx
        | tilde g =>
          cases h2 with
          | bar k => exact absurd (g.symm.trans (hp.trans k)) (by decide)
          | vec k => exact absurd (g.symm.trans (hp.trans k)) (by decide)
          | tilde => rfl
          | rest k _ _ hx => rw [k, g] at hp; subst hp; simp at hx
        | rest g _ _ hx =>
          cases h2 with
          | bar k => rw [k, g] at hp; subst hp; simp at hx
          | vec k => rw [k, g] at hp; subst hp; simp at hx
          | tilde k => rw [k, g] at hp; subst hp; simp at hx
          | rest k => rw [g, k] at hp; subst hp; rfl

/-! ### The theorems -/

variable {Y : Type} (L : Lib Y)

theorem conv_name (rec : Str → List (Str × PV) → M (St Y) SV) {t : NameTok}
    (hI : t ≠ .letter s%"I") {s : Option Str} {w : World (St Y)}
    (hw : w.ext.g.var.lookup (nameText t ++ subText s) = none) :
    conv L rec (.name t s none) w
      = (.ok (.sym (nameText t ++ subText s) w.ext.g.isReal), w) := by
  rw [conv, if_neg hI, M.bind_run, symbolOf_free L hw]
  rfl

/-- **C67.**  Two names (neither is the letter `I`, and no matrix is declared) are converted to the
same symbol exactly if they have the same base, up to the documented synonyms of accents, and the same
subscript up to surrounding blanks.  Partial: the letter `I` drops its subscript, see
`C67_imaginary_refuted`, and accents over a text with an underscore are not covered. -/
theorem C67_names_partial (rec : Str → List (Str × PV) → M (St Y) SV) {t t' : NameTok}
    (ht : Token t) (ht' : Token t') (hI : t ≠ .letter s%"I") (hI' : t' ≠ .letter s%"I")
    {s s' : Option Str} (w : World (St Y)) (hw : w.ext.g.var = []) :
    (conv L rec (.name t s none) w).1 = (conv L rec (.name t' s' none) w).1 ↔
      SameName t t' ∧ s.map strip = s'.map strip := by
  rw [conv_name L rec hI (by rw [hw]; rfl), conv_name L rec hI' (by rw [hw]; rfl)]
  simp only [Except.ok.injEq, SV.sym.injEq, and_true]
  constructor
  · exact name_inj ht ht'
  · rintro ⟨h1, h2⟩
    rw [nameText_same ht ht' h1]
    congr 1
    cases s with
    | none => cases s' with
      | none => rfl
      | some s' => cases h2
    | some s => cases s' with
      | none => cases h2
      | some s' =>
        simp only [Option.map_some, Option.some.injEq] at h2
        simp only [subText, h2]

/-- **C67 refuted for the letter `I`.**  It is the imaginary unit whatever its subscript is: `I_1`,
`I_2` and `I` are the same. -/
theorem C67_imaginary_refuted (rec : Str → List (Str × PV) → M (St Y) SV) (s s' : Option Str) :
    conv L rec (.name (.letter s%"I") s none) = conv L rec (.name (.letter s%"I") s' none) := by
  rw [conv, if_pos rfl, conv, if_pos rfl]

/-! ### Non-vacuity -/

/-- names in the sense of `Token` -/
example : Token (.letter s%"x") ∧ Token (.greek s%"\\alpha ") ∧ Token (.accent s%"\\hat" s%"\\beta") :=
  ⟨.letter (by decide), .greekBlank (g := s%"\\alpha") (by decide +kernel),
    .accent (by decide +kernel) (by simp) (by decide) (by decide)⟩

/-- `x_{ab}` and `x_{a}` differ, `\bar{x}` and `\overline{x}` agree -/
example (rec : Str → List (Str × PV) → M (St Y) SV) (w : World (St Y)) (hw : w.ext.g.var = []) :
    (conv L rec (.name (.letter s%"x") (some s%"ab") none) w).1
      ≠ (conv L rec (.name (.letter s%"x") (some s%"a") none) w).1 ∧
    (conv L rec (.name (.accent s%"\\bar" s%"x") (some s%"a") none) w).1
      = (conv L rec (.name (.accent s%"\\overline" s%"x") (some s%" a") none) w).1 := by
  constructor
  · rw [Ne, C67_names_partial L rec (.letter (by decide)) (.letter (by decide)) (by decide) (by decide) w hw]
    exact fun h => absurd h.2 (by decide)
  · rw [C67_names_partial L rec (.accent (by decide +kernel) (by simp) (by decide) (by decide))
      (.accent (by decide +kernel) (by simp) (by decide) (by decide)) (by simp) (by simp) w hw]
    exact ⟨.accent (by decide), by decide⟩

end Verif.L2S
