import Verif.Model.Lexer
import Verif.Props.Reading
import Verif.Spec.KernelRfl
/-
The lexer reads the signs of the notation as tokens (`lex_written`), and its tokens are longest matches
of the earliest rule.
-/

namespace Verif.Grammar
open Verif Verif.Reading

/-! ### The texts that a rule matches -/

/-- what a regular expression matches -/
inductive Rx.Matches : Rx → Str → Prop
  | lit {s} : Matches (.lit s) s
  | chr {p c} : p c = true → Matches (.chr p) [c]
  | seq {a b u v} : Matches a u → Matches b v → Matches (.seq a b) (u ++ v)
  | altL {a b u} : Matches a u → Matches (.alt a b) u
  | altR {a b u} : Matches b u → Matches (.alt a b) u
  | starNil {r} : Matches (.star r) []
  | starCons {r u v} : Matches r u → Matches (.star r) v → Matches (.star r) (u ++ v)

namespace Rx

theorem matches_none {s : Str} : ¬ Matches .none s := by intro h; cases h

theorem nullable_iff (r : Rx) : r.nullable = true ↔ Matches r [] := by
  induction r with
  | none => simp [nullable, matches_none]
  | lit s =>
    simp only [nullable, List.isEmpty_iff]
    exact ⟨fun h => h ▸ .lit, fun h => by cases h; rfl⟩
  | chr p => simp only [nullable, Bool.false_eq_true, false_iff]; intro h; cases h
  | seq a b iha ihb =>
    simp only [nullable, Bool.and_eq_true, iha, ihb]
    constructor
    · rintro ⟨ha, hb⟩; exact Matches.seq (u := []) (v := []) ha hb
    · intro h
      generalize hs : ([] : Str) = s at h
      cases h with
      | seq h1 h2 =>
        obtain ⟨rfl, rfl⟩ := List.append_eq_nil_iff.1 hs.symm
        exact ⟨h1, h2⟩
  | alt a b iha ihb =>
    simp only [nullable, Bool.or_eq_true, iha, ihb]
    constructor
    · rintro (h | h)
      · exact .altL h
      · exact .altR h
    · intro h
      cases h with
      | altL h => exact .inl h
      | altR h => exact .inr h
  | star r _ => simp only [nullable, true_iff]; exact .starNil

theorem matches_seq' {a b : Rx} {s : Str} : Matches (seq' a b) s ↔ Matches (.seq a b) s := by
  unfold seq'
  split
  · refine ⟨fun h => absurd h matches_none, fun h => ?_⟩
    cases h with
    | seq h1 _ => exact absurd h1 matches_none
  · refine ⟨fun h => Matches.seq (u := []) .lit h, fun h => ?_⟩
    cases h with
    | seq h1 h2 => cases h1; exact h2
  · rfl

theorem matches_alt' {a b : Rx} {s : Str} : Matches (alt' a b) s ↔ Matches a s ∨ Matches b s := by
  unfold alt'
  split
  · simp [matches_none]
  · simp [matches_none]
  · refine ⟨fun h => ?_, fun h => h.elim .altL .altR⟩
    cases h with
    | altL h => exact .inl h
    | altR h => exact .inr h

theorem matches_star_cons {r : Rx} {c : Char} {s : Str} :
    Matches (.star r) (c :: s) ↔ ∃ u v, s = u ++ v ∧ Matches r (c :: u) ∧ Matches (.star r) v := by
  constructor
  · intro h
    generalize hq : Rx.star r = q at h
    generalize ht : c :: s = t at h
    induction h with
    | lit | chr _ | seq _ _ | altL _ | altR _ => cases hq
    | starNil => cases ht
    | @starCons r' u v h1 h2 _ ih =>
      cases hq
      cases u with
      | nil => exact ih rfl ht
      | cons d u =>
        injection ht with h3 h4
        subst h3
        exact ⟨u, v, h4, h1, h2⟩
  · rintro ⟨u, v, rfl, h1, h2⟩
    exact Matches.starCons (u := c :: u) h1 h2

theorem deriv_matches (r : Rx) (c : Char) : ∀ s, Matches (r.deriv c) s ↔ Matches r (c :: s) := by
  induction r with
  | none => intro s; exact ⟨fun h => absurd h matches_none, fun h => absurd h matches_none⟩
  | lit w =>
    intro s
    cases w with
    | nil => exact ⟨fun h => absurd h matches_none, fun h => by cases h⟩
    | cons x xs =>
      simp only [deriv]
      split
      · rename_i h; subst h
        exact ⟨fun h => by cases h; exact .lit, fun h => by cases h; exact .lit⟩
      · rename_i h
        exact ⟨fun h => absurd h matches_none, fun h => by cases h; exact absurd rfl ‹_›⟩
  | chr p =>
    intro s
    simp only [deriv]
    split
    · rename_i h
      exact ⟨fun k => by cases k; exact .chr h, fun k => by cases k; exact .lit⟩
    · rename_i h
      exact ⟨fun k => absurd k matches_none, fun k => by cases k with | chr k => exact absurd k h⟩
  | seq a b iha ihb =>
    intro s
    simp only [deriv, matches_alt', matches_seq']
    constructor
    · rintro (h | h)
      · cases h with
        | seq h1 h2 => exact Matches.seq (u := c :: _) ((iha _).1 h1) h2
      · split at h
        · rename_i hn
          exact Matches.seq (u := []) ((nullable_iff a).1 hn) ((ihb _).1 h)
        · exact absurd h matches_none
    · intro h
      generalize ht : c :: s = t at h
      cases h with
      | @seq _ _ u v h1 h2 =>
        cases u with
        | nil =>
          refine .inr ?_
          rw [if_pos ((nullable_iff a).2 h1)]
          exact (ihb _).2 (by rw [ht]; exact h2)
        | cons d u =>
          injection ht with h3 h4
          subst h3; subst h4
          exact .inl (.seq ((iha _).2 h1) h2)
  | alt a b iha ihb =>
    intro s
    simp only [deriv, matches_alt', iha, ihb]
    refine ⟨fun h => h.elim .altL .altR, fun h => ?_⟩
    cases h with
    | altL h => exact .inl h
    | altR h => exact .inr h
  | star r ih =>
    intro s
    simp only [deriv, matches_seq']
    rw [matches_star_cons]
    constructor
    · intro h
      cases h with
      | @seq _ _ u v h1 h2 => exact ⟨u, v, rfl, (ih _).1 h1, h2⟩
    · rintro ⟨u, v, rfl, h1, h2⟩
      exact .seq ((ih _).2 h1) h2

end Rx

/-! ### Longest match -/

theorem step_mem {live : List (Kind × Rx)} {c : Char} {y : Kind × Rx} (h : y ∈ step live c) :
    ∃ x ∈ live, y = (x.1, x.2.deriv c) := by
  obtain ⟨h, -⟩ := List.mem_filter.1 h
  obtain ⟨x, hx, rfl⟩ := List.mem_map.1 h
  exact ⟨x, hx, rfl⟩

/-- Nothing longer is found. -/
theorem munch_done : ∀ (s : Str) (live : List (Kind × Rx)) (n : Nat) (best : Option (Kind × Nat)),
    (∀ x ∈ live, ∀ u, u ≠ [] → u <+: s → ¬ x.2.Matches u) → munch live n best s = best
  | [], _, _, _, _ => rfl
  | c :: cs, live, n, best, h => by
    rw [munch]
    split
    · rfl
    · rename_i x xs hx
      have hm : ∀ y ∈ x :: xs, ∃ z ∈ live, y = (z.1, z.2.deriv c) := fun y hy => step_mem (hx ▸ hy)
      have hn : (x :: xs).find? (fun y => y.2.nullable) = none := by
        rw [List.find?_eq_none]
        intro y hy hnull
        obtain ⟨z, hz, rfl⟩ := hm y hy
        exact h z hz [c] (by simp) (by simp)
          ((Rx.deriv_matches _ _ _).1 ((Rx.nullable_iff _).1 hnull))
      rw [hn]
      refine munch_done cs (x :: xs) (n + 1) best fun y hy u hu hp hmt => ?_
      obtain ⟨z, hz, rfl⟩ := hm y hy
      exact h z hz (c :: u) (by simp) (by simpa using hp) ((Rx.deriv_matches _ _ _).1 hmt)

/-- rules still alive after a text -/
def steps (live : List (Kind × Rx)) : Str → List (Kind × Rx)
  | [] => live
  | c :: cs => steps (step live c) cs

theorem steps_mem {y : Kind × Rx} : ∀ {w : Str} {live : List (Kind × Rx)}, y ∈ steps live w →
    ∃ x ∈ live, y.1 = x.1 ∧ ∀ u, y.2.Matches u ↔ x.2.Matches (w ++ u)
  | [], live, h => ⟨y, h, rfl, fun u => Iff.rfl⟩
  | c :: cs, live, h => by
    obtain ⟨x, hx, h1, h2⟩ := steps_mem (w := cs) h
    obtain ⟨z, hz, rfl⟩ := step_mem hx
    exact ⟨z, hz, h1, fun u => (h2 u).trans (Rx.deriv_matches _ _ _)⟩

/-- The expression is a list of literals. -/
def Rx.words : Rx → Option (List Str)
  | .lit s => some [s]
  | .alt a b =>
    match a.words, b.words with
    | some u, some v => some (u ++ v)
    | _, _ => Option.none
  | _ => Option.none

theorem Rx.words_matches {u : Str} : ∀ {r : Rx} {l : List Str}, r.words = some l → r.Matches u → u ∈ l
  | .lit s, l, h, hm => by
    cases hm
    simp only [words, Option.some.injEq] at h
    simp [← h]
  | .alt a b, l, h, hm => by
    simp only [words] at h
    split at h
    · rename_i x y hx hy
      cases h
      cases hm with
      | altL hm => exact List.mem_append_left _ (words_matches hx hm)
      | altR hm => exact List.mem_append_right _ (words_matches hy hm)
    · cases h
  | .none, _, h, _ => by cases h
  | .chr _, _, h, _ => by cases h
  | .seq _ _, _, h, _ => by cases h
  | .star _, _, h, _ => by cases h

/-- characters with which the texts of an expression begin -/
def Rx.heads : Rx → Option (List Char)
  | .none => some []
  | .lit s => some (s.take 1)
  | .chr _ => Option.none
  | .seq a b =>
    match a.heads, b.heads with
    | some u, some v => some (if a.nullable then u ++ v else u)
    | some u, Option.none => if a.nullable then Option.none else some u
    | Option.none, _ => Option.none
  | .alt a b =>
    match a.heads, b.heads with
    | some u, some v => some (u ++ v)
    | _, _ => Option.none
  | .star r => r.heads

theorem Rx.heads_matches {c : Char} {u : Str} : ∀ {r : Rx} {l : List Char}, r.heads = some l →
    r.Matches (c :: u) → c ∈ l
  | .none, _, _, hm => absurd hm matches_none
  | .lit s, l, h, hm => by
    cases hm
    simp only [heads, Option.some.injEq] at h
    simp [← h]
  | .chr _, _, h, _ => by cases h
  | .seq a b, l, h, hm => by
    generalize ht : c :: u = t at hm
    cases hm with
    | @seq _ _ v w h1 h2 =>
      simp only [heads] at h
      cases v with
      | nil =>
        have hn := (nullable_iff a).2 h1
        rw [List.nil_append] at ht
        subst ht
        split at h
        · rename_i y hy
          rw [if_pos hn] at h
          cases h
          exact List.mem_append_right _ (heads_matches hy h2)
        · rw [if_pos hn] at h; cases h
        · cases h
      | cons d v =>
        injection ht with h3 h4
        subst h3
        split at h
        · rename_i x y hx hy
          cases h
          split
          · exact List.mem_append_left _ (heads_matches hx h1)
          · exact heads_matches hx h1
        · rename_i x hx hy
          split at h
          · cases h
          · cases h
            exact heads_matches hx h1
        · cases h
  | .alt a b, l, h, hm => by
    simp only [heads] at h
    split at h
    · rename_i x y hx hy
      cases h
      cases hm with
      | altL hm => exact List.mem_append_left _ (heads_matches hx hm)
      | altR hm => exact List.mem_append_right _ (heads_matches hy hm)
    · cases h
  | .star r, l, h, hm => by
    obtain ⟨v, w, -, h1, -⟩ := matches_star_cons.1 hm
    simp only [heads] at h
    exact heads_matches h h1

/-- all continuations of a text to a token are among these words, or begin with these characters
(and rules are simple) -/
def goesOn (w : Str) (ok : Str → Bool) (hd : Char → Bool) : Bool :=
  (steps rules w).all fun x => match x.2.words with
    | some l => l.all fun t => t.isEmpty || ok t
    | none => match x.2.heads with
      | some l => l.all hd
      | none => false

theorem goesOn_spec {w : Str} {ok : Str → Bool} {hd : Char → Bool} (h : goesOn w ok hd = true)
    (hh : ∀ c u, hd c = true → ok (c :: u) = true) {x : Kind × Rx}
    (hx : x ∈ steps rules w) {u : Str} (hu : u ≠ []) (hm : x.2.Matches u) : ok u = true := by
  have := List.all_eq_true.1 h x hx
  split at this
  · rename_i l hl
    have h2 := List.all_eq_true.1 this u (Rx.words_matches hl hm)
    simpa [hu] using h2
  · split at this
    · rename_i l hl
      cases u with
      | nil => exact absurd rfl hu
      | cons c u => exact hh c u (List.all_eq_true.1 this c (Rx.heads_matches hl hm))
    · cases this

/-! ### Token types of the signs -/

/-- token types of marks -/
def markKinds : List (Char × Kind) :=
  [('+', .ADD), ('-', .SUB), ('*', .MUL), ('/', .DIV), (':', .COLON), ('(', .L_PAREN),
   (')', .R_PAREN), ('[', .L_BRACKET), (']', .R_BRACKET), ('{', .L_BRACE), ('}', .R_BRACE),
   ('|', .BAR), ('.', .PERIOD), ('^', .CARET), ('!', .BANG), ('_', .UNDERSCORE), ('=', .ASSIGNMENT),
   ('<', .LT), ('>', .GT), (',', .COMMA), (';', .SEMICOLON), ('&', .MATRIX_DEL_COL)]

/-- token types of commands -/
def cmdKinds : List (Str × Kind) :=
  [(s%"times", .CMD_TIMES), (s%"cdot", .CMD_CDOT), (s%"div", .CMD_DIV), (s%"left", .L_LEFT),
   (s%"right", .R_RIGHT), (s%"lvert", .L_VERT), (s%"rvert", .R_VERT), (s%"lfloor", .L_FLOOR),
   (s%"rfloor", .R_FLOOR), (s%"lceil", .L_CEIL), (s%"rceil", .R_CEIL), (s%"%", .PERCENT_SIGN),
   (s%"{", .L_BRACE_VISUAL), (s%"}", .R_BRACE_VISUAL),
   (s%"pi", .SYMBOL), (s%"frac", .CMD_FRAC), (s%"sqrt", .FUNC_SQRT), (s%"binom", .CMD_BINOM),
   (s%"log", .FUNC_LOG), (s%"ln", .FUNC_LN), (s%"gcd", .FUNC_GCD), (s%"lcm", .FUNC_LCM), (s%"max", .FUNC_MAX),
   (s%"min", .FUNC_MIN),
   (s%"sin", .FUNC_SIN), (s%"cos", .FUNC_COS), (s%"tan", .FUNC_TAN), (s%"csc", .FUNC_CSC),
   (s%"sec", .FUNC_SEC), (s%"cot", .FUNC_COT), (s%"sinh", .FUNC_SINH), (s%"cosh", .FUNC_COSH),
   (s%"tanh", .FUNC_TANH), (s%"arcsin", .FUNC_ARCSIN), (s%"arccos", .FUNC_ARCCOS),
   (s%"arctan", .FUNC_ARCTAN), (s%"arccsc", .FUNC_ARCCSC), (s%"arcsec", .FUNC_ARCSEC),
   (s%"arccot", .FUNC_ARCCOT), (s%"arsinh", .FUNC_ARSINH), (s%"arcosh", .FUNC_ARCOSH),
   (s%"artanh", .FUNC_ARTANH), (s%"arcsinh", .FUNC_ARCSINH), (s%"arccosh", .FUNC_ARCCOSH),
   (s%"arctanh", .FUNC_ARCTANH), (s%"floor", .FUNC_FLOOR), (s%"ceil", .FUNC_CEIL),
   (s%"mod", .CMD_MOD), (s%"sum", .FUNC_SUM), (s%"prod", .FUNC_PROD), (s%"lim", .FUNC_LIM),
   (s%"to", .LIM_APPROACH_SYM), (s%"rightarrow", .LIM_APPROACH_SYM),
   (s%"Rightarrow", .LIM_APPROACH_SYM), (s%"longrightarrow", .LIM_APPROACH_SYM),
   (s%"Longrightarrow", .LIM_APPROACH_SYM), (s%"int", .FUNC_INT), (s%"infty", .SYMBOL),
   (s%"leq", .LTE), (s%"le", .LTE), (s%"leqslant", .LTE), (s%"geq", .GTE), (s%"ge", .GTE),
   (s%"geqslant", .GTE), (s%"neq", .UNEQUAL), (s%"equiv", .EQUAL),
   (s%"begin{pmatrix}", .CMD_MATRIX_START), (s%"end{pmatrix}", .CMD_MATRIX_END),
   (s%"begin{bmatrix}", .CMD_MATRIX_START), (s%"end{bmatrix}", .CMD_MATRIX_END),
   (s%"begin{vmatrix}", .CMD_DET_START), (s%"end{vmatrix}", .CMD_DET_END), (s%"\\", .MATRIX_DEL_ROW),
   (s%"xrightarrow", .MATRIX_XRIGHTARROW), (s%"leftrightarrow", .TRANSFORM_EXCHANGE)]

/-- The sign is read as a token of this type. -/
inductive HasKind : Sign → Kind → Prop
  | digit {d} : HasKind (.digit d) .DIGIT
  | letter {c} : isVariable c = true → HasKind (.letter c) .LETTER_NO_E
  | euler : HasKind (.letter 'e') .EXP_E
  | mark {c k} : (c, k) ∈ markKinds → HasKind (.mark c) k
  | cmd {n k} : (n, k) ∈ cmdKinds → HasKind (.cmd n) k
  | greek {n b} : n ∈ greekNames → HasKind (.greek n b) .GREEK_CMD
  | diff {c} : isVariable c = true → HasKind (.diff c) .DIFFERENTIAL
  | dLetter : HasKind (.letter 'd') .LETTER_NO_E

/-- the letters -/
def variableLetters : List Char :=
  s%"abcfghijklmnopqrstuvwxyzABCDFGHJKLMNOPQRSTUVWXYZ"

theorem isVariable_mem {c : Char} (h : isVariable c = true) : c ∈ variableLetters := by
  have hk : ∀ n : Fin 128, isVariable (Char.ofNat n.val) = true → Char.ofNat n.val ∈ variableLetters := by
    decide +kernel
  have hl : c.toNat < 128 := by
    simp only [isVariable, latin, Bool.and_eq_true, Bool.or_eq_true, decide_eq_true_eq] at h
    have h1 : c ≤ 'z' := by
      rcases h.1 with h | h
      · exact h.2
      · exact Nat.le_trans h.2 (by decide : 'Z' ≤ 'z')
    have h2 : c.toNat ≤ 122 := h1
    omega
  have := hk ⟨c.toNat, hl⟩
  simpa [Char.ofNat_toNat] using this (by simpa [Char.ofNat_toNat] using h)

/-- first and best match of a text followed by another -/
def reading (w : Str) : Option (Kind × Nat) := munch rules 0 none w

theorem munch_append : ∀ (w s : Str) (live : List (Kind × Rx)) (n : Nat) (best : Option (Kind × Nat)),
    steps live w ≠ [] → munch live n best (w ++ s)
      = munch (steps live w) (n + w.length) (munch live n best w) s
  | [], s, live, n, best, _ => rfl
  | c :: cs, s, live, n, best, h => by
    rw [List.cons_append, munch, munch]
    cases hc : step live c with
    | nil =>
      exfalso
      apply h
      have : ∀ cs : Str, steps [] cs = [] := by
        intro cs
        induction cs with
        | nil => rfl
        | cons d ds ih => exact ih
      rw [steps, hc]
      exact this cs
    | cons x xs =>
      simp only
      have hs : steps (x :: xs) cs ≠ [] := by rw [← hc]; exact h
      rw [munch_append cs s (x :: xs) (n + 1) _ hs, steps, hc, List.length_cons]
      congr 1
      omega

/-- a text is read as the token that its beginning is, if the rest does not continue it -/
theorem munch_text {w s : Str} {k : Kind} (hr : reading w = some (k, w.length))
    (hs : steps rules w ≠ []) {ok : Str → Prop}
    (hg : ∀ x ∈ steps rules w, ∀ u, u ≠ [] → x.2.Matches u → ok u)
    (hok : ∀ u, ok u → u <+: s → False) : munch rules 0 none (w ++ s) = some (k, w.length) := by
  rw [munch_append w s _ _ _ hs]
  refine (munch_done s _ _ _ fun x hx u hu hp hm => ?_).trans hr
  exact hok u (hg x hx u hu hm) hp

/-- what may not follow a sign -/
def continues : Sign → Str → Bool
  | .digit _, _ => false
  | .letter c, t => decide (c :: t ∈ reserved) || c == 'd' && match t with
    | [] => false
    | a :: _ => latin a || a == '\\' || a == ' ' || a == '\t' || a == '\r' || a == '\n'
  | .mark c, t =>
    if c = '^' then decide (t ∈ [s%"T", s%"{T}", s%"\\top", s%"{\\top}"])
    else if c = '!' ∨ c = '=' then decide (t ∈ [s%"=", s%"=="])
    else if c = '<' then decide (t ∈ [s%"->", s%"=>"])
    else false
  | .cmd n, t => if n ∈ [s%"%", s%"{", s%"}"] ++ environments then false else
    if n = s%"\\" then decide (t ∈ commandWords) else
    (n = s%"infty" && t == s%"\\%") || match t with
    | [] => false
    | c :: _ => latin c
  | .greek _ b, t => !b && match t with
    | [] => false
    | c :: _ => latin c || c == ' '
  | .diff c, t => decide ('d' :: c :: t ∈ reserved) || match t with
    | [] => false
    | a :: _ => a == '_'

/-- characters that may not follow a sign -/
def contHead : Sign → Char → Bool
  | .diff _, a => a == '_'
  | _, _ => false

theorem contHead_continues (w : Sign) (c : Char) (u : Str) (h : contHead w c = true) :
    continues w (c :: u) = true := by
  cases w with
  | diff d => simp only [contHead] at h; simp [continues, h]
  | _ => cases h

theorem ends_continues {w : Sign} {s : Str} (h : Ends w s) (u : Str) (hc : continues w u = true)
    (hp : u <+: s) : False := by
  cases w with
  | digit d => simp [continues] at hc
  | letter c =>
    simp only [continues, Bool.or_eq_true, decide_eq_true_eq, Bool.and_eq_true, beq_iff_eq] at hc
    rcases hc with hc | ⟨rfl, hc⟩
    · exact h.1 _ hc (by simpa using hp)
    · obtain ⟨v, rfl⟩ := hp
      cases u with
      | nil => cases hc
      | cons a u =>
        have := h.2 rfl a rfl
        simp only [Bool.or_eq_true, beq_iff_eq, this.1] at hc
        simp_all
  | mark c =>
    simp only [continues] at hc
    simp only [Ends] at h
    split at hc
    · rename_i hx
      rw [if_pos hx] at h
      exact h u (by simpa using hc) hp
    · rename_i hx
      rw [if_neg hx] at h
      split at hc
      · rename_i hy
        rw [if_pos hy] at h
        apply h
        have : u = s%"=" ∨ u = s%"==" := by simpa using hc
        obtain ⟨v, rfl⟩ := hp
        rcases this with rfl | rfl
        · exact ⟨v, rfl⟩
        · exact ⟨'=' :: v, rfl⟩
      · rename_i hy
        rw [if_neg hy] at h
        split at hc
        · rename_i hz
          rw [if_pos hz] at h
          exact h u (by simpa using hc) hp
        · cases hc
  | cmd n =>
    simp only [continues] at hc
    simp only [Ends] at h
    split at hc
    · cases hc
    · rename_i hx
      rw [if_neg hx] at h
      split at hc
      · rename_i hy
        rw [if_pos hy] at h
        exact h u (by simpa using hc) hp
      · rename_i hy
        rw [if_neg hy] at h
        simp only [Bool.or_eq_true, Bool.and_eq_true, decide_eq_true_eq, beq_iff_eq] at hc
        rcases hc with ⟨h1, rfl⟩ | hc
        · exact h.2 h1 hp
        · obtain ⟨v, rfl⟩ := hp
          cases u with
          | nil => cases hc
          | cons c u => simp [h.1 c rfl] at hc
  | greek n b =>
    simp only [continues, Bool.and_eq_true, Bool.not_eq_true'] at hc
    obtain ⟨v, rfl⟩ := hp
    cases u with
    | nil => cases hc.2
    | cons c u =>
      have := h hc.1 c rfl
      simp [this] at hc
  | diff c =>
    simp only [continues, Bool.or_eq_true, decide_eq_true_eq] at hc
    rcases hc with hc | hc
    · exact h.1 _ hc (by simpa using hp)
    · obtain ⟨v, rfl⟩ := hp
      cases u with
      | nil => cases hc
      | cons a u =>
        simp only [beq_iff_eq] at hc
        exact h.2 (by simp [hc])

/-- the sign is read as a token of this type -/
def readOk (w : Sign) (k : Kind) : Bool :=
  decide (reading w.text = some (k, w.text.length)) && !(steps rules w.text).isEmpty &&
    !w.text.isEmpty && decide (k ≠ Kind.WS) && decide (k ≠ Kind.DOLLAR_SIGN)

/-- the sign is read as a token of this type, and only what `continues` says would continue it -/
def signOk (w : Sign) (k : Kind) : Bool :=
  readOk w k && goesOn w.text (continues w) (contHead w)

theorem digits_ok : (List.finRange 10).all (fun d => signOk (.digit d) .DIGIT) = true := by
  decide +kernel

theorem letters_ok : variableLetters.all (fun c => signOk (.letter c) .LETTER_NO_E) = true := by
  decide +kernel

theorem euler_ok : signOk (.letter 'e') .EXP_E = true := by decide +kernel

theorem marks_ok : markKinds.all (fun p => signOk (.mark p.1) p.2) = true := by decide +kernel

theorem cmds_ok : cmdKinds.all (fun p => signOk (.cmd p.1) p.2) = true := by decide +kernel

theorem greeks_ok : greekNames.all (fun n => signOk (.greek n true) .GREEK_CMD &&
    signOk (.greek n false) .GREEK_CMD) = true := by decide +kernel

theorem diffs_ok : variableLetters.all (fun c => signOk (.diff c) .DIFFERENTIAL) = true := by
  decide +kernel

theorem d_ok : readOk (.letter 'd') .LETTER_NO_E = true := by decide +kernel

theorem sign_ok {w : Sign} {k : Kind} (h : HasKind w k) : signOk w k = true ∨ w = .letter 'd' := by
  cases h with
  | @digit d =>
    have := List.all_eq_true.1 digits_ok d (List.mem_finRange _)
    exact .inl this
  | @letter c hc =>
    have := List.all_eq_true.1 letters_ok c (isVariable_mem hc)
    exact .inl this
  | euler => exact .inl euler_ok
  | @mark c k hc =>
    have := List.all_eq_true.1 marks_ok (c, k) hc
    exact .inl this
  | @cmd n k hc =>
    have := List.all_eq_true.1 cmds_ok (n, k) hc
    exact .inl this
  | @greek n b hn =>
    have := List.all_eq_true.1 greeks_ok n hn
    simp only [Bool.and_eq_true] at this
    cases b
    · exact .inl this.2
    · exact .inl this.1
  | @diff c hc =>
    have := List.all_eq_true.1 diffs_ok c (isVariable_mem hc)
    exact .inl this
  | dLetter => exact .inr rfl

/-- what is left of the rules after `d` -/
theorem steps_d : steps rules s%"d" = [(.FUNC_DIAG_NAME, .lit s%"iag"),
    (.FUNC_DIAGONALIZE_NAME, .lit s%"iagonalize"),
    (.DIFFERENTIAL, .seq (.star (.chr wsChar)) (.seq
      (.alt (.chr letter) (.seq (.lit s%"\\") (.plus (.chr letter))))
      (.opt (.seq (.lit s%"_")
        (.alt (.chr digit) (.cat [.lit s%"{", .plus (.chr digit), .lit s%"}"])))))),
    (.LETTER_NO_E, .lit [])] := by kernel_rfl

theorem d_continues : ∀ x ∈ steps rules s%"d", ∀ u, u ≠ [] → x.2.Matches u →
    continues (.letter 'd') u = true := by
  rw [steps_d]
  intro x hx u hu hm
  simp only [List.mem_cons, List.not_mem_nil, or_false] at hx
  rcases hx with rfl | rfl | rfl | rfl
  · cases hm; rfl
  · cases hm; rfl
  · cases u with
    | nil => exact absurd rfl hu
    | cons a u =>
      have : wsChar a = true ∨ letter a = true ∨ a = '\\' := by
        generalize ht : a :: u = t at hm
        cases hm with
        | @seq _ _ v w h1 h2 =>
          cases v with
          | cons b v =>
            injection ht with h3 h4
            subst h3
            obtain ⟨p, q, -, h5, -⟩ := Rx.matches_star_cons.1 h1
            cases h5 with
            | chr h => exact .inl h
          | nil =>
            rw [List.nil_append] at ht
            subst ht
            generalize ht : a :: u = t at h2
            cases h2 with
            | @seq _ _ v w h1 h2 =>
              cases h1 with
              | altL h =>
                cases h with
                | chr h =>
                  injection ht with h3 h4
                  rw [h3]
                  exact .inr (.inl h)
              | altR h =>
                cases h with
                | seq h _ =>
                  cases h
                  injection ht with h3 h4
                  exact .inr (.inr h3)
      simp only [continues, Bool.or_eq_true, Bool.and_eq_true, decide_eq_true_eq, beq_self_eq_true,
        true_and, beq_iff_eq]
      rcases this with h | h | h
      · simp only [wsChar, Bool.or_eq_true, beq_iff_eq] at h
        tauto
      · have : latin a = true := h
        tauto
      · tauto
  · cases hm
    exact absurd rfl hu

theorem sign_reading {w : Sign} {k : Kind} (h : HasKind w k) :
    reading w.text = some (k, w.text.length) ∧ steps rules w.text ≠ [] ∧
      (∀ x ∈ steps rules w.text, ∀ u, u ≠ [] → x.2.Matches u → continues w u = true) ∧
      w.text ≠ [] ∧ k ≠ .WS ∧ k ≠ .DOLLAR_SIGN := by
  have key : readOk w k = true ∧
      (∀ x ∈ steps rules w.text, ∀ u, u ≠ [] → x.2.Matches u → continues w u = true) := by
    rcases sign_ok h with h | rfl
    · rw [signOk, Bool.and_eq_true] at h
      exact ⟨h.1, fun x hx u hu hm => goesOn_spec h.2 (contHead_continues w) hx hu hm⟩
    · cases h with
      | letter h => exact absurd h (by decide)
      | dLetter => exact ⟨d_ok, d_continues⟩
  have h1 := key.1
  rw [readOk] at h1
  simp only [Bool.and_eq_true, decide_eq_true_eq, Bool.not_eq_true', List.isEmpty_eq_false_iff] at h1
  tauto

/-! ### Texts -/

/-- the tokens of the signs -/
inductive Reads : List Sign → List Tok → Prop
  | nil : Reads [] []
  | cons {w ws t ts} : HasKind w t.kind → t.text = w.text → Reads ws ts → Reads (w :: ws) (t :: ts)

theorem Reads.length {ws : List Sign} {ts : List Tok} (h : Reads ws ts) : ts.length = ws.length := by
  induction h with
  | nil => rfl
  | cons _ _ _ ih => simp [ih]

theorem Reads.append {us vs : List Sign} {ts : List Tok} (h : Reads (us ++ vs) ts) :
    ∃ t1 t2, ts = t1 ++ t2 ∧ Reads us t1 ∧ Reads vs t2 := by
  induction us generalizing ts with
  | nil => exact ⟨[], ts, rfl, .nil, h⟩
  | cons u us ih =>
    cases h with
    | cons h1 h2 h3 =>
      obtain ⟨t1, t2, rfl, k1, k2⟩ := ih h3
      exact ⟨_ :: t1, t2, rfl, .cons h1 h2 k1, k2⟩

theorem star_step (c : Char) (h : wsChar c = true) :
    step [(Kind.WS, .star (.chr wsChar))] c = [(Kind.WS, .star (.chr wsChar))] := by
  simp [step, Rx.deriv, h, Rx.seq', Rx.dead]

theorem munch_blank : ∀ (b s : Str) (n : Nat) (best : Option (Kind × Nat)),
    (∀ c ∈ b, wsChar c = true) →
    (∀ c, s.head? = some c → wsChar c = false) → best = some (Kind.WS, n) →
    munch [(Kind.WS, .star (.chr wsChar))] n best (b ++ s) = some (Kind.WS, n + b.length)
  | [], s, n, best, _, hs, hb => by
    rw [List.nil_append, hb]
    cases s with
    | nil => rfl
    | cons c s =>
      have := hs c rfl
      rw [munch]
      simp [step, Rx.deriv, this, Rx.seq', Rx.dead]
  | c :: b, s, n, best, hb, hs, _ => by
    rw [List.cons_append, munch, star_step c (hb c (by simp))]
    simp only [List.find?, Rx.nullable]
    rw [munch_blank b s (n + 1) _ (fun d hd => hb d (by simp [hd])) hs rfl, List.length_cons]
    congr 2
    omega

theorem munch_blanks {c : Char} {b s : Str} (hc : wsChar c = true) (hb : ∀ d ∈ b, wsChar d = true)
    (hs : ∀ d, s.head? = some d → wsChar d = false) :
    munch rules 0 none (c :: b ++ s) = some (.WS, (c :: b).length) := by
  have hstep : ∀ c, wsChar c = true → step rules c = [(Kind.WS, .star (.chr wsChar))] := by
    intro c hc
    simp only [wsChar, Bool.or_eq_true, beq_iff_eq] at hc
    rcases hc with ((rfl | rfl) | rfl) | rfl <;> kernel_rfl
  rw [List.cons_append, munch, hstep c hc]
  simp only [List.find?, Rx.nullable]
  rw [munch_blank b s 1 _ hb hs rfl, List.length_cons]
  congr 2
  omega

theorem text_head {w : Sign} {k : Kind} (h : HasKind w k) (s : Str) :
    ∀ d, (w.text ++ s).head? = some d → wsChar d = false := by
  intro d hd
  cases h with
  | @digit e =>
    simp only [Sign.text, List.cons_append, List.head?_cons, Option.some.injEq] at hd
    subst hd; revert e; decide
  | @letter c hc =>
    simp only [Sign.text, List.cons_append, List.head?_cons, Option.some.injEq] at hd
    subst hd
    have : ∀ c ∈ variableLetters, wsChar c = false := by decide
    exact this c (isVariable_mem hc)
  | euler =>
    simp only [Sign.text, List.cons_append, List.head?_cons, Option.some.injEq] at hd
    subst hd; decide
  | @mark c k hc =>
    simp only [Sign.text, List.cons_append, List.head?_cons, Option.some.injEq] at hd
    subst hd
    have : ∀ p ∈ markKinds, wsChar p.1 = false := by decide
    exact this _ hc
  | cmd | greek | diff | dLetter =>
    simp only [Sign.text, List.cons_append, List.head?_cons, Option.some.injEq] at hd
    subst hd; decide

theorem lexGo_blanks {b s : Str} (hb : blanks b) (hs : ∀ d, s.head? = some d → wsChar d = false)
    (n : Nat) (gap : Str) (hn : (b ++ s).length ≤ n) :
    ∃ m gap', s.length ≤ m ∧ lexGo n gap (b ++ s) = lexGo m gap' s := by
  cases b with
  | nil => exact ⟨n, gap, hn, rfl⟩
  | cons c b =>
    have hw : ∀ d ∈ c :: b, wsChar d = true := by
      intro d hd
      rcases hb d hd with rfl | rfl | rfl | rfl <;> rfl
    cases n with
    | zero => simp at hn
    | succ n =>
      refine ⟨n, gap ++ (c :: b), ?_, ?_⟩
      · simp only [List.cons_append, List.length_cons, List.length_append] at hn
        omega
      · rw [List.cons_append, lexGo, ← List.cons_append,
          munch_blanks (hw c (by simp)) (fun d hd => hw d (by simp [hd])) hs]
        simp

theorem lexGo_written {ws : List Sign} {s : Str} (h : Written ws s)
    (hk : ∀ w ∈ ws, ∃ k, HasKind w k) :
    ∀ (n : Nat) (gap : Str), s.length ≤ n → ∃ ts, lexGo n gap s = some ts ∧ Reads ws ts := by
  induction h with
  | @nil b hb =>
    intro n gap hn
    obtain ⟨m, gap', -, h2⟩ := lexGo_blanks (s := []) hb (by simp) n gap (by simpa using hn)
    rw [List.append_nil] at h2
    exact ⟨[], by rw [h2]; cases m <;> rfl, .nil⟩
  | @cons b w ws s hb he _ ih =>
    intro n gap hn
    obtain ⟨k, hw⟩ := hk w (by simp)
    rw [List.append_assoc] at hn ⊢
    obtain ⟨m, gap', h1, h2⟩ := lexGo_blanks hb (text_head hw s) n gap hn
    rw [h2]
    obtain ⟨r1, r2, r3, r4, r5, r6⟩ := sign_reading hw
    have hm := munch_text (s := s) r1 r2 r3 (ends_continues he)
    cases m with
    | zero =>
      exfalso
      rw [List.length_append] at h1
      have := List.length_pos_iff.2 r4
      omega
    | succ m =>
      have hl := List.length_pos_iff.2 r4
      obtain ⟨ts, t1, t2⟩ := ih (fun v hv => hk v (by simp [hv])) m [] (by
        rw [List.length_append] at h1; omega)
      refine ⟨⟨k, w.text, gap'⟩ :: ts, ?_, .cons hw rfl t2⟩
      cases ht : w.text with
      | nil => exact absurd ht r4
      | cons c cs =>
        rw [ht] at hm
        rw [List.cons_append, lexGo, ← List.cons_append, hm]
        simp only [List.take_left', List.drop_left', r5, r6, or_self, if_false, t1]
        simp

/-- A written text is read as the tokens of its signs. -/
theorem lex_written {ws : List Sign} {s : Str} (h : Written ws s) (hk : ∀ w ∈ ws, ∃ k, HasKind w k) :
    ∃ ts, lex s = some ts ∧ Reads ws ts := lexGo_written h hk _ _ (Nat.le_refl _)

end Verif.Grammar
