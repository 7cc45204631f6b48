import Verif.Props.LexSpec
import Verif.Spec.PSLexer
/-
The rules of the lexer are those of PS.g4, read as usual (C88).
-/

namespace Verif.Grammar
open Verif Verif.PS

/-! ### Specification -/

/-- The text, with `gap` skipped before, is divided from left to right into longest texts of the lexer
rules of PS.g4. -/
inductive Cut : Str → Str → List Tok → Prop
  | done {gap} : Cut gap [] []
  | skip {gap w s k ts} : FirstLongest (w ++ s) k w → k ∈ skipped →
      Cut (gap ++ w) s ts → Cut gap (w ++ s) ts
  | token {gap w s k ts} : FirstLongest (w ++ s) k w → k ∉ skipped →
      Cut [] s ts → Cut gap (w ++ s) (⟨k, w, gap⟩ :: ts)

/-! ### Proofs -/

/-- the rule and the expression of the model stand for the same texts -/
def Same (x : L) (r : Rx) : Prop := ∀ s, Forms x s ↔ r.Matches s

namespace Same

theorem lit {s : Str} : Same (.lit s) (.lit s) := fun _ =>
  ⟨fun h => by cases h; exact .lit, fun h => by cases h; exact .lit⟩

theorem set {rs : List (Char × Char)} {p : Char → Bool}
    (h : ∀ c, p c = rs.any fun r => decide (r.1 ≤ c) && decide (c ≤ r.2)) : Same (.set rs) (.chr p) := fun _ =>
  ⟨fun hs => by
    cases hs with
    | @set _ a b c h1 h2 h3 =>
      exact .chr (by rw [h, List.any_eq_true]; exact ⟨(a, b), h1, by simp [h2, h3]⟩),
   fun hs => by
    cases hs with
    | @chr _ c hc =>
      rw [h, List.any_eq_true] at hc
      obtain ⟨⟨a, b⟩, h1, h2⟩ := hc
      simp only [Bool.and_eq_true, decide_eq_true_eq] at h2
      exact .set h1 h2.1 h2.2⟩

theorem rule {k : Kind} {r : Rx} (h : Same (lexical k) r) : Same (.rule k) r := fun s =>
  ⟨fun hs => by cases hs with | rule hs => exact (h s).1 hs, fun hs => .rule ((h s).2 hs)⟩

theorem frag {f : Fragment} {r : Rx} (h : Same (fragment f) r) : Same (.frag f) r := fun s =>
  ⟨fun hs => by cases hs with | frag hs => exact (h s).1 hs, fun hs => .frag ((h s).2 hs)⟩

theorem seq {x y : L} {a b : Rx} (h1 : Same x a) (h2 : Same y b) : Same (.seq x y) (.seq a b) := fun _ =>
  ⟨fun h => by cases h with | seq h h' => exact .seq ((h1 _).1 h) ((h2 _).1 h'),
   fun h => by cases h with | seq h h' => exact .seq ((h1 _).2 h) ((h2 _).2 h')⟩

theorem alt {x y : L} {a b : Rx} (h1 : Same x a) (h2 : Same y b) : Same (.alt x y) (.alt a b) := fun _ =>
  ⟨fun h => by
    cases h with
    | altL h => exact .altL ((h1 _).1 h)
    | altR h => exact .altR ((h2 _).1 h),
   fun h => by
    cases h with
    | altL h => exact .altL ((h1 _).2 h)
    | altR h => exact .altR ((h2 _).2 h)⟩

theorem opt {x : L} {a : Rx} (h1 : Same x a) : Same (.opt x) (.opt a) := fun _ =>
  ⟨fun h => by
    cases h with
    | optNone => exact .altR .lit
    | optSome h => exact .altL ((h1 _).1 h),
   fun h => by
    cases h with
    | altL h => exact .optSome ((h1 _).2 h)
    | altR h => cases h; exact .optNone⟩

theorem star {x : L} {a : Rx} (h1 : Same x a) : Same (.star x) (.star a) := fun s =>
  ⟨fun h => by
    generalize hx : L.star x = y at h
    induction h with
    | starNil => cases hx; exact .starNil
    | starCons h _ _ ih => cases hx; exact .starCons ((h1 _).1 h) (ih rfl)
    | _ => exact absurd hx (by simp),
   fun h => by
    generalize hx : Rx.star a = y at h
    induction h with
    | starNil => cases hx; exact .starNil
    | starCons h _ _ ih => cases hx; exact .starCons ((h1 _).2 h) (ih rfl)
    | _ => exact absurd hx (by simp)⟩

theorem plus {x : L} {a : Rx} (h1 : Same x a) : Same (.plus x) (.plus a) := fun _ =>
  ⟨fun h => by cases h with | plus h h' => exact .seq ((h1 _).1 h) ((h1.star _).1 h'),
   fun h => by cases h with | seq h h' => exact .plus ((h1 _).2 h) ((h1.star _).2 h')⟩

/-- a text in two parts -/
theorem lits {x y : L} {u v : Str} (h1 : Same x (.lit u)) (h2 : Same y (.lit v)) :
    Same (.seq x y) (.lit (u ++ v)) := fun _ =>
  ⟨fun h => by
    cases h with
    | seq h h' => cases (h1 _).1 h; cases (h2 _).1 h'; exact .lit,
   fun h => by cases h; exact .seq ((h1 _).2 .lit) ((h2 _).2 .lit)⟩

/-- a sequence that begins with a text in two parts -/
theorem assoc {x y z : L} {a : Rx} (h : Same (.seq (.seq x y) z) a) : Same (.seq x (.seq y z)) a := fun s =>
  ⟨fun hs => by
    cases hs with
    | seq hx hs =>
      cases hs with
      | seq hy hz => rw [← List.append_assoc]; exact (h _).1 (.seq (.seq hx hy) hz),
   fun hs => by
    have h' := (h s).2 hs
    clear hs
    cases h' with
    | seq hs hz =>
      cases hs with
      | seq hx hy => rw [List.append_assoc]; exact .seq hx (.seq hy hz)⟩

/-- alternatives within alternatives -/
theorem alt_assoc {x y z : L} {a : Rx} (h : Same (.alt x (.alt y z)) a) : Same (.alt (.alt x y) z) a := fun s =>
  ⟨fun hs => by
    cases hs with
    | altL hs =>
      cases hs with
      | altL hs => exact (h _).1 (.altL hs)
      | altR hs => exact (h _).1 (.altR (.altL hs))
    | altR hs => exact (h _).1 (.altR (.altR hs)),
   fun hs => by
    have hs := (h s).2 hs
    cases hs with
    | altL hs => exact .altL (.altL hs)
    | altR hs =>
      cases hs with
      | altL hs => exact .altL (.altR hs)
      | altR hs => exact .altR hs⟩

/-- alternatives within alternatives, on the other side -/
theorem assoc_alt {x : L} {a b c : Rx} (h : Same x (.alt a (.alt b c))) : Same x (.alt (.alt a b) c) := fun s =>
  ⟨fun hs => by
    have h' := (h s).1 hs
    cases h' with
    | altL hs => exact .altL (.altL hs)
    | altR hs =>
      cases hs with
      | altL hs => exact .altL (.altR hs)
      | altR hs => exact .altR hs,
   fun hs => by
    cases hs with
    | altL hs =>
      cases hs with
      | altL hs => exact (h _).2 (.altL hs)
      | altR hs => exact (h _).2 (.altR (.altL hs))
    | altR hs => exact (h _).2 (.altR (.altR hs))⟩

end Same

/-- compare a rule and an expression part by part -/
macro "same" : tactic => `(tactic| repeat' first
  | exact Same.lit
  | refine Same.rule ?_
  | refine Same.frag ?_
  | refine Same.opt ?_
  | refine Same.plus ?_
  | refine Same.seq ?_ ?_
  | refine Same.alt ?_ ?_
  | refine Same.star ?_)

theorem same_letter : Same (.set [('a', 'z'), ('A', 'Z')]) (.chr letter) :=
  .set fun c => by simp [letter]

theorem same_digit : Same (.set [('0', '9')]) (.chr digit) := .set fun c => by simp [digit]

theorem same_blank : Same (.set [(' ', ' '), ('\t', '\t'), ('\r', '\r'), ('\n', '\n')]) (.chr wsChar) :=
  .set fun c => by
    have h : ∀ d : Char, (c == d) = (decide (d ≤ c) && decide (c ≤ d)) := by
      intro d
      rw [Bool.eq_iff_iff]
      simp only [beq_iff_eq, Bool.and_eq_true, decide_eq_true_eq]
      exact ⟨fun h => h ▸ ⟨Char.le_refl _, Char.le_refl _⟩, fun h => Char.le_antisymm h.2 h.1⟩
    simp [wsChar, h, Bool.or_assoc]

theorem same_letterNoE : Same (.set [('a', 'd'), ('f', 'z'), ('A', 'D'), ('F', 'Z')]) (.chr letterNoE) :=
  .set fun c => by
    rw [Bool.eq_iff_iff]
    simp only [letterNoE, letter, bne, List.any_cons, List.any_nil, Bool.and_eq_true, Bool.or_eq_true,
      decide_eq_true_eq, Bool.not_eq_true', beq_eq_false_iff_ne, ne_eq, Bool.or_false, Char.le_def,
      UInt32.le_iff_toNat_le, Char.ext_iff, UInt32.toNat_inj.symm]
    change ((97 ≤ _ ∧ _ ≤ 122 ∨ 65 ≤ _ ∧ _ ≤ 90) ∧ ¬ _ = 101) ∧ ¬ _ = 69 ↔
      97 ≤ _ ∧ _ ≤ 100 ∨ 102 ≤ _ ∧ _ ≤ 122 ∨ 65 ≤ _ ∧ _ ≤ 68 ∨ 70 ≤ _ ∧ _ ≤ 90
    omega

theorem same_space : Same (.set [(' ', ' ')]) (.lit s%" ") := fun s =>
  ⟨fun h => by
    cases h with
    | @set _ a b c h1 h2 h3 =>
      simp only [List.mem_singleton, Prod.mk.injEq] at h1
      obtain ⟨rfl, rfl⟩ := h1
      obtain rfl := Char.le_antisymm h2 h3
      exact .lit,
   fun h => by cases h; exact .set (List.mem_singleton.2 rfl) (Char.le_refl _) (Char.le_refl _)⟩

/-- compare two sequences of which the second begins with a text in two parts -/
macro "same!" : tactic => `(tactic| repeat' first
  | exact same_letter
  | exact same_digit
  | exact same_blank
  | exact same_letterNoE
  | exact same_space
  | same)

theorem same_opening (k : Kind) {x : L} {a : Rx} {u v : Str} (h1 : Same (.rule k) (.lit v)) (h : Same x a) :
    Same (.seq (.lit u) (.seq (.rule k) x)) (.seq (.lit (u ++ v)) a) :=
  .assoc (.seq (.lits .lit h1) h)

theorem same_matrixTypes : Same (lexical .MATRIX_TYPES) matrixTypes := by same

theorem same_matrixStart : Same (lexical .CMD_MATRIX_START)
    (.cat [.lit s%"\\begin{", matrixTypes, .lit s%"}"]) :=
  same_opening .L_BRACE (by same) (by same)

theorem same_matrixEnd : Same (lexical .CMD_MATRIX_END)
    (.cat [.lit s%"\\end{", matrixTypes, .lit s%"}"]) :=
  same_opening .L_BRACE (by same) (by same)

/-- the opening brace (PS.g4:19) -/
theorem same_open : Same (.rule .L_BRACE) (.lit s%"{") := .rule .lit

/-- the closing brace (PS.g4:20) -/
theorem same_close : Same (.rule .R_BRACE) (.lit s%"}") := .rule .lit

theorem same_vmatrix : Same (.rule .MATRIX_TYPE_DET) (.lit s%"vmatrix") := .rule .lit

theorem same_detStart : Same (lexical .CMD_DET_START) (.lit s%"\\begin{vmatrix}") :=
  Same.lits (Same.lit (s := s%"\\begin")) (same_open.lits (same_vmatrix.lits same_close))

theorem same_detEnd : Same (lexical .CMD_DET_END) (.lit s%"\\end{vmatrix}") :=
  Same.lits (Same.lit (s := s%"\\end")) (same_open.lits (same_vmatrix.lits same_close))

theorem same_inftyCmd : Same (.frag .INFTY_CMD) (.lit s%"\\infty") := .frag .lit

theorem same_dollar : Same (.rule .DOLLAR_SIGN) (.lit s%"\\$") := .rule .lit

theorem same_percent : Same (.rule .PERCENT_SIGN) (.lit s%"\\%") := .rule .lit

theorem same_infty {y : L} {b : Rx} (h : Same y b) : Same (.alt (.frag .INFTY) y)
    (.alt (.lit s%"\\infty") (.alt (.lit s%"\\$\\infty") (.alt (.lit s%"\\infty\\%") b))) := by
  have h1 := same_inftyCmd
  have h2 : Same _ (.lit s%"\\$\\infty") := same_dollar.lits same_inftyCmd
  have h3 : Same _ (.lit s%"\\infty\\%") := same_inftyCmd.lits same_percent
  have h4 : Same (.alt (.alt (.frag .INFTY_CMD) (.alt (.seq (.rule .DOLLAR_SIGN) (.frag .INFTY_CMD))
      (.seq (.frag .INFTY_CMD) (.rule .PERCENT_SIGN)))) y) _ :=
    Same.alt_assoc (h1.alt (Same.alt_assoc (h2.alt (h3.alt h))))
  intro s
  rw [← h4 s]
  constructor
  · intro hs
    cases hs with
    | altL hs => cases hs with | frag hs => exact .altL hs
    | altR hs => exact .altR hs
  · intro hs
    cases hs with
    | altL hs => exact .altL (.frag hs)
    | altR hs => exact .altR hs

theorem same_symbol : Same (lexical .SYMBOL) symbolRx :=
  .alt (.frag .lit) (.alt (.frag .lit) (same_infty (.frag .lit)))

theorem same_part : Same (.alt (.rule .GREEK_CMD) (.alt (.rule .OTHER_SYMBOL_CMD)
    (.alt (.frag .LETTER) (.rule .DIGIT)))) variablePart := by same!

theorem same_parts : Same (.alt (.rule .GREEK_CMD) (.alt (.rule .OTHER_SYMBOL_CMD)
    (.alt (.frag .LETTER) (.alt (.rule .DIGIT) (.rule .COMMA))))) (.alt variablePart (.lit s%",")) :=
  .assoc_alt (.alt (by same!) (.assoc_alt (.alt (by same!) (.assoc_alt (by same!)))))

theorem same_variableSymbol : Same (.frag .VARIABLE_SYMBOL) variableSymbol :=
  .frag (.seq same_part.plus (.opt (.seq (.rule .lit)
    (.alt (.seq same_open (.seq same_parts.plus same_close)) same_part))))

theorem same_variable : Same (lexical .VARIABLE)
    (.cat [.lit s%"\\variable{", variableSymbol, .lit s%"}", .opt (.lit s%"\\%")]) := by
  have h : Same (.frag .VARIABLE_CMD) (.lit s%"\\variable") := .frag .lit
  exact .assoc (.seq (h.lits same_open) (.seq same_variableSymbol (same_close.seq (same_percent.opt))))

theorem rules_same : ∀ p ∈ rules, Same (lexical p.1) p.2 := by
  unfold rules
  repeat' first
    | refine List.forall_mem_cons.2 ⟨?_, ?_⟩
    | exact fun _ h => nomatch h
    | exact Same.lit
    | exact same_matrixStart
    | exact same_matrixEnd
    | exact same_detStart
    | exact same_detEnd
    | exact same_symbol
    | exact same_variable
    | same!

theorem rules_order : rules.map Prod.fst = order := by kernel_rfl

/-- **C88, the rules.**  The table of the lexer has the rules of PS.g4 in their order, and every entry matches
the texts that its rule stands for. -/
theorem C88_rules : rules.map Prod.fst = order ∧
    ∀ k rx, (k, rx) ∈ rules → ∀ s, rx.Matches s ↔ Forms (lexical k) s :=
  ⟨rules_order, fun _ _ h s => (rules_same _ h s).symm⟩

theorem order_all (k : Kind) : ∃ rx, (k, rx) ∈ rules := by
  have : k ∈ rules.map Prod.fst := by
    rw [rules_order]
    cases k <;> decide +kernel
  obtain ⟨⟨k, rx⟩, h, rfl⟩ := List.mem_map.1 this
  exact ⟨rx, h⟩

theorem longest_first (s : Str) (k : Kind) (m : Nat) :
    Longest rules s k m ↔ m ≤ s.length ∧ FirstLongest s k (s.take m) := by
  have hr := rules_same
  constructor
  · rintro ⟨h1, h2, ⟨pre, post, rx, h3, h4, h5⟩, h6⟩
    refine ⟨h2, ?_, List.take_prefix _ _, ?_, ?_, ?_⟩
    · intro h
      have := congrArg List.length h
      simp only [List.length_take, List.length_nil] at this
      omega
    · exact (hr (k, rx) (by simp [h3]) _).2 h4
    · refine ⟨pre.map Prod.fst, post.map Prod.fst, by rw [← rules_order, h3]; simp, fun k' hk => ?_⟩
      obtain ⟨p, hp, rfl⟩ := List.mem_map.1 hk
      exact fun h => h5 p hp ((hr p (by simp [h3, hp]) _).1 h)
    · intro w hw hl k' h
      obtain ⟨rx', hk⟩ := order_all k'
      rw [List.length_take, Nat.min_eq_left h2] at hl
      refine h6 w.length hl hw.length_le _ hk ?_
      rw [← List.prefix_iff_eq_take.1 hw]
      exact (hr _ hk _).1 h
  · rintro ⟨h0, h1, h2, h3, ⟨pre, post, h4, h5⟩, h6⟩
    refine ⟨?_, h0, ?_, ?_⟩
    · refine Nat.pos_of_ne_zero fun h => h1 ?_
      simp [h]
    · rw [← rules_order, List.map_eq_append_iff] at h4
      obtain ⟨a, b, h7, rfl, h8⟩ := h4
      obtain ⟨⟨k', rx⟩, c, rfl, rfl, rfl⟩ := List.map_eq_cons_iff.1 h8
      refine ⟨a, c, rx, h7, (hr (k', rx) (by simp [h7]) _).1 h3, fun r hx hm => ?_⟩
      exact h5 r.1 (List.mem_map_of_mem hx) ((hr r (by simp [h7, hx]) _).2 hm)
    · intro m' hm hl r hx h
      refine h6 (s.take m') (List.take_prefix _ _) ?_ r.1 ((hr r hx _).2 h)
      simp only [List.length_take]
      omega

/-- **C88, against the file.**  The tokens of every text are those that the lexer rules of PS.g4 give by the
longest match from left to right, with priority for earlier rules; texts that cannot be divided in this
way are rejected. -/
theorem C88_file (s : Str) (ts : List Tok) : lex s = some ts ↔ Cut [] s ts := by
  rw [C88_tokens]
  generalize ([] : Str) = gap
  constructor
  · intro h
    induction h with
    | done => exact .done
    | @skip gap s k m ts h1 h2 _ ih =>
      have h3 := ((longest_first _ _ _).1 h1).2
      have := Cut.skip (gap := gap) (w := s.take m) (s := s.drop m) (k := k) (by
        rw [List.take_append_drop]; exact h3) h2 ih
      rwa [List.take_append_drop] at this
    | @token gap s k m ts h1 h2 _ ih =>
      have h3 := ((longest_first _ _ _).1 h1).2
      have := Cut.token (gap := gap) (w := s.take m) (s := s.drop m) (k := k) (by
        rw [List.take_append_drop]; exact h3) h2 ih
      rwa [List.take_append_drop] at this
  · intro h
    have hl : ∀ {w s : Str} {k : Kind}, FirstLongest (w ++ s) k w → Longest rules (w ++ s) k w.length := by
      intro w s k h
      rw [longest_first]
      refine ⟨by simp, ?_⟩
      rwa [List.take_left' rfl]
    induction h with
    | done => exact .done
    | @skip gap w s k ts h1 h2 _ ih =>
      refine .skip (hl h1) h2 ?_
      rwa [List.take_left' rfl, List.drop_left' rfl]
    | @token gap w s k ts h1 h2 _ ih =>
      have := Divided.token (gap := gap) (hl h1) h2 (ts := ts) (by rwa [List.drop_left' rfl])
      rwa [List.take_left' rfl] at this

/-- `\leqslant` is longer than `\leq` and `\le`. -/
example : FirstLongest s%"\\leqslant x" .LTE s%"\\leqslant" :=
  ((longest_first s%"\\leqslant x" .LTE 9).1 ((C88_longest _ _ _).1 (by kernel_rfl))).2

/-- `d x_{12}` is one DIFFERENTIAL. -/
example : FirstLongest s%"d x_{12}+1" .DIFFERENTIAL s%"d x_{12}" :=
  ((longest_first s%"d x_{12}+1" .DIFFERENTIAL 8).1 ((C88_longest _ _ _).1 (by kernel_rfl))).2

/-- The letter `e` is not a LETTER_NO_E. -/
example : ¬ Forms (lexical .LETTER_NO_E) s%"e" := fun h => by
  have h' : (Rx.chr letterNoE).Matches s%"e" := (same_letterNoE _).1 h
  cases h' with
  | chr h => exact absurd h (by decide)

end Verif.Grammar
