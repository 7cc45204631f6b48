import Verif.Spec.PSGrammar
import Verif.Model.Latex2Sympy
/-
Which tokens a parse tree stands for: the rules of /repo/latex2sympy/PS.g4 once more, now with the part
of the tree that belongs to each part of the text.  `Spells x us` says that the tokens `us` are a way
to write `x`.  It fixes for every kind of node which part of the text is which child (numerator and
denominator, base and exponent, lower and upper limit, rows and columns, ...), that nothing is left out
or added, and, by its levels, what an operator may have as operands (precedence and associativity).
Nothing here refers to the parser.
-/

namespace Verif.PS
open Verif Verif.L2S
open Verif.Grammar (Kind Tok)

/-- tokens of the given types -/
def Toks (ks : List Kind) (us : List Tok) : Prop := us.map (·.kind) = ks

/-- nothing, or a token of the given type -/
def Maybe (k : Kind) (us : List Tok) : Prop := us = [] ∨ Toks [k] us

/-- a phrase of a rule of the grammar of which the converter uses the text only -/
def Phrase (x : R) (us : List Tok) : Prop := Derives (r x) (us.map (·.kind))

/-- the text of the tokens -/
def plain (us : List Tok) : Str := (us.map (·.text)).flatten

/-- the source text from the first to the last token -/
def source : List Tok → Str
  | [] => []
  | u :: us => u.text ++ (us.map fun v => v.gap ++ v.text).flatten

/-- the type of a token, as far as `convert_frac` tells them apart (latex2sympy2.py:752-774) -/
inductive KindIs : TokKind → Kind → Prop
  | differential : KindIs .differential .DIFFERENTIAL
  | symbol : KindIs .symbol .SYMBOL
  | letter : KindIs .letterNoE .LETTER_NO_E
  | other {k : Kind} : k ≠ .DIFFERENTIAL → k ≠ .SYMBOL → k ≠ .LETTER_NO_E → KindIs .other k

/-- the record of the tokens of a numerator or denominator (latex2sympy2.py:746-783) -/
def SpanIs (s : Span) (us : List Tok) : Prop := ∃ a b, us.head? = some a ∧ us.getLast? = some b ∧
  KindIs s.startKind a.kind ∧ s.startText = a.text ∧ KindIs s.stopKind b.kind ∧ s.stopText = b.text ∧
  (s.single = true ↔ us.length = 1) ∧ s.len = us.length ∧ s.text = source us

/-- brackets without and with `\left`, `\mleft` (PS.g4:468-525) -/
def Brackets (ps : List (Kind × Kind)) (ls rs : List Tok) : Prop := ∃ p ∈ ps,
  (Toks [p.1] ls ∧ Toks [p.2] rs) ∨ (Toks [.L_LEFT, p.1] ls ∧ Toks [.R_RIGHT, p.2] rs) ∨
  (Toks [.ML_LEFT, p.1] ls ∧ Toks [.MR_RIGHT, p.2] rs)

/-- the tokens of the sign of a relation (PS.g4:377) -/
inductive RelIs : RelTok → Kind → Prop
  | isIn : RelIs .isIn .IN
  | assignment : RelIs .assignment .ASSIGNMENT
  | equal : RelIs .equal .EQUAL
  | lt : RelIs .lt .LT
  | lte : RelIs .lte .LTE
  | gt : RelIs .gt .GT
  | gte : RelIs .gte .GTE
  | unequal : RelIs .unequal .UNEQUAL

/-- a name of a variable (PS.g4:533-534) -/
inductive NameIs : NameTok → List Tok → Prop
  | letter {u : Tok} : u.kind = .LETTER_NO_E → NameIs (.letter u.text) [u]
  | greek {u : Tok} : u.kind = .GREEK_CMD → NameIs (.greek u.text) [u]
  | other {u : Tok} : u.kind = .OTHER_SYMBOL_CMD → NameIs (.other u.text) [u]
  | accent {a : Tok} {l us e : List Tok} : Phrase .accent_symbol [a] → Toks [.L_BRACE] l →
      Phrase .expr us → Toks [.R_BRACE] e → NameIs (.accent a.text (plain us)) (a :: (l ++ (us ++ e)))

/-- a row of a matrix, as `R_1` or `R_{1}` (PS.g4:355) -/
inductive RowIs : TrAtom → List Tok → Prop
  | plain {a : Tok} {u us : List Tok} : a.kind = .LETTER_NO_E → Toks [.UNDERSCORE] u →
      Phrase .number us → RowIs ⟨a.text, plain us⟩ (a :: (u ++ us))
  | braced {a : Tok} {u l us e : List Tok} : a.kind = .LETTER_NO_E → Toks [.UNDERSCORE] u →
      Toks [.L_BRACE] l → Phrase .number us → Toks [.R_BRACE] e →
      RowIs ⟨a.text, plain us⟩ (a :: (u ++ (l ++ (us ++ e))))

/-- the name of a function, without its backslash, and, after `\operatorname`, the operator name
(PS.g4:583-591) -/
inductive FnIs (x y : R) : Str → Str → List Tok → Prop
  | command {a : Tok} : Phrase x [a] → FnIs x y a.text.tail [] [a]
  | operator {a o : Tok} {l e : List Tok} : a.kind = .CMD_OPERATORNAME → Toks [.L_BRACE] l →
      Phrase y [o] → Toks [.R_BRACE] e → FnIs x y a.text.tail o.text (a :: (l ++ (o :: e)))

/-- the arguments of a call, `(...)` or `[...]` (PS.g4:603, 605) -/
def CallIs (s : Str) (ws : List Tok) : Prop := ∃ l a us b e, ws = l ++ (a ++ (us ++ (b ++ e))) ∧
  Maybe .L_LEFT l ∧ (Toks [.L_PAREN] a ∨ Toks [.L_BRACKET] a) ∧ Phrase .func_common_args us ∧
  s = plain us ∧ (Toks [.R_PAREN] b ∨ Toks [.R_BRACKET] b) ∧ Maybe .R_RIGHT e

/-- parentheses around the argument of a function (PS.g4:596, 600) -/
def Parens (ls rs : List Tok) : Prop :=
  (∃ l a e b, ls = l ++ a ∧ rs = e ++ b ∧ Maybe .L_LEFT l ∧ Toks [.L_PAREN] a ∧
    Maybe .R_RIGHT e ∧ Toks [.R_PAREN] b) ∨
  (∃ l a e b, ls = l ++ a ∧ rs = e ++ b ∧ Maybe .ML_LEFT l ∧ Toks [.L_PAREN] a ∧
    Maybe .MR_RIGHT e ∧ Toks [.R_PAREN] b)

/-- What tokens may stand for.  The levels of expressions are those of the grammar; the argument `fn`
is false for the rules `..._nofunc`, in which no function may occur (PS.g4:351-642). -/
inductive Node where
  | math (m : MathTree)
  | relation (t : T)
  /-- relations with the given separator -/
  | items (sep : Kind) (ts : List T)
  | expr (t : T)
  | mp (fn : Bool) (t : T)
  | unary (fn : Bool) (t : T)
  | posts (fn : Bool) (ts : List T)
  | post (fn : Bool) (t : T)
  | exp (fn : Bool) (t : T)
  | comp (fn : Bool) (t : T)
  | func (t : T)
  | atom (t : T)
  | frac (t : T)
  | part (t : T) (s : Option Span)
  /-- a subscript, with its text -/
  | sub (t : T) (text : Str)
  | sup (t : T)
  | optSub (s : Option (T × Str))
  | optSup (t : Option T)
  /-- subscript and superscript in any order -/
  | scripts (s : Option (T × Str)) (p : Option T)
  /-- an exponent without its sign -/
  | exponent (t : T)
  | row (ts : List T)
  | rows (ts : List (List T))
  | coefficient (t : T)
  | transform (t : T)
  | transforms (ts : List T)
  | arrow (tss : List (List T))
  /-- content of an evaluation bar after `^` or `_` -/
  | bound (k : Kind) (t : T)
  | argument (t : T)
  | limits (lo up : Option T)
  | integrand (b : Option T) (d : Option Str)
  | equation (k : Kind) (l r : T)
  | index (l r : T)
  | approach (v : NameTok) (minus : Option Bool) (t : T)

/-- The tokens `us` are a way to write the node (PS.g4:351-642). -/
inductive Spells : Node → List Tok → Prop
  -- PS.g4:351
  | one {t us} : Spells (.relation t) us → Spells (.math (.one t)) us
  | list {k ts us} : k = .COMMA ∨ k = .SEMICOLON → 2 ≤ ts.length → Spells (.items k ts) us →
      Spells (.math (.list ts)) us
  | listIn {k ts l us e} : k = .COMMA ∨ k = .SEMICOLON → 2 ≤ ts.length →
      Brackets [(.L_BRACKET, .R_BRACKET), (.L_BRACE_VISUAL, .R_BRACE_VISUAL)] l e ∨
        Toks [.L_BRACE] l ∧ Toks [.R_BRACE] e →
      Spells (.items k ts) us → Spells (.math (.list ts)) (l ++ (us ++ e))
  | item {k t us} : Spells (.relation t) us → Spells (.items k [t]) us
  | items {k ts t us c vs} : Spells (.items k ts) us → Toks [k] c → Spells (.relation t) vs →
      Spells (.items k (ts ++ [t])) (us ++ (c ++ vs))
  -- PS.g4:376-378: relations are read from the left
  | rel {o k l r us c vs} : RelIs o k → Spells (.relation l) us → Toks [k] c → Spells (.expr r) vs →
      Spells (.relation (.rel o l r)) (us ++ (c ++ vs))
  | relExpr {t us} : Spells (.expr t) us → Spells (.relation t) us
  -- PS.g4:397-401: sums are read from the left, their operands are products
  | add {l r us o vs} : Spells (.expr l) us → Toks [.ADD] o → Spells (.mp true r) vs →
      Spells (.expr (.add l r)) (us ++ (o ++ vs))
  | subtract {l r us o vs} : Spells (.expr l) us → Toks [.SUB] o → Spells (.mp true r) vs →
      Spells (.expr (.sub l r)) (us ++ (o ++ vs))
  | exprMp {t us} : Spells (.mp true t) us → Spells (.expr t) us
  -- PS.g4:404-410: products are read from the left, their operands are signed factors
  | mul {fn k l r us o vs} : k = .MUL ∨ k = .CMD_TIMES ∨ k = .CMD_CDOT → Spells (.mp fn l) us →
      Toks [k] o → Spells (.unary fn r) vs → Spells (.mp fn (.mul l r)) (us ++ (o ++ vs))
  | div {fn k l r us o vs} : k = .DIV ∨ k = .CMD_DIV ∨ k = .COLON → Spells (.mp fn l) us →
      Toks [k] o → Spells (.unary fn r) vs → Spells (.mp fn (.div l r)) (us ++ (o ++ vs))
  | mod {fn l r us o vs} : Spells (.mp fn l) us → Toks [.CMD_MOD] o → Spells (.unary fn r) vs →
      Spells (.mp fn (.mod l r)) (us ++ (o ++ vs))
  | mpUnary {fn t us} : Spells (.unary fn t) us → Spells (.mp fn t) us
  -- PS.g4:412-418
  | pos {fn t o us} : Toks [.ADD] o → Spells (.unary fn t) us → Spells (.unary fn (.pos t)) (o ++ us)
  | neg {fn t o us} : Toks [.SUB] o → Spells (.unary fn t) us → Spells (.unary fn (.neg t)) (o ++ us)
  | juxt {fn p ps us vs} : Spells (.post true p) us → Spells (.posts fn ps) vs →
      Spells (.unary fn (.juxt (p :: ps))) (us ++ vs)
  | postsNil {fn} : Spells (.posts fn []) []
  | postsCons {fn p ps us vs} : Spells (.post fn p) us → Spells (.posts fn ps) vs →
      Spells (.posts fn (p :: ps)) (us ++ vs)
  -- PS.g4:420-435
  | postExp {fn t us} : Spells (.exp fn t) us → Spells (.post fn t) us
  | bang {fn t us o} : Spells (.post fn t) us → Toks [.BANG] o → Spells (.post fn (.bang t)) (us ++ o)
  | transp {fn t us o} : Spells (.post fn t) us → Phrase .transpose o →
      Spells (.post fn (.transp t)) (us ++ o)
  | evalUp {fn t p us b vs} : Spells (.post fn t) us → Toks [.BAR] b → Spells (.bound .CARET p) vs →
      Spells (.post fn (.evalAt t (some p) none)) (us ++ (b ++ vs))
  | evalLow {fn t s us b vs} : Spells (.post fn t) us → Toks [.BAR] b →
      Spells (.bound .UNDERSCORE s) vs → Spells (.post fn (.evalAt t none (some s))) (us ++ (b ++ vs))
  | evalBoth {fn t p s us b vs ws} : Spells (.post fn t) us → Toks [.BAR] b →
      Spells (.bound .CARET p) vs → Spells (.bound .UNDERSCORE s) ws →
      Spells (.post fn (.evalAt t (some p) (some s))) (us ++ (b ++ (vs ++ ws)))
  | bound {k t ls us e} : Toks [k, .L_BRACE] ls → Spells (.expr t) us → Toks [.R_BRACE] e →
      Spells (.bound k t) (ls ++ (us ++ e))
  | boundEq {k o l r ls us e} : Toks [k, .L_BRACE] ls → Spells (.equation o l r) us →
      Toks [.R_BRACE] e → Spells (.bound k (.eqn l r)) (ls ++ (us ++ e))
  | equation {k l r us o vs} : k = .EQUAL ∨ k = .ASSIGNMENT → Spells (.expr l) us → Toks [k] o →
      Spells (.expr r) vs → Spells (.equation k l r) (us ++ (o ++ vs))
  -- PS.g4:437-443: powers are read from the left
  | pow {fn b e s us c vs ws} : Spells (.exp fn b) us → Toks [.CARET] c → Spells (.exponent e) vs →
      Spells (.optSub s) ws → Spells (.exp fn (.pow b e)) (us ++ (c ++ (vs ++ ws)))
  | expComp {fn t us} : Spells (.comp fn t) us → Spells (.exp fn t) us
  | exponent {t us} : Spells (.atom t) us → Spells (.exponent t) us
  | exponentIn {t l us e} : Toks [.L_BRACE] l → Spells (.expr t) us → Toks [.R_BRACE] e →
      Spells (.exponent t) (l ++ (us ++ e))
  -- PS.g4:445-525
  | compFunc {t us} : Spells (.func t) us → Spells (.comp true t) us
  | compAtom {fn t us} : Spells (.atom t) us → Spells (.comp fn t) us
  | group {fn t l us e} : Brackets [(.L_PAREN, .R_PAREN), (.L_GROUP, .R_GROUP), (.L_BRACE, .R_BRACE),
        (.L_BRACE_VISUAL, .R_BRACE_VISUAL), (.L_BRACE_CMD, .R_BRACE_CMD), (.L_BRACKET, .R_BRACKET),
        (.L_BRACK, .R_BRACK)] l e → Spells (.expr t) us → Spells (.comp fn (.group t)) (l ++ (us ++ e))
  | norm {fn t l us e} : Brackets [(.NORM, .NORM)] l e → Spells (.expr t) us →
      Spells (.comp fn (.norm t)) (l ++ (us ++ e))
  | abs {fn t l us e} : Brackets [(.BAR, .BAR), (.L_VERT, .R_VERT), (.VERT, .VERT)] l e →
      Spells (.expr t) us → Spells (.comp fn (.abs t)) (l ++ (us ++ e))
  | floor {fn t l us e} : Brackets [(.L_FLOOR, .R_FLOOR), (.LL_CORNER, .LR_CORNER)] l e →
      Spells (.expr t) us → Spells (.comp fn (.floor t)) (l ++ (us ++ e))
  | ceil {fn t l us e} : Brackets [(.L_CEIL, .R_CEIL), (.UL_CORNER, .UR_CORNER)] l e →
      Spells (.expr t) us → Spells (.comp fn (.ceil t)) (l ++ (us ++ e))
  -- PS.g4:554-556
  | choose {fn a b l us c vs e} : Toks [.L_BRACE] l → Spells (.expr a) us → Toks [.CMD_CHOOSE] c →
      Spells (.expr b) vs → Toks [.R_BRACE] e →
      Spells (.comp fn (.binom a b)) (l ++ (us ++ (c ++ (vs ++ e))))
  | binom {fn a b l us m vs e} : Toks [.CMD_BINOM, .L_BRACE] l → Spells (.expr a) us →
      Toks [.R_BRACE, .L_BRACE] m → Spells (.expr b) vs → Toks [.R_BRACE] e →
      Spells (.comp fn (.binom a b)) (l ++ (us ++ (m ++ (vs ++ e))))
  -- PS.g4:355-374
  | matrix {fn rows tss b us d e vs} : Toks [.CMD_MATRIX_START] b → Spells (.rows rows) us →
      Maybe .MATRIX_DEL_ROW d → Toks [.CMD_MATRIX_END] e → Spells (.arrow tss) vs →
      Spells (.comp fn (.matrix rows tss)) (b ++ (us ++ (d ++ (e ++ vs))))
  | det {fn rows b us d e} : Toks [.CMD_DET_START] b → Spells (.rows rows) us →
      Maybe .MATRIX_DEL_ROW d → Toks [.CMD_DET_END] e →
      Spells (.comp fn (.det rows)) (b ++ (us ++ (d ++ e)))
  | row {t us} : Spells (.expr t) us → Spells (.row [t]) us
  | rowCons {ts t us c vs} : Spells (.row ts) us → Toks [.MATRIX_DEL_COL] c → Spells (.expr t) vs →
      Spells (.row (ts ++ [t])) (us ++ (c ++ vs))
  | rows {ts us} : Spells (.row ts) us → Spells (.rows [ts]) us
  | rowsCons {tss ts us c vs} : Spells (.rows tss) us → Toks [.MATRIX_DEL_ROW] c →
      Spells (.row ts) vs → Spells (.rows (tss ++ [ts])) (us ++ (c ++ vs))
  | noArrow : Spells (.arrow []) []
  | arrow {ts a us e} : Toks [.MATRIX_XRIGHTARROW, .L_BRACE] a → Spells (.transforms ts) us →
      Toks [.R_BRACE] e → Spells (.arrow [ts]) (a ++ (us ++ e))
  | arrowTwo {ts ts' a us m vs e} : Toks [.MATRIX_XRIGHTARROW, .L_BRACKET] a →
      Spells (.transforms ts) us → Toks [.R_BRACKET, .L_BRACE] m → Spells (.transforms ts') vs →
      Toks [.R_BRACE] e → Spells (.arrow [ts, ts']) (a ++ (us ++ (m ++ (vs ++ e))))
  | transforms {t us} : Spells (.transform t) us → Spells (.transforms [t]) us
  | transformsCons {ts t us c vs} : Spells (.transforms ts) us → Toks [.COMMA] c →
      Spells (.transform t) vs → Spells (.transforms (ts ++ [t])) (us ++ (c ++ vs))
  | assign {a k b us vs ws} : RowIs a us → Spells (.coefficient k) vs → RowIs b ws →
      Spells (.transform (.trAssign a k b)) (us ++ (vs ++ ws))
  | scale {k b us vs} : Spells (.coefficient k) us → RowIs b vs →
      Spells (.transform (.trScale k b)) (us ++ vs)
  | swap {a b us c vs} : RowIs a us → Toks [.TRANSFORM_EXCHANGE] c → RowIs b vs →
      Spells (.transform (.trSwap a b)) (us ++ (c ++ vs))
  | coefficient {t us} : Spells (.expr t) us → Spells (.coefficient t) us
  | coefficientGroup {t us} : Spells (.comp false (.group t)) us → Spells (.coefficient (.group t)) us
  | plus {us} : Toks [.ADD] us → Spells (.coefficient .kAdd) us
  | minus {us} : Toks [.SUB] us → Spells (.coefficient .kSub) us
  -- PS.g4:533-538
  | name {b us} : NameIs b us → Spells (.atom (.name b none none)) us
  | nameSub {b t s us vs} : NameIs b us → Spells (.sub t s) vs →
      Spells (.atom (.name b (some s) none)) (us ++ vs)
  | nameSup {b p us vs} : NameIs b us → Spells (.sup p) vs →
      Spells (.atom (.name b none (some p))) (us ++ vs)
  | nameSubSup {b t s p us vs ws} : NameIs b us → Spells (.sub t s) vs → Spells (.sup p) ws →
      Spells (.atom (.name b (some s) (some p))) (us ++ (vs ++ ws))
  | nameSupSub {b t s p us vs ws} : NameIs b us → Spells (.sup p) vs → Spells (.sub t s) ws →
      Spells (.atom (.name b (some s) (some p))) (us ++ (vs ++ ws))
  | symbol {u : Tok} : u.kind = .SYMBOL → Spells (.atom (.symbol u.text)) [u]
  | number {us} : Phrase .number us → Spells (.atom (.number (plain us))) us
  | enotation {us} : Phrase .e_notation us → Spells (.atom (.enotation (plain us))) us
  | percent {us} : Phrase .percent_number us → Spells (.atom (.percent (plain us))) us
  | differential {u : Tok} : u.kind = .DIFFERENTIAL → Spells (.atom (.differential u.text)) [u]
  | variable {u : Tok} : u.kind = .VARIABLE → Spells (.atom (.variable u.text)) [u]
  | mathit {l us e} : Toks [.CMD_MATHIT, .L_BRACE] l → Phrase .mathit_text us → Toks [.R_BRACE] e →
      Spells (.atom (.mathit (source us))) (l ++ (us ++ e))
  | atomFrac {t us} : Spells (.frac t) us → Spells (.atom t) us
  -- PS.g4:549-550
  | frac {a sa b sb c us vs} : Toks [.CMD_FRAC] c → Spells (.part a sa) us → Spells (.part b sb) vs →
      Spells (.frac (.frac a sa b sb)) (c ++ (us ++ vs))
  | partDigit {u : Tok} : u.kind = .DIGIT → Spells (.part (.digit u.text) none) [u]
  | part {t s l us e} : Toks [.L_BRACE] l → Spells (.expr t) us → SpanIs s us → Toks [.R_BRACE] e →
      Spells (.part t (some s)) (l ++ (us ++ e))
  -- PS.g4:638-641
  | subAtom {t u us} : Toks [.UNDERSCORE] u → Spells (.atom t) us → Spells (.sub t (plain us)) (u ++ us)
  | subExpr {t l us e} : Toks [.UNDERSCORE, .L_BRACE] l → Spells (.expr t) us → Toks [.R_BRACE] e →
      Spells (.sub t (plain us)) (l ++ (us ++ e))
  | subArgs {l us e} : Toks [.UNDERSCORE, .L_BRACE] l → Phrase .args us → Toks [.R_BRACE] e →
      Spells (.sub .args (plain us)) (l ++ (us ++ e))
  | sup {t c us} : Toks [.CARET] c → Spells (.exponent t) us → Spells (.sup t) (c ++ us)
  | noSub : Spells (.optSub none) []
  | someSub {t s us} : Spells (.sub t s) us → Spells (.optSub (some (t, s))) us
  | noSup : Spells (.optSup none) []
  | someSup {t us} : Spells (.sup t) us → Spells (.optSup (some t)) us
  | subSup {s p us vs} : Spells (.optSub s) us → Spells (.optSup p) vs →
      Spells (.scripts s p) (us ++ vs)
  | supSub {s p us vs} : Spells (.optSup p) us → Spells (.optSub s) vs →
      Spells (.scripts s p) (us ++ vs)
  -- PS.g4:593-619
  | single {n o s p a us vs ws} :
      FnIs .func_normal_functions_single_arg .func_operator_names_single_arg n o us →
      Spells (.scripts s p) vs → Spells (.argument a) ws →
      Spells (.func (.fnSingle n o (s.map (·.1)) p a)) (us ++ (vs ++ ws))
  | multi {n o s p us vs l ws e} :
      FnIs .func_normal_functions_multi_arg .func_operator_names_multi_arg n o us →
      Spells (.scripts s p) vs → Parens l e → Phrase .func_multi_arg ws →
      Spells (.func (.fnMulti n o true (plain ws) p)) (us ++ (vs ++ (l ++ (ws ++ e))))
  | multiBare {n o s p a us vs ws} :
      FnIs .func_normal_functions_multi_arg .func_operator_names_multi_arg n o us →
      Spells (.scripts s p) vs → Spells (.mp false a) ws →
      Spells (.func (.fnMulti n o false (plain ws) p)) (us ++ (vs ++ ws))
  | argument {t l us e} : Parens l e → Spells (.expr t) us → Spells (.argument t) (l ++ (us ++ e))
  | argumentBare {t us} : Spells (.mp false t) us → Spells (.argument t) us
  | apply {p s us vs ws} : Phrase .atom_expr_no_supexpr us → Spells (.optSup p) vs → CallIs s ws →
      Spells (.func (.fnApply (plain us) s p)) (us ++ (vs ++ ws))
  | applyIn {p s us vs l ws e} : Phrase .atom_expr_no_supexpr us → Spells (.optSup p) vs →
      Toks [.L_BRACE] l → CallIs s ws → Toks [.R_BRACE] e →
      Spells (.func (.fnApply (plain us) s p)) (us ++ (vs ++ (l ++ (ws ++ e))))
  | integral {lo up b d i us vs} : Toks [.FUNC_INT] i → Spells (.limits lo up) us →
      Spells (.integrand b d) vs → Spells (.func (.integral b d lo up)) (i ++ (us ++ vs))
  | noLimits : Spells (.limits none none) []
  | limits {lo s up us vs} : Spells (.sub lo s) us → Spells (.sup up) vs →
      Spells (.limits (some lo) (some up)) (us ++ vs)
  | limitsUp {lo s up us vs} : Spells (.sup up) us → Spells (.sub lo s) vs →
      Spells (.limits (some lo) (some up)) (us ++ vs)
  | limitsEmpty {us} : Toks [.UNDERSCORE, .L_BRACE, .R_BRACE, .CARET, .L_BRACE, .R_BRACE] us ∨
      Toks [.CARET, .L_BRACE, .R_BRACE, .UNDERSCORE, .L_BRACE, .R_BRACE] us →
      Spells (.limits none none) us
  | integrandNone {u : Tok} : u.kind = .DIFFERENTIAL → Spells (.integrand none (some u.text)) [u]
  | integrand {t us} {u : Tok} : Spells (.expr t) us → u.kind = .DIFFERENTIAL →
      Spells (.integrand (some t) (some u.text)) (us ++ [u])
  | integrandFrac {t us} : Spells (.frac t) us → Spells (.integrand (some t) none) us
  | integrandExpr {t us} : Spells (.expr t) us → Spells (.integrand (some t) none) us
  | sqrtDigit {c} {u : Tok} : Toks [.FUNC_SQRT] c → u.kind = .DIGIT →
      Spells (.func (.sqrt (.digit u.text) none)) (c ++ [u])
  | sqrt {t l us e} : Toks [.FUNC_SQRT, .L_BRACE] l → Spells (.expr t) us → Toks [.R_BRACE] e →
      Spells (.func (.sqrt t none)) (l ++ (us ++ e))
  | rootDigit {n l us e} {u : Tok} : Toks [.FUNC_SQRT, .L_BRACKET] l → Spells (.expr n) us →
      Toks [.R_BRACKET] e → u.kind = .DIGIT →
      Spells (.func (.sqrt (.digit u.text) (some n))) (l ++ (us ++ (e ++ [u])))
  | root {n t l us m vs e} : Toks [.FUNC_SQRT, .L_BRACKET] l → Spells (.expr n) us →
      Toks [.R_BRACKET, .L_BRACE] m → Spells (.expr t) vs → Toks [.R_BRACE] e →
      Spells (.func (.sqrt t (some n))) (l ++ (us ++ (m ++ (vs ++ e))))
  | sum {f b v s p c us vs ws} : f = true ∧ Toks [.FUNC_SUM] c ∨ f = false ∧ Toks [.FUNC_PROD] c →
      Spells (.index v s) us → Spells (.sup p) vs → Spells (.mp true b) ws →
      Spells (.func (.sumProd f b v s p)) (c ++ (us ++ (vs ++ ws)))
  | sumUp {f b v s p c us vs ws} : f = true ∧ Toks [.FUNC_SUM] c ∨ f = false ∧ Toks [.FUNC_PROD] c →
      Spells (.sup p) us → Spells (.index v s) vs → Spells (.mp true b) ws →
      Spells (.func (.sumProd f b v s p)) (c ++ (us ++ (vs ++ ws)))
  | index {k v s l us e} : Toks [.UNDERSCORE, .L_BRACE] l → Spells (.equation k v s) us →
      Toks [.R_BRACE] e → Spells (.index v s) (l ++ (us ++ e))
  | lim {v d a b c us vs} : Toks [.FUNC_LIM] c → Spells (.approach v d a) us →
      Spells (.mp true b) vs → Spells (.func (.lim v d a b)) (c ++ (us ++ vs))
  | approach {v a l us c vs e} : Toks [.UNDERSCORE, .L_BRACE] l → NameIs v us → us.length = 1 →
      Toks [.LIM_APPROACH_SYM] c → Spells (.expr a) vs → Toks [.R_BRACE] e →
      Spells (.approach v none a) (l ++ (us ++ (c ++ (vs ++ e))))
  | approachSide {v f a l us c vs e} : Toks [.UNDERSCORE, .L_BRACE] l → NameIs v us → us.length = 1 →
      Toks [.LIM_APPROACH_SYM] c → Spells (.expr a) vs →
      f = true ∧ Toks [.CARET, .L_BRACE, .SUB, .R_BRACE, .R_BRACE] e ∨
        f = false ∧ Toks [.CARET, .L_BRACE, .ADD, .R_BRACE, .R_BRACE] e →
      Spells (.approach v (some f) a) (l ++ (us ++ (c ++ (vs ++ e))))
  | expE {p c us} : Toks [.EXP_E] c → Spells (.optSup p) us → Spells (.func (.expE p)) (c ++ us)

end Verif.PS
