import Verif.Props.Equations
/-
A number and an expression with variables are never taken for each other (C106): normaliser, `latex2sympy` and comparison together.
-/

namespace Verif
open Re

variable {X V S : Type}

section
variable {K : Type} [Field K] [LinearOrder K] [IsStrictOrderedRing K]

/-- The function takes different values. -/
def Varies (f : (Str → K) → K) : Prop := ∃ ρ ρ', f ρ ≠ f ρ'

/-- The CAS on a number and a function: expansion and subtraction may raise and need not find out anything; what they return is
correct. -/
structure MixedArith (E : Env X V S) (Is Ev : V → K → Prop) (Fun : V → List Str → ((Str → K) → K) → Prop) : Prop where
  expandEq : ∀ {v q w b h}, Ev v q → Fun w b h → IfOk (E.expandEq v w) (· = true → ∀ ρ, h ρ = q)
  expandEq' : ∀ {v q w b h}, Ev v q → Fun w b h → IfOk (E.expandEq w v) (· = true → ∀ ρ, h ρ = q)
  sub : ∀ {v q w b h}, Ev v q → Fun w b h → IfOk (E.sub v w) (Comes Is Fun fun ρ => q - h ρ)
  sub' : ∀ {v q w b h}, Ev v q → Fun w b h → IfOk (E.sub w v) (Comes Is Fun fun ρ => h ρ - q)

variable {E : Env X V S} {Is Ev : V → K → Prop} {Fun : V → List Str → ((Str → K) → K) → Prop} (H : FunArith E Is Ev Fun)
include H

omit [IsStrictOrderedRing K] in
/-- A difference that takes different values is not taken for zero, nor for a small number. -/
theorem diffEqual_varies (gv : V) {dv : V} {d : (Str → K) → K} (hd : Comes Is Fun d dv) (hv : Varies d) :
    Safe (diffEqual E gv dv) (· = .lit false) := by
  obtain ⟨ρ, ρ', hne⟩ := hv
  rcases hd with ⟨b, h⟩ | ⟨q, _, hq⟩
  · have hzero : Safe (isSympyZero E dv) (· = false) := by
      unfold isSympyZero
      rw [H.view h]
      refine (H.isZero h).safe.mono fun r hr => ?_
      cases r with
      | false => rfl
      | true => exact absurd ((hr rfl ρ).trans (hr rfl ρ').symm) hne
    unfold diffEqual
    refine Safe.bind hzero ?_
    rintro _ rfl
    apply AlwaysP.safe
    apply (H.isNumber h).always.bindP
    exact AlwaysP.pure rfl
  · exact absurd ((hq ρ).trans (hq ρ').symm) hne

omit [IsStrictOrderedRing K] in
/-- The comparison once the expressions are evaluated, if the difference takes different values. -/
theorem stages_varies {gv vv : V} {d : (Str → K) → K} (hx : IfOk (E.expandEq gv vv) (· = false)) (hs : IfOk (E.sub gv vv) (Comes Is Fun d))
    (hv : Varies d) (hn : Always (numericStage E gv vv) false) : Always (do
      if ← sympyExpandEqual E gv vv then pure true
      else do
        let d ← M.tryExcept (do
          let w ← M.ext (E.sub gv vv)
          let d ← sympySimplify E w
          diffEqual E gv d) (fun _ => pure (.lit false))
        if ← d.test E then pure true else numericStage E gv vv) false := by
  apply AlwaysP.always (P := (· = false))
  · exact hx.safe.caught fun e => AlwaysP.print_then _ (AlwaysP.pure rfl)
  rintro _ rfl
  simp only [Bool.false_eq_true, if_false]
  apply AlwaysP.always (P := (· = Cond.lit false))
  · refine Safe.caught (P := (· = Cond.lit false)) ?_ fun _ => AlwaysP.pure rfl
    refine Safe.bind hs.safe fun w hw => ?_
    refine Safe.bind (Q := Comes Is Fun d) ?_ fun y hy => diffEqual_varies H gv hy hv
    refine Safe.tryExcept (fun _ => Safe.bind (Safe.any _) fun _ _ => Safe.raised _ _) ?_
    rcases hw with ⟨c, hc⟩ | ⟨q, hq, hc⟩
    · refine Safe.bind (AlwaysP.safe ((H.isNumber hc).always.alwaysP (P := (· = false)) rfl)) ?_
      rintro _ rfl
      exact (H.simplify hc).safe
    · refine Safe.bind (AlwaysP.safe ((H.numbers.isNumber hq).always.alwaysP (P := (· = true)) rfl)) ?_
      rintro _ rfl
      exact (H.numbers.evalf hq).always.safe.mono fun y hy => .inr ⟨q, H.numbers.ev hy, hc⟩
  · rintro _ rfl
    apply (Always.pure false).bind
    simpa using hn

variable (Mx : MixedArith E Is Ev Fun)
include Mx

omit [IsStrictOrderedRing K] in
/-- The comparison of a number and a function, in either order. -/
theorem areEqual_mixed (n : Nat) {gv vv : V} {q : K} {b : List Str} {h : (Str → K) → K} (hg : Is gv q) (hv : Fun vv b h)
    (hib : ∃ k ∈ b, E.symName k ≠ s%"i") (hc : Varies h) :
    Always (areEqual E (n + 1) gv vv .expr .expr) false ∧ Always (areEqual E (n + 1) vv gv .expr .expr) false := by
  obtain ⟨ρ, ρ', hne⟩ := hc
  have ig : Always (exprWithOnlyI E gv) (gv, false) := by
    apply (H.numbers.freeSyms hg).always.bind
    exact Always.pure _
  have iv : Always (exprWithOnlyI E vv) (vv, false) := by
    unfold exprWithOnlyI
    apply (H.freeSyms hv).always.always
    intro l hl
    obtain ⟨j, hj, hji⟩ := hib
    have hj := (hl j).2 hj
    split
    · rw [if_neg (by rw [← List.mem_singleton.1 hj]; exact hji)]
      exact Always.pure _
    · exact Always.pure _
  have eg : AlwaysP (evalIfNumber E gv) fun o => ∃ a, o = some a ∧ Ev a q := by
    apply (H.numbers.isNumber hg).always.bindP
    simp only [if_true]
    apply AlwaysP.tryExcept
    apply (H.numbers.evalf hg).always.bind
    intro a ha
    exact AlwaysP.pure ⟨a, rfl, ha⟩
  have ev : Always (evalIfNumber E vv) (some vv) := by
    apply (H.isNumber hv).always.bind
    exact Always.pure _
  have no : ∀ {r : Bool}, (r = true → ∀ ρ, h ρ = q) → r = false := by
    intro r hr
    cases r with
    | false => rfl
    | true => exact absurd ((hr rfl ρ).trans (hr rfl ρ').symm) hne
  constructor
  · show Always (areEqualBody E (areEqual E n) gv vv .expr .expr) _
    unfold areEqualBody
    apply ig.bind
    apply iv.bind
    simp only [Bool.or_self, Bool.false_eq_true, if_false]
    unfold scalarEqual
    apply eg.always
    rintro _ ⟨a, rfl, ha⟩
    apply ev.bind
    refine stages_varies H (fun x r x' e => no (Mx.expandEq ha hv x r x' e)) (Mx.sub ha hv) ⟨ρ, ρ', by simpa using hne⟩ ?_
    unfold numericStage
    apply Always.tryExcept
    apply (H.numbers.freeSyms (H.numbers.ev ha)).always.bind
    exact (Always.pure false).bind (Always.pure false)
  · show Always (areEqualBody E (areEqual E n) vv gv .expr .expr) _
    unfold areEqualBody
    apply iv.bind
    apply ig.bind
    simp only [Bool.or_self, Bool.false_eq_true, if_false]
    unfold scalarEqual
    apply ev.bind
    apply eg.always
    rintro _ ⟨a, rfl, ha⟩
    refine stages_varies H (fun x r x' e => no (Mx.expandEq' ha hv x r x' e)) (Mx.sub' ha hv) ⟨ρ, ρ', by simpa using hne⟩ ?_
    unfold numericStage
    apply Always.tryExcept
    apply (H.freeSyms hv).always.always
    intro l _
    apply Always.bind (a := false)
    · cases l with
      | nil => exact Always.pure _
      | cons k l =>
        apply (H.numbers.freeSyms (H.numbers.ev ha)).always.bind
        exact Always.pure _
    · exact Always.pure _

omit [IsStrictOrderedRing K] in
/-- The comparison of two texts, one of which is read as a number, the other as a function. -/
theorem areEqualUnderSympy_mixed {s t : Str} {q : K} {b : List Str} {h : (Str → K) → K} (hs : ReadsReal E Is s q)
    (ht : ReadsFun E Fun t b h) (hib : ∃ k ∈ b, E.symName k ≠ s%"i") (hc : Varies h) (n : Nat) (verbose : Bool) :
    Always (areEqualUnderSympy E (n + 1) s t verbose) false ∧ Always (areEqualUnderSympy E (n + 1) t s verbose) false := by
  have rs : ReadsAs E s (Is · q) := sympyParse_real E (fun v h => ⟨_, H.numbers.view h⟩) hs.parseExpr hs.l2s
  have rt : ReadsAs E t (Fun · b h) := sympyParse_real E (fun v h => ⟨_, H.view h⟩) ht.parseExpr ht.l2s
  have tg : ∀ {u q}, Is u q → Always (getType E u) .expr := by
    intro u q h
    unfold getType
    rw [H.numbers.view h]
    exact Always.pure _
  have tv : ∀ {u c k}, Fun u c k → Always (getType E u) .expr := by
    intro u c k hu
    unfold getType
    rw [H.view hu]
    exact Always.pure _
  constructor
  · refine areEqualUnderSympy_by rs rt (fun g v hg hv => ?_) verbose
    unfold eqTyped
    apply (tg hg).bind
    apply (tv hv).bind
    exact (areEqual_mixed H Mx n hg hv hib hc).1
  · refine areEqualUnderSympy_by rt rs (fun v g hv hg => ?_) verbose
    unfold eqTyped
    apply (tv hv).bind
    apply (tg hg).bind
    exact (areEqual_mixed H Mx n hg hv hib hc).2

omit Mx [IsStrictOrderedRing K] in
/-- A text is not read as a number and as a function. -/
theorem reads_not_both {s : Str} {q : K} {b : List Str} {h : (Str → K) → K} (hs : ReadsReal E Is s q) (ht : ReadsFun E Fun s b h) (x : X) :
    False := by
  obtain ⟨v, x', e, hv⟩ := hs.l2s x
  obtain ⟨w, x'', e', hw⟩ := ht.l2s x
  rw [e] at e'
  cases e'
  obtain ⟨y, h1⟩ := H.numbers.isNumber hv x
  obtain ⟨z, h2⟩ := H.isNumber hw x
  rw [h1] at h2
  cases h2

omit [IsStrictOrderedRing K] in
/-- The verdict on two answers one of whose normal forms reads as a number, the other as a function. -/
theorem isEquiv_mixed {a b x y : Str} {q : K} {d : List Str} {h : (Str → K) → K} (n : Nat) (verbose : Bool) (sa : strip a = a)
    (sb : strip b = b) (ha : Always (stringNormalize E (n + 1) a) (.str x)) (hb : Always (stringNormalize E (n + 1) b) (.str y))
    (hx : Single x) (hy : Single y) (rx : ReadsReal E Is x q) (ry : ReadsFun E Fun y d h)
    (hid : ∃ k ∈ d, E.symName k ≠ s%"i") (hc : Varies h) :
    Always (isEquiv E (n + 2) (some a) (some b) verbose) false ∧ Always (isEquiv E (n + 2) (some b) (some a) verbose) false := by
  by_cases hi : Nonempty (World X)
  swap
  · exact ⟨fun w => (hi ⟨w⟩).elim, fun w => (hi ⟨w⟩).elim⟩
  obtain ⟨w⟩ := hi
  have hxy : x ≠ y := by rintro rfl; exact reads_not_both H rx ry w.ext
  have hab : strip a ≠ strip b := by
    rw [sa, sb]
    rintro rfl
    have := ha.unique w hb
    simp only [Norm.str.injEq] at this
    exact hxy this
  obtain ⟨h1, h2⟩ := areEqualUnderSympy_mixed H Mx rx ry hid hc n verbose
  exact ⟨isEquiv_single E (n + 1) a b x y verbose _ ha hb hx hy hab hxy h1,
    isEquiv_single E (n + 1) b a y x verbose _ hb ha hy hx hab.symm hxy.symm h2⟩

end

end Verif

namespace Verif.L2S
open Verif Verif.Reading Verif.Grammar

section
variable {K : Type} [Field K] [LinearOrder K] [IsStrictOrderedRing K] {X V Y S : Type}

/-- SymPy and `parse_expr` on one text: an expression that has the value `x` for all values of the variables is the number `x`;
`parse_expr` (given the text with `**` for `^`) raises or returns the number `x`. -/
structure Valued (E : Env X V S) (I : Interp K) (inj : SV → V) (Is : V → K → Prop) (s : Str) (x : K) : Prop where
  value : ∀ v : SV, v.scalar = true → (∀ ρ, den (I.vars ρ) v = x) → Is (inj v) x
  parseExpr : ∀ w, (∃ e w', E.parseExpr (replace s%"^" s%"**" s) w = (.error e, w')) ∨
    ∃ v w', E.parseExpr (replace s%"^" s%"**" s) w = (.ok v, w') ∧ Is v x

/-- Answers without variables: decimal literals, and texts in LaTeX notation, written in one expression without what has a meaning of
its own to the normaliser. -/
inductive NumAnswer (E : Env X V S) (I : Interp K) (inj : SV → V) (Is : V → K → Prop) : Str → K → Prop
  | literal (l : Literal) : l.Tame → NumAnswer E I inj Is l.text (l.value : K)
  | text {s ws x} {wide : Bool} : Tidy s → Single s → (∀ f, pyFloat E.U s = some f → isIntFloat f = false) →
      Written ws s → (∀ ρ, Denotes (I.vars ρ) (fun _ => False) wide .expr ws x) → Valued E I inj Is s x → NumAnswer E I inj Is s x

variable {E : Env X V S} {L : Lib Y} {I : Interp K} {Is Ev : V → K → Prop} {Fun : V → List Str → ((Str → K) → K) → Prop}
  {inj : SV → V} {N : Nat}

theorem reads_valued (hL : SoundLib I L) (hp : ∀ s t, parseText s = some t → L.parse s = .ok t) (hl : UsesUndeclared E L N inj I.real)
    {s : Str} {ws : List Sign} {wide : Bool} {x : K} (hw : Written ws s)
    (hd : ∀ ρ, Denotes (I.vars ρ) (fun _ => False) wide .expr ws x) (he : Valued E I inj Is s x) : ReadsReal E Is s x := by
  refine ⟨fun y => ?_, he.parseExpr⟩
  obtain ⟨w, _, h⟩ := hl s y
  have key : ∀ ρ, ∃ v w', latex2sympy L (N + 1) s [] w = (.ok v, w') ∧ v.scalar = true ∧ den (I.vars ρ) v = x := fun ρ =>
    latex2sympy_closed (hL.vars ρ) hp hw (hd ρ) N [] w
  obtain ⟨v, w', h1, h2, _⟩ := key fun _ => 0
  rw [h1] at h
  refine ⟨inj v, (E.l2s s y).2, Prod.ext h rfl, he.value v h2 fun ρ => ?_⟩
  obtain ⟨v', w'', e', _, h'⟩ := key ρ
  rw [h1] at e'
  cases e'
  exact h'

theorem reads_literal (hL : SoundLib I L) (hp : ∀ s t, parseText s = some t → L.parse s = .ok t) (hl : UsesUndeclared E L N inj I.real)
    (l : Literal) (he : Valued E I inj Is l.text (l.value : K)) : ReadsReal E Is l.text (l.value : K) := by
  refine ⟨fun y => ?_, he.parseExpr⟩
  obtain ⟨w, _, h⟩ := hl l.text y
  have key : ∀ ρ, ∃ v w', latex2sympy L (N + 1) l.text [] w = (.ok v, w') ∧ v.scalar = true ∧ den (I.vars ρ) v = l.value := by
    intro ρ
    obtain ⟨ws, hw, hd⟩ := literal_denotes (I.vars ρ) false l
    exact latex2sympy_closed (hL.vars ρ) hp hw hd N [] w
  obtain ⟨v, w', h1, h2, _⟩ := key fun _ => 0
  rw [h1] at h
  refine ⟨inj v, (E.l2s l.text y).2, Prod.ext h rfl, he.value v h2 fun ρ => ?_⟩
  obtain ⟨v', w'', e', _, h'⟩ := key ρ
  rw [h1] at e'
  cases e'
  exact h'

/-- The normal form of an answer without variables is one expression that is read as the value of the answer. -/
theorem NumAnswer.normal (hL : SoundLib I L) (hp : ∀ s t, parseText s = some t → L.parse s = .ok t)
    (hl : UsesUndeclared E L N inj I.real) (hE : PrintsIntegers E) (hlit : ∀ l : Literal, Valued E I inj Is l.text (l.value : K))
    {a : Str} {x : K} (h : NumAnswer E I inj Is a x) (n : Nat) : strip a = a ∧
      ∃ s, Always (stringNormalize E (n + 1) a) (.str s) ∧ Single s ∧ ReadsReal E Is s x := by
  cases h with
  | literal l ht =>
    obtain ⟨b, hb, hn⟩ := normalize_literal E hE l ht n
    refine ⟨literal_strip l, _, hn, literal_single b, ?_⟩
    rw [← hb]
    exact reads_literal hL hp hl b (hlit b)
  | text ht hs hf hw hd he =>
    exact ⟨strip_of_no_space _ fun c hc => ht.space hc, a, ht.fixed E n hf, hs, reads_valued hL hp hl hw hd he⟩

/-- **C106.**  An answer without variables and an answer that denotes a function taking different values are judged not equivalent, in
either order, whatever SymPy's expansion and simplification find.  Missing: answers whose only variable is `i` (C107), and the texts excluded from C84 and
C94. -/
theorem C106_number_function_partial (H : FunArith E Is Ev Fun) (Mx : MixedArith E Is Ev Fun) (hL : SoundLib I L)
    (hp : ∀ s t, parseText s = some t → L.parse s = .ok t) (hl : UsesUndeclared E L N inj I.real) (hE : PrintsIntegers E)
    (hlit : ∀ l : Literal, Valued E I inj Is l.text (l.value : K)) {s t : Str} {q : K} {b : List Str} {h : (Str → K) → K}
    (hs : NumAnswer E I inj Is s q) (ht : FunAnswer E I inj Fun t b h) (hc : Varies h) (n : Nat) (verbose : Bool) :
    Always (isEquiv E (n + 2) (some s) (some t) verbose) false ∧ Always (isEquiv E (n + 2) (some t) (some s) verbose) false := by
  obtain ⟨sa, x, na, hx, rx⟩ := hs.normal hL hp hl hE hlit n
  exact isEquiv_mixed H Mx n verbose sa (strip_of_no_space _ fun _ hc => ht.tidy.space hc) na (ht.tidy.fixed E n ht.notInt) hx ht.single rx
    (ht.reads hL hp hl) ht.notI hc

end

/-! ### The hypotheses are met -/

theorem funEnv_mixed : MixedArith funEnv IsConst IsConst IsFun where
  expandEq {v q w b h} hv hw := by
    rintro x r x' e rfl
    simp only [funEnv, gives, Prod.mk.injEq, Except.ok.injEq, decide_eq_true_eq] at e
    obtain ⟨⟨rfl, _⟩, _⟩ := e
    exact absurd hv (hw.notConst q)
  expandEq' {v q w b h} hv hw := by
    rintro x r x' e rfl
    simp only [funEnv, gives, Prod.mk.injEq, Except.ok.injEq, decide_eq_true_eq] at e
    obtain ⟨⟨rfl, _⟩, _⟩ := e
    exact absurd hv (hw.notConst q)
  sub {v q w b h} hv hw := by
    obtain ⟨rfl, hh, _⟩ := hw
    subst hv
    rintro x r x' e
    simp only [funEnv, gives, Prod.mk.injEq, Except.ok.injEq] at e
    rw [← e.1]
    exact comes_of (a := b) fun ρ ρ' hρ => by rw [hh.only ρ ρ' hρ]
  sub' {v q w b h} hv hw := by
    obtain ⟨rfl, hh, _⟩ := hw
    subst hv
    rintro x r x' e
    simp only [funEnv, gives, Prod.mk.injEq, Except.ok.injEq] at e
    rw [← e.1]
    exact comes_of (a := b) fun ρ ρ' hρ => by rw [hh.only ρ ρ' hρ]

theorem funEnv_prints : PrintsIntegers funEnv := by
  intro z x
  right
  obtain ⟨ws, hw, hd⟩ := literal_denotes reals false (Literal.ofInt z)
  have key : ∀ ρ, ∃ v w', latex2sympy grammarLib 1 (intStr z) [] ⟨⟨Globals.init, x⟩, []⟩ = (.ok v, w') ∧ v.scalar = true ∧
      den (reals.vars ρ) v = z := by
    intro ρ
    obtain ⟨ws, hw, hd⟩ := literal_denotes (reals.vars ρ) false (Literal.ofInt z)
    obtain ⟨v, w', h1, h2, h3⟩ := latex2sympy_closed ((nodeLib_sound _ none _).vars ρ) grammarLib_parse hw hd 0 [] ⟨⟨Globals.init, x⟩, []⟩
    rw [Literal.ofInt_text] at h1
    rw [Literal.ofInt_value] at h3
    exact ⟨v, w', h1, h2, by rw [h3]; push_cast; rfl⟩
  obtain ⟨v, w', e, hv, _⟩ := key fun _ => 0
  have hden : IsConst (asFun v) z := by
    rw [asFun_scalar hv]
    show FV.fn _ = FV.fn _
    congr 1
    funext ρ
    obtain ⟨v', w'', e', _, h'⟩ := key ρ
    rw [e] at e'
    cases e'
    exact h'
  have h : ∃ z : ℤ, IsConst (asFun v) z := ⟨z, hden⟩
  have hz : h.choose = z := by
    have := hden.unique.1 h.choose_spec
    exact_mod_cast this.symm
  refine ⟨asFun v, x, x, ?_, ?_⟩
  · simp only [funEnv]
    rw [e]
    rfl
  · simp only [funEnv, gives]
    rw [dif_pos h, hz]

theorem funEnv_valued (s : Str) (x : ℝ) : Valued funEnv reals asFun IsConst s x where
  value v hv h := by rw [asFun_scalar hv, funext h]; rfl
  parseExpr w := .inl ⟨_, w, rfl⟩

/-- In the CAS of functions a number and an answer with variables are never equivalent. -/
theorem funEnv_apart {s t : Str} {q : ℝ} {b : List Str} {h : (Str → ℝ) → ℝ} (hs : NumAnswer funEnv reals asFun IsConst s q)
    (ht : FunAnswer funEnv reals asFun IsFun t b h) (hc : Varies h) (n : Nat) (verbose : Bool) :
    Always (isEquiv funEnv (n + 2) (some s) (some t) verbose) false ∧ Always (isEquiv funEnv (n + 2) (some t) (some s) verbose) false :=
  C106_number_function_partial funEnv_arith funEnv_mixed (nodeLib_sound _ none _) grammarLib_parse funEnv_uses funEnv_prints
    (fun _ => funEnv_valued _ _) hs ht hc n verbose

/-- The integers of at most 53 bits are answers without variables. -/
theorem integer_answer (z : ℤ) (hz : z.natAbs ≤ 2 ^ 53) : NumAnswer funEnv reals asFun IsConst (intStr z) z := by
  have := NumAnswer.literal (E := funEnv) (I := reals) (inj := asFun) (Is := IsConst) (Literal.ofInt z)
    (.inl ⟨z.natAbs, by simp [Literal.mag, Literal.ofInt, decVal_natStr], hz⟩)
  rw [Literal.ofInt_value, Literal.ofInt_text] at this
  simpa using this

/-- `2` and `2x` are not equivalent, whichever is the reference, though they agree where `x` is 1. -/
example (n : Nat) (verbose : Bool) : Always (isEquiv funEnv (n + 2) (some s%"2") (some s%"2x") verbose) false ∧
    Always (isEquiv funEnv (n + 2) (some s%"2x") (some s%"2") verbose) false := by
  have h := integer_answer 2 (by decide)
  rw [show intStr 2 = s%"2" by decide +kernel] at h
  exact funEnv_apart h (multiple_answer 2 (by decide) 'x' (.inl rfl)) ⟨fun _ => 0, fun _ => 1, by norm_num⟩ n verbose

/-- `\frac{1}{2}` is the number 1/2. -/
theorem half_number : NumAnswer funEnv reals asFun IsConst s%"\\frac{1}{2}" (1 / 2) := by
  refine .text (ws := .cmd s%"frac" :: ((.mark '{' :: [.digit 1] ++ [.mark '}']) ++ (.mark '{' :: [.digit 2] ++ [.mark '}'])))
    (tidyB_sound (by decide +kernel)) (singleB_sound (by decide +kernel)) ?_ (writtenB_sound (by decide +kernel)) (wide := false) ?_
    (funEnv_valued _ _)
  · intro f hf
    rw [pyFloat_none '{' (by simp) (by decide)] at hf
    cases hf
  · intro ρ
    have h := Denotes.frac (.partBraces (digit_denotes (reals.vars ρ) 1)) (.partBraces (digit_denotes (reals.vars ρ) 2))
    have h3 : Denotes (reals.vars ρ) (fun _ => False) false .expr _ _ := .term (.signed (.product (.factor (.power (.base h)))))
    have e1 : ((((1 : Fin 10).val : ℕ) : ℚ) : ℝ) = 1 := by norm_num
    have e2 : ((((2 : Fin 10).val : ℕ) : ℚ) : ℝ) = 2 := by norm_num
    rw [e1, e2] at h3
    exact h3

/-- `\frac{1}{2}` and `x\cdot(x+2)` are not equivalent, though `x(x+2)` takes the value 1/2. -/
example (n : Nat) (verbose : Bool) : Always (isEquiv funEnv (n + 2) (some s%"\\frac{1}{2}") (some s%"x\\cdot(x+2)") verbose) false ∧
    Always (isEquiv funEnv (n + 2) (some s%"x\\cdot(x+2)") (some s%"\\frac{1}{2}") verbose) false :=
  funEnv_apart half_number product_answer ⟨fun _ => 0, fun _ => 1, by norm_num⟩ n verbose

end Verif.L2S
