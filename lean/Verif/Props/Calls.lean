import Verif.Props.Bare
/-
Answers that are the greatest common divisor, the least common multiple, the maximum or the minimum of several arguments are judged by
their values (C123).
-/

namespace Verif.L2S
open Verif Verif.Reading Verif.Grammar

section
variable {K : Type} [Field K] [LinearOrder K] [IsStrictOrderedRing K] {X V Y S : Type}

/-- SymPy's function `f` gives expressions with the value of `F`. -/
def Computes (I : Interp K) (L : Lib Y) (f : Str) (F : List K → K) : Prop :=
  ∀ ρ args, SV.scalars args = true → ∀ y, ∃ v y', L.call f args y = (.ok v, y') ∧ v.scalar = true ∧ den (I.vars ρ) v = F (denList (I.vars ρ) args)

/-- `s` is `\gcd`, `\lcm`, `\max` or `\min` of arguments in parentheses, and `g` gives its value for all values of the variables. -/
def CallText (I : Interp K) (L : Lib Y) (s : Str) (g : (Str → K) → K) : Prop :=
  ∃ (nm f : Str) (ws l q : List Sign) (free : Str → Prop) (wide : Bool) (F : List K → K), (nm, f) ∈ severalNames ∧ (l, q) ∈ callBrackets ∧
    Written (.cmd nm :: (l ++ ws ++ q)) s ∧ Computes I L f F ∧ ∀ ρ, ∃ xs, Arguments (I.vars ρ) free wide ws xs ∧ g ρ = F xs

/-- What makes an answer no interval: it has not exactly one comma, or what precedes the comma raises once the opening brackets are taken
away, as `\max3` does. -/
def NoEnd (L : Lib Y) (N : Nat) (s : Str) : Prop :=
  ∀ a b, s = a ++ ',' :: b → ',' ∉ a → ',' ∉ b → ∀ w, ∃ e w', latex2sympy L N (a.filter fun c => c ≠ '(' ∧ c ≠ '[') [] w = (.error e, w')

/-- An answer that is such a call.  `P` says what its value is to SymPy. -/
structure CallAnswer (E : Env X V S) (L : Lib Y) (N : Nat) (I : Interp K) (inj : SV → V) (P : V → Prop) (s : Str) (g : (Str → K) → K) :
    Prop where
  neat : Neat s
  together : Together E.U s
  notInt : ∀ q, pyFloat E.U s = some q → isIntFloat q = false
  written : CallText I L s g
  /-- SymPy: an expression that has the value of `g` for all values of the variables -/
  value : ∀ v : SV, v.scalar = true → (∀ ρ, den (I.vars ρ) v = g ρ) → P (inj v)
  /-- `parse_expr` raises or gives such an expression too -/
  parseExpr : ∀ x, (∃ e x', E.parseExpr (replace s%"^" s%"**" s) x = (.error e, x')) ∨
    ∃ v x', E.parseExpr (replace s%"^" s%"**" s) x = (.ok v, x') ∧ P v

variable {E : Env X V S} {L : Lib Y} {I : Interp K} {Is Ev : V → K → Prop} {Fun : V → List Str → ((Str → K) → K) → Prop}
  {inj : SV → V} {N : Nat}

omit [LinearOrder K] [IsStrictOrderedRing K] in
theorem strToInterval_noEnd (hl : UsesUndeclared E L N inj I.real) {s : Str} (hn : Neat s)
    (hs : ¬ s%"\\cup" <:+: s ∧ ¬ s%"\\cap" <:+: s) (h : NoEnd L (N + 1) s) : Always (strToInterval E s) none := by
  have ascii : ∀ x : Char, 127 ≤ x.toNat → x ∉ s := fun x hx hm => by have := (hn.chars x hm).2.1; omega
  have h1 : cupSplit s = [s] := by
    unfold cupSplit
    rw [(contains_eq_false _ _).2 (not_infix_of_not_mem '⋃' (by simp) (ascii _ (by decide)))]
    simp only [Bool.false_eq_true, if_false]
    exact split_none (by simp) hs.1 '\\' s%"cup" rfl (by decide)
  have h2 : capSplit s = [s] := by
    unfold capSplit
    rw [(contains_eq_false _ _).2 (not_infix_of_not_mem '∩' (by simp) (ascii _ (by decide)))]
    simp only [Bool.false_eq_true, if_false]
    exact split_none (by simp) hs.2 '\\' s%"cap" rfl (by decide)
  have main : Fails (oneInterval E s) := by
    unfold oneInterval
    simp only [strip_of_no_space _ fun _ hc => hn.space hc]
    split
    · next l r e =>
      obtain ⟨e, hl', hr'⟩ := split_pair e
      have el : replace s%"[" [] (replace s%"(" [] l) = l.filter fun c => c ≠ '(' ∧ c ≠ '[' := by
        rw [show (s%"[" : Str) = ['['] from rfl, show (s%"(" : Str) = ['('] from rfl, replace_away, replace_away, List.filter_filter]
        congr 1
        funext c
        simp [Bool.and_comm]
      rw [el]
      refine Fails.bind (AlwaysRaises.fails ?_)
      intro x
      obtain ⟨w, -, he⟩ := hl (l.filter fun c => c ≠ '(' ∧ c ≠ '[') x
      obtain ⟨e', w', e''⟩ := h l r e hl' hr' w
      rw [e''] at he
      exact ⟨e', (E.l2s _ x).2, Prod.ext he rfl⟩
    · exact fun w => ⟨_, w, rfl⟩
  unfold strToInterval
  refine Fails.tryExcept ?_ fun _ => Always.pure _
  rw [h1]
  refine Fails.bind ?_
  unfold unionLoop
  rw [h2]
  refine Fails.bind ?_
  unfold interLoop
  exact Fails.bind main

/-- For two arguments, what precedes the comma raises. -/
theorem noEnd_several (he : ReadsPart L)
    {cmd : Str} (hc : cmd ∈ severalCommands) (rest : Str) (n : Nat) : NoEnd L (n + 1) (cmd ++ rest) := by
  have hcc : ∀ c ∈ cmd, c ≠ ',' ∧ c ≠ '(' ∧ c ≠ '[' := by revert cmd; decide
  intro a b e ha _ w
  have : ∃ a', a = cmd ++ a' := by
    rcases List.append_eq_append_iff.1 e with ⟨a', h, -⟩ | ⟨c', h, h'⟩
    · exact ⟨a', h⟩
    · cases c' with
      | nil => exact ⟨[], by simpa using h.symm⟩
      | cons x xs =>
        rw [List.cons_append, List.cons.injEq] at h'
        exact absurd rfl (hcc ',' (by rw [h, ← h'.1]; simp)).1
  obtain ⟨a', rfl⟩ := this
  have e1 : (cmd.filter fun c => c ≠ '(' ∧ c ≠ '[') = cmd := List.filter_eq_self.2 fun c h => by simpa using (hcc c h).2
  rw [List.filter_append, e1]
  exact C125_raises he hc (by simp) n [] w

omit [LinearOrder K] [IsStrictOrderedRing K] in
/-- **C125, no call is an interval.**  An answer that begins with `\gcd`, `\lcm`, `\max` or `\min` is not taken for an interval, whatever
its commas and brackets are. -/
theorem C125_interval (he : ReadsPart L)
    (hl : UsesUndeclared E L N inj I.real) {cmd rest : Str} (hc : cmd ∈ severalCommands) (hn : Neat (cmd ++ rest))
    (hs : ¬ s%"\\cup" <:+: cmd ++ rest ∧ ¬ s%"\\cap" <:+: cmd ++ rest) : Always (strToInterval E (cmd ++ rest)) none :=
  strToInterval_noEnd hl hn hs (noEnd_several he hc rest N)

omit [LinearOrder K] [IsStrictOrderedRing K] in
theorem CallText.command {s : Str} {g : (Str → K) → K} (h : CallText I L s g) (hn : Neat s) : ∃ cmd ∈ severalCommands, ∃ rest, s = cmd ++ rest := by
  obtain ⟨nm, f, ws, l, q, free, wide, F, hm, hb, hw, hF, hd⟩ := h
  cases hw with
  | @cons b _ _ s' hb' he hw =>
    have : b = [] := by
      cases b with
      | nil => rfl
      | cons x xs =>
        have h1 := hn.chars x (by simp)
        have h2 := hb' x (by simp)
        rcases h2 with rfl | rfl | rfl | rfl <;> exact absurd h1.1 (by decide)
    subst this
    refine ⟨'\\' :: nm, ?_, s', rfl⟩
    have key : ∀ p ∈ severalNames, '\\' :: p.1 ∈ severalCommands := by decide
    exact key _ hm

section
variable (hL : SoundLib I L) (hp : ∀ s t, parseText s = some t → L.parse s = .ok t)
  (he : ReadsPart L) (hl : UsesUndeclared E L (N + 1) inj I.real)
include hL hp he hl

omit he in
theorem CallAnswer.reads {s : Str} {g : (Str → K) → K} {P : V → Prop} (h : CallAnswer E L (N + 1) I inj P s g) : RetP (E.l2s s) P := by
  intro x
  obtain ⟨nm, f, ws, l, q, free, wide, F, hn, hb, hw, hF, hd⟩ := h.written
  obtain ⟨w, ⟨h1, h2, _⟩, he⟩ := hl s x
  have key : ∀ ρ, ∃ v w', latex2sympy L (N + 2) s [] w = (.ok v, w') ∧ v.scalar = true ∧ den (I.vars ρ) v = g ρ := fun ρ => by
    obtain ⟨xs, k1, k2⟩ := hd ρ
    rw [k2]
    exact C118_several_partial (hL.vars ρ) hp hn k1 hb hw F (hF ρ) N [] w ⟨h1, fun n _ => by rw [h2]; rfl⟩
  obtain ⟨v, w', e, hv, _⟩ := key fun _ => 0
  have hden : ∀ ρ, den (I.vars ρ) v = g ρ := by
    intro ρ
    obtain ⟨v', w'', e', _, h'⟩ := key ρ
    rw [e] at e'
    cases e'
    exact h'
  rw [e] at he
  exact ⟨inj v, (E.l2s s x).2, Prod.ext he rfl, h.value v hv hden⟩

theorem CallAnswer.shows {s : Str} {g : (Str → K) → K} {P : V → Prop} (hP : ∀ v, P v → E.view v = .expr false)
    (h : CallAnswer E L (N + 1) I inj P s g) (n : Nat) : Shows E (n + 1) P s := by
  refine ⟨strip_of_no_space _ fun _ hc => h.neat.space hc, s, h.neat.fixed E n h.notInt ?_, ⟨h.together.nonempty, h.together.unsplit _, ?_,
    ?_⟩, ?_⟩
  · unfold strIsInt
    rw [stripCommas_id _ _ h.together.thousands]
    cases hq : pyFloat E.U s with
    | none => rfl
    | some q => exact h.notInt q hq
  · rw [strIsMat, Bool.eq_false_iff, ne_eq, contains_iff]
    exact h.together.notMatrix
  · obtain ⟨cmd, hc, rest, e⟩ := h.written.command h.neat
    rw [e]
    exact C125_interval he hl hc (e ▸ h.neat) (e ▸ h.together.sets)
  · refine (sympyParse_real E (fun v h => ⟨_, hP v h⟩) h.parseExpr (h.reads hL hp hl)).mono ?_
    exact fun vs hv => ⟨fun v hm => .inl (hv.1 v hm), hv.2⟩

end

variable (E L N I inj Fun) in
/-- An answer with variables: a formula in LaTeX notation, or a call with several arguments. -/
inductive FormulaCalled (s : Str) (a : List Str) (g : (Str → K) → K) : Prop
  | formula : FunAnswer E I inj Fun s a g → FormulaCalled s a g
  | call : CallAnswer E L (N + 1) I inj (Fun · a g) s g → a ≠ [] → (∃ k ∈ a, E.symName k ≠ s%"i") → FormulaCalled s a g

variable (E L N I inj Is) in
/-- An answer without variables: a number in LaTeX notation, or a call with several arguments. -/
inductive NumberCalled (s : Str) (p : K) : Prop
  | number : NumAnswer E I inj Is s p → NumberCalled s p
  | call : CallAnswer E L (N + 1) I inj (Is · p) s (fun _ => p) → NumberCalled s p

section
variable (hL : SoundLib I L) (hp : ∀ s t, parseText s = some t → L.parse s = .ok t)
  (he : ReadsPart L) (hl : UsesUndeclared E L (N + 1) inj I.real)
include hL hp he hl

theorem FormulaCalled.shows (H : FunArith E Is Ev Fun) {s : Str} {a : List Str} {g : (Str → K) → K}
    (h : FormulaCalled E L I Fun inj N s a g) (n : Nat) : Shows E (n + 1) (Fun · a g) s ∧ a ≠ [] ∧ ∃ k ∈ a, E.symName k ≠ s%"i" := by
  cases h with
  | formula h =>
    have hf := h.reads hL hp hl
    refine ⟨⟨strip_of_no_space _ fun _ hc => h.tidy.space hc, s, h.tidy.fixed E n h.notInt, h.single.undivided E, ?_⟩, h.names, h.notI⟩
    refine (sympyParse_real E (fun v h => ⟨_, H.view h⟩) hf.parseExpr hf.l2s).mono ?_
    exact fun vs hv => ⟨fun v hm => .inl (hv.1 v hm), hv.2⟩
  | call h ha hi => exact ⟨h.shows hL hp he hl (fun _ h => H.view h) n, ha, hi⟩

theorem NumberCalled.shows (H : RealArith E Is Ev) (hE : PrintsIntegers E)
    (hlit : ∀ l : Literal, Valued E I inj Is l.text (l.value : K)) {s : Str} {p : K} (h : NumberCalled E L I Is inj N s p) (n : Nat) :
    Shows E (n + 1) (Is · p) s := by
  cases h with
  | number h =>
    obtain ⟨h1, t, h2, h3, h4⟩ := h.normal hL hp hl hE hlit n
    refine ⟨h1, t, h2, h3.undivided E, (sympyParse_real E (fun v h => ⟨_, H.view h⟩) h4.parseExpr h4.l2s).mono ?_⟩
    exact fun vs hv => ⟨fun v hm => .inl (hv.1 v hm), hv.2⟩
  | call h => exact h.shows hL hp he hl (fun _ h => H.view h) n

/-- **C123**, with variables.  Answers such as `\max(x,3)` are judged by their values, against each other and against formulas.
Missing: verdicts near the tolerance as in C94, and calls as in C118. -/
theorem C123_formulas_partial (H : FunArith E Is Ev Fun) {s t : Str} {a b : List Str} {g g' : (Str → K) → K}
    (hs : FormulaCalled E L I Fun inj N s a g) (ht : FormulaCalled E L I Fun inj N t b g') (n : Nat) (verbose : Bool) :
    ((∀ k, k ∈ a ↔ k ∈ b) → (∀ ρ, Sampled ρ → WithinTolerance (g ρ) (g' ρ)) →
      Always (isEquiv E (n + 3) (some s) (some t) verbose) true) ∧
    ((¬ NearlyConstant fun ρ => g ρ - g' ρ) → ((¬ ∀ k, k ∈ a ↔ k ∈ b) ∨ ∀ ρ, Sampled ρ → ¬ WithinTolerance (g ρ) (g' ρ)) →
      Always (isEquiv E (n + 3) (some s) (some t) verbose) false) := by
  obtain ⟨rs, ha, hia⟩ := hs.shows hL hp he hl H (n + 1)
  obtain ⟨rt, hb, hib⟩ := ht.shows hL hp he hl H (n + 1)
  have key : ∀ {r : Bool}, Decided a b g g' r → Always (isEquiv E (n + 3) (some s) (some t) verbose) r := fun hv =>
    isEquiv_shows (fun _ h => H.view h) (fun _ h => H.view h) n rs rt
      (fun n _ _ hg hv' => areEqual_fun H n hg hv' ha hb hia hib hv)
      (fun n _ _ hg hv' => areEqual_fun H n hg hv' ha ha hia hia (decided_refl _ _)) verbose
  exact ⟨fun h1 h2 => key (r := true) ⟨h1, h2⟩, fun h1 h2 => key (r := false) ⟨h1, h2⟩⟩

open Classical in
/-- **C123**, without variables.  `\gcd(4,6,9)` and `1`: exactly by the tolerance.  Missing: calls as in C118. -/
theorem C123_numbers_partial (H : RealArith E Is Ev) (hE : PrintsIntegers E) (hlit : ∀ l : Literal, Valued E I inj Is l.text (l.value : K))
    {s t : Str} {p q : K} (hs : NumberCalled E L I Is inj N s p) (ht : NumberCalled E L I Is inj N t q) (n : Nat) (verbose : Bool) :
    Always (isEquiv E (n + 3) (some s) (some t) verbose) (decide (WithinTolerance p q)) :=
  isEquiv_shows (fun _ h => H.view h) (fun _ h => H.view h) n (hs.shows hL hp he hl H hE hlit (n + 1))
    (ht.shows hL hp he hl H hE hlit (n + 1)) (fun n _ _ hg hv => areEqual_real H n hg hv)
    (fun n _ _ hg hv => by
      have := areEqual_real H n hg hv
      rwa [withinTolerance_refl p] at this) verbose

/-- **C123**, a number and a formula.  They are judged not equivalent. -/
theorem C123_unlike_partial (H : FunArith E Is Ev Fun) (Mx : MixedArith E Is Ev Fun) (hE : PrintsIntegers E)
    (hlit : ∀ l : Literal, Valued E I inj Is l.text (l.value : K)) {s t : Str} {p : K} {a : List Str} {g : (Str → K) → K}
    (hs : NumberCalled E L I Is inj N s p) (ht : FormulaCalled E L I Fun inj N t a g) (hc : Varies g) (n : Nat) (verbose : Bool) :
    Always (isEquiv E (n + 3) (some s) (some t) verbose) false ∧ Always (isEquiv E (n + 3) (some t) (some s) verbose) false := by
  obtain ⟨rt, hb, hib⟩ := ht.shows hL hp he hl H (n + 1)
  have rs := hs.shows hL hp he hl H.numbers hE hlit (n + 1)
  exact ⟨isEquiv_shows (fun _ h => H.numbers.view h) (fun _ h => H.view h) n rs rt
      (fun n _ _ hg hv => (areEqual_mixed H Mx n hg hv hib hc).1)
      (fun n _ _ hg hv => by
        have := areEqual_real H.numbers n hg hv
        rwa [withinTolerance_refl p] at this) verbose,
    isEquiv_shows (fun _ h => H.view h) (fun _ h => H.numbers.view h) n rt rs
      (fun n _ _ hg hv => (areEqual_mixed H Mx n hv hg hib hc).2)
      (fun n _ _ hg hv => areEqual_fun H n hg hv hb hb hib hib (decided_refl _ _)) verbose⟩

end

end

/-! ### The hypotheses are met -/

/-- functions of real variables, with the greatest of several numbers -/
noncomputable def maxReals : Interp ℝ := { reals with fn := fun f xs => if f = s%"Max" then greatest xs else realFn f xs }

theorem maxReals_sound : SoundLib maxReals grammarLib where
  call τ f hf args h y := ⟨.fn f args, y, by simp [grammarLib, nodeLib, binderNode_call hf h], by
    simpa [SV.scalar] using h, by rw [den]; rfl⟩
  inv τ a h _ y := ⟨.fn s%"1/" [a], y, by simp [grammarLib, nodeLib, binderNode], by
    simp [SV.scalar, SV.scalars, h], by
    rw [den, denList, denList]
    simp [maxReals, realInterp, realFn, Interp.at]⟩
  bind τ {f args op n r b as} hc hb has y := ⟨.binder op n r b as, y, by simp [grammarLib, nodeLib, hc.node], by
    simp [SV.scalar, hb, has], by rw [den]; rfl⟩

/-- an expression with variables as a function -/
noncomputable def asMax (v : SV) : FV := .fn fun ρ => den (maxReals.vars ρ) v

/-- `funEnv`, with the greatest of several numbers. -/
noncomputable def maxEnv : Env Unit FV Unit :=
  { funEnv with l2s := fun s x => ((latex2sympy grammarLib 2 s [] ⟨⟨Globals.init, x⟩, []⟩).1.map asMax, x) }

theorem maxEnv_uses : UsesUndeclared maxEnv grammarLib 1 asMax none := by
  intro s x
  refine ⟨⟨⟨Globals.init, x⟩, []⟩, ⟨rfl, rfl, rfl⟩, ?_⟩
  simp only [maxEnv]

theorem maxEnv_numbers : RealArith maxEnv IsConst IsConst :=
  ⟨funEnv_numbers.view, funEnv_numbers.freeSyms, funEnv_numbers.isNumber, funEnv_numbers.evalf, funEnv_numbers.ev, funEnv_numbers.expandEq,
    funEnv_numbers.sub, funEnv_numbers.isZero, funEnv_numbers.isInteger, funEnv_numbers.abs, funEnv_numbers.ltThr, funEnv_numbers.ge1,
    funEnv_numbers.gt0, funEnv_numbers.div⟩

theorem maxEnv_arith : FunArith maxEnv IsConst IsConst IsFun :=
  ⟨maxEnv_numbers, funEnv_arith.subEv, funEnv_arith.isZeroIs, funEnv_arith.view, funEnv_arith.freeSyms, funEnv_arith.isNumber,
    funEnv_arith.expandEq, funEnv_arith.sub, funEnv_arith.simplify, funEnv_arith.isZero, funEnv_arith.evalfAt,
    funEnv_arith.randint, funEnv_arith.uniform⟩

theorem maxEnv_mixed : MixedArith maxEnv IsConst IsConst IsFun :=
  ⟨funEnv_mixed.expandEq, funEnv_mixed.expandEq', funEnv_mixed.sub, funEnv_mixed.sub'⟩

theorem maxEnv_valued (s : Str) (x : ℝ) : Valued maxEnv maxReals asMax IsConst s x where
  value v hv h := by rw [asMax, funext h]; rfl
  parseExpr := (funEnv_valued s x).parseExpr

theorem maxEnv_prints : PrintsIntegers maxEnv := by
  intro z x
  right
  have key : ∀ ρ, ∃ v w', latex2sympy grammarLib 2 (intStr z) [] ⟨⟨Globals.init, x⟩, []⟩ = (.ok v, w') ∧ v.scalar = true ∧
      den (maxReals.vars ρ) v = z := by
    intro ρ
    obtain ⟨ws, hw, hd⟩ := literal_denotes (maxReals.vars ρ) false (Literal.ofInt z)
    obtain ⟨v, w', h1, h2, h3⟩ := latex2sympy_closed (maxReals_sound.vars ρ) grammarLib_parse hw hd 1 [] ⟨⟨Globals.init, x⟩, []⟩
    rw [Literal.ofInt_text] at h1
    rw [Literal.ofInt_value] at h3
    exact ⟨v, w', h1, h2, by rw [h3]; push_cast; rfl⟩
  obtain ⟨v, w', e, _, _⟩ := key fun _ => 0
  have hden : IsConst (asMax v) z := by
    show FV.fn _ = FV.fn _
    congr 1
    funext ρ
    obtain ⟨v', w'', e', _, h'⟩ := key ρ
    rw [e] at e'
    cases e'
    exact h'
  have h : ∃ z : ℤ, IsConst (asMax v) z := ⟨z, hden⟩
  have hz : h.choose = z := by
    have := hden.unique.1 h.choose_spec
    exact_mod_cast this.symm
  refine ⟨asMax v, x, x, ?_, ?_⟩
  · simp only [maxEnv]
    rw [e]
    rfl
  · simp only [maxEnv, funEnv, gives]
    rw [dif_pos h, hz]

theorem max_computes : Computes maxReals grammarLib s%"Max" greatest := fun ρ args h y => ⟨.fn s%"Max" args, y, by
  have : binderNode s%"Max" args = none := by
    unfold binderNode
    split
    · simp [SV.scalars, SV.scalar] at h
    all_goals simp
  simp [grammarLib, nodeLib, this], by simpa [SV.scalar] using h, by rw [den]; rfl⟩

theorem callAnswer_of {s : Str} {ws : List Sign} {g : (Str → ℝ) → ℝ} {P : FV → Prop} (hn : neatB s = true)
    (ht : togetherB s = true) (hf : (pyFloat asciiUni s).isNone = true)
    (hw : writtenB (.cmd s%"max" :: ([.mark '('] ++ ws ++ [.mark ')'])) s = true)
    (ha : ∀ ρ, ∃ xs, Arguments (maxReals.vars ρ) (fun _ => True) (false : Bool) ws xs ∧ g ρ = greatest xs) (hP : P (.fn g)) :
    CallAnswer maxEnv grammarLib 1 maxReals asMax P s g where
  neat := neatB_sound hn
  together := togetherB_sound ht
  notInt q hq := by
    rw [show pyFloat maxEnv.U s = none from Option.isNone_iff_eq_none.1 hf] at hq
    cases hq
  written := ⟨s%"max", s%"Max", ws, [.mark '('], [.mark ')'], fun _ => True, false, greatest, by decide, by decide, writtenB_sound hw,
    max_computes, ha⟩
  value v hv h := by rw [asMax, funext h]; exact hP
  parseExpr x := .inl ⟨_, x, rfl⟩

theorem maxDigit (ρ : Str → ℝ) (d : Fin 10) :
    Denotes (maxReals.vars ρ) (fun _ => True) (false : Bool) .expr [.digit d] ((d.val : ℚ) : ℝ) :=
  .term (.signed (.product (.factor (.power (.base (.number (num1 d)))))))

theorem maxLetter (ρ : Str → ℝ) : Denotes (maxReals.vars ρ) (fun _ => True) (false : Bool) .expr [.letter 'x'] (ρ s%"x") :=
  .term (.signed (.product (.factor (.power (.base (.letter (.latin (c := 'x') (by decide)) trivial))))))

theorem compact_of {us : List Sign} (h1 : writtenB us (us.flatMap Sign.text) = true) (h2 : ',' ∉ us.flatMap Sign.text) : Compact us :=
  ⟨h2, writtenB_sound h1⟩

theorem max_x {f : ℝ → ℝ} (hf : f 0 ≠ f 10) : Supports [s%"x"] fun ρ => f (ρ s%"x") where
  only ρ ρ' h := by rw [h s%"x" (by simp)]
  each k hk := by
    simp only [List.mem_cons, List.not_mem_nil, or_false] at hk
    subst hk
    exact ⟨fun _ => 0, fun k => if k = s%"x" then 10 else 0, fun k hk => by simp [hk], by simpa using hf⟩

/-- `\max(x,5,9)` -/
theorem max_triple : FormulaCalled maxEnv grammarLib maxReals IsFun asMax 0 s%"\\max(x,5,9)" [s%"x"] fun ρ => max (ρ s%"x") 9 :=
  .call (callAnswer_of (ws := [.letter 'x'] ++ .mark ',' :: ([.digit 5] ++ .mark ',' :: [.digit 9])) (by decide +kernel) (by decide +kernel)
    (by decide +kernel) (by decide +kernel) (fun ρ => ⟨_,
      .cons (maxLetter ρ) (compact_of (by decide +kernel) (by decide +kernel)) (.cons (maxDigit ρ 5) (compact_of (by decide +kernel)
        (by decide +kernel)) (.one (maxDigit ρ 9) (compact_of (by decide +kernel) (by decide +kernel))) (by decide)) (by decide), by
        norm_num [greatest, max_assoc]⟩)
    ⟨rfl, max_x (f := fun x => max x 9) (by norm_num), by simp⟩) (by simp) (by simp [maxEnv, funEnv])

/-- `\max(9,x)` -/
theorem max_pair : FormulaCalled maxEnv grammarLib maxReals IsFun asMax 0 s%"\\max(9,x)" [s%"x"] fun ρ => max (ρ s%"x") 9 :=
  .call (callAnswer_of (ws := [.digit 9] ++ .mark ',' :: [.letter 'x']) (by decide +kernel) (by decide +kernel)
    (by decide +kernel) (by decide +kernel)
    (fun ρ => ⟨_, .cons (maxDigit ρ 9) (compact_of (by decide +kernel) (by decide +kernel))
      (.one (maxLetter ρ) (compact_of (by decide +kernel) (by decide +kernel))) (by decide), by norm_num [greatest, max_comm]⟩)
    ⟨rfl, max_x (f := fun x => max x 9) (by norm_num), by simp⟩) (by simp) (by simp [maxEnv, funEnv])

/-- `\max(x,9)` -/
theorem max_letter : FormulaCalled maxEnv grammarLib maxReals IsFun asMax 0 s%"\\max(x,9)" [s%"x"] fun ρ => max (ρ s%"x") 9 :=
  .call (callAnswer_of (ws := [.letter 'x'] ++ .mark ',' :: [.digit 9]) (by decide +kernel) (by decide +kernel) (by decide +kernel)
    (by decide +kernel) (fun ρ => ⟨_, .cons (maxLetter ρ) (compact_of (by decide +kernel) (by decide +kernel))
      (.one (maxDigit ρ 9) (compact_of (by decide +kernel) (by decide +kernel))) (by decide), by norm_num [greatest]⟩)
    ⟨rfl, max_x (f := fun x => max x 9) (by norm_num), by simp⟩) (by simp) (by simp [maxEnv, funEnv])

/-- `\max(x,9)` and `\max(9,x)` are judged equivalent. -/
example (n : Nat) (verbose : Bool) : Always (isEquiv maxEnv (n + 3) (some s%"\\max(x,9)") (some s%"\\max(9,x)") verbose) true :=
  (C123_formulas_partial maxReals_sound grammarLib_parse grammarLib_reads maxEnv_uses maxEnv_arith max_letter max_pair n verbose).1
    (fun _ => Iff.rfl) fun _ _ => .inl rfl

/-- `\gcd(12,18)` is no interval. -/
example : Always (strToInterval maxEnv s%"\\gcd(12,18)") none :=
  C125_interval (I := maxReals) grammarLib_reads maxEnv_uses (cmd := s%"\\gcd") (by decide)
    (neatB_sound (by decide +kernel)) (by decide +kernel)

/-- `\max(5,9)` -/
theorem max_digits : NumberCalled maxEnv grammarLib maxReals IsConst asMax 0 s%"\\max(5,9)" 9 :=
  .call (callAnswer_of (ws := [.digit 5] ++ .mark ',' :: [.digit 9]) (by decide +kernel) (by decide +kernel)
    (by decide +kernel) (by decide +kernel)
    (fun ρ => ⟨_, .cons (maxDigit ρ 5) (compact_of (by decide +kernel) (by decide +kernel))
      (.one (maxDigit ρ 9) (compact_of (by decide +kernel) (by decide +kernel))) (by decide), by norm_num [greatest]⟩) rfl)

/-- `\max(x,5,9)` and `\max(9,x)` are judged equivalent. -/
example (n : Nat) (verbose : Bool) : Always (isEquiv maxEnv (n + 3) (some s%"\\max(x,5,9)") (some s%"\\max(9,x)") verbose) true :=
  (C123_formulas_partial maxReals_sound grammarLib_parse grammarLib_reads maxEnv_uses maxEnv_arith max_triple max_pair n verbose).1 (fun _ => Iff.rfl)
    fun _ _ => .inl rfl

theorem digit_called (z : ℤ) (hz : z.natAbs ≤ 2 ^ 53) : NumberCalled maxEnv grammarLib maxReals IsConst asMax 0 (intStr z) z := by
  have h := NumAnswer.literal (E := maxEnv) (I := maxReals) (inj := asMax) (Is := IsConst) (Literal.ofInt z) (ofInt_tame z hz)
  rw [Literal.ofInt_value, Literal.ofInt_text] at h
  exact .number (by simpa using h)

/-- `\max(5,9)` and `9` are judged equivalent, `\max(5,9)` and `5` are not. -/
example (n : Nat) (verbose : Bool) : Always (isEquiv maxEnv (n + 3) (some s%"\\max(5,9)") (some s%"9") verbose) true ∧
    Always (isEquiv maxEnv (n + 3) (some s%"\\max(5,9)") (some s%"5") verbose) false := by
  have key := fun z hz => C123_numbers_partial maxReals_sound grammarLib_parse grammarLib_reads maxEnv_uses maxEnv_numbers maxEnv_prints
    (fun _ => maxEnv_valued _ _) max_digits (digit_called z hz) n verbose
  have h9 := key 9 (by decide)
  have h5 := key 5 (by decide)
  rw [show intStr 9 = s%"9" by decide +kernel] at h9
  rw [show intStr 5 = s%"5" by decide +kernel] at h5
  exact ⟨h9.yes (by norm_num [WithinTolerance]), h5.no (by norm_num [WithinTolerance, abs_of_pos])⟩

/-- `\max(5,9)` and `\max(9,x)` are not. -/
example (n : Nat) (verbose : Bool) : Always (isEquiv maxEnv (n + 3) (some s%"\\max(5,9)") (some s%"\\max(9,x)") verbose) false :=
  (C123_unlike_partial maxReals_sound grammarLib_parse grammarLib_reads maxEnv_uses maxEnv_arith maxEnv_mixed maxEnv_prints (fun _ => maxEnv_valued _ _)
    max_digits max_pair ⟨fun _ => 0, fun _ => 10, by norm_num⟩ n verbose).1

end Verif.L2S
