import Verif.Props.Transitive
/-
The comparison of formulas in several variables by random numbers: every point of the grid can be drawn (C113).
-/

namespace Verif

section
variable {X V S : Type} {α : Type}

/-- a call that leaves the state as it is -/
def stateless (e : Ext Unit α) : Ext X α := fun x => ((e ()).1, x)

theorem Ret.stateless {e : Ext Unit α} {a : α} (h : Ret e a) : Ret (stateless e : Ext X α) a := fun x => by
  obtain ⟨_, h⟩ := h ()
  exact ⟨x, by rw [Verif.stateless, h]⟩

theorem RetP.stateless {e : Ext Unit α} {P : α → Prop} (h : RetP e P) : RetP (stateless e : Ext X α) P := fun x => by
  obtain ⟨a, _, h, ha⟩ := h ()
  exact ⟨a, x, by rw [Verif.stateless, h], ha⟩

theorem IfOk.stateless {e : Ext Unit α} {P : α → Prop} (h : IfOk e P) : IfOk (stateless e : Ext X α) P := fun x a x' hx => by
  simp only [Verif.stateless, Prod.mk.injEq] at hx
  exact h () a (e ()).2 (by rw [← hx.1])

/-- A CAS without state as one whose state can hold anything. -/
def statelessEnv (X : Type) (E : Env Unit V S) : Env X V S where
  U := E.U
  setOrder := E.setOrder
  setOrder_perm := E.setOrder_perm
  view := E.view
  ofList := E.ofList
  view_ofList := E.view_ofList
  symName := E.symName
  emptySet := E.emptySet
  l2s s := stateless (E.l2s s)
  parseLatex s := stateless (E.parseLatex s)
  parseExpr s := stateless (E.parseExpr s)
  str v := stateless (E.str v)
  truth v := stateless (E.truth v)
  eqv v w := stateless (E.eqv v w)
  inv v := stateless (E.inv v)
  isNamedFunction v := stateless (E.isNamedFunction v)
  isSymbol v := stateless (E.isSymbol v)
  isNumber v := stateless (E.isNumber v)
  isZeroExpr v := stateless (E.isZeroExpr v)
  isZeroMatrix v := stateless (E.isZeroMatrix v)
  isInteger v := stateless (E.isInteger v)
  sub v w := stateless (E.sub v w)
  neg v := stateless (E.neg v)
  div v w := stateless (E.div v w)
  abs v := stateless (E.abs v)
  re v := stateless (E.re v)
  im v := stateless (E.im v)
  ltThr v r := stateless (E.ltThr v r)
  ge1 v := stateless (E.ge1 v)
  gt0 v := stateless (E.gt0 v)
  evalf v := stateless (E.evalf v)
  evalfAt v σ := stateless (E.evalfAt v σ)
  expandEq v w := stateless (E.expandEq v w)
  simplify v := stateless (E.simplify v)
  freeSyms v := stateless (E.freeSyms v)
  subsI v k := stateless (E.subsI v k)
  randint := stateless E.randint
  uniform := stateless E.uniform
  mkMatrix v := stateless (E.mkMatrix v)
  transpose v := stateless (E.transpose v)
  isIntNum v := stateless (E.isIntNum v)
  toInteger v := stateless (E.toInteger v)
  gtV v w := stateless (E.gtV v w)
  interval a b l r := stateless (E.interval a b l r)
  isEmptySet s := stateless (E.isEmptySet s)
  intersect s t := stateless (E.intersect s t)
  union s t := stateless (E.union s t)
  compareEq s t := stateless (E.compareEq s t)

end

variable {K : Type} [Field K] [LinearOrder K] [IsStrictOrderedRing K] {X V S : Type}
variable {E : Env X V S} {Is Ev : V → K → Prop} {Fun : V → List Str → ((Str → K) → K) → Prop} (H : FunArith E Is Ev Fun)

/-- In every state: once the symbols of `v` have been listed, the random source returns the values of `ρ` for them, one after the other. -/
def DrawsPoint (E : Env X V S) (Is : V → K → Prop) (rng : Ext X V) (v : V) (ρ : Str → K) : Prop :=
  ∀ w, ∃ l w', M.ext (E.freeSyms v) w = (.ok l, w') ∧ ∃ σ w'', drawAll rng l w' = (.ok σ, w'') ∧
    ∀ k ∈ l, ∃ u, σ.lookup k = some u ∧ Is u (ρ k)

include H

/-- If a point is drawn at which the functions do not agree within the tolerance, the sampling comparison fails. -/
theorem numericalEqual_point {gv vv : V} {a b : List Str} {f h : (Str → K) → K} (hg : Fun gv a f) (hv : Fun vv b h) {ρ : Str → K}
    (hs : Sampled ρ) {rng : Ext X V} (hr : DrawsPoint E Is rng gv ρ) (hab : ∀ k, k ∈ a ↔ k ∈ b) (hw : ¬ WithinTolerance (f ρ) (h ρ)) :
    Always (numericalEqual E gv vv rng) false := by
  unfold numericalEqual
  apply (H.freeSyms hg).always.always
  intro l hl
  apply (H.freeSyms hv).always.always
  intro m hm
  have : sameSyms l m = true := by
    simp only [sameSyms, Bool.and_eq_true, List.all_eq_true, List.contains_iff_mem]
    exact ⟨fun k hk => (hm k).2 ((hab k).1 ((hl k).1 hk)), fun k hk => (hl k).2 ((hab k).2 ((hm k).1 hk))⟩
  simp only [this, Bool.not_true, Bool.false_eq_true, if_false]
  intro w
  obtain ⟨l, w', hl', σ, w'', hσ, hρ⟩ := hr w
  obtain ⟨l₁, w₁, e₁, hl⟩ := (H.freeSyms hg).always w
  rw [hl'] at e₁
  obtain ⟨rfl, rfl⟩ : l = l₁ ∧ w' = w₁ := by simpa using e₁
  have he : ∀ {u c k}, Fun u c k → (∀ j ∈ c, j ∈ l) →
      AlwaysP (sympyEvalfAt E u σ) fun o => ∃ y, o = some y ∧ Ev y (k ρ) := by
    intro u c k hu hc
    apply AlwaysP.tryExcept
    apply (H.evalfAt hu σ ρ hs fun j hj => hρ j (hc j hj)).always.bind
    intro y hy
    exact AlwaysP.pure ⟨y, rfl, hy⟩
  rw [M.bind_run, hl']
  simp only
  rw [sampleLoop, M.bind_run, hσ]
  simp only
  refine (?_ : Always _ false) w''
  apply (he hg fun k hk => (hl k).2 hk).always
  rintro _ ⟨y, rfl, hy⟩
  apply (he hv fun k hk => (hl k).2 ((hab k).2 hk)).always
  rintro _ ⟨z, rfl, hz⟩
  simp only
  apply (H.subEv hy hz).always.always
  intro d hd
  apply (diffEqual_real H.numbers hy hd).always
  intro c hc
  apply hc.bind
  have e : (decide (f ρ - h ρ = 0 ∨ (f ρ = 0 ∧ |f ρ - h ρ| < 1 / 1000) ∨ (1 ≤ |f ρ| ∧ |f ρ - h ρ| < 5 / 1000) ∨
      (0 < |f ρ| ∧ |f ρ| < 1 ∧ |f ρ - h ρ| / |f ρ| < 1 / 1000))) = false := by
    rw [decide_eq_false_iff_not]
    rwa [WithinTolerance, ← sub_eq_zero] at hw
  rw [e]
  simpa using Always.pure false

end Verif

namespace Verif.L2S
open Verif Verif.Reading Verif.Grammar

/-- A random source that returns the values of `ρ` for the symbols in the state, one after the other. -/
noncomputable def nextValue (ρ : Str → ℝ) : Ext (List Str) FV := fun ks => (.ok (.fn fun _ => ρ (ks.headD [])), ks.tail)

/-- The CAS of functions with random sources that return the values of `ρ` and of `τ`, one after the other, for the symbols last listed. -/
noncomputable def chanceEnv (ρ τ : Str → ℝ) : Env (List Str) FV Unit :=
  { statelessEnv (List Str) funEnv with
    freeSyms := fun v _ => match funEnv.freeSyms v () with
      | (.ok l, _) => (.ok l, l)
      | (.error e, _) => (.error e, [])
    randint := nextValue ρ
    uniform := nextValue τ }

theorem chanceEnv_freeSyms {ρ τ : Str → ℝ} {v : FV} {P : List Str → Prop} (h : RetP (funEnv.freeSyms v) P) :
    RetP ((chanceEnv ρ τ).freeSyms v) P := fun x => by
  obtain ⟨l, x', h, hl⟩ := h ()
  exact ⟨l, l, by simp only [chanceEnv, h], hl⟩

theorem chanceEnv_numbers (ρ τ : Str → ℝ) : RealArith (chanceEnv ρ τ) IsConst IsConst where
  view := funEnv_numbers.view
  freeSyms h := fun x => by
    obtain ⟨x', h⟩ := funEnv_numbers.freeSyms h ()
    exact ⟨[], by simp only [chanceEnv, h]⟩
  isNumber h := (funEnv_numbers.isNumber h).stateless
  evalf h := (funEnv_numbers.evalf h).stateless
  ev := funEnv_numbers.ev
  expandEq h h' := (funEnv_numbers.expandEq h h').stateless
  sub h h' := (funEnv_numbers.sub h h').stateless
  isZero h := (funEnv_numbers.isZero h).stateless
  isInteger h := (funEnv_numbers.isInteger h).stateless
  abs h := (funEnv_numbers.abs h).stateless
  ltThr r h := fun x => by
    obtain ⟨c, x', e, hc⟩ := (funEnv_numbers.ltThr r h).stateless (X := List Str) x
    exact ⟨c, x', e, hc.stateless⟩
  ge1 h := (funEnv_numbers.ge1 h).stateless
  gt0 h := (funEnv_numbers.gt0 h).stateless
  div h h' hq := (funEnv_numbers.div h h' hq).stateless

theorem nextValue_draws {ρ : Str → ℝ} {D : ℝ → Prop} (h : ∀ k, D (ρ k)) : Draws IsConst D (nextValue ρ) :=
  fun _ => ⟨_, _, rfl, _, h _, rfl⟩

theorem chanceEnv_arith {ρ τ : Str → ℝ} (hρ : Sampled ρ) (hτ : Sampled τ) : FunArith (chanceEnv ρ τ) IsConst IsConst IsFun where
  numbers := chanceEnv_numbers ρ τ
  subEv h h' := (funEnv_arith.subEv h h').stateless
  isZeroIs h := (funEnv_arith.isZeroIs h).stateless
  view := funEnv_arith.view
  freeSyms h := chanceEnv_freeSyms (funEnv_arith.freeSyms h)
  isNumber h := (funEnv_arith.isNumber h).stateless
  expandEq h h' := (funEnv_arith.expandEq h h').stateless
  sub h h' := (funEnv_arith.sub h h').stateless
  simplify h := (funEnv_arith.simplify h).stateless
  isZero h := (funEnv_arith.isZero h).stateless
  evalfAt h σ ρ hs hσ := (funEnv_arith.evalfAt h σ ρ hs hσ).stateless
  randint := nextValue_draws hρ
  uniform := nextValue_draws hτ

theorem chanceEnv_uses (ρ τ : Str → ℝ) : UsesUndeclared (chanceEnv ρ τ) grammarLib 0 asFun none := by
  intro s x
  obtain ⟨w, h1, h2⟩ := funEnv_uses s ()
  exact ⟨w, h1, h2⟩

theorem FunAnswer.point {s : Str} {a : List Str} {f : (Str → ℝ) → ℝ} (h : FunAnswer funEnv reals asFun IsFun s a f) (ρ τ : Str → ℝ) :
    FunAnswer (chanceEnv ρ τ) reals asFun IsFun s a f :=
  ⟨h.tidy, h.single, h.notInt, h.denotes, h.value, fun _ => .inl ⟨_, _, rfl⟩, h.names, h.notI⟩

/-- The values returned for the symbols in the state are those of the point. -/
theorem drawAll_next (ρ : Str → ℝ) (out : List Str) (l : List Str) : ∃ σ, drawAll (nextValue ρ) l ⟨l, out⟩ = (.ok σ, ⟨[], out⟩) ∧
    ∀ k ∈ l, ∃ u, σ.lookup k = some u ∧ IsConst u (ρ k) := by
  induction l with
  | nil => exact ⟨[], rfl, by simp⟩
  | cons k ks ih =>
    obtain ⟨σ, h1, h2⟩ := ih
    refine ⟨(k, .fn fun _ => ρ k) :: σ, ?_, ?_⟩
    · rw [drawAll]
      simp [M.ext, nextValue, h1]
    · intro j hj
      rw [List.lookup_cons]
      by_cases e : j = k
      · subst e
        exact ⟨_, by simp, rfl⟩
      · rcases List.mem_cons.1 hj with e' | hj
        · exact absurd e' e
        · obtain ⟨v, h3, h4⟩ := h2 j hj
          exact ⟨v, by rw [beq_false_of_ne e]; exact h3, h4⟩

theorem chanceEnv_draws {ρ τ σ : Str → ℝ} {v : FV} {a : List Str} {f : (Str → ℝ) → ℝ} (h : IsFun v a f) :
    DrawsPoint (chanceEnv ρ τ) IsConst (nextValue σ) v σ := by
  intro w
  obtain ⟨l, x', e, _⟩ := funEnv_arith.freeSyms h ()
  obtain ⟨s, h1, h2⟩ := drawAll_next σ w.out l
  exact ⟨l, ⟨l, w.out⟩, by simp only [M.ext, chanceEnv, e], s, _, h1, h2⟩

/-- **C113.**  For every two points at which two functions of the same variables do not agree within the tolerance there are random
numbers, one for each variable, for which they are not judged equivalent: the coordinates of the points. -/
theorem C113_drawn {ρ τ : Str → ℝ} (hρ : Sampled ρ) (hτ : Sampled τ) {s t : Str} {a b : List Str} {f h : (Str → ℝ) → ℝ}
    (hs : FunAnswer funEnv reals asFun IsFun s a f) (ht : FunAnswer funEnv reals asFun IsFun t b h) (hab : ∀ k, k ∈ a ↔ k ∈ b)
    (hc : ¬ NearlyConstant fun ρ => f ρ - h ρ) (h1 : ¬ WithinTolerance (f ρ) (h ρ)) (h2 : ¬ WithinTolerance (f τ) (h τ))
    (n : Nat) (verbose : Bool) : Always (isEquiv (chanceEnv ρ τ) (n + 2) (some s) (some t) verbose) false := by
  have H := chanceEnv_arith hρ hτ
  have hs := hs.point ρ τ
  have ht := ht.point ρ τ
  exact isEquiv_by_sampling H n verbose (strip_of_no_space _ fun _ hc => hs.tidy.space hc) (strip_of_no_space _ fun _ hc => ht.tidy.space hc)
    (hs.tidy.fixed _ n hs.notInt) (ht.tidy.fixed _ n ht.notInt) hs.single ht.single
    (hs.reads (nodeLib_sound _ none _) grammarLib_parse (chanceEnv_uses ρ τ)) (ht.reads (nodeLib_sound _ none _) grammarLib_parse (chanceEnv_uses ρ τ))
    hs.names hs.notI ht.notI (fun hg hv => numericStage_draws H hg hv hs.names ht.names (r₁ := false) (r₂ := false)
      (numericalEqual_point H hg hv hρ (chanceEnv_draws hg) hab h1)
      fun _ => numericalEqual_point H hg hv hτ (chanceEnv_draws hg) hab h2) fun e => absurd e hc

/-- **C113.**  Two functions of the same variables, of any number, whose difference is not nearly constant are judged equivalent in every
run, whatever numbers are drawn, if and only if they agree within the tolerance wherever all variables have whole numbers from 1 to 10 as
values. -/
theorem C113_always {s t : Str} {a b : List Str} {f h : (Str → ℝ) → ℝ} (hs : FunAnswer funEnv reals asFun IsFun s a f)
    (ht : FunAnswer funEnv reals asFun IsFun t b h) (hab : ∀ k, k ∈ a ↔ k ∈ b) (hc : ¬ NearlyConstant fun ρ => f ρ - h ρ) :
    (∀ ρ τ : Str → ℝ, OnGrid ρ → Sampled τ → ∀ n verbose,
      Always (isEquiv (chanceEnv ρ τ) (n + 2) (some s) (some t) verbose) true) ↔
    ∀ ρ : Str → ℝ, OnGrid ρ → WithinTolerance (f ρ) (h ρ) := by
  have hsam : ∀ ρ : Str → ℝ, OnGrid ρ → Sampled ρ := by
    intro ρ hρ k
    obtain ⟨z, ⟨h1, h2⟩, e⟩ := hρ k
    rw [e]
    exact ⟨by exact_mod_cast h1, by exact_mod_cast h2⟩
  constructor
  · intro hall ρ hρ
    by_contra hn
    have h1 := hall ρ ρ hρ (hsam ρ hρ) 0 false
    have h2 := C113_drawn (hsam ρ hρ) (hsam ρ hρ) hs ht hab hc hn hn 0 false
    have := h1.unique ⟨[], []⟩ h2
    simp at this
  · intro hgrid ρ τ hρ hτ n verbose
    exact C111_integers (chanceEnv_arith (hsam ρ hρ) hτ) (nextValue_draws hρ) (nodeLib_sound _ none _) grammarLib_parse (chanceEnv_uses ρ τ)
      (hs.point ρ τ) (ht.point ρ τ) hab hgrid n verbose

/-- `x+2y` and `y+2x` -/
theorem weighted_answer (c d : Char) (hcd : c = 'x' ∧ d = 'y' ∨ c = 'y' ∧ d = 'x') :
    FunAnswer funEnv reals asFun IsFun [c, '+', '2', d] [[c], [d]] fun ρ => ρ [c] + 2 * ρ [d] := by
  have hc : isVariable c = true := by rcases hcd with ⟨rfl, rfl⟩ | ⟨rfl, rfl⟩ <;> decide
  have hd : isVariable d = true := by rcases hcd with ⟨rfl, rfl⟩ | ⟨rfl, rfl⟩ <;> decide
  have hne : c ≠ d := by rcases hcd with ⟨rfl, rfl⟩ | ⟨rfl, rfl⟩ <;> decide
  refine funAnswer_of (ws := [.letter c] ++ .mark '+' :: ([.digit 2] ++ [.letter d])) ?_ (singleB_sound ?_) ?_ ?_ ?_ ?_ (by simp) ?_
  · rcases hcd with ⟨rfl, rfl⟩ | ⟨rfl, rfl⟩ <;> decide +kernel
  · rcases hcd with ⟨rfl, rfl⟩ | ⟨rfl, rfl⟩ <;> decide +kernel
  · intro f hf
    have : (pyFloat asciiUni [c, '+', '2', d]).isNone = true := by rcases hcd with ⟨rfl, rfl⟩ | ⟨rfl, rfl⟩ <;> decide +kernel
    have h0 := Option.isNone_iff_eq_none.1 this
    rw [show pyFloat funEnv.U [c, '+', '2', d] = none from h0] at hf
    cases hf
  · rcases hcd with ⟨rfl, rfl⟩ | ⟨rfl, rfl⟩ <;> decide +kernel
  · intro ρ
    have h2 := Denotes.juxt (o := false) (w := .letter d) (vs := []) (.power (.base (dig_denotes ρ 2)))
      (.factor (.power (.base (var_denotes ρ hd)))) (by constructor <;> simp)
    have h3 := Denotes.add (letter_denotes ρ hc) (.signed (.product h2))
    norm_num at h3 ⊢
    exact h3
  · refine ⟨fun ρ ρ' h => by simp only [h [c] (by simp), h [d] (by simp)], ?_⟩
    intro k hk
    simp only [List.mem_cons, List.not_mem_nil, or_false] at hk
    rcases hk with rfl | rfl
    · exact ⟨fun _ => 0, fun j => if j = [c] then 1 else 0, fun j hj => by simp [hj], by simp [Ne.symm hne]⟩
    · exact ⟨fun _ => 0, fun j => if j = [d] then 1 else 0, fun j hj => by simp [hj], by simp [hne]⟩
  · rcases hcd with ⟨rfl, rfl⟩ | ⟨rfl, rfl⟩ <;> simp

/-- **C113**, refuted for single runs: `x+2y` and `y+2x` are judged equivalent in every run in which the same number is drawn each
time, whatever the number; they are not in a run in which 1 is drawn for `x` and 2 for `y`. -/
theorem C113_refuted :
    (∀ (z : ℤ) (q : ℝ), (1 ≤ z ∧ z ≤ 10) → (1 ≤ q ∧ q ≤ 10) → ∀ n verbose,
      Always (isEquiv (drawEnv z q) (n + 2) (some s%"x+2y") (some s%"y+2x") verbose) true) ∧
    ∀ ρ : Str → ℝ, Sampled ρ → ρ s%"x" = 1 → ρ s%"y" = 2 → ∀ n verbose,
      Always (isEquiv (chanceEnv ρ ρ) (n + 2) (some s%"x+2y") (some s%"y+2x") verbose) false := by
  have hx := weighted_answer 'x' 'y' (.inl ⟨rfl, rfl⟩)
  have hy := weighted_answer 'y' 'x' (.inr ⟨rfl, rfl⟩)
  have hab : ∀ k, k ∈ [s%"x", s%"y"] ↔ k ∈ [s%"y", s%"x"] := by
    intro k
    simp only [List.mem_cons, List.not_mem_nil, or_false]
    exact or_comm
  have hc : ¬ NearlyConstant fun ρ : Str → ℝ => ρ s%"x" + 2 * ρ s%"y" - (ρ s%"y" + 2 * ρ s%"x") := by
    rintro ⟨q, _, h⟩
    have h0 := h fun _ => 0
    have h1 := h fun k => if k = s%"x" then 1 else 0
    simp only [List.cons.injEq, and_true, if_true, show ('y' = 'x') = False by decide, if_false] at h1
    norm_num at h0 h1
    linarith
  constructor
  · intro z q hz hq n verbose
    refine (C111_drawn hz hq hx hy hab hc n verbose).yes (.inl (.inl ?_))
    ring
  · intro ρ hρ h1 h2 n verbose
    have hw : ¬ WithinTolerance (ρ s%"x" + 2 * ρ s%"y") (ρ s%"y" + 2 * ρ s%"x") := by
      rw [h1, h2]
      norm_num [WithinTolerance]
    exact C113_drawn hρ hρ hx hy hab hc hw hw n verbose

/-- The hypotheses of `C113_always` are met by `x+2y` and `y+2x`, which do not agree where `x` is 1 and `y` is 2: they are not judged
equivalent in every run. -/
example : ¬ ∀ ρ τ : Str → ℝ, OnGrid ρ → Sampled τ → ∀ n verbose,
    Always (isEquiv (chanceEnv ρ τ) (n + 2) (some s%"x+2y") (some s%"y+2x") verbose) true := by
  intro h
  let ρ : Str → ℝ := fun k => if k = s%"x" then 1 else 2
  have hρ : OnGrid ρ := fun k => by
    by_cases e : k = s%"x"
    · exact ⟨1, by decide, by simp [ρ, e]⟩
    · exact ⟨2, by decide, by simp [ρ, e]⟩
  have hs : Sampled ρ := fun k => by
    by_cases e : k = s%"x" <;> norm_num [ρ, e]
  have := (h ρ ρ hρ hs 0 false).unique ⟨[], []⟩ (C113_refuted.2 ρ hs (by simp [ρ]) (by simp [ρ]) 0 false)
  simp at this

end Verif.L2S
