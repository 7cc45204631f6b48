import Verif.Props.Constants
import Mathlib.Analysis.SpecialFunctions.Pow.Complex
/-
Complex numbers are judged by their real and imaginary parts (C107): normaliser, `latex2sympy` and comparison together.
-/

namespace Verif
open Re

variable {X V S : Type}

/-- The CAS computes exactly on complex numbers: `Cx v z` says that `i` is the only free symbol of the expression `v`, whose value is
`z` if `i` is the imaginary unit; `Nc v z` that `v` is the number `z`. -/
structure ComplexArith (E : Env X V S) (Is Ev : V → ℝ → Prop) (Cx Nc : V → ℂ → Prop) : Prop where
  numbers : RealArith E Is Ev
  view : ∀ {v z}, Cx v z → E.view v = .expr false
  freeSyms : ∀ {v z}, Cx v z → RetP (E.freeSyms v) fun l => ∃ k, l = [k] ∧ E.symName k = s%"i"
  subsI : ∀ {v z} k, Cx v z → RetP (E.subsI v k) (Nc · z)
  re : ∀ {v z}, Nc v z → RetP (E.re v) (Is · z.re)
  im : ∀ {v z}, Nc v z → RetP (E.im v) (Is · z.im)
  real : ∀ {v} {q : ℝ}, Is v q → Nc v q

/-- the expression is the complex number `z`, written with the symbol `i` or, if it is real, without -/
def Cplx (Is : V → ℝ → Prop) (Cx : V → ℂ → Prop) (v : V) (z : ℂ) : Prop := Cx v z ∨ ∃ q : ℝ, z = q ∧ Is v q

/-- The real parts and the imaginary parts agree within the tolerance, relative to those of the reference. -/
def PartsAgree (z w : ℂ) : Prop := WithinTolerance z.re w.re ∧ WithinTolerance z.im w.im

theorem partsAgree_refl (z : ℂ) : PartsAgree z z := ⟨.inl rfl, .inl rfl⟩

variable {E : Env X V S} {Is Ev : V → ℝ → Prop} {Cx Nc : V → ℂ → Prop} (H : ComplexArith E Is Ev Cx Nc)
include H

open Classical in
/-- The comparison of the real and imaginary parts of two numbers. -/
theorem complexEqual_parts (n : Nat) {gv vv : V} {z w : ℂ} (hg : Nc gv z) (hv : Nc vv w) :
    Always (complexEqual E (areEqual E (n + 1)) gv vv) (decide (PartsAgree z w)) := by
  have hty : ∀ {u q}, Is u q → Always (getType E u) .expr := by
    intro u q h
    unfold getType
    rw [H.numbers.view h]
    exact Always.pure _
  unfold complexEqual
  apply (H.re hg).always.always
  intro gr hgr
  apply (H.im hg).always.always
  intro gi hgi
  apply (H.re hv).always.always
  intro vr hvr
  apply (H.im hv).always.always
  intro vi hvi
  apply (hty hgr).bind
  apply (hty hgi).bind
  apply (hty hvr).bind
  apply (hty hvi).bind
  apply (areEqual_real H.numbers n hgr hvr).bind
  by_cases h1 : WithinTolerance z.re w.re
  · have e : decide (PartsAgree z w) = @decide (WithinTolerance z.im w.im) (Classical.dec _) := by
      by_cases h2 : WithinTolerance z.im w.im <;> simp [PartsAgree, h1, h2]
    rw [e, if_pos (by simpa using h1)]
    exact areEqual_real H.numbers n hgi hvi
  · have e : decide (PartsAgree z w) = false := by simp [PartsAgree, h1]
    rw [e, if_neg (by simpa using h1)]
    exact Always.pure _

/-- What becomes of a complex number before the comparison. -/
theorem exprWithOnlyI_complex {v : V} {z : ℂ} (h : Cplx Is Cx v z) :
    AlwaysP (exprWithOnlyI E v) fun p => Nc p.1 z ∧ (p.2 = false → ∃ q : ℝ, z = q ∧ Is v q) := by
  unfold exprWithOnlyI
  rcases h with h | ⟨q, rfl, h⟩
  · apply (H.freeSyms h).always.bind
    rintro _ ⟨k, rfl, hk⟩
    simp only [hk, if_true]
    apply (H.subsI k h).always.bind
    intro u hu
    exact AlwaysP.pure ⟨hu, by simp⟩
  · apply (H.numbers.freeSyms h).always.bindP
    exact AlwaysP.pure ⟨H.real h, fun _ => ⟨q, rfl, h⟩⟩

open Classical in
/-- The comparison of two complex numbers. -/
theorem areEqual_complex (n : Nat) {gv vv : V} {z w : ℂ} (hg : Cplx Is Cx gv z) (hv : Cplx Is Cx vv w) :
    Always (areEqual E (n + 3) gv vv .expr .expr) (decide (PartsAgree z w)) := by
  by_cases hr : (∃ q : ℝ, z = q ∧ Is gv q) ∧ ∃ q : ℝ, w = q ∧ Is vv q
  · obtain ⟨⟨p, rfl, hp⟩, ⟨q, rfl, hq⟩⟩ := hr
    have e : decide (PartsAgree (p : ℂ) (q : ℂ)) = @decide (WithinTolerance p q) (Classical.dec _) := by
      apply decide_eq_decide.2
      simp only [PartsAgree, Complex.ofReal_re, Complex.ofReal_im]
      exact ⟨And.left, fun h => ⟨h, .inl rfl⟩⟩
    rw [e]
    exact areEqual_real H.numbers (n + 2) hp hq
  · show Always (areEqualBody E (areEqual E (n + 2)) gv vv .expr .expr) _
    unfold areEqualBody
    apply (exprWithOnlyI_complex H hg).always
    rintro ⟨g, b⟩ ⟨hg', hb⟩
    apply (exprWithOnlyI_complex H hv).always
    rintro ⟨v, c⟩ ⟨hv', hc⟩
    have : (b || c) = true := by
      cases b with
      | true => rfl
      | false =>
        cases c with
        | true => rfl
        | false => exact absurd ⟨hb rfl, hc rfl⟩ hr
    simp only [this, if_true]
    exact complexEqual_parts H n hg' hv'

end Verif

namespace Verif.L2S
open Verif Verif.Reading Verif.Grammar

section
variable {X V Y S : Type}

/-- An answer in LaTeX notation whose value is `z` if `i` is the imaginary unit, written in one expression without what has a meaning
of its own to the normaliser. -/
structure CpxText (E : Env X V S) (I : Interp ℂ) (inj : SV → V) (P : V → Prop) (s : Str) (z : ℂ) : Prop where
  tidy : Tidy s
  single : Single s
  notInt : ∀ q, pyFloat E.U s = some q → isIntFloat q = false
  /-- the text denotes the function `f` of its variables, which is `z` where `i` is the imaginary unit; an expression that has the
  value of `f` for all values of the variables is the number `z` to SymPy -/
  denotes : ∃ ws free, ∃ wide : Bool, ∃ f : (Str → ℂ) → ℂ, Written ws s ∧ (∀ ρ, Denotes (I.vars ρ) free wide .expr ws (f ρ)) ∧
    (∀ ρ, ρ s%"i" = Complex.I → f ρ = z) ∧ ∀ v : SV, v.scalar = true → (∀ ρ, den (I.vars ρ) v = f ρ) → P (inj v)
  /-- `parse_expr` raises or gives the same number -/
  parseExpr : ∀ x, (∃ e x', E.parseExpr (replace s%"^" s%"**" s) x = (.error e, x')) ∨
    ∃ v x', E.parseExpr (replace s%"^" s%"**" s) x = (.ok v, x') ∧ P v

/-- Complex answers: decimal literals and texts in LaTeX notation. -/
inductive CpxAnswer (E : Env X V S) (I : Interp ℂ) (inj : SV → V) (Is : V → ℝ → Prop) (Cx : V → ℂ → Prop) : Str → ℂ → Prop
  | literal (l : Literal) : l.Tame → CpxAnswer E I inj Is Cx l.text (l.value : ℂ)
  | text {s z} : CpxText E I inj (Cplx Is Cx · z) s z → CpxAnswer E I inj Is Cx s z

/-- SymPy and `parse_expr` on decimal literals -/
structure ReadsLiterals (E : Env X V S) (I : Interp ℂ) (inj : SV → V) (Is : V → ℝ → Prop) : Prop where
  value : ∀ (l : Literal) (v : SV), v.scalar = true → (∀ ρ, den (I.vars ρ) v = l.value) → Is (inj v) l.value
  parseExpr : ∀ (l : Literal) x, (∃ e x', E.parseExpr (replace s%"^" s%"**" l.text) x = (.error e, x')) ∨
    ∃ v x', E.parseExpr (replace s%"^" s%"**" l.text) x = (.ok v, x') ∧ Is v l.value

variable {E : Env X V S} {L : Lib Y} {I : Interp ℂ} {Is Ev : V → ℝ → Prop} {Cx Nc : V → ℂ → Prop} {inj : SV → V} {N : Nat}

/-- The conversion of a text with a value for all values of the variables. -/
theorem l2s_function (hL : SoundLib I L) (hp : ∀ s t, parseText s = some t → L.parse s = .ok t) (hl : UsesUndeclared E L N inj I.real)
    {s : Str} {free : Str → Prop} {f : (Str → ℂ) → ℂ}
    (hd : ∀ ρ, ∃ ws, ∃ wide : Bool, Written ws s ∧ Denotes (I.vars ρ) free wide .expr ws (f ρ)) {P : V → Prop}
    (hP : ∀ v : SV, v.scalar = true → (∀ ρ, den (I.vars ρ) v = f ρ) → P (inj v)) : RetP (E.l2s s) P := by
  intro x
  obtain ⟨w, ⟨h1, h2, _⟩, he⟩ := hl s x
  have key : ∀ ρ, ∃ v w', latex2sympy L (N + 1) s [] w = (.ok v, w') ∧ v.scalar = true ∧ den (I.vars ρ) v = f ρ := by
    intro ρ
    obtain ⟨ws, wide, hw, hd⟩ := hd ρ
    exact C76_latex2sympy (hL.vars ρ) hp hw hd N [] w ⟨h1, fun n _ => by rw [h2]; rfl⟩
  obtain ⟨v, w', e, hv, _⟩ := key fun _ => 0
  have hden : ∀ ρ, den (I.vars ρ) v = f ρ := by
    intro ρ
    obtain ⟨v', w'', e', _, h'⟩ := key ρ
    rw [e] at e'
    cases e'
    exact h'
  rw [e] at he
  exact ⟨inj v, (E.l2s s x).2, Prod.ext he rfl, hP v hv hden⟩

/-- The normal form of a complex answer is one expression that is read as its value. -/
theorem CpxAnswer.normal (H : ComplexArith E Is Ev Cx Nc) (hL : SoundLib I L) (hp : ∀ s t, parseText s = some t → L.parse s = .ok t)
    (hl : UsesUndeclared E L N inj I.real) (hE : PrintsIntegers E) (hlit : ReadsLiterals E I inj Is) {a : Str} {z : ℂ}
    (h : CpxAnswer E I inj Is Cx a z) (n : Nat) : strip a = a ∧
      ∃ s, Always (stringNormalize E (n + 1) a) (.str s) ∧ Single s ∧ ReadsAs E s (Cplx Is Cx · z) := by
  have hview : ∀ {z} v, Cplx Is Cx v z → ∃ b, E.view v = .expr b := by
    rintro z v (h | ⟨q, _, h⟩)
    · exact ⟨_, H.view h⟩
    · exact ⟨_, H.numbers.view h⟩
  cases h with
  | literal l ht =>
    obtain ⟨b, hb, hn⟩ := normalize_literal E hE l ht n
    refine ⟨literal_strip l, _, hn, literal_single b, ?_⟩
    rw [← hb]
    have hto : ∀ {v}, Is v b.value → Cplx Is Cx v (b.value : ℂ) := fun h => .inr ⟨b.value, by push_cast; rfl, h⟩
    refine sympyParse_real E hview (fun x => ?_) (l2s_function hL hp hl (free := fun _ => False)
      (f := fun _ => (b.value : ℂ)) (fun ρ => ?_) fun v hv hd =>
      hto (hlit.value b v hv hd))
    · rcases hlit.parseExpr b x with h | ⟨v, x', h, h'⟩
      · exact .inl h
      · exact .inr ⟨v, x', h, hto h'⟩
    · obtain ⟨ws, hw, hd⟩ := literal_denotes (I.vars ρ) false b
      exact ⟨ws, false, hw, hd⟩
  | text h =>
    obtain ⟨ws, free, wide, f, hw, hd, _, hP⟩ := h.denotes
    exact ⟨strip_of_no_space _ fun c hc => h.tidy.space hc, a, h.tidy.fixed E n h.notInt, h.single,
      sympyParse_real E hview h.parseExpr (l2s_function hL hp hl (fun ρ => ⟨ws, wide, hw, hd ρ⟩) hP)⟩

open Classical in
/-- **C107.**  Two answers that are complex numbers, written with or without `i`, are judged equivalent exactly if their real parts and
their imaginary parts agree within the tolerance relative to those of the reference.  Missing: the texts excluded from C84. -/
theorem C107_complex_partial (H : ComplexArith E Is Ev Cx Nc) (hL : SoundLib I L)
    (hp : ∀ s t, parseText s = some t → L.parse s = .ok t) (hl : UsesUndeclared E L N inj I.real) (hE : PrintsIntegers E)
    (hlit : ReadsLiterals E I inj Is) {s t : Str} {z w : ℂ} (hs : CpxAnswer E I inj Is Cx s z) (ht : CpxAnswer E I inj Is Cx t w)
    (n : Nat) (verbose : Bool) : Always (isEquiv E (n + 4) (some s) (some t) verbose) (decide (PartsAgree z w)) := by
  obtain ⟨sa, x, na, hx, rx⟩ := hs.normal H hL hp hl hE hlit (n + 2)
  obtain ⟨sb, y, nb, hy, ry⟩ := ht.normal H hL hp hl hE hlit (n + 2)
  have hty : ∀ {u z}, Cplx Is Cx u z → Always (getType E u) .expr := by
    intro u q h
    unfold getType
    rcases h with h | ⟨q, _, h⟩
    · rw [H.view h]
      exact Always.pure _
    · rw [H.numbers.view h]
      exact Always.pure _
  have cmp : ∀ {g v z w}, Cplx Is Cx g z → Cplx Is Cx v w → Always (eqTyped E (areEqual E (n + 3)) g v) (decide (PartsAgree z w)) := by
    intro g v z w hg hv
    unfold eqTyped
    apply (hty hg).bind
    apply (hty hv).bind
    exact areEqual_complex H n hg hv
  refine isEquiv_by_cas (n + 3) sa sb na nb hx hy (areEqualUnderSympy_by rx ry (fun _ _ hg hv => cmp hg hv) verbose)
    (areEqualUnderSympy_by rx rx (fun _ _ hg hv => ?_) verbose)
  have := cmp hg hv
  rwa [decide_eq_true (partsAgree_refl z)] at this

end

/-! ### The hypotheses are met: complex numbers -/

/-- Functions over the complex numbers. -/
noncomputable def complexFn (f : Str) : List ℂ → ℂ
  | [x] =>
    if f = s%"1/" then x⁻¹ else if f = s%"exp" then Complex.exp x else if f = s%"sin" then Complex.sin x
    else if f = s%"cos" then Complex.cos x else if f = s%"tan" then Complex.tan x else if f = s%"Abs" then ‖x‖
    else 0
  | _ => 0

/-- The complex numbers; operators with a bound variable are not interpreted. -/
noncomputable def complexes : Interp ℂ where
  sym _ _ := 0
  real := none
  const n := if n = s%"pi" then Real.pi else if n = s%"E" then Complex.exp 1 else 0
  pw x y := x ^ y
  pw_neg_one x := Complex.cpow_neg_one x
  fn := complexFn
  binder _ _ _ := 0

theorem complexes_sound : SoundLib complexes grammarLib where
  call τ f hf args h y := ⟨.fn f args, y, by simp [grammarLib, nodeLib, binderNode_call hf h], by
    simpa [SV.scalar] using h, by rw [den]; rfl⟩
  inv τ a h _ y := ⟨.fn s%"1/" [a], y, by simp [grammarLib, nodeLib, binderNode], by
    simp [SV.scalar, SV.scalars, h], by
    rw [den, denList, denList]; simp [complexes, complexFn, Interp.at]⟩
  bind τ {f args op n r b as} hc hb has y := ⟨.binder op n r b as, y, by simp [grammarLib, nodeLib, hc.node], by
    simp [SV.scalar, hb, has], by rw [den]; rfl⟩

/-- functions of the value of `i`, and lists -/
inductive CV where
  | fn (f : ℂ → ℂ)
  | list (xs : List CV)

/-- the value of a constant -/
noncomputable def CV.val : CV → ℂ
  | .fn f => f 0
  | _ => 0

/-- the expression is this number -/
def IsCpx (v : CV) (z : ℂ) : Prop := v = .fn fun _ => z

/-- the expression is this real number -/
def IsRe (v : CV) (q : ℝ) : Prop := IsCpx v q

/-- the expression contains the symbol `i` and has this value if it is the imaginary unit -/
def WithI (v : CV) (z : ℂ) : Prop := ∃ f : ℂ → ℂ, v = .fn f ∧ f Complex.I = z ∧ ∃ s t, f s ≠ f t

/-- an expression as a function of the value of `i` -/
noncomputable def asCpx (v : SV) : CV := .fn fun t => den (complexes.vars fun _ => t) v

open Classical in
/-- A CAS that computes with complex numbers, with the modelled `latex2sympy` right after its import; the other parsers raise. -/
noncomputable def cpxEnv : Env Unit CV Unit where
  U := asciiUni
  setOrder := dedup
  setOrder_perm _ := List.Perm.refl _
  view v := match v with
    | .list xs => .list xs
    | v => .expr (decide (∃ z, IsCpx v z ∧ z.im ≠ 0))
  ofList := .list
  view_ofList _ := rfl
  symName k := k
  emptySet := ()
  l2s s x := ((latex2sympy grammarLib 1 s [] ⟨⟨Globals.init, x⟩, []⟩).1.map asCpx, x)
  parseLatex _ := raises
  parseExpr _ := raises
  str v := gives (if h : ∃ z : ℤ, IsCpx v z then intStr h.choose else [])
  truth v := gives (decide (v.val ≠ 0))
  eqv v w := gives (decide (v = w))
  inv v := gives v
  isNamedFunction _ := gives false
  isSymbol _ := gives false
  isNumber v := gives (decide (∃ z, IsCpx v z))
  isZeroExpr v := gives (decide (IsCpx v 0))
  isZeroMatrix _ := gives false
  isInteger v := gives (decide (IsCpx v 0))
  sub v w := match v, w with
    | .fn f, .fn g => gives (.fn fun t => f t - g t)
    | _, _ => raises
  neg v := gives v
  div v w := gives (.fn fun _ => v.val / w.val)
  abs v := gives (.fn fun _ => (‖v.val‖ : ℂ))
  re v := gives (.fn fun _ => (v.val.re : ℂ))
  im v := gives (.fn fun _ => (v.val.im : ℂ))
  ltThr v r := gives (.fn fun _ => if v.val.re < (r : ℝ) then 1 else 0)
  ge1 v := gives (decide (1 ≤ v.val.re))
  gt0 v := gives (decide (0 < v.val.re))
  evalf v := gives v
  evalfAt v _ := gives v
  expandEq v w := gives (decide (v = w))
  simplify v := gives v
  freeSyms v := gives (if ∃ z, IsCpx v z then [] else [s%"i"])
  subsI v _ := match v with
    | .fn f => gives (.fn fun _ => f Complex.I)
    | _ => raises
  randint := gives (.fn fun _ => 2)
  uniform := gives (.fn fun _ => 5 / 2)
  mkMatrix v := gives v
  transpose v := gives v
  isIntNum v := gives (decide (∃ z : ℤ, IsCpx v z))
  toInteger v := gives v
  gtV v w := gives (decide (v.val.re > w.val.re))
  interval _ _ _ _ := gives ()
  isEmptySet _ := gives true
  intersect _ _ := gives ()
  union _ _ := gives ()
  compareEq _ _ := gives true

theorem IsCpx.unique {v : CV} {z w : ℂ} (h : IsCpx v z) : IsCpx v w ↔ z = w := by
  subst h
  simp only [IsCpx, CV.fn.injEq]
  constructor
  · intro e; exact congrFun e 0
  · rintro rfl; rfl

theorem IsCpx.val {v : CV} {z : ℂ} (h : IsCpx v z) : v.val = z := by subst h; rfl

theorem IsRe.re {v : CV} {q : ℝ} (h : IsRe v q) : v.val.re = q := by rw [IsCpx.val h, Complex.ofReal_re]

theorem IsRe.zero {v : CV} {q : ℝ} (h : IsRe v q) : IsCpx v 0 ↔ q = 0 := by rw [IsCpx.unique h, Complex.ofReal_eq_zero]

theorem WithI.notConst {v : CV} {z : ℂ} (h : WithI v z) : ¬ ∃ w, IsCpx v w := by
  rintro ⟨w, hw⟩
  obtain ⟨f, rfl, _, s, t, hne⟩ := h
  simp only [IsCpx, CV.fn.injEq] at hw
  rw [hw] at hne
  exact hne rfl

theorem cpxEnv_numbers : RealArith cpxEnv IsRe IsRe where
  view {v q} h := by
    have : ¬ ∃ z, IsCpx v z ∧ z.im ≠ 0 := by
      rintro ⟨z, hz, hi⟩
      rw [← (IsCpx.unique h).1 hz] at hi
      simp at hi
    cases h
    simp only [cpxEnv, this, decide_false]
  freeSyms {v q} h := fun x => ⟨x, by
    have : ∃ z, IsCpx v z := ⟨_, h⟩
    simp only [cpxEnv, gives, this, if_true]⟩
  isNumber {v q} h := fun x => ⟨x, by
    have : ∃ z, IsCpx v z := ⟨_, h⟩
    simp only [cpxEnv, gives, this, decide_true]⟩
  evalf {v q} h := fun x => ⟨v, x, rfl, h⟩
  ev h := h
  expandEq {a b p q} ha hb := fun x => ⟨x, by
    have : a = b ↔ p = q := by
      constructor
      · rintro rfl; exact_mod_cast (IsCpx.unique ha).1 hb
      · rintro rfl; exact Eq.trans ha hb.symm
    simp only [cpxEnv, gives, this]⟩
  sub {a b p q} ha hb := fun x => ⟨.fn fun _ => (p : ℂ) - q, x, by cases ha; cases hb; rfl, by
    show CV.fn _ = CV.fn _
    push_cast
    rfl⟩
  isZero {v q} h := fun x => ⟨x, by simp only [cpxEnv, gives, h.zero]⟩
  isInteger {v q} h := fun x => ⟨x, by simp only [cpxEnv, gives, h.zero]⟩
  abs {v q} h := fun x => ⟨_, x, rfl, by
    rw [IsCpx.val h, Complex.norm_real]
    rfl⟩
  ltThr {v q} r h := fun x => ⟨_, x, rfl, fun y => ⟨y, by
    have h := h.re
    simp only [cpxEnv, gives, h]
    by_cases hq : q < (r : ℝ) <;> simp [hq, CV.val]⟩⟩
  ge1 {v q} h := fun x => ⟨x, by simp only [cpxEnv, gives, h.re]⟩
  gt0 {v q} h := fun x => ⟨x, by simp only [cpxEnv, gives, h.re]⟩
  div {a b p q} ha hb _ := fun x => ⟨_, x, rfl, by
    rw [IsCpx.val ha, IsCpx.val hb]
    show CV.fn _ = CV.fn _
    push_cast
    rfl⟩

theorem cpxEnv_arith : ComplexArith cpxEnv IsRe IsRe WithI IsCpx where
  numbers := cpxEnv_numbers
  view {v z} h := by
    have : ¬ ∃ z, IsCpx v z ∧ z.im ≠ 0 := fun ⟨w, hw, _⟩ => h.notConst ⟨w, hw⟩
    obtain ⟨f, rfl, _⟩ := h
    simp only [cpxEnv, this, decide_false]
  freeSyms {v z} h := fun x => ⟨[s%"i"], x, by simp only [cpxEnv, gives, h.notConst, if_false], s%"i", rfl, rfl⟩
  subsI {v z} k h := fun x => by
    obtain ⟨f, rfl, hf, _⟩ := h
    exact ⟨_, x, rfl, by rw [hf]; rfl⟩
  re {v z} h := fun x => ⟨_, x, rfl, by rw [IsCpx.val h]; rfl⟩
  im {v z} h := fun x => ⟨_, x, rfl, by rw [IsCpx.val h]; rfl⟩
  real h := h

theorem cpxEnv_uses : UsesUndeclared cpxEnv grammarLib 0 asCpx complexes.real := by
  intro s x
  refine ⟨⟨⟨Globals.init, x⟩, []⟩, ⟨rfl, rfl, rfl⟩, ?_⟩
  simp only [cpxEnv]

theorem cpxEnv_literals : ReadsLiterals cpxEnv complexes asCpx IsRe where
  value l v hv h := by
    show CV.fn _ = CV.fn _
    congr 1
    funext t
    rw [h]
    push_cast
    rfl
  parseExpr l x := .inl ⟨_, x, rfl⟩

theorem cpxEnv_prints : PrintsIntegers cpxEnv := by
  intro z x
  right
  have key : RetP (cpxEnv.l2s (intStr z)) (IsCpx · z) := by
    refine l2s_function complexes_sound grammarLib_parse cpxEnv_uses (free := fun _ => False) (f := fun _ => (z : ℂ)) (fun ρ => ?_) ?_
    · obtain ⟨ws, hw, hd⟩ := literal_denotes (complexes.vars ρ) false (Literal.ofInt z)
      rw [Literal.ofInt_text] at hw
      rw [Literal.ofInt_value] at hd
      exact ⟨ws, false, hw, by simpa using hd⟩
    · intro v _ h
      show CV.fn _ = CV.fn _
      congr 1
      funext t
      exact h _
  obtain ⟨v, x', e, hv⟩ := key x
  have h : ∃ z : ℤ, IsCpx v z := ⟨z, hv⟩
  have hz : h.choose = z := by
    have := (IsCpx.unique hv).1 h.choose_spec
    exact_mod_cast this.symm
  refine ⟨v, x', x', e, ?_⟩
  simp only [cpxEnv, gives]
  rw [dif_pos h, hz]

/-- a text as an answer to be judged by `cpxEnv`: it contains `i`, or its value is real -/
theorem cpx_of {s : Str} {ws : List Sign} {f : ℂ → ℂ} {z : ℂ} (ht : tidyB s = true) (hs : singleB s = true)
    (hf : (pyFloat asciiUni s).isNone = true) (hw : writtenB ws s = true)
    (hd : ∀ ρ, Denotes (complexes.vars ρ) (fun _ => True) false .expr ws (f (ρ s%"i"))) (hz : f Complex.I = z)
    (hi : ∃ s t, f s ≠ f t) : CpxAnswer cpxEnv complexes asCpx IsRe WithI s z :=
  .text ⟨tidyB_sound ht, singleB_sound hs, fun q hq => by
      rw [show pyFloat cpxEnv.U s = none from Option.isNone_iff_eq_none.1 hf] at hq
      exact (nomatch hq),
    ⟨ws, _, false, fun ρ => f (ρ s%"i"), writtenB_sound hw, hd, fun ρ hρ => by show f (ρ s%"i") = z; rw [hρ, hz], fun v hv h =>
      .inl ⟨f, congrArg CV.fn (funext fun t => h fun _ => t), hz, hi⟩⟩, fun x => .inl ⟨_, x, rfl⟩⟩

open Classical in
/-- `cpxEnv` judges complex numbers. -/
theorem cpxEnv_judges {s t : Str} {z w : ℂ} (hs : CpxAnswer cpxEnv complexes asCpx IsRe WithI s z)
    (ht : CpxAnswer cpxEnv complexes asCpx IsRe WithI t w) (n : Nat) (verbose : Bool) :
    Always (isEquiv cpxEnv (n + 4) (some s) (some t) verbose) (decide (PartsAgree z w)) :=
  C107_complex_partial cpxEnv_arith complexes_sound grammarLib_parse cpxEnv_uses cpxEnv_prints cpxEnv_literals hs ht n verbose

open Classical in
theorem cpxEnv_same {s t : Str} {z w : ℂ} (hs : CpxAnswer cpxEnv complexes asCpx IsRe WithI s z)
    (ht : CpxAnswer cpxEnv complexes asCpx IsRe WithI t w) (h : PartsAgree z w) (n : Nat) (verbose : Bool) :
    Always (isEquiv cpxEnv (n + 4) (some s) (some t) verbose) true := by
  have := cpxEnv_judges hs ht n verbose
  rwa [decide_eq_true h] at this

open Classical in
theorem cpxEnv_apart {s t : Str} {z w : ℂ} (hs : CpxAnswer cpxEnv complexes asCpx IsRe WithI s z)
    (ht : CpxAnswer cpxEnv complexes asCpx IsRe WithI t w) (h : ¬ PartsAgree z w) (n : Nat) (verbose : Bool) :
    Always (isEquiv cpxEnv (n + 4) (some s) (some t) verbose) false := by
  have := cpxEnv_judges hs ht n verbose
  rwa [decide_eq_false h] at this

/-- the value of `i` -/
theorem i_denotes (ρ : Str → ℂ) : Denotes (complexes.vars ρ) (fun _ => True) false (.base ⟨false, true⟩) [.letter 'i'] (ρ s%"i") :=
  .letter (.latin (by decide)) trivial

/-- a numeral times `i` -/
theorem times_i (ρ : Str → ℂ) {ws : List Sign} {q : ℚ} (h : Reading.Numeral ws q) :
    Denotes (complexes.vars ρ) (fun _ => True) false (.term false) (ws ++ [.letter 'i']) (q * ρ s%"i") :=
  .signed (.product (.juxt (o := false) (w := .letter 'i') (vs := []) (.power (.base (.number h)))
    (.factor (.power (.base (i_denotes ρ)))) (by constructor <;> simp)))

/-- a numeral -/
theorem numeral_cpx (ρ : Str → ℂ) {ws : List Sign} {q : ℚ} (h : Reading.Numeral ws q) :
    Denotes (complexes.vars ρ) (fun _ => True) false .expr ws (q : ℂ) :=
  .term (o := false) (.signed (.product (.factor (.power (.base (.number h))))))

theorem digit_cpx (d : Fin 10) : (((d.val : ℕ) : ℚ) : ℂ) = (d.val : ℂ) := by push_cast; rfl

/-- `2+3i` -/
theorem sum_cpx : CpxAnswer cpxEnv complexes asCpx IsRe WithI s%"2+3i" ⟨2, 3⟩ := by
  refine cpx_of (ws := [.digit 2] ++ .mark '+' :: ([.digit 3] ++ [.letter 'i'])) (f := fun t => 2 + 3 * t) (by decide +kernel)
    (by decide +kernel) (by decide +kernel) (by decide +kernel) (fun ρ => ?_) ?_ ⟨0, 1, by norm_num⟩
  · have := Denotes.add (numeral_cpx ρ (num1 2)) (times_i ρ (num1 3))
    norm_num at this ⊢
    exact this
  · apply Complex.ext <;> simp

/-- `3i+2` -/
theorem sum_cpx' : CpxAnswer cpxEnv complexes asCpx IsRe WithI s%"3i+2" ⟨2, 3⟩ := by
  refine cpx_of (ws := ([.digit 3] ++ [.letter 'i']) ++ .mark '+' :: [.digit 2]) (f := fun t => 3 * t + 2) (by decide +kernel)
    (by decide +kernel) (by decide +kernel) (by decide +kernel) (fun ρ => ?_) ?_ ⟨0, 1, by norm_num⟩
  · have := Denotes.add (o := false) (.term (times_i ρ (num1 3))) (.signed (.product (.factor (.power (.base (.number (num1 2)))))))
    norm_num at this ⊢
    exact this
  · apply Complex.ext <;> simp

/-- `2-3i` -/
theorem diff_cpx : CpxAnswer cpxEnv complexes asCpx IsRe WithI s%"2-3i" ⟨2, -3⟩ := by
  refine cpx_of (ws := [.digit 2] ++ .mark '-' :: ([.digit 3] ++ [.letter 'i'])) (f := fun t => 2 - 3 * t) (by decide +kernel)
    (by decide +kernel) (by decide +kernel) (by decide +kernel) (fun ρ => ?_) ?_ ⟨0, 1, by norm_num⟩
  · have := Denotes.sub (numeral_cpx ρ (num1 2)) (times_i ρ (num1 3))
    norm_num at this ⊢
    exact this
  · apply Complex.ext <;> simp

/-- `i^{2}` is -1. -/
theorem square_cpx : CpxAnswer cpxEnv complexes asCpx IsRe WithI s%"i^{2}" ((-1 : ℤ) : ℂ) := by
  refine cpx_of (ws := .letter 'i' :: .mark '^' :: (.mark '{' :: [.digit 2] ++ [.mark '}'])) (f := fun t => t ^ 2) (by decide +kernel)
    (by decide +kernel) (by decide +kernel) (by decide +kernel) (fun ρ => ?_) (by simp) ⟨0, 1, by norm_num⟩
  have h1 := Denotes.letterPow (I := complexes.vars ρ) (free := fun _ => True) (wide := ((false : Bool) : Style)) (w := .letter 'i')
    (n := s%"i") (.latin (by decide)) trivial (.expBraces (numeral_cpx ρ (num1 2)))
  have h3 := Denotes.term (o := false) (.signed (.product (.factor (.power (.base h1)))))
  have e : (complexes.vars ρ).pw ((complexes.vars ρ).var s%"i") (((((2 : Fin 10).val : ℕ) : ℚ)) : ℂ) = ρ s%"i" ^ 2 := by
    show ρ s%"i" ^ (_ : ℂ) = _
    have : ((((2 : Fin 10).val : ℕ) : ℚ) : ℂ) = ((2 : ℕ) : ℂ) := by norm_num
    rw [this, Complex.cpow_natCast]
  rw [e] at h3
  exact h3

/-- integers of at most 53 bits -/
theorem integer_cpx (z : ℤ) (hz : z.natAbs ≤ 2 ^ 53) : CpxAnswer cpxEnv complexes asCpx IsRe WithI (intStr z) z := by
  have := CpxAnswer.literal (E := cpxEnv) (I := complexes) (inj := asCpx) (Is := IsRe) (Cx := WithI) (Literal.ofInt z)
    (.inl ⟨z.natAbs, by simp [Literal.mag, Literal.ofInt, decVal_natStr], hz⟩)
  rw [Literal.ofInt_value, Literal.ofInt_text] at this
  simpa using this

/-- `2+3i` and `3i+2` are judged equivalent. -/
example (n : Nat) (verbose : Bool) : Always (isEquiv cpxEnv (n + 4) (some s%"2+3i") (some s%"3i+2") verbose) true :=
  cpxEnv_same sum_cpx sum_cpx' (partsAgree_refl _) n verbose

/-- `2+3i` and `2-3i` are not. -/
example (n : Nat) (verbose : Bool) : Always (isEquiv cpxEnv (n + 4) (some s%"2+3i") (some s%"2-3i") verbose) false := by
  refine cpxEnv_apart sum_cpx diff_cpx ?_ n verbose
  rintro ⟨_, h⟩
  norm_num [WithinTolerance, abs_of_pos] at h

/-- `-1` and `i^{2}` are judged equivalent. -/
example (n : Nat) (verbose : Bool) : Always (isEquiv cpxEnv (n + 4) (some s%"-1") (some s%"i^{2}") verbose) true := by
  have h := integer_cpx (-1) (by decide)
  rw [show intStr (-1) = s%"-1" by decide +kernel] at h
  exact cpxEnv_same h square_cpx (partsAgree_refl _) n verbose

/-- `2+0.0004i` -/
theorem small_cpx : CpxAnswer cpxEnv complexes asCpx IsRe WithI s%"2+0.0004i" ⟨2, 4 / 10000⟩ := by
  refine cpx_of (ws := [.digit 2] ++ .mark '+' :: ([.digit 0, .mark '.', .digit 0, .digit 0, .digit 0, .digit 4] ++ [.letter 'i']))
    (f := fun t => 2 + 4 / 10000 * t) (by decide +kernel)
    (by decide +kernel) (by decide +kernel) (by decide +kernel) (fun ρ => ?_) ?_ ⟨0, 1, by norm_num⟩
  · have := Denotes.add (numeral_cpx ρ (num1 2)) (times_i ρ (.point (ip := [0]) (fp := [0, 0, 0, 4]) (by simp)))
    rw [show intPart [0] + fracPart [0, 0, 0, 4] = (4 / 10000 : ℚ) by norm_num [intPart, fracPart]] at this
    norm_num at this ⊢
    exact this
  · apply Complex.ext <;> simp

/-- **C107**, refuted as a comparison of complex numbers: a small imaginary part is ignored in the prediction, but not in the reference:
with the reference `2` the prediction `2+0.0004i` is accepted, with the reference `2+0.0004i` the prediction `2` is rejected. -/
theorem C107_parts_refuted (n : Nat) (verbose : Bool) :
    Always (isEquiv cpxEnv (n + 4) (some s%"2") (some s%"2+0.0004i") verbose) true ∧
    Always (isEquiv cpxEnv (n + 4) (some s%"2+0.0004i") (some s%"2") verbose) false := by
  have h := integer_cpx 2 (by decide)
  rw [show intStr 2 = s%"2" by decide +kernel] at h
  constructor
  · refine cpxEnv_same h small_cpx ⟨.inl (by simp), .inr (.inl ⟨by simp, ?_⟩)⟩ n verbose
    norm_num [abs_of_pos]
  · refine cpxEnv_apart small_cpx h ?_ n verbose
    rintro ⟨_, h⟩
    norm_num [WithinTolerance, abs_of_pos] at h

/-- `x+i^{2}` is read as a function of `x` and `i`. -/
theorem both_answer : FunAnswer funEnv reals asFun IsFun s%"x+i^{2}" [s%"x", s%"i"] fun ρ => ρ s%"x" + ρ s%"i" ^ 2 := by
  refine funAnswer_of (ws := [.letter 'x'] ++ .mark '+' :: (.letter 'i' :: .mark '^' :: (.mark '{' :: [.digit 2] ++ [.mark '}'])))
    (by decide +kernel) (singleB_sound (by decide +kernel)) ?_ (by decide +kernel) ?_ ?_ (by simp) (by simp)
  · intro f hf
    rw [pyFloat_none '{' (by simp) (by decide)] at hf
    cases hf
  · intro ρ
    have hx : Denotes (reals.vars ρ) (fun _ => True) false .expr [.letter 'x'] (ρ s%"x") :=
      .term (o := false) (.signed (.product (.factor (.power (.base (var_denotes ρ (c := 'x') (by decide)))))))
    have h1 := Denotes.letterPow (I := reals.vars ρ) (free := fun _ => True) (wide := ((false : Bool) : Style)) (w := .letter 'i')
      (n := s%"i") (.latin (by decide)) trivial
      (.expBraces (.term (o := false) (.signed (.product (.factor (.power (.base (dig_denotes ρ 2))))))))
    have h3 := Denotes.add (o := false) hx (.signed (.product (.factor (.power (.base h1)))))
    have e : (reals.vars ρ).pw ((reals.vars ρ).var s%"i") (((((2 : Fin 10).val : ℕ) : ℚ)) : ℝ) = ρ s%"i" ^ 2 := by
      show ρ s%"i" ^ (_ : ℝ) = _
      have : ((((2 : Fin 10).val : ℕ) : ℚ) : ℝ) = ((2 : ℕ) : ℝ) := by norm_num
      rw [this, Real.rpow_natCast]
    rw [e] at h3
    exact h3
  · refine ⟨fun ρ ρ' h => by simp only [h s%"x" (by simp), h s%"i" (by simp)], ?_⟩
    intro k hk
    simp only [List.mem_cons, List.not_mem_nil, or_false] at hk
    rcases hk with rfl | rfl
    · exact ⟨fun _ => 0, fun j => if j = s%"x" then 1 else 0, fun j hj => by simp [hj], by simp⟩
    · exact ⟨fun _ => 0, fun j => if j = s%"i" then 1 else 0, fun j hj => by simp [hj], by simp⟩

/-- `x-1` is the function `x-1`. -/
theorem pred_answer : FunAnswer funEnv reals asFun IsFun s%"x-1" [s%"x"] fun ρ => ρ s%"x" - 1 := by
  refine funAnswer_of (ws := [.letter 'x'] ++ .mark '-' :: [.digit 1]) (by decide +kernel) (singleB_sound (by decide +kernel)) ?_
    (by decide +kernel) ?_ ?_ (by simp) (by simp)
  · intro f hf
    have h0 := Option.isNone_iff_eq_none.1 (show (pyFloat asciiUni s%"x-1").isNone = true by decide +kernel)
    rw [show pyFloat funEnv.U s%"x-1" = none from h0] at hf
    cases hf
  · intro ρ
    have hx : Denotes (reals.vars ρ) (fun _ => True) false .expr [.letter 'x'] (ρ s%"x") :=
      .term (o := false) (.signed (.product (.factor (.power (.base (var_denotes ρ (c := 'x') (by decide)))))))
    have h3 := Denotes.sub (o := false) hx (.signed (.product (.factor (.power (.base (dig_denotes ρ 1))))))
    norm_num at h3 ⊢
    exact h3
  · refine ⟨fun ρ ρ' h => by simp only [h s%"x" (by simp)], ?_⟩
    intro k hk
    simp only [List.mem_singleton] at hk
    subst hk
    exact ⟨fun _ => 0, fun j => if j = s%"x" then 1 else 0, fun j hj => by simp [hj], by norm_num⟩

/-- **C107**, refuted for answers with further variables: there `i` is not the imaginary unit, and `x+i^{2}` and `x-1` are never judged
equivalent. -/
theorem C107_variables_refuted (n : Nat) (verbose : Bool) :
    Always (isEquiv funEnv (n + 2) (some s%"x+i^{2}") (some s%"x-1") verbose) false := by
  refine C94_apart_partial funEnv_arith (nodeLib_sound _ none _) grammarLib_parse funEnv_uses both_answer pred_answer ?_ (.inl ?_) n verbose
  · rintro ⟨q, _, h⟩
    have h0 := h fun _ => 0
    have h1 := h fun _ => 1
    norm_num at h0 h1
    linarith
  · intro h
    simpa using (h s%"i").1

end Verif.L2S
