import Verif.Props.Measures
import Verif.Props.Evidence
/-
Inequalities, chains, equations and plain expressions against each other, from the text to the verdict (C117).
-/

namespace Verif

section
variable {X V S : Type}

/-- The text is not judged equal to another if no comparison of candidates can give `True`. -/
theorem areEqualUnderSympy_never {E : Env X V S} {s t : Str} {P Q : V → Prop} (hs : ReadsAs E s P) (ht : ReadsAs E t Q) {n : Nat}
    (h : ∀ g v, P g → Q v → Safe (eqTyped E (areEqual E n) g v) (· = false)) (verbose : Bool) :
    Always (areEqualUnderSympy E n s t verbose) false := by
  have hw : Safe (areEqualWithSimplify E n s t verbose) (· = false) := by
    unfold areEqualWithSimplify
    refine Safe.bind hs.safe ?_
    rintro gs ⟨hg, _⟩
    refine Safe.bind ht.safe ?_
    rintro vs ⟨hv, _⟩
    have main : Safe (candsOuter (eqTyped E (areEqual E n)) gs vs) (· = false) := by
      intro w b w' hb
      cases b with
      | false => rfl
      | true =>
        obtain ⟨g, v, mg, mv, u, u', hr⟩ := candsOuter_true _ _ _ _ _ hb
        exact h g v (hg g mg) (hv v mv) u true u' hr
    cases verbose with
    | false => exact main
    | true => exact Safe.bind (Safe.any _) fun _ _ => Safe.bind (Safe.any _) fun _ _ => main
  have := hw.caught (k := fun _ => pure false) fun _ => AlwaysP.pure rfl
  intro w
  obtain ⟨b, w', e, rfl⟩ := this w
  exact ⟨w', e⟩

theorem AlwaysRaises.safe {α : Type} {e : Ext X α} (h : AlwaysRaises e) (P : α → Prop) : Safe (M.ext e) P := by
  intro w a w' ha
  obtain ⟨r, w'', hr⟩ := h.fails w
  rw [hr] at ha
  cases ha

theorem Fails.safe {α : Type} {m : M X α} (h : Fails m) (P : α → Prop) : Safe m P := by
  intro w a w' ha
  obtain ⟨r, w'', hr⟩ := h w
  rw [hr] at ha
  cases ha

/-- Whatever values the variables get, what comes out has no difference from anything. -/
def NoNumber (E : Env X V S) (v : V) : Prop :=
  ∀ σ, IfOk (E.evalfAt v σ) fun u => ∀ w, AlwaysRaises (E.sub u w) ∧ AlwaysRaises (E.sub w u)

theorem evalfAt_safe {E : Env X V S} {v : V} {σ : List (Str × V)} {P : V → Prop} (h : IfOk (E.evalfAt v σ) P) :
    Safe (sympyEvalfAt E v σ) fun o => ∀ u, o = some u → P u := by
  unfold sympyEvalfAt
  refine Safe.tryExcept (fun e => Safe.bind (Safe.any _) fun _ _ => Safe.pure fun _ h => by cases h) ?_
  refine Safe.bind h.safe fun u hu => Safe.pure ?_
  rintro _ ⟨⟩
  exact hu

/-- The sampling does not accept what has no differences. -/
theorem sampleLoop_noNumber {E : Env X V S} {g v : V} (h : NoNumber E g ∨ NoNumber E v) (rng : Ext X V) (syms : List Str) (n : Nat) :
    Safe (sampleLoop E g v rng syms (n + 1)) (· = false) := by
  unfold sampleLoop
  refine Safe.bind (Safe.any _) fun σ _ => ?_
  rcases h with h | h
  · refine Safe.bind (evalfAt_safe (h σ)) fun a ha => Safe.bind (Safe.any _) fun b _ => ?_
    match a, b with
    | some a, some b => exact Safe.bind (Q := fun _ => False) ((ha a rfl b).1.safe _) fun _ h => h.elim
    | none, _ => exact Safe.pure rfl
    | some _, none => exact Safe.pure rfl
  · refine Safe.bind (Safe.any _) fun a _ => Safe.bind (evalfAt_safe (h σ)) fun b hb => ?_
    match a, b with
    | some a, some b => exact Safe.bind (Q := fun _ => False) ((hb b rfl a).2.safe _) fun _ h => h.elim
    | none, _ => exact Safe.pure rfl
    | some _, none => exact Safe.pure rfl

theorem numericStage_noNumber {E : Env X V S} {g v : V} (h : NoNumber E g ∨ NoNumber E v) :
    Safe (numericStage E g v) (· = false) := by
  have key : ∀ rng, Safe (numericalEqual E g v rng) (· = false) := by
    intro rng
    unfold numericalEqual
    refine Safe.bind (Safe.any _) fun a _ => Safe.bind (Safe.any _) fun b _ => Safe.ite (Safe.pure rfl) ?_
    exact Safe.bind (Safe.any _) fun c _ => sampleLoop_noNumber h rng c 9
  unfold numericStage
  refine Safe.tryExcept (fun _ => Safe.pure rfl) (Safe.bind (Safe.any _) fun a _ => Safe.bind (Safe.any _) fun b _ => ?_)
  refine Safe.ite ?_ (Safe.pure rfl)
  refine Safe.bind (key _) ?_
  rintro _ rfl
  exact key _

/-- What becomes of a value before plain expressions are compared. -/
def Evaluated (E : Env X V S) (v : V) (P : V → Prop) : Prop := Safe (evalIfNumber E v) fun o => ∀ u, o = some u → P u

/-- The comparison of plain expressions does not accept two values that have no difference and do not expand to the same. -/
theorem scalarEqual_never {E : Env X V S} {g v : V} {P Q : V → Prop} (hg : Evaluated E g P) (hv : Evaluated E v Q)
    (hx : ∀ a b, P a → Q b → IfOk (E.expandEq a b) (· = false)) (hs : ∀ a b, P a → Q b → AlwaysRaises (E.sub a b))
    (hn : ∀ a b, P a → Q b → NoNumber E a ∨ NoNumber E b) : Safe (scalarEqual E g v) (· = false) := by
  unfold scalarEqual
  refine Safe.bind hg fun a ha => Safe.bind hv fun b hb => ?_
  match a, b with
  | some a, some b =>
    have pa := ha a rfl
    have qb := hb b rfl
    refine Safe.bind (Q := (· = false)) ?_ ?_
    · exact Safe.tryExcept (fun _ => Safe.bind (Safe.any _) fun _ _ => Safe.pure rfl) (hx a b pa qb).safe
    rintro _ rfl
    refine Safe.bind (Q := (· = Cond.lit false)) ?_ ?_
    · refine Safe.tryExcept (fun _ => Safe.pure rfl) ?_
      exact Safe.bind (Q := fun _ => False) ((hs a b pa qb).safe _) fun _ h => h.elim
    rintro _ rfl
    refine Safe.bind (Q := (· = false)) (Safe.pure rfl) ?_
    rintro _ rfl
    exact numericStage_noNumber (hn a b pa qb)
  | none, _ => exact Safe.bind (Safe.any _) fun _ _ => Safe.pure rfl
  | some _, none => exact Safe.bind (Safe.any _) fun _ _ => Safe.pure rfl

end

end Verif

namespace Verif.L2S
open Verif Verif.Reading Verif.Grammar

section
variable {X V S : Type}

/-- SymPy on relations: they are not numbers, they and what they become when values are put in for the variables have no differences from
anything, and they do not expand to what an expression expands to.  Expressions evaluate to expressions. -/
structure RelationsApart (E : Env X V S) (inj : SV → V) : Prop extends NoArithmetic E inj where
  isNumber : ∀ op l r, IfOk (E.isNumber (inj (.rel op l r))) (· = false)
  evalfAt : ∀ op l r, NoNumber E (inj (.rel op l r))
  expand : ∀ op l r w b, E.view w = .expr b → IfOk (E.expandEq (inj (.rel op l r)) w) (· = false) ∧
    IfOk (E.expandEq w (inj (.rel op l r))) (· = false)
  evalf : ∀ v b, E.view v = .expr b → IfOk (E.evalf v) fun w => ∃ b, E.view w = .expr b

/-- an inequality or a chain -/
def IneqObject (E : Env X V S) (inj : SV → V) (v : V) : Prop :=
  ∃ op l r, v = inj (.rel op l r) ∧ (Fails (getType E v) ∨ Always (getType E v) .ineq ∧ ∃ o a b, E.view v = .rel o a b)

/-- an equation whose left side is not a name -/
def EqualObject (E : Env X V S) (inj : SV → V) (v : V) : Prop := ∃ l r, v = inj (.rel s%"=" l r) ∧ Verif.Names E (inj l) false

/-- an equation whose left side is a name and whose right side is an expression -/
def NamingObject (E : Env X V S) (inj : SV → V) (v : V) : Prop :=
  ∃ l r, v = inj (.rel s%"=" l r) ∧ Verif.Names E (inj l) true ∧ ∃ b, E.view (inj r) = .expr b

/-- an expression -/
def ExprObject (E : Env X V S) (v : V) : Prop := ∃ b, E.view v = .expr b

variable {E : Env X V S} {inj : SV → V} (hr : SeesRelations E inj) (ha : RelationsApart E inj)

include ha in
theorem evaluated_rel (op : Str) (l r : SV) : Evaluated E (inj (.rel op l r)) (· = inj (.rel op l r)) := by
  unfold Evaluated evalIfNumber
  refine Safe.bind (ha.isNumber op l r).safe ?_
  rintro _ rfl
  exact Safe.pure fun u h => (Option.some.inj h).symm

include ha in
theorem evaluated_expr {v : V} (h : ExprObject E v) : Evaluated E v (ExprObject E) := by
  unfold Evaluated evalIfNumber
  obtain ⟨b, hb⟩ := h
  refine Safe.bind (Safe.any _) fun c _ => Safe.ite ?_ (Safe.pure fun u h => ?_)
  · unfold sympyEvalf
    refine Safe.tryExcept (fun e => Safe.bind (Safe.any _) fun _ _ => Safe.pure fun _ h => by cases h) ?_
    refine Safe.bind (ha.evalf v b hb).safe fun u hu => Safe.pure ?_
    rintro _ ⟨⟩
    exact hu
  · cases h
    exact ⟨b, hb⟩

include ha in
theorem scalarEqual_rel_expr (op : Str) (l r : SV) {v : V} (hv : ExprObject E v) :
    Safe (scalarEqual E (inj (.rel op l r)) v) (· = false) ∧ Safe (scalarEqual E v (inj (.rel op l r))) (· = false) := by
  constructor
  · refine scalarEqual_never (evaluated_rel ha op l r) (evaluated_expr ha hv) ?_ ?_ ?_
    · rintro _ b rfl ⟨c, hc⟩
      exact (ha.expand op l r b c hc).1
    · rintro _ b rfl _
      exact ha.left op l r b
    · rintro _ b rfl _
      exact .inl (ha.evalfAt op l r)
  · refine scalarEqual_never (evaluated_expr ha hv) (evaluated_rel ha op l r) ?_ ?_ ?_
    · rintro a _ ⟨c, hc⟩ rfl
      exact (ha.expand op l r a c hc).2
    · rintro a _ _ rfl
      exact ha.right op l r a
    · rintro a _ _ rfl
      exact .inr (ha.evalfAt op l r)

include ha in
theorem scalarEqual_rels {op op' : Str} {l r l' r' : SV} (hx : IfOk (E.expandEq (inj (.rel op l r)) (inj (.rel op' l' r'))) (· = false)) :
    Safe (scalarEqual E (inj (.rel op l r)) (inj (.rel op' l' r'))) (· = false) := by
  refine scalarEqual_never (evaluated_rel ha op l r) (evaluated_rel ha op' l' r') ?_ ?_ ?_
  · rintro _ _ rfl rfl
    exact hx
  · rintro _ _ rfl rfl
    exact ha.left op l r _
  · rintro _ _ rfl rfl
    exact .inl (ha.evalfAt op l r)

theorem exprObject_type {v : V} (h : ExprObject E v) : Safe (getType E v) fun t => t = .expr ∨ t = .cplx := by
  obtain ⟨b, hb⟩ := h
  unfold getType
  rw [hb]
  cases b
  · exact Safe.pure (.inl rfl)
  · exact Safe.pure (.inr rfl)

theorem ineqObject_type {v : V} (h : IneqObject E inj v) : Safe (getType E v) fun t => t = .ineq ∧ ∃ o a b, E.view v = .rel o a b := by
  obtain ⟨op, l, r, rfl, h | ⟨h, o⟩⟩ := h
  · exact h.safe _
  · exact (h.alwaysP (P := (· = .ineq)) rfl).safe.mono fun t ht => ⟨ht, o⟩

include hr in
theorem equalObject_type {v : V} (h : EqualObject E inj v) : Safe (getType E v) (· = .equl) := by
  obtain ⟨l, r, rfl, h⟩ := h
  exact ((getType_equation (hr.equation l r) h).alwaysP (P := (· = .equl)) rfl).safe

include hr in
theorem namingObject_type {v : V} (h : NamingObject E inj v) : Safe (getType E v) (· = .func) := by
  obtain ⟨l, r, rfl, h, _⟩ := h
  exact ((getType_equation (hr.equation l r) h).alwaysP (P := (· = .func)) rfl).safe

include hr ha in
/-- An inequality, a chain or an equation that defines no name, against an expression. -/
theorem eqTyped_rel_expr (n : Nat) {g v : V} (hg : IneqObject E inj g ∨ EqualObject E inj g) (hv : ExprObject E v) :
    Safe (eqTyped E (areEqual E (n + 1)) g v) (· = false) ∧ Safe (eqTyped E (areEqual E (n + 1)) v g) (· = false) := by
  have tg : Safe (getType E g) fun t => t = .ineq ∨ t = .equl := by
    rcases hg with h | h
    · exact (ineqObject_type h).mono fun t ht => .inl ht.1
    · exact (equalObject_type hr h).mono fun t ht => .inr ht
  obtain ⟨op, l, r, rfl⟩ : ∃ op l r, g = inj (.rel op l r) := by
    rcases hg with ⟨op, l, r, e, _⟩ | ⟨l, r, e, _⟩
    · exact ⟨op, l, r, e⟩
    · exact ⟨_, l, r, e⟩
  obtain ⟨h1, h2⟩ := scalarEqual_rel_expr ha op l r hv
  constructor
  · unfold eqTyped
    refine Safe.bind tg fun t ht => Safe.bind (exprObject_type hv) fun u hu => ?_
    rcases ht with rfl | rfl <;> rcases hu with rfl | rfl <;> exact h1
  · unfold eqTyped
    refine Safe.bind (exprObject_type hv) fun u hu => Safe.bind tg fun t ht => ?_
    rcases ht with rfl | rfl <;> rcases hu with rfl | rfl <;> exact h2

include hr ha in
/-- An inequality or a chain, against an equation that defines a name. -/
theorem eqTyped_ineq_naming (n : Nat) {g v : V} (hg : IneqObject E inj g) (hv : NamingObject E inj v) :
    Safe (eqTyped E (areEqual E (n + 2)) g v) (· = false) ∧ Safe (eqTyped E (areEqual E (n + 2)) v g) (· = false) := by
  have tg := ineqObject_type hg
  have tv := namingObject_type hr hv
  obtain ⟨op, l, r, rfl, _⟩ := hg
  obtain ⟨l', r', rfl, _, he⟩ := hv
  obtain ⟨h1, h2⟩ := scalarEqual_rel_expr ha op l r he
  have right : ∀ t, Safe (rhsIfEq E (inj (.rel s%"=" l' r')) t) fun p => p.1 = inj r' ∧ (p.2 = .expr ∨ p.2 = .cplx) := by
    intro t
    unfold rhsIfEq
    rw [hr.equation]
    exact Safe.bind (exprObject_type he) fun t ht => Safe.pure ⟨rfl, ht⟩
  have left : ∀ {o a b} t, E.view (inj (.rel op l r)) = .rel o a b → Safe (rhsIfEq E (inj (.rel op l r)) t) fun p => p = (inj (.rel op l r), t) := by
    intro o a b t h
    unfold rhsIfEq
    rw [h]
    exact Safe.pure rfl
  constructor
  · unfold eqTyped
    refine Safe.bind tg ?_
    rintro _ ⟨rfl, o, a, b, hw⟩
    refine Safe.bind tv ?_
    rintro _ rfl
    show Safe (functionsEqual E (areEqual E (n + 1)) _ _ _ _) _
    unfold functionsEqual
    refine Safe.bind (left _ hw) ?_
    rintro _ rfl
    refine Safe.bind (right _) ?_
    rintro ⟨_, t⟩ ⟨rfl, rfl | rfl⟩ <;> exact h1
  · unfold eqTyped
    refine Safe.bind tv ?_
    rintro _ rfl
    refine Safe.bind tg ?_
    rintro _ ⟨rfl, o, a, b, hw⟩
    show Safe (functionsEqual E (areEqual E (n + 1)) _ _ _ _) _
    unfold functionsEqual
    refine Safe.bind (right _) ?_
    rintro ⟨_, t⟩ ⟨rfl, ht⟩
    refine Safe.bind (left _ hw) ?_
    rintro _ rfl
    rcases ht with rfl | rfl <;> exact h2

include hr ha in
/-- An inequality or a chain, against an equation that defines no name. -/
theorem eqTyped_ineq_equal (n : Nat) {op : Str} {l r l' r' : SV} (hg : IneqObject E inj (inj (.rel op l r)))
    (hv : EqualObject E inj (inj (.rel s%"=" l' r')))
    (hx : IfOk (E.expandEq (inj (.rel op l r)) (inj (.rel s%"=" l' r'))) (· = false) ∧
      IfOk (E.expandEq (inj (.rel s%"=" l' r')) (inj (.rel op l r))) (· = false)) :
    Safe (eqTyped E (areEqual E (n + 1)) (inj (.rel op l r)) (inj (.rel s%"=" l' r'))) (· = false) ∧
      Safe (eqTyped E (areEqual E (n + 1)) (inj (.rel s%"=" l' r')) (inj (.rel op l r))) (· = false) := by
  constructor
  · unfold eqTyped
    refine Safe.bind (ineqObject_type hg) ?_
    rintro _ ⟨rfl, _⟩
    refine Safe.bind (equalObject_type hr hv) ?_
    rintro _ rfl
    exact scalarEqual_rels ha hx.1
  · unfold eqTyped
    refine Safe.bind (equalObject_type hr hv) ?_
    rintro _ rfl
    refine Safe.bind (ineqObject_type hg) ?_
    rintro _ ⟨rfl, _⟩
    exact scalarEqual_rels ha hx.2

end

section
variable {X V S : Type} {E : Env X V S}

/-- The verdict on two answers whose readings are of different kinds. -/
theorem isEquiv_never {a b x y : Str} {P Q : V → Prop} (n : Nat) (verbose : Bool) (sa : strip a = a) (sb : strip b = b)
    (na : Always (stringNormalize E (n + 1) a) (.str x)) (nb : Always (stringNormalize E (n + 1) b) (.str y))
    (hx : Single x) (hy : Single y) (rx : ReadsAs E x P) (ry : ReadsAs E y Q) (hpq : World X → ∀ v, P v → Q v → False)
    (h : ∀ g v, P g → Q v → Safe (eqTyped E (areEqual E (n + 1)) g v) (· = false) ∧ Safe (eqTyped E (areEqual E (n + 1)) v g) (· = false)) :
    Always (isEquiv E (n + 2) (some a) (some b) verbose) false ∧ Always (isEquiv E (n + 2) (some b) (some a) verbose) false := by
  by_cases hi : Nonempty (World X)
  swap
  · exact ⟨fun w => (hi ⟨w⟩).elim, fun w => (hi ⟨w⟩).elim⟩
  obtain ⟨w⟩ := hi
  have hxy : x ≠ y := by
    rintro rfl
    obtain ⟨l, w', e, h1, v, hv⟩ := rx w
    obtain ⟨l', w'', e', h2, _⟩ := ry w
    rw [e] at e'
    cases e'
    exact hpq w v (h1 v hv) (h2 v hv)
  have hab : strip a ≠ strip b := by
    rw [sa, sb]
    rintro rfl
    have := na.unique w nb
    simp only [Norm.str.injEq] at this
    exact hxy this
  exact ⟨isEquiv_single E (n + 1) a b x y verbose _ na nb hx hy hab hxy
      (areEqualUnderSympy_never rx ry (fun g v hg hv => (h g v hg hv).1) verbose),
    isEquiv_single E (n + 1) b a y x verbose _ nb na hy hx hab.symm hxy.symm
      (areEqualUnderSympy_never ry rx (fun v g hv hg => (h g v hg hv).2) verbose)⟩

end

section
variable {K : Type} [Field K] [LinearOrder K] [IsStrictOrderedRing K] {X V Y S : Type}

/-- what a relation says about two numbers -/
def Truth (op : Str) (x y : K) : Prop :=
  op = s%"=" ∧ x = y ∨ op = s%"<" ∧ x < y ∨ op = s%"<=" ∧ x ≤ y ∨ op = s%">" ∧ y < x ∨ op = s%">=" ∧ y ≤ x ∨ op = s%"!=" ∧ x ≠ y

/-- SymPy's expansion of relations: two relations that expand to the same object hold for the same values of the variables, and an
inequality whose left side is a relation does not expand to anything else (in fact its expansion raises). -/
structure ExpandsTruly (E : Env X V S) (I : Interp K) (inj : SV → V) : Prop where
  rels : ∀ op l r op' l' r', l.scalar = true → r.scalar = true → l'.scalar = true → r'.scalar = true →
    IfOk (E.expandEq (inj (.rel op l r)) (inj (.rel op' l' r'))) (· = true → ∀ ρ,
      Truth op (den (I.vars ρ) l) (den (I.vars ρ) r) ↔ Truth op' (den (I.vars ρ) l') (den (I.vars ρ) r'))
  chain : ∀ op ∈ [s%"<", s%"<=", s%">", s%">="], ∀ a b c r l' r',
    IfOk (E.expandEq (inj (.rel op (.rel a b c) r)) (inj (.rel s%"=" l' r'))) (· = false) ∧
    IfOk (E.expandEq (inj (.rel s%"=" l' r')) (inj (.rel op (.rel a b c) r))) (· = false)

/-- Answers that are one expression: numbers, and formulas in LaTeX notation. -/
inductive PlainAnswer (E : Env X V S) (I : Interp K) (inj : SV → V) (Is : V → K → Prop)
    (Fun : V → List Str → ((Str → K) → K) → Prop) : Str → Prop
  | number {s x} : NumAnswer E I inj Is s x → PlainAnswer E I inj Is Fun s
  | formula {s a f} : FunAnswer E I inj Fun s a f → PlainAnswer E I inj Is Fun s

/-- Answers that are a relation: an inequality or a chain of relations; or an equation whose left side is no name. -/
inductive RelAnswer (E : Env X V S) (L : Lib Y) (N : Nat) (I : Interp K) (inj : SV → V) : Str → Prop
  | chain {s f links} : ChainAnswer E I s f links → (∀ ρ, Comparable (links ρ)) → RelAnswer E L N I inj s
  | equation {s f g} : Statement E L N I inj s s%"=" f g (fun l _ => Verif.Names E l false) → RelAnswer E L N I inj s

variable {E : Env X V S} {L : Lib Y} {I : Interp K} {Is Ev : V → K → Prop} {Fun : V → List Str → ((Str → K) → K) → Prop}
  {inj : SV → V} {N : Nat}

/-- The sides of a relation as they are returned by `latex2sympy`. -/
theorem Statement.sidesRead (hL : SoundLib I L) (hp : ∀ s t, parseText s = some t → L.parse s = .ok t)
    (hl : UsesUndeclared E L N inj I.real) {s op : Str} {f g : (Str → K) → K} {P : V → V → Prop}
    (h : Statement E L N I inj s op f g P) :
    RetP (E.l2s s) fun v => ∃ l r, v = inj (.rel op l r) ∧ l.scalar = true ∧ r.scalar = true ∧ (∀ ρ, den (I.vars ρ) l = f ρ) ∧
      (∀ ρ, den (I.vars ρ) r = g ρ) ∧ P (inj l) (inj r) := by
  intro x
  obtain ⟨ws, free, wide, hw, hd⟩ := h.denotes
  obtain ⟨w, hn, he⟩ := hl s x
  obtain ⟨h1, h2, _⟩ := id hn
  have key : ∀ ρ, ∃ v w', latex2sympy L (N + 1) s [] w = (.ok v, w') ∧ Says (I.vars ρ) v (.relation op (f ρ) (g ρ)) := fun ρ =>
    C87_relation (hL.vars ρ) hp N [] w ⟨h1, fun n _ => by rw [h2]; rfl⟩ (hd ρ) hw
  obtain ⟨v, w', e, hv⟩ := key fun _ => 0
  cases hv with
  | @relation _ l r _ _ hl1 _ hr1 _ =>
    have hden : ∀ ρ, den (I.vars ρ) l = f ρ ∧ den (I.vars ρ) r = g ρ := by
      intro ρ
      obtain ⟨v', w'', e', hv⟩ := key ρ
      rw [e] at e'
      cases e'
      cases hv with
      | relation _ h1 _ h2 => exact ⟨h1, h2⟩
    rw [e] at he
    exact ⟨inj (.rel op l r), (E.l2s s x).2, Prod.ext he rfl, l, r, rfl, hl1, hr1, fun ρ => (hden ρ).1, fun ρ => (hden ρ).2,
      h.sides w w' l r hn e hl1 hr1 (fun ρ => (hden ρ).1) fun ρ => (hden ρ).2⟩

/-- A chain of two or more relations as it is returned by `latex2sympy`, with the name of the last relation. -/
theorem ChainAnswer.lastRead (hL : SoundLib I L) (hp : ∀ s t, parseText s = some t → L.parse s = .ok t) (hk : KeepsRelations L)
    (hl : UsesUndeclared E L N inj I.real) {s : Str} {first : (Str → K) → K} {links : (Str → K) → List (Str × K)}
    (h : ChainAnswer E I s first links) (h2 : ∀ ρ, 2 ≤ (links ρ).length) {ops : List Str}
    (ho : ∀ ρ, ∀ p, (links ρ).getLast? = some p → p.1 ∈ ops) :
    RetP (E.l2s s) fun v => ∃ op a b c r, v = inj (.rel op (.rel a b c) r) ∧ op ∈ ops := by
  intro x
  obtain ⟨us, ws, free, wide, hw, hd⟩ := h.denotes
  obtain ⟨d1, d2⟩ := hd fun _ => 0
  obtain ⟨w, hn, he⟩ := hl s x
  obtain ⟨h1, h2', _⟩ := id hn
  obtain ⟨v, w', e, hv⟩ := C114_converted (hL.vars fun _ => 0) hp hk N [] w ⟨h1, fun n _ => by rw [h2']; rfl⟩ d1 d2 hw
  rw [e] at he
  refine ⟨_, (E.l2s s x).2, Prod.ext he rfl, ?_⟩
  have hc := h2 fun _ => 0
  have ho := ho fun _ => 0
  rw [← List.length_reverse] at hc
  rw [← List.head?_reverse] at ho
  match hm : (links fun _ => 0).reverse, hc with
  | p :: q :: _, _ =>
    rw [hm] at hv ho
    obtain ⟨l, r, rfl, _, _, l', r', rfl, _⟩ := hv
    exact ⟨p.1, _, _, _, r, rfl, ho p rfl⟩

variable (hr : SeesRelations E inj) (ha : RelationsApart E inj) (hL : SoundLib I L)
    (hp : ∀ s t, parseText s = some t → L.parse s = .ok t) (hk : KeepsRelations L) (hl : UsesUndeclared E L N inj I.real)
include hr ha hL hp hk hl

omit hL hp hk hl in
theorem relObject_ineq {v : V} (h : RelObject inj v) : IneqObject E inj v := by
  have t := relObject_type hr ha.toNoArithmetic h
  obtain ⟨op, l, r, rfl, _⟩ := h
  refine ⟨op, l, r, rfl, ?_⟩
  rcases t with t | ⟨t, op', o, l', r', e, ho⟩
  · exact .inl t
  · exact .inr ⟨t, o, inj l', inj r', by rw [e]; exact hr.relation op' o ho l' r'⟩

theorem RelAnswer.reads {s : Str} (h : RelAnswer E L N I inj s) : Tidy s ∧ Single s ∧
    (∀ q, pyFloat E.U s = some q → isIntFloat q = false) ∧ ReadsAs E s fun v => IneqObject E inj v ∨ EqualObject E inj v := by
  have truth : ∀ v, IneqObject E inj v ∨ EqualObject E inj v → AlwaysRaises (E.truth v) := by
    rintro _ (⟨op, l, r, rfl, _⟩ | ⟨l, r, rfl, _⟩)
    · exact hr.truth op l r
    · exact hr.truth _ l r
  cases h with
  | chain h hc =>
    refine ⟨h.tidy, h.single, h.notInt, readsAs_alone truth fun x => ?_⟩
    obtain ⟨v, x', e, hv⟩ := (h.reads hL hp hk hl).1 hc x
    exact ⟨v, x', e, .inl (relObject_ineq hr ha hv)⟩
  | equation h =>
    refine ⟨h.tidy, h.single, h.notInt, readsAs_alone truth fun x => ?_⟩
    obtain ⟨v, x', e, l, r, rfl, hv⟩ := h.reads hL hp hl x
    exact ⟨_, x', e, .inr ⟨l, r, rfl, hv⟩⟩

/-- **C117**, relations and expressions: an inequality, a chain of relations or an equation that defines no name is never judged
equivalent to a number or to a formula, in either order. -/
theorem C117_expressions (H : FunArith E Is Ev Fun) (hE : PrintsIntegers E)
    (hlit : ∀ l : Literal, Valued E I inj Is l.text (l.value : K)) {s t : Str} (hs : RelAnswer E L N I inj s)
    (ht : PlainAnswer E I inj Is Fun t) (n : Nat) (verbose : Bool) :
    Always (isEquiv E (n + 2) (some s) (some t) verbose) false ∧ Always (isEquiv E (n + 2) (some t) (some s) verbose) false := by
  obtain ⟨h1, h2, h3, rs⟩ := hs.reads hr ha hL hp hk hl
  have rt : strip t = t ∧ ∃ y, Always (stringNormalize E (n + 1) t) (.str y) ∧ Single y ∧ ReadsAs E y (ExprObject E) := by
    cases ht with
    | number ht =>
      obtain ⟨sb, y, nb, hy, ry⟩ := ht.normal hL hp hl hE hlit n
      refine ⟨sb, y, nb, hy, ?_⟩
      refine AlwaysP.mono (sympyParse_real E (fun v h => ⟨_, H.numbers.view h⟩) ry.parseExpr ry.l2s) ?_
      exact fun l h => ⟨fun v hv => ⟨_, H.numbers.view (h.1 v hv)⟩, h.2⟩
    | formula ht =>
      have ry := ht.reads hL hp hl
      refine ⟨strip_of_no_space _ fun _ hc => ht.tidy.space hc, t, ht.tidy.fixed E n ht.notInt, ht.single, ?_⟩
      refine AlwaysP.mono (sympyParse_real E (fun v h => ⟨_, H.view h⟩) ry.parseExpr ry.l2s) ?_
      exact fun l h => ⟨fun v hv => ⟨_, H.view (h.1 v hv)⟩, h.2⟩
  obtain ⟨sb, y, nb, hy, ry⟩ := rt
  refine isEquiv_never n verbose (strip_of_no_space _ fun _ hc => h1.space hc) sb (h1.fixed E n h3) nb h2 hy rs ry ?_ fun g v hg hv =>
    eqTyped_rel_expr hr ha n hg hv
  rintro w v hv ⟨b, hb⟩
  have he : ∃ t, Always (getType E v) t ∧ (t = .expr ∨ t = .cplx) := by
    unfold getType
    rw [hb]
    cases b
    · exact ⟨_, Always.pure _, .inl rfl⟩
    · exact ⟨_, Always.pure _, .inr rfl⟩
  obtain ⟨t, he, ht⟩ := he
  obtain ⟨w', he⟩ := he w
  rcases hv with h | h
  · have := (ineqObject_type h w t w' he).1
    subst this
    simp at ht
  · have := equalObject_type hr h w t w' he
    subst this
    simp at ht

/-- **C117**, inequalities and definitions: an inequality or a chain of relations is never judged equivalent to an equation that defines a
name by an expression, in either order. -/
theorem C117_definitions {s t : Str} {f g f' : (Str → K) → K} {links : (Str → K) → List (Str × K)} (hs : ChainAnswer E I s f links)
    (hc : ∀ ρ, Comparable (links ρ))
    (ht : Statement E L N I inj t s%"=" f' g fun l r => Verif.Names E l true ∧ ∃ b, E.view r = .expr b) (n : Nat) (verbose : Bool) :
    Always (isEquiv E (n + 3) (some s) (some t) verbose) false ∧ Always (isEquiv E (n + 3) (some t) (some s) verbose) false := by
  have rs : ReadsAs E s (IneqObject E inj) := by
    refine readsAs_alone ?_ fun x => ?_
    · rintro _ ⟨op, l, r, rfl, _⟩
      exact hr.truth op l r
    · obtain ⟨v, x', e, hv⟩ := (hs.reads hL hp hk hl).1 hc x
      exact ⟨v, x', e, relObject_ineq hr ha hv⟩
  have rt : ReadsAs E t (NamingObject E inj) := by
    refine readsAs_alone ?_ fun x => ?_
    · rintro _ ⟨l, r, rfl, _⟩
      exact hr.truth _ l r
    · obtain ⟨v, x', e, l, r, rfl, hv⟩ := ht.reads hL hp hl x
      exact ⟨_, x', e, l, r, rfl, hv⟩
  refine isEquiv_never (n + 1) verbose (strip_of_no_space _ fun _ hc => hs.tidy.space hc) (strip_of_no_space _ fun _ hc => ht.tidy.space hc)
    (hs.tidy.fixed E (n + 1) hs.notInt) (ht.tidy.fixed E (n + 1) ht.notInt) hs.single ht.single rs rt ?_
    fun g v hg hv => eqTyped_ineq_naming hr ha n hg hv
  intro w v hv hv'
  obtain ⟨l, r, rfl, hn, _⟩ := hv'
  obtain ⟨w', e⟩ := getType_equation (hr.equation l r) hn w
  have := (ineqObject_type hv w _ w' e).1
  simp at this

omit hk in
/-- **C117**, inequalities and equations: an inequality is not judged equivalent to an equation that defines no name, in either order, if
they do not hold for the same values of the variables. -/
theorem C117_equations (hx : ExpandsTruly E I inj) {s t op : Str} {f g f' g' : (Str → K) → K}
    (ho : op ∈ [s%"<", s%"<=", s%">", s%">=", s%"!="]) (hs : Statement E L N I inj s op f g fun _ _ => True)
    (ht : Statement E L N I inj t s%"=" f' g' fun l _ => Verif.Names E l false)
    (hne : ∃ ρ, ¬ (Truth op (f ρ) (g ρ) ↔ Truth s%"=" (f' ρ) (g' ρ))) (n : Nat) (verbose : Bool) :
    Always (isEquiv E (n + 2) (some s) (some t) verbose) false ∧ Always (isEquiv E (n + 2) (some t) (some s) verbose) false := by
  have rs := readsAs_alone (fun v h => by obtain ⟨l, r, rfl, _⟩ := h; exact hr.truth _ l r) (hs.sidesRead hL hp hl)
  have rt := readsAs_alone (fun v h => by obtain ⟨l, r, rfl, _⟩ := h; exact hr.truth _ l r) (ht.sidesRead hL hp hl)
  have hop : op ≠ s%"=" := by rintro rfl; simp at ho
  have hin : ∀ l r, IneqObject E inj (inj (.rel op l r)) := fun l r => relObject_ineq hr ha
    ⟨op, l, r, rfl, List.mem_cons_of_mem _ ho, fun e => absurd e hop⟩
  refine isEquiv_never n verbose (strip_of_no_space _ fun _ hc => hs.tidy.space hc) (strip_of_no_space _ fun _ hc => ht.tidy.space hc)
    (hs.tidy.fixed E n hs.notInt) (ht.tidy.fixed E n ht.notInt) hs.single ht.single rs rt ?_ ?_
  · rintro w _ ⟨l, r, rfl, _⟩ ⟨l', r', e, _, _, _, _, hn⟩
    have hi := hin l r
    rw [e] at hi
    obtain ⟨w', e'⟩ := getType_equation (hr.equation l' r') hn w
    have := (ineqObject_type hi w _ w' e').1
    simp at this
  · rintro _ _ ⟨l, r, rfl, h1, h2, h3, h4, _⟩ ⟨l', r', rfl, k1, k2, k3, k4, hn⟩
    obtain ⟨ρ, hρ⟩ := hne
    refine eqTyped_ineq_equal hr ha n (hin l r) ⟨l', r', rfl, hn⟩ ⟨fun x b x' e => ?_, fun x b x' e => ?_⟩
    · cases b with
      | false => rfl
      | true =>
        have := hx.rels _ _ _ _ _ _ h1 h2 k1 k2 x true x' e rfl ρ
        rw [h3, h4, k3, k4] at this
        exact absurd this hρ
    · cases b with
      | false => rfl
      | true =>
        have := hx.rels _ _ _ _ _ _ k1 k2 h1 h2 x true x' e rfl ρ
        rw [h3, h4, k3, k4] at this
        exact absurd this.symm hρ

/-- **C117**, chains and equations: a chain of two or more relations whose last one is not `≠` is never judged equivalent to an equation
that defines no name, in either order. -/
theorem C117_chains (hx : ExpandsTruly E I inj) {s t : Str} {f f' g' : (Str → K) → K} {links : (Str → K) → List (Str × K)}
    (hs : ChainAnswer E I s f links) (h2 : ∀ ρ, 2 ≤ (links ρ).length)
    (hlast : ∀ ρ p, (links ρ).getLast? = some p → p.1 ∈ [s%"=", s%"<", s%"<=", s%">", s%">="])
    (ht : Statement E L N I inj t s%"=" f' g' fun l _ => Verif.Names E l false) (n : Nat) (verbose : Bool) :
    Always (isEquiv E (n + 2) (some s) (some t) verbose) false ∧ Always (isEquiv E (n + 2) (some t) (some s) verbose) false := by
  have rs := readsAs_alone (fun v h => by obtain ⟨op, a, b, c, r, rfl, _⟩ := h; exact hr.truth _ _ r) (hs.lastRead hL hp hk hl h2 hlast)
  have rt := readsAs_alone (fun v h => by obtain ⟨l, r, rfl, _⟩ := h; exact hr.truth _ l r) (ht.reads hL hp hl)
  have hin : ∀ op a b c r, op ∈ [s%"=", s%"<", s%"<=", s%">", s%">="] → IneqObject E inj (inj (.rel op (.rel a b c) r)) :=
    fun op a b c r ho => relObject_ineq hr ha ⟨op, _, r, rfl, List.mem_append_left [s%"!="] ho, fun _ => ⟨a, b, c, rfl⟩⟩
  refine isEquiv_never n verbose (strip_of_no_space _ fun _ hc => hs.tidy.space hc) (strip_of_no_space _ fun _ hc => ht.tidy.space hc)
    (hs.tidy.fixed E n hs.notInt) (ht.tidy.fixed E n ht.notInt) hs.single ht.single rs rt ?_ ?_
  · rintro w _ ⟨op, a, b, c, r, rfl, ho⟩ ⟨l', r', e, hn⟩
    have hi := hin op a b c r ho
    rw [e] at hi
    obtain ⟨w', e'⟩ := getType_equation (hr.equation l' r') hn w
    have := (ineqObject_type hi w _ w' e').1
    simp at this
  · rintro _ _ ⟨op, a, b, c, r, rfl, ho⟩ ⟨l', r', rfl, hn⟩
    rcases List.mem_cons.1 ho with rfl | ho'
    · have hf : Fails (getType E (inj (.rel s%"=" (.rel a b c) r))) := by
        unfold getType
        rw [hr.equation]
        exact Fails.bind (ha.inv a b c).fails
      constructor
      · unfold eqTyped
        exact (Fails.bind hf).safe _
      · unfold eqTyped
        exact (Fails.last fun _ => Fails.bind hf).safe _
    · exact eqTyped_ineq_equal hr ha n (hin op a b c r ho) ⟨l', r', rfl, hn⟩ (hx.chain op ho' a b c r l' r')

end

/-! ### The hypotheses are met -/

theorem asFun_rel (op : Str) (l r : SV) : (∃ a b, asFun (.rel op l r) = .eq a b) ∨ ∃ o a b, asFun (.rel op l r) = .rel o a b := by
  simp only [asFun]
  cases relOps.lookup op with
  | none => exact .inl ⟨_, _, rfl⟩
  | some o => exact .inr ⟨o, _, _, rfl⟩

theorem chainEnv_expand (v w : FV) (h : (∀ q, ¬ IsConst v q) ∨ ∀ q, ¬ IsConst w q) : IfOk (chainEnv.expandEq v w) (· = false) := by
  rintro x b x' e
  simp only [chainEnv, funEnv, gives, Prod.mk.injEq, Except.ok.injEq] at e
  rw [← e.1, decide_eq_false_iff_not]
  rintro ⟨rfl, q, hq⟩
  rcases h with h | h <;> exact h q hq

theorem rel_notConst (op : Str) (l r : SV) (q : ℝ) : ¬ IsConst (asFun (.rel op l r)) q := by
  unfold IsConst
  rcases asFun_rel op l r with ⟨a, b, e⟩ | ⟨o, a, b, e⟩ <;> rw [e] <;> simp

theorem chainEnv_apart : RelationsApart chainEnv asFun where
  toNoArithmetic := chainEnv_noArithmetic
  isNumber op l r := by
    rintro x b x' e
    simp only [chainEnv, funEnv, gives, Prod.mk.injEq, Except.ok.injEq] at e
    rw [← e.1, decide_eq_false_iff_not]
    rintro ⟨q, hq⟩
    exact rel_notConst op l r q hq
  evalfAt op l r σ := by
    rintro x u x' e
    simp only [chainEnv, funEnv] at e
    rcases asFun_rel op l r with ⟨a, b, h⟩ | ⟨o, a, b, h⟩ <;> rw [h] at e <;> cases e
  expand op l r w b _ := ⟨chainEnv_expand _ _ (.inl (rel_notConst op l r)), chainEnv_expand _ _ (.inr (rel_notConst op l r))⟩
  evalf v b h := by
    rintro x w x' e
    simp only [chainEnv, funEnv, gives, Prod.mk.injEq, Except.ok.injEq] at e
    rw [← e.1]
    exact ⟨b, h⟩

theorem chainEnv_truly : ExpandsTruly chainEnv reals asFun where
  rels op l r op' l' r' _ _ _ _ := by
    intro x b x' e hb
    have := chainEnv_expand _ (asFun (.rel op' l' r')) (.inl (rel_notConst op l r)) x b x' e
    rw [this] at hb
    cases hb
  chain op _ a b c r l' r' := ⟨chainEnv_expand _ _ (.inr (rel_notConst _ l' r')), chainEnv_expand _ _ (.inl (rel_notConst _ l' r'))⟩

theorem chainEnv_numbers : RealArith chainEnv IsConst IsConst :=
  ⟨funEnv_numbers.view, funEnv_numbers.freeSyms, funEnv_numbers.isNumber, funEnv_numbers.evalf, funEnv_numbers.ev, funEnv_numbers.expandEq,
    funEnv_numbers.sub, funEnv_numbers.isZero, funEnv_numbers.isInteger, funEnv_numbers.abs, funEnv_numbers.ltThr, funEnv_numbers.ge1,
    funEnv_numbers.gt0, funEnv_numbers.div⟩

theorem chainEnv_arith : FunArith chainEnv IsConst IsConst IsFun :=
  ⟨chainEnv_numbers, funEnv_arith.subEv, funEnv_arith.isZeroIs, funEnv_arith.view, funEnv_arith.freeSyms, funEnv_arith.isNumber,
    funEnv_arith.expandEq, funEnv_arith.sub, funEnv_arith.simplify, funEnv_arith.isZero, funEnv_arith.evalfAt, funEnv_arith.randint,
    funEnv_arith.uniform⟩

theorem chainEnv_prints : PrintsIntegers chainEnv := by
  intro z x
  right
  have key : ∀ ρ, ∃ v w', latex2sympy chainLib 1 (intStr z) [] ⟨⟨Globals.init, x⟩, []⟩ = (.ok v, w') ∧ v.scalar = true ∧
      den (reals.vars ρ) v = z := by
    intro ρ
    obtain ⟨ws, hw, hd⟩ := literal_denotes (reals.vars ρ) false (Literal.ofInt z)
    obtain ⟨v, w', h1, h2, h3⟩ := latex2sympy_closed (chainLib_sound.vars ρ) (fun s t h => grammarLib_parse s t h) hw hd 0 []
      ⟨⟨Globals.init, x⟩, []⟩
    rw [Literal.ofInt_text] at h1
    rw [Literal.ofInt_value] at h3
    exact ⟨v, w', h1, h2, by rw [h3]; push_cast; rfl⟩
  obtain ⟨v, w', e, hv, _⟩ := key fun _ => 0
  have hden : IsConst (asFun v) z := by
    rw [asFun_scalar hv]
    show FV.fn _ = FV.fn _
    congr 1
    funext ρ
    obtain ⟨v', w'', e', _, h'⟩ := key ρ
    rw [e] at e'
    cases e'
    exact h'
  have h : ∃ z : ℤ, IsConst (asFun v) z := ⟨z, hden⟩
  have hz : h.choose = z := by
    have := hden.unique.1 h.choose_spec
    exact_mod_cast this.symm
  refine ⟨asFun v, x, x, ?_, ?_⟩
  · simp only [chainEnv]
    rw [e]
    rfl
  · simp only [chainEnv, funEnv, gives]
    rw [dif_pos h, hz]

theorem chainEnv_valued (s : Str) (x : ℝ) : Valued chainEnv reals asFun IsConst s x where
  value v hv h := by rw [asFun_scalar hv, funext h]; rfl
  parseExpr w := .inl ⟨_, w, rfl⟩

theorem chainStatement {s op : Str} {f g : (Str → ℝ) → ℝ} {Q : FV → FV → Prop} (ht : Tidy s) (hs : Single s)
    (hf : (pyFloat asciiUni s).isNone = true)
    (hd : ∃ ws free, ∃ wide : Bool, Written ws s ∧ ∀ ρ, Item (reals.vars ρ) free wide ws (.relation op (f ρ) (g ρ)))
    (hQ : Q (.fn f) (.fn g)) : Statement chainEnv chainLib 0 reals asFun s op f g Q where
  tidy := ht
  single := hs
  notInt q hq := by
    rw [show pyFloat chainEnv.U s = none from Option.isNone_iff_eq_none.1 hf] at hq
    cases hq
  denotes := hd
  sides w w' l r _ _ hl hr h1 h2 := by
    rw [asFun_scalar hl, asFun_scalar hr, funext h1, funext h2]
    exact hQ

theorem one_denotes (ρ : Str → ℝ) : Denotes (reals.vars ρ) (fun _ => True) (false : Bool) .expr [.digit 1] (1 : ℝ) := by
  have := digit_says ρ 1
  norm_num at this ⊢
  exact this

theorem chainEnv_names {f : (Str → ℝ) → ℝ} {b : Bool} (h : b = true ↔ ∃ k, f = fun ρ => ρ k) : Verif.Names chainEnv (.fn f) b := by
  intro x
  obtain ⟨i, x', e, p, q, r, h1, h2, h3, h4⟩ := funEnv_names h x
  exact ⟨i, x', e, p, q, r, h1, h2, h3, h4⟩

/-- `x+1=0` -/
theorem plus_statement : Statement chainEnv chainLib 0 reals asFun s%"x+1=0" s%"=" (fun ρ => ρ s%"x" + 1) (fun _ => 0)
    fun l _ => Verif.Names chainEnv l false :=
  chainStatement (tidyB_sound (by decide +kernel)) (singleB_sound (by decide +kernel)) (by decide +kernel)
    ⟨[.letter 'x', .mark '+', .digit 1] ++ .mark '=' :: [.digit 0], _, false, writtenB_sound (by decide +kernel),
      fun ρ => .rel (by decide) (plus_denotes ρ) (zero_denotes ρ)⟩ (chainEnv_names (not_symbol (by norm_num)))

/-- `x=1` -/
theorem one_statement : Statement chainEnv chainLib 0 reals asFun s%"x=1" s%"=" (fun ρ => ρ s%"x") (fun _ => 1)
    fun l r => Verif.Names chainEnv l true ∧ ∃ b, chainEnv.view r = .expr b :=
  chainStatement (tidyB_sound (by decide +kernel)) (singleB_sound (by decide +kernel)) (by decide +kernel)
    ⟨[.letter 'x'] ++ .mark '=' :: [.digit 1], _, false, writtenB_sound (by decide +kernel),
      fun ρ => .rel (by decide) (letter_denotes ρ (c := 'x') (by decide)) (one_denotes ρ)⟩ ⟨chainEnv_names ⟨fun _ => ⟨_, rfl⟩, fun _ => rfl⟩, false, rfl⟩

/-- `x>1` -/
theorem above_statement : Statement chainEnv chainLib 0 reals asFun s%"x>1" s%">" (fun ρ => ρ s%"x") (fun _ => 1) fun _ _ => True :=
  chainStatement (tidyB_sound (by decide +kernel)) (singleB_sound (by decide +kernel)) (by decide +kernel)
    ⟨[.letter 'x'] ++ .mark '>' :: [.digit 1], _, false, writtenB_sound (by decide +kernel),
      fun ρ => .rel (by decide) (letter_denotes ρ (c := 'x') (by decide)) (one_denotes ρ)⟩ trivial

theorem one_plain : PlainAnswer chainEnv reals asFun IsConst IsFun s%"1" := by
  have := NumAnswer.literal (E := chainEnv) (I := reals) (inj := asFun) (Is := IsConst) (Literal.ofInt 1)
    (.inl ⟨(1 : ℤ).natAbs, by simp [Literal.mag, Literal.ofInt, decVal_natStr], by decide⟩)
  rw [Literal.ofInt_value, Literal.ofInt_text, show intStr 1 = s%"1" by decide +kernel] at this
  exact .number this

theorem x_plain : PlainAnswer chainEnv reals asFun IsConst IsFun s%"x" :=
  .formula ⟨x_answer.tidy, x_answer.single, x_answer.notInt, x_answer.denotes, x_answer.value, x_answer.parseExpr, x_answer.names,
    x_answer.notI⟩

section
variable (n : Nat) (verbose : Bool)

/-- `x>1` and `1<x<3` are equivalent neither to `1` nor to `x`, and `x+1=0` is not equivalent to `1`. -/
example : Always (isEquiv chainEnv (n + 2) (some s%"x>1") (some s%"1") verbose) false ∧
    Always (isEquiv chainEnv (n + 2) (some s%"1") (some s%"x>1") verbose) false :=
  C117_expressions chainEnv_relations chainEnv_apart chainLib_sound (fun s t h => grammarLib_parse s t h) chainLib_keeps chainEnv_uses
    chainEnv_arith chainEnv_prints (fun _ => chainEnv_valued _ _) (.chain above_chain fun _ => .inr ⟨_, _, rfl, by decide⟩) one_plain n verbose

example : Always (isEquiv chainEnv (n + 2) (some s%"1<x<3") (some s%"x") verbose) false ∧
    Always (isEquiv chainEnv (n + 2) (some s%"x") (some s%"1<x<3") verbose) false :=
  C117_expressions chainEnv_relations chainEnv_apart chainLib_sound (fun s t h => grammarLib_parse s t h) chainLib_keeps chainEnv_uses
    chainEnv_arith chainEnv_prints (fun _ => chainEnv_valued _ _) (.chain between_chain fun _ => .inl (by simp)) x_plain n verbose

example : Always (isEquiv chainEnv (n + 2) (some s%"x+1=0") (some s%"1") verbose) false ∧
    Always (isEquiv chainEnv (n + 2) (some s%"1") (some s%"x+1=0") verbose) false :=
  C117_expressions chainEnv_relations chainEnv_apart chainLib_sound (fun s t h => grammarLib_parse s t h) chainLib_keeps chainEnv_uses
    chainEnv_arith chainEnv_prints (fun _ => chainEnv_valued _ _) (.equation plus_statement) one_plain n verbose

/-- `x>1` is not equivalent to `x=1`. -/
example : Always (isEquiv chainEnv (n + 3) (some s%"x>1") (some s%"x=1") verbose) false ∧
    Always (isEquiv chainEnv (n + 3) (some s%"x=1") (some s%"x>1") verbose) false :=
  C117_definitions chainEnv_relations chainEnv_apart chainLib_sound (fun s t h => grammarLib_parse s t h) chainLib_keeps chainEnv_uses
    above_chain (fun _ => .inr ⟨_, _, rfl, by decide⟩) one_statement n verbose

/-- `x>1` is not equivalent to `x+1=0`. -/
example : Always (isEquiv chainEnv (n + 2) (some s%"x>1") (some s%"x+1=0") verbose) false ∧
    Always (isEquiv chainEnv (n + 2) (some s%"x+1=0") (some s%"x>1") verbose) false :=
  C117_equations chainEnv_relations chainEnv_apart chainLib_sound (fun s t h => grammarLib_parse s t h) chainEnv_uses chainEnv_truly
    (by decide) above_statement plus_statement ⟨fun _ => 2, by simp [Truth]; norm_num⟩ n verbose

/-- `1<x<3` is not equivalent to `x+1=0`. -/
example : Always (isEquiv chainEnv (n + 2) (some s%"1<x<3") (some s%"x+1=0") verbose) false ∧
    Always (isEquiv chainEnv (n + 2) (some s%"x+1=0") (some s%"1<x<3") verbose) false :=
  C117_chains chainEnv_relations chainEnv_apart chainLib_sound (fun s t h => grammarLib_parse s t h) chainLib_keeps chainEnv_uses
    chainEnv_truly between_chain (fun _ => by simp) (fun ρ p h => by simp at h; subst h; simp) plus_statement n verbose

end

end Verif.L2S
