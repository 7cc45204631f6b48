import Verif.Props.Functions
import Verif.Props.Points
import Verif.Props.ReadingLists
/-
Equations, definitions `y=...` and inequalities from the text to the verdict (C100): normaliser, `latex2sympy` and comparison together.
-/

namespace Verif
open Re

variable {X V S : Type}

/-- The library call raises in every state. -/
def AlwaysRaises {α : Type} (e : Ext X α) : Prop := ∀ x, ∃ r x', e x = (.error r, x')

theorem AlwaysRaises.fails {α : Type} {e : Ext X α} (h : AlwaysRaises e) : Fails (M.ext e) := by
  intro w
  obtain ⟨r, x', hx⟩ := h w.ext
  exact ⟨r, { w with ext := x' }, by simp [M.ext, hx]⟩

theorem Fails.after {α β : Type} {m : M X α} {f : α → M X β} {P : α → Prop} (h : AlwaysP m P) (hf : ∀ a, P a → Fails (f a)) :
    Fails (m >>= f) := by
  intro w
  obtain ⟨a, w₁, h1, ha⟩ := h w
  obtain ⟨e, w₂, h2⟩ := hf a ha w₁
  exact ⟨e, w₂, by simp [h1, h2]⟩

/-- The sampling never raises. -/
theorem numericStage_returns (E : Env X V S) (gv vv : V) : AlwaysP (numericStage E gv vv) fun _ => True :=
  Safe.caught (fun _ _ _ _ => trivial) fun _ => AlwaysP.pure trivial

/-- If `latex2sympy` returns an object without truth value, there is no other candidate. -/
theorem sympyParse_alone (E : Env X V S) {s : Str} {P : V → Prop} (ht : ∀ v, P v → AlwaysRaises (E.truth v))
    (hl : RetP (E.l2s s) P) : AlwaysP (sympyParse E s) fun l => ∃ v, l = [some v, none, none] ∧ P v := by
  unfold sympyParse
  apply AlwaysP.bind (P := fun p : Option V × Option V => ∃ v, p = (some v, none) ∧ P v)
  · unfold parseCands12
    apply AlwaysP.bind (P := fun o => ∃ v, o = some v ∧ P v)
    · apply AlwaysP.tryExcept
      apply hl.always.bind
      intro v hv
      exact AlwaysP.pure ⟨v, rfl, hv⟩
    · rintro _ ⟨v, rfl, hv⟩
      exact AlwaysP.pure ⟨v, rfl, hv⟩
  · rintro _ ⟨v, rfl, hv⟩
    have h3 : Always (parseCand3 E s (some v) none) none := by
      unfold parseCand3
      refine Fails.tryExcept (fun w => ?_) fun _ => Always.pure _
      cases hp : (M.ext (E.parseExpr (replace s%"^" s%"**" s)) : M X V) w with
      | mk r w₁ =>
        cases r with
        | error e => exact ⟨e, w₁, by simp [hp]⟩
        | ok u =>
          obtain ⟨e, w₂, h2⟩ := (ht v hv).fails w₁
          exact ⟨e, w₂, by simp [hp, h2]⟩
    apply h3.bindP
    exact AlwaysP.pure ⟨v, rfl, hv⟩

/-- The candidates for the text `s` exist and all have the property `P`. -/
def ReadsAs (E : Env X V S) (s : Str) (P : V → Prop) : Prop :=
  AlwaysP (sympyParse E s) fun l => (∀ v, some v ∈ l → P v) ∧ ∃ v, some v ∈ l

theorem readsAs_alone {E : Env X V S} {s : Str} {P : V → Prop} (ht : ∀ v, P v → AlwaysRaises (E.truth v))
    (hl : RetP (E.l2s s) P) : ReadsAs E s P := by
  refine (sympyParse_alone E ht hl).mono ?_
  rintro _ ⟨v, rfl, hv⟩
  refine ⟨fun u hu => ?_, v, by simp⟩
  simp only [List.mem_cons, Option.some.injEq, reduceCtorEq, List.not_mem_nil, or_false] at hu
  rwa [hu]

theorem areEqualUnderSympy_by {E : Env X V S} {s t : Str} {P Q : V → Prop} (hs : ReadsAs E s P) (ht : ReadsAs E t Q) {n : Nat} {r : Bool}
    (h : ∀ g v, P g → Q v → Always (eqTyped E (areEqual E n) g v) r) (verbose : Bool) :
    Always (areEqualUnderSympy E n s t verbose) r := by
  unfold areEqualUnderSympy
  apply Always.tryExcept
  unfold areEqualWithSimplify
  apply AlwaysP.always hs
  rintro gs ⟨hg1, hg2⟩
  apply AlwaysP.always ht
  rintro vs ⟨hv1, hv2⟩
  have main := candsOuter_all (cmp := eqTyped E (areEqual E n)) h hg1 hg2 hv1 hv2
  cases verbose with
  | false => simpa using main
  | true =>
    intro w
    obtain ⟨w', h⟩ := main { w with out := candsLine :: candsLine :: w.out }
    exact ⟨w', by simpa using h⟩

/-- If the comparison of the only candidates raises, the texts are not equal. -/
theorem areEqualUnderSympy_raised {E : Env X V S} {s t : Str} {P Q : V → Prop} (hs : ∀ v, P v → AlwaysRaises (E.truth v))
    (ls : RetP (E.l2s s) P) (ht : ∀ v, Q v → AlwaysRaises (E.truth v)) (lt : RetP (E.l2s t) Q) {n : Nat}
    (h : ∀ g v, P g → Q v → Fails (eqTyped E (areEqual E n) g v)) (verbose : Bool) :
    Always (areEqualUnderSympy E n s t verbose) false := by
  unfold areEqualUnderSympy
  refine Fails.tryExcept ?_ fun _ => Always.pure _
  unfold areEqualWithSimplify
  refine Fails.after (sympyParse_alone E hs ls) ?_
  rintro _ ⟨g, rfl, hg⟩
  refine Fails.after (sympyParse_alone E ht lt) ?_
  rintro _ ⟨v, rfl, hv⟩
  have main : Fails (candsOuter (eqTyped E (areEqual E n)) [some g, none, none] [some v, none, none]) := by
    simp only [candsOuter, candsInner]
    exact Fails.bind (Fails.bind (h g v hg hv))
  cases verbose with
  | false => simpa using main
  | true =>
    intro w
    obtain ⟨e, w', h⟩ := main { w with out := candsLine :: candsLine :: w.out }
    exact ⟨e, w', by simpa using h⟩

/-- The verdict on two single expressions whose comparison gives `r`, if the first compares equal to itself. -/
theorem isEquiv_by_cas {E : Env X V S} {a b x y : Str} (n : Nat) {verbose r : Bool} (sa : strip a = a) (sb : strip b = b)
    (ha : Always (stringNormalize E n a) (.str x)) (hb : Always (stringNormalize E n b) (.str y))
    (hx : Single x) (hy : Single y) (cas : Always (areEqualUnderSympy E n x y verbose) r)
    (self : Always (areEqualUnderSympy E n x x verbose) true) :
    Always (isEquiv E (n + 1) (some a) (some b) verbose) r := by
  by_cases hi : Nonempty (World X)
  swap
  · exact fun w => (hi ⟨w⟩).elim
  obtain ⟨w⟩ := hi
  by_cases hxy : x = y
  · subst hxy
    rw [cas.unique w self]
    show Always (isEquivStr E (n + 1) a b verbose) true
    unfold isEquivStr
    split
    · exact Always.pure _
    · apply ha.bind
      apply hb.bind
      apply print_always
      unfold compareNorms
      simpa using Always.pure true
  · by_cases hab : a = b
    · subst hab
      have := ha.unique w hb
      simp only [Norm.str.injEq] at this
      exact absurd this hxy
    · exact isEquiv_single E n a b x y verbose _ ha hb hx hy (by rw [sa, sb]; exact hab) hxy cas

/-! ### The kinds of relations -/

/-- Whether the left side of an equation is a name: a symbol, the value of a named function, or one over such a value. -/
def Names (E : Env X V S) (l : V) (b : Bool) : Prop := RetP (E.inv l) fun i => ∃ p q r : Bool,
  Ret (E.isNamedFunction l) p ∧ Ret (E.isNamedFunction i) q ∧ Ret (E.isSymbol l) r ∧ (b = true ↔ p = true ∨ q = true ∨ r = true)

theorem getType_equation {E : Env X V S} {v l r : V} {b : Bool} (hv : E.view v = .equality l r) (h : Names E l b) :
    Always (getType E v) (if b then .func else .equl) := by
  unfold getType
  rw [hv]
  apply h.always.always
  rintro i ⟨p, q, s, hp, hq, hs, hb⟩
  apply hp.always.bind
  cases p with
  | true => rw [hb.2 (.inl rfl)]; exact Always.pure _
  | false =>
    simp only [Bool.false_eq_true, if_false]
    apply hq.always.bind
    cases q with
    | true => rw [hb.2 (.inr (.inl rfl))]; exact Always.pure _
    | false =>
      simp only [Bool.false_eq_true, if_false]
      apply hs.always.bind
      cases s with
      | true => rw [hb.2 (.inr (.inr rfl))]; exact Always.pure _
      | false =>
        have : b = false := by simpa using hb
        rw [this]
        exact Always.pure _

section
variable {K : Type} [Field K] [LinearOrder K] [IsStrictOrderedRing K] {E : Env X V S} {Is Ev : V → K → Prop}
  {Fun : V → List Str → ((Str → K) → K) → Prop}

/-- an equation that does not define a name; the difference of its sides is the function `d` of the symbols `a` -/
def EquationOf (E : Env X V S) (Fun : V → List Str → ((Str → K) → K) → Prop) (a : List Str) (d : (Str → K) → K) (v : V) : Prop :=
  ∃ l r, E.view v = .equality l r ∧ Names E l false ∧ RetP (E.sub l r) (Fun · a d)

/-- an equation that defines a name to be what has the property `P` -/
def DefinitionOf (E : Env X V S) (P : V → Prop) (v : V) : Prop := ∃ l r, E.view v = .equality l r ∧ Names E l true ∧ P r

/-- an inequality; the smaller side minus the greater side is the function `d` of the symbols `a` -/
def InequalityOf (E : Env X V S) (Fun : V → List Str → ((Str → K) → K) → Prop) (o : RelOp) (a : List Str) (d : (Str → K) → K) (v : V) :
    Prop :=
  ∃ l r, E.view v = .rel o l r ∧
    ((o = .lt ∨ o = .le) ∧ RetP (E.sub l r) (Fun · a d) ∨ (o = .gt ∨ o = .ge) ∧ RetP (E.sub r l) (Fun · a d))

/-- What is known of the verdict `r` on two equations whose sides differ by `d` and `e`. -/
def EquationsDecided (a b : List Str) (d e : (Str → K) → K) : Bool → Prop
  | true => Decided a b d e true ∨ Decided a b (fun ρ => -d ρ) e true
  | false => Decided a b d e false ∧ Decided a b (fun ρ => -d ρ) e false

variable (H : FunArith E Is Ev Fun) {a b : List Str} {d e : (Str → K) → K} (ha : a ≠ []) (hb : b ≠ [])
  (hia : ∃ k ∈ a, E.symName k ≠ s%"i") (hib : ∃ k ∈ b, E.symName k ≠ s%"i")
include H ha hb hia hib

theorem eqTyped_equations (hneg : ∀ {v a f}, Fun v a f → RetP (E.neg v) (Fun · a fun ρ => -f ρ)) (n : Nat) {g v : V}
    (hg : EquationOf E Fun a d g) (hv : EquationOf E Fun b e v) {r : Bool} (hr : EquationsDecided a b d e r) :
    Always (eqTyped E (areEqual E (n + 2)) g v) r := by
  obtain ⟨l, r₁, h1, h2, h3⟩ := hg
  obtain ⟨l', r₂, k1, k2, k3⟩ := hv
  have hty : ∀ {u c k}, Fun u c k → Always (getType E u) .expr := by
    intro u c k hu
    unfold getType
    rw [H.view hu]
    exact Always.pure _
  unfold eqTyped
  apply (getType_equation h1 h2).bind
  apply (getType_equation k1 k2).bind
  show Always (equationsEqual E (areEqual E (n + 1)) g v) r
  unfold equationsEqual eqDiff
  rw [h1, k1]
  apply h3.always.always
  intro x hx
  apply k3.always.always
  intro y hy
  apply (hty hx).bind
  apply (hty hy).bind
  have second : ∀ {q : Bool}, Decided a b (fun ρ => -d ρ) e q →
      Always (do let ng ← M.ext (E.neg x); areEqual E (n + 1) ng y .expr .expr) q := by
    intro q hq
    apply (hneg hx).always.always
    intro z hz
    exact areEqual_fun H n hz hy ha hb hia hib hq
  cases r with
  | true =>
    rcases hr with hr | hr
    · apply (areEqual_fun H n hx hy ha hb hia hib hr).bind
      exact Always.pure _
    · apply (areEqual_sampled H n hx hy ha hia hib (numericStage_returns E x y) fun _ => trivial).always
      intro q _
      cases q with
      | true => exact Always.pure _
      | false => exact second hr
  | false =>
    apply (areEqual_fun H n hx hy ha hb hia hib hr.1).bind
    exact second hr.2

theorem eqTyped_inequalities (n : Nat) {g v : V} {o o' : RelOp} (hg : InequalityOf E Fun o a d g) (hv : InequalityOf E Fun o' b e v)
    (ho : IsStrict o ↔ IsStrict o') {r : Bool} (hr : Decided a b d e r) : Always (eqTyped E (areEqual E (n + 2)) g v) r := by
  obtain ⟨l, r₁, h1, h2⟩ := hg
  obtain ⟨l', r₂, k1, k2⟩ := hv
  have hty : ∀ {u c k}, Fun u c k → Always (getType E u) .expr := by
    intro u c k hu
    unfold getType
    rw [H.view hu]
    exact Always.pure _
  have conv : ∀ {v l r o a d}, E.view v = .rel o l r →
      ((o = .lt ∨ o = .le) ∧ RetP (E.sub l r) (Fun · a d) ∨ (o = .gt ∨ o = .ge) ∧ RetP (E.sub r l) (Fun · a d)) →
      AlwaysP (ineqToExpr E v) (Fun · a d) := by
    intro v l r o a d hv h
    unfold ineqToExpr
    rw [hv]
    rcases h with ⟨rfl | rfl, h⟩ | ⟨rfl | rfl, h⟩ <;> exact h.always
  have ty : ∀ {v l r o}, E.view v = .rel o l r → Always (getType E v) .ineq := by
    intro v l r o hv
    unfold getType
    rw [hv]
    exact Always.pure _
  have rop : ∀ {v l r o}, E.view v = .rel o l r → Always (relOp E v) o := by
    intro v l r o hv
    unfold relOp
    rw [hv]
    exact Always.pure _
  have hc : ((o.nonStrict && o'.nonStrict) || (o.strict && o'.strict)) = true := by
    unfold IsStrict at ho
    have h2 : o ≠ .ne := by rcases h2 with ⟨h | h, _⟩ | ⟨h | h, _⟩ <;> rw [h] <;> simp
    have k2 : o' ≠ .ne := by rcases k2 with ⟨h | h, _⟩ | ⟨h | h, _⟩ <;> rw [h] <;> simp
    revert ho h2 k2
    cases o <;> cases o' <;> decide
  unfold eqTyped
  apply (ty h1).bind
  apply (ty k1).bind
  show Always (ineqsEqual E (areEqual E (n + 1)) g v) r
  unfold ineqsEqual
  apply (rop h1).bind
  apply (rop k1).bind
  simp only [hc, if_true]
  apply (conv h1 h2).always
  intro x hx
  apply (conv k1 k2).always
  intro y hy
  apply (hty hx).bind
  apply (hty hy).bind
  exact areEqual_fun H n hx hy ha hb hia hib hr

omit H ha hb hia hib

/-- the comparison of a strict and a non-strict inequality, and of disequations, raises -/
theorem eqTyped_unlike (n : Nat) {g v l r l' r' : V} {o o' : RelOp} (hg : E.view g = .rel o l r) (hv : E.view v = .rel o' l' r')
    (ho : ¬ (IsStrict o ∧ IsStrict o') ∧ ¬ (IsNonStrict o ∧ IsNonStrict o')) : Fails (eqTyped E (areEqual E (n + 1)) g v) := by
  have ty : ∀ {v l r o}, E.view v = .rel o l r → Always (getType E v) .ineq := by
    intro v l r o hv
    unfold getType
    rw [hv]
    exact Always.pure _
  have hc : ((o.nonStrict && o'.nonStrict) || (o.strict && o'.strict)) = false := by
    unfold IsStrict IsNonStrict at ho
    revert ho
    cases o <;> cases o' <;> decide
  unfold eqTyped
  refine Fails.after ((ty hg).alwaysP (P := (· = .ineq)) rfl) ?_
  rintro _ rfl
  refine Fails.after ((ty hv).alwaysP (P := (· = .ineq)) rfl) ?_
  rintro _ rfl
  show Fails (ineqsEqual E (areEqual E n) g v)
  unfold ineqsEqual relOp uneqToSet
  rw [hg, hv]
  simp only [pure_bind', hc, Bool.false_eq_true, if_false]
  intro w
  cases o <;> exact ⟨_, _, rfl⟩

/-- what has the property `P`, or the definition of a name to be such a thing -/
def Stated (E : Env X V S) (P : V → Prop) (v : V) : Prop := P v ∨ DefinitionOf E P v

/-- Definitions are compared by what the names are defined to be. -/
theorem eqTyped_definitions {P Q : V → Prop} (hP : ∀ v, P v → E.view v = .expr false) (hQ : ∀ v, Q v → E.view v = .expr false)
    {r : Bool} (h : ∀ n g v, P g → Q v → Always (areEqual E (n + 1) g v .expr .expr) r) (n : Nat) {g v : V}
    (hg : Stated E P g) (hv : Stated E Q v) : Always (eqTyped E (areEqual E (n + 2)) g v) r := by
  have ty : ∀ {u}, E.view u = .expr false → Always (getType E u) .expr := by
    intro u hu
    unfold getType
    rw [hu]
    exact Always.pure _
  have bare : ∀ {u}, E.view u = .expr false → Always (rhsIfEq E u .expr) (u, .expr) := by
    intro u hu
    unfold rhsIfEq
    rw [hu]
    exact Always.pure _
  have side : ∀ {u l r t}, E.view u = .equality l r → E.view r = .expr false → Always (rhsIfEq E u t) (r, .expr) := by
    intro u l r t hu hr
    unfold rhsIfEq
    rw [hu]
    apply (ty hr).bind
    exact Always.pure _
  unfold eqTyped
  rcases hg with hg | ⟨l, x, h1, h2, h3⟩ <;> rcases hv with hv | ⟨l', y, k1, k2, k3⟩
  · apply (ty (hP g hg)).bind
    apply (ty (hQ v hv)).bind
    exact h (n + 1) g v hg hv
  · apply (ty (hP g hg)).bind
    apply (getType_equation k1 k2).bind
    show Always (functionsEqual E (areEqual E (n + 1)) g v .expr .func) r
    apply (bare (hP g hg)).bind
    apply (side k1 (hQ y k3)).bind
    exact h n g y hg k3
  · apply (getType_equation h1 h2).bind
    apply (ty (hQ v hv)).bind
    show Always (functionsEqual E (areEqual E (n + 1)) g v .func .expr) r
    apply (side h1 (hP x h3)).bind
    apply (bare (hQ v hv)).bind
    exact h n x v h3 hv
  · apply (getType_equation h1 h2).bind
    apply (getType_equation k1 k2).bind
    show Always (functionsEqual E (areEqual E (n + 1)) g v .func .func) r
    apply (side h1 (hP x h3)).bind
    apply (side k1 (hQ y k3)).bind
    exact h n x y h3 k3

end

end Verif

namespace Verif.L2S
open Verif Verif.Reading Verif.Grammar

section
variable {K : Type} [Field K] [LinearOrder K] [IsStrictOrderedRing K] {X V Y S : Type}

/-- SymPy's relations as the comparison sees them.  They have no truth value. -/
structure SeesRelations (E : Env X V S) (inj : SV → V) : Prop where
  equation : ∀ l r, E.view (inj (.rel s%"=" l r)) = .equality (inj l) (inj r)
  relation : ∀ op o, (op, o) ∈ relOps → ∀ l r, E.view (inj (.rel op l r)) = .rel o (inj l) (inj r)
  truth : ∀ op l r, AlwaysRaises (E.truth (inj (.rel op l r)))

/-- An answer that is a relation between two expressions in LaTeX notation, without what has a meaning of its own to the normaliser.
`f` and `g` give the values of its sides for all values of the variables.  `P` says what SymPy does with the sides that
`latex2sympy` returns. -/
structure Statement (E : Env X V S) (L : Lib Y) (N : Nat) (I : Interp K) (inj : SV → V) (s op : Str) (f g : (Str → K) → K)
    (P : V → V → Prop) : Prop where
  tidy : Tidy s
  single : Single s
  notInt : ∀ q, pyFloat E.U s = some q → isIntFloat q = false
  denotes : ∃ ws free, ∃ wide : Bool, Written ws s ∧ ∀ ρ, Item (I.vars ρ) free wide ws (.relation op (f ρ) (g ρ))
  sides : ∀ w w' l r, NoMatrix I.real w.ext.g → latex2sympy L (N + 1) s [] w = (.ok (.rel op l r), w') →
    l.scalar = true → r.scalar = true → (∀ ρ, den (I.vars ρ) l = f ρ) → (∀ ρ, den (I.vars ρ) r = g ρ) → P (inj l) (inj r)

variable {E : Env X V S} {L : Lib Y} {I : Interp K} {Is Ev : V → K → Prop} {Fun : V → List Str → ((Str → K) → K) → Prop}
  {inj : SV → V} {N : Nat}

theorem Statement.reads (hL : SoundLib I L) (hp : ∀ s t, parseText s = some t → L.parse s = .ok t)
    (hl : UsesUndeclared E L N inj I.real) {s op : Str} {f g : (Str → K) → K} {P : V → V → Prop}
    (h : Statement E L N I inj s op f g P) :
    RetP (E.l2s s) fun v => ∃ l r, v = inj (.rel op l r) ∧ P (inj l) (inj r) := by
  intro x
  obtain ⟨ws, free, wide, hw, hd⟩ := h.denotes
  obtain ⟨w, hn, he⟩ := hl s x
  obtain ⟨h1, h2, _⟩ := id hn
  have key : ∀ ρ, ∃ v w', latex2sympy L (N + 1) s [] w = (.ok v, w') ∧ Says (I.vars ρ) v (.relation op (f ρ) (g ρ)) := fun ρ =>
    C87_relation (hL.vars ρ) hp N [] w ⟨h1, fun n _ => by rw [h2]; rfl⟩ (hd ρ) hw
  obtain ⟨v, w', e, hv⟩ := key fun _ => 0
  cases hv with
  | @relation _ l r _ _ hl1 _ hr1 _ =>
    have hden : ∀ ρ, den (I.vars ρ) l = f ρ ∧ den (I.vars ρ) r = g ρ := by
      intro ρ
      obtain ⟨v', w'', e', hv⟩ := key ρ
      rw [e] at e'
      cases e'
      cases hv with
      | relation _ h1 _ h2 => exact ⟨h1, h2⟩
    rw [e] at he
    exact ⟨inj (.rel op l r), (E.l2s s x).2, Prod.ext he rfl, l, r, rfl,
      h.sides w w' l r hn e hl1 hr1 (fun ρ => (hden ρ).1) fun ρ => (hden ρ).2⟩

/-- An equation whose left side is not a name.  The difference of its sides is the function `f - g` of the variables `a`. -/
def EquationAnswer (E : Env X V S) (L : Lib Y) (N : Nat) (I : Interp K) (inj : SV → V)
    (Fun : V → List Str → ((Str → K) → K) → Prop) (s : Str) (a : List Str) (f g : (Str → K) → K) : Prop :=
  Statement E L N I inj s s%"=" f g (fun l r => Names E l false ∧ RetP (E.sub l r) (Fun · a fun ρ => f ρ - g ρ)) ∧
    a ≠ [] ∧ ∃ k ∈ a, E.symName k ≠ s%"i"

/-- An equation whose left side is a name and whose right side is the function `g` of the variables `a`. -/
def DefinitionAnswer (E : Env X V S) (L : Lib Y) (N : Nat) (I : Interp K) (inj : SV → V)
    (Fun : V → List Str → ((Str → K) → K) → Prop) (s : Str) (a : List Str) (f g : (Str → K) → K) : Prop :=
  Statement E L N I inj s s%"=" f g (fun l r => Names E l true ∧ Fun r a g) ∧ a ≠ [] ∧ ∃ k ∈ a, E.symName k ≠ s%"i"

/-- An inequality.  The smaller side minus the greater side is the function `d` of the variables `a`. -/
def InequalityAnswer (E : Env X V S) (L : Lib Y) (N : Nat) (I : Interp K) (inj : SV → V)
    (Fun : V → List Str → ((Str → K) → K) → Prop) (s : Str) (strict : Bool) (a : List Str) (f g d : (Str → K) → K) : Prop :=
  ((Statement E L N I inj s (if strict then s%"<" else s%"<=") f g (fun l r => RetP (E.sub l r) (Fun · a d)) ∧ d = fun ρ => f ρ - g ρ) ∨
    (Statement E L N I inj s (if strict then s%">" else s%">=") f g (fun l r => RetP (E.sub r l) (Fun · a d)) ∧
      d = fun ρ => g ρ - f ρ)) ∧
    a ≠ [] ∧ ∃ k ∈ a, E.symName k ≠ s%"i"

section
variable (hL : SoundLib I L) (hp : ∀ s t, parseText s = some t → L.parse s = .ok t) (hl : UsesUndeclared E L N inj I.real)
  (hr : SeesRelations E inj)
include hL hp hl hr

theorem EquationAnswer.reads {s : Str} {a : List Str} {f g : (Str → K) → K} (h : EquationAnswer E L N I inj Fun s a f g) :
    ReadsAs E s (EquationOf E Fun a fun ρ => f ρ - g ρ) := by
  refine (readsAs_alone (P := fun v => ∃ l r, v = inj (.rel s%"=" l r) ∧ Names E (inj l) false ∧
    RetP (E.sub (inj l) (inj r)) (Fun · a fun ρ => f ρ - g ρ)) ?_ (h.1.reads hL hp hl)).mono ?_
  · rintro _ ⟨l, r, rfl, _⟩
    exact hr.truth _ l r
  · rintro vs ⟨h1, h2⟩
    refine ⟨fun v hv => ?_, h2⟩
    obtain ⟨l, r, rfl, h3, h4⟩ := h1 v hv
    exact ⟨inj l, inj r, hr.equation l r, h3, h4⟩

theorem Statement.defines {s : Str} {f g : (Str → K) → K} {P : V → Prop}
    (h : Statement E L N I inj s s%"=" f g (fun l r => Names E l true ∧ P r)) : ReadsAs E s (Stated E P) := by
  refine (readsAs_alone (P := fun v => ∃ l r, v = inj (.rel s%"=" l r) ∧ Names E (inj l) true ∧ P (inj r)) ?_
    (h.reads hL hp hl)).mono ?_
  · rintro _ ⟨l, r, rfl, _⟩
    exact hr.truth _ l r
  · rintro vs ⟨h1, h2⟩
    refine ⟨fun v hv => ?_, h2⟩
    obtain ⟨l, r, rfl, h3, h4⟩ := h1 v hv
    exact .inr ⟨inj l, inj r, hr.equation l r, h3, h4⟩

theorem InequalityAnswer.reads {s : Str} {strict : Bool} {a : List Str} {f g d : (Str → K) → K}
    (h : InequalityAnswer E L N I inj Fun s strict a f g d) :
    RetP (E.l2s s) (fun v => (∃ o, (strict = true ↔ IsStrict o) ∧ (strict = false ↔ IsNonStrict o) ∧ InequalityOf E Fun o a d v) ∧
      AlwaysRaises (E.truth v)) := by
  rcases h.1 with ⟨h, _⟩ | ⟨h, _⟩
  · intro x
    obtain ⟨v, x', h1, l, r, rfl, h2⟩ := h.reads hL hp hl x
    refine ⟨_, x', h1, ?_, hr.truth _ l r⟩
    cases strict with
    | true => exact ⟨.lt, by simp [IsStrict], by simp [IsNonStrict], inj l, inj r, hr.relation _ .lt (by decide) l r, .inl ⟨.inl rfl, h2⟩⟩
    | false => exact ⟨.le, by simp [IsStrict], by simp [IsNonStrict], inj l, inj r, hr.relation _ .le (by decide) l r, .inl ⟨.inr rfl, h2⟩⟩
  · intro x
    obtain ⟨v, x', h1, l, r, rfl, h2⟩ := h.reads hL hp hl x
    refine ⟨_, x', h1, ?_, hr.truth _ l r⟩
    cases strict with
    | true => exact ⟨.gt, by simp [IsStrict], by simp [IsNonStrict], inj l, inj r, hr.relation _ .gt (by decide) l r, .inr ⟨.inl rfl, h2⟩⟩
    | false => exact ⟨.ge, by simp [IsStrict], by simp [IsNonStrict], inj l, inj r, hr.relation _ .ge (by decide) l r, .inr ⟨.inr rfl, h2⟩⟩

omit hL hp hl hr [LinearOrder K] [IsStrictOrderedRing K] in
theorem InequalityAnswer.plain {s : Str} {strict : Bool} {a : List Str} {f g d : (Str → K) → K}
    (h : InequalityAnswer E L N I inj Fun s strict a f g d) :
    Tidy s ∧ Single s ∧ ∀ q, pyFloat E.U s = some q → isIntFloat q = false := by
  rcases h.1 with ⟨h, _⟩ | ⟨h, _⟩ <;> exact ⟨h.tidy, h.single, h.notInt⟩

theorem equations_verdict (H : FunArith E Is Ev Fun) (hneg : ∀ {v a f}, Fun v a f → RetP (E.neg v) (Fun · a fun ρ => -f ρ))
    {s t : Str} {a b : List Str} {f g f' g' : (Str → K) → K} (hs : EquationAnswer E L N I inj Fun s a f g)
    (ht : EquationAnswer E L N I inj Fun t b f' g') {r : Bool}
    (hv : EquationsDecided a b (fun ρ => f ρ - g ρ) (fun ρ => f' ρ - g' ρ) r) (n : Nat) (verbose : Bool) :
    Always (isEquiv E (n + 3) (some s) (some t) verbose) r := by
  have rs := hs.reads hL hp hl hr
  have rt := ht.reads hL hp hl hr
  obtain ⟨hs, ha, hia⟩ := hs
  obtain ⟨ht, hb, hib⟩ := ht
  exact isEquiv_by_cas (n + 2) (strip_of_no_space _ fun _ hc => hs.tidy.space hc) (strip_of_no_space _ fun _ hc => ht.tidy.space hc)
    (hs.tidy.fixed E (n + 1) hs.notInt) (ht.tidy.fixed E (n + 1) ht.notInt) hs.single ht.single
    (areEqualUnderSympy_by rs rt (fun _ _ hg hv' => eqTyped_equations H ha hb hia hib hneg n hg hv' hv) verbose)
    (areEqualUnderSympy_by rs rs (fun _ _ hg hv' => eqTyped_equations H ha ha hia hia hneg n hg hv' (r := true)
      (Or.inl (decided_refl _ _))) verbose)

/-- **C100**, equations.  Two equations whose left sides are not names are judged equivalent if the differences of their sides are
functions of the same variables that agree within the tolerance, or agree up to the sign, wherever the variables lie between 1 and
10. -/
theorem C100_equations_partial (H : FunArith E Is Ev Fun) (hneg : ∀ {v a f}, Fun v a f → RetP (E.neg v) (Fun · a fun ρ => -f ρ))
    {s t : Str} {a b : List Str} {f g f' g' : (Str → K) → K} (hs : EquationAnswer E L N I inj Fun s a f g)
    (ht : EquationAnswer E L N I inj Fun t b f' g') (hab : ∀ k, k ∈ a ↔ k ∈ b)
    (h : (∀ ρ, Sampled ρ → WithinTolerance (f ρ - g ρ) (f' ρ - g' ρ)) ∨ ∀ ρ, Sampled ρ → WithinTolerance (-(f ρ - g ρ)) (f' ρ - g' ρ))
    (n : Nat) (verbose : Bool) : Always (isEquiv E (n + 3) (some s) (some t) verbose) true :=
  equations_verdict hL hp hl hr H hneg hs ht (r := true) (h.imp (fun h => ⟨hab, h⟩) fun h => ⟨hab, h⟩) n verbose

/-- **C100**, equations.  They are judged not equivalent if neither the differences of their sides nor the sums of these differences are
constants below 1/1000, and the variables differ or the differences are nowhere within the tolerance, with either sign. -/
theorem C100_equations_apart_partial (H : FunArith E Is Ev Fun)
    (hneg : ∀ {v a f}, Fun v a f → RetP (E.neg v) (Fun · a fun ρ => -f ρ)) {s t : Str} {a b : List Str} {f g f' g' : (Str → K) → K}
    (hs : EquationAnswer E L N I inj Fun s a f g) (ht : EquationAnswer E L N I inj Fun t b f' g')
    (h1 : ¬ NearlyConstant fun ρ => f ρ - g ρ - (f' ρ - g' ρ)) (h2 : ¬ NearlyConstant fun ρ => -(f ρ - g ρ) - (f' ρ - g' ρ))
    (h : (¬ ∀ k, k ∈ a ↔ k ∈ b) ∨
      ∀ ρ, Sampled ρ → ¬ WithinTolerance (f ρ - g ρ) (f' ρ - g' ρ) ∧ ¬ WithinTolerance (-(f ρ - g ρ)) (f' ρ - g' ρ))
    (n : Nat) (verbose : Bool) : Always (isEquiv E (n + 3) (some s) (some t) verbose) false :=
  equations_verdict hL hp hl hr H hneg hs ht (r := false)
    ⟨⟨h1, h.imp id fun h ρ hρ => (h ρ hρ).1⟩, ⟨h2, h.imp id fun h ρ hρ => (h ρ hρ).2⟩⟩ n verbose

/-- **C100**, inequalities.  Two inequalities, both strict or both not strict, get the verdict on the differences of their sides: `true`
if the differences, smaller side minus greater side, are functions of the same variables that agree within the tolerance wherever
the variables lie between 1 and 10; `false` if the variables differ or the differences are nowhere within the tolerance there, and
they do not differ by a constant below 1/1000. -/
theorem C100_inequalities_partial (H : FunArith E Is Ev Fun) {s t : Str} {strict : Bool} {a b : List Str} {f g d f' g' e : (Str → K) → K}
    (hs : InequalityAnswer E L N I inj Fun s strict a f g d) (ht : InequalityAnswer E L N I inj Fun t strict b f' g' e) (n : Nat)
    (verbose : Bool) :
    ((∀ k, k ∈ a ↔ k ∈ b) → (∀ ρ, Sampled ρ → WithinTolerance (d ρ) (e ρ)) →
      Always (isEquiv E (n + 3) (some s) (some t) verbose) true) ∧
    ((¬ NearlyConstant fun ρ => d ρ - e ρ) → ((¬ ∀ k, k ∈ a ↔ k ∈ b) ∨ ∀ ρ, Sampled ρ → ¬ WithinTolerance (d ρ) (e ρ)) →
      Always (isEquiv E (n + 3) (some s) (some t) verbose) false) := by
  have rs := hs.reads hL hp hl hr
  have rt := ht.reads hL hp hl hr
  obtain ⟨s1, s2, s3⟩ := hs.plain
  obtain ⟨t1, t2, t3⟩ := ht.plain
  have key : ∀ {r : Bool}, Decided a b d e r → Always (isEquiv E (n + 3) (some s) (some t) verbose) r := by
    intro r hv
    refine isEquiv_by_cas (n + 2) (strip_of_no_space _ fun _ hc => s1.space hc) (strip_of_no_space _ fun _ hc => t1.space hc)
      (s1.fixed E (n + 1) s3) (t1.fixed E (n + 1) t3) s2 t2
      (areEqualUnderSympy_by (readsAs_alone (fun _ h => h.2) rs) (readsAs_alone (fun _ h => h.2) rt) ?_ verbose)
      (areEqualUnderSympy_by (readsAs_alone (fun _ h => h.2) rs) (readsAs_alone (fun _ h => h.2) rs) ?_ verbose)
    · rintro _ _ ⟨⟨o, h1, _, h2⟩, _⟩ ⟨⟨o', k1, _, k2⟩, _⟩
      exact eqTyped_inequalities H hs.2.1 ht.2.1 hs.2.2 ht.2.2 n h2 k2 (h1.symm.trans k1) hv
    · rintro _ _ ⟨⟨o, h1, _, h2⟩, _⟩ ⟨⟨o', k1, _, k2⟩, _⟩
      exact eqTyped_inequalities H hs.2.1 hs.2.1 hs.2.2 hs.2.2 n h2 k2 (h1.symm.trans k1) (decided_refl _ _)
  exact ⟨fun h1 h2 => key (r := true) ⟨h1, h2⟩, fun h1 h2 => key (r := false) ⟨h1, h2⟩⟩

/-- **C100**, strictness.  A strict and a non-strict inequality are judged not equivalent. -/
theorem C100_strictness (H : FunArith E Is Ev Fun) {s t : Str} {strict strict' : Bool} {a b : List Str} {f g d f' g' e : (Str → K) → K}
    (hs : InequalityAnswer E L N I inj Fun s strict a f g d) (ht : InequalityAnswer E L N I inj Fun t strict' b f' g' e)
    (hne : strict ≠ strict') (n : Nat) (verbose : Bool) : Always (isEquiv E (n + 3) (some s) (some t) verbose) false := by
  have rs := hs.reads hL hp hl hr
  have rt := ht.reads hL hp hl hr
  obtain ⟨s1, s2, s3⟩ := hs.plain
  obtain ⟨t1, t2, t3⟩ := ht.plain
  refine isEquiv_by_cas (n + 2) (strip_of_no_space _ fun _ hc => s1.space hc) (strip_of_no_space _ fun _ hc => t1.space hc)
    (s1.fixed E (n + 1) s3) (t1.fixed E (n + 1) t3) s2 t2
    (areEqualUnderSympy_raised (fun _ h => h.2) rs (fun _ h => h.2) rt ?_ verbose)
    (areEqualUnderSympy_by (readsAs_alone (fun _ h => h.2) rs) (readsAs_alone (fun _ h => h.2) rs) ?_ verbose)
  · rintro _ _ ⟨⟨o, h1, h1', l, r, h2, _⟩, _⟩ ⟨⟨o', k1, k1', l', r', k2, _⟩, _⟩
    refine eqTyped_unlike (n + 1) h2 k2 ⟨?_, ?_⟩
    · rintro ⟨a, b⟩; exact hne ((h1.2 a).trans (k1.2 b).symm)
    · rintro ⟨a, b⟩; exact hne ((h1'.2 a).trans (k1'.2 b).symm)
  · rintro _ _ ⟨⟨o, h1, _, h2⟩, _⟩ ⟨⟨o', k1, _, k2⟩, _⟩
    exact eqTyped_inequalities H hs.2.1 hs.2.1 hs.2.2 hs.2.2 n h2 k2 (h1.symm.trans k1) (decided_refl _ _)

/-- **C100**, disequations.  Two disequations are judged not equivalent unless they are the same text. -/
theorem C100_disequations {s t : Str} {f g f' g' : (Str → K) → K} (hs : Statement E L N I inj s s%"!=" f g fun _ _ => True)
    (ht : Statement E L N I inj t s%"!=" f' g' fun _ _ => True) (hst : s ≠ t) (n : Nat) (verbose : Bool) :
    Always (isEquiv E (n + 2) (some s) (some t) verbose) false := by
  have ss := strip_of_no_space _ fun _ hc => hs.tidy.space hc
  have st := strip_of_no_space _ fun _ hc => ht.tidy.space hc
  have raise : ∀ v, (∃ l r, v = inj (.rel s%"!=" l r) ∧ True) → AlwaysRaises (E.truth v) := by
    rintro _ ⟨l, r, rfl, _⟩
    exact hr.truth _ l r
  refine isEquiv_single E (n + 1) s t s t verbose _ (hs.tidy.fixed E n hs.notInt) (ht.tidy.fixed E n ht.notInt) hs.single ht.single
    (by rw [ss, st]; exact hst) hst (areEqualUnderSympy_raised raise (hs.reads hL hp hl) raise (ht.reads hL hp hl) ?_ verbose)
  rintro _ _ ⟨l, r, rfl, _⟩ ⟨l', r', rfl, _⟩
  exact eqTyped_unlike n (hr.relation _ .ne (by decide) l r) (hr.relation _ .ne (by decide) l' r') (by simp [IsStrict, IsNonStrict])

/-- **C100**, definitions.  An equation whose left side is a name – `y=...`, `f(x)=...` – is judged as its right side, against another
such equation, whatever the names, and against an expression. -/
theorem C100_definitions_partial (H : FunArith E Is Ev Fun) {s t : Str} {a b : List Str} {f g f' g' : (Str → K) → K}
    (hs : FunAnswer E I inj Fun s a g ∨ DefinitionAnswer E L N I inj Fun s a f g)
    (ht : FunAnswer E I inj Fun t b g' ∨ DefinitionAnswer E L N I inj Fun t b f' g') (n : Nat) (verbose : Bool) :
    ((∀ k, k ∈ a ↔ k ∈ b) → (∀ ρ, Sampled ρ → WithinTolerance (g ρ) (g' ρ)) →
      Always (isEquiv E (n + 3) (some s) (some t) verbose) true) ∧
    ((¬ NearlyConstant fun ρ => g ρ - g' ρ) → ((¬ ∀ k, k ∈ a ↔ k ∈ b) ∨ ∀ ρ, Sampled ρ → ¬ WithinTolerance (g ρ) (g' ρ)) →
      Always (isEquiv E (n + 3) (some s) (some t) verbose) false) := by
  have all : ∀ {s a f g}, FunAnswer E I inj Fun s a g ∨ DefinitionAnswer E L N I inj Fun s a f g →
      ReadsAs E s (Stated E (Fun · a g)) ∧ Tidy s ∧ Single s ∧ (∀ q, pyFloat E.U s = some q → isIntFloat q = false) ∧ a ≠ [] ∧
        ∃ k ∈ a, E.symName k ≠ s%"i" := by
    rintro s a f g (h | ⟨h, ha, hi⟩)
    · have hf := h.reads hL hp hl
      refine ⟨(sympyParse_real E (fun v h => ⟨_, H.view h⟩) hf.parseExpr hf.l2s).mono ?_, h.tidy, h.single, h.notInt, h.names, h.notI⟩
      exact fun vs hv => ⟨fun v hm => .inl (hv.1 v hm), hv.2⟩
    · exact ⟨h.defines hL hp hl hr, h.tidy, h.single, h.notInt, ha, hi⟩
  obtain ⟨rs, s1, s2, s3, ha, hia⟩ := all hs
  obtain ⟨rt, t1, t2, t3, hb, hib⟩ := all ht
  have key : ∀ {r : Bool}, Decided a b g g' r → Always (isEquiv E (n + 3) (some s) (some t) verbose) r := by
    intro r hv
    refine isEquiv_by_cas (n + 2) (strip_of_no_space _ fun _ hc => s1.space hc) (strip_of_no_space _ fun _ hc => t1.space hc)
      (s1.fixed E (n + 1) s3) (t1.fixed E (n + 1) t3) s2 t2 (areEqualUnderSympy_by rs rt ?_ verbose)
      (areEqualUnderSympy_by rs rs ?_ verbose)
    · intro _ _ hg hv'
      exact eqTyped_definitions (fun _ h => H.view h) (fun _ h => H.view h)
        (fun n _ _ hg hv' => areEqual_fun H n hg hv' ha hb hia hib hv) n hg hv'
    · intro _ _ hg hv'
      exact eqTyped_definitions (fun _ h => H.view h) (fun _ h => H.view h)
        (fun n _ _ hg hv' => areEqual_fun H n hg hv' ha ha hia hia (decided_refl _ _)) n hg hv'
  exact ⟨fun h1 h2 => key (r := true) ⟨h1, h2⟩, fun h1 h2 => key (r := false) ⟨h1, h2⟩⟩

open Classical in
/-- **C100**, definitions by numbers.  Two equations whose left sides are names and whose right sides are numbers are judged equivalent
exactly if the numbers agree within the tolerance, whatever the names. -/
theorem C100_numbers (H : RealArith E Is Ev) {s t : Str} {f f' : (Str → K) → K} {p q : K}
    (hs : Statement E L N I inj s s%"=" f (fun _ => p) (fun l r => Names E l true ∧ Is r p))
    (ht : Statement E L N I inj t s%"=" f' (fun _ => q) (fun l r => Names E l true ∧ Is r q)) (n : Nat) (verbose : Bool) :
    Always (isEquiv E (n + 3) (some s) (some t) verbose) (decide (WithinTolerance p q)) := by
  have rs := hs.defines hL hp hl hr
  have rt := ht.defines hL hp hl hr
  refine isEquiv_by_cas (n + 2) (strip_of_no_space _ fun _ hc => hs.tidy.space hc) (strip_of_no_space _ fun _ hc => ht.tidy.space hc)
    (hs.tidy.fixed E (n + 1) hs.notInt) (ht.tidy.fixed E (n + 1) ht.notInt) hs.single ht.single
    (areEqualUnderSympy_by rs rt ?_ verbose) (areEqualUnderSympy_by rs rs ?_ verbose)
  · intro _ _ hg hv
    exact eqTyped_definitions (fun _ h => H.view h) (fun _ h => H.view h) (fun n _ _ hg hv => areEqual_real H n hg hv) n hg hv
  · intro _ _ hg hv
    refine eqTyped_definitions (fun _ h => H.view h) (fun _ h => H.view h) (fun n _ _ hg hv => ?_) n hg hv
    have := areEqual_real H n hg hv
    rwa [withinTolerance_refl p] at this

end

end

/-! ### The hypotheses are met -/

theorem funEnv_relations : SeesRelations funEnv asFun where
  equation l r := by simp only [asFun, show relOps.lookup s%"=" = none by decide]; rfl
  relation op o h l r := by
    have : relOps.lookup op = some o := by
      revert h
      simp only [relOps, List.mem_cons, Prod.mk.injEq, List.not_mem_nil, or_false]
      rintro (⟨rfl, rfl⟩ | ⟨rfl, rfl⟩ | ⟨rfl, rfl⟩ | ⟨rfl, rfl⟩ | ⟨rfl, rfl⟩) <;> decide
    simp only [asFun, this]
    rfl
  truth op l r := by
    intro x
    simp only [asFun]
    cases relOps.lookup op <;> exact ⟨_, _, rfl⟩

theorem funEnv_names {f : (Str → ℝ) → ℝ} {b : Bool} (h : b = true ↔ ∃ k, f = fun ρ => ρ k) : Names funEnv (.fn f) b := by
  intro x
  refine ⟨_, x, rfl, false, false, b, fun y => ⟨y, rfl⟩, fun y => ⟨y, rfl⟩, fun y => ⟨y, ?_⟩, by simp⟩
  have : (∃ k, FV.fn f = .fn fun ρ => ρ k) ↔ b = true := by simpa using h.symm
  simp only [funEnv, gives, this]
  cases b <;> rfl

theorem funEnv_sub {f g : (Str → ℝ) → ℝ} {a : List Str} (h : Supports a fun ρ => f ρ - g ρ) (ha : a ≠ []) :
    RetP (funEnv.sub (.fn f) (.fn g)) (IsFun · a fun ρ => f ρ - g ρ) := fun x => ⟨_, x, rfl, rfl, h, ha⟩

theorem funEnv_neg {v : FV} {a : List Str} {f : (Str → ℝ) → ℝ} (h : IsFun v a f) : RetP (funEnv.neg v) (IsFun · a fun ρ => -f ρ) := by
  obtain ⟨rfl, h, ha⟩ := h
  intro x
  refine ⟨_, x, rfl, rfl, ⟨fun ρ ρ' hρ => by rw [h.only ρ ρ' hρ], fun k hk => ?_⟩, ha⟩
  obtain ⟨ρ, ρ', h1, h2⟩ := h.each k hk
  exact ⟨ρ, ρ', h1, fun e => h2 (neg_injective e)⟩

theorem statement_of {s op : Str} {us vs : List Sign} {o : Sign} {f g : (Str → ℝ) → ℝ} {P : FV → FV → Prop} (ht : tidyB s = true)
    (hs : Single s) (hf : (pyFloat asciiUni s).isNone = true) (hw : writtenB (us ++ o :: vs) s = true) (ho : (o, op) ∈ relationSigns)
    (hu : ∀ ρ, Denotes (reals.vars ρ) (fun _ => True) (false : Bool) .expr us (f ρ))
    (hv : ∀ ρ, Denotes (reals.vars ρ) (fun _ => True) (false : Bool) .expr vs (g ρ)) (hP : P (.fn f) (.fn g)) :
    Statement funEnv grammarLib 0 reals asFun s op f g P where
  tidy := tidyB_sound ht
  single := hs
  notInt q hq := by
    rw [show pyFloat funEnv.U s = none from Option.isNone_iff_eq_none.1 hf] at hq
    cases hq
  denotes := ⟨_, _, false, writtenB_sound hw, fun ρ => .rel ho (hu ρ) (hv ρ)⟩
  sides w w' l r _ _ hl hr h1 h2 := by
    rw [asFun_scalar hl, asFun_scalar hr, funext h1, funext h2]
    exact hP

/-- the text is one expression -/
def singleB (s : Str) : Bool :=
  !s.isEmpty && !s.contains ',' && !contains s%"matrix" s && decide ((s.map bracketDelta).sum = 0) &&
    (match s.head? with | some x => decide (x ≠ '[' ∧ x ≠ '(' ∧ x ≠ '{') | none => true)

theorem singleB_sound {s : Str} (h : singleB s = true) : Single s := by
  simp only [singleB, Bool.and_eq_true, Bool.not_eq_true', decide_eq_true_eq] at h
  obtain ⟨⟨⟨⟨h1, h2⟩, h3⟩, h4⟩, h5⟩ := h
  refine ⟨by simpa using h1, ?_, (contains_eq_false _ _).1 h3, h4, .inl ?_⟩
  · intro hm
    rw [List.contains_iff_mem.2 hm] at h2
    cases h2
  · intro x hx
    rw [hx] at h5
    simpa using h5

/-- `x+1`, `2x+2`, `0`, `2x` and variables -/
theorem plus_denotes (ρ : Str → ℝ) :
    Denotes (reals.vars ρ) (fun _ => True) (false : Bool) .expr [.letter 'x', .mark '+', .digit 1] (ρ s%"x" + 1) := by
  have h : Denotes (reals.vars ρ) (fun _ => True) (false : Bool) .expr [.letter 'x', .mark '+', .digit 1] _ :=
    .add (.term (o := false) (.signed (.product (.factor (.power (.base (var_denotes ρ (c := 'x') (by decide))))))))
      (.signed (.product (.factor (.power (.base (dig_denotes ρ 1))))))
  norm_num at h ⊢
  exact h

theorem twice_denotes (ρ : Str → ℝ) :
    Denotes (reals.vars ρ) (fun _ => True) (false : Bool) .expr [.digit 2, .letter 'x'] (2 * ρ s%"x") := by
  have h2 := Denotes.juxt (o := false) (w := .letter 'x') (vs := []) (.power (.base (dig_denotes ρ 2)))
    (.factor (.power (.base (var_denotes ρ (c := 'x') (by decide))))) (by constructor <;> simp)
  have h3 := Denotes.term (o := false) (.signed (.product h2))
  norm_num at h3 ⊢
  exact h3

theorem twicePlus_denotes (ρ : Str → ℝ) :
    Denotes (reals.vars ρ) (fun _ => True) (false : Bool) .expr [.digit 2, .letter 'x', .mark '+', .digit 2] (2 * ρ s%"x" + 2) := by
  have h : Denotes (reals.vars ρ) (fun _ => True) (false : Bool) .expr ([.digit 2, .letter 'x'] ++ [.mark '+', .digit 2]) _ :=
    .add (twice_denotes ρ) (.signed (.product (.factor (.power (.base (dig_denotes ρ 2))))))
  norm_num at h ⊢
  exact h

theorem zero_denotes (ρ : Str → ℝ) : Denotes (reals.vars ρ) (fun _ => True) (false : Bool) .expr [.digit 0] 0 := by
  have h := digitExpr (I := reals.vars ρ) (free := fun _ => True) (wide := (false : Bool)) 0
  norm_num at h ⊢
  exact h

theorem letter_denotes (ρ : Str → ℝ) {c : Char} (hc : isVariable c = true) :
    Denotes (reals.vars ρ) (fun _ => True) (false : Bool) .expr [.letter c] (ρ [c]) :=
  .term (o := false) (.signed (.product (.factor (.power (.base (var_denotes ρ hc))))))

/-- a function that depends on `x` only -/
theorem supports_x {h : ℝ → ℝ} (hne : h 0 ≠ h 1) : Supports [s%"x"] fun ρ => h (ρ s%"x") := by
  refine ⟨fun ρ ρ' e => by simp only [e s%"x" (by simp)], ?_⟩
  intro k hk
  simp only [List.mem_singleton] at hk
  subst hk
  exact ⟨fun _ => 0, fun j => if j = s%"x" then 1 else 0, fun j hj => by simp [hj], by simpa using hne⟩

theorem not_symbol {f : (Str → ℝ) → ℝ} (h : f (fun _ => 0) ≠ 0) : false = true ↔ ∃ k, f = fun ρ => ρ k := by
  simp only [Bool.false_eq_true, false_iff, not_exists]
  intro k e
  rw [e] at h
  exact h rfl

/-- `x+1=0` -/
theorem plus_equation : EquationAnswer funEnv grammarLib 0 reals asFun IsFun s%"x+1=0" [s%"x"] (fun ρ => ρ s%"x" + 1) fun _ => 0 :=
  ⟨statement_of (o := .mark '=') (by decide +kernel) (singleB_sound (by decide +kernel)) (by decide +kernel) (by decide +kernel)
    (by decide) plus_denotes zero_denotes
    ⟨funEnv_names (not_symbol (by norm_num)), funEnv_sub (supports_x (h := fun x => x + 1 - 0) (by norm_num)) (by simp)⟩,
    by simp, by simp [funEnv]⟩

/-- `0=x+1` -/
theorem turned_equation : EquationAnswer funEnv grammarLib 0 reals asFun IsFun s%"0=x+1" [s%"x"] (fun _ => 0) fun ρ => ρ s%"x" + 1 :=
  ⟨statement_of (o := .mark '=') (by decide +kernel) (singleB_sound (by decide +kernel)) (by decide +kernel) (by decide +kernel)
    (by decide) zero_denotes plus_denotes
    ⟨funEnv_names (by
        simp only [Bool.false_eq_true, false_iff, not_exists]
        intro k e
        have := congrFun e fun _ => 1
        norm_num at this),
      funEnv_sub (supports_x (h := fun x => 0 - (x + 1)) (by norm_num)) (by simp)⟩,
    by simp, by simp [funEnv]⟩

/-- `2x+2=0` -/
theorem twice_equation :
    EquationAnswer funEnv grammarLib 0 reals asFun IsFun s%"2x+2=0" [s%"x"] (fun ρ => 2 * ρ s%"x" + 2) fun _ => 0 :=
  ⟨statement_of (o := .mark '=') (by decide +kernel) (singleB_sound (by decide +kernel)) (by decide +kernel) (by decide +kernel)
    (by decide) twicePlus_denotes zero_denotes
    ⟨funEnv_names (not_symbol (by norm_num)), funEnv_sub (supports_x (h := fun x => 2 * x + 2 - 0) (by norm_num)) (by simp)⟩,
    by simp, by simp [funEnv]⟩

/-- `x+1=0` and `0=x+1` are judged equivalent. -/
example (n : Nat) (verbose : Bool) : Always (isEquiv funEnv (n + 3) (some s%"x+1=0") (some s%"0=x+1") verbose) true :=
  C100_equations_partial (nodeLib_sound _ none _) grammarLib_parse funEnv_uses funEnv_relations funEnv_arith funEnv_neg plus_equation
    turned_equation (fun _ => Iff.rfl) (.inr fun ρ _ => .inl (by ring)) n verbose

theorem far_twice {x : ℝ} (h : 1 ≤ x) : ¬ WithinTolerance (x + 1) (2 * x + 2) := by
  rw [WithinTolerance, abs_of_pos (show 0 < x + 1 by linarith), show x + 1 - (2 * x + 2) = -(x + 1) by ring, abs_neg,
    abs_of_pos (show 0 < x + 1 by linarith)]
  rintro (h | ⟨h, _⟩ | ⟨_, h⟩ | ⟨_, h, _⟩) <;> linarith

theorem far_minus {x : ℝ} (h : 1 ≤ x) : ¬ WithinTolerance (-(x + 1)) (2 * x + 2) := by
  rw [WithinTolerance, abs_neg, abs_of_pos (show 0 < x + 1 by linarith), show -(x + 1) - (2 * x + 2) = -(3 * (x + 1)) by ring, abs_neg,
    abs_of_pos (show 0 < 3 * (x + 1) by linarith)]
  rintro (h | ⟨h, _⟩ | ⟨_, h⟩ | ⟨_, h, _⟩) <;> linarith

/-- **C100**, refuted for the solutions of equations: `x+1=0` and `2x+2=0` have the same solutions and are never judged equivalent. -/
theorem C100_solutions_refuted : ∃ f g f' g' : (Str → ℝ) → ℝ,
    EquationAnswer funEnv grammarLib 0 reals asFun IsFun s%"x+1=0" [s%"x"] f g ∧
    EquationAnswer funEnv grammarLib 0 reals asFun IsFun s%"2x+2=0" [s%"x"] f' g' ∧ (∀ ρ, f ρ = g ρ ↔ f' ρ = g' ρ) ∧
    ∀ n verbose, Always (isEquiv funEnv (n + 3) (some s%"x+1=0") (some s%"2x+2=0") verbose) false := by
  refine ⟨_, _, _, _, plus_equation, twice_equation, fun ρ => ⟨fun h => by linarith, fun h => by linarith⟩, fun n verbose => ?_⟩
  refine C100_equations_apart_partial (nodeLib_sound _ none _) grammarLib_parse funEnv_uses funEnv_relations funEnv_arith funEnv_neg
    plus_equation twice_equation ?_ ?_ (.inr fun ρ hρ => ?_) n verbose
  · rintro ⟨q, _, h⟩
    have h0 := h fun _ => 0
    have h1 := h fun _ => 1
    norm_num at h0 h1
    linarith
  · rintro ⟨q, _, h⟩
    have h0 := h fun _ => 0
    have h1 := h fun _ => 1
    norm_num at h0 h1
    linarith
  · simp only [sub_zero]
    exact ⟨far_twice (hρ s%"x").1, far_minus (hρ s%"x").1⟩

/-- `x+1<0` -/
theorem less_answer : InequalityAnswer funEnv grammarLib 0 reals asFun IsFun s%"x+1<0" true [s%"x"] (fun ρ => ρ s%"x" + 1) (fun _ => 0)
    fun ρ => ρ s%"x" + 1 - 0 :=
  ⟨.inl ⟨statement_of (o := .mark '<') (by decide +kernel) (singleB_sound (by decide +kernel)) (by decide +kernel) (by decide +kernel)
    (by decide) plus_denotes zero_denotes (funEnv_sub (supports_x (h := fun x => x + 1 - 0) (by norm_num)) (by simp)), rfl⟩,
    by simp, by simp [funEnv]⟩

/-- `0>x+1` -/
theorem greater_answer : InequalityAnswer funEnv grammarLib 0 reals asFun IsFun s%"0>x+1" true [s%"x"] (fun _ => 0) (fun ρ => ρ s%"x" + 1)
    fun ρ => ρ s%"x" + 1 - 0 :=
  ⟨.inr ⟨statement_of (o := .mark '>') (by decide +kernel) (singleB_sound (by decide +kernel)) (by decide +kernel) (by decide +kernel)
    (by decide) zero_denotes plus_denotes (funEnv_sub (supports_x (h := fun x => x + 1 - 0) (by norm_num)) (by simp)), rfl⟩,
    by simp, by simp [funEnv]⟩

/-- `x+1\leq0` -/
theorem most_answer : InequalityAnswer funEnv grammarLib 0 reals asFun IsFun s%"x+1\\leq0" false [s%"x"] (fun ρ => ρ s%"x" + 1)
    (fun _ => 0) fun ρ => ρ s%"x" + 1 - 0 :=
  ⟨.inl ⟨statement_of (o := .cmd s%"leq") (by decide +kernel) (singleB_sound (by decide +kernel)) (by decide +kernel)
    (by decide +kernel) (by decide) plus_denotes zero_denotes
    (funEnv_sub (supports_x (h := fun x => x + 1 - 0) (by norm_num)) (by simp)), rfl⟩, by simp, by simp [funEnv]⟩

/-- `2x+2<0` -/
theorem lessTwice_answer : InequalityAnswer funEnv grammarLib 0 reals asFun IsFun s%"2x+2<0" true [s%"x"] (fun ρ => 2 * ρ s%"x" + 2)
    (fun _ => 0) fun ρ => 2 * ρ s%"x" + 2 - 0 :=
  ⟨.inl ⟨statement_of (o := .mark '<') (by decide +kernel) (singleB_sound (by decide +kernel)) (by decide +kernel) (by decide +kernel)
    (by decide) twicePlus_denotes zero_denotes (funEnv_sub (supports_x (h := fun x => 2 * x + 2 - 0) (by norm_num)) (by simp)), rfl⟩,
    by simp, by simp [funEnv]⟩

/-- `x+1<0` and `0>x+1` are judged equivalent. -/
example (n : Nat) (verbose : Bool) : Always (isEquiv funEnv (n + 3) (some s%"x+1<0") (some s%"0>x+1") verbose) true :=
  (C100_inequalities_partial (nodeLib_sound _ none _) grammarLib_parse funEnv_uses funEnv_relations funEnv_arith less_answer
    greater_answer n verbose).1 (fun _ => Iff.rfl) fun _ _ => .inl rfl

/-- `x+1<0` and `x+1\leq0` are not. -/
example (n : Nat) (verbose : Bool) : Always (isEquiv funEnv (n + 3) (some s%"x+1<0") (some s%"x+1\\leq0") verbose) false :=
  C100_strictness (nodeLib_sound _ none _) grammarLib_parse funEnv_uses funEnv_relations funEnv_arith less_answer most_answer (by simp)
    n verbose

/-- **C100**, refuted for the solutions of inequalities: `x+1<0` and `2x+2<0` have the same solutions and are never judged
equivalent. -/
theorem C100_inequalities_refuted : ∃ f g d f' g' e : (Str → ℝ) → ℝ,
    InequalityAnswer funEnv grammarLib 0 reals asFun IsFun s%"x+1<0" true [s%"x"] f g d ∧
    InequalityAnswer funEnv grammarLib 0 reals asFun IsFun s%"2x+2<0" true [s%"x"] f' g' e ∧ (∀ ρ, f ρ < g ρ ↔ f' ρ < g' ρ) ∧
    ∀ n verbose, Always (isEquiv funEnv (n + 3) (some s%"x+1<0") (some s%"2x+2<0") verbose) false := by
  refine ⟨_, _, _, _, _, _, less_answer, lessTwice_answer, fun ρ => ⟨fun h => by linarith, fun h => by linarith⟩, fun n verbose => ?_⟩
  refine (C100_inequalities_partial (nodeLib_sound _ none _) grammarLib_parse funEnv_uses funEnv_relations funEnv_arith less_answer
    lessTwice_answer n verbose).2 ?_ (.inr fun ρ hρ => ?_)
  · rintro ⟨q, _, h⟩
    have h0 := h fun _ => 0
    have h1 := h fun _ => 1
    norm_num at h0 h1
    linarith
  · simp only [sub_zero]
    exact far_twice (hρ s%"x").1

/-- **C100**, refuted for disequations: `2x+2\neq0` and `0\neq2x+2` have the same solutions and are never judged equivalent. -/
theorem C100_disequations_refuted : ∃ f g : (Str → ℝ) → ℝ,
    Statement funEnv grammarLib 0 reals asFun s%"2x+2\\neq0" s%"!=" f g (fun _ _ => True) ∧
    Statement funEnv grammarLib 0 reals asFun s%"0\\neq2x+2" s%"!=" g f (fun _ _ => True) ∧
    ∀ n verbose, Always (isEquiv funEnv (n + 2) (some s%"2x+2\\neq0") (some s%"0\\neq2x+2") verbose) false := by
  have h1 : Statement funEnv grammarLib 0 reals asFun s%"2x+2\\neq0" s%"!=" (fun ρ => 2 * ρ s%"x" + 2) (fun _ => 0) fun _ _ => True :=
    statement_of (o := .cmd s%"neq") (by decide +kernel) (singleB_sound (by decide +kernel)) (by decide +kernel) (by decide +kernel)
      (by decide) twicePlus_denotes zero_denotes trivial
  have h2 : Statement funEnv grammarLib 0 reals asFun s%"0\\neq2x+2" s%"!=" (fun _ => 0) (fun ρ => 2 * ρ s%"x" + 2) fun _ _ => True :=
    statement_of (o := .cmd s%"neq") (by decide +kernel) (singleB_sound (by decide +kernel)) (by decide +kernel) (by decide +kernel)
      (by decide) zero_denotes twicePlus_denotes trivial
  exact ⟨_, _, h1, h2, C100_disequations (nodeLib_sound _ none _) grammarLib_parse funEnv_uses funEnv_relations h1 h2 (by decide)⟩

/-- `y=2x` -/
theorem y_definition : DefinitionAnswer funEnv grammarLib 0 reals asFun IsFun s%"y=2x" [s%"x"] (fun ρ => ρ s%"y") fun ρ => 2 * ρ s%"x" :=
  ⟨statement_of (o := .mark '=') (by decide +kernel) (singleB_sound (by decide +kernel)) (by decide +kernel) (by decide +kernel)
    (by decide) (fun ρ => letter_denotes ρ (c := 'y') (by decide)) twice_denotes
    ⟨funEnv_names (by simpa using ⟨s%"y", rfl⟩), rfl, supports_x (h := fun x => 2 * x) (by norm_num), by simp⟩, by simp, by simp [funEnv]⟩

/-- `x=2x` -/
theorem x_definition : DefinitionAnswer funEnv grammarLib 0 reals asFun IsFun s%"x=2x" [s%"x"] (fun ρ => ρ s%"x") fun ρ => 2 * ρ s%"x" :=
  ⟨statement_of (o := .mark '=') (by decide +kernel) (singleB_sound (by decide +kernel)) (by decide +kernel) (by decide +kernel)
    (by decide) (fun ρ => letter_denotes ρ (c := 'x') (by decide)) twice_denotes
    ⟨funEnv_names (by simpa using ⟨s%"x", rfl⟩), rfl, supports_x (h := fun x => 2 * x) (by norm_num), by simp⟩, by simp, by simp [funEnv]⟩

/-- `y=2x` and `2x` are judged equivalent. -/
example (n : Nat) (verbose : Bool) : Always (isEquiv funEnv (n + 3) (some s%"y=2x") (some s%"2x") verbose) true := by
  have h2 := multiple_answer 2 (by decide) 'x' (.inl rfl)
  have e : (((2 : Fin 10).val : ℕ) : ℝ) = 2 := by norm_num
  rw [e] at h2
  exact (C100_definitions_partial (f' := fun _ => 0) (nodeLib_sound _ none _) grammarLib_parse funEnv_uses funEnv_relations funEnv_arith
    (.inr y_definition) (.inl h2) n verbose).1 (fun _ => Iff.rfl) fun ρ _ => .inl rfl

/-- **C100**, refuted for definitions: `y=2x` and `x=2x` have different solutions and are always judged equivalent. -/
theorem C100_definitions_refuted : ∃ f g f' g' : (Str → ℝ) → ℝ,
    DefinitionAnswer funEnv grammarLib 0 reals asFun IsFun s%"y=2x" [s%"x"] f g ∧
    DefinitionAnswer funEnv grammarLib 0 reals asFun IsFun s%"x=2x" [s%"x"] f' g' ∧ (¬ ∀ ρ, f ρ = g ρ ↔ f' ρ = g' ρ) ∧
    ∀ n verbose, Always (isEquiv funEnv (n + 3) (some s%"y=2x") (some s%"x=2x") verbose) true := by
  refine ⟨_, _, _, _, y_definition, x_definition, fun h => ?_, fun n verbose => ?_⟩
  · have := (h fun k => if k = s%"y" then 2 else 1).1 (by simp)
    simp at this
  · exact (C100_definitions_partial (nodeLib_sound _ none _) grammarLib_parse funEnv_uses funEnv_relations funEnv_arith
      (.inr y_definition) (.inr x_definition) n verbose).1 (fun _ => Iff.rfl) fun ρ _ => .inl rfl

/-- `y=0` and `x=0` are judged equivalent. -/
example (n : Nat) (verbose : Bool) : Always (isEquiv funEnv (n + 3) (some s%"y=0") (some s%"x=0") verbose) true := by
  have key : ∀ c, c = 'x' ∨ c = 'y' → Statement funEnv grammarLib 0 reals asFun (c :: s%"=0") s%"=" (fun ρ => ρ [c]) (fun _ => 0)
      fun l r => Names funEnv l true ∧ IsConst r 0 := by
    rintro c (rfl | rfl) <;>
      exact statement_of (o := .mark '=') (by decide +kernel) (singleB_sound (by decide +kernel)) (by decide +kernel) (by decide +kernel)
        (by decide) (fun ρ => letter_denotes ρ (by decide)) zero_denotes ⟨funEnv_names ⟨fun _ => ⟨_, rfl⟩, fun _ => rfl⟩, rfl⟩
  have := C100_numbers (nodeLib_sound _ none _) grammarLib_parse funEnv_uses funEnv_relations funEnv_numbers (key 'y' (.inr rfl))
    (key 'x' (.inl rfl)) n verbose
  rwa [withinTolerance_refl] at this

end Verif.L2S
