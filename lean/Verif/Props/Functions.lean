import Verif.Props.EndToEnd
import Verif.Props.L2SState
/-
Answers with variables are judged by the functions they denote (C94): normaliser, `latex2sympy` and comparison together.
-/

namespace Verif
open Re

variable {X V S : Type}

/-- Whatever the library call returns satisfies `P`; it may raise. -/
def IfOk {α : Type} (e : Ext X α) (P : α → Prop) : Prop := ∀ x a x', e x = (.ok a, x') → P a

theorem IfOk.safe {α : Type} {e : Ext X α} {P : α → Prop} (h : IfOk e P) : Safe (M.ext e) P := by
  intro w a w' hw
  simp only [M.ext, Prod.mk.injEq] at hw
  exact h w.ext a (e w.ext).2 (by rw [← hw.1])

theorem AlwaysP.safe {α : Type} {m : M X α} {P : α → Prop} (h : AlwaysP m P) : Safe m P := by
  intro w a w' hw
  obtain ⟨b, w₁, h1, hb⟩ := h w
  rw [h1] at hw
  cases hw
  exact hb

theorem Safe.mono {α : Type} {m : M X α} {P Q : α → Prop} (h : Safe m P) (hpq : ∀ a, P a → Q a) : Safe m Q :=
  fun w a w' hw => hpq a (h w a w' hw)

/-- a computation that may raise, with a handler that returns -/
theorem Safe.caught {α : Type} {m : M X α} {k : PyErr → M X α} {P : α → Prop} (h : Safe m P) (hk : ∀ e, AlwaysP (k e) P) :
    AlwaysP (M.tryExcept m k) P := by
  intro w
  rw [M.tryExcept_run]
  cases hm : m w with
  | mk r w₁ =>
    cases r with
    | ok a => exact ⟨a, w₁, rfl, h w a w₁ hm⟩
    | error e => exact hk e w₁

theorem Safe.raised {α : Type} (e : PyErr) (P : α → Prop) : Safe (M.raise e : M X α) P := by
  intro w a w' hw
  cases hw

theorem AlwaysP.print_then {α : Type} {P : α → Prop} (s : Str) {m : M X α} (h : AlwaysP m P) :
    AlwaysP (do M.print s; m) P := by
  intro w
  obtain ⟨a, w₁, h1, ha⟩ := h { w with out := s :: w.out }
  exact ⟨a, w₁, by simpa using h1, ha⟩

section
variable {K : Type} [Field K] [LinearOrder K] [IsStrictOrderedRing K]

/-- the values drawn for the variables lie between 1 and 10 -/
def Sampled (ρ : Str → K) : Prop := ∀ k, 1 ≤ ρ k ∧ ρ k ≤ 10

/-- The difference of the functions is a constant below 1/1000. -/
def NearlyConstant (d : (Str → K) → K) : Prop := ∃ q : K, |q| < 1 / 1000 ∧ ∀ ρ, d ρ = q

/-- the expression is the function `d`, or the number `q` if the function is constant -/
def Comes (Is : V → K → Prop) (Fun : V → List Str → ((Str → K) → K) → Prop) (d : (Str → K) → K) (y : V) : Prop :=
  (∃ a, Fun y a d) ∨ ∃ q, Is y q ∧ ∀ ρ, d ρ = q

/-- The CAS computes exactly on functions: `Fun v a f` says that the expression `v` has the free symbols `a` and denotes the
function `f`, which is defined where the variables lie between 1 and 10.  Expansion, subtraction and simplification may raise and
need not find out that expressions are equal; what they return is correct.  Evaluation at numbers between 1 and 10 is exact, and
the random numbers lie between 1 and 10. -/
structure FunArith (E : Env X V S) (Is Ev : V → K → Prop) (Fun : V → List Str → ((Str → K) → K) → Prop) : Prop where
  numbers : RealArith E Is Ev
  subEv : ∀ {a b p q}, Ev a p → Ev b q → RetP (E.sub a b) (Ev · (p - q))
  isZeroIs : ∀ {v q}, Is v q → IfOk (E.isZeroExpr v) (· = true → q = 0)
  view : ∀ {v a f}, Fun v a f → E.view v = .expr false
  freeSyms : ∀ {v a f}, Fun v a f → RetP (E.freeSyms v) (fun l => ∀ k, k ∈ l ↔ k ∈ a)
  isNumber : ∀ {v a f}, Fun v a f → Ret (E.isNumber v) false
  expandEq : ∀ {v a f w b h}, Fun v a f → Fun w b h → IfOk (E.expandEq v w) (· = true → f = h)
  sub : ∀ {v a f w b h}, Fun v a f → Fun w b h → IfOk (E.sub v w) (Comes Is Fun fun ρ => f ρ - h ρ)
  simplify : ∀ {v a f}, Fun v a f → IfOk (E.simplify v) (Comes Is Fun f)
  isZero : ∀ {v a f}, Fun v a f → IfOk (E.isZeroExpr v) (· = true → ∀ ρ, f ρ = 0)
  evalfAt : ∀ {v a f}, Fun v a f → ∀ (σ : List (Str × V)) ρ, Sampled ρ →
    (∀ k ∈ a, ∃ u, σ.lookup k = some u ∧ Is u (ρ k)) → RetP (E.evalfAt v σ) (Ev · (f ρ))
  randint : RetP E.randint fun u => ∃ q, (1 ≤ q ∧ q ≤ 10) ∧ Is u q
  uniform : RetP E.uniform fun u => ∃ q, (1 ≤ q ∧ q ≤ 10) ∧ Is u q

variable {E : Env X V S} {Is Ev : V → K → Prop} {Fun : V → List Str → ((Str → K) → K) → Prop} (H : FunArith E Is Ev Fun)
include H

/-- The condition computed from a difference can be tested, and holds only if the difference is nearly constant. -/
theorem diffEqual_fun {gv dv : V} {a : List Str} {f d : (Str → K) → K} (hg : Fun gv a f) (ha : a ≠ []) (hd : Comes Is Fun d dv) :
    Safe (diffEqual E gv dv) fun c => ∃ b, Always (c.test E) b ∧ (b = true → NearlyConstant d) := by
  have hview : E.view dv = .expr false := by
    rcases hd with ⟨b, h⟩ | ⟨q, h, _⟩
    · exact H.view h
    · exact H.numbers.view h
  have hzero : Safe (isSympyZero E dv) (· = true → NearlyConstant d) := by
    unfold isSympyZero
    rw [hview]
    rcases hd with ⟨b, h⟩ | ⟨q, h, hq⟩
    · exact (H.isZero h).safe.mono fun r hr e => ⟨0, by simp, hr e⟩
    · exact (H.isZeroIs h).safe.mono fun r hr e => ⟨0, by simp, fun ρ => (hq ρ).trans (hr e)⟩
  unfold diffEqual
  refine Safe.bind hzero fun z hz => ?_
  cases z with
  | true => exact Safe.pure ⟨true, Always.pure _, fun _ => hz rfl⟩
  | false =>
    simp only [Bool.false_eq_true, if_false]
    rcases hd with ⟨b, h⟩ | ⟨q, h, hq⟩
    · apply AlwaysP.safe
      apply (H.isNumber h).always.bindP
      exact AlwaysP.pure ⟨false, Always.pure _, by simp⟩
    · apply AlwaysP.safe
      apply (H.numbers.isNumber h).always.bindP
      simp only [if_true]
      apply (H.freeSyms hg).always.bind
      intro l hl
      have hne : l.isEmpty = false := by
        obtain ⟨k, hk⟩ := List.exists_mem_of_ne_nil a ha
        have := (hl k).2 hk
        cases l with
        | nil => simp at this
        | cons => rfl
      simp only [hne, Bool.not_false, if_true]
      apply (Always.pure true).bindP
      simp only [if_true]
      apply (absSmaller_real H.numbers h epsilon).mono
      intro c hc
      refine ⟨_, hc, fun e => ⟨q, ?_, hq⟩⟩
      have : ((epsilon : Rat) : K) = 1 / 1000 := by norm_num [epsilon]
      rwa [decide_eq_true_iff, this] at e

omit H [IsStrictOrderedRing K] in
/-- The drawn values are the coordinates of a point of the sampled region. -/
theorem drawAll_point {rng : Ext X V} (hr : RetP rng fun u => ∃ q, ((1 : K) ≤ q ∧ q ≤ 10) ∧ Is u q) (ks : List Str) :
    AlwaysP (drawAll rng ks) fun σ => ∀ k ∈ ks, ∃ u, σ.lookup k = some u ∧ ∃ q, ((1 : K) ≤ q ∧ q ≤ 10) ∧ Is u q := by
  induction ks with
  | nil => exact AlwaysP.pure (by simp)
  | cons k ks ih =>
    apply hr.always.bind
    intro u hu
    apply ih.bind
    intro σ hσ
    apply AlwaysP.pure
    intro j hj
    rw [List.lookup_cons]
    by_cases e : j = k
    · subst e
      exact ⟨u, by simp, hu⟩
    · rcases List.mem_cons.1 hj with e' | hj
      · exact absurd e' e
      · obtain ⟨v, h1, h2⟩ := hσ j hj
        exact ⟨v, by rw [beq_false_of_ne e]; exact h1, h2⟩

/-- One round of sampling. -/
theorem sampleLoop_step {gv vv : V} {a b : List Str} {f h : (Str → K) → K} (hg : Fun gv a f) (hv : Fun vv b h)
    {rng : Ext X V} (hr : RetP rng fun u => ∃ q, ((1 : K) ≤ q ∧ q ≤ 10) ∧ Is u q) {l : List Str} (hla : ∀ k ∈ a, k ∈ l)
    (hlb : ∀ k ∈ b, k ∈ l) {r : Bool}
    (hw : ∀ ρ, Sampled ρ → @decide (WithinTolerance (f ρ) (h ρ)) (Classical.dec _) = r) (n : Nat)
    (ih : r = true → Always (sampleLoop E gv vv rng l n) true) : Always (sampleLoop E gv vv rng l (n + 1)) r := by
  rw [sampleLoop]
  apply (drawAll_point hr l).always
  intro σ hσ
  classical
  let ρ : Str → K := fun k => if e : ∃ u, σ.lookup k = some u ∧ ∃ q, ((1 : K) ≤ q ∧ q ≤ 10) ∧ Is u q then
    e.choose_spec.2.choose else 1
  have hρ : ∀ k ∈ l, ∃ u, σ.lookup k = some u ∧ Is u (ρ k) := by
    intro k hk
    have e := hσ k hk
    refine ⟨e.choose, e.choose_spec.1, ?_⟩
    simp only [ρ, dif_pos e]
    exact e.choose_spec.2.choose_spec.2
  have hs : Sampled ρ := by
    intro k
    by_cases e : ∃ u, σ.lookup k = some u ∧ ∃ q, ((1 : K) ≤ q ∧ q ≤ 10) ∧ Is u q
    · simp only [ρ, dif_pos e]
      exact e.choose_spec.2.choose_spec.1
    · simp only [ρ, dif_neg e]
      norm_num
  have he : ∀ {u c k}, Fun u c k → (∀ j ∈ c, j ∈ l) →
      AlwaysP (sympyEvalfAt E u σ) fun o => ∃ y, o = some y ∧ Ev y (k ρ) := by
    intro u c k hu hc
    apply AlwaysP.tryExcept
    apply (H.evalfAt hu σ ρ hs fun j hj => hρ j (hc j hj)).always.bind
    intro y hy
    exact AlwaysP.pure ⟨y, rfl, hy⟩
  apply (he hg hla).always
  rintro _ ⟨y, rfl, hy⟩
  apply (he hv hlb).always
  rintro _ ⟨z, rfl, hz⟩
  simp only
  apply (H.subEv hy hz).always.always
  intro d hd
  apply (diffEqual_real H.numbers hy hd).always
  intro c hc
  apply hc.bind
  have hw := hw ρ hs
  have e : (decide (f ρ - h ρ = 0 ∨ (f ρ = 0 ∧ |f ρ - h ρ| < 1 / 1000) ∨ (1 ≤ |f ρ| ∧ |f ρ - h ρ| < 5 / 1000) ∨
      (0 < |f ρ| ∧ |f ρ| < 1 ∧ |f ρ - h ρ| / |f ρ| < 1 / 1000))) = r := by
    rw [← hw]
    apply decide_eq_decide.2
    rw [WithinTolerance, sub_eq_zero]
  rw [e]
  cases r with
  | true => simpa using ih rfl
  | false => simpa using Always.pure false

/-- One or more rounds of sampling give the answer that is the right one at all sampled points. -/
theorem sampleLoop_fun {gv vv : V} {a b : List Str} {f h : (Str → K) → K} (hg : Fun gv a f) (hv : Fun vv b h)
    {rng : Ext X V} (hr : RetP rng fun u => ∃ q, ((1 : K) ≤ q ∧ q ≤ 10) ∧ Is u q) {l : List Str} (hla : ∀ k ∈ a, k ∈ l)
    (hlb : ∀ k ∈ b, k ∈ l) (r : Bool)
    (hw : ∀ ρ, Sampled ρ → @decide (WithinTolerance (f ρ) (h ρ)) (Classical.dec _) = r) (n : Nat) :
    Always (sampleLoop E gv vv rng l (n + 1)) r := by
  induction n with
  | zero => exact sampleLoop_step H hg hv hr hla hlb hw 0 fun _ => Always.pure _
  | succ n ih => exact sampleLoop_step H hg hv hr hla hlb hw (n + 1) fun e => by simpa [e] using ih

/-- The sampling comparison of functions of the same variables. -/
theorem numericalEqual_fun {gv vv : V} {a b : List Str} {f h : (Str → K) → K} (hg : Fun gv a f) (hv : Fun vv b h)
    {rng : Ext X V} (hr : RetP rng fun u => ∃ q, ((1 : K) ≤ q ∧ q ≤ 10) ∧ Is u q) (hab : ∀ k, k ∈ a ↔ k ∈ b) (r : Bool)
    (hw : ∀ ρ, Sampled ρ → @decide (WithinTolerance (f ρ) (h ρ)) (Classical.dec _) = r) :
    Always (numericalEqual E gv vv rng) r := by
  unfold numericalEqual
  apply (H.freeSyms hg).always.always
  intro l hl
  apply (H.freeSyms hv).always.always
  intro m hm
  have : sameSyms l m = true := by
    simp only [sameSyms, Bool.and_eq_true, List.all_eq_true, List.contains_iff_mem]
    exact ⟨fun k hk => (hm k).2 ((hab k).1 ((hl k).1 hk)), fun k hk => (hl k).2 ((hab k).2 ((hm k).1 hk))⟩
  simp only [this, Bool.not_true, Bool.false_eq_true, if_false]
  apply (H.freeSyms hg).always.always
  intro l hl
  exact sampleLoop_fun H hg hv hr (fun k hk => (hl k).2 hk) (fun k hk => (hl k).2 ((hab k).2 hk)) r hw 9

omit [IsStrictOrderedRing K] in
/-- The sampling comparison of functions of different variables. -/
theorem numericalEqual_names {gv vv : V} {a b : List Str} {f h : (Str → K) → K} (hg : Fun gv a f) (hv : Fun vv b h)
    (rng : Ext X V) (hab : ¬ ∀ k, k ∈ a ↔ k ∈ b) : Always (numericalEqual E gv vv rng) false := by
  unfold numericalEqual
  apply (H.freeSyms hg).always.always
  intro l hl
  apply (H.freeSyms hv).always.always
  intro m hm
  have : sameSyms l m = false := by
    rw [Bool.eq_false_iff]
    intro e
    simp only [sameSyms, Bool.and_eq_true, List.all_eq_true, List.contains_iff_mem] at e
    exact hab fun k => ⟨fun hk => (hm k).1 (e.1 k ((hl k).2 hk)), fun hk => (hl k).1 (e.2 k ((hm k).2 hk))⟩
  simp only [this, Bool.not_false, if_true]
  exact Always.pure _

/-- What is known of the verdict `r` on the functions `f` and `h` of the variables `a` and `b`. -/
def Decided (a b : List Str) (f h : (Str → K) → K) : Bool → Prop
  | true => (∀ k, k ∈ a ↔ k ∈ b) ∧ ∀ ρ, Sampled ρ → WithinTolerance (f ρ) (h ρ)
  | false => (¬ NearlyConstant fun ρ => f ρ - h ρ) ∧
    ((¬ ∀ k, k ∈ a ↔ k ∈ b) ∨ ∀ ρ, Sampled ρ → ¬ WithinTolerance (f ρ) (h ρ))

theorem numericStage_fun {gv vv : V} {a b : List Str} {f h : (Str → K) → K} (hg : Fun gv a f) (hv : Fun vv b h) (ha : a ≠ [])
    (hb : b ≠ []) {r : Bool} (hr : Decided a b f h r) : Always (numericStage E gv vv) r := by
  have hne : ∀ {l c : List Str}, c ≠ [] → (∀ k, k ∈ l ↔ k ∈ c) → l.isEmpty = false := by
    intro l c hc hl
    obtain ⟨k, hk⟩ := List.exists_mem_of_ne_nil c hc
    have := (hl k).2 hk
    cases l with
    | nil => simp at this
    | cons => rfl
  have both : ∀ rng, (RetP rng fun u => ∃ q, ((1 : K) ≤ q ∧ q ≤ 10) ∧ Is u q) → Always (numericalEqual E gv vv rng) r := by
    intro rng hrng
    by_cases hab : ∀ k, k ∈ a ↔ k ∈ b
    · apply numericalEqual_fun H hg hv hrng hab
      intro ρ hρ
      cases r with
      | true => simpa using hr.2 ρ hρ
      | false =>
        rcases hr.2 with e | e
        · exact absurd hab e
        · simpa using e ρ hρ
    · cases r with
      | true => exact absurd hr.1 hab
      | false => exact numericalEqual_names H hg hv rng hab
  unfold numericStage
  apply Always.tryExcept
  apply (H.freeSyms hg).always.always
  intro l hl
  simp only [hne ha hl, Bool.not_false, if_true]
  apply Always.bind (a := true)
  · apply (H.freeSyms hv).always.always
    intro m hm
    rw [hne hb hm]
    exact Always.pure _
  simp only [if_true]
  apply (both _ H.randint).bind
  cases r with
  | true => simpa using Always.pure true
  | false => simpa using both _ H.uniform

/-- The comparison of two expressions that are functions: the verdict is that of the sampling, or the difference of the functions is
nearly constant. -/
theorem areEqual_sampled (n : Nat) {gv vv : V} {a b : List Str} {f h : (Str → K) → K} (hg : Fun gv a f) (hv : Fun vv b h) (ha : a ≠ [])
    (hia : ∃ k ∈ a, E.symName k ≠ s%"i") (hib : ∃ k ∈ b, E.symName k ≠ s%"i") {P : Bool → Prop}
    (hn : AlwaysP (numericStage E gv vv) P) (hc : NearlyConstant (fun ρ => f ρ - h ρ) → P true) :
    AlwaysP (areEqual E (n + 1) gv vv .expr .expr) P := by
  have hi : ∀ {u c k}, Fun u c k → (∃ k ∈ c, E.symName k ≠ s%"i") → Always (exprWithOnlyI E u) (u, false) := by
    intro u c k hu hc
    unfold exprWithOnlyI
    apply (H.freeSyms hu).always.always
    intro l hl
    obtain ⟨j, hj, hji⟩ := hc
    have hj := (hl j).2 hj
    split
    · rw [if_neg (by rw [← List.mem_singleton.1 hj]; exact hji)]
      exact Always.pure _
    · exact Always.pure _
  have he : ∀ {u c k}, Fun u c k → Always (evalIfNumber E u) (some u) := by
    intro u c k hu
    apply (H.isNumber hu).always.bind
    exact Always.pure _
  show AlwaysP (areEqualBody E (areEqual E n) gv vv .expr .expr) _
  unfold areEqualBody
  apply (hi hg hia).bindP
  apply (hi hv hib).bindP
  simp only [Bool.or_self, Bool.false_eq_true, if_false]
  apply (he hg).bindP
  apply (he hv).bindP
  simp only
  apply AlwaysP.bind (P := (· = true → P true))
  · have hs : Safe (M.ext (E.expandEq gv vv)) (· = true → P true) :=
      (H.expandEq hg hv).safe.mono fun z hz (e : z = true) => hc ⟨0, by simp, fun ρ => by simp [hz e]⟩
    exact hs.caught fun e => AlwaysP.print_then _ (AlwaysP.pure (by simp))
  intro z hz
  cases z with
  | true => exact AlwaysP.pure (hz rfl)
  | false =>
    simp only [Bool.false_eq_true, if_false]
    apply AlwaysP.bind (P := fun c => ∃ b, Always (c.test E) b ∧ (b = true → P true))
    · refine Safe.caught (P := fun c : Cond V => ∃ b, Always (c.test E) b ∧ (b = true → P true)) ?_
        fun _ => AlwaysP.pure ⟨false, Always.pure _, by simp⟩
      refine Safe.bind (H.sub hg hv).safe fun w hw => ?_
      refine Safe.bind (Q := Comes Is Fun fun ρ => f ρ - h ρ) ?_ ?_
      · refine Safe.tryExcept (fun _ => Safe.bind (Safe.any _) fun _ _ => Safe.raised _ _) ?_
        rcases hw with ⟨c, hc⟩ | ⟨q, hq, hc⟩
        · refine Safe.bind (AlwaysP.safe ((H.isNumber hc).always.alwaysP (P := (· = false)) rfl)) ?_
          rintro _ rfl
          exact (H.simplify hc).safe
        · refine Safe.bind (AlwaysP.safe ((H.numbers.isNumber hq).always.alwaysP (P := (· = true)) rfl)) ?_
          rintro _ rfl
          exact (H.numbers.evalf hq).always.safe.mono fun y hy => .inr ⟨q, H.numbers.ev hy, hc⟩
      · intro d hd
        exact (diffEqual_fun H hg ha hd).mono fun c ⟨b, h1, h2⟩ => ⟨b, h1, fun e => hc (h2 e)⟩
    · rintro c ⟨b, h1, h2⟩
      apply h1.bindP
      cases b with
      | true => exact AlwaysP.pure (h2 rfl)
      | false => simpa using hn

/-- The comparison of two expressions that are functions. -/
theorem areEqual_fun (n : Nat) {gv vv : V} {a b : List Str} {f h : (Str → K) → K} (hg : Fun gv a f) (hv : Fun vv b h) (ha : a ≠ [])
    (hb : b ≠ []) (hia : ∃ k ∈ a, E.symName k ≠ s%"i") (hib : ∃ k ∈ b, E.symName k ≠ s%"i") {r : Bool} (hr : Decided a b f h r) :
    Always (areEqual E (n + 1) gv vv .expr .expr) r := by
  have key := areEqual_sampled H n hg hv ha hia hib (P := (· = r)) ((numericStage_fun H hg hv ha hb hr).alwaysP rfl) (by
    intro hn
    cases r with
    | true => rfl
    | false => exact absurd hn hr.1)
  intro w
  obtain ⟨_, w', h, rfl⟩ := key w
  exact ⟨w', h⟩

omit H

/-- Each of the parsers raises or returns the function `f` of the variables `a` for the text `s` (`parse_expr` is given the text
with `**` for `^`), and `latex2sympy` returns. -/
structure ReadsFun (E : Env X V S) (Fun : V → List Str → ((Str → K) → K) → Prop) (s : Str) (a : List Str) (f : (Str → K) → K) :
    Prop where
  l2s : RetP (E.l2s s) (Fun · a f)
  parseExpr : ∀ x, (∃ e x', E.parseExpr (replace s%"^" s%"**" s) x = (.error e, x')) ∨
    ∃ v x', E.parseExpr (replace s%"^" s%"**" s) x = (.ok v, x') ∧ Fun v a f

include H

theorem areEqualUnderSympy_fun {s t : Str} {a b : List Str} {f h : (Str → K) → K} (hg : ReadsFun E Fun s a f)
    (hv : ReadsFun E Fun t b h) (ha : a ≠ []) (hb : b ≠ []) (hia : ∃ k ∈ a, E.symName k ≠ s%"i")
    (hib : ∃ k ∈ b, E.symName k ≠ s%"i") {r : Bool} (hr : Decided a b f h r) (n : Nat) (verbose : Bool) :
    Always (areEqualUnderSympy E (n + 1) s t verbose) r := by
  have hty : ∀ {u c k}, Fun u c k → Always (getType E u) .expr := by
    intro u c k hu
    unfold getType
    rw [H.view hu]
    exact Always.pure _
  unfold areEqualUnderSympy
  apply Always.tryExcept
  unfold areEqualWithSimplify
  apply (sympyParse_real E (fun v h => ⟨_, H.view h⟩) hg.parseExpr hg.l2s).always
  rintro gs ⟨hg1, hg2⟩
  apply (sympyParse_real E (fun v h => ⟨_, H.view h⟩) hv.parseExpr hv.l2s).always
  rintro vs ⟨hv1, hv2⟩
  have main := candsOuter_all (cmp := eqTyped E (areEqual E (n + 1))) (P := (Fun · a f)) (Q := (Fun · b h)) (r := r) (by
      intro c d hc hd
      unfold eqTyped
      apply (hty hc).bind
      apply (hty hd).bind
      exact areEqual_fun H n hc hd ha hb hia hib hr) hg1 hg2 hv1 hv2
  cases verbose with
  | false => simpa using main
  | true =>
    intro w
    obtain ⟨w', h⟩ := main { w with out := candsLine :: candsLine :: w.out }
    exact ⟨w', by simpa using h⟩

omit H [IsStrictOrderedRing K] in
theorem decided_refl (a : List Str) (f : (Str → K) → K) : Decided a a f f true := ⟨fun _ => Iff.rfl, fun _ _ => .inl rfl⟩

/-- The verdict on two answers whose normal forms are single expressions that read as functions. -/
theorem isEquiv_by_fun {a b x y : Str} {c d : List Str} {f h : (Str → K) → K} (n : Nat) (verbose : Bool) (sa : strip a = a)
    (sb : strip b = b) (ha : Always (stringNormalize E (n + 1) a) (.str x)) (hb : Always (stringNormalize E (n + 1) b) (.str y))
    (hx : Single x) (hy : Single y) (rx : ReadsFun E Fun x c f) (ry : ReadsFun E Fun y d h) (hc : c ≠ []) (hd : d ≠ [])
    (hic : ∃ k ∈ c, E.symName k ≠ s%"i") (hid : ∃ k ∈ d, E.symName k ≠ s%"i") {r : Bool} (hr : Decided c d f h r) :
    Always (isEquiv E (n + 2) (some a) (some b) verbose) r := by
  have cas := areEqualUnderSympy_fun H rx ry hc hd hic hid hr n verbose
  by_cases hi : Nonempty (World X)
  swap
  · exact fun w => (hi ⟨w⟩).elim
  obtain ⟨w⟩ := hi
  by_cases hxy : x = y
  · have hw : r = true := by
      have := areEqualUnderSympy_fun H rx rx hc hc hic hic (decided_refl c f) n verbose
      rw [← hxy] at cas
      exact cas.unique w this
    rw [hw]
    show Always (isEquivStr E (n + 2) a b verbose) true
    unfold isEquivStr
    split
    · exact Always.pure _
    · apply ha.bind
      apply hb.bind
      apply print_always
      unfold compareNorms
      simpa [hxy] using Always.pure true
  · by_cases hab : a = b
    · subst hab
      have := ha.unique w hb
      simp only [Norm.str.injEq] at this
      exact absurd this hxy
    · exact isEquiv_single E (n + 1) a b x y verbose _ ha hb hx hy (by rw [sa, sb]; exact hab) hxy cas

end

end Verif

namespace Verif.L2S
open Verif Verif.Reading Verif.Grammar

section
variable {K : Type} [Field K] [LinearOrder K] [IsStrictOrderedRing K] {X V Y S : Type}

/-- the interpretation in which the variables have these values -/
def Interp.vars (I : Interp K) (ρ : Str → K) : Interp K := I.at fun n _ => ρ n

/-- The environment uses the modelled `latex2sympy`, in states in which no matrix is declared and with the default assumption on
symbols.  (By C64 such states last as long as no declaration is converted.) -/
def UsesUndeclared (E : Env X V S) (L : Lib Y) (N : Nat) (inj : SV → V) (r : Option Bool) : Prop :=
  ∀ s x, ∃ w : World (St Y), NoMatrix r w.ext.g ∧ (E.l2s s x).1 = (latex2sympy L (N + 1) s [] w).1.map inj

/-- An answer that is a text with variables in LaTeX notation, written in one expression without what has a meaning of its own to
the normaliser.  `f` gives its value for all values of the variables; its value is defined where they lie between 1 and 10. -/
structure FunAnswer (E : Env X V S) (I : Interp K) (inj : SV → V) (Fun : V → List Str → ((Str → K) → K) → Prop) (s : Str)
    (a : List Str) (f : (Str → K) → K) : Prop where
  tidy : Tidy s
  single : Single s
  notInt : ∀ q, pyFloat E.U s = some q → isIntFloat q = false
  /-- the text denotes the value of `f` -/
  denotes : ∃ ws free, ∃ wide : Bool, Written ws s ∧ ∀ ρ, Denotes (I.vars ρ) free wide .expr ws (f ρ)
  /-- SymPy: an expression that has the value of `f` for all values of the variables is the function `f` of its symbols `a` -/
  value : ∀ v : SV, v.scalar = true → (∀ ρ, den (I.vars ρ) v = f ρ) → Fun (inj v) a f
  /-- `parse_expr` raises or gives the same function -/
  parseExpr : ∀ x, (∃ e x', E.parseExpr (replace s%"^" s%"**" s) x = (.error e, x')) ∨
    ∃ v x', E.parseExpr (replace s%"^" s%"**" s) x = (.ok v, x') ∧ Fun v a f
  names : a ≠ []
  /-- an answer whose only variable is `i` is a complex number -/
  notI : ∃ k ∈ a, E.symName k ≠ s%"i"

variable {E : Env X V S} {L : Lib Y} {I : Interp K} {Is Ev : V → K → Prop} {Fun : V → List Str → ((Str → K) → K) → Prop}
  {inj : SV → V} {N : Nat}

omit [LinearOrder K] [IsStrictOrderedRing K] in
theorem SoundLib.vars {L : Lib Y} (h : SoundLib I L) (ρ : Str → K) : SoundLib (I.vars ρ) L where
  call σ := h.call σ
  inv σ := h.inv σ
  bind σ := h.bind σ

theorem FunAnswer.reads (hL : SoundLib I L) (hp : ∀ s t, parseText s = some t → L.parse s = .ok t)
    (hl : UsesUndeclared E L N inj I.real) {s : Str} {a : List Str} {f : (Str → K) → K} (h : FunAnswer E I inj Fun s a f) :
    ReadsFun E Fun s a f := by
  refine ⟨fun x => ?_, h.parseExpr⟩
  obtain ⟨ws, free, wide, hw, hd⟩ := h.denotes
  obtain ⟨w, ⟨h1, h2, _⟩, he⟩ := hl s x
  have key : ∀ ρ, ∃ v w', latex2sympy L (N + 1) s [] w = (.ok v, w') ∧ v.scalar = true ∧ den (I.vars ρ) v = f ρ := fun ρ =>
    C76_latex2sympy (hL.vars ρ) hp hw (hd ρ) N [] w ⟨h1, fun n _ => by rw [h2]; rfl⟩
  obtain ⟨v, w', e, hv, _⟩ := key fun _ => 0
  have hden : ∀ ρ, den (I.vars ρ) v = f ρ := by
    intro ρ
    obtain ⟨v', w'', e', _, h'⟩ := key ρ
    rw [e] at e'
    cases e'
    exact h'
  rw [e] at he
  exact ⟨inj v, (E.l2s s x).2, Prod.ext he rfl, h.value v hv hden⟩

/-- **C94.**  Two answers that denote functions of the same variables are judged equivalent if the functions agree within the
tolerance wherever the variables lie between 1 and 10 – in particular if they are the same function –, whatever values are drawn and
whether or not SymPy finds out that the expressions are equal.  Missing: answers whose only variable is `i`
(C107), and functions that are undefined at
some point where the variables lie between 1 and 10. -/
theorem C94_same_partial (H : FunArith E Is Ev Fun) (hL : SoundLib I L) (hp : ∀ s t, parseText s = some t → L.parse s = .ok t)
    (hl : UsesUndeclared E L N inj I.real) {s t : Str} {a b : List Str} {f h : (Str → K) → K} (hs : FunAnswer E I inj Fun s a f)
    (ht : FunAnswer E I inj Fun t b h) (hab : ∀ k, k ∈ a ↔ k ∈ b) (hfh : ∀ ρ, Sampled ρ → WithinTolerance (f ρ) (h ρ)) (n : Nat)
    (verbose : Bool) : Always (isEquiv E (n + 2) (some s) (some t) verbose) true :=
  isEquiv_by_fun H n verbose (strip_of_no_space _ fun _ hc => hs.tidy.space hc) (strip_of_no_space _ fun _ hc => ht.tidy.space hc)
    (hs.tidy.fixed E n hs.notInt) (ht.tidy.fixed E n ht.notInt) hs.single ht.single (hs.reads hL hp hl) (ht.reads hL hp hl)
    hs.names ht.names hs.notI ht.notI (r := true) ⟨hab, hfh⟩

/-- **C94.**  Two answers that denote functions are judged not equivalent if their variables differ or the functions are nowhere
within the tolerance where the variables lie between 1 and 10, and their difference is not a constant below 1/1000.  Missing:
functions that are within the tolerance at some of these points. -/
theorem C94_apart_partial (H : FunArith E Is Ev Fun) (hL : SoundLib I L) (hp : ∀ s t, parseText s = some t → L.parse s = .ok t)
    (hl : UsesUndeclared E L N inj I.real) {s t : Str} {a b : List Str} {f h : (Str → K) → K} (hs : FunAnswer E I inj Fun s a f)
    (ht : FunAnswer E I inj Fun t b h) (hc : ¬ NearlyConstant fun ρ => f ρ - h ρ)
    (hfh : (¬ ∀ k, k ∈ a ↔ k ∈ b) ∨ ∀ ρ, Sampled ρ → ¬ WithinTolerance (f ρ) (h ρ)) (n : Nat)
    (verbose : Bool) : Always (isEquiv E (n + 2) (some s) (some t) verbose) false :=
  isEquiv_by_fun H n verbose (strip_of_no_space _ fun _ hc => hs.tidy.space hc) (strip_of_no_space _ fun _ hc => ht.tidy.space hc)
    (hs.tidy.fixed E n hs.notInt) (ht.tidy.fixed E n ht.notInt) hs.single ht.single (hs.reads hL hp hl) (ht.reads hL hp hl)
    hs.names ht.names hs.notI ht.notI (r := false) ⟨hc, hfh⟩

end

/-! ### The hypotheses are met: functions of real variables -/

/-- real-valued functions of the variables, equations, other relations, and lists -/
inductive FV where
  | fn (f : (Str → ℝ) → ℝ)
  | eq (l r : FV)
  | rel (op : RelOp) (l r : FV)
  | list (xs : List FV)

/-- the function depends on these variables, and on no others -/
structure Supports (a : List Str) (f : (Str → ℝ) → ℝ) : Prop where
  only : ∀ ρ ρ', (∀ k ∈ a, ρ k = ρ' k) → f ρ = f ρ'
  each : ∀ k ∈ a, ∃ ρ ρ', (∀ j, j ≠ k → ρ j = ρ' j) ∧ f ρ ≠ f ρ'

theorem Supports.unique {a b : List Str} {f : (Str → ℝ) → ℝ} (ha : Supports a f) (hb : Supports b f) {k : Str} (hk : k ∈ a) :
    k ∈ b := by
  by_contra hn
  obtain ⟨ρ, ρ', h1, h2⟩ := ha.each k hk
  exact h2 (hb.only ρ ρ' fun j hj => h1 j (by rintro rfl; exact hn hj))

/-- the value of a constant function -/
noncomputable def FV.val : FV → ℝ
  | .fn f => f fun _ => 0
  | _ => 0

/-- the expression is this number -/
def IsConst (v : FV) (q : ℝ) : Prop := v = .fn fun _ => q

/-- the expression is this function of these variables -/
def IsFun (v : FV) (a : List Str) (f : (Str → ℝ) → ℝ) : Prop := v = .fn f ∧ Supports a f ∧ a ≠ []

/-- how SymPy writes the relations, and how the comparison sees them -/
def relOps : List (Str × RelOp) := [(s%"<", .lt), (s%"<=", .le), (s%">", .gt), (s%">=", .ge), (s%"!=", .ne)]

/-- an expression with variables as a function, a relation between two as a relation between functions -/
noncomputable def asFun : SV → FV
  | .rel op l r => match relOps.lookup op with
    | some o => .rel o (asFun l) (asFun r)
    | none => .eq (asFun l) (asFun r)
  | v => .fn fun ρ => den (reals.vars ρ) v

theorem asFun_scalar {v : SV} (h : v.scalar = true) : asFun v = .fn fun ρ => den (reals.vars ρ) v := by
  cases v <;> first | (simp only [asFun]; done) | simp [SV.scalar] at h

open Classical in
/-- A CAS that computes with functions of real variables, with the modelled `latex2sympy` right after its import; expansion and
simplification never find anything, the other parsers raise, and the random numbers are 2 and 5/2. -/
noncomputable def funEnv : Env Unit FV Unit where
  U := asciiUni
  setOrder := dedup
  setOrder_perm _ := List.Perm.refl _
  view v := match v with
    | .list xs => .list xs
    | .fn _ => .expr false
    | .eq l r => .equality l r
    | .rel o l r => .rel o l r
  ofList := .list
  view_ofList _ := rfl
  symName k := k
  emptySet := ()
  l2s s x := ((latex2sympy grammarLib 1 s [] ⟨⟨Globals.init, x⟩, []⟩).1.map asFun, x)
  parseLatex _ := raises
  parseExpr _ := raises
  str v := gives (if h : ∃ z : ℤ, IsConst v z then intStr h.choose else [])
  truth v := match v with
    | .eq _ _ => raises
    | .rel _ _ _ => raises
    | v => gives (decide (v.val ≠ 0))
  eqv v w := gives (decide (v = w))
  inv v := match v with
    | .fn f => gives (.fn fun ρ => 1 / f ρ)
    | _ => raises
  isNamedFunction _ := gives false
  isSymbol v := gives (decide (∃ k, v = .fn fun ρ => ρ k))
  isNumber v := gives (decide (∃ q, IsConst v q))
  isZeroExpr v := gives (decide (IsConst v 0))
  isZeroMatrix _ := gives false
  isInteger v := gives (decide (IsConst v 0))
  sub v w := match v, w with
    | .fn f, .fn g => gives (.fn fun ρ => f ρ - g ρ)
    | _, _ => raises
  neg v := match v with
    | .fn f => gives (.fn fun ρ => -f ρ)
    | _ => raises
  div v w := gives (.fn fun _ => v.val / w.val)
  abs v := gives (.fn fun _ => |v.val|)
  re v := gives v
  im _ := gives (.fn fun _ => 0)
  ltThr v r := gives (.fn fun _ => if v.val < (r : ℝ) then 1 else 0)
  ge1 v := gives (decide (1 ≤ v.val))
  gt0 v := gives (decide (0 < v.val))
  evalf v := gives v
  evalfAt v σ := match v with
    | .fn f => gives (.fn fun _ => f fun k => ((σ.lookup k).map FV.val).getD 0)
    | _ => raises
  expandEq v w := gives (decide (v = w ∧ ∃ q, IsConst v q))
  simplify v := gives v
  freeSyms v := match v with
    | .fn f => gives (if h : ∃ a, Supports a f then h.choose else [])
    | _ => raises
  subsI v _ := gives v
  randint := gives (.fn fun _ => 2)
  uniform := gives (.fn fun _ => 5 / 2)
  mkMatrix v := gives v
  transpose v := gives v
  isIntNum v := gives (decide (∃ z : ℤ, IsConst v z))
  toInteger v := gives v
  gtV v w := gives (decide (v.val > w.val))
  interval _ _ _ _ := gives ()
  isEmptySet _ := gives true
  intersect _ _ := gives ()
  union _ _ := gives ()
  compareEq _ _ := gives true

theorem IsConst.unique {v : FV} {p q : ℝ} (h : IsConst v p) : IsConst v q ↔ p = q := by
  subst h
  simp only [IsConst, FV.fn.injEq]
  constructor
  · intro e; exact congrFun e fun _ => 0
  · rintro rfl; rfl

theorem IsConst.val {v : FV} {q : ℝ} (h : IsConst v q) : v.val = q := by subst h; rfl

theorem Supports.const (q : ℝ) : Supports [] fun _ => q := ⟨fun _ _ _ => rfl, by simp⟩

theorem IsFun.notConst {v : FV} {a : List Str} {f : (Str → ℝ) → ℝ} (h : IsFun v a f) (q : ℝ) : ¬ IsConst v q := by
  obtain ⟨rfl, hs, hne⟩ := h
  intro e
  simp only [IsConst, FV.fn.injEq] at e
  obtain ⟨k, hk⟩ := List.exists_mem_of_ne_nil a hne
  obtain ⟨ρ, ρ', _, h⟩ := hs.each k hk
  rw [e] at h
  exact h rfl

theorem funEnv_numbers : RealArith funEnv IsConst IsConst where
  view h := by rw [h]; rfl
  freeSyms {v q} h := fun x => ⟨x, by
    subst h
    have e : ∃ a, Supports a fun _ => q := ⟨[], Supports.const q⟩
    have : e.choose = [] := List.eq_nil_iff_forall_not_mem.2 fun k hk => by simpa using e.choose_spec.unique (Supports.const q) hk
    simp only [funEnv, gives, dif_pos e, this]⟩
  isNumber {v q} h := fun x => ⟨x, by
    have : ∃ q, IsConst v q := ⟨q, h⟩
    simp [funEnv, gives, this]⟩
  evalf {v q} h := fun x => ⟨v, x, rfl, h⟩
  ev h := h
  expandEq {a b p q} ha hb := fun x => ⟨x, by
    have : (a = b ∧ ∃ q, IsConst a q) ↔ p = q := by
      constructor
      · rintro ⟨rfl, _⟩; exact ha.unique.1 hb
      · rintro rfl; exact ⟨ha.trans hb.symm, _, ha⟩
    simp only [funEnv, gives, this]⟩
  sub {a b p q} ha hb := fun x => ⟨.fn fun _ => p - q, x, by subst ha hb; rfl, rfl⟩
  isZero {v q} h := fun x => ⟨x, by simp only [funEnv, gives, h.unique]⟩
  isInteger {v q} h := fun x => ⟨x, by simp only [funEnv, gives, h.unique]⟩
  abs {v q} h := fun x => ⟨_, x, rfl, by rw [h.val]; rfl⟩
  ltThr {v q} r h := fun x => ⟨_, x, rfl, fun y => ⟨y, by
    subst h
    simp only [funEnv, gives, FV.val]
    by_cases hq : q < (r : ℝ) <;> simp [hq]⟩⟩
  ge1 {v q} h := fun x => ⟨x, by simp only [funEnv, gives, h.val]⟩
  gt0 {v q} h := fun x => ⟨x, by simp only [funEnv, gives, h.val]⟩
  div {a b p q} ha hb _ := fun x => ⟨_, x, rfl, by rw [ha.val, hb.val]; rfl⟩

/-- A function of finitely many variables is a number or a function of some of them. -/
theorem comes_of {f : (Str → ℝ) → ℝ} {a : List Str} (h : ∀ ρ ρ', (∀ k ∈ a, ρ k = ρ' k) → f ρ = f ρ') :
    Comes IsConst IsFun f (.fn f) := by
  classical
  let b := a.filter fun k => ∃ ρ ρ', (∀ j, j ≠ k → ρ j = ρ' j) ∧ f ρ ≠ f ρ'
  have hb : Supports b f := by
    refine ⟨?_, fun k hk => by simpa [b] using (List.mem_filter.1 hk).2⟩
    intro ρ ρ' hρ
    have key : ∀ c : List Str, f ρ = f fun k => if k ∈ c ∧ k ∉ b then ρ' k else ρ k := by
      intro c
      induction c with
      | nil => simp
      | cons k c ih =>
        rw [ih]
        by_cases hk : k ∈ b
        · congr 1
          funext j
          by_cases e : j = k
          · subst e; simp [hk]
          · simp [e]
        · by_cases hka : k ∈ a
          · by_contra hne
            refine hk (List.mem_filter.2 ⟨hka, ?_⟩)
            simp only [decide_eq_true_eq]
            exact ⟨_, _, fun j hj => by simp [hj], hne⟩
          · apply h
            intro j hj
            have e : j ≠ k := by rintro rfl; exact hka hj
            simp [e]
    rw [key a]
    apply h
    intro k hk
    by_cases e : k ∈ b
    · simp [e, hρ k e]
    · simp [hk, e]
  by_cases hne : b = []
  · refine .inr ⟨f fun _ => 0, ?_, fun ρ => hb.only _ _ (by simp [hne])⟩
    show FV.fn f = .fn _
    congr 1
    funext ρ
    exact hb.only _ _ (by simp [hne])
  · exact .inl ⟨b, rfl, hb, hne⟩

theorem funEnv_arith : FunArith funEnv IsConst IsConst IsFun where
  numbers := funEnv_numbers
  subEv := funEnv_numbers.sub
  isZeroIs {v q} h := by
    rintro x a x' e rfl
    simp only [funEnv, gives, Prod.mk.injEq, Except.ok.injEq, decide_eq_true_eq] at e
    exact h.unique.1 e.1
  view h := by rw [h.1]; rfl
  freeSyms {v a f} h := fun x => by
    obtain ⟨rfl, hs, _⟩ := h
    have e : ∃ a, Supports a f := ⟨a, hs⟩
    exact ⟨e.choose, x, by simp only [funEnv, gives, dif_pos e], fun k =>
      ⟨e.choose_spec.unique hs, hs.unique e.choose_spec⟩⟩
  isNumber {v a f} h := fun x => ⟨x, by
    have : ¬ ∃ q, IsConst v q := fun ⟨q, e⟩ => h.notConst q e
    simp [funEnv, gives, this]⟩
  expandEq {v a f w b h} hv hw := by
    rintro x r x' e rfl
    simp only [funEnv, gives, Prod.mk.injEq, Except.ok.injEq, decide_eq_true_eq] at e
    obtain ⟨⟨rfl, _⟩, _⟩ := e
    have := hv.1.symm.trans hw.1
    simpa using this
  sub {v a f w b h} hv hw := by
    obtain ⟨rfl, hf, _⟩ := hv
    obtain ⟨rfl, hh, _⟩ := hw
    rintro x r x' e
    simp only [funEnv, gives, Prod.mk.injEq, Except.ok.injEq] at e
    rw [← e.1]
    exact comes_of (a := a ++ b) fun ρ ρ' hρ => by
      rw [hf.only ρ ρ' fun k hk => hρ k (by simp [hk]), hh.only ρ ρ' fun k hk => hρ k (by simp [hk])]
  simplify {v a f} h := by
    rintro x r x' e
    simp only [funEnv, gives, Prod.mk.injEq, Except.ok.injEq] at e
    rw [← e.1]
    exact .inl ⟨a, h⟩
  isZero {v a f} h := by
    rintro x r x' e rfl
    simp only [funEnv, gives, Prod.mk.injEq, Except.ok.injEq, decide_eq_true_eq] at e
    exact absurd e.1 (h.notConst 0)
  evalfAt {v a f} h σ ρ _ hσ := fun x => by
    obtain ⟨rfl, hs, _⟩ := h
    refine ⟨_, x, rfl, ?_⟩
    have : (f fun k => ((σ.lookup k).map FV.val).getD 0) = f ρ := hs.only _ _ fun k hk => by
      obtain ⟨u, h1, h2⟩ := hσ k hk
      rw [h1]
      exact h2.val
    rw [this]
    rfl
  randint := fun x => ⟨_, x, rfl, 2, by norm_num, rfl⟩
  uniform := fun x => ⟨_, x, rfl, 5 / 2, by norm_num, rfl⟩

theorem funEnv_uses : UsesUndeclared funEnv grammarLib 0 asFun none := by
  intro s x
  refine ⟨⟨⟨Globals.init, x⟩, []⟩, ⟨rfl, rfl, rfl⟩, ?_⟩
  simp only [funEnv]

/-- a text as an answer to be judged by `funEnv` -/
theorem funAnswer_of {s : Str} {ws : List Sign} {a : List Str} {f : (Str → ℝ) → ℝ} (ht : tidyB s = true) (hs : Single s)
    (hf : ∀ q, pyFloat funEnv.U s = some q → isIntFloat q = false) (hw : writtenB ws s = true)
    (hd : ∀ ρ, Denotes (reals.vars ρ) (fun _ => True) false .expr ws (f ρ)) (ha : Supports a f) (hne : a ≠ [])
    (hi : ∃ k ∈ a, k ≠ s%"i") : FunAnswer funEnv reals asFun IsFun s a f :=
  ⟨tidyB_sound ht, hs, hf, ⟨ws, _, false, writtenB_sound hw, hd⟩, fun v hv h => ⟨by rw [asFun_scalar hv, funext h], ha, hne⟩,
    fun x => .inl ⟨.other, x, rfl⟩, hne, hi⟩

/-- the value of a variable -/
theorem var_denotes (ρ : Str → ℝ) {c : Char} (hc : isVariable c = true) :
    Denotes (reals.vars ρ) (fun _ => True) false (.base ⟨false, true⟩) [.letter c] (ρ [c]) :=
  .letter (.latin hc) trivial

/-- the value of a digit -/
theorem dig_denotes (ρ : Str → ℝ) (d : Fin 10) :
    Denotes (reals.vars ρ) (fun _ => True) false (.base ⟨true, false⟩) [.digit d] (((d.val : ℕ) : ℚ) : ℝ) :=
  .number (num1 d)

/-- `x\cdot(x+2)` is the function `x(x+2)`. -/
theorem product_answer : FunAnswer funEnv reals asFun IsFun s%"x\\cdot(x+2)" [s%"x"] fun ρ => ρ s%"x" * (ρ s%"x" + 2) := by
  refine funAnswer_of (ws := [.letter 'x', .cmd s%"cdot"] ++ ([.mark '('] ++ [.letter 'x', .mark '+', .digit 2] ++ [.mark ')']))
    (by decide +kernel) ?_ ?_ (by decide +kernel) ?_ ?_ (by simp) (by simp)
  · exact ⟨by simp, by decide, (contains_eq_false _ _).1 (by decide +kernel), by decide +kernel, .inl (by simp)⟩
  · intro f hf
    rw [pyFloat_none '(' (by simp) (by decide)] at hf
    cases hf
  · intro ρ
    have h1 : Denotes (reals.vars ρ) (fun _ => True) false .expr [.letter 'x', .mark '+', .digit 2] _ :=
      .add (.term (o := false) (.signed (.product (.factor (.power (.base (var_denotes ρ (c := 'x') (by decide))))))))
        (.signed (.product (.factor (.power (.base (dig_denotes ρ 2))))))
    have h2 := Denotes.bracket (l := [.mark '(']) (r := [.mark ')']) (by decide) h1
    have h3 : Denotes (reals.vars ρ) (fun _ => True) false .expr _ _ := .term (.mul (o := .cmd s%"cdot") (by decide)
      (.signed (.product (.factor (.power (.base (var_denotes ρ (c := 'x') (by decide)))))))
      (.product (.factor (.power (.base h2)))))
    norm_num at h3 ⊢
    exact h3
  · refine ⟨fun ρ ρ' h => by simp only [h s%"x" (by simp)], ?_⟩
    intro k hk
    simp only [List.mem_singleton] at hk
    subst hk
    exact ⟨fun _ => 0, fun j => if j = s%"x" then 1 else 0, fun j hj => by simp [hj], by norm_num⟩

/-- `x^{2}+2x` is the same function. -/
theorem sum_answer : FunAnswer funEnv reals asFun IsFun s%"x^{2}+2x" [s%"x"] fun ρ => ρ s%"x" ^ 2 + 2 * ρ s%"x" := by
  refine funAnswer_of (ws := (.letter 'x' :: .mark '^' :: (.mark '{' :: [.digit 2] ++ [.mark '}'])) ++
    .mark '+' :: ([.digit 2] ++ [.letter 'x'])) (by decide +kernel) ?_ ?_ (by decide +kernel) ?_ ?_ (by simp) (by simp)
  · exact ⟨by simp, by decide, (contains_eq_false _ _).1 (by decide +kernel), by decide +kernel, .inl (by simp)⟩
  · intro f hf
    rw [pyFloat_none '{' (by simp) (by decide)] at hf
    cases hf
  · intro ρ
    have h1 := Denotes.letterPow (I := reals.vars ρ) (free := fun _ => True) (wide := ((false : Bool) : Style)) (w := .letter 'x') (n := s%"x")
      (.latin (by decide)) trivial (.expBraces (.term (o := false) (.signed (.product (.factor (.power (.base (dig_denotes ρ 2))))))))
    have h2 := Denotes.juxt (o := false) (w := .letter 'x') (vs := []) (.power (.base (dig_denotes ρ 2)))
      (.factor (.power (.base (var_denotes ρ (c := 'x') (by decide))))) (by constructor <;> simp)
    have h3 := Denotes.add (o := false) (.term (o := false) (.signed (.product (.factor (.power (.base h1)))))) (.signed (.product h2))
    have e : (reals.vars ρ).pw ((reals.vars ρ).var s%"x") (((((2 : Fin 10).val : ℕ) : ℚ)) : ℝ) = ρ s%"x" ^ 2 := by
      show ρ s%"x" ^ (_ : ℝ) = _
      have : ((((2 : Fin 10).val : ℕ) : ℚ) : ℝ) = ((2 : ℕ) : ℝ) := by norm_num
      rw [this, Real.rpow_natCast]
    rw [e] at h3
    norm_num at h3 ⊢
    exact h3
  · refine ⟨fun ρ ρ' h => by simp only [h s%"x" (by simp)], ?_⟩
    intro k hk
    simp only [List.mem_singleton] at hk
    subst hk
    exact ⟨fun _ => 0, fun j => if j = s%"x" then 1 else 0, fun j hj => by simp [hj], by norm_num⟩

/-- a factor and a variable: `2x`, `3y` -/
theorem multiple_answer (d : Fin 10) (hd : d ≠ 0) (c : Char) (hc : c = 'x' ∨ c = 'y') :
    FunAnswer funEnv reals asFun IsFun [digitChar d.val, c] [[c]] fun ρ => d.val * ρ [c] := by
  have hv : isVariable c = true := by rcases hc with rfl | rfl <;> decide
  refine funAnswer_of (ws := [.digit d] ++ [.letter c]) ?_ ?_ ?_ ?_ ?_ ?_ (by simp) ?_
  · revert d; rcases hc with rfl | rfl <;> decide +kernel
  · have : ∀ d : Fin 10, ',' ∉ [digitChar d.val, c] ∧ contains s%"matrix" [digitChar d.val, c] = false ∧
        ([digitChar d.val, c].map bracketDelta).sum = 0 ∧ (digitChar d.val ≠ '[' ∧ digitChar d.val ≠ '(' ∧ digitChar d.val ≠ '{') := by
      rcases hc with rfl | rfl <;> decide +kernel
    obtain ⟨h1, h2, h3, h4⟩ := this d
    exact ⟨by simp, h1, (contains_eq_false _ _).1 h2, h3, .inl (by rintro x ⟨⟩; exact h4)⟩
  · intro f hf
    have : ∀ d : Fin 10, (pyFloat asciiUni [digitChar d.val, c]).isNone = true := by rcases hc with rfl | rfl <;> decide +kernel
    have h0 := Option.isNone_iff_eq_none.1 (this d)
    rw [show pyFloat funEnv.U [digitChar d.val, c] = none from h0] at hf
    cases hf
  · revert d; rcases hc with rfl | rfl <;> decide +kernel
  · intro ρ
    have h2 := Denotes.juxt (o := false) (w := .letter c) (vs := []) (.power (.base (dig_denotes ρ d)))
      (.factor (.power (.base (var_denotes ρ hv)))) (by constructor <;> simp)
    have h3 := Denotes.term (o := false) (.signed (.product h2))
    simpa using h3
  · refine ⟨fun ρ ρ' h => by simp only [h [c] (by simp)], ?_⟩
    intro k hk
    simp only [List.mem_singleton] at hk
    subst hk
    refine ⟨fun _ => 0, fun j => if j = [c] then 1 else 0, fun j hj => by simp [hj], ?_⟩
    have : (d.val : ℝ) ≠ 0 := Nat.cast_ne_zero.2 fun e => hd (Fin.ext e)
    simpa using this.symm
  · rcases hc with rfl | rfl <;> simp

/-- `x\cdot(x+2)` and `x^{2}+2x` are judged equivalent. -/
example (n : Nat) (verbose : Bool) :
    Always (isEquiv funEnv (n + 2) (some s%"x\\cdot(x+2)") (some s%"x^{2}+2x") verbose) true :=
  C94_same_partial funEnv_arith (nodeLib_sound _ none _) grammarLib_parse funEnv_uses product_answer sum_answer (fun _ => Iff.rfl)
    (fun ρ _ => .inl (by ring)) n verbose

/-- `2x` and `3x` are not. -/
example (n : Nat) (verbose : Bool) : Always (isEquiv funEnv (n + 2) (some s%"2x") (some s%"3x") verbose) false := by
  refine C94_apart_partial funEnv_arith (nodeLib_sound _ none _) grammarLib_parse funEnv_uses
    (multiple_answer 2 (by decide) 'x' (.inl rfl)) (multiple_answer 3 (by decide) 'x' (.inl rfl)) ?_ (.inr ?_) n verbose
  · rintro ⟨q, _, h⟩
    have h0 := h fun _ => 0
    have h1 := h fun _ => 1
    norm_num at h0 h1
    linarith
  · intro ρ hρ
    obtain ⟨h1, _⟩ := hρ s%"x"
    have e2 : (((2 : Fin 10).val : ℕ) : ℝ) = 2 := by norm_num
    have e3 : (((3 : Fin 10).val : ℕ) : ℝ) = 3 := by norm_num
    rw [e2, e3, WithinTolerance, show |2 * ρ s%"x"| = 2 * ρ s%"x" from abs_of_pos (by linarith),
      show |2 * ρ s%"x" - 3 * ρ s%"x"| = ρ s%"x" by rw [abs_of_nonpos] <;> linarith]
    rintro (h | ⟨h, _⟩ | ⟨_, h⟩ | ⟨_, h, _⟩) <;> linarith

/-- `2x` and `2y` are not. -/
example (n : Nat) (verbose : Bool) : Always (isEquiv funEnv (n + 2) (some s%"2x") (some s%"2y") verbose) false := by
  refine C94_apart_partial funEnv_arith (nodeLib_sound _ none _) grammarLib_parse funEnv_uses
    (multiple_answer 2 (by decide) 'x' (.inl rfl)) (multiple_answer 2 (by decide) 'y' (.inr rfl)) ?_ (.inl ?_) n verbose
  · rintro ⟨q, _, h⟩
    have h0 := h fun _ => 0
    have h1 := h fun k => if k = s%"x" then 1 else 0
    simp only [List.cons.injEq, and_true, if_true, show ('y' = 'x') = False by decide, if_false] at h1
    norm_num at h0 h1
    linarith
  · intro h
    simpa using (h s%"x").1

/-- `x+\frac{x}{9999}` is the function `10000x/9999`. -/
theorem nearly_answer :
    FunAnswer funEnv reals asFun IsFun s%"x+\\frac{x}{9999}" [s%"x"] fun ρ => ρ s%"x" + ρ s%"x" / 9999 := by
  refine funAnswer_of (ws := [.letter 'x'] ++ .mark '+' :: (.cmd s%"frac" :: (.mark '{' :: [.letter 'x'] ++ [.mark '}']) ++
      (.mark '{' :: [.digit 9, .digit 9, .digit 9, .digit 9] ++ [.mark '}'])))
    (by decide +kernel) ?_ ?_ (by decide +kernel) ?_ ?_ (by simp) (by simp)
  · exact ⟨by simp, by decide, (contains_eq_false _ _).1 (by decide +kernel), by decide +kernel, .inl (by simp)⟩
  · intro f hf
    rw [pyFloat_none '{' (by simp) (by decide)] at hf
    cases hf
  · intro ρ
    have hx : Denotes (reals.vars ρ) (fun _ => True) false .expr [.letter 'x'] (ρ s%"x") :=
      .term (o := false) (.signed (.product (.factor (.power (.base (var_denotes ρ (c := 'x') (by decide)))))))
    have h9 : Denotes (reals.vars ρ) (fun _ => True) false .expr [.digit 9, .digit 9, .digit 9, .digit 9] _ :=
      .term (o := false) (.signed (.product (.factor (.power (.base (.number (.whole (ip := [9, 9, 9, 9]) (by simp))))))))
    have h3 := Denotes.add (o := false) hx (.signed (.product (.factor (.power (.base (.frac (.partBraces hx) (.partBraces h9)))))))
    have e : ((intPart [9, 9, 9, 9] : ℚ) : ℝ) = 9999 := by norm_num [intPart]
    rw [e] at h3
    exact h3
  · refine ⟨fun ρ ρ' h => by simp only [h s%"x" (by simp)], ?_⟩
    intro k hk
    simp only [List.mem_singleton] at hk
    subst hk
    exact ⟨fun _ => 0, fun j => if j = s%"x" then 1 else 0, fun j hj => by simp [hj], by norm_num⟩

/-- `x` is the function `x`. -/
theorem x_answer : FunAnswer funEnv reals asFun IsFun s%"x" [s%"x"] fun ρ => ρ s%"x" := by
  refine funAnswer_of (ws := [.letter 'x']) (by decide +kernel) ?_ ?_ (by decide +kernel) ?_ ?_ (by simp) (by simp)
  · exact ⟨by simp, by decide, (contains_eq_false _ _).1 (by decide +kernel), by decide +kernel, .inl (by simp)⟩
  · intro f hf
    have h0 := Option.isNone_iff_eq_none.1 (show (pyFloat asciiUni s%"x").isNone = true by decide +kernel)
    rw [show pyFloat funEnv.U s%"x" = none from h0] at hf
    cases hf
  · intro ρ
    exact .term (o := false) (.signed (.product (.factor (.power (.base (var_denotes ρ (c := 'x') (by decide)))))))
  · refine ⟨fun ρ ρ' h => by simp only [h s%"x" (by simp)], ?_⟩
    intro k hk
    simp only [List.mem_singleton] at hk
    subst hk
    exact ⟨fun _ => 0, fun j => if j = s%"x" then 1 else 0, fun j hj => by simp [hj], by norm_num⟩

/-- **C94**, refuted as an equivalence: `x` and `x+\frac{x}{9999}` are different functions and are always judged equivalent. -/
theorem C94_refuted : ∃ f h : (Str → ℝ) → ℝ, FunAnswer funEnv reals asFun IsFun s%"x" [s%"x"] f ∧
    FunAnswer funEnv reals asFun IsFun s%"x+\\frac{x}{9999}" [s%"x"] h ∧ f ≠ h ∧
    ∀ n verbose, Always (isEquiv funEnv (n + 2) (some s%"x") (some s%"x+\\frac{x}{9999}") verbose) true := by
  refine ⟨_, _, x_answer, nearly_answer, ?_, fun n verbose => ?_⟩
  · intro e
    have := congrFun e fun _ => 1
    norm_num at this
  · refine C94_same_partial funEnv_arith (nodeLib_sound _ none _) grammarLib_parse funEnv_uses x_answer nearly_answer
      (fun _ => Iff.rfl) (fun ρ hρ => .inr (.inr (.inl ?_))) n verbose
    obtain ⟨h1, h2⟩ := hρ s%"x"
    rw [show |ρ s%"x"| = ρ s%"x" from abs_of_pos (by linarith),
      show |ρ s%"x" - (ρ s%"x" + ρ s%"x" / 9999)| = ρ s%"x" / 9999 by rw [abs_of_nonpos] <;> linarith]
    exact ⟨h1, by linarith⟩

end Verif.L2S
