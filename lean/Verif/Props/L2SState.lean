import Verif.Props.L2SFrame
import Verif.Props.L2SArith
import Verif.Spec.KernelRfl
/-
C63 and C64: what the module globals of latex2sympy2.py carry from one call to another, and from one
part of a formula to another.
-/

namespace Verif.L2S
open Verif

variable {Y : Type}

/-! ### Invariants of the globals -/

/-- The computation preserves a property of the globals (whether it succeeds or raises). -/
def Keep (R : Globals → Prop) {α : Type} (m : M (St Y) α) : Prop :=
  ∀ w, R w.ext.g → R (m w).2.ext.g

/-- the derivative flags of the globals -/
def Globals.flags (g : Globals) : Option Bool × Option Bool := (g.diffOp, g.partialOp)

/-- what `postKind.operator` does with given flags -/
def operatorOf (v : SV) : Option Bool × Option Bool → Except PyErr PostKind
  | (some a, some b) =>
    if a || b then
      match v with
      | .list (x :: _) => .ok (.operator x)
      | .list [] => .error .indexError
      | _ => .error .typeError
    else .error .assertionError
  | _ => .error .other

theorem operator_run (v : SV) (w : World (St Y)) :
    postKind.operator v w = (operatorOf v w.ext.g.flags, w) := by
  obtain ⟨⟨g, y⟩, o⟩ := w
  obtain ⟨g1, g2, g3, g4, g5, g6, g7⟩ := g
  cases g6 with
  | none => rfl
  | some a =>
    cases g7 with
    | none => rfl
    | some b =>
      cases a <;> cases b <;> first
        | rfl
        | (cases v with
           | list xs => cases xs <;> rfl
           | _ => rfl)

theorem postKind_run (v : SV) (w : World (St Y)) :
    postKind v w = (if v.isOp then operatorOf v w.ext.g.flags
      else .ok (match v with | .tuple _ => .result | _ => .factor), w) := by
  cases v with
  | rel op l r => exact operator_run (.rel op l r) w
  | list xs => exact operator_run (.list xs) w
  | none => exact operator_run .none w
  | _ => rfl

theorem operatorOf_kind {v : SV} {f : Option Bool × Option Bool} {kd : PostKind}
    (h : operatorOf v f = .ok kd) : ∃ wrt, kd = .operator wrt := by
  unfold operatorOf at h
  split at h
  · split at h
    · split at h
      · exact ⟨_, (Except.ok.inj h).symm⟩
      · cases h
      · cases h
    · cases h
  · cases h

theorem postKind_kind {v : SV} {w w' : World (St Y)} {kd : PostKind}
    (h : postKind v w = (.ok kd, w')) : v.isOp = false ∨ ∃ wrt, kd = .operator wrt := by
  rw [postKind_run] at h
  cases hv : v.isOp with
  | false => exact .inl rfl
  | true =>
    rw [hv] at h
    exact .inr (operatorOf_kind (Prod.mk.inj h).1)

namespace Keep
variable {R : Globals → Prop} {α β : Type}

theorem pure' (a : α) : Keep R (pure a : M (St Y) α) := fun _ h => h
theorem raise' (e : PyErr) : Keep R (M.raise e : M (St Y) α) := fun _ h => h
theorem lift' (r : Except PyErr α) : Keep R (M.lift r : M (St Y) α) := fun _ h => h
theorem bind' {m : M (St Y) α} {f : α → M (St Y) β} (hm : Keep R m) (hf : ∀ a, Keep R (f a)) :
    Keep R (m >>= f) := by
  intro w h
  have h1 := hm w h
  rw [M.bind_run]
  cases hr : m w with
  | mk r w' =>
    rw [hr] at h1
    cases r with
    | ok a => exact hf a w' h1
    | error e => exact h1
theorem tryE {m : M (St Y) α} {g : PyErr → M (St Y) α} (hm : Keep R m) (hg : ∀ e, Keep R (g e)) :
    Keep R (M.tryExcept m g) := by
  intro w h
  have h1 := hm w h
  rw [M.tryExcept_run]
  cases hr : m w with
  | mk r w' =>
    rw [hr] at h1
    cases r with
    | ok a => exact h1
    | error e => exact hg e w' h1
theorem ext' (f : Ext Y α) : Keep R (libExt f) := by
  intro w h
  show R (libExt f w).2.ext.g
  simp only [libExt, M.ext]
  exact h
/-- what follows a reading of the globals may use that they satisfy the property -/
theorem read {f : Globals → M (St Y) α} (hf : ∀ g, R g → Keep R (f g)) : Keep R (getG >>= f) :=
  fun w h => hf w.ext.g h w h
theorem modify {f : Globals → Globals} (hf : ∀ g, R g → R (f g)) :
    Keep R (modG f : M (St Y) Unit) := fun w h => hf w.ext.g h
theorem ite' {c : Prop} [Decidable c] {a b : M (St Y) α} (ha : Keep R a) (hb : Keep R b) :
    Keep R (if c then a else b) := by
  split <;> assumption

theorem postKind (v : SV) : Keep R (postKind v : M (St Y) PostKind) := by
  have hop : Keep R (postKind.operator v : M (St Y) PostKind) := by
    refine read fun g _ => ?_
    repeat' first
      | exact pure' _
      | exact raise' _
      | split
  cases v <;> first | exact pure' _ | exact hop

theorem shapeOf (L : Lib Y) (v : SV) : Keep R (shapeOf L v) := by
  unfold L2S.shapeOf
  split
  · exact pure' _
  · exact pure' _
  · refine tryE (bind' (ext' _) fun _ => ?_) fun _ => pure' _
    split <;> exact pure' _

theorem variableValue (L : Lib Y) (name : Str) : Keep R (variableValue L name) := by
  refine read fun g _ => ?_
  split
  · exact pure' _
  · exact ext' _
  · exact raise' _
  · exact pure' _

theorem mkRel (L : Lib Y) (op : Str) (a b : SV) : Keep R (mkRel L op a b) :=
  ite' (pure' _) (ext' _)

/-- The frame principle for invariants of the globals. -/
theorem frame {L : Lib Y} {rec : Str → List (Str × PV) → M (St Y) SV} {q : T → Bool}
    (hmat : ∀ n s, Keep R (matrixSymbol L n s))
    (hrel : ∀ op l r, q (.rel op l r) = true → ∀ a b, Keep R (convertRel L op a b))
    (hfrac : ∀ u us l ls, q (.frac u us l ls) = true → Keep R (fracDeriv L rec us ls))
    (hargs : ∀ ss, Keep R (argList rec ss)) :
    Frame L rec q (fun _ m => Keep R m) where
  weaken h _ := h
  pure _ a _ := pure' a
  raise _ e := raise' e
  bind o _ _ _ hm hf hg := bind' hm fun a => by
    cases h : o a with
    | false => exact hf a h
    | true => exact hg a h
  tryE hm hh := tryE hm hh
  ext f := ext' f
  ev f args _ := ext' _
  real hk := read fun g _ => hk g.isReal
  vars hk := read fun g _ => hk g.variances
  post hm hk := by
    refine bind' hm fun v => ?_
    -- the continuation is only entered with a consistent classification
    have : ∀ kd : PostKind, (v.isOp = false ∨ ∃ wrt, kd = .operator wrt) → Keep R _ := hk v
    intro w h
    rw [M.bind_run]
    have h1 := postKind v w h
    cases hr : L2S.postKind v w with
    | mk r w' =>
      rw [hr] at h1
      cases r with
      | error e => exact h1
      | ok kd =>
        refine this kd ?_ w' h1
        exact postKind_kind hr
  matSym n s := hmat n s
  varVal name := variableValue L name
  rel op l r h a b := hrel op l r h a b
  frac u us l ls h := hfrac u us l ls h
  args ss := hargs ss

end Keep

/-! ### C63: variable bindings -/

theorem values_matrixSymbol (L : Lib Y) (vals : List (Str × PV)) (n : Str) (s : SV) :
    Keep (fun g => g.values = vals) (matrixSymbol L n s) := by
  refine Keep.read fun g _ => ?_
  split
  · exact Keep.pure' _
  · refine Keep.bind' (Keep.shapeOf L _) fun o => ?_
    split
    · exact Keep.pure' _
    · refine Keep.read fun g _ => ?_
      split
      · exact Keep.bind' (Keep.modify fun _ h => h) fun _ => Keep.pure' _
      · exact Keep.pure' _

theorem values_convertRel (L : Lib Y) (vals : List (Str × PV)) (op : RelTok) (a b : SV) :
    Keep (fun g => g.values = vals) (convertRel L op a b) := by
  cases op with
  | isIn =>
    unfold convertRel
    dsimp only
    split
    · split
      · exact Keep.read fun _ _ => Keep.bind' (Keep.ext' _) fun _ => Keep.bind' (Keep.ext' _)
          fun _ => Keep.bind' (Keep.modify fun _ h => h) fun _ => Keep.pure' _
      · exact Keep.raise' _
    · exact Keep.raise' _
  | _ => exact Keep.mkRel L _ a b

theorem values_argList {rec : Str → List (Str × PV) → M (St Y) SV} {vals : List (Str × PV)}
    (hrec : ∀ a, Keep (fun g => g.values = vals) (rec a vals)) (ss : List Str) :
    Keep (fun g => g.values = vals) (argList rec ss) := by
  induction ss with
  | nil => exact Keep.pure' _
  | cons a as ih =>
    refine Keep.read fun g hg => ?_
    rw [hg]
    exact Keep.bind' (hrec a) fun _ => Keep.bind' ih fun _ => Keep.pure' _

/-- the node is not a fraction that is read as a derivative (`\frac{d f}{d x}`,
`\frac{\partial f}{\partial x}`) -/
def notDerivative : T → Bool
  | .frac _ _ _ (some l) =>
    !(l.single && l.startKind == .differential) && !(l.len == 2 && l.startText == s%"\\partial")
  | _ => true

theorem notDerivative_spec {u : T} {us : Option Span} {l : T} {ls : Option Span}
    (h : notDerivative (.frac u us l ls) = true) : NotDifferential ls := by
  rintro x rfl
  simp only [notDerivative, Bool.and_eq_true, Bool.not_eq_true', Bool.and_eq_false_iff,
    beq_eq_false_iff_ne] at h
  refine ⟨fun hc => ?_, fun hc => ?_⟩
  · rcases h.1 with h1 | h1
    · rw [hc.1] at h1; cases h1
    · exact h1 hc.2
  · rcases h.2 with h1 | h1
    · exact h1 hc.1
    · exact h1 hc.2

theorem values_frame (L : Lib Y) {rec : Str → List (Str × PV) → M (St Y) SV}
    {vals : List (Str × PV)} (hrec : ∀ a, Keep (fun g => g.values = vals) (rec a vals)) :
    Frame L rec notDerivative (fun _ m => Keep (fun g => g.values = vals) m) :=
  Keep.frame (values_matrixSymbol L vals) (fun op _ _ _ a b => values_convertRel L vals op a b)
    (fun u us l ls h w hw => by
      obtain ⟨w', hr, hg, _⟩ := fracDeriv_none (L := L) rec (us := us) (notDerivative_spec h) w
      rw [hr]
      have : w'.ext.g.values = w.ext.g.values := hg.2.2.2.2
      rw [this]; exact hw)
    (values_argList hrec)

theorem Keep.items {R : Globals → Prop} {L : Lib Y} {n : Nat} {s : Str} {vals : List (Str × PV)}
    (hset : ∀ g, R g → R { g with fracType := fracTypeOf s g.fracType, values := vals })
    (hone : ∀ t, L.parse (prepare s) = .ok (.one t) → Keep R (conv L (latex2sympy L n) t))
    (hlist : ∀ ts, L.parse (prepare s) = .ok (.list ts) →
      Keep R (convItems L (latex2sympy L n) ts)) :
    Keep R (latex2sympy L (n + 1) s vals) := by
  rw [latex2sympy]
  refine Keep.bind' (Keep.modify hset) fun _ => ?_
  cases hp : L.parse (prepare s) with
  | error e => exact fun w h => h
  | ok t =>
    cases t with
    | one t => exact hone t hp
    | list ts =>
      have : Keep R (convItems L (latex2sympy L n) ts >>= fun vs => pure (SV.list vs)) :=
        Keep.bind' (hlist ts hp) fun _ => Keep.pure' _
      exact this

/-- The bindings of a call are the ones passed to it, whatever the globals held before; nothing else
of an earlier call's bindings is read. -/
theorem C63_no_leak (L : Lib Y) (n : Nat) (s : Str) (vals old : List (Str × PV))
    (w : World (St Y)) :
    latex2sympy L (n + 1) s vals ⟨⟨{ w.ext.g with values := old }, w.ext.lib⟩, w.out⟩ =
      latex2sympy L (n + 1) s vals w := by
  rw [latex2sympy]; rfl

/-- the text is a formula without derivative fractions, and so are all texts parsed on the way -/
def DerivativeFree (L : Lib Y) : Prop :=
  ∀ s t, L.parse s = .ok t → t.all notDerivative = true

theorem values_latex2sympy {L : Lib Y} (hL : DerivativeFree L) : ∀ (n : Nat) (s : Str)
    (vals : List (Str × PV)), Keep (fun g => g.values = vals) (latex2sympy L n s vals)
  | 0, _, _ => Keep.raise' _
  | n + 1, _, vals =>
    Keep.items (fun _ _ => rfl)
      (fun t ht => (values_frame L (fun a => values_latex2sympy hL n a vals)).conv t (hL _ _ ht))
      (fun ts ht =>
        (values_frame L (fun a => values_latex2sympy hL n a vals)).convItems ts (hL _ _ ht))

/-- Without derivative fractions every part of the formula is converted with the bindings passed to
the call: converting any part, with any outcome, leaves them in place. -/
theorem C63_kept_partial {L : Lib Y} (hL : DerivativeFree L) (n : Nat) (t : T)
    (ht : t.all notDerivative = true) (w : World (St Y)) :
    (conv L (latex2sympy L n) t w).2.ext.g.values = w.ext.g.values :=
  (values_frame L (vals := w.ext.g.values) (fun a => values_latex2sympy hL n a _)).conv t ht w rfl

/-- After a call without derivative fractions the bindings are still those of the call. -/
theorem C63_call_partial {L : Lib Y} (hL : DerivativeFree L) (n : Nat) (s : Str)
    (vals : List (Str × PV)) (w : World (St Y)) :
    (latex2sympy L (n + 1) s vals w).2.ext.g.values = vals := by
  rw [← C63_no_leak L n s vals vals w]
  exact values_latex2sympy hL (n + 1) s vals _ rfl

theorem variableName_plain (name : Str) :
    variableName (s%"\\variable{" ++ name ++ s%"}") = (name, false) := by
  have h10 : (s%"\\variable{" ++ name ++ s%"}").drop 10 = name ++ s%"}" := rfl
  have hn : endsWith s%"\\%" (s%"\\variable{" ++ name ++ s%"}") = false := by
    rw [endsWith, List.reverse_append]
    rfl
  rw [variableName, hn, h10]
  simp

theorem variableName_percent (name : Str) :
    variableName (s%"\\variable{" ++ name ++ s%"}\\%") = (name, true) := by
  have h10 : (s%"\\variable{" ++ name ++ s%"}\\%").drop 10 = name ++ s%"}\\%" := rfl
  have hn : endsWith s%"\\%" (s%"\\variable{" ++ name ++ s%"}\\%") = true := by
    rw [endsWith, List.reverse_append]
    rfl
  rw [variableName, hn, h10]
  simp

/-- A `\variable{name}` stands for the SymPy value bound to the name, and an unbound one for a
symbol whose name nobody else uses. -/
theorem C63_lookup (L : Lib Y) (rec : Str → List (Str × PV) → M (St Y) SV) (name : Str)
    (w : World (St Y)) :
    (∀ v, w.ext.g.values.lookup name = some (.sympy v) →
      conv L rec (.variable (s%"\\variable{" ++ name ++ s%"}")) w = (.ok v, w)) ∧
    (w.ext.g.values.lookup name = none →
      conv L rec (.variable (s%"\\variable{" ++ name ++ s%"}")) w =
        (.ok (.sym (name ++ L.md5 name) w.ext.g.isReal), w)) := by
  have hname := variableName_plain name
  constructor
  · intro v hv
    rw [conv, convertVariable, hname]
    simp [variableValue, getG, M.ext, hv]
  · intro hv
    rw [conv, convertVariable, hname]
    simp [variableValue, getG, M.ext, hv]

/-- Followed by a percent sign it stands for a hundredth of that value: for a bound value that is not a
container, the unevaluated product with `100 ** -1`. -/
theorem C63_percent (L : Lib Y) (rec : Str → List (Str × PV) → M (St Y) SV) (name : Str) (v : SV)
    (hv : v.plain = true) (w : World (St Y)) (hb : w.ext.g.values.lookup name = some (.sympy v)) :
    conv L rec (.variable (s%"\\variable{" ++ name ++ s%"}\\%")) w =
      (.ok (.mul [v, .pow (.num 100) (.num (-1))]), w) := by
  rw [conv, convertVariable, variableName_percent]
  have h1 : (SV.num 100).plain = true := rfl
  have h2 : (SV.num (-1)).plain = true := rfl
  have h3 : (SV.pow (.num 100) (.num (-1))).plain = true := rfl
  simp [variableValue, getG, M.ext, hb, mkPow, mkMul, hv, h1, h2, h3]

/-- the variable `p` with a percent sign, bound to 5 -/
example (L : Lib Unit) (rec : Str → List (Str × PV) → M (St Unit) SV) :
    (conv L rec (.variable s%"\\variable{p}\\%")
      ⟨⟨{ Globals.init with values := [(s%"p", .sympy (.num 5))] }, ()⟩, []⟩).1 =
      .ok (.mul [.num 5, .pow (.num 100) (.num (-1))]) := by
  have := C63_percent L rec s%"p" (.num 5) rfl
    ⟨⟨{ Globals.init with values := [(s%"p", .sympy (.num 5))] }, ()⟩, []⟩ rfl
  exact congrArg Prod.fst this

/-! #### Derivative fractions drop the bindings -/

theorem values_fracDeriv_nil {L : Lib Y} {rec : Str → List (Str × PV) → M (St Y) SV}
    (hrec : ∀ a, Keep (fun g => g.values = []) (rec a [])) (us ls : Option Span) :
    Keep (fun g => g.values = []) (fracDeriv L rec us ls) := by
  unfold fracDeriv
  refine Keep.bind' (Keep.modify fun _ h => h) fun _ => ?_
  split
  · refine Keep.bind' (Keep.lift' _) fun o => ?_
    split
    · exact Keep.pure' _
    · refine Keep.bind' (Keep.modify fun g h => by split <;> exact h) fun _ => ?_
      refine Keep.read fun g _ => ?_
      refine Keep.ite' (Keep.pure' _) ?_
      split
      · exact Keep.pure' _
      · refine Keep.bind' (hrec _) fun top => Keep.bind' (Keep.lift' _) fun b => ?_
        exact Keep.ite' (Keep.bind' (Keep.ext' _) fun _ => Keep.pure' _) (Keep.pure' _)
  · exact Keep.pure' _

theorem values_frame_nil (L : Lib Y) {rec : Str → List (Str × PV) → M (St Y) SV}
    (hrec : ∀ a, Keep (fun g => g.values = []) (rec a [])) :
    Frame L rec (fun _ => true) (fun _ m => Keep (fun g => g.values = []) m) :=
  Keep.frame (values_matrixSymbol L []) (fun op _ _ _ a b => values_convertRel L [] op a b)
    (fun _ us _ ls _ => values_fracDeriv_nil hrec us ls) (values_argList hrec)

mutual
theorem T.all_true : ∀ t : T, t.all (fun _ => true) = true := by
  intro t
  cases t with
  | juxt ps => simp only [T.all, Bool.true_and]; exact T.allL_true ps
  | matrix rows arrow => simp only [T.all, T.allLL_true rows, T.allLL_true arrow]; rfl
  | det rows => simp only [T.all, T.allLL_true rows]; rfl
  | rel _ l r => simp only [T.all, T.all_true l, T.all_true r]; rfl
  | add l r => simp only [T.all, T.all_true l, T.all_true r]; rfl
  | sub l r => simp only [T.all, T.all_true l, T.all_true r]; rfl
  | mul l r => simp only [T.all, T.all_true l, T.all_true r]; rfl
  | div l r => simp only [T.all, T.all_true l, T.all_true r]; rfl
  | mod l r => simp only [T.all, T.all_true l, T.all_true r]; rfl
  | eqn l r => simp only [T.all, T.all_true l, T.all_true r]; rfl
  | pow l r => simp only [T.all, T.all_true l, T.all_true r]; rfl
  | binom l r => simp only [T.all, T.all_true l, T.all_true r]; rfl
  | frac l _ r _ => simp only [T.all, T.all_true l, T.all_true r]; rfl
  | pos u => simp only [T.all, T.all_true u]; rfl
  | neg u => simp only [T.all, T.all_true u]; rfl
  | bang u => simp only [T.all, T.all_true u]; rfl
  | transp u => simp only [T.all, T.all_true u]; rfl
  | group u => simp only [T.all, T.all_true u]; rfl
  | norm u => simp only [T.all, T.all_true u]; rfl
  | abs u => simp only [T.all, T.all_true u]; rfl
  | floor u => simp only [T.all, T.all_true u]; rfl
  | ceil u => simp only [T.all, T.all_true u]; rfl
  | trScale u _ => simp only [T.all, T.all_true u]; rfl
  | trAssign _ u _ => simp only [T.all, T.all_true u]; rfl
  | evalAt e a b => simp only [T.all, T.all_true e, T.allO_true a, T.allO_true b]; rfl
  | name _ _ p => simp only [T.all, T.allO_true p]; rfl
  | fnSingle _ _ s p a => simp only [T.all, T.all_true a, T.allO_true s, T.allO_true p]; rfl
  | fnMulti _ _ _ _ p => simp only [T.all, T.allO_true p]; rfl
  | fnApply _ _ p => simp only [T.all, T.allO_true p]; rfl
  | integral b _ s p => simp only [T.all, T.allO_true b, T.allO_true s, T.allO_true p]; rfl
  | sqrt b r => simp only [T.all, T.all_true b, T.allO_true r]; rfl
  | sumProd _ a b c d => simp only [T.all, T.all_true a, T.all_true b, T.all_true c, T.all_true d]; rfl
  | lim _ _ a c => simp only [T.all, T.all_true a, T.all_true c]; rfl
  | expE p => simp only [T.all, T.allO_true p]; rfl
  | _ => rfl
theorem T.allL_true : ∀ ts : List T, T.allL (fun _ => true) ts = true
  | [] => rfl
  | t :: ts => by simp only [T.allL, T.all_true t, T.allL_true ts]; rfl
theorem T.allLL_true : ∀ ts : List (List T), T.allLL (fun _ => true) ts = true
  | [] => rfl
  | t :: ts => by simp only [T.allLL, T.allL_true t, T.allLL_true ts]; rfl
theorem T.allO_true : ∀ t : Option T, T.allO (fun _ => true) t = true
  | none => rfl
  | some t => by simp only [T.allO, T.all_true t]
end

theorem values_latex2sympy_nil (L : Lib Y) : ∀ (n : Nat) (s : Str),
    Keep (fun g => g.values = []) (latex2sympy L n s [])
  | 0, _ => Keep.raise' _
  | n + 1, _ =>
    Keep.items (fun _ _ => rfl)
      (fun t _ => (values_frame_nil L (values_latex2sympy_nil L n)).conv t (T.all_true t))
      (fun ts _ => (values_frame_nil L (values_latex2sympy_nil L n)).convItems ts (T.allL_true ts))

theorem values_nested {L : Lib Y} {n : Nat} {s : Str} {w w1 : World (St Y)}
    {r : Except PyErr SV} (h : latex2sympy L (n + 1) s [] w = (r, w1)) :
    w1.ext.g.values = [] := by
  have := values_latex2sympy_nil L (n + 1) s ⟨⟨{ w.ext.g with values := [] }, w.ext.lib⟩, w.out⟩ rfl
  rw [C63_no_leak L n s [] [] w, h] at this
  exact this

/-- the fraction is a derivative of a formula: the denominator is a differential and the numerator
has a text to differentiate -/
def DerivativeOf (us ls : Option Span) (v : Str) (isPartial : Bool) (body : Str) : Prop :=
  ∃ u l, us = some u ∧ ls = some l ∧ derivVar l = .ok (some (v, isPartial)) ∧
    isOperatorOnly u isPartial = false ∧ derivBody u isPartial = some body

/-- Every derivative fraction erases all variable bindings of the running call.  The code converts
the numerator with a nested call of `latex2sympy` without bindings, which overwrites the module
global that holds them; so `\variable{}` occurrences after it are unbound. -/
theorem C63_derivative_refuted (L : Lib Y) (n : Nat) (u : T) (us : Option Span) (l : T)
    (ls : Option Span) (v : Str) (p : Bool) (body : Str) (h : DerivativeOf us ls v p body)
    (d : SV) (w w' : World (St Y))
    (hd : fracDeriv L (latex2sympy L (n + 1)) us ls w = (.ok (some d), w')) :
    conv L (latex2sympy L (n + 1)) (.frac u us l ls) w = (.ok d, w') ∧
    w'.ext.g.values = [] ∧
    ∀ name, conv L (latex2sympy L (n + 1)) (.variable (s%"\\variable{" ++ name ++ s%"}")) w' =
        (.ok (.sym (name ++ L.md5 name) w'.ext.g.isReal), w') := by
  have hv : w'.ext.g.values = [] := by
    obtain ⟨us', ls', rfl, rfl, h1, h2, h3⟩ := h
    have : w' = (fracDeriv L (latex2sympy L (n + 1)) (some us') (some ls') w).2 := by rw [hd]
    rw [this]
    simp only [fracDeriv, M.bind_run, modG, M.ext, M.lift_run, h1, getG, h2, h3,
      Bool.false_eq_true, if_false]
    split
    · rename_i top w1 hr
      have hw1 : w1.ext.g.values = [] := values_nested hr
      split
      · rename_i b w2 hb
        obtain rfl : w1 = w2 := (Prod.mk.inj hb).2
        exact Keep.ite' (R := fun g => g.values = []) (Keep.bind' (Keep.ext' _) fun _ => Keep.pure' _)
          (Keep.pure' _) w1 hw1
      · rename_i e w2 hb
        obtain rfl : w1 = w2 := (Prod.mk.inj hb).2
        exact hw1
    · rename_i e w1 hr
      exact values_nested hr
  refine ⟨?_, hv, fun name => ?_⟩
  · rw [conv, M.bind_run, hd]; rfl
  · exact (C63_lookup L _ name w').2 (by rw [hv]; rfl)

/-! #### A small library for examples -/

/-- A library that parses the listed texts and answers every call with an unevaluated node. -/
def tableLib (table : List (Str × MathTree)) : Lib Unit where
  parse s := match table.lookup s with
    | some t => .ok t
    | none => .error .other
  call f args y := (.ok (.fn f args), y)
  validate _ _ y := (.ok (), y)
  str v y := (.ok (match v with | .sym n _ => n | _ => []), y)
  md5 _ := s%"900150983cd24fb0"
  latex _ y := (.ok [], y)
  hasNUMBER := false

/-- the world after importing the module -/
def freshWorld : World (St Unit) := ⟨⟨Globals.init, ()⟩, []⟩

/-- the symbol `x` -/
abbrev xTree : T := .name (.letter s%"x") none none

/-- `\frac{d(x^2)}{dx}+\variable{a}` -/
def derivSum : T :=
  .add (.juxt [.frac (.juxt [.name (.letter s%"d") none none, .group (.name (.letter s%"x") none (some (.number s%"2")))])
      (some ⟨.letterNoE, s%"d", .other, s%")", false, 6, s%"d(x^2)"⟩)
      (.differential s%"dx") (some ⟨.differential, s%"dx", .differential, s%"dx", true, 1, s%"dx"⟩)])
    (.juxt [.variable s%"\\variable{a}"])

/-- the texts of the example -/
def derivTable : List (Str × MathTree) :=
  [(s%"\\frac{d(x^2)}{dx}+\\variable{a}", .one derivSum),
   (s%"\\variable{a}+x", .one (.add (.juxt [.variable s%"\\variable{a}"]) (.juxt [xTree]))),
   (s%"(x^2)", .one (.juxt [.group (.juxt [.name (.letter s%"x") none (some (.number s%"2"))])]))]

/-- With `a` bound to 5, the `\variable{a}` of `\frac{d(x^2)}{dx}+\variable{a}` is unbound. -/
theorem C63_refuted :
    (latex2sympy (tableLib derivTable) 5 s%"\\frac{d(x^2)}{dx}+\\variable{a}"
      [(s%"a", .sympy (.num 5))] freshWorld).1 =
    .ok (.add [.fn s%"Derivative" [.pow (.sym s%"x" none) (.num 2), .sym s%"x" none],
      .sym s%"a900150983cd24fb0" none]) := by
  kernel_rfl

/-- without the derivative the binding is used -/
example : (latex2sympy (tableLib derivTable) 5 s%"\\variable{a}+x" [(s%"a", .sympy (.num 5))]
    freshWorld).1 = .ok (.add [.num 5, .sym s%"x" none]) := by
  kernel_rfl

/-- a derivative fraction in the sense of `DerivativeOf` -/
example : DerivativeOf (some ⟨.letterNoE, s%"d", .other, s%")", false, 6, s%"d(x^2)"⟩)
    (some ⟨.differential, s%"dx", .differential, s%"dx", true, 1, s%"dx"⟩) s%"x" false
    s%"(x^2)" := ⟨_, _, rfl, rfl, rfl, rfl, rfl⟩

/-- a library whose texts have no derivatives -/
example : DerivativeFree (tableLib
    [(s%"\\variable{a}+x", .one (.add (.juxt [.variable s%"\\variable{a}"]) (.juxt [xTree])))]) := by
  intro s t h
  simp only [tableLib, List.lookup] at h
  split at h
  · rename_i h1
    split at h1
    · cases h1; cases h; rfl
    · cases h1
  · cases h

/-! ### C64: independence of history -/

/-- Two worlds in which the converter must behave alike: they may differ in the fraction style and in
the derivative flags left by earlier calls. -/
structure Alike (w w' : World (St Y)) : Prop where
  out : w'.out = w.out
  lib : w'.ext.lib = w.ext.lib
  isReal : w'.ext.g.isReal = w.ext.g.isReal
  variances : w'.ext.g.variances = w.ext.g.variances
  var : w'.ext.g.var = w.ext.g.var
  values : w'.ext.g.values = w.ext.g.values
  good : ∀ n v, w.ext.g.values.lookup n = some (.sympy v) → v.isOp = false

/-- The computation behaves alike in such worlds; if it returns a marked value, then the derivative
flags agree afterwards. -/
def Ins {α : Type} (o : α → Bool) (m : M (St Y) α) : Prop :=
  ∀ w w', Alike w w' →
    (m w').1 = (m w).1 ∧ Alike (m w).2 (m w').2 ∧
    (w'.ext.g.flags = w.ext.g.flags → (m w').2.ext.g.flags = (m w).2.ext.g.flags) ∧
    (∀ a, (m w).1 = .ok a → o a = true → (m w').2.ext.g.flags = (m w).2.ext.g.flags)

namespace Ins
variable {α β : Type}

theorem pure' {o : α → Bool} {a : α} (h : o a = false) : Ins o (pure a : M (St Y) α) :=
  fun w w' hw => ⟨rfl, hw, fun h => h, fun b hb ho => by
    obtain rfl : a = b := Except.ok.inj hb
    rw [h] at ho; cases ho⟩
theorem raise' (o : α → Bool) (e : PyErr) : Ins o (M.raise e : M (St Y) α) :=
  fun _ _ hw => ⟨rfl, hw, fun h => h, fun _ hb _ => nomatch hb⟩
theorem weaken {o o' : α → Bool} {m : M (St Y) α} (h : Ins o m) (ho : ∀ a, o' a = true → o a = true) :
    Ins o' m := fun w w' hw =>
  have ⟨h1, h2, h3, h4⟩ := h w w' hw
  ⟨h1, h2, h3, fun a ha hoa => h4 a ha (ho a hoa)⟩

theorem bind' {o : α → Bool} {o' : β → Bool} {m : M (St Y) α} {f : α → M (St Y) β} (hm : Ins o m)
    (hf : ∀ a, o a = false → Ins o' (f a)) (hg : ∀ a, o a = true → Ins (fun _ => false) (f a)) :
    Ins o' (m >>= f) := by
  intro w w' hw
  obtain ⟨h1, h2, h3, h4⟩ := hm w w' hw
  rw [M.bind_run, M.bind_run]
  cases hr : m w with
  | mk r w1 =>
    cases hr' : m w' with
    | mk r' w1' =>
      rw [hr, hr'] at h1 h2 h3 h4
      obtain rfl : r' = r := h1
      cases r' with
      | error e => exact ⟨rfl, h2, h3, fun _ hb => nomatch hb⟩
      | ok a =>
        cases hoa : o a with
        | false =>
          obtain ⟨k1, k2, k3, k4⟩ := hf a hoa w1 w1' h2
          exact ⟨k1, k2, fun h => k3 (h3 h), k4⟩
        | true =>
          obtain ⟨k1, k2, k3, _⟩ := hg a hoa w1 w1' h2
          exact ⟨k1, k2, fun h => k3 (h3 h), fun _ _ _ => k3 (h4 a rfl hoa)⟩

theorem seq {o : α → Bool} {o' : β → Bool} {m : M (St Y) α} {f : α → M (St Y) β} (hm : Ins o m)
    (hf : ∀ a, Ins o' (f a)) : Ins o' (m >>= f) :=
  bind' (o := fun _ => false) (hm.weaken fun _ h => nomatch h) (fun a _ => hf a) (fun _ h => nomatch h)

theorem tryE {o : α → Bool} {m : M (St Y) α} {g : PyErr → M (St Y) α} (hm : Ins o m)
    (hg : ∀ e, Ins o (g e)) : Ins o (M.tryExcept m g) := by
  intro w w' hw
  obtain ⟨h1, h2, h3, h4⟩ := hm w w' hw
  rw [M.tryExcept_run, M.tryExcept_run]
  cases hr : m w with
  | mk r w1 =>
    cases hr' : m w' with
    | mk r' w1' =>
      rw [hr, hr'] at h1 h2 h3 h4
      obtain rfl : r' = r := h1
      cases r' with
      | ok a => exact ⟨rfl, h2, h3, h4⟩
      | error e =>
        obtain ⟨k1, k2, k3, k4⟩ := hg e w1 w1' h2
        exact ⟨k1, k2, fun h => k3 (h3 h), k4⟩

theorem ext' {o : α → Bool} (f : Ext Y α) (h : ∀ y a, (f y).1 = .ok a → o a = false) :
    Ins o (libExt f) := by
  rintro ⟨⟨g, y⟩, out⟩ ⟨⟨g', y'⟩, out'⟩ hw
  obtain rfl : y' = y := hw.lib
  simp only [libExt, M.ext]
  refine ⟨trivial, ⟨hw.out, rfl, hw.isReal, hw.variances, hw.var, hw.values, hw.good⟩, fun h => h, ?_⟩
  intro a ha hoa
  rw [h _ a ha] at hoa; cases hoa

/-- reading the globals: only what the worlds have in common may be used -/
theorem read {o : α → Bool} {f : Globals → M (St Y) α} {γ : Type} (p : Globals → γ)
    (hp : ∀ w w' : World (St Y), Alike w w' → p w'.ext.g = p w.ext.g) (k : γ → M (St Y) α)
    (hf : ∀ g, f g = k (p g)) (hk : ∀ w w' : World (St Y), Alike w w' →
      (k (p w.ext.g) w').1 = (k (p w.ext.g) w).1 ∧
      Alike (k (p w.ext.g) w).2 (k (p w.ext.g) w').2 ∧
      (w'.ext.g.flags = w.ext.g.flags →
        (k (p w.ext.g) w').2.ext.g.flags = (k (p w.ext.g) w).2.ext.g.flags) ∧
      (∀ a, (k (p w.ext.g) w).1 = .ok a → o a = true →
        (k (p w.ext.g) w').2.ext.g.flags = (k (p w.ext.g) w).2.ext.g.flags)) :
    Ins o (getG >>= f) := by
  intro w w' hw
  have e1 : (getG >>= f) w = k (p w.ext.g) w := by rw [← hf]; rfl
  have e2 : (getG >>= f) w' = k (p w.ext.g) w' := by rw [← hp w w' hw, ← hf]; rfl
  rw [e1, e2]
  exact hk w w' hw

theorem read' {o : α → Bool} {f : Globals → M (St Y) α} {γ : Type} (p : Globals → γ)
    (hp : ∀ w w' : World (St Y), Alike w w' → p w'.ext.g = p w.ext.g) (k : γ → M (St Y) α)
    (hf : ∀ g, f g = k (p g)) (hk : ∀ c, Ins o (k c)) : Ins o (getG >>= f) :=
  read p hp k hf fun w w' hw => hk _ w w' hw

theorem modify {f : Globals → Globals} {o : Unit → Bool}
    (hf : ∀ w w' : World (St Y), Alike w w' →
      Alike ⟨⟨f w.ext.g, w.ext.lib⟩, w.out⟩ ⟨⟨f w'.ext.g, w'.ext.lib⟩, w'.out⟩)
    (ho : ∀ u, o u = false)
    (hfl : ∀ g g' : Globals, g'.flags = g.flags → (f g').flags = (f g).flags) :
    Ins o (modG f : M (St Y) Unit) := by
  intro w w' hw
  refine ⟨rfl, hf w w' hw, fun h => hfl _ _ h, fun a _ h => ?_⟩
  rw [ho a] at h; cases h


theorem ite' {o : α → Bool} {c : Prop} [Decidable c] {a b : M (St Y) α} (ha : Ins o a)
    (hb : Ins o b) : Ins o (if c then a else b) := by
  split <;> assumption

theorem lift' (r : Except PyErr α) : Ins (fun _ => false) (M.lift r : M (St Y) α) := by
  cases r with
  | ok a => exact pure' (o := fun _ => false) (a := a) rfl
  | error e => exact raise' _ e

/-- after the derivative flags were set, they agree -/
theorem setFlags {o : α → Bool} {f : Globals → Globals} {k : Unit → M (St Y) α}
    (hf : ∀ w w' : World (St Y), Alike w w' →
      Alike ⟨⟨f w.ext.g, w.ext.lib⟩, w.out⟩ ⟨⟨f w'.ext.g, w'.ext.lib⟩, w'.out⟩)
    (hfl : ∀ g g' : Globals, (f g').flags = (f g).flags) (hk : Ins (fun _ => false) (k ())) :
    Ins o (modG f >>= k) := by
  intro w w' hw
  obtain ⟨k1, k2, k3, _⟩ := hk _ _ (hf w w' hw)
  exact ⟨k1, k2, fun _ => k3 (hfl _ _), fun _ _ _ => k3 (hfl _ _)⟩

theorem post' {m : M (St Y) SV} {k : SV → PostKind → M (St Y) SV} (hm : Ins SV.isOp m)
    (hk : ∀ v kd, (v.isOp = false ∨ ∃ wrt, kd = .operator wrt) → Ins SV.isOp (k v kd)) :
    Ins SV.isOp (m >>= fun v => postKind v >>= k v) := by
  intro w w' hw
  obtain ⟨h1, h2, h3, h4⟩ := hm w w' hw
  rw [M.bind_run, M.bind_run]
  cases hr : m w with
  | mk r w1 =>
    cases hr' : m w' with
    | mk r' w1' =>
      rw [hr, hr'] at h1 h2 h3 h4
      obtain rfl : r' = r := h1
      cases r' with
      | error e => exact ⟨rfl, h2, h3, fun _ hb => nomatch hb⟩
      | ok v =>
        have hsame : ∃ r, postKind v w1 = (r, w1) ∧ postKind v w1' = (r, w1') := by
          rw [postKind_run, postKind_run]
          cases hv : v.isOp with
          | false => exact ⟨_, rfl, rfl⟩
          | true => exact ⟨_, rfl, by rw [h4 v rfl hv]⟩
        obtain ⟨r, p1, p2⟩ := hsame
        show _ ∧ _ ∧ _ ∧ _
        simp only [M.bind_run, p1, p2]
        cases r with
        | error e => exact ⟨rfl, h2, h3, fun _ hb => nomatch hb⟩
        | ok kd =>
          obtain ⟨k1, k2, k3, k4⟩ := hk v kd (postKind_kind p1) w1 w1' h2
          exact ⟨k1, k2, fun h => k3 (h3 h), k4⟩

end Ins

/-- SymPy calls other than `atoms` return expressions, matrices or tuples, but no Python lists,
relations and `None`. -/
def ExprCalls (L : Lib Y) : Prop :=
  ∀ f args y v, f ≠ s%"atoms" → (L.call f args y).1 = .ok v → v.isOp = false

/-- the bindings are no Python lists, relations and `None` -/
def GoodValues (vals : List (Str × PV)) : Prop :=
  ∀ n v, vals.lookup n = some (.sympy v) → v.isOp = false

/-- the node is not a relation -/
def notRel : T → Bool
  | .rel _ _ _ => false
  | _ => true

theorem ins_ev {L : Lib Y} (hL : ExprCalls L) (f : Str) (args : List SV) (hf : f ≠ s%"atoms") :
    Ins SV.isOp (L.ev f args) :=
  Ins.ext' _ fun y a h => hL f args y a hf h

theorem ins_shapeOf (L : Lib Y) (v : SV) : Ins (fun _ => false) (shapeOf L v) := by
  unfold shapeOf
  split
  · exact Ins.pure' rfl
  · exact Ins.pure' rfl
  · refine Ins.tryE (Ins.seq (o := fun _ => false) (Ins.ext' _ fun _ _ _ => rfl) fun _ => ?_)
      fun _ => Ins.pure' rfl
    split <;> exact Ins.pure' rfl

theorem ins_matrixSymbol (L : Lib Y) (n : Str) (s : SV) :
    Ins (fun o => o.any SV.isOp) (matrixSymbol L n s) := by
  refine Ins.read' (fun g => g.var.lookup n) (fun w w' hw => by rw [hw.var])
    (fun o => match o with
      | none => pure none
      | some rh => do
        match ← shapeOf L rh with
        | none => pure none
        | some (a, b) => do
          let ms := SV.matSym n a b
          let g ← getG
          match lookupSV s g.variances with
          | some v => modG fun g => { g with variances := (ms, v) :: g.variances }
          | none => pure ()
          pure (some ms)) (fun _ => rfl) (fun o => ?_)
  split
  · exact Ins.pure' rfl
  · refine Ins.seq (ins_shapeOf L _) fun sh => ?_
    split
    · exact Ins.pure' rfl
    · rename_i a b
      refine Ins.read' (fun g => lookupSV s g.variances) (fun w w' hw => by rw [hw.variances])
        (fun o => match o with
          | some v => do
            modG fun g => { g with variances := (SV.matSym n a b, v) :: g.variances }
            pure (some (SV.matSym n a b))
          | none => pure (some (SV.matSym n a b))) (fun _ => rfl) (fun o => ?_)
      · split
        · refine Ins.seq (o := fun _ => false) (Ins.modify ?_ (fun _ => rfl) (fun _ _ h => h))
            fun _ => Ins.pure' rfl
          intro w w' hw
          exact ⟨hw.out, hw.lib, hw.isReal, by show _ :: _ = _ :: _; rw [hw.variances], hw.var,
            hw.values, hw.good⟩
        · exact Ins.pure' rfl

theorem ins_variableValue {L : Lib Y} (hL : ExprCalls L) (name : Str) :
    Ins SV.isOp (variableValue L name) := by
  intro w w' hw
  have key : Ins SV.isOp (match w.ext.g.values.lookup name with
      | some (.sympy v) => pure v
      | some (.object t) => L.ev s%"parse_expr" [.sym t none]
      | some (.builtin _) => M.raise .attributeError
      | none => pure (.sym (name ++ L.md5 name) w.ext.g.isReal)) := by
    split
    · rename_i v h
      exact Ins.pure' (hw.good name v h)
    · exact ins_ev hL _ _ (by decide)
    · exact Ins.raise' _ _
    · exact Ins.pure' rfl
  have := key w w' hw
  have e1 : variableValue L name w = (match w.ext.g.values.lookup name with
      | some (.sympy v) => pure v
      | some (.object t) => L.ev s%"parse_expr" [.sym t none]
      | some (.builtin _) => M.raise .attributeError
      | none => pure (.sym (name ++ L.md5 name) w.ext.g.isReal) : M (St Y) SV) w := rfl
  have e2 : variableValue L name w' = (match w.ext.g.values.lookup name with
      | some (.sympy v) => pure v
      | some (.object t) => L.ev s%"parse_expr" [.sym t none]
      | some (.builtin _) => M.raise .attributeError
      | none => pure (.sym (name ++ L.md5 name) w.ext.g.isReal) : M (St Y) SV) w' := by
    rw [← hw.values, ← hw.isReal]; rfl
  rw [e1, e2]
  exact this

theorem alike_flags {w w' : World (St Y)} (hw : Alike w w') (a b c d : Option Bool) :
    Alike (⟨⟨{ w.ext.g with diffOp := a, partialOp := b }, w.ext.lib⟩, w.out⟩ : World (St Y))
      ⟨⟨{ w'.ext.g with diffOp := c, partialOp := d }, w'.ext.lib⟩, w'.out⟩ :=
  ⟨hw.out, hw.lib, hw.isReal, hw.variances, hw.var, hw.values, hw.good⟩

theorem ins_fracDeriv {L : Lib Y} {rec : Str → List (Str × PV) → M (St Y) SV}
    (hrec : ∀ a b, GoodValues b → Ins (fun _ => false) (rec a b)) (us ls : Option Span)
    (o : Option SV → Bool) : Ins o (fracDeriv L rec us ls) := by
  unfold fracDeriv
  refine Ins.setFlags (fun w w' hw => alike_flags hw _ _ _ _) (fun _ _ => rfl) ?_
  split
  · refine Ins.seq (Ins.lift' _) fun o => ?_
    split
    · exact Ins.pure' rfl
    · rename_i us _ ls v isPartial
      refine Ins.seq (o := fun _ => false) (Ins.modify (fun w w' hw => ?_) (fun _ => rfl)
        (fun g g' h => ?_)) fun _ => ?_
      · cases isPartial
        · exact ⟨hw.out, hw.lib, hw.isReal, hw.variances, hw.var, hw.values, hw.good⟩
        · exact ⟨hw.out, hw.lib, hw.isReal, hw.variances, hw.var, hw.values, hw.good⟩
      · have h1 : g'.diffOp = g.diffOp := (Prod.mk.inj h).1
        have h2 : g'.partialOp = g.partialOp := (Prod.mk.inj h).2
        cases isPartial
        · show (some true, g'.partialOp) = (some true, g.partialOp)
          rw [h2]
        · show (g'.diffOp, some true) = (g.diffOp, some true)
          rw [h1]
      · refine Ins.read' (fun g => g.isReal) (fun _ _ hw => hw.isReal)
          (fun r => if isOperatorOnly us isPartial then pure (some (.list [SV.sym v r]))
            else match derivBody us isPartial with
              | none => pure none
              | some body => do
                let top ← rec body []
                if ← M.lift top.truth then do
                  let d ← L.ev s%"Derivative" [top, SV.sym v r]
                  pure (some d)
                else pure none) (fun _ => rfl) fun r => ?_
        refine Ins.ite' (Ins.pure' rfl) ?_
        split
        · exact Ins.pure' rfl
        · refine Ins.seq (hrec _ _ (fun _ _ h => nomatch h)) fun top => Ins.seq (Ins.lift' _) fun b => ?_
          exact Ins.ite' (Ins.seq (o := fun _ => false) (Ins.ext' _ fun _ _ _ => rfl) fun _ =>
            Ins.pure' rfl) (Ins.pure' rfl)
  · exact Ins.pure' rfl

theorem ins_argList {rec : Str → List (Str × PV) → M (St Y) SV}
    (hrec : ∀ a b, GoodValues b → Ins (fun _ => false) (rec a b)) (ss : List Str) :
    Ins (fun _ => false) (argList rec ss) := by
  induction ss with
  | nil => exact Ins.pure' rfl
  | cons a as ih =>
    refine Ins.read (fun g => g.values) (fun _ _ hw => hw.values)
      (fun vals => do
        let v ← rec a vals
        let vs ← argList rec as
        pure (v :: vs)) (fun _ => rfl) fun w w' hw => ?_
    exact Ins.seq (hrec a _ hw.good) (fun _ => Ins.seq ih fun _ => Ins.pure' rfl) w w' hw

theorem ins_frame {L : Lib Y} (hL : ExprCalls L) {rec : Str → List (Str × PV) → M (St Y) SV}
    (hrec : ∀ a b, GoodValues b → Ins (fun _ => false) (rec a b)) :
    Frame L rec notRel Ins where
  weaken h ho := h.weaken ho
  pure _ _ h := Ins.pure' h
  raise o e := Ins.raise' o e
  bind _ _ _ _ hm hf hg := Ins.bind' hm hf hg
  tryE hm hg := Ins.tryE hm hg
  ext f := Ins.ext' f fun _ _ _ => rfl
  ev f args hf := ins_ev hL f args hf
  real hk := Ins.read' (fun g => g.isReal) (fun _ _ hw => hw.isReal) _ (fun _ => rfl) hk
  vars hk := Ins.read' (fun g => g.variances) (fun _ _ hw => hw.variances) _ (fun _ => rfl) hk
  post hm hk := Ins.post' hm hk
  matSym n s := ins_matrixSymbol L n s
  varVal name := ins_variableValue hL name
  rel _ _ _ h := nomatch h
  frac _ us _ ls _ := ins_fracDeriv hrec us ls _
  args ss := ins_argList hrec ss

theorem ins_convertRel (L : Lib Y) (op : RelTok) (a b : SV) :
    Ins (fun _ => false) (convertRel L op a b) := by
  have hmk : ∀ op, Ins (fun _ => false) (mkRel L op a b) := fun op =>
    Ins.ite' (Ins.pure' rfl) (Ins.ext' _ fun _ _ _ => rfl)
  cases op with
  | isIn =>
    unfold convertRel
    dsimp only
    split
    · split
      · rename_i e n m _ _
        refine Ins.read' (fun g => g.variances) (fun _ _ hw => hw.variances)
          (fun vs => do
            let n' := (lookupSV n vs).getD n
            let m' := (lookupSV m vs).getD m
            libExt (L.validate s%"MatrixSymbol" [a, n', m'])
            let s ← libExt (L.str a)
            let ms := SV.matSym s n' m'
            modG fun g => { g with variances := (a, ms) :: g.variances, var := (s, ms) :: g.var }
            pure a) (fun _ => rfl) fun vs => ?_
        refine Ins.seq (o := fun _ => false) (Ins.ext' _ fun _ _ _ => rfl) fun _ =>
          Ins.seq (o := fun _ => false) (Ins.ext' _ fun _ _ _ => rfl) fun s =>
          Ins.seq (o := fun _ => false) (Ins.modify (fun w w' hw => ?_) (fun _ => rfl)
            (fun _ _ h => h)) fun _ => Ins.pure' rfl
        exact ⟨hw.out, hw.lib, hw.isReal, by show _ :: _ = _ :: _; rw [hw.variances],
          by show _ :: _ = _ :: _; rw [hw.var], hw.values, hw.good⟩
      · exact Ins.raise' _ _
    · exact Ins.raise' _ _
  | _ => exact hmk _

/-- A tree as the grammar builds them: relations occur only above expressions (PS.g4:376-378). -/
def relationTree : T → Bool
  | .rel _ l r => relationTree l && relationTree r
  | t => t.all notRel

theorem ins_relation {L : Lib Y} (hL : ExprCalls L) {rec : Str → List (Str × PV) → M (St Y) SV}
    (hrec : ∀ a b, GoodValues b → Ins (fun _ => false) (rec a b)) :
    ∀ t : T, relationTree t = true → Ins (fun _ => false) (conv L rec t) := by
  intro t
  induction t using relationTree.induct with
  | case1 op l r ihl ihr =>
    intro h
    simp only [relationTree, Bool.and_eq_true] at h
    rw [conv]
    exact Ins.seq (ihl h.1) fun _ => Ins.seq (ihr h.2) fun _ => ins_convertRel L op _ _
  | case2 t ht =>
    intro h
    rw [relationTree] at h
    · exact ((ins_frame hL hrec).conv t h).weaken fun _ h => nomatch h
    · exact ht

/-- every parse tree has relations only on top -/
def MathTree.relations : MathTree → Bool
  | .one t => relationTree t
  | .list ts => ts.all relationTree

theorem ins_items {L : Lib Y} (hL : ExprCalls L) {rec : Str → List (Str × PV) → M (St Y) SV}
    (hrec : ∀ a b, GoodValues b → Ins (fun _ => false) (rec a b)) :
    ∀ ts : List T, ts.all relationTree = true → Ins (fun _ => false) (convItems L rec ts)
  | [], _ => by rw [convItems]; exact Ins.pure' rfl
  | t :: ts, h => by
    simp only [List.all_cons, Bool.and_eq_true] at h
    rw [convItems]
    exact Ins.seq (ins_relation hL hrec t h.1) fun _ => Ins.seq (ins_items hL hrec ts h.2) fun _ =>
      Ins.pure' rfl

/-- what follows the assignment of the globals in `latex2sympy` -/
theorem ins_body {L : Lib Y} (hL : ExprCalls L) (hp : ∀ s t, L.parse s = .ok t → t.relations = true)
    {n : Nat} (hrec : ∀ a b, GoodValues b → Ins (fun _ => false) (latex2sympy L n a b)) (s : Str) :
    Ins (fun _ => false) (M.lift (L.parse (prepare s)) >>= fun t => match t with
      | .list ts => do
        let vs ← convItems L (latex2sympy L n) ts
        pure (.list vs)
      | .one t => conv L (latex2sympy L n) t) := by
  cases h : L.parse (prepare s) with
  | error e => exact Ins.raise' _ e
  | ok t =>
    have ht := hp _ _ h
    cases t with
    | one t => exact ins_relation hL hrec t ht
    | list ts =>
      have : Ins (fun _ => false)
          (convItems L (latex2sympy L n) ts >>= fun vs => pure (SV.list vs)) :=
        Ins.seq (ins_items hL hrec ts ht) fun _ => Ins.pure' rfl
      exact this

theorem alike_set {w w' : World (St Y)} (hout : w'.out = w.out) (hlib : w'.ext.lib = w.ext.lib)
    (hreal : w'.ext.g.isReal = w.ext.g.isReal) (hvs : w'.ext.g.variances = w.ext.g.variances)
    (hvar : w'.ext.g.var = w.ext.g.var) {vals : List (Str × PV)} (hvals : GoodValues vals) (s : Str) :
    Alike (⟨⟨{ w.ext.g with fracType := fracTypeOf s w.ext.g.fracType, values := vals }, w.ext.lib⟩,
        w.out⟩ : World (St Y))
      ⟨⟨{ w'.ext.g with fracType := fracTypeOf s w'.ext.g.fracType, values := vals }, w'.ext.lib⟩,
        w'.out⟩ :=
  ⟨hout, hlib, hreal, hvs, hvar, rfl, hvals⟩

theorem ins_latex2sympy {L : Lib Y} (hL : ExprCalls L)
    (hp : ∀ s t, L.parse s = .ok t → t.relations = true) : ∀ (n : Nat) (s : Str)
    (vals : List (Str × PV)), GoodValues vals → Ins (fun _ => false) (latex2sympy L n s vals)
  | 0, _, _, _ => Ins.raise' _ _
  | n + 1, s, vals, hv => by
    rw [latex2sympy]
    refine Ins.seq (o := fun _ => false) (Ins.modify (fun w w' hw => ?_) (fun _ => rfl)
      (fun _ _ h => h)) fun _ => ins_body hL hp (ins_latex2sympy hL hp n) s
    exact alike_set hw.out hw.lib hw.isReal hw.variances hw.var hv s

/-- The result of `latex2sympy` depends on the history only through the registered matrices (`var`,
`variances`), the reality assumption and the libraries: the fraction style, the bindings and the
derivative flags left by earlier calls make no difference.

This is about formulas whose SymPy calls return expressions (`ExprCalls`). -/
theorem C64_globals_partial {L : Lib Y} (hL : ExprCalls L)
    (hp : ∀ s t, L.parse s = .ok t → t.relations = true) (n : Nat) (s : Str)
    {vals : List (Str × PV)} (hv : GoodValues vals) (w w' : World (St Y)) (hout : w'.out = w.out)
    (hlib : w'.ext.lib = w.ext.lib) (hreal : w'.ext.g.isReal = w.ext.g.isReal)
    (hvs : w'.ext.g.variances = w.ext.g.variances) (hvar : w'.ext.g.var = w.ext.g.var) :
    (latex2sympy L (n + 1) s vals w').1 = (latex2sympy L (n + 1) s vals w).1 := by
  rw [latex2sympy]
  exact (ins_body hL hp (ins_latex2sympy hL hp n) s _ _
    (alike_set hout hlib hreal hvs hvar hv s)).1

/-! #### Histories without matrix declarations -/

/-- the node does not declare a matrix (`A \in R^{n\times m}`) -/
def notIn : T → Bool
  | .rel .isIn _ _ => false
  | _ => true

/-- no matrix is declared -/
def NoMatrix (r : Option Bool) (g : Globals) : Prop :=
  g.isReal = r ∧ g.var = [] ∧ g.variances = []

theorem noMatrix_argList {rec : Str → List (Str × PV) → M (St Y) SV} {r : Option Bool}
    (hrec : ∀ a b, Keep (NoMatrix r) (rec a b)) (ss : List Str) :
    Keep (NoMatrix r) (argList rec ss) := by
  induction ss with
  | nil => exact Keep.pure' _
  | cons a as ih =>
    exact Keep.read fun g _ => Keep.bind' (hrec a _) fun _ => Keep.bind' ih fun _ => Keep.pure' _

theorem noMatrix_fracDeriv {L : Lib Y} {rec : Str → List (Str × PV) → M (St Y) SV} {r : Option Bool}
    (hrec : ∀ a b, Keep (NoMatrix r) (rec a b)) (us ls : Option Span) :
    Keep (NoMatrix r) (fracDeriv L rec us ls) := by
  unfold fracDeriv
  refine Keep.bind' (Keep.modify fun _ h => h) fun _ => ?_
  split
  · refine Keep.bind' (Keep.lift' _) fun o => ?_
    split
    · exact Keep.pure' _
    · refine Keep.bind' (Keep.modify fun g h => by split <;> exact h) fun _ => ?_
      refine Keep.read fun g _ => ?_
      refine Keep.ite' (Keep.pure' _) ?_
      split
      · exact Keep.pure' _
      · refine Keep.bind' (hrec _ _) fun top => Keep.bind' (Keep.lift' _) fun b => ?_
        exact Keep.ite' (Keep.bind' (Keep.ext' _) fun _ => Keep.pure' _) (Keep.pure' _)
  · exact Keep.pure' _

theorem noMatrix_frame (L : Lib Y) {rec : Str → List (Str × PV) → M (St Y) SV} {r : Option Bool}
    (hrec : ∀ a b, Keep (NoMatrix r) (rec a b)) :
    Frame L rec notIn (fun _ m => Keep (NoMatrix r) m) :=
  Keep.frame
    (fun n s => Keep.read fun g hg => by
      rw [hg.2.1]
      exact Keep.pure' _)
    (fun op _ _ h a b => by
      cases op with
      | isIn => cases h
      | _ => exact Keep.mkRel L _ a b)
    (fun _ us _ ls _ => noMatrix_fracDeriv hrec us ls) (noMatrix_argList hrec)

/-- no text declares a matrix -/
def Undeclared (L : Lib Y) : Prop := ∀ s t, L.parse s = .ok t → t.all notIn = true

theorem noMatrix_latex2sympy {L : Lib Y} (hL : Undeclared L) (r : Option Bool) : ∀ (n : Nat)
    (s : Str) (vals : List (Str × PV)), Keep (NoMatrix r) (latex2sympy L n s vals)
  | 0, _, _ => Keep.raise' _
  | n + 1, _, _ =>
    Keep.items (fun _ h => h)
      (fun t ht => (noMatrix_frame L (noMatrix_latex2sympy hL r n)).conv t (hL _ _ ht))
      (fun ts ht => (noMatrix_frame L (noMatrix_latex2sympy hL r n)).convItems ts (hL _ _ ht))

/-- the state after a sequence of calls, whatever their outcomes -/
def afterCalls (L : Lib Y) (n : Nat) : List (Str × List (Str × PV)) → World (St Y) → World (St Y)
  | [], w => w
  | (s, vals) :: rest, w => afterCalls L n rest (latex2sympy L n s vals w).2

theorem afterCalls_noMatrix {L : Lib Y} (hL : Undeclared L) (n : Nat) {r : Option Bool} :
    ∀ (calls : List (Str × List (Str × PV))) (w : World (St Y)), NoMatrix r w.ext.g →
    NoMatrix r (afterCalls L n calls w).ext.g
  | [], _, h => h
  | (s, vals) :: rest, w, h =>
    afterCalls_noMatrix hL n rest _ (noMatrix_latex2sympy hL r n s vals w h)

/-- After any sequence of earlier calls (of formulas without matrix declarations, with any bindings
and any outcomes), a formula is converted as right after importing the module. -/
theorem C64_history_partial {L : Lib Y} (hL : ExprCalls L)
    (hp : ∀ s t, L.parse s = .ok t → t.relations = true) (hU : Undeclared L) (n m : Nat)
    (calls : List (Str × List (Str × PV))) (s : Str) {vals : List (Str × PV)}
    (hv : GoodValues vals) (y : Y) :
    let w := afterCalls L m calls ⟨⟨Globals.init, y⟩, []⟩
    (latex2sympy L (n + 1) s vals w).1 =
      (latex2sympy L (n + 1) s vals ⟨⟨Globals.init, w.ext.lib⟩, w.out⟩).1 := by
  intro w
  obtain ⟨h1, h2, h3⟩ := afterCalls_noMatrix hU m (r := none) calls ⟨⟨Globals.init, y⟩, []⟩
    ⟨rfl, rfl, rfl⟩
  exact C64_globals_partial hL hp n s hv _ _ rfl rfl h1 h3 h2

/-- `A \in R^{2\times 3}` -/
def declareA : T :=
  .rel .isIn (.juxt [.name (.letter s%"A") none none])
    (.juxt [.pow (.name (.letter s%"R") none none) (.mul (.juxt [.number s%"2"]) (.juxt [.number s%"3"]))])

/-- the texts of the example -/
def matrixTable : List (Str × MathTree) :=
  [(s%"A \\in R^{2\\times 3}", .one declareA),
   (s%"A", .one (.juxt [.name (.letter s%"A") none none])),
   (s%"\\frac{d}{dx}x", .one (.juxt [.frac (.name (.letter s%"d") none none)
      (some ⟨.letterNoE, s%"d", .letterNoE, s%"d", true, 1, s%"d"⟩)
      (.differential s%"dx") (some ⟨.differential, s%"dx", .differential, s%"dx", true, 1, s%"dx"⟩),
      xTree])),
   (s%"x+1", .one (.add (.juxt [xTree]) (.juxt [.number s%"1"])))]

/-- After `A \in R^{2\times 3}` was parsed, the text `A` is a matrix symbol; before, it is a scalar
symbol. -/
theorem C64_declaration_refuted :
    let L := tableLib matrixTable
    (latex2sympy L 5 s%"A" [] freshWorld).1 = .ok (.sym s%"A" none) ∧
    (latex2sympy L 5 s%"A" [] (afterCalls L 5 [(s%"A \\in R^{2\\times 3}", [])] freshWorld)).1 =
      .ok (.matSym s%"A" (.num 2) (.num 3)) := by
  constructor <;> kernel_rfl

/-- A library in which `nullspace` returns a Python list, as in SymPy. -/
def listLib (table : List (Str × MathTree)) : Lib Unit :=
  { tableLib table with
    call := fun f args y =>
      if f = s%"nullspace" then (.ok (.list [.mat [[.num 1], [.num 0]]]), y) else (.ok (.fn f args), y) }

/-- the texts of the example -/
def flagTable : List (Str × MathTree) :=
  [(s%"\\frac{d}{dx}x", .one (.juxt [.frac (.name (.letter s%"d") none none)
      (some ⟨.letterNoE, s%"d", .letterNoE, s%"d", true, 1, s%"d"⟩)
      (.differential s%"dx") (some ⟨.differential, s%"dx", .differential, s%"dx", true, 1, s%"dx"⟩),
      xTree])),
   (s%"\\operatorname{nullspace}(A)x",
    .one (.juxt [.fnSingle s%"operatorname" s%"nullspace" none none (.name (.letter s%"A") none none),
      xTree]))]

/-- Without any matrix declaration: after the text `\frac{d}{dx}x` was parsed, a product with a list of
vectors is converted to a derivative; before, it is an error. -/
theorem C64_flags_refuted :
    let L := listLib flagTable
    let text := s%"\\operatorname{nullspace}(A)x"
    (latex2sympy L 5 text [] freshWorld).1 = .error .other ∧
    (latex2sympy L 5 text [] (afterCalls L 5 [(s%"\\frac{d}{dx}x", [])] freshWorld)).1 =
      .ok (.fn s%"Derivative" [.sym s%"x" none, .mat [[.num 1], [.num 0]]]) := by
  constructor <;> kernel_rfl

/-- libraries as in `C64_history_partial` -/
example : ExprCalls (tableLib flagTable) ∧
    (∀ s t, (tableLib flagTable).parse s = .ok t → t.relations = true) ∧
    Undeclared (tableLib flagTable) := by
  have hp : ∀ s t, (tableLib flagTable).parse s = .ok t → t.relations = true ∧ t.all notIn = true := by
    intro s t h
    simp only [tableLib, flagTable, List.lookup] at h
    split at h
    · rename_i h1
      split at h1
      · cases h1; cases h; exact ⟨rfl, rfl⟩
      · split at h1
        · cases h1; cases h; exact ⟨rfl, rfl⟩
        · cases h1
    · cases h
  refine ⟨?_, fun s t h => (hp s t h).1, fun s t h => (hp s t h).2⟩
  rintro f args y v _ h
  cases h
  rfl

end Verif.L2S
