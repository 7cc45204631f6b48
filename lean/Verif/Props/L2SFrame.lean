import Verif.Model.Latex2Sympy
/-
A frame principle for the LaTeX converter: a property of computations that is closed under
sequencing and holds for the primitive steps of the converter holds for the conversion of every
parse tree.  It is used to prove what the converter leaves unchanged (C63) and what its result does
not depend on (C64).
-/

namespace Verif.L2S
open Verif

/-! ### Equality of expressions is decided correctly -/

mutual
theorem SV.eqb_iff : ∀ a b : SV, a.eqb b = true ↔ a = b := by
  intro a b
  cases a with
  | num p => cases b <;> simp [SV.eqb]
  | sym p r => cases b <;> simp [SV.eqb]
  | const p => cases b <;> simp [SV.eqb]
  | add xs => cases b <;> simp [SV.eqb, SV.eqbL_iff xs]
  | mul xs => cases b <;> simp [SV.eqb, SV.eqbL_iff xs]
  | pow x y => cases b <;> simp [SV.eqb, SV.eqb_iff x, SV.eqb_iff y]
  | fn f xs => cases b <;> simp [SV.eqb, SV.eqbL_iff xs]
  | binder o n r c xs => cases b <;> simp [SV.eqb, SV.eqb_iff c, SV.eqbL_iff xs, and_assoc]
  | mat xs => cases b <;> simp [SV.eqb, SV.eqbLL_iff xs]
  | matSym n x y => cases b <;> simp [SV.eqb, SV.eqb_iff x, SV.eqb_iff y, and_assoc]
  | matAdd xs => cases b <;> simp [SV.eqb, SV.eqbL_iff xs]
  | matMul xs => cases b <;> simp [SV.eqb, SV.eqbL_iff xs]
  | rel n x y => cases b <;> simp [SV.eqb, SV.eqb_iff x, SV.eqb_iff y, and_assoc]
  | list xs => cases b <;> simp [SV.eqb, SV.eqbL_iff xs]
  | tuple xs => cases b <;> simp [SV.eqb, SV.eqbL_iff xs]
  | none => cases b <;> simp [SV.eqb]
theorem SV.eqbL_iff : ∀ a b : List SV, SV.eqbL a b = true ↔ a = b
  | [], [] => by simp [SV.eqbL]
  | [], _ :: _ => by simp [SV.eqbL]
  | _ :: _, [] => by simp [SV.eqbL]
  | x :: xs, y :: ys => by simp [SV.eqbL, SV.eqb_iff x, SV.eqbL_iff xs]
theorem SV.eqbLL_iff : ∀ a b : List (List SV), SV.eqbLL a b = true ↔ a = b
  | [], [] => by simp [SV.eqbLL]
  | [], _ :: _ => by simp [SV.eqbLL]
  | _ :: _, [] => by simp [SV.eqbLL]
  | x :: xs, y :: ys => by simp [SV.eqbLL, SV.eqbL_iff x, SV.eqbLL_iff xs]
end

/-! ### Predicates on all nodes of a tree -/

mutual
/-- every node of the tree satisfies `q` -/
def T.all (q : T → Bool) : T → Bool
  | .rel op l r => q (.rel op l r) && l.all q && r.all q
  | .add l r => q (.add l r) && l.all q && r.all q
  | .sub l r => q (.sub l r) && l.all q && r.all q
  | .mul l r => q (.mul l r) && l.all q && r.all q
  | .div l r => q (.div l r) && l.all q && r.all q
  | .mod l r => q (.mod l r) && l.all q && r.all q
  | .pos u => q (.pos u) && u.all q
  | .neg u => q (.neg u) && u.all q
  | .juxt ps => q (.juxt ps) && T.allL q ps
  | .bang e => q (.bang e) && e.all q
  | .evalAt e a b => q (.evalAt e a b) && e.all q && T.allO q a && T.allO q b
  | .transp e => q (.transp e) && e.all q
  | .eqn l r => q (.eqn l r) && l.all q && r.all q
  | .pow b e => q (.pow b e) && b.all q && e.all q
  | .args => q .args
  | .group e => q (.group e) && e.all q
  | .norm e => q (.norm e) && e.all q
  | .abs e => q (.abs e) && e.all q
  | .floor e => q (.floor e) && e.all q
  | .ceil e => q (.ceil e) && e.all q
  | .binom u l => q (.binom u l) && u.all q && l.all q
  | .matrix rows arrow => q (.matrix rows arrow) && T.allLL q rows && T.allLL q arrow
  | .det rows => q (.det rows) && T.allLL q rows
  | .trScale k a => q (.trScale k a) && k.all q
  | .trSwap a b => q (.trSwap a b)
  | .trAssign a k b => q (.trAssign a k b) && k.all q
  | .kAdd => q .kAdd
  | .kSub => q .kSub
  | .name b s p => q (.name b s p) && T.allO q p
  | .symbol t => q (.symbol t)
  | .number t => q (.number t)
  | .enotation t => q (.enotation t)
  | .percent t => q (.percent t)
  | .differential t => q (.differential t)
  | .mathit t => q (.mathit t)
  | .variable t => q (.variable t)
  | .digit t => q (.digit t)
  | .frac u us l ls => q (.frac u us l ls) && u.all q && l.all q
  | .fnSingle n o s p a => q (.fnSingle n o s p a) && T.allO q s && T.allO q p && a.all q
  | .fnMulti n o pr as p => q (.fnMulti n o pr as p) && T.allO q p
  | .fnApply n as p => q (.fnApply n as p) && T.allO q p
  | .integral b d s p => q (.integral b d s p) && T.allO q b && T.allO q s && T.allO q p
  | .sqrt b r => q (.sqrt b r) && b.all q && T.allO q r
  | .sumProd k v i s e => q (.sumProd k v i s e) && v.all q && i.all q && s.all q && e.all q
  | .lim v m a c => q (.lim v m a c) && a.all q && c.all q
  | .expE p => q (.expE p) && T.allO q p
/-- every node of the trees -/
def T.allL (q : T → Bool) : List T → Bool
  | [] => true
  | t :: ts => t.all q && T.allL q ts
/-- every node of the trees -/
def T.allLL (q : T → Bool) : List (List T) → Bool
  | [] => true
  | r :: rs => T.allL q r && T.allLL q rs
/-- every node of the tree, if there is one -/
def T.allO (q : T → Bool) : Option T → Bool
  | none => true
  | some t => t.all q
end

/-- every node of the parsed text -/
def MathTree.all (q : T → Bool) : MathTree → Bool
  | .one t => t.all q
  | .list ts => T.allL q ts

/-- values that `convert_postfix_list` takes for a derivative operator -/
def SV.isOp : SV → Bool
  | .rel _ _ _ => true
  | .list _ => true
  | .none => true
  | _ => false

variable {Y : Type}

/-! ### The frame principle -/

/-- `P o m` is a property of the computation `m`; `o` marks the results for which `m` must have a
stronger one. -/
structure Frame (L : Lib Y) (rec : Str → List (Str × PV) → M (St Y) SV) (q : T → Bool)
    (P : ∀ {α : Type}, (α → Bool) → M (St Y) α → Prop) : Prop where
  weaken : ∀ {α : Type} {o o' : α → Bool} {m : M (St Y) α}, P o m →
    (∀ a, o' a = true → o a = true) → P o' m
  pure : ∀ {α : Type} (o : α → Bool) (a : α), o a = false → P o (Pure.pure a : M (St Y) α)
  raise : ∀ {α : Type} (o : α → Bool) (e : PyErr), P o (M.raise e : M (St Y) α)
  bind : ∀ {α β : Type} (o : α → Bool) {o' : β → Bool} {m : M (St Y) α} {f : α → M (St Y) β},
    P o m → (∀ a, o a = false → P o' (f a)) → (∀ a, o a = true → P (fun _ => false) (f a)) →
    P o' (m >>= f)
  tryE : ∀ {α : Type} {o : α → Bool} {m : M (St Y) α} {h : PyErr → M (St Y) α}, P o m →
    (∀ e, P o (h e)) → P o (M.tryExcept m h)
  ext : ∀ {α : Type} (f : Ext Y α), P (fun _ => false) (libExt f)
  ev : ∀ (f : Str) (args : List SV), f ≠ s%"atoms" → P SV.isOp (L.ev f args)
  real : ∀ {α : Type} {o : α → Bool} {k : Option Bool → M (St Y) α}, (∀ b, P o (k b)) →
    P o (getG >>= fun g => k g.isReal)
  vars : ∀ {α : Type} {o : α → Bool} {k : List (SV × SV) → M (St Y) α}, (∀ vs, P o (k vs)) →
    P o (getG >>= fun g => k g.variances)
  post : ∀ {m : M (St Y) SV} {k : SV → PostKind → M (St Y) SV}, P SV.isOp m →
    (∀ v kd, (v.isOp = false ∨ ∃ wrt, kd = .operator wrt) → P SV.isOp (k v kd)) →
    P SV.isOp (m >>= fun v => postKind v >>= k v)
  matSym : ∀ n s, P (fun o => o.any SV.isOp) (matrixSymbol L n s)
  varVal : ∀ name, P SV.isOp (variableValue L name)
  rel : ∀ op l r, q (.rel op l r) = true → ∀ a b, P SV.isOp (convertRel L op a b)
  frac : ∀ u us l ls, q (.frac u us l ls) = true →
    P (fun o => o.any SV.isOp) (fracDeriv L rec us ls)
  args : ∀ ss, P (fun _ => false) (argList rec ss)

namespace Frame
variable {L : Lib Y} {rec : Str → List (Str × PV) → M (St Y) SV} {q : T → Bool}
  {P : ∀ {α : Type}, (α → Bool) → M (St Y) α → Prop}

theorem ite' (_ : Frame L rec q P) {α : Type} {o : α → Bool} {c : Prop} [Decidable c]
    {a b : M (St Y) α} (ha : P o a) (hb : P o b) : P o (if c then a else b) := by
  split <;> assumption

theorem iteH (_ : Frame L rec q P) {α : Type} {o : α → Bool} {c : Prop} [Decidable c]
    {a b : M (St Y) α} (ha : c → P o a) (hb : ¬c → P o b) : P o (if c then a else b) := by
  by_cases h : c
  · rw [if_pos h]; exact ha h
  · rw [if_neg h]; exact hb h

variable (F : Frame L rec q P)
include F

/-- forget the marked results -/
theorem plain {α : Type} {o : α → Bool} {m : M (St Y) α} (h : P o m) : P (fun _ => false) m :=
  F.weaken h (fun _ h => nomatch h)

/-- sequencing after a computation without marked results -/
theorem seq {α β : Type} {o : α → Bool} {o' : β → Bool} {m : M (St Y) α} {f : α → M (St Y) β}
    (hm : P o m) (hf : ∀ a, P o' (f a)) : P o' (m >>= f) :=
  F.bind (fun _ => false) (F.plain hm) (fun a _ => hf a) (fun _ h => nomatch h)

/-- sequencing, keeping the marks -/
theorem seqV {α β : Type} {o : α → Bool} {o' : β → Bool} {m : M (St Y) α} {f : α → M (St Y) β}
    (hm : P o m) (hf : ∀ a, o a = false → P o' (f a)) (hg : ∀ a, P (fun _ => false) (f a)) :
    P o' (m >>= f) :=
  F.bind o hm hf (fun a _ => hg a)

theorem pure0 {α : Type} (a : α) : P (fun _ => false) (Pure.pure a : M (St Y) α) := F.pure _ a rfl

theorem lift {α : Type} (r : Except PyErr α) : P (fun _ => false) (M.lift r : M (St Y) α) := by
  cases r with
  | ok a => exact F.pure0 a
  | error e => exact F.raise _ e

theorem ev0 (f : Str) (args : List SV) : P (fun _ => false) (L.ev f args) := F.ext _

theorem mkAdd (args : List SV) : P SV.isOp (mkAdd L args) :=
  F.ite' (F.pure _ _ rfl) (F.ev _ _ (by decide))
theorem mkMul (args : List SV) : P SV.isOp (mkMul L args) :=
  F.ite' (F.pure _ _ rfl) (F.ev _ _ (by decide))
theorem mkPow (b e : SV) : P SV.isOp (mkPow L b e) :=
  F.ite' (F.pure _ _ rfl) (F.ev _ _ (by decide))
theorem mkFn (f : Str) (args : List SV) (h : f ≠ s%"atoms") : P SV.isOp (mkFn L f args) :=
  F.ite' (F.pure _ _ rfl) (F.ev _ _ h)
theorem addFlat (l r : SV) : P SV.isOp (addFlat L l r) := F.mkAdd _
theorem mulFlat (l r : SV) : P SV.isOp (mulFlat L l r) := F.mkMul _

theorem isMatrix (v : SV) : P (fun _ => false) (isMatrix v : M (St Y) Bool) :=
  F.ite' (F.pure0 _) (F.raise _ _)
theorem either (l r : SV) : P (fun _ => false) (eitherMatrix l r : M (St Y) Bool) := by
  refine F.seq (F.isMatrix l) fun b => ?_
  cases b
  · exact F.isMatrix r
  · exact F.pure0 _

theorem doit (v : SV) : P SV.isOp (doit L v) := F.ite' (F.ev _ _ (by decide)) (F.raise _ _)
theorem doitAll (vs : List SV) : P (fun _ => false) (doitAll L vs) := by
  induction vs with
  | nil => exact F.pure0 _
  | cons v vs ih => exact F.seq (F.doit v) fun _ => F.seq ih fun _ => F.pure0 _

theorem argDoit (a : Arg) : P SV.isOp (a.doit L) := by
  cases a with
  | int n => exact F.raise _ _
  | sv v => exact F.doit v
theorem argDoitAll (vs : List Arg) : P (fun _ => false) (Arg.doitAll L vs) := by
  induction vs with
  | nil => exact F.pure0 _
  | cons v vs ih => exact F.seq (F.argDoit v) fun _ => F.seq ih fun _ => F.pure0 _
theorem tryDoit (a : Arg) : P (fun _ => false) (a.tryDoit L) :=
  F.ite' (F.plain (F.argDoit a)) (F.pure0 _)

theorem mkMatAdd (args : List SV) : P SV.isOp (mkMatAdd L args) :=
  F.seq (F.ext _) fun _ => F.pure _ _ rfl
theorem mkMatMul (args : List SV) : P SV.isOp (mkMatMul L args) :=
  F.seq (F.ext _) fun _ => F.pure _ _ rfl
theorem matAddFlat (l r : SV) : P SV.isOp (matAddFlat L l r) :=
  F.seq (F.doitAll _) fun _ => F.mkMatAdd _
theorem matMulFlat (l r : Arg) : P SV.isOp (matMulFlat L l r) :=
  F.ite' (F.seq (F.argDoitAll _) fun _ => F.mkMatMul _)
    (F.seq (F.tryDoit _) fun _ => F.seq (F.tryDoit _) fun _ => F.mkMatMul _)

omit F in
theorem negNumber_isOp {v : SV} (h : v.isNumber = true) : (negNumber v).isOp = false := by
  cases v with
  | num => rfl
  | const n =>
    show SV.isOp (if n == s%"oo" then SV.const s%"-oo" else SV.const s%"oo") = false
    cases n == s%"oo" <;> rfl
  | _ => simp [SV.isNumber] at h

theorem negScalar (v : SV) : P SV.isOp (negScalar L v) := by
  unfold L2S.negScalar
  split
  · rename_i h
    exact F.pure _ _ (negNumber_isOp h)
  · exact F.mulFlat _ _

theorem choose {m : M (St Y) Bool} {a b : M (St Y) SV} (hm : P (fun _ => false) m)
    (ha : P SV.isOp a) (hb : P SV.isOp b) :
    P SV.isOp (m >>= fun c => if c = true then a else b) :=
  F.seq hm fun _ => F.ite' ha hb

theorem convertAdd (l r : SV) : P SV.isOp (convertAdd L l r) :=
  F.choose (F.either l r) (F.matAddFlat l r) (F.addFlat l r)
theorem convertSub (l r : SV) : P SV.isOp (convertSub L l r) :=
  F.choose (F.either l r)
    (F.seq (F.matMulFlat _ _) fun _ => F.matAddFlat _ _)
    (F.seq (F.negScalar _) fun _ => F.addFlat _ _)
theorem convertMul (l r : SV) : P SV.isOp (convertMul L l r) :=
  F.choose (F.either l r) (F.matMulFlat _ _) (F.mulFlat l r)
theorem convertDiv (l r : SV) : P SV.isOp (convertDiv L l r) :=
  F.choose (F.either l r)
    (F.seq (F.mkPow _ _) fun _ => F.mkMatMul _)
    (F.seq (F.mkPow _ _) fun _ => F.mkMul _)
theorem convertMod (l r : SV) : P SV.isOp (convertMod L l r) :=
  F.choose (F.isMatrix r) (F.raise _ _) (F.mkFn _ _ (by decide))
theorem convertNeg (v : SV) : P SV.isOp (convertNeg L v) :=
  F.choose (F.isMatrix v) (F.raise _ _) (F.negScalar _)

theorem numberOf (s : Str) : P SV.isOp (numberOf L s) := by
  unfold L2S.numberOf
  split
  · exact F.pure _ _ rfl
  · exact F.ev _ _ (by decide)

theorem symbolConst (s : Str) : P SV.isOp (symbolConst s : M (St Y) SV) := by
  unfold L2S.symbolConst
  exact F.ite' (F.pure _ _ rfl) (F.ite' (F.pure _ _ rfl) (F.ite' (F.pure _ _ rfl) (F.raise _ _)))

theorem percentOf (s : Str) : P SV.isOp (percentOf L s) := by
  unfold L2S.percentOf
  dsimp only
  split
  · exact F.pure _ _ rfl
  · exact F.seq (F.ev0 _ _) fun _ => F.ev _ _ (by decide)

theorem convertVariable (s : Str) : P SV.isOp (convertVariable L s) := by
  unfold L2S.convertVariable
  dsimp only
  refine F.seqV (F.varVal _) (fun v hv => ?_) (fun v => ?_)
  · exact F.ite' (F.seq (F.mkPow _ _) fun _ => F.mkMul _) (F.pure _ _ hv)
  · exact F.ite' (F.plain (F.seq (F.mkPow _ _) fun _ => F.mkMul _)) (F.pure0 _)

theorem name (s : Str) : P (fun p : SV × Option SV => (p.2.getD p.1).isOp) (symbolOf L s) := by
  refine F.real (k := fun b => matrixSymbol L s (.sym s b) >>= fun ms => Pure.pure (SV.sym s b, ms))
    fun b => ?_
  refine F.seqV (F.matSym _ _) (fun ms h => F.pure _ _ ?_) (fun _ => F.pure0 _)
  cases ms with
  | none => rfl
  | some v => exact h

/-! #### Functions -/

/-- `return some (← m)` -/
theorem some' {m : M (St Y) SV} (h : P SV.isOp m) :
    P (fun o : Option SV => o.any SV.isOp) (m >>= fun v => Pure.pure (some v)) :=
  F.seqV h (fun _ hv => F.pure _ _ hv) (fun _ => F.pure0 _)

omit F in
theorem ne_of_contains {l : List Str} {f : Str} {g : Str → Str} (h : l.contains f = true)
    (hl : l.all (fun n => g n != s%"atoms") = true) : g f ≠ s%"atoms" := by
  have := List.all_eq_true.1 hl f (by simpa using h)
  simpa using this

theorem singleFunc (nm op : Str) (a : SV) {base : M (St Y) SV} (hb : P SV.isOp base) :
    P (fun o : Option SV => o.any SV.isOp) (singleFunc L nm op a base) := by
  unfold L2S.singleFunc
  repeat' first
    | exact F.pure _ _ rfl
    | exact F.some' (F.mkFn _ _ (by decide))
    | exact F.some' (F.ev _ _ (by decide))
    | exact F.seq hb fun _ => F.some' (F.mkFn _ _ (by decide))
    | exact F.some' (F.mkFn _ _ (ne_of_contains (g := fun n => s%"a" ++ n.drop 3) (by assumption)
        (by decide)))
    | exact F.some' (F.mkFn _ _ (ne_of_contains (g := fun n => s%"a" ++ n.drop 2) (by assumption)
        (by decide)))
    | exact F.some' (F.ev _ _ (ne_of_contains (g := fun n => n) (by assumption) (by decide)))
    | refine F.iteH (fun _ => ?_) (fun _ => ?_)

theorem multiFunc (nm op : Str) (as : List SV) :
    P (fun o : Option SV => o.any SV.isOp) (multiFunc L nm op as) := by
  unfold L2S.multiFunc
  repeat' first
    | exact F.pure _ _ rfl
    | exact F.some' (F.ev _ _ (by decide))
    | exact F.some' (F.ev _ _ (ne_of_contains (g := fun n => n) (by assumption) (by decide)))
    | exact F.some' (F.ev _ _ (by rename_i h; rcases h with h | h <;> rw [h] <;> decide))
    | refine F.iteH (fun _ => ?_) (fun _ => ?_)

/-- the last step of `singleFuncPow` and `optPow` -/
theorem powStep (e : Option SV) (o : SV → Bool) (u : Bool) (pw : Option SV) :
    (∀ v, e = some v → o v = false) → (∀ v, o v = true → v.isOp = true) →
    P o (match e, u, pw with
      | some e, true, some p => L2S.mkPow L e p
      | some e, _, _ => Pure.pure e
      | none, _, _ => M.raise .other) := by
  intro he ho
  cases e with
  | none => exact F.raise _ _
  | some e =>
    have hp : P o (Pure.pure e : M (St Y) SV) := F.pure _ _ (he _ rfl)
    cases u <;> cases pw <;> first | exact hp | exact F.weaken (F.mkPow _ _) ho

theorem optPow (e pw : Option SV) (o : SV → Bool) (he : ∀ v, e = some v → o v = false)
    (ho : ∀ v, o v = true → v.isOp = true) : P o (optPow L e pw) := by
  unfold L2S.optPow
  refine F.seq (o := fun _ => false) ?_ (fun u => F.powStep e o u pw he ho)
  cases pw with
  | none => exact F.pure0 _
  | some p => exact F.lift _

omit F in
theorem trigNames_ne {nm : Str} (h : trigNames.contains nm = true) (b : Bool) :
    (if b = true then s%"a" ++ nm else nm) ≠ s%"atoms" := by
  cases b
  · exact ne_of_contains (g := fun n => n) h (by decide)
  · exact ne_of_contains (g := fun n => s%"a" ++ n) h (by decide)

theorem singleFuncPow (nm : Str) (a : SV) (e pw : Option SV) (o : SV → Bool)
    (he : ∀ v, e = some v → o v = false) (ho : ∀ v, o v = true → v.isOp = true) :
    P o (singleFuncPow L nm a e pw) := by
  unfold L2S.singleFuncPow
  have hpw : ∀ sp : Bool, P (fun _ => false) (match pw with
      | some p => (do if ← M.lift p.truth then Pure.pure sp else Pure.pure false : M (St Y) Bool)
      | none => Pure.pure false) := by
    intro sp
    cases pw with
    | none => exact F.pure0 _
    | some p => exact F.seq (F.lift _) fun _ => F.ite' (F.pure0 _) (F.pure0 _)
  refine F.bind (fun p : Option SV × Bool => p.1.any o) (m := if trigNames.contains nm = true then _ else _) ?_ ?_ ?_
  · split
    · rename_i h
      refine F.seqV (F.mkFn _ _ (trigNames_ne h _)) (fun v hv => F.pure _ _ ?_) (fun _ => F.pure0 _)
      show o v = false
      cases hov : o v with
      | false => rfl
      | true => rw [ho v hov] at hv; exact hv
    · refine F.pure _ _ ?_
      cases e with
      | none => rfl
      | some v => exact he v rfl
  · rintro ⟨e', sp⟩ h
    refine F.seq (hpw sp) (fun u => F.powStep e' o u pw ?_ ho)
    rintro v rfl
    exact h
  · rintro ⟨e', sp⟩ h
    exact F.seq (hpw sp) (fun u => F.powStep e' _ u pw (fun _ _ => rfl) (fun _ h => nomatch h))

/-! #### Matrices and integrals -/

theorem integralVar (b : SV) (d : Option Str) : P (fun _ => false) (integralVar L b d) := by
  unfold L2S.integralVar
  cases d with
  | some text =>
    exact F.real (k := fun r => M.lift (differentialVar text) >>= fun v => Pure.pure (b, SV.sym v r))
      fun r => F.seq (F.lift _) fun _ => F.pure0 _
  | none =>
    refine F.real (k := fun r => L.ev s%"atoms" [b] >>= fun syms =>
      match differentialSymbol (symbolsOf syms) with
      | some (s, v) => do
        let b ← L.ev s%"subs" [b, s, .num 1]
        Pure.pure (b, SV.sym v r)
      | none => Pure.pure (b, SV.sym s%"x" r)) fun r => ?_
    refine F.seq (F.ev0 _ _) fun syms => ?_
    split
    · exact F.seq (F.ev0 _ _) fun _ => F.pure0 _
    · exact F.pure0 _

theorem trIndex (a : TrAtom) : P (fun _ => false) (trIndex L a) := by
  unfold L2S.trIndex
  split
  · split
    · exact F.ite' (F.raise _ _) (F.pure0 _)
    · exact F.raise _ _
  · exact F.raise _ _

theorem scaleRow (k : SV) (xs : List SV) : P (fun _ => false) (scaleRow L k xs) := by
  induction xs with
  | nil => exact F.pure0 _
  | cons x xs ih => exact F.seq (F.ev0 _ _) fun _ => F.seq ih fun _ => F.pure0 _

theorem addScaledRow (k : SV) : ∀ xs ys : List SV, P (fun _ => false) (addScaledRow L k xs ys)
  | [], [] => F.pure0 _
  | [], _ :: _ => F.pure0 _
  | _ :: _, [] => F.pure0 _
  | _ :: xs, _ :: ys =>
    F.seq (F.ev0 _ _) fun _ => F.seq (F.ev0 _ _) fun _ => F.seq (addScaledRow k xs ys) fun _ =>
      F.pure0 _

theorem rowOp (rows : List (List SV)) (op : RowOp) : P (fun _ => false) (rowOp L rows op) := by
  cases op with
  | scale i k => exact F.ite' (F.seq (F.scaleRow _ _) fun _ => F.pure0 _) (F.raise _ _)
  | swap i j => exact F.ite' (F.pure0 _) (F.raise _ _)
  | addMul i k j => exact F.ite' (F.seq (F.addScaledRow _ _ _) fun _ => F.pure0 _) (F.raise _ _)

theorem elementaryOp (l : Str) (m : SV) (op : RowOp) : P SV.isOp (elementaryOp L l m op) := by
  unfold L2S.elementaryOp
  refine F.ite' ?_ (F.ite' ?_ (F.raise _ _))
  · split
    · exact F.seq (F.rowOp _ _) fun _ => F.pure _ _ rfl
    · exact F.raise _ _
  · split
    · exact F.seq (F.rowOp _ _) fun _ => F.pure _ _ rfl
    · exact F.raise _ _

theorem reciprocal (v : SV) : P SV.isOp (reciprocal L v) := by
  unfold L2S.reciprocal
  split
  · exact F.ite' (F.ev _ _ (by decide)) (F.pure _ _ rfl)
  · exact F.ev _ _ (by decide)

theorem substExpr (e a : SV) (o : SV → Bool) (he : o e = false)
    (ho : ∀ v, o v = true → v.isOp = true) : P o (substExpr L e a) := by
  unfold L2S.substExpr
  refine F.seq (F.ev0 _ _) fun syms => ?_
  split
  · exact F.ite' (F.weaken (F.ev _ _ (by decide)) ho) (F.raise _ _)
  · exact F.pure _ _ he

theorem evalAtEnds (e : SV) (b a : Option SV) (o : SV → Bool) (he : o e = false)
    (hb : ∀ v, b = some v → o v = false) (ha : ∀ v, a = some v → o v = false)
    (ho : ∀ v, o v = true → v.isOp = true) : P o (evalAtEnds L e b a) := by
  cases b with
  | none =>
    cases a with
    | none => exact F.pure _ _ he
    | some a => exact F.pure _ _ (ha a rfl)
  | some b =>
    cases a with
    | none => exact F.pure _ _ (hb b rfl)
    | some a => exact F.weaken (F.seq (F.mulFlat _ _) fun _ => F.addFlat _ _) ho

/-! #### The converter -/

/-- a value of a two-operand node -/
theorem two {l r : M (St Y) SV} {f : SV → SV → M (St Y) SV} {o : SV → Bool} (hl : P SV.isOp l)
    (hr : P SV.isOp r) (hf : ∀ a b, P o (f a b)) : P o (l >>= fun a => r >>= fun b => f a b) :=
  F.seq hl fun a => F.seq hr fun b => hf a b

set_option maxHeartbeats 2000000 in
mutual
theorem conv : ∀ t : T, t.all q = true → P SV.isOp (conv L rec t)
  | .rel op l r, h => by
    simp only [T.all, Bool.and_eq_true] at h
    rw [L2S.conv]
    exact F.two (conv l h.1.2) (conv r h.2) (F.rel op l r h.1.1)
  | .add l r, h => by
    simp only [T.all, Bool.and_eq_true] at h
    rw [L2S.conv]
    exact F.two (conv l h.1.2) (conv r h.2) F.convertAdd
  | .sub l r, h => by
    simp only [T.all, Bool.and_eq_true] at h
    rw [L2S.conv]
    exact F.two (conv l h.1.2) (conv r h.2) F.convertSub
  | .mul l r, h => by
    simp only [T.all, Bool.and_eq_true] at h
    rw [L2S.conv]
    exact F.two (conv l h.1.2) (conv r h.2) F.convertMul
  | .div l r, h => by
    simp only [T.all, Bool.and_eq_true] at h
    rw [L2S.conv]
    exact F.two (conv l h.1.2) (conv r h.2) F.convertDiv
  | .mod l r, h => by
    simp only [T.all, Bool.and_eq_true] at h
    rw [L2S.conv]
    exact F.two (conv l h.1.2) (conv r h.2) F.convertMod
  | .pos u, h => by
    simp only [T.all, Bool.and_eq_true] at h
    rw [L2S.conv]
    exact conv u h.2
  | .neg u, h => by
    simp only [T.all, Bool.and_eq_true] at h
    rw [L2S.conv]
    exact F.seq (conv u h.2) F.convertNeg
  | .juxt ps, h => by
    simp only [T.all, Bool.and_eq_true] at h
    rw [L2S.conv]
    exact convJuxt ps h.2
  | .bang e, h => by
    simp only [T.all, Bool.and_eq_true] at h
    rw [L2S.conv]
    refine F.seq (conv e h.2) fun v => ?_
    split
    · exact F.raise _ _
    · exact F.mkFn _ _ (by decide)
  | .evalAt e sup sub, h => by
    simp only [T.all, Bool.and_eq_true] at h
    rw [L2S.conv]
    refine F.seqV (conv e h.1.1.2) (fun v hv => ?_) (fun v => ?_)
    · refine F.seqV (convAt v SV.isOp hv (fun _ h => h) sup h.1.2) (fun b hb => ?_) (fun b => ?_)
      · refine F.seqV (convAt v SV.isOp hv (fun _ h => h) sub h.2) (fun a ha => ?_) (fun a => ?_)
        · refine F.evalAtEnds v b a _ hv ?_ ?_ (fun _ h => h)
          · rintro x rfl; exact hb
          · rintro x rfl; exact ha
        · exact F.evalAtEnds v b a _ rfl (fun _ _ => rfl) (fun _ _ => rfl) (fun _ h => nomatch h)
      · exact F.seq (convAt v (fun _ => false) rfl (fun _ h => nomatch h) sub h.2) fun a =>
          F.evalAtEnds v b a _ rfl (fun _ _ => rfl) (fun _ _ => rfl) (fun _ h => nomatch h)
    · exact F.seq (convAt v (fun _ => false) rfl (fun _ h => nomatch h) sup h.1.2) fun b =>
        F.seq (convAt v (fun _ => false) rfl (fun _ h => nomatch h) sub h.2) fun a =>
          F.evalAtEnds v b a _ rfl (fun _ _ => rfl) (fun _ _ => rfl) (fun _ h => nomatch h)
  | .transp e, h => by
    simp only [T.all, Bool.and_eq_true] at h
    rw [L2S.conv]
    refine F.seqV (conv e h.2) (fun v hv => ?_) (fun v => ?_)
    · exact F.tryE (F.ev _ _ (by decide)) fun _ => F.tryE (F.ev _ _ (by decide)) fun _ =>
        F.pure _ _ hv
    · exact F.tryE (F.ev0 _ _) fun _ => F.tryE (F.ev0 _ _) fun _ => F.pure0 _
  | .eqn l r, h => by rw [L2S.conv]; exact F.raise _ _
  | .args, h => by rw [L2S.conv]; exact F.raise _ _
  | .pow b e, h => by
    simp only [T.all, Bool.and_eq_true] at h
    rw [L2S.conv]
    refine F.seq (conv b h.1.2) fun v => ?_
    split
    · exact F.raise _ _
    · exact F.seq (conv e h.2) fun _ => F.mkPow _ _
  | .group e, h => by
    simp only [T.all, Bool.and_eq_true] at h
    rw [L2S.conv]
    exact conv e h.2
  | .norm e, h => by
    simp only [T.all, Bool.and_eq_true] at h
    rw [L2S.conv]
    exact F.seq (conv e h.2) fun _ => F.ev _ _ (by decide)
  | .abs e, h => by
    simp only [T.all, Bool.and_eq_true] at h
    rw [L2S.conv]
    exact F.seq (conv e h.2) fun _ => F.mkFn _ _ (by decide)
  | .floor e, h => by
    simp only [T.all, Bool.and_eq_true] at h
    rw [L2S.conv]
    exact F.seq (conv e h.2) fun _ => F.mkFn _ _ (by decide)
  | .ceil e, h => by
    simp only [T.all, Bool.and_eq_true] at h
    rw [L2S.conv]
    exact F.seq (conv e h.2) fun _ => F.mkFn _ _ (by decide)
  | .binom u l, h => by
    simp only [T.all, Bool.and_eq_true] at h
    rw [L2S.conv]
    exact F.two (conv u h.1.2) (conv l h.2) fun _ _ => F.ev _ _ (by decide)
  | .matrix rows arrow, h => by
    simp only [T.all, Bool.and_eq_true] at h
    have hm : ∀ rs : List (List SV), P SV.isOp (L.ev s%"Matrix" (rs.map .list)) :=
      fun _ => F.ev _ _ (by decide)
    rw [L2S.conv]
    refine F.seq (convRows rows h.1.2) fun rs => ?_
    refine F.seqV (hm rs) (fun m hv => ?_) (fun m => ?_)
    · split
      · exact F.pure _ _ hv
      · rename_i a
        simp only [T.allLL, Bool.and_eq_true] at h
        exact convTransforms a h.2.1 m _ hv (fun _ h => h)
      · rename_i a b
        simp only [T.allLL, Bool.and_eq_true] at h
        exact F.seqV (convTransforms b h.2.2.1 m _ hv (fun _ h => h))
          (fun m' hv' => convTransforms a h.2.1 m' _ hv' (fun _ h => h))
          (fun m' => convTransforms a h.2.1 m' _ rfl (fun _ h => nomatch h))
      · exact F.pure _ _ hv
    · split
      · exact F.pure0 _
      · rename_i a
        simp only [T.allLL, Bool.and_eq_true] at h
        exact convTransforms a h.2.1 m _ rfl (fun _ h => nomatch h)
      · rename_i a b
        simp only [T.allLL, Bool.and_eq_true] at h
        exact F.seq (convTransforms b h.2.2.1 m (fun _ => false) rfl (fun _ h => nomatch h))
          (fun m' => convTransforms a h.2.1 m' _ rfl (fun _ h => nomatch h))
      · exact F.pure0 _
  | .det rows, h => by
    simp only [T.all, Bool.and_eq_true] at h
    rw [L2S.conv]
    refine F.seq (convRows rows h.2) fun rs => F.seq (F.ev0 _ _) fun m => ?_
    exact F.vars (k := fun vs => L.ev s%"subs" (m :: vs.map fun p => SV.tuple [p.1, p.2]) >>=
      fun m => L.ev s%"det" [m]) fun vs => F.seq (F.ev0 _ _) fun _ => F.ev _ _ (by decide)
  | .trScale _ _, h => by rw [L2S.conv]; exact F.raise _ _
  | .trSwap _ _, h => by rw [L2S.conv]; exact F.raise _ _
  | .trAssign _ _ _, h => by rw [L2S.conv]; exact F.raise _ _
  | .kAdd, h => by rw [L2S.conv]; exact F.pure _ _ rfl
  | .kSub, h => by rw [L2S.conv]; exact F.pure _ _ rfl
  | .name base sub sup, h => by
    simp only [T.all, Bool.and_eq_true] at h
    rw [L2S.conv]
    refine F.iteH (fun _ => F.pure _ _ rfl) (fun _ => ?_)
    cases sup with
    | none =>
      exact F.seqV (F.name _) (fun p hp => F.pure _ _ hp) (fun _ => F.pure0 _)
    | some p =>
      exact F.seq (F.name _) fun _ => F.seq (conv p (by simpa only [T.allO] using h.2)) fun _ =>
        F.mkPow _ _
  | .symbol text, h => by rw [L2S.conv]; exact F.symbolConst _
  | .number text, h => by rw [L2S.conv]; exact F.numberOf _
  | .enotation text, h => by rw [L2S.conv]; exact F.numberOf _
  | .percent text, h => by rw [L2S.conv]; exact F.percentOf _
  | .differential text, h => by
    rw [L2S.conv]
    exact F.seq (F.lift _) fun v => F.real (k := fun b => Pure.pure (SV.sym (s%"d" ++ v) b))
      fun _ => F.pure _ _ rfl
  | .mathit text, h => by
    rw [L2S.conv]
    exact F.real (k := fun b => Pure.pure (SV.sym text b)) fun _ => F.pure _ _ rfl
  | .variable text, h => by rw [L2S.conv]; exact F.convertVariable _
  | .digit text, h => by rw [L2S.conv]; exact F.numberOf _
  | .frac u us l ls, h => by
    simp only [T.all, Bool.and_eq_true] at h
    rw [L2S.conv]
    refine F.seqV (F.frac u us l ls h.1.1) (fun v hv => ?_) (fun v => ?_)
    · cases v with
      | some v => exact F.pure _ _ hv
      | none => exact F.two (conv u h.1.2) (conv l h.2) F.convertDiv
    · cases v with
      | some v => exact F.pure0 _
      | none => exact F.plain (F.two (conv u h.1.2) (conv l h.2) F.convertDiv)
  | .fnSingle nm op sub sup arg, h => by
    simp only [T.all, Bool.and_eq_true] at h
    rw [L2S.conv]
    refine F.seq (conv arg h.2) fun a => ?_
    refine F.seqV (F.singleFunc nm op a (convBase nm sub h.1.1.2)) (fun e he => ?_) (fun e => ?_)
    · refine F.seq (convOpt sup h.1.2) fun p => ?_
      refine F.singleFuncPow _ _ _ _ _ ?_ (fun _ h => h)
      rintro v rfl
      exact he
    · exact F.seq (convOpt sup h.1.2) fun p =>
        F.singleFuncPow _ _ _ _ _ (fun _ _ => rfl) (fun _ h => nomatch h)
  | .fnMulti nm op paren args sup, h => by
    simp only [T.all, Bool.and_eq_true] at h
    rw [L2S.conv]
    refine F.ite' (F.raise _ _) ?_
    refine F.seq (F.args _) fun as => ?_
    refine F.seqV (F.multiFunc nm op as) (fun e he => ?_) (fun e => ?_)
    · refine F.seq (convOpt sup h.2) fun p => ?_
      refine F.optPow _ _ _ ?_ (fun _ h => h)
      rintro v rfl
      exact he
    · exact F.seq (convOpt sup h.2) fun p =>
        F.optPow _ _ _ (fun _ _ => rfl) (fun _ h => nomatch h)
  | .fnApply nm args sup, h => by
    simp only [T.all, Bool.and_eq_true] at h
    have hn : s%"Function " ++ nm ≠ s%"atoms" := by simp
    rw [L2S.conv]
    refine F.seq (F.args _) fun as => ?_
    cases sup with
    | none => exact F.ev _ _ hn
    | some p =>
      exact F.seq (conv p (by simpa only [T.allO] using h.2)) fun _ => F.seq (F.ev0 _ _) fun _ =>
        F.mkPow _ _
  | .integral none d sub sup, h => by
    simp only [T.all, Bool.and_eq_true] at h
    rw [L2S.conv]
    refine F.seq (o := fun _ => false) (F.ite' (F.raise _ _) (F.pure0 _)) fun b =>
      F.seq (F.integralVar _ _) fun p => ?_
    cases sub with
    | none => exact F.ev _ _ (by decide)
    | some s =>
      refine F.seq (conv s (by simpa only [T.allO] using h.1.2)) fun lo => ?_
      cases sup with
      | none => exact F.raise _ _
      | some s =>
        exact F.seq (conv s (by simpa only [T.allO] using h.2)) fun hi => F.ev _ _ (by decide)
  | .integral (some t) d sub sup, h => by
    simp only [T.all, Bool.and_eq_true] at h
    rw [L2S.conv]
    refine F.seq (conv t (by simpa only [T.allO] using h.1.1.2)) fun b =>
      F.seq (F.integralVar _ _) fun p => ?_
    cases sub with
    | none => exact F.ev _ _ (by decide)
    | some s =>
      refine F.seq (conv s (by simpa only [T.allO] using h.1.2)) fun lo => ?_
      cases sup with
      | none => exact F.raise _ _
      | some s =>
        exact F.seq (conv s (by simpa only [T.allO] using h.2)) fun hi => F.ev _ _ (by decide)
  | .sqrt base root, h => by
    simp only [T.all, Bool.and_eq_true] at h
    rw [L2S.conv]
    refine F.seq (conv base h.1.2) fun b => ?_
    cases root with
    | none => exact F.mkPow _ _
    | some r =>
      exact F.seq (conv r (by simpa only [T.allO] using h.2)) fun _ => F.seq (F.reciprocal _) fun _ =>
        F.mkPow _ _
  | .sumProd isSum val var start sup, h => by
    simp only [T.all, Bool.and_eq_true] at h
    rw [L2S.conv]
    exact F.seq (conv val h.1.1.1.2) fun _ => F.seq (conv var h.1.1.2) fun _ =>
      F.seq (conv start h.1.2) fun _ => F.seq (conv sup h.2) fun _ =>
        F.ev _ _ (by cases isSum <;> decide)
  | .lim var minus approach content, h => by
    simp only [T.all, Bool.and_eq_true] at h
    rw [L2S.conv]
    have key : ∀ n : Str, P SV.isOp (getG >>= fun g => L2S.conv L rec approach >>= fun a =>
        L2S.conv L rec content >>= fun c =>
          L.ev s%"Limit" [c, SV.sym n g.isReal, a, .sym (if minus = some true then s%"-" else s%"+") none]) :=
      fun n => F.real (k := fun b => L2S.conv L rec approach >>= fun a =>
        L2S.conv L rec content >>= fun c =>
          L.ev s%"Limit" [c, SV.sym n b, a, .sym (if minus = some true then s%"-" else s%"+") none]) fun b =>
        F.seq (conv approach h.1.2) fun _ => F.seq (conv content h.2) fun _ =>
          F.ev _ _ (by decide)
    cases var <;> exact key _
  | .expE none, h => by rw [L2S.conv]; exact F.ev _ _ (by decide)
  | .expE (some s), h => by
    simp only [T.all, T.allO, Bool.and_eq_true] at h
    rw [L2S.conv]
    exact F.seq (conv s h.2) fun _ => F.ev _ _ (by decide)

theorem convOpt : ∀ t : Option T, T.allO q t = true → P (fun _ => false) (convOpt L rec t)
  | none, _ => by rw [L2S.convOpt]; exact F.pure0 _
  | some t, h => by
    rw [L2S.convOpt]
    exact F.seq (conv t (by simpa only [T.allO] using h)) fun _ => F.pure0 _

theorem convBase (nm : Str) : ∀ t : Option T, T.allO q t = true → P SV.isOp (convBase L rec nm t)
  | none, _ => by
    rw [L2S.convBase]
    refine F.pure _ _ ?_
    split <;> rfl
  | some t, h => by
    rw [L2S.convBase]
    exact conv t (by simpa only [T.allO] using h)

theorem convJuxt : ∀ ts : List T, T.allL q ts = true → P SV.isOp (convJuxt L rec ts)
  | [], _ => by rw [L2S.convJuxt]; exact F.raise _ _
  | t :: ts, h => by
    simp only [T.allL, Bool.and_eq_true] at h
    rw [L2S.convJuxt]
    refine F.post (conv t h.1) fun v kd hk => ?_
    cases kd with
    | result =>
      rcases hk with hk | ⟨_, hk⟩
      · exact F.pure _ _ hk
      · cases hk
    | factor =>
      rcases hk with hk | ⟨_, hk⟩
      · exact F.ite' (F.pure _ _ hk) (F.seq (convJuxt ts h.2) fun _ => F.convertMul _ _)
      · cases hk
    | operator wrt =>
      exact F.ite' (F.raise _ _) (F.seq (convJuxt ts h.2) fun _ => F.ev _ _ (by decide))

theorem convAt (e : SV) (o : SV → Bool) (he : o e = false) (ho : ∀ v, o v = true → v.isOp = true) :
    ∀ t : Option T, T.allO q t = true → P (fun x : Option SV => x.any o) (convAt L rec e t)
  | none, _ => by rw [L2S.convAt]; exact F.pure _ _ rfl
  | some t, h => by
    have hs : ∀ {m : M (St Y) SV}, P o m →
        P (fun x : Option SV => x.any o) (m >>= fun v => Pure.pure (some v)) := fun hm =>
      F.seqV hm (fun _ hv => F.pure _ _ hv) (fun _ => F.pure0 _)
    cases t with
    | eqn l r =>
      simp only [T.allO, T.all, Bool.and_eq_true] at h
      rw [L2S.convAt]
      refine F.seq (conv l h.1.2) fun _ => F.seq (conv r h.2) fun _ => ?_
      exact hs (F.ite' (F.weaken (F.ev _ _ (by decide)) ho) (F.raise _ _))
    | _ =>
      rw [L2S.convAt]
      · exact F.seq (conv _ (by simpa only [T.allO] using h)) fun _ => hs (F.substExpr _ _ _ he ho)
      · intro _ _ hc; cases hc

theorem convList : ∀ ts : List T, T.allL q ts = true → P (fun _ => false) (convList L rec ts)
  | [], _ => by rw [L2S.convList]; exact F.pure0 _
  | t :: ts, h => by
    simp only [T.allL, Bool.and_eq_true] at h
    rw [L2S.convList]
    exact F.seq (conv t h.1) fun _ => F.seq (convList ts h.2) fun _ => F.pure0 _

theorem convRows : ∀ ts : List (List T), T.allLL q ts = true →
    P (fun _ => false) (convRows L rec ts)
  | [], _ => by rw [L2S.convRows]; exact F.pure0 _
  | r :: rs, h => by
    simp only [T.allLL, Bool.and_eq_true] at h
    rw [L2S.convRows]
    exact F.seq (convList r h.1) fun _ => F.seq (convRows rs h.2) fun _ => F.pure0 _

theorem convTransform (m : SV) (o : SV → Bool) (hm : o m = false)
    (ho : ∀ v, o v = true → v.isOp = true) :
    ∀ t : T, t.all q = true → P o (convTransform L rec m t) := by
  intro t h
  cases t with
  | trScale k a =>
    simp only [T.all, Bool.and_eq_true] at h
    rw [L2S.convTransform]
    exact F.seq (F.trIndex _) fun _ => F.seq (conv k h.2) fun _ =>
      F.weaken (F.elementaryOp _ _ _) ho
  | trSwap a b =>
    rw [L2S.convTransform]
    exact F.seq (F.trIndex _) fun _ => F.seq (F.trIndex _) fun _ =>
      F.ite' (F.raise _ _) (F.weaken (F.elementaryOp _ _ _) ho)
  | trAssign a k b =>
    simp only [T.all, Bool.and_eq_true] at h
    rw [L2S.convTransform]
    exact F.seq (conv k h.2) fun _ => F.seq (F.trIndex _) fun _ => F.seq (F.trIndex _) fun _ =>
      F.ite' (F.raise _ _) (F.weaken (F.elementaryOp _ _ _) ho)
  | _ =>
    rw [L2S.convTransform]
    · exact F.pure _ _ hm
    all_goals simp

theorem convTransforms : ∀ ts : List T, T.allL q ts = true → ∀ (m : SV) (o : SV → Bool),
    o m = false → (∀ v, o v = true → v.isOp = true) → P o (convTransforms L rec ts m)
  | [], _, m, o, hm, _ => by rw [L2S.convTransforms]; exact F.pure _ _ hm
  | t :: ts, h, m, o, hm, ho => by
    simp only [T.allL, Bool.and_eq_true] at h
    rw [L2S.convTransforms]
    exact F.seqV (convTransform m o hm ho t h.1) (fun m' hm' => convTransforms ts h.2 m' o hm' ho)
      (fun m' => convTransforms ts h.2 m' _ rfl (fun _ h => nomatch h))
end

theorem convItems : ∀ ts : List T, T.allL q ts = true → P (fun _ => false) (convItems L rec ts)
  | [], _ => by rw [L2S.convItems]; exact F.pure0 _
  | t :: ts, h => by
    simp only [T.allL, Bool.and_eq_true] at h
    rw [L2S.convItems]
    exact F.seq (F.conv t h.1) fun _ => F.seq (convItems ts h.2) fun _ => F.pure0 _

end Frame
end Verif.L2S
