import Verif.Model.Parser
/-
Lemmas about the parser combinators: the first parse (`First`), complete and partial runs of loops
(`Steps`), tokens with which a parse can begin (`Needs`), and tokens used (`Bal`: the braces of every
parsed phrase are balanced).
-/

namespace Verif.Grammar
open Verif Verif.L2S

variable {α β : Type}

theorem P.bind_run (p : P α) (f : α → P β) (ts : List Tok) :
    (p >>= f) ts = (p ts).flatMap fun x => f x.1 x.2 := rfl

theorem P.pure_run (a : α) (ts : List Tok) : (pure a : P α) ts = [(a, ts)] := rfl

theorem P.choice_run (p : P α) (ps : List (P α)) (ts : List Tok) :
    P.choice (p :: ps) ts = p ts ++ P.choice ps ts := rfl

theorem P.manyGo_run (p : P α) (n : Nat) (ts : List Tok) :
    P.manyGo p (n + 1) ts = ((p ts).flatMap fun x => (P.manyGo p n x.2).map
      fun y => (x.1 :: y.1, y.2)) ++ [([], ts)] := rfl

/-! ### The first parse -/

/-- the preferred parse -/
def First (p : P α) (ts : List Tok) (a : α) (r : List Tok) : Prop := ∃ l, p ts = (a, r) :: l

theorem First.pure {a : α} {ts : List Tok} : First (pure a) ts a ts := ⟨[], rfl⟩

theorem First.bind {p : P α} {f : α → P β} {ts r r' : List Tok} {a : α} {b : β}
    (h : First p ts a r) (k : First (f a) r b r') : First (p >>= f) ts b r' := by
  obtain ⟨l, h⟩ := h
  obtain ⟨l', k⟩ := k
  exact ⟨l' ++ l.flatMap fun x => f x.1 x.2, by rw [P.bind_run, h, List.flatMap_cons, k]; rfl⟩

theorem First.or_left {p q : P α} {ts r : List Tok} {a : α} (h : First p ts a r) :
    First (P.or p q) ts a r := by
  obtain ⟨l, h⟩ := h
  exact ⟨l ++ q ts, by rw [P.or, h]; rfl⟩

theorem First.or_right {p q : P α} {ts r : List Tok} {a : α} (hp : p ts = []) (h : First q ts a r) :
    First (P.or p q) ts a r := by
  obtain ⟨l, h⟩ := h
  exact ⟨l, by rw [P.or, hp, h]; rfl⟩

theorem First.choice_head {p : P α} {ps : List (P α)} {ts r : List Tok} {a : α} (h : First p ts a r) :
    First (P.choice (p :: ps)) ts a r := by
  obtain ⟨l, h⟩ := h
  exact ⟨l ++ P.choice ps ts, by rw [P.choice_run, h]; rfl⟩

theorem First.choice_tail {p : P α} {ps : List (P α)} {ts r : List Tok} {a : α} (hp : p ts = [])
    (h : First (P.choice ps) ts a r) : First (P.choice (p :: ps)) ts a r := by
  obtain ⟨l, h⟩ := h
  exact ⟨l, by rw [P.choice_run, hp, h]; rfl⟩

theorem First.opt_some {p : P α} {ts r : List Tok} {a : α} (h : First p ts a r) :
    First (P.opt p) ts (some a) r := by
  obtain ⟨l, h⟩ := h
  exact ⟨(l.map fun x => (some x.1, x.2)) ++ [(none, ts)], by rw [P.opt, h]; rfl⟩

theorem opt_none_run {p : P α} {ts : List Tok} (h : p ts = []) : P.opt p ts = [(none, ts)] := by
  rw [P.opt, h]; rfl

theorem First.opt_none {p : P α} {ts : List Tok} (h : p ts = []) : First (P.opt p) ts none ts :=
  ⟨[], opt_none_run h⟩

theorem First.used {p : P α} {c r : List Tok} {a : α} (h : First p (c ++ r) a r) :
    First (P.used p) (c ++ r) (a, c) r := by
  obtain ⟨l, h⟩ := h
  refine ⟨l.map fun x => ((x.1, (c ++ r).take ((c ++ r).length - x.2.length)), x.2), ?_⟩
  rw [P.used, h]
  simp

theorem First.tk {t : Tok} {ts : List Tok} {k : Kind} (h : t.kind = k) :
    First (tk k) (t :: ts) t ts := ⟨[], by rw [Grammar.tk, if_pos h]⟩

theorem First.oneOf {t : Tok} {ts : List Tok} {ks : List Kind} (h : t.kind ∈ ks) :
    First (oneOf ks) (t :: ts) t ts := ⟨[], by rw [Grammar.oneOf, if_pos h]⟩

/-! ### Loops -/

/-- iterations of a loop, each the preferred one -/
inductive Steps (p : P α) : List Tok → List α → List Tok → Prop
  | nil {ts} : Steps p ts [] ts
  | cons {ts a r as r'} : First p ts a r → r.length < ts.length → Steps p r as r' →
      Steps p ts (a :: as) r'

theorem Steps.append {p : P α} {ts r r' : List Tok} {as bs : List α} (h : Steps p ts as r)
    (k : Steps p r bs r') : Steps p ts (as ++ bs) r' := by
  induction h with
  | nil => exact k
  | cons h1 h2 _ ih => exact .cons h1 h2 (ih k)

theorem Steps.one {p : P α} {ts r : List Tok} {a : α} (h : First p ts a r)
    (hl : r.length < ts.length) : Steps p ts [a] r := .cons h hl .nil

theorem Steps.length {p : P α} {ts r : List Tok} {as : List α} (h : Steps p ts as r) :
    as.length + r.length ≤ ts.length := by
  induction h with
  | nil => simp
  | cons _ h2 _ ih => simp only [List.length_cons]; omega

theorem manyGo_steps {p : P α} {ts r : List Tok} {as : List α} (h : Steps p ts as r)
    (hr : p r = []) : ∀ n, as.length ≤ n → First (P.manyGo p n) ts as r := by
  induction h with
  | nil =>
    intro n _
    cases n with
    | zero => exact ⟨[], rfl⟩
    | succ n => exact ⟨[], by rw [P.manyGo_run, hr]; rfl⟩
  | @cons ts a r as r' h1 _ _ ih =>
    intro n hn
    cases n with
    | zero => simp at hn
    | succ n =>
      obtain ⟨l, h1⟩ := h1
      obtain ⟨l', h2⟩ := ih hr n (by simpa using hn)
      refine ⟨(l'.map fun y => (a :: y.1, y.2)) ++ (l.flatMap fun x => (P.manyGo p n x.2).map
        fun y => (x.1 :: y.1, y.2)) ++ [([], ts)], ?_⟩
      rw [P.manyGo_run, h1, List.flatMap_cons, h2]
      simp

theorem First.many {p : P α} {ts r : List Tok} {as : List α} (h : Steps p ts as r)
    (hr : p r = []) : First (P.many p) ts as r :=
  manyGo_steps h hr _ (by have := h.length; omega)

theorem First.plus {p : P α} {ts r : List Tok} {a : α} {as : List α} (h : Steps p ts (a :: as) r)
    (hr : p r = []) : First (P.plus p) ts (a :: as) r := by
  cases h with
  | cons h1 _ h3 => exact h1.bind ((First.many h3 hr).bind .pure)

/-! ### Beginnings -/

/-- every parse begins with a token of these types -/
def Needs (p : P α) (ks : List Kind) : Prop :=
  p [] = [] ∧ ∀ t ts, t.kind ∉ ks → p (t :: ts) = []

theorem Needs.tk (k : Kind) : Needs (tk k) [k] :=
  ⟨rfl, fun t ts h => by rw [Grammar.tk, if_neg (by simpa using h)]⟩

theorem Needs.oneOf (ks : List Kind) : Needs (oneOf ks) ks :=
  ⟨rfl, fun t ts h => by rw [Grammar.oneOf, if_neg h]⟩

theorem Needs.bind {p : P α} {f : α → P β} {ks : List Kind} (h : Needs p ks) :
    Needs (p >>= f) ks :=
  ⟨by rw [P.bind_run, h.1]; rfl, fun t ts ht => by rw [P.bind_run, h.2 t ts ht]; rfl⟩

theorem Needs.or {p q : P α} {ks ls : List Kind} (h : Needs p ks) (k : Needs q ls) :
    Needs (P.or p q) (ks ++ ls) :=
  ⟨by rw [P.or, h.1, k.1]; rfl, fun t ts ht => by
    rw [List.mem_append, not_or] at ht
    rw [P.or, h.2 t ts ht.1, k.2 t ts ht.2]; rfl⟩

theorem Needs.nil : Needs (P.choice ([] : List (P α))) [] := ⟨rfl, fun _ _ _ => rfl⟩

theorem Needs.choice {p : P α} {ps : List (P α)} {ks ls : List Kind} (h : Needs p ks)
    (k : Needs (P.choice ps) ls) : Needs (P.choice (p :: ps)) (ks ++ ls) :=
  ⟨by rw [P.choice_run, h.1, k.1]; rfl, fun t ts ht => by
    rw [List.mem_append, not_or] at ht
    rw [P.choice_run, h.2 t ts ht.1, k.2 t ts ht.2]; rfl⟩

theorem Needs.used {p : P α} {ks : List Kind} (h : Needs p ks) : Needs (P.used p) ks :=
  ⟨by rw [P.used, h.1]; rfl, fun t ts ht => by rw [P.used, h.2 t ts ht]; rfl⟩

theorem Needs.mono {p : P α} {ks ls : List Kind} (h : Needs p ks) (hs : ∀ k ∈ ks, k ∈ ls) :
    Needs p ls := ⟨h.1, fun t ts ht => h.2 t ts fun hk => ht (hs _ hk)⟩

/-- the type of the next token -/
def nextKind (ts : List Tok) : Option Kind := ts.head?.map (·.kind)

/-- a parse fails if the next token is of another type -/
theorem Needs.fail {p : P α} {ks : List Kind} (h : Needs p ks) {ts : List Tok}
    (hk : ∀ k, nextKind ts = some k → k ∉ ks) : p ts = [] := by
  cases ts with
  | nil => exact h.1
  | cons t ts => exact h.2 t ts (hk t.kind rfl)

theorem tk_fail {k : Kind} {ts : List Tok} (h : nextKind ts ≠ some k) : tk k ts = [] :=
  (Needs.tk k).fail fun j hj hm => h (by rw [hj, List.mem_singleton.1 hm])

theorem Needs.plus {p : P α} {ks : List Kind} (h : Needs p ks) : Needs (P.plus p) ks := h.bind

theorem needs_foldlM (k : Kind) (ks : List Kind) :
    Needs ((k :: ks).foldlM (fun (_ : Unit) j => do
      let _ ← tk j
      (Pure.pure () : P Unit)) ()) [k] := by
  rw [List.foldlM_cons]
  exact (Needs.tk k).bind.bind

theorem numberToks_needs : Needs numberToks [.DIGIT, .PERIOD] :=
  (Needs.or (Needs.tk .DIGIT).plus.bind (Needs.tk .PERIOD).bind).mono (by decide +kernel)

theorem numberText_needs : Needs numberText [.DIGIT, .PERIOD] := numberToks_needs.bind

theorem eNotation_needs : Needs eNotation [.DIGIT, .PERIOD] := numberToks_needs.bind

theorem percentNumber_needs : Needs percentNumber [.DIGIT, .PERIOD] := numberToks_needs.bind

theorem mathit_needs : Needs mathit [.CMD_MATHIT] := (Needs.tk _).bind

section
variable (rec : NT → P T)

theorem accent_needs : Needs (accent rec) accentKinds := (Needs.oneOf _).bind

/-- tokens with which a name begins -/
def nameKinds : List Kind := [.LETTER_NO_E, .GREEK_CMD, .OTHER_SYMBOL_CMD] ++ accentKinds

theorem nameTok_needs : Needs (nameTok rec) nameKinds :=
  (Needs.choice (Needs.tk _).bind (Needs.choice (Needs.tk _).bind (Needs.choice (Needs.tk _).bind
    (Needs.choice (accent_needs rec) .nil)))).mono (by decide +kernel)

theorem atomExprNoSup_needs : Needs (atomExprNoSup rec) nameKinds := (nameTok_needs rec).bind.used.bind

theorem atomExpr_needs : Needs (atomExpr rec) nameKinds := (nameTok_needs rec).bind

theorem frac_needs : Needs (frac rec) [.CMD_FRAC] := (Needs.tk _).bind

/-- tokens with which an atom begins -/
def atomKinds : List Kind :=
  nameKinds ++ [.SYMBOL, .DIGIT, .PERIOD, .DIFFERENTIAL, .CMD_MATHIT, .CMD_FRAC, .VARIABLE]

theorem atom_needs : Needs (atom rec) atomKinds :=
  (Needs.choice (atomExpr_needs rec) (.choice (Needs.tk _).bind (.choice eNotation_needs.bind
    (.choice percentNumber_needs.bind (.choice numberText_needs.bind (.choice (Needs.tk _).bind
    (.choice mathit_needs (.choice (frac_needs rec) (.choice (Needs.tk _).bind
      .nil))))))))).mono (by decide +kernel)

theorem between_needs (k : Kind) (ks r : List Kind) : Needs (between rec (k :: ks) r) [k] :=
  (needs_foldlM k ks).bind

theorem choice_append (ps qs : List (P α)) (ts : List Tok) :
    P.choice (ps ++ qs) ts = P.choice ps ts ++ P.choice qs ts := by
  induction ps with
  | nil => rfl
  | cons p ps ih => rw [List.cons_append, P.choice_run, P.choice_run, ih, List.append_assoc]

theorem Needs.choice_append {ps qs : List (P α)} {ks ls : List Kind} (h : Needs (P.choice ps) ks)
    (k : Needs (P.choice qs) ls) : Needs (P.choice (ps ++ qs)) (ks ++ ls) :=
  ⟨by rw [Grammar.choice_append, h.1, k.1]; rfl, fun t ts ht => by
    rw [List.mem_append, not_or] at ht
    rw [Grammar.choice_append, h.2 t ts ht.1, k.2 t ts ht.2]; rfl⟩

theorem Needs.choice_map {γ : Type} {l : List γ} {f : γ → P α} {g : γ → Kind}
    (h : ∀ x ∈ l, Needs (f x) [g x]) : Needs (P.choice (l.map f)) (l.map g) := by
  induction l with
  | nil => exact .nil
  | cons x l ih =>
    exact Needs.choice (h x (by simp)) (ih fun y hy => h y (by simp [hy]))

theorem enclosed_needs (ps : List (Kind × Kind)) :
    Needs (enclosed rec ps) (ps.map (·.1) ++ [.L_LEFT, .ML_LEFT]) :=
  (((Needs.choice_map (g := fun p : Kind × Kind => p.1) fun p _ => between_needs rec p.1 [] _).choice_append
    (Needs.choice_map (g := fun _ => Kind.L_LEFT) fun p _ => between_needs rec .L_LEFT [p.1] _)).choice_append
    (Needs.choice_map (g := fun _ => Kind.ML_LEFT) fun p _ => between_needs rec .ML_LEFT [p.1] _)).mono
      fun k hk => by
        simp only [List.mem_append, List.mem_map, List.mem_cons, List.not_mem_nil, or_false] at hk ⊢
        rcases hk with (h | ⟨_, _, h⟩) | ⟨_, _, h⟩
        · exact .inl h
        · exact .inr (.inl h.symm)
        · exact .inr (.inr h.symm)

theorem funcName_needs (ks ns : List Kind) : Needs (funcName ks ns) (ks ++ [.CMD_OPERATORNAME]) :=
  (Needs.oneOf _).bind.or (Needs.tk _).bind

/-- tokens with which a function begins -/
def funcKinds : List Kind :=
  singleKinds ++ multiKinds ++ nameKinds ++
    [.CMD_OPERATORNAME, .FUNC_INT, .FUNC_SQRT, .FUNC_SUM, .FUNC_PROD, .FUNC_LIM, .EXP_E]

theorem func_needs : Needs (func rec) funcKinds :=
  (Needs.choice (funcName_needs _ _).bind (.choice (funcName_needs _ _).bind
    (.choice (atomExprNoSup_needs rec).bind (.choice (atomExprNoSup_needs rec).bind
    (.choice (Needs.tk _).bind (.choice (Needs.tk _).bind (.choice (Needs.oneOf _).bind
    (.choice (Needs.tk _).bind (.choice (Needs.tk _).bind .nil))))))))).mono (by decide +kernel)

theorem group_needs : Needs (group rec) (groupKinds.map (·.1) ++ [.L_LEFT, .ML_LEFT]) :=
  (enclosed_needs rec _).bind

theorem normGroup_needs : Needs (normGroup rec) [.NORM, .L_LEFT, .ML_LEFT] :=
  (enclosed_needs rec _).bind

theorem absGroup_needs : Needs (absGroup rec) [.BAR, .L_VERT, .VERT, .L_LEFT, .ML_LEFT] :=
  (enclosed_needs rec _).bind

theorem floorGroup_needs : Needs (floorGroup rec) [.L_FLOOR, .LL_CORNER, .L_LEFT, .ML_LEFT] :=
  (enclosed_needs rec _).bind

theorem ceilGroup_needs : Needs (ceilGroup rec) [.L_CEIL, .UL_CORNER, .L_LEFT, .ML_LEFT] :=
  (enclosed_needs rec _).bind

theorem binom_needs : Needs (binom rec) [.L_BRACE, .CMD_BINOM] :=
  (Needs.tk _).bind.or (Needs.tk _).bind

/-- tokens with which a factor begins -/
def compKinds : List Kind :=
  groupKinds.map (·.1) ++ [.L_LEFT, .ML_LEFT, .NORM, .BAR, .L_VERT, .VERT, .L_FLOOR, .LL_CORNER,
    .L_CEIL, .UL_CORNER, .CMD_BINOM, .CMD_MATRIX_START, .CMD_DET_START] ++ funcKinds ++ atomKinds

theorem comp_needs (fn : Bool) : Needs (comp rec fn) compKinds := by
  have h1 : Needs (P.choice [group rec, normGroup rec, absGroup rec, floorGroup rec, ceilGroup rec])
      compKinds :=
    (Needs.choice (group_needs rec) (.choice (normGroup_needs rec) (.choice (absGroup_needs rec)
      (.choice (floorGroup_needs rec) (.choice (ceilGroup_needs rec) .nil))))).mono (by decide +kernel)
  have h2 : Needs (P.choice [atom rec, binom rec, matrix rec, det rec]) compKinds :=
    (Needs.choice (atom_needs rec) (.choice (binom_needs rec) (.choice (Needs.tk _).bind
      (.choice (Needs.tk _).bind .nil)))).mono (by decide +kernel)
  have h3 : Needs (P.choice (if fn = true then [func rec] else [])) compKinds := by
    cases fn
    · exact Needs.nil.mono (by decide +kernel)
    · exact (Needs.choice (func_needs rec) .nil).mono (by decide +kernel)
  exact ((h1.choice_append h3).choice_append h2).mono fun k hk => by
    simpa using hk

theorem exp_needs (fn : Bool) : Needs (exp rec fn) compKinds := (comp_needs rec fn).bind

theorem postfix_needs (fn : Bool) : Needs (postfix' rec fn) compKinds := (exp_needs rec fn).bind

theorem postfixOp_needs : Needs (postfixOp rec) ([.BANG, .BAR] ++ transposeKinds) :=
  (Needs.choice (Needs.tk _).bind (.choice (Needs.tk _).bind (.choice (Needs.oneOf _).bind
    .nil))).mono (by decide +kernel)

theorem supexpr_needs : Needs (supexpr rec) [.CARET] := (Needs.tk _).bind

theorem subexpr_needs : Needs (subexpr rec) [.UNDERSCORE] := (Needs.tk _).bind

end
/-! ### Balanced braces -/

/-- nesting depth of braces after the tokens, starting from a depth; `none` if a brace is closed that
was not opened -/
def depth : Nat → List Tok → Option Nat
  | n, [] => some n
  | n, t :: ts =>
    if t.kind = .L_BRACE then depth (n + 1) ts
    else if t.kind = .R_BRACE then
      match n with
      | 0 => none
      | m + 1 => depth m ts
    else depth n ts

theorem depth_append (a b : List Tok) : ∀ n, depth n (a ++ b) = (depth n a).bind fun m => depth m b := by
  induction a with
  | nil => intro n; rfl
  | cons t a ih =>
    intro n
    simp only [List.cons_append, depth]
    split
    · exact ih _
    · split
      · cases n with
        | zero => rfl
        | succ m => exact ih m
      · exact ih n

/-- every parse uses tokens that lead from depth `a` to depth `b` (at any outer depth) -/
def Runs (p : P α) (a b : Nat) : Prop :=
  ∀ ts x, x ∈ p ts → ∃ c, ts = c ++ x.2 ∧ ∀ d, depth (d + a) c = some (d + b)

theorem Runs.pure {a : Nat} {v : α} : Runs (pure v) a a := by
  intro ts x hx
  rw [P.pure_run, List.mem_singleton] at hx
  subst hx
  exact ⟨[], rfl, fun d => rfl⟩

theorem Runs.empty {a b : Nat} : Runs (fun _ => [] : P α) a b := by
  intro ts x hx
  simp at hx

theorem Runs.bind {p : P α} {f : α → P β} {a b c : Nat} (h : Runs p a b) (k : ∀ x, Runs (f x) b c) :
    Runs (p >>= f) a c := by
  intro ts x hx
  rw [P.bind_run, List.mem_flatMap] at hx
  obtain ⟨y, hy, hx⟩ := hx
  obtain ⟨c1, h1, h2⟩ := h ts y hy
  obtain ⟨c2, k1, k2⟩ := k y.1 y.2 x hx
  exact ⟨c1 ++ c2, by rw [h1, k1, List.append_assoc], fun d => by
    rw [depth_append, h2]; exact k2 d⟩

theorem Runs.or {p q : P α} {a b : Nat} (h : Runs p a b) (k : Runs q a b) : Runs (P.or p q) a b := by
  intro ts x hx
  rcases List.mem_append.1 hx with hx | hx
  · exact h ts x hx
  · exact k ts x hx

theorem Runs.choice {ps : List (P α)} {a b : Nat} (h : ∀ p ∈ ps, Runs p a b) :
    Runs (P.choice ps) a b := by
  induction ps with
  | nil => exact .empty
  | cons p ps ih =>
    intro ts x hx
    rw [P.choice_run] at hx
    rcases List.mem_append.1 hx with hx | hx
    · exact h p (by simp) ts x hx
    · exact ih (fun q hq => h q (by simp [hq])) ts x hx

theorem Runs.opt {p : P α} {a : Nat} (h : Runs p a a) : Runs (P.opt p) a a := by
  intro ts x hx
  rcases List.mem_append.1 hx with hx | hx
  · obtain ⟨y, hy, rfl⟩ := List.mem_map.1 hx
    exact h ts y hy
  · rw [List.mem_singleton.1 hx]
    exact ⟨[], rfl, fun d => rfl⟩

theorem Runs.manyGo {p : P α} {a : Nat} (h : Runs p a a) : ∀ n, Runs (P.manyGo p n) a a
  | 0 => .pure
  | n + 1 => by
    intro ts x hx
    rw [P.manyGo_run] at hx
    rcases List.mem_append.1 hx with hx | hx
    · obtain ⟨y, hy, hx⟩ := List.mem_flatMap.1 hx
      obtain ⟨z, hz, rfl⟩ := List.mem_map.1 hx
      obtain ⟨c1, h1, h2⟩ := h ts y hy
      obtain ⟨c2, k1, k2⟩ := Runs.manyGo h n y.2 z hz
      exact ⟨c1 ++ c2, by rw [h1, k1, List.append_assoc], fun d => by
        rw [depth_append, h2]; exact k2 d⟩
    · rw [List.mem_singleton.1 hx]
      exact ⟨[], rfl, fun d => rfl⟩

theorem Runs.many {p : P α} {a : Nat} (h : Runs p a a) : Runs (P.many p) a a :=
  fun ts x hx => Runs.manyGo h ts.length ts x hx

theorem Runs.plus {p : P α} {a : Nat} (h : Runs p a a) : Runs (P.plus p) a a :=
  h.bind fun _ => h.many.bind fun _ => .pure

theorem Runs.used {p : P α} {a b : Nat} (h : Runs p a b) : Runs (P.used p) a b := by
  intro ts x hx
  obtain ⟨y, hy, rfl⟩ := List.mem_map.1 hx
  exact h ts y hy

theorem Runs.tkL {a : Nat} : Runs (tk .L_BRACE) a (a + 1) := by
  intro ts x hx
  cases ts with
  | nil => simp [Grammar.tk] at hx
  | cons t ts =>
    rw [Grammar.tk] at hx
    split at hx
    · rename_i h
      rw [List.mem_singleton.1 hx]
      exact ⟨[t], rfl, fun d => by simp [depth, h, Nat.add_assoc]⟩
    · simp at hx

theorem Runs.tkR {a : Nat} : Runs (tk .R_BRACE) (a + 1) a := by
  intro ts x hx
  cases ts with
  | nil => simp [Grammar.tk] at hx
  | cons t ts =>
    rw [Grammar.tk] at hx
    split at hx
    · rename_i h
      rw [List.mem_singleton.1 hx]
      exact ⟨[t], rfl, fun d => by simp [depth, h]⟩
    · simp at hx

theorem depth_plain {t : Tok} (h : t.kind ≠ .L_BRACE ∧ t.kind ≠ .R_BRACE) (n : Nat) :
    depth n [t] = some n := by simp [depth, h.1, h.2]

theorem Runs.oneOf {ks : List Kind} {a : Nat} (h : Kind.L_BRACE ∉ ks ∧ Kind.R_BRACE ∉ ks) :
    Runs (oneOf ks) a a := by
  intro ts x hx
  cases ts with
  | nil => simp [Grammar.oneOf] at hx
  | cons t ts =>
    rw [Grammar.oneOf] at hx
    split at hx
    · rename_i hk
      rw [List.mem_singleton.1 hx]
      exact ⟨[t], rfl, fun d => depth_plain ⟨fun e => h.1 (e ▸ hk), fun e => h.2 (e ▸ hk)⟩ _⟩
    · simp at hx

theorem Runs.tk {k : Kind} {a : Nat} (h : k ≠ .L_BRACE ∧ k ≠ .R_BRACE) : Runs (tk k) a a := by
  intro ts x hx
  cases ts with
  | nil => simp [Grammar.tk] at hx
  | cons t ts =>
    rw [Grammar.tk] at hx
    split at hx
    · rename_i hk
      rw [List.mem_singleton.1 hx]
      exact ⟨[t], rfl, fun d => depth_plain (hk ▸ h) _⟩
    · simp at hx

theorem Runs.up {p : P α} {a : Nat} (h : Runs p 0 0) : Runs p a a := fun ts x hx => by
  obtain ⟨c, h1, h2⟩ := h ts x hx
  exact ⟨c, h1, fun d => h2 (d + a)⟩

theorem Runs.fuel {f : Nat → P α} {a b : Nat} (h : ∀ n, Runs (f n) a b) :
    Runs (fun ts => f ts.length ts) a b := fun ts x hx => h ts.length ts x hx

attribute [irreducible] Runs

/-- compose the nesting depth of the parts of a rule -/
macro "braces" : tactic => `(tactic| repeat' first
  | with_reducible exact Runs.pure
  | with_reducible exact Runs.tkL
  | with_reducible exact Runs.tkR
  | (with_reducible refine Runs.tk ?_); decide
  | (with_reducible refine Runs.oneOf ?_); decide +kernel
  | with_reducible refine Runs.bind (b := ?_) ?_ fun _ => ?_
  | with_reducible refine Runs.or ?_ ?_
  | with_reducible refine Runs.opt ?_
  | with_reducible refine Runs.plus ?_
  | with_reducible refine Runs.many ?_
  | with_reducible refine Runs.used ?_
  | with_reducible (refine Runs.up ?_; first | assumption | apply_assumption))

theorem numberToks_runs : Runs numberToks 0 0 := by unfold numberToks; braces
theorem numberText_runs : Runs numberText 0 0 := numberToks_runs.bind fun _ => .pure
theorem eNotation_runs : Runs eNotation 0 0 := by
  unfold eNotation; refine Runs.bind numberToks_runs fun _ => ?_; braces
theorem percentNumber_runs : Runs percentNumber 0 0 := by
  unfold percentNumber; refine Runs.bind numberToks_runs fun _ => ?_; braces

section
variable {rec : NT → P T}

theorem braced_runs (h : ∀ nt, Runs (rec nt) 0 0) : Runs (braced rec) 0 0 := by
  unfold braced; braces

theorem argsGo_runs (h : ∀ nt, Runs (rec nt) 0 0) : ∀ n, Runs (argsGo rec n) 0 0
  | 0 => .empty
  | n + 1 => by
    have := argsGo_runs h n
    unfold argsGo; braces

theorem args_runs (h : ∀ nt, Runs (rec nt) 0 0) : Runs (args rec) 0 0 :=
  Runs.fuel (argsGo_runs h)

theorem subexpr_runs (h : ∀ nt, Runs (rec nt) 0 0) : Runs (subexpr rec) 0 0 := by
  have := args_runs h
  unfold subexpr; braces

theorem supexpr_runs (h : ∀ nt, Runs (rec nt) 0 0) : Runs (supexpr rec) 0 0 := by
  have := braced_runs h
  unfold supexpr; braces

theorem accent_runs (h : ∀ nt, Runs (rec nt) 0 0) : Runs (accent rec) 0 0 := by
  unfold accent; braces

/-- the members of a list of alternatives -/
macro "each" : tactic => `(tactic|
  (refine Runs.choice ?_; simp only [List.forall_mem_cons, List.not_mem_nil, false_imp_iff,
    implies_true, and_true]; repeat' apply And.intro))

theorem nameTok_runs (h : ∀ nt, Runs (rec nt) 0 0) : Runs (nameTok rec) 0 0 := by
  have := accent_runs h
  unfold nameTok; each <;> braces

theorem atomExprNoSup_runs (h : ∀ nt, Runs (rec nt) 0 0) : Runs (atomExprNoSup rec) 0 0 := by
  have := nameTok_runs h
  have := subexpr_runs h
  unfold atomExprNoSup; braces

theorem atomExpr_runs (h : ∀ nt, Runs (rec nt) 0 0) : Runs (atomExpr rec) 0 0 := by
  have h1 := subexpr_runs h
  have h2 := supexpr_runs h
  unfold atomExpr
  refine Runs.bind (nameTok_runs h) fun _ => ?_
  each <;> braces

theorem mathit_runs : Runs mathit 0 0 := by unfold mathit; braces

theorem fracPart_runs (h : ∀ nt, Runs (rec nt) 0 0) : Runs (fracPart rec) 0 0 := by
  unfold fracPart; braces

theorem frac_runs (h : ∀ nt, Runs (rec nt) 0 0) : Runs (frac rec) 0 0 := by
  have := fracPart_runs h
  unfold frac; braces

theorem atom_runs (h : ∀ nt, Runs (rec nt) 0 0) : Runs (atom rec) 0 0 := by
  have h1 := atomExpr_runs h
  have h2 := frac_runs h
  have h3 := mathit_runs
  have h4 := eNotation_runs
  have h5 := percentNumber_runs
  have h6 := numberText_runs
  unfold atom; each <;> braces

theorem between_runs (h : ∀ nt, Runs (rec nt) 0 0) {l r : List Kind}
    (hl : (l = [.L_BRACE] ∧ r = [.R_BRACE]) ∨ (l = [.L_LEFT, .L_BRACE] ∧ r = [.R_RIGHT, .R_BRACE]) ∨
      (l = [.ML_LEFT, .L_BRACE] ∧ r = [.MR_RIGHT, .R_BRACE]) ∨
      ∀ k ∈ l ++ r, k ≠ .L_BRACE ∧ k ≠ .R_BRACE) : Runs (between rec l r) 0 0 := by
  have plain : ∀ ks : List Kind, (∀ k ∈ ks, k ≠ .L_BRACE ∧ k ≠ .R_BRACE) →
      Runs (ks.foldlM (fun (_ : Unit) k => do
        let _ ← tk k
        (Pure.pure () : P Unit)) ()) 0 0 := by
    intro ks
    induction ks with
    | nil => intro _; exact .pure
    | cons k ks ih =>
      intro hk
      rw [List.foldlM_cons]
      exact Runs.bind (Runs.bind (.tk (hk k (by simp))) fun _ => .pure)
        fun _ => ih fun j hj => hk j (by simp [hj])
  unfold between
  rcases hl with ⟨rfl, rfl⟩ | ⟨rfl, rfl⟩ | ⟨rfl, rfl⟩ | hl
  · simp only [List.foldlM_cons, List.foldlM_nil]; braces
  · simp only [List.foldlM_cons, List.foldlM_nil]; braces
  · simp only [List.foldlM_cons, List.foldlM_nil]; braces
  · exact Runs.bind (plain l fun k hk => hl k (by simp [hk])) fun _ => Runs.bind (h _) fun _ =>
      Runs.bind (plain r fun k hk => hl k (by simp [hk])) fun _ => .pure

theorem enclosed_runs (h : ∀ nt, Runs (rec nt) 0 0) {ps : List (Kind × Kind)}
    (hp : ∀ p ∈ ps, p = (.L_BRACE, .R_BRACE) ∨
      (p.1 ≠ .L_BRACE ∧ p.1 ≠ .R_BRACE ∧ p.2 ≠ .L_BRACE ∧ p.2 ≠ .R_BRACE)) :
    Runs (enclosed rec ps) 0 0 := by
  refine Runs.choice fun q hq => ?_
  simp only [List.mem_append, List.mem_map] at hq
  rcases hq with (⟨p, hp', rfl⟩ | ⟨p, hp', rfl⟩) | ⟨p, hp', rfl⟩ <;>
    refine between_runs h ?_ <;> rcases hp p hp' with rfl | ⟨h1, h2, h3, h4⟩
  · simp
  · exact .inr (.inr (.inr (by simp [h1, h2, h3, h4])))
  · simp
  · exact .inr (.inr (.inr (by simp [h1, h2, h3, h4])))
  · simp
  · exact .inr (.inr (.inr (by simp [h1, h2, h3, h4])))

theorem group_runs (h : ∀ nt, Runs (rec nt) 0 0) : Runs (group rec) 0 0 :=
  Runs.bind (enclosed_runs h (by decide +kernel)) fun _ => .pure

theorem normGroup_runs (h : ∀ nt, Runs (rec nt) 0 0) : Runs (normGroup rec) 0 0 :=
  Runs.bind (enclosed_runs h (by decide +kernel)) fun _ => .pure

theorem absGroup_runs (h : ∀ nt, Runs (rec nt) 0 0) : Runs (absGroup rec) 0 0 :=
  Runs.bind (enclosed_runs h (by decide +kernel)) fun _ => .pure

theorem floorGroup_runs (h : ∀ nt, Runs (rec nt) 0 0) : Runs (floorGroup rec) 0 0 :=
  Runs.bind (enclosed_runs h (by decide +kernel)) fun _ => .pure

theorem ceilGroup_runs (h : ∀ nt, Runs (rec nt) 0 0) : Runs (ceilGroup rec) 0 0 :=
  Runs.bind (enclosed_runs h (by decide +kernel)) fun _ => .pure

theorem binom_runs (h : ∀ nt, Runs (rec nt) 0 0) : Runs (binom rec) 0 0 := by
  have := braced_runs h
  unfold binom; braces

theorem matrixRow_runs (h : ∀ nt, Runs (rec nt) 0 0) : Runs (matrixRow rec) 0 0 := by
  unfold matrixRow; braces

theorem matrixRows_runs (h : ∀ nt, Runs (rec nt) 0 0) : Runs (matrixRows rec) 0 0 := by
  have := matrixRow_runs h
  unfold matrixRows; braces

theorem transformAtom_runs : Runs transformAtom 0 0 := by
  have := numberText_runs
  unfold transformAtom; braces

theorem transformScale_runs (h : ∀ nt, Runs (rec nt) 0 0) : Runs (transformScale rec) 0 0 := by
  have h1 := group_runs h
  have h2 := transformAtom_runs
  unfold transformScale
  refine Runs.bind (b := 0) ?_ fun _ => ?_
  · each <;> braces
  · braces

theorem elementaryTransform_runs (h : ∀ nt, Runs (rec nt) 0 0) :
    Runs (elementaryTransform rec) 0 0 := by
  have h1 := transformScale_runs h
  have h2 := transformAtom_runs
  unfold elementaryTransform; each <;> braces

theorem elementaryTransforms_runs (h : ∀ nt, Runs (rec nt) 0 0) :
    Runs (elementaryTransforms rec) 0 0 := by
  have := elementaryTransform_runs h
  unfold elementaryTransforms; braces

theorem matrix_runs (h : ∀ nt, Runs (rec nt) 0 0) : Runs (matrix rec) 0 0 := by
  have h1 := elementaryTransforms_runs h
  have h2 := matrixRows_runs h
  unfold matrix; braces

theorem det_runs (h : ∀ nt, Runs (rec nt) 0 0) : Runs (det rec) 0 0 := by
  have := matrixRows_runs h
  unfold det; braces

theorem funcName_runs {ks ns : List Kind} (hk : Kind.L_BRACE ∉ ks ∧ Kind.R_BRACE ∉ ks)
    (hn : Kind.L_BRACE ∉ ns ∧ Kind.R_BRACE ∉ ns) : Runs (funcName ks ns) 0 0 := by
  have h1 : Runs (oneOf ks) 0 0 := .oneOf hk
  have h2 : Runs (oneOf ns) 0 0 := .oneOf hn
  unfold funcName; braces

theorem subSup_runs (h : ∀ nt, Runs (rec nt) 0 0) : Runs (subSup rec) 0 0 := by
  have h1 := subexpr_runs h
  have h2 := supexpr_runs h
  unfold subSup; braces

theorem parenthesised_runs {p : P α} (h : Runs p 0 0) : Runs (parenthesised p) 0 0 := by
  unfold parenthesised; braces

theorem multiArgGo_runs (h : ∀ nt, Runs (rec nt) 0 0) : ∀ n, Runs (multiArgGo rec n) 0 0
  | 0 => .empty
  | n + 1 => by
    have := multiArgGo_runs h n
    unfold multiArgGo; braces

theorem multiArg_runs (h : ∀ nt, Runs (rec nt) 0 0) : Runs (multiArg rec) 0 0 :=
  Runs.bind (Runs.used (Runs.fuel (multiArgGo_runs h))) fun _ => .pure

theorem commonArgs_runs (h : ∀ nt, Runs (rec nt) 0 0) : Runs (commonArgs rec) 0 0 := by
  have := args_runs h
  unfold commonArgs
  refine Runs.bind (b := 0) (Runs.used ?_) fun _ => .pure
  each <;> braces

theorem callArgs_runs (h : ∀ nt, Runs (rec nt) 0 0) : Runs (callArgs rec) 0 0 := by
  have := commonArgs_runs h
  unfold callArgs; braces

theorem equality_runs (h : ∀ nt, Runs (rec nt) 0 0) : Runs (equality rec) 0 0 := by
  unfold equality; braces

theorem subeq_runs (h : ∀ nt, Runs (rec nt) 0 0) : Runs (subeq rec) 0 0 := by
  have := equality_runs h
  unfold subeq; braces

theorem intLimits_runs (h : ∀ nt, Runs (rec nt) 0 0) : Runs (intLimits rec) 0 0 := by
  have h1 := subexpr_runs h
  have h2 := supexpr_runs h
  unfold intLimits; each <;> braces

theorem integrand_runs (h : ∀ nt, Runs (rec nt) 0 0) : Runs (integrand rec) 0 0 := by
  have := frac_runs h
  unfold integrand; each <;> braces

theorem limitSub_runs (h : ∀ nt, Runs (rec nt) 0 0) : Runs (limitSub rec) 0 0 := by
  have hv : Runs (P.choice [
      (do let t ← tk .LETTER_NO_E
          pure (NameTok.letter t.text)),
      (do let t ← tk .GREEK_CMD
          pure (NameTok.greek t.text)),
      (do let t ← tk .OTHER_SYMBOL_CMD
          pure (NameTok.other t.text))]) 0 0 := by each <;> braces
  unfold limitSub; braces

theorem func_runs (h : ∀ nt, Runs (rec nt) 0 0) : Runs (func rec) 0 0 := by
  have h1 : Runs (funcName singleKinds singleNames) 0 0 :=
    funcName_runs (by decide +kernel) (by decide +kernel)
  have h2 : Runs (funcName multiKinds multiNames) 0 0 :=
    funcName_runs (by decide +kernel) (by decide +kernel)
  have h3 := subSup_runs h
  have h4 := parenthesised_runs (h .expr)
  have h5 := parenthesised_runs (multiArg_runs h)
  have h6 := atomExprNoSup_runs h
  have h7 := supexpr_runs h
  have h8 := callArgs_runs h
  have h9 := intLimits_runs h
  have h10 := integrand_runs h
  have h11 := braced_runs h
  have h12 := subeq_runs h
  have h13 := limitSub_runs h
  unfold func; each <;> braces

theorem comp_runs (h : ∀ nt, Runs (rec nt) 0 0) (fn : Bool) : Runs (comp rec fn) 0 0 := by
  refine Runs.choice fun p hp => ?_
  simp only [List.mem_append, List.mem_cons, List.not_mem_nil, or_false] at hp
  rcases hp with ((rfl | rfl | rfl | rfl | rfl) | hp) | (rfl | rfl | rfl | rfl)
  · exact group_runs h
  · exact normGroup_runs h
  · exact absGroup_runs h
  · exact floorGroup_runs h
  · exact ceilGroup_runs h
  · cases fn
    · simp at hp
    · simp only [if_true, List.mem_singleton] at hp
      rw [hp]
      exact func_runs h
  · exact atom_runs h
  · exact binom_runs h
  · exact matrix_runs h
  · exact det_runs h

theorem exp_runs (h : ∀ nt, Runs (rec nt) 0 0) (fn : Bool) : Runs (exp rec fn) 0 0 := by
  have h1 := comp_runs h fn
  have h2 := subexpr_runs h
  have h3 := braced_runs h
  unfold exp; braces

theorem evalAtPart_runs (h : ∀ nt, Runs (rec nt) 0 0) {k : Kind}
    (hk : k ≠ .L_BRACE ∧ k ≠ .R_BRACE) : Runs (evalAtPart rec k) 0 0 := by
  have h1 := equality_runs h
  have h2 : Runs (tk k) 0 0 := .tk hk
  unfold evalAtPart; braces

theorem postfixOp_runs (h : ∀ nt, Runs (rec nt) 0 0) : Runs (postfixOp rec) 0 0 := by
  have h1 : Runs (evalAtPart rec .CARET) 0 0 := evalAtPart_runs h (by decide)
  have h2 : Runs (evalAtPart rec .UNDERSCORE) 0 0 := evalAtPart_runs h (by decide)
  unfold postfixOp
  each
  · braces
  · refine Runs.bind (.tk (by decide)) fun _ => ?_
    each <;> braces
  · braces

theorem postfix_runs (h : ∀ nt, Runs (rec nt) 0 0) (fn : Bool) : Runs (postfix' rec fn) 0 0 := by
  have h1 := exp_runs h fn
  have h2 := postfixOp_runs h
  unfold postfix'; braces

theorem chain_runs {ks : List Kind} {mk : Kind → T → T → T} {p : P T} (h : Runs p 0 0)
    (hk : Kind.L_BRACE ∉ ks ∧ Kind.R_BRACE ∉ ks) : Runs (chain ks mk p) 0 0 := by
  have h1 : Runs (oneOf ks) 0 0 := .oneOf hk
  unfold chain; braces

theorem body_runs (h : ∀ nt, Runs (rec nt) 0 0) (nt : NT) : Runs (body rec nt) 0 0 := by
  have h1 := postfix_runs h true
  have h2 := postfix_runs h false
  cases nt with
  | expr => exact chain_runs (h _) (by decide)
  | mp => exact chain_runs (h _) (by decide)
  | mpNf => exact chain_runs (h _) (by decide)
  | unary => unfold body; braces
  | unaryNf => unfold body; braces
  | atom => exact atom_runs h

end

/-- Every phrase of the grammar has balanced braces. -/
theorem rule_runs : ∀ n nt, Runs (rule n nt) 0 0
  | 0, _ => .empty
  | n + 1, nt => body_runs (rule_runs n) nt

end Verif.Grammar
