import Verif.Spec.PSTrees
import Verif.Props.GrammarDerives
/-
The tree of a text is a tree of this text (C92).
-/

namespace Verif.Grammar
open Verif Verif.L2S Verif.PS

variable {α β : Type}

/-- the results of `p` stand for the tokens used -/
def Yields (p : P α) (Q : α → List Tok → Prop) : Prop :=
  ∀ ts x, x ∈ p ts → ∃ us, ts = us ++ x.2 ∧ Q x.1 us

section
variable {p q : P α} {Q S : α → List Tok → Prop} {f : α → P β} {U : β → List Tok → Prop}

theorem Yields.imp (h : Yields p Q) (k : ∀ a us, Q a us → S a us) : Yields p S := fun ts x hx => by
  obtain ⟨us, h1, h2⟩ := h ts x hx
  exact ⟨us, h1, k _ _ h2⟩

theorem Yields.and (h : Yields p Q) (k : Yields p S) : Yields p fun a us => Q a us ∧ S a us :=
  fun ts x hx => by
    obtain ⟨us, h1, h2⟩ := h ts x hx
    obtain ⟨vs, h3, h4⟩ := k ts x hx
    obtain rfl : us = vs := List.append_cancel_right (h1.symm.trans h3)
    exact ⟨us, h1, h2, h4⟩

theorem Yields.bind (h : Yields p Q) (k : ∀ a us, Q a us → Yields (f a) fun b vs => U b (us ++ vs)) :
    Yields (p >>= f) U := fun ts x hx => by
  rw [P.bind_run, List.mem_flatMap] at hx
  obtain ⟨y, hy, hx⟩ := hx
  obtain ⟨us, h1, h2⟩ := h ts y hy
  obtain ⟨vs, h3, h4⟩ := k y.1 us h2 y.2 x hx
  exact ⟨us ++ vs, by rw [h1, h3, List.append_assoc], h4⟩

theorem Yields.pure {a : α} (h : Q a []) : Yields (pure a) Q := fun ts x hx => by
  rw [P.pure_run, List.mem_singleton] at hx
  subst hx
  exact ⟨[], rfl, h⟩

/-- the last part -/
theorem Yields.map {g : α → β} (h : Yields p Q) (k : ∀ a us, Q a us → U (g a) us) :
    Yields (p >>= fun a => Pure.pure (g a)) U :=
  .bind h fun a us ha => .pure (by rw [List.append_nil]; exact k a us ha)

theorem Yields.or (h : Yields p Q) (k : Yields q Q) : Yields (P.or p q) Q := fun ts x hx =>
  (List.mem_append.1 hx).elim (h ts x) (k ts x)

theorem Yields.nil : Yields (P.choice []) Q := fun ts x hx => by simp [P.choice] at hx

theorem Yields.cons {ps : List (P α)} (h : Yields p Q) (k : Yields (P.choice ps) Q) :
    Yields (P.choice (p :: ps)) Q := Yields.or h k

theorem Yields.choice {ps : List (P α)} (h : ∀ p ∈ ps, Yields p Q) : Yields (P.choice ps) Q := by
  induction ps with
  | nil => exact .nil
  | cons p ps ih =>
    exact .cons (h p (List.mem_cons_self ..)) (ih fun q hq => h q (List.mem_cons_of_mem _ hq))

theorem Yields.opt {V : Option α → List Tok → Prop} (h : Yields p fun a us => V (some a) us)
    (k : V none []) : Yields (P.opt p) V := fun ts x hx => by
  rcases List.mem_append.1 hx with hx | hx
  · obtain ⟨y, hy, rfl⟩ := List.mem_map.1 hx
    exact h ts y hy
  · rw [List.mem_singleton.1 hx]
    exact ⟨[], rfl, k⟩

theorem Yields.used (h : Yields p Q) : Yields (P.used p) fun x us => x.2 = us ∧ Q x.1 us := fun ts x hx => by
  obtain ⟨y, hy, rfl⟩ := List.mem_map.1 hx
  obtain ⟨us, h1, h2⟩ := h ts y hy
  refine ⟨us, h1, ?_, h2⟩
  change ts.take (ts.length - y.2.length) = us
  rw [h1]
  simp

theorem Acc.yields {e : E} {N : Nat} (h : Acc p e N) : Yields p fun _ us => Derives e (us.map (·.kind)) :=
  h.sound

end

theorem Yields.tk {k : Kind} : Yields (tk k) fun t us => us = [t] ∧ t.kind = k := fun ts x hx => by
  cases ts with
  | nil => simp [Grammar.tk] at hx
  | cons u ts =>
    rw [Grammar.tk] at hx
    split at hx
    · rw [List.mem_singleton.1 hx]
      exact ⟨[u], rfl, rfl, by assumption⟩
    · simp at hx

theorem Yields.oneOf {ks : List Kind} : Yields (oneOf ks) fun t us => us = [t] ∧ t.kind ∈ ks := fun ts x hx => by
  cases ts with
  | nil => simp [Grammar.oneOf] at hx
  | cons u ts =>
    rw [Grammar.oneOf] at hx
    split at hx
    · rw [List.mem_singleton.1 hx]
      exact ⟨[u], rfl, rfl, by assumption⟩
    · simp at hx

theorem Yields.sign {k : Kind} : Yields (Grammar.tk k) fun _ us => Toks [k] us :=
  Yields.tk.imp fun _ _ ⟨h, k⟩ => by rw [h, Toks, List.map_singleton, k]

theorem Yields.maybe {k : Kind} : Yields (P.opt (Grammar.tk k)) fun _ us => Maybe k us :=
  .opt (Yields.sign.imp fun _ _ h => .inr h) (.inl rfl)

theorem _root_.Verif.PS.Toks.append {a b : List Kind} {us vs : List Tok} (h : Toks a us) (k : Toks b vs) :
    Toks (a ++ b) (us ++ vs) := by
  rw [Toks, List.map_append, h, k]

/-- the results of a repetition, each with its tokens -/
inductive Each (Q : α → List Tok → Prop) : List α → List Tok → Prop
  | nil : Each Q [] []
  | cons {a as us vs} : Q a us → Each Q as vs → Each Q (a :: as) (us ++ vs)

theorem Yields.many {p : P α} {Q : α → List Tok → Prop} (h : Yields p Q) : Yields (P.many p) (Each Q) := by
  have key : ∀ n, Yields (P.manyGo p n) (Each Q) := by
    intro n
    induction n with
    | zero =>
      intro ts x hx
      rw [P.manyGo, List.mem_singleton] at hx
      rw [hx]
      exact ⟨[], rfl, .nil⟩
    | succ n ih =>
      rw [manyGo_eq]
      refine .or (.bind h fun a us ha => .bind ih fun as vs has => .pure ?_) (.pure .nil)
      rw [List.append_nil]
      exact .cons ha has
  exact fun ts x hx => key ts.length ts x hx

/-- a repetition that changes what was read before -/
theorem Each.fold {Q : α → List Tok → Prop} {V : β → List Tok → Prop} {g : β → α → β}
    (hg : ∀ b us a vs, V b us → Q a vs → V (g b a) (us ++ vs)) {as : List α} {vs : List Tok}
    (h : Each Q as vs) {b : β} {us : List Tok} (hb : V b us) : V (as.foldl g b) (us ++ vs) := by
  induction h generalizing b us with
  | nil => rwa [List.append_nil]
  | cons ha _ ih =>
    rw [← List.append_assoc]
    exact ih (hg _ _ _ _ hb ha)

/-- a list after its first member -/
theorem Each.list {Q : α → List Tok → Prop} {V : List α → List Tok → Prop}
    (hg : ∀ as us a vs, V as us → Q a vs → V (as ++ [a]) (us ++ vs)) {as : List α} {vs : List Tok}
    (h : Each Q as vs) {bs : List α} {us : List Tok} (hb : V bs us) : V (bs ++ as) (us ++ vs) := by
  induction h generalizing bs us with
  | nil => rwa [List.append_nil, List.append_nil]
  | @cons a as us' vs' ha _ ih =>
    rw [← List.append_assoc, show bs ++ a :: as = (bs ++ [a]) ++ as by simp]
    exact ih (hg _ _ _ _ hb ha)

/-! ### Texts -/

theorem textOf_eq (us : List Tok) : textOf us = plain us := by
  rw [textOf, plain, List.flatMap_def]

theorem sourceOf_eq (us : List Tok) : sourceOf us = source us := by
  cases us with
  | nil => rfl
  | cons u us => rw [sourceOf, source, List.flatMap_def]

theorem kindIs_tokKind (k : Kind) : KindIs (tokKind k) k := by
  unfold tokKind
  split
  · exact .differential
  · exact .symbol
  · exact .letter
  · exact .other (by assumption) (by assumption) (by assumption)

theorem spanOf_is {us : List Tok} (h : us ≠ []) : ∃ s, spanOf us = some s ∧ SpanIs s us := by
  cases us with
  | nil => exact absurd rfl h
  | cons u us =>
    have hl : (u :: us).getLast? = some ((u :: us).getLast h) := List.getLast?_eq_some_getLast h
    refine ⟨_, by rw [spanOf, List.head?_cons, hl], _, _, rfl, hl, kindIs_tokKind _, rfl, kindIs_tokKind _, rfl,
      ?_, rfl, sourceOf_eq (u :: us)⟩
    exact beq_iff_eq

theorem each_single {ts us : List Tok} (h : Each (fun (t : Tok) us => us = [t]) ts us) : ts = us := by
  induction h with
  | nil => rfl
  | cons h _ ih => rw [h, ih]; rfl

theorem yields_digits : Yields (P.plus (tk .DIGIT)) fun ts us => ts = us :=
  .bind Yields.tk fun a us ha => .bind (.many (Yields.tk.imp fun _ _ h => h.1)) fun as vs has => .pure (by
    rw [List.append_nil, ha.1, each_single has]; rfl)

theorem each_flatten {tss : List (List Tok)} {us : List Tok} (h : Each (fun ts us => ts = us) tss us) :
    tss.flatten = us := by
  induction h with
  | nil => rfl
  | cons h _ ih => rw [List.flatten_cons, h, ih]

theorem yields_numberToks : Yields numberToks fun ts us => ts = us ∧ Phrase .number us := by
  refine .and ?_ (acc_number (N := 0)).yields
  refine .or (.bind yields_digits fun ds us hd => .bind (.many (Q := fun ts us => ts = us) ?_) fun gs vs hg =>
    .bind (Q := fun f us => f.getD [] = us) (.opt ?_ rfl) fun f ws hf => .pure ?_) ?_
  · exact .bind Yields.tk fun c us hc => .bind Yields.tk fun a vs ha => .bind Yields.tk fun b ws hb =>
      .bind Yields.tk fun d xs hd => .pure (by rw [hc.1, ha.1, hb.1, hd.1]; rfl)
  · exact .bind Yields.tk fun p us hp => .map yields_digits fun es vs he => by rw [hp.1, ← he]; rfl
  · rw [List.append_nil, hd, each_flatten hg, hf, List.append_assoc]
  · exact .bind Yields.tk fun p us hp => .map yields_digits fun es vs he => by rw [hp.1, ← he]; rfl

theorem yields_number : Yields numberText fun s us => s = plain us ∧ Phrase .number us :=
  .map yields_numberToks fun ts us h => ⟨by rw [h.1, textOf_eq], h.2⟩

theorem yields_eNotation : Yields eNotation fun s us => s = plain us ∧ Phrase .e_notation us := by
  refine .and ?_ (acc_eNotation (N := 0)).yields
  refine .bind yields_numberToks fun ts us ht => .bind Yields.tk fun e vs he =>
    .bind (Q := fun s us => s.toList = us) (.opt (Yields.oneOf.imp fun _ _ h => h.1.symm) rfl) fun s ws hs =>
      .map yields_digits fun ds xs hd => ?_
  rw [textOf_eq, ht.1, he.1, hs, hd]
  rfl

theorem yields_percent : Yields percentNumber fun s us => s = plain us ∧ Phrase .percent_number us := by
  refine .and ?_ (acc_percent (N := 0)).yields
  exact .bind yields_numberToks fun ts us ht => .map Yields.tk fun p vs hp => by rw [textOf_eq, ht.1, hp.1]

theorem yields_sourcePlus {ks : List Kind} : Yields (P.plus (oneOf ks)) fun ts us => ts = us :=
  .bind Yields.oneOf fun a us ha => .bind (.many (Yields.oneOf.imp fun _ _ h => h.1)) fun as vs has => .pure (by
    rw [List.append_nil, ha.1, each_single has]; rfl)

theorem yields_mathit : Yields mathit fun t us => Spells (.atom t) us :=
  .bind Yields.sign fun _ us h1 => .bind Yields.sign fun _ vs h2 =>
    .bind (yields_sourcePlus.and
      (Acc.rule (x := .mathit_text) (.plus (Acc.oneOf (N := 0) rfl) rfl)).yields) fun x ws h3 =>
    .map Yields.sign fun _ xs h4 => by
      obtain ⟨rfl, h3⟩ := h3
      rw [sourceOf_eq, ← List.append_assoc]
      exact .mathit (h1.append h2) h3 h4

theorem yields_transformAtom : Yields transformAtom RowIs := by
  refine .bind Yields.tk fun a us ha => .bind Yields.sign fun _ vs hu => .or ?_ ?_
  · refine .map yields_number fun n ws hn => ?_
    rw [hn.1, ha.1]
    exact .plain ha.2 hu hn.2
  · refine .bind Yields.sign fun _ ls hl => .bind yields_number fun n ws hn => .map Yields.sign fun _ es he => ?_
    rw [hn.1, ha.1]
    exact .braced ha.2 hu hl hn.2 he

theorem yields_funcName {ks ns : List Kind} {x y : R} (hx : choices (grammar x) = some ks)
    (hy : choices (grammar y) = some ns) : Yields (funcName ks ns) fun n us => FnIs x y n.1 n.2 us := by
  have one : ∀ {ks : List Kind} {x : R}, choices (grammar x) = some ks →
      Yields (oneOf ks) fun a us => us = [a] ∧ Phrase x us := fun hx =>
    (Yields.oneOf.imp fun _ _ h => h.1).and (Acc.rule (Acc.oneOf (N := 0) hx)).yields
  refine .or ?_ ?_
  · refine .map (one hx) fun a us ha => ?_
    obtain ⟨rfl, h⟩ := ha
    rw [List.drop_one]
    exact .command h
  · refine .bind Yields.tk fun c us hc => .bind Yields.sign fun _ ls hl => .bind (one hy) fun o vs ho =>
      .map Yields.sign fun _ es he => ?_
    obtain ⟨rfl, ho⟩ := ho
    obtain ⟨rfl, hc⟩ := hc
    rw [List.drop_one]
    exact .operator hc hl ho he

/-! ### The rules -/

/-- what the results of a recursive rule stand for -/
def nodeOf : NT → T → Node
  | .expr => .expr
  | .mp => .mp true
  | .mpNf => .mp false
  | .unary => .unary true
  | .unaryNf => .unary false
  | .atom => .atom

section
variable {rec : NT → P T} (ha : ∀ nt, Acc (rec nt) (r (ruleOf nt)) 0)
  (hr : ∀ nt, Yields (rec nt) fun t us => Spells (nodeOf nt t) us)
include hr

theorem yields_braced : Yields (braced rec) fun t ws => ∃ l us e, ws = l ++ (us ++ e) ∧ Toks [.L_BRACE] l ∧
    Spells (.expr t) us ∧ Toks [.R_BRACE] e :=
  .bind Yields.sign fun _ l hl => .bind (hr .expr) fun _ us h => .map Yields.sign fun _ e he =>
    ⟨l, us, e, rfl, hl, h, he⟩

theorem yields_exponent : Yields (P.or (rec .atom) (braced rec)) fun t us => Spells (.exponent t) us :=
  .or ((hr .atom).imp fun _ _ h => .exponent h) ((yields_braced hr).imp fun _ _ h => by
    obtain ⟨l, us, e, rfl, hl, h, he⟩ := h
    exact .exponentIn hl h he)

theorem yields_supexpr : Yields (supexpr rec) fun t us => Spells (.sup t) us :=
  .bind Yields.sign fun _ _ hc => (yields_exponent hr).imp fun _ _ h => .sup hc h

theorem yields_optSup : Yields (P.opt (supexpr rec)) fun t us => Spells (.optSup t) us :=
  .opt ((yields_supexpr hr).imp fun _ _ h => .someSup h) .noSup

theorem yields_equality : Yields (equality rec) fun x us => ∃ k, Spells (.equation k x.1 x.2) us :=
  .bind (hr .expr) fun _ us h => .bind Yields.oneOf fun o vs ho => .map (hr .expr) fun _ ws h' => by
    obtain ⟨rfl, ho⟩ := ho
    simp only [List.mem_cons, List.not_mem_nil, or_false] at ho
    exact ⟨o.kind, .equation ho h rfl h'⟩

theorem yields_subeq : Yields (subeq rec) fun x us => Spells (.index x.1 x.2) us :=
  .bind Yields.sign fun _ us h1 => .bind Yields.sign fun _ vs h2 => .bind (yields_equality hr) fun _ ws h3 =>
    .map Yields.sign fun _ xs h4 => by
      obtain ⟨k, h3⟩ := h3
      rw [← List.append_assoc]
      exact .index (h1.append h2) h3 h4

theorem yields_evalAtPart {k : Kind} : Yields (evalAtPart rec k) fun t us => Spells (.bound k t) us := by
  refine .bind Yields.sign fun _ us h1 => .bind Yields.sign fun _ vs h2 =>
    .bind (Q := fun t ws => Spells (.expr t) ws ∨ ∃ o l r, t = .eqn l r ∧ Spells (.equation o l r) ws)
      (.or ((hr .expr).imp fun _ _ h => .inl h) (.map (yields_equality hr) fun x _ h => .inr ?_)) fun t ws h3 =>
    .map Yields.sign fun _ xs h4 => ?_
  · obtain ⟨k, h⟩ := h
    exact ⟨k, _, _, rfl, h⟩
  · rw [← List.append_assoc]
    rcases h3 with h3 | ⟨o, l, r, rfl, h3⟩
    · exact .bound (h1.append h2) h3 h4
    · exact .boundEq (h1.append h2) h3 h4

theorem yields_between1 {a b : Kind} : Yields (between rec [a] [b]) fun t ws => ∃ l us e,
    ws = l ++ (us ++ e) ∧ Spells (.expr t) us ∧ Toks [a] l ∧ Toks [b] e := by
  refine .bind (Q := fun _ => Toks [a]) (.bind (Q := fun _ => Toks [a]) (.map Yields.sign fun _ _ h => h)
    fun _ _ h => .pure (by rwa [List.append_nil])) fun _ l hl => .bind (hr .expr) fun t us h =>
      .map (Q := fun _ => Toks [b]) (.bind (Q := fun _ => Toks [b]) (.map Yields.sign fun _ _ h => h)
    fun _ _ h => .pure (by rwa [List.append_nil])) fun _ e he => ⟨l, us, e, rfl, h, hl, he⟩

omit hr in
theorem yields_two {a b : Kind} : Yields ([a, b].foldlM (fun _ k => do
    let _ ← tk k
    pure ()) ()) fun _ => Toks [a, b] :=
  .bind (Q := fun _ => Toks [a]) (.map Yields.sign fun _ _ h => h) fun _ us h =>
    .bind (Q := fun _ => Toks [b]) (.map Yields.sign fun _ _ h => h) fun _ vs h' => .pure (by
      rw [List.append_nil]; exact h.append h')

theorem yields_between2 {a b c d : Kind} : Yields (between rec [a, b] [c, d]) fun t ws => ∃ l us e,
    ws = l ++ (us ++ e) ∧ Spells (.expr t) us ∧ Toks [a, b] l ∧ Toks [c, d] e :=
  .bind yields_two fun _ l hl => .bind (hr .expr) fun t us h => .map yields_two fun _ e he =>
    ⟨l, us, e, rfl, h, hl, he⟩

theorem yields_enclosed {ps : List (Kind × Kind)} : Yields (enclosed rec ps) fun t ws => ∃ l us e,
    ws = l ++ (us ++ e) ∧ Spells (.expr t) us ∧ Brackets ps l e := by
  refine .choice fun p hp => ?_
  rcases List.mem_append.1 hp with hp | hp
  · rcases List.mem_append.1 hp with hp | hp
    · obtain ⟨q, hq, rfl⟩ := List.mem_map.1 hp
      exact (yields_between1 hr).imp fun _ _ ⟨l, us, e, h1, h2, h3, h4⟩ =>
        ⟨l, us, e, h1, h2, q, hq, .inl ⟨h3, h4⟩⟩
    · obtain ⟨q, hq, rfl⟩ := List.mem_map.1 hp
      exact (yields_between2 hr).imp fun _ _ ⟨l, us, e, h1, h2, h3, h4⟩ =>
        ⟨l, us, e, h1, h2, q, hq, .inr (.inl ⟨h3, h4⟩)⟩
  · obtain ⟨q, hq, rfl⟩ := List.mem_map.1 hp
    exact (yields_between2 hr).imp fun _ _ ⟨l, us, e, h1, h2, h3, h4⟩ =>
      ⟨l, us, e, h1, h2, q, hq, .inr (.inr ⟨h3, h4⟩)⟩

theorem yields_group : Yields (group rec) fun t us => (∃ e, t = .group e) ∧ ∀ fn, Spells (.comp fn t) us :=
  .map (yields_enclosed hr) fun _ _ ⟨_, _, _, h1, h2, h3⟩ => ⟨⟨_, rfl⟩, fun _ => h1 ▸ .group h3 h2⟩

theorem yields_normGroup {fn : Bool} : Yields (normGroup rec) fun t us => Spells (.comp fn t) us :=
  .map (yields_enclosed hr) fun _ _ ⟨_, _, _, h1, h2, h3⟩ => h1 ▸ .norm h3 h2

theorem yields_absGroup {fn : Bool} : Yields (absGroup rec) fun t us => Spells (.comp fn t) us :=
  .map (yields_enclosed hr) fun _ _ ⟨_, _, _, h1, h2, h3⟩ => h1 ▸ .abs h3 h2

theorem yields_floorGroup {fn : Bool} : Yields (floorGroup rec) fun t us => Spells (.comp fn t) us :=
  .map (yields_enclosed hr) fun _ _ ⟨_, _, _, h1, h2, h3⟩ => h1 ▸ .floor h3 h2

theorem yields_ceilGroup {fn : Bool} : Yields (ceilGroup rec) fun t us => Spells (.comp fn t) us :=
  .map (yields_enclosed hr) fun _ _ ⟨_, _, _, h1, h2, h3⟩ => h1 ▸ .ceil h3 h2

theorem yields_binom {fn : Bool} : Yields (binom rec) fun t us => Spells (.comp fn t) us := by
  refine .or ?_ ?_
  · exact .bind Yields.sign fun _ _ h1 => .bind (hr .expr) fun _ _ h2 => .bind Yields.sign fun _ _ h3 =>
      .bind (hr .expr) fun _ _ h4 => .map Yields.sign fun _ _ h5 => .choose h1 h2 h3 h4 h5
  · refine .bind Yields.sign fun _ c h1 => .bind (yields_braced hr) fun _ us h2 =>
      .map (yields_braced hr) fun _ vs h3 => ?_
    obtain ⟨l, us, e, rfl, h2, h4, h5⟩ := h2
    obtain ⟨l', us', e', rfl, h6, h7, h8⟩ := h3
    have := Spells.binom (fn := fn) (h1.append h2) h4 (h5.append h6) h7 h8
    simpa only [List.append_assoc] using this

theorem yields_matrixRow : Yields (matrixRow rec) fun ts us => Spells (.row ts) us := by
  refine .bind (hr .expr) fun t us h => .map (.many (Q := fun t vs => ∃ c ws, vs = c ++ ws ∧
    Toks [.MATRIX_DEL_COL] c ∧ Spells (.expr t) ws) (.bind Yields.sign fun _ c hc => (hr .expr).imp fun _ ws h =>
      ⟨c, ws, rfl, hc, h⟩)) fun ts vs hs => ?_
  refine Each.list (V := fun ts us => Spells (.row ts) us) ?_ hs (.row h)
  rintro as us a _ hb ⟨c, ws, rfl, hc, h⟩
  exact .rowCons hb hc h

theorem yields_matrixRows : Yields (matrixRows rec) fun ts ws => ∃ us d, ws = us ++ d ∧ Spells (.rows ts) us ∧
    Maybe .MATRIX_DEL_ROW d := by
  refine .bind (yields_matrixRow hr) fun t us h => .bind (.many (Q := fun t vs => ∃ c ws, vs = c ++ ws ∧
    Toks [.MATRIX_DEL_ROW] c ∧ Spells (.row t) ws) (.bind Yields.sign fun _ c hc =>
      (yields_matrixRow hr).imp fun _ ws h => ⟨c, ws, rfl, hc, h⟩)) fun ts vs hs => .map Yields.maybe fun _ d hd => ?_
  refine ⟨us ++ vs, d, by rw [List.append_assoc], ?_, hd⟩
  refine Each.list (V := fun ts us => Spells (.rows ts) us) ?_ hs (.rows h)
  rintro as us a _ hb ⟨c, ws, rfl, hc, h⟩
  exact .rowsCons hb hc h

theorem yields_transformScale : Yields (transformScale rec) fun x ws => ∃ us vs, ws = us ++ vs ∧
    Spells (.coefficient x.1) us ∧ RowIs x.2 vs := by
  refine .bind (Q := fun k us => Spells (.coefficient k) us) (.cons ((hr .expr).imp fun _ _ h => .coefficient h)
    (.cons ((yields_group hr).imp fun t us h => ?_) (.cons (.map Yields.sign fun _ _ h => .plus h)
      (.cons (.map Yields.sign fun _ _ h => .minus h) .nil)))) fun k us hk => .map yields_transformAtom fun a vs h =>
    ⟨us, vs, rfl, hk, h⟩
  obtain ⟨⟨e, rfl⟩, h⟩ := h
  exact .coefficientGroup (h false)

theorem yields_elementary : Yields (elementaryTransform rec) fun t us => Spells (.transform t) us := by
  refine .cons (.bind yields_transformAtom fun _ _ h => .map (yields_transformScale hr) fun _ _ h' => ?_)
    (.cons (.map (yields_transformScale hr) fun _ _ h => ?_)
      (.cons (.bind yields_transformAtom fun _ _ h => .bind Yields.sign fun _ _ h' =>
        .map yields_transformAtom fun _ _ h'' => .swap h h' h'') .nil))
  · obtain ⟨us, vs, rfl, h1, h2⟩ := h'
    exact .assign h h1 h2
  · obtain ⟨us, vs, rfl, h1, h2⟩ := h
    exact .scale h1 h2

theorem yields_elementaries : Yields (elementaryTransforms rec) fun ts us => Spells (.transforms ts) us := by
  refine .bind (yields_elementary hr) fun t us h => .map (.many (Q := fun t vs => ∃ c ws, vs = c ++ ws ∧
    Toks [.COMMA] c ∧ Spells (.transform t) ws) (.bind Yields.sign fun _ c hc =>
      (yields_elementary hr).imp fun _ ws h => ⟨c, ws, rfl, hc, h⟩)) fun ts vs hs => ?_
  refine Each.list (V := fun ts us => Spells (.transforms ts) us) ?_ hs (.transforms h)
  rintro as us a _ hb ⟨c, ws, rfl, hc, h⟩
  exact .transformsCons hb hc h

theorem yields_matrix {fn : Bool} : Yields (matrix rec) fun t us => Spells (.comp fn t) us := by
  refine .bind Yields.sign fun _ b h1 => .bind (yields_matrixRows hr) fun rows us h2 => .bind Yields.sign fun _ e h3 =>
    .map (Q := fun a us => Spells (.arrow (a.getD [])) us) (.opt ?_ .noArrow) fun a ws h4 => ?_
  · refine .bind Yields.sign fun _ a k1 => .bind (Q := fun a ws => a = none ∧ ws = [] ∨ ∃ ts l us e,
      a = some ts ∧ ws = l ++ (us ++ e) ∧ Toks [.L_BRACKET] l ∧ Spells (.transforms ts) us ∧ Toks [.R_BRACKET] e)
      (.opt ?_ (.inl ⟨rfl, rfl⟩)) fun o ws k2 => .bind Yields.sign fun _ l k3 =>
        .bind (yields_elementaries hr) fun ts vs k4 => .map Yields.sign fun _ e k5 => ?_
    · exact .bind Yields.sign fun _ l h1 => .bind (yields_elementaries hr) fun ts us h2 => .map Yields.sign fun _ e h3 =>
        .inr ⟨ts, l, us, e, rfl, rfl, h1, h2, h3⟩
    · rcases k2 with ⟨rfl, rfl⟩ | ⟨ts', l', us', e', rfl, rfl, m1, m2, m3⟩
      · have := Spells.arrow (k1.append k3) k4 k5
        change Spells (.arrow [ts]) _
        simpa only [List.append_assoc, List.nil_append] using this
      · have := Spells.arrowTwo (k1.append m1) m2 (m3.append k3) k4 k5
        change Spells (.arrow [ts', ts]) _
        simpa only [List.append_assoc, List.nil_append] using this
  · obtain ⟨us, d, rfl, h2, h5⟩ := h2
    rw [List.append_assoc]
    exact .matrix h1 h2 h5 h3 h4

theorem yields_det {fn : Bool} : Yields (det rec) fun t us => Spells (.comp fn t) us :=
  .bind Yields.sign fun _ b h1 => .bind (yields_matrixRows hr) fun rows us h2 => .map Yields.sign fun _ e h3 => by
    obtain ⟨us, d, rfl, h2, h5⟩ := h2
    rw [List.append_assoc]
    exact .det h1 h2 h5 h3

include ha

theorem yields_subexpr : Yields (subexpr rec) fun x us => Spells (.sub x.1 x.2) us := by
  refine .bind Yields.sign fun _ u hu => .or (.map (.used (hr .atom)) fun x us h => ?_)
    (.bind Yields.sign fun _ l hl => .bind (.used (Q := fun t us => Spells (.expr t) us ∨ t = .args ∧ Phrase .args us)
      (.or ((hr .expr).imp fun _ _ h => .inl h) (.map (acc_args ha).yields fun _ _ h => .inr ⟨rfl, h⟩))) fun x us h =>
        .map Yields.sign fun _ e he => ?_)
  · rw [textOf_eq, h.1]
    exact .subAtom hu h.2
  · rw [textOf_eq, h.1, ← List.append_assoc]
    rcases h.2 with h | ⟨h, h'⟩
    · exact .subExpr (hu.append hl) h he
    · rw [h]
      exact .subArgs (hu.append hl) h' he

theorem yields_optSub : Yields (P.opt (subexpr rec)) fun x us => Spells (.optSub x) us :=
  .opt ((yields_subexpr ha hr).imp fun _ _ h => .someSub h) .noSub

theorem yields_subSup : Yields (subSup rec) fun x us => Spells (.scripts x.1 x.2) us :=
  .or (.bind (yields_optSub ha hr) fun _ _ h => .map (yields_optSup hr) fun _ _ h' => .subSup h h')
    (.bind (yields_optSup hr) fun _ _ h => .map (yields_optSub ha hr) fun _ _ h' => .supSub h h')

omit hr in
theorem yields_accent : Yields (accent rec) NameIs := by
  refine .bind ((Yields.oneOf.imp fun _ _ h => h.1).and
    (Acc.rule (x := .accent_symbol) (Acc.oneOf (N := 0) rfl)).yields) fun a us h1 => .bind Yields.sign fun _ l h2 =>
    .bind (.used (ha .expr).yields) fun x vs h3 => .map Yields.sign fun _ e h4 => ?_
  obtain ⟨rfl, h1⟩ := h1
  rw [textOf_eq, h3.1]
  exact .accent h1 h2 h3.2 h4

omit hr in
theorem yields_nameTok : Yields (nameTok rec) NameIs :=
  .cons (.map Yields.tk fun _ _ h => by rw [h.1]; exact .letter h.2)
    (.cons (.map Yields.tk fun _ _ h => by rw [h.1]; exact .greek h.2)
      (.cons (.map Yields.tk fun _ _ h => by rw [h.1]; exact .other h.2) (.cons (yields_accent ha) .nil)))

theorem yields_atomExpr : Yields (atomExpr rec) fun t us => Spells (.atom t) us :=
  .bind (yields_nameTok ha) fun _ us h =>
    .cons (.bind (yields_supexpr hr) fun _ _ h1 => .map (yields_subexpr ha hr) fun _ _ h2 => .nameSupSub h h1 h2)
      (.cons (.bind (yields_subexpr ha hr) fun _ _ h1 => .map (yields_supexpr hr) fun _ _ h2 => .nameSubSup h h1 h2)
        (.cons (.map (yields_subexpr ha hr) fun _ _ h1 => .nameSub h h1)
          (.cons (.map (yields_supexpr hr) fun _ _ h1 => .nameSup h h1)
            (.cons (.pure (by rw [List.append_nil]; exact .name h)) .nil))))

theorem yields_fracPart : Yields (fracPart rec) fun x us => Spells (.part x.1 x.2) us := by
  refine .or (.map Yields.tk fun _ _ h => by rw [h.1]; exact .partDigit h.2)
    (.bind Yields.sign fun _ l hl => .bind (.used ((hr .expr).and (ha .expr).yields)) fun x us h =>
      .map Yields.sign fun _ e he => ?_)
  obtain ⟨rfl, h1, h2⟩ := h
  have hn : x.2 ≠ [] := fun e => by
    have := derives_solid h2 rfl
    rw [e] at this
    simp at this
  obtain ⟨s, h3, h4⟩ := spanOf_is hn
  rw [h3]
  exact .part hl h1 h4 he

theorem yields_frac : Yields (frac rec) fun t us => Spells (.frac t) us :=
  .bind Yields.sign fun _ _ h => .bind (yields_fracPart ha hr) fun _ _ h1 => .map (yields_fracPart ha hr) fun _ _ h2 =>
    .frac h h1 h2

theorem yields_atom : Yields (atom rec) fun t us => Spells (.atom t) us :=
  .cons (yields_atomExpr ha hr) (.cons (.map Yields.tk fun _ _ h => by rw [h.1]; exact .symbol h.2)
    (.cons (.map yields_eNotation fun _ _ h => by rw [h.1]; exact .enotation h.2)
      (.cons (.map yields_percent fun _ _ h => by rw [h.1]; exact .percent h.2)
        (.cons (.map yields_number fun _ _ h => by rw [h.1]; exact .number h.2)
          (.cons (.map Yields.tk fun _ _ h => by rw [h.1]; exact .differential h.2)
            (.cons yields_mathit (.cons ((yields_frac ha hr).imp fun _ _ h => .atomFrac h)
              (.cons (.map Yields.tk fun _ _ h => by rw [h.1]; exact .variable h.2) .nil))))))))

omit ha hr in
theorem yields_parenthesised {p : P α} {Q : α → List Tok → Prop} (h : Yields p Q) :
    Yields (parenthesised p) fun a ws => ∃ l us e, ws = l ++ (us ++ e) ∧ Q a us ∧ Parens l e := by
  refine .or ?_ ?_
  · refine .bind Yields.maybe fun _ l h1 => .bind Yields.sign fun _ a h2 => .bind h fun _ us h3 =>
      .bind Yields.maybe fun _ e h4 => .map Yields.sign fun _ b h5 => ?_
    exact ⟨l ++ a, us, e ++ b, by simp only [List.append_assoc], h3, .inl ⟨l, a, e, b, rfl, rfl, h1, h2, h4, h5⟩⟩
  · refine .bind Yields.maybe fun _ l h1 => .bind Yields.sign fun _ a h2 => .bind h fun _ us h3 =>
      .bind Yields.maybe fun _ e h4 => .map Yields.sign fun _ b h5 => ?_
    exact ⟨l ++ a, us, e ++ b, by simp only [List.append_assoc], h3, .inr ⟨l, a, e, b, rfl, rfl, h1, h2, h4, h5⟩⟩

omit hr in
theorem yields_multiArg : Yields (multiArg rec) fun s us => s = plain us ∧ Phrase .func_multi_arg us := by
  refine .and ?_ (acc_multiArg ha).yields
  exact .map (Q := fun x us => x.2 = us) (.imp (.used (Q := fun _ _ => True) fun ts x hx => by
    obtain ⟨us, h1, -⟩ := (acc_multiArgGo ha ts.length).sound ts x hx
    exact ⟨us, h1, trivial⟩) fun _ _ h => h.1) fun _ _ h => by rw [textOf_eq, h]

omit hr in
theorem yields_commonArgs : Yields (commonArgs rec) fun s us => s = plain us ∧ Phrase .func_common_args us := by
  refine .and ?_ (acc_commonArgs ha).yields
  have h : Acc (P.choice [
    (do let _ ← rec .atom
        pure ()),
    (do let _ ← rec .expr
        let _ ← tk .COMMA
        pure ()),
    (do let _ ← rec .expr
        let _ ← tk .COMMA
        args rec)]) _ 0 := .cons (.map (ha .atom)) (.cons (.bind (ha .expr) fun _ => .map .tk)
    (.last (.bind (ha .expr) fun _ => .bind .tk fun _ => acc_args ha)))
  exact .map (.used h.yields) fun _ _ h => by rw [textOf_eq, h.1]

omit hr in
theorem yields_callArgs : Yields (callArgs rec) CallIs := by
  refine .bind Yields.maybe fun _ l h1 => .bind Yields.oneOf fun a as h2 => .bind (yields_commonArgs ha) fun s us h3 =>
    .bind Yields.oneOf fun b bs h4 => .map Yields.maybe fun _ e h5 => ?_
  simp only [List.mem_cons, List.not_mem_nil, or_false] at h2 h4
  refine ⟨l, as, us, bs, e, rfl, h1, ?_, h3.2, h3.1, ?_, h5⟩
  · rw [h2.1, Toks, Toks, List.map_singleton]
    exact h2.2.imp (fun h => by rw [h]) (fun h => by rw [h])
  · rw [h4.1, Toks, Toks, List.map_singleton]
    exact h4.2.imp (fun h => by rw [h]) (fun h => by rw [h])

omit hr in
theorem yields_atomExprNoSup : Yields (atomExprNoSup rec) fun s us => s = plain us ∧
    Phrase .atom_expr_no_supexpr us := by
  refine .and ?_ ((acc_atomExprNoSup ha).mono (Nat.zero_le _)).yields
  have h : Acc (do
    let _ ← nameTok rec
    let _ ← P.opt (subexpr rec)
    pure ()) _ (0 + 1) := .bind (acc_nameTok ha) fun _ => .map (.opt (acc_subexpr ha))
  exact .map (.used h.yields) fun _ _ h => by rw [textOf_eq, h.1]

theorem yields_intLimits : Yields (intLimits rec) fun x us => Spells (.limits x.1 x.2) us := by
  refine .cons (.bind (yields_subexpr ha hr) fun _ _ h => .map (yields_supexpr hr) fun _ _ h' => .limits h h')
    (.cons (.bind (yields_supexpr hr) fun _ _ h => .map (yields_subexpr ha hr) fun _ _ h' => .limitsUp h h')
      (.cons ?_ (.cons ?_ .nil)))
  · exact .bind Yields.sign fun _ _ h1 => .bind Yields.sign fun _ _ h2 => .bind Yields.sign fun _ _ h3 =>
      .bind Yields.sign fun _ _ h4 => .bind Yields.sign fun _ _ h5 => .map Yields.sign fun _ _ h6 =>
        .limitsEmpty (.inl (h1.append (h2.append (h3.append (h4.append (h5.append h6))))))
  · exact .bind Yields.sign fun _ _ h1 => .bind Yields.sign fun _ _ h2 => .bind Yields.sign fun _ _ h3 =>
      .bind Yields.sign fun _ _ h4 => .bind Yields.sign fun _ _ h5 => .map Yields.sign fun _ _ h6 =>
        .limitsEmpty (.inr (h1.append (h2.append (h3.append (h4.append (h5.append h6))))))

theorem yields_integrand : Yields (integrand rec) fun x us => Spells (.integrand x.1 x.2) us := by
  refine .cons (.bind (Q := fun b us => b = none ∧ us = [] ∨ ∃ t, b = some t ∧ Spells (.expr t) us)
    (.opt ((hr .expr).imp fun t _ h => .inr ⟨t, rfl, h⟩) (.inl ⟨rfl, rfl⟩)) fun b us h => .map Yields.tk fun u vs hu => ?_)
    (.cons (.map (yields_frac ha hr) fun _ _ h => .integrandFrac h)
      (.cons (.map (hr .expr) fun _ _ h => .integrandExpr h) .nil))
  rw [hu.1]
  rcases h with ⟨rfl, rfl⟩ | ⟨t, rfl, h⟩
  · exact .integrandNone hu.2
  · exact .integrand h hu.2

omit ha in
theorem yields_limitSub : Yields (limitSub rec) fun x us => Spells (.approach x.1 x.2.1 x.2.2) us := by
  refine .bind Yields.sign fun _ us h1 => .bind Yields.sign fun _ vs h2 =>
    .bind (Q := fun v us => NameIs v us ∧ us.length = 1)
      (.cons (.map Yields.tk fun _ _ h => by rw [h.1]; exact ⟨.letter h.2, rfl⟩)
        (.cons (.map Yields.tk fun _ _ h => by rw [h.1]; exact ⟨.greek h.2, rfl⟩)
          (.cons (.map Yields.tk fun _ _ h => by rw [h.1]; exact ⟨.other h.2, rfl⟩) .nil))) fun v ws h3 =>
    .bind Yields.sign fun _ c h4 => .bind (hr .expr) fun t xs h5 =>
    .bind (Q := fun d ys => d = none ∧ ys = [] ∨ ∃ f, d = some f ∧
      (f = true ∧ Toks [.CARET, .L_BRACE, .SUB, .R_BRACE] ys ∨
        f = false ∧ Toks [.CARET, .L_BRACE, .ADD, .R_BRACE] ys)) (.opt ?_ (.inl ⟨rfl, rfl⟩)) fun d ys h6 =>
    .map Yields.sign fun _ e h7 => ?_
  · refine .bind Yields.sign fun _ us h1 => .bind Yields.sign fun _ vs h2 => .bind Yields.oneOf fun s ws h3 =>
      .map Yields.sign fun _ xs h4 => ?_
    simp only [List.mem_cons, List.not_mem_nil, or_false] at h3
    have h3' : Toks [s.kind] ws := by rw [h3.1]; rfl
    have := h1.append (h2.append (h3'.append h4))
    refine .inr ⟨_, rfl, ?_⟩
    rcases h3.2 with h | h
    · rw [h] at this ⊢
      exact .inr ⟨rfl, this⟩
    · rw [h] at this ⊢
      exact .inl ⟨rfl, this⟩
  · rw [← List.append_assoc us]
    rcases h6 with ⟨rfl, rfl⟩ | ⟨f, rfl, h6⟩
    · exact .approach (h1.append h2) h3.1 h3.2 h4 h5 h7
    · exact .approachSide (h1.append h2) h3.1 h3.2 h4 h5
        (h6.imp (fun h => ⟨h.1, h.2.append h7⟩) fun h => ⟨h.1, h.2.append h7⟩)

theorem yields_func : Yields (func rec) fun t us => Spells (.func t) us := by
  refine .cons ?_ (.cons ?_ (.cons ?_ (.cons ?_ (.cons ?_ (.cons ?_ (.cons ?_ (.cons ?_ (.cons ?_ .nil))))))))
  · refine .bind (yields_funcName (x := .func_normal_functions_single_arg) (y := .func_operator_names_single_arg)
      rfl rfl) fun _ _ h1 => .bind (yields_subSup ha hr) fun _ _ h2 =>
      .map (Q := fun a us => Spells (.argument a) us) (.or ((yields_parenthesised (hr .expr)).imp fun _ _ h => ?_)
        ((hr .mpNf).imp fun _ _ h => .argumentBare h)) fun _ _ h3 => .single h1 h2 h3
    obtain ⟨l, us, e, rfl, h, h'⟩ := h
    exact .argument h' h
  · refine .bind (yields_funcName (x := .func_normal_functions_multi_arg) (y := .func_operator_names_multi_arg)
      rfl rfl) fun _ _ h1 => .bind (yields_subSup ha hr) fun _ _ h2 =>
      .map (Q := fun a ws => (a.1 = true ∧ ∃ l us e, ws = l ++ (us ++ e) ∧ (a.2 = plain us ∧ Phrase .func_multi_arg us) ∧
        Parens l e) ∨ a.1 = false ∧ a.2 = plain ws ∧ ∃ t, Spells (.mp false t) ws)
        (.or (.map (yields_parenthesised (yields_multiArg ha)) fun _ _ h => .inl ⟨rfl, h⟩)
          (.map (.used (hr .mpNf)) fun x _ h => .inr ⟨rfl, by rw [textOf_eq, h.1], _, h.2⟩)) fun a _ h3 => ?_
    rcases h3 with ⟨h3, l, us, e, rfl, ⟨h4, h5⟩, h6⟩ | ⟨h3, h4, t, h5⟩
    · rw [h3, h4]
      exact .multi h1 h2 h6 h5
    · rw [h3, h4]
      exact .multiBare h1 h2 h5
  · exact .bind (yields_atomExprNoSup ha) fun _ _ h1 => .bind (yields_optSup hr) fun _ _ h2 =>
      .map (yields_callArgs ha) fun _ _ h3 => by rw [h1.1]; exact .apply h1.2 h2 h3
  · exact .bind (yields_atomExprNoSup ha) fun _ _ h1 => .bind (yields_optSup hr) fun _ _ h2 =>
      .bind Yields.sign fun _ _ h3 => .bind (yields_callArgs ha) fun _ _ h4 => .map Yields.sign fun _ _ h5 => by
        rw [h1.1]; exact .applyIn h1.2 h2 h3 h4 h5
  · exact .bind Yields.sign fun _ _ h1 => .bind (Q := fun l us => Spells (.limits (l.bind (·.1)) (l.bind (·.2))) us)
      (.opt (yields_intLimits ha hr) .noLimits) fun _ _ h2 => .map (yields_integrand ha hr) fun _ _ h3 =>
        .integral h1 h2 h3
  · refine .bind Yields.sign fun _ c h1 => .bind (Q := fun n ws => n = none ∧ ws = [] ∨ ∃ t l us e, n = some t ∧
      ws = l ++ (us ++ e) ∧ Toks [.L_BRACKET] l ∧ Spells (.expr t) us ∧ Toks [.R_BRACKET] e)
      (.opt (.bind Yields.sign fun _ l h1 => .bind (hr .expr) fun t us h2 => .map Yields.sign fun _ e h3 =>
        .inr ⟨t, l, us, e, rfl, rfl, h1, h2, h3⟩) (.inl ⟨rfl, rfl⟩)) fun n ws h2 => .map (Q := fun b ws =>
        (∃ u : Tok, b = .digit u.text ∧ ws = [u] ∧ u.kind = .DIGIT) ∨ ∃ l us e, ws = l ++ (us ++ e) ∧
        Toks [.L_BRACE] l ∧ Spells (.expr b) us ∧ Toks [.R_BRACE] e)
        (.or (.map Yields.tk fun u _ h => .inl ⟨u, rfl, h.1, h.2⟩) ((yields_braced hr).imp fun _ _ h => .inr h))
        fun b vs h3 => ?_
    rcases h2 with ⟨rfl, rfl⟩ | ⟨t, l, us, e, rfl, rfl, h4, h5, h6⟩ <;>
      rcases h3 with ⟨u, rfl, rfl, h7⟩ | ⟨l', us', e', rfl, h7, h8, h9⟩
    · exact .sqrtDigit h1 h7
    · have := Spells.sqrt (h1.append h7) h8 h9
      simpa only [List.append_assoc, List.nil_append] using this
    · have := Spells.rootDigit (h1.append h4) h5 h6 h7
      simpa only [List.append_assoc, List.nil_append] using this
    · have := Spells.root (h1.append h4) h5 (h6.append h7) h8 h9
      simpa only [List.append_assoc, List.nil_append] using this
  · refine .bind Yields.oneOf fun f c h1 => ?_
    have hf : decide (f.kind = .FUNC_SUM) = true ∧ Toks [.FUNC_SUM] c ∨
        decide (f.kind = .FUNC_SUM) = false ∧ Toks [.FUNC_PROD] c := by
      simp only [List.mem_cons, List.not_mem_nil, or_false] at h1
      rw [h1.1, Toks, Toks, List.map_singleton]
      rcases h1.2 with h | h <;> rw [h]
      · exact .inl ⟨rfl, rfl⟩
      · exact .inr ⟨rfl, rfl⟩
    refine .bind (Q := fun x ws => ∃ us vs, ws = us ++ vs ∧
      (Spells (.index x.1.1 x.1.2) us ∧ Spells (.sup x.2) vs ∨ Spells (.sup x.2) us ∧ Spells (.index x.1.1 x.1.2) vs))
      (.or (.bind (yields_subeq hr) fun _ us h => .map (yields_supexpr hr) fun _ vs h' => ⟨us, vs, rfl, .inl ⟨h, h'⟩⟩)
        (.bind (yields_supexpr hr) fun _ us h => .map (yields_subeq hr) fun _ vs h' => ⟨us, vs, rfl, .inr ⟨h, h'⟩⟩))
      fun x ws h2 => .map (hr .mp) fun b _ h3 => ?_
    obtain ⟨us, vs, rfl, ⟨h4, h5⟩ | ⟨h4, h5⟩⟩ := h2
    · rw [List.append_assoc]
      exact .sum hf h4 h5 h3
    · rw [List.append_assoc]
      exact .sumUp hf h4 h5 h3
  · exact .bind Yields.sign fun _ _ h1 => .bind (yields_limitSub hr) fun _ _ h2 => .map (hr .mp) fun _ _ h3 =>
      .lim h1 h2 h3
  · exact .bind Yields.sign fun _ _ h1 => .map (yields_optSup hr) fun _ _ h2 => .expE h1 h2

theorem yields_comp {fn : Bool} : Yields (comp rec fn) fun t us => Spells (.comp fn t) us := by
  have hf : ∀ p ∈ (if fn then [func rec] else []), Yields p fun t us => Spells (.comp fn t) us := by
    cases fn with
    | false => exact fun p hp => absurd hp (by simp)
    | true =>
      intro p hp
      rw [List.mem_singleton.1 hp]
      exact (yields_func ha hr).imp fun _ _ h => .compFunc h
  refine .choice fun p hp => ?_
  rcases List.mem_append.1 hp with hp | hp
  · rcases List.mem_append.1 hp with hp | hp
    · simp only [List.mem_cons, List.not_mem_nil, or_false] at hp
      rcases hp with rfl | rfl | rfl | rfl | rfl
      · exact (yields_group hr).imp fun _ _ h => h.2 fn
      · exact yields_normGroup hr
      · exact yields_absGroup hr
      · exact yields_floorGroup hr
      · exact yields_ceilGroup hr
    · exact hf p hp
  · simp only [List.mem_cons, List.not_mem_nil, or_false] at hp
    rcases hp with rfl | rfl | rfl | rfl
    · exact (yields_atom ha hr).imp fun _ _ h => .compAtom h
    · exact yields_binom hr
    · exact yields_matrix hr
    · exact yields_det hr

theorem yields_exp {fn : Bool} : Yields (exp rec fn) fun t us => Spells (.exp fn t) us := by
  refine .bind (yields_comp ha hr) fun b us h => .map (.many (Q := fun e ws => ∃ c vs xs s, ws = c ++ (vs ++ xs) ∧
    Toks [.CARET] c ∧ Spells (.exponent e) vs ∧ Spells (.optSub s) xs) (.bind Yields.sign fun _ c h1 =>
      .bind (yields_exponent hr) fun _ vs h2 => .map (yields_optSub ha hr) fun s xs h3 =>
        ⟨c, vs, xs, s, rfl, h1, h2, h3⟩)) fun es vs hs => ?_
  refine Each.fold (V := fun t us => Spells (.exp fn t) us) ?_ hs (.expComp h)
  rintro _ us e _ hb ⟨c, vs, xs, s, rfl, h1, h2, h3⟩
  exact .pow hb h1 h2 h3

omit ha in
theorem yields_postfixOp {fn : Bool} : Yields (postfixOp rec) fun f ws => ∀ t us, Spells (.post fn t) us →
    Spells (.post fn (f t)) (us ++ ws) :=
  .cons (.map Yields.sign fun _ _ h _ _ ht => .bang ht h)
    (.cons (.bind Yields.sign fun _ b hb => .cons (.map (yields_evalAtPart hr) fun _ _ h _ _ ht => .evalUp ht hb h)
      (.cons (.map (yields_evalAtPart hr) fun _ _ h _ _ ht => .evalLow ht hb h)
        (.cons (.bind (yields_evalAtPart hr) fun _ _ h => .map (yields_evalAtPart hr) fun _ _ h' _ _ ht =>
          .evalBoth ht hb h h') .nil)))
      (.cons (.map (Acc.rule (x := .transpose) (Acc.oneOf (N := 0) rfl)).yields fun _ _ h _ _ ht => .transp ht h) .nil))

theorem yields_postfix {fn : Bool} : Yields (postfix' rec fn) fun t us => Spells (.post fn t) us := by
  refine .bind (yields_exp ha hr) fun b us h => .map (.many (yields_postfixOp hr (fn := fn))) fun es vs hs => ?_
  exact Each.fold (V := fun t us => Spells (.post fn t) us) (fun b us f vs hb hf => hf b us hb) hs (.postExp h)

omit ha hr in
theorem each_posts {fn : Bool} {ps : List T} {us : List Tok} (h : Each (fun t us => Spells (.post fn t) us) ps us) :
    Spells (.posts fn ps) us := by
  induction h with
  | nil => exact .postsNil
  | cons h _ ih => exact .postsCons h ih

omit ha hr in
theorem spells_sign {fn : Bool} {s : Tok} {t : T} {os us : List Tok} (ho : os = [s] ∧ s.kind ∈ [Kind.ADD, .SUB])
    (h : Spells (.unary fn t) us) : Spells (.unary fn (signTree s.kind t)) (os ++ us) := by
  obtain ⟨rfl, ho⟩ := ho
  simp only [List.mem_cons, List.not_mem_nil, or_false] at ho
  have hs : Toks [s.kind] [s] := rfl
  rcases ho with ho | ho <;> rw [ho] at hs ⊢
  · exact .pos hs h
  · exact .neg hs h

end

theorem yields_chain {ks : List Kind} {mk : Kind → T → T → T} {p : P T} {V W : T → Node}
    (h : Yields p fun t us => Spells (V t) us) (h1 : ∀ t us, Spells (V t) us → Spells (W t) us)
    (h2 : ∀ k ∈ ks, ∀ l r us o vs, Spells (W l) us → Toks [k] o → Spells (V r) vs →
      Spells (W (mk k l r)) (us ++ (o ++ vs))) : Yields (chain ks mk p) fun t us => Spells (W t) us := by
  refine .bind h fun t us ht => .map (.many (Q := fun x ws => ∃ o vs, ws = o ++ vs ∧ x.1 ∈ ks ∧ Toks [x.1] o ∧
    Spells (V x.2) vs) (.bind Yields.oneOf fun o os ho => .map h fun _ vs hv =>
      ⟨os, vs, rfl, ho.2, by rw [ho.1]; rfl, hv⟩)) fun xs vs hs => ?_
  refine Each.fold (V := fun t us => Spells (W t) us) ?_ hs (h1 _ _ ht)
  rintro b us ⟨k, r⟩ _ hb ⟨o, vs, rfl, hk, ho, hv⟩
  exact h2 k hk _ _ _ _ _ hb ho hv

theorem yields_expr {p : P T} (h : Yields p fun t us => Spells (.mp true t) us) :
    Yields (chain [.ADD, .SUB] addTree p) fun t us => Spells (.expr t) us := by
  refine yields_chain (V := Node.mp true) (W := Node.expr) h (fun _ _ h => .exprMp h) ?_
  intro k hk l r us o vs hl ho hv
  simp only [List.mem_cons, List.not_mem_nil, or_false] at hk
  rcases hk with rfl | rfl
  · exact .add hl ho hv
  · exact .subtract hl ho hv

theorem yields_mp {fn : Bool} {p : P T} (h : Yields p fun t us => Spells (.unary fn t) us) :
    Yields (chain mulKinds mulTree p) fun t us => Spells (.mp fn t) us := by
  refine yields_chain (V := Node.unary fn) (W := Node.mp fn) h (fun _ _ h => .mpUnary h) ?_
  intro k hk l r us o vs hl ho hv
  simp only [mulKinds, List.mem_cons, List.not_mem_nil, or_false] at hk
  rcases hk with rfl | rfl | rfl | rfl | rfl | rfl | rfl
  · exact .mul (.inl rfl) hl ho hv
  · exact .mul (.inr (.inl rfl)) hl ho hv
  · exact .mul (.inr (.inr rfl)) hl ho hv
  · exact .div (.inl rfl) hl ho hv
  · exact .div (.inr (.inl rfl)) hl ho hv
  · exact .div (.inr (.inr rfl)) hl ho hv
  · exact .mod hl ho hv

theorem yields_rule (n : Nat) : ∀ nt, Yields (rule n nt) fun t us => Spells (nodeOf nt t) us := by
  induction n with
  | zero => exact fun nt ts x hx => by simp [rule] at hx
  | succ n ih =>
    have ha := acc_zero n
    intro nt
    cases nt with
    | expr => exact yields_expr (ih .mp)
    | mp => exact yields_mp (ih .unary)
    | mpNf => exact yields_mp (ih .unaryNf)
    | unary =>
      exact .or (.bind Yields.oneOf fun _ _ h => .map (ih .unary) fun _ _ h' => spells_sign h h')
        (.map (Q := fun ps us => Spells (.unary true (.juxt ps)) us) (.bind (yields_postfix ha ih) fun _ _ h =>
          .map (.many (yields_postfix ha ih)) fun _ _ h' => .juxt h (each_posts h')) fun _ _ h => h)
    | unaryNf =>
      exact .or (.bind Yields.oneOf fun _ _ h => .map (ih .unaryNf) fun _ _ h' => spells_sign h h')
        (.bind (yields_postfix ha ih) fun _ _ h => .map (.many (yields_postfix ha ih)) fun _ _ h' =>
          .juxt h (each_posts h'))
    | atom => exact yields_atom ha ih

theorem yields_relation (n : Nat) : Yields (relation n) fun t us => Spells (.relation t) us := by
  refine yields_chain (V := Node.expr) (W := Node.relation) (yields_rule n .expr)
    (fun _ _ h => .relExpr h) ?_
  intro k hk l r us o vs hl ho hv
  simp only [List.mem_cons, List.not_mem_nil, or_false] at hk
  rcases hk with rfl | rfl | rfl | rfl | rfl | rfl | rfl | rfl
  · exact .rel .isIn hl ho hv
  · exact .rel .assignment hl ho hv
  · exact .rel .equal hl ho hv
  · exact .rel .lt hl ho hv
  · exact .rel .lte hl ho hv
  · exact .rel .gt hl ho hv
  · exact .rel .gte hl ho hv
  · exact .rel .unequal hl ho hv

theorem yields_items (n : Nat) : Yields (relationItems n) fun ts us => ∃ k, (k = Kind.COMMA ∨ k = .SEMICOLON) ∧
    2 ≤ ts.length ∧ Spells (.items k ts) us := by
  refine .choice fun p hp => ?_
  obtain ⟨k, hk, rfl⟩ := List.mem_map.1 hp
  simp only [List.mem_cons, List.not_mem_nil, or_false] at hk
  refine .bind (yields_relation n) fun a us h1 => .bind Yields.sign fun _ c h2 => .bind (yields_relation n) fun b vs h3 =>
    .map (.many (Q := fun t ws => ∃ c vs, ws = c ++ vs ∧ Toks [k] c ∧ Spells (.relation t) vs)
      (.bind Yields.sign fun _ c hc => (yields_relation n).imp fun _ vs h => ⟨c, vs, rfl, hc, h⟩)) fun ts ws hs => ?_
  refine ⟨k, hk, by simp, ?_⟩
  have := Each.list (V := fun ts us => Spells (.items k ts) us) (fun as us a vs ha h => by
    obtain ⟨c, vs, rfl, hc, h⟩ := h
    exact .items ha hc h) hs (Spells.items (.item h1) h2 h3)
  simpa only [List.append_assoc, List.cons_append, List.nil_append] using this

theorem yields_one {a : Kind} : Yields ([a].foldlM (fun _ k => do
    let _ ← tk k
    pure ()) ()) fun _ => Toks [a] :=
  .bind (Q := fun _ => Toks [a]) (.map Yields.sign fun _ _ h => h) fun _ _ h => .pure (by rwa [List.append_nil])

theorem yields_itemsBetween {n : Nat} {l r : List Kind}
    (hl : Yields (l.foldlM (fun _ k => do
      let _ ← tk k
      pure ()) ()) fun _ => Toks l)
    (hr : Yields (r.foldlM (fun _ k => do
      let _ ← tk k
      pure ()) ()) fun _ => Toks r)
    (h : ∀ ls rs, Toks l ls → Toks r rs →
      Brackets [(.L_BRACKET, .R_BRACKET), (.L_BRACE_VISUAL, .R_BRACE_VISUAL)] ls rs ∨
        Toks [.L_BRACE] ls ∧ Toks [.R_BRACE] rs) :
    Yields (itemsBetween n l r) fun ts us => Spells (.math (.list ts)) us :=
  .bind hl fun _ _ h1 => .bind (yields_items n) fun _ _ h2 => .map hr fun _ _ h3 => by
    obtain ⟨k, hk, hn, h2⟩ := h2
    exact .listIn hk hn (h _ _ h1 h3) h2

/-- all parses are trees of the tokens -/
theorem yields_math (n : Nat) : Yields (math n) fun m us => Spells (.math m) us := by
  refine .or (.map (yields_relation n) fun _ _ h => .one h) (.map (Q := fun ts us => Spells (.math (.list ts)) us)
    (.cons ((yields_items n).imp fun _ _ ⟨k, hk, hn, h⟩ => .list hk hn h) (.cons ?_ (.cons ?_ (.cons ?_ (.cons ?_
      (.cons ?_ (.cons ?_ (.cons ?_ .nil)))))))) fun _ _ h => h)
  · exact yields_itemsBetween yields_one yields_one fun _ _ h1 h2 => .inl ⟨_, .head _, .inl ⟨h1, h2⟩⟩
  · exact yields_itemsBetween yields_one yields_one fun _ _ h1 h2 => .inr ⟨h1, h2⟩
  · exact yields_itemsBetween yields_one yields_one fun _ _ h1 h2 => .inl ⟨_, .tail _ (.head _), .inl ⟨h1, h2⟩⟩
  · exact yields_itemsBetween yields_two yields_two fun _ _ h1 h2 => .inl ⟨_, .head _, .inr (.inl ⟨h1, h2⟩)⟩
  · exact yields_itemsBetween yields_two yields_two fun _ _ h1 h2 => .inl ⟨_, .tail _ (.head _), .inr (.inl ⟨h1, h2⟩)⟩
  · exact yields_itemsBetween yields_two yields_two fun _ _ h1 h2 => .inl ⟨_, .head _, .inr (.inr ⟨h1, h2⟩)⟩
  · exact yields_itemsBetween yields_two yields_two fun _ _ h1 h2 => .inl ⟨_, .tail _ (.head _), .inr (.inr ⟨h1, h2⟩)⟩

/-- **C92.**  The tree of a list of tokens stands for these tokens: every part of it for the part of the
text where it was written, and nothing is lost, added or exchanged. -/
theorem C92_tree {ts : List Tok} {m : MathTree} (h : parseTokens ts = some m) : Spells (.math m) ts := by
  rw [parseTokens, Option.map_eq_some_iff] at h
  obtain ⟨x, h1, rfl⟩ := h
  obtain ⟨us, h2, h3⟩ := yields_math _ ts x (List.mem_of_find?_eq_some h1)
  have := List.find?_some h1
  rw [List.isEmpty_iff.1 this, List.append_nil] at h2
  rwa [h2]

/-! ### What the levels mean -/

/-- a sum or a difference -/
def IsSum (t : T) : Prop := ∃ l r, t = .add l r ∨ t = .sub l r

/-- a product, a quotient or a remainder -/
def IsProduct (t : T) : Prop := ∃ l r, t = .mul l r ∨ t = .div l r ∨ t = .mod l r

mutual
/-- Everywhere in the tree: the second operand of a sum or difference is neither a sum nor a difference,
the operands of a product, quotient or remainder are no sums, and the second one is no product.
(Signs, factors side by side, powers and so on have no sums or products as parts either, as these occur
only inside `group`, `frac` and the like, so nothing is said about them.) -/
def Leftward : T → Prop
  | .add l r | .sub l r => Leftward l ∧ Leftward r ∧ ¬ IsSum r
  | .mul l r | .div l r | .mod l r => Leftward l ∧ Leftward r ∧ ¬ IsSum l ∧ ¬ IsSum r ∧ ¬ IsProduct r
  | .rel _ l r => Leftward l ∧ Leftward r
  | .pos u | .neg u => Leftward u ∧ ¬ IsSum u ∧ ¬ IsProduct u
  | .juxt ps => LeftwardList ps
  | .bang e | .transp e => Leftward e ∧ ¬ IsSum e ∧ ¬ IsProduct e
  | .evalAt e p s => Leftward e ∧ LeftwardOpt p ∧ LeftwardOpt s ∧ ¬ IsSum e ∧ ¬ IsProduct e
  | .eqn l r => Leftward l ∧ Leftward r
  | .pow b e => Leftward b ∧ Leftward e ∧ ¬ IsSum b ∧ ¬ IsProduct b
  | .group e | .norm e | .abs e | .floor e | .ceil e => Leftward e
  | .binom u l => Leftward u ∧ Leftward l
  | .matrix rows arrow => LeftwardRows rows ∧ LeftwardRows arrow
  | .det rows => LeftwardRows rows
  | .trScale k _ => Leftward k
  | .trAssign _ k _ => Leftward k
  | .name _ _ p => LeftwardOpt p
  | .frac u _ l _ => Leftward u ∧ Leftward l
  | .fnSingle _ _ s p a => LeftwardOpt s ∧ LeftwardOpt p ∧ Leftward a
  | .fnMulti _ _ _ _ p => LeftwardOpt p
  | .fnApply _ _ p => LeftwardOpt p
  | .integral b _ s p => LeftwardOpt b ∧ LeftwardOpt s ∧ LeftwardOpt p
  | .sqrt b n => Leftward b ∧ LeftwardOpt n
  | .sumProd _ b v s p => Leftward b ∧ Leftward v ∧ Leftward s ∧ Leftward p ∧ ¬ IsSum b
  | .lim _ _ a b => Leftward a ∧ Leftward b ∧ ¬ IsSum b
  | .expE p => LeftwardOpt p
  | .args | .trSwap .. | .kAdd | .kSub | .symbol _ | .number _ | .enotation _ | .percent _
  | .differential _ | .mathit _ | .variable _ | .digit _ => True
/-- in all trees of a list -/
def LeftwardList : List T → Prop
  | [] => True
  | t :: ts => Leftward t ∧ LeftwardList ts
/-- in all trees of a list of lists -/
def LeftwardRows : List (List T) → Prop
  | [] => True
  | ts :: tss => LeftwardList ts ∧ LeftwardRows tss
/-- in a tree that may be missing -/
def LeftwardOpt : Option T → Prop
  | none => True
  | some t => Leftward t
end

theorem leftwardList_append {ts ts' : List T} (h : LeftwardList ts) (h' : LeftwardList ts') :
    LeftwardList (ts ++ ts') := by
  induction ts with
  | nil => exact h'
  | cons t ts ih =>
    simp only [LeftwardList, List.cons_append] at h ⊢
    exact ⟨h.1, ih h.2⟩

theorem leftwardRows_append {ts ts' : List (List T)} (h : LeftwardRows ts) (h' : LeftwardRows ts') :
    LeftwardRows (ts ++ ts') := by
  induction ts with
  | nil => exact h'
  | cons t ts ih =>
    simp only [LeftwardRows, List.cons_append] at h ⊢
    exact ⟨h.1, ih h.2⟩

/-- a tree is `Leftward`, and no sum or product where the level excludes it -/
def LeftwardNode : Node → Prop
  | .math (.one t) => Leftward t
  | .math (.list ts) => LeftwardList ts
  | .relation t | .expr t | .argument t | .bound _ t | .transform t | .coefficient t => Leftward t
  | .items _ ts | .row ts | .transforms ts | .posts _ ts => LeftwardList ts
  | .mp _ t => Leftward t ∧ ¬ IsSum t
  | .unary _ t | .post _ t | .exp _ t | .comp _ t | .func t | .atom t | .frac t =>
    Leftward t ∧ ¬ IsSum t ∧ ¬ IsProduct t
  | .part t _ | .sub t _ | .sup t | .exponent t => Leftward t
  | .optSub s => LeftwardOpt (s.map (·.1))
  | .optSup t => LeftwardOpt t
  | .scripts s p => LeftwardOpt (s.map (·.1)) ∧ LeftwardOpt p
  | .rows tss | .arrow tss => LeftwardRows tss
  | .limits a b => LeftwardOpt a ∧ LeftwardOpt b
  | .integrand b _ => LeftwardOpt b
  | .equation _ l r | .index l r => Leftward l ∧ Leftward r
  | .approach _ _ t => Leftward t

theorem leftward_node {n : Node} {us : List Tok} (h : Spells n us) : LeftwardNode n := by
  induction h with
  | items _ _ _ ih1 ih2 => exact leftwardList_append ih1 ⟨ih2, trivial⟩
  | rowCons _ _ _ ih1 ih2 => exact leftwardList_append ih1 ⟨ih2, trivial⟩
  | transformsCons _ _ _ ih1 ih2 => exact leftwardList_append ih1 ⟨ih2, trivial⟩
  | rowsCons _ _ _ ih1 ih2 => exact leftwardRows_append ih1 ⟨ih2, trivial⟩
  | _ => simp_all [LeftwardNode, Leftward, LeftwardList, LeftwardRows, LeftwardOpt, IsSum, IsProduct]

/-- **C93, trees.**  In the tree of every text, sums, differences, products and quotients are read from the
left, multiplication binds closer than addition, and signs, postfix operators and powers bind closer than
both: `a - b - c` is never `a - (b - c)`, `a / b / c` never `a / (b / c)`, `a b ^ c` never `(a b) ^ c`.
(Missing: chains of powers, which should be read from the right, see `C93_chain_refuted`; products without
a sign are lists of factors, `juxt`.) -/
theorem C93_order_partial {ts : List Tok} {m : MathTree} (h : parseTokens ts = some m) : match m with
    | .one t => Leftward t
    | .list ts => LeftwardList ts := by
  have := leftward_node (C92_tree h)
  cases m with
  | one t => exact this
  | list ts => exact this

end Verif.Grammar
