import Verif.Props.GrammarLocal
/-
Brackets in the phrases of the grammar are balanced, and a comma outside brackets only separates the
thousands of a number (`Moves`).
-/

namespace Verif.Grammar
open Verif Verif.L2S

variable {α β : Type}

/-- a comma and three digits follow, as between the thousands of a number -/
def Grouped : List Tok → Bool
  | c :: a :: b :: d :: _ => decide (c.kind = .COMMA) && decide (a.kind = .DIGIT) &&
      decide (b.kind = .DIGIT) && decide (d.kind = .DIGIT)
  | _ => false

theorem Grouped.append {us : List Tok} (h : Grouped us = true) (vs : List Tok) :
    Grouped (us ++ vs) = true := by
  match us, h with
  | _ :: _ :: _ :: _ :: _, h => exact h

/-- opening brackets -/
def deeperKinds : List Kind := [.L_PAREN, .L_BRACKET, .L_BRACE, .L_BRACE_VISUAL]

/-- closing brackets -/
def higherKinds : List Kind := [.R_PAREN, .R_BRACKET, .R_BRACE, .R_BRACE_VISUAL]

/-- what counts for the depth of brackets -/
def walkKinds : List Kind := deeperKinds ++ higherKinds ++ [.SEMICOLON, .COMMA]

/-- the depth of brackets after the tokens; none for a closing bracket too much, a semicolon, or a
comma outside brackets that does not separate thousands -/
def walk : Nat → List Tok → Option Nat
  | n, [] => some n
  | n, t :: ts =>
    if t.kind ∈ deeperKinds then walk (n + 1) ts
    else if t.kind ∈ higherKinds then match n with
      | 0 => none
      | m + 1 => walk m ts
    else if t.kind = .SEMICOLON then none
    else if t.kind = .COMMA ∧ n = 0 ∧ Grouped (t :: ts) = false then none
    else walk n ts

theorem walk_append {us : List Tok} : ∀ {n m : Nat} (_ : walk n us = some m) (vs : List Tok),
    walk n (us ++ vs) = walk m vs := by
  induction us with
  | nil => intro n m h vs; rw [walk] at h; rw [← Option.some.inj h]; rfl
  | cons t us ih =>
    intro n m h vs
    rw [List.cons_append]
    rw [walk.eq_def] at h ⊢
    simp only at h ⊢
    split at h
    · rename_i h1; rw [if_pos h1]; exact ih h vs
    · rename_i h1
      rw [if_neg h1]
      split at h
      · rename_i h2
        rw [if_pos h2]
        cases n with
        | zero => cases h
        | succ n => exact ih h vs
      · rename_i h2
        rw [if_neg h2]
        split at h
        · cases h
        · rename_i h3
          rw [if_neg h3]
          split at h
          · cases h
          · rename_i h4
            rw [if_neg, ih h vs]
            rintro ⟨a, b, c⟩
            refine h4 ⟨a, b, ?_⟩
            cases hg : Grouped (t :: us) with
            | false => rfl
            | true => rw [← List.cons_append, Grouped.append hg vs] at c; cases c

/-- the parses lead from depth `a` to depth `b` -/
def Moves (p : P α) (a b : Nat) : Prop := ∀ ts x, x ∈ p ts → ∃ us, ts = us ++ x.2 ∧
  ∀ n, walk (n + a) us = some (n + b)

theorem Moves.pure {v : α} {a : Nat} : Moves (pure v) a a := fun ts x hx => by
  rw [P.pure_run, List.mem_singleton] at hx
  subst hx
  exact ⟨[], rfl, fun n => rfl⟩

theorem Moves.empty {a b : Nat} : Moves (fun _ => [] : P α) a b := fun ts x hx => by simp at hx

theorem Moves.trans {p : P α} {f : α → P β} {a b c : Nat} (h : Moves p a b)
    (k : ∀ x, Moves (f x) b c) : Moves (p >>= f) a c := fun ts x hx => by
  rw [P.bind_run, List.mem_flatMap] at hx
  obtain ⟨y, hy, hx⟩ := hx
  obtain ⟨us, h1, h2⟩ := h ts y hy
  obtain ⟨vs, h3, h4⟩ := k y.1 y.2 x hx
  refine ⟨us ++ vs, by rw [h1, h3, List.append_assoc], fun n => ?_⟩
  rw [walk_append (h2 n), h4]

theorem Moves.bind {p : P α} {f : α → P β} {a c : Nat} (h : Moves p a a)
    (k : ∀ x, Moves (f x) a c) : Moves (p >>= f) a c := h.trans k

theorem Moves.lift {p : P α} (h : Moves p 0 0) {a : Nat} : Moves p a a := fun ts x hx => by
  obtain ⟨us, h1, h2⟩ := h ts x hx
  exact ⟨us, h1, fun n => h2 (n + a)⟩

theorem Moves.lift1 {p : P α} (h : Moves p 1 1) {a : Nat} : Moves p (a + 1) (a + 1) := fun ts x hx => by
  obtain ⟨us, h1, h2⟩ := h ts x hx
  exact ⟨us, h1, fun n => h2 (n + a)⟩

theorem Moves.oneOf {ks : List Kind} {a b : Nat} (h : ∀ t : Tok, t.kind ∈ ks → ∀ n, walk (n + a) [t] = some (n + b)) :
    Moves (oneOf ks) a b := fun ts x hx => by
  cases ts with
  | nil => simp [Grammar.oneOf] at hx
  | cons t ts =>
    rw [Grammar.oneOf] at hx
    split at hx
    · rename_i ht
      rw [List.mem_singleton.1 hx]
      exact ⟨[t], rfl, h t ht⟩
    · simp at hx

theorem walk_plain {t : Tok} (h : t.kind ∉ walkKinds) {n : Nat} (ts : List Tok) :
    walk n (t :: ts) = walk n ts := by
  have h1 : t.kind ∉ deeperKinds := fun hm => h (by simp [walkKinds, hm])
  have h2 : t.kind ∉ higherKinds := fun hm => h (by simp [walkKinds, hm])
  have h3 : t.kind ≠ .SEMICOLON := fun hm => h (by simp [walkKinds, hm])
  have h4 : t.kind ≠ .COMMA := fun hm => h (by simp [walkKinds, hm])
  rw [walk.eq_def]
  simp only
  rw [if_neg h1, if_neg h2, if_neg h3, if_neg (fun h => h4 h.1)]

theorem walk_open {t : Tok} (h : t.kind ∈ deeperKinds) {n : Nat} (ts : List Tok) :
    walk n (t :: ts) = walk (n + 1) ts := by
  rw [walk.eq_def]
  simp only
  rw [if_pos h]

theorem walk_close {t : Tok} (h : t.kind ∈ higherKinds) {n : Nat} (ts : List Tok) :
    walk (n + 1) (t :: ts) = walk n ts := by
  have h1 : t.kind ∉ deeperKinds := by
    have : ∀ k ∈ higherKinds, k ∉ deeperKinds := by decide
    exact this _ h
  rw [walk.eq_def]
  simp only
  rw [if_neg h1, if_pos h]

theorem walk_semicolon {t : Tok} (h : t.kind = .SEMICOLON) {n : Nat} (ts : List Tok) :
    walk n (t :: ts) = none := by
  rw [walk.eq_def]
  simp only
  rw [h, if_neg (by decide), if_neg (by decide), if_pos rfl]

theorem walk_comma {t : Tok} (h : t.kind = .COMMA) {n : Nat} (ts : List Tok) :
    walk n (t :: ts) = if n = 0 ∧ Grouped (t :: ts) = false then none else walk n ts := by
  rw [walk.eq_def]
  simp only
  rw [if_neg (by rw [h]; decide), if_neg (by rw [h]; decide), if_neg (by rw [h]; decide)]
  simp only [h, true_and]

theorem Moves.plain {ks : List Kind} {a : Nat} (h : ∀ k ∈ ks, k ∉ walkKinds) : Moves (Grammar.oneOf ks) a a :=
  .oneOf fun t ht n => by rw [walk_plain (h _ ht)]; rfl

theorem Moves.tkPlain {k : Kind} {a : Nat} (h : k ∉ walkKinds) : Moves (tk k) a a :=
  tk_oneOf k ▸ .plain (by simpa using h)

theorem Moves.opensOf {ks : List Kind} {f : Tok → P α} {a c : Nat} (h : ∀ k ∈ ks, k ∈ deeperKinds)
    (k : ∀ x, Moves (f x) (a + 1) c) : Moves (Grammar.oneOf ks >>= f) a c :=
  Moves.trans (.oneOf fun t ht n => by rw [walk_open (h _ ht)]; rfl) k

theorem Moves.closesOf {ks : List Kind} {f : Tok → P α} {a c : Nat} (h : ∀ k ∈ ks, k ∈ higherKinds)
    (k : ∀ x, Moves (f x) a c) : Moves (Grammar.oneOf ks >>= f) (a + 1) c :=
  Moves.trans (.oneOf fun t ht n => by rw [← Nat.add_assoc, walk_close (h _ ht)]; rfl) k

theorem Moves.opens {j : Kind} {f : Tok → P α} {a c : Nat} (h : j ∈ deeperKinds)
    (k : ∀ x, Moves (f x) (a + 1) c) : Moves (tk j >>= f) a c :=
  tk_oneOf j ▸ opensOf (by simpa using h) k

theorem Moves.closes {j : Kind} {f : Tok → P α} {a c : Nat} (h : j ∈ higherKinds)
    (k : ∀ x, Moves (f x) a c) : Moves (tk j >>= f) (a + 1) c :=
  tk_oneOf j ▸ closesOf (by simpa using h) k

theorem Moves.comma {f : Tok → P α} {a c : Nat} (k : ∀ x, Moves (f x) (a + 1) c) :
    Moves (tk .COMMA >>= f) (a + 1) c := by
  rw [tk_oneOf]
  refine Moves.trans (.oneOf fun t ht n => ?_) k
  rw [walk_comma (List.mem_singleton.1 ht), if_neg (by omega)]
  rfl

theorem Moves.or {p q : P α} {a b : Nat} (h : Moves p a b) (k : Moves q a b) : Moves (P.or p q) a b := by
  intro ts x hx
  rcases List.mem_append.1 hx with hx | hx
  · exact h ts x hx
  · exact k ts x hx

theorem Moves.choice {ps : List (P α)} {a b : Nat} (h : ∀ p ∈ ps, Moves p a b) :
    Moves (P.choice ps) a b := by
  induction ps with
  | nil => exact .empty
  | cons p ps ih => exact Moves.or (h p (by simp)) (ih fun q hq => h q (by simp [hq]))

theorem Moves.opt {p : P α} {a : Nat} (h : Moves p a a) : Moves (P.opt p) a a := by
  intro ts x hx
  rcases List.mem_append.1 hx with hx | hx
  · obtain ⟨y, hy, rfl⟩ := List.mem_map.1 hx
    exact h ts y hy
  · rw [List.mem_singleton.1 hx]
    exact ⟨[], rfl, fun n => rfl⟩

theorem Moves.manyGo {p : P α} {a : Nat} (h : Moves p a a) : ∀ n, Moves (P.manyGo p n) a a
  | 0 => .pure
  | n + 1 => by
    rw [manyGo_eq]
    exact (h.bind fun _ => (Moves.manyGo h n).bind fun _ => .pure).or .pure

theorem Moves.many {p : P α} {a : Nat} (h : Moves p a a) : Moves (P.many p) a a :=
  fun ts x hx => h.manyGo ts.length ts x hx

theorem Moves.plus {p : P α} {a : Nat} (h : Moves p a a) : Moves (P.plus p) a a :=
  h.bind fun _ => h.many.bind fun _ => .pure

theorem Moves.used {p : P α} {a b : Nat} (h : Moves p a b) : Moves (P.used p) a b := by
  intro ts x hx
  obtain ⟨y, hy, rfl⟩ := List.mem_map.1 hx
  exact h ts y hy

/-- compose the rules -/
macro "moves" : tactic => `(tactic| repeat' first
  | with_reducible exact Moves.pure
  | with_reducible exact Moves.tkPlain (by decide)
  | with_reducible exact Moves.plain (by decide)
  | with_reducible assumption
  | with_reducible (refine Moves.lift ?_; assumption)
  | with_reducible (refine Moves.lift1 ?_; assumption)
  | with_reducible refine Moves.opens (by decide) fun _ => ?_
  | with_reducible refine Moves.closes (by decide) fun _ => ?_
  | with_reducible refine Moves.opensOf (by decide) fun _ => ?_
  | with_reducible refine Moves.closesOf (by decide) fun _ => ?_
  | with_reducible refine Moves.comma fun _ => ?_
  | with_reducible refine Moves.bind ?_ fun _ => ?_
  | with_reducible refine Moves.or ?_ ?_
  | with_reducible refine Moves.opt ?_
  | with_reducible refine Moves.plus ?_
  | with_reducible refine Moves.many ?_
  | with_reducible refine Moves.used ?_
  | with_reducible apply_assumption
  | with_reducible (refine Moves.lift ?_; apply_assumption))

/-- the members of a list of alternatives -/
macro "eachMoves" : tactic => `(tactic|
  (refine Moves.choice ?_; simp only [List.forall_mem_cons, List.not_mem_nil, false_imp_iff,
    implies_true, and_true]; repeat' apply And.intro))

theorem thousands_moves : Moves (do
    let c ← tk .COMMA
    let a ← tk .DIGIT
    let b ← tk .DIGIT
    let d ← tk .DIGIT
    (pure [c, a, b, d] : P (List Tok))) 0 0 := by
  have hk : ∀ {k : Kind} {t : Tok} {ts : List Tok} {x : Tok × List Tok}, x ∈ tk k ts →
      ∃ r, ts = x.1 :: r ∧ x.2 = r ∧ x.1.kind = k := by
    intro k t ts x hx
    cases ts with
    | nil => simp [tk] at hx
    | cons u ts =>
      rw [tk] at hx
      split at hx
      · rename_i h
        rw [List.mem_singleton.1 hx]
        exact ⟨_, rfl, rfl, h⟩
      · simp at hx
  intro ts x hx
  simp only [P.bind_run, P.pure_run, List.mem_flatMap, List.mem_singleton] at hx
  obtain ⟨c, hc, a, ha, b, hb, d, hd, rfl⟩ := hx
  obtain ⟨r1, rfl, h1, k1⟩ := hk (t := c.1) hc
  rw [h1] at ha
  obtain ⟨r2, rfl, h2, k2⟩ := hk (t := c.1) ha
  rw [h2] at hb
  obtain ⟨r3, rfl, h3, k3⟩ := hk (t := c.1) hb
  rw [h3] at hd
  obtain ⟨r4, rfl, h4, k4⟩ := hk (t := c.1) hd
  refine ⟨[c.1, a.1, b.1, d.1], by rw [h4]; rfl, fun n => ?_⟩
  rw [walk_comma k1, if_neg (by simp [Grouped, k1, k2, k3, k4]), walk_plain (by rw [k2]; decide),
    walk_plain (by rw [k3]; decide), walk_plain (by rw [k4]; decide)]
  rfl

theorem numberToks_moves : Moves numberToks 0 0 := by
  have := thousands_moves
  unfold numberToks; moves
theorem numberText_moves : Moves numberText 0 0 := numberToks_moves.bind fun _ => .pure
theorem eNotation_moves : Moves eNotation 0 0 := by
  have := numberToks_moves
  unfold eNotation; moves
theorem percentNumber_moves : Moves percentNumber 0 0 := by
  have := numberToks_moves
  unfold percentNumber; moves

section
variable {rec : NT → P T}

theorem braced_moves (h : ∀ nt, Moves (rec nt) 0 0) : Moves (braced rec) 0 0 := by
  unfold braced; moves

theorem argsGo_moves (h : ∀ nt, Moves (rec nt) 0 0) : ∀ n, Moves (argsGo rec n) 1 1
  | 0 => .empty
  | n + 1 => by
    have := argsGo_moves h n
    unfold argsGo; moves

theorem args_moves (h : ∀ nt, Moves (rec nt) 0 0) : Moves (args rec) 1 1 :=
  fun ts x hx => argsGo_moves h ts.length ts x hx

theorem subexpr_moves (h : ∀ nt, Moves (rec nt) 0 0) : Moves (subexpr rec) 0 0 := by
  have := args_moves h
  unfold subexpr; moves

theorem supexpr_moves (h : ∀ nt, Moves (rec nt) 0 0) : Moves (supexpr rec) 0 0 := by
  have := braced_moves h
  unfold supexpr; moves

theorem accent_moves (h : ∀ nt, Moves (rec nt) 0 0) : Moves (accent rec) 0 0 := by
  unfold accent; moves

theorem nameTok_moves (h : ∀ nt, Moves (rec nt) 0 0) : Moves (nameTok rec) 0 0 := by
  have := accent_moves h
  unfold nameTok; eachMoves <;> moves

theorem atomExprNoSup_moves (h : ∀ nt, Moves (rec nt) 0 0) : Moves (atomExprNoSup rec) 0 0 := by
  have := nameTok_moves h
  have := subexpr_moves h
  unfold atomExprNoSup; moves

theorem atomExpr_moves (h : ∀ nt, Moves (rec nt) 0 0) : Moves (atomExpr rec) 0 0 := by
  have h1 := subexpr_moves h
  have h2 := supexpr_moves h
  unfold atomExpr
  refine Moves.bind (nameTok_moves h) fun _ => ?_
  eachMoves <;> moves

theorem mathit_moves : Moves mathit 0 0 := by unfold mathit; moves

theorem fracPart_moves (h : ∀ nt, Moves (rec nt) 0 0) : Moves (fracPart rec) 0 0 := by
  unfold fracPart; moves

theorem frac_moves (h : ∀ nt, Moves (rec nt) 0 0) : Moves (frac rec) 0 0 := by
  have := fracPart_moves h
  unfold frac; moves

theorem atom_moves (h : ∀ nt, Moves (rec nt) 0 0) : Moves (atom rec) 0 0 := by
  have h1 := atomExpr_moves h
  have h2 := frac_moves h
  have h3 := mathit_moves
  have h4 := eNotation_moves
  have h5 := percentNumber_moves
  have h6 := numberText_moves
  unfold atom; eachMoves <;> moves

theorem one_moves {k : Kind} {a b : Nat} (h : Moves (tk k) a b) :
    Moves ([k].foldlM (fun (_ : Unit) k => do
      let _ ← tk k
      (Pure.pure () : P Unit)) ()) a b := by
  simp only [List.foldlM_cons, List.foldlM_nil]
  exact Moves.trans (Moves.trans h fun _ => .pure) fun _ => .pure

theorem two_moves {j k : Kind} {a b : Nat} (hj : j ∉ walkKinds) (h : Moves (tk k) a b) :
    Moves ([j, k].foldlM (fun (_ : Unit) k => do
      let _ ← tk k
      (Pure.pure () : P Unit)) ()) a b := by
  simp only [List.foldlM_cons, List.foldlM_nil]
  exact Moves.trans (Moves.bind (.tkPlain hj) fun _ => .pure) fun _ =>
    Moves.trans (Moves.trans h fun _ => .pure) fun _ => .pure

theorem between_moves (h : ∀ nt, Moves (rec nt) 0 0) {l r : List Kind} {d : Nat}
    (hl : Moves (l.foldlM (fun (_ : Unit) k => do
      let _ ← tk k
      (Pure.pure () : P Unit)) ()) 0 d)
    (hr : Moves (r.foldlM (fun (_ : Unit) k => do
      let _ ← tk k
      (Pure.pure () : P Unit)) ()) d 0) : Moves (between rec l r) 0 0 :=
  Moves.trans hl fun _ => Moves.bind (h _).lift fun _ => Moves.trans hr fun _ => .pure

/-- the two tokens are plain, or an opening and a closing bracket -/
def isPair (p : Kind × Kind) : Bool :=
  (decide (p.1 ∉ walkKinds) && decide (p.2 ∉ walkKinds)) ||
    (decide (p.1 ∈ deeperKinds) && decide (p.2 ∈ higherKinds))

theorem pair_moves {p : Kind × Kind} (h : isPair p = true) :
    ∃ d, Moves (tk p.1) 0 d ∧ Moves (tk p.2) d 0 := by
  simp only [isPair, Bool.or_eq_true, Bool.and_eq_true, decide_eq_true_eq] at h
  rcases h with ⟨h1, h2⟩ | ⟨h1, h2⟩
  · exact ⟨0, .tkPlain h1, .tkPlain h2⟩
  · refine ⟨1, ?_, ?_⟩
    · rw [tk_oneOf]
      exact .oneOf fun t ht n => by rw [walk_open (List.mem_singleton.1 ht ▸ h1)]; rfl
    · rw [tk_oneOf]
      exact .oneOf fun t ht n => by rw [walk_close (List.mem_singleton.1 ht ▸ h2)]; rfl

theorem enclosed_moves (h : ∀ nt, Moves (rec nt) 0 0) {ps : List (Kind × Kind)}
    (hps : ps.all isPair = true) : Moves (enclosed rec ps) 0 0 := by
  refine Moves.choice fun q hq => ?_
  simp only [List.mem_append, List.mem_map] at hq
  rcases hq with (⟨p, hp, rfl⟩ | ⟨p, hp, rfl⟩) | ⟨p, hp, rfl⟩ <;>
    obtain ⟨d, h1, h2⟩ := pair_moves (List.all_eq_true.1 hps p hp)
  · exact between_moves h (one_moves h1) (one_moves h2)
  · exact between_moves h (two_moves (by decide) h1) (two_moves (by decide) h2)
  · exact between_moves h (two_moves (by decide) h1) (two_moves (by decide) h2)

theorem group_moves (h : ∀ nt, Moves (rec nt) 0 0) : Moves (group rec) 0 0 :=
  Moves.bind (enclosed_moves h (by decide)) fun _ => .pure

theorem normGroup_moves (h : ∀ nt, Moves (rec nt) 0 0) : Moves (normGroup rec) 0 0 :=
  Moves.bind (enclosed_moves h (by decide)) fun _ => .pure

theorem absGroup_moves (h : ∀ nt, Moves (rec nt) 0 0) : Moves (absGroup rec) 0 0 :=
  Moves.bind (enclosed_moves h (by decide)) fun _ => .pure

theorem floorGroup_moves (h : ∀ nt, Moves (rec nt) 0 0) : Moves (floorGroup rec) 0 0 :=
  Moves.bind (enclosed_moves h (by decide)) fun _ => .pure

theorem ceilGroup_moves (h : ∀ nt, Moves (rec nt) 0 0) : Moves (ceilGroup rec) 0 0 :=
  Moves.bind (enclosed_moves h (by decide)) fun _ => .pure

theorem binom_moves (h : ∀ nt, Moves (rec nt) 0 0) : Moves (binom rec) 0 0 := by
  have := braced_moves h
  unfold binom; moves

theorem matrixRow_moves (h : ∀ nt, Moves (rec nt) 0 0) : Moves (matrixRow rec) 0 0 := by
  unfold matrixRow; moves

theorem matrixRows_moves (h : ∀ nt, Moves (rec nt) 0 0) : Moves (matrixRows rec) 0 0 := by
  have := matrixRow_moves h
  unfold matrixRows; moves

theorem transformAtom_moves : Moves transformAtom 0 0 := by
  have := numberText_moves
  unfold transformAtom; moves

theorem transformScale_moves (h : ∀ nt, Moves (rec nt) 0 0) : Moves (transformScale rec) 0 0 := by
  have h1 := group_moves h
  have h2 := transformAtom_moves
  unfold transformScale
  refine Moves.bind ?_ fun _ => ?_
  · eachMoves <;> moves
  · moves

theorem elementaryTransform_moves (h : ∀ nt, Moves (rec nt) 0 0) :
    Moves (elementaryTransform rec) 0 0 := by
  have h1 := transformScale_moves h
  have h2 := transformAtom_moves
  unfold elementaryTransform; eachMoves <;> moves

theorem elementaryTransforms_moves (h : ∀ nt, Moves (rec nt) 0 0) :
    Moves (elementaryTransforms rec) 1 1 := by
  have := elementaryTransform_moves h
  unfold elementaryTransforms; moves

theorem matrix_moves (h : ∀ nt, Moves (rec nt) 0 0) : Moves (matrix rec) 0 0 := by
  have h1 := elementaryTransforms_moves h
  have h2 := matrixRows_moves h
  unfold matrix; moves

theorem det_moves (h : ∀ nt, Moves (rec nt) 0 0) : Moves (det rec) 0 0 := by
  have := matrixRows_moves h
  unfold det; moves

theorem funcName_moves {ks ns : List Kind} (h1 : ∀ k ∈ ks, k ∉ walkKinds)
    (h2 : ∀ k ∈ ns, k ∉ walkKinds) : Moves (funcName ks ns) 0 0 := by
  have h3 : Moves (oneOf ks) 0 0 := .plain h1
  have h4 : Moves (oneOf ns) 0 0 := .plain h2
  unfold funcName; moves

theorem subSup_moves (h : ∀ nt, Moves (rec nt) 0 0) : Moves (subSup rec) 0 0 := by
  have h1 := subexpr_moves h
  have h2 := supexpr_moves h
  unfold subSup; moves

theorem parenthesised_moves {p : P α} (h : Moves p 1 1) : Moves (parenthesised p) 0 0 := by
  unfold parenthesised; moves

theorem multiArgGo_moves (h : ∀ nt, Moves (rec nt) 0 0) : ∀ n, Moves (multiArgGo rec n) 1 1
  | 0 => .empty
  | n + 1 => by
    have := multiArgGo_moves h n
    unfold multiArgGo; moves

theorem multiArg_moves (h : ∀ nt, Moves (rec nt) 0 0) : Moves (multiArg rec) 1 1 :=
  Moves.bind (Moves.used fun ts x hx => multiArgGo_moves h ts.length ts x hx) fun _ => .pure

theorem commonArgs_moves (h : ∀ nt, Moves (rec nt) 0 0) : Moves (commonArgs rec) 1 1 := by
  have := args_moves h
  unfold commonArgs
  refine Moves.bind (Moves.used ?_) fun _ => .pure
  eachMoves <;> moves

theorem callArgs_moves (h : ∀ nt, Moves (rec nt) 0 0) : Moves (callArgs rec) 0 0 := by
  have := commonArgs_moves h
  unfold callArgs; moves

theorem equality_moves (h : ∀ nt, Moves (rec nt) 0 0) : Moves (equality rec) 0 0 := by
  unfold equality; moves

theorem subeq_moves (h : ∀ nt, Moves (rec nt) 0 0) : Moves (subeq rec) 0 0 := by
  have := equality_moves h
  unfold subeq; moves

theorem intLimits_moves (h : ∀ nt, Moves (rec nt) 0 0) : Moves (intLimits rec) 0 0 := by
  have h1 := subexpr_moves h
  have h2 := supexpr_moves h
  unfold intLimits; eachMoves <;> moves

theorem integrand_moves (h : ∀ nt, Moves (rec nt) 0 0) : Moves (integrand rec) 0 0 := by
  have := frac_moves h
  unfold integrand; eachMoves <;> moves

theorem limitSub_moves (h : ∀ nt, Moves (rec nt) 0 0) : Moves (limitSub rec) 0 0 := by
  have hv : Moves (P.choice [
      (do let t ← tk .LETTER_NO_E
          pure (NameTok.letter t.text)),
      (do let t ← tk .GREEK_CMD
          pure (NameTok.greek t.text)),
      (do let t ← tk .OTHER_SYMBOL_CMD
          pure (NameTok.other t.text))]) 1 1 := by eachMoves <;> moves
  unfold limitSub; moves

theorem func_moves (h : ∀ nt, Moves (rec nt) 0 0) : Moves (func rec) 0 0 := by
  have h1 : Moves (funcName singleKinds singleNames) 0 0 :=
    funcName_moves (by decide +kernel) (by decide +kernel)
  have h2 : Moves (funcName multiKinds multiNames) 0 0 :=
    funcName_moves (by decide +kernel) (by decide +kernel)
  have h3 := subSup_moves h
  have h4 := parenthesised_moves (h .expr).lift
  have h5 := parenthesised_moves (multiArg_moves h)
  have h6 := atomExprNoSup_moves h
  have h7 := supexpr_moves h
  have h8 := callArgs_moves h
  have h9 := intLimits_moves h
  have h10 := integrand_moves h
  have h11 := braced_moves h
  have h12 := subeq_moves h
  have h13 := limitSub_moves h
  unfold func; eachMoves <;> moves

theorem comp_moves (h : ∀ nt, Moves (rec nt) 0 0) (fn : Bool) : Moves (comp rec fn) 0 0 := by
  refine Moves.choice fun p hp => ?_
  simp only [List.mem_append, List.mem_cons, List.not_mem_nil, or_false] at hp
  rcases hp with ((rfl | rfl | rfl | rfl | rfl) | hp) | (rfl | rfl | rfl | rfl)
  · exact group_moves h
  · exact normGroup_moves h
  · exact absGroup_moves h
  · exact floorGroup_moves h
  · exact ceilGroup_moves h
  · cases fn
    · simp at hp
    · simp only [if_true, List.mem_singleton] at hp
      rw [hp]
      exact func_moves h
  · exact atom_moves h
  · exact binom_moves h
  · exact matrix_moves h
  · exact det_moves h

theorem exp_moves (h : ∀ nt, Moves (rec nt) 0 0) (fn : Bool) : Moves (exp rec fn) 0 0 := by
  have h1 := comp_moves h fn
  have h2 := subexpr_moves h
  have h3 := braced_moves h
  unfold exp; moves

theorem evalAtPart_moves (h : ∀ nt, Moves (rec nt) 0 0) {k : Kind} (hk : k ∉ walkKinds) :
    Moves (evalAtPart rec k) 0 0 := by
  have h1 := equality_moves h
  unfold evalAtPart
  refine Moves.bind (.tkPlain hk) fun _ => Moves.opens (by decide) fun _ => Moves.bind ?_ fun _ =>
    Moves.closes (by decide) fun _ => .pure
  exact Moves.or (h _).lift (Moves.bind h1.lift fun _ => .pure)

theorem postfixOp_moves (h : ∀ nt, Moves (rec nt) 0 0) : Moves (postfixOp rec) 0 0 := by
  have h1 : Moves (evalAtPart rec .CARET) 0 0 := evalAtPart_moves h (by decide)
  have h2 : Moves (evalAtPart rec .UNDERSCORE) 0 0 := evalAtPart_moves h (by decide)
  unfold postfixOp
  eachMoves
  · moves
  · refine Moves.bind (.tkPlain (by decide)) fun _ => ?_
    eachMoves <;> moves
  · moves

theorem postfix_moves (h : ∀ nt, Moves (rec nt) 0 0) (fn : Bool) : Moves (postfix' rec fn) 0 0 := by
  have h1 := exp_moves h fn
  have h2 := postfixOp_moves h
  unfold postfix'; moves

theorem chain_moves {ks : List Kind} {mk : Kind → T → T → T} {p : P T} (h : Moves p 0 0)
    (hk : ∀ k ∈ ks, k ∉ walkKinds) : Moves (chain ks mk p) 0 0 := by
  have h2 : Moves (oneOf ks) 0 0 := .plain hk
  unfold chain; moves

theorem body_moves (h : ∀ nt, Moves (rec nt) 0 0) (nt : NT) : Moves (body rec nt) 0 0 := by
  have h1 := postfix_moves h true
  have h2 := postfix_moves h false
  cases nt with
  | expr => exact chain_moves (h _) (by decide)
  | mp => exact chain_moves (h _) (by decide)
  | mpNf => exact chain_moves (h _) (by decide)
  | unary => unfold body; moves
  | unaryNf => unfold body; moves
  | atom => exact atom_moves h

end


/-- The brackets of every phrase of the grammar are balanced, and commas outside brackets only separate
thousands. -/
theorem rule_moves : ∀ n nt, Moves (rule n nt) 0 0
  | 0, _ => .empty
  | n + 1, nt => body_moves (rule_moves n) nt

theorem relation_moves (n : Nat) : Moves (relation n) 0 0 :=
  chain_moves (rule_moves n .expr) (by decide)

end Verif.Grammar
