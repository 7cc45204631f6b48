import Verif.Props.Sources
/-
Chains of relations such as `1<x<3`, from the text to the verdict (C114).
-/

namespace Verif.Reading
open Verif Verif.L2S

/-! ### Specification -/

/-- Relation signs, each with an expression after it; the names of the relations and the values of the expressions. -/
inductive Links {K : Type} [Field K] (I : Interp K) (free : Str → Prop) (style : Style) : List Sign → List (Str × K) → Prop
  | nil : Links I free style [] []
  | cons {o op vs y ws ops} : (o, op) ∈ relationSigns → Denotes I free style .expr vs y → Links I free style ws ops →
      Links I free style (o :: (vs ++ ws)) ((op, y) :: ops)

end Verif.Reading

namespace Verif.Grammar
open Verif Verif.L2S Verif.Reading

section
variable {K : Type} [Field K] {I : Interp K} {free : Str → Prop} {style : Style}

/-- the relations in the parse tree, with their names -/
def relNames : List (RelTok × Str) := [(.assignment, s%"="), (.equal, s%"="), (.lt, s%"<"),
  (.lte, s%"<="), (.gt, s%">"), (.gte, s%">="), (.unequal, s%"!=")]

/-- The trees of the expressions in a chain, each with the relation before it. -/
def LinkTrees (I : Interp K) (free : Str → Prop) : List (Kind × T) → List (Str × K) → Prop :=
  List.Forall₂ fun u p => ∃ o, relTok u.1 = some o ∧ (o, p.1) ∈ relNames ∧ Means I free u.2 p.2

theorem sign_kind {o : Sign} {op : Str} (ho : (o, op) ∈ relationSigns) :
    ∃ j rt, kindOf o = some j ∧ relTok j = some rt ∧ j ∈ relKinds ∧ j ∉ afterExpr ∧ (rt, op) ∈ relNames := by
  have tbl := List.all_eq_true.1 relation_kinds _ ho
  cases hkd : kindOf o with
  | none => rw [hkd] at tbl; cases tbl
  | some j =>
    rw [hkd] at tbl
    cases hrt : relTok j with
    | none => simp [hrt] at tbl
    | some rt =>
      simp only [hrt, Bool.and_eq_true, decide_eq_true_eq] at tbl
      obtain ⟨⟨⟨j1, j2⟩, j3⟩, j4⟩ := tbl
      exact ⟨j, rt, rfl, hrt, j1, j2, j4⟩

theorem links_avoid {ws : List Sign} {ops : List (Str × K)} (h : Links I free style ws ops) {ts r : List Tok} (hr : ReadsIn r ws ts)
    (ha : Avoids r afterExpr) : Avoids (ts ++ r) afterExpr := by
  cases h with
  | nil =>
    cases hr
    exact ha
  | cons ho _ _ =>
    obtain ⟨j, rt, hkd, _, _, j2, _⟩ := sign_kind ho
    obtain ⟨c, t2, rfl, b1, -, _⟩ := hr.cons_inv hkd
    exact avoids_cons (by rw [b1]; exact j2)

theorem links_steps {ws : List Sign} {ops : List (Str × K)} (h : Links I free style ws ops) {r : List Tok} {k : Nat}
    (ha : Avoids r afterExpr) : ∀ {ts : List Tok}, ReadsIn r ws ts → 4 * ws.length ≤ k →
    ∃ us, Steps (operand relKinds (rule k .expr)) (ts ++ r) us r ∧ LinkTrees I free us ops := by
  induction h with
  | nil =>
    intro ts hr _
    cases hr
    exact ⟨[], .nil, .nil⟩
  | @cons o op vs y ws ops ho hv hws ih =>
    intro ts hr hk
    obtain ⟨j, rt, hkd, hrt, j1, _, j4⟩ := sign_kind ho
    obtain ⟨c, t2, rfl, b1, -, b2⟩ := hr.cons_inv hkd
    obtain ⟨t3, t4, rfl, a1, a2⟩ := b2.append
    simp only [List.length_append, List.length_cons] at hk
    obtain ⟨q, d1, d2⟩ := (parsed hv).expr_first a1 (not_nil hv) (k := k) (by omega) (links_avoid hws a2 ha)
    obtain ⟨us, hs, hu⟩ := ih a2 (by omega)
    refine ⟨(c.kind, q) :: us, ?_, .cons ⟨rt, by rw [b1]; exact hrt, j4, d2⟩ hu⟩
    rw [List.cons_append, List.append_assoc]
    refine .cons (r := t4 ++ r) ?_ (by simp) hs
    exact First.bind (First.oneOf (by rw [b1]; exact j1)) (First.bind d1 .pure)

/-- The parse tree of a chain: the relations are grouped to the left. -/
theorem parseTokens_chain {us ws : List Sign} {x : K} {ops : List (Str × K)} (h0 : Denotes I free style .expr us x)
    (h : Links I free style ws ops) {ts : List Tok} (hr : Reads (us ++ ws) ts) (ho : OneDiff ts) :
    ∃ t vs, parseTokens ts = some (.one (vs.foldl (fun t u => relMk u.1 t u.2) t)) ∧ Means I free t x ∧ LinkTrees I free vs ops := by
  have hin : ReadsIn [] (us ++ ws) ts := .mk hr (by simpa using ho)
  have hlen : ts.length = us.length + ws.length := by rw [hr.length, List.length_append]
  obtain ⟨t1, t2, rfl, a1, a2⟩ := hin.append
  have ha : ∀ ks, Avoids ([] : List Tok) ks := fun ks k hk => by simp [nextKind] at hk
  obtain ⟨t, c1, c2⟩ := (parsed h0).expr_first a1 (not_nil h0) (k := 4 * (t1 ++ t2).length + 4) (by omega)
    (links_avoid h a2 (ha _))
  obtain ⟨vs, hs, hv⟩ := links_steps h (k := 4 * (t1 ++ t2).length + 4) (ha _) a2 (by omega)
  refine ⟨t, vs, ?_, c2, hv⟩
  have := chain_first (mk := relMk) c1 hs (ha _)
  rw [← relation_eq] at this
  simp only [List.append_nil] at this
  have key : Whole (math (4 * (t1 ++ t2).length + 4)) (t1 ++ t2) (.one (vs.foldl (fun t u => relMk u.1 t u.2) t)) :=
    Whole.left (Whole.map (f := MathTree.one) this.whole)
  rw [Whole] at key
  rw [parseTokens, key]
  rfl

theorem links_signs {ws : List Sign} {ops : List (Str × K)} (h : Links I free style ws ops) :
    (∀ w ∈ ws, isToken w) ∧ (List.IsChain subOk ws ∧ ∀ w ∈ ws.head?, w ≠ .mark '_') ∧
      (style.integrals = false → boxed ws = true) := by
  induction h with
  | nil => exact ⟨by simp, ⟨by simp, by simp⟩, fun _ => rfl⟩
  | @cons o op vs y ws ops ho hv _ ih =>
    obtain ⟨i1, ⟨i2, i3⟩, i4⟩ := ih
    have tbl := List.all_eq_true.1 relation_tokens _ ho
    simp only [Bool.and_eq_true, bne_iff_ne] at tbl
    obtain ⟨⟨t1, t2⟩, t3⟩ := tbl
    have hne := not_nil hv
    refine ⟨?_, ⟨chain_cons (chain_append (denotes_sub hv).1 i2 i3) ?_, by simpa using t2⟩, fun hi => ?_⟩
    · intro w hw
      rcases List.mem_cons.1 hw with rfl | hw
      · exact tokenOk_token t1
      · rcases List.mem_append.1 hw with hw | hw
        · exact denotes_kinds hv w hw
        · exact i1 w hw
    · intro w hw
      cases vs with
      | nil => exact absurd rfl hne
      | cons a vs => exact (denotes_sub hv).2 w (by simpa using hw)
    · rw [boxed_cons t3, boxed_append (boxed_denotes hv hi)]
      exact i4 hi

/-- A relation whose left side is a relation, and so on, with the names and right sides in the list, outermost first. -/
def Nested (I : Interp K) (x : K) : List (Str × K) → SV → Prop
  | [], v => v.scalar = true ∧ den I v = x
  | (op, y) :: ops, v => ∃ l r, v = .rel op l r ∧ r.scalar = true ∧ den I r = y ∧ Nested I x ops l

section
variable [CharZero K] {Y : Type} {L : Lib Y} (hL : SoundLib I L)

/-- SymPy, called with `evaluate=False`, keeps a relation whose left side is a relation as it is. -/
def KeepsRelations (L : Lib Y) : Prop := ∀ op ∈ [s%"=", s%"<", s%"<=", s%">", s%">=", s%"!="], ∀ a b c r y,
  ∃ y', L.call op [.rel a b c, r] y = (.ok (.rel op (.rel a b c) r), y')

include hL

theorem conv_chain {x : K} (hk : KeepsRelations L) (rec : Str → List (Str × PV) → M (St Y) SV) {vs : List (Kind × T)}
    {ops : List (Str × K)} (hv : LinkTrees I free vs ops) : ∀ {t : T} {done : List (Str × K)},
    (∀ w : World (St Y), Ready I free w → ∃ v w', conv L rec t w = (.ok v, w') ∧ Nested I x done v ∧ SameG w.ext.g w'.ext.g) →
    ∀ w : World (St Y), Ready I free w → ∃ v w', conv L rec (vs.foldl (fun t u => relMk u.1 t u.2) t) w = (.ok v, w') ∧
      Nested I x (ops.reverse ++ done) v ∧ SameG w.ext.g w'.ext.g := by
  induction hv with
  | nil => intro t done h; simpa using h
  | @cons u p vs ops hu _ ih =>
    obtain ⟨op, y⟩ := p
    obtain ⟨o, hrt, ho, hm⟩ := hu
    intro t done h
    rw [List.reverse_cons, List.append_assoc]
    refine ih (t := relMk u.1 t u.2) (done := (op, y) :: done) ?_
    intro w hw
    obtain ⟨v, w1, h1, h2, h3⟩ := h w hw
    obtain ⟨q, w2, k1, k2, k3, k4, -⟩ := C62_conversion_partial I L hL rec hm w1 (hw.keep h3)
    have main : ∃ w3, mkRel L op v q w2 = (.ok (.rel op v q), w3) ∧ SameG w2.ext.g w3.ext.g := by
      unfold mkRel
      cases done with
      | nil =>
        rw [scalar_plain h2.1, scalar_plain k2]
        exact ⟨w2, rfl, .refl _⟩
      | cons p done =>
        obtain ⟨a, b, rfl, _⟩ := h2
        have hop : op ∈ [s%"=", s%"<", s%"<=", s%">", s%">=", s%"!="] := by
          simp only [relNames, List.mem_cons, Prod.mk.injEq, List.not_mem_nil, or_false] at ho
          rcases ho with ⟨_, rfl⟩ | ⟨_, rfl⟩ | ⟨_, rfl⟩ | ⟨_, rfl⟩ | ⟨_, rfl⟩ | ⟨_, rfl⟩ | ⟨_, rfl⟩ <;> simp
        obtain ⟨y', e⟩ := hk op hop p.1 a b q w2.ext.lib
        refine ⟨⟨⟨w2.ext.g, y'⟩, w2.out⟩, ?_, .refl _⟩
        simp [SV.plain, Lib.ev, libExt, M.ext, e]
    obtain ⟨w3, m1, m2⟩ := main
    refine ⟨.rel op v q, w3, ?_, ⟨v, q, rfl, k2, k3, h2⟩, (h3.trans k4).trans m2⟩
    rw [relMk, hrt]
    simp only
    rw [conv]
    simp only [M.bind_run, h1, k1]
    simp only [relNames, List.mem_cons, Prod.mk.injEq, List.not_mem_nil, or_false] at ho
    rcases ho with ⟨rfl, rfl⟩ | ⟨rfl, rfl⟩ | ⟨rfl, rfl⟩ | ⟨rfl, rfl⟩ | ⟨rfl, rfl⟩ | ⟨rfl, rfl⟩ |
        ⟨rfl, rfl⟩ <;> exact m1

/-- **C114, conversion.**  A chain of relations becomes a relation whose left side is the chain without its last part. -/
theorem C114_converted (hp : ∀ s t, parseText s = some t → L.parse s = .ok t) (hk : KeepsRelations L) {s : Str} (n : Nat)
    (vals : List (Str × PV)) (w : World (St Y)) (hr : Ready I free w) {wide : Bool} {us ws : List Sign} {x : K} {ops : List (Str × K)}
    (h0 : Denotes I free wide .expr us x) (h : Links I free wide ws ops) (hw : Written (us ++ ws) s) :
    ∃ v w', latex2sympy L (n + 1) s vals w = (.ok v, w') ∧ Nested I x ops.reverse v := by
  obtain ⟨b1, ⟨b2, b2'⟩, b3⟩ := links_signs h
  have c1 : ∀ w ∈ us ++ ws, isToken w := fun w hw => (List.mem_append.1 hw).elim (denotes_kinds h0 w) (b1 w)
  have c2 : List.IsChain subOk (us ++ ws) := chain_append (denotes_sub h0).1 b2 b2'
  have c3 : boxed (us ++ ws) = true := by
    rw [boxed_append (boxed_denotes h0 rfl)]
    exact b3 rfl
  obtain ⟨ts, h1, h2⟩ := lex_written hw c1
  obtain ⟨t, vs, h3, h4, h5⟩ := parseTokens_chain h0 h h2 (oneDiff_of_apart h2 (apart_of_boxed c3))
  have hpt : L.parse (prepare s) = .ok (.one (vs.foldl (fun t u => relMk u.1 t u.2) t)) := by
    rw [prepare_written hw c1 c2]
    exact hp _ _ (by rw [parseText, h1]; exact h3)
  let w0 : World (St Y) := ⟨⟨{ w.ext.g with fracType := fracTypeOf s w.ext.g.fracType, values := vals },
    w.ext.lib⟩, w.out⟩
  obtain ⟨v, w', k1, k2, -⟩ := conv_chain hL hk (latex2sympy L n) h5 (t := t) (done := []) (by
    intro w hw
    obtain ⟨v, w1, h1, h2, h3, h4, -⟩ := C62_conversion_partial I L hL _ h4 w hw
    exact ⟨v, w1, h1, ⟨h2, h3⟩, h4⟩) w0 hr
  refine ⟨v, w', ?_, by simpa using k2⟩
  rw [latex2sympy]
  simp only [M.bind_run, modG, M.ext, M.lift_run, hpt]
  exact k1

end
end
end Verif.Grammar

namespace Verif.L2S
open Verif Verif.Reading Verif.Grammar

theorem Fails.last {X α β : Type} {m : M X α} {f : α → M X β} (h : ∀ a, Fails (f a)) : Fails (m >>= f) := by
  intro w
  rw [M.bind_run]
  cases e : m w with
  | mk r w' =>
    cases r with
    | ok a =>
      obtain ⟨r, w'', h⟩ := h a w'
      exact ⟨r, w'', h⟩
    | error r => exact ⟨r, w', rfl⟩

section
variable {K : Type} [Field K] [CharZero K] {X V Y S : Type}

/-- SymPy computes neither differences nor reciprocals of relations. -/
structure NoArithmetic (E : Env X V S) (inj : SV → V) : Prop where
  left : ∀ op l r v, AlwaysRaises (E.sub (inj (.rel op l r)) v)
  right : ∀ op l r v, AlwaysRaises (E.sub v (inj (.rel op l r)))
  inv : ∀ op l r, AlwaysRaises (E.inv (inj (.rel op l r)))

/-- An answer that is a chain of relations between expressions in LaTeX notation, without what has a meaning of its own to the
normaliser: the value of the first expression, and the names of the relations with the values of the expressions after them, for all
values of the variables. -/
structure ChainAnswer (E : Env X V S) (I : Interp K) (s : Str) (first : (Str → K) → K) (links : (Str → K) → List (Str × K)) : Prop where
  tidy : Tidy s
  single : Single s
  notInt : ∀ q, pyFloat E.U s = some q → isIntFloat q = false
  denotes : ∃ us ws free, ∃ wide : Bool, Written (us ++ ws) s ∧ ∀ ρ, Denotes (I.vars ρ) free wide .expr us (first ρ) ∧
    Links (I.vars ρ) free wide ws (links ρ)

/-- The last relation is an inequality, or there are two relations. -/
def Comparable (links : List (Str × K)) : Prop := 2 ≤ links.length ∨ ∃ op y, links = [(op, y)] ∧ op ≠ s%"="

variable {E : Env X V S} {L : Lib Y} {I : Interp K} {inj : SV → V} {N : Nat}

/-- a relation that is not an equation, or one whose left side is a relation -/
def RelObject (inj : SV → V) (v : V) : Prop := ∃ op l r, v = inj (.rel op l r) ∧ op ∈ [s%"=", s%"<", s%"<=", s%">", s%">=", s%"!="] ∧
  (op = s%"=" → ∃ a b c, l = .rel a b c)

/-- a relation whose left side is a relation -/
def RelOfRel (inj : SV → V) (v : V) : Prop := ∃ op a b c r, v = inj (.rel op (.rel a b c) r) ∧
  op ∈ [s%"=", s%"<", s%"<=", s%">", s%">=", s%"!="]

omit [CharZero K] in
theorem links_names {I : Interp K} {free : Str → Prop} {style : Style} {ws : List Sign} {ops : List (Str × K)}
    (h : Links I free style ws ops) : ∀ p ∈ ops, p.1 ∈ [s%"=", s%"<", s%"<=", s%">", s%">=", s%"!="] := by
  induction h with
  | nil => simp
  | @cons o op vs y ws ops ho _ _ ih =>
    intro p hp
    rcases List.mem_cons.1 hp with rfl | hp
    · have : ∀ p ∈ relationSigns, p.2 ∈ [s%"=", s%"<", s%"<=", s%">", s%">=", s%"!="] := by decide
      exact this _ ho
    · exact ih p hp

theorem ChainAnswer.reads (hL : SoundLib I L) (hp : ∀ s t, parseText s = some t → L.parse s = .ok t) (hk : KeepsRelations L)
    (hl : UsesUndeclared E L N inj I.real) {s : Str} {first : (Str → K) → K} {links : (Str → K) → List (Str × K)}
    (h : ChainAnswer E I s first links) :
    ((∀ ρ, Comparable (links ρ)) → RetP (E.l2s s) (RelObject inj)) ∧ ((∀ ρ, 2 ≤ (links ρ).length) → RetP (E.l2s s) (RelOfRel inj)) := by
  obtain ⟨us, ws, free, wide, hw, hd⟩ := h.denotes
  obtain ⟨d1, d2⟩ := hd fun _ => 0
  have key : ∀ x, ∃ v x', E.l2s s x = (.ok (inj v), x') ∧ Nested (I.vars fun _ => 0) (first fun _ => 0) (links fun _ => 0).reverse v := by
    intro x
    obtain ⟨w, hn, he⟩ := hl s x
    obtain ⟨h1, h2, _⟩ := id hn
    obtain ⟨v, w', e, hv⟩ := C114_converted (hL.vars fun _ => 0) hp hk N [] w ⟨h1, fun n _ => by rw [h2]; rfl⟩ d1 d2 hw
    rw [e] at he
    exact ⟨v, (E.l2s s x).2, Prod.ext he rfl, hv⟩
  have hnames := links_names d2
  constructor
  · intro hc x
    obtain ⟨v, x', e, hv⟩ := key x
    refine ⟨_, x', e, ?_⟩
    have hc := hc fun _ => 0
    have hn : ∀ p ∈ (links fun _ => 0).reverse, p.1 ∈ [s%"=", s%"<", s%"<=", s%">", s%">=", s%"!="] :=
      fun p hp => hnames p (List.mem_reverse.1 hp)
    rcases hc with hc | ⟨op, y, hc, hne⟩
    · rw [← List.length_reverse] at hc
      match hm : (links fun _ => 0).reverse, hc with
      | p :: q :: _, _ =>
        rw [hm] at hv hn
        obtain ⟨l, r, rfl, _, _, l', r', rfl, _⟩ := hv
        exact ⟨p.1, _, r, rfl, hn p (by simp), fun _ => ⟨_, _, _, rfl⟩⟩
    · rw [hc] at hv hn
      obtain ⟨l, r, rfl, _⟩ := hv
      exact ⟨op, l, r, rfl, hn (op, y) (by simp), fun e => absurd e hne⟩
  · intro hc x
    obtain ⟨v, x', e, hv⟩ := key x
    refine ⟨_, x', e, ?_⟩
    have hc := hc fun _ => 0
    have hn : ∀ p ∈ (links fun _ => 0).reverse, p.1 ∈ [s%"=", s%"<", s%"<=", s%">", s%">=", s%"!="] :=
      fun p hp => hnames p (List.mem_reverse.1 hp)
    rw [← List.length_reverse] at hc
    match hm : (links fun _ => 0).reverse, hc with
    | p :: q :: _, _ =>
      rw [hm] at hv hn
      obtain ⟨l, r, rfl, _, _, l', r', rfl, _⟩ := hv
      exact ⟨p.1, _, _, _, r, rfl, hn p (by simp)⟩

variable (hr : SeesRelations E inj) (hn : NoArithmetic E inj)
include hr hn

theorem relObject_type {v : V} (h : RelObject inj v) :
    Fails (getType E v) ∨ Always (getType E v) .ineq ∧ ∃ op o l r, v = inj (.rel op l r) ∧ (op, o) ∈ relOps := by
  obtain ⟨op, l, r, rfl, ho, he⟩ := h
  by_cases e : op = s%"="
  · subst e
    obtain ⟨a, b, c, rfl⟩ := he rfl
    left
    unfold getType
    rw [hr.equation]
    exact Fails.bind (hn.inv a b c).fails
  · right
    have : ∃ o, (op, o) ∈ relOps := by
      simp only [List.mem_cons, List.not_mem_nil, or_false] at ho
      rcases ho with rfl | rfl | rfl | rfl | rfl | rfl
      · exact absurd rfl e
      · exact ⟨.lt, by decide⟩
      · exact ⟨.le, by decide⟩
      · exact ⟨.gt, by decide⟩
      · exact ⟨.ge, by decide⟩
      · exact ⟨.ne, by decide⟩
    obtain ⟨o, ho⟩ := this
    refine ⟨?_, op, o, l, r, rfl, ho⟩
    unfold getType
    rw [hr.relation op o ho]
    exact Always.pure _

theorem ineqToExpr_fails {v : V} (h : RelOfRel inj v) : Fails (ineqToExpr E v) := by
  obtain ⟨op, a, b, c, r, rfl, ho⟩ := h
  unfold ineqToExpr
  simp only [List.mem_cons, List.not_mem_nil, or_false] at ho
  rcases ho with rfl | rfl | rfl | rfl | rfl | rfl
  · rw [hr.equation]
    exact fun w => ⟨_, _, rfl⟩
  · rw [hr.relation _ .lt (by decide)]
    exact (hn.left _ _ _ _).fails
  · rw [hr.relation _ .le (by decide)]
    exact (hn.left _ _ _ _).fails
  · rw [hr.relation _ .gt (by decide)]
    exact (hn.right _ _ _ _).fails
  · rw [hr.relation _ .ge (by decide)]
    exact (hn.right _ _ _ _).fails
  · rw [hr.relation _ .ne (by decide)]
    exact fun w => ⟨_, _, rfl⟩

/-- The comparison of a chain with a chain or an inequality raises. -/
theorem eqTyped_chain (n : Nat) {g v : V} (hg : RelObject inj g) (hv : RelObject inj v) (h : RelOfRel inj g ∨ RelOfRel inj v) :
    Fails (eqTyped E (areEqual E (n + 1)) g v) := by
  unfold eqTyped
  rcases relObject_type hr hn hg with f | ⟨tg, _⟩
  · exact Fails.bind f
  refine Fails.after (tg.alwaysP (P := (· = .ineq)) rfl) ?_
  rintro _ rfl
  rcases relObject_type hr hn hv with f | ⟨tv, _⟩
  · exact Fails.bind f
  refine Fails.after (tv.alwaysP (P := (· = .ineq)) rfl) ?_
  rintro _ rfl
  show Fails (ineqsEqual E (areEqual E n) g v)
  unfold ineqsEqual
  refine Fails.last fun og => Fails.last fun ov => ?_
  split
  · rcases h with h | h
    · exact Fails.bind (ineqToExpr_fails hr hn h)
    · exact Fails.last fun _ => Fails.bind (ineqToExpr_fails hr hn h)
  · exact Fails.last fun _ w => ⟨_, _, rfl⟩

variable (hL : SoundLib I L) (hp : ∀ s t, parseText s = some t → L.parse s = .ok t) (hk : KeepsRelations L)
    (hl : UsesUndeclared E L N inj I.real)
include hL hp hk hl

/-- **C114.**  A chain of two or more relations, such as `1<x<3`, is judged equivalent to no other text that is a chain or an inequality,
whatever its parts are. -/
theorem C114_chains_partial {s t : Str} {a b : (Str → K) → K} {as bs : (Str → K) → List (Str × K)} (hs : ChainAnswer E I s a as)
    (ht : ChainAnswer E I t b bs) (ca : ∀ ρ, Comparable (as ρ)) (cb : ∀ ρ, Comparable (bs ρ))
    (h : (∀ ρ, 2 ≤ (as ρ).length) ∨ ∀ ρ, 2 ≤ (bs ρ).length) (hst : s ≠ t) (n : Nat) (verbose : Bool) :
    Always (isEquiv E (n + 2) (some s) (some t) verbose) false := by
  have ss := strip_of_no_space _ fun _ hc => hs.tidy.space hc
  have st := strip_of_no_space _ fun _ hc => ht.tidy.space hc
  have raise : ∀ v, RelObject inj v → AlwaysRaises (E.truth v) := by
    rintro _ ⟨op, l, r, rfl, _⟩
    exact hr.truth op l r
  obtain ⟨s1, s2⟩ := hs.reads hL hp hk hl
  obtain ⟨t1, t2⟩ := ht.reads hL hp hk hl
  have both : ∀ {u : Str} {P Q : V → Prop}, RetP (E.l2s u) P → RetP (E.l2s u) Q → RetP (E.l2s u) fun v => P v ∧ Q v := by
    intro u P Q h1 h2 x
    obtain ⟨v, x', e, hv⟩ := h1 x
    obtain ⟨v', x'', e', hv'⟩ := h2 x
    rw [e] at e'
    cases e'
    exact ⟨v, x', e, hv, hv'⟩
  have main : Always (areEqualUnderSympy E (n + 1) s t verbose) false := by
    rcases h with h | h
    · exact areEqualUnderSympy_raised (fun v h => raise v h.1) (both (s1 ca) (s2 h)) raise (t1 cb)
        (fun g v hg hv => eqTyped_chain hr hn n hg.1 hv (.inl hg.2)) verbose
    · exact areEqualUnderSympy_raised raise (s1 ca) (fun v h => raise v h.1) (both (t1 cb) (t2 h))
        (fun g v hg hv => eqTyped_chain hr hn n hg hv.1 (.inr hv.2)) verbose
  exact isEquiv_single E (n + 1) s t s t verbose _ (hs.tidy.fixed E n hs.notInt) (ht.tidy.fixed E n ht.notInt) hs.single ht.single
    (by rw [ss, st]; exact hst) hst main

end

/-! ### A CAS that keeps relations of relations -/

/-- the library of `grammarLib`, which keeps relations whose left side is a relation -/
def chainLib : Lib Unit :=
  { grammarLib with
    call := fun f args y => match args with
      | [.rel a b c, r] => if f ∈ [s%"=", s%"<", s%"<=", s%">", s%">=", s%"!="] then (.ok (.rel f (.rel a b c) r), y)
        else grammarLib.call f args y
      | _ => grammarLib.call f args y }

theorem chainLib_keeps : KeepsRelations chainLib := fun op ho a b c r y => ⟨y, by simp only [chainLib, if_pos ho]⟩

theorem chainLib_call {f : Str} (hf : f ∉ [s%"=", s%"<", s%"<=", s%">", s%">=", s%"!="]) (args : List SV) :
    chainLib.call f args = grammarLib.call f args := by
  funext y
  simp only [chainLib]
  split
  · rw [if_neg hf]
  · rfl

theorem chainLib_sound : SoundLib reals chainLib := by
  have h : SoundLib reals grammarLib := nodeLib_sound _ none _
  refine ⟨fun σ f hf args ha y => ?_, fun σ a ha h0 y => ?_, fun σ {f args op n r b as} hc hb has y => ?_⟩
  · rw [chainLib_call (by revert f; decide)]
    exact h.call σ f hf args ha y
  · rw [chainLib_call (by decide)]
    exact h.inv σ a ha h0 y
  · have := h.bind σ hc hb has y
    rw [chainLib_call (by cases hc <;> decide)]
    exact this

/-- The CAS of functions with that library. -/
noncomputable def chainEnv : Env Unit FV Unit :=
  { funEnv with l2s := fun s x => ((latex2sympy chainLib 1 s [] ⟨⟨Globals.init, x⟩, []⟩).1.map asFun, x) }

theorem chainEnv_uses : UsesUndeclared chainEnv chainLib 0 asFun none := by
  intro s x
  refine ⟨⟨⟨Globals.init, x⟩, []⟩, ⟨rfl, rfl, rfl⟩, ?_⟩
  simp only [chainEnv]

theorem chainEnv_relations : SeesRelations chainEnv asFun :=
  ⟨funEnv_relations.equation, funEnv_relations.relation, funEnv_relations.truth⟩

theorem chainEnv_noArithmetic : NoArithmetic chainEnv asFun where
  left op l r v x := by
    simp only [asFun]
    cases relOps.lookup op <;> exact ⟨_, _, rfl⟩
  right op l r v x := by
    simp only [asFun]
    cases relOps.lookup op <;> cases v <;> exact ⟨_, _, rfl⟩
  inv op l r x := by
    simp only [asFun]
    cases relOps.lookup op <;> exact ⟨_, _, rfl⟩

theorem chainAnswer_of {s : Str} {us ws : List Sign} {f : (Str → ℝ) → ℝ} {links : (Str → ℝ) → List (Str × ℝ)} (ht : tidyB s = true)
    (hs : singleB s = true) (hf : (pyFloat asciiUni s).isNone = true) (hw : writtenB (us ++ ws) s = true)
    (h : ∀ ρ, Denotes (reals.vars ρ) (fun _ => True) (false : Bool) .expr us (f ρ) ∧
      Links (reals.vars ρ) (fun _ => True) (false : Bool) ws (links ρ)) : ChainAnswer chainEnv reals s f links where
  tidy := tidyB_sound ht
  single := singleB_sound hs
  notInt q hq := by
    rw [show pyFloat chainEnv.U s = none from Option.isNone_iff_eq_none.1 hf] at hq
    cases hq
  denotes := ⟨us, ws, _, false, writtenB_sound hw, h⟩

theorem digit_says (ρ : Str → ℝ) (d : Fin 10) :
    Denotes (reals.vars ρ) (fun _ => True) (false : Bool) .expr [.digit d] (((d.val : ℕ) : ℚ) : ℝ) :=
  .term (o := false) (.signed (.product (.factor (.power (.base (dig_denotes ρ d))))))

/-- `1<x<3` -/
theorem between_chain : ChainAnswer chainEnv reals s%"1<x<3" (fun _ => 1) fun ρ => [(s%"<", ρ s%"x"), (s%"<", 3)] := by
  refine chainAnswer_of (us := [.digit 1]) (ws := .mark '<' :: ([.letter 'x'] ++ .mark '<' :: ([.digit 3] ++ [])))
    (by decide +kernel) (by decide +kernel) (by decide +kernel) (by decide +kernel) fun ρ => ⟨?_, ?_⟩
  · have := digit_says ρ 1
    norm_num at this ⊢
    exact this
  · have h3 := digit_says ρ 3
    have e : (((((3 : Fin 10).val : ℕ)) : ℚ) : ℝ) = 3 := by norm_num
    rw [e] at h3
    exact .cons (by decide) (letter_denotes ρ (c := 'x') (by decide)) (.cons (by decide) h3 .nil)

/-- `1<x<1+2` says the same. -/
theorem between_sum_chain : ChainAnswer chainEnv reals s%"1<x<1+2" (fun _ => 1) fun ρ => [(s%"<", ρ s%"x"), (s%"<", 3)] := by
  refine chainAnswer_of (us := [.digit 1]) (ws := .mark '<' :: ([.letter 'x'] ++ .mark '<' :: (([.digit 1] ++ .mark '+' :: [.digit 2]) ++ [])))
    (by decide +kernel) (by decide +kernel) (by decide +kernel) (by decide +kernel) fun ρ => ⟨?_, ?_⟩
  · have := digit_says ρ 1
    norm_num at this ⊢
    exact this
  · have h3 := Denotes.add (digit_says ρ 1) (.signed (.product (o := false) (.factor (.power (.base (dig_denotes ρ 2))))))
    have e : (((((1 : Fin 10).val : ℕ)) : ℚ) : ℝ) + (((((2 : Fin 10).val : ℕ)) : ℚ) : ℝ) = 3 := by norm_num
    rw [e] at h3
    exact .cons (by decide) (letter_denotes ρ (c := 'x') (by decide)) (.cons (by decide) h3 .nil)

/-- `x>1`, one inequality -/
theorem above_chain : ChainAnswer chainEnv reals s%"x>1" (fun ρ => ρ s%"x") fun _ => [(s%">", 1)] := by
  refine chainAnswer_of (us := [.letter 'x']) (ws := .mark '>' :: ([.digit 1] ++ []))
    (by decide +kernel) (by decide +kernel) (by decide +kernel) (by decide +kernel) fun ρ => ⟨letter_denotes ρ (c := 'x') (by decide), ?_⟩
  have h1 := digit_says ρ 1
  have e : (((((1 : Fin 10).val : ℕ)) : ℚ) : ℝ) = 1 := by norm_num
  rw [e] at h1
  exact .cons (by decide) h1 .nil

/-- `1<x<3` is not judged equivalent to `x>1`. -/
example (n : Nat) (verbose : Bool) : Always (isEquiv chainEnv (n + 2) (some s%"1<x<3") (some s%"x>1") verbose) false :=
  C114_chains_partial chainEnv_relations chainEnv_noArithmetic chainLib_sound (fun s t h => grammarLib_parse s t h) chainLib_keeps
    chainEnv_uses between_chain above_chain (fun _ => .inl (by simp)) (fun _ => .inr ⟨_, _, rfl, by decide⟩) (.inl fun _ => by simp)
    (by decide) n verbose

/-- **C114**, refuted as a comparison of what the chains say: `1<x<3` and `1<x<1+2` say the same for all `x` and are never judged
equivalent. -/
theorem C114_refuted : ∃ (f : (Str → ℝ) → ℝ) (links : (Str → ℝ) → List (Str × ℝ)), ChainAnswer chainEnv reals s%"1<x<3" f links ∧
    ChainAnswer chainEnv reals s%"1<x<1+2" f links ∧
    ∀ n verbose, Always (isEquiv chainEnv (n + 2) (some s%"1<x<3") (some s%"1<x<1+2") verbose) false :=
  ⟨_, _, between_chain, between_sum_chain, C114_chains_partial chainEnv_relations chainEnv_noArithmetic chainLib_sound
    (fun s t h => grammarLib_parse s t h) chainLib_keeps chainEnv_uses between_chain between_sum_chain (fun _ => .inl (by simp))
    (fun _ => .inl (by simp)) (.inl fun _ => by simp) (by decide)⟩

end Verif.L2S
