import Verif.Props.Defined
/-
Applications of functions to numbers and to several arguments, such as `f(2)=5` and `f(x,y)=...`, from the text to the verdict (C120).
-/

namespace Verif.Reading
open Verif Verif.L2S

/-- Arguments of a function: at least two of them, or one that is a letter or a numeral. -/
def Applied {K : Type} [Field K] (I : Interp K) (free : Str → Prop) (style : Style) (ws : List Sign) (xs : List K) : Prop :=
  Arguments I free style ws xs ∧ (2 ≤ xs.length ∨ (∃ x, isVariable x = true ∧ ws = [.letter x]) ∨ ∃ q, Numeral ws q)

/-- The left side of a definition: a function applied to arguments, or its inverse. -/
def headWith (c : Char) (b : Bool) (ws : List Sign) : List Sign :=
  .letter c :: ((if b then [.mark '^', .mark '{', .mark '-', .digit 1, .mark '}'] else []) ++ .mark '(' :: (ws ++ [.mark ')']))

end Verif.Reading

namespace Verif.Grammar
open Verif Verif.L2S Verif.Reading

/-! ### What is left after some of the arguments -/

/-- Phrases with commas between them, before `R`. -/
inductive Phrases (R : List Tok) : List Tok → Prop
  | base {vs} : walk 0 vs = some 0 → Phrases R vs
  | cons {a c vs} : walk 0 a = some 0 → c.kind = .COMMA → Grouped (c :: (vs ++ R)) = false → Phrases R vs → Phrases R (a ++ c :: vs)

section
variable {R : List Tok} {q : Tok} {r : List Tok}

theorem Phrases.step (hR : R = q :: r) (hq : q.kind ∈ higherKinds) {vs : List Tok} (h : Phrases R vs) {n : Nat} {nt : NT} {y : T × List Tok}
    (hy : y ∈ rule n nt (vs ++ R)) : ∃ vs', y.2 = vs' ++ R ∧ Phrases R vs' := by
  obtain ⟨us, e1, e2⟩ := rule_moves n nt _ y hy
  have e2 := e2 0
  simp only [Nat.zero_add] at e2
  cases h with
  | base hw =>
    rcases List.append_eq_append_iff.1 e1 with ⟨a, h1, h2⟩ | ⟨a, h1, h2⟩
    · cases a with
      | nil => exact ⟨[], by simpa using h2.symm, .base rfl⟩
      | cons c' a =>
        exfalso
        rw [hR, List.cons_append, List.cons.injEq] at h2
        rw [h1, walk_append hw, ← h2.1] at e2
        exact walk_next e2 hq
    · exact ⟨a, h2, .base (by rw [h1, walk_append e2] at hw; exact hw)⟩
  | @cons a c vs hw hc hg hv =>
    rw [List.append_assoc, List.cons_append] at e1
    rcases List.append_eq_append_iff.1 e1 with ⟨b, h1, h2⟩ | ⟨b, h1, h2⟩
    · cases b with
      | nil => exact ⟨[] ++ c :: vs, by simpa using h2.symm, .cons rfl hc hg hv⟩
      | cons c' b =>
        exfalso
        rw [List.cons_append, List.cons.injEq] at h2
        obtain ⟨rfl, h2⟩ := h2
        rw [h1, walk_append hw, walk_comma hc] at e2
        have : Grouped (c :: b) = false := by
          cases hgr : Grouped (c :: b) with
          | false => rfl
          | true =>
            have h3 := Grouped.append hgr y.2
            rw [List.cons_append, ← h2, hg] at h3
            cases h3
        rw [if_pos ⟨rfl, this⟩] at e2
        cases e2
    · exact ⟨b ++ c :: vs, by rw [h2]; simp, .cons (by rw [h1, walk_append e2] at hw; exact hw) hc hg hv⟩

theorem walk_grouped {c : Tok} {vs : List Tok} (hc : c.kind = .COMMA) (h : walk 0 (c :: vs) = some 0) : walk 0 vs = some 0 := by
  rw [walk_comma hc] at h
  split at h
  · cases h
  · exact h

theorem Phrases.comma (hR : R = q :: r) (hq : q.kind ∈ higherKinds) {vs : List Tok} (h : Phrases R vs) {y : Tok × List Tok}
    (hy : y ∈ tk .COMMA (vs ++ R)) : ∃ vs', y.2 = vs' ++ R ∧ Phrases R vs' := by
  have key : ∀ {t : Tok} {ts : List Tok}, y ∈ tk .COMMA (t :: ts) → t.kind = .COMMA ∧ y.2 = ts := by
    intro t ts h
    rw [tk] at h
    split at h
    · rename_i ht
      rw [List.mem_singleton] at h
      rw [h]
      exact ⟨ht, rfl⟩
    · cases h
  cases h with
  | @base vs hw =>
    cases vs with
    | nil =>
      rw [List.nil_append, hR] at hy
      rw [(key hy).1] at hq
      exact absurd hq (by decide)
    | cons t vs =>
      obtain ⟨h1, h2⟩ := key hy
      exact ⟨vs, h2, .base (walk_grouped h1 hw)⟩
  | @cons a c vs hw hc hg hv =>
    cases a with
    | nil =>
      obtain ⟨h1, h2⟩ := key hy
      exact ⟨vs, h2, hv⟩
    | cons t a =>
      obtain ⟨h1, h2⟩ := key hy
      exact ⟨a ++ c :: vs, h2, .cons (walk_grouped h1 hw) hc hg hv⟩

/-- only what is left after all the phrases begins with a closing bracket -/
theorem Phrases.close {vs : List Tok} (h : Phrases R vs) {t : Tok} {ts : List Tok} (e : vs ++ R = t :: ts) (ht : t.kind ∈ higherKinds) :
    vs = [] := by
  cases h with
  | @base vs hw =>
    cases vs with
    | nil => rfl
    | cons u vs =>
      rw [List.cons_append, List.cons.injEq] at e
      exact absurd (e.1 ▸ ht) (walk_next hw)
  | @cons a c vs hw hc hg hv =>
    cases a with
    | nil =>
      simp only [List.nil_append, List.cons_append, List.cons.injEq] at e
      rw [← e.1, hc] at ht
      exact absurd ht (by decide)
    | cons u a =>
      simp only [List.cons_append, List.cons.injEq] at e
      exact absurd (e.1 ▸ ht) (walk_next hw)

/-- all results leave phrases -/
def Leaves {α : Type} (R : List Tok) (p : P α) : Prop := ∀ vs, Phrases R vs → ∀ y ∈ p (vs ++ R), ∃ vs', y.2 = vs' ++ R ∧ Phrases R vs'

theorem Leaves.bind {α β : Type} {p : P α} {f : α → P β} (h : Leaves R p) (hf : ∀ a, Leaves R (f a)) : Leaves R (p >>= f) := by
  intro vs hv y hy
  rw [P.bind_run, List.mem_flatMap] at hy
  obtain ⟨x, hx, hy⟩ := hy
  obtain ⟨vs', e, hv'⟩ := h vs hv x hx
  rw [e] at hy
  exact hf x.1 vs' hv' y hy

theorem Leaves.pure {α : Type} {a : α} : Leaves R (pure a : P α) := by
  intro vs hv y hy
  rw [P.pure_run, List.mem_singleton] at hy
  exact ⟨vs, by rw [hy], hv⟩

theorem Leaves.or {α : Type} {p p' : P α} (h : Leaves R p) (h' : Leaves R p') : Leaves R (P.or p p') := by
  intro vs hv y hy
  rw [P.or, List.mem_append] at hy
  exact hy.elim (h vs hv y) (h' vs hv y)

theorem leaves_rule (hR : R = q :: r) (hq : q.kind ∈ higherKinds) (n : Nat) (nt : NT) : Leaves R (rule n nt) := fun _ hv _ hy =>
  hv.step hR hq hy

theorem leaves_comma (hR : R = q :: r) (hq : q.kind ∈ higherKinds) : Leaves R (tk .COMMA) := fun _ hv _ hy => hv.comma hR hq hy

theorem leaves_args (hR : R = q :: r) (hq : q.kind ∈ higherKinds) (k : Nat) : ∀ n, Leaves R (argsGo (rule k) n)
  | 0 => fun vs _ y hy => by cases hy
  | n + 1 => .or ((leaves_rule hR hq k _).bind fun _ => (leaves_comma hR hq).bind fun _ => leaves_args hR hq k n)
      ((leaves_rule hR hq k _).bind fun _ => .pure)

end

section
variable {K : Type} [Field K] {I : Interp K} {free : Str → Prop} {style : Style}

/-- the arguments are phrases, and there is a way to read them all -/
theorem arguments_phrases {ws : List Sign} {xs : List K} (h : Arguments I free style ws xs) {R r : List Tok} {q : Tok} (hR : R = q :: r)
    (hq : q.kind = .R_PAREN) {k : Nat} : ∀ {ts : List Tok} {n : Nat}, ReadsIn R ws ts → 4 * ws.length ≤ k → ws.length ≤ n →
    Phrases R ts ∧ ((), R) ∈ argsGo (rule k) n (ts ++ R) := by
  have ha : Avoids R afterExpr := by rw [hR]; exact avoids_cons (by rw [hq]; decide +kernel)
  have hd : nextKind R ≠ some .DIGIT := by rw [hR]; simp [nextKind, hq]
  induction h with
  | @one us x hx hc =>
    intro ts n hr hk hn
    have := List.length_pos_iff.2 (not_nil hx)
    obtain ⟨n, rfl⟩ : ∃ m, n = m + 1 := ⟨n - 1, by omega⟩
    obtain ⟨t, d1, -⟩ := (parsed hx).expr_first hr (not_nil hx) (k := k) hk ha
    refine ⟨.base (expr_walk d1), ?_⟩
    obtain ⟨l, d1⟩ := d1
    rw [argsGo, P.or, List.mem_append]
    right
    rw [P.bind_run, d1, List.flatMap_cons]
    exact List.mem_append_left _ (by simp [P.pure_run])
  | @cons us x vs xs hx hc hxs h3 ih =>
    intro ts n hr hk hn
    have := List.length_pos_iff.2 (not_nil hx)
    simp only [List.length_append, List.length_cons] at hk hn
    obtain ⟨n, rfl⟩ : ∃ m, n = m + 1 := ⟨n - 1, by omega⟩
    obtain ⟨t1, t2, rfl, a1, a2⟩ := hr.append
    obtain ⟨c, t2, rfl, b1, -, b2⟩ := a2.cons_inv (k := .COMMA) (by decide +kernel)
    have hg : Grouped (c :: (t2 ++ R)) = false := grouped_false b2.reads hd h3
    obtain ⟨t, d1, -⟩ := (parsed hx).expr_first a1 (not_nil hx) (k := k) (by omega) (by
      rw [List.cons_append]
      exact avoids_comma b1 hg)
    obtain ⟨e1, e2⟩ := ih b2 (by omega) (n := n) (by omega)
    refine ⟨.cons (expr_walk d1) b1 hg e1, ?_⟩
    obtain ⟨l, d1⟩ := d1
    rw [List.append_assoc, argsGo, P.or, List.mem_append]
    left
    rw [List.cons_append] at d1 ⊢
    rw [P.bind_run, d1, List.flatMap_cons]
    refine List.mem_append_left _ ?_
    rw [P.bind_run, tk, if_pos b1]
    simpa using e2

/-- the arguments in parentheses -/
theorem callArgs_first {ws : List Sign} {xs : List K} (h : Applied I free style ws xs) {k : Nat} {r ts : List Tok}
    (hr : ReadsIn r (.mark '(' :: (ws ++ [.mark ')'])) ts) (hk : 4 * ws.length ≤ k + 1) (ha : Avoids r [.R_RIGHT]) :
    First (callArgs (rule (k + 1))) (ts ++ r) (ws.flatMap Sign.text) r := by
  obtain ⟨o, t1, q, rfl, h1, h2, h3⟩ := reads_braces (ka := .L_PAREN) (kb := .R_PAREN) hr (by decide +kernel) (by decide +kernel)
  have hts : (o :: (t1 ++ [q])) ++ r = o :: (t1 ++ q :: r) := by simp
  rw [hts]
  generalize hR : q :: r = R at h3 ⊢
  have hq : q.kind ∈ higherKinds := by rw [h2]; decide
  obtain ⟨p1, p2⟩ := arguments_phrases h.1 hR.symm h2 h3 (k := k + 1) hk (n := (t1 ++ R).length) (by
    rw [List.length_append, h3.length]; omega)
  let cs : List (P Unit) := [
    (do let _ ← rule (k + 1) .atom
        pure ()),
    (do let _ ← rule (k + 1) .expr
        let _ ← tk .COMMA
        pure ()),
    (do let _ ← rule (k + 1) .expr
        let _ ← tk .COMMA
        args (rule (k + 1)))]
  have hl : ∀ p ∈ cs, Leaves R p := by
    have a1 := leaves_rule hR.symm hq (k + 1)
    have a2 := leaves_comma hR.symm hq
    have a3 : Leaves R (args (rule (k + 1))) := fun vs hv y hy => leaves_args hR.symm hq (k + 1) _ vs hv y hy
    intro p hp
    simp only [cs, List.mem_cons, List.not_mem_nil, or_false] at hp
    rcases hp with rfl | rfl | rfl
    · exact (a1 _).bind fun _ => .pure
    · exact (a1 _).bind fun _ => a2.bind fun _ => .pure
    · exact (a1 _).bind fun _ => a2.bind fun _ => a3
  have hrun : ∀ ts, P.choice cs ts = cs.flatMap fun p => p ts := fun ts => by simp [cs, P.choice]
  have hmem : ∃ x ∈ P.choice cs (t1 ++ R), x.2 = R := by
    have atom : ∀ {t : T}, First (rule (k + 1) .atom) (t1 ++ R) t R → ∃ x ∈ P.choice cs (t1 ++ R), x.2 = R := by
      rintro t ⟨l, h⟩
      refine ⟨((), R), ?_, rfl⟩
      rw [hrun, List.mem_flatMap]
      refine ⟨_, List.mem_cons_self, ?_⟩
      rw [P.bind_run, h, List.flatMap_cons]
      exact List.mem_append_left _ (by simp [P.pure_run])
    have hav : ∀ ks, Kind.R_PAREN ∉ ks → Avoids R ks := fun ks h => by rw [← hR]; exact avoids_cons (by rw [h2]; exact h)
    rcases h.2 with hx | ⟨x, hx, rfl⟩ | ⟨v, hv⟩
    · cases h.1 with
      | one => simp at hx
      | @cons us x vs xs hd' hc hxs h3' =>
        obtain ⟨u1, u2, rfl, b1, b2⟩ := h3.append
        obtain ⟨c, u2, rfl, c1, -, c2⟩ := b2.cons_inv (k := .COMMA) (by decide +kernel)
        simp only [List.length_append, List.length_cons] at hk
        have hd : nextKind R ≠ some .DIGIT := by rw [← hR]; simp [nextKind, h2]
        have hg : Grouped (c :: (u2 ++ R)) = false := grouped_false c2.reads hd h3'
        obtain ⟨t, ⟨l, d1⟩, -⟩ := (parsed hd').expr_first b1 (not_nil hd') (k := k + 1) (by omega) (by
          rw [List.cons_append]
          exact avoids_comma c1 hg)
        obtain ⟨-, e2⟩ := arguments_phrases hxs hR.symm h2 c2 (k := k + 1) (by omega) (n := (u2 ++ R).length) (by
          rw [List.length_append, c2.length]; omega)
        refine ⟨((), R), ?_, rfl⟩
        rw [hrun, List.mem_flatMap]
        refine ⟨_, List.mem_cons_of_mem _ (List.mem_cons_of_mem _ List.mem_cons_self), ?_⟩
        rw [List.append_assoc, List.cons_append] 
        rw [List.cons_append] at d1
        rw [P.bind_run, d1, List.flatMap_cons]
        refine List.mem_append_left _ ?_
        rw [P.bind_run, tk, if_pos c1]
        simpa [args] using e2
    · obtain ⟨u, ts, rfl, u1, u2, h⟩ := h3.letter_inv hx
      cases h
      exact atom ⟨[], atom_letter' u1 ((supexpr_needs _).avoid (hav _ (by decide))) ((subexpr_needs _).avoid (hav _ (by decide)))⟩
    · exact atom (number_atom hv h3.reads (hav _ (by decide))).1
  obtain ⟨pre, x, post, e1, e2, e3⟩ := first_of hmem
  have hc : commonArgs (rule (k + 1)) (t1 ++ R) = (P.choice cs (t1 ++ R)).map fun x =>
      (textOf ((t1 ++ R).take ((t1 ++ R).length - x.2.length)), x.2) := by
    show ((P.choice cs (t1 ++ R)).map fun x => ((x.1, (t1 ++ R).take ((t1 ++ R).length - x.2.length)), x.2)).flatMap
      (fun x => [(textOf x.1.2, x.2)]) = _
    generalize P.choice cs (t1 ++ R) = l
    induction l with
    | nil => rfl
    | cons a l ih => simp only [List.map_cons, List.flatMap_cons, ih]; rfl
  have et : (t1 ++ R).take ((t1 ++ R).length - R.length) = t1 := by simp
  rw [e1, List.map_append, List.map_cons, e2, et, h3.reads.textOf] at hc
  refine (First.opt_none ((Needs.tk _).avoid (avoids_cons (by rw [h1]; decide)))).bind ((First.oneOf (by rw [h1]; decide)).bind ?_)
  refine First.past hc ?_ ?_
  · intro z hz
    obtain ⟨y, hy, rfl⟩ := List.mem_map.1 hz
    have : ∃ vs', y.2 = vs' ++ R ∧ Phrases R vs' := by
      have hm : y ∈ P.choice cs (t1 ++ R) := by rw [e1]; simp [hy]
      rw [hrun, List.mem_flatMap] at hm
      obtain ⟨p, hp, hm⟩ := hm
      exact hl p hp t1 p1 y hm
    obtain ⟨vs, f1, f2⟩ := this
    have hno : oneOf [.R_PAREN, .R_BRACKET] y.2 = [] := by
      cases hy2 : y.2 with
      | nil => rfl
      | cons t ts =>
        rw [oneOf]
        split
        · rename_i ht
          exfalso
          have hh : t.kind ∈ higherKinds := by
            revert ht
            generalize t.kind = kd
            revert kd
            decide
          have := f2.close (f1.symm.trans hy2) hh
          rw [this] at f1
          exact e3 y hy f1
        · rfl
    rw [P.bind_run]
    simp only [hno]
    rfl
  · rw [← hR]
    exact (First.oneOf (by rw [h2]; decide)).bind ((First.opt_none ((Needs.tk _).avoid ha)).bind .pure)

/-- the tree of the left side -/
theorem headWith_first {c : Char} (hc : isVariable c = true) (b : Bool) {ws : List Sign} {xs : List K} (h : Applied I free style ws xs)
    {r ts : List Tok} {k : Nat} (hk : 8 + 4 * ws.length ≤ k) (hr : ReadsIn r (headWith c b ws) ts)
    (ha : Avoids r (.R_RIGHT :: .BAR :: transposeKinds ++ afterExpr)) :
    ∃ sup, First (rule (k + 3) .expr) (ts ++ r) (.juxt [.fnApply [c] (ws.flatMap Sign.text) sup]) r ∧
      (b = false → sup = none) ∧ (b = true → ∃ p, sup = some p ∧ Means I free p (-1)) := by
  obtain ⟨k, rfl⟩ : ∃ j, k = j + 1 := ⟨k - 1, by omega⟩
  have lk : ∀ {α : Type} {p : P α} {ks : List Kind} {t : Tok} {r : List Tok}, t.kind ∈ letterKinds → Needs p ks →
      (∀ k ∈ letterKinds, k ∉ ks) → p (t :: r) = [] := fun h hn hk => letter_avoid hn h hk
  have ha1 : Avoids r [.R_RIGHT] := ha.mono (by decide +kernel)
  have ha2 : Avoids r (.BAR :: transposeKinds ++ afterExpr) := ha.mono (by decide +kernel)
  have ho : ∀ k ∈ letterKinds, k ∉ openKinds := by decide +kernel
  have hs : ∀ k ∈ letterKinds, k ∉ [Kind.ADD, .SUB] := by decide +kernel
  obtain ⟨t, ts, rfl, t1, t2, hh⟩ := hr.letter_inv hc
  cases b with
  | false =>
    have hh : ReadsIn r (.mark '(' :: (ws ++ [.mark ')'])) ts := by simpa using hh
    have hcall := callArgs_first h (k := k) hh (by omega) ha1
    obtain ⟨p, ts, rfl, p1, -, -⟩ := hh.cons_inv (k := .L_PAREN) (by decide +kernel)
    refine ⟨none, ?_, fun _ => rfl, fun h => by cases h⟩
    rw [List.cons_append] at hcall
    have hp : ∀ ks, Kind.L_PAREN ∉ ks → Avoids (p :: (ts ++ r)) ks := fun ks h => avoids_cons (by rw [p1]; exact h)
    have hf : First (func (rule (k + 1))) (t :: p :: (ts ++ r)) (.fnApply t.text (ws.flatMap Sign.text) none) r := by
      refine First.choice_tail (lk t1 (funcName_needs _ _).bind (by decide)) (First.choice_tail (lk t1 (funcName_needs _ _).bind (by decide))
        (First.choice_head ?_))
      refine (atomExprNoSup_text t1 (hp _ (by decide))).bind ?_
      refine (First.opt_none ((supexpr_needs _).avoid (hp _ (by decide)))).bind ?_
      exact hcall.bind .pure
    rw [t2] at hf
    exact expr_comp_before (hs _ t1) ha2 (by simp only [List.length_cons, List.append_eq, List.length_append]; omega)
      (comp_func (avoids_cons (ho _ t1)) hf)
  | true =>
    have hh : ReadsIn r (.mark '^' :: .mark '{' :: ([.mark '-', .digit 1] ++ .mark '}' :: (.mark '(' :: (ws ++ [.mark ')'])))) ts := by
      simpa using hh
    obtain ⟨d, ts, rfl, d1, -, hh⟩ := hh.cons_inv (k := .CARET) (by decide +kernel)
    obtain ⟨e, ts, rfl, e1, -, hh⟩ := hh.cons_inv (k := .L_BRACE) (by decide +kernel)
    obtain ⟨w1, w2, rfl, g1, g2⟩ := hh.append
    obtain ⟨f, w2, rfl, f1, -, hh⟩ := g2.cons_inv (k := .R_BRACE) (by decide +kernel)
    have hcall := callArgs_first h (k := k) hh (by omega) ha1
    obtain ⟨m, m1, m2⟩ := (parsed (minus_one (I := I) (free := free))).expr_first (k := k + 1) g1 (by simp) (by simp; omega)
      (avoids_cons (by rw [f1]; decide +kernel))
    refine ⟨some m, ?_, fun h => (by cases h), fun _ => ⟨m, rfl, m2⟩⟩
    have hts : (t :: d :: e :: (w1 ++ f :: w2)) ++ r = t :: d :: e :: (w1 ++ f :: (w2 ++ r)) := by simp
    have hm : First (supexpr (rule (k + 1))) (d :: e :: (w1 ++ f :: (w2 ++ r))) m (w2 ++ r) := by
      refine (First.tk d1).bind (First.or_right ((atom_needs (rule k)).skip (by rw [e1]; decide +kernel)) ?_)
      exact (First.tk e1).bind (First.bind (by simpa using m1) ((First.tk f1).bind .pure))
    have hf : First (func (rule (k + 1))) (t :: d :: e :: (w1 ++ f :: (w2 ++ r))) (.fnApply t.text (ws.flatMap Sign.text) (some m)) r := by
      refine First.choice_tail (lk t1 (funcName_needs _ _).bind (by decide)) (First.choice_tail (lk t1 (funcName_needs _ _).bind (by decide))
        (First.choice_head ?_))
      refine (atomExprNoSup_text t1 (avoids_cons (by rw [d1]; decide))).bind ?_
      exact (First.opt_some hm).bind (hcall.bind .pure)
    rw [t2] at hf
    rw [hts]
    exact expr_comp_before (hs _ t1) ha2 (by simp only [List.length_cons, List.length_append]; omega) (comp_func (avoids_cons (ho _ t1)) hf)

theorem headWith_length (c : Char) (b : Bool) (ws : List Sign) : ws.length + 3 ≤ (headWith c b ws).length := by
  cases b <;> simp [headWith]

/-- the tree of the equation -/
theorem parseTokens_applied {c : Char} (hc : isVariable c = true) {b wide : Bool} {ws vs : List Sign} {xs : List K} {y : K}
    (h : Applied I free style ws xs) (hv : Denotes I free wide .expr vs y) {ts : List Tok}
    (hr : Reads (headWith c b ws ++ .mark '=' :: vs) ts) (ho : OneDiff ts) :
    ∃ sup t, parseTokens ts = some (.one (.rel .assignment (.juxt [.fnApply [c] (ws.flatMap Sign.text) sup]) t)) ∧ Means I free t y ∧
      (b = false → sup = none) ∧ (b = true → ∃ p, sup = some p ∧ Means I free p (-1)) := by
  have hin : ReadsIn [] (headWith c b ws ++ .mark '=' :: vs) ts := .mk hr (by simpa using ho)
  have hlen := hin.length
  have h4 := headWith_length c b ws
  simp only [List.length_append, List.length_cons] at hlen
  obtain ⟨t1, t2, rfl, a1, a2⟩ := hin.append
  obtain ⟨e, t2, rfl, b1, -, b2⟩ := a2.cons_inv (k := .ASSIGNMENT) (by decide +kernel)
  generalize hn : 4 * (t1 ++ e :: t2).length + 4 = n
  have hlen2 : (t1 ++ e :: t2).length = (headWith c b ws).length + (vs.length + 1) := hlen
  obtain ⟨k, rfl⟩ : ∃ k, n = k + 3 := ⟨n - 3, by omega⟩
  obtain ⟨sup, c1, c2, c3⟩ := headWith_first hc b h (k := k) (by omega) a1 (avoids_cons (by rw [b1]; decide +kernel))
  obtain ⟨t, d1, d2⟩ := (parsed hv).expr_first b2 (not_nil hv) (k := k + 3) (by omega) (fun k hk => by simp [nextKind] at hk)
  refine ⟨sup, t, ?_, d2, c2, c3⟩
  have hs : Steps (operand relKinds (rule (k + 3) .expr)) (e :: (t2 ++ [])) [(e.kind, t)] [] := by
    refine .cons (r := []) ?_ (by simp) .nil
    exact First.bind (First.oneOf (by rw [b1]; decide +kernel)) (First.bind d1 .pure)
  have := chain_first (mk := relMk) c1 hs (fun k hk => by simp [nextKind] at hk)
  simp only [List.foldl_cons, List.foldl_nil, b1, relMk, relTok, List.append_nil] at this
  have h1 : First (relation (k + 3)) (t1 ++ e :: t2) (.rel .assignment (.juxt [.fnApply [c] (ws.flatMap Sign.text) sup]) t) [] := by
    rw [relation_eq]
    exact this
  have key : Whole (math (k + 3)) (t1 ++ e :: t2) (.one (.rel .assignment (.juxt [.fnApply [c] (ws.flatMap Sign.text) sup]) t)) :=
    Whole.left (Whole.map (f := MathTree.one) h1.whole)
  rw [Whole] at key
  rw [parseTokens, hn, key]
  rfl

theorem applied_signs {c : Char} (hc : isVariable c = true) {b wide : Bool} {ws vs : List Sign} {xs : List K} {y : K}
    (h : Applied I free style ws xs) (hi : style.integrals = false) (hv : Denotes I free wide .expr vs y) :
    (∀ w ∈ headWith c b ws ++ .mark '=' :: vs, isToken w) ∧
      List.IsChain subOk (headWith c b ws ++ .mark '=' :: vs) ∧ boxed (headWith c b ws ++ .mark '=' :: vs) = true := by
  obtain ⟨a1, ⟨a2, a3⟩, a4⟩ := listing_signs (.inl rfl) (args_listing h.1)
  obtain ⟨k1, k2, k3⟩ := definition_signs (x := 'x') (b := b) hc (by decide) hv
  have hm : ∀ w ∈ [Sign.mark '(', .mark ')', .mark '^', .mark '{', .mark '}', .mark '-', .mark '='],
      isToken w ∧ w ≠ .mark '_' ∧ boxed [w] = true := by
    intro w hw
    have := List.all_eq_true.1 head_marks w hw
    simp only [Bool.and_eq_true, bne_iff_ne] at this
    exact ⟨tokenOk_token this.1.1, this.1.2, this.2⟩
  have hd : isToken (.digit 1) ∧ Sign.digit 1 ≠ .mark '_' ∧ boxed [.digit 1] = true := ⟨⟨_, .digit⟩, by simp, by decide +kernel⟩
  have hl : isToken (.letter c) ∧ Sign.letter c ≠ .mark '_' ∧ boxed [.letter c] = true :=
    ⟨denotes_kinds (letter_expr (I := I) hc) _ (by simp), by simp, boxed_denotes (letter_expr (I := I) hc) rfl⟩
  have split : headWith c b ws ++ .mark '=' :: vs =
      (.letter c :: ((if b then [.mark '^', .mark '{', .mark '-', .digit 1, .mark '}'] else []) ++ [.mark '('])) ++ (ws ++
        ([.mark ')', .mark '='] ++ vs)) := by
    cases b <;> simp [headWith]
  have front : ∀ w ∈ Sign.letter c :: ((if b then [.mark '^', .mark '{', .mark '-', .digit 1, .mark '}'] else []) ++ [.mark '(']),
      isToken w ∧ w ≠ .mark '_' ∧ boxed [w] = true := by
    intro w hw
    cases b <;> simp only [Bool.false_eq_true, if_false, if_true, List.cons_append, List.nil_append, List.mem_cons, List.not_mem_nil,
      or_false] at hw
    · rcases hw with rfl | rfl
      · exact hl
      · exact hm _ (by simp)
    · rcases hw with rfl | rfl | rfl | rfl | rfl | rfl | rfl
      · exact hl
      · exact hm _ (by simp)
      · exact hm _ (by simp)
      · exact hm _ (by simp)
      · exact hd
      · exact hm _ (by simp)
      · exact hm _ (by simp)
  have back : ∀ w ∈ [Sign.mark ')', .mark '='], isToken w ∧ w ≠ .mark '_' ∧ boxed [w] = true := by
    intro w hw
    simp only [List.mem_cons, List.not_mem_nil, or_false] at hw
    rcases hw with rfl | rfl <;> exact hm _ (by simp)
  have c1 := chain_plain (fun w hw => (back w hw).2.1) (denotes_sub hv).1 (denotes_sub hv).2
  rw [split]
  refine ⟨?_, (chain_plain (fun w hw => (front w hw).2.1) (chain_append a2 c1.1 c1.2) ?_).1, ?_⟩
  · intro w hw
    simp only [List.mem_append] at hw
    rcases hw with hw | hw | hw | hw
    · exact (front w hw).1
    · exact a1 w hw
    · exact (back w hw).1
    · exact denotes_kinds hv w hw
  · cases ws with
    | nil => exact c1.2
    | cons w ws => simpa using a3
  · rw [boxed_append (boxed_all fun w hw => (front w hw).2.2), boxed_append (a4 hi), boxed_append (boxed_all fun w hw => (back w hw).2.2)]
    exact boxed_denotes hv rfl

theorem sign_text (w : Sign) : w.text ≠ [] := by cases w <;> simp [Sign.text]

theorem signs_text {us : List Sign} (h : us ≠ []) : us.flatMap Sign.text ≠ [] := by
  cases us with
  | nil => exact absurd rfl h
  | cons u us => simp [sign_text]

/-- the last argument is not empty -/
theorem applyArgs_text {ws : List Sign} {xs : List K} (h : Arguments I free style ws xs) :
    applyArgs (ws.flatMap Sign.text) = split s%"," (ws.flatMap Sign.text) := by
  have key : (split s%"," (ws.flatMap Sign.text)).getLast? ≠ some [] := by
    induction h with
    | @one us x hx hc =>
      rw [show (s%"," : Str) = [','] from rfl, split_one_none ',' _ hc.1]
      rw [List.getLast?_singleton, ne_eq, Option.some.injEq]
      exact signs_text (not_nil hx)
    | @cons us x vs xs hx hc _ _ ih =>
      have e : (us ++ .mark ',' :: vs).flatMap Sign.text = us.flatMap Sign.text ++ ',' :: vs.flatMap Sign.text := by simp [Sign.text]
      rw [e, split_comma _ _ hc.1, List.getLast?_cons]
      intro e
      cases hl : (split s%"," (vs.flatMap Sign.text)).getLast? with
      | none =>
        rw [hl] at e
        exact signs_text (not_nil hx) (by simpa using e)
      | some z =>
        rw [hl] at e ih
        simp only [Option.getD_some, Option.some.injEq] at e
        exact ih (by rw [e])
  rw [applyArgs]
  simp only [key, if_false]

section
variable [CharZero K] {Y : Type} {L : Lib Y}

/-- The left side that is returned: the function `c` of SymPy applied to the arguments, or one over it. -/
def HeadWith (I : Interp K) (L : Lib Y) (c : Char) (b : Bool) (xs : List K) (l : SV) : Prop :=
  ∃ v as y y', L.call (s%"Function " ++ [c]) as y = (.ok v, y') ∧ SV.scalars as = true ∧ denList I as = xs ∧
    if b then ∃ e, l = .pow v e ∧ e.scalar = true ∧ den I e = -1 else l = v

/-- **C120**, the text.  `latex2sympy` returns the equation between the function of SymPy, applied to the values of all arguments in
their order, and the value of the right side. -/
theorem C120_text (hL : SoundLib I L) (hp : ∀ s t, parseText s = some t → L.parse s = .ok t) {c : Char} (hc : isVariable c = true)
    {b wide wide' : Bool} {ws vs : List Sign} {xs : List K} {y : K} (h : Applied I free wide' ws xs) (hv : Denotes I free wide .expr vs y)
    {s : Str} (hw : Written (headWith c b ws ++ .mark '=' :: vs) s)
    (hF : ∀ as y, SV.scalars as = true → ∃ v y', L.call (s%"Function " ++ [c]) as y = (.ok v, y') ∧ v.scalar = true)
    (n : Nat) (vals : List (Str × PV)) (w : World (St Y)) (hr : Ready I free w) :
    ∃ l r w', latex2sympy L (n + 2) s vals w = (.ok (.rel s%"=" l r), w') ∧ HeadWith I L c b xs l ∧ r.scalar = true ∧ den I r = y := by
  obtain ⟨c1, c2, c3⟩ := applied_signs hc (b := b) h rfl hv
  obtain ⟨ts, h1, h2⟩ := lex_written hw c1
  obtain ⟨sup, t, h3, h4, h5, h6⟩ := parseTokens_applied hc h hv h2 (oneDiff_of_apart h2 (apart_of_boxed c3))
  have hpt : L.parse (prepare s) = .ok (.one (.rel .assignment (.juxt [.fnApply [c] (ws.flatMap Sign.text) sup]) t)) := by
    rw [prepare_written hw c1 c2]
    exact hp _ _ (by rw [parseText, h1]; exact h3)
  let w0 : World (St Y) := ⟨⟨{ w.ext.g with fracType := fracTypeOf s w.ext.g.fracType, values := vals }, w.ext.lib⟩, w.out⟩
  have hr0 : Ready I free w0 := hr
  obtain ⟨as, w1, a1, a2, a3, a4⟩ := argList_values hL hp h.1 n w0 hr0
  rw [← applyArgs_text h.1] at a1
  have hleft : ∃ l w2, conv L (latex2sympy L (n + 1)) (.juxt [.fnApply [c] (ws.flatMap Sign.text) sup]) w0 = (.ok l, w2) ∧
      HeadWith I L c b xs l ∧ l.scalar = true ∧ Ready I free w2 := by
    cases b with
    | false =>
      rw [h5 rfl]
      obtain ⟨v, y', f1, f2⟩ := hF as w1.ext.lib a2
      let w2 : World (St Y) := ⟨⟨w1.ext.g, y'⟩, w1.out⟩
      have hev : L.ev (s%"Function " ++ [c]) as w1 = (.ok v, w2) := by simp only [Lib.ev, libExt, M.ext, f1, w2]
      refine ⟨v, w2, ?_, ⟨v, as, _, _, f1, a2, a3, by simp⟩, f2, a4⟩
      rw [conv, convJuxt, conv]
      simp only [M.bind_run, a1, hev]
      rw [postKind_scalar f2]
      simp [M.pure_run]
    | true =>
      obtain ⟨p, rfl, hm⟩ := h6 rfl
      obtain ⟨e, w2, e1, e2, e3, e4, -⟩ := C62_conversion_partial I L hL (latex2sympy L (n + 1)) hm w1 a4
      obtain ⟨v, y', f1, f2⟩ := hF as w2.ext.lib a2
      let w3 : World (St Y) := ⟨⟨w2.ext.g, y'⟩, w2.out⟩
      have hev : L.ev (s%"Function " ++ [c]) as w2 = (.ok v, w3) := by simp only [Lib.ev, libExt, M.ext, f1, w3]
      have hs : (SV.pow v e).scalar = true := by simp [SV.scalar, f2, e2]
      refine ⟨.pow v e, w3, ?_, ⟨v, as, _, _, f1, a2, a3, by simp [e2, e3]⟩, hs, a4.keep e4⟩
      rw [conv, convJuxt, conv]
      simp only [M.bind_run, a1, e1, hev, mkPow, scalar_plain f2, scalar_plain e2, Bool.and_self, if_true, M.pure_run]
      rw [postKind_scalar hs]
      simp [M.pure_run]
  obtain ⟨l, w2, l1, l2, l3, l4⟩ := hleft
  obtain ⟨r, w3, r1, r2, r3, -⟩ := C62_conversion_partial I L hL (latex2sympy L (n + 1)) h4 w2 l4
  refine ⟨l, r, w3, ?_, l2, r2, r3⟩
  rw [latex2sympy]
  simp only [M.bind_run, modG, M.ext, M.lift_run, hpt]
  have : conv L (latex2sympy L (n + 1)) (.rel .assignment (.juxt [.fnApply [c] (ws.flatMap Sign.text) sup]) t) w0 =
      (.ok (.rel s%"=" l r), w3) := by
    rw [conv]
    simp only [M.bind_run, l1, r1, convertRel, mkRel, scalar_plain l3, scalar_plain r2, Bool.and_self, if_true]
    rfl
  exact this

end

end

end Verif.Grammar

namespace Verif.L2S
open Verif Verif.Reading Verif.Grammar

section
variable {K : Type} [Field K] [LinearOrder K] [IsStrictOrderedRing K] {X V Y S : Type}

/-- SymPy's functions `Function('f')`: the value at any arguments is the value of a named function, and so is one over its power -1. -/
def AppliesAll (E : Env X V S) (L : Lib Y) (I : Interp K) (inj : SV → V) : Prop :=
  ∀ c as y, isVariable c = true → SV.scalars as = true → ∃ v y', L.call (s%"Function " ++ [c]) as y = (.ok v, y') ∧ v.scalar = true ∧
    Verif.Names E (inj v) true ∧ ∀ e, e.scalar = true → (∀ ρ, den (I.vars ρ) e = -1) → Verif.Names E (inj (.pow v e)) true

/-- The text `f(a,b)=...` or `f^{-1}(a,b)=...`, whose right side has the value `g` for all values of the variables. -/
def ValueText (I : Interp K) (s : Str) (g : (Str → K) → K) : Prop :=
  ∃ c, ∃ b : Bool, ∃ ws vs, ∃ free : Str → Prop, ∃ wide wide' : Bool, isVariable c = true ∧
    Written (headWith c b ws ++ .mark '=' :: vs) s ∧
    ∀ ρ, Denotes (I.vars ρ) free wide .expr vs (g ρ) ∧ ∃ xs, Applied (I.vars ρ) free wide' ws xs

/-- An answer `f(2)=...` or `f^{-1}(2)=...`, whose right side has the value `g` for all values of the variables.  `P` says what its right
side is to SymPy.  A text that is `single` has no commas, so there is one argument. -/
structure ValueAnswer (E : Env X V S) (I : Interp K) (inj : SV → V) (P : V → Prop) (s : Str) (g : (Str → K) → K) : Prop where
  tidy : Tidy s
  single : Single s
  notInt : ∀ q, pyFloat E.U s = some q → isIntFloat q = false
  written : ValueText I s g
  right : ∀ r : SV, r.scalar = true → (∀ ρ, den (I.vars ρ) r = g ρ) → P (inj r)

variable {E : Env X V S} {L : Lib Y} {I : Interp K} {Is Ev : V → K → Prop} {Fun : V → List Str → ((Str → K) → K) → Prop}
  {inj : SV → V} {N : Nat}

omit [LinearOrder K] [IsStrictOrderedRing K] in
theorem AppliesAll.applies (h : AppliesAll E L I inj) : Applies E L I inj := fun c a y hc ha =>
  h c [a] y hc (by simp [SV.scalars, ha])

section
variable (hL : SoundLib I L) (hp : ∀ s t, parseText s = some t → L.parse s = .ok t) (hl : UsesUndeclared E L (N + 1) inj I.real)
  (hr : SeesRelations E inj) (hA : AppliesAll E L I inj)
include hL hp hl hr hA

theorem value_defines {s : Str} {g : (Str → K) → K} {P : V → Prop} (hw : ValueText I s g)
    (hP : ∀ r : SV, r.scalar = true → (∀ ρ, den (I.vars ρ) r = g ρ) → P (inj r)) : ReadsAs E s (Stated E P) := by
  have key : RetP (E.l2s s) fun v => ∃ l r, v = inj (.rel s%"=" l r) ∧ Verif.Names E (inj l) true ∧ P (inj r) := by
    intro x
    obtain ⟨c, b, ws, vs, free, wide, wide', hc, hw, hd⟩ := hw
    obtain ⟨w, ⟨h1, h2, _⟩, he⟩ := hl s x
    have key : ∀ ρ, ∃ xs l r w', latex2sympy L (N + 2) s [] w = (.ok (.rel s%"=" l r), w') ∧ HeadWith (I.vars ρ) L c b xs l ∧
        r.scalar = true ∧ den (I.vars ρ) r = g ρ := fun ρ => by
      obtain ⟨k1, xs, k2⟩ := hd ρ
      obtain ⟨l, r, w', k⟩ := C120_text (hL.vars ρ) hp hc k2 k1 hw (fun as y ha => by
        obtain ⟨v, y', k1, k2, _⟩ := hA c as y hc ha
        exact ⟨v, y', k1, k2⟩) N [] w ⟨h1, fun n _ => by rw [h2]; rfl⟩
      exact ⟨xs, l, r, w', k⟩
    obtain ⟨xs, l, r, w', e, hh, hs, _⟩ := key fun _ => 0
    have all : ∀ ρ, (∃ xs, HeadWith (I.vars ρ) L c b xs l) ∧ den (I.vars ρ) r = g ρ := by
      intro ρ
      obtain ⟨xs', l', r', w'', e', h1, _, h2⟩ := key ρ
      rw [e] at e'
      cases e'
      exact ⟨⟨xs', h1⟩, h2⟩
    rw [e] at he
    refine ⟨inj (.rel s%"=" l r), (E.l2s s x).2, Prod.ext he rfl, l, r, rfl, ?_, hP r hs fun ρ => (all ρ).2⟩
    obtain ⟨v, as, y, y', k1, k2, -, k3⟩ := hh
    obtain ⟨v', y'', m1, -, m3, m4⟩ := hA c as y hc k2
    rw [k1] at m1
    cases m1
    cases b with
    | false =>
      simp only [Bool.false_eq_true, if_false] at k3
      rw [k3]
      exact m3
    | true =>
      simp only [if_true] at k3
      obtain ⟨u, rfl, k4, -⟩ := k3
      refine m4 u k4 fun ρ => ?_
      obtain ⟨⟨_, v', _, _, _, _, _, _, q⟩, _⟩ := all ρ
      simp only [if_true] at q
      obtain ⟨e', q1, -, q2⟩ := q
      cases q1
      exact q2
  refine (readsAs_alone ?_ key).mono ?_
  · rintro _ ⟨l, r, rfl, _⟩
    exact hr.truth _ l r
  · rintro vs ⟨h1, h2⟩
    refine ⟨fun v hv => ?_, h2⟩
    obtain ⟨l, r, rfl, h3, h4⟩ := h1 v hv
    exact .inr ⟨inj l, inj r, hr.equation l r, h3, h4⟩

theorem ValueAnswer.presents {s : Str} {g : (Str → K) → K} {P : V → Prop} (h : ValueAnswer E I inj P s g) (n : Nat) :
    Presents E (n + 1) P s :=
  ⟨strip_of_no_space _ fun _ hc => h.tidy.space hc, s, h.tidy.fixed E n h.notInt, h.single, value_defines hL hp hl hr hA h.written h.right⟩

end

variable (E L N I inj Is Fun) in
/-- An answer that gives a formula `g` in the variables `a`: as in C119, or as the value of a function at some arguments. -/
inductive FormulaGiven (s : Str) (a : List Str) (g : (Str → K) → K) : Prop
  | stated : Formulated E L I Fun inj N s a g → FormulaGiven s a g
  | value : ValueAnswer E I inj (Fun · a g) s g → a ≠ [] → (∃ k ∈ a, E.symName k ≠ s%"i") → FormulaGiven s a g

variable (E L N I inj Is Fun) in
/-- An answer that gives a number `p`: as in C119, or as the value of a function at some arguments. -/
inductive NumberGiven (s : Str) (p : K) : Prop
  | stated : Numbered E L I Is inj N s p → NumberGiven s p
  | value : ValueAnswer E I inj (Is · p) s (fun _ => p) → NumberGiven s p

section
variable (hL : SoundLib I L) (hp : ∀ s t, parseText s = some t → L.parse s = .ok t) (hl : UsesUndeclared E L (N + 1) inj I.real)
  (hr : SeesRelations E inj) (hA : AppliesAll E L I inj)
include hL hp hl hr hA

theorem FormulaGiven.presents (H : FunArith E Is Ev Fun) {s : Str} {a : List Str} {g : (Str → K) → K}
    (h : FormulaGiven E L I Fun inj N s a g) (n : Nat) :
    Presents E (n + 1) (Fun · a g) s ∧ a ≠ [] ∧ ∃ k ∈ a, E.symName k ≠ s%"i" := by
  cases h with
  | stated h => exact h.presents hL hp hl hr hA.applies H n
  | value h ha hi => exact ⟨h.presents hL hp hl hr hA n, ha, hi⟩

theorem NumberGiven.presents (H : RealArith E Is Ev) (hE : PrintsIntegers E)
    (hlit : ∀ l : Literal, Valued E I inj Is l.text (l.value : K)) {s : Str} {p : K} (h : NumberGiven E L I Is inj N s p) (n : Nat) :
    Presents E (n + 1) (Is · p) s := by
  cases h with
  | stated h => exact h.presents hL hp hl hr hA.applies H hE hlit n
  | value h => exact h.presents hL hp hl hr hA n

/-- **C120**, formulas.  An equation `f(2)=...` is judged as its right side.  Missing: several arguments (`Single`
excludes commas), and verdicts near the tolerance as in C94. -/
theorem C120_formulas_partial (H : FunArith E Is Ev Fun) {s t : Str} {a b : List Str} {g g' : (Str → K) → K}
    (hs : FormulaGiven E L I Fun inj N s a g) (ht : FormulaGiven E L I Fun inj N t b g') (n : Nat) (verbose : Bool) :
    ((∀ k, k ∈ a ↔ k ∈ b) → (∀ ρ, Sampled ρ → WithinTolerance (g ρ) (g' ρ)) →
      Always (isEquiv E (n + 3) (some s) (some t) verbose) true) ∧
    ((¬ NearlyConstant fun ρ => g ρ - g' ρ) → ((¬ ∀ k, k ∈ a ↔ k ∈ b) ∨ ∀ ρ, Sampled ρ → ¬ WithinTolerance (g ρ) (g' ρ)) →
      Always (isEquiv E (n + 3) (some s) (some t) verbose) false) := by
  obtain ⟨rs, ha, hia⟩ := hs.presents hL hp hl hr hA H (n + 1)
  obtain ⟨rt, hb, hib⟩ := ht.presents hL hp hl hr hA H (n + 1)
  have key : ∀ {r : Bool}, Decided a b g g' r → Always (isEquiv E (n + 3) (some s) (some t) verbose) r := fun hv =>
    isEquiv_presents (fun _ h => H.view h) (fun _ h => H.view h) n rs rt
      (fun n _ _ hg hv' => areEqual_fun H n hg hv' ha hb hia hib hv)
      (fun n _ _ hg hv' => areEqual_fun H n hg hv' ha ha hia hia (decided_refl _ _)) verbose
  exact ⟨fun h1 h2 => key (r := true) ⟨h1, h2⟩, fun h1 h2 => key (r := false) ⟨h1, h2⟩⟩

open Classical in
/-- **C120**, numbers.  `f(2)=5` and `5`: exactly by the tolerance, whatever the function and its arguments. -/
theorem C120_numbers (H : RealArith E Is Ev) (hE : PrintsIntegers E) (hlit : ∀ l : Literal, Valued E I inj Is l.text (l.value : K))
    {s t : Str} {p q : K} (hs : NumberGiven E L I Is inj N s p) (ht : NumberGiven E L I Is inj N t q) (n : Nat) (verbose : Bool) :
    Always (isEquiv E (n + 3) (some s) (some t) verbose) (decide (WithinTolerance p q)) :=
  isEquiv_presents (fun _ h => H.view h) (fun _ h => H.view h) n (hs.presents hL hp hl hr hA H hE hlit (n + 1))
    (ht.presents hL hp hl hr hA H hE hlit (n + 1)) (fun n _ _ hg hv => areEqual_real H n hg hv)
    (fun n _ _ hg hv => by
      have := areEqual_real H n hg hv
      rwa [withinTolerance_refl p] at this) verbose

/-- **C120**, a number and a formula.  They are judged not equivalent, however they are stated. -/
theorem C120_unlike (H : FunArith E Is Ev Fun) (Mx : MixedArith E Is Ev Fun) (hE : PrintsIntegers E)
    (hlit : ∀ l : Literal, Valued E I inj Is l.text (l.value : K)) {s t : Str} {p : K} {a : List Str} {g : (Str → K) → K}
    (hs : NumberGiven E L I Is inj N s p) (ht : FormulaGiven E L I Fun inj N t a g) (hc : Varies g) (n : Nat) (verbose : Bool) :
    Always (isEquiv E (n + 3) (some s) (some t) verbose) false ∧ Always (isEquiv E (n + 3) (some t) (some s) verbose) false := by
  obtain ⟨rt, hb, hib⟩ := ht.presents hL hp hl hr hA H (n + 1)
  have rs := hs.presents hL hp hl hr hA H.numbers hE hlit (n + 1)
  exact ⟨isEquiv_presents (fun _ h => H.numbers.view h) (fun _ h => H.view h) n rs rt
      (fun n _ _ hg hv => (areEqual_mixed H Mx n hg hv hib hc).1)
      (fun n _ _ hg hv => by
        have := areEqual_real H.numbers n hg hv
        rwa [withinTolerance_refl p] at this) verbose,
    isEquiv_presents (fun _ h => H.view h) (fun _ h => H.numbers.view h) n rt rs
      (fun n _ _ hg hv => (areEqual_mixed H Mx n hv hg hib hc).2)
      (fun n _ _ hg hv => areEqual_fun H n hg hv hb hb hib hib (decided_refl _ _)) verbose⟩

end

end

/-! ### The hypotheses are met -/

theorem callEnv_appliesAll : AppliesAll callEnv grammarLib reals asFun := by
  intro c as y _ ha
  have hz : ∀ ρ, den (reals.vars ρ) (.fn (s%"Function " ++ [c]) as) = 0 := by
    intro ρ
    have : ∀ xs, realFn (s%"Function " ++ [c]) xs = 0 := by
      intro xs
      unfold realFn
      split <;> simp
    simp only [den]
    exact this _
  have hn : binderNode (s%"Function " ++ [c]) as = none := by
    unfold binderNode
    split <;> simp
  refine ⟨.fn (s%"Function " ++ [c]) as, y, ?_, by simp [SV.scalar, ha], callEnv_named (funext hz), fun e he h => ?_⟩
  · show (Except.ok ((binderNode _ _).getD _), y) = _
    rw [hn]
    rfl
  · refine callEnv_named (funext fun ρ => ?_)
    rw [den, hz, h]
    exact (Real.rpow_neg_one 0).trans inv_zero

theorem valueAnswer_of {s : Str} {c : Char} {b : Bool} {ws vs : List Sign} {g : (Str → ℝ) → ℝ} {P : FV → Prop} (ht : tidyB s = true)
    (hs : singleB s = true) (hf : (pyFloat asciiUni s).isNone = true) (hc : isVariable c = true)
    (hw : writtenB (headWith c b ws ++ .mark '=' :: vs) s = true)
    (ha : ∀ ρ, ∃ xs, Applied (reals.vars ρ) (fun _ => True) (false : Bool) ws xs)
    (hv : ∀ ρ, Denotes (reals.vars ρ) (fun _ => True) (false : Bool) .expr vs (g ρ)) (hP : P (.fn g)) :
    ValueAnswer callEnv reals asFun P s g where
  tidy := tidyB_sound ht
  single := singleB_sound hs
  notInt q hq := by
    rw [show pyFloat callEnv.U s = none from Option.isNone_iff_eq_none.1 hf] at hq
    cases hq
  written := ⟨c, b, ws, vs, fun _ => True, false, false, hc, writtenB_sound hw, fun ρ => ⟨hv ρ, ha ρ⟩⟩
  right r hr h := by rw [asFun_scalar hr, funext h]; exact hP

/-- `f(2)=3` -/
theorem f_two : NumberGiven callEnv grammarLib reals IsConst asFun 0 s%"f(2)=3" 3 :=
  .value (valueAnswer_of (c := 'f') (b := false) (ws := [.digit 2]) (by decide +kernel) (by decide +kernel) (by decide +kernel) (by decide)
    (by decide +kernel) (fun ρ => ⟨_, .one (.term (o := false) (.signed (.product (.factor (.power (.base (dig_denotes ρ 2)))))))
      ⟨by decide, writtenB_sound (by decide +kernel)⟩, .inr (.inr ⟨_, num1 2⟩)⟩) three_denotes rfl)

/-- `g^{-1}(2)=2x` -/
theorem g_two : FormulaGiven callEnv grammarLib reals IsFun asFun 0 s%"g^{-1}(2)=2x" [s%"x"] fun ρ => 2 * ρ s%"x" :=
  .value (valueAnswer_of (c := 'g') (b := true) (ws := [.digit 2]) (by decide +kernel) (by decide +kernel) (by decide +kernel) (by decide)
    (by decide +kernel) (fun ρ => ⟨_, .one (.term (o := false) (.signed (.product (.factor (.power (.base (dig_denotes ρ 2)))))))
      ⟨by decide, writtenB_sound (by decide +kernel)⟩, .inr (.inr ⟨_, num1 2⟩)⟩)
    twice_denotes ⟨rfl, supports_x (h := fun x => 2 * x) (by norm_num), by simp⟩) (by simp) (by simp [callEnv, funEnv])

/-- `g^{-1}(x+1,y)=2x`: the text is read as one over `g(x+1,y)`, equal to `2x`. -/
example (ρ : Str → ℝ) (n : Nat) (w : World (St Unit)) (hr : Ready (reals.vars ρ) (fun _ => True) w) :
    ∃ l r w', latex2sympy grammarLib (n + 2) s%"g^{-1}(x+1,y)=2x" [] w = (.ok (.rel s%"=" l r), w') ∧
      HeadWith (reals.vars ρ) grammarLib 'g' true [ρ s%"x" + 1, ρ s%"y"] l ∧ r.scalar = true ∧ den (reals.vars ρ) r = 2 * ρ s%"x" :=
  C120_text ((nodeLib_sound _ none _).vars ρ) grammarLib_parse (c := 'g') (by decide) (b := true) (wide' := false)
    (ws := [.letter 'x', .mark '+', .digit 1] ++ .mark ',' :: [.letter 'y'])
    ⟨.cons (plus_denotes ρ) ⟨by decide, writtenB_sound (by decide +kernel)⟩
      (.one (letter_denotes ρ (by decide)) ⟨by decide, writtenB_sound (by decide +kernel)⟩) (by decide), .inl (by simp)⟩
    (twice_denotes ρ) (writtenB_sound (by decide +kernel))
    (fun as y ha => by
      obtain ⟨v, y', k1, k2, _⟩ := callEnv_appliesAll 'g' as y (by decide) ha
      exact ⟨v, y', k1, k2⟩) n [] w hr

/-- `f(2)=3` and `3` are judged equivalent. -/
example (n : Nat) (verbose : Bool) : Always (isEquiv callEnv (n + 3) (some s%"f(2)=3") (some s%"3") verbose) true := by
  have h := NumAnswer.literal (E := callEnv) (I := reals) (inj := asFun) (Is := IsConst) (Literal.ofInt 3) (ofInt_tame 3 (by decide))
  rw [Literal.ofInt_value, show (((3 : ℤ) : ℚ) : ℝ) = 3 by norm_num] at h
  have := C120_numbers (nodeLib_sound _ none _) grammarLib_parse callEnv_uses callEnv_relations callEnv_appliesAll callEnv_numbers
    callEnv_prints (fun _ => callEnv_valued _ _) f_two (.stated (.plain h)) n verbose
  rwa [withinTolerance_refl] at this

/-- `g^{-1}(2)=2x` and `2x` are judged equivalent. -/
example (n : Nat) (verbose : Bool) : Always (isEquiv callEnv (n + 3) (some s%"g^{-1}(2)=2x") (some s%"2x") verbose) true :=
  (C120_formulas_partial (nodeLib_sound _ none _) grammarLib_parse callEnv_uses callEnv_relations callEnv_appliesAll callEnv_arith
    g_two (.stated just_twice) n verbose).1 (fun _ => Iff.rfl) fun _ _ => .inl rfl

/-- `f(2)=3` and `g^{-1}(2)=2x` are not. -/
example (n : Nat) (verbose : Bool) : Always (isEquiv callEnv (n + 3) (some s%"f(2)=3") (some s%"g^{-1}(2)=2x") verbose) false :=
  (C120_unlike (nodeLib_sound _ none _) grammarLib_parse callEnv_uses callEnv_relations callEnv_appliesAll callEnv_arith callEnv_mixed
    callEnv_prints (fun _ => callEnv_valued _ _) f_two g_two ⟨fun _ => 0, fun _ => 1, by norm_num⟩ n verbose).1

/-- **C120**, refuted as a comparison of what is said of the function: `f(2)=3` and `f(3)=3` are always judged equivalent. -/
theorem C120_argument_refuted (n : Nat) (verbose : Bool) :
    Always (isEquiv callEnv (n + 3) (some s%"f(2)=3") (some s%"f(3)=3") verbose) true := by
  have h : NumberGiven callEnv grammarLib reals IsConst asFun 0 s%"f(3)=3" 3 :=
    .value (valueAnswer_of (c := 'f') (b := false) (ws := [.digit 3]) (by decide +kernel) (by decide +kernel) (by decide +kernel)
      (by decide) (by decide +kernel) (fun ρ => ⟨_, .one (.term (o := false) (.signed (.product (.factor (.power (.base (dig_denotes ρ 3)))))))
        ⟨by decide, writtenB_sound (by decide +kernel)⟩, .inr (.inr ⟨_, num1 3⟩)⟩) three_denotes rfl)
  have := C120_numbers (nodeLib_sound _ none _) grammarLib_parse callEnv_uses callEnv_relations callEnv_appliesAll callEnv_numbers
    callEnv_prints (fun _ => callEnv_valued _ _) f_two h n verbose
  rwa [withinTolerance_refl] at this

/-- **C120**, refuted for a sum as the only argument, and for `\left` and `\right`: what looks like an application is read as a product,
while with a second argument it is an application. -/
theorem C120_product_refuted :
    parseText s%"f(x+1)" = some (.one (.juxt [.name (.letter s%"f") none none, .group (.add (.juxt [.name (.letter s%"x") none none])
      (.juxt [.number s%"1"]))])) ∧
    parseText s%"f\\left(x\\right)" = some (.one (.juxt [.name (.letter s%"f") none none, .group (.juxt [.name (.letter s%"x") none none])])) ∧
    parseText s%"f(x+1,y)" = some (.one (.juxt [.fnApply s%"f" s%"x+1,y" none])) :=
  ⟨by kernel_rfl, by kernel_rfl, by kernel_rfl⟩

end Verif.L2S
