import Verif.Props.GrammarDerives
/-
The bound on the recursion of the parser does not matter: from `3 * N` on, the parses of `N` tokens
are the same, in the same order (C91).
-/

namespace Verif.Grammar
open Verif Verif.L2S

variable {α β : Type}

/-- on lists of at most `N` tokens, `p` and `q` have the same parses, which leave no more tokens than
given -/
structure Eqv (p q : P α) (N : Nat) : Prop where
  same : ∀ ts, ts.length ≤ N → p ts = q ts
  uses : Shrinks false p

theorem Eqv.mono {p q : P α} {M N : Nat} (h : Eqv p q N) (hM : M ≤ N) : Eqv p q M :=
  ⟨fun ts hl => h.same ts (Nat.le_trans hl hM), h.uses⟩

theorem Eqv.refl {p : P α} {b : Bool} {N : Nat} (h : Shrinks b p) : Eqv p p N := ⟨fun _ _ => rfl, h.weak⟩

theorem Eqv.pure {v : α} {N : Nat} : Eqv (pure v) (pure v) N := .refl Within.pure.uses

theorem shrinks_oneOf {ks : List Kind} : Shrinks true (oneOf ks) := fun ts x hx => by
  cases ts with
  | nil => simp [Grammar.oneOf] at hx
  | cons u ts =>
    rw [Grammar.oneOf] at hx
    split at hx
    · rw [List.mem_singleton.1 hx]; simp
    · simp at hx

theorem shrinks_tk {k : Kind} : Shrinks true (tk k) := fun ts x hx => by
  cases ts with
  | nil => simp [Grammar.tk] at hx
  | cons u ts =>
    rw [Grammar.tk] at hx
    split at hx
    · rw [List.mem_singleton.1 hx]; simp
    · simp at hx

theorem Eqv.tk {k : Kind} {N : Nat} : Eqv (tk k) (tk k) N := .refl shrinks_tk

theorem Eqv.oneOf {ks : List Kind} {N : Nat} : Eqv (oneOf ks) (oneOf ks) N := .refl shrinks_oneOf

theorem Eqv.bindD {p q : P α} {f g : α → P β} {M N d : Nat} (hp : Eqv p q N)
    (hd : ∀ ts x, x ∈ p ts → x.2.length + d ≤ ts.length) (hl : N ≤ M + d) (hf : ∀ x, Eqv (f x) (g x) M) :
    Eqv (p >>= f) (q >>= g) N := by
  refine ⟨fun ts hts => ?_, hp.uses.bind fun x => (hf x).uses⟩
  rw [P.bind_run, P.bind_run, ← hp.same ts hts]
  refine flatMap_eq fun x hx => (hf x.1).same x.2 ?_
  have := hd ts x hx
  omega

theorem Eqv.bind {p q : P α} {f g : α → P β} {N : Nat} (hp : Eqv p q N) (hf : ∀ x, Eqv (f x) (g x) N) :
    Eqv (p >>= f) (q >>= g) N := hp.bindD (d := 0) (fun ts x hx => hp.uses ts x hx) (Nat.le_refl _) hf

/-- after a token one token less -/
theorem Eqv.next {p q : P α} {f g : α → P β} {N : Nat} (hp : Eqv p q (N + 1)) (hs : Shrinks true p)
    (hf : ∀ x, Eqv (f x) (g x) N) : Eqv (p >>= f) (q >>= g) (N + 1) :=
  hp.bindD (d := 1) (fun ts x hx => hs ts x hx) (Nat.le_refl _) hf

theorem Eqv.map {p q : P α} {f : α → β} {N : Nat} (h : Eqv p q N) :
    Eqv (p >>= fun x => Pure.pure (f x)) (q >>= fun x => Pure.pure (f x)) N := h.bind fun _ => .pure

theorem Eqv.or {p q p' q' : P α} {N : Nat} (hp : Eqv p p' N) (hq : Eqv q q' N) :
    Eqv (P.or p q) (P.or p' q') N :=
  ⟨fun ts hl => by rw [P.or, P.or, hp.same ts hl, hq.same ts hl], hp.uses.or hq.uses⟩

theorem Eqv.cons {p p' : P α} {ps ps' : List (P α)} {N : Nat} (hp : Eqv p p' N)
    (hq : Eqv (P.choice ps) (P.choice ps') N) : Eqv (P.choice (p :: ps)) (P.choice (p' :: ps')) N := hp.or hq

theorem Eqv.last {p p' : P α} {N : Nat} (hp : Eqv p p' N) : Eqv (P.choice [p]) (P.choice [p']) N :=
  hp.cons (.refl (b := false) fun _ _ hx => by simp [P.choice] at hx)

theorem Eqv.opt {p q : P α} {N : Nat} (hp : Eqv p q N) : Eqv (P.opt p) (P.opt q) N := by
  refine ⟨fun ts hl => by rw [P.opt, P.opt, hp.same ts hl], fun ts x hx => ?_⟩
  rcases List.mem_append.1 hx with hx | hx
  · obtain ⟨y, hy, rfl⟩ := List.mem_map.1 hx
    exact hp.uses ts y hy
  · rw [List.mem_singleton.1 hx]
    exact Nat.le_refl _

theorem Eqv.manyGo {p q : P α} {N : Nat} (hp : Eqv p q N) (n : Nat) :
    Eqv (P.manyGo p n) (P.manyGo q n) N := by
  induction n with
  | zero => exact .pure
  | succ n ih =>
    rw [manyGo_eq, manyGo_eq]
    exact (hp.bind fun x => ih.map).or .pure

theorem Eqv.many {p q : P α} {N : Nat} (hp : Eqv p q N) : Eqv (P.many p) (P.many q) N :=
  ⟨fun ts hl => (hp.manyGo _).same ts hl, fun ts x hx => (hp.manyGo _).uses ts x hx⟩

theorem Eqv.plus {p q : P α} {N : Nat} (hp : Eqv p q N) : Eqv (P.plus p) (P.plus q) N :=
  hp.bind fun _ => hp.many.map

theorem Eqv.used {p q : P α} {N : Nat} (hp : Eqv p q N) : Eqv (P.used p) (P.used q) N := by
  refine ⟨fun ts hl => by rw [P.used, P.used, hp.same ts hl], fun ts x hx => ?_⟩
  obtain ⟨y, hy, rfl⟩ := List.mem_map.1 hx
  exact hp.uses ts y hy

/-! ### The rules -/

theorem eqv_number {N : Nat} : Eqv numberToks numberToks N :=
  .or (.bind (.plus .tk) fun _ => .bind (.many (.bind .tk fun _ => .bind .tk fun _ => .bind .tk fun _ =>
    .map .tk)) fun _ => .map (.opt (.bind .tk fun _ => .map (.plus .tk)))) (.bind .tk fun _ => .map (.plus .tk))

theorem eqv_eNotation {N : Nat} : Eqv eNotation eNotation N :=
  .bind eqv_number fun _ => .bind .tk fun _ => .bind (.opt .oneOf) fun _ => .map (.plus .tk)

theorem eqv_percent {N : Nat} : Eqv percentNumber percentNumber N :=
  .bind eqv_number fun _ => .map .tk

theorem eqv_mathit {N : Nat} : Eqv mathit mathit N :=
  .bind .tk fun _ => .bind .tk fun _ => .bind (.plus .oneOf) fun _ => .map .tk

theorem eqv_transformAtom {N : Nat} : Eqv transformAtom transformAtom N :=
  .bind .tk fun _ => .bind .tk fun _ => .or (.map (.map eqv_number))
    (.bind .tk fun _ => .bind (.map eqv_number) fun _ => .map .tk)

theorem shrinks_funcName {ks ns : List Kind} : Shrinks true (funcName ks ns) :=
  .or (shrinks_oneOf.bind fun _ => Within.pure.uses)
    (shrinks_tk.bind (c := false) fun _ => (Eqv.bind (N := 0) .tk fun _ => .bind .oneOf fun _ => .map .tk).uses)

theorem eqv_funcName {ks ns : List Kind} {N : Nat} : Eqv (funcName ks ns) (funcName ks ns) N :=
  .refl shrinks_funcName

theorem eqv_parenthesised {p q : P α} {N : Nat} (h : Eqv p q N) :
    Eqv (parenthesised p) (parenthesised q) (N + 1) :=
  .or (.bind (.opt .tk) fun _ => .next .tk shrinks_tk fun _ => .bind h fun _ => .bind (.opt .tk) fun _ => .map .tk)
    (.bind (.opt .tk) fun _ => .next .tk shrinks_tk fun _ => .bind h fun _ => .bind (.opt .tk) fun _ => .map .tk)

section
variable {rec rec' : NT → P T} {N : Nat} (hr : ∀ nt, Eqv (rec nt) (rec' nt) N)
include hr

theorem eqv_braced : Eqv (braced rec) (braced rec') (N + 1) :=
  .next .tk shrinks_tk fun _ => .bind (hr .expr) fun _ => .map .tk

theorem eqv_argsGo (n : Nat) : Eqv (argsGo rec n) (argsGo rec' n) N := by
  induction n with
  | zero => exact .refl Within.empty.uses (b := false)
  | succ n ih => exact .or (.bind (hr .expr) fun _ => .bind .tk fun _ => ih) (hr .expr).map

theorem eqv_args : Eqv (args rec) (args rec') N :=
  ⟨fun ts hl => (eqv_argsGo hr _).same ts hl, fun ts x hx => (eqv_argsGo hr _).uses ts x hx⟩

theorem eqv_multiArgGo (n : Nat) : Eqv (multiArgGo rec n) (multiArgGo rec' n) N := by
  induction n with
  | zero => exact .refl Within.empty.uses (b := false)
  | succ n ih => exact .or (hr .expr).map (.bind (hr .expr) fun _ => .bind .tk fun _ => ih)

theorem eqv_multiArg : Eqv (multiArg rec) (multiArg rec') N :=
  .map (.used ⟨fun ts hl => (eqv_multiArgGo hr _).same ts hl, fun ts x hx => (eqv_multiArgGo hr _).uses ts x hx⟩)

theorem eqv_subexpr : Eqv (subexpr rec) (subexpr rec') (N + 1) :=
  .next .tk shrinks_tk fun _ => .or (.map (.used (hr .atom)))
    (.bind .tk fun _ => .bind (.used (.or (hr .expr) (.map (eqv_args hr)))) fun _ => .map .tk)

theorem eqv_supexpr : Eqv (supexpr rec) (supexpr rec') (N + 1) :=
  .next .tk shrinks_tk fun _ => .or (hr .atom) ((eqv_braced hr).mono (by omega))

theorem eqv_accent : Eqv (accent rec) (accent rec') (N + 1) :=
  .next .oneOf shrinks_oneOf fun _ => .bind .tk fun _ => .bind (.used (hr .expr)) fun _ => .map .tk

theorem eqv_nameTok : Eqv (nameTok rec) (nameTok rec') (N + 1) :=
  .cons (.map .tk) (.cons (.map .tk) (.cons (.map .tk) (.last (eqv_accent hr))))

theorem eqv_atomExprNoSup : Eqv (atomExprNoSup rec) (atomExprNoSup rec') (N + 1) :=
  .map (.used (.bind (eqv_nameTok hr) fun _ => .map (.opt (eqv_subexpr hr))))

theorem eqv_atomExpr : Eqv (atomExpr rec) (atomExpr rec') (N + 1) :=
  .bind (eqv_nameTok hr) fun _ => .cons (.bind (eqv_supexpr hr) fun _ => .map (eqv_subexpr hr))
    (.cons (.bind (eqv_subexpr hr) fun _ => .map (eqv_supexpr hr))
      (.cons (.map (eqv_subexpr hr)) (.cons (.map (eqv_supexpr hr)) (.last .pure))))

theorem eqv_fracPart : Eqv (fracPart rec) (fracPart rec') (N + 1) :=
  .or (.map .tk) (.next .tk shrinks_tk fun _ => .bind (.used (hr .expr)) fun _ => .map .tk)

theorem eqv_frac : Eqv (frac rec) (frac rec') (N + 1) :=
  .bind .tk fun _ => .bind (eqv_fracPart hr) fun _ => .map (eqv_fracPart hr)

theorem eqv_atom : Eqv (atom rec) (atom rec') (N + 1) :=
  .cons (eqv_atomExpr hr) (.cons (.map .tk) (.cons (.map eqv_eNotation) (.cons (.map eqv_percent)
    (.cons (.map (.map eqv_number)) (.cons (.map .tk) (.cons eqv_mathit (.cons (eqv_frac hr)
      (.last (.map .tk)))))))))

theorem eqv_between1 {a b : Kind} : Eqv (between rec [a] [b]) (between rec' [a] [b]) (N + 1) :=
  .next (.map (.map .tk)) ((shrinks_tk.bind fun _ => Within.pure.uses).bind fun _ => Within.pure.uses) fun _ =>
    .bind (hr .expr) fun _ => .map (.map (.map .tk))

theorem eqv_between2 {a b c d : Kind} :
    Eqv (between rec [a, b] [c, d]) (between rec' [a, b] [c, d]) (N + 1) :=
  .next (.bind (.map .tk) fun _ => .map (.map .tk)) ((shrinks_tk.bind fun _ => Within.pure.uses).bind
      (c := false) fun _ => (Eqv.map (N := 0) (.map .tk)).uses) fun _ => .bind (hr .expr) fun _ =>
    .map (.bind (.map .tk) fun _ => .map (.map .tk))

theorem eqv_group : Eqv (group rec) (group rec') (N + 1) := by
  refine .map ?_
  simp only [enclosed, groupKinds, List.map_cons, List.map_nil, List.cons_append, List.nil_append]
  iterate 7 refine .cons (eqv_between1 hr) ?_
  iterate 13 refine .cons (eqv_between2 hr) ?_
  exact .last (eqv_between2 hr)

theorem eqv_normGroup : Eqv (normGroup rec) (normGroup rec') (N + 1) := by
  refine .map ?_
  simp only [enclosed, List.map_cons, List.map_nil, List.cons_append, List.nil_append]
  iterate 1 refine .cons (eqv_between1 hr) ?_
  iterate 1 refine .cons (eqv_between2 hr) ?_
  exact .last (eqv_between2 hr)

theorem eqv_absGroup : Eqv (absGroup rec) (absGroup rec') (N + 1) := by
  refine .map ?_
  simp only [enclosed, List.map_cons, List.map_nil, List.cons_append, List.nil_append]
  iterate 3 refine .cons (eqv_between1 hr) ?_
  iterate 5 refine .cons (eqv_between2 hr) ?_
  exact .last (eqv_between2 hr)

theorem eqv_floorGroup : Eqv (floorGroup rec) (floorGroup rec') (N + 1) := by
  refine .map ?_
  simp only [enclosed, List.map_cons, List.map_nil, List.cons_append, List.nil_append]
  iterate 2 refine .cons (eqv_between1 hr) ?_
  iterate 3 refine .cons (eqv_between2 hr) ?_
  exact .last (eqv_between2 hr)

theorem eqv_ceilGroup : Eqv (ceilGroup rec) (ceilGroup rec') (N + 1) := by
  refine .map ?_
  simp only [enclosed, List.map_cons, List.map_nil, List.cons_append, List.nil_append]
  iterate 2 refine .cons (eqv_between1 hr) ?_
  iterate 3 refine .cons (eqv_between2 hr) ?_
  exact .last (eqv_between2 hr)

theorem eqv_binom : Eqv (binom rec) (binom rec') (N + 1) :=
  .or (.next .tk shrinks_tk fun _ => .bind (hr .expr) fun _ => .bind .tk fun _ => .bind (hr .expr) fun _ => .map .tk)
    (.bind .tk fun _ => .bind (eqv_braced hr) fun _ => .map (eqv_braced hr))

theorem eqv_matrixRow : Eqv (matrixRow rec) (matrixRow rec') N :=
  .bind (hr .expr) fun _ => .map (.many (.bind .tk fun _ => hr .expr))

theorem eqv_matrixRows : Eqv (matrixRows rec) (matrixRows rec') N :=
  .bind (eqv_matrixRow hr) fun _ => .bind (.many (.bind .tk fun _ => eqv_matrixRow hr)) fun _ => .map (.opt .tk)

theorem eqv_transformScale : Eqv (transformScale rec) (transformScale rec') N :=
  .bind (.cons (hr .expr) (.cons ((eqv_group hr).mono (by omega)) (.cons (.map .tk)
    (.last (.map .tk))))) fun _ => .map eqv_transformAtom

theorem eqv_elementary : Eqv (elementaryTransform rec) (elementaryTransform rec') N :=
  .cons (.bind eqv_transformAtom fun _ => .map (eqv_transformScale hr))
    (.cons (.map (eqv_transformScale hr))
      (.last (.bind eqv_transformAtom fun _ => .bind .tk fun _ => .map eqv_transformAtom)))

theorem eqv_elementaries : Eqv (elementaryTransforms rec) (elementaryTransforms rec') N :=
  .bind (eqv_elementary hr) fun _ => .map (.many (.bind .tk fun _ => eqv_elementary hr))

theorem eqv_matrix : Eqv (matrix rec) (matrix rec') (N + 1) :=
  .next .tk shrinks_tk fun _ => .bind (eqv_matrixRows hr) fun _ => .bind .tk fun _ =>
    .map (.opt (.bind .tk fun _ => .bind (.opt (.bind .tk fun _ => .bind (eqv_elementaries hr) fun _ => .map .tk))
      fun _ => .bind .tk fun _ => .bind (eqv_elementaries hr) fun _ => .map .tk))

theorem eqv_det : Eqv (det rec) (det rec') (N + 1) :=
  .next .tk shrinks_tk fun _ => .bind (eqv_matrixRows hr) fun _ => .map .tk

theorem eqv_subSup : Eqv (subSup rec) (subSup rec') (N + 1) :=
  .or (.bind (.opt (eqv_subexpr hr)) fun _ => .map (.opt (eqv_supexpr hr)))
    (.bind (.opt (eqv_supexpr hr)) fun _ => .map (.opt (eqv_subexpr hr)))

theorem eqv_commonArgs : Eqv (commonArgs rec) (commonArgs rec') N :=
  .map (.used (.cons (.map (hr .atom)) (.cons (.bind (hr .expr) fun _ => .map .tk)
    (.last (.bind (hr .expr) fun _ => .bind .tk fun _ => eqv_args hr)))))

theorem eqv_callArgs : Eqv (callArgs rec) (callArgs rec') (N + 1) :=
  .bind (.opt .tk) fun _ => .next .oneOf shrinks_oneOf fun _ => .bind (eqv_commonArgs hr) fun _ =>
    .bind .oneOf fun _ => .map (.opt .tk)

theorem eqv_equality : Eqv (equality rec) (equality rec') N :=
  .bind (hr .expr) fun _ => .bind .oneOf fun _ => .map (hr .expr)

theorem eqv_subeq : Eqv (subeq rec) (subeq rec') (N + 1) :=
  .next .tk shrinks_tk fun _ => .bind .tk fun _ => .bind (eqv_equality hr) fun _ => .map .tk

theorem eqv_intLimits : Eqv (intLimits rec) (intLimits rec') (N + 1) :=
  .cons (.bind (eqv_subexpr hr) fun _ => .map (eqv_supexpr hr))
    (.cons (.bind (eqv_supexpr hr) fun _ => .map (eqv_subexpr hr)) (.cons
      (.bind .tk fun _ => .bind .tk fun _ => .bind .tk fun _ => .bind .tk fun _ => .bind .tk fun _ => .map .tk)
      (.last
      (.bind .tk fun _ => .bind .tk fun _ => .bind .tk fun _ => .bind .tk fun _ => .bind .tk fun _ => .map .tk))))

theorem eqv_integrand : Eqv (integrand rec) (integrand rec') N :=
  .cons (.bind (.opt (hr .expr)) fun _ => .map .tk) (.cons (.map ((eqv_frac hr).mono (by omega)))
    (.last (.map (hr .expr))))

theorem eqv_limitSub : Eqv (limitSub rec) (limitSub rec') (N + 1) :=
  .next .tk shrinks_tk fun _ => .bind .tk fun _ => .bind (.cons (.map .tk) (.cons (.map .tk) (.last (.map .tk))))
    fun _ => .bind .tk fun _ => .bind (hr .expr) fun _ => .bind (.opt (.bind .tk fun _ => .bind .tk fun _ =>
      .bind .oneOf fun _ => .map .tk)) fun _ => .map .tk

theorem eqv_func : Eqv (func rec) (func rec') (N + 1) := by
  refine .cons ?_ (.cons ?_ (.cons ?_ (.cons ?_ (.cons ?_ (.cons ?_ (.cons ?_ (.cons ?_ (.last ?_))))))))
  · exact .next eqv_funcName shrinks_funcName fun _ => .bind ((eqv_subSup hr).mono (by omega)) fun _ =>
      .map (.or ((eqv_parenthesised (hr .expr)).mono (by omega)) (hr .mpNf))
  · exact .next eqv_funcName shrinks_funcName fun _ => .bind ((eqv_subSup hr).mono (by omega)) fun _ =>
      .map (.or (.map ((eqv_parenthesised (eqv_multiArg hr)).mono (by omega))) (.map (.used (hr .mpNf))))
  · exact .bind (eqv_atomExprNoSup hr) fun _ => .bind (.opt (eqv_supexpr hr)) fun _ => .map (eqv_callArgs hr)
  · exact .bind (eqv_atomExprNoSup hr) fun _ => .bind (.opt (eqv_supexpr hr)) fun _ => .bind .tk fun _ =>
      .bind (eqv_callArgs hr) fun _ => .map .tk
  · exact .next .tk shrinks_tk fun _ => .bind (.opt ((eqv_intLimits hr).mono (by omega))) fun _ =>
      .map (eqv_integrand hr)
  · exact .next .tk shrinks_tk fun _ => .bind (.opt (.bind .tk fun _ => .bind (hr .expr) fun _ => .map .tk)) fun _ =>
      .map (.or (.map .tk) ((eqv_braced hr).mono (by omega)))
  · exact .next .oneOf shrinks_oneOf fun _ => .bind (.or
      (.bind ((eqv_subeq hr).mono (by omega)) fun _ => .map ((eqv_supexpr hr).mono (by omega)))
      (.bind ((eqv_supexpr hr).mono (by omega)) fun _ => .map ((eqv_subeq hr).mono (by omega)))) fun _ =>
      .map (hr .mp)
  · exact .next .tk shrinks_tk fun _ => .bind ((eqv_limitSub hr).mono (by omega)) fun _ => .map (hr .mp)
  · exact .bind .tk fun _ => .map (.opt (eqv_supexpr hr))

theorem eqv_comp (fn : Bool) : Eqv (comp rec fn) (comp rec' fn) (N + 1) := by
  have tail : Eqv (P.choice [atom rec, binom rec, matrix rec, det rec])
      (P.choice [atom rec', binom rec', matrix rec', det rec']) (N + 1) :=
    .cons (eqv_atom hr) (.cons (eqv_binom hr) (.cons (eqv_matrix hr) (.last (eqv_det hr))))
  cases fn with
  | true =>
    exact .cons (eqv_group hr) (.cons (eqv_normGroup hr) (.cons (eqv_absGroup hr) (.cons (eqv_floorGroup hr)
      (.cons (eqv_ceilGroup hr) (.cons (eqv_func hr) tail)))))
  | false =>
    exact .cons (eqv_group hr) (.cons (eqv_normGroup hr) (.cons (eqv_absGroup hr) (.cons (eqv_floorGroup hr)
      (.cons (eqv_ceilGroup hr) tail))))

theorem eqv_exp (fn : Bool) : Eqv (exp rec fn) (exp rec' fn) (N + 1) :=
  .bind (eqv_comp hr fn) fun _ => .map (.many (.next .tk shrinks_tk fun _ =>
    .bind (.or (hr .atom) ((eqv_braced hr).mono (by omega))) fun _ => .map (.opt ((eqv_subexpr hr).mono (by omega)))))

theorem eqv_evalAtPart {k : Kind} : Eqv (evalAtPart rec k) (evalAtPart rec' k) (N + 1) :=
  .next .tk shrinks_tk fun _ => .bind .tk fun _ => .bind (.or (hr .expr) (.map (eqv_equality hr))) fun _ => .map .tk

theorem eqv_postfixOp : Eqv (postfixOp rec) (postfixOp rec') (N + 1) :=
  .cons (.map .tk) (.cons (.bind .tk fun _ => .cons (.map (eqv_evalAtPart hr)) (.cons (.map (eqv_evalAtPart hr))
    (.last (.bind (eqv_evalAtPart hr) fun _ => .map (eqv_evalAtPart hr))))) (.last (.map .oneOf)))

theorem eqv_postfix (fn : Bool) : Eqv (postfix' rec fn) (postfix' rec' fn) (N + 1) :=
  .bind (eqv_exp hr fn) fun _ => .map (.many (eqv_postfixOp hr))

theorem eqv_unary : Eqv (body rec .unary) (body rec' .unary) (N + 1) :=
  .or (.next .oneOf shrinks_oneOf fun _ => .map (hr .unary)) (.map (.plus (eqv_postfix hr true)))

theorem eqv_unaryNf : Eqv (body rec .unaryNf) (body rec' .unaryNf) (N + 1) :=
  .or (.next .oneOf shrinks_oneOf fun _ => .map (hr .unaryNf))
    (.bind (eqv_postfix hr true) fun _ => .map (.many (eqv_postfix hr false)))

end

theorem eqv_chain {p q : P T} {ks : List Kind} {mk : Kind → T → T → T} {N : Nat} (h : Eqv p q N) :
    Eqv (chain ks mk p) (chain ks mk q) N :=
  .bind h fun _ => .map (.many (.bind .oneOf fun _ => .map h))

theorem rule_nil (n : Nat) (nt : NT) : rule n nt [] = [] := by
  refine List.eq_nil_iff_forall_not_mem.2 fun x hx => ?_
  obtain ⟨us, h1, h2⟩ := (acc_zero n nt).sound [] x hx
  have := derives_solid h2 rfl
  rw [kinds_length] at this
  have := congrArg List.length h1
  simp only [List.length_append, List.length_nil] at this
  omega

theorem rule_shrinks (n : Nat) (nt : NT) : Shrinks false (rule n nt) := fun ts x hx => by
  obtain ⟨us, h1, -⟩ := (acc_zero n nt).sound ts x hx
  rw [h1, List.length_append]
  exact Nat.le_add_left ..

/-- from `3 * N` on, the recursive rules have the same parses of `N` tokens -/
theorem eqv_rules (N : Nat) : ∀ n m, 3 * N ≤ n → 3 * N ≤ m → ∀ nt, Eqv (rule n nt) (rule m nt) N := by
  induction N with
  | zero =>
    intro n m _ _ nt
    refine ⟨fun ts hl => ?_, rule_shrinks n nt⟩
    have : ts = [] := List.eq_nil_of_length_eq_zero (Nat.le_zero.1 hl)
    rw [this, rule_nil, rule_nil]
  | succ N ih =>
    have hu : ∀ n m, 3 * N + 1 ≤ n → 3 * N + 1 ≤ m → Eqv (rule n .unary) (rule m .unary) (N + 1) :=
      fun n m hn hm => by
        obtain ⟨n, rfl⟩ : ∃ k, n = k + 1 := ⟨n - 1, by omega⟩
        obtain ⟨m, rfl⟩ : ∃ k, m = k + 1 := ⟨m - 1, by omega⟩
        exact eqv_unary (ih n m (by omega) (by omega))
    have hv : ∀ n m, 3 * N + 1 ≤ n → 3 * N + 1 ≤ m → Eqv (rule n .unaryNf) (rule m .unaryNf) (N + 1) :=
      fun n m hn hm => by
        obtain ⟨n, rfl⟩ : ∃ k, n = k + 1 := ⟨n - 1, by omega⟩
        obtain ⟨m, rfl⟩ : ∃ k, m = k + 1 := ⟨m - 1, by omega⟩
        exact eqv_unaryNf (ih n m (by omega) (by omega))
    have hm : ∀ n m, 3 * N + 2 ≤ n → 3 * N + 2 ≤ m → Eqv (rule n .mp) (rule m .mp) (N + 1) :=
      fun n m hn hm => by
        obtain ⟨n, rfl⟩ : ∃ k, n = k + 1 := ⟨n - 1, by omega⟩
        obtain ⟨m, rfl⟩ : ∃ k, m = k + 1 := ⟨m - 1, by omega⟩
        exact eqv_chain (hu n m (by omega) (by omega))
    intro n m hn hm' nt
    obtain ⟨n, rfl⟩ : ∃ k, n = k + 1 := ⟨n - 1, by omega⟩
    obtain ⟨m, rfl⟩ : ∃ k, m = k + 1 := ⟨m - 1, by omega⟩
    cases nt with
    | expr => exact eqv_chain (hm n m (by omega) (by omega))
    | mp => exact hm _ _ (by omega) (by omega)
    | mpNf => exact eqv_chain (hv n m (by omega) (by omega))
    | unary => exact hu _ _ (by omega) (by omega)
    | unaryNf => exact hv _ _ (by omega) (by omega)
    | atom => exact eqv_atom (ih n m (by omega) (by omega))

section
variable {n m N : Nat} (hn : 3 * N ≤ n) (hm : 3 * N ≤ m)
include hn hm

theorem eqv_relation : Eqv (relation n) (relation m) N := eqv_chain (eqv_rules N n m hn hm .expr)

theorem eqv_relationItems : Eqv (relationItems n) (relationItems m) N := by
  have h := eqv_relation hn hm
  exact .cons (.bind h fun _ => .bind .tk fun _ => .bind h fun _ => .map (.many (.bind .tk fun _ => h)))
    (.last (.bind h fun _ => .bind .tk fun _ => .bind h fun _ => .map (.many (.bind .tk fun _ => h))))

theorem eqv_items1 {a b : Kind} : Eqv (itemsBetween n [a] [b]) (itemsBetween m [a] [b]) N :=
  .bind (.map (.map .tk)) fun _ => .bind (eqv_relationItems hn hm) fun _ => .map (.map (.map .tk))

theorem eqv_items2 {a b c d : Kind} : Eqv (itemsBetween n [a, b] [c, d]) (itemsBetween m [a, b] [c, d]) N :=
  .bind (.bind (.map .tk) fun _ => .map (.map .tk)) fun _ => .bind (eqv_relationItems hn hm) fun _ =>
    .map (.bind (.map .tk) fun _ => .map (.map .tk))

theorem eqv_math : Eqv (math n) (math m) N := by
  have h1 : ∀ {a b : Kind}, Eqv (itemsBetween n [a] [b]) (itemsBetween m [a] [b]) N := eqv_items1 hn hm
  have h2 : ∀ {a b c d : Kind}, Eqv (itemsBetween n [a, b] [c, d]) (itemsBetween m [a, b] [c, d]) N :=
    eqv_items2 hn hm
  exact .or (.map (eqv_relation hn hm)) (.map (.cons (eqv_relationItems hn hm) (.cons h1 (.cons h1 (.cons h1
    (.cons h2 (.cons h2 (.cons h2 (.last h2)))))))))

end

/-- **C91, bound.**  The bound on the depth of the recursion does not matter: with every bound of at
least three times the number of tokens the parses are the same, in the same order. -/
theorem C91_bound (ts : List Tok) {n : Nat} (hn : 3 * ts.length ≤ n) :
    parseTokens ts = ((math n ts).find? (·.2.isEmpty)).map (·.1) := by
  rw [parseTokens, (eqv_math (N := ts.length) (n := n) (m := 4 * ts.length + 4) hn (by omega)).same ts
    (Nat.le_refl _)]

end Verif.Grammar
