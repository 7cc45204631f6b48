import Verif.Props.Several
import Verif.Props.Turned
/-
Definitions of functions such as `f(x)=...` and `f^{-1}(x)=...`, from the text to the verdict (C119).
-/

namespace Verif.Reading
open Verif Verif.L2S

/-- The left side of the definition of a function: `f(x)`, or `f^{-1}(x)`. -/
def headOf (c x : Char) : Bool → List Sign
  | false => [.letter c, .mark '(', .letter x, .mark ')']
  | true => [.letter c, .mark '^', .mark '{', .mark '-', .digit 1, .mark '}', .mark '(', .letter x, .mark ')']

end Verif.Reading

namespace Verif.Grammar
open Verif Verif.L2S Verif.Reading

section
variable {rec : NT → P T}

theorem atomExprNoSup_text {t : Tok} {r : List Tok} (h : t.kind ∈ letterKinds) (ha : Avoids r [.UNDERSCORE]) :
    First (atomExprNoSup rec) (t :: r) t.text r := by
  have h2 : P.opt (subexpr rec) r = [(none, r)] := opt_none_run ((subexpr_needs rec).avoid ha)
  refine ⟨[], ?_⟩
  simp only [atomExprNoSup, P.bind_run, P.used, nameTok_run h, List.flatMap_cons, List.flatMap_nil,
    h2, P.pure_run, List.append_nil, List.map_cons, List.map_nil]
  simp [textOf]

/-- one letter in parentheses -/
theorem callArgs_letter {k : Nat} {p x q : Tok} {r : List Tok} (hp : p.kind = .L_PAREN) (hx : x.kind ∈ letterKinds) (hq : q.kind = .R_PAREN)
    (hr : Avoids r [.R_RIGHT]) : First (callArgs (rule (k + 1))) (p :: x :: q :: r) x.text r := by
  have hav : ∀ ks, Kind.R_PAREN ∉ ks → Avoids (q :: r) ks := fun ks h => avoids_cons (by rw [hq]; exact h)
  refine (First.opt_none ((Needs.tk _).avoid (avoids_cons (by rw [hp]; decide)))).bind ((First.oneOf (by rw [hp]; decide)).bind ?_)
  have h1 : First (rule (k + 1) .atom) (x :: q :: r) (.name (nameOf x) none none) (q :: r) :=
    ⟨[], atom_letter' hx ((supexpr_needs _).avoid (hav _ (by decide))) ((subexpr_needs _).avoid (hav _ (by decide)))⟩
  have h2 : First (commonArgs (rule (k + 1))) (x :: q :: r) x.text (q :: r) := by
    have := First.used (c := [x]) (r := q :: r) (First.choice_head (ps := [
      (do let _ ← rule (k + 1) .expr
          let _ ← tk .COMMA
          pure ()),
      (do let _ ← rule (k + 1) .expr
          let _ ← tk .COMMA
          args (rule (k + 1)))]) (h1.bind (f := fun _ => (pure () : P Unit)) .pure))
    have h3 := this.bind (f := fun x => (pure (textOf x.2) : P Str)) .pure
    simpa [textOf, commonArgs] using h3
  refine h2.bind ((First.oneOf (by rw [hq]; decide)).bind ?_)
  exact (First.opt_none ((Needs.tk _).avoid hr)).bind .pure

end

/-- one factor makes an expression, also before other tokens -/
theorem expr_comp_before {k : Nat} {t : T} {ts r : List Tok} {b : Tok} (hb : b.kind ∉ [Kind.ADD, .SUB]) (ha : Avoids r (.BAR :: transposeKinds ++ afterExpr))
    (hl : r.length < (b :: ts).length)
    (h : First (comp (rule k) true) (b :: ts) t r) : First (rule (k + 3) .expr) (b :: ts) (.juxt [t]) r := by
  have h1 : First (postfix' (rule k) true) (b :: ts) t r :=
    First.bind (First.bind h (First.bind (First.many (as := []) .nil ((Needs.tk _).bind.avoid' ha (by decide +kernel))) .pure))
      (First.bind (First.many (as := []) .nil ((postfixOp_needs _).avoid' ha (by decide +kernel) (by decide +kernel))) .pure)
  have h2 : First (rule (k + 1) .unary) (b :: ts) (.juxt [t]) r :=
    First.or_right ((Needs.oneOf _).bind.skip hb) ((First.plus (Steps.one h1 hl)
      ((postfix_needs _ _).avoid' ha (by decide +kernel) (by decide +kernel))).bind .pure)
  exact chain_first (us := []) (chain_first (us := []) h2 .nil (ha.mono (by decide +kernel))) .nil (ha.mono (by decide +kernel))

section
variable {K : Type} [Field K] {I : Interp K} {free : Str → Prop}

theorem ReadsIn.letter_inv {r : List Tok} {c : Char} {ws : List Sign} {ts : List Tok} (h : ReadsIn r (.letter c :: ws) ts)
    (hc : isVariable c = true) : ∃ t ts', ts = t :: ts' ∧ t.kind ∈ letterKinds ∧ t.text = [c] ∧ ReadsIn r ws ts' := by
  obtain ⟨t, ts', rfl, h1, -, -, h4⟩ := h.var_inv (.latin hc)
  refine ⟨t, ts', rfl, h1, ?_, h4⟩
  cases h with
  | cons _ h2 _ _ => exact h2

theorem minus_one : Denotes I free (false : Bool) .expr [.mark '-', .digit 1] (-1 : K) := by
  have h : Denotes I free (false : Bool) .expr [.mark '-', .digit 1] _ :=
    .term (o := false) (.signed (.neg (.product (.factor (.power (.base (.number (num1 1))))))))
  simpa using h

/-- the tree of the left side -/
theorem head_first {c x : Char} (hc : isVariable c = true) (hx : isVariable x = true) (b : Bool) {r ts : List Tok} {k : Nat}
    (hk : 8 ≤ k) (hr : ReadsIn r (headOf c x b) ts) (ha : Avoids r (.R_RIGHT :: .BAR :: transposeKinds ++ afterExpr)) :
    ∃ sup, First (rule (k + 3) .expr) (ts ++ r) (.juxt [.fnApply [c] [x] sup]) r ∧
      (b = false → sup = none) ∧ (b = true → ∃ p, sup = some p ∧ Means I free p (-1)) := by
  obtain ⟨k, rfl⟩ : ∃ j, k = j + 1 := ⟨k - 1, by omega⟩
  have lk : ∀ {α : Type} {p : P α} {ks : List Kind} {t : Tok} {r : List Tok}, t.kind ∈ letterKinds → Needs p ks →
      (∀ k ∈ letterKinds, k ∉ ks) → p (t :: r) = [] := fun h hn hk => letter_avoid hn h hk
  have ha1 : Avoids r [.R_RIGHT] := ha.mono (by decide +kernel)
  have ha2 : Avoids r (.BAR :: transposeKinds ++ afterExpr) := ha.mono (by decide +kernel)
  cases b with
  | false =>
    obtain ⟨t, ts, rfl, t1, t2, h⟩ := hr.letter_inv hc
    obtain ⟨p, ts, rfl, p1, -, h⟩ := h.cons_inv (k := .L_PAREN) (by decide +kernel)
    obtain ⟨u, ts, rfl, u1, u2, h⟩ := h.letter_inv hx
    obtain ⟨q, ts, rfl, q1, -, h⟩ := h.cons_inv (k := .R_PAREN) (by decide +kernel)
    cases h
    refine ⟨none, ?_, fun _ => rfl, fun h => by cases h⟩
    have hp : ∀ ks, Kind.L_PAREN ∉ ks → Avoids (p :: u :: q :: r) ks := fun ks h => avoids_cons (by rw [p1]; exact h)
    have hf : First (func (rule (k + 1))) (t :: p :: u :: q :: r) (.fnApply t.text u.text none) r := by
      refine First.choice_tail (lk t1 (funcName_needs _ _).bind (by decide)) (First.choice_tail (lk t1 (funcName_needs _ _).bind (by decide))
        (First.choice_head ?_))
      refine (atomExprNoSup_text t1 (hp _ (by decide))).bind ?_
      refine (First.opt_none ((supexpr_needs _).avoid (hp _ (by decide)))).bind ?_
      exact (callArgs_letter p1 u1 q1 ha1).bind .pure
    rw [t2, u2] at hf
    have ho : ∀ k ∈ letterKinds, k ∉ openKinds := by decide +kernel
    have hs : ∀ k ∈ letterKinds, k ∉ [Kind.ADD, .SUB] := by decide +kernel
    exact expr_comp_before (hs _ t1) ha2 (by simp only [List.length_cons, List.append_eq, List.length_append, List.length_nil]; omega) (comp_func (avoids_cons (ho _ t1)) hf)
  | true =>
    obtain ⟨t, ts, rfl, t1, t2, h⟩ := hr.letter_inv hc
    obtain ⟨d, ts, rfl, d1, -, h⟩ := h.cons_inv (k := .CARET) (by decide +kernel)
    obtain ⟨e, ts, rfl, e1, -, h⟩ := h.cons_inv (k := .L_BRACE) (by decide +kernel)
    obtain ⟨w1, w2, rfl, g1, g2⟩ := ReadsIn.append (us := [.mark '-', .digit 1]) h
    obtain ⟨f, w2, rfl, f1, -, h⟩ := g2.cons_inv (k := .R_BRACE) (by decide +kernel)
    obtain ⟨p, ts, rfl, p1, -, h⟩ := h.cons_inv (k := .L_PAREN) (by decide +kernel)
    obtain ⟨u, ts, rfl, u1, u2, h⟩ := h.letter_inv hx
    obtain ⟨q, ts, rfl, q1, -, h⟩ := h.cons_inv (k := .R_PAREN) (by decide +kernel)
    cases h
    obtain ⟨m, m1, m2⟩ := (parsed (minus_one (I := I) (free := free))).expr_first (k := k + 1) g1 (by simp) (by simpa using hk)
      (avoids_cons (by rw [f1]; decide +kernel))
    refine ⟨some m, ?_, fun h => (by cases h), fun _ => ⟨m, rfl, m2⟩⟩
    have hts : (t :: d :: e :: (w1 ++ [f, p, u, q])) ++ r = t :: d :: e :: (w1 ++ f :: p :: u :: q :: r) := by simp
    have hm : First (supexpr (rule (k + 1))) (d :: e :: (w1 ++ f :: p :: u :: q :: r)) m (p :: u :: q :: r) := by
      refine (First.tk d1).bind (First.or_right ((atom_needs (rule k)).skip (by rw [e1]; decide +kernel)) ?_)
      exact (First.tk e1).bind (First.bind (by simpa using m1) ((First.tk f1).bind .pure))
    have hf : First (func (rule (k + 1))) (t :: d :: e :: (w1 ++ f :: p :: u :: q :: r)) (.fnApply t.text u.text (some m)) r := by
      refine First.choice_tail (lk t1 (funcName_needs _ _).bind (by decide)) (First.choice_tail (lk t1 (funcName_needs _ _).bind (by decide))
        (First.choice_head ?_))
      refine (atomExprNoSup_text t1 (avoids_cons (by rw [d1]; decide))).bind ?_
      exact (First.opt_some hm).bind ((callArgs_letter p1 u1 q1 ha1).bind .pure)
    rw [t2, u2] at hf
    have ho : ∀ k ∈ letterKinds, k ∉ openKinds := by decide +kernel
    have hs : ∀ k ∈ letterKinds, k ∉ [Kind.ADD, .SUB] := by decide +kernel
    rw [hts]
    exact expr_comp_before (hs _ t1) ha2 (by simp only [List.length_cons, List.length_append]; omega) (comp_func (avoids_cons (ho _ t1)) hf)

/-- the tree of the equation -/
theorem parseTokens_definition {c x : Char} (hc : isVariable c = true) (hx : isVariable x = true) {b wide : Bool} {vs : List Sign} {y : K}
    (hv : Denotes I free wide .expr vs y) {ts : List Tok} (hr : Reads (headOf c x b ++ .mark '=' :: vs) ts) (ho : OneDiff ts) :
    ∃ sup t, parseTokens ts = some (.one (.rel .assignment (.juxt [.fnApply [c] [x] sup]) t)) ∧ Means I free t y ∧
      (b = false → sup = none) ∧ (b = true → ∃ p, sup = some p ∧ Means I free p (-1)) := by
  have hin : ReadsIn [] (headOf c x b ++ .mark '=' :: vs) ts := .mk hr (by simpa using ho)
  have hlen := hin.length
  have h4 : 4 ≤ (headOf c x b).length := by cases b <;> simp [headOf]
  simp only [List.length_append, List.length_cons] at hlen
  obtain ⟨t1, t2, rfl, a1, a2⟩ := hin.append
  obtain ⟨e, t2, rfl, b1, -, b2⟩ := a2.cons_inv (k := .ASSIGNMENT) (by decide +kernel)
  generalize hn : 4 * (t1 ++ e :: t2).length + 4 = n
  have hlen2 : (t1 ++ e :: t2).length = (headOf c x b).length + (vs.length + 1) := hlen
  obtain ⟨k, rfl⟩ : ∃ k, n = k + 3 := ⟨n - 3, by omega⟩
  obtain ⟨sup, c1, c2, c3⟩ := head_first (I := I) (free := free) hc hx b (k := k) (by omega) a1 (avoids_cons (by rw [b1]; decide +kernel))
  obtain ⟨t, d1, d2⟩ := (parsed hv).expr_first b2 (not_nil hv) (k := k + 3) (by omega) (fun k hk => by simp [nextKind] at hk)
  refine ⟨sup, t, ?_, d2, c2, c3⟩
  have hs : Steps (operand relKinds (rule (k + 3) .expr)) (e :: (t2 ++ [])) [(e.kind, t)] [] := by
    refine .cons (r := []) ?_ (by simp) .nil
    exact First.bind (First.oneOf (by rw [b1]; decide +kernel)) (First.bind d1 .pure)
  have := chain_first (mk := relMk) c1 hs (fun k hk => by simp [nextKind] at hk)
  simp only [List.foldl_cons, List.foldl_nil, b1, relMk, relTok, List.append_nil] at this
  have h1 : First (relation (k + 3)) (t1 ++ e :: t2) (.rel .assignment (.juxt [.fnApply [c] [x] sup]) t) [] := by
    rw [relation_eq]
    exact this
  have key : Whole (math (k + 3)) (t1 ++ e :: t2) (.one (.rel .assignment (.juxt [.fnApply [c] [x] sup]) t)) :=
    Whole.left (Whole.map (f := MathTree.one) h1.whole)
  rw [Whole] at key
  rw [parseTokens, hn, key]
  rfl

theorem head_marks : [Sign.mark '(', .mark ')', .mark '^', .mark '{', .mark '}', .mark '-', .mark '='].all
    (fun w => tokenOk w && w != .mark '_' && boxed [w]) = true := by decide +kernel

theorem letter_expr {c : Char} (hc : isVariable c = true) : Denotes I (fun _ => True) (false : Bool) .expr [.letter c] (I.sym [c] I.real) :=
  .term (o := false) (.signed (.product (.factor (.power (.base (.letter (.latin hc) trivial))))))

theorem definition_signs {c x : Char} (hc : isVariable c = true) (hx : isVariable x = true) {b wide : Bool} {vs : List Sign} {y : K}
    (hv : Denotes I free wide .expr vs y) : (∀ w ∈ headOf c x b ++ .mark '=' :: vs, isToken w) ∧
      List.IsChain subOk (headOf c x b ++ .mark '=' :: vs) ∧ boxed (headOf c x b ++ .mark '=' :: vs) = true := by
  have hl : ∀ {c}, isVariable c = true → isToken (.letter c) ∧ Sign.letter c ≠ .mark '_' ∧ boxed [.letter c] = true := fun {c} h =>
    ⟨denotes_kinds (letter_expr (I := I) h) _ (by simp), by simp, boxed_denotes (letter_expr (I := I) h) rfl⟩
  have hd : isToken (.digit 1) ∧ Sign.digit 1 ≠ .mark '_' ∧ boxed [.digit 1] = true := ⟨⟨_, .digit⟩, by simp, by decide +kernel⟩
  have hm : ∀ w ∈ [Sign.mark '(', .mark ')', .mark '^', .mark '{', .mark '}', .mark '-', .mark '='],
      isToken w ∧ w ≠ .mark '_' ∧ boxed [w] = true := by
    intro w hw
    have := List.all_eq_true.1 head_marks w hw
    simp only [Bool.and_eq_true, bne_iff_ne] at this
    exact ⟨tokenOk_token this.1.1, this.1.2, this.2⟩
  have all : ∀ w ∈ headOf c x b ++ [.mark '='], isToken w ∧ w ≠ .mark '_' ∧ boxed [w] = true := by
    intro w hw
    cases b <;> simp only [headOf, List.cons_append, List.nil_append, List.mem_cons, List.not_mem_nil, or_false] at hw
    · rcases hw with rfl | rfl | rfl | rfl | rfl
      · exact hl hc
      · exact hm _ (by simp)
      · exact hl hx
      · exact hm _ (by simp)
      · exact hm _ (by simp)
    · rcases hw with rfl | rfl | rfl | rfl | rfl | rfl | rfl | rfl | rfl | rfl
      · exact hl hc
      · exact hm _ (by simp)
      · exact hm _ (by simp)
      · exact hm _ (by simp)
      · exact hd
      · exact hm _ (by simp)
      · exact hm _ (by simp)
      · exact hl hx
      · exact hm _ (by simp)
      · exact hm _ (by simp)
  rw [show headOf c x b ++ .mark '=' :: vs = (headOf c x b ++ [.mark '=']) ++ vs by simp]
  refine ⟨?_, (chain_plain (fun w hw => (all w hw).2.1) (denotes_sub hv).1 (denotes_sub hv).2).1, ?_⟩
  · intro w hw
    rcases List.mem_append.1 hw with hw | hw
    · exact (all w hw).1
    · exact denotes_kinds hv w hw
  · rw [boxed_append (boxed_all fun w hw => (all w hw).2.2)]
    exact boxed_denotes hv rfl

section
variable [CharZero K] {Y : Type} {L : Lib Y}

/-- The left side that is returned: the function `c` of SymPy applied to the symbol `x`, or one over it. -/
def HeadOf (I : Interp K) (L : Lib Y) (c x : Char) (b : Bool) (l : SV) : Prop :=
  ∃ v a y y', L.call (s%"Function " ++ [c]) [a] y = (.ok v, y') ∧ a.scalar = true ∧ den I a = I.sym [x] I.real ∧
    if b then ∃ e, l = .pow v e ∧ e.scalar = true ∧ den I e = -1 else l = v

theorem letter_written (x : Char) : Written [.letter x] [x] := by
  have : Ends (.letter x) [] := by
    refine ⟨fun w hw h => ?_, fun _ a ha => by simp at ha⟩
    have h2 : ∀ w ∈ reserved, 2 ≤ w.length := by decide +kernel
    have := h2 w hw
    have := h.length_le
    simp only [List.length_cons, List.length_nil] at this
    omega
  exact .cons (b := []) (by simp [Verif.Reading.blanks]) this (.nil (b := []) (by simp [Verif.Reading.blanks]))

/-- **C119**, the text. -/
theorem C119_text (hL : SoundLib I L) (hp : ∀ s t, parseText s = some t → L.parse s = .ok t) {c x : Char} (hc : isVariable c = true)
    (hx : isVariable x = true) {b wide : Bool} {vs : List Sign} {y : K} (hv : Denotes I free wide .expr vs y) (hf : free [x]) {s : Str}
    (hw : Written (headOf c x b ++ .mark '=' :: vs) s)
    (hF : ∀ a y, a.scalar = true → ∃ v y', L.call (s%"Function " ++ [c]) [a] y = (.ok v, y') ∧ v.scalar = true)
    (n : Nat) (vals : List (Str × PV)) (w : World (St Y)) (hr : Ready I free w) :
    ∃ l r w', latex2sympy L (n + 2) s vals w = (.ok (.rel s%"=" l r), w') ∧ HeadOf I L c x b l ∧ r.scalar = true ∧ den I r = y := by
  obtain ⟨c1, c2, c3⟩ := definition_signs hc hx (b := b) hv
  obtain ⟨ts, h1, h2⟩ := lex_written hw c1
  obtain ⟨sup, t, h3, h4, h5, h6⟩ := parseTokens_definition hc hx hv h2 (oneDiff_of_apart h2 (apart_of_boxed c3))
  have hpt : L.parse (prepare s) = .ok (.one (.rel .assignment (.juxt [.fnApply [c] [x] sup]) t)) := by
    rw [prepare_written hw c1 c2]
    exact hp _ _ (by rw [parseText, h1]; exact h3)
  let w0 : World (St Y) := ⟨⟨{ w.ext.g with fracType := fracTypeOf s w.ext.g.fracType, values := vals }, w.ext.lib⟩, w.out⟩
  have hr0 : Ready I free w0 := hr
  have hlx : Denotes I free (false : Bool) .expr [.letter x] (I.sym [x] I.real) :=
    .term (o := false) (.signed (.product (.factor (.power (.base (.letter (.latin hx) hf))))))
  have hwx : Written [.letter x] [x] := letter_written x
  obtain ⟨a, w1, a1, a2, a3, a4⟩ := latex2sympy_ready hL hp hwx hlx n vals w0 hr0
  have hcomma : ',' ∉ [x] := by
    rintro h
    simp only [List.mem_singleton] at h
    subst h
    revert hx
    decide
  have hargs : argList (latex2sympy L (n + 1)) (applyArgs [x]) w0 = (.ok [a], w1) := by
    have : applyArgs [x] = [[x]] := by
      rw [applyArgs, show (s%"," : Str) = [','] from rfl, split_one_none ',' _ hcomma]
      simp
    rw [this]
    simp only [argList, M.bind_run, getG, M.ext]
    simp only [w0, a1, M.pure_run] at a1 ⊢
  have hleft : ∃ l w2, conv L (latex2sympy L (n + 1)) (.juxt [.fnApply [c] [x] sup]) w0 = (.ok l, w2) ∧ HeadOf I L c x b l ∧
      l.scalar = true ∧ Ready I free w2 := by
    cases b with
    | false =>
      rw [h5 rfl]
      obtain ⟨v, y', f1, f2⟩ := hF a w1.ext.lib a2
      let w2 : World (St Y) := ⟨⟨w1.ext.g, y'⟩, w1.out⟩
      have hev : L.ev (s%"Function " ++ [c]) [a] w1 = (.ok v, w2) := by simp only [Lib.ev, libExt, M.ext, f1, w2]
      refine ⟨v, w2, ?_, ⟨v, a, _, _, f1, a2, a3, by simp⟩, f2, a4⟩
      rw [conv, convJuxt, conv]
      simp only [M.bind_run, hargs, hev]
      rw [postKind_scalar f2]
      simp [M.pure_run]
    | true =>
      obtain ⟨p, rfl, hm⟩ := h6 rfl
      obtain ⟨e, w2, e1, e2, e3, e4, -⟩ := C62_conversion_partial I L hL (latex2sympy L (n + 1)) hm w1 a4
      obtain ⟨v, y', f1, f2⟩ := hF a w2.ext.lib a2
      let w3 : World (St Y) := ⟨⟨w2.ext.g, y'⟩, w2.out⟩
      have hev : L.ev (s%"Function " ++ [c]) [a] w2 = (.ok v, w3) := by simp only [Lib.ev, libExt, M.ext, f1, w3]
      have hs : (SV.pow v e).scalar = true := by simp [SV.scalar, f2, e2]
      refine ⟨.pow v e, w3, ?_, ⟨v, a, _, _, f1, a2, a3, by simp [e2, e3]⟩, hs, a4.keep e4⟩
      rw [conv, convJuxt, conv]
      simp only [M.bind_run, hargs, e1, hev, mkPow, scalar_plain f2, scalar_plain e2, Bool.and_self, if_true, M.pure_run]
      rw [postKind_scalar hs]
      simp [M.pure_run]
  obtain ⟨l, w2, l1, l2, l3, l4⟩ := hleft
  obtain ⟨r, w3, r1, r2, r3, -⟩ := C62_conversion_partial I L hL (latex2sympy L (n + 1)) h4 w2 l4
  refine ⟨l, r, w3, ?_, l2, r2, r3⟩
  rw [latex2sympy]
  simp only [M.bind_run, modG, M.ext, M.lift_run, hpt]
  have : conv L (latex2sympy L (n + 1)) (.rel .assignment (.juxt [.fnApply [c] [x] sup]) t) w0 = (.ok (.rel s%"=" l r), w3) := by
    rw [conv]
    simp only [M.bind_run, l1, r1, convertRel, mkRel, scalar_plain l3, scalar_plain r2, Bool.and_self, if_true]
    rfl
  exact this

end

end

end Verif.Grammar

namespace Verif.L2S
open Verif Verif.Reading Verif.Grammar

section
variable {K : Type} [Field K] [LinearOrder K] [IsStrictOrderedRing K] {X V Y S : Type}

/-- SymPy's functions `Function('f')`: the value at a symbol is the value of a named function, and so is one over its power -1. -/
def Applies (E : Env X V S) (L : Lib Y) (I : Interp K) (inj : SV → V) : Prop :=
  ∀ c a y, isVariable c = true → a.scalar = true → ∃ v y', L.call (s%"Function " ++ [c]) [a] y = (.ok v, y') ∧ v.scalar = true ∧
    Verif.Names E (inj v) true ∧ ∀ e, e.scalar = true → (∀ ρ, den (I.vars ρ) e = -1) → Verif.Names E (inj (.pow v e)) true

/-- An answer `f(x)=...` or `f^{-1}(x)=...`, whose right side has the value `g` for all values of the variables.  `P` says what its
right side is to SymPy. -/
structure FunctionAnswer (E : Env X V S) (I : Interp K) (inj : SV → V) (P : V → Prop) (s : Str) (g : (Str → K) → K) : Prop where
  tidy : Tidy s
  single : Single s
  notInt : ∀ q, pyFloat E.U s = some q → isIntFloat q = false
  written : ∃ c x, ∃ b : Bool, ∃ vs, ∃ free : Str → Prop, ∃ wide : Bool, isVariable c = true ∧ isVariable x = true ∧ free [x] ∧
    Written (headOf c x b ++ .mark '=' :: vs) s ∧ ∀ ρ, Denotes (I.vars ρ) free wide .expr vs (g ρ)
  right : ∀ r : SV, r.scalar = true → (∀ ρ, den (I.vars ρ) r = g ρ) → P (inj r)

/-- What the comparison gets to see of the answer: its normal form is one expression, which is read as something with the property
`P`, or as the definition of a name to be such a thing. -/
def Presents (E : Env X V S) (n : Nat) (P : V → Prop) (a : Str) : Prop :=
  strip a = a ∧ ∃ s, Always (stringNormalize E n a) (.str s) ∧ Single s ∧ ReadsAs E s (Stated E P)

variable {E : Env X V S} {L : Lib Y} {I : Interp K} {Is Ev : V → K → Prop} {Fun : V → List Str → ((Str → K) → K) → Prop}
  {inj : SV → V} {N : Nat}

theorem isEquiv_presents {s t : Str} {P Q : V → Prop} (hP : ∀ v, P v → E.view v = .expr false) (hQ : ∀ v, Q v → E.view v = .expr false)
    (n : Nat) (hs : Presents E (n + 2) P s) (ht : Presents E (n + 2) Q t) {r : Bool}
    (h : ∀ n g v, P g → Q v → Always (areEqual E (n + 1) g v .expr .expr) r)
    (hself : ∀ n g v, P g → P v → Always (areEqual E (n + 1) g v .expr .expr) true) (verbose : Bool) :
    Always (isEquiv E (n + 3) (some s) (some t) verbose) r := by
  obtain ⟨s1, s', s2, s3, s4⟩ := hs
  obtain ⟨t1, t', t2, t3, t4⟩ := ht
  exact isEquiv_by_cas (n + 2) s1 t1 s2 t2 s3 t3
    (areEqualUnderSympy_by s4 t4 (fun _ _ hg hv => eqTyped_definitions hP hQ h n hg hv) verbose)
    (areEqualUnderSympy_by s4 s4 (fun _ _ hg hv => eqTyped_definitions hP hP hself n hg hv) verbose)

section
variable (hL : SoundLib I L) (hp : ∀ s t, parseText s = some t → L.parse s = .ok t) (hl : UsesUndeclared E L (N + 1) inj I.real)
  (hr : SeesRelations E inj) (hA : Applies E L I inj)
include hL hp hl hr hA

theorem FunctionAnswer.defines {s : Str} {g : (Str → K) → K} {P : V → Prop} (h : FunctionAnswer E I inj P s g) :
    ReadsAs E s (Stated E P) := by
  have key : RetP (E.l2s s) fun v => ∃ l r, v = inj (.rel s%"=" l r) ∧ Verif.Names E (inj l) true ∧ P (inj r) := by
    intro x
    obtain ⟨c, z, b, vs, free, wide, hc, hz, hf, hw, hd⟩ := h.written
    obtain ⟨w, ⟨h1, h2, _⟩, he⟩ := hl s x
    have key : ∀ ρ, ∃ l r w', latex2sympy L (N + 2) s [] w = (.ok (.rel s%"=" l r), w') ∧ HeadOf (I.vars ρ) L c z b l ∧
        r.scalar = true ∧ den (I.vars ρ) r = g ρ := fun ρ =>
      C119_text (hL.vars ρ) hp hc hz (hd ρ) hf hw (fun a y ha => by
        obtain ⟨v, y', k1, k2, _⟩ := hA c a y hc ha
        exact ⟨v, y', k1, k2⟩) N [] w ⟨h1, fun n _ => by rw [h2]; rfl⟩
    obtain ⟨l, r, w', e, hh, hs, _⟩ := key fun _ => 0
    have all : ∀ ρ, HeadOf (I.vars ρ) L c z b l ∧ den (I.vars ρ) r = g ρ := by
      intro ρ
      obtain ⟨l', r', w'', e', h1, _, h2⟩ := key ρ
      rw [e] at e'
      cases e'
      exact ⟨h1, h2⟩
    rw [e] at he
    refine ⟨inj (.rel s%"=" l r), (E.l2s s x).2, Prod.ext he rfl, l, r, rfl, ?_, h.right r hs fun ρ => (all ρ).2⟩
    obtain ⟨v, a, y, y', k1, k2, -, k3⟩ := hh
    obtain ⟨v', y'', m1, -, m3, m4⟩ := hA c a y hc k2
    rw [k1] at m1
    cases m1
    cases b with
    | false =>
      simp only [Bool.false_eq_true, if_false] at k3
      rw [k3]
      exact m3
    | true =>
      simp only [if_true] at k3
      obtain ⟨u, rfl, k4, -⟩ := k3
      refine m4 u k4 fun ρ => ?_
      obtain ⟨⟨v', a', _, _, _, _, _, q⟩, _⟩ := all ρ
      simp only [if_true] at q
      obtain ⟨e', q1, -, q2⟩ := q
      cases q1
      exact q2
  refine (readsAs_alone ?_ key).mono ?_
  · rintro _ ⟨l, r, rfl, _⟩
    exact hr.truth _ l r
  · rintro vs ⟨h1, h2⟩
    refine ⟨fun v hv => ?_, h2⟩
    obtain ⟨l, r, rfl, h3, h4⟩ := h1 v hv
    exact .inr ⟨inj l, inj r, hr.equation l r, h3, h4⟩

theorem FunctionAnswer.presents {s : Str} {g : (Str → K) → K} {P : V → Prop} (h : FunctionAnswer E I inj P s g) (n : Nat) :
    Presents E (n + 1) P s :=
  ⟨strip_of_no_space _ fun _ hc => h.tidy.space hc, s, h.tidy.fixed E n h.notInt, h.single, h.defines hL hp hl hr hA⟩

end

variable (E L N I inj Is Fun) in
/-- An answer that gives a formula `g` in the variables `a`: the formula alone, the definition of a name, or the values of a function. -/
inductive Formulated (s : Str) (a : List Str) (g : (Str → K) → K) : Prop
  | plain : FunAnswer E I inj Fun s a g → Formulated s a g
  | name {f} : DefinitionAnswer E L (N + 1) I inj Fun s a f g → Formulated s a g
  | function : FunctionAnswer E I inj (Fun · a g) s g → a ≠ [] → (∃ k ∈ a, E.symName k ≠ s%"i") → Formulated s a g

variable (E L N I inj Is Fun) in
/-- An answer that gives a number `p`: the number alone, the definition of a name, or the constant value of a function. -/
inductive Numbered (s : Str) (p : K) : Prop
  | plain : NumAnswer E I inj Is s p → Numbered s p
  | name {f} : Statement E L (N + 1) I inj s s%"=" f (fun _ => p) (fun l r => Verif.Names E l true ∧ Is r p) → Numbered s p
  | function : FunctionAnswer E I inj (Is · p) s (fun _ => p) → Numbered s p

section
variable (hL : SoundLib I L) (hp : ∀ s t, parseText s = some t → L.parse s = .ok t) (hl : UsesUndeclared E L (N + 1) inj I.real)
  (hr : SeesRelations E inj) (hA : Applies E L I inj)
include hL hp hl hr hA

theorem Formulated.presents (H : FunArith E Is Ev Fun) {s : Str} {a : List Str} {g : (Str → K) → K} (h : Formulated E L I Fun inj N s a g)
    (n : Nat) : Presents E (n + 1) (Fun · a g) s ∧ a ≠ [] ∧ ∃ k ∈ a, E.symName k ≠ s%"i" := by
  cases h with
  | plain h =>
    have hf := h.reads hL hp hl
    exact ⟨⟨strip_of_no_space _ fun _ hc => h.tidy.space hc, s, h.tidy.fixed E n h.notInt, h.single,
      (sympyParse_real E (fun v h => ⟨_, H.view h⟩) hf.parseExpr hf.l2s).mono fun vs hv => ⟨fun v hm => .inl (hv.1 v hm), hv.2⟩⟩,
      h.names, h.notI⟩
  | name h =>
    exact ⟨⟨strip_of_no_space _ fun _ hc => h.1.tidy.space hc, s, h.1.tidy.fixed E n h.1.notInt, h.1.single, h.1.defines hL hp hl hr⟩,
      h.2.1, h.2.2⟩
  | function h ha hi => exact ⟨h.presents hL hp hl hr hA n, ha, hi⟩

theorem Numbered.presents (H : RealArith E Is Ev) (hE : PrintsIntegers E)
    (hlit : ∀ l : Literal, Valued E I inj Is l.text (l.value : K)) {s : Str} {p : K} (h : Numbered E L I Is inj N s p) (n : Nat) :
    Presents E (n + 1) (Is · p) s := by
  cases h with
  | plain h =>
    obtain ⟨h1, t, h2, h3, h4⟩ := h.normal hL hp hl hE hlit n
    exact ⟨h1, t, h2, h3,
      (sympyParse_real E (fun v h => ⟨_, H.view h⟩) h4.parseExpr h4.l2s).mono fun vs hv => ⟨fun v hm => .inl (hv.1 v hm), hv.2⟩⟩
  | name h =>
    exact ⟨strip_of_no_space _ fun _ hc => h.tidy.space hc, s, h.tidy.fixed E n h.notInt, h.single, h.defines hL hp hl hr⟩
  | function h => exact h.presents hL hp hl hr hA n

/-- **C119**, formulas.  A definition of a function, `f(x)=...` or `f^{-1}(x)=...`, is judged as its right side, against another such
definition, whatever the names of the function and of its argument, against a definition `y=...` and against the formula alone. -/
theorem C119_formulas_partial (H : FunArith E Is Ev Fun) {s t : Str} {a b : List Str} {g g' : (Str → K) → K}
    (hs : Formulated E L I Fun inj N s a g) (ht : Formulated E L I Fun inj N t b g') (n : Nat) (verbose : Bool) :
    ((∀ k, k ∈ a ↔ k ∈ b) → (∀ ρ, Sampled ρ → WithinTolerance (g ρ) (g' ρ)) →
      Always (isEquiv E (n + 3) (some s) (some t) verbose) true) ∧
    ((¬ NearlyConstant fun ρ => g ρ - g' ρ) → ((¬ ∀ k, k ∈ a ↔ k ∈ b) ∨ ∀ ρ, Sampled ρ → ¬ WithinTolerance (g ρ) (g' ρ)) →
      Always (isEquiv E (n + 3) (some s) (some t) verbose) false) := by
  obtain ⟨rs, ha, hia⟩ := hs.presents hL hp hl hr hA H (n + 1)
  obtain ⟨rt, hb, hib⟩ := ht.presents hL hp hl hr hA H (n + 1)
  have key : ∀ {r : Bool}, Decided a b g g' r → Always (isEquiv E (n + 3) (some s) (some t) verbose) r := fun hv =>
    isEquiv_presents (fun _ h => H.view h) (fun _ h => H.view h) n rs rt
      (fun n _ _ hg hv' => areEqual_fun H n hg hv' ha hb hia hib hv)
      (fun n _ _ hg hv' => areEqual_fun H n hg hv' ha ha hia hia (decided_refl _ _)) verbose
  exact ⟨fun h1 h2 => key (r := true) ⟨h1, h2⟩, fun h1 h2 => key (r := false) ⟨h1, h2⟩⟩

open Classical in
/-- **C119**, numbers.  A definition of a function by a number is judged as the number: against another, against `y=...` and against a
number, exactly by the tolerance. -/
theorem C119_numbers (H : RealArith E Is Ev) (hE : PrintsIntegers E) (hlit : ∀ l : Literal, Valued E I inj Is l.text (l.value : K))
    {s t : Str} {p q : K} (hs : Numbered E L I Is inj N s p) (ht : Numbered E L I Is inj N t q) (n : Nat) (verbose : Bool) :
    Always (isEquiv E (n + 3) (some s) (some t) verbose) (decide (WithinTolerance p q)) :=
  isEquiv_presents (fun _ h => H.view h) (fun _ h => H.view h) n (hs.presents hL hp hl hr hA H hE hlit (n + 1))
    (ht.presents hL hp hl hr hA H hE hlit (n + 1)) (fun n _ _ hg hv => areEqual_real H n hg hv)
    (fun n _ _ hg hv => by
      have := areEqual_real H n hg hv
      rwa [withinTolerance_refl p] at this) verbose

/-- **C119**, a number and a formula.  They are judged not equivalent, however they are stated. -/
theorem C119_unlike (H : FunArith E Is Ev Fun) (Mx : MixedArith E Is Ev Fun) (hE : PrintsIntegers E)
    (hlit : ∀ l : Literal, Valued E I inj Is l.text (l.value : K)) {s t : Str} {p : K} {a : List Str} {g : (Str → K) → K}
    (hs : Numbered E L I Is inj N s p) (ht : Formulated E L I Fun inj N t a g) (hc : Varies g) (n : Nat) (verbose : Bool) :
    Always (isEquiv E (n + 3) (some s) (some t) verbose) false ∧ Always (isEquiv E (n + 3) (some t) (some s) verbose) false := by
  obtain ⟨rt, hb, hib⟩ := ht.presents hL hp hl hr hA H (n + 1)
  have rs := hs.presents hL hp hl hr hA H.numbers hE hlit (n + 1)
  exact ⟨isEquiv_presents (fun _ h => H.numbers.view h) (fun _ h => H.view h) n rs rt
      (fun n _ _ hg hv => (areEqual_mixed H Mx n hg hv hib hc).1)
      (fun n _ _ hg hv => by
        have := areEqual_real H.numbers n hg hv
        rwa [withinTolerance_refl p] at this) verbose,
    isEquiv_presents (fun _ h => H.view h) (fun _ h => H.numbers.view h) n rt rs
      (fun n _ _ hg hv => (areEqual_mixed H Mx n hv hg hib hc).2)
      (fun n _ _ hg hv => areEqual_fun H n hg hv hb hb hib hib (decided_refl _ _)) verbose⟩

end

end

/-! ### The hypotheses are met -/

open Classical in
/-- The CAS of functions with one more step for the conversion; the values of named functions are taken to be 0, and that is how they
are recognised. -/
noncomputable def callEnv : Env Unit FV Unit :=
  { funEnv with
    l2s := fun s x => ((latex2sympy grammarLib 2 s [] ⟨⟨Globals.init, x⟩, []⟩).1.map asFun, x)
    isNamedFunction := fun v => gives (decide (v = .fn fun _ => 0)) }

theorem callEnv_uses : UsesUndeclared callEnv grammarLib 1 asFun none := by
  intro s x
  refine ⟨⟨⟨Globals.init, x⟩, []⟩, ⟨rfl, rfl, rfl⟩, ?_⟩
  simp only [callEnv]

theorem callEnv_relations : SeesRelations callEnv asFun :=
  ⟨funEnv_relations.equation, funEnv_relations.relation, funEnv_relations.truth⟩

theorem callEnv_numbers : RealArith callEnv IsConst IsConst :=
  ⟨funEnv_numbers.view, funEnv_numbers.freeSyms, funEnv_numbers.isNumber, funEnv_numbers.evalf, funEnv_numbers.ev, funEnv_numbers.expandEq,
    funEnv_numbers.sub, funEnv_numbers.isZero, funEnv_numbers.isInteger, funEnv_numbers.abs, funEnv_numbers.ltThr, funEnv_numbers.ge1,
    funEnv_numbers.gt0, funEnv_numbers.div⟩

theorem callEnv_arith : FunArith callEnv IsConst IsConst IsFun :=
  ⟨callEnv_numbers, funEnv_arith.subEv, funEnv_arith.isZeroIs, funEnv_arith.view, funEnv_arith.freeSyms, funEnv_arith.isNumber,
    funEnv_arith.expandEq, funEnv_arith.sub, funEnv_arith.simplify, funEnv_arith.isZero, funEnv_arith.evalfAt,
    funEnv_arith.randint, funEnv_arith.uniform⟩

theorem callEnv_mixed : MixedArith callEnv IsConst IsConst IsFun :=
  ⟨funEnv_mixed.expandEq, funEnv_mixed.expandEq', funEnv_mixed.sub, funEnv_mixed.sub'⟩

theorem callEnv_valued (s : Str) (x : ℝ) : Valued callEnv reals asFun IsConst s x where
  value v hv h := by rw [asFun_scalar hv, funext h]; rfl
  parseExpr := (funEnv_valued s x).parseExpr

theorem callEnv_prints : PrintsIntegers callEnv := by
  intro z x
  right
  have key : ∀ ρ, ∃ v w', latex2sympy grammarLib 2 (intStr z) [] ⟨⟨Globals.init, x⟩, []⟩ = (.ok v, w') ∧ v.scalar = true ∧
      den (reals.vars ρ) v = z := by
    intro ρ
    obtain ⟨ws, hw, hd⟩ := literal_denotes (reals.vars ρ) false (Literal.ofInt z)
    obtain ⟨v, w', h1, h2, h3⟩ := latex2sympy_closed ((nodeLib_sound _ none _).vars ρ) grammarLib_parse hw hd 1 [] ⟨⟨Globals.init, x⟩, []⟩
    rw [Literal.ofInt_text] at h1
    rw [Literal.ofInt_value] at h3
    exact ⟨v, w', h1, h2, by rw [h3]; push_cast; rfl⟩
  obtain ⟨v, w', e, hv, _⟩ := key fun _ => 0
  have hden : IsConst (asFun v) z := by
    rw [asFun_scalar hv]
    show FV.fn _ = FV.fn _
    congr 1
    funext ρ
    obtain ⟨v', w'', e', _, h'⟩ := key ρ
    rw [e] at e'
    cases e'
    exact h'
  have h : ∃ z : ℤ, IsConst (asFun v) z := ⟨z, hden⟩
  have hz : h.choose = z := by
    have := hden.unique.1 h.choose_spec
    exact_mod_cast this.symm
  refine ⟨asFun v, x, x, ?_, ?_⟩
  · simp only [callEnv]
    rw [e]
    rfl
  · simp only [callEnv, funEnv, gives]
    rw [dif_pos h, hz]

theorem callEnv_named {f : (Str → ℝ) → ℝ} (h : f = fun _ => 0) : Verif.Names callEnv (.fn f) true := by
  subst h
  intro x
  classical
  refine ⟨.fn fun _ => 1 / 0, x, rfl, true, decide (FV.fn (fun _ => 1 / 0) = .fn fun _ => 0),
    decide (∃ k, FV.fn (fun _ => 0) = .fn fun ρ => ρ k), fun y => ⟨y, ?_⟩, fun y => ⟨y, ?_⟩, fun y => ⟨y, ?_⟩, by simp⟩
  · simp [callEnv, gives]
  · simp only [callEnv, gives]
  · simp only [callEnv, funEnv, gives]

theorem callEnv_applies : Applies callEnv grammarLib reals asFun := by
  intro c a y _ ha
  have hz : ∀ ρ, den (reals.vars ρ) (.fn (s%"Function " ++ [c]) [a]) = 0 := by
    intro ρ
    have : realFn (s%"Function " ++ [c]) [den (reals.vars ρ) a] = 0 := by simp [realFn]
    simp only [den, denList]
    exact this
  have hn : binderNode (s%"Function " ++ [c]) [a] = none := by
    simp [binderNode]
  refine ⟨.fn (s%"Function " ++ [c]) [a], y, ?_, by simp [SV.scalar, SV.scalars, ha], callEnv_named (funext hz), fun e he h => ?_⟩
  · show (Except.ok ((binderNode _ _).getD _), y) = _
    rw [hn]
    rfl
  · refine callEnv_named (funext fun ρ => ?_)
    rw [den, hz, h]
    exact (Real.rpow_neg_one 0).trans inv_zero

theorem functionAnswer_of {s : Str} {c x : Char} {b : Bool} {vs : List Sign} {g : (Str → ℝ) → ℝ} {P : FV → Prop} (ht : tidyB s = true)
    (hs : singleB s = true) (hf : (pyFloat asciiUni s).isNone = true) (hc : isVariable c = true) (hx : isVariable x = true)
    (hw : writtenB (headOf c x b ++ .mark '=' :: vs) s = true)
    (hv : ∀ ρ, Denotes (reals.vars ρ) (fun _ => True) (false : Bool) .expr vs (g ρ)) (hP : P (.fn g)) :
    FunctionAnswer callEnv reals asFun P s g where
  tidy := tidyB_sound ht
  single := singleB_sound hs
  notInt q hq := by
    rw [show pyFloat callEnv.U s = none from Option.isNone_iff_eq_none.1 hf] at hq
    cases hq
  written := ⟨c, x, b, vs, fun _ => True, false, hc, hx, trivial, writtenB_sound hw, hv⟩
  right r hr h := by rw [asFun_scalar hr, funext h]; exact hP

/-- `f(x)=2x` -/
theorem f_twice : Formulated callEnv grammarLib reals IsFun asFun 0 s%"f(x)=2x" [s%"x"] fun ρ => 2 * ρ s%"x" :=
  .function (functionAnswer_of (c := 'f') (x := 'x') (b := false) (by decide +kernel) (by decide +kernel) (by decide +kernel) (by decide)
    (by decide) (by decide +kernel) twice_denotes ⟨rfl, supports_x (h := fun x => 2 * x) (by norm_num), by simp⟩) (by simp)
    (by simp [callEnv, funEnv])

/-- `g^{-1}(x)=2x` -/
theorem g_twice : Formulated callEnv grammarLib reals IsFun asFun 0 s%"g^{-1}(x)=2x" [s%"x"] fun ρ => 2 * ρ s%"x" :=
  .function (functionAnswer_of (c := 'g') (x := 'x') (b := true) (by decide +kernel) (by decide +kernel) (by decide +kernel) (by decide)
    (by decide) (by decide +kernel) twice_denotes ⟨rfl, supports_x (h := fun x => 2 * x) (by norm_num), by simp⟩) (by simp)
    (by simp [callEnv, funEnv])

/-- `2x` -/
theorem just_twice : Formulated callEnv grammarLib reals IsFun asFun 0 s%"2x" [s%"x"] fun ρ => 2 * ρ s%"x" := by
  have h := multiple_answer 2 (by decide) 'x' (.inl rfl)
  have e : (((2 : Fin 10).val : ℕ) : ℝ) = 2 := by norm_num
  rw [e] at h
  exact .plain ⟨h.tidy, h.single, h.notInt, h.denotes, h.value, h.parseExpr, h.names, h.notI⟩

/-- `f(x)=2x` and `2x` are judged equivalent. -/
example (n : Nat) (verbose : Bool) : Always (isEquiv callEnv (n + 3) (some s%"f(x)=2x") (some s%"2x") verbose) true :=
  (C119_formulas_partial (nodeLib_sound _ none _) grammarLib_parse callEnv_uses callEnv_relations callEnv_applies callEnv_arith
    f_twice just_twice n verbose).1 (fun _ => Iff.rfl) fun _ _ => .inl rfl

/-- `f(x)=3` and `3` are judged equivalent; `f(x)=3` and `g^{-1}(x)=2x` are not. -/
theorem f_three : Numbered callEnv grammarLib reals IsConst asFun 0 s%"f(x)=3" 3 :=
  .function (functionAnswer_of (c := 'f') (x := 'x') (b := false) (by decide +kernel) (by decide +kernel) (by decide +kernel) (by decide)
    (by decide) (by decide +kernel) three_denotes rfl)

example (n : Nat) (verbose : Bool) : Always (isEquiv callEnv (n + 3) (some s%"f(x)=3") (some s%"3") verbose) true := by
  have h := NumAnswer.literal (E := callEnv) (I := reals) (inj := asFun) (Is := IsConst) (Literal.ofInt 3) (ofInt_tame 3 (by decide))
  rw [Literal.ofInt_value, show (((3 : ℤ) : ℚ) : ℝ) = 3 by norm_num] at h
  have := C119_numbers (nodeLib_sound _ none _) grammarLib_parse callEnv_uses callEnv_relations callEnv_applies callEnv_numbers
    callEnv_prints (fun _ => callEnv_valued _ _) f_three (.plain h) n verbose
  rwa [withinTolerance_refl] at this

example (n : Nat) (verbose : Bool) : Always (isEquiv callEnv (n + 3) (some s%"f(x)=3") (some s%"g^{-1}(x)=2x") verbose) false :=
  (C119_unlike (nodeLib_sound _ none _) grammarLib_parse callEnv_uses callEnv_relations callEnv_applies callEnv_arith callEnv_mixed
    callEnv_prints (fun _ => callEnv_valued _ _) f_three g_twice ⟨fun _ => 0, fun _ => 1, by norm_num⟩ n verbose).1

/-- **C119**, refuted as a comparison of functions: `f(x)=2x` and `g^{-1}(x)=2x` – that is, `g(x)` is the half of `x` – are always judged
equivalent. -/
theorem C119_inverse_refuted (n : Nat) (verbose : Bool) :
    Always (isEquiv callEnv (n + 3) (some s%"f(x)=2x") (some s%"g^{-1}(x)=2x") verbose) true :=
  (C119_formulas_partial (nodeLib_sound _ none _) grammarLib_parse callEnv_uses callEnv_relations callEnv_applies callEnv_arith
    f_twice g_twice n verbose).1 (fun _ => Iff.rfl) fun _ _ => .inl rfl

end Verif.L2S
