import Verif.Props.ReadingParse
import Verif.Props.GrammarLocal
/-
The parser reads every phrase of the notation as a tree of the same value.
-/

namespace Verif.Grammar
open Verif Verif.L2S Verif.Reading

/-! ### Atoms -/

section
variable {rec : NT → P T} {r : List Tok}

theorem number_atom {us : List Sign} {q : Rat} (h : Numeral us q) {ts : List Tok} (hr : Reads us ts)
    (ha : Avoids r afterDigits) :
    First (atom rec) (ts ++ r) (.number (textOf ts)) r ∧ Decimal (textOf ts) q ∧
      ∃ t ts', ts = t :: ts' ∧ t.kind ∈ [Kind.DIGIT, .PERIOD] := by
  obtain ⟨h1, h2, h3⟩ := number_first h hr (ha.mono (by decide))
  obtain ⟨t, ts', rfl⟩ : ∃ t ts', ts = t :: ts' := by
    cases ts with
    | cons t ts => exact ⟨t, ts, rfl⟩
    | nil =>
      cases h with
      | @whole ip hip => exact absurd rfl (map_digit_ne hip hr)
      | @point ip fp _ => have := hr.length; simp at this
  have hk : t.kind ∈ [Kind.DIGIT, .PERIOD] := by
    by_contra hc
    obtain ⟨l, h1⟩ := h1
    have e : numberToks (t :: (ts' ++ r)) = [] := numberToks_needs.avoid (avoids_cons hc)
    exact absurd (h1.symm.trans e) (by simp)
  refine ⟨?_, h2, t, ts', rfl, hk⟩
  have hb : Avoids (t :: ts' ++ r) (nameKinds ++ [.SYMBOL]) :=
    avoids_cons fun hm => by
      clear h3
      revert hk hm
      generalize t.kind = k
      revert k
      decide +kernel
  refine First.choice_tail ((atomExpr_needs rec).avoid' hb (by decide +kernel)) ?_
  refine First.choice_tail ((Needs.tk _).bind.avoid' hb (by decide +kernel)) ?_
  refine First.choice_tail (by rw [P.bind_run, eNotation_fail h3 (ha.mono (by decide))]; rfl) ?_
  refine First.choice_tail (by rw [P.bind_run, percentNumber_fail h3 (ha.mono (by decide))]; rfl) ?_
  exact First.choice_head (First.bind (h1.bind .pure) .pure)

theorem percent_atom {us : List Sign} {q : Rat} (h : Numeral us q) {ts : List Tok} (hr : Reads us ts)
    {p : Tok} (hp : p.kind = .PERCENT_SIGN) (hp' : p.text = s%"\\%") :
    First (atom rec) (ts ++ p :: r) (.percent (textOf ts ++ s%"\\%")) r ∧ Decimal (textOf ts) q ∧
      ∃ t ts', ts = t :: ts' ∧ t.kind ∈ [Kind.DIGIT, .PERIOD] := by
  obtain ⟨h1, h2, h3⟩ := number_first (r := p :: r) h hr (avoids_cons (by rw [hp]; decide))
  obtain ⟨t, ts', rfl⟩ : ∃ t ts', ts = t :: ts' := by
    cases ts with
    | cons t ts => exact ⟨t, ts, rfl⟩
    | nil =>
      cases h with
      | @whole ip hip => exact absurd rfl (map_digit_ne hip hr)
      | @point ip fp _ => have := hr.length; simp at this
  have hk : t.kind ∈ [Kind.DIGIT, .PERIOD] := by
    by_contra hc
    obtain ⟨l, h1⟩ := h1
    have e : numberToks (t :: (ts' ++ p :: r)) = [] := numberToks_needs.avoid (avoids_cons hc)
    exact absurd (h1.symm.trans e) (by simp)
  refine ⟨?_, h2, t, ts', rfl, hk⟩
  have hb : Avoids (t :: ts' ++ p :: r) (nameKinds ++ [.SYMBOL]) :=
    avoids_cons fun hm => by
      clear h3
      revert hk hm
      generalize t.kind = k
      revert k
      decide +kernel
  refine First.choice_tail ((atomExpr_needs rec).avoid' hb (by decide +kernel)) ?_
  refine First.choice_tail ((Needs.tk _).bind.avoid' hb (by decide +kernel)) ?_
  refine First.choice_tail (by
    rw [P.bind_run, eNotation_fail h3 (avoids_cons (by rw [hp]; decide))]; rfl) ?_
  have : textOf (t :: ts') ++ s%"\\%" = textOf (t :: ts' ++ [p]) := by
    rw [textOf_append, textOf, textOf]; simp [hp']
  rw [this]
  exact First.choice_head (First.bind (h1.bind ((First.tk hp).bind .pure)) .pure)

/-- token types of letters and Greek letters -/
def letterKinds : List Kind := [.LETTER_NO_E, .GREEK_CMD]

/-- the name of a letter -/
def nameOf (t : Tok) : NameTok := if t.kind = .GREEK_CMD then .greek t.text else .letter t.text

/-- the parses of a name: only the letter -/
theorem nameTok_run {t : Tok} {ts : List Tok} (h : t.kind ∈ letterKinds) :
    nameTok rec (t :: ts) = [(nameOf t, ts)] := by
  rw [nameTok, P.choice_run, P.choice_run, P.choice_run, P.choice_run, nameOf]
  simp only [letterKinds, List.mem_cons, List.not_mem_nil, or_false] at h
  rcases h with h | h
  · rw [(accent_needs rec).avoid (avoids_cons (by rw [h]; decide)),
      (Needs.tk .GREEK_CMD).bind.avoid (avoids_cons (by rw [h]; decide)),
      (Needs.tk .OTHER_SYMBOL_CMD).bind.avoid (avoids_cons (by rw [h]; decide)),
      P.bind_run, tk, if_pos h, if_neg (by rw [h]; decide)]
    rfl
  · rw [(accent_needs rec).avoid (avoids_cons (by rw [h]; decide)),
      (Needs.tk .LETTER_NO_E).bind.avoid (avoids_cons (by rw [h]; decide)),
      (Needs.tk .OTHER_SYMBOL_CMD).bind.avoid (avoids_cons (by rw [h]; decide)),
      P.bind_run, tk, if_pos h, if_pos h]
    rfl

theorem greek_strip : greekNames.all (fun n => strip n == n && strip (n ++ s%" ") == n) = true := by
  decide +kernel

/-- the token of a variable -/
theorem Reads.var_inv {w : Sign} {n : Str} {ws : List Sign} {ts : List Tok} (h : Reads (w :: ws) ts)
    (hv : Variable w n) : ∃ t ts', ts = t :: ts' ∧ t.kind ∈ letterKinds ∧
      SymbolName (nameOf t) none n ∧ LimitVar (nameOf t) n ∧ Reads ws ts' := by
  cases hv with
  | @latin c hc =>
    have he : c ≠ 'e' := by rintro rfl; revert hc; decide
    have hI : c ≠ 'I' := by rintro rfl; revert hc; decide
    obtain ⟨t, t1, rfl, h1, h2, h3⟩ := h.cons_inv (k := .LETTER_NO_E) (by simp [kindOf, he])
    have : nameOf t = .letter [c] := by rw [nameOf, if_neg (by rw [h1]; decide), h2]; rfl
    exact ⟨t, t1, rfl, by rw [h1]; decide, by
      rw [this]; exact .letter (by simpa using hI), by rw [this]; exact .letter, h3⟩
  | @greek n b hn =>
    obtain ⟨t, t1, rfl, h1, h2, h3⟩ := h.cons_inv (k := .GREEK_CMD) rfl
    have hs := List.all_eq_true.1 greek_strip n hn
    simp only [Bool.and_eq_true, beq_iff_eq] at hs
    have : ∃ u, nameOf t = .greek ('\\' :: u) ∧ strip u = n := by
      rw [nameOf, if_pos h1, h2]
      cases b
      · exact ⟨n, by simp [Sign.text], hs.1⟩
      · exact ⟨n ++ s%" ", by simp [Sign.text], hs.2⟩
    obtain ⟨u, h4, h5⟩ := this
    exact ⟨t, t1, rfl, by rw [h1]; decide, by rw [h4]; exact .greek h5, by rw [h4]; exact .greek h5, h3⟩

theorem letter_avoid {α : Type} {p : P α} {ks : List Kind} (hn : Needs p ks) {t : Tok} {r : List Tok}
    (h : t.kind ∈ letterKinds) (hk : ∀ k ∈ letterKinds, k ∉ ks) : p (t :: r) = [] :=
  hn.skip (hk _ h)

theorem atomExpr_letter {t : Tok} {r : List Tok} (h : t.kind ∈ letterKinds)
    (h1 : supexpr rec r = []) (h2 : subexpr rec r = []) :
    atomExpr rec (t :: r) = [(.name (nameOf t) none none, r)] := by
  simp only [atomExpr, P.bind_run, nameTok_run h, List.flatMap_cons, List.flatMap_nil, P.choice_run,
    h1, h2]
  rfl

theorem atom_letter' {t : Tok} {r : List Tok} (h : t.kind ∈ letterKinds)
    (h1 : supexpr rec r = []) (h2 : subexpr rec r = []) :
    atom rec (t :: r) = [(.name (nameOf t) none none, r)] := by
  rw [atom]
  simp only [P.choice_run]
  rw [atomExpr_letter h h1 h2, letter_avoid (Needs.tk .SYMBOL).bind h (by decide),
    letter_avoid eNotation_needs.bind h (by decide),
    letter_avoid percentNumber_needs.bind h (by decide),
    letter_avoid numberText_needs.bind h (by decide),
    letter_avoid (Needs.tk .DIFFERENTIAL).bind h (by decide), letter_avoid mathit_needs h (by decide),
    letter_avoid (frac_needs rec) h (by decide), letter_avoid (Needs.tk .VARIABLE).bind h (by decide)]
  rfl

theorem atom_letter {t : Tok} {r : List Tok} (h : t.kind ∈ letterKinds)
    (ha : Avoids r [.CARET, .UNDERSCORE]) :
    atom rec (t :: r) = [(.name (nameOf t) none none, r)] :=
  atom_letter' h ((supexpr_needs rec).avoid' ha (by decide)) ((subexpr_needs rec).avoid' ha (by decide))

theorem numberToks_digit {t : Tok} {r : List Tok} (h : t.kind = .DIGIT)
    (ha : Avoids r [.DIGIT, .PERIOD, .COMMA]) : numberToks (t :: r) = [([t], r)] := by
  have hd : tk .DIGIT r = [] := (Needs.tk _).avoid' ha (by decide)
  have hmany : ∀ {α : Type} {p : P α}, p r = [] → P.many p r = [([], r)] := by
    intro α p this
    rw [P.many]
    cases r with
    | nil => rfl
    | cons u r => rw [List.length_cons, P.manyGo_run, this]; rfl
  have h1 : P.plus (tk .DIGIT) (t :: r) = [([t], r)] := by
    simp only [P.plus, P.bind_run, tk, if_pos h, List.flatMap_cons, List.flatMap_nil,
      hmany ((Needs.tk .DIGIT).avoid' ha (by decide))]
    rfl
  have h2 : ((tk .PERIOD) >>= fun p => P.plus (tk .DIGIT) >>= fun es =>
      (pure (p :: es) : P (List Tok))) (t :: r) = [] :=
    (Needs.tk _).bind.avoid (avoids_cons (by rw [h]; decide))
  rw [numberToks, P.or, h2, List.append_nil, P.bind_run, h1]
  simp only [List.flatMap_cons, List.flatMap_nil, List.append_nil, P.bind_run,
    hmany (group_fail (ha.mono (by decide))),
    opt_none_run ((Needs.tk .PERIOD).bind.avoid' ha (by decide))]
  rfl

theorem atom_digit {t : Tok} {r : List Tok} (h : t.kind = .DIGIT) (ha : Avoids r afterDigits) :
    atom rec (t :: r) = [(.number t.text, r)] := by
  have hk : ∀ {α : Type} {p : P α} {ks : List Kind}, Needs p ks → Kind.DIGIT ∉ ks →
      p (t :: r) = [] := fun hn hk => hn.skip (by rw [h]; exact hk)
  have he : eNotation (t :: r) = [] := eNotation_fail (ts := [t]) (by simp [h]; decide)
    (ha.mono (by decide))
  have hp : percentNumber (t :: r) = [] := percentNumber_fail (ts := [t]) (by simp [h]; decide)
    (ha.mono (by decide))
  have hn : numberText (t :: r) = [(t.text, r)] := by
    rw [numberText, P.bind_run, numberToks_digit h (ha.mono (by decide))]
    simp [textOf, P.pure_run]
  rw [atom]
  simp only [P.choice_run]
  rw [hk (atomExpr_needs rec) (by decide), hk (Needs.tk .SYMBOL).bind (by decide), P.bind_run, he,
    P.bind_run, hp, P.bind_run, hn, hk (Needs.tk .DIFFERENTIAL).bind (by decide),
    hk mathit_needs (by decide), hk (frac_needs rec) (by decide),
    hk (Needs.tk .VARIABLE).bind (by decide)]
  rfl

/-! ### Braces -/

theorem braced_first {o c : Tok} {us : List Tok} {e : T} (ho : o.kind = .L_BRACE)
    (hc : c.kind = .R_BRACE) (h : First (rec .expr) (us ++ c :: r) e (c :: r)) :
    First (braced rec) (o :: (us ++ c :: r)) e r :=
  (First.tk ho).bind (h.bind ((First.tk hc).bind .pure))

/-- two balanced beginnings of a text, each followed by a closing brace, are the same -/
theorem balanced_unique {a b r1 r2 : List Tok} {c1 c2 : Tok} (h : a ++ c1 :: r1 = b ++ c2 :: r2)
    (ha : depth 0 a = some 0) (hb : depth 0 b = some 0) (h1 : c1.kind = .R_BRACE)
    (h2 : c2.kind = .R_BRACE) : a = b ∧ r1 = r2 := by
  have key : ∀ {a b r1 r2 : List Tok} {c1 c2 : Tok} (d : List Tok), b = a ++ d →
      c1 :: r1 = d ++ c2 :: r2 → depth 0 a = some 0 → depth 0 b = some 0 →
      c1.kind = .R_BRACE → a = b ∧ r1 = r2 := by
    intro a b r1 r2 c1 c2 d h3 h4 ha hb h1
    cases d with
    | nil => simp at h3 h4; exact ⟨h3.symm, h4.2⟩
    | cons t d =>
      exfalso
      simp only [List.cons_append, List.cons.injEq] at h4
      rw [h3, depth_append, ha] at hb
      simp only [Option.bind_some] at hb
      rw [← h4.1, depth, if_neg (by rw [h1]; decide), if_pos h1] at hb
      cases hb
  rcases List.append_eq_append_iff.1 h with ⟨d, h3, h4⟩ | ⟨d, h3, h4⟩
  · exact key d h3 h4 ha hb h1
  · obtain ⟨h5, h6⟩ := key d h3 h4 hb ha h2
    exact ⟨h5.symm, h6.symm⟩

theorem First.mem {α : Type} {p : P α} {ts : List Tok} {a : α} (h : First p ts a r) :
    (a, r) ∈ p ts := by
  obtain ⟨l, h⟩ := h
  rw [h]; simp

theorem Runs.get {α : Type} {p : P α} {a b : Nat} (h : Runs p a b) : ∀ ts x, x ∈ p ts →
    ∃ c, ts = c ++ x.2 ∧ ∀ d, depth (d + a) c = some (d + b) := by
  unfold Runs at h
  exact h

/-- every parse of an expression in braces ends with the same brace -/
theorem braced_rest (hrec : ∀ nt, Runs (rec nt) 0 0) {o c : Tok} {us : List Tok} {e : T}
    (ho : o.kind = .L_BRACE) (hc : c.kind = .R_BRACE)
    (h : First (rec .expr) (us ++ c :: r) e (c :: r)) :
    ∀ x ∈ braced rec (o :: (us ++ c :: r)), x.2 = r := by
  intro x hx
  obtain ⟨us', h1, h2⟩ := (hrec .expr).get _ _ h.mem
  have : us' = us := (List.append_cancel_right h1).symm
  subst this
  simp only [braced, P.bind_run, tk, if_pos ho, List.flatMap_cons, List.flatMap_nil,
    List.append_nil, List.mem_flatMap] at hx
  obtain ⟨y, hy, z, hz, hx⟩ := hx
  obtain ⟨a, k1, k2⟩ := (hrec .expr).get _ _ hy
  cases hr2 : y.2 with
  | nil => rw [hr2] at hz; simp at hz
  | cons c' r' =>
    rw [hr2] at hz k1
    simp only at hz
    split at hz
    · rename_i hc'
      rw [List.mem_singleton.1 hz, P.pure_run, List.mem_singleton] at hx
      obtain ⟨-, h6⟩ := balanced_unique k1 (by simpa using h2 0) (by simpa using k2 0) hc hc'
      rw [hx, h6]
    · simp at hz

/-! ### Names -/

theorem callArgs_fail {r : List Tok} (h : Avoids r [.L_LEFT, .L_PAREN, .L_BRACKET]) :
    callArgs rec r = [] := by
  rw [callArgs, P.bind_run, opt_none_run ((Needs.tk _).avoid' h (by decide))]
  rw [List.flatMap_cons, List.flatMap_nil, List.append_nil]
  exact (Needs.oneOf _).bind.avoid' h (by decide)

theorem atomExprNoSup_letter {t : Tok} {r : List Tok} (h : t.kind ∈ letterKinds)
    (ha : Avoids r [.UNDERSCORE]) : ∃ n, atomExprNoSup rec (t :: r) = [(n, r)] := by
  have h2 : P.opt (subexpr rec) r = [(none, r)] :=
    opt_none_run ((subexpr_needs rec).avoid ha)
  refine ⟨textOf ((t :: r).take ((t :: r).length - r.length)), ?_⟩
  simp only [atomExprNoSup, P.bind_run, P.used, nameTok_run h, List.flatMap_cons, List.flatMap_nil,
    h2, P.pure_run, List.append_nil, List.map_cons, List.map_nil]

/-- a letter not followed by an argument is not a function -/
theorem func_letter_fail {t : Tok} {r : List Tok} (h : t.kind ∈ letterKinds)
    (ha : Avoids r [.UNDERSCORE])
    (hp : ∀ x ∈ P.opt (supexpr rec) r, Avoids x.2 [.L_LEFT, .L_PAREN, .L_BRACKET, .L_BRACE]) :
    func rec (t :: r) = [] := by
  have hk : ∀ {α : Type} {p : P α} {ks : List Kind}, Needs p ks → (∀ k ∈ letterKinds, k ∉ ks) →
      p (t :: r) = [] := fun hn hk => letter_avoid hn h hk
  obtain ⟨n, hn⟩ := atomExprNoSup_letter (rec := rec) h ha
  rw [func]
  simp only [P.choice_run]
  rw [hk (funcName_needs _ _).bind (by decide), hk (funcName_needs _ _).bind (by decide),
    P.bind_run (atomExprNoSup rec), P.bind_run (atomExprNoSup rec), hn,
    hk (Needs.tk .FUNC_INT).bind (by decide), hk (Needs.tk .FUNC_SQRT).bind (by decide),
    hk (Needs.oneOf [.FUNC_SUM, .FUNC_PROD]).bind (by decide), hk (Needs.tk .FUNC_LIM).bind (by decide),
    hk (Needs.tk .EXP_E).bind (by decide)]
  simp only [List.flatMap_cons, List.flatMap_nil, List.append_nil, List.nil_append, P.bind_run]
  rw [List.append_eq_nil_iff]
  constructor
  · rw [List.flatMap_eq_nil_iff]
    intro x hx
    rw [callArgs_fail ((hp x hx).mono (by decide))]
    rfl
  · rw [List.append_eq_nil_iff]
    refine ⟨?_, rfl⟩
    rw [List.flatMap_eq_nil_iff]
    intro x hx
    rw [(Needs.tk .L_BRACE).avoid' (hp x hx) (by decide)]
    rfl

end

/-! ### Signs with the tokens that follow them -/

/-- no two differentials in the same group of braces -/
def OneDiff (l : List Tok) : Prop := ∀ (a b c : List Tok) (x y : Tok), l = a ++ x :: (b ++ y :: c) →
  x.kind = .DIFFERENTIAL → y.kind = .DIFFERENTIAL → depth 0 b ≠ some 0

theorem OneDiff.infix {a b c : List Tok} (h : OneDiff (a ++ (b ++ c))) : OneDiff b := by
  intro a' b' c' x y he
  refine h (a ++ a') b' (c' ++ c) x y ?_
  rw [he]; simp

theorem OneDiff.tail {a b : List Tok} (h : OneDiff (a ++ b)) : OneDiff b := by
  refine OneDiff.infix (a := a) (c := []) ?_
  rwa [List.append_nil]

/-- `ts` are tokens of the signs, and `r` the tokens after these -/
inductive ReadsIn (r : List Tok) : List Sign → List Tok → Prop
  | nil : OneDiff r → ReadsIn r [] []
  | cons {w ws t ts} : HasKind w t.kind → t.text = w.text → ReadsIn r ws ts →
      OneDiff (t :: (ts ++ r)) → ReadsIn r (w :: ws) (t :: ts)

theorem ReadsIn.reads {r : List Tok} {ws : List Sign} {ts : List Tok} (h : ReadsIn r ws ts) :
    Reads ws ts := by
  induction h with
  | nil => exact .nil
  | cons h1 h2 _ _ ih => exact .cons h1 h2 ih

theorem ReadsIn.one {r : List Tok} {ws : List Sign} {ts : List Tok} (h : ReadsIn r ws ts) :
    OneDiff (ts ++ r) := by
  cases h with
  | nil h => exact h
  | cons _ _ _ h => exact h

theorem ReadsIn.mk {r : List Tok} {ws : List Sign} {ts : List Tok} (h : Reads ws ts)
    (ho : OneDiff (ts ++ r)) : ReadsIn r ws ts := by
  induction h with
  | nil => exact .nil ho
  | @cons w ws t ts h1 h2 _ ih => exact .cons h1 h2 (ih (OneDiff.tail (a := [t]) ho)) ho

instance (r : List Tok) (ws : List Sign) (ts : List Tok) : CoeOut (ReadsIn r ws ts) (Reads ws ts) :=
  ⟨ReadsIn.reads⟩

theorem ReadsIn.length {r ts : List Tok} {ws : List Sign} (h : ReadsIn r ws ts) :
    ts.length = ws.length := h.reads.length

theorem ReadsIn.append {r : List Tok} {us vs : List Sign} {ts : List Tok} (h : ReadsIn r (us ++ vs) ts) :
    ∃ t1 t2, ts = t1 ++ t2 ∧ ReadsIn (t2 ++ r) us t1 ∧ ReadsIn r vs t2 := by
  obtain ⟨t1, t2, rfl, h1, h2⟩ := h.reads.append
  have ho := h.one
  rw [List.append_assoc] at ho
  exact ⟨t1, t2, rfl, .mk h1 ho, .mk h2 ho.tail⟩

theorem ReadsIn.cons_inv {r : List Tok} {w : Sign} {ws : List Sign} {ts : List Tok} {k : Kind}
    (h : ReadsIn r (w :: ws) ts) (hk : kindOf w = some k) :
    ∃ t ts', ts = t :: ts' ∧ t.kind = k ∧ t.text = w.text ∧ ReadsIn r ws ts' := by
  obtain ⟨t, ts', rfl, h1, h2, h3⟩ := h.reads.cons_inv hk
  exact ⟨t, ts', rfl, h1, h2, .mk h3 (OneDiff.tail (a := [t]) h.one)⟩

theorem ReadsIn.var_inv {r : List Tok} {w : Sign} {n : Str} {ws : List Sign} {ts : List Tok}
    (h : ReadsIn r (w :: ws) ts) (hv : Variable w n) : ∃ t ts', ts = t :: ts' ∧ t.kind ∈ letterKinds ∧
      SymbolName (nameOf t) none n ∧ LimitVar (nameOf t) n ∧ ReadsIn r ws ts' := by
  obtain ⟨t, ts', rfl, h1, h2, h3, h4⟩ := h.reads.var_inv hv
  exact ⟨t, ts', rfl, h1, h2, h3, .mk h4 (OneDiff.tail (a := [t]) h.one)⟩

/-! ### Phrases -/

/-- one operand of a chain of operators -/
def operand (ks : List Kind) (p : P T) : P (Kind × T) := do
  let o ← oneOf ks
  let u ← p
  pure (o.kind, u)

theorem operand_needs (ks : List Kind) (p : P T) : Needs (operand ks p) ks := (Needs.oneOf _).bind

theorem chain_first {ks : List Kind} {mk : Kind → T → T → T} {p : P T} {ts r1 r : List Tok} {t : T}
    {us : List (Kind × T)} (h : First p ts t r1) (hs : Steps (operand ks p) r1 us r)
    (hr : Avoids r ks) (hc : .COMMA ∉ ks := by decide) :
    First (chain ks mk p) ts (us.foldl (fun t u => mk u.1 t u.2) t) r :=
  h.bind ((First.many hs ((operand_needs ks p).avoid hr hc)).bind .pure)

section
variable {K : Type} [Field K] (I : Interp K) (free : Str → Prop)

/-- The phrase does not begin with a function. -/
def Plain (ws : List Sign) : Prop := ∀ w, ws.head? = some w → opens w = false

theorem Plain.of_append {us vs : List Sign} (h : Plain (us ++ vs)) (hu : us ≠ []) : Plain us := by
  intro w hw
  refine h w ?_
  cases us with
  | nil => exact absurd rfl hu
  | cons v us => exact hw

/-- How the parser reads a phrase: as a tree of the value of the phrase. -/
def Parsed : Level → List Sign → K → Prop
  | .expr, ws, x => ∀ ts r k, ReadsIn r ws ts → 4 * ws.length ≤ k + 1 → Avoids r afterTerm →
      ∃ t us r1, First (rule k .mp) (ts ++ r) t r1 ∧
        Steps (operand [.ADD, .SUB] (rule k .mp)) r1 us r ∧
        Means I free (us.foldl (fun t u => addTree u.1 t u.2) t) x
  | .term o, ws, x => ∀ ts r k, ReadsIn r ws ts → 4 * ws.length ≤ k + 2 → Avoids r (afterOpen o) →
      ∃ t us r1, First (rule k .unary) (ts ++ r) t r1 ∧
        Steps (operand mulKinds (rule k .unary)) r1 us r ∧
        Means I free (us.foldl (fun t u => mulTree u.1 t u.2) t) x
  | .signed o, ws, x => ∀ ts r k, ReadsIn r ws ts → 4 * ws.length ≤ k + 2 → Avoids r (afterOpen o) →
      ∃ t, First (rule k .unary) (ts ++ r) t r ∧ Means I free t x
  | .product o, ws, x => ∀ ts r k, ReadsIn r ws ts → 4 * ws.length ≤ k + 3 → Avoids r (afterOpen o) →
      ∃ p ps, Steps (postfix' (rule k) true) (ts ++ r) (p :: ps) r ∧ Means I free (.juxt (p :: ps)) x
  | .factor e, ws, x => ∀ ts r k, ReadsIn r ws ts → 4 * ws.length ≤ k + 3 → Avoids r (afterFactor e) →
      ∃ b ops r1, First (exp (rule k) true) (ts ++ r) b r1 ∧
        Steps (postfixOp (rule k)) r1 ops r ∧
        Means I free (ops.foldl (fun t f => f t) b) x ∧ (Plain ws → func (rule k) (ts ++ r) = [])
  | .power e, ws, x => ∀ ts r k, ReadsIn r ws ts → 4 * ws.length ≤ k + 3 → Avoids r (afterFactor e) →
      ∃ t, First (exp (rule k) true) (ts ++ r) t r ∧ Means I free t x ∧
        (Plain ws → func (rule k) (ts ++ r) = [])
  | .base e, ws, x => ∀ ts r k, ReadsIn r ws ts → 4 * ws.length ≤ k + 3 → Avoids r (after e) →
      ∃ t, First (comp (rule k) true) (ts ++ r) t r ∧ Means I free t x ∧
        (Plain ws → func (rule k) (ts ++ r) = [])
  | .exponent e, ws, x => ∀ ts r k, ReadsIn r ws ts → 4 * ws.length ≤ k → Avoids r (afterFactor e) →
      ∃ t, First (P.or (rule k .atom) (braced (rule k))) (ts ++ r) t r ∧ Means I free t x ∧
        (∀ y ∈ P.or (rule k .atom) (braced (rule k)) (ts ++ r), y.2 = r) ∧
        ∀ u : Tok, u.kind = .UNDERSCORE →
          ∃ s, First (subexpr (rule k)) (u :: (ts ++ r)) (t, s) r
  | .part, ws, x => ∀ ts r k, ReadsIn r ws ts → 4 * ws.length ≤ k →
      ∃ t s, First (Grammar.fracPart (rule k)) (ts ++ r) (t, s) r ∧ NotDifferential s ∧
        First (P.or (do let d ← tk .DIGIT
                        pure (T.digit d.text)) (braced (rule k))) (ts ++ r) t r ∧ Means I free t x
  | .arg, ws, x => ∀ ts r k, ReadsIn r ws ts → 4 * ws.length ≤ k →
      ∃ t, First (parenthesised (rule k .expr)) (ts ++ r) t r ∧ Means I free t x
  | .app, ws, x => ∀ ts r k, ReadsIn r ws ts → 4 * ws.length ≤ k + 3 → Avoids r (afterBare true) →
      ∃ t, First (func (rule k)) (ts ++ r) t r ∧ Means I free t x
  | .long, ws, x => ∀ ts r k, ReadsIn r ws ts → 4 * ws.length ≤ k + 3 → Avoids r afterTerm →
      ∃ t, First (func (rule k)) (ts ++ r) t r ∧ Means I free t x
  | .point, ws, x => ∀ ts r k (c o s z : Tok), ReadsIn (c :: o :: s :: z :: r) ws ts → 4 * ws.length ≤ k + 2 →
      c.kind = .CARET → o.kind = .L_BRACE → s.kind ∈ [Kind.ADD, .SUB] → z.kind = .R_BRACE →
      ∃ t, First (rule k .unary) (ts ++ c :: o :: s :: z :: r) t (c :: o :: s :: z :: r) ∧
        Means I free t x
  | .bareTerm o, ws, x => ∀ ts r k, ReadsIn r ws ts → 4 * ws.length ≤ k + 2 → Avoids r (afterBare o) →
      ∃ t us r1, First (rule k .unaryNf) (ts ++ r) t r1 ∧
        Steps (operand mulKinds (rule k .unaryNf)) r1 us r ∧
        Means I free (us.foldl (fun t u => mulTree u.1 t u.2) t) x
  | .bareSigned o, ws, x => ∀ ts r k, ReadsIn r ws ts → 4 * ws.length ≤ k + 2 → Avoids r (afterBare o) →
      ∃ t, First (rule k .unaryNf) (ts ++ r) t r ∧ Means I free t x
  | .bare o, ws, x => ∀ ts r k, ReadsIn r ws ts → 4 * ws.length ≤ k + 3 → Avoids r (afterBare o) →
      ∃ p ps r1, First (postfix' (rule k) true) (ts ++ r) p r1 ∧
        Steps (postfix' (rule k) false) r1 ps r ∧ Means I free (.juxt (p :: ps)) x
  | .rest, ws, x => ∀ ts r k, ReadsIn r ws ts → 4 * ws.length ≤ k + 3 → Avoids r (afterBare false) →
      ∃ p ps, Steps (postfix' (rule k) false) (ts ++ r) (p :: ps) r ∧ Means I free (.juxt (p :: ps)) x

variable {I free} {wide : Style}

theorem Parsed.term_first {o : Bool} {ws : List Sign} {x : K} (h : Parsed I free (.term o) ws x) {ts r : List Tok}
    {k : Nat} (hr : ReadsIn r ws ts) (hw : ws ≠ []) (hk : 4 * ws.length ≤ k + 1) (ha : Avoids r afterTerm) :
    ∃ t, First (rule k .mp) (ts ++ r) t r ∧ Means I free t x := by
  have := List.length_pos_iff.2 hw
  obtain ⟨j, rfl⟩ : ∃ j, k = j + 1 := ⟨k - 1, by omega⟩
  obtain ⟨t, us, r1, h1, h2, h3⟩ := h ts r j hr (by omega) (ha.mono (afterOpen_sub o))
  exact ⟨_, chain_first h1 h2 (ha.mono (by decide +kernel)), h3⟩

theorem Parsed.expr_first {ws : List Sign} {x : K} (h : Parsed I free .expr ws x) {ts r : List Tok}
    {k : Nat} (hr : ReadsIn r ws ts) (hw : ws ≠ []) (hk : 4 * ws.length ≤ k) (ha : Avoids r afterExpr) :
    ∃ t, First (rule k .expr) (ts ++ r) t r ∧ Means I free t x := by
  have := List.length_pos_iff.2 hw
  obtain ⟨j, rfl⟩ : ∃ j, k = j + 1 := ⟨k - 1, by omega⟩
  obtain ⟨t, us, r1, h1, h2, h3⟩ := h ts r j hr (by omega) (ha.mono (by decide +kernel))
  exact ⟨_, chain_first h1 h2 (ha.mono (by decide +kernel)), h3⟩

theorem reads_len_pos {us : List Sign} {ts : List Tok} (h : Reads us ts) (hu : us ≠ []) (r : List Tok) :
    r.length < (ts ++ r).length := by
  have := h.length
  have := List.length_pos_iff.2 hu
  rw [List.length_append]; omega

theorem not_nil {l : Level} {ws : List Sign} {x : K} (h : Denotes I free wide l ws x) : ws ≠ [] := by
  obtain ⟨w, vs, rfl, _⟩ := starts h
  simp

/-- kinds of phrases that may begin with a sign -/
def bareLevel : Level → Bool
  | .expr | .term _ | .signed _ | .bareTerm _ | .bareSigned _ => true
  | _ => false

theorem bare_starts {l : Level} {ws : List Sign} {x : K} (h : Denotes I free wide l ws x)
    (hl : bareLevel l = true) :
    ∃ w vs, ws = w :: vs ∧ (startSign w = true ∨ w = .mark '+' ∨ w = .mark '-') := by
  induction h with
  | term _ ih | signed _ ih | bareSigned _ ih => exact ih rfl
  | add _ _ ih => obtain ⟨w, vs, rfl, h⟩ := ih rfl; exact ⟨w, _, rfl, h⟩
  | sub _ _ ih => obtain ⟨w, vs, rfl, h⟩ := ih rfl; exact ⟨w, _, rfl, h⟩
  | mul _ _ _ ih => obtain ⟨w, vs, rfl, h⟩ := ih rfl; exact ⟨w, _, rfl, h⟩
  | div _ _ _ ih => obtain ⟨w, vs, rfl, h⟩ := ih rfl; exact ⟨w, _, rfl, h⟩
  | mod _ _ ih => obtain ⟨w, vs, rfl, h⟩ := ih rfl; exact ⟨w, _, rfl, h⟩
  | bareMul _ _ _ _ ih => obtain ⟨w, vs, rfl, h⟩ := ih rfl; exact ⟨w, _, rfl, h⟩
  | bareDiv _ _ _ _ ih => obtain ⟨w, vs, rfl, h⟩ := ih rfl; exact ⟨w, _, rfl, h⟩
  | product h => obtain ⟨w, vs, h1, h2⟩ := starts h; exact ⟨w, vs, h1, .inl (h2 rfl)⟩
  | bare h => obtain ⟨w, vs, h1, h2⟩ := starts h; exact ⟨w, vs, h1, .inl (h2 rfl)⟩
  | pos => exact ⟨_, _, rfl, .inr (.inl rfl)⟩
  | neg => exact ⟨_, _, rfl, .inr (.inr rfl)⟩
  | barePos => exact ⟨_, _, rfl, .inr (.inl rfl)⟩
  | bareNeg => exact ⟨_, _, rfl, .inr (.inr rfl)⟩
  | _ => cases hl

theorem bare_kind {w : Sign} {k : Kind} (h : HasKind w k)
    (hw : startSign w = true ∨ w = .mark '+' ∨ w = .mark '-') :
    k ∈ startKinds ∨ k = .ADD ∨ k = .SUB := by
  rcases hw with hw | rfl | rfl
  · exact .inl (start_kind h hw)
  · exact .inr (.inl (by
      have h2 : kindOf (.mark '+') = some .ADD := by decide +kernel
      exact (Option.some.inj (h2.symm.trans h.kindOf)).symm))
  · exact .inr (.inr (by
      have h2 : kindOf (.mark '-') = some .SUB := by decide +kernel
      exact (Option.some.inj (h2.symm.trans h.kindOf)).symm))

/-- how a phrase that follows another one begins -/
theorem bare_avoids {l e w vs} {x : K} (hd : Denotes I free wide l (w :: vs) x)
    (hl : bareLevel l = true) {ts : List Tok} (hr : Reads (w :: vs) ts) (hf : Follows e w)
    (r : List Tok) : Avoids (ts ++ r) (afterFactor e) := by
  obtain ⟨w', vs', h1, hw⟩ := bare_starts hd hl
  cases h1
  cases hr with
  | @cons _ _ t ts a1 a2 a3 =>
    refine avoids_cons ?_
    rcases bare_kind a1 hw with hk | hk
    · exact follows_avoids a1 hk hf
    · intro hm
      clear a1 a2 a3
      have hm := afterFactor_sub e _ hm
      rcases hk with hk | hk <;> rw [hk] at hm <;> revert hm <;> decide +kernel

/-- the tokens of an expression in braces -/
theorem reads_braces {r : List Tok} {us : List Sign} {ts : List Tok} {a b : Char} {ka kb : Kind}
    (h : ReadsIn r (.mark a :: us ++ [.mark b]) ts) (ha : kindOf (.mark a) = some ka)
    (hb : kindOf (.mark b) = some kb) :
    ∃ o t1 c, ts = o :: (t1 ++ [c]) ∧ o.kind = ka ∧ c.kind = kb ∧ ReadsIn (c :: r) us t1 := by
  rw [List.cons_append] at h
  obtain ⟨o, ts1, rfl, h1, -, h2⟩ := h.cons_inv ha
  obtain ⟨t1, t2, rfl, h3, h4⟩ := h2.append
  obtain ⟨c, t3, rfl, h5, -, h6⟩ := h4.cons_inv hb
  cases h6
  exact ⟨o, t1, c, rfl, h1, h5, h3⟩

theorem exprStep {us : List Sign} {x : K} (ih : Parsed I free .expr us x) (hu : us ≠ [])
    {ts : List Tok} {c : Tok} {r : List Tok} (h : ReadsIn (c :: r) us ts) {k : Nat} (hk : 4 * us.length ≤ k)
    (hc : c.kind ∉ afterExpr) :
    ∃ t, First (rule k .expr) (ts ++ c :: r) t (c :: r) ∧ Means I free t x :=
  ih.expr_first h hu hk (avoids_cons hc)

theorem parsed_pow {d e us vs} {x y : K} (hu : us ≠ []) (h1 : Parsed I free (.base ⟨d, false⟩) us x)
    (h2 : Parsed I free (.exponent e) vs y) :
    Parsed I free (.power e) (us ++ .mark '^' :: vs) (I.pw x y) := by
  intro ts r k hr hk ha
  obtain ⟨t1, t2, rfl, a1, a2⟩ := hr.append
  obtain ⟨c, t2, rfl, b1, -, b2⟩ := a2.cons_inv (k := .CARET) (by decide +kernel)
  simp only [List.length_append, List.length_cons] at hk
  have := List.length_pos_iff.2 hu
  obtain ⟨b, c1, c2, c3⟩ := h1 t1 (c :: (t2 ++ r)) k a1 (by omega) (avoids_cons (by
    rw [b1]; cases d <;> decide +kernel))
  obtain ⟨f, d1, d2, -, -⟩ := h2 t2 r k b2 (by omega) ha
  refine ⟨.pow b f, ?_, .pow c2 d2, fun hp => ?_⟩
  rotate_left
  · rw [List.append_assoc]
    exact c3 (hp.of_append hu)
  rw [List.append_assoc]
  refine First.bind (r := c :: (t2 ++ r)) c1 ?_
  refine First.bind (First.many (as := [f]) (Steps.one ?_ ?_) ?_) .pure
  · refine (First.tk b1).bind (d1.bind ?_)
    exact (First.opt_none ((subexpr_needs _).avoid (ha.mono (by simp [afterFactor])))).bind .pure
  · simp only [List.length_cons, List.length_append]; omega
  · exact (Needs.tk _).bind.avoid (ha.mono (by simp [afterFactor]))

theorem parsed_expBraces {us} {x : K} (hu : us ≠ []) (ih : Parsed I free .expr us x) :
    Parsed I free (.exponent closed) (.mark '{' :: us ++ [.mark '}']) x := by
  intro ts r k hr hk ha
  obtain ⟨o, t1, c, rfl, h1, h2, h3⟩ := reads_braces (ka := .L_BRACE) (kb := .R_BRACE) hr
    (by decide +kernel) (by decide +kernel)
  simp only [List.length_append, List.length_cons, List.length_nil] at hk
  obtain ⟨j, rfl⟩ : ∃ j, k = j + 1 := ⟨k - 1, by omega⟩
  obtain ⟨t, e1, e2⟩ := exprStep ih hu h3 (k := j + 1) (by omega) (c := c) (r := r)
    (by rw [h2]; decide +kernel)
  have hts : (o :: (t1 ++ [c])) ++ r = o :: (t1 ++ c :: r) := by simp
  have hat : rule (j + 1) .atom (o :: (t1 ++ c :: r)) = [] :=
    (atom_needs (rule j)).avoid (avoids_cons (by rw [h1]; decide +kernel))
  rw [hts]
  refine ⟨t, First.or_right hat (braced_first h1 h2 e1), e2, ?_, ?_⟩
  · intro y hy
    rw [P.or, hat, List.nil_append] at hy
    exact braced_rest (rule_runs (j + 1)) h1 h2 e1 y hy
  · intro u hu
    refine ⟨textOf t1, (First.tk hu).bind (First.or_right ?_ ?_)⟩
    · rw [P.bind_run, P.used, hat]; rfl
    · refine (First.tk h1).bind ?_
      exact First.bind (First.used (First.or_left e1)) ((First.tk h2).bind .pure)

theorem parsed_expDigit {d : Fin 10} :
    Parsed I free (.exponent ⟨true, false⟩) [.digit d] (d.val : K) := by
  intro ts r k hr hk ha
  obtain ⟨t, t1, rfl, h1, h2, h3⟩ := hr.cons_inv (k := .DIGIT) rfl
  cases h3
  simp only [List.length_cons, List.length_nil] at hk
  obtain ⟨j, rfl⟩ : ∃ j, k = j + 1 := ⟨k - 1, by omega⟩
  have hat : rule (j + 1) .atom (t :: r) = [(.number t.text, r)] :=
    atom_digit h1 (ha.mono (by decide))
  have hb : braced (rule (j + 1)) (t :: r) = [] :=
    (Needs.tk _).bind.avoid (avoids_cons (by rw [h1]; decide))
  refine ⟨.number t.text, First.or_left ⟨[], hat⟩, ?_, ?_, ?_⟩
  · have : ((intPart [d] : Rat) : K) = (d.val : K) := by simp [intPart]
    rw [← this, h2]
    exact .number (.whole (by simp) (by
      have := digitText_nocomma [d]
      simpa [digitText, Sign.text] using this))
  · intro y hy
    have hy : y ∈ rule (j + 1) .atom (t :: r) ++ braced (rule (j + 1)) (t :: r) := hy
    rw [hat, hb] at hy
    rw [List.mem_singleton.1 hy]
  · intro u hu
    exact ⟨_, (First.tk hu).bind (First.or_left (First.bind (First.used (c := [t]) ⟨[], hat⟩) .pure))⟩

theorem parsed_expLetter {w : Sign} {n : Str} (hv : Variable w n) (hf : free n) :
    Parsed I free (.exponent closed) [w] (I.var n) := by
  intro ts r k hr hk ha
  obtain ⟨t, t1, rfl, h1, h2, -, h3⟩ := hr.var_inv hv
  cases h3
  simp only [List.length_cons, List.length_nil] at hk
  obtain ⟨j, rfl⟩ : ∃ j, k = j + 1 := ⟨k - 1, by omega⟩
  have hat : rule (j + 1) .atom (t :: r) = [(.name (nameOf t) none none, r)] :=
    atom_letter h1 (ha.mono (by decide))
  have hb : braced (rule (j + 1)) (t :: r) = [] :=
    letter_avoid (Needs.tk _).bind h1 (by decide)
  refine ⟨_, First.or_left ⟨[], hat⟩, .name h2 hf, ?_, ?_⟩
  · intro y hy
    have hy : y ∈ rule (j + 1) .atom (t :: r) ++ braced (rule (j + 1)) (t :: r) := hy
    rw [hat, hb] at hy
    rw [List.mem_singleton.1 hy]
  · intro u hu
    exact ⟨_, (First.tk hu).bind (First.or_left (First.bind (First.used (c := [t]) ⟨[], hat⟩) .pure))⟩

/-! ### Bases -/

theorem func_fail_kind {rec : NT → P T} {ts : List Tok} {t : Tok} (h : t.kind ∉ funcKinds) :
    func rec (t :: ts) = [] := (func_needs rec).avoid (avoids_cons h)

theorem digit_kinds {k : Kind} (h : k ∈ [Kind.DIGIT, .PERIOD]) : k ∉ openKinds ∧ k ∉ funcKinds := by
  revert k; decide +kernel

theorem parsed_number {us q} (h : Numeral us q) :
    Parsed I free (.base ⟨true, false⟩) us (q : K) := by
  intro ts r k hr hk ha
  obtain ⟨h1, h2, t, ts', rfl, h3⟩ := number_atom (rec := rule k) (r := r) h hr.reads (ha.mono (by decide))
  exact ⟨_, comp_atom (avoids_cons (digit_kinds h3).1) (func_fail_kind (digit_kinds h3).2) h1,
    .number h2, fun _ => func_fail_kind (digit_kinds h3).2⟩

theorem parsed_percent {us q} (h : Numeral us q) :
    Parsed I free (.base closed) (us ++ [.cmd s%"%"]) ((q : K) / 100) := by
  intro ts r k hr hk ha
  obtain ⟨t1, t2, rfl, a1, a2⟩ := hr.append
  obtain ⟨p, t2, rfl, b1, b2, b3⟩ := a2.cons_inv (k := .PERCENT_SIGN) (by decide +kernel)
  cases b3
  obtain ⟨h1, h2, t, ts', rfl, h3⟩ := percent_atom (rec := rule k) (r := r) h a1.reads b1 b2
  refine ⟨_, ?_, .percent h2, fun _ => func_fail_kind (digit_kinds h3).2⟩
  rw [List.append_assoc]
  exact comp_atom (avoids_cons (digit_kinds h3).1) (func_fail_kind (digit_kinds h3).2) h1

theorem parsed_pi : Parsed I free (.base closed) [.cmd s%"pi"] (I.const s%"pi") := by
  intro ts r k hr hk ha
  obtain ⟨t, t1, rfl, h1, h2, h3⟩ := hr.cons_inv (k := .SYMBOL) (by decide +kernel)
  cases h3
  have : t.text = s%"\\pi" := h2
  refine ⟨.symbol t.text, comp_atom (avoids_cons (by rw [h1]; decide +kernel))
    (func_fail_kind (by rw [h1]; decide +kernel)) ?_, by rw [this]; exact .pi, fun _ => func_fail_kind (by rw [h1]; decide +kernel)⟩
  exact First.choice_tail ((atomExpr_needs _).avoid (avoids_cons (by rw [h1]; decide +kernel)))
    (First.choice_head ((First.tk h1).bind .pure))

theorem letter_open {t : Tok} {r : List Tok} (h : t.kind ∈ letterKinds) : Avoids (t :: r) openKinds :=
  avoids_cons fun hm => by
    revert h hm
    generalize t.kind = k
    revert k; decide +kernel

theorem parsed_letter {w : Sign} {n : Str} (hv : Variable w n) (hf : free n) :
    Parsed I free (.base ⟨false, true⟩) [w] (I.var n) := by
  intro ts r k hr hk ha
  obtain ⟨t, t1, rfl, h1, h2, -, h3⟩ := hr.var_inv hv
  cases h3
  have hfail : func (rule k) (t :: r) = [] := by
    refine func_letter_fail (r := r) h1 (ha.mono (by decide)) fun x hx => ?_
    rw [opt_none_run ((supexpr_needs _).avoid (ha.mono (by decide))), List.mem_singleton] at hx
    rw [hx]
    exact ha.mono (by decide)
  exact ⟨_, comp_atom (letter_open h1) hfail ⟨[], atom_letter h1 (ha.mono (by decide))⟩,
    .name h2 hf, fun _ => hfail⟩

theorem afterFactor_pow {e : End} {r : List Tok} (ha : Avoids r (after ⟨e.digits, true⟩))
    (he : e.name = false) : Avoids r (afterFactor e) := ha.mono (by
  rcases e with ⟨_ | _, _ | _⟩
  · decide
  · cases he
  · decide
  · cases he)

/-- an exponent does not end with a name -/
theorem exponent_name {e ws} {x : K} (h : Denotes I free wide (.exponent e) ws x) : e.name = false := by
  cases h <;> rfl

theorem parsed_letterPow {w : Sign} {n : Str} {e vs} {y : K} (hv : Variable w n) (hf : free n)
    (he : e.name = false) (ih : Parsed I free (.exponent e) vs y) :
    Parsed I free (.base ⟨e.digits, true⟩) (w :: .mark '^' :: vs) (I.pw (I.var n) y) := by
  intro ts r k hr hk ha
  obtain ⟨t, t1, rfl, h1, h2, -, h3⟩ := hr.var_inv hv
  obtain ⟨u, t2, rfl, h4, -, h5⟩ := h3.cons_inv (k := .CARET) (by decide +kernel)
  simp only [List.length_cons] at hk
  have ha' := afterFactor_pow ha he
  obtain ⟨p, d1, d2, d3, -⟩ := ih t2 r k h5 (by omega) ha'
  have hsup : First (supexpr (rule k)) (u :: (t2 ++ r)) p r := (First.tk h4).bind d1
  have hrest : ∀ x ∈ supexpr (rule k) (u :: (t2 ++ r)), x.2 = r := by
    intro x hx
    rw [supexpr, P.bind_run] at hx
    simp only [tk, if_pos h4, List.flatMap_cons, List.flatMap_nil, List.append_nil] at hx
    exact d3 x hx
  have hsub : subexpr (rule k) r = [] := (subexpr_needs _).avoid (ha'.mono (by simp [afterFactor]))
  have hsub' : subexpr (rule k) (u :: (t2 ++ r)) = [] :=
    (subexpr_needs _).avoid (avoids_cons (by rw [h4]; decide))
  have hfail : func (rule k) (t :: u :: (t2 ++ r)) = [] := by
    refine func_letter_fail h1 (avoids_cons (by rw [h4]; decide)) fun x hx => ?_
    rcases List.mem_append.1 hx with hx | hx
    · obtain ⟨y, hy, rfl⟩ := List.mem_map.1 hx
      show Avoids y.2 _
      rw [hrest y hy]
      refine ha.mono ?_
      rcases e with ⟨_ | _, _ | _⟩ <;> decide
    · rw [List.mem_singleton.1 hx]
      exact avoids_cons (by rw [h4]; decide)
  refine ⟨.name (nameOf t) none (some p), comp_atom (letter_open h1)
    hfail (First.choice_head (First.bind ⟨[], nameTok_run h1⟩ ?_)), .namePow h2 hf d2, fun _ => hfail⟩
  · refine First.choice_tail ?_ ?_
    · rw [P.bind_run, List.flatMap_eq_nil_iff]
      intro x hx
      rw [P.bind_run, hrest x hx, hsub]
      rfl
    · refine First.choice_tail ?_ (First.choice_tail ?_ (First.choice_head (hsup.bind .pure)))
      · rw [P.bind_run]; erw [hsub']; rfl
      · rw [P.bind_run]; erw [hsub']; rfl

/-- the alternative of functions for the base of the natural logarithm -/
theorem func_euler {rec : NT → P T} {t : Tok} {ts r : List Tok} {p : Option T} (h : t.kind = .EXP_E)
    (hp : First (P.opt (supexpr rec)) ts p r) : First (func rec) (t :: ts) (.expE p) r := by
  have hk : ∀ {α : Type} {p : P α} {ks : List Kind}, Needs p ks → Kind.EXP_E ∉ ks →
      p (t :: ts) = [] := fun hn hk => hn.skip (by rw [h]; exact hk)
  refine First.choice_tail (hk (funcName_needs _ _).bind (by decide)) ?_
  refine First.choice_tail (hk (funcName_needs _ _).bind (by decide)) ?_
  refine First.choice_tail (hk (atomExprNoSup_needs _).bind (by decide)) ?_
  refine First.choice_tail (hk (atomExprNoSup_needs _).bind (by decide)) ?_
  refine First.choice_tail (hk (Needs.tk _).bind (by decide)) ?_
  refine First.choice_tail (hk (Needs.tk _).bind (by decide)) ?_
  refine First.choice_tail (hk (Needs.oneOf _).bind (by decide)) ?_
  refine First.choice_tail (hk (Needs.tk _).bind (by decide)) ?_
  exact First.choice_head ((First.tk h).bind (hp.bind .pure))

theorem parsed_euler : Parsed I free (.base ⟨false, true⟩) [.letter 'e'] (I.fn s%"exp" [1]) := by
  intro ts r k hr hk ha
  obtain ⟨t, t1, rfl, h1, h2, h3⟩ := hr.cons_inv (k := .EXP_E) (by decide +kernel)
  cases h3
  exact ⟨_, comp_func (avoids_cons (by rw [h1]; decide +kernel)) (func_euler h1
    (First.opt_none ((supexpr_needs _).avoid (ha.mono (by decide))))), .euler, fun hp => absurd (hp _ rfl) (by decide +kernel)⟩

theorem parsed_eulerPow {e vs} {y : K} (he : e.name = false)
    (ih : Parsed I free (.exponent e) vs y) :
    Parsed I free (.base ⟨e.digits, true⟩) (.letter 'e' :: .mark '^' :: vs) (I.fn s%"exp" [y]) := by
  intro ts r k hr hk ha
  obtain ⟨t, t1, rfl, h1, h2, h3⟩ := hr.cons_inv (k := .EXP_E) (by decide +kernel)
  obtain ⟨u, t2, rfl, h4, -, h5⟩ := h3.cons_inv (k := .CARET) (by decide +kernel)
  simp only [List.length_cons] at hk
  obtain ⟨p, d1, d2, d3, -⟩ := ih t2 r k h5 (by omega) (afterFactor_pow ha he)
  exact ⟨_, comp_func (avoids_cons (by rw [h1]; decide +kernel)) (func_euler h1
    (First.opt_some ((First.tk h4).bind d1))), .exp d2, fun hp => absurd (hp _ rfl) (by decide +kernel)⟩

/-- closing brackets end an expression -/
theorem closing_ok : brackets.all (fun b => match b.2.1 with
    | w :: _ => match kindOf w with
      | some k => decide (k ∉ afterExpr)
      | none => false
    | [] => false) = true := by decide +kernel

/-- opening brackets do not begin a function -/
theorem opening_ok : brackets.all (fun b => match b.1 with
    | w :: _ => match kindOf w with
      | some k => decide (k ∉ funcKinds)
      | none => false
    | [] => false) = true := by decide +kernel

theorem parsed_brackets {l q o us} {x : K} (hb : (l, q, o) ∈ brackets) (hu : us ≠ [])
    (ih : Parsed I free .expr us x) {ts r : List Tok} {k : Nat} (hr : ReadsIn r (l ++ us ++ q) ts)
    (hk : 4 * us.length ≤ k) :
    ∃ f t, BracketTree o f ∧ First (comp (rule k) true) (ts ++ r) (f t) r ∧ Means I free t x ∧
      func (rule k) (ts ++ r) = [] := by
  rw [List.append_assoc] at hr
  obtain ⟨t1, t2, rfl, a1, a2⟩ := hr.append
  obtain ⟨t2, t3, rfl, a2, a3⟩ := a2.append
  have hc : Avoids (t3 ++ r) afterExpr := by
    have := List.all_eq_true.1 closing_ok _ hb
    cases a3 with
    | nil => simp at this
    | cons h1 h2 h3 =>
      simp only [h1.kindOf] at this
      exact avoids_cons (by simpa using this)
  obtain ⟨t, h1, h2⟩ := ih.expr_first a2 hu hk hc
  obtain ⟨f, h3, h4⟩ := comp_bracket hb a1.reads a3.reads h1
  refine ⟨f, t, h3, by simpa using h4, h2, ?_⟩
  have := List.all_eq_true.1 opening_ok _ hb
  cases a1 with
  | nil => simp at this
  | cons h1 h2 h3 =>
    simp only [h1.kindOf] at this
    exact func_fail_kind (by simpa using this)

/-- what the converter looks at is not a differential -/
theorem notDifferential {us : List Sign} {x : K} (hd : Denotes I free wide .expr us x) {ts : List Tok}
    (h : Reads us ts) : NotDifferential (spanOf ts) := by
  intro l hl
  obtain ⟨w, vs, rfl, hw⟩ := bare_starts hd rfl
  cases h with
  | @cons w ws t ts h1 h2 h3 =>
    have hd : t.kind ≠ .DIFFERENTIAL := by
      intro hc
      have := bare_kind h1 hw
      rw [hc] at this
      revert this; decide +kernel
    have hp : t.text ≠ s%"\\partial" := by
      rw [h2]
      intro hc
      generalize t.kind = k at h1
      cases h1 with
      | digit => simp [Sign.text] at hc
      | letter => simp [Sign.text] at hc
      | euler => simp [Sign.text] at hc
      | mark => simp [Sign.text] at hc
      | @cmd n k hm =>
        simp only [Sign.text, List.cons.injEq, true_and] at hc
        subst hc
        simp [cmdKinds] at hm
      | @greek n b hn =>
        have : greekNames.all (fun n => (Sign.greek n true).text != s%"\\partial" &&
          (Sign.greek n false).text != s%"\\partial") = true := by decide +kernel
        have := List.all_eq_true.1 this n hn
        simp only [Bool.and_eq_true, bne_iff_ne, ne_eq] at this
        cases b
        · exact this.2 hc
        · exact this.1 hc
      | diff => simp [Sign.text] at hc
      | dLetter => simp [Sign.text] at hc
    rw [spanOf] at hl
    simp only [List.head?_cons, List.getLast?_cons] at hl
    cases hl
    refine ⟨fun hc => ?_, fun hc => hp hc.2⟩
    have := hc.2
    revert this
    simp only
    clear hc h1
    generalize t.kind = k at hd
    cases k <;> simp [tokKind] at hd ⊢

theorem parsed_partDigit {d : Fin 10} : Parsed I free .part [.digit d] (d.val : K) := by
  intro ts r k hr hk
  obtain ⟨t, t1, rfl, h1, h2, h3⟩ := hr.cons_inv (k := .DIGIT) rfl
  cases h3
  refine ⟨.digit t.text, none, First.or_left (First.bind (First.tk h1) .pure), ?_,
    First.or_left (First.bind (First.tk h1) .pure), ?_⟩
  · intro l hl
    cases hl
  · rw [h2]
    exact .digit

theorem parsed_partBraces {us} {x : K} (hd : Denotes I free wide .expr us x)
    (ih : Parsed I free .expr us x) :
    Parsed I free .part (.mark '{' :: us ++ [.mark '}']) x := by
  intro ts r k hr hk
  obtain ⟨o, t1, c, rfl, h1, h2, h3⟩ := reads_braces (ka := .L_BRACE) (kb := .R_BRACE) hr
    (by decide +kernel) (by decide +kernel)
  simp only [List.length_append, List.length_cons, List.length_nil] at hk
  obtain ⟨t, e1, e2⟩ := exprStep ih (not_nil hd) h3 (k := k) (by omega) (c := c) (r := r)
    (by rw [h2]; decide +kernel)
  have hts : (o :: (t1 ++ [c])) ++ r = o :: (t1 ++ c :: r) := by simp
  have hdig : ∀ {α : Type} {f : Tok → P α}, (tk .DIGIT >>= f) (o :: (t1 ++ c :: r)) = [] := fun {α f} =>
    (Needs.tk _).bind.avoid (avoids_cons (by rw [h1]; decide))
  rw [hts]
  refine ⟨t, spanOf t1, First.or_right hdig ?_, notDifferential hd h3,
    First.or_right hdig (braced_first h1 h2 e1), e2⟩
  exact (First.tk h1).bind (First.bind (First.used e1) ((First.tk h2).bind .pure))

theorem parsed_frac {us vs} {x y : K} (h1 : Parsed I free .part us x) (h2 : Parsed I free .part vs y) :
    Parsed I free (.base closed) (.cmd s%"frac" :: us ++ vs) (x / y) := by
  intro ts r k hr hk ha
  rw [List.cons_append] at hr hk
  obtain ⟨t, ts, rfl, a1, -, a2⟩ := hr.cons_inv (k := .CMD_FRAC) (by decide +kernel)
  obtain ⟨t1, t2, rfl, b1, b2⟩ := a2.append
  simp only [List.length_cons, List.length_append] at hk
  obtain ⟨u, su, c1, -, -, c4⟩ := h1 t1 (t2 ++ r) k b1 (by omega)
  obtain ⟨l, sl, d1, d2, -, d4⟩ := h2 t2 r k b2 (by omega)
  have hk' : ∀ {α : Type} {p : P α} {ks : List Kind}, Needs p ks → Kind.CMD_FRAC ∉ ks →
      p (t :: (t1 ++ t2 ++ r)) = [] := fun hn hk => hn.skip (by rw [a1]; exact hk)
  refine ⟨.frac u su l sl, comp_atom (avoids_cons (by rw [a1]; decide +kernel))
    (func_fail_kind (by rw [a1]; decide +kernel)) ?_, .frac d2 c4 d4,
    fun _ => func_fail_kind (by rw [a1]; decide +kernel)⟩
  refine First.choice_tail (hk' (atomExpr_needs _) (by decide)) ?_
  refine First.choice_tail (hk' (Needs.tk _).bind (by decide)) ?_
  refine First.choice_tail (hk' eNotation_needs.bind (by decide)) ?_
  refine First.choice_tail (hk' percentNumber_needs.bind (by decide)) ?_
  refine First.choice_tail (hk' numberText_needs.bind (by decide)) ?_
  refine First.choice_tail (hk' (Needs.tk _).bind (by decide)) ?_
  refine First.choice_tail (hk' mathit_needs (by decide)) ?_
  refine First.choice_head ?_
  refine (First.tk a1).bind ?_
  show First _ (t1 ++ t2 ++ r) _ r
  rw [List.append_assoc]
  exact c1.bind (d1.bind .pure)

/-- the alternative of functions for roots -/
theorem func_sqrt {rec : NT → P T} {t : Tok} {ts r1 r : List Tok} {p : Option T} {b : T}
    (h : t.kind = .FUNC_SQRT)
    (hp : First (P.opt (do
        let _ ← tk .L_BRACKET
        let r ← rec .expr
        let _ ← tk .R_BRACKET
        pure r)) ts p r1)
    (hb : First (P.or (do let d ← tk .DIGIT
                          pure (T.digit d.text)) (braced rec)) r1 b r) :
    First (func rec) (t :: ts) (.sqrt b p) r := by
  have hk : ∀ {α : Type} {p : P α} {ks : List Kind}, Needs p ks → Kind.FUNC_SQRT ∉ ks →
      p (t :: ts) = [] := fun hn hk => hn.skip (by rw [h]; exact hk)
  refine First.choice_tail (hk (funcName_needs _ _).bind (by decide)) ?_
  refine First.choice_tail (hk (funcName_needs _ _).bind (by decide)) ?_
  refine First.choice_tail (hk (atomExprNoSup_needs _).bind (by decide)) ?_
  refine First.choice_tail (hk (atomExprNoSup_needs _).bind (by decide)) ?_
  refine First.choice_tail (hk (Needs.tk _).bind (by decide)) ?_
  exact First.choice_head ((First.tk h).bind (hp.bind (hb.bind .pure)))

/-- how an argument of a command begins -/
theorem part_avoids {us} {x : K} (h : Denotes I free wide .part us x) {ts : List Tok} (hr : Reads us ts)
    (r : List Tok) : Avoids (ts ++ r) [.L_BRACKET] := by
  cases h with
  | partDigit =>
    obtain ⟨t, t1, rfl, h1, -, -⟩ := hr.cons_inv (k := .DIGIT) rfl
    exact avoids_cons (by rw [h1]; decide)
  | partBraces =>
    rw [List.cons_append] at hr
    obtain ⟨t, t1, rfl, h1, -, -⟩ := hr.cons_inv (k := .L_BRACE) (by decide +kernel)
    exact avoids_cons (by rw [h1]; decide)

theorem parsed_sqrt {us} {x : K} (hd : Denotes I free wide .part us x) (h : Parsed I free .part us x) :
    Parsed I free (.base closed) (.cmd s%"sqrt" :: us) (I.pw x (1 / 2)) := by
  intro ts r k hr hk ha
  obtain ⟨t, ts, rfl, a1, -, a2⟩ := hr.cons_inv (k := .FUNC_SQRT) (by decide +kernel)
  simp only [List.length_cons] at hk
  obtain ⟨b, sb, -, -, c3, c4⟩ := h ts r k a2 (by omega)
  exact ⟨_, comp_func (avoids_cons (by rw [a1]; decide +kernel)) (func_sqrt a1
    (First.opt_none ((Needs.tk _).bind.avoid (part_avoids hd a2 r))) c3), .sqrt c4, fun hp => absurd (hp _ rfl) (by decide +kernel)⟩

theorem parsed_root {us vs} {x y : K} (hu : us ≠ []) (h1 : Parsed I free .expr us y)
    (h2 : Parsed I free .part vs x) (hy : y ≠ 0) :
    Parsed I free (.base closed) (.cmd s%"sqrt" :: .mark '[' :: us ++ .mark ']' :: vs)
      (I.pw x (1 / y)) := by
  intro ts r k hr hk ha
  rw [List.cons_append, List.cons_append] at hr hk
  obtain ⟨t, ts, rfl, a1, -, a2⟩ := hr.cons_inv (k := .FUNC_SQRT) (by decide +kernel)
  obtain ⟨o, ts, rfl, b1, -, b2⟩ := a2.cons_inv (k := .L_BRACKET) (by decide +kernel)
  obtain ⟨t1, t2, rfl, c1, c2⟩ := b2.append
  obtain ⟨c, t2, rfl, d1, -, d2⟩ := c2.cons_inv (k := .R_BRACKET) (by decide +kernel)
  simp only [List.length_cons, List.length_append] at hk
  obtain ⟨e, e1, e2⟩ := exprStep h1 hu c1 (k := k) (by omega) (c := c) (r := t2 ++ r)
    (by rw [d1]; decide +kernel)
  obtain ⟨b, sb, -, -, f3, f4⟩ := h2 t2 r k d2 (by omega)
  refine ⟨.sqrt b (some e), comp_func (avoids_cons (by rw [a1]; decide +kernel)) (func_sqrt a1
    (r1 := t2 ++ r) (First.opt_some ?_) f3), .root f4 e2 hy, fun hp => absurd (hp _ rfl) (by decide +kernel)⟩
  refine (First.tk b1).bind ?_
  show First _ (t1 ++ c :: t2 ++ r) _ _
  rw [List.append_assoc]
  exact e1.bind ((First.tk d1).bind .pure)

theorem parsed_binom {us vs} {x y : K} (hu : us ≠ []) (hv : vs ≠ []) (h1 : Parsed I free .expr us x)
    (h2 : Parsed I free .expr vs y) :
    Parsed I free (.base closed)
      (.cmd s%"binom" :: .mark '{' :: us ++ .mark '}' :: .mark '{' :: vs ++ [.mark '}'])
      (I.fn s%"binomial" [x, y]) := by
  intro ts r k hr hk ha
  have hws : (Sign.cmd s%"binom" :: .mark '{' :: us ++ .mark '}' :: .mark '{' :: vs ++ [.mark '}'])
      = .cmd s%"binom" :: .mark '{' :: (us ++ .mark '}' :: .mark '{' :: (vs ++ [.mark '}'])) := by
    simp
  rw [hws] at hr hk
  obtain ⟨t, ts, rfl, a1, -, a2⟩ := hr.cons_inv (k := .CMD_BINOM) (by decide +kernel)
  obtain ⟨o, ts, rfl, b1, -, b2⟩ := a2.cons_inv (k := .L_BRACE) (by decide +kernel)
  obtain ⟨t1, t2, rfl, c1, c2⟩ := b2.append
  obtain ⟨c, t2, rfl, d1, -, d2⟩ := c2.cons_inv (k := .R_BRACE) (by decide +kernel)
  obtain ⟨o', t2, rfl, e1, -, e2⟩ := d2.cons_inv (k := .L_BRACE) (by decide +kernel)
  obtain ⟨t3, t4, rfl, f1, f2⟩ := e2.append
  obtain ⟨c', t4, rfl, g1, -, g2⟩ := f2.cons_inv (k := .R_BRACE) (by decide +kernel)
  cases g2
  simp only [List.length_cons, List.length_append, List.length_nil] at hk
  obtain ⟨u, i1, i2⟩ := exprStep h1 hu (by simpa using c1) (k := k) (by omega) (c := c) (r := o' :: (t3 ++ c' :: r))
    (by rw [d1]; decide +kernel)
  obtain ⟨l, j1, j2⟩ := exprStep h2 hv f1 (k := k) (by omega) (c := c') (r := r)
    (by rw [g1]; decide +kernel)
  have hts : (t :: o :: (t1 ++ c :: o' :: (t3 ++ [c']))) ++ r
      = t :: o :: (t1 ++ c :: o' :: (t3 ++ c' :: r)) := by simp
  rw [hts]
  refine ⟨.binom u l, comp_binom a1 (First.or_right ((Needs.tk _).bind.avoid (avoids_cons (by
    rw [a1]; decide))) ?_), .binom i2 j2, fun _ => func_fail_kind (by rw [a1]; decide +kernel)⟩
  exact (First.tk a1).bind ((braced_first b1 d1 i1).bind ((braced_first e1 g1 j1).bind .pure))

theorem parsed_argParens {us} {x : K} (hu : us ≠ []) (ih : Parsed I free .expr us x) :
    Parsed I free .arg (.mark '(' :: us ++ [.mark ')']) x := by
  intro ts r k hr hk
  obtain ⟨o, t1, c, rfl, h1, h2, h3⟩ := reads_braces (ka := .L_PAREN) (kb := .R_PAREN) hr
    (by decide +kernel) (by decide +kernel)
  simp only [List.length_append, List.length_cons, List.length_nil] at hk
  obtain ⟨t, e1, e2⟩ := exprStep ih hu h3 (k := k) (by omega) (c := c) (r := r)
    (by rw [h2]; decide +kernel)
  have hts : (o :: (t1 ++ [c])) ++ r = o :: (t1 ++ c :: r) := by simp
  rw [hts]
  refine ⟨t, First.or_left ?_, e2⟩
  refine (First.opt_none ((Needs.tk _).avoid (avoids_cons (by rw [h1]; decide)))).bind ?_
  refine (First.tk h1).bind (e1.bind ?_)
  refine (First.opt_none ((Needs.tk _).avoid (avoids_cons (by rw [h2]; decide)))).bind ?_
  exact (First.tk h2).bind .pure

theorem parsed_argLeft {us} {x : K} (hu : us ≠ []) (ih : Parsed I free .expr us x) :
    Parsed I free .arg (.cmd s%"left" :: .mark '(' :: us ++ [.cmd s%"right", .mark ')']) x := by
  intro ts r k hr hk
  rw [List.cons_append, List.cons_append] at hr hk
  obtain ⟨o, ts, rfl, a1, -, a2⟩ := hr.cons_inv (k := .L_LEFT) (by decide +kernel)
  obtain ⟨o', ts, rfl, b1, -, b2⟩ := a2.cons_inv (k := .L_PAREN) (by decide +kernel)
  obtain ⟨t1, t2, rfl, c1, c2⟩ := b2.append
  obtain ⟨c, t2, rfl, d1, -, d2⟩ := c2.cons_inv (k := .R_RIGHT) (by decide +kernel)
  obtain ⟨c', t2, rfl, e1, -, e2⟩ := d2.cons_inv (k := .R_PAREN) (by decide +kernel)
  cases e2
  simp only [List.length_append, List.length_cons, List.length_nil] at hk
  obtain ⟨t, f1, f2⟩ := exprStep ih hu c1 (k := k) (by omega) (c := c) (r := c' :: r)
    (by rw [d1]; decide +kernel)
  have hts : (o :: o' :: (t1 ++ [c, c'])) ++ r = o :: o' :: (t1 ++ c :: c' :: r) := by simp
  rw [hts]
  refine ⟨t, First.or_left ?_, f2⟩
  refine (First.opt_some (First.tk a1)).bind ?_
  refine (First.tk b1).bind (f1.bind ?_)
  refine (First.opt_some (First.tk d1)).bind ?_
  exact (First.tk e1).bind .pure

/-- how the argument of a function begins -/
theorem arg_avoids {us} {x : K} (h : Denotes I free wide .arg us x) {ts : List Tok} (hr : Reads us ts)
    (r : List Tok) (e : End) (he : e.name = false) : Avoids (ts ++ r) (afterFactor e) := by
  have key : ∀ k ∈ [Kind.L_PAREN, .L_LEFT], k ∉ afterFactor e := by
    rcases e with ⟨_ | _, _ | _⟩
    · decide
    · cases he
    · decide
    · cases he
  cases h with
  | argParens =>
    rw [List.cons_append] at hr
    obtain ⟨t, t1, rfl, h1, -, -⟩ := hr.cons_inv (k := .L_PAREN) (by decide +kernel)
    exact avoids_cons (by rw [h1]; exact key _ (by simp))
  | argLeft =>
    rw [List.cons_append] at hr
    obtain ⟨t, t1, rfl, h1, -, -⟩ := hr.cons_inv (k := .L_LEFT) (by decide +kernel)
    exact avoids_cons (by rw [h1]; exact key _ (by simp))

/-- the alternative of functions of one argument -/
theorem func_single {rec : NT → P T} {t : Tok} {ts r1 r : List Tok} {s : Option (T × Str)}
    {p : Option T} {a : T} (h : t.kind ∈ singleKinds) (hs : First (subSup rec) ts (s, p) r1)
    (ha : First (parenthesised (rec .expr)) r1 a r) :
    First (func rec) (t :: ts) (.fnSingle (t.text.drop 1) [] (s.map (·.1)) p a) r := by
  refine First.choice_head ?_
  refine First.bind (First.or_left ((First.oneOf h).bind .pure)) ?_
  exact hs.bind ((First.or_left ha).bind .pure)

theorem single_open {k : Kind} (h : k ∈ singleKinds) : k ∉ openKinds := by
  revert k; decide +kernel

/-- functions of one argument -/
def singleCmd (n : Str) : Bool :=
  match kindOf (.cmd n) with
  | some k => decide (k ∈ singleKinds)
  | none => false

theorem functions_single : functionNames.all (fun p => singleCmd p.1) = true := by decide +kernel

theorem functions_open : functionNames.all (fun p => opens (.cmd p.1)) = true := by decide +kernel

theorem reads_single {r : List Tok} {n : Str} {us : List Sign} {ts : List Tok} (hn : singleCmd n = true)
    (h : ReadsIn r (.cmd n :: us) ts) :
    ∃ t ts', ts = t :: ts' ∧ t.kind ∈ singleKinds ∧ t.text.drop 1 = n ∧ ReadsIn r us ts' := by
  cases h with
  | cons h1 h2 h3 =>
    refine ⟨_, _, rfl, ?_, by rw [h2]; rfl, h3⟩
    rw [singleCmd, h1.kindOf] at hn
    simpa using hn

/-- a function without index and exponent -/
theorem parsed_plain {nm us} {x v : K} (hn : singleCmd nm = true) (ho : opens (.cmd nm) = true) (hd : Denotes I free wide .arg us x)
    (h : Parsed I free .arg us x)
    (hm : ∀ a, Means I free a x → Means I free (.fnSingle nm [] none none a) v) :
    Parsed I free (.base closed) (.cmd nm :: us) v := by
  intro ts r k hr hk ha
  obtain ⟨t, ts, rfl, a1, a2, a3⟩ := reads_single hn hr
  simp only [List.length_cons] at hk
  obtain ⟨a, b1, b2⟩ := h ts r k a3 (by omega)
  have hav := arg_avoids hd a3.reads r closed rfl
  have hs : First (subSup (rule k)) (ts ++ r) (none, none) (ts ++ r) := First.or_left
    ((First.opt_none ((subexpr_needs _).avoid (hav.mono (by decide)))).bind
      ((First.opt_none ((supexpr_needs _).avoid (hav.mono (by decide)))).bind .pure))
  have := func_single a1 hs b1
  rw [a2] at this
  exact ⟨_, comp_func (avoids_cons (single_open a1)) this, hm a b2,
    fun hp => absurd (hp _ rfl) (by rw [ho]; simp)⟩

theorem parsed_funcPow {nm f e us vs} {x y : K} (hn : (nm, f) ∈ functionNames) (he : e.name = false)
    (h1 : Parsed I free (.exponent e) us y) (hd : Denotes I free wide .arg vs x)
    (h2 : Parsed I free .arg vs x) (hy : y ≠ 0) (hy' : y ≠ -1) :
    Parsed I free (.base closed) (.cmd nm :: .mark '^' :: us ++ vs) (I.pw (I.fn f [x]) y) := by
  intro ts r k hr hk ha
  rw [List.cons_append, List.cons_append] at hr hk
  obtain ⟨t, ts, rfl, a1, a2, a3⟩ := reads_single (List.all_eq_true.1 functions_single _ hn) hr
  obtain ⟨c, ts, rfl, b1, -, b2⟩ := a3.cons_inv (k := .CARET) (by decide +kernel)
  obtain ⟨t1, t2, rfl, c1, c2⟩ := b2.append
  simp only [List.length_cons, List.length_append] at hk
  have hav := arg_avoids hd c2.reads r e he
  obtain ⟨p, d1, d2, -, -⟩ := h1 t1 (t2 ++ r) k c1 (by omega) hav
  obtain ⟨a, e1, e2⟩ := h2 t2 r k c2 (by omega)
  have hs : First (subSup (rule k)) (c :: (t1 ++ (t2 ++ r))) (none, some p) (t2 ++ r) := First.or_left
    ((First.opt_none ((subexpr_needs _).avoid (avoids_cons (by rw [b1]; decide)))).bind
      ((First.opt_some ((First.tk b1).bind d1)).bind .pure))
  have := func_single a1 hs e1
  rw [a2] at this
  refine ⟨_, ?_, .funcPow (op := []) hn e2 d2 hy hy',
    fun hp => absurd (hp _ rfl) (by rw [List.all_eq_true.1 functions_open _ hn]; simp)⟩
  have hts : (t :: c :: (t1 ++ t2)) ++ r = t :: c :: (t1 ++ (t2 ++ r)) := by simp
  rw [hts]
  exact comp_func (avoids_cons (single_open a1)) this

theorem parsed_logBase {e us vs} {x y : K} (he : e.name = false)
    (h1 : Parsed I free (.exponent e) us y) (hd : Denotes I free wide .arg vs x)
    (h2 : Parsed I free .arg vs x) :
    Parsed I free (.base closed) (.cmd s%"log" :: .mark '_' :: us ++ vs) (I.fn s%"log" [x, y]) := by
  intro ts r k hr hk ha
  rw [List.cons_append, List.cons_append] at hr hk
  obtain ⟨t, ts, rfl, a1, a2, a3⟩ := reads_single (by decide +kernel) hr
  obtain ⟨c, ts, rfl, b1, -, b2⟩ := a3.cons_inv (k := .UNDERSCORE) (by decide +kernel)
  obtain ⟨t1, t2, rfl, c1, c2⟩ := b2.append
  simp only [List.length_cons, List.length_append] at hk
  have hav := arg_avoids hd c2.reads r e he
  obtain ⟨p, d1, d2, -, d4⟩ := h1 t1 (t2 ++ r) k c1 (by omega) hav
  obtain ⟨s, d4⟩ := d4 c b1
  obtain ⟨a, e1, e2⟩ := h2 t2 r k c2 (by omega)
  have hs : First (subSup (rule k)) (c :: (t1 ++ (t2 ++ r))) (some (p, s), none) (t2 ++ r) :=
    First.or_left ((First.opt_some d4).bind
      ((First.opt_none ((supexpr_needs _).avoid (hav.mono (by simp [afterFactor])))).bind .pure))
  have := func_single a1 hs e1
  rw [a2] at this
  refine ⟨_, ?_, .logBase (op := []) e2 d2, fun hp => absurd (hp _ rfl) (by decide +kernel)⟩
  have hts : (t :: c :: (t1 ++ t2)) ++ r = t :: c :: (t1 ++ (t2 ++ r)) := by simp
  rw [hts]
  exact comp_func (avoids_cons (single_open a1)) this

/-! ### Products and sums -/

theorem times_kinds : timesSigns.all (fun o => match kindOf o with
    | some k => decide (k ∈ [Kind.MUL, .CMD_TIMES, .CMD_CDOT])
    | none => false) = true := by decide +kernel

theorem over_kinds : overSigns.all (fun o => match kindOf o with
    | some k => decide (k ∈ [Kind.DIV, .CMD_DIV, .COLON])
    | none => false) = true := by decide +kernel

theorem parsed_op {b us o vs} {x y v : K} {ks : List Kind} (hu : us ≠ []) (hv : vs ≠ [])
    (h1 : Parsed I free (.term false) us x) (h2 : Parsed I free (.signed b) vs y)
    (ho : ∀ k, kindOf o = some k → k ∈ ks) (hks : ∀ k ∈ ks, k ∈ mulKinds ∧ k ∉ afterProduct)
    (hm : ∀ k ∈ ks, ∀ l r, Means I free l x → Means I free r y → Means I free (mulTree k l r) v) :
    Parsed I free (.term b) (us ++ o :: vs) v := by
  intro ts r k hr hk ha
  obtain ⟨t1, t2, rfl, a1, a2⟩ := hr.append
  cases a2 with
  | @cons _ _ t ts b1 b2 b3 =>
    have hkind := ho _ b1.kindOf
    simp only [List.length_append, List.length_cons] at hk
    have := List.length_pos_iff.2 hv
    have := List.length_pos_iff.2 hu
    obtain ⟨l, ls, r1, c1, c2, c3⟩ := h1 t1 (t :: (ts ++ r)) k a1 (by omega)
      (avoids_cons (hks _ hkind).2)
    obtain ⟨u, d1, d2⟩ := h2 ts r k b3 (by omega) ha
    refine ⟨l, ls ++ [(t.kind, u)], r1, ?_, c2.append (Steps.one ?_ ?_), ?_⟩
    · rw [List.append_assoc]; exact c1
    · exact (First.oneOf (hks _ hkind).1).bind (d1.bind .pure)
    · simp only [List.length_cons, List.length_append]; omega
    · rw [List.foldl_append]
      exact hm _ hkind _ _ c3 d2

theorem parsed_addop {b us o vs} {x y v : K} {j : Kind} (hv : vs ≠ [])
    (h1 : Parsed I free .expr us x) (h2 : Parsed I free (.term b) vs y)
    (ho : kindOf o = some j) (hj : j ∈ [Kind.ADD, .SUB])
    (hm : ∀ l r, Means I free l x → Means I free r y → Means I free (addTree j l r) v) :
    Parsed I free .expr (us ++ o :: vs) v := by
  intro ts r k hr hk ha
  obtain ⟨t1, t2, rfl, a1, a2⟩ := hr.append
  obtain ⟨t, ts, rfl, b1, -, b3⟩ := a2.cons_inv ho
  simp only [List.length_append, List.length_cons] at hk
  have hj' : j ∉ afterTerm := by
    clear ho hm b1
    revert j; decide +kernel
  obtain ⟨l, ls, r1, c1, c2, c3⟩ := h1 t1 (t :: (ts ++ r)) k a1 (by omega)
    (avoids_cons (by rw [b1]; exact hj'))
  obtain ⟨u, d1, d2⟩ := h2.term_first b3 hv (k := k) (by omega) ha
  refine ⟨l, ls ++ [(t.kind, u)], r1, ?_, c2.append (Steps.one ?_ ?_), ?_⟩
  · rw [List.append_assoc]; exact c1
  · exact (First.oneOf (by rw [b1]; exact hj)).bind (d1.bind .pure)
  · simp only [List.length_cons, List.length_append]; omega
  · rw [List.foldl_append, b1]
    exact hm _ _ c3 d2

theorem parsed_product {o us} {x : K} (hd : Denotes I free wide (.product o) us x)
    (h : Parsed I free (.product o) us x) : Parsed I free (.signed o) us x := by
  intro ts r k hr hk ha
  have hne := List.length_pos_iff.2 (not_nil hd)
  obtain ⟨j, rfl⟩ : ∃ j, k = j + 1 := ⟨k - 1, by omega⟩
  obtain ⟨p, ps, h1, h2⟩ := h ts r j hr (by omega) ha
  obtain ⟨w, vs, rfl, hw⟩ := starts hd
  refine ⟨_, First.or_right ?_ ((First.plus h1 ((postfix_needs _ _).avoid
    ((ha.mono (afterProduct_sub o)).mono (by decide +kernel)))).bind .pure), h2⟩
  cases hr with
  | cons b1 b2 b3 =>
    refine (Needs.oneOf _).bind.avoid (avoids_cons ?_)
    have := start_kind b1 (hw rfl)
    intro hm
    revert this hm
    clear b1 b2 h1 h
    generalize Tok.kind _ = k
    revert k; decide +kernel

theorem parsed_sign {b us} {o : Sign} {x v : K} {j : Kind} (hu : us ≠ [])
    (h : Parsed I free (.signed b) us x)
    (ho : kindOf o = some j) (hj : j ∈ [Kind.ADD, .SUB])
    (hm : ∀ t, Means I free t x → Means I free (signTree j t) v) :
    Parsed I free (.signed b) (o :: us) v := by
  intro ts r k hr hk ha
  obtain ⟨t, ts, rfl, b1, -, b3⟩ := hr.cons_inv ho
  simp only [List.length_cons] at hk
  have := List.length_pos_iff.2 hu
  obtain ⟨j', rfl⟩ : ∃ j, k = j + 1 := ⟨k - 1, by omega⟩
  obtain ⟨u, h1, h2⟩ := h ts r j' b3 (by omega) ha
  refine ⟨signTree t.kind u, First.or_left ?_, by rw [b1]; exact hm u h2⟩
  exact (First.oneOf (by rw [b1]; exact hj)).bind (h1.bind .pure)

/-- without a function, both variants of a factor are the same -/
theorem comp_plain {rec : NT → P T} {ts : List Tok} (h : func rec ts = []) :
    comp rec false ts = comp rec true ts := by
  have h1 : comp rec true = P.choice (([group rec, normGroup rec, absGroup rec, floorGroup rec,
    ceilGroup rec] ++ [func rec]) ++ [atom rec, binom rec, matrix rec, det rec]) := rfl
  have h2 : comp rec false = P.choice (([group rec, normGroup rec, absGroup rec, floorGroup rec,
    ceilGroup rec] ++ []) ++ [atom rec, binom rec, matrix rec, det rec]) := rfl
  have h3 : P.choice [func rec] ts = [] := by rw [P.choice_run, h]; rfl
  have h4 : P.choice ([] : List (P T)) ts = [] := rfl
  rw [h1, h2, choice_append, choice_append, choice_append, choice_append, h3, h4]

theorem postfix_plain {rec : NT → P T} {ts : List Tok} (h : func rec ts = []) :
    postfix' rec false ts = postfix' rec true ts := by
  unfold postfix' exp
  rw [P.bind_run, P.bind_run, P.bind_run, P.bind_run, comp_plain h]

/-- a factor without function begins with none of the names of functions -/
theorem postfix_bare_needs (rec : NT → P T) :
    Needs (postfix' rec false) (compKinds.filter (· ∉ headKinds)) := by
  have h1 : Needs (P.choice [group rec, normGroup rec, absGroup rec, floorGroup rec, ceilGroup rec])
      (compKinds.filter (· ∉ headKinds)) :=
    (Needs.choice (group_needs rec) (.choice (normGroup_needs rec) (.choice (absGroup_needs rec)
      (.choice (floorGroup_needs rec) (.choice (ceilGroup_needs rec) .nil))))).mono (by decide +kernel)
  have h2 : Needs (P.choice [atom rec, binom rec, matrix rec, det rec])
      (compKinds.filter (· ∉ headKinds)) :=
    (Needs.choice (atom_needs rec) (.choice (binom_needs rec) (.choice (Needs.tk _).bind
      (.choice (Needs.tk _).bind .nil)))).mono (by decide +kernel)
  have h3 : Needs (comp rec false) (compKinds.filter (· ∉ headKinds)) :=
    (h1.choice_append h2).mono fun k hk => by simpa using hk
  exact h3.bind.bind

theorem factor_step {e us} {x : K} (hu : us ≠ []) (h : Parsed I free (.factor e) us x)
    {ts r : List Tok} {k : Nat} (hr : ReadsIn r us ts) (hk : 4 * us.length ≤ k + 3)
    (ha : Avoids r (afterFactor e)) (hs : postfixOp (rule k) r = []) :
    ∃ p, First (postfix' (rule k) true) (ts ++ r) p r ∧ r.length < (ts ++ r).length ∧
      Means I free p x ∧ (Plain us → First (postfix' (rule k) false) (ts ++ r) p r) := by
  obtain ⟨b, ops, r1, h1, h2, h3, h4⟩ := h ts r k hr hk ha
  have h5 : First (postfix' (rule k) true) (ts ++ r) (ops.foldl (fun t f => f t) b) r :=
    h1.bind ((First.many h2 hs).bind .pure)
  refine ⟨_, h5, reads_len_pos hr.reads hu r, h3, fun hp => ?_⟩
  obtain ⟨l, h5⟩ := h5
  exact ⟨l, by rw [postfix_plain (h4 hp), h5]⟩

theorem parsed_factor {e us} {x : K} (hu : us ≠ []) (h : Parsed I free (.factor e) us x) :
    Parsed I free (.product false) us x := by
  intro ts r k hr hk ha
  obtain ⟨p, h1, h2, h3, -⟩ := factor_step hu h hr hk (ha.mono (afterFactor_sub e)) (postfixOp_stop ha)
  exact ⟨p, [], .one h1 h2, .one h3⟩

/-- the first token of a phrase that follows another one -/
theorem next_factor {l : Level} {e w vs} {x : K} (hd : Denotes I free wide l (w :: vs) x)
    (hl : tight l = true) {ts : List Tok} (hr : Reads (w :: vs) ts) (hf : Follows e w) :
    ∃ t ts', ts = t :: ts' ∧ t.kind ∈ startKinds ∧ t.kind ∉ afterFactor e := by
  obtain ⟨w', vs', h1, hw⟩ := starts hd
  cases h1
  cases hr with
  | cons c1 c2 c3 =>
    exact ⟨_, _, rfl, start_kind c1 (hw hl), follows_avoids c1 (start_kind c1 (hw hl)) hf⟩

theorem start_stops {rec : NT → P T} {t : Tok} {r : List Tok} (hs : t.kind ∈ startKinds) :
    postfixOp rec (t :: r) = [] := by
  refine (postfixOp_needs _).avoid (avoids_cons ?_)
  intro hm
  revert hs hm
  generalize t.kind = k
  revert k; decide +kernel

theorem parsed_juxt {o e us w vs} {x y : K} (hu : us ≠ []) (h : Parsed I free (.factor e) us x)
    (hd : Denotes I free wide (.product o) (w :: vs) y) (h' : Parsed I free (.product o) (w :: vs) y)
    (hf : Follows e w) : Parsed I free (.product o) (us ++ w :: vs) (x * y) := by
  intro ts r k hr hk ha
  obtain ⟨t1, t2, rfl, a1, a2⟩ := hr.append
  simp only [List.length_append] at hk
  obtain ⟨q, qs, b1, b2⟩ := h' t2 r k a2 (by omega) ha
  obtain ⟨t, t2, rfl, hs, hn⟩ := next_factor hd rfl a2.reads hf
  have hstop := start_stops (rec := rule k) (r := t2 ++ r) hs
  obtain ⟨p, h1, h2, h3, -⟩ := factor_step hu h a1 (r := t :: t2 ++ r) (k := k) (by omega)
    (avoids_cons hn) hstop
  refine ⟨p, q :: qs, ?_, .juxt h3 b2⟩
  rw [List.append_assoc]
  exact .cons h1 h2 b1

theorem parsed_fact {e us} {x : K} (hu : us ≠ []) (h : Parsed I free (.factor e) us x) :
    Parsed I free (.factor closed) (us ++ [.mark '!']) (I.fn s%"factorial" [x]) := by
  intro ts r k hr hk ha
  obtain ⟨t1, t2, rfl, a1, a2⟩ := hr.append
  obtain ⟨t, t2, rfl, b1, -, b3⟩ := a2.cons_inv (k := .BANG) (by decide +kernel)
  cases b3
  simp only [List.length_append, List.length_cons, List.length_nil] at hk
  obtain ⟨b, ops, r1, h1, h2, h3, h4⟩ := h t1 (t :: r) k a1 (by omega) (avoids_cons (by
    rw [b1]; rcases e with ⟨_ | _, _ | _⟩ <;> decide))
  refine ⟨b, ops ++ [T.bang], r1, ?_, h2.append (Steps.one ?_ (by simp)), ?_, fun hp => ?_⟩
  rotate_left 3
  · rw [List.append_assoc]
    exact h4 (hp.of_append hu)
  · rw [List.append_assoc]; exact h1
  · exact First.choice_head ((First.tk b1).bind .pure)
  · rw [List.foldl_append]
    exact .fact h3

theorem parsed_base {e us} {x : K} (h : Parsed I free (.base e) us x) :
    Parsed I free (.power e) us x := by
  intro ts r k hr hk ha
  obtain ⟨t, h1, h2, h3⟩ := h ts r k hr hk (ha.mono (after_sub_factor e))
  refine ⟨t, First.bind h1 (First.bind (First.many (as := []) .nil ?_) .pure), h2, h3⟩
  exact (Needs.tk _).bind.avoid (ha.mono (by simp [afterFactor]))

/-! ### Functions without parentheses -/

/-- a function whose argument is not in parentheses -/
theorem func_bare {rec : NT → P T} {t : Tok} {ts r1 r : List Tok} {s : Option (T × Str)}
    {p : Option T} {a : T} (h : t.kind ∈ singleKinds) (hs : First (subSup rec) ts (s, p) r1)
    (hp : parenthesised (rec .expr) r1 = []) (ha : First (rec .mpNf) r1 a r) :
    First (func rec) (t :: ts) (.fnSingle (t.text.drop 1) [] (s.map (·.1)) p a) r := by
  refine First.choice_head ?_
  refine First.bind (First.or_left ((First.oneOf h).bind .pure)) ?_
  exact hs.bind ((First.or_right hp ha).bind .pure)

/-- no argument in parentheses begins here -/
theorem parenthesised_fail {p : P T} {t : Tok} {ts : List Tok} (h1 : t.kind ≠ .L_PAREN)
    (h2 : t.kind ≠ .ML_LEFT) (h3 : t.kind = .L_LEFT → Avoids ts [.L_PAREN]) :
    parenthesised p (t :: ts) = [] := by
  have hb : ∀ {α : Type} (f : Tok → P α), (tk .L_PAREN >>= f) (t :: ts) = [] := fun f =>
    (Needs.tk _).bind.avoid (avoids_cons (by simpa using h1))
  rw [parenthesised, P.or]
  have hA : ∀ (k j : Kind), (k = .L_LEFT ∨ k = .ML_LEFT) → (do
      let _ ← P.opt (tk k)
      let _ ← tk .L_PAREN
      let a ← p
      let _ ← P.opt (tk j)
      let _ ← tk .R_PAREN
      pure a : P T) (t :: ts) = [] := by
    intro k j hk
    rw [P.bind_run, P.opt, List.flatMap_append, List.append_eq_nil_iff]
    constructor
    · by_cases hkt : t.kind = k
      · have : k = .L_LEFT := by
          rcases hk with hk | hk
          · exact hk
          · exact absurd (hkt.trans hk) h2
        rw [tk, if_pos hkt]
        simp only [List.map_cons, List.map_nil, List.flatMap_cons, List.flatMap_nil, List.append_nil]
        exact (Needs.tk _).bind.avoid (h3 (hkt.trans this))
      · rw [tk, if_neg hkt]; rfl
    · simp only [List.flatMap_cons, List.flatMap_nil, List.append_nil]
      exact hb _
  rw [hA _ _ (.inl rfl), hA _ _ (.inr rfl)]
  rfl

/-- the first token of an argument without parentheses -/
theorem bare_first {o ws} {x : K} (h : Denotes I free wide (.bareTerm o) ws x) {ts : List Tok}
    (hr : Reads ws ts) (hp : inParens ws = false) (r : List Tok) :
    (∀ q : P T, parenthesised q (ts ++ r) = []) ∧
      ∀ e, (∀ w ∈ ws.head?, Follows e w) → Avoids (ts ++ r) (afterFactor e) := by
  obtain ⟨w, vs, rfl, hw⟩ := bare_starts h rfl
  cases hr with
  | @cons _ _ t ts a1 a2 a3 =>
    have hk := bare_kind a1 hw
    constructor
    · intro q
      refine parenthesised_fail ?_ ?_ ?_
      · intro h
        rw [h] at a1
        rw [a1.is_mark (c := '(') (by simp)] at hp
        simp [inParens] at hp
      · intro h
        rw [h] at hk
        revert hk; decide +kernel
      · intro h
        rw [h] at a1
        rw [a1.is_left] at hp
        cases a3 with
        | nil => simp [inParens] at hp
        | @cons v _ u _ b1 b2 b3 =>
          refine avoids_cons ?_
          intro h
          rw [List.mem_singleton] at h
          rw [h] at b1
          rw [b1.is_mark (c := '(') (by simp)] at hp
          simp [inParens] at hp
    · intro e he
      refine avoids_cons ?_
      rcases hk with hk | hk
      · exact follows_avoids a1 hk (he w rfl)
      · intro hm
        clear a1 a2 a3
        have hm := afterFactor_sub e _ hm
        rcases hk with hk | hk <;> rw [hk] at hm <;> revert hm <;> decide +kernel

theorem Parsed.bare_first {o ws} {x : K} (h : Parsed I free (.bareTerm o) ws x) (hw : ws ≠ [])
    {ts r : List Tok} {k : Nat} (hr : ReadsIn r ws ts) (hk : 4 * ws.length ≤ k + 1)
    (ha : Avoids r (afterBare true)) : ∃ t, First (rule k .mpNf) (ts ++ r) t r ∧ Means I free t x := by
  have := List.length_pos_iff.2 hw
  obtain ⟨j, rfl⟩ : ∃ j, k = j + 1 := ⟨k - 1, by omega⟩
  obtain ⟨t, us, r1, h1, h2, h3⟩ := h ts r j hr (by omega) (ha.mono (afterBare_true o))
  exact ⟨_, chain_first h1 h2 (ha.mono (by decide +kernel)), h3⟩

theorem parsed_appPlain {nm o us} {x v : K} (hn : singleCmd nm = true)
    (hd : Denotes I free wide (.bareTerm o) us x) (h : Parsed I free (.bareTerm o) us x)
    (hp : inParens us = false)
    (hm : ∀ a, Means I free a x → Means I free (.fnSingle nm [] none none a) v) :
    Parsed I free .app (.cmd nm :: us) v := by
  intro ts r k hr hk ha
  obtain ⟨t, ts, rfl, a1, a2, a3⟩ := reads_single hn hr
  simp only [List.length_cons] at hk
  obtain ⟨a, b1, b2⟩ := h.bare_first (not_nil hd) a3 (k := k) (by omega) ha
  obtain ⟨c1, c2⟩ := Grammar.bare_first hd a3.reads hp r
  have hav := c2 closed fun w _ => ⟨fun h => by simp [closed] at h, fun h => by simp [closed] at h⟩
  have hs : First (subSup (rule k)) (ts ++ r) (none, none) (ts ++ r) := First.or_left
    ((First.opt_none ((subexpr_needs _).avoid (hav.mono (by decide)))).bind
      ((First.opt_none ((supexpr_needs _).avoid (hav.mono (by decide)))).bind .pure))
  have := func_bare a1 hs (c1 _) b1
  rw [a2] at this
  exact ⟨_, this, hm a b2⟩

theorem parsed_appFuncPow {nm f o e us w vs} {x y : K} (hn : (nm, f) ∈ functionNames)
    (h1 : Parsed I free (.exponent e) us y) (hd : Denotes I free wide (.bareTerm o) (w :: vs) x)
    (h2 : Parsed I free (.bareTerm o) (w :: vs) x) (hp : inParens (w :: vs) = false)
    (hf : Follows e w) (hy : y ≠ 0) (hy' : y ≠ -1) :
    Parsed I free .app (.cmd nm :: .mark '^' :: us ++ w :: vs) (I.pw (I.fn f [x]) y) := by
  intro ts r k hr hk ha
  rw [List.cons_append, List.cons_append] at hr hk
  obtain ⟨t, ts, rfl, a1, a2, a3⟩ := reads_single (List.all_eq_true.1 functions_single _ hn) hr
  obtain ⟨c, ts, rfl, b1, -, b2⟩ := a3.cons_inv (k := .CARET) (by decide +kernel)
  obtain ⟨t1, t2, rfl, c1, c2⟩ := b2.append
  simp only [List.length_cons, List.length_append] at hk
  obtain ⟨g1, g2⟩ := Grammar.bare_first hd c2.reads hp r
  have hav := g2 e fun v hv => by cases hv; exact hf
  obtain ⟨p, d1, d2, -, -⟩ := h1 t1 (t2 ++ r) k c1 (by omega) hav
  obtain ⟨a, e1, e2⟩ := h2.bare_first (not_nil hd) c2 (k := k)
    (by simp only [List.length_cons]; omega) ha
  have hs : First (subSup (rule k)) (c :: (t1 ++ (t2 ++ r))) (none, some p) (t2 ++ r) := First.or_left
    ((First.opt_none ((subexpr_needs _).avoid (avoids_cons (by rw [b1]; decide)))).bind
      ((First.opt_some ((First.tk b1).bind d1)).bind .pure))
  have := func_bare a1 hs (g1 _) e1
  rw [a2] at this
  refine ⟨_, ?_, .funcPow (op := []) hn e2 d2 hy hy'⟩
  have hts : (t :: c :: (t1 ++ t2)) ++ r = t :: c :: (t1 ++ (t2 ++ r)) := by simp
  rw [hts]
  exact this

theorem parsed_appLogBase {o e us w vs} {x y : K}
    (h1 : Parsed I free (.exponent e) us y) (hd : Denotes I free wide (.bareTerm o) (w :: vs) x)
    (h2 : Parsed I free (.bareTerm o) (w :: vs) x) (hp : inParens (w :: vs) = false)
    (hf : Follows e w) :
    Parsed I free .app (.cmd s%"log" :: .mark '_' :: us ++ w :: vs) (I.fn s%"log" [x, y]) := by
  intro ts r k hr hk ha
  rw [List.cons_append, List.cons_append] at hr hk
  obtain ⟨t, ts, rfl, a1, a2, a3⟩ := reads_single (by decide +kernel) hr
  obtain ⟨c, ts, rfl, b1, -, b2⟩ := a3.cons_inv (k := .UNDERSCORE) (by decide +kernel)
  obtain ⟨t1, t2, rfl, c1, c2⟩ := b2.append
  simp only [List.length_cons, List.length_append] at hk
  obtain ⟨g1, g2⟩ := Grammar.bare_first hd c2.reads hp r
  have hav := g2 e fun v hv => by cases hv; exact hf
  obtain ⟨p, d1, d2, -, d4⟩ := h1 t1 (t2 ++ r) k c1 (by omega) hav
  obtain ⟨s, d4⟩ := d4 c b1
  obtain ⟨a, e1, e2⟩ := h2.bare_first (not_nil hd) c2 (k := k)
    (by simp only [List.length_cons]; omega) ha
  have hs : First (subSup (rule k)) (c :: (t1 ++ (t2 ++ r))) (some (p, s), none) (t2 ++ r) :=
    First.or_left ((First.opt_some d4).bind
      ((First.opt_none ((supexpr_needs _).avoid (hav.mono (by simp [afterFactor])))).bind .pure))
  have := func_bare a1 hs (g1 _) e1
  rw [a2] at this
  refine ⟨_, ?_, .logBase (op := []) e2 d2⟩
  have hts : (t :: c :: (t1 ++ t2)) ++ r = t :: c :: (t1 ++ (t2 ++ r)) := by simp
  rw [hts]
  exact this

/-- a function without parentheses is a factor -/
theorem app_step {us} {x : K} (hu : us ≠ []) (h : Parsed I free .app us x) {ts r : List Tok} {k : Nat}
    (hr : ReadsIn r us ts) (hk : 4 * us.length ≤ k + 3) (ha : Avoids r (afterBare true)) :
    ∃ p, First (postfix' (rule k) true) (ts ++ r) p r ∧ r.length < (ts ++ r).length ∧
      Means I free p x := by
  obtain ⟨t, h1, h2⟩ := h ts r k hr hk ha
  refine ⟨t, First.bind (a := t) (r := r) (First.bind (comp_func ?_ h1)
    (First.bind (First.many (as := []) .nil ?_) .pure))
    (First.bind (First.many (as := []) .nil ?_) .pure), reads_len_pos hr.reads hu r, h2⟩
  · intro j hj hm
    obtain ⟨l, h1⟩ := h1
    rw [(func_needs _).fail fun i hi hm' => ?_] at h1
    · cases h1
    · rw [hj] at hi
      cases hi
      clear hj
      revert j; decide +kernel
  · exact (Needs.tk _).bind.avoid (ha.mono (by decide +kernel))
  · exact (postfixOp_needs _).avoid (ha.mono (by decide +kernel))

theorem parsed_app {us} {x : K} (hu : us ≠ []) (h : Parsed I free .app us x) :
    Parsed I free (.product true) us x := by
  intro ts r k hr hk ha
  obtain ⟨p, h1, h2, h3⟩ := app_step hu h hr hk (ha.mono (afterBare_sub true))
  exact ⟨p, [], .one h1 h2, .one h3⟩

theorem named_kind {w : Sign} {k : Kind} (h : HasKind w k) (hn : named w = true) : k ∈ singleKinds := by
  have key : (functionNames.map (·.1) ++ [s%"log", s%"ln"]).all singleCmd = true := by decide +kernel
  cases w with
  | cmd n =>
    have := List.all_eq_true.1 key n (by simpa only [named, List.contains_iff_mem] using hn)
    rw [singleCmd, h.kindOf] at this
    simpa using this
  | _ => cases hn

theorem parsed_appJuxt {o us w vs} {x y : K} (hu : us ≠ []) (h : Parsed I free .app us x)
    (h' : Parsed I free (.product o) (w :: vs) y) (hn : named w = true) :
    Parsed I free (.product o) (us ++ w :: vs) (x * y) := by
  intro ts r k hr hk ha
  obtain ⟨t1, t2, rfl, a1, a2⟩ := hr.append
  simp only [List.length_append] at hk
  obtain ⟨q, qs, b1, b2⟩ := h' t2 r k a2 (by omega) ha
  have hav : Avoids (t2 ++ r) (afterBare true) := by
    cases a2 with
    | @cons _ _ t _ c1 c2 c3 =>
      refine avoids_cons ?_
      have := named_kind c1 hn
      clear c1 c2 c3 b1
      revert this
      generalize t.kind = k
      revert k; decide +kernel
  obtain ⟨p, h1, h2, h3⟩ := app_step hu h a1 (r := t2 ++ r) (k := k) (by omega) hav
  refine ⟨p, q :: qs, ?_, .juxt h3 b2⟩
  rw [List.append_assoc]
  exact .cons h1 h2 b1

theorem parsed_bareop {b us o vs} {x y v : K} {ks : List Kind} (hu : us ≠ []) (hv : vs ≠ [])
    (h1 : Parsed I free (.bareTerm false) us x) (h2 : Parsed I free (.bareSigned b) vs y)
    (ho : ∀ k, kindOf o = some k → k ∈ ks) (hks : ∀ k ∈ ks, k ∈ mulKinds ∧ k ∉ afterBare false)
    (hm : ∀ k ∈ ks, ∀ l r, Means I free l x → Means I free r y → Means I free (mulTree k l r) v) :
    Parsed I free (.bareTerm b) (us ++ o :: vs) v := by
  intro ts r k hr hk ha
  obtain ⟨t1, t2, rfl, a1, a2⟩ := hr.append
  cases a2 with
  | @cons _ _ t ts b1 b2 b3 =>
    have hkind := ho _ b1.kindOf
    simp only [List.length_append, List.length_cons] at hk
    have := List.length_pos_iff.2 hv
    have := List.length_pos_iff.2 hu
    obtain ⟨l, ls, r1, c1, c2, c3⟩ := h1 t1 (t :: (ts ++ r)) k a1 (by omega)
      (avoids_cons (hks _ hkind).2)
    obtain ⟨u, d1, d2⟩ := h2 ts r k b3 (by omega) ha
    refine ⟨l, ls ++ [(t.kind, u)], r1, ?_, c2.append (Steps.one ?_ ?_), ?_⟩
    · rw [List.append_assoc]; exact c1
    · exact (First.oneOf (hks _ hkind).1).bind (d1.bind .pure)
    · simp only [List.length_cons, List.length_append]; omega
    · rw [List.foldl_append]
      exact hm _ hkind _ _ c3 d2

theorem parsed_bare {o us} {x : K} (hd : Denotes I free wide (.bare o) us x)
    (h : Parsed I free (.bare o) us x) : Parsed I free (.bareSigned o) us x := by
  intro ts r k hr hk ha
  have hne := List.length_pos_iff.2 (not_nil hd)
  obtain ⟨j, rfl⟩ : ∃ j, k = j + 1 := ⟨k - 1, by omega⟩
  obtain ⟨p, ps, r1, h1, h2, h3⟩ := h ts r j hr (by omega) ha
  obtain ⟨w, vs, rfl, hw⟩ := starts hd
  refine ⟨_, First.or_right ?_ (h1.bind ((First.many h2 ((postfix_bare_needs _).avoid
    (ha.mono (by cases o <;> decide +kernel)))).bind .pure)), h3⟩
  cases hr with
  | cons b1 b2 b3 =>
    refine (Needs.oneOf _).bind.avoid (avoids_cons ?_)
    have := start_kind b1 (hw rfl)
    intro hm
    revert this hm
    clear b1 b2 h1 h
    generalize Tok.kind _ = k
    revert k; decide +kernel

theorem parsed_bareSign {b us} {o : Sign} {x v : K} {j : Kind} (hu : us ≠ [])
    (h : Parsed I free (.bareSigned b) us x)
    (ho : kindOf o = some j) (hj : j ∈ [Kind.ADD, .SUB])
    (hm : ∀ t, Means I free t x → Means I free (signTree j t) v) :
    Parsed I free (.bareSigned b) (o :: us) v := by
  intro ts r k hr hk ha
  obtain ⟨t, ts, rfl, b1, -, b3⟩ := hr.cons_inv ho
  simp only [List.length_cons] at hk
  have := List.length_pos_iff.2 hu
  obtain ⟨j', rfl⟩ : ∃ j, k = j + 1 := ⟨k - 1, by omega⟩
  obtain ⟨u, h1, h2⟩ := h ts r j' b3 (by omega) ha
  refine ⟨signTree t.kind u, First.or_left ?_, by rw [b1]; exact hm u h2⟩
  exact (First.oneOf (by rw [b1]; exact hj)).bind (h1.bind .pure)

theorem bare_stops {rec : NT → P T} {o : Bool} {r : List Tok} (ha : Avoids r (afterBare o)) :
    postfixOp rec r = [] :=
  (postfixOp_needs _).avoid (ha.mono (by cases o <;> decide +kernel))

theorem parsed_bareFactor {e us} {x : K} (hu : us ≠ []) (h : Parsed I free (.factor e) us x) :
    Parsed I free (.bare false) us x := by
  intro ts r k hr hk ha
  obtain ⟨p, h1, h2, h3, -⟩ := factor_step hu h hr hk (ha.mono (afterFactor_bare e _)) (bare_stops ha)
  exact ⟨p, [], r, h1, .nil, .one h3⟩

theorem parsed_bareApp {us} {x : K} (hu : us ≠ []) (h : Parsed I free .app us x) :
    Parsed I free (.bare true) us x := by
  intro ts r k hr hk ha
  obtain ⟨p, h1, h2, h3⟩ := app_step hu h hr hk ha
  exact ⟨p, [], r, h1, .nil, .one h3⟩

theorem parsed_bareJuxt {e us w vs} {x y : K} (hu : us ≠ []) (h : Parsed I free (.factor e) us x)
    (hd : Denotes I free wide .rest (w :: vs) y) (h' : Parsed I free .rest (w :: vs) y)
    (hf : Follows e w) : Parsed I free (.bare false) (us ++ w :: vs) (x * y) := by
  intro ts r k hr hk ha
  obtain ⟨t1, t2, rfl, a1, a2⟩ := hr.append
  simp only [List.length_append] at hk
  obtain ⟨q, qs, b1, b2⟩ := h' t2 r k a2 (by omega) ha
  obtain ⟨t, t2, rfl, hs, hn⟩ := next_factor hd rfl a2.reads hf
  have hstop := start_stops (rec := rule k) (r := t2 ++ r) hs
  obtain ⟨p, h1, h2, h3, -⟩ := factor_step hu h a1 (r := t :: t2 ++ r) (k := k) (by omega)
    (avoids_cons hn) hstop
  refine ⟨p, q :: qs, _, ?_, b1, .juxt h3 b2⟩
  rw [List.append_assoc]
  exact h1

theorem parsed_restFactor {e w us} {x : K} (h : Parsed I free (.factor e) (w :: us) x)
    (ho : opens w = false) : Parsed I free .rest (w :: us) x := by
  intro ts r k hr hk ha
  obtain ⟨p, h1, h2, h3, h4⟩ := factor_step (by simp) h hr hk (ha.mono (afterFactor_bare e _))
    (bare_stops ha)
  exact ⟨p, [], .one (h4 fun v hv => by cases hv; exact ho) h2, .one h3⟩

theorem parsed_restJuxt {e v us w vs} {x y : K} (h : Parsed I free (.factor e) (v :: us) x)
    (ho : opens v = false) (hd : Denotes I free wide .rest (w :: vs) y)
    (h' : Parsed I free .rest (w :: vs) y) (hf : Follows e w) :
    Parsed I free .rest (v :: us ++ w :: vs) (x * y) := by
  intro ts r k hr hk ha
  obtain ⟨t1, t2, rfl, a1, a2⟩ := hr.append
  simp only [List.length_append] at hk
  obtain ⟨q, qs, b1, b2⟩ := h' t2 r k a2 (by omega) ha
  obtain ⟨t, t2, rfl, hs, hn⟩ := next_factor hd rfl a2.reads hf
  have hstop := start_stops (rec := rule k) (r := t2 ++ r) hs
  obtain ⟨p, h1, h2, h3, h4⟩ := factor_step (by simp) h a1 (r := t :: t2 ++ r) (k := k) (by omega)
    (avoids_cons hn) hstop
  refine ⟨p, q :: qs, ?_, .juxt h3 b2⟩
  rw [List.append_assoc]
  exact .cons (h4 fun v hv => by cases hv; exact ho) h2 b1

/-! ### Single factors, names and infinite bounds -/

theorem First.unique {α : Type} {p : P α} {ts r r' : List Tok} {a b : α} (h : First p ts a r)
    (k : First p ts b r') : a = b ∧ r = r' := by
  obtain ⟨l, h⟩ := h
  obtain ⟨l', k⟩ := k
  rw [h] at k
  cases k
  exact ⟨rfl, rfl⟩

theorem Steps.unique {α : Type} {p : P α} {ts r : List Tok} {as bs : List α} (h : Steps p ts as r)
    (k : Steps p ts bs r) : as = bs := by
  induction h generalizing bs with
  | nil =>
    cases k with
    | nil => rfl
    | cons _ h2 h3 => have := h3.length; omega
  | cons h1 h2 h3 ih =>
    cases k with
    | nil => have := h3.length; omega
    | cons k1 k2 k3 =>
      obtain ⟨rfl, rfl⟩ := h1.unique k1
      rw [ih k3]

/-- the exponent of a power -/
def powStep (rec : NT → P T) : P T := do
  let _ ← tk .CARET
  let e ← P.or (rec .atom) (braced rec)
  let _ ← P.opt (subexpr rec)
  pure e

theorem powStep_needs (rec : NT → P T) : Needs (powStep rec) [.CARET] := (Needs.tk _).bind

theorem unary_of_comp {k : Nat} {ts r : List Tok} {a : T} (h : First (comp (rule k) true) ts a r)
    (hs : Avoids ts [.ADD, .SUB]) (hc : powStep (rule k) r = [])
    (hp : Avoids r (compKinds ++ ([.BANG, .BAR] ++ transposeKinds))) (hl : r.length < ts.length) :
    First (rule (k + 1) .unary) ts (.juxt [a]) r := by
  have h1 : First (exp (rule k) true) ts a r := First.bind h (First.bind (First.many .nil hc) .pure)
  have h2 : First (postfix' (rule k) true) ts a r := First.bind h1 (First.bind (First.many .nil
    ((postfixOp_needs _).avoid (hp.mono fun k hk => List.mem_append_right _ hk))) .pure)
  refine First.or_right ((Needs.oneOf _).bind.avoid hs) (First.bind (First.plus (Steps.one h2 hl) ?_)
    .pure)
  exact (postfix_needs _ _).avoid (hp.mono fun k hk => List.mem_append_left _ hk)

theorem unary_sign {k : Nat} {s : Tok} {ts r : List Tok} {t : T} (hs : s.kind ∈ [Kind.ADD, .SUB])
    (h : First (rule k .unary) ts t r) :
    First (rule (k + 1) .unary) (s :: ts) (signTree s.kind t) r :=
  First.or_left (First.bind (First.oneOf hs) (First.bind h .pure))

theorem mp_of_unary {k : Nat} {ts r : List Tok} {t : T} (h : First (rule k .unary) ts t r)
    (hr : Avoids r mulKinds) : First (rule (k + 1) .mp) ts t r := chain_first h .nil hr

theorem expr_of_unary {k : Nat} {ts r : List Tok} {t : T} (h : First (rule k .unary) ts t r)
    (hr : Avoids r (mulKinds ++ [.ADD, .SUB])) : First (rule (k + 2) .expr) ts t r :=
  chain_first (mp_of_unary h (hr.mono fun k hk => List.mem_append_left _ hk)) .nil
    (hr.mono fun k hk => List.mem_append_right _ hk)

/-- a name that is an expression of its own -/
theorem name_expr {t : Tok} {r : List Tok} (k : Nat) (h : t.kind ∈ letterKinds)
    (ha : Avoids r (afterExpr ++ afterName)) :
    First (rule (k + 3) .expr) (t :: r) (.juxt [.name (nameOf t) none none]) r := by
  have hfail : func (rule k) (t :: r) = [] := by
    refine func_letter_fail (r := r) h (ha.mono (by decide +kernel)) fun x hx => ?_
    rw [opt_none_run ((supexpr_needs _).avoid (ha.mono (by decide +kernel))), List.mem_singleton] at hx
    rw [hx]
    exact ha.mono (by decide +kernel)
  refine expr_of_unary (unary_of_comp (comp_atom (letter_open h) hfail
    ⟨[], atom_letter h (ha.mono (by decide +kernel))⟩) (avoids_cons ?_)
    ((powStep_needs _).avoid (ha.mono (by decide +kernel))) (ha.mono (by decide +kernel))
    (by simp)) (ha.mono (by decide +kernel))
  intro hm
  revert h hm
  generalize t.kind = k
  revert k; decide

theorem symbol_atom {rec : NT → P T} {t : Tok} {r : List Tok} (h : t.kind = .SYMBOL) :
    First (atom rec) (t :: r) (.symbol t.text) r :=
  First.choice_tail ((atomExpr_needs _).avoid (avoids_cons (by rw [h]; decide +kernel)))
    (First.choice_head ((First.tk h).bind .pure))

theorem symbol_unary {t : Tok} {r : List Tok} (k : Nat) (h : t.kind = .SYMBOL)
    (ha : Avoids r afterExpr) :
    First (rule (k + 1) .unary) (t :: r) (.juxt [.symbol t.text]) r :=
  unary_of_comp (comp_atom (avoids_cons (by rw [h]; decide +kernel))
    (func_fail_kind (by rw [h]; decide +kernel)) (symbol_atom h)) (avoids_cons (by rw [h]; decide))
    ((powStep_needs _).avoid (ha.mono (by decide +kernel))) (ha.mono (by decide +kernel)) (by simp)

omit [Field K] in
/-- an infinite bound -/
theorem endless_first {us : List Sign} {b : Bound K} (h : Endless us b) {ts : List Tok}
    (hr : Reads us ts) {r : List Tok} (k : Nat) (ha : Avoids r afterExpr) :
    ∃ t, First (rule (k + 4) .expr) (ts ++ r) t r ∧ Infinity t b := by
  have hx : Avoids r (mulKinds ++ [.ADD, .SUB]) := ha.mono (by decide +kernel)
  cases h with
  | inf =>
    obtain ⟨t, t1, rfl, h1, h2, h3⟩ := hr.cons_inv (k := .SYMBOL) (by decide +kernel)
    cases h3
    have : t.text = s%"\\infty" := h2
    exact ⟨_, expr_of_unary (symbol_unary (k + 1) h1 ha) hx, by rw [this]; exact .one .symbol⟩
  | pos =>
    obtain ⟨s, t1, rfl, h1, -, h3⟩ := hr.cons_inv (k := .ADD) (by decide +kernel)
    obtain ⟨t, t1, rfl, h4, h5, h6⟩ := h3.cons_inv (k := .SYMBOL) (by decide +kernel)
    cases h6
    have : t.text = s%"\\infty" := h5
    refine ⟨_, expr_of_unary (unary_sign (by rw [h1]; decide) (symbol_unary k h4 ha)) hx, ?_⟩
    rw [this, h1]; exact .pos (.one .symbol)
  | neg =>
    obtain ⟨s, t1, rfl, h1, -, h3⟩ := hr.cons_inv (k := .SUB) (by decide +kernel)
    obtain ⟨t, t1, rfl, h4, h5, h6⟩ := h3.cons_inv (k := .SYMBOL) (by decide +kernel)
    cases h6
    have : t.text = s%"\\infty" := h5
    refine ⟨_, expr_of_unary (unary_sign (by rw [h1]; decide) (symbol_unary k h4 ha)) hx, ?_⟩
    rw [this, h1]; exact .neg (.one .symbol)

omit [Field K] in
theorem endlessAbove_first {us : List Sign} {b : Bound K} (h : EndlessAbove us b) {ts : List Tok}
    {r : List Tok} (hr : ReadsIn r us ts) (k : Nat) :
    ∃ t, First (P.or (rule (k + 4) .atom) (braced (rule (k + 4)))) (ts ++ r) t r ∧ Infinity t b := by
  cases h with
  | inf =>
    obtain ⟨t, t1, rfl, h1, h2, h3⟩ := hr.cons_inv (k := .SYMBOL) (by decide +kernel)
    cases h3
    have : t.text = s%"\\infty" := h2
    exact ⟨_, First.or_left (symbol_atom h1), by rw [this]; exact .symbol⟩
  | braces h =>
    obtain ⟨o, t1, c, rfl, h1, h2, h3⟩ := reads_braces (ka := .L_BRACE) (kb := .R_BRACE) hr
      (by decide +kernel) (by decide +kernel)
    obtain ⟨t, e1, e2⟩ := endless_first h h3.reads (r := c :: r) k (avoids_cons (by rw [h2]; decide +kernel))
    have hts : (o :: (t1 ++ [c])) ++ r = o :: (t1 ++ c :: r) := by simp
    have hat : rule (k + 4) .atom (o :: (t1 ++ c :: r)) = [] :=
      (atom_needs (rule (k + 3))).avoid (avoids_cons (by rw [h1]; decide +kernel))
    rw [hts]
    exact ⟨t, First.or_right hat (braced_first h1 h2 e1), e2⟩

/-! ### Sums, products and limits -/

/-- the alternative of functions for sums and products -/
theorem func_sum {rec : NT → P T} {t : Tok} {ts r1 r2 r : List Tok} {e : T × T} {p b : T}
    (h : t.kind ∈ [Kind.FUNC_SUM, .FUNC_PROD]) (he : First (subeq rec) ts e r1)
    (hp : First (supexpr rec) r1 p r2) (hb : First (rec .mp) r2 b r) :
    First (func rec) (t :: ts) (.sumProd (decide (t.kind = .FUNC_SUM)) b e.1 e.2 p) r := by
  have hk : ∀ {α : Type} {p : P α} {ks : List Kind}, Needs p ks →
      (∀ k ∈ [Kind.FUNC_SUM, .FUNC_PROD], k ∉ ks) →
      p (t :: ts) = [] := fun hn hk => hn.skip (hk _ h)
  refine First.choice_tail (hk (funcName_needs _ _).bind (by decide)) ?_
  refine First.choice_tail (hk (funcName_needs _ _).bind (by decide)) ?_
  refine First.choice_tail (hk (atomExprNoSup_needs _).bind (by decide)) ?_
  refine First.choice_tail (hk (atomExprNoSup_needs _).bind (by decide)) ?_
  refine First.choice_tail (hk (Needs.tk _).bind (by decide)) ?_
  refine First.choice_tail (hk (Needs.tk _).bind (by decide)) ?_
  refine First.choice_head ((First.oneOf h).bind ?_)
  exact First.bind (First.or_left (he.bind (hp.bind .pure))) (hb.bind .pure)

/-- the alternative of functions for limits -/
theorem func_lim {rec : NT → P T} {t : Tok} {ts r1 r : List Tok} {l : NameTok × Option Bool × T} {b : T}
    (h : t.kind = .FUNC_LIM) (he : First (limitSub rec) ts l r1) (hb : First (rec .mp) r1 b r) :
    First (func rec) (t :: ts) (.lim l.1 l.2.1 l.2.2 b) r := by
  have hk : ∀ {α : Type} {p : P α} {ks : List Kind}, Needs p ks → Kind.FUNC_LIM ∉ ks →
      p (t :: ts) = [] := fun hn hk => hn.skip (by rw [h]; exact hk)
  refine First.choice_tail (hk (funcName_needs _ _).bind (by decide)) ?_
  refine First.choice_tail (hk (funcName_needs _ _).bind (by decide)) ?_
  refine First.choice_tail (hk (atomExprNoSup_needs _).bind (by decide)) ?_
  refine First.choice_tail (hk (atomExprNoSup_needs _).bind (by decide)) ?_
  refine First.choice_tail (hk (Needs.tk _).bind (by decide)) ?_
  refine First.choice_tail (hk (Needs.tk _).bind (by decide)) ?_
  refine First.choice_tail (hk (Needs.oneOf _).bind (by decide)) ?_
  exact First.choice_head ((First.tk h).bind (he.bind (hb.bind .pure)))

/-- the body of a sum, product or limit: the same tree for all values of the variable -/
theorem body_first {o w vs i} {S : K → Prop} {f : K → K} {k₀ : K} (h0 : S k₀)
    (ih : ∀ k, S k → Parsed (I.upd i I.real k) free (.term o) (w :: vs) (f k)) {ts r : List Tok}
    {n : Nat} (hr : ReadsIn r (w :: vs) ts) (hn : 4 * (w :: vs).length ≤ n + 1) (ha : Avoids r afterTerm) :
    ∃ t, First (rule n .mp) (ts ++ r) t r ∧ ∀ k, S k → Means (I.upd i I.real k) free t (f k) := by
  obtain ⟨t, h1, -⟩ := (ih k₀ h0).term_first hr (by simp) hn ha
  refine ⟨t, h1, fun k hk => ?_⟩
  obtain ⟨t', h2, h3⟩ := (ih k hk).term_first hr (by simp) hn ha
  obtain ⟨rfl, -⟩ := h1.unique h2
  exact h3

theorem parsed_sum {nm op v i as e bs o w vs} {x : K} {lo hi : Bound K} {S : K → Prop} {f : K → K}
    {k₀ : K} (hn : (nm, op) ∈ bigOperators) (hv : Variable v i) (hi' : free i)
    (hlo : ∀ y, lo = .fin y → Denotes I free wide .expr as y)
    (hlo' : (∀ y, lo ≠ .fin y) → Endless as lo)
    (hhi' : (∀ y, hi ≠ .fin y) → e = closed ∧ EndlessAbove bs hi) (hf : Follows e w) (h0 : S k₀)
    (hd : ∀ k, S k → Denotes (I.upd i I.real k) free wide (.term o) (w :: vs) (f k))
    (hx : ∀ g, (∀ k, S k → g k = f k) → I.binder op g [lo, hi] = x)
    (ihlo : ∀ y, lo = .fin y → Parsed I free .expr as y)
    (ihhi : ∀ y, hi = .fin y → Parsed I free (.exponent e) bs y)
    (ih : ∀ k, S k → Parsed (I.upd i I.real k) free (.term o) (w :: vs) (f k)) :
    Parsed I free .long (.cmd nm :: .mark '_' :: .mark '{' :: v :: .mark '=' ::
        (as ++ .mark '}' :: .mark '^' :: (bs ++ w :: vs))) x := by
  intro ts r k hr hk ha
  obtain ⟨kd, hkd, hkd', hop⟩ : ∃ kd, kindOf (.cmd nm) = some kd ∧ kd ∈ [Kind.FUNC_SUM, .FUNC_PROD] ∧
      ∀ {val var a b : T}, VarTree free var i →
        (∀ k, S k → Means (I.upd i I.real k) free val (f k)) →
        (∀ y, lo = .fin y → Means I free a y) → ((∀ y, lo ≠ .fin y) → Infinity a lo) →
        (∀ y, hi = .fin y → Means I free b y) → ((∀ y, hi ≠ .fin y) → Infinity b hi) →
        Means I free (.sumProd (decide (kd = .FUNC_SUM)) val var a b) x := by
    simp only [bigOperators, List.mem_cons, Prod.mk.injEq, List.not_mem_nil, or_false] at hn
    rcases hn with ⟨rfl, rfl⟩ | ⟨rfl, rfl⟩
    · exact ⟨.FUNC_SUM, by decide +kernel, by simp, fun a1 a2 a3 a4 a5 a6 =>
        .sum a1 h0 a2 a3 a4 a5 a6 hx⟩
    · exact ⟨.FUNC_PROD, by decide +kernel, by simp, fun a1 a2 a3 a4 a5 a6 =>
        .prod a1 h0 a2 a3 a4 a5 a6 hx⟩
  obtain ⟨t, ts, rfl, a1, -, hr⟩ := hr.cons_inv hkd
  obtain ⟨u, ts, rfl, a2, -, hr⟩ := hr.cons_inv (k := .UNDERSCORE) (by decide +kernel)
  obtain ⟨z, ts, rfl, a3, -, hr⟩ := hr.cons_inv (k := .L_BRACE) (by decide +kernel)
  obtain ⟨n, ts, rfl, a4, a5, -, hr⟩ := hr.var_inv hv
  obtain ⟨q, ts, rfl, a6, -, hr⟩ := hr.cons_inv (k := .ASSIGNMENT) (by decide +kernel)
  obtain ⟨t1, ts, rfl, b1, hr⟩ := hr.append
  obtain ⟨z', ts, rfl, a7, -, hr⟩ := hr.cons_inv (k := .R_BRACE) (by decide +kernel)
  obtain ⟨c, ts, rfl, a8, -, hr⟩ := hr.cons_inv (k := .CARET) (by decide +kernel)
  obtain ⟨t2, t3, rfl, b2, b3⟩ := hr.append
  simp only [List.length_cons, List.length_append] at hk
  obtain ⟨j, rfl⟩ : ∃ j, k = j + 4 := ⟨k - 4, by omega⟩
  obtain ⟨b, c1, c2⟩ := body_first h0 ih b3 (n := j + 4) (by simp only [List.length_cons]; omega) ha
  have hav := bare_avoids (hd k₀ h0) rfl b3.reads hf r
  obtain ⟨p, d1, d2, d3⟩ : ∃ p, First (P.or (rule (j + 4) .atom) (braced (rule (j + 4))))
      (t2 ++ (t3 ++ r)) p (t3 ++ r) ∧ (∀ y, hi = .fin y → Means I free p y) ∧
      ((∀ y, hi ≠ .fin y) → Infinity p hi) := by
    by_cases hb : ∃ y, hi = .fin y
    · obtain ⟨y, rfl⟩ := hb
      obtain ⟨p, h1, h2, -⟩ := ihhi y rfl t2 (t3 ++ r) (j + 4) b2 (by omega) hav
      exact ⟨p, h1, fun y' hy => by cases hy; exact h2, fun hn => absurd rfl (hn y)⟩
    · have hb' : ∀ y, hi ≠ .fin y := fun y hy => hb ⟨y, hy⟩
      obtain ⟨p, h1, h2⟩ := endlessAbove_first (hhi' hb').2 b2 j
      exact ⟨p, h1, fun y hy => absurd hy (hb' y), fun _ => h2⟩
  have b1 : ReadsIn (z' :: c :: (t2 ++ (t3 ++ r))) as t1 := by simpa using b1
  have hcl : Avoids (z' :: c :: (t2 ++ (t3 ++ r))) afterExpr :=
    avoids_cons (by rw [a7]; decide +kernel)
  obtain ⟨a, e1, e2, e3⟩ : ∃ a, First (rule (j + 4) .expr) (t1 ++ z' :: c :: (t2 ++ (t3 ++ r))) a
      (z' :: c :: (t2 ++ (t3 ++ r))) ∧ (∀ y, lo = .fin y → Means I free a y) ∧
      ((∀ y, lo ≠ .fin y) → Infinity a lo) := by
    by_cases hb : ∃ y, lo = .fin y
    · obtain ⟨y, rfl⟩ := hb
      obtain ⟨a, h1, h2⟩ := (ihlo y rfl).expr_first b1 (not_nil (hlo y rfl)) (k := j + 4)
        (by omega) hcl
      exact ⟨a, h1, fun y' hy => by cases hy; exact h2, fun hn => absurd rfl (hn y)⟩
    · have hb' : ∀ y, lo ≠ .fin y := fun y hy => hb ⟨y, hy⟩
      obtain ⟨a, h1, h2⟩ := endless_first (hlo' hb') b1.reads j hcl
      exact ⟨a, h1, fun y hy => absurd hy (hb' y), fun _ => h2⟩
  have hname := name_expr (t := n) (r := q :: (t1 ++ z' :: c :: (t2 ++ (t3 ++ r)))) (j + 1) a4
    (avoids_cons (by rw [a6]; decide +kernel))
  have heq : First (subeq (rule (j + 4))) (u :: z :: n :: q :: (t1 ++ z' :: c :: (t2 ++ (t3 ++ r))))
      (.juxt [.name (nameOf n) none none], a) (c :: (t2 ++ (t3 ++ r))) := by
    refine (First.tk a2).bind ((First.tk a3).bind (First.bind ?_ ((First.tk a7).bind .pure)))
    exact hname.bind ((First.oneOf (by rw [a6]; decide)).bind (e1.bind .pure))
  have hts : (t :: u :: z :: n :: q :: (t1 ++ z' :: c :: (t2 ++ t3))) ++ r
      = t :: u :: z :: n :: q :: (t1 ++ z' :: c :: (t2 ++ (t3 ++ r))) := by simp
  rw [hts]
  refine ⟨_, func_sum (by rw [a1]; exact hkd') heq ((First.tk a8).bind d1) c1, ?_⟩
  rw [a1]
  exact hop (.one (.name a5 hi')) c2 e2 e3 d2 d3

/-- the variable of a limit -/
theorem limit_var {t : Tok} {r : List Tok} (h : t.kind ∈ letterKinds) :
    First (P.choice [
      (do let t ← tk .LETTER_NO_E
          pure (NameTok.letter t.text)),
      (do let t ← tk .GREEK_CMD
          pure (NameTok.greek t.text)),
      (do let t ← tk .OTHER_SYMBOL_CMD
          pure (NameTok.other t.text))]) (t :: r) (nameOf t) r := by
  rw [nameOf]
  simp only [letterKinds, List.mem_cons, List.not_mem_nil, or_false] at h
  rcases h with h | h
  · rw [if_neg (by rw [h]; decide)]
    exact First.choice_head ((First.tk h).bind .pure)
  · rw [if_pos h]
    exact First.choice_tail ((Needs.tk _).bind.avoid (avoids_cons (by rw [h]; decide)))
      (First.choice_head ((First.tk h).bind .pure))

theorem arrow_kind : ∀ a ∈ arrows, kindOf a = some .LIM_APPROACH_SYM := by decide +kernel

theorem parsed_limInfinity {q v i as o w vs} {x : K} {p : Bound K} {S : K → Prop} {f : K → K}
    {k₀ : K} (hq : q ∈ arrows) (hv : Variable v i) (hp : Endless as p) (h0 : S k₀)
    (hx : ∀ g, (∀ k, S k → g k = f k) → I.binder s%"Limit+" g [p] = x)
    (ih : ∀ k, S k → Parsed (I.upd i I.real k) free (.term o) (w :: vs) (f k)) :
    Parsed I free .long (.cmd s%"lim" :: .mark '_' :: .mark '{' :: v :: q ::
        (as ++ .mark '}' :: w :: vs)) x := by
  intro ts r k hr hk ha
  obtain ⟨t, ts, rfl, a1, -, hr⟩ := hr.cons_inv (k := .FUNC_LIM) (by decide +kernel)
  obtain ⟨u, ts, rfl, a2, -, hr⟩ := hr.cons_inv (k := .UNDERSCORE) (by decide +kernel)
  obtain ⟨z, ts, rfl, a3, -, hr⟩ := hr.cons_inv (k := .L_BRACE) (by decide +kernel)
  obtain ⟨n, ts, rfl, a4, -, a5, hr⟩ := hr.var_inv hv
  obtain ⟨q, ts, rfl, a6, -, hr⟩ := hr.cons_inv (arrow_kind _ hq)
  obtain ⟨t1, ts, rfl, b1, hr⟩ := hr.append
  obtain ⟨z', ts, rfl, a7, -, hr⟩ := hr.cons_inv (k := .R_BRACE) (by decide +kernel)
  simp only [List.length_cons, List.length_append] at hk
  obtain ⟨j, rfl⟩ : ∃ j, k = j + 4 := ⟨k - 4, by omega⟩
  obtain ⟨b, c1, c2⟩ := body_first h0 ih hr (n := j + 4) (by simp only [List.length_cons]; omega) ha
  obtain ⟨a, e1, e2⟩ := endless_first hp b1.reads (r := z' :: (ts ++ r)) j
    (avoids_cons (by rw [a7]; decide +kernel))
  have hlim : First (limitSub (rule (j + 4))) (u :: z :: n :: q :: (t1 ++ z' :: (ts ++ r)))
      (nameOf n, none, a) (ts ++ r) := by
    refine (First.tk a2).bind ((First.tk a3).bind ((limit_var a4).bind ((First.tk a6).bind
      (e1.bind (First.bind (First.opt_none ?_) ((First.tk a7).bind .pure))))))
    exact (Needs.tk _).bind.avoid (avoids_cons (by rw [a7]; decide))
  have hts : (t :: u :: z :: n :: q :: (t1 ++ z' :: ts)) ++ r
      = t :: u :: z :: n :: q :: (t1 ++ z' :: (ts ++ r)) := by simp
  rw [hts]
  exact ⟨_, func_lim a1 hlim c1, .limInfinity a5 e2 h0 c2 hx⟩

theorem parsed_limBoth {q v i as o w vs} {x p : K} {S : K → Prop} {f : K → K}
    {k₀ : K} (hq : q ∈ arrows) (hv : Variable v i) (hu : as ≠ []) (h0 : S k₀)
    (hx : ∀ g, (∀ k, S k → g k = f k) →
      I.binder s%"Limit+" g [.fin p] = x ∧ I.binder s%"Limit-" g [.fin p] = x)
    (ihp : Parsed I free .expr as p)
    (ih : ∀ k, S k → Parsed (I.upd i I.real k) free (.term o) (w :: vs) (f k)) :
    Parsed I free .long (.cmd s%"lim" :: .mark '_' :: .mark '{' :: v :: q ::
        (as ++ .mark '}' :: w :: vs)) x := by
  intro ts r k hr hk ha
  obtain ⟨t, ts, rfl, a1, -, hr⟩ := hr.cons_inv (k := .FUNC_LIM) (by decide +kernel)
  obtain ⟨u, ts, rfl, a2, -, hr⟩ := hr.cons_inv (k := .UNDERSCORE) (by decide +kernel)
  obtain ⟨z, ts, rfl, a3, -, hr⟩ := hr.cons_inv (k := .L_BRACE) (by decide +kernel)
  obtain ⟨n, ts, rfl, a4, -, a5, hr⟩ := hr.var_inv hv
  obtain ⟨q, ts, rfl, a6, -, hr⟩ := hr.cons_inv (arrow_kind _ hq)
  obtain ⟨t1, ts, rfl, b1, hr⟩ := hr.append
  obtain ⟨z', ts, rfl, a7, -, hr⟩ := hr.cons_inv (k := .R_BRACE) (by decide +kernel)
  simp only [List.length_cons, List.length_append] at hk
  obtain ⟨j, rfl⟩ : ∃ j, k = j + 4 := ⟨k - 4, by omega⟩
  obtain ⟨b, c1, c2⟩ := body_first h0 ih hr (n := j + 4) (by simp only [List.length_cons]; omega) ha
  obtain ⟨a, e1, e2⟩ := ihp.expr_first b1 (r := z' :: (ts ++ r)) hu (k := j + 4) (by omega)
    (avoids_cons (by rw [a7]; decide +kernel))
  have hlim : First (limitSub (rule (j + 4))) (u :: z :: n :: q :: (t1 ++ z' :: (ts ++ r)))
      (nameOf n, none, a) (ts ++ r) := by
    refine (First.tk a2).bind ((First.tk a3).bind ((limit_var a4).bind ((First.tk a6).bind
      (e1.bind (First.bind (First.opt_none ?_) ((First.tk a7).bind .pure))))))
    exact (Needs.tk _).bind.avoid (avoids_cons (by rw [a7]; decide))
  have hts : (t :: u :: z :: n :: q :: (t1 ++ z' :: ts)) ++ r
      = t :: u :: z :: n :: q :: (t1 ++ z' :: (ts ++ r)) := by simp
  rw [hts]
  exact ⟨_, func_lim a1 hlim c1, .limBoth a5 e2 h0 c2 hx⟩

theorem unary_needs : ∀ k, Needs (rule k .unary) ([.ADD, .SUB] ++ compKinds)
  | 0 => ⟨rfl, fun _ _ _ => rfl⟩
  | k + 1 => (Needs.oneOf _).bind.or (postfix_needs (rule k) true).plus.bind

/-- a sign alone is no expression -/
theorem side_fail {s z : Tok} {r : List Tok} (hs : s.kind ∈ [Kind.ADD, .SUB]) (hz : z.kind = .R_BRACE) :
    ∀ k, rule k .expr (s :: z :: r) = [] := by
  have hc : s.kind ∉ compKinds := by
    revert hs
    generalize s.kind = k
    revert k; decide +kernel
  have h1 : ∀ k, rule k .unary (s :: z :: r) = [] := by
    intro k
    cases k with
    | zero => rfl
    | succ k =>
      have h2 : rule k .unary (z :: r) = [] :=
        (unary_needs k).avoid (avoids_cons (by rw [hz]; decide +kernel))
      have h3 : (P.plus (postfix' (rule k) true)) (s :: z :: r) = [] :=
        (postfix_needs (rule k) true).plus.avoid (avoids_cons hc)
      show P.or _ _ _ = []
      rw [P.or, P.bind_run, P.bind_run, h3, oneOf, if_pos hs]
      simp only [List.flatMap_cons, List.flatMap_nil, List.append_nil]
      rw [P.bind_run, h2]
      rfl
  have h2 : ∀ k, rule k .mp (s :: z :: r) = [] := by
    intro k
    cases k with
    | zero => rfl
    | succ k =>
      show chain _ _ _ _ = []
      rw [chain, P.bind_run, h1]
      rfl
  intro k
  cases k with
  | zero => rfl
  | succ k =>
    show chain _ _ _ _ = []
    rw [chain, P.bind_run, h2]
    rfl

theorem side_sup {c o s z : Tok} {r : List Tok} (k : Nat) (hc : c.kind = .CARET)
    (ho : o.kind = .L_BRACE) (hs : s.kind ∈ [Kind.ADD, .SUB]) (hz : z.kind = .R_BRACE) :
    P.or (rule k .atom) (braced (rule k)) (o :: s :: z :: r) = [] ∧
      supexpr (rule k) (c :: o :: s :: z :: r) = [] ∧ powStep (rule k) (c :: o :: s :: z :: r) = [] := by
  have h1 : rule k .atom (o :: s :: z :: r) = [] := by
    cases k with
    | zero => rfl
    | succ k => exact (atom_needs (rule k)).avoid (avoids_cons (by rw [ho]; decide +kernel))
  have h2 : braced (rule k) (o :: s :: z :: r) = [] := by
    rw [braced, P.bind_run, tk, if_pos ho]
    simp only [List.flatMap_cons, List.flatMap_nil, List.append_nil]
    rw [P.bind_run, side_fail hs hz]
    rfl
  have h3 : P.or (rule k .atom) (braced (rule k)) (o :: s :: z :: r) = [] := by rw [P.or, h1, h2]; rfl
  refine ⟨h3, ?_, ?_⟩
  · rw [supexpr, P.bind_run, tk, if_pos hc]
    simp only [List.flatMap_cons, List.flatMap_nil, List.append_nil, h3]
  · rw [powStep, P.bind_run, tk, if_pos hc]
    simp only [List.flatMap_cons, List.flatMap_nil, List.append_nil, P.bind_run, h3]

theorem parsed_pointBase {d us} {x : K} (hu : us ≠ []) (hd : Denotes I free wide (.base ⟨d, false⟩) us x)
    (h : Parsed I free (.base ⟨d, false⟩) us x) : Parsed I free .point us x := by
  intro ts r k c o s z hr hk hc ho hs hz
  have := List.length_pos_iff.2 hu
  obtain ⟨j, rfl⟩ : ∃ j, k = j + 1 := ⟨k - 1, by omega⟩
  obtain ⟨t, h1, h2, -⟩ := h ts (c :: o :: s :: z :: r) j hr (by omega) (avoids_cons (by
    rw [hc]; cases d <;> decide +kernel))
  refine ⟨_, unary_of_comp h1 ?_ (side_sup j hc ho hs hz).2.2 (avoids_cons (by rw [hc]; decide +kernel))
    (reads_len_pos hr hu _), .one h2⟩
  obtain ⟨w, vs, rfl, hw⟩ := starts hd
  cases hr with
  | cons b1 b2 b3 =>
    refine avoids_cons ?_
    have := start_kind b1 (hw rfl)
    intro hm
    revert this hm
    clear b1 b2 h1 h
    generalize Tok.kind _ = k
    revert k; decide +kernel

theorem parsed_pointName {w : Sign} {n : Str} (hv : Variable w n) (hf : free n) :
    Parsed I free .point [w] (I.var n) := by
  intro ts r k c o s z hr hk hc ho hs hz
  obtain ⟨t, t1, rfl, h1, h2, -, h3⟩ := hr.var_inv hv
  cases h3
  simp only [List.length_cons, List.length_nil] at hk
  obtain ⟨j, rfl⟩ : ∃ j, k = j + 1 := ⟨k - 1, by omega⟩
  obtain ⟨-, hsup, hpow⟩ := side_sup (r := r) j hc ho hs hz
  have hsub : Avoids (c :: o :: s :: z :: r) [.UNDERSCORE] := avoids_cons (by rw [hc]; decide)
  have hfail : func (rule j) (t :: c :: o :: s :: z :: r) = [] := by
    refine func_letter_fail h1 hsub fun x hx => ?_
    rw [opt_none_run hsup, List.mem_singleton] at hx
    rw [hx]
    exact avoids_cons (by rw [hc]; decide)
  refine ⟨_, unary_of_comp (comp_atom (letter_open h1) hfail
    ⟨[], atom_letter' h1 hsup ((subexpr_needs _).avoid hsub)⟩) (avoids_cons ?_) hpow
    (avoids_cons (by rw [hc]; decide +kernel)) (by simp), .one (.name h2 hf)⟩
  intro hm
  revert h1 hm
  generalize t.kind = k
  revert k; decide

theorem parsed_pointNeg {us} {x : K} (hu : us ≠ []) (h : Parsed I free .point us x) :
    Parsed I free .point (.mark '-' :: us) (-x) := by
  intro ts r k c o s z hr hk hc ho hs hz
  obtain ⟨m, ts, rfl, b1, -, b3⟩ := hr.cons_inv (k := .SUB) (by decide +kernel)
  simp only [List.length_cons] at hk
  have := List.length_pos_iff.2 hu
  obtain ⟨j, rfl⟩ : ∃ j, k = j + 1 := ⟨k - 1, by omega⟩
  obtain ⟨t, h1, h2⟩ := h ts r j c o s z b3 (by omega) hc ho hs hz
  refine ⟨_, unary_sign (by rw [b1]; decide) h1, ?_⟩
  rw [b1]; exact .neg h2

theorem parsed_limSide {q v i as o w vs g} {x p : K} {m : Char} {kd : Kind} {S : K → Prop} {f : K → K}
    {k₀ : K} (hm : kindOf (.mark m) = some kd) (hkd : kd ∈ [Kind.ADD, .SUB]) (hq : q ∈ arrows) (hv : Variable v i)
    (hu : as ≠ []) (h0 : S k₀)
    (hx : ∀ g', (∀ k, S k → g' k = f k) → I.binder g g' [.fin p] = x)
    (hop : ∀ {n : NameTok} {a c : T}, LimitVar n i → Means I free a p →
      (∀ k, S k → Means (I.upd i I.real k) free c (f k)) →
      Means I free (.lim n (some (decide (kd = .SUB))) a c) x)
    (ihp : Parsed I free .point as p)
    (ih : ∀ k, S k → Parsed (I.upd i I.real k) free (.term o) (w :: vs) (f k)) :
    Parsed I free .long (.cmd s%"lim" :: .mark '_' :: .mark '{' :: v :: q ::
        (as ++ .mark '^' :: .mark '{' :: .mark m :: .mark '}' :: .mark '}' :: w :: vs)) x := by
  intro ts r k hr hk ha
  obtain ⟨t, ts, rfl, a1, -, hr⟩ := hr.cons_inv (k := .FUNC_LIM) (by decide +kernel)
  obtain ⟨u, ts, rfl, a2, -, hr⟩ := hr.cons_inv (k := .UNDERSCORE) (by decide +kernel)
  obtain ⟨z, ts, rfl, a3, -, hr⟩ := hr.cons_inv (k := .L_BRACE) (by decide +kernel)
  obtain ⟨n, ts, rfl, a4, -, a5, hr⟩ := hr.var_inv hv
  obtain ⟨q, ts, rfl, a6, -, hr⟩ := hr.cons_inv (arrow_kind _ hq)
  obtain ⟨t1, ts, rfl, b1, hr⟩ := hr.append
  obtain ⟨c, ts, rfl, d1, -, hr⟩ := hr.cons_inv (k := .CARET) (by decide +kernel)
  obtain ⟨l, ts, rfl, d2, -, hr⟩ := hr.cons_inv (k := .L_BRACE) (by decide +kernel)
  obtain ⟨s, ts, rfl, d3, -, hr⟩ := hr.cons_inv hm
  obtain ⟨z1, ts, rfl, d4, -, hr⟩ := hr.cons_inv (k := .R_BRACE) (by decide +kernel)
  obtain ⟨z', ts, rfl, a7, -, hr⟩ := hr.cons_inv (k := .R_BRACE) (by decide +kernel)
  simp only [List.length_cons, List.length_append] at hk
  obtain ⟨j, rfl⟩ : ∃ j, k = j + 2 := ⟨k - 2, by omega⟩
  obtain ⟨b, c1, c2⟩ := body_first h0 ih hr (n := j + 2) (by simp only [List.length_cons]; omega) ha
  have hsk : s.kind ∈ [Kind.ADD, .SUB] := by rw [d3]; exact hkd
  obtain ⟨a, e1, e2⟩ := ihp t1 (z' :: (ts ++ r)) j c l s z1 b1 (by omega) d1 d2 hsk d4
  have e3 := expr_of_unary e1 (avoids_cons (by rw [d1]; decide))
  have hlim : First (limitSub (rule (j + 2)))
      (u :: z :: n :: q :: (t1 ++ c :: l :: s :: z1 :: z' :: (ts ++ r)))
      (nameOf n, some (decide (s.kind = .SUB)), a) (ts ++ r) :=
    (First.tk a2).bind ((First.tk a3).bind ((limit_var a4).bind ((First.tk a6).bind
      (e3.bind (First.bind (First.opt_some ((First.tk d1).bind ((First.tk d2).bind
        ((First.oneOf hsk).bind ((First.tk d4).bind .pure))))) ((First.tk a7).bind .pure))))))
  have hts : (t :: u :: z :: n :: q :: (t1 ++ c :: l :: s :: z1 :: z' :: ts)) ++ r
      = t :: u :: z :: n :: q :: (t1 ++ c :: l :: s :: z1 :: z' :: (ts ++ r)) := by simp
  rw [hts]
  refine ⟨_, func_lim a1 hlim c1, ?_⟩
  rw [d3]
  exact hop a5 e2 c2

theorem parsed_long {us} {x : K} (hu : us ≠ []) (h : Parsed I free .long us x) :
    Parsed I free (.product true) us x := by
  intro ts r k hr hk ha
  have ha : Avoids r afterTerm := ha
  obtain ⟨t, h1, h2⟩ := h ts r k hr hk ha
  have h3 : First (postfix' (rule k) true) (ts ++ r) t r := by
    refine First.bind (a := t) (r := r) (First.bind (comp_func ?_ h1)
      (First.bind (First.many (as := []) .nil ?_) .pure))
      (First.bind (First.many (as := []) .nil ?_) .pure)
    · intro j hj hm
      obtain ⟨l, h1⟩ := h1
      rw [(func_needs _).fail fun i hi hm' => ?_] at h1
      · cases h1
      · rw [hj] at hi
        cases hi
        clear hj
        revert j; decide +kernel
    · exact (Needs.tk _).bind.avoid (ha.mono (by decide +kernel))
    · exact (postfixOp_needs _).avoid (ha.mono (by decide +kernel))
  exact ⟨t, [], .one h3 (reads_len_pos hr.reads hu r), .one h2⟩

/-! ### Derivatives -/

theorem parsed_derivative {o c w vs} {x : K} {S : K → Prop} {f : K → K} {k₀ : K}
    (hc : isVariable c = true) (h0 : S k₀)
    (hd : ∀ k, S k → Denotes (I.upd [c] I.real k) free wide (.product o) (w :: vs) (f k))
    (hx : ∀ g, (∀ k, S k → g k = f k) → I.binder s%"Derivative" g [.fin (I.var [c])] = x)
    (ih : ∀ k, S k → Parsed (I.upd [c] I.real k) free (.product o) (w :: vs) (f k)) :
    Parsed I free (.product o) (.cmd s%"frac" :: .mark '{' :: .letter 'd' :: .mark '}' ::
        .mark '{' :: .diff c :: .mark '}' :: w :: vs) x := by
  intro ts r k hr hk ha
  obtain ⟨t, ts, rfl, a1, -, hr⟩ := hr.cons_inv (k := .CMD_FRAC) (by decide +kernel)
  obtain ⟨l1, ts, rfl, a2, -, hr⟩ := hr.cons_inv (k := .L_BRACE) (by decide +kernel)
  obtain ⟨d, ts, rfl, a3, a4, hr⟩ := hr.cons_inv (k := .LETTER_NO_E) (by decide +kernel)
  obtain ⟨r1, ts, rfl, a5, -, hr⟩ := hr.cons_inv (k := .R_BRACE) (by decide +kernel)
  obtain ⟨l2, ts, rfl, a6, -, hr⟩ := hr.cons_inv (k := .L_BRACE) (by decide +kernel)
  obtain ⟨y, ts, rfl, a7, a8, hr⟩ := hr.cons_inv (k := .DIFFERENTIAL) rfl
  obtain ⟨r2, ts, rfl, a9, -, hr⟩ := hr.cons_inv (k := .R_BRACE) (by decide +kernel)
  simp only [List.length_cons] at hk
  obtain ⟨j, rfl⟩ : ∃ j, k = j + 4 := ⟨k - 4, by omega⟩
  obtain ⟨p, ps, b1, -⟩ := ih k₀ h0 ts r (j + 4) hr (by simp only [List.length_cons]; omega) ha
  have b2 : ∀ k, S k → Means (I.upd [c] I.real k) free (.juxt (p :: ps)) (f k) := by
    intro k hk
    obtain ⟨q, qs, c1, c2⟩ := ih k hk ts r (j + 4) hr (by simp only [List.length_cons]; omega) ha
    have := b1.unique c1
    injection this with h1 h2
    subst h1 h2
    exact c2
  obtain ⟨w', vs', he, hw⟩ := starts (hd k₀ h0)
  cases he
  obtain ⟨t0, ts0, rfl, hs⟩ : ∃ t0 ts0, ts = t0 :: ts0 ∧ t0.kind ∈ startKinds := by
    cases hr with
    | cons e1 e2 e3 => exact ⟨_, _, rfl, start_kind e1 (hw rfl)⟩
  have n1 : First (rule (j + 4) .expr) ([d] ++ r1 :: l2 :: y :: r2 :: (t0 :: ts0 ++ r))
      (.juxt [.name (nameOf d) none none]) (r1 :: l2 :: y :: r2 :: (t0 :: ts0 ++ r)) :=
    name_expr (j + 1) (by rw [a3]; decide) (avoids_cons (by rw [a5]; decide +kernel))
  have n2 : First (rule (j + 4) .expr) ([y] ++ r2 :: (t0 :: ts0 ++ r))
      (.juxt [.differential y.text]) (r2 :: (t0 :: ts0 ++ r)) := by
    have hk' : ∀ {α : Type} {p : P α} {ks : List Kind}, Needs p ks → Kind.DIFFERENTIAL ∉ ks →
        p (y :: r2 :: (t0 :: ts0 ++ r)) = [] :=
      fun hn hk => hn.skip (by rw [a7]; exact hk)
    have hat : First (atom (rule (j + 1))) (y :: r2 :: (t0 :: ts0 ++ r)) (.differential y.text)
        (r2 :: (t0 :: ts0 ++ r)) := by
      refine First.choice_tail (hk' (atomExpr_needs _) (by decide)) ?_
      refine First.choice_tail (hk' (Needs.tk _).bind (by decide)) ?_
      refine First.choice_tail (hk' eNotation_needs.bind (by decide)) ?_
      refine First.choice_tail (hk' percentNumber_needs.bind (by decide)) ?_
      refine First.choice_tail (hk' numberText_needs.bind (by decide)) ?_
      exact First.choice_head ((First.tk a7).bind .pure)
    exact expr_of_unary (unary_of_comp (comp_atom (avoids_cons (by rw [a7]; decide +kernel))
      (func_fail_kind (by rw [a7]; decide +kernel)) hat) (avoids_cons (by rw [a7]; decide))
      ((powStep_needs _).avoid (avoids_cons (by rw [a9]; decide)))
      (avoids_cons (by rw [a9]; decide +kernel)) (by simp)) (avoids_cons (by rw [a9]; decide))
  have hnd : ∀ {o : Tok} {ts : List Tok}, o.kind = .L_BRACE → ∀ {α : Type} {f : Tok → P α},
      (tk .DIGIT >>= f) (o :: ts) = [] := fun {o ts} h {α f} =>
    (Needs.tk _).bind.avoid (avoids_cons (by rw [h]; decide))
  have f1 : First (Grammar.fracPart (rule (j + 4)))
      (l1 :: d :: r1 :: l2 :: y :: r2 :: (t0 :: ts0 ++ r))
      (.juxt [.name (nameOf d) none none], spanOf [d]) (l2 :: y :: r2 :: (t0 :: ts0 ++ r)) :=
    First.or_right (hnd a2) ((First.tk a2).bind (First.bind (First.used n1)
      ((First.tk a5).bind .pure)))
  have f2 : First (Grammar.fracPart (rule (j + 4))) (l2 :: y :: r2 :: (t0 :: ts0 ++ r))
      (.juxt [.differential y.text], spanOf [y]) (t0 :: ts0 ++ r) :=
    First.or_right (hnd a6) ((First.tk a6).bind (First.bind (First.used n2)
      ((First.tk a9).bind .pure)))
  have hk' : ∀ {α : Type} {p : P α} {ks : List Kind}, Needs p ks → Kind.CMD_FRAC ∉ ks →
      p (t :: l1 :: d :: r1 :: l2 :: y :: r2 :: (t0 :: ts0 ++ r)) = [] :=
    fun hn hk => hn.skip (by rw [a1]; exact hk)
  have hfr : First (atom (rule (j + 4))) (t :: l1 :: d :: r1 :: l2 :: y :: r2 :: (t0 :: ts0 ++ r))
      (.frac (.juxt [.name (nameOf d) none none]) (spanOf [d]) (.juxt [.differential y.text])
        (spanOf [y])) (t0 :: ts0 ++ r) := by
    refine First.choice_tail (hk' (atomExpr_needs _) (by decide)) ?_
    refine First.choice_tail (hk' (Needs.tk _).bind (by decide)) ?_
    refine First.choice_tail (hk' eNotation_needs.bind (by decide)) ?_
    refine First.choice_tail (hk' percentNumber_needs.bind (by decide)) ?_
    refine First.choice_tail (hk' numberText_needs.bind (by decide)) ?_
    refine First.choice_tail (hk' (Needs.tk _).bind (by decide)) ?_
    refine First.choice_tail (hk' mathit_needs (by decide)) ?_
    exact First.choice_head ((First.tk a1).bind (f1.bind (f2.bind .pure)))
  have hpost : First (postfix' (rule (j + 4)) true)
      (t :: l1 :: d :: r1 :: l2 :: y :: r2 :: (t0 :: ts0 ++ r))
      (.frac (.juxt [.name (nameOf d) none none]) (spanOf [d]) (.juxt [.differential y.text])
        (spanOf [y])) (t0 :: ts0 ++ r) := by
    refine First.bind (First.bind (comp_atom (avoids_cons (by rw [a1]; decide +kernel))
      (func_fail_kind (by rw [a1]; decide +kernel)) hfr) (First.bind (First.many (as := []) .nil ?_)
      .pure)) (First.bind (First.many (as := []) .nil (start_stops hs)) .pure)
    refine (Needs.tk _).bind.avoid (avoids_cons ?_)
    intro hm
    clear hfr f1 f2 n1 n2 b1 hr
    revert hs hm
    generalize t0.kind = k
    revert k; decide +kernel
  refine ⟨_, p :: ps, .cons hpost (by simp) b1, .derivative (i := [c]) ?_ h0 b2 hx⟩
  have hs1 : spanOf [d] = some ⟨tokKind d.kind, d.text, tokKind d.kind, d.text, true, 1, sourceOf [d]⟩ :=
    rfl
  have hs2 : spanOf [y] = some ⟨tokKind y.kind, y.text, tokKind y.kind, y.text, true, 1, sourceOf [y]⟩ :=
    rfl
  rw [hs1, hs2]
  have hb : blank c = false ∧ c ≠ '\\' := by
    have : variableLetters.all (fun c => !blank c && c != '\\') = true := by decide +kernel
    have := List.all_eq_true.1 this c (isVariable_mem hc)
    simpa using this
  refine .total rfl (by rw [a3]; rfl) (by rw [a4]; rfl) rfl (by rw [a7]; rfl) ?_
  rw [a8]
  exact Differential.letter (bs := []) (n := []) rfl hb.1 hb.2

/-! ### Integrals -/

/-- the first parse of a phrase, if the parses that go on beyond it lead nowhere -/
theorem First.skip {α β : Type} {p : P α} {f : α → P β} {b : Bool} {ts s r : List Tok} {a : α} {v : β}
    (hp : Within p b) (h : First p ts a []) (k : First (f a) s v r)
    (hs : ∀ x ∈ p (ts ++ s), x.2.length < s.length → f x.1 x.2 = []) :
    First (p >>= f) (ts ++ s) v r := by
  obtain ⟨l, h⟩ := h
  obtain ⟨l', k⟩ := k
  have hl := hp.local' ts.length ts (Nat.le_refl _) s
  rw [First, P.bind_run, flatMap_filter (q := fun x => decide (s.length ≤ x.2.length)), hl, h]
  · refine ⟨l' ++ (l.map fun x => (x.1, x.2 ++ s)).flatMap fun x => f x.1 x.2, ?_⟩
    rw [List.map_cons, List.flatMap_cons]
    show f a ([] ++ s) ++ _ = _
    rw [List.nil_append, k]
    rfl
  · intro x hx hq
    exact hs x hx (by simpa using hq)

theorem integrand_first {k : Nat} {tw r : List Tok} {d : Tok} {b : Option T}
    (h : First (P.opt (rule k .expr)) tw b []) (hd : d.kind = .DIFFERENTIAL)
    (ho : OneDiff (tw ++ d :: r)) :
    First (integrand (rule k)) (tw ++ d :: r) (b, some d.text) r := by
  refine First.choice_head (First.skip (Within.opt (rule_within k .expr).weak) h
    ((First.tk hd).bind .pure) ?_)
  intro x hx hl
  have hR : Runs (P.opt (rule k .expr)) 0 0 := Runs.opt (rule_runs k .expr)
  obtain ⟨c0, h1, h2⟩ := hR.get _ _ h.mem
  rw [List.append_nil] at h1
  subst h1
  obtain ⟨c, h3, h4⟩ := hR.get _ _ hx
  have h2 : depth 0 tw = some 0 := by simpa using h2 0
  have h4 : depth 0 c = some 0 := by simpa using h4 0
  obtain ⟨c', rfl, h5⟩ : ∃ c', c = tw ++ d :: c' ∧ r = c' ++ x.2 := by
    rcases List.append_eq_append_iff.1 h3 with ⟨e, h5, h6⟩ | ⟨e, h5, h6⟩
    · cases e with
      | nil =>
        rw [List.nil_append] at h6
        rw [← h6] at hl
        exact absurd hl (Nat.lt_irrefl _)
      | cons y e =>
        rw [List.cons_append, List.cons.injEq] at h6
        exact ⟨e, by rw [h5, h6.1], h6.2⟩
    · rw [h6, List.length_append] at hl
      omega
  rw [depth_append, h2, Option.bind_some, depth, if_neg (by rw [hd]; decide),
    if_neg (by rw [hd]; decide)] at h4
  refine (Needs.tk _).bind.avoid fun j hj hm => ?_
  rw [List.mem_singleton] at hm
  subst hm
  cases hx2 : x.2 with
  | nil => rw [hx2] at hj; simp [nextKind] at hj
  | cons y ys =>
    rw [hx2] at hj h5
    simp only [nextKind, List.head?_cons, Option.map_some, Option.some.injEq] at hj
    exact (ho tw c' ys d y (by rw [h5]) hd hj h4).elim

/-- a lower bound in braces -/
theorem sub_brace_mem {rec : NT → P T} (hrec : ∀ nt, Runs (rec nt) 0 0)
    (hat : ∀ (o : Tok) ts, o.kind = .L_BRACE → rec .atom (o :: ts) = []) {u o : Tok} {ts : List Tok}
    (ho : o.kind = .L_BRACE) {x : (T × Str) × List Tok} (hx : x ∈ subexpr rec (u :: o :: ts)) :
    ∃ a z, ts = a ++ z :: x.2 ∧ z.kind = .R_BRACE ∧ depth 0 a = some 0 := by
  rw [subexpr, P.bind_run, tk] at hx
  split at hx
  · simp only [List.flatMap_cons, List.flatMap_nil, List.append_nil] at hx
    rw [P.or, P.bind_run, P.used, hat o ts ho, List.map_nil, List.flatMap_nil, List.nil_append,
      P.bind_run, tk, if_pos ho] at hx
    simp only [List.flatMap_cons, List.flatMap_nil, List.append_nil] at hx
    rw [P.bind_run, List.mem_flatMap] at hx
    obtain ⟨y, hy, hx⟩ := hx
    have hR : Runs (P.or (rec .expr) (do
          let _ ← args rec
          pure T.args)) 0 0 := Runs.or (hrec _) ((args_runs hrec).bind fun _ => .pure)
    obtain ⟨a, h1, h2⟩ := hR.used.get _ _ hy
    rw [P.bind_run, List.mem_flatMap] at hx
    obtain ⟨z, hz, hx⟩ := hx
    cases hr2 : y.2 with
    | nil => rw [hr2] at hz; simp [tk] at hz
    | cons c r' =>
      rw [hr2, tk] at hz
      split at hz
      · rename_i hc
        rw [List.mem_singleton] at hz
        rw [hz, P.pure_run, List.mem_singleton] at hx
        exact ⟨a, c, by rw [h1, hr2, hx], hc, by simpa using h2 0⟩
      · simp at hz
  · simp at hx

/-- parses of a letter before a caret -/
theorem atom_letter_mem {rec : NT → P T} {t : Tok} {s : List Tok} (ht : t.kind ∈ letterKinds)
    (h1 : subexpr rec s = []) (h2 : ∀ z ∈ supexpr rec s, subexpr rec z.2 = [])
    {y : T × List Tok} (hy : y ∈ atom rec (t :: s)) : y.2 = s ∨ ∃ z ∈ supexpr rec s, y.2 = z.2 := by
  rw [atom] at hy
  simp only [P.choice_run] at hy
  rw [letter_avoid (Needs.tk .SYMBOL).bind ht (by decide),
    letter_avoid eNotation_needs.bind ht (by decide),
    letter_avoid percentNumber_needs.bind ht (by decide),
    letter_avoid numberText_needs.bind ht (by decide),
    letter_avoid (Needs.tk .DIFFERENTIAL).bind ht (by decide), letter_avoid mathit_needs ht (by decide),
    letter_avoid (frac_needs rec) ht (by decide), letter_avoid (Needs.tk .VARIABLE).bind ht (by decide)] at hy
  have hy : y ∈ atomExpr rec (t :: s) := by simpa [P.choice] using hy
  simp only [atomExpr, P.bind_run, nameTok_run ht, List.flatMap_cons, List.flatMap_nil, P.choice_run,
    h1, List.append_nil, List.nil_append, List.mem_append, List.mem_flatMap, P.pure_run,
    List.mem_singleton] at hy
  rcases hy with ⟨z, hz, q, hq, -⟩ | ⟨z, hz, hy⟩ | hy
  · rw [h2 z hz] at hq; simp at hq
  · exact .inr ⟨z, hz, by rw [hy]⟩
  · have : y = (T.name (nameOf t) none none, s) := by simpa [P.choice] using hy
    exact .inl (by rw [this])

/-- the shapes of a bound of an integral -/
inductive BoundShape : List Sign → Prop
  | braces {us} : BoundShape (.mark '{' :: us ++ [.mark '}'])
  | digit {d} : BoundShape [.digit d]
  | letter {w n} : Variable w n → BoundShape [w]
  | inf : BoundShape [.cmd s%"infty"]

theorem exponent_shape {e ws} {x : K} (h : Denotes I free wide (.exponent e) ws x) : BoundShape ws := by
  cases h with
  | expBraces => exact .braces
  | expDigit => exact .digit
  | expLetter hv => exact .letter hv

omit [Field K] in
theorem endless_shape {ws} {b : Bound K} (h : EndlessAbove ws b) : BoundShape ws := by
  cases h with
  | inf => exact .inf
  | braces => exact .braces

theorem used_mem {α : Type} {p : P α} {ts : List Tok} {x : (α × List Tok) × List Tok}
    (h : x ∈ P.used p ts) : ∃ y ∈ p ts, x.2 = y.2 := by
  obtain ⟨y, hy, rfl⟩ := List.mem_map.1 h
  exact ⟨y, hy, rfl⟩

theorem symbol_rest {rec : NT → P T} {t : Tok} {r : List Tok} (h : t.kind = .SYMBOL) :
    ∀ y ∈ atom rec (t :: r), y.2 = r := by
  have hk : ∀ {α : Type} {p : P α} {ks : List Kind}, Needs p ks → Kind.SYMBOL ∉ ks →
      p (t :: r) = [] := fun hn hk => hn.skip (by rw [h]; exact hk)
  intro y hy
  rw [atom] at hy
  simp only [P.choice_run] at hy
  rw [hk (atomExpr_needs rec) (by decide), hk eNotation_needs.bind (by decide),
    hk percentNumber_needs.bind (by decide), hk numberText_needs.bind (by decide),
    hk (Needs.tk .DIFFERENTIAL).bind (by decide), hk mathit_needs (by decide),
    hk (frac_needs rec) (by decide), hk (Needs.tk .VARIABLE).bind (by decide), P.bind_run, tk,
    if_pos h] at hy
  have : y = (.symbol t.text, r) := by simpa [P.choice, P.pure_run] using hy
  rw [this]

/-- parses of an index without braces -/
theorem sub_atom_mem {rec : NT → P T} {u t : Tok} {ts : List Tok} (ht : t.kind ≠ .L_BRACE)
    {x : (T × Str) × List Tok} (hx : x ∈ subexpr rec (u :: t :: ts)) :
    ∃ y ∈ rec .atom (t :: ts), x.2 = y.2 := by
  rw [subexpr, P.bind_run, tk] at hx
  split at hx
  · simp only [List.flatMap_cons, List.flatMap_nil, List.append_nil] at hx
    rw [P.or, P.bind_run, P.bind_run, tk, if_neg ht, List.flatMap_nil, List.append_nil,
      List.mem_flatMap] at hx
    obtain ⟨z, hz, hx⟩ := hx
    rw [P.pure_run, List.mem_singleton] at hx
    obtain ⟨y, hy, e⟩ := used_mem hz
    exact ⟨y, hy, by rw [hx, ← e]⟩
  · simp at hx

/-- the bounds of an integral -/
theorem limits_first {as : List Sign} {ta : List Tok} {u c : Tok} {s r : List Tok} {k : Nat} {t p : T}
    {q : Str} (hsh : BoundShape as) (hr : Reads as ta) (hc : c.kind = .CARET)
    (h : First (subexpr (rule (k + 1))) (u :: ta) (t, q) [])
    (hp : First (supexpr (rule (k + 1))) (c :: s) p r)
    (hrest : ∀ y ∈ supexpr (rule k) (c :: s), y.2 = r) (ha : Avoids r [.CARET, .UNDERSCORE]) :
    First (intLimits (rule (k + 1))) (u :: (ta ++ c :: s)) (some t, some p) r := by
  refine First.choice_head (First.skip (ts := u :: ta) (subexpr_within (rule_within (k + 1))) h
    (hp.bind .pure) ?_)
  intro x hx hl
  have key : x.2 = c :: s ∨ x.2 = r := by
    cases hsh with
    | braces =>
      rw [List.cons_append] at hr
      obtain ⟨o, ts, rfl, a1, -, hr⟩ := hr.cons_inv (k := .L_BRACE) (by decide +kernel)
      obtain ⟨t1, t2, rfl, b1, b2⟩ := hr.append
      obtain ⟨z, t3, rfl, c1, -, c2⟩ := b2.cons_inv (k := .R_BRACE) (by decide +kernel)
      cases c2
      have hat : ∀ (o : Tok) ts, o.kind = .L_BRACE → rule (k + 1) .atom (o :: ts) = [] :=
        fun o ts ho => (atom_needs (rule k)).avoid (avoids_cons (by rw [ho]; decide +kernel))
      obtain ⟨a, z1, d1, d2, d3⟩ := sub_brace_mem (rule_runs (k + 1)) hat a1 h.mem
      have hx' : x ∈ subexpr (rule (k + 1)) (u :: o :: (t1 ++ [z] ++ c :: s)) := hx
      obtain ⟨a', z', e1, e2, e3⟩ := sub_brace_mem (rule_runs (k + 1)) hat a1 hx'
      rw [d1, List.append_assoc, List.cons_append, List.nil_append] at e1
      exact .inl (balanced_unique e1 d3 e3 d2 e2).2.symm
    | digit =>
      obtain ⟨d, ts, rfl, a1, -, hr⟩ := hr.cons_inv (k := .DIGIT) rfl
      cases hr
      obtain ⟨y, hy, e⟩ := sub_atom_mem (by rw [a1]; decide) (ts := c :: s) hx
      have hy : y ∈ atom (rule k) (d :: c :: s) := hy
      rw [atom_digit a1 (avoids_cons (by rw [hc]; decide)), List.mem_singleton] at hy
      exact .inl (by rw [e, hy])
    | inf =>
      obtain ⟨d, ts, rfl, a1, -, hr⟩ := hr.cons_inv (k := .SYMBOL) (by decide +kernel)
      cases hr
      obtain ⟨y, hy, e⟩ := sub_atom_mem (by rw [a1]; decide) (ts := c :: s) hx
      exact .inl (by rw [e, symbol_rest a1 y hy])
    | letter hv =>
      obtain ⟨d, ts, rfl, a1, -, -, hr⟩ := hr.var_inv hv
      cases hr
      obtain ⟨y, hy, e⟩ := sub_atom_mem (by intro h; rw [h] at a1; revert a1; decide) (ts := c :: s) hx
      have hy : y ∈ atom (rule k) (d :: c :: s) := hy
      rcases atom_letter_mem a1 ((subexpr_needs _).avoid (avoids_cons (by rw [hc]; decide)))
        (fun z hz => by rw [hrest z hz]; exact (subexpr_needs _).avoid (ha.mono (by decide))) hy with h1 | ⟨z, hz, h1⟩
      · exact .inl (by rw [e, h1])
      · exact .inr (by rw [e, h1, hrest z hz])
  rcases key with hk | hk
  · rw [hk] at hl; exact absurd hl (Nat.lt_irrefl _)
  · rw [P.bind_run, hk, (supexpr_needs _).avoid (ha.mono (by decide))]
    rfl

/-- the alternative of functions for integrals -/
theorem func_int {rec : NT → P T} {t : Tok} {ts r1 r : List Tok} {l : Option (Option T × Option T)}
    {b : Option T × Option Str} (h : t.kind = .FUNC_INT) (he : First (P.opt (intLimits rec)) ts l r1)
    (hb : First (integrand rec) r1 b r) :
    First (func rec) (t :: ts) (.integral b.1 b.2 (l.bind (·.1)) (l.bind (·.2))) r := by
  have hk : ∀ {α : Type} {p : P α} {ks : List Kind}, Needs p ks → Kind.FUNC_INT ∉ ks →
      p (t :: ts) = [] := fun hn hk => hn.skip (by rw [h]; exact hk)
  refine First.choice_tail (hk (funcName_needs _ _).bind (by decide)) ?_
  refine First.choice_tail (hk (funcName_needs _ _).bind (by decide)) ?_
  refine First.choice_tail (hk (atomExprNoSup_needs _).bind (by decide)) ?_
  refine First.choice_tail (hk (atomExprNoSup_needs _).bind (by decide)) ?_
  exact First.choice_head ((First.tk h).bind (he.bind (hb.bind .pure)))

/-- the body of an integral: the same tree for all values of the variable -/
theorem integrand_body {w vs i} {S : K → Prop} {f : K → K} {k₀ : K} (h0 : S k₀)
    (ih : ∀ k, S k → Parsed (I.upd i I.real k) free .expr (w :: vs) (f k)) {ts : List Tok}
    {n : Nat} (hr : ReadsIn [] (w :: vs) ts) (hn : 4 * (w :: vs).length ≤ n) :
    ∃ t, First (rule n .expr) ts t [] ∧ ∀ k, S k → Means (I.upd i I.real k) free t (f k) := by
  obtain ⟨t, h1, -⟩ := (ih k₀ h0).expr_first hr (by simp) hn avoids_nil
  refine ⟨t, by rwa [List.append_nil] at h1, fun k hk => ?_⟩
  obtain ⟨t', h2, h3⟩ := (ih k hk).expr_first hr (by simp) hn avoids_nil
  obtain ⟨rfl, -⟩ := h1.unique h2
  exact h3

omit [Field K] in
theorem endless_rest {us : List Sign} {b : Bound K} (h : EndlessAbove us b) {ts : List Tok}
    {r : List Tok} (hr : ReadsIn r us ts) (k : Nat) :
    ∀ y ∈ P.or (rule (k + 4) .atom) (braced (rule (k + 4))) (ts ++ r), y.2 = r := by
  intro y hy
  cases h with
  | inf =>
    obtain ⟨t, t1, rfl, h1, h2, h3⟩ := hr.cons_inv (k := .SYMBOL) (by decide +kernel)
    cases h3
    have hb : braced (rule (k + 4)) (t :: r) = [] :=
      (Needs.tk _).bind.avoid (avoids_cons (by rw [h1]; decide))
    have hy : y ∈ rule (k + 4) .atom (t :: r) ++ braced (rule (k + 4)) (t :: r) := hy
    rw [hb, List.append_nil] at hy
    exact symbol_rest h1 y hy
  | braces h =>
    obtain ⟨o, t1, c, rfl, h1, h2, h3⟩ := reads_braces (ka := .L_BRACE) (kb := .R_BRACE) hr
      (by decide +kernel) (by decide +kernel)
    obtain ⟨t, e1, e2⟩ := endless_first h h3.reads (r := c :: r) k (avoids_cons (by rw [h2]; decide +kernel))
    have hts : (o :: (t1 ++ [c])) ++ r = o :: (t1 ++ c :: r) := by simp
    have hat : rule (k + 4) .atom (o :: (t1 ++ c :: r)) = [] :=
      (atom_needs (rule (k + 3))).avoid (avoids_cons (by rw [h1]; decide +kernel))
    rw [hts] at hy
    rw [P.or, hat, List.nil_append] at hy
    exact braced_rest (rule_runs (k + 4)) h1 h2 e1 y hy

omit [Field K] in
theorem endless_index {us : List Sign} {b : Bound K} (h : EndlessAbove us b) {ts : List Tok}
    {r : List Tok} (hr : ReadsIn r us ts) (k : Nat) {u : Tok} (hu : u.kind = .UNDERSCORE) :
    ∃ t s, First (subexpr (rule (k + 4))) (u :: (ts ++ r)) (t, s) r ∧ Infinity t b := by
  cases h with
  | inf =>
    obtain ⟨t, t1, rfl, h1, h2, h3⟩ := hr.cons_inv (k := .SYMBOL) (by decide +kernel)
    cases h3
    have : t.text = s%"\\infty" := h2
    exact ⟨_, _, (First.tk hu).bind (First.or_left (First.bind (First.used (c := [t])
      (symbol_atom h1)) .pure)), by rw [this]; exact .symbol⟩
  | braces h =>
    obtain ⟨o, t1, c, rfl, h1, h2, h3⟩ := reads_braces (ka := .L_BRACE) (kb := .R_BRACE) hr
      (by decide +kernel) (by decide +kernel)
    obtain ⟨t, e1, e2⟩ := endless_first h h3.reads (r := c :: r) k (avoids_cons (by rw [h2]; decide +kernel))
    have hts : (o :: (t1 ++ [c])) ++ r = o :: (t1 ++ c :: r) := by simp
    have hat : rule (k + 4) .atom (o :: (t1 ++ c :: r)) = [] :=
      (atom_needs (rule (k + 3))).avoid (avoids_cons (by rw [h1]; decide +kernel))
    rw [hts]
    refine ⟨t, textOf t1, (First.tk hu).bind (First.or_right ?_ ?_), e2⟩
    · rw [P.bind_run, P.used, hat]; rfl
    · refine (First.tk h1).bind ?_
      exact First.bind (First.used (First.or_left e1)) ((First.tk h2).bind .pure)

/-- the bounds of an integral, finite or infinite -/
theorem bounds_first {d e as bs} {lo hi : Bound K}
    (hlo : ∀ y, lo = .fin y → Denotes I free wide (.exponent d) as y)
    (hlo' : (∀ y, lo ≠ .fin y) → EndlessAbove as lo)
    (hhi' : (∀ y, hi ≠ .fin y) → e = closed ∧ EndlessAbove bs hi)
    (ihlo : ∀ y, lo = .fin y → Parsed I free (.exponent d) as y)
    (ihhi : ∀ y, hi = .fin y → Parsed I free (.exponent e) bs y) {u c : Tok} {ta tb r : List Tok}
    {k : Nat} (hu : u.kind = .UNDERSCORE) (hc : c.kind = .CARET)
    (hra : ReadsIn (c :: (tb ++ r)) as ta) (hrb : ReadsIn r bs tb) (hk : 4 * as.length ≤ k)
    (hk' : 4 * bs.length ≤ k) (hk4 : 4 ≤ k) (ha : Avoids r (afterFactor e)) :
    ∃ a b, First (intLimits (rule (k + 1))) (u :: (ta ++ c :: (tb ++ r))) (some a, some b) r ∧
      (∀ y, lo = .fin y → Means I free a y) ∧ ((∀ y, lo ≠ .fin y) → Infinity a lo) ∧
      (∀ y, hi = .fin y → Means I free b y) ∧ ((∀ y, hi ≠ .fin y) → Infinity b hi) := by
  obtain ⟨j, rfl⟩ : ∃ j, k = j + 4 := ⟨k - 4, by omega⟩
  have hra0 : ReadsIn [] as ta := .mk hra.reads (by
    rw [List.append_nil]
    exact OneDiff.infix (a := []) hra.one)
  have hsh : BoundShape as := by
    by_cases hb : ∃ y, lo = .fin y
    · obtain ⟨y, hy⟩ := hb
      exact exponent_shape (hlo y hy)
    · exact endless_shape (hlo' fun y hy => hb ⟨y, hy⟩)
  obtain ⟨a, q, h1, h2, h3⟩ : ∃ a q, First (subexpr (rule (j + 4 + 1))) (u :: ta) (a, q) [] ∧
      (∀ y, lo = .fin y → Means I free a y) ∧ ((∀ y, lo ≠ .fin y) → Infinity a lo) := by
    by_cases hb : ∃ y, lo = .fin y
    · obtain ⟨y, rfl⟩ := hb
      obtain ⟨p, -, h2, -, h3⟩ := ihlo y rfl ta [] (j + 4 + 1) hra0 (by omega) avoids_nil
      obtain ⟨q, h3⟩ := h3 u hu
      rw [List.append_nil] at h3
      exact ⟨p, q, h3, fun y' hy => by cases hy; exact h2, fun hn => absurd rfl (hn y)⟩
    · have hb' : ∀ y, lo ≠ .fin y := fun y hy => hb ⟨y, hy⟩
      obtain ⟨p, q, h1, h2⟩ := endless_index (hlo' hb') hra0 (j + 1) hu
      rw [List.append_nil] at h1
      exact ⟨p, q, h1, fun y hy => absurd hy (hb' y), fun _ => h2⟩
  obtain ⟨b, h4, h5, h6, h7⟩ : ∃ b, First (P.or (rule (j + 4 + 1) .atom) (braced (rule (j + 4 + 1))))
      (tb ++ r) b r ∧ (∀ y ∈ P.or (rule (j + 4) .atom) (braced (rule (j + 4))) (tb ++ r), y.2 = r) ∧
      (∀ y, hi = .fin y → Means I free b y) ∧ ((∀ y, hi ≠ .fin y) → Infinity b hi) := by
    by_cases hb : ∃ y, hi = .fin y
    · obtain ⟨y, rfl⟩ := hb
      obtain ⟨p, h1, h2, -⟩ := ihhi y rfl tb r (j + 4 + 1) hrb (by omega) ha
      obtain ⟨-, -, -, h3, -⟩ := ihhi y rfl tb r (j + 4) hrb (by omega) ha
      exact ⟨p, h1, h3, fun y' hy => by cases hy; exact h2, fun hn => absurd rfl (hn y)⟩
    · have hb' : ∀ y, hi ≠ .fin y := fun y hy => hb ⟨y, hy⟩
      obtain ⟨p, h1, h2⟩ := endlessAbove_first (hhi' hb').2 hrb (j + 1)
      exact ⟨p, h1, endless_rest (hhi' hb').2 hrb j, fun y hy => absurd hy (hb' y), fun _ => h2⟩
  refine ⟨a, b, limits_first hsh hra.reads hc h1 ((First.tk hc).bind h4) ?_
    (ha.mono (by simp [afterFactor])), h2, h3, h6, h7⟩
  intro y hy
  rw [supexpr, P.bind_run, tk, if_pos hc] at hy
  simp only [List.flatMap_cons, List.flatMap_nil, List.append_nil] at hy
  exact h5 y hy

/-- an integral is one factor -/
theorem int_step {k : Nat} {t : Tok} {ts r : List Tok} {a : T} (ht : t.kind = .FUNC_INT)
    (h : First (func (rule k)) (t :: ts) a r) (ha : Avoids r afterProduct) :
    First (postfix' (rule k) true) (t :: ts) a r :=
  First.bind (a := a) (r := r) (First.bind (comp_func (avoids_cons (by rw [ht]; decide +kernel)) h)
      (First.bind (First.many (as := []) .nil
        ((Needs.tk _).bind.avoid (ha.mono (by decide +kernel)))) .pure))
    (First.bind (First.many (as := []) .nil
      ((postfixOp_needs _).avoid (ha.mono (by decide +kernel)))) .pure)

theorem differential_text {c : Char} (hc : isVariable c = true) : Differential (Sign.diff c).text [c] := by
  have hb : blank c = false ∧ c ≠ '\\' := by
    have : variableLetters.all (fun c => !blank c && c != '\\') = true := by decide +kernel
    have := List.all_eq_true.1 this c (isVariable_mem hc)
    simpa using this
  exact Differential.letter (bs := []) (n := []) rfl hb.1 hb.2

theorem parsed_integral {d e as bs c w vs} {x : K} {lo hi : Bound K} {S : K → Prop} {f : K → K}
    {k₀ : K} (hc : isVariable c = true)
    (hlo : ∀ y, lo = .fin y → Denotes I free wide (.exponent d) as y)
    (hlo' : (∀ y, lo ≠ .fin y) → EndlessAbove as lo)
    (hhi' : (∀ y, hi ≠ .fin y) → e = closed ∧ EndlessAbove bs hi) (hf : Follows e w) (h0 : S k₀)
    (hd : ∀ k, S k → Denotes (I.upd [c] I.real k) free wide .expr (w :: vs) (f k))
    (hx : ∀ g, (∀ k, S k → g k = f k) → I.binder s%"Integral" g [lo, hi] = x)
    (ihlo : ∀ y, lo = .fin y → Parsed I free (.exponent d) as y)
    (ihhi : ∀ y, hi = .fin y → Parsed I free (.exponent e) bs y)
    (ih : ∀ k, S k → Parsed (I.upd [c] I.real k) free .expr (w :: vs) (f k)) :
    Parsed I free (.product false) (.cmd s%"int" :: .mark '_' ::
        (as ++ .mark '^' :: (bs ++ (w :: vs ++ [.diff c])))) x := by
  intro ts r k hr hk ha
  obtain ⟨t, ts, rfl, a1, -, hr⟩ := hr.cons_inv (k := .FUNC_INT) (by decide +kernel)
  obtain ⟨u, ts, rfl, a2, -, hr⟩ := hr.cons_inv (k := .UNDERSCORE) (by decide +kernel)
  obtain ⟨t1, ts, rfl, b1, hr⟩ := hr.append
  obtain ⟨z, ts, rfl, a3, -, hr⟩ := hr.cons_inv (k := .CARET) (by decide +kernel)
  obtain ⟨t2, ts, rfl, b2, hr⟩ := hr.append
  obtain ⟨t3, ts, rfl, b3, hr⟩ := hr.append
  obtain ⟨y, ts, rfl, a4, a5, hr⟩ := hr.cons_inv (k := .DIFFERENTIAL) rfl
  cases hr.reads
  simp only [List.length_cons, List.length_append, List.length_nil] at hk
  obtain ⟨j, rfl⟩ : ∃ j, k = j + 5 := ⟨k - 5, by omega⟩
  have hav : Avoids (t3 ++ y :: r) (afterFactor e) := bare_avoids (hd k₀ h0) rfl b3.reads hf _
  have b1 : ReadsIn (z :: (t2 ++ (t3 ++ y :: r))) as t1 := by simpa using b1
  have b2 : ReadsIn (t3 ++ y :: r) bs t2 := by simpa using b2
  obtain ⟨a, b, c1, c2, c3, c4, c5⟩ := bounds_first hlo hlo' hhi' ihlo ihhi a2 a3 b1 b2
    (k := j + 4) (by omega) (by omega) (by omega) hav
  have b3' : ReadsIn [] (w :: vs) t3 := .mk b3.reads (by
    rw [List.append_nil]
    exact OneDiff.infix (a := []) b3.one)
  obtain ⟨v, d1, d2⟩ := integrand_body h0 ih b3' (n := j + 5)
    (by simp only [List.length_cons]; omega)
  have hts : (t :: u :: (t1 ++ z :: (t2 ++ (t3 ++ [y])))) ++ r
      = t :: u :: (t1 ++ z :: (t2 ++ (t3 ++ y :: r))) := by simp
  rw [hts]
  have := int_step a1 (func_int a1 (First.opt_some c1)
    (integrand_first (First.opt_some d1) a4 (by simpa using b3.one))) ha
  refine ⟨_, [], .one this (by simp only [List.length_cons, List.length_append]; omega), .one ?_⟩
  exact .integral (i := [c]) (by rw [a5]; exact differential_text hc) h0 d2 c2 c3 c4 c5 hx

theorem parsed_integralOne {d e as bs c} {lo hi : Bound K} (hc : isVariable c = true)
    (hlo : ∀ y, lo = .fin y → Denotes I free wide (.exponent d) as y)
    (hlo' : (∀ y, lo ≠ .fin y) → EndlessAbove as lo)
    (hhi' : (∀ y, hi ≠ .fin y) → e = closed ∧ EndlessAbove bs hi)
    (ihlo : ∀ y, lo = .fin y → Parsed I free (.exponent d) as y)
    (ihhi : ∀ y, hi = .fin y → Parsed I free (.exponent e) bs y) :
    Parsed I free (.product false) (.cmd s%"int" :: .mark '_' ::
        (as ++ .mark '^' :: (bs ++ [.diff c]))) (I.binder s%"Integral" (fun _ => 1) [lo, hi]) := by
  intro ts r k hr hk ha
  obtain ⟨t, ts, rfl, a1, -, hr⟩ := hr.cons_inv (k := .FUNC_INT) (by decide +kernel)
  obtain ⟨u, ts, rfl, a2, -, hr⟩ := hr.cons_inv (k := .UNDERSCORE) (by decide +kernel)
  obtain ⟨t1, ts, rfl, b1, hr⟩ := hr.append
  obtain ⟨z, ts, rfl, a3, -, hr⟩ := hr.cons_inv (k := .CARET) (by decide +kernel)
  obtain ⟨t2, ts, rfl, b2, hr⟩ := hr.append
  have hone := hr.one
  obtain ⟨y, ts, rfl, a4, a5, hr⟩ := hr.cons_inv (k := .DIFFERENTIAL) rfl
  cases hr.reads
  simp only [List.length_cons, List.length_append, List.length_nil] at hk
  obtain ⟨j, rfl⟩ : ∃ j, k = j + 5 := ⟨k - 5, by omega⟩
  have hav : Avoids (y :: r) (afterFactor e) := avoids_cons (by
    rw [a4]
    rcases e with ⟨_ | _, _ | _⟩ <;> decide)
  have b1 : ReadsIn (z :: (t2 ++ (y :: r))) as t1 := by simpa using b1
  have b2 : ReadsIn (y :: r) bs t2 := by simpa using b2
  obtain ⟨a, b, c1, c2, c3, c4, c5⟩ := bounds_first hlo hlo' hhi' ihlo ihhi a2 a3 b1 b2
    (k := j + 4) (by omega) (by omega) (by omega) hav
  have hts : (t :: u :: (t1 ++ z :: (t2 ++ [y]))) ++ r
      = t :: u :: (t1 ++ z :: (t2 ++ y :: r)) := by simp
  rw [hts]
  have hnil : rule (j + 5) .expr [] = [] := by
    show chain _ _ _ _ = []
    rw [chain, P.bind_run]
    show List.flatMap _ (chain _ _ _ _) = []
    rw [chain, P.bind_run, (unary_needs (j + 3)).1]
    rfl
  have := int_step a1 (func_int a1 (First.opt_some c1)
    (integrand_first (tw := []) (First.opt_none hnil) a4 hone)) ha
  refine ⟨_, [], .one this (by simp only [List.length_cons, List.length_append]; omega), .one ?_⟩
  exact .integralOne (i := [c]) (by rw [a5]; exact differential_text hc) c2 c3 c4 c5

theorem parsed_antiderivative {c w vs} {x : K} {S : K → Prop} {f : K → K}
    {k₀ : K} (hc : isVariable c = true) (h0 : S k₀)
    (hd : ∀ k, S k → Denotes (I.upd [c] I.real k) free wide .expr (w :: vs) (f k))
    (hx : ∀ g, (∀ k, S k → g k = f k) → I.binder s%"Antiderivative" g [.fin (I.var [c])] = x)
    (ih : ∀ k, S k → Parsed (I.upd [c] I.real k) free .expr (w :: vs) (f k)) :
    Parsed I free (.product false) (.cmd s%"int" :: (w :: vs ++ [.diff c])) x := by
  intro ts r k hr hk ha
  obtain ⟨t, ts, rfl, a1, -, hr⟩ := hr.cons_inv (k := .FUNC_INT) (by decide +kernel)
  obtain ⟨t3, ts, rfl, b3, hr⟩ := hr.append
  obtain ⟨y, ts, rfl, a4, a5, hr⟩ := hr.cons_inv (k := .DIFFERENTIAL) rfl
  cases hr.reads
  simp only [List.length_cons, List.length_append, List.length_nil] at hk
  have hav : Avoids (t3 ++ y :: r) (afterFactor closed) := bare_avoids (hd k₀ h0) rfl b3.reads
    ⟨fun h => by simp [closed] at h, fun h => by simp [closed] at h⟩ _
  have b3' : ReadsIn [] (w :: vs) t3 := .mk b3.reads (by
    rw [List.append_nil]
    exact OneDiff.infix (a := []) b3.one)
  obtain ⟨v, d1, d2⟩ := integrand_body h0 ih b3' (n := k)
    (by simp only [List.length_cons]; omega)
  have hts : (t :: (t3 ++ [y])) ++ r = t :: (t3 ++ y :: r) := by simp
  rw [hts]
  have hno : intLimits (rule k) (t3 ++ y :: r) = [] :=
    (Needs.choice (subexpr_needs _).bind (.choice (supexpr_needs _).bind (.choice (Needs.tk _).bind
      (.choice (Needs.tk _).bind .nil)))).avoid' hav (by decide)
  have := int_step a1 (func_int a1 (First.opt_none hno)
    (integrand_first (First.opt_some d1) a4 (by simpa using b3.one))) ha
  refine ⟨_, [], .one this (by simp only [List.length_cons, List.length_append]; omega), .one ?_⟩
  exact .antiderivative (i := [c]) (by rw [a5]; exact differential_text hc) h0 d2 hx

/-! ### Inverse functions -/

theorem inverses_single : inverseNames.all (fun p => singleCmd p.1) = true := by decide +kernel

theorem inverses_open : inverseNames.all (fun p => opens (.cmd p.1)) = true := by decide +kernel

/-- the exponent of an inverse function -/
theorem inverse_sup {c o m d z : Tok} {r : List Tok} (k : Nat) (hc : c.kind = .CARET)
    (ho : o.kind = .L_BRACE) (hm : m.kind = .SUB) (hd : d.kind = .DIGIT) (hz : z.kind = .R_BRACE) :
    First (supexpr (rule (k + 4))) (c :: o :: m :: d :: z :: r) (.neg (.juxt [.number d.text])) r := by
  have h1 : First (rule (k + 1) .unary) (d :: z :: r) (.juxt [.number d.text]) (z :: r) :=
    unary_of_comp (comp_atom (avoids_cons (by rw [hd]; decide +kernel))
      (func_fail_kind (by rw [hd]; decide +kernel))
      ⟨[], atom_digit hd (avoids_cons (by rw [hz]; decide))⟩) (avoids_cons (by rw [hd]; decide))
      ((powStep_needs _).avoid (avoids_cons (by rw [hz]; decide)))
      (avoids_cons (by rw [hz]; decide +kernel)) (by simp)
  have h2 := expr_of_unary (unary_sign (s := m) (by rw [hm]; decide) h1)
    (avoids_cons (by rw [hz]; decide))
  rw [hm] at h2
  have hat : rule (k + 4) .atom (o :: m :: d :: z :: r) = [] :=
    (atom_needs (rule (k + 3))).avoid (avoids_cons (by rw [ho]; decide +kernel))
  exact (First.tk hc).bind (First.or_right hat (braced_first (us := [m, d]) ho hz h2))

theorem decimal_one {d : Tok} (h : d.text = (Sign.digit 1).text) : Decimal d.text 1 := by
  have h1 : (intPart [1] : Rat) = 1 := by simp [intPart]
  rw [h, ← h1]
  exact .whole (by simp) (by
    have := digitText_nocomma [1]
    simpa [digitText, Sign.text] using this)

/-- the tokens of an inverse function -/
theorem reads_inverse {r : List Tok} {nm f us ts} (hn : (nm, f) ∈ inverseNames)
    (hr : ReadsIn r (.cmd nm :: .mark '^' :: .mark '{' :: .mark '-' :: .digit 1 :: .mark '}' :: us) ts) :
    ∃ t c o m d z ts', ts = t :: c :: o :: m :: d :: z :: ts' ∧ t.kind ∈ singleKinds ∧
      t.text.drop 1 = nm ∧ c.kind = .CARET ∧ o.kind = .L_BRACE ∧ m.kind = .SUB ∧ d.kind = .DIGIT ∧
      z.kind = .R_BRACE ∧ Decimal d.text 1 ∧ ReadsIn r us ts' := by
  obtain ⟨t, ts, rfl, a1, a2, hr⟩ := reads_single (List.all_eq_true.1 inverses_single _ hn) hr
  obtain ⟨c, ts, rfl, a3, -, hr⟩ := hr.cons_inv (k := .CARET) (by decide +kernel)
  obtain ⟨o, ts, rfl, a4, -, hr⟩ := hr.cons_inv (k := .L_BRACE) (by decide +kernel)
  obtain ⟨m, ts, rfl, a5, -, hr⟩ := hr.cons_inv (k := .SUB) (by decide +kernel)
  obtain ⟨d, ts, rfl, a6, a7, hr⟩ := hr.cons_inv (k := .DIGIT) rfl
  obtain ⟨z, ts, rfl, a8, -, hr⟩ := hr.cons_inv (k := .R_BRACE) (by decide +kernel)
  exact ⟨t, c, o, m, d, z, ts, rfl, a1, a2, a3, a4, a5, a6, a8, decimal_one a7, hr⟩

theorem parsed_funcInv {nm f us} {x : K} (hn : (nm, f) ∈ inverseNames)
    (h : Parsed I free .arg us x) :
    Parsed I free (.base closed)
      (.cmd nm :: .mark '^' :: .mark '{' :: .mark '-' :: .digit 1 :: .mark '}' :: us) (I.fn f [x]) := by
  intro ts r k hr hk ha
  obtain ⟨t, c, o, m, d, z, ts, rfl, a1, a2, a3, a4, a5, a6, a7, a8, hr⟩ := reads_inverse hn hr
  simp only [List.length_cons] at hk
  obtain ⟨j, rfl⟩ : ∃ j, k = j + 4 := ⟨k - 4, by omega⟩
  obtain ⟨a, b1, b2⟩ := h ts r (j + 4) hr (by omega)
  have hs : First (subSup (rule (j + 4))) (c :: o :: m :: d :: z :: (ts ++ r))
      (none, some (.neg (.juxt [.number d.text]))) (ts ++ r) := First.or_left
    ((First.opt_none ((subexpr_needs _).avoid (avoids_cons (by rw [a3]; decide)))).bind
      ((First.opt_some (inverse_sup j a3 a4 a5 a6 a7)).bind .pure))
  have := func_single a1 hs b1
  rw [a2] at this
  exact ⟨_, comp_func (avoids_cons (single_open a1)) this, .inverse (op := []) hn b2 a8,
    fun hp => absurd (hp _ rfl) (by rw [List.all_eq_true.1 inverses_open _ hn]; simp)⟩

theorem parsed_appFuncInv {nm f o us} {x : K} (hn : (nm, f) ∈ inverseNames)
    (hd : Denotes I free wide (.bareTerm o) us x) (h : Parsed I free (.bareTerm o) us x)
    (hp : inParens us = false) :
    Parsed I free .app
      (.cmd nm :: .mark '^' :: .mark '{' :: .mark '-' :: .digit 1 :: .mark '}' :: us) (I.fn f [x]) := by
  intro ts r k hr hk ha
  obtain ⟨t, c, o, m, d, z, ts, rfl, a1, a2, a3, a4, a5, a6, a7, a8, hr⟩ := reads_inverse hn hr
  simp only [List.length_cons] at hk
  obtain ⟨j, rfl⟩ : ∃ j, k = j + 4 := ⟨k - 4, by omega⟩
  obtain ⟨a, b1, b2⟩ := h.bare_first (not_nil hd) hr (k := j + 4) (by omega) ha
  obtain ⟨c1, -⟩ := Grammar.bare_first hd hr.reads hp r
  have hs : First (subSup (rule (j + 4))) (c :: o :: m :: d :: z :: (ts ++ r))
      (none, some (.neg (.juxt [.number d.text]))) (ts ++ r) := First.or_left
    ((First.opt_none ((subexpr_needs _).avoid (avoids_cons (by rw [a3]; decide)))).bind
      ((First.opt_some (inverse_sup j a3 a4 a5 a6 a7)).bind .pure))
  have := func_bare a1 hs (c1 _) b1
  rw [a2] at this
  exact ⟨_, this, .inverse (op := []) hn b2 a8⟩

/-- **Parsing.**  Every phrase of the notation is read as a tree of the same value. -/
theorem parsed {l : Level} {ws : List Sign} {x : K} (h : Denotes I free wide l ws x) :
    Parsed I free l ws x := by
  induction h with
  | term h ih =>
    intro ts r k hr hk ha
    obtain ⟨t, h1, h2⟩ := ih.term_first hr (not_nil h) hk ha
    exact ⟨t, [], r, h1, .nil, h2⟩
  | add h1 h2 ih1 ih2 =>
    exact parsed_addop (j := .ADD) (not_nil h2) ih1 ih2 (by decide +kernel) (by simp)
      fun l r a b => .add a b
  | sub h1 h2 ih1 ih2 =>
    exact parsed_addop (j := .SUB) (not_nil h2) ih1 ih2 (by decide +kernel) (by simp)
      fun l r a b => .sub a b
  | signed _ ih =>
    intro ts r k hr hk ha
    obtain ⟨t, h1, h2⟩ := ih ts r k hr hk ha
    exact ⟨t, [], r, h1, .nil, h2⟩
  | mul ho h1 h2 ih1 ih2 =>
    refine parsed_op (ks := [.MUL, .CMD_TIMES, .CMD_CDOT]) (not_nil h1) (not_nil h2) ih1 ih2 ?_
      (by decide +kernel) ?_
    · intro k hk
      have := List.all_eq_true.1 times_kinds _ ho
      simpa [hk] using this
    · intro k hk l r a b
      rw [mulTree, if_pos hk]
      exact .mul a b
  | div ho h1 h2 ih1 ih2 =>
    refine parsed_op (ks := [.DIV, .CMD_DIV, .COLON]) (not_nil h1) (not_nil h2) ih1 ih2 ?_
      (by decide +kernel) ?_
    · intro k hk
      have := List.all_eq_true.1 over_kinds _ ho
      simpa [hk] using this
    · intro k hk l r a b
      rw [mulTree, if_neg (by revert k; decide), if_pos hk]
      exact .div a b
  | mod h1 h2 ih1 ih2 =>
    refine parsed_op (ks := [.CMD_MOD]) (not_nil h1) (not_nil h2) ih1 ih2 ?_ (by decide +kernel) ?_
    · intro k hk
      have : kindOf (.cmd s%"mod") = some .CMD_MOD := by decide +kernel
      rw [this] at hk
      cases hk
      simp
    · intro k hk l r a b
      rw [List.mem_singleton.1 hk]
      exact .mod a b
  | product h ih => exact parsed_product h ih
  | long h ih => exact parsed_long (not_nil h) ih
  | derivative hc _ h0 hd hx ih => exact parsed_derivative hc h0 hd hx ih
  | integral _ hc _ hlo hlo' _ hhi' hf h0 hd hx ihlo ihhi ih =>
    exact parsed_integral hc hlo hlo' hhi' hf h0 hd hx ihlo ihhi ih
  | integralOne _ hc _ hlo hlo' _ hhi' ihlo ihhi =>
    exact parsed_integralOne hc hlo hlo' hhi' ihlo ihhi
  | antiderivative _ hc _ h0 hd hx ih => exact parsed_antiderivative hc h0 hd hx ih
  | funcInv hn _ ih => exact parsed_funcInv hn ih
  | appFuncInv hn hd hp ih => exact parsed_appFuncInv hn hd ih hp
  | sum hn hv hi hlo hlo' _ hhi' hf h0 hd hx ihlo ihhi ih =>
    exact parsed_sum hn hv hi hlo hlo' hhi' hf h0 hd hx ihlo ihhi ih
  | limInfinity hq hv _ hp h0 _ hx ih => exact parsed_limInfinity hq hv hp h0 hx ih
  | limBoth hq hv _ hp h0 _ hx ihp ih => exact parsed_limBoth hq hv (not_nil hp) h0 hx ihp ih
  | limRight hq hv _ hp h0 _ hx ihp ih =>
    exact parsed_limSide (kd := .ADD) (by decide +kernel) (by decide) hq hv (not_nil hp) h0 hx
      (fun a b c => .limRight a b h0 c hx) ihp ih
  | limLeft hq hv _ hp h0 _ hx ihp ih =>
    exact parsed_limSide (kd := .SUB) (by decide +kernel) (by decide) hq hv (not_nil hp) h0 hx
      (fun a b c => .limLeft a b h0 c hx) ihp ih
  | pointBase h ih => exact parsed_pointBase (not_nil h) h ih
  | pointName hv hf => exact parsed_pointName hv hf
  | pointNeg h ih => exact parsed_pointNeg (not_nil h) ih
  | pos h ih =>
    exact parsed_sign (j := .ADD) (not_nil h) ih (by decide +kernel) (by simp) fun t a => .pos a
  | neg h ih =>
    exact parsed_sign (j := .SUB) (not_nil h) ih (by decide +kernel) (by simp) fun t a => .neg a
  | factor h ih => exact parsed_factor (not_nil h) ih
  | juxt h1 h2 hf ih1 ih2 => exact parsed_juxt (not_nil h1) ih1 h2 ih2 hf
  | power _ ih =>
    intro ts r k hr hk ha
    obtain ⟨t, h1, h2, h3⟩ := ih ts r k hr hk ha
    exact ⟨t, [], r, h1, .nil, h2, h3⟩
  | fact h ih => exact parsed_fact (not_nil h) ih
  | base _ ih => exact parsed_base ih
  | pow h1 h2 ih1 ih2 => exact parsed_pow (not_nil h1) ih1 ih2
  | expBraces h ih => exact parsed_expBraces (not_nil h) ih
  | expDigit => exact parsed_expDigit
  | expLetter hc hf => exact parsed_expLetter hc hf
  | number h => exact parsed_number h
  | percent h => exact parsed_percent h
  | pi => exact parsed_pi
  | letter hc hf => exact parsed_letter hc hf
  | letterPow hc hf h ih => exact parsed_letterPow hc hf (exponent_name h) ih
  | euler => exact parsed_euler
  | eulerPow h ih => exact parsed_eulerPow (exponent_name h) ih
  | @bracket _ _ _ l q us x hb h ih =>
    intro ts r k hr hk ha
    obtain ⟨f, t, h1, h2, h3, h4⟩ := parsed_brackets (r := r) (k := k) hb (not_nil h) ih hr (by
      have : l ≠ [] := by
        have := List.all_eq_true.1 brackets_start _ hb
        rintro rfl; simp at this
      have := List.length_pos_iff.2 this
      simp only [List.length_append] at hk; omega)
    cases h1
    exact ⟨_, h2, .group h3, fun _ => h4⟩
  | @bracketFn _ _ _ l q f us x hb h ih =>
    intro ts r k hr hk ha
    obtain ⟨f, t, h1, h2, h3, h4⟩ := parsed_brackets (r := r) (k := k) hb (not_nil h) ih hr (by
      have : l ≠ [] := by
        have := List.all_eq_true.1 brackets_start _ hb
        rintro rfl; simp at this
      have := List.length_pos_iff.2 this
      simp only [List.length_append] at hk; omega)
    cases h1
    · exact ⟨_, h2, .abs h3, fun _ => h4⟩
    · exact ⟨_, h2, .floor h3, fun _ => h4⟩
    · exact ⟨_, h2, .ceil h3, fun _ => h4⟩
  | partDigit => exact parsed_partDigit
  | partBraces h ih => exact parsed_partBraces h ih
  | frac _ _ ih1 ih2 => exact parsed_frac ih1 ih2
  | sqrt h ih => exact parsed_sqrt h ih
  | root h1 h2 hy ih1 ih2 => exact parsed_root (not_nil h1) ih1 ih2 hy
  | binom h1 h2 ih1 ih2 => exact parsed_binom (not_nil h1) (not_nil h2) ih1 ih2
  | argParens h ih => exact parsed_argParens (not_nil h) ih
  | argLeft h ih => exact parsed_argLeft (not_nil h) ih
  | func hf h ih =>
    exact parsed_plain (List.all_eq_true.1 functions_single _ hf)
      (List.all_eq_true.1 functions_open _ hf) h ih fun a ha => .func hf ha
  | funcPow hf h1 h2 hy hy' ih1 ih2 =>
    exact parsed_funcPow hf (exponent_name h1) ih1 h2 ih2 hy hy'
  | log h ih => exact parsed_plain (by decide +kernel) (by decide +kernel) h ih fun a ha => .log ha
  | ln h ih => exact parsed_plain (by decide +kernel) (by decide +kernel) h ih fun a ha => .ln ha
  | logBase h1 h2 ih1 ih2 => exact parsed_logBase (exponent_name h1) ih1 h2 ih2
  | app h ih => exact parsed_app (not_nil h) ih
  | appJuxt h1 _ hn ih1 ih2 => exact parsed_appJuxt (not_nil h1) ih1 ih2 hn
  | appFunc hf h hp ih =>
    exact parsed_appPlain (List.all_eq_true.1 functions_single _ hf) h ih hp fun a ha => .func hf ha
  | appFuncPow hf _ h hp hfo hy hy' ih1 ih2 => exact parsed_appFuncPow hf ih1 h ih2 hp hfo hy hy'
  | appLog h hp ih => exact parsed_appPlain (by decide +kernel) h ih hp fun a ha => .log ha
  | appLn h hp ih => exact parsed_appPlain (by decide +kernel) h ih hp fun a ha => .ln ha
  | appLogBase _ h hp hfo ih1 ih2 => exact parsed_appLogBase ih1 h ih2 hp hfo
  | bareSigned _ ih =>
    intro ts r k hr hk ha
    obtain ⟨t, h1, h2⟩ := ih ts r k hr hk ha
    exact ⟨t, [], r, h1, .nil, h2⟩
  | bareMul _ ho h1 h2 ih1 ih2 =>
    refine parsed_bareop (ks := [.MUL, .CMD_TIMES, .CMD_CDOT]) (not_nil h1) (not_nil h2) ih1 ih2 ?_
      (by decide +kernel) ?_
    · intro k hk
      have := List.all_eq_true.1 times_kinds _ ho
      simpa [hk] using this
    · intro k hk l r a b
      rw [mulTree, if_pos hk]
      exact .mul a b
  | bareDiv _ ho h1 h2 ih1 ih2 =>
    refine parsed_bareop (ks := [.DIV, .CMD_DIV, .COLON]) (not_nil h1) (not_nil h2) ih1 ih2 ?_
      (by decide +kernel) ?_
    · intro k hk
      have := List.all_eq_true.1 over_kinds _ ho
      simpa [hk] using this
    · intro k hk l r a b
      rw [mulTree, if_neg (by revert k; decide), if_pos hk]
      exact .div a b
  | bare h ih => exact parsed_bare h ih
  | barePos h ih =>
    exact parsed_bareSign (j := .ADD) (not_nil h) ih (by decide +kernel) (by simp) fun t a => .pos a
  | bareNeg h ih =>
    exact parsed_bareSign (j := .SUB) (not_nil h) ih (by decide +kernel) (by simp) fun t a => .neg a
  | bareFactor h ih => exact parsed_bareFactor (not_nil h) ih
  | bareApp h ih => exact parsed_bareApp (not_nil h) ih
  | bareJuxt h1 h2 hf ih1 ih2 => exact parsed_bareJuxt (not_nil h1) ih1 h2 ih2 hf
  | restFactor _ ho ih => exact parsed_restFactor ih ho
  | restJuxt _ ho h2 hf ih1 ih2 => exact parsed_restJuxt ih1 ho h2 ih2 hf

/-- the sign is a token -/
def isToken (w : Sign) : Prop := ∃ k, HasKind w k

theorem mark_token {c : Char} (h : c ∈ markKinds.map (·.1)) : isToken (.mark c) := by
  obtain ⟨⟨d, k⟩, h1, rfl⟩ := List.mem_map.1 h
  exact ⟨k, .mark h1⟩

theorem cmd_token {n : Str} (h : n ∈ cmdKinds.map (·.1)) : isToken (.cmd n) := by
  obtain ⟨⟨d, k⟩, h1, rfl⟩ := List.mem_map.1 h
  exact ⟨k, .cmd h1⟩

theorem numeral_tokens {us : List Sign} {q : Rat} (h : Numeral us q) : ∀ w ∈ us, isToken w := by
  have hd : ∀ ds : List (Fin 10), ∀ w ∈ ds.map Sign.digit, isToken w := by
    intro ds w hw
    obtain ⟨d, -, rfl⟩ := List.mem_map.1 hw
    exact ⟨_, .digit⟩
  cases h with
  | whole => exact hd _
  | point =>
    rw [List.forall_mem_append, List.forall_mem_cons]
    exact ⟨hd _, mark_token (by decide), hd _⟩

/-- a table of the signs used -/
def tokenOk : Sign → Bool
  | .mark c => (markKinds.map (·.1)).contains c
  | .cmd n => (cmdKinds.map (·.1)).contains n
  | _ => false

theorem tokenOk_token {w : Sign} (h : tokenOk w = true) : isToken w := by
  cases w with
  | mark c => exact mark_token (by simpa [tokenOk] using h)
  | cmd n => exact cmd_token (by simpa [tokenOk] using h)
  | digit => cases h
  | letter => cases h
  | greek => cases h
  | diff => cases h

theorem variable_token {w : Sign} {n : Str} (h : Variable w n) : isToken w := by
  cases h with
  | latin hc => exact ⟨_, .letter hc⟩
  | greek hn => exact ⟨_, .greek hn⟩

omit [Field K] in
theorem endless_tokens {us : List Sign} {b : Bound K} (h : Endless us b) : ∀ w ∈ us, isToken w := by
  have key : ∀ us : List Sign, us.all tokenOk = true → ∀ w ∈ us, isToken w :=
    fun us h w hw => tokenOk_token (List.all_eq_true.1 h w hw)
  cases h <;> exact key _ (by decide +kernel)

theorem endlessAbove_tokens {us : List Sign} {b : Bound K} (h : EndlessAbove us b) :
    ∀ w ∈ us, isToken w := by
  cases h with
  | inf => exact endless_tokens (K := K) .inf
  | braces h =>
    simp only [List.forall_mem_append, List.forall_mem_cons]
    exact ⟨⟨tokenOk_token (by decide +kernel), endless_tokens h⟩, tokenOk_token (by decide +kernel), by simp⟩

theorem inverses_tokens : inverseNames.all (fun p => tokenOk (.cmd p.1)) = true := by
  decide +kernel

theorem bigs_tokens : bigOperators.all (fun p => tokenOk (.cmd p.1)) = true := by
  decide +kernel

theorem brackets_tokens : brackets.all (fun b => (b.1 ++ b.2.1).all tokenOk) = true := by
  decide +kernel

theorem functions_tokens : functionNames.all (fun p => tokenOk (.cmd p.1)) = true := by
  decide +kernel

theorem operators_tokens : (timesSigns ++ overSigns).all tokenOk = true := by decide +kernel

theorem arrow_token : ∀ a ∈ arrows, tokenOk a = true := by decide +kernel

/-- the signs of a phrase are tokens -/
theorem denotes_kinds {l : Level} {ws : List Sign} {x : K} (h : Denotes I free wide l ws x) :
    ∀ w ∈ ws, isToken w := by
  have br : ∀ {l q o} {us : List Sign}, (l, q, o) ∈ brackets → (∀ w ∈ us, isToken w) →
      ∀ w ∈ l ++ us ++ q, isToken w := by
    intro l q o us hb ih
    have := List.all_eq_true.1 (List.all_eq_true.1 brackets_tokens _ hb)
    simp only [List.mem_append] at this ⊢
    rintro w ((hw | hw) | hw)
    · exact tokenOk_token (this w (.inl hw))
    · exact ih w hw
    · exact tokenOk_token (this w (.inr hw))
  have fn : ∀ {nm f}, (nm, f) ∈ functionNames → isToken (.cmd nm) := fun hf =>
    tokenOk_token (List.all_eq_true.1 functions_tokens _ hf)
  have tok : ∀ {w : Sign}, tokenOk w = true → isToken w := tokenOk_token
  induction h with
  | term _ ih | signed _ ih | product _ ih | factor _ ih | power _ ih | base _ ih | app _ ih
  | bareSigned _ ih | bare _ ih | bareFactor _ ih | bareApp _ ih | restFactor _ _ ih
  | long _ ih | pointBase _ ih => exact ih
  | add _ _ ih1 ih2 | sub _ _ ih1 ih2 | pow _ _ ih1 ih2 =>
    simp only [List.forall_mem_append, List.forall_mem_cons]
    exact ⟨ih1, tok (by decide +kernel), ih2⟩
  | mul ho _ _ ih1 ih2 | div ho _ _ ih1 ih2 | bareMul _ ho _ _ ih1 ih2 | bareDiv _ ho _ _ ih1 ih2 =>
    simp only [List.forall_mem_append, List.forall_mem_cons]
    exact ⟨ih1, tok (List.all_eq_true.1 operators_tokens _ (by simp [ho])), ih2⟩
  | mod _ _ ih1 ih2 =>
    simp only [List.forall_mem_append, List.forall_mem_cons]
    exact ⟨ih1, tok (by decide +kernel), ih2⟩
  | derivative hc _ h0 _ _ ih =>
    have := ih _ h0
    simp only [List.forall_mem_cons] at this ⊢
    exact ⟨tok (by decide +kernel), tok (by decide +kernel), ⟨_, .dLetter⟩, tok (by decide +kernel),
      tok (by decide +kernel), ⟨_, .diff hc⟩, tok (by decide +kernel), this⟩
  | @integral _ _ _ _ _ _ _ _ _ _ _ lo hi _ _ _ _ hc _ _ hlo' _ hhi' _ h0 _ _ ihlo ihhi ih =>
    have h1 := ih _ h0
    simp only [List.forall_mem_cons] at h1
    simp only [List.forall_mem_cons, List.forall_mem_append, List.cons_append]
    refine ⟨tok (by decide +kernel), tok (by decide +kernel), ?_, tok (by decide +kernel), ?_, h1.1,
      h1.2, ⟨_, .diff hc⟩, by simp⟩
    · by_cases hb : ∃ y, lo = .fin y
      · exact ihlo _ hb.choose_spec
      · exact endlessAbove_tokens (hlo' fun y hy => hb ⟨y, hy⟩)
    · by_cases hb : ∃ y, hi = .fin y
      · exact ihhi _ hb.choose_spec
      · exact endlessAbove_tokens (hhi' fun y hy => hb ⟨y, hy⟩).2
  | @integralOne _ _ _ _ _ _ _ _ lo hi _ hc _ _ hlo' _ hhi' ihlo ihhi =>
    simp only [List.forall_mem_cons, List.forall_mem_append]
    refine ⟨tok (by decide +kernel), tok (by decide +kernel), ?_, tok (by decide +kernel), ?_,
      ⟨_, .diff hc⟩, by simp⟩
    · by_cases hb : ∃ y, lo = .fin y
      · exact ihlo _ hb.choose_spec
      · exact endlessAbove_tokens (hlo' fun y hy => hb ⟨y, hy⟩)
    · by_cases hb : ∃ y, hi = .fin y
      · exact ihhi _ hb.choose_spec
      · exact endlessAbove_tokens (hhi' fun y hy => hb ⟨y, hy⟩).2
  | antiderivative _ hc _ h0 _ _ ih =>
    have h1 := ih _ h0
    simp only [List.forall_mem_cons] at h1
    simp only [List.forall_mem_cons, List.forall_mem_append, List.cons_append]
    exact ⟨tok (by decide +kernel), h1.1, h1.2, ⟨_, .diff hc⟩, by simp⟩
  | funcInv hn _ ih | appFuncInv hn _ _ ih =>
    simp only [List.forall_mem_cons]
    exact ⟨tok (List.all_eq_true.1 inverses_tokens _ hn), tok (by decide +kernel),
      tok (by decide +kernel), tok (by decide +kernel), ⟨_, .digit⟩, tok (by decide +kernel), ih⟩
  | @sum _ _ _ _ _ _ _ _ _ _ _ _ _ _ lo hi _ _ _ hn hv _ _ hlo' _ hhi' _ h0 _ _ ihlo ihhi ih =>
    have h1 := ih _ h0
    simp only [List.forall_mem_cons] at h1
    simp only [List.forall_mem_cons, List.forall_mem_append]
    refine ⟨tok (List.all_eq_true.1 bigs_tokens _ hn), tok (by decide +kernel),
      tok (by decide +kernel), variable_token hv, tok (by decide +kernel), ?_, tok (by decide +kernel),
      tok (by decide +kernel), ?_, h1⟩
    · by_cases hb : ∃ y, lo = .fin y
      · obtain ⟨y, hb⟩ := hb
        exact ihlo y hb
      · exact endless_tokens (hlo' fun y hy => hb ⟨y, hy⟩)
    · by_cases hb : ∃ y, hi = .fin y
      · obtain ⟨y, hb⟩ := hb
        exact ihhi y hb
      · exact endlessAbove_tokens (hhi' fun y hy => hb ⟨y, hy⟩).2
  | limInfinity hq hv _ hp h0 _ _ ih =>
    have h1 := ih _ h0
    simp only [List.forall_mem_cons] at h1
    simp only [List.forall_mem_cons, List.forall_mem_append]
    exact ⟨tok (by decide +kernel), tok (by decide +kernel), tok (by decide +kernel),
      variable_token hv, tok (arrow_token _ hq), endless_tokens hp, tok (by decide +kernel), h1⟩
  | limBoth hq hv _ _ h0 _ _ ihp ih =>
    have h1 := ih _ h0
    simp only [List.forall_mem_cons] at h1
    simp only [List.forall_mem_cons, List.forall_mem_append]
    exact ⟨tok (by decide +kernel), tok (by decide +kernel), tok (by decide +kernel),
      variable_token hv, tok (arrow_token _ hq), ihp, tok (by decide +kernel), h1⟩
  | limRight hq hv _ _ h0 _ _ ihp ih | limLeft hq hv _ _ h0 _ _ ihp ih =>
    have h1 := ih _ h0
    simp only [List.forall_mem_cons] at h1
    simp only [List.forall_mem_cons, List.forall_mem_append]
    exact ⟨tok (by decide +kernel), tok (by decide +kernel), tok (by decide +kernel),
      variable_token hv, tok (arrow_token _ hq), ihp, tok (by decide +kernel),
      tok (by decide +kernel), tok (by decide +kernel), tok (by decide +kernel),
      tok (by decide +kernel), h1⟩
  | pos _ ih | neg _ ih | barePos _ ih | bareNeg _ ih | pointNeg _ ih =>
    simp only [List.forall_mem_cons]
    exact ⟨tok (by decide +kernel), ih⟩
  | juxt _ _ _ ih1 ih2 | appJuxt _ _ _ ih1 ih2 | bareJuxt _ _ _ ih1 ih2
  | restJuxt _ _ _ _ ih1 ih2 =>
    simp only [List.forall_mem_append]
    exact ⟨ih1, ih2⟩
  | fact _ ih =>
    simp only [List.forall_mem_append, List.forall_mem_singleton]
    exact ⟨ih, tok (by decide +kernel)⟩
  | expBraces _ ih | partBraces _ ih | argParens _ ih =>
    simp only [List.forall_mem_append, List.forall_mem_cons]
    exact ⟨⟨tok (by decide +kernel), ih⟩, tok (by decide +kernel), by simp⟩
  | expDigit | partDigit =>
    simp only [List.forall_mem_singleton]
    exact ⟨_, .digit⟩
  | expLetter hv | letter hv | pointName hv =>
    simp only [List.forall_mem_singleton]
    exact variable_token hv
  | number h => exact numeral_tokens h
  | percent h =>
    simp only [List.forall_mem_append, List.forall_mem_singleton]
    exact ⟨numeral_tokens h, tok (by decide +kernel)⟩
  | pi =>
    simp only [List.forall_mem_singleton]
    exact tok (by decide +kernel)
  | letterPow hc _ _ ih =>
    simp only [List.forall_mem_cons]
    exact ⟨variable_token hc, tok (by decide +kernel), ih⟩
  | euler =>
    simp only [List.forall_mem_singleton]
    exact ⟨_, .euler⟩
  | eulerPow _ ih =>
    simp only [List.forall_mem_cons]
    exact ⟨⟨_, .euler⟩, tok (by decide +kernel), ih⟩
  | bracket hb _ ih | bracketFn hb _ ih => exact br hb ih
  | frac _ _ ih1 ih2 =>
    simp only [List.forall_mem_append, List.forall_mem_cons]
    exact ⟨⟨tok (by decide +kernel), ih1⟩, ih2⟩
  | sqrt _ ih | log _ ih | ln _ ih | appLog _ _ ih | appLn _ _ ih =>
    simp only [List.forall_mem_cons]
    exact ⟨tok (by decide +kernel), ih⟩
  | root _ _ _ ih1 ih2 =>
    simp only [List.forall_mem_append, List.forall_mem_cons]
    exact ⟨⟨tok (by decide +kernel), tok (by decide +kernel), ih1⟩, tok (by decide +kernel), ih2⟩
  | binom _ _ ih1 ih2 =>
    simp only [List.forall_mem_append, List.forall_mem_cons]
    exact ⟨⟨⟨tok (by decide +kernel), tok (by decide +kernel), ih1⟩, tok (by decide +kernel),
      tok (by decide +kernel), ih2⟩, tok (by decide +kernel), by simp⟩
  | argLeft _ ih =>
    simp only [List.forall_mem_append, List.forall_mem_cons]
    exact ⟨⟨tok (by decide +kernel), tok (by decide +kernel), ih⟩, tok (by decide +kernel),
      tok (by decide +kernel), by simp⟩
  | func hf _ ih | appFunc hf _ _ ih =>
    simp only [List.forall_mem_cons]
    exact ⟨fn hf, ih⟩
  | funcPow hf _ _ _ _ ih1 ih2 | appFuncPow hf _ _ _ _ _ _ ih1 ih2 =>
    simp only [List.forall_mem_append, List.forall_mem_cons]
    exact ⟨⟨fn hf, tok (by decide +kernel), ih1⟩, by simpa using ih2⟩
  | logBase _ _ ih1 ih2 | appLogBase _ _ _ _ ih1 ih2 =>
    simp only [List.forall_mem_append, List.forall_mem_cons]
    exact ⟨⟨tok (by decide +kernel), tok (by decide +kernel), ih1⟩, by simpa using ih2⟩

/-- The parse of a complete expression. -/
theorem parseTokens_first {ws : List Sign} {x : K} (h : Denotes I free wide .expr ws x) {ts : List Tok}
    (hr : Reads ws ts) (ho : OneDiff ts) : ∃ t, parseTokens ts = some (.one t) ∧ Means I free t x := by
  obtain ⟨t, ⟨l, h1⟩, h2⟩ := (parsed h).expr_first (r := []) (k := 4 * ts.length + 4) (.mk hr (by simpa using ho)) (not_nil h)
    (by rw [hr.length]; omega) avoids_nil
  rw [List.append_nil] at h1
  refine ⟨t, ?_, h2⟩
  have : First (math (4 * ts.length + 4)) ts (.one t) [] := by
    refine First.or_left (First.bind (a := t) (r := []) ?_ .pure)
    exact First.bind ⟨l, h1⟩ (First.bind (First.many (as := []) .nil rfl) .pure)
  obtain ⟨l', h3⟩ := this
  rw [parseTokens, h3]
  rfl

end

end Verif.Grammar
