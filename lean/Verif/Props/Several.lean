import Verif.Props.ReadingMatrix
/-
Functions of several arguments: `\gcd`, `\lcm`, `\max` and `\min`, from the text to the value (C118).
-/

namespace Verif.Reading
open Verif Verif.L2S

/-! ### Specification -/

/-- Functions of several arguments, with the function of SymPy. -/
def severalNames : List (Str × Str) :=
  [(s%"gcd", s%"gcd"), (s%"lcm", s%"lcm"), (s%"max", s%"Max"), (s%"min", s%"Min")]

/-- The argument contains no comma, and its signs can be read when there are no blanks between them. -/
def Compact (us : List Sign) : Prop := ',' ∉ us.flatMap Sign.text ∧ Written us (us.flatMap Sign.text)

/-- Arguments with commas between them, and their values.  Three digits do not follow a comma: `1, 234` is a number. -/
inductive Arguments {K : Type} [Field K] (I : Interp K) (free : Str → Prop) (style : Style) : List Sign → List K → Prop
  | one {us x} : Denotes I free style .expr us x → Compact us → Arguments I free style us [x]
  | cons {us x vs xs} : Denotes I free style .expr us x → Compact us → Arguments I free style vs xs → threeDigits vs = false →
      Arguments I free style (us ++ .mark ',' :: vs) (x :: xs)

/-- Parentheses around arguments. -/
def callBrackets : List (List Sign × List Sign) :=
  [([.mark '('], [.mark ')']), ([.cmd s%"left", .mark '('], [.cmd s%"right", .mark ')'])]

end Verif.Reading

namespace Verif.Grammar
open Verif Verif.L2S Verif.Reading

section
variable {α β : Type}

/-- the rest ends a call -/
def Closes (ts : List Tok) : Prop := (∃ u q, ts = u :: q ∧ u.kind = .R_PAREN) ∨
  ∃ u v q, ts = u :: v :: q ∧ u.kind ∉ walkKinds ∧ v.kind = .R_PAREN

theorem closing_fail {k : Kind} (hk : k ∉ walkKinds) {a : α} {ts : List Tok} (h : ¬ Closes ts) : (do
    let _ ← P.opt (tk k)
    let _ ← tk .R_PAREN
    (pure a : P α)) ts = [] := by
  have h1 : tk .R_PAREN ts = [] := tk_fail' fun u r e hu => h (.inl ⟨u, r, e, hu⟩)
  rw [P.bind_run, List.flatMap_eq_nil_iff]
  intro x hx
  rw [P.opt] at hx
  have key : tk .R_PAREN x.2 = [] := by
    cases ts with
    | nil =>
      simp [tk] at hx
      rw [hx]
      rfl
    | cons u q =>
      rw [tk] at hx
      split at hx
      · rename_i hu
        simp only [List.map_cons, List.map_nil, List.cons_append, List.nil_append, List.mem_cons, List.not_mem_nil, or_false] at hx
        rcases hx with rfl | rfl
        · exact tk_fail' fun v r e hv => h (.inr ⟨u, v, r, by rw [show q = v :: r from e], by rw [hu]; exact hk, hv⟩)
        · exact h1
      · simp only [List.map_nil, List.nil_append, List.mem_singleton] at hx
        rw [hx]
        exact h1
  rw [P.bind_run, key]
  rfl

/-- the first result after which the rest succeeds -/
theorem First.past {p : P α} {f : α → P β} {ts r r' : List Tok} {a : α} {b : β} {pre post : List (α × List Tok)}
    (h : p ts = pre ++ (a, r) :: post) (hf : ∀ x ∈ pre, f x.1 x.2 = []) (k : First (f a) r b r') : First (p >>= f) ts b r' := by
  obtain ⟨l, k⟩ := k
  refine ⟨l ++ post.flatMap fun x => f x.1 x.2, ?_⟩
  rw [P.bind_run, h, List.flatMap_append, List.flatMap_eq_nil_iff.2 hf, List.flatMap_cons, k]
  rfl

theorem not_closes {vs t2 : List Tok} {c : Tok} (hw : walk 0 vs = some 0) (hc : c.kind = .COMMA) : ¬ Closes (vs ++ c :: t2) := by
  rintro (⟨u, q, e, hu⟩ | ⟨u, v, q, e, hu, hv⟩)
  · cases vs with
    | nil =>
      rw [List.nil_append, List.cons.injEq] at e
      rw [← e.1, hc] at hu
      cases hu
    | cons v vs =>
      rw [List.cons_append, List.cons.injEq] at e
      rw [← e.1] at hu
      exact walk_next hw (by rw [hu]; decide)
  · cases vs with
    | nil =>
      rw [List.nil_append, List.cons.injEq] at e
      rw [← e.1, hc] at hu
      exact hu (by decide)
    | cons v' vs =>
      rw [List.cons_append, List.cons.injEq] at e
      obtain ⟨rfl, e⟩ := e
      rw [walk_plain hu] at hw
      cases vs with
      | nil =>
        rw [List.nil_append, List.cons.injEq] at e
        rw [← e.1, hc] at hv
        cases hv
      | cons w vs =>
        rw [List.cons_append, List.cons.injEq] at e
        rw [← e.1] at hv
        exact walk_next hw (by rw [hv]; decide)

end

section
variable {K : Type} [Field K] {I : Interp K} {free : Str → Prop} {style : Style}

theorem expr_walk {k : Nat} {ts r : List Tok} {t : T} (h : First (rule k .expr) (ts ++ r) t r) : walk 0 ts = some 0 := by
  obtain ⟨l, h⟩ := h
  obtain ⟨us, h1, h2⟩ := rule_moves k .expr (ts ++ r) (t, r) (by rw [h]; simp)
  have : ts = us := List.append_cancel_right h1
  rw [this]
  exact h2 0

theorem args_go {ws : List Sign} {xs : List K} (h : Arguments I free style ws xs) {r : List Tok} {k : Nat}
    (ha : Avoids r afterExpr) (hd : nextKind r ≠ some .DIGIT) : ∀ {ts : List Tok} {n : Nat}, ReadsIn r ws ts → 4 * ws.length ≤ k → ws.length ≤ n →
    ∃ pre post, multiArgGo (rule k) n (ts ++ r) = pre ++ ((), r) :: post ∧ ∀ x ∈ pre, ¬ Closes x.2 := by
  induction h with
  | @one us x hx hc =>
    intro ts n hr hk hn
    have := List.length_pos_iff.2 (not_nil hx)
    obtain ⟨n, rfl⟩ : ∃ m, n = m + 1 := ⟨n - 1, by omega⟩
    obtain ⟨t, ⟨l, d1⟩, -⟩ := (parsed hx).expr_first hr (not_nil hx) (k := k) hk ha
    rw [multiArgGo, P.or, P.bind_run, d1, List.flatMap_cons]
    exact ⟨[], _, rfl, by simp⟩
  | @cons us x vs xs hx hc hxs h3 ih =>
    intro ts n hr hk hn
    have := List.length_pos_iff.2 (not_nil hx)
    simp only [List.length_append, List.length_cons] at hk hn
    obtain ⟨n, rfl⟩ : ∃ m, n = m + 1 := ⟨n - 1, by omega⟩
    obtain ⟨t1, t2, rfl, a1, a2⟩ := hr.append
    obtain ⟨c, t2, rfl, b1, -, b2⟩ := a2.cons_inv (k := .COMMA) (by decide +kernel)
    have hg : Grouped (c :: (t2 ++ r)) = false := grouped_false b2.reads hd h3
    obtain ⟨t, d1, -⟩ := (parsed hx).expr_first a1 (not_nil hx) (k := k) (by omega) (by
      rw [List.cons_append]
      exact avoids_comma b1 hg)
    obtain ⟨pre, post, e1, e2⟩ := ih b2 (by omega) (n := n) (by omega)
    have hw := expr_walk d1
    have hb := blocked (sep := ',') (.inl rfl) (t2 := t2 ++ r) hw (by rw [b1]; rfl) (fun _ => hg) k
    obtain ⟨l, d1⟩ := d1
    rw [List.append_assoc, multiArgGo, P.or]
    rw [List.cons_append] at d1 ⊢
    have hA : ∀ x ∈ (do
        let _ ← rule k .expr
        (pure () : P Unit)) (t1 ++ c :: (t2 ++ r)), ¬ Closes x.2 := by
      intro x hx
      rw [P.bind_run, List.mem_flatMap] at hx
      obtain ⟨y, hy, hx⟩ := hx
      rw [P.pure_run, List.mem_singleton] at hx
      subst hx
      obtain ⟨vs, h1, h2⟩ := hb y hy
      rw [h1]
      exact not_closes h2 b1
    have hB : ∃ post, (do
        let _ ← rule k .expr
        let _ ← tk .COMMA
        multiArgGo (rule k) n) (t1 ++ c :: (t2 ++ r)) = pre ++ ((), r) :: post := by
      rw [P.bind_run, d1, List.flatMap_cons, P.bind_run, tk, if_pos b1]
      simp only [List.flatMap_cons, List.flatMap_nil, List.append_nil]
      rw [e1]
      exact ⟨_, by rw [List.append_assoc]; rfl⟩
    obtain ⟨post', hB⟩ := hB
    rw [hB]
    refine ⟨_ ++ pre, post', (List.append_assoc _ _ _).symm, fun x hx => ?_⟩
    rcases List.mem_append.1 hx with hx | hx
    · exact hA x hx
    · exact e2 x hx

theorem args_text {ws : List Sign} {xs : List K} (h : Arguments I free style ws xs) {r : List Tok} {k : Nat}
    (ha : Avoids r afterExpr) (hd : nextKind r ≠ some .DIGIT) {ts : List Tok} (hr : ReadsIn r ws ts) (hk : 4 * ws.length ≤ k) :
    ∃ pre post, multiArg (rule k) (ts ++ r) = pre ++ (textOf ts, r) :: post ∧ ∀ x ∈ pre, ¬ Closes x.2 := by
  obtain ⟨pre, post, h1, h2⟩ := args_go h ha hd hr hk (n := (ts ++ r).length) (by rw [List.length_append, hr.length]; omega)
  have e : multiArg (rule k) (ts ++ r) = ((multiArgGo (rule k) (ts ++ r).length (ts ++ r)).map fun x =>
      ((x.1, (ts ++ r).take ((ts ++ r).length - x.2.length)), x.2)).flatMap fun x => [(textOf x.1.2, x.2)] := rfl
  rw [e, h1]
  have et : (ts ++ r).take ((ts ++ r).length - r.length) = ts := by simp
  simp only [List.map_append, List.map_cons, List.flatMap_append, List.flatMap_cons, et]
  refine ⟨_, _, rfl, ?_⟩
  intro x hx
  simp only [List.mem_flatMap, List.mem_map, List.mem_singleton] at hx
  obtain ⟨_, ⟨y, hy, rfl⟩, rfl⟩ := hx
  exact h2 y hy

/-- the arguments in parentheses -/
theorem call_first {ws l q : List Sign} {xs : List K} (h : Arguments I free style ws xs) (hb : (l, q) ∈ callBrackets) {r : List Tok} {k : Nat}
    {ts : List Tok} (hr : ReadsIn r (l ++ ws ++ q) ts) (hk : 4 * ws.length ≤ k) :
    ∃ ts', ReadsIn (ts.drop (l.length + ws.length) ++ r) ws ts' ∧ First (parenthesised (multiArg (rule k))) (ts ++ r) (textOf ts') r ∧
      ∃ t, nextKind ts = some t ∧ t ∈ [Kind.L_PAREN, .L_LEFT] := by
  simp only [callBrackets, List.mem_cons, Prod.mk.injEq, List.not_mem_nil, or_false] at hb
  rcases hb with ⟨rfl, rfl⟩ | ⟨rfl, rfl⟩
  · rw [List.singleton_append] at hr
    obtain ⟨o, t1, c, rfl, h1, h2, h3⟩ := reads_braces (ka := .L_PAREN) (kb := .R_PAREN) hr (by decide +kernel) (by decide +kernel)
    have hts : (o :: (t1 ++ [c])) ++ r = o :: (t1 ++ c :: r) := by simp
    obtain ⟨pre, post, e1, e2⟩ := args_text h (r := c :: r) (avoids_cons (by rw [h2]; decide +kernel)) (by simp [nextKind, h2]) h3 hk
    refine ⟨t1, ?_, ?_, _, rfl, by simp [h1]⟩
    · have : (o :: (t1 ++ [c])).drop ([Sign.mark '('].length + ws.length) = [c] := by
        simp [← h3.length, Nat.add_comm 1]
      rw [this]
      exact h3
    · rw [hts]
      refine First.or_left ((First.opt_none ((Needs.tk _).avoid (avoids_cons (by rw [h1]; decide)))).bind ?_)
      refine (First.tk h1).bind (First.past e1 (fun x hx => closing_fail (by decide) (e2 x hx)) ?_)
      refine (First.opt_none ((Needs.tk _).avoid (avoids_cons (by rw [h2]; decide)))).bind ?_
      exact (First.tk h2).bind .pure
  · have hr' : ReadsIn r (.cmd s%"left" :: .mark '(' :: (ws ++ [.cmd s%"right", .mark ')'])) ts := by simpa using hr
    obtain ⟨o, ts, rfl, a1, -, a2⟩ := hr'.cons_inv (k := .L_LEFT) (by decide +kernel)
    obtain ⟨o', ts, rfl, b1, -, b2⟩ := a2.cons_inv (k := .L_PAREN) (by decide +kernel)
    obtain ⟨t1, t2, rfl, c1, c2⟩ := b2.append
    obtain ⟨c, t2, rfl, d1, -, d2⟩ := c2.cons_inv (k := .R_RIGHT) (by decide +kernel)
    obtain ⟨c', t2, rfl, e1, -, e2⟩ := d2.cons_inv (k := .R_PAREN) (by decide +kernel)
    cases e2
    have hts : (o :: o' :: (t1 ++ [c, c'])) ++ r = o :: o' :: (t1 ++ c :: c' :: r) := by simp
    have h3 : ReadsIn (c :: c' :: r) ws t1 := by simpa using c1
    obtain ⟨pre, post, f1, f2⟩ := args_text h (r := c :: c' :: r) (avoids_cons (by rw [d1]; decide +kernel)) (by simp [nextKind, d1]) h3 hk
    refine ⟨t1, ?_, ?_, _, rfl, by simp [a1]⟩
    · have : (o :: o' :: (t1 ++ [c, c'])).drop ([Sign.cmd s%"left", .mark '('].length + ws.length) = [c, c'] := by
        simp [← h3.length, Nat.add_comm 2]
      rw [this]
      exact h3
    · rw [hts]
      refine First.or_left ((First.opt_some (First.tk a1)).bind ?_)
      refine (First.tk b1).bind (First.past f1 (fun x hx => closing_fail (by decide) (f2 x hx)) ?_)
      refine (First.opt_some (First.tk d1)).bind ?_
      exact (First.tk e1).bind .pure

theorem Reads.textOf {ws : List Sign} {ts : List Tok} (h : Reads ws ts) : Verif.Grammar.textOf ts = ws.flatMap Sign.text := by
  induction h with
  | nil => rfl
  | @cons w ws t ts _ h2 _ ih =>
    rw [Verif.Grammar.textOf] at ih ⊢
    rw [List.flatMap_cons, List.flatMap_cons, ih, h2]

/-- the functions of several arguments -/
def multiCmd (n : Str) : Bool :=
  match kindOf (.cmd n) with
  | some k => decide (k ∈ multiKinds)
  | none => false

theorem several_multi : severalNames.all (fun p => multiCmd p.1 && tokenOk (.cmd p.1) && boxed [.cmd p.1]) = true := by decide +kernel

theorem multi_kinds {k : Kind} (h : k ∈ multiKinds) : k ∉ openKinds ∧ k ∉ singleKinds ++ [Kind.CMD_OPERATORNAME] ∧ k ∉ [Kind.ADD, .SUB] := by
  revert k; decide +kernel

/-- the tree of a call: the arguments are kept as text -/
theorem parseTokens_call {nm f : Str} {ws l q : List Sign} {xs : List K} (hn : (nm, f) ∈ severalNames) (h : Arguments I free style ws xs)
    (hb : (l, q) ∈ callBrackets) {ts : List Tok} (hr : Reads (.cmd nm :: (l ++ ws ++ q)) ts) (ho : OneDiff ts) :
    parseTokens ts = some (.one (.juxt [.fnMulti nm [] true (ws.flatMap Sign.text) none])) := by
  have hin : ReadsIn [] (.cmd nm :: (l ++ ws ++ q)) ts := .mk hr (by simpa using ho)
  have tbl := List.all_eq_true.1 several_multi _ hn
  simp only [Bool.and_eq_true] at tbl
  cases hin with
  | @cons w _ t ts h1 h2 h3 h4 =>
    have hk : t.kind ∈ multiKinds := by
      have := tbl.1.1
      rw [multiCmd, h1.kindOf] at this
      simpa using this
    have hlen := h3.length
    simp only [List.length_append] at hlen
    obtain ⟨m1, m2, m3⟩ := multi_kinds hk
    have key : First (comp (rule (4 * (t :: ts).length + 1)) true) (t :: ts)
        (.fnMulti nm [] true (ws.flatMap Sign.text) none) [] := by
      obtain ⟨ts', c1, c2, kd, c3, c4⟩ := call_first h hb h3 (k := 4 * (t :: ts).length + 1) (by
        simp only [List.length_cons]; omega)
      rw [c1.reads.textOf, List.append_nil] at c2
      have hav : ∀ ks, Kind.L_PAREN ∉ ks → Kind.L_LEFT ∉ ks → Avoids ts ks := by
        intro ks h1 h2 k hk hm
        rw [c3] at hk
        cases hk
        simp only [List.mem_cons, List.not_mem_nil, or_false] at c4
        rcases c4 with rfl | rfl
        · exact absurd hm h1
        · exact absurd hm h2
      have hs : First (subSup (rule (4 * (t :: ts).length + 1))) ts (none, none) ts := First.or_left
        ((First.opt_none ((subexpr_needs _).avoid (hav _ (by decide) (by decide)))).bind
          ((First.opt_none ((supexpr_needs _).avoid (hav _ (by decide) (by decide)))).bind .pure))
      have hf : First (func (rule (4 * (t :: ts).length + 1))) (t :: ts)
          (.fnMulti (t.text.drop 1) [] true (ws.flatMap Sign.text) none) [] := by
        refine First.choice_tail ((funcName_needs _ _).bind.skip m2) (First.choice_head ?_)
        refine First.bind (First.or_left ((First.oneOf hk).bind .pure)) (hs.bind ?_)
        exact First.bind (First.or_left (c2.bind .pure)) .pure
      have e : t.text.drop 1 = nm := by rw [h2]; rfl
      rw [e] at hf
      exact comp_func (avoids_cons m1) hf
    exact parseTokens_expr (expr_comp m3 key)

theorem args_listing {ws : List Sign} {xs : List K} (h : Arguments I free style ws xs) :
    Listing I free style ',' ws (xs.map .value) := by
  induction h with
  | one h _ => exact .one (.expr h)
  | cons h _ _ h3 ih => exact .cons (.expr h) ih fun _ => h3

theorem call_tokens : callBrackets.all (fun b => (b.1 ++ b.2).all fun w => tokenOk w && w != .mark '_' && boxed [w]) = true := by
  decide +kernel

theorem chain_plain {us vs : List Sign} (hu : ∀ w ∈ us, w ≠ .mark '_') (hv : List.IsChain subOk vs) (hh : ∀ w ∈ vs.head?, w ≠ .mark '_') :
    List.IsChain subOk (us ++ vs) ∧ ∀ w ∈ (us ++ vs).head?, w ≠ .mark '_' := by
  induction us with
  | nil => exact ⟨hv, hh⟩
  | cons u us ih =>
    obtain ⟨h1, h2⟩ := ih fun w hw => hu w (by simp [hw])
    exact ⟨chain_cons h1 h2, by simpa using hu u (by simp)⟩

theorem boxed_all {us : List Sign} (h : ∀ w ∈ us, boxed [w] = true) : boxed us = true := by
  induction us with
  | nil => rfl
  | cons u us ih => rw [boxed_cons (h u (by simp))]; exact ih fun w hw => h w (by simp [hw])

theorem call_signs {nm f : Str} {ws l q : List Sign} {xs : List K} (hn : (nm, f) ∈ severalNames) (h : Arguments I free style ws xs)
    (hb : (l, q) ∈ callBrackets) (hi : style.integrals = false) : (∀ w ∈ Sign.cmd nm :: (l ++ ws ++ q), isToken w) ∧
      List.IsChain subOk (Sign.cmd nm :: (l ++ ws ++ q)) ∧ boxed (Sign.cmd nm :: (l ++ ws ++ q)) = true := by
  obtain ⟨a1, ⟨a2, a3⟩, a4⟩ := listing_signs (.inl rfl) (args_listing h)
  have tbl := List.all_eq_true.1 several_multi _ hn
  simp only [Bool.and_eq_true] at tbl
  obtain ⟨⟨_, t1⟩, t2⟩ := tbl
  have tb := List.all_eq_true.1 call_tokens _ hb
  have tb' : ∀ w ∈ l ++ q, tokenOk w = true ∧ w ≠ .mark '_' ∧ boxed [w] = true := by
    intro w hw
    have := List.all_eq_true.1 tb w hw
    simp only [Bool.and_eq_true, bne_iff_ne] at this
    exact ⟨this.1.1, this.1.2, this.2⟩
  have hq := chain_plain (us := q) (vs := []) (fun w hw => (tb' w (by simp [hw])).2.1) (by simp) (by simp)
  rw [List.append_nil] at hq
  refine ⟨?_, ?_, ?_⟩
  · intro w hw
    simp only [List.mem_cons, List.mem_append] at hw
    rcases hw with rfl | (hw | hw) | hw
    · exact tokenOk_token t1
    · exact tokenOk_token (tb' w (by simp [hw])).1
    · exact a1 w hw
    · exact tokenOk_token (tb' w (by simp [hw])).1
  · rw [List.append_assoc]
    have := chain_plain (us := l) (vs := ws ++ q) (fun w hw => (tb' w (by simp [hw])).2.1) (chain_append a2 hq.1 hq.2) (by
      cases ws with
      | nil => simpa using hq.2
      | cons w ws => simpa using a3)
    exact chain_cons this.1 this.2
  · rw [boxed_cons t2, List.append_assoc, boxed_append (boxed_all fun w hw => (tb' w (by simp [hw])).2.2), boxed_append (a4 hi)]
    exact boxed_all fun w hw => (tb' w (by simp [hw])).2.2

theorem split_comma (a b : Str) (h : ',' ∉ a) : split s%"," (a ++ ',' :: b) = a :: split s%"," b := by
  have key : ∀ acc : Str, splitGo [','] 0 acc (a ++ ',' :: b) = (acc.reverse ++ a) :: splitGo [','] 0 [] b := by
    induction a with
    | nil => intro acc; rw [List.nil_append, splitGo, if_pos (by simp [List.isPrefixOf])]; simp
    | cons c s ih =>
      intro acc
      have hc : ',' ≠ c := by rintro rfl; exact h (by simp)
      rw [List.cons_append, splitGo, if_neg (by simp [List.isPrefixOf, hc]), ih (fun e => h (by simp [e]))]
      simp
  exact key []

section
variable [CharZero K] {Y : Type} {L : Lib Y}

/-- Conversions leave the converter ready for the next text. -/
theorem latex2sympy_ready (hL : SoundLib I L) (hp : ∀ s t, parseText s = some t → L.parse s = .ok t) {wide : Bool} {ws : List Sign}
    {s : Str} {x : K} (hw : Written ws s) (hd : Denotes I free wide .expr ws x) (n : Nat) (vals : List (Str × PV)) (w : World (St Y))
    (hr : Ready I free w) :
    ∃ v w', latex2sympy L (n + 1) s vals w = (.ok v, w') ∧ v.scalar = true ∧ den I v = x ∧ Ready I free w' := by
  obtain ⟨t, h1, h2⟩ := C76_parse hw hd
  have hpt : L.parse (prepare s) = .ok (.one t) := by
    rw [prepare_written hw (denotes_kinds hd) (denotes_sub hd).1]
    exact hp _ _ h1
  let w0 : World (St Y) := ⟨⟨{ w.ext.g with fracType := fracTypeOf s w.ext.g.fracType, values := vals },
    w.ext.lib⟩, w.out⟩
  have hr0 : Ready I free w0 := hr
  obtain ⟨v, w', k1, k2, k3, k4, -⟩ := C62_conversion_partial I L hL (latex2sympy L n) h2 w0 hr0
  refine ⟨v, w', ?_, k2, k3, hr0.keep k4⟩
  rw [latex2sympy]
  simp only [M.bind_run, modG, M.ext, M.lift_run, hpt]
  exact k1

theorem argList_values (hL : SoundLib I L) (hp : ∀ s t, parseText s = some t → L.parse s = .ok t) {wide : Bool} {ws : List Sign}
    {xs : List K} (h : Arguments I free wide ws xs) (n : Nat) : ∀ w : World (St Y), Ready I free w →
    ∃ vs w', argList (latex2sympy L (n + 1)) (split s%"," (ws.flatMap Sign.text)) w = (.ok vs, w') ∧ SV.scalars vs = true ∧
      denList I vs = xs ∧ Ready I free w' := by
  induction h with
  | @one us x hx hc =>
    intro w hr
    obtain ⟨v, w', h1, h2, h3, h4⟩ := latex2sympy_ready hL hp hc.2 hx n w.ext.g.values w hr
    refine ⟨[v], w', ?_, by simp [SV.scalars, h2], by simp [denList, h3], h4⟩
    rw [show (s%"," : Str) = [','] from rfl, split_one_none ',' _ hc.1]
    simp only [argList, M.bind_run, getG, M.ext]
    simp only [h1, M.pure_run]
  | @cons us x vs xs hx hc _ _ ih =>
    intro w hr
    obtain ⟨v, w1, h1, h2, h3, h4⟩ := latex2sympy_ready hL hp hc.2 hx n w.ext.g.values w hr
    obtain ⟨ys, w2, k1, k2, k3, k4⟩ := ih w1 h4
    refine ⟨v :: ys, w2, ?_, by simp [SV.scalars, h2, k2], by simp [denList, h3, k3], k4⟩
    have e : (us ++ .mark ',' :: vs).flatMap Sign.text = us.flatMap Sign.text ++ ',' :: vs.flatMap Sign.text := by simp [Sign.text]
    rw [e, split_comma _ _ hc.1]
    simp only [argList, M.bind_run, getG, M.ext]
    simp only [h1, k1, M.pure_run]

/-- **C118.**  `\gcd`, `\lcm`, `\max` and `\min` of arguments in parentheses, with or without `\left` and `\right`, any number of
arguments and any blanks: `latex2sympy` returns the value of the function of SymPy, given the values of all arguments in their order.
Missing: arguments that contain commas (`C118_nested_refuted`), arguments of three digits after a comma, arguments with a
command before a letter, powers of calls. -/
theorem C118_several_partial (hL : SoundLib I L) (hp : ∀ s t, parseText s = some t → L.parse s = .ok t) {wide : Bool} {nm f : Str}
    {ws l q : List Sign} {xs : List K} {s : Str} (hn : (nm, f) ∈ severalNames) (h : Arguments I free wide ws xs)
    (hb : (l, q) ∈ callBrackets) (hw : Written (.cmd nm :: (l ++ ws ++ q)) s) (F : List K → K)
    (hF : ∀ args, SV.scalars args = true → ∀ y, ∃ v y', L.call f args y = (.ok v, y') ∧ v.scalar = true ∧ den I v = F (denList I args))
    (n : Nat) (vals : List (Str × PV)) (w : World (St Y)) (hr : Ready I free w) :
    ∃ v w', latex2sympy L (n + 2) s vals w = (.ok v, w') ∧ v.scalar = true ∧ den I v = F xs := by
  obtain ⟨c1, c2, c3⟩ := call_signs hn h hb rfl
  obtain ⟨ts, h1, h2⟩ := lex_written hw c1
  have h3 := parseTokens_call hn h hb h2 (oneDiff_of_apart h2 (apart_of_boxed c3))
  have hpt : L.parse (prepare s) = .ok (.one (.juxt [.fnMulti nm [] true (ws.flatMap Sign.text) none])) := by
    rw [prepare_written hw c1 c2]
    exact hp _ _ (by rw [parseText, h1]; exact h3)
  let w0 : World (St Y) := ⟨⟨{ w.ext.g with fracType := fracTypeOf s w.ext.g.fracType, values := vals },
    w.ext.lib⟩, w.out⟩
  have hr0 : Ready I free w0 := hr
  obtain ⟨vs, w1, k1, k2, k3, -⟩ := argList_values hL hp h n w0 hr0
  obtain ⟨v, y', m1, m2, m3⟩ := hF vs k2 w1.ext.lib
  let w2 : World (St Y) := ⟨⟨w1.ext.g, y'⟩, w1.out⟩
  have hev : L.ev f vs w1 = (.ok v, w2) := by simp [Lib.ev, libExt, M.ext, m1, w2]
  have hmf : multiFunc L nm [] vs w1 = (.ok (some v), w2) := by
    simp only [severalNames, List.mem_cons, Prod.mk.injEq, List.not_mem_nil, or_false] at hn
    rcases hn with ⟨rfl, rfl⟩ | ⟨rfl, rfl⟩ | ⟨rfl, rfl⟩ | ⟨rfl, rfl⟩ <;>
      simp [multiFunc, M.bind_run, hev, M.pure_run]
  refine ⟨v, w2, ?_, m2, by rw [m3, k3]⟩
  rw [latex2sympy]
  simp only [M.bind_run, modG, M.ext, M.lift_run, hpt]
  have : conv L (latex2sympy L (n + 1)) (.juxt [.fnMulti nm [] true (ws.flatMap Sign.text) none]) w0 = (.ok v, w2) := by
    rw [conv, convJuxt, conv]
    simp only [Bool.not_true, Bool.false_eq_true, if_false, M.bind_run, k1, hmf, convOpt, M.pure_run, optPow]
    rw [postKind_scalar m2]
    simp [M.pure_run]
  exact this

/-- **C118 is violated by nested calls**: the text of the arguments is cut at every comma, also inside an argument. -/
theorem C118_nested_refuted (hp : ∀ s t, parseText s = some t → L.parse s = .ok t)
    (he : ∀ s, parseText s = none → ∃ e, L.parse s = .error e) (n : Nat) (vals : List (Str × PV)) (w : World (St Y)) :
    ∃ e w', latex2sympy L (n + 2) s%"\\max(\\gcd(4,6),3)" vals w = (.error e, w') := by
  have c1 : ∀ us : List Sign, us.all (fun w => tokenOk w || match w with | .digit _ => true | _ => false) = true → ∀ w ∈ us, isToken w := by
    intro us h w hw
    have := List.all_eq_true.1 h w hw
    cases w with
    | digit d => exact ⟨_, .digit⟩
    | _ => exact tokenOk_token (by simpa using this)
  have e1 : prepare s%"\\max(\\gcd(4,6),3)" = s%"\\max(\\gcd(4,6),3)" :=
    prepare_written (ws := [.cmd s%"max", .mark '(', .cmd s%"gcd", .mark '(', .digit 4, .mark ',', .digit 6, .mark ')', .mark ',', .digit 3,
      .mark ')']) (writtenB_sound (by decide +kernel)) (c1 _ (by decide +kernel)) (by simp [subOk])
  have e2 : prepare s%"\\gcd(4" = s%"\\gcd(4" :=
    prepare_written (ws := [.cmd s%"gcd", .mark '(', .digit 4]) (writtenB_sound (by decide +kernel)) (c1 _ (by decide +kernel)) (by simp [subOk])
  have p1 : parseText s%"\\max(\\gcd(4,6),3)" = some (.one (.juxt [.fnMulti s%"max" [] true s%"\\gcd(4,6),3" none])) := by kernel_rfl
  have p2 : parseText s%"\\gcd(4" = none := by kernel_rfl
  obtain ⟨e, h2⟩ := he _ p2
  have h1 := hp _ _ p1
  rw [latex2sympy, e1]
  simp only [M.bind_run, modG, M.ext, M.lift_run, h1]
  rw [conv, convJuxt, conv]
  have hs : split s%"," s%"\\gcd(4,6),3" = s%"\\gcd(4" :: split s%"," s%"6),3" := split_comma s%"\\gcd(4" s%"6),3" (by decide)
  refine ⟨e, ?_⟩
  simp only [Bool.not_true, Bool.false_eq_true, if_false, M.bind_run, hs, argList, getG, M.ext, latex2sympy, modG, e2, M.lift_run, h2]
  exact ⟨_, rfl⟩

omit [Field K] [CharZero K] in
/-- **C118 is violated by calls without parentheses**: the argument is asked for a method `split` that it does not have. -/
theorem C118_bare_refuted (hp : ∀ s t, parseText s = some t → L.parse s = .ok t) (n : Nat) (vals : List (Str × PV)) (w : World (St Y)) :
    ∃ w', latex2sympy L (n + 1) s%"\\max 3" vals w = (.error .attributeError, w') := by
  have e1 : prepare s%"\\max 3" = s%"\\max 3" := prepare_written (ws := [.cmd s%"max", .digit 3]) (writtenB_sound (by decide +kernel)) (by
    intro w hw
    simp only [List.mem_cons, List.not_mem_nil, or_false] at hw
    rcases hw with rfl | rfl
    · exact tokenOk_token (by decide +kernel)
    · exact ⟨_, .digit⟩) (by simp [subOk])
  have p1 : parseText s%"\\max 3" = some (.one (.juxt [.fnMulti s%"max" [] false s%"3" none])) := by kernel_rfl
  have h1 := hp _ _ p1
  rw [latex2sympy, e1]
  simp only [M.bind_run, modG, M.ext, M.lift_run, h1]
  rw [conv, convJuxt, conv]
  exact ⟨_, rfl⟩

end
end

/-! ### Concrete texts -/

/-- the greatest of several numbers -/
noncomputable def greatest (xs : List ℝ) : ℝ := xs.tail.foldl max (xs.headD 0)

/-- real numbers, with the greatest of several numbers -/
noncomputable def maxInterp : Interp ℝ :=
  { realInterp (fun _ _ => 7) none with fn := fun f xs => if f = s%"Max" then greatest xs else realFn f xs }

theorem maxInterp_sound (parse : Str → Except PyErr MathTree) : SoundLib maxInterp (nodeLib parse) where
  call τ f hf args h y := ⟨.fn f args, y, by simp [nodeLib, binderNode_call hf h], by
    simpa [SV.scalar] using h, by rw [den]; rfl⟩
  inv τ a h _ y := ⟨.fn s%"1/" [a], y, by simp [nodeLib, binderNode], by
    simp [SV.scalar, SV.scalars, h], by
    rw [den, denList, denList]
    simp [maxInterp, realInterp, realFn, Interp.at]⟩
  bind τ {f args op n r b as} hc hb has y := ⟨.binder op n r b as, y, by simp [nodeLib, hc.node], by
    simp [SV.scalar, hb, has], by rw [den]; rfl⟩

/-- `\max\left( 2x, 5 , 9 \right)` at `x = 7` is 14. -/
example : ∃ v w', latex2sympy (nodeLib fun s => match parseText s with
        | some t => .ok t
        | none => .error .other) 2 s%"\\max\\left( 2x, 5 , 9 \\right)" [] ⟨⟨Globals.init, ()⟩, []⟩ = (.ok v, w') ∧ v.scalar = true ∧
      den maxInterp v = 14 := by
  have hn : ∀ d, Denotes maxInterp (fun _ => True) (false : Bool) .expr [.digit d] ((d.val : ℚ) : ℝ) :=
    fun d => .term (.signed (.product (.factor (.power (.base (.number (num1 d)))))))
  have hx : Denotes maxInterp (fun _ => True) (false : Bool) .expr [.digit 2, .letter 'x'] (((2 : ℕ) : ℚ) * 7 : ℝ) :=
    .term (.signed (.product (.juxt (.power (.base (.number (num1 2)))) (.factor (.power (.base (.letter (.latin (c := 'x') (by decide)) trivial))))
      ⟨fun _ => ⟨by simp, by simp⟩, by simp⟩)))
  have hc : ∀ us : List Sign, writtenB us (us.flatMap Sign.text) = true → ',' ∉ us.flatMap Sign.text → Compact us :=
    fun us h1 h2 => ⟨h2, writtenB_sound h1⟩
  have harg : Arguments maxInterp (fun _ => True) (false : Bool) ([.digit 2, .letter 'x'] ++ .mark ',' :: ([.digit 5] ++ .mark ',' :: [.digit 9]))
      [((2 : ℕ) : ℚ) * 7, ((5 : ℕ) : ℚ), ((9 : ℕ) : ℚ)] :=
    .cons hx (hc _ (by decide +kernel) (by decide +kernel)) (.cons (hn 5) (hc _ (by decide +kernel) (by decide +kernel))
      (.one (hn 9) (hc _ (by decide +kernel) (by decide +kernel))) (by decide)) (by decide)
  obtain ⟨v, w', h1, h2, h3⟩ := C118_several_partial (maxInterp_sound _) (L := nodeLib fun s => match parseText s with
        | some t => .ok t
        | none => .error .other) (fun s t h => by simp [nodeLib, h]) (nm := s%"max") (f := s%"Max") (by decide) harg
    (l := [.cmd s%"left", .mark '(']) (q := [.cmd s%"right", .mark ')']) (by decide) (s := s%"\\max\\left( 2x, 5 , 9 \\right)")
    (writtenB_sound (by decide +kernel)) greatest (fun args h y => ⟨.fn s%"Max" args, y, by
      have : binderNode s%"Max" args = none := by
        unfold binderNode
        split
        · simp [SV.scalars, SV.scalar] at h
        all_goals simp
      simp [nodeLib, this], by simpa [SV.scalar] using h, by rw [den]; rfl⟩) 0 [] ⟨⟨Globals.init, ()⟩, []⟩ ⟨rfl, fun _ _ => rfl⟩
  refine ⟨v, w', h1, h2, h3.trans ?_⟩
  norm_num [greatest]

end Verif.Grammar
