import Verif.Props.Enclosed
/-
A greatest common divisor, a least common multiple, a maximum or a minimum without parentheses always raises, so that such a call is
never read as an interval (C125).
-/

namespace Verif.L2S
open Verif Verif.Reading Verif.Grammar Verif.PS

/-! ### Specification -/

/-- the functions of several arguments (PS.g4:569-570) -/
def severalCommands : List Str := [s%"\\gcd", s%"\\lcm", s%"\\max", s%"\\min"]

/-! ### Proofs -/

/-- their token types -/
def severalKinds : List Kind := [.FUNC_GCD, .FUNC_LCM, .FUNC_MAX, .FUNC_MIN]

/-- All phrases of this form begin with a token that is none of them, if this is known for the rules in `f`. -/
def startBy (f : R → Bool) : E → Bool
  | .tok k => decide (k ∉ severalKinds)
  | .rule x => f x
  | .seq a _ => startBy f a
  | .alt a b => startBy f a && startBy f b
  | .plus a => startBy f a
  | .opt _ => false
  | .star _ => false

/-- The same, with at most `n` rules used. -/
def otherStart : Nat → R → Bool
  | 0, _ => false
  | n + 1, x => startBy (otherStart n) (grammar x)

theorem startBy_sound {e : E} {w : List Kind} (h : Derives e w) : ∀ n, startBy (otherStart n) e = true →
    ∃ k v, w = k :: v ∧ k ∉ severalKinds := by
  induction h with
  | @tok k => intro n hn; exact ⟨k, [], rfl, by simpa [startBy] using hn⟩
  | rule h ih =>
    intro n hn
    cases n with
    | zero => simp [startBy, otherStart] at hn
    | succ n => exact ih n (by simpa [startBy, otherStart] using hn)
  | @seq a b u v h1 h2 ih1 ih2 =>
    intro n hn
    obtain ⟨k, x, rfl, hk⟩ := ih1 n hn
    exact ⟨k, x ++ v, rfl, hk⟩
  | left h ih => intro n hn; exact ih n (by simp only [startBy, Bool.and_eq_true] at hn; exact hn.1)
  | right h ih => intro n hn; exact ih n (by simp only [startBy, Bool.and_eq_true] at hn; exact hn.2)
  | none => intro n hn; simp [startBy] at hn
  | some => intro n hn; simp [startBy] at hn
  | nil => intro n hn; simp [startBy] at hn
  | cons => intro n hn; simp [startBy] at hn
  | @plus a u v h1 h2 ih1 ih2 =>
    intro n hn
    obtain ⟨k, x, rfl, hk⟩ := ih1 n hn
    exact ⟨k, x ++ v, rfl, hk⟩

/-- The tokens begin with another one. -/
def Quiet (us : List Tok) : Prop := ∃ u vs, us = u :: vs ∧ u.kind ∉ severalKinds

/-- There is no opening parenthesis. -/
def NoParen (us : List Tok) : Prop := ∀ u ∈ us, u.kind ≠ .L_PAREN

theorem Quiet.append {us : List Tok} (h : Quiet us) (vs : List Tok) : Quiet (us ++ vs) := by
  obtain ⟨u, x, rfl, hu⟩ := h
  exact ⟨u, x ++ vs, rfl, hu⟩

theorem Toks.quiet {k : Kind} {ks : List Kind} {us : List Tok} (h : Toks (k :: ks) us) (hk : k ∉ severalKinds) : Quiet us := by
  cases us with
  | nil => simp [Toks] at h
  | cons u us =>
    simp only [Toks, List.map_cons, List.cons.injEq] at h
    exact ⟨u, us, rfl, by rw [h.1]; exact hk⟩

theorem Phrase.quiet {x : R} {us : List Tok} (h : Phrase x us) (n : Nat) (hn : otherStart n x = true) : Quiet us := by
  obtain ⟨k, v, e, hk⟩ := startBy_sound h n hn
  cases us with
  | nil => simp at e
  | cons u us =>
    simp only [List.map_cons, List.cons.injEq] at e
    exact ⟨u, us, rfl, by rw [e.1]; exact hk⟩

theorem Brackets.quiet {ps : List (Kind × Kind)} {l e : List Tok} (h : Brackets ps l e) (hp : ∀ p ∈ ps, p.1 ∉ severalKinds) : Quiet l := by
  obtain ⟨p, hm, h | h | h⟩ := h
  · exact Toks.quiet h.1 (hp p hm)
  · exact Toks.quiet h.1 (by decide)
  · exact Toks.quiet h.1 (by decide)

theorem NameIs.quiet {b : NameTok} {us : List Tok} (h : NameIs b us) : Quiet us := by
  cases h with
  | letter h => exact ⟨_, _, rfl, by rw [h]; decide⟩
  | greek h => exact ⟨_, _, rfl, by rw [h]; decide⟩
  | other h => exact ⟨_, _, rfl, by rw [h]; decide⟩
  | @accent a l us e h1 => exact (Phrase.quiet h1 5 (by decide +kernel)).append _

theorem FnIs.quiet {n o : Str} {us : List Tok}
    (h : FnIs .func_normal_functions_single_arg .func_operator_names_single_arg n o us) : Quiet us := by
  cases h with
  | command h => exact Phrase.quiet h 5 (by decide +kernel)
  | operator h => exact ⟨_, _, rfl, by rw [h]; decide⟩

theorem FnIs.nonempty {x y : R} {n o : Str} {us : List Tok} (h : FnIs x y n o us) : us ≠ [] := by
  cases h <;> simp

theorem Parens.paren {l e us vs ws : List Tok} (h : Parens l e) : ¬ NoParen (us ++ (vs ++ (l ++ (ws ++ e)))) := by
  intro hn
  have key : ∀ a : List Tok, Toks [.L_PAREN] a → (∀ u ∈ a, u ∈ l) → False := by
    intro a ha hl
    cases a with
    | nil => simp [Toks] at ha
    | cons u a =>
      simp only [Toks, List.map_cons, List.cons.injEq] at ha
      exact hn u (by simp [hl u (by simp)]) ha.1
  rcases h with ⟨x, a, y, b, rfl, -, -, ha, -⟩ | ⟨x, a, y, b, rfl, -, -, ha, -⟩ <;>
    exact key a ha fun u hu => by simp [hu]

section
variable {Y : Type} (L : Lib Y) (rec : Str → List (Str × PV) → M (St Y) SV)

/-- Without an opening parenthesis, what begins with such a function raises. -/
def Raised (t : T) (us : List Tok) : Prop := us ≠ [] ∧ (NoParen us → Quiet us ∨ Fails (conv L rec t))

/-- the same for the nodes of the tree -/
def RaisedNode : Node → List Tok → Prop
  | .math (.one t), us => Raised L rec t us
  | .math (.list ts), us => us ≠ [] ∧ (NoParen us → Quiet us ∨ ∃ t rest, ts = t :: rest ∧ Fails (conv L rec t))
  | .items _ ts, us => us ≠ [] ∧ (NoParen us → Quiet us ∨ ∃ t rest, ts = t :: rest ∧ Fails (conv L rec t))
  | .relation t, us => Raised L rec t us
  | .expr t, us => Raised L rec t us
  | .mp _ t, us => Raised L rec t us
  | .unary _ t, us => Raised L rec t us
  | .post _ t, us => Raised L rec t us
  | .exp _ t, us => Raised L rec t us
  | .comp _ t, us => Raised L rec t us
  | .func t, us => Raised L rec t us
  | .atom _, us => Quiet us
  | .frac _, us => Quiet us
  | _, _ => True

variable {L rec}

theorem Quiet.nonempty {us : List Tok} (h : Quiet us) : us ≠ [] := by
  obtain ⟨u, vs, rfl, -⟩ := h
  simp

theorem Quiet.raised {us : List Tok} (h : Quiet us) (t : T) : Raised L rec t us := ⟨h.nonempty, fun _ => .inl h⟩

theorem Quiet.raised' {us : List Tok} (h : Quiet us) (vs : List Tok) (t : T) : Raised L rec t (us ++ vs) := (h.append vs).raised t

theorem Raised.left {t t' : T} {us : List Tok} (h : Raised L rec t us) (vs : List Tok) (hf : Fails (conv L rec t) → Fails (conv L rec t')) :
    Raised L rec t' (us ++ vs) :=
  ⟨by simp [h.1], fun hn => (h.2 fun u hu => hn u (by simp [hu])).imp (·.append vs) hf⟩

theorem spells_raised {x : Node} {us : List Tok} (h : PS.Spells x us) : RaisedNode L rec x us := by
  induction h
  case one ih => exact ih
  case list ih => exact ih
  case listIn hk h2 hb h ih =>
    have : Quiet _ := hb.elim (fun h => Brackets.quiet h (by decide)) fun h => Toks.quiet h.1 (by decide)
    exact ⟨(this.append _).nonempty, fun _ => .inl (this.append _)⟩
  case item ih => exact ⟨ih.1, fun hn => (ih.2 hn).imp id fun h => ⟨_, _, rfl, h⟩⟩
  case items us c vs h1 h2 h3 ih1 ih2 =>
    refine ⟨by simp [ih1.1], fun hn => (ih1.2 fun u hu => hn u (by simp [hu])).imp (·.append _) ?_⟩
    rintro ⟨t, rest, rfl, h⟩
    exact ⟨t, _, rfl, h⟩
  case relExpr ih => exact ih
  case exprMp ih => exact ih
  case mpUnary ih => exact ih
  case postExp ih => exact ih
  case expComp ih => exact ih
  case compFunc ih => exact ih
  case compAtom ih => exact Quiet.raised ih _
  case atomFrac ih => exact ih
  case rel ih _ => exact Raised.left ih _ fun h => by rw [conv]; exact Fails.bind h
  case add ih _ => exact Raised.left ih _ fun h => by rw [conv]; exact Fails.bind h
  case subtract ih _ => exact Raised.left ih _ fun h => by rw [conv]; exact Fails.bind h
  case mul ih _ => exact Raised.left ih _ fun h => by rw [conv]; exact Fails.bind h
  case div ih _ => exact Raised.left ih _ fun h => by rw [conv]; exact Fails.bind h
  case mod ih _ => exact Raised.left ih _ fun h => by rw [conv]; exact Fails.bind h
  case juxt ih _ => exact Raised.left ih _ fun h => by rw [conv, convJuxt]; exact Fails.bind h
  case bang ih => exact Raised.left ih _ fun h => by rw [conv]; exact Fails.bind h
  case transp ih => exact Raised.left ih _ fun h => by rw [conv]; exact Fails.bind h
  case evalUp ih _ => exact Raised.left ih _ fun h => by rw [conv]; exact Fails.bind h
  case evalLow ih _ => exact Raised.left ih _ fun h => by rw [conv]; exact Fails.bind h
  case evalBoth ih _ _ => exact Raised.left ih _ fun h => by rw [conv]; exact Fails.bind h
  case pow ih _ _ => exact Raised.left ih _ fun h => by rw [conv]; exact Fails.bind h
  case pos h _ _ => exact Quiet.raised' (Toks.quiet h (by decide)) _ _
  case neg h _ _ => exact Quiet.raised' (Toks.quiet h (by decide)) _ _
  case group h _ _ => exact Quiet.raised' (Brackets.quiet h (by decide)) _ _
  case norm h _ _ => exact Quiet.raised' (Brackets.quiet h (by decide)) _ _
  case abs h _ _ => exact Quiet.raised' (Brackets.quiet h (by decide)) _ _
  case floor h _ _ => exact Quiet.raised' (Brackets.quiet h (by decide)) _ _
  case ceil h _ _ => exact Quiet.raised' (Brackets.quiet h (by decide)) _ _
  case choose h _ _ _ _ _ _ => exact Quiet.raised' (Toks.quiet h (by decide)) _ _
  case binom h _ _ _ _ _ _ => exact Quiet.raised' (Toks.quiet h (by decide)) _ _
  case matrix h _ _ _ _ _ _ => exact Quiet.raised' (Toks.quiet h (by decide)) _ _
  case det h _ _ _ _ => exact Quiet.raised' (Toks.quiet h (by decide)) _ _
  case name h => exact NameIs.quiet h
  case nameSub h _ _ => exact (NameIs.quiet h).append _
  case nameSup h _ _ => exact (NameIs.quiet h).append _
  case nameSubSup h _ _ _ _ => exact (NameIs.quiet h).append _
  case nameSupSub h _ _ _ _ => exact (NameIs.quiet h).append _
  case symbol h => exact ⟨_, _, rfl, by rw [h]; decide⟩
  case number h => exact Phrase.quiet h 5 (by decide +kernel)
  case enotation h => exact Phrase.quiet h 5 (by decide +kernel)
  case percent h => exact Phrase.quiet h 5 (by decide +kernel)
  case differential h => exact ⟨_, _, rfl, by rw [h]; decide⟩
  case «variable» h => exact ⟨_, _, rfl, by rw [h]; decide⟩
  case mathit h _ _ => exact (Toks.quiet h (by decide)).append _
  case frac h _ _ _ _ => exact (Toks.quiet h (by decide)).append _
  case single h _ _ _ _ => exact Quiet.raised' (FnIs.quiet h) _ _
  case multi h _ hp _ _ => exact ⟨by simp [FnIs.nonempty h], fun hn => absurd hn (Parens.paren hp)⟩
  case multiBare h _ _ _ _ =>
    refine ⟨by simp [FnIs.nonempty h], fun _ => .inr ?_⟩
    rw [conv]
    exact fun w => ⟨_, _, rfl⟩
  case apply h _ _ _ => exact Quiet.raised' (Phrase.quiet h 5 (by decide +kernel)) _ _
  case applyIn h _ _ _ _ _ => exact Quiet.raised' (Phrase.quiet h 5 (by decide +kernel)) _ _
  case integral h _ _ _ _ => exact Quiet.raised' (Toks.quiet h (by decide)) _ _
  case sqrtDigit h _ => exact Quiet.raised' (Toks.quiet h (by decide)) _ _
  case sqrt h _ _ _ => exact Quiet.raised' (Toks.quiet h (by decide)) _ _
  case rootDigit h _ _ _ _ => exact Quiet.raised' (Toks.quiet h (by decide)) _ _
  case root h _ _ _ _ _ _ => exact Quiet.raised' (Toks.quiet h (by decide)) _ _
  case sum h _ _ _ _ _ _ =>
    exact Quiet.raised' (h.elim (fun h => Toks.quiet h.2 (by decide)) fun h => Toks.quiet h.2 (by decide)) _ _
  case sumUp h _ _ _ _ _ _ =>
    exact Quiet.raised' (h.elim (fun h => Toks.quiet h.2 (by decide)) fun h => Toks.quiet h.2 (by decide)) _ _
  case lim h _ _ _ _ => exact Quiet.raised' (Toks.quiet h (by decide)) _ _
  case expE h _ _ => exact Quiet.raised' (Toks.quiet h (by decide)) _ _
  all_goals trivial

end

theorem replace_keep {x : Char} {p cmd : Str} (new rest : Str) (hc : cmd ∈ severalCommands) (hx : x ∉ cmd.tail)
    (hp : ¬ (x :: p) <+: cmd ∧ ¬ cmd <+: (x :: p)) : replace (x :: p) new (cmd ++ rest) = cmd ++ replace (x :: p) new rest := by
  have h : ¬ (x :: p) <+: cmd ++ rest := fun h =>
    (List.prefix_or_prefix_of_prefix h (List.prefix_append cmd rest)).elim hp.1 hp.2
  cases cmd with
  | nil => simp [severalCommands] at hc
  | cons c cs =>
    rw [List.cons_append] at h ⊢
    rw [replace_cons _ _ _ h, replace_skip _ _ _ _ (show x ∉ cs from hx), List.cons_append]

/-- The text begins with the function and has no opening parenthesis. -/
def BareText (cmd s : Str) : Prop := (∃ rest, s = cmd ++ rest) ∧ '(' ∉ s

theorem BareText.replace {cmd s new : Str} {x : Char} {p : Str} (h : BareText cmd s) (hc : cmd ∈ severalCommands)
    (hx : ∀ cmd ∈ severalCommands, x ∉ cmd.tail ∧ ¬ (x :: p) <+: cmd ∧ ¬ cmd <+: (x :: p)) (hn : '(' ∉ new) :
    BareText cmd (Verif.replace (x :: p) new s) := by
  obtain ⟨⟨rest, rfl⟩, hp⟩ := h
  exact ⟨⟨_, replace_keep new rest hc (hx _ hc).1 (hx _ hc).2⟩, fun hm => (mem_replace hm).elim hp hn⟩

theorem BareText.prepare {cmd s : Str} (h : BareText cmd s) (hc : cmd ∈ severalCommands) : BareText cmd (prepare s) := by
  have h1 : ∀ {s}, BareText cmd s → BareText cmd (permStep s) := by
    intro s h
    have : permStep s = s := by
      refine reSub_of_lang _ fun u hu hi => h.2 ?_
      obtain ⟨a, v, b, rfl, hv⟩ := lang_cat_mem (r := Re.c '(') (by simp) hu
      rw [lang_c] at hv
      subst hv
      exact hi.mem (by simp)
    rwa [this]
  unfold L2S.prepare
  simp only
  refine BareText.replace (x := '$') (p := []) ?_ hc (by decide) (by decide)
  refine BareText.replace (x := '\\') (p := s%",") ?_ hc (by decide) (by decide)
  refine BareText.replace (x := '~') (p := []) ?_ hc (by decide) (by decide)
  refine BareText.replace (x := '\\') (p := s%"qquad") ?_ hc (by decide) (by decide)
  refine BareText.replace (x := '\\') (p := s%"quad") ?_ hc (by decide) (by decide)
  refine BareText.replace (x := '\\') (p := s%"displaystyle") ?_ hc (by decide) (by decide)
  refine h1 ?_
  refine BareText.replace (x := '\\') (p := s%"end{matrix}\\right]") ?_ hc (by decide) (by decide)
  refine BareText.replace (x := '\\') (p := s%"left[\\begin{matrix}") ?_ hc (by decide) (by decide)
  refine BareText.replace (x := '{') (p := s%"\\rm d}") ?_ hc (by decide) (by decide)
  refine BareText.replace (x := '\\') (p := s%"mathrm{d}") ?_ hc (by decide) (by decide)
  refine BareText.replace (x := '\\') (p := s%"mathrm{T}") ?_ hc (by decide) (by decide)
  refine BareText.replace (x := '\\') (p := s%"tfrac") ?_ hc (by decide) (by decide)
  exact BareText.replace (x := '\\') (p := s%"dfrac") h hc (by decide) (by decide)

theorem munch_several {cmd : Str} (hc : cmd ∈ severalCommands) (rest : Str) :
    ∃ k ∈ severalKinds, munch rules 0 none (cmd ++ rest) = some (k, cmd.length) := by
  simp only [severalCommands, List.mem_cons, List.not_mem_nil, or_false] at hc
  rcases hc with rfl | rfl | rfl | rfl
  · exact ⟨.FUNC_GCD, by decide, by cases rest <;> kernel_rfl⟩
  · exact ⟨.FUNC_LCM, by decide, by cases rest <;> kernel_rfl⟩
  · exact ⟨.FUNC_MAX, by decide, by cases rest <;> kernel_rfl⟩
  · exact ⟨.FUNC_MIN, by decide, by cases rest <;> kernel_rfl⟩

theorem matches_foldl (u : Str) : ∀ rx : Rx, rx.Matches u ↔ (u.foldl (fun r c => r.deriv c) rx).nullable = true := by
  induction u with
  | nil => exact fun rx => (Rx.nullable_iff rx).symm
  | cons c u ih => exact fun rx => by rw [List.foldl_cons, ← ih, Rx.deriv_matches]

/-- Whatever token is read at the beginning, it is the function. -/
theorem first_several {cmd rest u : Str} {k : Kind} {rx : Rx} (hc : cmd ∈ severalCommands) (hu : u ≠ []) (hp : u <+: cmd ++ rest)
    (hr : (k, rx) ∈ rules) (hm : rx.Matches u) : k ∈ severalKinds := by
  have short : ∀ cmd ∈ severalCommands, ∀ n ∈ List.range cmd.length, n ≠ 0 → ∀ r ∈ rules,
      ((cmd.take n).foldl (fun r c => r.deriv c) r.2).nullable = false := by decide +kernel
  have whole : ∀ cmd ∈ severalCommands, ∀ r ∈ rules, (cmd.foldl (fun r c => r.deriv c) r.2).nullable = true → r.1 ∈ severalKinds := by decide +kernel
  have e : u = (cmd ++ rest).take u.length := List.prefix_iff_eq_take.1 hp
  rcases Nat.lt_trichotomy u.length cmd.length with h | h | h
  · rw [List.take_append_of_le_length h.le] at e
    rw [matches_foldl, e, short cmd hc u.length (List.mem_range.2 h) (by simpa using hu) _ hr] at hm
    cases hm
  · rw [h, List.take_left] at e
    subst e
    exact whole _ hc _ hr ((matches_foldl _ _).1 hm)
  · obtain ⟨k', -, h'⟩ := munch_several hc rest
    exact absurd (e ▸ hm) (((C88_longest _ _ _).1 h').2.2.2 u.length h hp.length_le _ hr)

theorem BareText.tokens {cmd s : Str} {ts : List Tok} (h : BareText cmd s) (hc : cmd ∈ severalCommands) (hs : Beginning ts s) :
    ¬ Quiet ts ∧ NoParen ts := by
  constructor
  · obtain ⟨⟨rest, rfl⟩, -⟩ := h
    rintro ⟨u, us, rfl, hu⟩
    obtain ⟨h1, h2⟩ := hs
    obtain ⟨h3, rx, h4, h5⟩ := h2 u (by simp)
    have hp : u.gap ++ u.text <+: cmd ++ rest := (List.prefix_append _ _).trans (by simpa using h1)
    have hg : u.gap = [] := by
      generalize u.gap = g at h3 hp
      have hh : ∃ c d r, cmd = c :: d :: r ∧ c ∉ [' ', '\t', '\r', '\n'] ∧ d ≠ '$' := by
        simp only [severalCommands, List.mem_cons, List.not_mem_nil, or_false] at hc
        rcases hc with rfl | rfl | rfl | rfl <;> exact ⟨_, _, _, rfl, by decide, by decide⟩
      obtain ⟨c, d, r, rfl, hc', hd⟩ := hh
      cases h3 with
      | nil => rfl
      | blank hb _ =>
        rw [List.cons_append, List.cons_append, List.cons_prefix_cons] at hp
        exact absurd (hp.1 ▸ hb) hc'
      | dollar _ =>
        simp only [List.cons_append, List.nil_append, List.cons_prefix_cons] at hp
        exact absurd hp.2.1.symm hd
    rw [hg, List.nil_append] at hp
    exact hu (first_several hc (fun e => rule_length _ h4 (e ▸ h5)) hp h4 h5)
  · intro u hu hk
    obtain ⟨hp, ht⟩ := hs
    obtain ⟨-, rx, hr, hm⟩ := ht u hu
    have hf : (u.kind, rx) ∈ rules.filter (fun r => decide (r.1 = Kind.L_PAREN)) := List.mem_filter.2 ⟨hr, by simpa using hk⟩
    have ef : rules.filter (fun r => decide (r.1 = Kind.L_PAREN)) = [(.L_PAREN, .lit s%"(")] := rfl
    rw [ef, List.mem_singleton, Prod.mk.injEq] at hf
    rw [hf.2] at hm
    have htext : u.text = s%"(" := by
      generalize u.text = x at hm
      cases hm
      rfl
    refine h.2 (hp.subset ?_)
    rw [List.mem_flatMap]
    exact ⟨u, hu, by rw [htext]; simp⟩

section
variable {Y : Type} {L : Lib Y}

/-- **C125.**  What begins with `\gcd`, `\lcm`, `\max` or `\min` and has no opening parenthesis raises, whatever part of it is parsed. -/
theorem C125_raises (hp : ReadsPart L) {cmd rest : Str} (hc : cmd ∈ severalCommands) (hr : '(' ∉ rest) (n : Nat) (vals : List (Str × PV))
    (w : World (St Y)) : ∃ e w', latex2sympy L (n + 1) (cmd ++ rest) vals w = (.error e, w') := by
  have hb : BareText cmd (cmd ++ rest) := ⟨⟨rest, rfl⟩, by
    rw [List.mem_append]
    rintro (h | h)
    · revert hc h; revert cmd; decide
    · exact hr h⟩
  have hb := hb.prepare hc
  rw [latex2sympy]
  simp only [M.bind_run, modG, M.ext, M.lift_run]
  cases ht : L.parse (prepare (cmd ++ rest)) with
  | error e => exact ⟨_, _, rfl⟩
  | ok m =>
    obtain ⟨us, h1, h2⟩ := C92_part hp ht
    obtain ⟨nq, hn⟩ := hb.tokens hc h1
    have key := spells_raised (L := L) (rec := latex2sympy L n) h2
    cases m with
    | one t => exact (key.2 hn).resolve_left nq _
    | list ts =>
      obtain ⟨t, rest, rfl, h⟩ := (key.2 hn).resolve_left nq
      have : Fails (convItems L (latex2sympy L n) (t :: rest)) := by rw [convItems]; exact Fails.bind h
      exact Fails.bind this _

theorem grammarLib_reads : ReadsPart grammarLib := by
  intro s t h
  have h : parseText s = some t := by
    simp only [grammarLib, nodeLib] at h
    split at h
    · cases h; assumption
    · cases h
  rw [parseText, Option.bind_eq_some_iff] at h
  obtain ⟨ts, h1, h2⟩ := h
  obtain ⟨⟨e, rfl, -⟩, h3⟩ := C88_text h1
  exact ⟨ts, _, ⟨List.prefix_append _ _, h3⟩, mem_math h2⟩

/-- `\max\frac{x}{2}+1`, `\gcd[12,18]` and `\min\left{a,b\right}` raise. -/
example (n : Nat) (w : World (St Unit)) : (∃ e w', latex2sympy grammarLib (n + 1) s%"\\max\\frac{x}{2}+1" [] w = (.error e, w')) ∧
    (∃ e w', latex2sympy grammarLib (n + 1) s%"\\gcd[12,18]" [] w = (.error e, w')) ∧
    ∃ e w', latex2sympy grammarLib (n + 1) s%"\\min\\left{a,b\\right}" [] w = (.error e, w') :=
  ⟨C125_raises grammarLib_reads (cmd := s%"\\max") (by decide) (by decide) n [] w,
    C125_raises grammarLib_reads (cmd := s%"\\gcd") (by decide) (by decide) n [] w,
    C125_raises grammarLib_reads (cmd := s%"\\min") (by decide) (by decide) n [] w⟩

end

end Verif.L2S
