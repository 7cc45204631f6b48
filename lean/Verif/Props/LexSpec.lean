import Verif.Props.ReadingLex
/-
The tokens of every text are those of the longest match (C88).
-/

namespace Verif.Grammar
open Verif Verif.L2S

/-! ### Specification -/

/-- Of the rules `rs` (in order of priority), the longest match at the beginning of the text `s` has
length `m > 0`, and the first rule with a match of this length is `k`. -/
def Longest (rs : List (Kind × Rx)) (s : Str) (k : Kind) (m : Nat) : Prop :=
  0 < m ∧ m ≤ s.length ∧
  (∃ pre post rx, rs = pre ++ (k, rx) :: post ∧ rx.Matches (s.take m) ∧
    ∀ r ∈ pre, ¬ r.2.Matches (s.take m)) ∧
  ∀ m', m < m' → m' ≤ s.length → ∀ r ∈ rs, ¬ r.2.Matches (s.take m')

/-- The text, with `gap` skipped before, is divided into these tokens. -/
inductive Divided : Str → Str → List Tok → Prop
  | done {gap} : Divided gap [] []
  | skip {gap s k m ts} : Longest rules s k m → k ∈ [Kind.WS, .DOLLAR_SIGN] →
      Divided (gap ++ s.take m) (s.drop m) ts → Divided gap s ts
  | token {gap s k m ts} : Longest rules s k m → k ∉ [Kind.WS, .DOLLAR_SIGN] →
      Divided [] (s.drop m) ts → Divided gap s (⟨k, s.take m, gap⟩ :: ts)

/-! ### Proofs -/

theorem step_append (a b : List (Kind × Rx)) (c : Char) : step (a ++ b) c = step a c ++ step b c := by
  simp [step]

theorem step_cons {k : Kind} {rx : Rx} {post : List (Kind × Rx)} {c : Char} {u : Str}
    (h : rx.Matches (c :: u)) : step ((k, rx) :: post) c = (k, rx.deriv c) :: step post c := by
  have : (rx.deriv c).dead = false := by
    have := (Rx.deriv_matches rx c u).2 h
    cases hd : rx.deriv c with
    | none => rw [hd] at this; exact absurd this Rx.matches_none
    | _ => rfl
  simp [step, this]

theorem Longest.step {rs : List (Kind × Rx)} {c : Char} {cs : Str} {k : Kind} {m : Nat}
    (h : Longest rs (c :: cs) k (m + 1)) (hm : 0 < m) : Longest (step rs c) cs k m := by
  obtain ⟨h1, h2, ⟨pre, post, rx, rfl, h4, h5⟩, h6⟩ := h
  rw [List.take_succ_cons] at h4 h5
  refine ⟨hm, by simpa using h2, ⟨Grammar.step pre c, Grammar.step post c, rx.deriv c, ?_,
    (Rx.deriv_matches _ _ _).2 h4, ?_⟩, ?_⟩
  · rw [step_append, step_cons h4]
  · intro r hr hmt
    obtain ⟨x, hx, rfl⟩ := step_mem hr
    exact h5 x hx ((Rx.deriv_matches _ _ _).1 hmt)
  · intro m' hm' hl r hr hmt
    obtain ⟨x, hx, rfl⟩ := step_mem hr
    refine h6 (m' + 1) (by omega) (by simpa using hl) x hx ?_
    rw [List.take_succ_cons]
    exact (Rx.deriv_matches _ _ _).1 hmt

/-- the loop of the lexer finds the longest match -/
theorem munch_longest : ∀ (s : Str) (live : List (Kind × Rx)) (n : Nat) (best : Option (Kind × Nat))
    (k : Kind) (m : Nat), Longest live s k m → munch live n best s = some (k, n + m)
  | [], _, _, _, _, m, h => by
    have := h.2.1
    have := h.1
    simp at *
    omega
  | c :: cs, live, n, best, k, m, h => by
    obtain ⟨m, rfl⟩ : ∃ j, m = j + 1 := ⟨m - 1, by have := h.1; omega⟩
    obtain ⟨-, h2, ⟨pre, post, rx, rfl, h4, h5⟩, h6⟩ := id h
    have hs : step (pre ++ (k, rx) :: post) c = step pre c ++ (k, rx.deriv c) :: step post c := by
      rw [step_append, step_cons (by rw [List.take_succ_cons] at h4; exact h4)]
    rw [munch]
    split
    · rename_i he
      rw [hs] at he
      simp at he
    · rename_i x xs hx
      by_cases hm : m = 0
      · subst hm
        have hf : (x :: xs).find? (fun y => y.2.nullable) = some (k, rx.deriv c) := by
          rw [← hx, hs, List.find?_append, List.find?_cons_of_pos]
          · rw [Option.or_eq_right_of_none]
            rw [List.find?_eq_none]
            intro y hy hn
            obtain ⟨z, hz, rfl⟩ := step_mem hy
            refine h5 z hz ?_
            simpa using (Rx.deriv_matches _ _ _).1 ((Rx.nullable_iff _).1 hn)
          · exact (Rx.nullable_iff _).2 ((Rx.deriv_matches _ _ _).2 (by simpa using h4))
        rw [hf]
        refine munch_done cs (x :: xs) (n + 1) _ fun y hy u hu hp hmt => ?_
        obtain ⟨z, hz, rfl⟩ := step_mem (hx ▸ hy)
        refine h6 (u.length + 1) ?_ ?_ z hz ?_
        · have := List.length_pos_iff.2 hu; omega
        · have := hp.length_le; simpa using this
        · rw [List.take_succ_cons, ← List.prefix_iff_eq_take.1 hp]
          exact (Rx.deriv_matches _ _ _).1 hmt
      · rw [munch_longest cs (x :: xs) (n + 1) _ k m (hx ▸ h.step (by omega))]
        congr 2
        omega

theorem rule_length : ∀ r ∈ rules, ¬ r.2.Matches [] := by
  intro r hr h
  have : rules.all (fun r => !r.2.nullable) = true := by decide +kernel
  have := List.all_eq_true.1 this r hr
  rw [(Rx.nullable_iff _).2 h] at this
  cases this

/-- the first of the elements that satisfy a condition -/
theorem first_of {α : Type} {p : α → Prop} {l : List α} (h : ∃ x ∈ l, p x) :
    ∃ a x b, l = a ++ x :: b ∧ p x ∧ ∀ y ∈ a, ¬ p y := by
  classical
  induction l with
  | nil => simp at h
  | cons y l ih =>
    by_cases hy : p y
    · exact ⟨[], y, l, rfl, hy, by simp⟩
    · obtain ⟨x, hx, hp⟩ := h
      obtain ⟨a, z, b, rfl, h1, h2⟩ := ih ⟨x, (List.mem_cons.1 hx).resolve_left (fun e => hy (e ▸ hp)), hp⟩
      exact ⟨y :: a, z, b, rfl, h1, by
        intro u hu
        rcases List.mem_cons.1 hu with rfl | hu
        exacts [hy, h2 u hu]⟩

/-- there is a longest match if there is a match -/
theorem longest_exists {rs : List (Kind × Rx)} {s u : Str} (hu : u ≠ []) (hp : u <+: s)
    (h : ∃ r ∈ rs, r.2.Matches u) : ∃ k m, Longest rs s k m := by
  classical
  let P : Nat → Prop := fun m => 0 < m ∧ m ≤ s.length ∧ ∃ r ∈ rs, r.2.Matches (s.take m)
  have hP : P u.length := ⟨List.length_pos_iff.2 hu, hp.length_le, by
    rw [← List.prefix_iff_eq_take.1 hp]; exact h⟩
  obtain ⟨h1, h2, h3⟩ := Nat.findGreatest_spec (P := P) (n := s.length) hp.length_le hP
  obtain ⟨pre, ⟨k, rx⟩, post, h4, h5, h6⟩ := first_of h3
  refine ⟨k, _, h1, h2, ⟨pre, post, rx, h4, h5, h6⟩, fun m' hm hl r hr hmt => ?_⟩
  have := Nat.le_findGreatest (P := P) hl ⟨by omega, hl, r, hr, hmt⟩
  omega

/-- **C88, one token.**  The lexer finds the longest match, with priority for earlier rules. -/
theorem C88_longest (s : Str) (k : Kind) (m : Nat) :
    munch rules 0 none s = some (k, m) ↔ Longest rules s k m := by
  constructor
  · intro h
    by_cases hx : ∃ u, u ≠ [] ∧ u <+: s ∧ ∃ r ∈ rules, r.2.Matches u
    · obtain ⟨u, hu, hp, hr⟩ := hx
      obtain ⟨k', m', hl⟩ := longest_exists hu hp hr
      rw [munch_longest s rules 0 none k' m' hl] at h
      simp only [Nat.zero_add, Option.some.injEq, Prod.mk.injEq] at h
      rw [← h.1, ← h.2]
      exact hl
    · rw [munch_done s rules 0 none fun x hxm u hu hp hm => hx ⟨u, hu, hp, x, hxm, hm⟩] at h
      cases h
  · intro h
    rw [munch_longest s rules 0 none k m h, Nat.zero_add]

theorem lexGo_divided {ts : List Tok} : ∀ (n : Nat) (gap s : Str), s.length ≤ n →
    (lexGo n gap s = some ts ↔ Divided gap s ts) := by
  intro n
  induction n generalizing ts with
  | zero =>
    intro gap s hs
    obtain rfl := List.eq_nil_of_length_eq_zero (Nat.le_zero.1 hs)
    rw [lexGo]
    constructor
    · intro h; cases h; exact .done
    · intro h
      cases h with
      | done => rfl
      | skip h => have := h.1; have := h.2.1; simp at *; omega
      | token h => have := h.1; have := h.2.1; simp at *; omega
  | succ n ih =>
    intro gap s hs
    cases s with
    | nil =>
      rw [lexGo]
      constructor
      · intro h; cases h; exact .done
      · intro h
        cases h with
        | done => rfl
        | skip h => have := h.1; have := h.2.1; simp at *; omega
        | token h => have := h.1; have := h.2.1; simp at *; omega
    | cons c cs =>
      have hd : ∀ {k m}, Longest rules (c :: cs) k m → ((c :: cs).drop m).length ≤ n := by
        intro k m h
        have := h.1
        simp only [List.length_drop, List.length_cons] at hs ⊢
        omega
      rw [lexGo]
      cases hm : munch rules 0 none (c :: cs) with
      | none =>
        simp only [reduceCtorEq, false_iff]
        intro h
        cases h with
        | skip h => rw [(C88_longest _ _ _).2 h] at hm; cases hm
        | token h => rw [(C88_longest _ _ _).2 h] at hm; cases hm
      | some x =>
        obtain ⟨k, m⟩ := x
        have hl := (C88_longest _ _ _).1 hm
        have hu : ∀ {k' m'}, Longest rules (c :: cs) k' m' → k' = k ∧ m' = m := by
          intro k' m' h
          rw [(C88_longest _ _ _).2 h] at hm
          simpa using hm
        simp only
        split
        · rename_i hk
          rw [ih _ _ (hd hl)]
          constructor
          · exact fun h => .skip hl (by simpa using hk) h
          · intro h
            cases h with
            | skip h1 _ h3 => obtain ⟨rfl, rfl⟩ := hu h1; exact h3
            | token h1 h2 _ => obtain ⟨rfl, rfl⟩ := hu h1; exact absurd (by simpa using hk) h2
        · rename_i hk
          rw [Option.map_eq_some_iff]
          constructor
          · rintro ⟨ts', h, rfl⟩
            exact .token hl (by simpa using hk) ((ih _ _ (hd hl)).1 h)
          · intro h
            cases h with
            | skip h1 h2 _ => obtain ⟨rfl, rfl⟩ := hu h1; exact absurd (by simpa using h2) hk
            | token h1 _ h3 =>
              obtain ⟨rfl, rfl⟩ := hu h1
              exact ⟨_, (ih _ _ (hd h1)).2 h3, rfl⟩

/-- **C88.**  The tokens of every text are those of the longest match from left to right; texts that
cannot be divided in this way are rejected. -/
theorem C88_tokens (s : Str) (ts : List Tok) : lex s = some ts ↔ Divided [] s ts :=
  lexGo_divided _ _ _ (Nat.le_refl _)

/-- Blanks and `\$`, which the lexer skips. -/
inductive Skipped : Str → Prop
  | nil : Skipped []
  | blank {c s} : c ∈ [' ', '\t', '\r', '\n'] → Skipped s → Skipped (c :: s)
  | dollar {s} : Skipped s → Skipped (s%"\\$" ++ s)

theorem Skipped.append {a b : Str} (ha : Skipped a) (hb : Skipped b) : Skipped (a ++ b) := by
  induction ha with
  | nil => exact hb
  | blank h _ ih => exact .blank h ih
  | dollar _ ih => rw [List.append_assoc]; exact .dollar ih

theorem blank_matches {u : Str} (h : (Rx.star (.chr wsChar)).Matches u) : Skipped u := by
  generalize hr : Rx.star (.chr wsChar) = r at h
  induction h with
  | lit | chr _ | seq _ _ | altL _ | altR _ => cases hr
  | starNil => exact .nil
  | starCons h1 _ _ ih =>
    cases hr
    cases h1 with
    | chr hc =>
      refine .blank ?_ (ih rfl)
      simp only [wsChar, Bool.or_eq_true, beq_iff_eq] at hc
      rcases hc with ((rfl | rfl) | rfl) | rfl <;> decide

theorem skip_matches {rx : Rx} {u : Str} {k : Kind} (hr : (k, rx) ∈ rules)
    (hk : k ∈ [Kind.WS, .DOLLAR_SIGN]) (h : rx.Matches u) : Skipped u := by
  have : (k, rx) ∈ rules.filter (fun r => decide (r.1 ∈ [Kind.WS, .DOLLAR_SIGN])) :=
    List.mem_filter.2 ⟨hr, by simpa using hk⟩
  have e : rules.filter (fun r => decide (r.1 ∈ [Kind.WS, .DOLLAR_SIGN])) =
      [(.WS, .plus (.chr wsChar)), (.DOLLAR_SIGN, .lit s%"\\$")] := rfl
  rw [e] at this
  simp only [List.mem_cons, Prod.mk.injEq, List.not_mem_nil, or_false] at this
  rcases this with ⟨-, rfl⟩ | ⟨-, rfl⟩
  · cases h with
    | @seq _ _ a b h1 h2 =>
      exact blank_matches (.starCons h1 h2)
  · cases h
    exact .dollar .nil

theorem Longest.rule {rs : List (Kind × Rx)} {s : Str} {k : Kind} {m : Nat} (h : Longest rs s k m) :
    ∃ rx, (k, rx) ∈ rs ∧ rx.Matches (s.take m) := by
  obtain ⟨-, -, ⟨pre, post, rx, rfl, h1, -⟩, -⟩ := h
  exact ⟨rx, by simp, h1⟩

theorem divided_text {gap s : Str} {ts : List Tok} (h : Divided gap s ts) (hg : Skipped gap) :
    (∃ e, gap ++ s = (ts.flatMap fun t => t.gap ++ t.text) ++ e ∧ Skipped e) ∧
      ∀ t ∈ ts, Skipped t.gap ∧ ∃ rx, (t.kind, rx) ∈ rules ∧ rx.Matches t.text := by
  induction h with
  | @done gap => exact ⟨⟨gap, by simp, hg⟩, by simp⟩
  | @skip gap s k m ts h1 h2 h3 ih =>
    obtain ⟨rx, h4, h5⟩ := h1.rule
    obtain ⟨⟨e, h6, h7⟩, h8⟩ := ih (hg.append (skip_matches h4 h2 h5))
    rw [List.append_assoc, List.take_append_drop] at h6
    exact ⟨⟨e, h6, h7⟩, h8⟩
  | @token gap s k m ts h1 h2 h3 ih =>
    obtain ⟨⟨e, h6, h7⟩, h8⟩ := ih .nil
    refine ⟨⟨e, ?_, h7⟩, ?_⟩
    · rw [List.flatMap_cons, List.append_assoc, List.append_assoc, ← h6,
        List.nil_append, List.take_append_drop]
    · intro t ht
      rcases List.mem_cons.1 ht with rfl | ht
      · exact ⟨hg, h1.rule⟩
      · exact h8 t ht

/-- **C88, nothing is lost.**  The text is the concatenation of the texts of its tokens, with only blanks
and `\$` between them, and the text of every token is one that its rule matches. -/
theorem C88_text {s : Str} {ts : List Tok} (h : lex s = some ts) :
    (∃ e, s = (ts.flatMap fun t => t.gap ++ t.text) ++ e ∧ Skipped e) ∧
      ∀ t ∈ ts, Skipped t.gap ∧ ∃ rx, (t.kind, rx) ∈ rules ∧ rx.Matches t.text := by
  simpa using divided_text ((C88_tokens s ts).1 h) .nil

/-- `3\leqslant x` has three tokens: `\leqslant` is longer than `\le` and `\leq`. -/
example : lex s%"3\\leqslant x" = some [⟨.DIGIT, s%"3", []⟩, ⟨.LTE, s%"\\leqslant", []⟩,
    ⟨.LETTER_NO_E, s%"x", s%" "⟩] := by kernel_rfl

/-- `dx` is one token, although `d` and `x` are tokens, and `matrix` is found by an earlier rule than
`MATRIX_TYPES`. -/
example : Longest rules s%"dx+1" .DIFFERENTIAL 2 ∧ Longest rules s%"matrix" .MATRIX_TYPE_MATRIX 6 :=
  ⟨(C88_longest _ _ _).1 (by kernel_rfl), (C88_longest _ _ _).1 (by kernel_rfl)⟩

end Verif.Grammar
