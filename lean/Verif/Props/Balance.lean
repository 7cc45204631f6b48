import Verif.Props.LexSpec
import Verif.Props.GrammarNest
/-
Only texts with balanced brackets are accepted (C89).
-/

namespace Verif.Grammar
open Verif Verif.L2S

/-! ### Specification -/

/-- `1` for an opening bracket, `-1` for a closing one -/
def level (c : Char) : Int :=
  if c ∈ ['(', '[', '{'] then 1 else if c ∈ [')', ']', '}'] then -1 else 0

/-- opening minus closing brackets -/
def levels (s : Str) : Int := (s.map level).sum

/-- As many brackets are closed as opened, and none is closed before it is opened. -/
def EvenText (s : Str) : Prop := levels s = 0 ∧ ∀ u, u <+: s → 0 ≤ levels u

/-! ### Texts of tokens -/

theorem levels_append (a b : Str) : levels (a ++ b) = levels a + levels b := by
  simp [levels]

/-- the text has this level, and its beginnings do not go below it or zero -/
def Ends' (s : Str) (x : Int) : Prop := levels s = x ∧ ∀ u, u <+: s → min 0 x ≤ levels u

/-- the level of the texts that an expression matches -/
def Rx.level : Rx → Option Int
  | .none => Option.none
  | .lit s => if (List.range (s.length + 1)).all (fun i => decide (min 0 (levels s) ≤ levels (s.take i))) then some (levels s) else Option.none
  | .chr p => if p '(' || p '[' || p '{' || p ')' || p ']' || p '}' then Option.none else some 0
  | .seq a b => match a.level, b.level with
    | some x, some y => if 0 ≤ x ∨ y ≤ 0 then some (x + y) else Option.none
    | _, _ => Option.none
  | .alt a b => match a.level, b.level with
    | some x, some y => if x = y then some x else Option.none
    | _, _ => Option.none
  | .star r => if r.level = some 0 then some 0 else Option.none

theorem prefix_append {a b u : Str} (h : u <+: a ++ b) : u <+: a ∨ ∃ w, u = a ++ w ∧ w <+: b := by
  obtain ⟨v, h⟩ := h
  rcases List.append_eq_append_iff.1 h with ⟨w, h1, h2⟩ | ⟨w, h1, h2⟩
  · exact .inl ⟨w, h1.symm⟩
  · exact .inr ⟨w, h1, ⟨v, h2.symm⟩⟩

theorem Ends'.append {u v : Str} {x y : Int} (hu : Ends' u x) (hv : Ends' v y) (h : 0 ≤ x ∨ y ≤ 0) :
    Ends' (u ++ v) (x + y) := by
  refine ⟨by rw [levels_append, hu.1, hv.1], fun w hw => ?_⟩
  rcases prefix_append hw with hw | ⟨w', rfl, hw'⟩
  · have := hu.2 w hw
    omega
  · have := hv.2 w' hw'
    rw [levels_append, hu.1]
    omega

theorem rx_level {rx : Rx} {s : Str} (h : rx.Matches s) : ∀ {x : Int}, rx.level = some x → Ends' s x := by
  induction h with
  | @lit s =>
    intro x hx
    rw [Rx.level] at hx
    split at hx
    · rename_i hs
      cases hx
      refine ⟨rfl, fun u hu => ?_⟩
      have := List.all_eq_true.1 hs u.length (by
        have := hu.length_le
        simp only [List.mem_range]; omega)
      rw [← List.prefix_iff_eq_take.1 hu] at this
      simpa using this
    · cases hx
  | @chr p c hc =>
    intro x hx
    rw [Rx.level] at hx
    split at hx
    · cases hx
    · rename_i hp
      cases hx
      have h0 : level c = 0 := by
        unfold level
        rw [if_neg, if_neg]
        · intro hm
          simp only [List.mem_cons, List.not_mem_nil, or_false] at hm
          rcases hm with rfl | rfl | rfl <;> simp [hc] at hp
        · intro hm
          simp only [List.mem_cons, List.not_mem_nil, or_false] at hm
          rcases hm with rfl | rfl | rfl <;> simp [hc] at hp
      refine ⟨by simp [levels, h0], fun u hu => ?_⟩
      rcases List.prefix_cons_iff.1 hu with rfl | ⟨t, rfl, ht⟩
      · simp [levels]
      · rw [List.prefix_nil.1 ht]; simp [levels, h0]
  | @seq a b u v _ _ iha ihb =>
    intro x hx
    rw [Rx.level] at hx
    split at hx
    · rename_i y z hy hz
      split at hx
      · rename_i hyz
        cases hx
        exact (iha hy).append (ihb hz) hyz
      · cases hx
    · cases hx
  | altL _ ih =>
    intro x hx
    rw [Rx.level] at hx
    split at hx
    · rename_i y z hy hz
      split at hx
      · cases hx; exact ih hy
      · cases hx
    · cases hx
  | altR _ ih =>
    intro x hx
    rw [Rx.level] at hx
    split at hx
    · rename_i y z hy hz
      split at hx
      · rename_i e; cases hx; exact ih (e ▸ hz)
      · cases hx
    · cases hx
  | starNil =>
    intro x hx
    rw [Rx.level] at hx
    split at hx
    · cases hx
      exact ⟨rfl, fun u hu => by rw [List.prefix_nil.1 hu]; simp [levels]⟩
    · cases hx
  | starCons _ _ ih1 ih2 =>
    intro x hx
    have hx' := hx
    rw [Rx.level] at hx
    split at hx
    · rename_i h0
      cases hx
      exact (ih1 h0).append (ih2 hx') (.inl (by omega))
    · cases hx

/-- the level of a token -/
def kindLevel (k : Kind) : Int := if k ∈ deeperKinds then 1 else if k ∈ higherKinds then -1 else 0

theorem rules_level : rules.all (fun r => decide (r.2.level = some (kindLevel r.1))) = true := by
  decide +kernel

theorem rule_level {k : Kind} {rx : Rx} {s : Str} (hr : (k, rx) ∈ rules) (h : rx.Matches s) :
    Ends' s (kindLevel k) := by
  have := List.all_eq_true.1 rules_level _ hr
  exact rx_level h (of_decide_eq_true this)

theorem skipped_level {s : Str} (h : Skipped s) : Ends' s 0 := by
  induction h with
  | nil => exact ⟨rfl, fun u hu => by rw [List.prefix_nil.1 hu]; simp [levels]⟩
  | @blank c s hc _ ih =>
    refine Ends'.append (u := [c]) ⟨?_, fun u hu => ?_⟩ ih (.inl (Int.le_refl _))
    · simp only [List.mem_cons, List.not_mem_nil, or_false] at hc
      rcases hc with rfl | rfl | rfl | rfl <;> decide
    · rcases List.prefix_cons_iff.1 hu with rfl | ⟨t, rfl, ht⟩
      · simp [levels]
      · rw [List.prefix_nil.1 ht]
        simp only [List.mem_cons, List.not_mem_nil, or_false] at hc
        rcases hc with rfl | rfl | rfl | rfl <;> decide
  | @dollar s _ ih =>
    refine Ends'.append (u := s%"\\$") (rx_level .lit (by decide +kernel)) ih (.inl (Int.le_refl _))

/-! ### Phrases -/

/-- the depth of brackets after the tokens; none for a closing bracket too much -/
def sink : Nat → List Tok → Option Nat
  | n, [] => some n
  | n, t :: ts =>
    if t.kind ∈ deeperKinds then sink (n + 1) ts
    else if t.kind ∈ higherKinds then match n with
      | 0 => none
      | m + 1 => sink m ts
    else sink n ts

theorem sink_append {us : List Tok} : ∀ {n m : Nat} (_ : sink n us = some m) (vs : List Tok),
    sink n (us ++ vs) = sink m vs := by
  induction us with
  | nil => intro n m h vs; rw [sink] at h; rw [← Option.some.inj h]; rfl
  | cons t us ih =>
    intro n m h vs
    rw [List.cons_append]
    rw [sink.eq_def] at h ⊢
    simp only at h ⊢
    split at h
    · rename_i h1; rw [if_pos h1]; exact ih h vs
    · rename_i h1
      rw [if_neg h1]
      split at h
      · rename_i h2
        rw [if_pos h2]
        cases n with
        | zero => cases h
        | succ n => exact ih h vs
      · rename_i h2
        rw [if_neg h2]
        exact ih h vs

theorem walk_sink : ∀ {us : List Tok} {n m : Nat}, walk n us = some m → sink n us = some m := by
  intro us
  induction us with
  | nil => intro n m h; exact h
  | cons t us ih =>
    intro n m h
    rw [walk.eq_def] at h
    rw [sink.eq_def]
    simp only at h ⊢
    split at h
    · rename_i h1; rw [if_pos h1]; exact ih h
    · rename_i h1
      rw [if_neg h1]
      split at h
      · rename_i h2
        rw [if_pos h2]
        cases n with
        | zero => cases h
        | succ n => exact ih h
      · rename_i h2
        rw [if_neg h2]
        split at h
        · cases h
        · split at h
          · cases h
          · exact ih h

/-- the parses lead from depth `a` to depth `b` -/
def Sinks {α : Type} (p : P α) (a b : Nat) : Prop := ∀ ts x, x ∈ p ts → ∃ us, ts = us ++ x.2 ∧
  ∀ n, sink (n + a) us = some (n + b)

section
variable {α β : Type}

theorem Moves.sinks {p : P α} {a b : Nat} (h : Moves p a b) : Sinks p a b := fun ts x hx => by
  obtain ⟨us, h1, h2⟩ := h ts x hx
  exact ⟨us, h1, fun n => walk_sink (h2 n)⟩

theorem Sinks.pure {v : α} {a : Nat} : Sinks (pure v) a a := Moves.pure.sinks

theorem Sinks.bind {p : P α} {f : α → P β} {a b c : Nat} (h : Sinks p a b)
    (k : ∀ x, Sinks (f x) b c) : Sinks (p >>= f) a c := fun ts x hx => by
  rw [P.bind_run, List.mem_flatMap] at hx
  obtain ⟨y, hy, hx⟩ := hx
  obtain ⟨us, h1, h2⟩ := h ts y hy
  obtain ⟨vs, h3, h4⟩ := k y.1 y.2 x hx
  refine ⟨us ++ vs, by rw [h1, h3, List.append_assoc], fun n => ?_⟩
  rw [sink_append (h2 n), h4]

theorem Sinks.or {p q : P α} {a b : Nat} (h : Sinks p a b) (k : Sinks q a b) : Sinks (P.or p q) a b :=
  fun ts x hx => (List.mem_append.1 hx).elim (h ts x) (k ts x)

theorem Sinks.tk {k : Kind} {a b : Nat} (h : ∀ t : Tok, t.kind = k → ∀ n, sink (n + a) [t] = some (n + b)) :
    Sinks (tk k) a b := fun ts x hx => by
  cases ts with
  | nil => simp [Grammar.tk] at hx
  | cons t ts =>
    rw [Grammar.tk] at hx
    split at hx
    · rename_i ht
      rw [List.mem_singleton.1 hx]
      exact ⟨[t], rfl, h t ht⟩
    · simp at hx

theorem Sinks.plain {k : Kind} (h : k ∉ deeperKinds ∧ k ∉ higherKinds) {a : Nat} : Sinks (Grammar.tk k) a a :=
  .tk fun t ht n => by rw [sink.eq_def]; simp only [ht, if_neg h.1, if_neg h.2]; rfl

theorem Sinks.open {k : Kind} (h : k ∈ deeperKinds) {a : Nat} : Sinks (Grammar.tk k) a (a + 1) :=
  .tk fun t ht n => by rw [sink.eq_def]; simp only [ht, if_pos h]; rfl

theorem Sinks.close {k : Kind} (h : k ∉ deeperKinds ∧ k ∈ higherKinds) {a : Nat} :
    Sinks (Grammar.tk k) (a + 1) a :=
  .tk fun t ht n => by
    rw [sink.eq_def]
    simp only [ht, if_neg h.1, if_pos h.2]
    rfl

theorem Sinks.lift {p : P α} (h : Sinks p 0 0) {a : Nat} : Sinks p a a := fun ts x hx => by
  obtain ⟨us, h1, h2⟩ := h ts x hx
  exact ⟨us, h1, fun n => h2 (n + a)⟩

theorem Sinks.many {p : P α} {a : Nat} (h : Sinks p a a) : Sinks (P.many p) a a := by
  have go : ∀ n, Sinks (P.manyGo p n) a a := by
    intro n
    induction n with
    | zero => exact .pure
    | succ n ih =>
      rw [manyGo_eq]
      exact (h.bind fun _ => ih.bind fun _ => .pure).or .pure
  exact fun ts x hx => go ts.length ts x hx

theorem Sinks.choice {ps : List (P α)} {a b : Nat} (h : ∀ p ∈ ps, Sinks p a b) : Sinks (P.choice ps) a b := by
  induction ps with
  | nil => intro ts x hx; cases hx
  | cons p ps ih =>
    exact Sinks.or (h p (by simp)) (ih fun q hq => h q (by simp [hq]))

theorem relationItems_sinks (n : Nat) : Sinks (relationItems n) 0 0 := by
  refine Sinks.choice fun p hp => ?_
  simp only [List.map_cons, List.map_nil, List.mem_cons, List.not_mem_nil, or_false] at hp
  have hr := (relation_moves n).sinks
  rcases hp with rfl | rfl
  · exact hr.bind fun _ => (Sinks.plain (by decide)).bind fun _ => hr.bind fun _ =>
      (Sinks.many ((Sinks.plain (by decide)).bind fun _ => hr)).bind fun _ => .pure
  · exact hr.bind fun _ => (Sinks.plain (by decide)).bind fun _ => hr.bind fun _ =>
      (Sinks.many ((Sinks.plain (by decide)).bind fun _ => hr)).bind fun _ => .pure

theorem toks_sinks {l : List Kind} {a b : Nat} (h : ∀ ts : List Tok, ts.map (·.kind) = l →
    ∀ n, sink (n + a) ts = some (n + b)) : Sinks (l.foldlM (fun _ k => do
      let _ ← tk k
      pure ()) () : P Unit) a b := by
  intro ts x hx
  have key : ∀ (l : List Kind) (ts : List Tok), x ∈ (l.foldlM (fun _ k => do
      let _ ← tk k
      pure ()) () : P Unit) ts → ∃ us, ts = us ++ x.2 ∧ us.map (·.kind) = l := by
    intro l
    induction l with
    | nil =>
      intro ts hx
      simp only [List.foldlM_nil, P.pure_run, List.mem_singleton] at hx
      subst hx
      exact ⟨[], rfl, rfl⟩
    | cons k l ih =>
      intro ts hx
      simp only [List.foldlM_cons, P.bind_run, P.pure_run] at hx
      cases ts with
      | nil => simp [tk] at hx
      | cons t ts =>
        rw [tk] at hx
        split at hx
        · rename_i hk
          simp only [List.flatMap_cons, List.flatMap_nil, List.append_nil] at hx
          obtain ⟨t0, h1, h2⟩ := ih _ hx
          exact ⟨t :: t0, by rw [h1]; rfl, by simp [hk, h2]⟩
        · simp at hx
  obtain ⟨us, h1, h2⟩ := key l ts hx
  exact ⟨us, h1, h us h2⟩

theorem itemsBetween_sinks {n : Nat} {l r : List Kind}
    (hl : ∀ ts : List Tok, ts.map (·.kind) = l → ∀ n, sink (n + 0) ts = some (n + 1))
    (hr : ∀ ts : List Tok, ts.map (·.kind) = r → ∀ n, sink (n + 1) ts = some (n + 0)) :
    Sinks (itemsBetween n l r) 0 0 :=
  (toks_sinks hl).bind fun _ => (relationItems_sinks n).lift.bind fun _ => (toks_sinks hr).bind fun _ => .pure

theorem opens_one {k : Kind} (h : k ∈ deeperKinds) (ts : List Tok) (ht : ts.map (·.kind) = [k]) (n : Nat) :
    sink (n + 0) ts = some (n + 1) := by
  obtain ⟨u, rfl, hu⟩ := List.map_eq_singleton_iff.1 ht
  rw [sink.eq_def]
  simp only [hu, if_pos h]
  rfl

theorem closes_one {k : Kind} (h : k ∉ deeperKinds ∧ k ∈ higherKinds) (ts : List Tok)
    (ht : ts.map (·.kind) = [k]) (n : Nat) : sink (n + 1) ts = some (n + 0) := by
  obtain ⟨u, rfl, hu⟩ := List.map_eq_singleton_iff.1 ht
  rw [sink.eq_def]
  simp only [hu, if_neg h.1, if_pos h.2]
  rfl

theorem opens_two {j k : Kind} (hj : j ∉ deeperKinds ∧ j ∉ higherKinds) (h : k ∈ deeperKinds) (ts : List Tok)
    (ht : ts.map (·.kind) = [j, k]) (n : Nat) : sink (n + 0) ts = some (n + 1) := by
  obtain ⟨u, ts, rfl, hu, ht⟩ := List.map_eq_cons_iff.1 ht
  rw [sink.eq_def]
  simp only [hu, if_neg hj.1, if_neg hj.2]
  exact opens_one h ts ht n

theorem closes_two {j k : Kind} (hj : j ∉ deeperKinds ∧ j ∉ higherKinds)
    (h : k ∉ deeperKinds ∧ k ∈ higherKinds) (ts : List Tok)
    (ht : ts.map (·.kind) = [j, k]) (n : Nat) : sink (n + 1) ts = some (n + 0) := by
  obtain ⟨u, ts, rfl, hu, ht⟩ := List.map_eq_cons_iff.1 ht
  rw [sink.eq_def]
  simp only [hu, if_neg hj.1, if_neg hj.2]
  exact closes_one h ts ht n

theorem math_sinks (n : Nat) : Sinks (math n) 0 0 := by
  refine Sinks.or ((relation_moves n).sinks.bind fun _ => .pure) (Sinks.bind ?_ fun _ => .pure)
  refine Sinks.choice fun p hp => ?_
  simp only [List.mem_cons, List.not_mem_nil, or_false] at hp
  rcases hp with rfl | rfl | rfl | rfl | rfl | rfl | rfl | rfl
  · exact relationItems_sinks n
  · exact itemsBetween_sinks (opens_one (by decide)) (closes_one (by decide))
  · exact itemsBetween_sinks (opens_one (by decide)) (closes_one (by decide))
  · exact itemsBetween_sinks (opens_one (by decide)) (closes_one (by decide))
  all_goals exact itemsBetween_sinks (opens_two (by decide) (by decide)) (closes_two (by decide) (by decide))

end

theorem sink_levels : ∀ {ts : List Tok} {n m : Nat}, (∀ t ∈ ts, Ends' t.gap 0 ∧ Ends' t.text (kindLevel t.kind)) →
    sink n ts = some m → levels (ts.flatMap fun t => t.gap ++ t.text) = m - n ∧
      ∀ u, u <+: (ts.flatMap fun t => t.gap ++ t.text) → -(n : Int) ≤ levels u := by
  intro ts
  induction ts with
  | nil =>
    intro n m _ h
    rw [sink] at h
    cases h
    refine ⟨by simp [levels], fun u hu => ?_⟩
    rw [List.prefix_nil.1 hu]
    simp [levels]
  | cons t ts ih =>
    intro n m ht h
    obtain ⟨h1, h2⟩ := ht t (by simp)
    have h3 : Ends' (t.gap ++ t.text) (kindLevel t.kind) := by
      have := h1.append h2 (.inl (Int.le_refl _))
      rwa [Int.zero_add] at this
    have step : ∀ n' : Nat, sink n' ts = some m → (n' : Int) = n + kindLevel t.kind →
        levels ((t :: ts).flatMap fun t => t.gap ++ t.text) = m - n ∧
        ∀ u, u <+: ((t :: ts).flatMap fun t => t.gap ++ t.text) → -(n : Int) ≤ levels u := by
      intro n' hd hn
      obtain ⟨e1, e2⟩ := ih (fun t ht' => ht t (by simp [ht'])) hd
      rw [List.flatMap_cons]
      refine ⟨by rw [levels_append, h3.1, e1]; omega, fun u hu => ?_⟩
      rcases prefix_append hu with hu | ⟨w', rfl, hu'⟩
      · have := h3.2 u hu
        omega
      · have := e2 w' hu'
        rw [levels_append, h3.1]
        omega
    rw [sink.eq_def] at h
    simp only at h
    split at h
    · rename_i hk
      exact step (n + 1) h (by rw [kindLevel, if_pos hk]; omega)
    · rename_i hk
      split at h
      · rename_i hk'
        cases n with
        | zero => cases h
        | succ n => exact step n h (by rw [kindLevel, if_neg hk, if_pos hk']; omega)
      · rename_i hk'
        exact step n h (by rw [kindLevel, if_neg hk, if_neg hk']; omega)

theorem mem_math {ts : List Tok} {t : MathTree} (h : parseTokens ts = some t) :
    (t, []) ∈ math (4 * ts.length + 4) ts := by
  rw [parseTokens, Option.map_eq_some_iff] at h
  obtain ⟨⟨x, r⟩, hx, rfl⟩ := h
  have hx2 : r = [] := by simpa using List.find?_some hx
  exact hx2 ▸ List.mem_of_find?_eq_some hx

theorem even_tokens {ts : List Tok} {t : MathTree} {n : Nat}
    (hk : ∀ t ∈ ts, Skipped t.gap ∧ ∃ rx, (t.kind, rx) ∈ rules ∧ rx.Matches t.text)
    (h : (t, []) ∈ math n ts) : EvenText (ts.flatMap fun t => t.gap ++ t.text) := by
  obtain ⟨us, h1, h2⟩ := math_sinks _ ts _ h
  rw [List.append_nil] at h1
  subst h1
  obtain ⟨e1, e2⟩ := sink_levels (fun t ht => by
    obtain ⟨h3, rx, h4, h5⟩ := hk t ht
    exact ⟨skipped_level h3, rule_level h4 h5⟩) (h2 0)
  exact ⟨by simpa using e1, fun u hu => by simpa using e2 u hu⟩

/-- **C89.**  The parser accepts only texts with balanced brackets. -/
theorem C89_accepted {s : Str} {t : MathTree} (h : parseText s = some t) : EvenText s := by
  rw [parseText, Option.bind_eq_some_iff] at h
  obtain ⟨ts, hl, hp⟩ := h
  obtain ⟨⟨e, rfl, he⟩, hk⟩ := C88_text hl
  obtain ⟨e1, e2⟩ := even_tokens hk (mem_math hp)
  obtain ⟨f1, f2⟩ := skipped_level he
  refine ⟨by rw [levels_append, e1, f1]; simp, fun u hu => ?_⟩
  rcases prefix_append hu with hu | ⟨w', rfl, hu'⟩
  · simpa using e2 u hu
  · have := f2 w' hu'
    rw [levels_append, e1]
    simpa using this

/-- `(x+1))` is not balanced, also after preparation; neither is `)x(`, with as many brackets of both
kinds.  `(x+1)` is accepted. -/
example : ¬ EvenText (prepare s%"(x+1))") ∧ ¬ EvenText s%")x(" ∧
    parseText s%"(x+1)" = some (.one (.juxt [.group (.add (.juxt [.name (.letter s%"x") none none])
      (.juxt [.number s%"1"]))])) := by
  refine ⟨fun h => ?_, fun h => ?_, by kernel_rfl⟩
  · rw [show prepare s%"(x+1))" = s%"(x+1))" by decide +kernel] at h
    exact absurd h.1 (by decide +kernel)
  · exact absurd (h.2 s%")" ⟨s%"x(", rfl⟩) (by decide +kernel)

/-- **C89 is violated** by the preparation of the text: `\left[\begin{matrix}` loses its bracket, so the
unbalanced `\left[\begin{matrix}1\end{matrix}` is read as a matrix. -/
theorem C89_refuted : ¬ EvenText s%"\\left[\\begin{matrix}1\\end{matrix}" ∧
    parseText (prepare s%"\\left[\\begin{matrix}1\\end{matrix}") =
      some (.one (.juxt [.matrix [[.juxt [.number s%"1"]]] []])) := by
  refine ⟨fun h => absurd h.1 (by decide +kernel), ?_⟩
  rw [show prepare s%"\\left[\\begin{matrix}1\\end{matrix}" = s%"\\begin{bmatrix}1\\end{matrix}" by decide +kernel]
  kernel_rfl

/-- **The kinds of brackets need not agree**: `f(1]` is read as `f(1)`. -/
theorem C89_kinds_refuted : parseText s%"f(1]" = parseText s%"f(1)" ∧
    parseText s%"f(1]" = some (.one (.juxt [.fnApply s%"f" s%"1" none])) := by
  constructor <;> kernel_rfl

end Verif.Grammar
