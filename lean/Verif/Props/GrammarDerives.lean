import Verif.Spec.PSGrammar
import Verif.Props.GrammarLocal
/-
The parser accepts exactly the language of the grammar (C91).
-/

namespace Verif.Grammar
open Verif Verif.L2S Verif.PS

variable {α β : Type}

/-! ### Derivations -/

/-- phrases of this form have tokens, as far as the form tells -/
def solid : E → Bool
  | .tok _ => true
  | .rule _ => true
  | .seq a b => solid a || solid b
  | .alt a b => solid a && solid b
  | .opt _ => false
  | .star _ => false
  | .plus a => solid a

theorem solid_rule (x : R) : solid (grammar x) = true := by
  cases x <;> rfl

theorem derives_solid {e : E} {w : List Kind} (h : Derives e w) : solid e = true → 1 ≤ w.length := by
  induction h with
  | tok => intro _; exact Nat.le_refl _
  | rule _ ih => intro _; exact ih (solid_rule _)
  | seq _ _ ih1 ih2 =>
    intro hs
    rw [solid, Bool.or_eq_true] at hs
    rw [List.length_append]
    rcases hs with hs | hs
    · have := ih1 hs; omega
    · have := ih2 hs; omega
  | left _ ih => intro hs; rw [solid, Bool.and_eq_true] at hs; exact ih hs.1
  | right _ ih => intro hs; rw [solid, Bool.and_eq_true] at hs; exact ih hs.2
  | none => intro hs; cases hs
  | some => intro hs; cases hs
  | nil => intro hs; cases hs
  | cons => intro hs; cases hs
  | plus _ _ ih1 _ =>
    intro hs
    rw [solid] at hs
    have := ih1 hs
    rw [List.length_append]
    omega

theorem derives_rule {x : R} {w : List Kind} : Derives (.rule x) w ↔ Derives (grammar x) w :=
  ⟨fun h => by cases h with | rule h => exact h, .rule⟩

theorem derives_seq {a b : E} {w : List Kind} :
    Derives (.seq a b) w ↔ ∃ u v, w = u ++ v ∧ Derives a u ∧ Derives b v :=
  ⟨fun h => by cases h with | seq h k => exact ⟨_, _, rfl, h, k⟩, fun ⟨_, _, e, h, k⟩ => e ▸ .seq h k⟩

theorem derives_alt {a b : E} {w : List Kind} : Derives (.alt a b) w ↔ Derives a w ∨ Derives b w :=
  ⟨fun h => by
    cases h with
    | left h => exact .inl h
    | right h => exact .inr h, fun h => h.elim .left .right⟩

theorem derives_opt {a : E} {w : List Kind} : Derives (.opt a) w ↔ w = [] ∨ Derives a w :=
  ⟨fun h => by
    cases h with
    | none => exact .inl rfl
    | some h => exact .inr h, fun h => h.elim (fun h => h ▸ .none) .some⟩

theorem derives_plus {a : E} {w : List Kind} :
    Derives (.plus a) w ↔ ∃ u v, w = u ++ v ∧ Derives a u ∧ Derives (.star a) v :=
  ⟨fun h => by cases h with | plus h k => exact ⟨_, _, rfl, h, k⟩, fun ⟨_, _, e, h, k⟩ => e ▸ .plus h k⟩

theorem derives_star {a : E} {w : List Kind} :
    Derives (.star a) w ↔ w = [] ∨ ∃ u v, w = u ++ v ∧ Derives a u ∧ Derives (.star a) v :=
  ⟨fun h => by
    cases h with
    | nil => exact .inl rfl
    | cons h k => exact .inr ⟨_, _, rfl, h, k⟩, fun h => by
    rcases h with h | ⟨_, _, e, h, k⟩
    · exact h ▸ .nil
    · exact e ▸ .cons h k⟩

/-- two forms with the same phrases -/
def Alike (a b : E) : Prop := ∀ w, Derives a w ↔ Derives b w

theorem Alike.refl (a : E) : Alike a a := fun _ => Iff.rfl

theorem Alike.trans {a b c : E} (h : Alike a b) (k : Alike b c) : Alike a c :=
  fun w => (h w).trans (k w)

theorem Alike.symm {a b : E} (h : Alike a b) : Alike b a := fun w => (h w).symm

theorem Alike.assoc (a b c : E) : Alike (.seq (.seq a b) c) (.seq a (.seq b c)) := fun w => by
  constructor
  · intro h
    obtain ⟨u, v, rfl, h, h3⟩ := derives_seq.1 h
    obtain ⟨u1, u2, rfl, h1, h2⟩ := derives_seq.1 h
    rw [List.append_assoc]
    exact .seq h1 (.seq h2 h3)
  · intro h
    obtain ⟨u, v, rfl, h1, h⟩ := derives_seq.1 h
    obtain ⟨u1, u2, rfl, h2, h3⟩ := derives_seq.1 h
    rw [← List.append_assoc]
    exact .seq (.seq h1 h2) h3

theorem Alike.seq {a b c d : E} (h : Alike a b) (k : Alike c d) : Alike (.seq a c) (.seq b d) := fun w => by
  rw [derives_seq, derives_seq]
  simp only [h _, k _]

theorem Alike.altAssoc (a b c : E) : Alike (.alt (.alt a b) c) (.alt a (.alt b c)) := fun w => by
  simp only [derives_alt, or_assoc]

theorem Alike.alt {a b c d : E} (h : Alike a b) (k : Alike c d) : Alike (.alt a c) (.alt b d) := fun w => by
  rw [derives_alt, derives_alt, h, k]

theorem Alike.rule (x : R) : Alike (.rule x) (grammar x) := fun _ => derives_rule

theorem star_append {a : E} {u v : List Kind} (h : Derives (.star a) u) (k : Derives (.star a) v) :
    Derives (.star a) (u ++ v) := by
  generalize he : E.star a = e at h
  induction h with
  | nil => cases he; exact k
  | cons h _ _ ih =>
    rw [List.append_assoc]
    cases he
    exact .cons h (ih rfl)
  | _ => cases he

/-- a rule of the form `x: x o x | b` -/
theorem Alike.chain {x : R} {o b : E} (hx : grammar x = .alt (.seq (.rule x) (.seq o (.rule x))) b) :
    Alike (.rule x) (.seq b (.star (.seq o b))) := fun w => by
  constructor
  · generalize hn : w.length = n
    induction n using Nat.strongRecOn generalizing w with
    | _ n ih =>
      intro h
      rw [derives_rule, hx, derives_alt] at h
      rcases h with h | h
      · obtain ⟨u, w', rfl, h1, h⟩ := derives_seq.1 h
        obtain ⟨o', v, rfl, h2, h3⟩ := derives_seq.1 h
        have l1 := derives_solid h1 rfl
        have l3 := derives_solid h3 rfl
        simp only [List.length_append] at hn
        have k1 := ih _ (by omega) u rfl h1
        have k3 := ih _ (by omega) v rfl h3
        obtain ⟨u1, u2, rfl, k1, k2⟩ := derives_seq.1 k1
        obtain ⟨v1, v2, rfl, k3, k4⟩ := derives_seq.1 k3
        rw [List.append_assoc]
        refine .seq k1 (star_append k2 ?_)
        rw [← List.append_assoc o']
        exact .cons (.seq h2 k3) k4
      · have := Derives.seq h (Derives.nil (a := .seq o b))
        rwa [List.append_nil] at this
  · have base : ∀ v, Derives b v → Derives (.rule x) v := fun v h => .rule (hx ▸ .right h)
    have key : ∀ e v, Derives e v → e = .star (.seq o b) → ∀ u, Derives (.rule x) u →
        Derives (.rule x) (u ++ v) := by
      intro e v h
      induction h with
      | nil => intro _ u hu; rwa [List.append_nil]
      | @cons a u' v' h _ _ ih =>
        intro he u hu
        cases he
        obtain ⟨o', v1, rfl, h1, h2⟩ := derives_seq.1 h
        rw [← List.append_assoc]
        refine ih rfl _ (.rule (hx ▸ .left (.seq hu (.seq h1 (base _ h2)))))
      | _ => intro he; cases he
    intro h
    obtain ⟨u, v, rfl, h1, h2⟩ := derives_seq.1 h
    exact key _ _ h2 rfl u (base _ h1)

/-- a rule of the form `x: x s | b` -/
theorem Alike.tail {x : R} {s b : E} (hs : solid s = true) (hx : grammar x = .alt (.seq (.rule x) s) b) :
    Alike (.rule x) (.seq b (.star s)) := fun w => by
  constructor
  · generalize hn : w.length = n
    induction n using Nat.strongRecOn generalizing w with
    | _ n ih =>
      intro h
      rw [derives_rule, hx, derives_alt] at h
      rcases h with h | h
      · obtain ⟨u, v, rfl, h1, h2⟩ := derives_seq.1 h
        have l2 := derives_solid h2 hs
        simp only [List.length_append] at hn
        have k1 := ih _ (by omega) u rfl h1
        obtain ⟨u1, u2, rfl, k1, k2⟩ := derives_seq.1 k1
        rw [List.append_assoc]
        refine .seq k1 (star_append k2 ?_)
        have := Derives.cons h2 .nil
        rwa [List.append_nil] at this
      · have := Derives.seq h (Derives.nil (a := s))
        rwa [List.append_nil] at this
  · have base : ∀ v, Derives b v → Derives (.rule x) v := fun v h => .rule (hx ▸ .right h)
    have key : ∀ e v, Derives e v → e = .star s → ∀ u, Derives (.rule x) u →
        Derives (.rule x) (u ++ v) := by
      intro e v h
      induction h with
      | nil => intro _ u hu; rwa [List.append_nil]
      | @cons a u' v' h _ _ ih =>
        intro he u hu
        cases he
        rw [← List.append_assoc]
        exact ih rfl _ (.rule (hx ▸ .left (.seq hu h)))
      | _ => intro he; cases he
    intro h
    obtain ⟨u, v, rfl, h1, h2⟩ := derives_seq.1 h
    exact key _ _ h2 rfl u (base _ h1)

/-! ### Parsers for forms -/

/-- the token types -/
def kinds (ts : List Tok) : List Kind := ts.map (·.kind)

theorem kinds_append (a b : List Tok) : kinds (a ++ b) = kinds a ++ kinds b := List.map_append

theorem kinds_length (a : List Tok) : (kinds a).length = a.length := List.length_map ..

theorem kinds_split {us : List Tok} {v w : List Kind} (h : kinds us = v ++ w) :
    ∃ a b, us = a ++ b ∧ kinds a = v ∧ kinds b = w := by
  obtain ⟨a, b, h1, h2, h3⟩ := List.map_eq_append_iff.1 h
  exact ⟨a, b, h1, h2, h3⟩

/-- `p` parses phrases of the form `e` only, and all of them with at most `N` tokens -/
structure Acc (p : P α) (e : E) (N : Nat) : Prop where
  sound : ∀ ts x, x ∈ p ts → ∃ us, ts = us ++ x.2 ∧ Derives e (kinds us)
  complete : ∀ us rest, Derives e (kinds us) → us.length ≤ N → ∃ x, (x, rest) ∈ p (us ++ rest)

theorem Acc.mono {p : P α} {e : E} {M N : Nat} (h : Acc p e N) (hM : M ≤ N) : Acc p e M :=
  ⟨h.sound, fun us rest hd hl => h.complete us rest hd (Nat.le_trans hl hM)⟩

theorem Acc.congr {p : P α} {e e' : E} {N : Nat} (h : Acc p e N) (he : Alike e e') : Acc p e' N :=
  ⟨fun ts x hx => by
    obtain ⟨us, h1, h2⟩ := h.sound ts x hx
    exact ⟨us, h1, (he _).1 h2⟩, fun us rest hd hl => h.complete us rest ((he _).2 hd) hl⟩

theorem Acc.rule {p : P α} {x : R} {N : Nat} (h : Acc p (grammar x) N) : Acc p (.rule x) N :=
  h.congr (Alike.rule x).symm

theorem Acc.empty {e : E} (h : solid e = true) : Acc (fun _ => [] : P α) e 0 :=
  ⟨fun ts x hx => by simp at hx, fun us rest hd hl => by
    have := derives_solid hd h
    rw [kinds_length] at this
    omega⟩

theorem Acc.tk {k : Kind} {N : Nat} : Acc (tk k) (.tok k) N := by
  refine ⟨fun ts x hx => ?_, fun us rest hd _ => ?_⟩
  · cases ts with
    | nil => simp [Grammar.tk] at hx
    | cons u ts =>
      rw [Grammar.tk] at hx
      split at hx
      · rename_i hk
        rw [List.mem_singleton.1 hx]
        exact ⟨[u], rfl, by rw [kinds, List.map_singleton, hk]; exact .tok⟩
      · simp at hx
  · generalize hw : kinds us = w at hd
    cases hd with
    | tok =>
      match us, hw with
      | [u], hw =>
        have hk : u.kind = k := by simpa [kinds] using hw
        exact ⟨u, by simp [Grammar.tk, hk]⟩

/-- the token types of an alternative of tokens -/
def choices : E → Option (List Kind)
  | .tok k => some [k]
  | .alt a b => match choices a, choices b with
    | some u, some v => some (u ++ v)
    | _, _ => none
  | _ => none

theorem derives_choices {e : E} {ks : List Kind} (h : choices e = some ks) (w : List Kind) :
    Derives e w ↔ ∃ k ∈ ks, w = [k] := by
  induction e generalizing ks with
  | tok k =>
    rw [choices] at h
    cases h
    constructor
    · intro h; cases h with | tok => exact ⟨k, by simp, rfl⟩
    · rintro ⟨k', h1, rfl⟩; rw [List.mem_singleton.1 h1]; exact .tok
  | alt a b iha ihb =>
    rw [choices] at h
    cases ha : choices a with
    | none => rw [ha] at h; cases h
    | some u =>
      cases hb : choices b with
      | none => rw [ha, hb] at h; cases h
      | some v =>
        rw [ha, hb] at h
        cases h
        rw [derives_alt, iha ha, ihb hb]
        constructor
        · rintro (⟨k, h1, rfl⟩ | ⟨k, h1, rfl⟩)
          · exact ⟨k, List.mem_append_left _ h1, rfl⟩
          · exact ⟨k, List.mem_append_right _ h1, rfl⟩
        · rintro ⟨k, h1, rfl⟩
          rcases List.mem_append.1 h1 with h1 | h1
          · exact .inl ⟨k, h1, rfl⟩
          · exact .inr ⟨k, h1, rfl⟩
  | _ => cases h

theorem Acc.oneOf {ks : List Kind} {e : E} {N : Nat} (h : choices e = some ks) :
    Acc (oneOf ks) e N := by
  refine ⟨fun ts x hx => ?_, fun us rest hd _ => ?_⟩
  · cases ts with
    | nil => simp [Grammar.oneOf] at hx
    | cons u ts =>
      rw [Grammar.oneOf] at hx
      split at hx
      · rename_i hk
        rw [List.mem_singleton.1 hx]
        exact ⟨[u], rfl, (derives_choices h _).2 ⟨_, hk, rfl⟩⟩
      · simp at hx
  · obtain ⟨k, h1, h2⟩ := (derives_choices h _).1 hd
    match us, h2 with
    | [u], h2 =>
      have hk : u.kind = k := by simpa [kinds] using h2
      exact ⟨u, by simp [Grammar.oneOf, hk, h1]⟩

theorem Acc.bindN {p : P α} {f : α → P β} {a b : E} {K M N : Nat} (hp : Acc p a M)
    (hf : ∀ x, Acc (f x) b N) (hl : ∀ u v : List Kind, Derives a u → Derives b v →
      u.length + v.length ≤ K → u.length ≤ M ∧ v.length ≤ N) : Acc (p >>= f) (.seq a b) K := by
  refine ⟨fun ts x hx => ?_, fun us rest hd hk => ?_⟩
  · rw [P.bind_run, List.mem_flatMap] at hx
    obtain ⟨y, hy, hx⟩ := hx
    obtain ⟨us, h1, h2⟩ := hp.sound ts y hy
    obtain ⟨vs, h3, h4⟩ := (hf y.1).sound y.2 x hx
    refine ⟨us ++ vs, by rw [h1, h3, List.append_assoc], ?_⟩
    rw [kinds_append]
    exact .seq h2 h4
  · obtain ⟨u, v, h1, h2, h3⟩ := derives_seq.1 hd
    obtain ⟨us, vs, rfl, rfl, rfl⟩ := kinds_split h1
    have := hl _ _ h2 h3 (by rw [kinds_length, kinds_length, ← List.length_append]; exact hk)
    rw [kinds_length, kinds_length] at this
    obtain ⟨x, hx⟩ := hp.complete us (vs ++ rest) h2 this.1
    obtain ⟨y, hy⟩ := (hf x).complete vs rest h3 this.2
    refine ⟨y, ?_⟩
    rw [P.bind_run, List.mem_flatMap, List.append_assoc]
    exact ⟨_, hx, hy⟩

theorem Acc.bind {p : P α} {f : α → P β} {a b : E} {N : Nat} (hp : Acc p a N)
    (hf : ∀ x, Acc (f x) b N) : Acc (p >>= f) (.seq a b) N :=
  hp.bindN hf fun u v _ _ h => ⟨by omega, by omega⟩

/-- after a token one token less -/
theorem Acc.next {p : P α} {f : α → P β} {a b : E} {N : Nat} (hp : Acc p a (N + 1))
    (hs : solid a = true) (hf : ∀ x, Acc (f x) b N) : Acc (p >>= f) (.seq a b) (N + 1) :=
  hp.bindN hf fun u v h _ hl => by
    have := derives_solid h hs
    exact ⟨by omega, by omega⟩

theorem Acc.map {p : P α} {f : α → β} {e : E} {N : Nat} (h : Acc p e N) :
    Acc (p >>= fun x => pure (f x)) e N := by
  refine ⟨fun ts x hx => ?_, fun us rest hd hl => ?_⟩
  · rw [P.bind_run, List.mem_flatMap] at hx
    obtain ⟨y, hy, hx⟩ := hx
    rw [P.pure_run, List.mem_singleton] at hx
    subst hx
    exact h.sound ts y hy
  · obtain ⟨x, hx⟩ := h.complete us rest hd hl
    refine ⟨f x, ?_⟩
    rw [P.bind_run, List.mem_flatMap]
    exact ⟨_, hx, List.mem_singleton.2 rfl⟩

theorem Acc.or {p q : P α} {a b : E} {N : Nat} (hp : Acc p a N) (hq : Acc q b N) :
    Acc (P.or p q) (.alt a b) N := by
  refine ⟨fun ts x hx => ?_, fun us rest hd hl => ?_⟩
  · rcases List.mem_append.1 hx with hx | hx
    · obtain ⟨us, h1, h2⟩ := hp.sound ts x hx
      exact ⟨us, h1, .left h2⟩
    · obtain ⟨us, h1, h2⟩ := hq.sound ts x hx
      exact ⟨us, h1, .right h2⟩
  · rcases derives_alt.1 hd with hd | hd
    · obtain ⟨x, hx⟩ := hp.complete us rest hd hl
      exact ⟨x, List.mem_append_left _ hx⟩
    · obtain ⟨x, hx⟩ := hq.complete us rest hd hl
      exact ⟨x, List.mem_append_right _ hx⟩

theorem Acc.cons {p : P α} {ps : List (P α)} {a b : E} {N : Nat} (hp : Acc p a N)
    (hq : Acc (P.choice ps) b N) : Acc (P.choice (p :: ps)) (.alt a b) N := Acc.or hp hq

theorem Acc.last {p : P α} {a : E} {N : Nat} (hp : Acc p a N) : Acc (P.choice [p]) a N := by
  have : P.choice [p] = p := by
    funext ts
    exact List.append_nil _
  rwa [this]

theorem Acc.opt {p : P α} {a : E} {N : Nat} (hp : Acc p a N) : Acc (P.opt p) (.opt a) N := by
  refine ⟨fun ts x hx => ?_, fun us rest hd hl => ?_⟩
  · rcases List.mem_append.1 hx with hx | hx
    · obtain ⟨y, hy, rfl⟩ := List.mem_map.1 hx
      obtain ⟨us, h1, h2⟩ := hp.sound ts y hy
      exact ⟨us, h1, .some h2⟩
    · rw [List.mem_singleton.1 hx]
      exact ⟨[], rfl, .none⟩
  · rcases derives_opt.1 hd with hd | hd
    · have : us = [] := List.map_eq_nil_iff.1 hd
      subst this
      exact ⟨none, List.mem_append_right _ (List.mem_singleton.2 rfl)⟩
    · obtain ⟨x, hx⟩ := hp.complete us rest hd hl
      exact ⟨some x, List.mem_append_left _ (List.mem_map.2 ⟨_, hx, rfl⟩)⟩

/-- alternatives, the last of which is empty -/
theorem Acc.orPure {p : P α} {a : E} {v : α} {N : Nat} (hp : Acc p a N) :
    Acc (P.or p (pure v)) (.opt a) N := by
  refine ⟨fun ts x hx => ?_, fun us rest hd hl => ?_⟩
  · rcases List.mem_append.1 hx with hx | hx
    · obtain ⟨us, h1, h2⟩ := hp.sound ts x hx
      exact ⟨us, h1, .some h2⟩
    · rw [P.pure_run, List.mem_singleton] at hx
      rw [hx]
      exact ⟨[], rfl, .none⟩
  · rcases derives_opt.1 hd with hd | hd
    · have : us = [] := List.map_eq_nil_iff.1 hd
      subst this
      exact ⟨v, List.mem_append_right _ (List.mem_singleton.2 rfl)⟩
    · obtain ⟨x, hx⟩ := hp.complete us rest hd hl
      exact ⟨x, List.mem_append_left _ hx⟩

theorem Acc.manyGo {p : P α} {a : E} {N : Nat} (hp : Acc p a N) (hs : solid a = true) (n : Nat) :
    Acc (P.manyGo p n) (.star a) (min n N) := by
  induction n with
  | zero =>
    refine ⟨fun ts x hx => ?_, fun us rest hd hl => ?_⟩
    · rw [P.manyGo, List.mem_singleton] at hx
      rw [hx]
      exact ⟨[], rfl, .nil⟩
    · have : us = [] := List.eq_nil_of_length_eq_zero (by omega)
      subst this
      exact ⟨[], by simp [P.manyGo]⟩
  | succ n ih =>
    have key : Acc (p >>= fun x => P.manyGo p n >>= fun xs => pure (x :: xs)) (.seq a (.star a))
        (min (n + 1) N) := hp.bindN (fun x => ih.map) fun u v h _ hl => by
      have := derives_solid h hs
      omega
    rw [manyGo_eq]
    refine (Acc.orPure key).congr fun w => ?_
    rw [derives_opt, derives_star, derives_seq]

theorem Acc.many {p : P α} {a : E} {N : Nat} (hp : Acc p a N) (hs : solid a = true) :
    Acc (P.many p) (.star a) N :=
  ⟨fun ts x hx => (hp.manyGo hs ts.length).sound ts x hx, fun us rest hd hl =>
    (hp.manyGo hs (us ++ rest).length).complete us rest hd (by rw [List.length_append]; omega)⟩

theorem Acc.plus {p : P α} {a : E} {N : Nat} (hp : Acc p a N) (hs : solid a = true) :
    Acc (P.plus p) (.plus a) N := by
  have : Acc (P.plus p) (.seq a (.star a)) N := hp.bind fun x => (hp.many hs).map
  refine this.congr fun w => ?_
  rw [derives_plus, derives_seq]

theorem Acc.used {p : P α} {a : E} {N : Nat} (hp : Acc p a N) : Acc (P.used p) a N := by
  refine ⟨fun ts x hx => ?_, fun us rest hd hl => ?_⟩
  · obtain ⟨y, hy, rfl⟩ := List.mem_map.1 hx
    exact hp.sound ts y hy
  · obtain ⟨x, hx⟩ := hp.complete us rest hd hl
    exact ⟨_, List.mem_map.2 ⟨_, hx, rfl⟩⟩

theorem Acc.assoc {p : P α} {a b c : E} {N : Nat} (h : Acc p (.seq (.seq a b) c) N) :
    Acc p (.seq a (.seq b c)) N := h.congr (.assoc a b c)

theorem Acc.assoc3 {p : P α} {a b c d : E} {N : Nat} (h : Acc p (.seq (.seq a (.seq b c)) d) N) :
    Acc p (.seq a (.seq b (.seq c d))) N :=
  h.congr ((Alike.assoc a _ d).trans (.seq (.refl a) (.assoc b c d)))

theorem Acc.assoc5 {p : P α} {a b c d e f : E} {N : Nat}
    (h : Acc p (.seq (.seq a (.seq b (.seq c (.seq d e)))) f) N) :
    Acc p (.seq a (.seq b (.seq c (.seq d (.seq e f))))) N :=
  h.congr ((Alike.assoc a _ f).trans (.seq (.refl a) ((Alike.assoc b _ f).trans (.seq (.refl b)
    ((Alike.assoc c _ f).trans (.seq (.refl c) (.assoc d e f)))))))

/-! ### The rules -/

theorem acc_number {N : Nat} : Acc numberToks (r .number) N := by
  refine .rule (.or (.bind (.plus .tk rfl) fun _ => .bind (.many ?_ rfl) fun _ => .map (.opt ?_)) ?_)
  · exact .bind .tk fun _ => .bind .tk fun _ => .bind .tk fun _ => .map .tk
  · exact .bind .tk fun _ => .map (.plus .tk rfl)
  · exact .bind .tk fun _ => .map (.plus .tk rfl)

theorem acc_eNotation {N : Nat} : Acc eNotation (r .e_notation) N :=
  .rule (.bind acc_number fun _ => .bind .tk fun _ => .bind (.opt (.oneOf rfl)) fun _ => .map (.plus .tk rfl))

theorem acc_percent {N : Nat} : Acc percentNumber (r .percent_number) N :=
  .rule (.bind acc_number fun _ => .map .tk)

/-- the rule of the grammar for a recursive parser -/
def ruleOf : NT → R
  | .expr => .expr
  | .mp => .mp
  | .mpNf => .mp_nofunc
  | .unary => .unary
  | .unaryNf => .unary_nofunc
  | .atom => .atom

section
variable {rec : NT → P T} {N : Nat} (hr : ∀ nt, Acc (rec nt) (r (ruleOf nt)) N)
include hr

theorem acc_braced : Acc (braced rec) (t .L_BRACE ⬝ r .expr ⬝ t .R_BRACE) (N + 1) :=
  .next .tk rfl fun _ => .bind (hr .expr) fun _ => .map .tk

theorem acc_argsGo (n : Nat) : Acc (argsGo rec n) (r .args) (min n N) := by
  induction n with
  | zero => exact (Acc.empty rfl).mono (by omega)
  | succ n ih =>
    refine .rule (.or ?_ ((hr .expr).map.mono (by omega)))
    refine (hr .expr).bindN (N := min n N + 1) (fun _ => .next .tk rfl fun _ => ih)
      fun u v h h' hl => ?_
    have := derives_solid h rfl
    omega

theorem acc_args : Acc (args rec) (r .args) N :=
  ⟨fun ts x hx => (acc_argsGo hr ts.length).sound ts x hx, fun us rest hd hl =>
    (acc_argsGo hr (us ++ rest).length).complete us rest hd (by rw [List.length_append]; omega)⟩

theorem acc_multiArgGo (n : Nat) : Acc (multiArgGo rec n) (r .func_multi_arg) (min n N) := by
  induction n with
  | zero => exact (Acc.empty rfl).mono (by omega)
  | succ n ih =>
    refine .rule (.or ((hr .expr).map.mono (by omega)) ?_)
    refine (hr .expr).bindN (N := min n N + 1) (fun _ => .next .tk rfl fun _ => ih)
      fun u v h h' hl => ?_
    have := derives_solid h rfl
    omega

theorem acc_multiArg : Acc (multiArg rec) (r .func_multi_arg) N :=
  .map (.used ⟨fun ts x hx => (acc_multiArgGo hr ts.length).sound ts x hx, fun us rest hd hl =>
    (acc_multiArgGo hr (us ++ rest).length).complete us rest hd (by rw [List.length_append]; omega)⟩)

theorem acc_subexpr : Acc (subexpr rec) (r .subexpr) (N + 1) :=
  .rule (.next .tk rfl fun _ => .or (.map (.used (hr .atom)))
    (.bind .tk fun _ => .bind (.used (.or (hr .expr) (.map (acc_args hr)))) fun _ => .map .tk))

theorem acc_supexpr : Acc (supexpr rec) (r .supexpr) (N + 1) :=
  .rule (.next .tk rfl fun _ => .or (hr .atom) ((acc_braced hr).mono (by omega)))

theorem acc_accent : Acc (accent rec) (r .accent) (N + 1) :=
  .rule (.next (.rule (.oneOf rfl)) rfl fun _ => .bind .tk fun _ => .bind (.used (hr .expr)) fun _ => .map .tk)

theorem acc_nameTok : Acc (nameTok rec)
    (t .LETTER_NO_E ∥ t .GREEK_CMD ∥ t .OTHER_SYMBOL_CMD ∥ r .accent) (N + 1) :=
  .cons (.map .tk) (.cons (.map .tk) (.cons (.map .tk) (.last (acc_accent hr))))

theorem acc_atomExprNoSup : Acc (atomExprNoSup rec) (r .atom_expr_no_supexpr) (N + 1) :=
  .rule (.map (.used (.bind (acc_nameTok hr) fun _ => .map (.opt (acc_subexpr hr)))))

omit hr in
theorem choice_orPure {p q s u : P α} {v : α} : P.choice [p, q, s, u, pure v] =
    P.or (P.choice [p, q, s, u]) (pure v) := by
  funext ts
  simp [P.choice, P.or]

theorem acc_atomExpr : Acc (atomExpr rec) (r .atom_expr) (N + 1) := by
  refine .rule (.bind (acc_nameTok hr) fun _ => ?_)
  rw [choice_orPure]
  exact .orPure (.cons (.bind (acc_supexpr hr) fun _ => .map (acc_subexpr hr))
    (.cons (.bind (acc_subexpr hr) fun _ => .map (acc_supexpr hr))
      (.cons (.map (acc_subexpr hr)) (.last (.map (acc_supexpr hr))))))

omit hr in
theorem acc_mathit : Acc mathit (r .mathit) N :=
  .rule (.bind .tk fun _ => .bind .tk fun _ => .bind (.rule (.plus (.oneOf rfl) rfl)) fun _ => .map .tk)

theorem acc_fracPart : Acc (fracPart rec) (t .DIGIT ∥ t .L_BRACE ⬝ r .expr ⬝ t .R_BRACE) (N + 1) :=
  .or (.map .tk) (.next .tk rfl fun _ => .bind (.used (hr .expr)) fun _ => .map .tk)

theorem acc_frac : Acc (frac rec) (r .frac) (N + 1) :=
  .rule (.bind .tk fun _ => .bind (acc_fracPart hr) fun _ => .map (acc_fracPart hr))

theorem acc_atom : Acc (atom rec) (r .atom) (N + 1) :=
  .rule (.cons (acc_atomExpr hr) (.cons (.map .tk) (.cons (.map acc_eNotation) (.cons (.map acc_percent)
    (.cons (.map (.map acc_number)) (.cons (.map .tk) (.cons acc_mathit (.cons (acc_frac hr)
      (.last (.map .tk))))))))))

theorem acc_between1 {a b : Kind} : Acc (between rec [a] [b]) (t a ⬝ r .expr ⬝ t b) (N + 1) :=
  .next (.map (.map .tk)) rfl fun _ => .bind (hr .expr) fun _ => .map (.map (.map .tk))

theorem acc_between2 {a b c d : Kind} :
    Acc (between rec [a, b] [c, d]) (t a ⬝ t b ⬝ r .expr ⬝ t c ⬝ t d) (N + 1) :=
  .assoc (.next (.bind (.map .tk) fun _ => .map (.map .tk)) rfl fun _ => .bind (hr .expr) fun _ =>
    .map (.bind (.map .tk) fun _ => .map (.map .tk)))

theorem acc_group : Acc (group rec) (r .group) (N + 1) := by
  refine .rule (.map ?_)
  simp only [enclosed, groupKinds, List.map_cons, List.map_nil, List.cons_append, List.nil_append]
  iterate 7 refine .cons (acc_between1 hr) ?_
  iterate 13 refine .cons (acc_between2 hr) ?_
  exact .last (acc_between2 hr)

theorem acc_normGroup : Acc (normGroup rec) (r .norm_group) (N + 1) := by
  refine .rule (.map ?_)
  simp only [enclosed, List.map_cons, List.map_nil, List.cons_append, List.nil_append]
  iterate 1 refine .cons (acc_between1 hr) ?_
  iterate 1 refine .cons (acc_between2 hr) ?_
  exact .last (acc_between2 hr)

theorem acc_absGroup : Acc (absGroup rec) (r .abs_group) (N + 1) := by
  refine .rule (.map ?_)
  simp only [enclosed, List.map_cons, List.map_nil, List.cons_append, List.nil_append]
  iterate 3 refine .cons (acc_between1 hr) ?_
  iterate 5 refine .cons (acc_between2 hr) ?_
  exact .last (acc_between2 hr)

theorem acc_floorGroup : Acc (floorGroup rec) (r .floor_group) (N + 1) := by
  refine .rule (.map ?_)
  simp only [enclosed, List.map_cons, List.map_nil, List.cons_append, List.nil_append]
  iterate 2 refine .cons (acc_between1 hr) ?_
  iterate 3 refine .cons (acc_between2 hr) ?_
  exact .last (acc_between2 hr)

theorem acc_ceilGroup : Acc (ceilGroup rec) (r .ceil_group) (N + 1) := by
  refine .rule (.map ?_)
  simp only [enclosed, List.map_cons, List.map_nil, List.cons_append, List.nil_append]
  iterate 2 refine .cons (acc_between1 hr) ?_
  iterate 3 refine .cons (acc_between2 hr) ?_
  exact .last (acc_between2 hr)

theorem acc_binom : Acc (binom rec) (r .binom) (N + 1) :=
  .rule (.or (.next .tk rfl fun _ => .bind (hr .expr) fun _ => .bind .tk fun _ => .bind (hr .expr) fun _ => .map .tk)
    (.bind .tk fun _ => .assoc3 (.bind (acc_braced hr) fun _ => .map (acc_braced hr))))

theorem acc_matrixRow : Acc (matrixRow rec) (r .matrix_row) N :=
  .rule (.bind (hr .expr) fun _ => .map (.many (.bind .tk fun _ => hr .expr) rfl))

theorem acc_matrixRows : Acc (matrixRows rec)
    (r .matrix_row ⬝ (t .MATRIX_DEL_ROW ⬝ r .matrix_row).star ⬝ (t .MATRIX_DEL_ROW).opt) N :=
  .bind (acc_matrixRow hr) fun _ => .bind (.many (.bind .tk fun _ => acc_matrixRow hr) rfl) fun _ =>
    .map (.opt .tk)

omit hr in
theorem acc_transformAtom : Acc transformAtom (r .transform_atom) N :=
  .rule (.bind .tk fun _ => .bind .tk fun _ => .or (.map (.map acc_number))
    (.bind .tk fun _ => .bind (.map acc_number) fun _ => .map .tk))

theorem acc_transformScale : Acc (transformScale rec) (r .transform_scale) N :=
  .rule (.bind (.cons (hr .expr) (.cons ((acc_group hr).mono (by omega)) (.cons (.map .tk)
    (.last (.map .tk))))) fun _ => .map acc_transformAtom)

theorem acc_elementary : Acc (elementaryTransform rec) (r .elementary_transform) N :=
  .rule (.cons (.rule (.bind acc_transformAtom fun _ => .map (acc_transformScale hr)))
    (.cons (.map (acc_transformScale hr))
      (.last (.rule (.bind acc_transformAtom fun _ => .bind .tk fun _ => .map acc_transformAtom)))))

theorem acc_elementaries : Acc (elementaryTransforms rec) (r .elementary_transforms) N :=
  .rule (.bind (acc_elementary hr) fun _ => .map (.many (.bind .tk fun _ => acc_elementary hr) rfl))

theorem acc_matrix : Acc (matrix rec) (r .matrix) (N + 1) :=
  .rule (.next .tk rfl fun _ => .assoc3 (.bind (acc_matrixRows hr) fun _ => .bind .tk fun _ =>
    .map (.opt (.bind .tk fun _ => .bind (.opt (.bind .tk fun _ => .bind (acc_elementaries hr) fun _ => .map .tk))
      fun _ => .bind .tk fun _ => .bind (acc_elementaries hr) fun _ => .map .tk))))

theorem acc_det : Acc (det rec) (r .det) (N + 1) :=
  .rule (.next .tk rfl fun _ => .assoc3 (.bind (acc_matrixRows hr) fun _ => .map .tk))

omit hr in
theorem acc_singleName : Acc (funcName singleKinds singleNames) (r .func_normal_single_arg) N :=
  .rule (.or (.rule (.map (.oneOf rfl))) (.bind .tk fun _ => .bind .tk fun _ => .bind (.rule (.oneOf rfl))
    fun _ => .map .tk))

omit hr in
theorem acc_multiName : Acc (funcName multiKinds multiNames) (r .func_normal_multi_arg) N :=
  .rule (.or (.rule (.map (.oneOf rfl))) (.bind .tk fun _ => .bind .tk fun _ => .bind (.rule (.oneOf rfl))
    fun _ => .map .tk))

theorem acc_subSup : Acc (subSup rec)
    ((r .subexpr).opt ⬝ (r .supexpr).opt ∥ (r .supexpr).opt ⬝ (r .subexpr).opt) (N + 1) :=
  .or (.bind (.opt (acc_subexpr hr)) fun _ => .map (.opt (acc_supexpr hr)))
    (.bind (.opt (acc_supexpr hr)) fun _ => .map (.opt (acc_subexpr hr)))

omit hr in
theorem acc_parenthesised {p : P α} {e : E} (h : Acc p e N) : Acc (parenthesised p)
    ((t .L_LEFT).opt ⬝ t .L_PAREN ⬝ e ⬝ (t .R_RIGHT).opt ⬝ t .R_PAREN ∥
      (t .ML_LEFT).opt ⬝ t .L_PAREN ⬝ e ⬝ (t .MR_RIGHT).opt ⬝ t .R_PAREN) (N + 1) :=
  .or (.bind (.opt .tk) fun _ => .next .tk rfl fun _ => .bind h fun _ => .bind (.opt .tk) fun _ => .map .tk)
    (.bind (.opt .tk) fun _ => .next .tk rfl fun _ => .bind h fun _ => .bind (.opt .tk) fun _ => .map .tk)

theorem acc_commonArgs : Acc (commonArgs rec) (r .func_common_args) N :=
  .rule (.map (.used (.cons (.map (hr .atom)) (.cons (.bind (hr .expr) fun _ => .map .tk)
    (.last (.bind (hr .expr) fun _ => .bind .tk fun _ => acc_args hr))))))

theorem acc_callArgs : Acc (callArgs rec) ((t .L_LEFT).opt ⬝ (t .L_PAREN ∥ t .L_BRACKET) ⬝
    r .func_common_args ⬝ (t .R_PAREN ∥ t .R_BRACKET) ⬝ (t .R_RIGHT).opt) (N + 1) :=
  .bind (.opt .tk) fun _ => .next (.oneOf rfl) rfl fun _ => .bind (acc_commonArgs hr) fun _ =>
    .bind (.oneOf rfl) fun _ => .map (.opt .tk)

theorem acc_equality : Acc (equality rec) (r .equality) N :=
  .rule (.bind (hr .expr) fun _ => .bind (.oneOf rfl) fun _ => .map (hr .expr))

theorem acc_subeq : Acc (subeq rec) (r .subeq) (N + 1) :=
  .rule (.next .tk rfl fun _ => .bind .tk fun _ => .bind (acc_equality hr) fun _ => .map .tk)

theorem acc_intLimits : Acc (intLimits rec) (r .subexpr ⬝ r .supexpr ∥ r .supexpr ⬝ r .subexpr ∥
    (t .UNDERSCORE ⬝ t .L_BRACE ⬝ t .R_BRACE) ⬝ (t .CARET ⬝ t .L_BRACE ⬝ t .R_BRACE) ∥
    (t .CARET ⬝ t .L_BRACE ⬝ t .R_BRACE) ⬝ (t .UNDERSCORE ⬝ t .L_BRACE ⬝ t .R_BRACE)) (N + 1) := by
  have six : ∀ a b c d e f : Kind, Alike (t a ⬝ t b ⬝ t c ⬝ t d ⬝ t e ⬝ t f)
      ((t a ⬝ t b ⬝ t c) ⬝ (t d ⬝ t e ⬝ t f)) := fun a b c d e f =>
    ((Alike.assoc (t a) (t b ⬝ t c) _).trans (.seq (.refl _) (.assoc _ _ _))).symm
  refine .cons (.bind (acc_subexpr hr) fun _ => .map (acc_supexpr hr))
    (.cons (.bind (acc_supexpr hr) fun _ => .map (acc_subexpr hr)) (.cons (.congr ?_ (six _ _ _ _ _ _))
      (.last (.congr ?_ (six _ _ _ _ _ _)))))
  · exact .bind .tk fun _ => .bind .tk fun _ => .bind .tk fun _ => .bind .tk fun _ => .bind .tk fun _ => .map .tk
  · exact .bind .tk fun _ => .bind .tk fun _ => .bind .tk fun _ => .bind .tk fun _ => .bind .tk fun _ => .map .tk

theorem acc_integrand : Acc (integrand rec)
    ((r .additive).opt ⬝ t .DIFFERENTIAL ∥ r .frac ∥ r .additive) N := by
  have h : Acc (rec .expr) (r .additive) N := (hr .expr).congr (.rule .expr)
  exact .cons (.bind (.opt h) fun _ => .map .tk) (.cons (.map ((acc_frac hr).mono (by omega))) (.last (.map h)))

theorem acc_limitSub : Acc (limitSub rec) (r .limit_sub) (N + 1) :=
  .rule (.next .tk rfl fun _ => .bind .tk fun _ => .bind (.cons (.map .tk) (.cons (.map .tk) (.last (.map .tk))))
    fun _ => .bind .tk fun _ => .bind (hr .expr) fun _ => .bind (.opt (.bind .tk fun _ => .bind .tk fun _ =>
      .bind (.oneOf rfl) fun _ => .map .tk)) fun _ => .map .tk)

theorem acc_func : Acc (func rec) (r .func) (N + 1) := by
  refine .rule (.cons ?_ (.cons ?_ (.cons ?_ (.cons ?_ (.cons ?_ (.cons ?_ (.cons ?_ (.cons ?_ (.last ?_)))))))))
  · refine .next acc_singleName rfl fun _ => .bind ((acc_subSup hr).mono (by omega)) fun _ => .map ?_
    exact (Acc.or ((acc_parenthesised (.rule (hr .expr))).mono (by omega)) (.rule (hr .mpNf))).congr (.altAssoc _ _ _)
  · refine .next acc_multiName rfl fun _ => .bind ((acc_subSup hr).mono (by omega)) fun _ => .map ?_
    exact (Acc.or (.map ((acc_parenthesised (acc_multiArg hr)).mono (by omega)))
      (.map (.used (.rule (hr .mpNf))))).congr (.altAssoc _ _ _)
  · exact .bind (acc_atomExprNoSup hr) fun _ => .bind (.opt (acc_supexpr hr)) fun _ => .map (acc_callArgs hr)
  · refine .bind (acc_atomExprNoSup hr) fun _ => .bind (.opt (acc_supexpr hr)) fun _ => .bind .tk fun _ => ?_
    exact .assoc5 (.bind (acc_callArgs hr) fun _ => .map .tk)
  · exact .next .tk rfl fun _ => .bind (.opt ((acc_intLimits hr).mono (by omega))) fun _ => .map (acc_integrand hr)
  · exact .next .tk rfl fun _ => .bind (.opt (.bind .tk fun _ => .bind (hr .expr) fun _ => .map .tk)) fun _ =>
      .map (.or (.map .tk) ((acc_braced hr).mono (by omega)))
  · exact .next (.oneOf rfl) rfl fun _ => .bind (.or
      (.bind ((acc_subeq hr).mono (by omega)) fun _ => .map ((acc_supexpr hr).mono (by omega)))
      (.bind ((acc_supexpr hr).mono (by omega)) fun _ => .map ((acc_subeq hr).mono (by omega)))) fun _ =>
      .map (hr .mp)
  · exact .next .tk rfl fun _ => .bind ((acc_limitSub hr).mono (by omega)) fun _ => .map (hr .mp)
  · exact .bind .tk fun _ => .map (.opt (acc_supexpr hr))

theorem acc_comp : Acc (comp rec true) (r .comp) (N + 1) :=
  .rule (.cons (acc_group hr) (.cons (acc_normGroup hr) (.cons (acc_absGroup hr) (.cons (acc_floorGroup hr)
    (.cons (acc_ceilGroup hr) (.cons (acc_func hr) (.cons (acc_atom hr) (.cons (acc_binom hr)
      (.cons (acc_matrix hr) (.last (acc_det hr)))))))))))

theorem acc_compNf : Acc (comp rec false) (r .comp_nofunc) (N + 1) :=
  .rule (.cons (acc_group hr) (.cons (acc_normGroup hr) (.cons (acc_absGroup hr) (.cons (acc_floorGroup hr)
    (.cons (acc_ceilGroup hr) (.cons (acc_atom hr) (.cons (acc_binom hr)
      (.cons (acc_matrix hr) (.last (acc_det hr))))))))))

/-- the part of `exp` after the base -/
theorem acc_exponent : Acc (do
      let _ ← tk .CARET
      let e ← P.or (rec .atom) (braced rec)
      let _ ← P.opt (subexpr rec)
      pure e) (t .CARET ⬝ (r .atom ∥ t .L_BRACE ⬝ r .expr ⬝ t .R_BRACE) ⬝ (r .subexpr).opt) (N + 1) :=
  .next .tk rfl fun _ => .bind (.or (hr .atom) ((acc_braced hr).mono (by omega))) fun _ =>
    .map (.opt ((acc_subexpr hr).mono (by omega)))

theorem acc_exp : Acc (exp rec true) (r .exp) (N + 1) := by
  have h : Acc (exp rec true) _ (N + 1) := .bind (acc_comp hr) fun _ => .map (.many (acc_exponent hr) rfl)
  exact h.congr (Alike.tail rfl rfl).symm

theorem acc_expNf : Acc (exp rec false) (r .exp_nofunc) (N + 1) := by
  have h : Acc (exp rec false) _ (N + 1) := .bind (acc_compNf hr) fun _ => .map (.many (acc_exponent hr) rfl)
  exact h.congr (Alike.tail rfl rfl).symm

theorem acc_evalAtPart {k : Kind} : Acc (evalAtPart rec k)
    (t k ⬝ t .L_BRACE ⬝ (r .expr ∥ r .equality) ⬝ t .R_BRACE) (N + 1) :=
  .next .tk rfl fun _ => .bind .tk fun _ => .bind (.or (hr .expr) (.map (acc_equality hr))) fun _ => .map .tk

theorem acc_postfixOp : Acc (postfixOp rec) (r .postfix_op) (N + 1) := by
  have hp : Acc (evalAtPart rec .CARET) (r .eval_at_sup) (N + 1) := .rule (acc_evalAtPart hr)
  have hs : Acc (evalAtPart rec .UNDERSCORE) (r .eval_at_sub) (N + 1) := .rule (acc_evalAtPart hr)
  exact .rule (.cons (.map .tk) (.cons (.rule (.bind .tk fun _ => .cons (.map hp) (.cons (.map hs)
    (.last (.bind hp fun _ => .map hs))))) (.last (.map (.rule (.oneOf rfl))))))

theorem acc_postfix : Acc (postfix' rec true) (r .postfix) (N + 1) :=
  .rule (.bind (acc_exp hr) fun _ => .map (.many (acc_postfixOp hr) rfl))

theorem acc_postfixNf : Acc (postfix' rec false) (r .postfix_nofunc) (N + 1) :=
  .rule (.bind (acc_expNf hr) fun _ => .map (.many (acc_postfixOp hr) rfl))

theorem acc_unary : Acc (body rec .unary) (r .unary) (N + 1) :=
  .rule (.or (.next (.oneOf rfl) rfl fun _ => .map (hr .unary)) (.map (.plus (acc_postfix hr) rfl)))

theorem acc_unaryNf : Acc (body rec .unaryNf) (r .unary_nofunc) (N + 1) :=
  .rule (.or (.next (.oneOf rfl) rfl fun _ => .map (hr .unaryNf))
    (.bind (acc_postfix hr) fun _ => .map (.many (acc_postfixNf hr) rfl)))

end

theorem acc_chain {p : P T} {b : E} {x : R} {o : E} {ks : List Kind} {mk : Kind → T → T → T} {N : Nat}
    (h : Acc p b N) (ho : choices o = some ks) (hs : solid b = true)
    (hx : grammar x = .alt (.seq (.rule x) (.seq o (.rule x))) b) : Acc (chain ks mk p) (.rule x) N := by
  have h' : Acc (chain ks mk p) (.seq b (.star (.seq o b))) N :=
    .bind h fun _ => .map (.many (.bind (.oneOf ho) fun _ => .map h) (by simp [solid, hs]))
  exact h'.congr (Alike.chain hx).symm

theorem alike_expr : Alike (r .additive) (r .expr) := (Alike.rule .expr).symm

theorem acc_expr {p : P T} {N : Nat} (h : Acc p (r .mp) N) : Acc (chain [.ADD, .SUB] addTree p) (r .expr) N :=
  (acc_chain (x := .additive) h rfl rfl rfl).congr alike_expr

theorem acc_mp {p : P T} {N : Nat} (h : Acc p (r .unary) N) : Acc (chain mulKinds mulTree p) (r .mp) N :=
  acc_chain (x := .mp) h rfl rfl rfl

theorem acc_mpNf {p : P T} {N : Nat} (h : Acc p (r .unary_nofunc) N) :
    Acc (chain mulKinds mulTree p) (r .mp_nofunc) N :=
  acc_chain (x := .mp_nofunc) h rfl rfl rfl

/-- the recursive rules parse phrases of the grammar only, with any bound on the recursion -/
theorem acc_zero (n : Nat) : ∀ nt, Acc (rule n nt) (r (ruleOf nt)) 0 := by
  induction n with
  | zero => exact fun nt => .empty rfl
  | succ n ih =>
    intro nt
    cases nt with
    | expr => exact acc_expr (ih .mp)
    | mp => exact acc_mp (ih .unary)
    | mpNf => exact acc_mpNf (ih .unaryNf)
    | unary => exact (acc_unary ih).mono (Nat.zero_le _)
    | unaryNf => exact (acc_unaryNf ih).mono (Nat.zero_le _)
    | atom => exact (acc_atom ih).mono (Nat.zero_le _)

/-- all phrases of `N` tokens are found with the bound `3 * N` -/
theorem acc_rules (N : Nat) : ∀ n, 3 * N ≤ n → ∀ nt, Acc (rule n nt) (r (ruleOf nt)) N := by
  induction N with
  | zero => exact fun n _ => acc_zero n
  | succ N ih =>
    have hu : ∀ n, 3 * N + 1 ≤ n → Acc (rule n .unary) (r .unary) (N + 1) := fun n hn => by
      obtain ⟨m, rfl⟩ : ∃ m, n = m + 1 := ⟨n - 1, by omega⟩
      exact acc_unary (ih m (by omega))
    have hv : ∀ n, 3 * N + 1 ≤ n → Acc (rule n .unaryNf) (r .unary_nofunc) (N + 1) := fun n hn => by
      obtain ⟨m, rfl⟩ : ∃ m, n = m + 1 := ⟨n - 1, by omega⟩
      exact acc_unaryNf (ih m (by omega))
    have hm : ∀ n, 3 * N + 2 ≤ n → Acc (rule n .mp) (r .mp) (N + 1) := fun n hn => by
      obtain ⟨m, rfl⟩ : ∃ m, n = m + 1 := ⟨n - 1, by omega⟩
      exact acc_mp (hu m (by omega))
    intro n hn nt
    obtain ⟨m, rfl⟩ : ∃ m, n = m + 1 := ⟨n - 1, by omega⟩
    cases nt with
    | expr => exact acc_expr (hm m (by omega))
    | mp => exact hm _ (by omega)
    | mpNf => exact acc_mpNf (hv m (by omega))
    | unary => exact hu _ (by omega)
    | unaryNf => exact hv _ (by omega)
    | atom => exact acc_atom (ih m (by omega))

section
variable {n N : Nat} (h : 3 * N ≤ n)
include h

theorem acc_relation : Acc (relation n) (r .relation) N :=
  acc_chain (x := .relation) (acc_rules N n h .expr) rfl rfl rfl

theorem acc_relationItems : Acc (relationItems n) (r .relation_list_content) N :=
  .rule (.cons (.bind (acc_relation h) fun _ => .bind .tk fun _ => .bind (acc_relation h) fun _ =>
      .map (.many (.bind .tk fun _ => acc_relation h) rfl))
    (.last (.bind (acc_relation h) fun _ => .bind .tk fun _ => .bind (acc_relation h) fun _ =>
      .map (.many (.bind .tk fun _ => acc_relation h) rfl))))

theorem acc_items1 {a b : Kind} : Acc (itemsBetween n [a] [b]) (t a ⬝ r .relation_list_content ⬝ t b) N :=
  .bind (.map (.map .tk)) fun _ => .bind (acc_relationItems h) fun _ => .map (.map (.map .tk))

theorem acc_items2 {a b c d : Kind} : Acc (itemsBetween n [a, b] [c, d])
    (t a ⬝ t b ⬝ r .relation_list_content ⬝ t c ⬝ t d) N :=
  .assoc (.bind (.bind (.map .tk) fun _ => .map (.map .tk)) fun _ => .bind (acc_relationItems h) fun _ =>
    .map (.bind (.map .tk) fun _ => .map (.map .tk)))

theorem acc_math : Acc (math n) (r .math) N :=
  .rule (.or (.map (acc_relation h)) (.map (.rule (.cons (acc_relationItems h) (.cons (acc_items1 h)
    (.cons (acc_items1 h) (.cons (acc_items1 h) (.cons (acc_items2 h) (.cons (acc_items2 h)
      (.cons (acc_items2 h) (.last (acc_items2 h))))))))))))

end

/-- **C91, tokens.**  The parser accepts exactly the lists of tokens that the grammar derives from the
rule `math`. -/
theorem C91_tokens (ts : List Tok) :
    (∃ m, parseTokens ts = some m) ↔ Derives (r .math) (ts.map (·.kind)) := by
  have hm := acc_math (n := 4 * ts.length + 4) (N := ts.length) (by omega)
  constructor
  · rintro ⟨m, h⟩
    rw [parseTokens, Option.map_eq_some_iff] at h
    obtain ⟨x, h1, -⟩ := h
    have h2 := List.find?_some h1
    obtain ⟨us, h3, h4⟩ := hm.sound ts x (List.mem_of_find?_eq_some h1)
    rw [List.isEmpty_iff.1 h2, List.append_nil] at h3
    exact h3 ▸ h4
  · intro h
    obtain ⟨x, hx⟩ := hm.complete ts [] h (Nat.le_refl _)
    rw [List.append_nil] at hx
    cases hf : (math (4 * ts.length + 4) ts).find? (·.2.isEmpty) with
    | none => exact absurd rfl (List.find?_eq_none.1 hf _ hx)
    | some y => exact ⟨y.1, by rw [parseTokens, hf]; rfl⟩

end Verif.Grammar
