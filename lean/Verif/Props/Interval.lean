import Verif.Props.Matrix
import Verif.Props.Numeric
import Verif.Py.ReplaceLemmas
import Mathlib.Data.Set.Basic
/-
Property C48: the meaning of interval answers.
-/

namespace Verif

variable {X V S : Type} {K : Type} [LinearOrder K]

/-- An end point: a number or plus or minus infinity. -/
inductive Bound (K : Type) where
  | minusInf
  | fin (q : K)
  | plusInf

/-- The points to the right of an end point. -/
def Bound.rightOf : Bound K → Bool → K → Prop
  | .minusInf, _, _ => True
  | .fin q, true, p => q < p
  | .fin q, false, p => q ≤ p
  | .plusInf, _, _ => False

/-- The points to the left of an end point. -/
def Bound.leftOf : Bound K → Bool → K → Prop
  | .minusInf, _, _ => False
  | .fin q, true, p => p < q
  | .fin q, false, p => p ≤ q
  | .plusInf, _, _ => True

/-- Strict order of end points. -/
def Bound.lt : Bound K → Bound K → Prop
  | .minusInf, .minusInf => False
  | .minusInf, _ => True
  | .fin _, .minusInf => False
  | .fin p, .fin q => p < q
  | .fin _, .plusInf => True
  | .plusInf, _ => False

/-- The SymPy operations on sets and end points mean what they say: `pts s` is the set of points of `s` and
`bound v b` says that the value `v` is the end point `b` (numbers are computed exactly). -/
structure SetSem (E : Env X V S) (pts : S → Set K) (bound : V → Bound K → Prop) : Prop where
  empty : pts E.emptySet = ∅
  isEmpty : ∀ s, ∃ b, Ret (E.isEmptySet s) b ∧ (b = true ↔ pts s = ∅)
  intersect : ∀ s t, ∃ u, Ret (E.intersect s t) u ∧ pts u = pts s ∩ pts t
  union : ∀ s t, ∃ u, Ret (E.union s t) u ∧ pts u = pts s ∪ pts t
  interval : ∀ a b x y lo ro, bound a x → bound b y →
    ∃ u, Ret (E.interval a b lo ro) u ∧ pts u = {p | x.rightOf lo p ∧ y.leftOf ro p}
  isNumber : ∀ v x, bound v x → ∃ b, Ret (E.isNumber v) b
  evalf : ∀ v x, bound v x → ∃ v', Ret (E.evalf v) v' ∧ bound v' x
  isInt : ∀ v x, bound v x → ∃ b, Ret (E.isIntNum v) b
  toInteger : ∀ v x, bound v x → Ret (E.isIntNum v) true → ∃ v', Ret (E.toInteger v) v' ∧ bound v' x
  gtV : ∀ a b x y, bound a x → bound b y → ∃ c, Ret (E.gtV a b) c ∧ (c = true ↔ y.lt x)

/-- A written interval: brackets, the text of the end points and the end points meant. -/
structure Itv (K : Type) where
  leftOpen : Bool
  left : Str
  right : Str
  rightOpen : Bool
  lower : Bound K
  upper : Bound K

/-- The text of an interval. -/
def Itv.text (i : Itv K) : Str :=
  (if i.leftOpen then '(' else '[') :: (i.left ++ ',' :: (i.right ++ [if i.rightOpen then ')' else ']']))

/-- The points of an interval. -/
def Itv.points (i : Itv K) : Set K := {p | i.lower.rightOf i.leftOpen p ∧ i.upper.leftOf i.rightOpen p}

/-- The text of an end point. -/
structure EndText (t : Str) : Prop where
  plain : ∀ c ∈ t, c ≠ ',' ∧ c ≠ '(' ∧ c ≠ ')' ∧ c ≠ '[' ∧ c ≠ ']' ∧ c ≠ '∩' ∧ c ≠ '⋃'
  noCap : ¬ s%"\\cap" <:+: t
  noCup : ¬ s%"\\cup" <:+: t

/-- A written interval whose end points parse to what is meant, in the right order. -/
structure Itv.Ok (E : Env X V S) (bound : V → Bound K → Prop) (i : Itv K) : Prop where
  left : EndText i.left
  right : EndText i.right
  parseLeft : ∃ v, Ret (E.l2s i.left) v ∧ bound v i.lower
  parseRight : ∃ v, Ret (E.l2s i.right) v ∧ bound v i.upper
  ordered : ¬ i.upper.lt i.lower

/-- An intersection of intervals, and the way the sign is written. -/
structure Meet (K : Type) where
  sign : Bool
  parts : List (Itv K)

/-- The intersection sign. -/
def capSign (b : Bool) : Str := if b then s%"∩" else s%"\\cap"
/-- The union sign. -/
def cupSign (b : Bool) : Str := if b then s%"⋃" else s%"\\cup"

/-- The text of an intersection. -/
def Meet.text (m : Meet K) : Str := join (capSign m.sign) (m.parts.map Itv.text)

/-- Points common to all intervals of a list. -/
def meetPoints (is : List (Itv K)) : Set K := {p | ∀ i ∈ is, p ∈ i.points}

/-! #### Text -/

theorem bracket_ne_l (b : Bool) : (if b then '(' else '[') ≠ ',' ∧ (if b then '(' else '[') ≠ ')' ∧
    (if b then '(' else '[') ≠ ']' ∧ (if b then '(' else '[') ≠ '∩' ∧ (if b then '(' else '[') ≠ '⋃' := by
  cases b <;> decide
theorem bracket_ne_r (b : Bool) : (if b then ')' else ']') ≠ ',' ∧ (if b then ')' else ']') ≠ '(' ∧
    (if b then ')' else ']') ≠ '[' ∧ (if b then ')' else ']') ≠ '∩' ∧ (if b then ')' else ']') ≠ '⋃' := by
  cases b <;> decide

omit [LinearOrder K] in
theorem text_infix (i : Itv K) (w : Str) (h1 : ∀ c ∈ w, c ≠ ',' ∧ c ≠ '(' ∧ c ≠ ')' ∧ c ≠ '[' ∧ c ≠ ']')
    (h0 : w ≠ []) (hl : ¬ w <:+: i.left) (hr : ¬ w <:+: i.right) (z : Str) (hz : ¬ w <:+: z) :
    ¬ w <:+: i.text ++ z := by
  have nm : ∀ c, (c = ',' ∨ c = '(' ∨ c = ')' ∨ c = '[' ∨ c = ']') → c ∉ w := by
    intro c hc hcw
    obtain ⟨a1, a2, a3, a4, a5⟩ := h1 c hcw
    rcases hc with h | h | h | h | h <;> contradiction
  have nil : ¬ w <:+: [] := fun h => h0 (List.infix_nil.1 h)
  intro h
  have e : i.text ++ z = [] ++ (if i.leftOpen then '(' else '[') :: (i.left ++ ',' :: (i.right ++
      (if i.rightOpen then ')' else ']') :: z)) := by simp [Itv.text]
  rw [e] at h
  rcases infix_straddle (nm _ (by cases i.leftOpen <;> simp)) h with h | h
  · exact nil h
  rcases infix_straddle (nm _ (by simp)) h with h | h
  · exact hl h
  rcases infix_straddle (nm _ (by cases i.rightOpen <;> simp)) h with h | h
  · exact hr h
  · exact hz h

theorem noEarly_head (x : Char) (t p : Str) (hx : x ∉ t) (h : ¬ (x :: t) <:+: p) :
    ∀ a b, p = a ++ b → b ≠ [] → ¬ (x :: t) <+: b ++ (x :: t) := by
  intro a b hab hb hp
  by_cases hl : (x :: t).length ≤ b.length
  · have := List.prefix_of_prefix_length_le hp (List.prefix_append b _) hl
    apply h
    rw [hab]
    exact this.isInfix.trans (List.suffix_append a b).isInfix
  · obtain ⟨v, hv⟩ := hp
    cases b with
    | nil => exact hb rfl
    | cons c b =>
      simp only [List.cons_append, List.cons.injEq] at hv
      have hb' : b <+: t := List.prefix_of_prefix_length_le (l₃ := t ++ v) ⟨x :: t, hv.2.symm⟩
        (List.prefix_append t _) (by simp at hl; omega)
      obtain ⟨q, hq⟩ := hb'
      have h2 := hv.2
      rw [← hq] at h2
      simp only [List.append_assoc, List.append_cancel_left_eq] at h2
      cases q with
      | nil => rw [← hq] at hl; simp at hl
      | cons d q =>
        simp only [List.cons_append, List.cons.injEq] at h2
        apply hx; rw [← hq, h2.1]; simp

section
variable {E : Env X V S} {pts : S → Set K} {bound : V → Bound K → Prop} (H : SetSem E pts bound)
include H

theorem numEnd_sem (v : V) (x : Bound K) (h : bound v x) :
    ∃ v', Always (oneInterval.numEnd E v) v' ∧ bound v' x := by
  unfold oneInterval.numEnd
  obtain ⟨b, hb⟩ := H.isNumber v x h
  cases b with
  | false => exact ⟨v, hb.always.bind (by simpa using Always.pure v), h⟩
  | true =>
    obtain ⟨v', h1, h2⟩ := H.evalf v x h
    obtain ⟨b, hb'⟩ := H.isInt v' x h2
    cases b with
    | false =>
      refine ⟨v', hb.always.bind ?_, h2⟩
      simp only [if_true]
      exact h1.always.bind (hb'.always.bind (by simpa using Always.pure v'))
    | true =>
      obtain ⟨u, h3, h4⟩ := H.toInteger v' x h2 hb'
      refine ⟨u, hb.always.bind ?_, h4⟩
      simp only [if_true]
      exact h1.always.bind (hb'.always.bind (by simpa using h3.always))

theorem oneInterval_sem (i : Itv K) (hi : i.Ok E bound) :
    ∃ s, Always (oneInterval E i.text) s ∧ pts s = i.points := by
  have hstrip : strip i.text = i.text := by
    apply strip_id
    · intro c hc
      simp only [Itv.text, List.head?_cons, Option.some.injEq] at hc
      subst hc; cases i.leftOpen <;> decide
    · intro c hc
      have : i.text.getLast? = some (if i.rightOpen then ')' else ']') := by
        have : i.text = ((if i.leftOpen then '(' else '[') :: (i.left ++ ',' :: i.right)) ++
          [if i.rightOpen then ')' else ']'] := by simp [Itv.text]
        rw [this, List.getLast?_append]; simp
      rw [this] at hc
      simp only [Option.some.injEq] at hc
      subst hc; cases i.rightOpen <;> decide
  have hsplit : split s%"," i.text = [(if i.leftOpen then '(' else '[') :: i.left,
      i.right ++ [if i.rightOpen then ')' else ']']] := by
    have e : i.text = join s%"," [(if i.leftOpen then '(' else '[') :: i.left,
      i.right ++ [if i.rightOpen then ')' else ']']] := by simp [Itv.text, join]
    rw [e]
    apply split_join _ (by simp) _ (by simp)
    intro p hp
    apply noEarly_char
    simp only [List.mem_cons, List.not_mem_nil, or_false] at hp
    rcases hp with rfl | rfl
    · simp only [List.mem_cons, not_or]
      exact ⟨(bracket_ne_l i.leftOpen).1.symm, fun h => (hi.left.plain _ h).1 rfl⟩
    · simp only [List.mem_append, List.mem_singleton, not_or]
      exact ⟨fun h => (hi.right.plain _ h).1 rfl, (bracket_ne_r i.rightOpen).1.symm⟩
  have hrl : replace s%"[" [] (replace s%"(" [] ((if i.leftOpen then '(' else '[') :: i.left)) = i.left := by
    rw [replace_one_nil, replace_one_nil]
    rw [List.filter_filter]
    have e2 : (i.left.filter fun a => decide (a ≠ '[') && decide (a ≠ '(')) = i.left := by
      rw [List.filter_eq_self]; intro c hc
      have := hi.left.plain c hc; simp [this]
    cases i.leftOpen <;> simpa using e2
  have hrr : replace s%"]" [] (replace s%")" [] (i.right ++ [if i.rightOpen then ')' else ']'])) = i.right := by
    rw [replace_one_nil, replace_one_nil, List.filter_filter]
    have e2 : (i.right.filter fun a => decide (a ≠ ']') && decide (a ≠ ')')) = i.right := by
      rw [List.filter_eq_self]; intro c hc
      have := hi.right.plain c hc; simp [this]
    rw [List.filter_append, e2]
    cases i.rightOpen <;> simp
  have hcl : contains s%"(" i.text = i.leftOpen := by
    rw [Bool.eq_iff_iff, contains_iff]
    constructor
    · intro h
      have : '(' ∈ i.text := h.subset (by simp)
      simp only [Itv.text, List.mem_cons, List.mem_append, List.not_mem_nil, or_false] at this
      rcases this with h | h | h | h | h
      · cases hl : i.leftOpen with
        | true => rfl
        | false => rw [hl] at h; simp at h
      · exact absurd rfl (hi.left.plain _ h).2.1
      · simp at h
      · exact absurd rfl (hi.right.plain _ h).2.1
      · exact absurd h.symm (bracket_ne_r _).2.1
    · intro h
      refine ⟨[], i.left ++ ',' :: (i.right ++ [if i.rightOpen then ')' else ']']), ?_⟩
      simp [Itv.text, h]
  have hcr : contains s%")" i.text = i.rightOpen := by
    rw [Bool.eq_iff_iff, contains_iff]
    constructor
    · intro h
      have : ')' ∈ i.text := h.subset (by simp)
      simp only [Itv.text, List.mem_cons, List.mem_append, List.not_mem_nil, or_false] at this
      rcases this with h | h | h | h | h
      · exact absurd h.symm (bracket_ne_l _).2.1
      · exact absurd rfl (hi.left.plain _ h).2.2.1
      · simp at h
      · exact absurd rfl (hi.right.plain _ h).2.2.1
      · cases hl : i.rightOpen with
        | true => rfl
        | false => rw [hl] at h; simp at h
    · intro h
      refine ⟨(if i.leftOpen then '(' else '[') :: (i.left ++ ',' :: i.right), [], ?_⟩
      simp [Itv.text, h]
  obtain ⟨lv, hl1, hl2⟩ := hi.parseLeft
  obtain ⟨rv, hr1, hr2⟩ := hi.parseRight
  obtain ⟨lv', hl3, hl4⟩ := numEnd_sem H lv _ hl2
  obtain ⟨rv', hr3, hr4⟩ := numEnd_sem H rv _ hr2
  obtain ⟨u, hu1, hu2⟩ := H.interval lv' rv' _ _ i.leftOpen i.rightOpen hl4 hr4
  refine ⟨u, ?_, hu2⟩
  unfold oneInterval
  simp only [hstrip, hsplit, hrl, hrr, hcl, hcr]
  apply hl1.always.bind
  apply hr1.always.bind
  apply hl3.bind
  apply hr3.bind
  apply Always.bind (a := false)
  · obtain ⟨b, hb⟩ := H.isNumber lv' _ hl4
    apply hb.always.bind
    cases b with
    | false => exact Always.pure _
    | true =>
      simp only [if_true]
      obtain ⟨b, hb⟩ := H.isNumber rv' _ hr4
      apply hb.always.bind
      cases b with
      | false => exact Always.pure _
      | true =>
        simp only [if_true]
        obtain ⟨c, hc1, hc2⟩ := H.gtV lv' rv' _ _ hl4 hr4
        cases c with
        | false => exact hc1.always
        | true => exact absurd (hc2.1 rfl) hi.ordered
  · simpa using hu1.always

theorem interLoop_sem (pre is : List (Itv K)) (acc : S) (hpre : pre ≠ []) (hacc : pts acc = meetPoints pre)
    (hok : ∀ i ∈ is, i.Ok E bound)
    (hne : ∀ a b, is = a ++ b → b ≠ [] → (meetPoints (pre ++ a)).Nonempty) :
    ∃ s, Always (interLoop E acc (is.map Itv.text)) s ∧ pts s = meetPoints (pre ++ is) := by
  induction is generalizing pre acc with
  | nil => exact ⟨acc, Always.pure _, by simpa using hacc⟩
  | cons i is ih =>
    obtain ⟨t, ht1, ht2⟩ := oneInterval_sem H i (hok i (by simp))
    obtain ⟨b, hb1, hb2⟩ := H.isEmpty acc
    have hb : b = false := by
      have := hne [] (i :: is) rfl (by simp)
      rw [List.append_nil, ← hacc] at this
      cases b with
      | false => rfl
      | true => exact absurd (hb2.1 rfl) this.ne_empty
    subst hb
    obtain ⟨u, hu1, hu2⟩ := H.intersect acc t
    have hm : pts u = meetPoints (pre ++ [i]) := by
      rw [hu2, hacc, ht2]
      ext p
      simp only [meetPoints, Set.mem_inter_iff, Set.mem_ofPred_eq, List.mem_append, List.mem_singleton]
      constructor
      · rintro ⟨h1, h2⟩ j (hj | rfl)
        · exact h1 j hj
        · exact h2
      · intro h
        exact ⟨fun j hj => h j (.inl hj), h i (.inr rfl)⟩
    obtain ⟨s, hs1, hs2⟩ := ih (pre ++ [i]) u (by simp) hm (fun j hj => hok j (by simp [hj]))
      (fun a b hab hb => by have := hne (i :: a) b (by rw [hab]; rfl) hb; simpa using this)
    refine ⟨s, ?_, by simpa using hs2⟩
    simp only [List.map_cons, interLoop]
    apply ht1.bind
    apply Always.bind (a := u)
    · apply hb1.always.bind
      simpa using hu1.always
    · exact hs1

/-- An intersection of intervals as the property needs it: all intervals well written, at least one, and every
running intersection but the last non-empty. -/
structure Meet.Ok (E : Env X V S) (bound : V → Bound K → Prop) (m : Meet K) : Prop where
  nonempty : m.parts ≠ []
  parts : ∀ i ∈ m.parts, i.Ok E bound
  running : ∀ a b, m.parts = a ++ b → a ≠ [] → b ≠ [] → (meetPoints a).Nonempty

omit H in
theorem join_text_infix (sep w : Str) (is : List (Itv K)) (hok : ∀ i ∈ is, i.Ok E bound)
    (h1 : ∀ c ∈ w, c ≠ ',' ∧ c ≠ '(' ∧ c ≠ ')' ∧ c ≠ '[' ∧ c ≠ ']') (h0 : w ≠ [])
    (hend : ∀ t, EndText t → ¬ w <:+: t) (hsep : ¬ w <:+: sep) : ¬ w <:+: join sep (is.map Itv.text) := by
  have nil : ¬ w <:+: [] := fun h => h0 (List.infix_nil.1 h)
  induction is with
  | nil => exact nil
  | cons i is ih =>
    have hi := hok i (by simp)
    cases is with
    | nil =>
      have := text_infix i w h1 h0 (hend _ hi.left) (hend _ hi.right) [] nil
      simpa [join] using this
    | cons j js =>
      have ih := ih (fun k hk => hok k (by simp [hk]))
      simp only [List.map_cons, join, List.append_assoc] at ih ⊢
      apply text_infix i w h1 h0 (hend _ hi.left) (hend _ hi.right)
      intro h
      -- the next text starts with a bracket
      obtain ⟨z, hz⟩ : ∃ z, join sep (j.text :: js.map Itv.text) = (if j.leftOpen then '(' else '[') :: z := by
        cases js with
        | nil => exact ⟨_, rfl⟩
        | cons k ks => exact ⟨_, by simp only [List.map_cons, join, Itv.text, List.cons_append]; rfl⟩
      rw [hz] at h ih
      have nb : (if j.leftOpen then '(' else '[') ∉ w := by
        intro hw
        have := h1 _ hw
        cases hb : j.leftOpen <;> simp [hb] at this
      rcases infix_straddle nb h with h | h
      · exact hsep h
      · exact ih (h.trans (List.suffix_cons _ _).isInfix)

omit H in
theorem endText_char {t : Str} (ht : EndText t) (c : Char) (hc : c = '∩' ∨ c = '⋃') : ¬ [c] <:+: t := by
  intro h
  have := ht.plain c (h.subset (by simp))
  rcases hc with rfl | rfl <;> simp at this

omit H in
theorem capSplit_text (m : Meet K) (hm : m.Ok E bound) : capSplit m.text = m.parts.map Itv.text := by
  have hne : m.parts.map Itv.text ≠ [] := by simpa using hm.nonempty
  have piece : ∀ (w : Str), (∀ c ∈ w, c ≠ ',' ∧ c ≠ '(' ∧ c ≠ ')' ∧ c ≠ '[' ∧ c ≠ ']') → w ≠ [] →
      (∀ t, EndText t → ¬ w <:+: t) → ∀ p ∈ m.parts.map Itv.text, ¬ w <:+: p := by
    intro w h1 h0 hend p hp
    simp only [List.mem_map] at hp
    obtain ⟨i, hi, rfl⟩ := hp
    have := text_infix i w h1 h0 (hend _ (hm.parts i hi).left) (hend _ (hm.parts i hi).right) []
      (fun h => h0 (List.infix_nil.1 h))
    simpa using this
  have p1 := piece s%"∩" (by decide) (by decide) (fun t ht => endText_char ht _ (.inl rfl))
  have p2 := piece s%"\\cap" (by decide) (by decide) (fun t ht => ht.noCap)
  have e1 : split s%"∩" (join s%"∩" (m.parts.map Itv.text)) = m.parts.map Itv.text :=
    split_join _ (by decide) _ hne fun p hp => noEarly_head '∩' [] p (by decide) (p1 p hp)
  have e2 : split s%"\\cap" (join s%"\\cap" (m.parts.map Itv.text)) = m.parts.map Itv.text :=
    split_join _ (by decide) _ hne fun p hp => noEarly_head '\\' s%"cap" p (by decide) (p2 p hp)
  unfold capSplit Meet.text
  cases hs : m.sign with
  | true =>
    simp only [capSign, if_true]
    by_cases hc : contains s%"∩" (join s%"∩" (m.parts.map Itv.text)) = true
    · rw [if_pos hc, e1]
    · rw [if_neg hc]
      -- a single interval
      cases hp : m.parts with
      | nil => exact absurd hp hm.nonempty
      | cons i is =>
        cases is with
        | nil => rw [hp] at e2; simpa [join] using e2
        | cons j js =>
          rw [contains_iff] at hc
          refine absurd ?_ hc
          rw [hp]
          simp only [List.map_cons, join]
          exact ⟨i.text, _, rfl⟩
  | false =>
    simp only [capSign, Bool.false_eq_true, if_false]
    have : contains s%"∩" (join s%"\\cap" (m.parts.map Itv.text)) = false := by
      rw [contains_eq_false]
      exact join_text_infix (E := E) (bound := bound) _ _ _ hm.parts (by decide) (by decide)
        (fun t ht => endText_char ht _ (.inl rfl)) (by rw [← contains_eq_false]; decide)
    rw [this]
    simpa using e2

omit H in
theorem cupSplit_text (b : Bool) (ms : List (Meet K)) (hne : ms ≠ []) (hms : ∀ m ∈ ms, m.Ok E bound) :
    cupSplit (join (cupSign b) (ms.map Meet.text)) = ms.map Meet.text := by
  have hne' : ms.map Meet.text ≠ [] := by simpa using hne
  have piece : ∀ (w : Str), (∀ c ∈ w, c ≠ ',' ∧ c ≠ '(' ∧ c ≠ ')' ∧ c ≠ '[' ∧ c ≠ ']') → w ≠ [] →
      (∀ t, EndText t → ¬ w <:+: t) → (∀ b, ¬ w <:+: capSign b) → ∀ m ∈ ms, ¬ w <:+: m.text := by
    intro w h1 h0 hend hcap m hm
    exact join_text_infix (E := E) (bound := bound) _ _ _ (hms m hm).parts h1 h0 hend (hcap _)
  have p1 := piece s%"⋃" (by decide) (by decide) (fun t ht => endText_char ht _ (.inr rfl))
    (fun b => by rw [← contains_eq_false]; cases b <;> decide)
  have p2 := piece s%"\\cup" (by decide) (by decide) (fun t ht => ht.noCup)
    (fun b => by rw [← contains_eq_false]; cases b <;> decide)
  have e1 : split s%"⋃" (join s%"⋃" (ms.map Meet.text)) = ms.map Meet.text :=
    split_join _ (by decide) _ hne' fun p hp => by
      obtain ⟨m, hm, rfl⟩ := List.mem_map.1 hp
      exact noEarly_head '⋃' [] _ (by decide) (p1 m hm)
  have e2 : split s%"\\cup" (join s%"\\cup" (ms.map Meet.text)) = ms.map Meet.text :=
    split_join _ (by decide) _ hne' fun p hp => by
      obtain ⟨m, hm, rfl⟩ := List.mem_map.1 hp
      exact noEarly_head '\\' s%"cup" _ (by decide) (p2 m hm)
  unfold cupSplit
  cases b with
  | true =>
    simp only [cupSign, if_true]
    by_cases hc : contains s%"⋃" (join s%"⋃" (ms.map Meet.text)) = true
    · rw [if_pos hc, e1]
    · rw [if_neg hc]
      cases ms with
      | nil => exact absurd rfl hne
      | cons i is =>
        cases is with
        | nil => simpa [join] using e2
        | cons j js =>
          rw [contains_iff] at hc
          refine absurd ?_ hc
          simp only [List.map_cons, join]
          exact ⟨i.text, _, rfl⟩
  | false =>
    simp only [cupSign, Bool.false_eq_true, if_false]
    have : contains s%"⋃" (join s%"\\cup" (ms.map Meet.text)) = false := by
      rw [contains_eq_false]
      -- no piece and no sign contains the character
      have hm : ∀ m ∈ ms, '⋃' ∉ m.text := by
        intro m hm h
        obtain ⟨u, v, huv⟩ := List.append_of_mem h
        exact p1 m hm ⟨u, v, by rw [huv]; simp⟩
      have hj : '⋃' ∉ join s%"\\cup" (ms.map Meet.text) := by
        clear e1 e2 hne hne' p1 p2 piece hms
        induction ms with
        | nil => simp [join]
        | cons m ms ih =>
          cases ms with
          | nil => simpa [join] using hm m (by simp)
          | cons k ks =>
            have := ih fun x hx => hm x (by simp [hx])
            simp only [List.map_cons, join, List.mem_append, not_or] at this ⊢
            exact ⟨⟨hm m (by simp), by decide⟩, this⟩
      exact not_infix_of_not_mem '⋃' (by decide) hj
    rw [this]
    simpa using e2

theorem meet_sem (m : Meet K) (hm : m.Ok E bound) :
    ∃ s, Always (interLoop E E.emptySet (capSplit m.text)) s ∧ pts s = meetPoints m.parts := by
  rw [capSplit_text m hm]
  cases hp : m.parts with
  | nil => exact absurd hp hm.nonempty
  | cons i is =>
    obtain ⟨t, ht1, ht2⟩ := oneInterval_sem H i (hm.parts i (by simp [hp]))
    obtain ⟨b, hb1, hb2⟩ := H.isEmpty E.emptySet
    have hb : b = true := hb2.2 H.empty
    subst hb
    obtain ⟨s, hs1, hs2⟩ := interLoop_sem H [i] is t (by simp) (by rw [ht2]; ext p; simp [meetPoints])
      (fun j hj => hm.parts j (by simp [hp, hj]))
      (fun a b hab hb => hm.running ([i] ++ a) b (by simp [hp, hab]) (by simp) hb)
    refine ⟨s, ?_, by simpa using hs2⟩
    simp only [List.map_cons, interLoop]
    apply ht1.bind
    apply Always.bind (a := t)
    · apply hb1.always.bind
      simpa using Always.pure t
    · exact hs1

/-- **C48**, restricted to unions of intersections in which no running intersection but the last is empty: the
answer is read as the union of the intersections of the written intervals, the brackets deciding about the end
points.  `C48_refuted` shows that the restriction is needed. -/
theorem C48_intervals_partial (b : Bool) (ms : List (Meet K)) (hne : ms ≠ []) (hms : ∀ m ∈ ms, m.Ok E bound) :
    ∃ s, Always (strToInterval E (join (cupSign b) (ms.map Meet.text))) (some s) ∧
      pts s = {p | ∃ m ∈ ms, ∀ i ∈ m.parts, p ∈ i.points} := by
  have loop : ∀ (ms : List (Meet K)) (acc : S), (∀ m ∈ ms, m.Ok E bound) → ∃ s,
      Always (unionLoop E acc (ms.map Meet.text)) s ∧ pts s = pts acc ∪ {p | ∃ m ∈ ms, p ∈ meetPoints m.parts} := by
    intro ms
    induction ms with
    | nil => intro acc _; exact ⟨acc, Always.pure _, by simp⟩
    | cons m ms ih =>
      intro acc h
      obtain ⟨t, ht1, ht2⟩ := meet_sem H m (h m (by simp))
      obtain ⟨u, hu1, hu2⟩ := H.union acc t
      obtain ⟨s, hs1, hs2⟩ := ih u fun k hk => h k (by simp [hk])
      refine ⟨s, ?_, ?_⟩
      · simp only [List.map_cons, unionLoop]
        exact ht1.bind (hu1.always.bind hs1)
      · rw [hs2, hu2, ht2]
        ext p
        simp [or_assoc]
  obtain ⟨s, hs1, hs2⟩ := loop ms E.emptySet hms
  refine ⟨s, ?_, ?_⟩
  · unfold strToInterval
    rw [cupSplit_text b ms hne hms]
    exact Always.tryExcept (hs1.bind (Always.pure (some s))) _
  · rw [hs2, H.empty]; simp [meetPoints]

end

/-! #### An environment in which sets are sets of rational numbers -/

open Classical in
/-- Sets of rational numbers, computed exactly. -/
noncomputable def setEnv : Env Unit TVal (Set ℚ) :=
  let val : TVal → ℚ := fun v => match v with | .num q => q | _ => 0
  { U := asciiUni, setOrder := dedup, setOrder_perm := fun _ => List.Perm.refl _, view := TVal.view, ofList := .list,
    view_ofList := fun _ => rfl, symName := fun k => k,
    l2s := ratEnv.l2s, parseLatex := ratEnv.parseLatex, parseExpr := ratEnv.parseExpr, str := ratEnv.str,
    truth := ratEnv.truth, eqv := ratEnv.eqv, inv := ratEnv.inv, isNamedFunction := ratEnv.isNamedFunction,
    isSymbol := ratEnv.isSymbol, isNumber := ratEnv.isNumber, isZeroExpr := ratEnv.isZeroExpr,
    isZeroMatrix := ratEnv.isZeroMatrix, isInteger := ratEnv.isInteger, sub := ratEnv.sub, neg := ratEnv.neg,
    div := ratEnv.div, abs := ratEnv.abs, re := ratEnv.re, im := ratEnv.im, ltThr := ratEnv.ltThr, ge1 := ratEnv.ge1,
    gt0 := ratEnv.gt0, evalf := ratEnv.evalf, evalfAt := ratEnv.evalfAt, expandEq := ratEnv.expandEq,
    simplify := ratEnv.simplify, freeSyms := ratEnv.freeSyms, subsI := ratEnv.subsI, randint := ratEnv.randint,
    uniform := ratEnv.uniform, mkMatrix := ratEnv.mkMatrix, transpose := ratEnv.transpose, isIntNum := ratEnv.isIntNum,
    toInteger := ratEnv.toInteger, gtV := ratEnv.gtV,
    emptySet := ∅, isEmptySet := fun s => okCall (decide (s = ∅)), intersect := fun s t => okCall (s ∩ t),
    union := fun s t => okCall (s ∪ t), compareEq := fun s t => okCall (decide (s = t)),
    interval := fun a b lo ro => okCall {p | (Bound.fin (val a)).rightOf lo p ∧ (Bound.fin (val b)).leftOf ro p} }

/-- The value is the number meant. -/
def ratBound (v : TVal) (b : Bound ℚ) : Prop := ∃ q, v = .num q ∧ b = .fin q

theorem setEnv_sem : SetSem setEnv id ratBound where
  empty := rfl
  isEmpty s := ⟨_, fun x => ⟨x, rfl⟩, by simp⟩
  intersect s t := ⟨_, fun x => ⟨x, rfl⟩, rfl⟩
  union s t := ⟨_, fun x => ⟨x, rfl⟩, rfl⟩
  interval a b x y lo ro ha hb := by
    obtain ⟨p, rfl, rfl⟩ := ha
    obtain ⟨q, rfl, rfl⟩ := hb
    exact ⟨_, fun x => ⟨x, rfl⟩, rfl⟩
  isNumber v x h := by obtain ⟨q, rfl, rfl⟩ := h; exact ⟨_, fun x => ⟨x, rfl⟩⟩
  evalf v x h := ⟨v, fun x => ⟨x, rfl⟩, h⟩
  isInt v x h := ⟨_, fun x => ⟨x, rfl⟩⟩
  toInteger v x h _ := ⟨v, fun x => ⟨x, rfl⟩, h⟩
  gtV a b x y ha hb := by
    obtain ⟨p, rfl, rfl⟩ := ha
    obtain ⟨q, rfl, rfl⟩ := hb
    exact ⟨_, fun x => ⟨x, rfl⟩, by simp [Bound.lt]⟩

/-- An interval with integer end points between 0 and 9. -/
def digitItv (lo : Bool) (a b : Nat) (ro : Bool) : Itv ℚ :=
  ⟨lo, [digitChar a], [digitChar b], ro, .fin a, .fin b⟩

theorem digitItv_ok (lo ro : Bool) (a b : Nat) (h : a ≤ b) (hb : b < 10) : (digitItv lo a b ro).Ok setEnv ratBound := by
  have ht : ∀ a < 10, EndText [digitChar a] := by
    intro a ha
    have : ∀ a < 10, (∀ c ∈ [digitChar a], c ≠ ',' ∧ c ≠ '(' ∧ c ≠ ')' ∧ c ≠ '[' ∧ c ≠ ']' ∧ c ≠ '∩' ∧ c ≠ '⋃') ∧
        contains s%"\\cap" [digitChar a] = false ∧ contains s%"\\cup" [digitChar a] = false := by decide +kernel
    obtain ⟨h1, h2, h3⟩ := this a ha
    exact ⟨h1, (contains_eq_false _ _).1 h2, (contains_eq_false _ _).1 h3⟩
  have hp : ∀ a < 10, ratEnv.l2s [digitChar a] () = (.ok (.num (a : ℚ)), ()) := by
    intro a ha
    match a, ha with
    | 0, _ => show _ = _; kernel_rfl
    | 1, _ => show _ = _; kernel_rfl
    | 2, _ => show _ = _; kernel_rfl
    | 3, _ => show _ = _; kernel_rfl
    | 4, _ => show _ = _; kernel_rfl
    | 5, _ => show _ = _; kernel_rfl
    | 6, _ => show _ = _; kernel_rfl
    | 7, _ => show _ = _; kernel_rfl
    | 8, _ => show _ = _; kernel_rfl
    | 9, _ => show _ = _; kernel_rfl
  have ha : a < 10 := by omega
  refine ⟨ht a ha, ht b hb, ⟨_, fun x => ⟨x, hp a ha⟩, _, rfl, rfl⟩, ⟨_, fun x => ⟨x, hp b hb⟩, _, rfl, rfl⟩, ?_⟩
  simp only [digitItv, Bound.lt, not_lt]
  exact_mod_cast h

/-- `(1,3]\cap[2,5)\cup[7,9]` -/
example : ∃ s, Always (strToInterval setEnv s%"(1,3]\\cap[2,5)\\cup[7,9]") (some s) ∧
    s = {p : ℚ | (1 < p ∧ p ≤ 3) ∧ (2 ≤ p ∧ p < 5) ∨ 7 ≤ p ∧ p ≤ 9} := by
  have := C48_intervals_partial setEnv_sem false
    [⟨false, [digitItv true 1 3 false, digitItv false 2 5 true]⟩, ⟨false, [digitItv false 7 9 false]⟩] (by simp) (by
      intro m hm
      simp only [List.mem_cons, List.not_mem_nil, or_false] at hm
      rcases hm with rfl | rfl
      · refine ⟨by simp, ?_, ?_⟩
        · intro i hi
          simp only [List.mem_cons, List.not_mem_nil, or_false] at hi
          rcases hi with rfl | rfl <;> exact digitItv_ok _ _ _ _ (by decide) (by decide)
        · intro a b hab ha hb
          have : a = [digitItv true 1 3 false] := by
            cases a with
            | nil => exact absurd rfl ha
            | cons x a =>
              cases a with
              | nil => simp at hab; rw [hab.1]
              | cons y a => cases b <;> simp at hab hb
          rw [this]
          refine ⟨2, ?_⟩
          simp [meetPoints, digitItv, Itv.points, Bound.rightOf, Bound.leftOf]
          norm_num
      · refine ⟨by simp, ?_, ?_⟩
        · intro i hi
          simp only [List.mem_cons, List.not_mem_nil, or_false] at hi
          subst hi; exact digitItv_ok _ _ _ _ (by decide) (by decide)
        · intro a b hab ha hb
          cases a with
          | nil => exact absurd rfl ha
          | cons x a => cases a <;> cases b <;> simp at hab hb)
  obtain ⟨s, h1, h2⟩ := this
  refine ⟨s, h1, ?_⟩
  have h2 : s = _ := h2
  rw [h2]
  ext p
  simp [digitItv, Itv.points, Bound.rightOf, Bound.leftOf]

/-- **C48** fails: an empty intersection is forgotten when another interval follows. -/
theorem C48_refuted :
    (strToInterval ratEnv s%"(0,1)\\cap(2,3)\\cap(4,5)" ⟨(), []⟩).1 = .ok (some [(4, 5, true, true)]) ∧
    ∀ p : ℚ, ¬ ((0 < p ∧ p < 1) ∧ (2 < p ∧ p < 3) ∧ (4 < p ∧ p < 5)) := by
  refine ⟨by decide +kernel, ?_⟩
  rintro p ⟨⟨_, h1⟩, ⟨h2, _⟩, _⟩
  linarith

end Verif
