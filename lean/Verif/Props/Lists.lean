import Verif.Props.EndToEnd
import Verif.Props.Points
/-
Property C95: lists of answers in LaTeX notation are compared element by element.
-/

namespace Verif
open Re

variable {X V S : Type}

/-! ### Specification -/

/-- An element of a list: a tidy text whose brackets match up, not ending in a backslash or in `\right`. -/
structure Piece (e : Str) : Prop where
  tidy : Tidy e
  element : Element e
  nonempty : e ≠ []
  slash : ¬ s%"\\" <:+ e
  right : ¬ s%"\\right" <:+ e

/-- Three ASCII digits at the beginning (such an element is glued to the one before it, see C36). -/
def startsThree : Str → Bool
  | a :: b :: c :: _ => asciiDigit a && asciiDigit b && asciiDigit c
  | _ => false

/-- The elements of a list that can be told apart. -/
structure Pieces (es : List Str) : Prop where
  two : 2 ≤ es.length
  piece : ∀ e ∈ es, Piece e
  apart : ∀ e ∈ es.tail, startsThree e = false
  /-- no signs of set operations and no matrices -/
  plain : ∀ e ∈ es, ¬ s%"\\cap" <:+: e ∧ ¬ s%"\\cup" <:+: e ∧ ¬ s%"matrix" <:+: e

/-! ### Occurrences in lists -/

theorem infix_join {p : Str} (hp : p ≠ []) (hc : ',' ∉ p) : ∀ {es : List Str}, p <:+: join s%"," es → ∃ e ∈ es, p <:+: e
  | [], h => by
    simp only [join, List.infix_nil] at h
    exact absurd h hp
  | [e], h => ⟨e, by simp, by simpa [join] using h⟩
  | e :: e' :: es, h => by
    have : p <:+: e ++ ',' :: join s%"," (e' :: es) := by simpa [join] using h
    rcases infix_straddle hc this with h | h
    · exact ⟨e, by simp, h⟩
    · obtain ⟨x, hx, hi⟩ := infix_join hp hc h
      exact ⟨x, by simp [hx], hi⟩

theorem suffix_join {p : Str} (hp : p ≠ []) (hc : ',' ∉ p) : ∀ {es : List Str}, p <:+ join s%"," es → ∃ e ∈ es, p <:+ e
  | [], h => by
    simp only [join, List.suffix_nil] at h
    exact absurd h hp
  | [e], h => ⟨e, by simp, by simpa [join] using h⟩
  | e :: e' :: es, h => by
    obtain ⟨u, hu⟩ := h
    have hu : u ++ p = e ++ ',' :: join s%"," (e' :: es) := by simpa [join] using hu
    rcases prefix_of_append hu with ⟨z, h1, h2⟩ | ⟨z, h1, h2⟩
    · cases z with
      | nil => rw [List.nil_append] at h2; rw [← h2] at hc; simp at hc
      | cons c z =>
        simp only [List.cons_append, List.cons.injEq] at h2
        obtain ⟨x, hx, hi⟩ := suffix_join hp hc (es := e' :: es) ⟨z, h2.2.symm⟩
        exact ⟨x, by simp [hx], hi⟩
    · exfalso
      apply hc
      rw [h2]
      simp

theorem mem_join {c : Char} : ∀ {es : List Str}, c ∈ join s%"," es → c = ',' ∨ ∃ e ∈ es, c ∈ e
  | [], h => by simp [join] at h
  | [e], h => .inr ⟨e, by simp, by simpa [join] using h⟩
  | e :: e' :: es, h => by
    have : c ∈ e ∨ c = ',' ∨ c ∈ join s%"," (e' :: es) := by simpa [join, or_assoc] using h
    rcases this with h | h | h
    · exact .inr ⟨e, by simp, h⟩
    · exact .inl h
    · rcases mem_join h with h | ⟨x, hx, h⟩
      · exact .inl h
      · exact .inr ⟨x, by simp [hx], h⟩

/-- An occurrence in a text in brackets is an occurrence in the inner text, or it begins with the first bracket, or it ends with the
last. -/
theorem infix_enclosed {p m : Str} {x y : Char} (hx : p.head? ≠ some x) (h : p <:+: x :: (m ++ [y])) :
    p <:+: m ∨ ∃ q, p = q ++ [y] ∧ q <:+ m := by
  cases p with
  | nil => exact .inl (List.nil_infix)
  | cons c p =>
    obtain ⟨u, v, h⟩ := h
    cases u with
    | nil =>
      simp only [List.nil_append, List.cons_append, List.cons.injEq] at h
      exact absurd (by simp [h.1]) hx
    | cons d u =>
      simp only [List.cons_append, List.cons.injEq] at h
      obtain ⟨-, h⟩ := h
      rcases List.eq_nil_or_concat v with rfl | ⟨v, z, rfl⟩
      · right
        rw [List.append_nil] at h
        rcases List.eq_nil_or_concat (c :: p) with h0 | ⟨q, z, hq⟩
        · cases h0
        · rw [List.concat_eq_append] at hq
          rw [hq, ← List.append_assoc] at h
          obtain ⟨h1, h2⟩ := List.append_inj' h rfl
          refine ⟨q, by rw [hq, h2], u, h1⟩
      · left
        rw [List.concat_eq_append, ← List.append_assoc] at h
        obtain ⟨h1, -⟩ := List.append_inj' h rfl
        exact ⟨u, v, h1⟩

/-! ### The normal form of a list -/

theorem tidySpecial_shape : ∀ p ∈ tidySpecial, p ≠ [] ∧ ',' ∉ p ∧ p.head? ≠ some '(' ∧ p.head? ≠ some '[' ∧
    (')' ∈ p → p = s%"\\right)") ∧ (']' ∈ p → p = s%"\\right]") := by decide +kernel

theorem Piece.noOpen {e : Str} (h : Piece e) : ¬ s%"{" <:+ e := by
  rintro ⟨a, rfl⟩
  have h1 := h.element.balanced
  have h2 := h.element.nonneg a _ rfl
  rw [depth_append] at h1
  have : depth s%"{" = 1 := by decide
  omega

theorem pieces_commas {es : List Str} (h : ∀ e ∈ es, Piece e) : ¬ s%"\\," <:+: join s%"," es ∧ ¬ s%"{," <:+: join s%"," es := by
  have key : ∀ x : Char, x ≠ ',' → (∀ e ∈ es, ¬ [x] <:+ e) → ¬ [x, ','] <:+: join s%"," es := by
    rintro x hx hn ⟨u, v, hi⟩
    obtain ⟨es₁, e, es₂, h1, h2, h3, -⟩ := join_comma_split es (fun e he => (h e he).tidy.noComma) (u ++ [x]) v (by rw [← hi]; simp)
    obtain ⟨y, hy, hs⟩ := suffix_join (p := [x]) (by simp) (by simpa using hx.symm) (es := es₁) ⟨u, h3⟩
    exact hn y (by rw [h1]; simp [hy]) hs
  exact ⟨key '\\' (by decide) fun e he => (h e he).slash, key '{' (by decide) fun e he => (h e he).noOpen⟩

theorem pieces_word {es : List Str} (h : ∀ e ∈ es, Piece e) {p : Str} (hp : p ∈ tidySpecial) : ¬ p <:+: join s%"," es := by
  intro hi
  obtain ⟨h1, h2, -⟩ := tidySpecial_shape p hp
  obtain ⟨e, he, hi⟩ := infix_join h1 h2 hi
  exact (h e he).tidy.words p hp hi

/-- A list in round or square brackets has nothing with a meaning to the normaliser. -/
theorem list_neat {br : Bracket} (hbr : br ≠ .curly) {es : List Str} (h : ∀ e ∈ es, Piece e) : Neat (br.spell es) := by
  have hin : ∀ p : Str, p ≠ [] → ',' ∉ p → br.open ∉ p → br.close ∉ p → p <:+: br.spell es → ∃ e ∈ es, p <:+: e := by
    intro p h0 hc ho hcl hi
    rcases infix_enclosed (by
      intro hh
      exact ho (List.mem_of_mem_head? hh)) hi with hi | ⟨q, rfl, -⟩
    · exact infix_join h0 hc hi
    · exact absurd (by simp) hcl
  have hbase : ∀ (u v : Str) (d : Char) (w : Str), ',' ∉ w → br.open ∉ w → br.close ∉ w → br.spell es = u ++ d :: w ++ v →
      asciiDigit d = true → ∃ e ∈ es, ∃ u v, e = u ++ d :: w ++ v := by
    intro u v d w hc ho hcl he hd
    have hne : ∀ x : Char, asciiDigit x = false → x ≠ d := by rintro x hx rfl; rw [hd] at hx; cases hx
    have hob : asciiDigit br.open = false := by cases br <;> decide
    have hcb : asciiDigit br.close = false := by cases br <;> decide
    obtain ⟨e, he, u', v', h'⟩ := hin (d :: w) (by simp) (by simp [hc, hne ',' (by decide)]) (by simp [ho, hne _ hob])
      (by simp [hcl, hne _ hcb]) ⟨u, v, he.symm⟩
    exact ⟨e, he, u', v', h'.symm⟩
  refine ⟨?_, ?_, ?_, ?_, ?_, ?_⟩
  · intro c hc
    simp only [Bracket.spell, List.mem_cons, List.mem_append, List.not_mem_nil, or_false] at hc
    rcases hc with rfl | hc | rfl
    · cases br <;> decide
    · rcases mem_join hc with rfl | ⟨e, he, hc⟩
      · decide
      · exact (h e he).tidy.neat.chars c hc
    · cases br <;> decide
  · intro p hp hi
    obtain ⟨h1, h2, h3, h4, h5, h6⟩ := tidySpecial_shape p hp
    rcases infix_enclosed (by cases br <;> first | exact h3 | exact h4 | exact absurd rfl hbr) hi with hi | ⟨q, rfl, hq⟩
    · exact pieces_word h hp hi
    · have hq' : q = s%"\\right" := by
        cases br with
        | curly => exact absurd rfl hbr
        | round =>
          have := h5 (by simp [Bracket.close])
          exact List.append_inj_left' (t₁ := [Bracket.round.close]) (t₂ := s%")") this rfl
        | square =>
          have := h6 (by simp [Bracket.close])
          exact List.append_inj_left' (t₁ := [Bracket.square.close]) (t₂ := s%"]") this rfl
      subst hq'
      obtain ⟨e, he, hs⟩ := suffix_join (by simp) (by decide) hq
      exact (h e he).right hs
  · constructor
    · cases br <;> first | exact absurd rfl hbr | simp [Bracket.spell, Bracket.open]
    · rintro ⟨t, ht⟩
      cases br <;> first
        | exact absurd rfl hbr
        | simp [Bracket.spell, Bracket.open] at ht
  · intro u v d he
    cases hd : asciiDigit d with
    | false => rfl
    | true =>
      obtain ⟨e, hm, u', v', h'⟩ := hbase u v d s%"\\frac" (by decide) (by cases br <;> decide) (by cases br <;> decide) he hd
      rw [(h e hm).tidy.mixed u' v' d h'] at hd
      cases hd
  · intro u v d he
    cases hd : asciiDigit d with
    | false => rfl
    | true =>
      obtain ⟨e, hm, u', v', h'⟩ := hbase u v d s%"_" (by decide) (by cases br <;> decide) (by cases br <;> decide)
        (by simpa using he) hd
      rw [(h e hm).tidy.base u' v' d (by simpa using h')] at hd
      cases hd
  · have key : ∀ x : Char, x ≠ br.open → br.close ≠ ',' → ¬ [x, ','] <:+: join s%"," es → ¬ [x, ','] <:+: br.spell es := by
      intro x hx hc hn hi
      rcases infix_enclosed (by simpa using hx) hi with hi | ⟨q, hq, -⟩
      · exact hn hi
      · have : [x, ','] = [x] ++ [','] := rfl
        rw [this] at hq
        have := (List.append_inj' hq rfl).2
        simp only [List.cons.injEq, and_true] at this
        exact hc this.symm
    obtain ⟨h1, h2⟩ := pieces_commas h
    refine ⟨key '\\' (by cases br <;> decide) (by cases br <;> decide) h1, fun hi => ?_⟩
    refine key '{' (by cases br <;> first | decide | exact absurd rfl hbr) (by cases br <;> decide) h2 (List.IsInfix.trans ⟨[], s%"}", rfl⟩ hi)

/-- A list without brackets has nothing with a meaning to the normaliser. -/
theorem bare_neat {es : List Str} (h : Pieces es) : Neat (join s%"," es) := by
  have hbase : ∀ (u v : Str) (d : Char) (w : Str), ',' ∉ w → join s%"," es = u ++ d :: w ++ v →
      asciiDigit d = true → ∃ e ∈ es, ∃ u v, e = u ++ d :: w ++ v := by
    intro u v d w hc he hd
    have hne : d ≠ ',' := by rintro rfl; revert hd; decide
    obtain ⟨e, he, u', v', h'⟩ := infix_join (p := d :: w) (by simp) (by simp [hc, hne.symm]) ⟨u, v, he.symm⟩
    exact ⟨e, he, u', v', h'.symm⟩
  obtain ⟨e₁, e₂, es', rfl⟩ : ∃ e₁ e₂ es', es = e₁ :: e₂ :: es' := by
    match es, h.two with
    | e₁ :: e₂ :: es', _ => exact ⟨_, _, _, rfl⟩
  have hj : join s%"," (e₁ :: e₂ :: es') = e₁ ++ ',' :: join s%"," (e₂ :: es') := by simp [join]
  have p₁ := h.piece e₁ (by simp)
  obtain ⟨h1, h2⟩ := pieces_commas h.piece
  refine ⟨?_, fun p hp => pieces_word h.piece hp, ?_, ?_, ?_, h1, fun hi => h2 (List.IsInfix.trans ⟨[], s%"}", rfl⟩ hi)⟩
  · intro c hc
    rcases mem_join hc with rfl | ⟨e, he, hc⟩
    · decide
    · exact (h.piece e he).tidy.neat.chars c hc
  · rw [hj]
    constructor
    · cases e₁ with
      | nil => exact absurd rfl p₁.nonempty
      | cons c e => simpa using p₁.tidy.head.1
    · rintro ⟨t, ht⟩
      match e₁, p₁ with
      | [], p₁ => exact p₁.nonempty rfl
      | [c], p₁ => simp at ht
      | c :: d :: e, p₁ =>
        simp only [List.cons_append, List.nil_append, List.cons.injEq] at ht
        exact p₁.tidy.head.2 ⟨e, by rw [← ht.1, ← ht.2.1]; rfl⟩
  · intro u v d he
    cases hd : asciiDigit d with
    | false => rfl
    | true =>
      obtain ⟨e, hm, u', v', h'⟩ := hbase u v d s%"\\frac" (by decide) he hd
      rw [(h.piece e hm).tidy.mixed u' v' d h'] at hd
      cases hd
  · intro u v d he
    cases hd : asciiDigit d with
    | false => rfl
    | true =>
      obtain ⟨e, hm, u', v', h'⟩ := hbase u v d s%"_" (by decide) (by simpa using he) hd
      rw [(h.piece e hm).tidy.base u' v' d (by simpa using h')] at hd
      cases hd

/-- No comma of the list reads as a thousands separator. -/
theorem pieces_thousands {es : List Str} (h : Pieces es) (U : Uni) (post : Str) (hpost : ∀ c ∈ post.head?, isDigit U c = false)
    (hcp : ',' ∉ post) : ¬ ThousandsComma U (join s%"," es ++ post) := by
  rintro ⟨a, d, y, z₁, z₂, z₃, b, hs, -, d₁, d₂, d₃, hy⟩
  have hnc : ∀ e ∈ es, ',' ∉ e := fun e he => (h.piece e he).tidy.noComma
  obtain ⟨q, hq, hrest⟩ : ∃ q, join s%"," es = (a ++ [d]) ++ ',' :: q ∧ q ++ post = y ++ z₁ :: z₂ :: z₃ :: b := by
    have hs' : join s%"," es ++ post = (a ++ [d]) ++ ',' :: (y ++ z₁ :: z₂ :: z₃ :: b) := by rw [hs]; simp
    rcases prefix_of_append hs' with ⟨z, h1, h2⟩ | ⟨z, h1, h2⟩
    · cases z with
      | nil => simp at h2; rw [← h2] at hcp; simp at hcp
      | cons c cs =>
        simp at h2
        exact ⟨cs, by rw [h1, ← h2.1], h2.2.symm⟩
    · exact absurd (by rw [h2]; simp) hcp
  obtain ⟨es₁, e, es₂, h1, h2, -, h4⟩ := join_comma_split _ hnc _ _ hq
  have het : e ∈ es.tail := by
    cases es₁ with
    | nil => exact absurd rfl h2
    | cons e₀ es₁ => rw [h1]; simp
  have he := h.piece e (List.mem_of_mem_tail het)
  have h3 := h.apart e het
  obtain ⟨r, hr, hrd⟩ : ∃ r, q ++ post = e ++ r ∧ ∀ c ∈ r.head?, isDigit U c = false := by
    rw [h4]
    cases es₂ with
    | nil => exact ⟨post, rfl, hpost⟩
    | cons e' es₂ =>
      refine ⟨s%"," ++ join s%"," (e' :: es₂) ++ post, by simp [join], ?_⟩
      intro c hc; simp at hc; subst hc; simp [isDigit, asciiDigit]
  rw [hrest] at hr
  have hdig : ∀ c ∈ e, isDigit U c = true → asciiDigit c = true := fun c hc hd => he.tidy.neat.digit hc hd
  rcases hy with rfl | rfl
  · match e, he.nonempty with
    | [c₁], _ =>
      simp at hr
      have := hrd z₂ (by rw [← hr.2]; simp)
      rw [d₂] at this; cases this
    | [c₁, c₂], _ =>
      simp at hr
      have := hrd z₃ (by rw [← hr.2.2]; simp)
      rw [d₃] at this; cases this
    | c₁ :: c₂ :: c₃ :: e', _ =>
      simp at hr
      obtain ⟨rfl, rfl, rfl, -⟩ := hr
      simp only [startsThree, hdig _ (by simp) d₁, hdig _ (by simp) d₂, hdig _ (by simp) d₃, Bool.and_self] at h3
      cases h3
  · match e, he.nonempty with
    | c :: e', _ =>
      simp only [List.cons_append, List.nil_append, List.cons.injEq] at hr
      have := he.tidy.space (c := c) (by simp)
      rw [← hr.1] at this
      revert this; decide

theorem spell_thousands {es : List Str} (h : Pieces es) (U : Uni) {br : Bracket} (hbr : br ≠ .curly) : ¬ ThousandsComma U (br.spell es) := by
  have h1 : isDigit U br.open = false := by cases br <;> simp [Bracket.open, isDigit, asciiDigit]
  have h2 : isDigit U br.close = false := by cases br <;> simp [Bracket.close, isDigit, asciiDigit]
  rintro ⟨a, d, y, z₁, z₂, z₃, b, hs, hd, d₁, d₂, d₃, hy⟩
  cases a with
  | nil =>
    simp only [Bracket.spell, List.nil_append, List.cons.injEq] at hs
    rw [← hs.1, h1] at hd; cases hd
  | cons x a =>
    simp only [Bracket.spell, List.cons_append, List.cons.injEq] at hs
    exact pieces_thousands h U [br.close] (by intro c hc; simp at hc; rw [← hc]; exact h2) (by cases br <;> decide)
      ⟨a, d, y, z₁, z₂, z₃, b, hs.2, hd, d₁, d₂, d₃, hy⟩

/-- The way a list is written: in round or square brackets, or without. -/
abbrev Frame := Option Bracket

/-- The text of a list. -/
def Frame.text (f : Frame) (es : List Str) : Str := match f with
  | some br => br.spell es
  | none => join s%"," es

section
variable {es : List Str} (h : Pieces es)
include h

theorem Pieces.neat {f : Frame} (hf : f ≠ some .curly) : Neat (f.text es) := by
  cases f with
  | none => exact bare_neat h
  | some br => exact list_neat (by rintro rfl; exact hf rfl) h.piece

theorem Pieces.thousands (U : Uni) {f : Frame} (hf : f ≠ some .curly) : ¬ ThousandsComma U (f.text es) := by
  cases f with
  | none =>
    have := pieces_thousands h U [] (by simp) (by simp)
    rwa [List.append_nil] at this
  | some br => exact spell_thousands h U (by rintro rfl; exact hf rfl)

theorem Pieces.comma (f : Frame) : ',' ∈ f.text es := by
  have := join_comma_mem es h.two
  cases f with
  | none => exact this
  | some br => simp [Frame.text, Bracket.spell, this]

theorem Pieces.spells (U : Uni) {f : Frame} (hf : f ≠ some .curly) : Spells U f es (f.text es) where
  spelled := by cases f <;> rfl
  two := h.two
  elements e he := (h.piece e he).element
  last hl := (h.piece [] (List.mem_of_getLast? hl)).nonempty rfl
  thousands := h.thousands U hf

theorem Pieces.strip {f : Frame} (hf : f ≠ some .curly) : strip (f.text es) = f.text es :=
  strip_of_no_space _ fun _ hc => (h.neat hf).space hc

theorem Pieces.fixed (E : Env X V S) (n : Nat) {f : Frame} (hf : f ≠ some .curly) :
    Always (stringNormalize E (n + 1) (f.text es)) (.str (f.text es)) := by
  have hcl : litChar E.U ',' = false := by
    simp [litChar, isDigit, asciiDigit, isSpace]; decide
  have hp : pyFloat E.U (f.text es) = none := pyFloat_none ',' (h.comma f) hcl
  refine (h.neat hf).fixed E n (fun x hx => by rw [hp] at hx; cases hx) ?_
  unfold strIsInt
  rw [stripCommas_id _ _ (h.thousands E.U hf), hp]

omit h in
theorem infix_frame {p : Str} (h0 : p ≠ []) (hc : ',' ∉ p) (hb : ∀ x ∈ p, x ∉ s%"()[]{}") {f : Frame}
    (hi : p <:+: f.text es) : ∃ e ∈ es, p <:+: e := by
  cases f with
  | none => exact infix_join h0 hc hi
  | some br =>
    rcases infix_enclosed (by
      intro hh
      exact hb _ (List.mem_of_mem_head? hh) (by cases br <;> decide)) hi with hi | ⟨q, rfl, -⟩
    · exact infix_join h0 hc hi
    · exact absurd (by cases br <;> decide) (hb br.close (by simp))

theorem Pieces.notMatrix (f : Frame) : strIsMat (f.text es) = false := by
  refine (contains_eq_false _ _).2 fun hi => ?_
  obtain ⟨e, he, hi⟩ := infix_frame (by simp) (by decide) (by decide) hi
  exact (h.plain e he).2.2 hi

theorem Pieces.noIn : s%"\\in" ∉ es := fun hm => (h.piece _ hm).tidy.words _ (by decide) (List.infix_refl _)

end

/-! ### Ordered lists -/

open Classical in
theorem zipLoop_forall {f : Str → Str → M X Bool} {R : Str → Str → Prop} (as bs : List Str) (hl : as.length = bs.length)
    (h : ∀ a ∈ as, ∀ b ∈ bs, Always (f a b) (decide (R a b))) : Always (zipLoop f as bs) (decide (List.Forall₂ R as bs)) := by
  induction as generalizing bs with
  | nil =>
    cases bs with
    | nil => simpa [zipLoop] using Always.pure true
    | cons _ _ => simp at hl
  | cons a as ih =>
    cases bs with
    | nil => simp at hl
    | cons b bs =>
      simp only [zipLoop]
      apply (h a (by simp) b (by simp)).bind
      by_cases hR : R a b
      · simp only [hR, decide_true, if_true, List.forall₂_cons, true_and]
        exact ih bs (by simpa using hl) fun x hx y hy => h x (by simp [hx]) y (by simp [hy])
      · simpa [hR] using Always.pure false

/-! ### Unordered lists -/

/-- No element has two partners. -/
structure OneToOne (R : Str → Str → Prop) (as bs : List Str) : Prop where
  left : ∀ a ∈ as, ∀ b ∈ bs, ∀ b' ∈ bs, R a b → R a b' → b = b'
  right : ∀ a ∈ as, ∀ a' ∈ as, ∀ b ∈ bs, R a b → R a' b → a = a'

theorem free_sub {bs : List (Str × Bool)} {b : Str} (h : b ∈ freeElems bs) : b ∈ bs.map Prod.fst := by
  obtain ⟨p, hp, rfl⟩ := List.mem_map.1 h
  exact List.mem_map_of_mem (List.mem_of_mem_filter hp)

open Classical in
/-- Matching one element that has at most one partner. -/
theorem matchOne_rel {f : Str → M X Bool} {P : Str → Prop} (bs : List (Str × Bool)) (h : ∀ p ∈ bs, Always (f p.1) (decide (P p.1))) :
    ∃ r, Always (matchOne f bs) r ∧ ((¬ ∃ b ∈ freeElems bs, P b) → r = none) ∧
      ((∃ b ∈ freeElems bs, P b) → ∃ bs', r = some bs' ∧ bs'.map Prod.fst = bs.map Prod.fst ∧
        ∀ x, ¬ P x → (x ∈ freeElems bs' ↔ x ∈ freeElems bs)) := by
  induction bs with
  | nil => exact ⟨none, Always.pure _, fun _ => rfl, fun h => by simp [freeElems] at h⟩
  | cons p bs ih =>
    obtain ⟨r, r1, r2, r3⟩ := ih fun q hq => h q (by simp [hq])
    obtain ⟨b, flag⟩ := p
    cases flag with
    | true =>
      have hf : ∀ l, freeElems ((b, true) :: l) = freeElems l := fun l => by simp [freeElems]
      rw [hf]
      by_cases ha : ∃ b ∈ freeElems bs, P b
      · obtain ⟨bs', e1, e2, e3⟩ := r3 ha
        refine ⟨some ((b, true) :: bs'), ?_, fun h => absurd ha h, fun _ => ⟨_, rfl, by simp [e2], ?_⟩⟩
        · unfold matchOne
          apply r1.bind
          rw [e1]
          exact Always.pure _
        · intro x hx
          rw [hf, e3 x hx]
      · refine ⟨none, ?_, fun _ => rfl, fun h => absurd h ha⟩
        unfold matchOne
        apply r1.bind
        rw [r2 ha]
        exact Always.pure _
    | false =>
      have hf : ∀ l, freeElems ((b, false) :: l) = b :: freeElems l := fun l => by simp [freeElems]
      have hb := h (b, false) (by simp)
      rw [hf]
      by_cases hab : P b
      · refine ⟨some ((b, true) :: bs), ?_, fun h => absurd ⟨b, by simp, hab⟩ h, fun _ => ⟨_, rfl, by simp, ?_⟩⟩
        · unfold matchOne
          apply hb.bind
          simpa [hab] using Always.pure _
        · intro x hx
          have : x ≠ b := by rintro rfl; exact hx hab
          simp [freeElems, this]
      · have hb' : Always (f b) false := by simpa [hab] using hb
        by_cases ha : ∃ b ∈ freeElems bs, P b
        · obtain ⟨bs', e1, e2, e3⟩ := r3 ha
          refine ⟨some ((b, false) :: bs'), ?_, fun h => absurd (by obtain ⟨c, hc, hp⟩ := ha; exact ⟨c, by simp [hc], hp⟩) h,
            fun _ => ⟨_, rfl, by simp [e2], ?_⟩⟩
          · unfold matchOne
            apply hb'.bind
            simp only [Bool.false_eq_true, if_false]
            apply r1.bind
            rw [e1]
            exact Always.pure _
          · intro x hx
            rw [hf, List.mem_cons, List.mem_cons, e3 x hx]
        · refine ⟨none, ?_, fun _ => rfl, fun h => ?_⟩
          · unfold matchOne
            apply hb'.bind
            simp only [Bool.false_eq_true, if_false]
            apply r1.bind
            rw [r2 ha]
            exact Always.pure _
          · obtain ⟨c, hc, hp⟩ := h
            rcases List.mem_cons.1 hc with rfl | hc
            · exact absurd hp hab
            · exact absurd ⟨c, hc, hp⟩ ha

open Classical in
/-- Matching distinct elements that have at most one partner each. -/
theorem matchLoop_rel {f : Str → Str → M X Bool} {R : Str → Str → Prop} (as : List Str) (bs : List (Str × Bool)) (hnd : as.Nodup)
    (ho : OneToOne R as (bs.map Prod.fst)) (h : ∀ a ∈ as, ∀ b ∈ bs.map Prod.fst, Always (f a b) (decide (R a b))) :
    Always (matchLoop f as bs) (as.map fun a => decide (∃ b ∈ freeElems bs, R a b)) := by
  induction as generalizing bs with
  | nil => exact Always.pure _
  | cons a as ih =>
    rw [List.nodup_cons] at hnd
    have ho' : OneToOne R as (bs.map Prod.fst) := ⟨fun x hx => ho.left x (by simp [hx]), fun x hx y hy => ho.right x (by simp [hx]) y (by simp [hy])⟩
    obtain ⟨r, r1, r2, r3⟩ := matchOne_rel (f := f a) (P := R a) bs fun p hp => h a (by simp) p.1 (List.mem_map_of_mem hp)
    unfold matchLoop
    by_cases ha : ∃ b ∈ freeElems bs, R a b
    · obtain ⟨bs', e1, e2, e3⟩ := r3 ha
      apply r1.bind
      rw [e1]
      simp only
      apply (ih bs' hnd.2 (by rwa [e2]) fun x hx y hy => h x (by simp [hx]) y (by rwa [← e2])).bind
      have : (as.map fun x => decide (∃ b ∈ freeElems bs', R x b)) = as.map fun x => decide (∃ b ∈ freeElems bs, R x b) := by
        apply List.map_congr_left
        intro x hx
        have hn : ∀ b ∈ bs.map Prod.fst, R x b → ¬ R a b := by
          intro b hb h1 h2
          have := ho.right a (by simp) x (by simp [hx]) b hb h2 h1
          subst this
          exact hnd.1 hx
        apply decide_eq_decide.2
        constructor
        · rintro ⟨b, hb, hR⟩
          have hm : b ∈ bs.map Prod.fst := by rw [← e2]; exact free_sub hb
          exact ⟨b, (e3 b (hn b hm hR)).1 hb, hR⟩
        · rintro ⟨b, hb, hR⟩
          exact ⟨b, (e3 b (hn b (free_sub hb) hR)).2 hb, hR⟩
      rw [this, List.map_cons, decide_eq_true ha]
      exact Always.pure _
    · apply r1.bind
      rw [r2 ha]
      simp only
      apply (ih bs hnd.2 ho' fun x hx y hy => h x (by simp [hx]) y hy).bind
      rw [List.map_cons, decide_eq_false ha]
      exact Always.pure _

/-- Every element of each list has a partner in the other. -/
def Paired (R : Str → Str → Prop) (as bs : List Str) : Prop := (∀ a ∈ as, ∃ b ∈ bs, R a b) ∧ ∀ b ∈ bs, ∃ a ∈ as, R a b

/-- In ordered lists corresponding elements are related; in unordered lists every element has a partner. -/
def Agree (f : Frame) (R : Str → Str → Prop) (as bs : List Str) : Prop := match f with
  | some _ => List.Forall₂ R as bs
  | none => Paired R as bs

theorem paired_length {R : Str → Str → Prop} {as bs : List Str} (ho : OneToOne R as bs) (ha : as.Nodup)
    (h : ∀ a ∈ as, ∃ b ∈ bs, R a b) (hl : as.length = bs.length) : ∀ b ∈ bs, ∃ a ∈ as, R a b := by
  classical
  choose! g h1 h2 using h
  have hn : (as.map g).Nodup := ha.map_on fun a hm a' hm' e => ho.right a hm a' hm' (g a) (h1 a hm) (h2 a hm) (by rw [e]; exact h2 a' hm')
  have hs : as.map g ⊆ bs := by
    intro b hb
    obtain ⟨a, hm, rfl⟩ := List.mem_map.1 hb
    exact h1 a hm
  have hp := (hn.subperm hs).perm_of_length_le (by simp [hl])
  intro b hb
  obtain ⟨a, hm, rfl⟩ := List.mem_map.1 (hp.mem_iff.2 hb)
  exact ⟨a, hm, h2 a hm⟩

theorem paired_le {R : Str → Str → Prop} {as bs : List Str} (ho : OneToOne R as bs) (ha : as.Nodup)
    (h : ∀ a ∈ as, ∃ b ∈ bs, R a b) : as.length ≤ bs.length := by
  classical
  choose! g h1 h2 using h
  have hn : (as.map g).Nodup := ha.map_on fun a hm a' hm' e => ho.right a hm a' hm' (g a) (h1 a hm) (h2 a hm) (by rw [e]; exact h2 a' hm')
  have hs : as.map g ⊆ bs := by
    intro b hb
    obtain ⟨a, hm, rfl⟩ := List.mem_map.1 hb
    exact h1 a hm
  simpa using (hn.subperm hs).length_le

theorem OneToOne.symm {R : Str → Str → Prop} {as bs : List Str} (ho : OneToOne R as bs) : OneToOne (fun b a => R a b) bs as :=
  ⟨fun b hb a ha a' ha' h h' => ho.right a ha a' ha' b hb h h', fun b hb b' hb' a ha h h' => ho.left a ha b hb b' hb' h h'⟩

open Classical in
/-- The comparison of two unordered lists. -/
theorem sets_rel (ord : List Str → List Str) (hord : ∀ xs, (ord xs).Perm (dedup xs)) {f : Str → Str → M X Bool}
    {R : Str → Str → Prop} {as bs : List Str} (ho : OneToOne R as bs) (h : ∀ a ∈ as, ∀ b ∈ bs, Always (f a b) (decide (R a b)))
    (hin : s%"\\in" ∉ bs) : Always (sameKind (setsMatch f (ord as) (ord bs)) (ord as) (ord bs)) (decide (Paired R as bs), true) := by
  have mem : ∀ (xs : List Str) (x : Str), x ∈ ord xs ↔ x ∈ xs := fun xs x => by rw [(hord xs).mem_iff, mem_dedup]
  have nod : ∀ xs, (ord xs).Nodup := fun xs => (hord xs).nodup_iff.2 (nodup_dedup _)
  have ho' : OneToOne R (ord as) (ord bs) :=
    ⟨fun a ha b hb b' hb' => ho.left a ((mem _ _).1 ha) b ((mem _ _).1 hb) b' ((mem _ _).1 hb'),
      fun a ha a' ha' b hb => ho.right a ((mem _ _).1 ha) a' ((mem _ _).1 ha') b ((mem _ _).1 hb)⟩
  have hP : Paired R as bs ↔ Paired R (ord as) (ord bs) := by simp only [Paired, mem]
  have hfst : ((ord bs).map fun b => (b, false)).map Prod.fst = ord bs := by rw [List.map_map]; exact List.map_id _
  have hfree : freeElems ((ord bs).map fun b => (b, false)) = ord bs := by
    unfold freeElems
    rw [List.filter_eq_self.2 (by
      intro p hp
      obtain ⟨b, -, rfl⟩ := List.mem_map.1 hp
      rfl), hfst]
  have hmatch : Always (setsMatch f (ord as) (ord bs)) (decide (∀ a ∈ ord as, ∃ b ∈ ord bs, R a b)) := by
    unfold setsMatch
    apply (matchLoop_rel (f := f) (R := R) _ _ (nod as) (by rwa [hfst]) ?_).bind
    · rw [hfree]
      have : ((ord as).map fun a => decide (∃ b ∈ ord bs, R a b)).all id = decide (∀ a ∈ ord as, ∃ b ∈ ord bs, R a b) := by
        rw [Bool.eq_iff_iff, decide_eq_true_iff]
        simp
      rw [this]
      exact Always.pure _
    · intro a ha b hb
      rw [hfst] at hb
      exact h a ((mem _ _).1 ha) b ((mem _ _).1 hb)
  unfold sameKind
  by_cases hl : (ord as).length = (ord bs).length
  · rw [if_neg (by simp [hl])]
    have : decide (Paired R as bs) = decide (∀ a ∈ ord as, ∃ b ∈ ord bs, R a b) := by
      apply decide_eq_decide.2
      rw [hP]
      exact ⟨fun h => h.1, fun h => ⟨h, paired_length ho' (nod as) h hl⟩⟩
    rw [this]
    exact hmatch.bind (Always.pure _)
  · rw [if_pos ⟨hl, by rwa [mem]⟩]
    have : ¬ Paired R as bs := by
      rw [hP]
      intro h
      exact hl (le_antisymm (paired_le ho' (nod as) h.1) (paired_le ho'.symm (nod bs) h.2))
    simpa [this] using Always.pure (false, true)

/-! ### The comparison of two lists -/

section
variable {E : Env X V S} {as bs : List Str} {f f' : Frame}

open Classical in
/-- The tuple comparison of two lists. -/
theorem tuple_rel {eq : EqFun X} {verbose : Bool} {R : Str → Str → Prop} (pa : Pieces as) (pb : Pieces bs) (hf : f ≠ some .curly)
    (hf' : f' ≠ some .curly) (h : ∀ a ∈ as, ∀ b ∈ bs, Always (eq a b verbose) (decide (R a b)))
    (ho : f = none → f' = none → OneToOne R as bs) :
    Always (possibleTuple E eq (f.text as) (f'.text bs) verbose) (decide (f = f' ∧ Agree f R as bs), true) := by
  have sa := pa.spells E.U hf
  have sb := pb.spells E.U hf'
  intro w
  by_cases hk : f = f'
  · subst hk
    obtain ⟨w₁, -, -, h3⟩ := possibleTuple_run E eq _ _ verbose _ _
      (splitTuple_spells sa E.setOrder) (splitTuple_spells sb E.setOrder) w
    rw [h3]
    simp only [true_and]
    have main : Always (sameKind (zipLoop (fun x y => eq x y verbose) as bs) as bs) (decide (List.Forall₂ R as bs), true) := by
      unfold sameKind
      by_cases hl : as.length = bs.length
      · rw [if_neg (by simp [hl])]
        exact Always.bind (zipLoop_forall as bs hl h) (Always.pure _)
      · rw [if_pos ⟨hl, pb.noIn⟩]
        have : ¬ List.Forall₂ R as bs := fun h => hl h.length_eq
        simpa [this] using Always.pure (false, true)
    cases f with
    | none =>
      have := sets_rel E.setOrder E.setOrder_perm (ho rfl rfl) h pb.noIn
      rw [← elemsEquiv_set _ (Frame.text none as) (Frame.text none bs)] at this
      exact this w₁
    | some br =>
      cases br with
      | square =>
        rw [← elemsEquiv_list _ (Frame.text (some .square) as) (Frame.text (some .square) bs)] at main
        obtain ⟨w', hw⟩ := main w₁
        exact ⟨w', hw.trans (by congr 3; exact decide_eq_decide.2 Iff.rfl)⟩
      | round =>
        rw [← elemsEquiv_tuple _ (Frame.text (some .round) as) (Frame.text (some .round) bs)] at main
        obtain ⟨w', hw⟩ := main w₁
        exact ⟨w', hw.trans (by congr 3; exact decide_eq_decide.2 Iff.rfl)⟩
      | curly => exact absurd rfl hf
  · obtain ⟨w', -, h⟩ := C08_bracket_kind E eq f f' (by
      rcases f with _ | _ | _ | _ <;> rcases f' with _ | _ | _ | _ <;> first
        | exact absurd rfl hk | exact absurd rfl hf | exact absurd rfl hf' | decide) _ _ _ _ sa sb verbose w
    exact ⟨w', by simpa [hk] using h⟩

theorem frame_inj (U : Uni) (pa : Pieces as) (pb : Pieces bs) (hf : f ≠ some .curly) (hf' : f' ≠ some .curly)
    (h : f.text as = f'.text bs) : f = f' ∧ as = bs := by
  have e1 := splitTuple_spells (pa.spells U hf) id
  have e2 := splitTuple_spells (pb.spells U hf') id
  rw [h, e2] at e1
  rcases f with _ | _ | _ | _ <;> rcases f' with _ | _ | _ | _ <;> first
    | exact absurd rfl hf
    | exact absurd rfl hf'
    | (simp only [kindOf, RetType.wrap, Except.ok.injEq] at e1; injection e1 with e1; exact ⟨rfl, e1.symm⟩)
    | (simp only [kindOf, RetType.wrap, Except.ok.injEq, reduceCtorEq] at e1)

open Classical in
/-- The whole comparison of two lists, given the outcome of the interval comparison. -/
theorem lists_rel {n : Nat} {verbose : Bool} {R : Str → Str → Prop} {D : Prop} (pa : Pieces as) (pb : Pieces bs)
    (hf : f ≠ some .curly) (hf' : f' ≠ some .curly)
    (h : ∀ a ∈ as, ∀ b ∈ bs, Always (isEquivStr E (n + 2) a b verbose) (decide (R a b)))
    (ho : f = none → f' = none → OneToOne R as bs)
    (hI : hasBracket (f.text as) = true → AlwaysP (possibleIntervals E (f.text as) (f'.text bs)) fun p =>
      (p.1 = true → f = f' ∧ (Agree f R as bs ∨ D)) ∧ (f = f' → D → p.1 = true))
    (hD : hasBracket (f.text as) = false → ¬ D) :
    Always (isEquiv E (n + 3) (some (f.text as)) (some (f'.text bs)) verbose) (decide (f = f' ∧ (Agree f R as bs ∨ D))) := by
  by_cases hw : Nonempty (World X)
  swap
  · exact fun w => (hw ⟨w⟩).elim
  obtain ⟨w₀⟩ := hw
  have main := tuple_rel (E := E) pa pb hf hf' h ho
  have hem : (f'.text bs).isEmpty = false := by
    cases hb : f'.text bs with
    | nil => have := pb.comma f'; rw [hb] at this; cases this
    | cons _ _ => rfl
  -- the tuple comparison finds equal texts equal
  have same : f.text as = f'.text bs → f = f' ∧ Agree f R as bs := by
    intro he
    obtain ⟨hff, hab⟩ := frame_inj E.U pa pb hf hf' he
    refine ⟨hff, ?_⟩
    subst hab
    have hrefl : ∀ a ∈ as, R a a := by
      intro a ha
      have h1 := h a ha a ha
      have h2 : Always (isEquivStr E (n + 2) a a verbose) true := by
        unfold isEquivStr
        rw [if_pos rfl]
        exact Always.pure _
      exact decide_eq_true_iff.1 (h1.unique w₀ h2)
    cases f with
    | none => exact ⟨fun a ha => ⟨a, ha, hrefl a ha⟩, fun a ha => ⟨a, ha, hrefl a ha⟩⟩
    | some br => exact List.forall₂_same.2 hrefl
  simp only [isEquiv, isEquivStr, pa.strip hf, pb.strip hf']
  by_cases htx : f.text as = f'.text bs
  · rw [if_pos htx]
    obtain ⟨e1, e2⟩ := same htx
    rw [decide_eq_true ⟨e1, .inl e2⟩]
    exact Always.pure _
  rw [if_neg htx]
  apply (pa.fixed E (n + 1) hf).bind
  apply (pb.fixed E (n + 1) hf').bind
  apply print_always
  unfold compareNorms
  simp only [htx, decide_false, Bool.false_eq_true, if_false]
  apply Always.tryExcept
  have first : AlwaysP (if hasBracket (f.text as) then possibleIntervals E (f.text as) (f'.text bs) else pure (false, false))
      fun p => (p.1 = true → f = f' ∧ (Agree f R as bs ∨ D)) ∧ (f = f' → D → p.1 = true) := by
    cases hb : hasBracket (f.text as) with
    | true => simpa using hI hb
    | false => exact AlwaysP.pure ⟨by simp, fun _ h => absurd h (hD hb)⟩
  unfold isLatexEquiv
  simp only [hem, Bool.false_eq_true, if_false]
  apply first.always
  rintro ⟨c, s⟩ ⟨h1, h2⟩
  simp only [pa.notMatrix f, pb.notMatrix f', Bool.or_self, Bool.and_false, Bool.false_eq_true, if_false]
  cases c with
  | true =>
    rw [decide_eq_true (h1 rfl)]
    simp only [Bool.not_true, Bool.false_eq_true, if_false]
    apply (Always.pure (true, s)).bind
    apply (Always.pure (true, s)).bind
    simpa using Always.pure true
  | false =>
    have e : decide (f = f' ∧ (Agree f R as bs ∨ D)) = decide (f = f' ∧ Agree f R as bs) := by
      apply decide_eq_decide.2
      constructor
      · rintro ⟨e, h | h⟩
        · exact ⟨e, h⟩
        · exact absurd (h2 e h) (by simp)
      · rintro ⟨e, h⟩; exact ⟨e, .inl h⟩
    rw [e]
    simp only [Bool.not_false, if_true]
    apply main.bind
    apply (Always.pure _).bind
    simpa using Always.pure _

end

/-! ### Lists are not intervals -/

theorem AlwaysP.fails {α β : Type} {m : M X α} {f : α → M X β} {P : α → Prop} (h : AlwaysP m P) (h' : ∀ a, P a → Fails (f a)) :
    Fails (m >>= f) := by
  intro w
  obtain ⟨a, w₁, h, ha⟩ := h w
  obtain ⟨e, w', h'⟩ := h' a ha w₁
  exact ⟨e, w', by simp [h, h']⟩

theorem strToInterval_safe (E : Env X V S) (s : Str) : AlwaysP (strToInterval E s) fun _ => True := by
  intro w
  unfold strToInterval
  rcases h : (do let r ← unionLoop E E.emptySet (cupSplit s); pure (some r) : M X (Option S)) w with ⟨e | a, w'⟩
  · exact ⟨none, w', by simp only [M.tryExcept, h]; rfl, trivial⟩
  · exact ⟨a, w', by simp only [M.tryExcept, h], trivial⟩

/-- No signs of set operations. -/
theorem strToInterval_one {s : Str} (h1 : ∀ c ∈ s, c.toNat < 127) (h2 : ¬ s%"\\cup" <:+: s)
    (h3 : ¬ s%"\\cap" <:+: s) : cupSplit s = [s] ∧ capSplit s = [s] := by
  constructor
  · unfold cupSplit
    rw [(contains_eq_false _ _).2 (not_infix_of_not_mem '⋃' (by simp) fun h => absurd (h1 _ h) (by decide))]
    simp only [Bool.false_eq_true, if_false]
    exact split_none (by simp) h2 '\\' s%"cup" rfl (by decide)
  · unfold capSplit
    rw [(contains_eq_false _ _).2 (not_infix_of_not_mem '∩' (by simp) fun h => absurd (h1 _ h) (by decide))]
    simp only [Bool.false_eq_true, if_false]
    exact split_none (by simp) h3 '\\' s%"cap" rfl (by decide)

section
variable {E : Env X V S} {es : List Str} {f : Frame}

theorem Pieces.oneMember (h : Pieces es) (hf : f ≠ some .curly) : cupSplit (f.text es) = [f.text es] ∧ capSplit (f.text es) = [f.text es] := by
  refine strToInterval_one (fun c hc => ((h.neat hf).chars c hc).2.1) (fun hi => ?_) fun hi => ?_
  · obtain ⟨e, he, hi⟩ := infix_frame (by simp) (by decide) (by decide) hi
    exact (h.plain e he).2.1 hi
  · obtain ⟨e, he, hi⟩ := infix_frame (by simp) (by decide) (by decide) hi
    exact (h.plain e he).1 hi

theorem Pieces.split (h : Pieces es) (hf : f ≠ some .curly) :
    ∃ p : List Str, Verif.split s%"," (f.text es) = p ∧ p.length = es.length := by
  have h0 : es ≠ [] := by rintro rfl; exact absurd h.two (by simp)
  have hnc : ∀ e ∈ es, ',' ∉ e := fun e he => (h.piece e he).tidy.noComma
  obtain ⟨p, h1, h2, h3⟩ : ∃ p : List Str, f.text es = join s%"," p ∧ p.length = es.length ∧ ∀ e ∈ p, ',' ∉ e := by
    cases f with
    | none => exact ⟨es, rfl, rfl, hnc⟩
    | some br =>
      obtain ⟨p, h1, h2, h3⟩ := join_append_last es [br.close] h0 hnc (by cases br <;> decide)
      obtain ⟨q, h4, h5, h6⟩ := join_cons_first p br.open (by
        rintro rfl
        exact h0 (List.length_eq_zero_iff.1 h2.symm)) h3 (by cases br <;> decide)
      refine ⟨q, ?_, by rw [h5, h2], h6⟩
      rw [← h4, ← h1]; rfl
  refine ⟨p, ?_, h2⟩
  rw [h1]
  apply split_join _ (by simp) _ (by
    rintro rfl
    exact h0 (List.length_eq_zero_iff.1 h2.symm))
  intro e he
  exact noEarly_char _ _ (h3 e he)

theorem strToInterval_raises {s : Str} (h : cupSplit s = [s] ∧ capSplit s = [s]) (hf : Fails (oneInterval E s)) :
    Always (strToInterval E s) none := by
  unfold strToInterval
  rw [h.1]
  refine Fails.tryExcept ?_ fun _ => Always.pure _
  simp only [unionLoop]
  rw [h.2]
  simp only [interLoop]
  exact hf.bind.bind.bind

/-- Three or more elements are not an interval. -/
theorem Pieces.long (h : Pieces es) (hf : f ≠ some .curly) (hl : 3 ≤ es.length) : Always (strToInterval E (f.text es)) none := by
  refine strToInterval_raises (h.oneMember hf) ?_
  obtain ⟨p, h1, h2⟩ := h.split hf
  unfold oneInterval
  simp only [h.strip hf, h1]
  intro w
  match p, h2 with
  | [], _ => exact ⟨_, _, rfl⟩
  | [_], _ => exact ⟨_, _, rfl⟩
  | [_, _], h2 => simp only [List.length_cons, List.length_nil] at h2; omega
  | _ :: _ :: _ :: _, _ => exact ⟨_, _, rfl⟩

end

section
variable {E : Env X V S} {as bs : List Str} {f f' : Frame}

theorem intervals_long (pa : Pieces as) (pb : Pieces bs) (hf : f ≠ some .curly) (hf' : f' ≠ some .curly)
    (hl : 3 ≤ as.length ∨ 3 ≤ bs.length) : AlwaysP (possibleIntervals E (f.text as) (f'.text bs)) fun p => p.1 = false := by
  unfold possibleIntervals
  rcases hl with hl | hl
  · refine AlwaysP.bind ((pa.long hf hl).alwaysP (P := (· = none)) rfl) ?_
    rintro _ rfl
    refine AlwaysP.bind (strToInterval_safe E _) fun b _ => ?_
    cases b <;> exact AlwaysP.pure rfl
  · refine AlwaysP.bind (strToInterval_safe E _) fun a _ => ?_
    refine AlwaysP.bind ((pb.long hf' hl).alwaysP (P := (· = none)) rfl) ?_
    rintro _ rfl
    cases a <;> exact AlwaysP.pure rfl

open Classical in
/-- **C95.**  Two lists — in round or square brackets or without brackets — one of which has at least three elements are judged
equivalent exactly if they are written with the same brackets and agree element by element: in order if in brackets, in any order if
not.  `R` is the verdict on the elements. -/
theorem C95_elementwise {n : Nat} {verbose : Bool} {R : Str → Str → Prop} (pa : Pieces as) (pb : Pieces bs)
    (hf : f ≠ some .curly) (hf' : f' ≠ some .curly)
    (hl : 3 ≤ as.length ∨ 3 ≤ bs.length ∨ hasBracket (f.text as) = false)
    (h : ∀ a ∈ as, ∀ b ∈ bs, Always (isEquiv E (n + 2) (some a) (some b) verbose) (decide (R a b)))
    (ho : f = none → f' = none → OneToOne R as bs) :
    Always (isEquiv E (n + 3) (some (f.text as)) (some (f'.text bs)) verbose) (decide (f = f' ∧ Agree f R as bs)) := by
  have := lists_rel (D := False) pa pb hf hf' h ho (fun hb => ?_) fun _ => id
  · simpa using this
  · refine (intervals_long (E := E) pa pb hf hf' ?_).mono fun p hp => ⟨fun h => (by rw [hp] at h; cases h), fun _ => False.elim⟩
    rcases hl with hl | hl | hl
    · exact .inl hl
    · exact .inr hl
    · rw [hb] at hl; cases hl

end

/-! ### Pairs are also read as intervals -/

section
variable {K : Type} [Field K] [LinearOrder K] [IsStrictOrderedRing K]

open Classical in
/-- The CAS operations on the intervals that pairs of numbers are also read as: `pts s` is the set of points of `s`. -/
structure PairArith (E : Env X V S) (Ev : V → K → Prop) (pts : S → Set K) : Prop where
  isInt : ∀ {v q}, Ev v q → RetP (E.isIntNum v) fun b => b = true → RetP (E.toInteger v) (Ev · q)
  gtV : ∀ {a b p q}, Ev a p → Ev b q → Ret (E.gtV a b) (decide (q < p))
  interval : ∀ {a b p q} (lo ro : Bool), Ev a p → Ev b q → p ≤ q → RetP (E.interval a b lo ro) fun s =>
    pts s = {x | (if lo then p < x else p ≤ x) ∧ (if ro then x < q else x ≤ q)}
  empty : pts E.emptySet = ∅
  isEmpty : ∀ s, Ret (E.isEmptySet s) (decide (pts s = ∅))
  union : ∀ s t, RetP (E.union s t) fun u => pts u = pts s ∪ pts t
  compare : ∀ s t, Ret (E.compareEq s t) (decide (pts s = pts t))

variable {E : Env X V S} {Is Ev : V → K → Prop} {pts : S → Set K}

omit [IsStrictOrderedRing K] in
theorem numEnd_real (H : RealArith E Is Ev) (hP : PairArith E Ev pts) {v : V} {q : K} (h : Is v q) :
    AlwaysP (oneInterval.numEnd E v) (Ev · q) := by
  unfold oneInterval.numEnd
  refine AlwaysP.bind ((H.isNumber h).always.alwaysP (P := (· = true)) rfl) ?_
  rintro _ rfl
  simp only [if_true]
  refine AlwaysP.bind (H.evalf h).always fun v' hv' => ?_
  refine AlwaysP.bind (hP.isInt hv').always fun b hb => ?_
  cases b with
  | false => exact AlwaysP.pure hv'
  | true => exact (hb rfl).always

/-- A pair in brackets. -/
abbrev pairText (br : Bracket) (a b : Str) : Str := br.spell [a, b]

theorem pair_split {br : Bracket} {a b : Str} (ha : EndText a) (hb : EndText b) :
    split s%"," (pairText br a b) = [br.open :: a, b ++ [br.close]] := by
  have e : pairText br a b = join s%"," [br.open :: a, b ++ [br.close]] := by simp [Bracket.spell, join]
  rw [e]
  apply split_join _ (by simp) _ (by simp)
  intro p hp
  apply noEarly_char
  simp only [List.mem_cons, List.not_mem_nil, or_false] at hp
  rcases hp with rfl | rfl
  · simp only [List.mem_cons, not_or]
    exact ⟨by cases br <;> decide, fun h => (ha.plain _ h).1 rfl⟩
  · simp only [List.mem_append, List.mem_singleton, not_or]
    exact ⟨fun h => (hb.plain _ h).1 rfl, by cases br <;> decide⟩

theorem pair_left {br : Bracket} (hbr : br ≠ .curly) {a : Str} (ha : EndText a) :
    replace s%"[" [] (replace s%"(" [] (br.open :: a)) = a := by
  rw [replace_one_nil, replace_one_nil, List.filter_filter]
  have : (a.filter fun c => decide (c ≠ '[') && decide (c ≠ '(')) = a := by
    rw [List.filter_eq_self]
    intro c hc
    obtain ⟨-, h1, -, h2, -⟩ := ha.plain c hc
    simp [h1, h2]
  cases br <;> first | exact absurd rfl hbr | simpa [Bracket.open] using this

theorem pair_right {br : Bracket} (hbr : br ≠ .curly) {b : Str} (hb : EndText b) :
    replace s%"]" [] (replace s%")" [] (b ++ [br.close])) = b := by
  rw [replace_one_nil, replace_one_nil, List.filter_filter, List.filter_append]
  have : (b.filter fun c => decide (c ≠ ']') && decide (c ≠ ')')) = b := by
    rw [List.filter_eq_self]
    intro c hc
    obtain ⟨-, -, h1, -, h2, -⟩ := hb.plain c hc
    simp [h1, h2]
  rw [this]
  cases br <;> first | exact absurd rfl hbr | simp [Bracket.close]

theorem pair_contains {br : Bracket} (hbr : br ≠ .curly) {a b : Str} (ha : EndText a) (hb : EndText b) :
    contains s%"(" (pairText br a b) = (br == .round) ∧ contains s%")" (pairText br a b) = (br == .round) := by
  have hc : ∀ x : Char, contains [x] (pairText br a b) = decide (x ∈ pairText br a b) := by
    intro x
    rw [Bool.eq_iff_iff, contains_iff, decide_eq_true_iff]
    constructor
    · intro h; exact h.subset (by simp)
    · intro h
      obtain ⟨u, v, e⟩ := List.append_of_mem h
      exact ⟨u, v, by rw [e]; simp⟩
  have h1 : '(' ∉ a := fun h => (ha.plain _ h).2.1 rfl
  have h2 : '(' ∉ b := fun h => (hb.plain _ h).2.1 rfl
  have h3 : ')' ∉ a := fun h => (ha.plain _ h).2.2.1 rfl
  have h4 : ')' ∉ b := fun h => (hb.plain _ h).2.2.1 rfl
  rw [hc, hc]
  cases br <;> first
    | exact absurd rfl hbr
    | simp [Bracket.spell, join, Bracket.open, Bracket.close, h1, h2, h3, h4]

omit [IsStrictOrderedRing K] in
/-- What a text with one comma is read as when it is tried as an interval. -/
theorem text_interval (H : RealArith E Is Ev) (hP : PairArith E Ev pts) {s l r a b : Str} {x y : K} (hs : strip s = s)
    (hsp : split s%"," s = [l, r]) (hl : replace s%"[" [] (replace s%"(" [] l) = a) (hr : replace s%"]" [] (replace s%")" [] r) = b)
    (la : RetP (E.l2s a) (Is · x)) (lb : RetP (E.l2s b) (Is · y)) :
    (x ≤ y → AlwaysP (oneInterval E s) fun t => pts t = {p | (if contains s%"(" s then x < p else x ≤ p) ∧
      (if contains s%")" s then p < y else p ≤ y)}) ∧ (y < x → Fails (oneInterval E s)) := by
  have hbad : ∀ lv rv, Ev lv x → Ev rv y → Always (do
      if ← M.ext (E.isNumber lv) then
        if ← M.ext (E.isNumber rv) then M.ext (E.gtV lv rv) else pure false
      else pure false) (decide (y < x)) := by
    intro lv rv hl hr
    apply (H.isNumber (H.ev hl)).always.bind
    simp only [if_true]
    apply (H.isNumber (H.ev hr)).always.bind
    simp only [if_true]
    exact (hP.gtV hl hr).always
  unfold oneInterval
  simp only [hs, hsp, hl, hr]
  constructor
  · intro hxy
    refine AlwaysP.bind la.always fun lv hlv => ?_
    refine AlwaysP.bind lb.always fun rv hrv => ?_
    refine AlwaysP.bind (numEnd_real H hP hlv) fun lv hlv => ?_
    refine AlwaysP.bind (numEnd_real H hP hrv) fun rv hrv => ?_
    refine AlwaysP.bind ((hbad lv rv hlv hrv).alwaysP (P := (· = false)) (by simpa using hxy)) ?_
    rintro _ rfl
    simp only [Bool.false_eq_true, if_false]
    exact (hP.interval _ _ hlv hrv hxy).always
  · intro hxy
    refine AlwaysP.fails la.always fun lv hlv => ?_
    refine AlwaysP.fails lb.always fun rv hrv => ?_
    refine AlwaysP.fails (numEnd_real H hP hlv) fun lv hlv => ?_
    refine AlwaysP.fails (numEnd_real H hP hrv) fun rv hrv => ?_
    refine Always.fails (hbad lv rv hlv hrv) ?_
    rw [decide_eq_true hxy]
    exact fun w => ⟨_, _, rfl⟩

omit [IsStrictOrderedRing K] in
/-- What a pair is read as when it is tried as an interval. -/
theorem pair_interval (H : RealArith E Is Ev) (hP : PairArith E Ev pts) {br : Bracket} (hbr : br ≠ .curly) {a b : Str} {x y : K}
    (ha : EndText a) (hb : EndText b) (hs : strip (pairText br a b) = pairText br a b) (la : RetP (E.l2s a) (Is · x)) (lb : RetP (E.l2s b) (Is · y)) :
    (x ≤ y → AlwaysP (oneInterval E (pairText br a b)) fun s => pts s = between br x y) ∧
    (y < x → Fails (oneInterval E (pairText br a b))) := by
  obtain ⟨c1, c2⟩ := pair_contains hbr ha hb
  obtain ⟨h1, h2⟩ := text_interval H hP hs (pair_split ha hb) (pair_left hbr ha) (pair_right hbr hb) la lb
  refine ⟨fun hxy => (h1 hxy).mono fun s hs => ?_, h2⟩
  rw [hs, c1, c2]
  cases br <;> first
    | exact absurd rfl hbr
    | (ext p; exact Iff.rfl)

omit [Field K] [IsStrictOrderedRing K] in
theorem strToInterval_gives (hP : PairArith E Ev pts) {s : Str} {A : Set K} (h : cupSplit s = [s] ∧ capSplit s = [s])
    (ho : AlwaysP (oneInterval E s) fun t => pts t = A) :
    AlwaysP (strToInterval E s) fun o => ∃ t, o = some t ∧ pts t = A := by
  unfold strToInterval
  rw [h.1]
  apply AlwaysP.tryExcept
  simp only [unionLoop]
  rw [h.2]
  simp only [interLoop]
  refine AlwaysP.bind (P := fun t => pts t = A) ?_ fun r hr => AlwaysP.pure ⟨r, rfl, hr⟩
  refine AlwaysP.bind (P := fun t => pts t = A) ?_ fun t ht => ?_
  · refine AlwaysP.bind ho fun t ht => ?_
    refine AlwaysP.bind (P := fun t => pts t = A) ?_ fun r hr => AlwaysP.pure hr
    refine AlwaysP.bind ((hP.isEmpty E.emptySet).always.alwaysP (P := (· = true)) (by simp [hP.empty])) ?_
    rintro _ rfl
    exact AlwaysP.pure ht
  · refine AlwaysP.bind (hP.union E.emptySet t).always fun u hu => ?_
    refine AlwaysP.pure ?_
    rw [hu, hP.empty, ht, Set.empty_union]

/-- Pairs in brackets as intervals. -/
theorem pair_intervals (H : RealArith E Is Ev) (hP : PairArith E Ev pts) {br br' : Bracket} (hbr : br ≠ .curly) (hbr' : br' ≠ .curly)
    {a b c d : Str} {x y z t : K} (pa : Pieces [a, b]) (pb : Pieces [c, d]) (ha : EndText a) (hb : EndText b) (hc : EndText c)
    (hd : EndText d) (la : RetP (E.l2s a) (Is · x)) (lb : RetP (E.l2s b) (Is · y)) (lc : RetP (E.l2s c) (Is · z))
    (ld : RetP (E.l2s d) (Is · t)) :
    AlwaysP (possibleIntervals E (pairText br a b) (pairText br' c d)) fun p =>
      (p.1 = true → br = br' ∧ ((x = z ∧ y = t) ∨ (br = .round ∧ x = y ∧ z = t))) ∧
      (br = br' → br = .round ∧ x = y ∧ z = t → p.1 = true) := by
  have hf : (some br : Frame) ≠ some .curly := by simpa using hbr
  have hf' : (some br' : Frame) ≠ some .curly := by simpa using hbr'
  have key : ∀ {br : Bracket} {a b : Str} {x y : K}, br ≠ .curly → Pieces [a, b] → EndText a → EndText b →
      RetP (E.l2s a) (Is · x) → RetP (E.l2s b) (Is · y) → AlwaysP (strToInterval E (pairText br a b)) fun o =>
        (o = none ∧ y < x) ∨ ∃ s, o = some s ∧ x ≤ y ∧ pts s = between br x y := by
    intro br a b x y hbr pa ha hb la lb
    have hf : (some br : Frame) ≠ some .curly := by simpa using hbr
    obtain ⟨h1, h2⟩ := pair_interval H hP hbr ha hb (pa.strip hf) la lb
    rcases le_or_gt x y with hxy | hxy
    · refine (strToInterval_gives hP (pa.oneMember hf) (h1 hxy)).mono ?_
      rintro _ ⟨s, rfl, hs⟩
      exact .inr ⟨s, rfl, hxy, hs⟩
    · refine (strToInterval_raises (pa.oneMember hf) (h2 hxy)).alwaysP (P := fun o => _) ?_
      exact .inl ⟨rfl, hxy⟩
  unfold possibleIntervals
  refine AlwaysP.bind (key hbr pa ha hb la lb) fun o ho => ?_
  refine AlwaysP.bind (key hbr' pb hc hd lc ld) fun o' ho' => ?_
  rcases ho with ⟨rfl, hxy⟩ | ⟨s, rfl, hxy, hs⟩
  · rcases ho' with ⟨rfl, hzt⟩ | ⟨s', rfl, hzt, hs'⟩
    · exact AlwaysP.pure ⟨by simp, fun _ h => absurd hxy (by rw [h.2.1]; exact lt_irrefl _)⟩
    · exact AlwaysP.pure ⟨by simp, fun _ h => absurd hxy (by rw [h.2.1]; exact lt_irrefl _)⟩
  · rcases ho' with ⟨rfl, hzt⟩ | ⟨s', rfl, hzt, hs'⟩
    · exact AlwaysP.pure ⟨by simp, fun _ h => absurd hzt (by rw [h.2.2]; exact lt_irrefl _)⟩
    · refine AlwaysP.bind ((hP.compare s s').always.alwaysP (P := fun c => c = true ↔ pts s = pts s') (by simp)) fun c hc => ?_
      rw [hs, hs', between_eq hbr hbr' hxy hzt] at hc
      have hmain : (c = true → br = br' ∧ ((x = z ∧ y = t) ∨ (br = .round ∧ x = y ∧ z = t))) ∧
        (br = br' → br = .round ∧ x = y ∧ z = t → c = true) := ⟨hc.1, fun e h => hc.2 ⟨e, .inr h⟩⟩
      cases c <;> exact AlwaysP.pure hmain

open Classical in
/-- The whole comparison of two pairs in brackets. -/
theorem pairs_rel (H : RealArith E Is Ev) (hP : PairArith E Ev pts) {br br' : Bracket} (hbr : br ≠ .curly) (hbr' : br' ≠ .curly)
    {a b c d : Str} {x y z t : K} (pa : Pieces [a, b]) (pb : Pieces [c, d]) (ha : EndText a) (hb : EndText b) (hc : EndText c)
    (hd : EndText d) (la : RetP (E.l2s a) (Is · x)) (lb : RetP (E.l2s b) (Is · y)) (lc : RetP (E.l2s c) (Is · z))
    (ld : RetP (E.l2s d) (Is · t)) {n : Nat} {verbose : Bool} {R : Str → Str → Prop}
    (h : ∀ u ∈ [a, b], ∀ v ∈ [c, d], Always (isEquiv E (n + 2) (some u) (some v) verbose) (decide (R u v)))
    (h1 : x = z → R a c) (h2 : y = t → R b d) :
    Always (isEquiv E (n + 3) (some (pairText br a b)) (some (pairText br' c d)) verbose)
      (decide (br = br' ∧ ((R a c ∧ R b d) ∨ (br = .round ∧ x = y ∧ z = t)))) := by
  have hf : (some br : Frame) ≠ some .curly := by simpa using hbr
  have hf' : (some br' : Frame) ≠ some .curly := by simpa using hbr'
  have hA : Agree (some br) R [a, b] [c, d] ↔ R a c ∧ R b d := by
    show List.Forall₂ R [a, b] [c, d] ↔ _
    simp
  have main := lists_rel (E := E) (f := some br) (f' := some br') (n := n) (verbose := verbose) (R := R)
    (D := br = .round ∧ x = y ∧ z = t) pa pb hf hf' h (by simp) (fun _ => ?_) (fun hb' => ?_)
  · intro w
    obtain ⟨w', hw⟩ := main w
    refine ⟨w', hw.trans ?_⟩
    congr 2
    apply decide_eq_decide.2
    rw [hA, Option.some.injEq]
  · refine (pair_intervals H hP hbr hbr' pa pb ha hb hc hd la lb lc ld).mono fun p hp => ⟨fun hp1 => ?_, fun e hD => ?_⟩
    · obtain ⟨e, h⟩ := hp.1 hp1
      exact ⟨by rw [e], h.imp_left fun h => hA.2 ⟨h1 h.1, h2 h.2⟩⟩
    · exact hp.2 (by simpa using e) hD
  · exfalso
    have : hasBracket (pairText br a b) = true := by
      have hc : ∀ x : Char, x ∈ pairText br a b → contains [x] (pairText br a b) = true := by
        intro x h
        rw [contains_iff]
        obtain ⟨u, v, e⟩ := List.append_of_mem h
        exact ⟨u, v, by rw [e]; simp⟩
      unfold hasBracket
      cases br with
      | square => rw [hc '[' (by simp [Bracket.spell, Bracket.open])]; simp
      | round => rw [hc '(' (by simp [Bracket.spell, Bracket.open])]; simp
      | curly => exact absurd rfl hbr
    rw [show Frame.text (some br) [a, b] = pairText br a b from rfl, this] at hb'
    cases hb'

omit [Field K] [IsStrictOrderedRing K] in
/-- Two lists that are read as the same interval are judged equivalent. -/
theorem lists_by_interval (hP : PairArith E Ev pts) {as bs : List Str} {f f' : Frame} {n : Nat} {verbose : Bool} {A : Set K}
    (pa : Pieces as) (pb : Pieces bs) (hf : f ≠ some .curly) (hf' : f' ≠ some .curly) (hbk : hasBracket (f.text as) = true)
    (h1 : AlwaysP (oneInterval E (f.text as)) fun t => pts t = A) (h2 : AlwaysP (oneInterval E (f'.text bs)) fun t => pts t = A) :
    Always (isEquiv E (n + 3) (some (f.text as)) (some (f'.text bs)) verbose) true := by
  have hem : (f'.text bs).isEmpty = false := by
    cases hb : f'.text bs with
    | nil => have := pb.comma f'; rw [hb] at this; cases this
    | cons _ _ => rfl
  simp only [isEquiv, isEquivStr, pa.strip hf, pb.strip hf']
  by_cases htx : f.text as = f'.text bs
  · rw [if_pos htx]
    exact Always.pure _
  rw [if_neg htx]
  apply (pa.fixed E (n + 1) hf).bind
  apply (pb.fixed E (n + 1) hf').bind
  apply print_always
  unfold compareNorms
  simp only [htx, decide_false, Bool.false_eq_true, if_false]
  apply Always.tryExcept
  unfold isLatexEquiv
  simp only [hem, Bool.false_eq_true, if_false, hbk, if_true]
  have first : AlwaysP (possibleIntervals E (f.text as) (f'.text bs)) fun p => p = (true, true) := by
    unfold possibleIntervals
    refine AlwaysP.bind (strToInterval_gives hP (pa.oneMember hf) h1) ?_
    rintro _ ⟨s, rfl, hs⟩
    refine AlwaysP.bind (strToInterval_gives hP (pb.oneMember hf') h2) ?_
    rintro _ ⟨t, rfl, ht⟩
    refine AlwaysP.bind ((hP.compare s t).always.alwaysP (P := (· = true)) (by simp [hs, ht])) ?_
    rintro _ rfl
    exact AlwaysP.pure rfl
  apply first.always
  rintro _ rfl
  simp only [Bool.not_true, Bool.false_eq_true, if_false]
  apply (Always.pure (true, true)).bind
  apply (Always.pure (true, true)).bind
  simpa using Always.pure true

end
end Verif

namespace Verif.L2S
open Re Verif.Grammar Verif.Reading

variable {K : Type} [Field K] [LinearOrder K] [IsStrictOrderedRing K]
variable {Y S : Type} {E : Env (St Y) SV S} {L : Lib Y} {I : Interp K} {Is Ev : SV → K → Prop} {N : Nat}

/-- An answer is read as its value by `latex2sympy`. -/
theorem Answer.reads (hL : SoundLib I L) (hp : ∀ s t, parseText s = some t → L.parse s = .ok t) (hl : UsesLatex2sympy E L N)
    (hlit : ∀ l : Literal, Exactly E I Is l.text (l.value : K)) {a : Str} {x : K} (h : Answer E I Is a x) :
    RetP (E.l2s a) (Is · x) := by
  cases h with
  | literal l ht =>
    obtain ⟨ws, hw, hd⟩ := literal_denotes I false l
    exact (reads_text hL hp hl hw hd (hlit l)).l2s
  | text ht hs hf hw hd he => exact (reads_text hL hp hl hw hd he).l2s

open Classical in
/-- **C95.**  Two lists of answers in LaTeX notation — in round or square brackets or without brackets — one of which has at least three
elements are judged equivalent exactly if they are written with the same brackets and the values of the elements agree within the
tolerance: in order if in brackets, in any order if not.  `val` gives the values of the elements. -/
theorem C95_lists_partial (H : RealArith E Is Ev) (hL : SoundLib I L) (hp : ∀ s t, parseText s = some t → L.parse s = .ok t)
    (hl : UsesLatex2sympy E L N) (hE : PrintsIntegers E) (hlit : ∀ l : Literal, Exactly E I Is l.text (l.value : K))
    {as bs : List Str} {f f' : Frame} (val : Str → K) (pa : Pieces as) (pb : Pieces bs)
    (hf : f ≠ some .curly) (hf' : f' ≠ some .curly) (h3 : 3 ≤ as.length ∨ 3 ≤ bs.length ∨ hasBracket (f.text as) = false)
    (ha : ∀ a ∈ as, Answer E I Is a (val a)) (hb : ∀ b ∈ bs, Answer E I Is b (val b))
    (ho : f = none → f' = none → OneToOne (fun a b => WithinTolerance (val a) (val b)) as bs) (n : Nat) (verbose : Bool) :
    Always (isEquiv E (n + 3) (some (f.text as)) (some (f'.text bs)) verbose)
      (decide (f = f' ∧ Agree f (fun a b => WithinTolerance (val a) (val b)) as bs)) :=
  C95_elementwise pa pb hf hf' h3 (fun a hm b hm' => by
    convert C84_judged_by_value_partial H hL hp hl hE hlit (ha a hm) (hb b hm') n verbose) ho

open Classical in
/-- **C95** for pairs in brackets: they are judged equivalent exactly if they are written with the same brackets and agree coordinate
by coordinate — or both are in round brackets and each has equal coordinates (the violation of C74).  The coordinates have no brackets of
their own, see `C95_coordinates_refuted`. -/
theorem C95_pairs_partial (H : RealArith E Is Ev) {pts : S → Set K} (hP : PairArith E Ev pts) (hL : SoundLib I L)
    (hp : ∀ s t, parseText s = some t → L.parse s = .ok t)
    (hl : UsesLatex2sympy E L N) (hE : PrintsIntegers E) (hlit : ∀ l : Literal, Exactly E I Is l.text (l.value : K))
    {br br' : Bracket} (hbr : br ≠ .curly) (hbr' : br' ≠ .curly) {a b c d : Str} {x y z t : K} (pa : Pieces [a, b])
    (pb : Pieces [c, d]) (hs : ∀ s ∈ [a, b, c, d], EndText s) (ha : Answer E I Is a x) (hb : Answer E I Is b y)
    (hc : Answer E I Is c z) (hd : Answer E I Is d t) (n : Nat) (verbose : Bool) :
    Always (isEquiv E (n + 3) (some (pairText br a b)) (some (pairText br' c d)) verbose)
      (decide (br = br' ∧ ((WithinTolerance x z ∧ WithinTolerance y t) ∨ (br = .round ∧ x = y ∧ z = t)))) := by
  by_cases hw : Nonempty (World (St Y))
  swap
  · exact fun w => (hw ⟨w⟩).elim
  obtain ⟨w⟩ := hw
  have judge : ∀ {u v : Str} {p q : K}, Answer E I Is u p → Answer E I Is v q →
      Always (isEquiv E (n + 2) (some u) (some v) verbose) (decide (WithinTolerance p q)) := by
    intro u v p q hu hv
    convert C84_judged_by_value_partial H hL hp hl hE hlit hu hv n verbose
  let R : Str → Str → Prop := fun u v => Always (isEquiv E (n + 2) (some u) (some v) verbose) true
  have hR : ∀ {u v : Str} {p q : K}, Answer E I Is u p → Answer E I Is v q → (R u v ↔ WithinTolerance p q) := by
    intro u v p q hu hv
    constructor
    · intro h
      exact decide_eq_true_iff.1 ((judge hu hv).unique w h)
    · intro h
      have := judge hu hv
      rwa [decide_eq_true h] at this
  have main := pairs_rel (R := R) H hP hbr hbr' pa pb (hs a (by simp)) (hs b (by simp)) (hs c (by simp)) (hs d (by simp))
    (ha.reads hL hp hl hlit) (hb.reads hL hp hl hlit) (hc.reads hL hp hl hlit) (hd.reads hL hp hl hlit) (n := n) (verbose := verbose)
    (by
      have all : ∀ u ∈ [a, b], ∃ p, Answer E I Is u p := by
        intro u hu
        simp only [List.mem_cons, List.not_mem_nil, or_false] at hu
        rcases hu with rfl | rfl <;> exact ⟨_, by assumption⟩
      have all' : ∀ u ∈ [c, d], ∃ p, Answer E I Is u p := by
        intro u hu
        simp only [List.mem_cons, List.not_mem_nil, or_false] at hu
        rcases hu with rfl | rfl <;> exact ⟨_, by assumption⟩
      intro u hu v hv
      obtain ⟨p, hu⟩ := all u hu
      obtain ⟨q, hv⟩ := all' v hv
      have := judge hu hv
      rwa [← decide_eq_decide.2 (hR hu hv)] at this)
    (fun e => (hR ha hc).2 (.inl e)) (fun e => (hR hb hd).2 (.inl e))
  rw [hR ha hc, hR hb hd] at main
  exact main

end Verif.L2S
