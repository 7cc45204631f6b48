import Verif.Props.ListsReal
import Verif.Props.Interval

/-! # C97: unions of intervals

Two unions of intervals are judged by the sets of points that they denote. -/

namespace Verif

variable {X V S : Type} {K : Type}

/-! ### Specification -/

/-- The text of an end point: a tidy text or infinity. -/
structure EndWord (e : Str) : Prop where
  kind : Tidy e ∨ e ∈ [s%"\\infty", s%"-\\infty", s%"+\\infty"]
  nonempty : e ≠ []
  last : ∀ p ∈ [s%"\\", s%"{", s%"\\right"], ¬ p <:+ e
  matrix : ¬ s%"matrix" <:+: e
  element : Element e

/-- The intervals of a union: the end points are words, and no comma reads as a thousands separator. -/
structure Itv.Wordy (i : Itv K) : Prop where
  left : EndWord i.left
  right : EndWord i.right
  three : startsThree i.right = false

/-- The text of a union of intervals. -/
def unionText (is : List (Itv K)) : Str := join s%"\\cup" (is.map Itv.text)

/-- The points of a union of intervals. -/
def unionPoints [LinearOrder K] (is : List (Itv K)) : Set K := {p | ∃ i ∈ is, p ∈ i.points}

/-- One interval, in round or in square brackets: also a point, or a list of two numbers. -/
def IsPair (is : List (Itv K)) : Prop := ∃ i, is = [i] ∧ i.leftOpen = i.rightOpen

/-- None of the three parsers reads the text. -/
structure Unread (E : Env X V S) (s : Str) : Prop where
  l2s : ∀ x, ∃ e x', E.l2s s x = (.error e, x')
  parseLatex : ∀ x, ∃ e x', E.parseLatex s x = (.error e, x')
  parseExpr : ∀ x, ∃ e x', E.parseExpr (replace s%"^" s%"**" s) x = (.error e, x')

open Classical in
/-- The comparison of two sets by the computer algebra system tells whether they have the same points. -/
def ComparesSets (E : Env X V S) (pts : S → Set K) : Prop := ∀ s t, Ret (E.compareEq s t) (decide (pts s = pts t))

/-! ### Occurrences in unions -/

theorem infix_delim {p u v : Str} {x : Char} (hx : x ∉ p.dropLast) (h : p <:+: u ++ x :: v) :
    p <:+: u ∨ p <:+: v ∨ (p = p.dropLast ++ [x] ∧ p.dropLast <:+ u) := by
  have key : ∀ p1 p2 : Str, p = p1 ++ x :: p2 → p2 = [] := by
    intro p1 p2 e
    cases p2 with
    | nil => rfl
    | cons y ys =>
      refine absurd ?_ hx
      rw [e, List.dropLast_append_of_ne_nil (by simp), List.dropLast_cons_cons]
      simp
  rcases Grammar.infix_append h with ⟨a1, a2, rfl, h2, r, hr⟩ | h
  · rcases prefix_of_append hr with ⟨z, rfl, hz⟩ | ⟨z, rfl, -⟩
    · cases z with
      | nil => exact .inl ⟨a1, [], by simp⟩
      | cons y z =>
        simp only [List.cons_append, List.cons.injEq] at hz
        obtain ⟨rfl, -⟩ := hz
        have := key a2 z rfl
        subst this
        exact .inr (.inr ⟨by simp, by simp⟩)
    · exact .inl ⟨a1, z, by simp⟩
  · rcases List.infix_cons_iff.1 h with h | h
    · cases p with
      | nil => exact .inl List.nil_infix
      | cons y p =>
        obtain ⟨rfl, -⟩ := List.cons_prefix_cons.1 h
        have := key [] p rfl
        subst this
        exact .inr (.inr ⟨rfl, by simp⟩)
    · exact .inr (.inl h)

/-- The word does not extend over the signs of a union. -/
def inert (p : Str) : Bool :=
  decide (2 ≤ p.length) && p.dropLast.all (fun c => !(s%"()[],").contains c) && !contains p s%"\\cup" &&
    (match p.getLast? with
    | some c => if (s%"([").contains c then !p.dropLast.isSuffixOf s%"\\cup"
      else if (s%")],").contains c then [s%"\\", s%"{", s%"\\right"].contains p.dropLast else true
    | none => false)

theorem inert_delim {p : Str} (h : inert p = true) {x : Char} (hx : x ∈ s%"()[],") : x ∉ p.dropLast := by
  simp only [inert, Bool.and_eq_true, List.all_eq_true, Bool.not_eq_true'] at h
  intro hm
  have := h.1.1.2 x hm
  rw [List.contains_iff_mem.2 hx] at this
  cases this

theorem inert_last {p q : Str} {x : Char} (h : inert p = true) (e : p = q ++ [x]) : 1 ≤ q.length ∧
    (x ∈ s%"([" → ¬ q <:+ s%"\\cup") ∧ (x ∈ s%")]," → q ∈ [s%"\\", s%"{", s%"\\right"]) := by
  subst e
  simp only [inert, Bool.and_eq_true, List.dropLast_concat, List.getLast?_concat, decide_eq_true_eq, List.length_append,
    List.length_singleton] at h
  obtain ⟨⟨⟨h1, -⟩, -⟩, h4⟩ := h
  refine ⟨by omega, fun hx hs => ?_, fun hx => ?_⟩
  · rw [if_pos (List.contains_iff_mem.2 hx), List.isSuffixOf_iff_suffix.2 hs] at h4
    cases h4
  · have hx' : x ∉ s%"([" := by
      revert hx
      simp only [List.mem_cons, List.not_mem_nil, or_false]
      rintro (rfl | rfl | rfl) <;> decide
    rw [if_neg (by rw [List.contains_iff_mem]; exact hx'), if_pos (List.contains_iff_mem.2 hx)] at h4
    exact List.contains_iff_mem.1 h4

theorem itv_infix {p : Str} (hp : inert p = true) {i : Itv K} (hi : i.Wordy) (hl : ¬ p <:+: i.left) (hr : ¬ p <:+: i.right) {u t : Str}
    (hu : ¬ p <:+: u) (hs : u = [] ∨ u = s%"\\cup") (h : p <:+: u ++ (i.text ++ t)) : p <:+: t := by
  have e : u ++ (i.text ++ t) = u ++ (if i.leftOpen then '(' else '[') :: (i.left ++ ',' :: (i.right ++ (if i.rightOpen then ')' else ']') :: t)) := by
    simp [Itv.text]
  rw [e] at h
  rcases infix_delim (inert_delim hp (by cases i.leftOpen <;> decide)) h with h | h | ⟨h1, h2⟩
  · exact absurd h hu
  · rcases infix_delim (inert_delim hp (by decide)) h with h | h | ⟨h1, h2⟩
    · exact absurd h hl
    · rcases infix_delim (inert_delim hp (by cases i.rightOpen <;> decide)) h with h | h | ⟨h1, h2⟩
      · exact absurd h hr
      · exact h
      · exact absurd h2 (hi.right.last _ ((inert_last hp h1).2.2 (by cases i.rightOpen <;> decide)))
    · exact absurd h2 (hi.left.last _ ((inert_last hp h1).2.2 (by decide)))
  · obtain ⟨k1, k2, -⟩ := inert_last hp h1
    rcases hs with rfl | rfl
    · have := List.eq_nil_of_suffix_nil h2
      rw [this] at k1
      simp at k1
    · exact absurd h2 (k2 (by cases i.leftOpen <;> decide))

theorem unionText_cons (i j : Itv K) (is : List (Itv K)) : unionText (i :: j :: is) = i.text ++ (s%"\\cup" ++ unionText (j :: is)) := by
  simp [unionText, join]

theorem union_infix {p : Str} (hp : inert p = true) {is : List (Itv K)} (hw : ∀ i ∈ is, i.Wordy)
    (hn : ∀ i ∈ is, ¬ p <:+: i.left ∧ ¬ p <:+: i.right) : ¬ p <:+: unionText is := by
  have h0 : ¬ p <:+: [] := by
    intro h
    rw [List.infix_nil.1 h] at hp
    simp [inert] at hp
  have hc : ¬ p <:+: s%"\\cup" := by
    simp only [inert, Bool.and_eq_true, Bool.not_eq_true'] at hp
    exact (contains_eq_false _ _).1 hp.1.2
  have key : ∀ (is : List (Itv K)) (u : Str), (u = [] ∨ u = s%"\\cup") → (∀ i ∈ is, i.Wordy) →
      (∀ i ∈ is, ¬ p <:+: i.left ∧ ¬ p <:+: i.right) → is ≠ [] → ¬ p <:+: u ++ unionText is := by
    intro is
    induction is with
    | nil => intro _ _ _ _ h; exact absurd rfl h
    | cons i is ih =>
      intro u hu hw hn _ h
      have hu' : ¬ p <:+: u := by rcases hu with rfl | rfl <;> assumption
      obtain ⟨h1, h2⟩ := hn i (by simp)
      cases is with
      | nil =>
        have : unionText [i] = i.text ++ [] := by simp [unionText, join]
        rw [this] at h
        exact h0 (itv_infix hp (hw i (by simp)) h1 h2 hu' hu h)
      | cons j is =>
        rw [unionText_cons] at h
        exact ih _ (.inr rfl) (fun k hk => hw k (by simp [hk])) (fun k hk => hn k (by simp [hk])) (by simp)
          (itv_infix hp (hw i (by simp)) h1 h2 hu' hu h)
  cases is with
  | nil => exact h0
  | cons i is => exact key _ [] (.inl rfl) hw hn (by simp)

/-! ### The normal form -/

def asciiLetters : Str := s%"abcdefghijklmnopqrstuvwxyzABCDEFGHIJKLMNOPQRSTUVWXYZ"

theorem mem_letters {c : Char} (h : asciiAlpha c = true) : c ∈ asciiLetters := by
  have key : ∀ n, n < 128 → asciiAlpha (Char.ofNat n) = true → Char.ofNat n ∈ asciiLetters := by decide +kernel
  have : c.toNat < 128 := by
    simp only [asciiAlpha, asciiLower, asciiUpper, Bool.or_eq_true, decide_eq_true_eq] at h
    rcases h with h | h
    · have := h.2; have : c.toNat ≤ 'z'.toNat := this; simp at this; omega
    · have := h.2; have : c.toNat ≤ 'Z'.toNat := this; simp at this; omega
  have := key c.toNat this (by rwa [Char.ofNat_toNat])
  rwa [Char.ofNat_toNat] at this

theorem mem_digits {c : Char} (h : asciiDigit c = true) : c ∈ s%"0123456789" := by
  have key : ∀ n, n < 128 → asciiDigit (Char.ofNat n) = true → Char.ofNat n ∈ s%"0123456789" := by decide +kernel
  have : c.toNat < 128 := by
    simp only [asciiDigit, decide_eq_true_eq] at h
    have := h.2; have : c.toNat ≤ '9'.toNat := this; simp at this; omega
  have := key c.toNat this (by rwa [Char.ofNat_toNat])
  rwa [Char.ofNat_toNat] at this

/-- the words that the text of a union must not have -/
def unionWords : List Str := s%"\\\\" :: s%"\\," :: s%"{," :: s%"matrix" :: clearSpecial ++
  (s%"0123456789").map (· :: s%"\\frac") ++ (s%"0123456789").map (· :: s%"_") ++ asciiLetters.map (· :: s%"\\in")

theorem unionWords_inert : ∀ p ∈ unionWords, inert p = true := by decide +kernel

theorem unionWords_infinity : ∀ e ∈ [s%"\\infty", s%"-\\infty", s%"+\\infty"], ∀ p ∈ unionWords, contains p e = false := by decide +kernel

theorem EndWord.word {e : Str} (h : EndWord e) {p : Str} (hp : p ∈ unionWords) : ¬ p <:+: e := by
  rcases h.kind with ht | hi
  · simp only [unionWords, List.mem_append, List.mem_cons, List.mem_map] at hp
    rcases hp with (((rfl | rfl | rfl | rfl | hp) | ⟨d, hd, rfl⟩) | ⟨d, hd, rfl⟩) | ⟨d, hd, rfl⟩
    · exact ht.words _ (by decide)
    · exact not_infix_of_not_mem ',' (by simp) ht.noComma
    · exact not_infix_of_not_mem ',' (by simp) ht.noComma
    · exact h.matrix
    · exact ht.words _ (List.mem_append_right _ hp)
    · rintro ⟨u, v, e⟩
      have := ht.mixed u v d e.symm
      have k : ∀ d ∈ s%"0123456789", asciiDigit d = true := by decide
      rw [k d (by simpa using hd)] at this
      cases this
    · rintro ⟨u, v, e⟩
      have := ht.base u v d (by rw [← e]; simp)
      have k : ∀ d ∈ s%"0123456789", asciiDigit d = true := by decide
      rw [k d (by simpa using hd)] at this
      cases this
    · rintro ⟨u, v, e⟩
      exact ht.words s%"\\in" (by decide) ⟨u ++ [d], v, by rw [← e]; simp⟩
  · exact (contains_eq_false _ _).1 (unionWords_infinity e hi p hp)

theorem EndWord.chars {e : Str} (h : EndWord e) {c : Char} (hc : c ∈ e) :
    33 ≤ c.toNat ∧ c.toNat < 127 ∧ asciiUpper c = false ∧ c ∉ s%"$%:," := by
  rcases h.kind with ht | hi
  · exact ht.chars c hc
  · have : ∀ e ∈ [s%"\\infty", s%"-\\infty", s%"+\\infty"], ∀ c ∈ e, 33 ≤ c.toNat ∧ c.toNat < 127 ∧ asciiUpper c = false ∧ c ∉ s%"$%:," := by
      decide
    exact this e hi c hc

theorem EndWord.noComma {e : Str} (h : EndWord e) : ',' ∉ e := fun hm => (h.chars hm).2.2.2 (by decide)

section
variable {is : List (Itv K)} (h0 : is ≠ []) (hw : ∀ i ∈ is, i.Wordy)
include hw

theorem union_word {p : Str} (hp : p ∈ unionWords) : ¬ p <:+: unionText is :=
  union_infix (unionWords_inert p hp) hw fun i hi => ⟨(hw i hi).left.word hp, (hw i hi).right.word hp⟩

theorem union_chars {c : Char} (hc : c ∈ unionText is) : 33 ≤ c.toNat ∧ c.toNat < 127 ∧ asciiUpper c = false ∧ c ∉ s%"$%:" := by
  have one : ∀ i : Itv K, i.Wordy → ∀ c ∈ i.text, 33 ≤ c.toNat ∧ c.toNat < 127 ∧ asciiUpper c = false ∧ c ∉ s%"$%:" := by
    intro i hi c hc
    have e : ∀ {e : Str}, EndWord e → c ∈ e → 33 ≤ c.toNat ∧ c.toNat < 127 ∧ asciiUpper c = false ∧ c ∉ s%"$%:" := by
      intro e he hc
      obtain ⟨h1, h2, h3, h4⟩ := he.chars hc
      exact ⟨h1, h2, h3, fun hm => h4 (List.mem_append_left s%"," hm)⟩
    simp only [Itv.text, List.mem_cons, List.mem_append, List.not_mem_nil, or_false] at hc
    rcases hc with rfl | hc | rfl | hc | rfl
    · cases i.leftOpen <;> decide
    · exact e hi.left hc
    · decide
    · exact e hi.right hc
    · cases i.rightOpen <;> decide
  induction is with
  | nil => simp [unionText, join] at hc
  | cons i is ih =>
    cases is with
    | nil => exact one i (hw i (by simp)) c (by simpa [unionText, join] using hc)
    | cons j is =>
      rw [unionText_cons, List.mem_append, List.mem_append] at hc
      rcases hc with hc | hc | hc
      · exact one i (hw i (by simp)) c hc
      · have : ∀ c ∈ s%"\\cup", 33 ≤ c.toNat ∧ c.toNat < 127 ∧ asciiUpper c = false ∧ c ∉ s%"$%:" := by decide
        exact this c hc
      · exact ih (fun k hk => hw k (by simp [hk])) hc

include h0

theorem union_head : ∃ t, unionText is = '(' :: t ∨ unionText is = '[' :: t := by
  match is, h0 with
  | [i], _ => cases h : i.leftOpen <;> simp [unionText, join, Itv.text, h]
  | i :: j :: is, _ => rw [unionText_cons]; cases h : i.leftOpen <;> simp [Itv.text, h]

theorem union_comma : ',' ∈ unionText is := by
  match is, h0 with
  | [i], _ => simp [unionText, join, Itv.text]
  | i :: j :: is, _ => rw [unionText_cons]; simp [Itv.text]

theorem union_clear : Clear (unionText is) where
  chars c hc := union_chars hw hc
  words p hp := union_word hw (by simp [unionWords, hp])
  slashes := .inl (union_word hw (by decide))
  clock := .inr (by
    obtain ⟨t, h | h⟩ := union_head h0 hw <;> rw [h] <;> intro c hc <;> simp at hc <;> subst hc <;> decide)
  letter u v c e := by
    cases hc : asciiAlpha c with
    | false => rfl
    | true =>
      refine absurd ⟨u, v, e.symm⟩ (union_word hw (p := c :: s%"\\in") ?_)
      simp only [unionWords, List.mem_append, List.mem_map]
      exact .inr ⟨c, mem_letters hc, rfl⟩
  builder := .inl (by
    obtain ⟨t, h | h⟩ := union_head h0 hw <;> rw [h] <;> simp)
  mixed u v d e := by
    cases hc : asciiDigit d with
    | false => rfl
    | true =>
      refine absurd ⟨u, v, e.symm⟩ (union_word hw (p := d :: s%"\\frac") ?_)
      simp only [unionWords, List.mem_append, List.mem_map]
      exact .inl (.inl (.inr ⟨d, mem_digits hc, rfl⟩))
  base u v d e := by
    cases hc : asciiDigit d with
    | false => rfl
    | true =>
      refine absurd ⟨u, v, by rw [e]; simp⟩ (union_word hw (p := d :: s%"_") ?_)
      simp only [unionWords, List.mem_append, List.mem_map]
      exact .inl (.inr ⟨d, mem_digits hc, rfl⟩)
  commas := ⟨union_word hw (by decide), fun hi => union_word hw (p := s%"{,") (by decide) (List.IsInfix.trans ⟨[], s%"}", rfl⟩ hi)⟩

omit h0 hw in
theorem comma_split {u v a b : Str} (hu : ',' ∉ u) (h : u ++ ',' :: v = a ++ ',' :: b) :
    (a = u ∧ b = v) ∨ ∃ z, a = u ++ ',' :: z ∧ v = z ++ ',' :: b := by
  rcases prefix_of_append h with ⟨z, h1, h2⟩ | ⟨z, h1, h2⟩
  · cases z with
    | nil => simp at h1 h2; exact .inl ⟨h1.symm, h2⟩
    | cons c z =>
      simp only [List.cons_append, List.cons.injEq] at h2
      obtain ⟨rfl, -⟩ := h2
      exact absurd (by rw [h1]; simp) hu
  · cases z with
    | nil => simp at h1 h2; exact .inl ⟨h1, h2.symm⟩
    | cons c z =>
      simp only [List.cons_append, List.cons.injEq] at h2
      obtain ⟨rfl, h2⟩ := h2
      exact .inr ⟨z, h1, h2⟩

omit h0 hw in
theorem thousands_skip {U : Uni} {u t : Str} {c : Char} (hu : ',' ∉ u) (hc : c ≠ ',') (hd : isDigit U c = false)
    (h : ThousandsComma U (u ++ c :: t)) : ThousandsComma U t := by
  obtain ⟨a, x, y, z₁, z₂, z₃, b, hs, hx, r⟩ := h
  have hs' : (u ++ [c]) ++ t = (a ++ [x]) ++ ',' :: (y ++ z₁ :: z₂ :: z₃ :: b) := by simpa using hs
  have hn : ',' ∉ u ++ [c] := by simp [hu, hc.symm]
  rcases prefix_of_append hs' with ⟨z, h1, h2⟩ | ⟨z, h1, h2⟩
  · cases z with
    | nil =>
      have := (List.append_inj' (h1.trans (by simp : _ = a ++ [x])) rfl).2
      simp only [List.cons.injEq, and_true] at this
      rw [← this, hd] at hx
      cases hx
    | cons e z =>
      simp only [List.cons_append, List.cons.injEq] at h2
      refine absurd ?_ hn
      rw [h1, ← h2.1]
      simp
  · rcases List.eq_nil_or_concat z with rfl | ⟨z, e, rfl⟩
    · simp only [List.append_nil] at h1
      have := (List.append_inj' h1 rfl).2
      simp only [List.cons.injEq, and_true] at this
      rw [this, hd] at hx
      cases hx
    · have h3 : a ++ [x] = (u ++ [c] ++ z) ++ [e] := by rw [h1]; simp
      have := (List.append_inj' h3 rfl).2
      simp only [List.cons.injEq, and_true] at this
      subst this
      exact ⟨z, x, y, z₁, z₂, z₃, b, by rw [h2]; simp, hx, r⟩

omit h0 hw in
theorem bracket_no_digit (U : Uni) (b : Bool) : isDigit U (if b then ')' else ']') = false ∧ (if b then ')' else ']') ≠ ',' := by
  cases b <;> simp [isDigit, asciiDigit]

omit h0 hw in
theorem itv_thousands {U : Uni} {i : Itv K} (hi : i.Wordy) {t : Str} (h : ThousandsComma U (i.text ++ t)) : ThousandsComma U t := by
  obtain ⟨hb, hb'⟩ := bracket_no_digit U i.rightOpen
  have hl : ',' ∉ (if i.leftOpen then '(' else '[') :: i.left := by
    have := hi.left.noComma
    cases i.leftOpen <;> simp [this]
  obtain ⟨a, x, y, z₁, z₂, z₃, b, hs, hx, d₁, d₂, d₃, hy⟩ := h
  have hs' : ((if i.leftOpen then '(' else '[') :: i.left) ++ ',' :: (i.right ++ (if i.rightOpen then ')' else ']') :: t) =
      (a ++ [x]) ++ ',' :: (y ++ z₁ :: z₂ :: z₃ :: b) := by
    have := hs
    simp only [Itv.text] at this
    simpa using this
  rcases comma_split hl hs' with ⟨-, hr⟩ | ⟨z, h1, h2⟩
  · exfalso
    have hdig : ∀ c ∈ i.right, isDigit U c = true → asciiDigit c = true := by
      intro c hc hd
      have := hi.right.chars hc
      unfold isDigit at hd
      rwa [if_pos (by omega)] at hd
    have h3 := hi.three
    have hne := hi.right.nonempty
    have hch := fun c (hc : c ∈ i.right) => hi.right.chars hc
    generalize (if i.rightOpen then ')' else ']') = r at hb hr
    generalize i.right = e at hdig h3 hne hr hch
    rcases hy with rfl | rfl
    · match e, hne with
      | [c₁], _ =>
        simp only [List.nil_append, List.cons_append, List.cons.injEq] at hr
        rw [← hr.2.1, d₂] at hb; cases hb
      | [c₁, c₂], _ =>
        simp only [List.nil_append, List.cons_append, List.cons.injEq] at hr
        rw [← hr.2.2.1, d₃] at hb; cases hb
      | c₁ :: c₂ :: c₃ :: e', _ =>
        simp only [List.nil_append, List.cons_append, List.cons.injEq] at hr
        obtain ⟨rfl, rfl, rfl, -⟩ := hr
        simp only [startsThree, hdig _ (by simp) d₁, hdig _ (by simp) d₂, hdig _ (by simp) d₃, Bool.and_self] at h3
        cases h3
    · match e, hne with
      | c :: e', _ =>
        simp only [List.cons_append, List.nil_append, List.cons.injEq] at hr
        have := (hch c (by simp)).1
        rw [← hr.1] at this
        revert this; decide
  · -- the comma is behind the comma of the interval
    rcases List.eq_nil_or_concat z with rfl | ⟨z, e, rfl⟩
    · have := (List.append_inj' h1 rfl).2
      simp only [List.cons.injEq, and_true] at this
      subst this
      simp [isDigit, asciiDigit] at hx
    · have h3 : a ++ [x] = (((if i.leftOpen then '(' else '[') :: i.left) ++ ',' :: z) ++ [e] := by rw [h1]; simp
      have := (List.append_inj' h3 rfl).2
      simp only [List.cons.injEq, and_true] at this
      subst this
      exact thousands_skip hi.right.noComma hb' hb ⟨z, x, y, z₁, z₂, z₃, b, by rw [h2]; simp, hx, d₁, d₂, d₃, hy⟩

omit h0 in
theorem union_thousands (U : Uni) : ¬ ThousandsComma U (unionText is) := by
  have nil : ¬ ThousandsComma U [] := by rintro ⟨a, x, y, z₁, z₂, z₃, b, h, -⟩; simp at h
  induction is with
  | nil => exact nil
  | cons i is ih =>
    intro h
    cases is with
    | nil =>
      have e : unionText [i] = i.text ++ [] := by simp [unionText, join]
      rw [e] at h
      exact nil (itv_thousands (hw i (by simp)) h)
    | cons j is =>
      rw [unionText_cons] at h
      refine ih (fun k hk => hw k (by simp [hk])) ?_
      exact thousands_skip (u := s%"\\cu") (c := 'p') (by decide) (by decide) (by simp [isDigit, asciiDigit])
        (itv_thousands (hw i (by simp)) h)

theorem union_strip : strip (unionText is) = unionText is := strip_of_no_space _ fun _ hc => (union_clear h0 hw).space hc

theorem union_fixed (E : Env X V S) (n : Nat) : Always (stringNormalize E (n + 1) (unionText is)) (.str (unionText is)) := by
  have hcl : litChar E.U ',' = false := by
    simp [litChar, isDigit, asciiDigit, isSpace]; decide
  have hp : pyFloat E.U (unionText is) = none := pyFloat_none ',' (union_comma h0 hw) hcl
  refine (union_clear h0 hw).fixed E n (by obtain ⟨t, h | h⟩ := union_head h0 hw <;> rw [h] <;> simp) (fun x hx => by rw [hp] at hx; cases hx) ?_
  unfold strIsInt
  rw [stripCommas_id _ _ (union_thousands hw E.U), hp]

omit h0 hw in
theorem itv_depth {i : Itv K} (hi : i.Wordy) : depth i.text = 0 ∧ ∀ a b, i.text = a ++ ',' :: b → depth a ≠ 0 := by
  have hl := hi.left.element
  have hr := hi.right.element
  have d1 : bracketDelta (if i.leftOpen then '(' else '[') = 1 := by cases i.leftOpen <;> decide
  have d2 : bracketDelta (if i.rightOpen then ')' else ']') = -1 := by cases i.rightOpen <;> decide
  constructor
  · simp only [Itv.text, depth_cons, depth_append, d1, d2, depth_comma, hl.balanced, hr.balanced, depth_nil]
    omega
  · intro a b e
    have hc : ',' ∉ (if i.leftOpen then '(' else '[') :: i.left := by
      have := hi.left.noComma
      cases i.leftOpen <;> simp [this]
    have e' : ((if i.leftOpen then '(' else '[') :: i.left) ++ ',' :: (i.right ++ [if i.rightOpen then ')' else ']']) = a ++ ',' :: b := by
      rw [← e]; simp [Itv.text]
    rcases comma_split hc e' with ⟨rfl, -⟩ | ⟨z, -, h2⟩
    · rw [depth_cons, d1, hl.balanced]; decide
    · exfalso
      have : ',' ∈ i.right ++ [if i.rightOpen then ')' else ']'] := by rw [h2]; simp
      rw [List.mem_append] at this
      rcases this with h | h
      · exact hi.right.noComma h
      · cases hb : i.rightOpen <;> simp [hb] at h

omit h0 in
theorem union_depth : depth (unionText is) = 0 ∧ ∀ a b, unionText is = a ++ ',' :: b → depth a ≠ 0 := by
  induction is with
  | nil => exact ⟨rfl, fun a b h => by simp [unionText, join] at h⟩
  | cons i is ih =>
    obtain ⟨h1, h2⟩ := itv_depth (hw i (by simp))
    cases is with
    | nil =>
      have e : unionText [i] = i.text := by simp [unionText, join]
      rw [e]
      exact ⟨h1, h2⟩
    | cons j is =>
      obtain ⟨i1, i2⟩ := ih fun k hk => hw k (by simp [hk])
      rw [unionText_cons]
      have hc : depth s%"\\cup" = 0 := by decide
      refine ⟨by rw [depth_append, depth_append, h1, i1, hc]; rfl, fun a b e => ?_⟩
      rcases prefix_of_append e with ⟨z, e1, e2⟩ | ⟨z, e1, e2⟩
      · cases z with
        | nil =>
          simp only [List.nil_append, List.append_nil] at e1 e2
          have := congrArg List.head? e2
          simp at this
        | cons c z =>
          simp only [List.cons_append, List.cons.injEq] at e2
          obtain ⟨rfl, -⟩ := e2
          exact h2 a z e1
      · rw [e1, depth_append, h1, zero_add]
        rcases prefix_of_append e2 with ⟨y, f1, f2⟩ | ⟨y, f1, f2⟩
        · cases y with
          | nil =>
            simp only [List.nil_append, List.append_nil] at f1 f2
            obtain ⟨t, ht⟩ := union_head (is := j :: is) (by simp) fun k hk => hw k (by simp [hk])
            rcases ht with ht | ht <;> rw [ht] at f2 <;> simp at f2
          | cons c y =>
            simp only [List.cons_append, List.cons.injEq] at f2
            obtain ⟨rfl, -⟩ := f2
            exfalso
            have : ',' ∈ s%"\\cup" := by rw [f1]; simp
            revert this; decide
        · rw [f1, depth_append, hc, zero_add]
          exact i2 y b f2

theorem union_loop : splitLoop 0 [] (unionText is) = [unionText is] := by
  have := splitLoop_piece 0 [] (unionText is) [] (by simpa using (union_depth hw).2)
  rw [List.append_nil] at this
  rw [this]
  have hne : unionText is ≠ [] := by obtain ⟨t, h | h⟩ := union_head h0 hw <;> rw [h] <;> simp
  simp [splitLoop, hne, union_strip h0 hw]

/-- A union is not a list. -/
theorem union_unsplit (U : Uni) (ord : List Str → List Str) (hp : ¬ IsPair is) :
    splitTuple U ord (unionText is) none = .ok (.str (unionText is)) := by
  unfold splitTuple
  simp only [stripCommas_id _ _ (union_thousands hw U)]
  have h1 := scanBrackets_fst 0 true (unionText is)
  rw [(union_depth hw).1, add_zero] at h1
  have peel : peelBrackets (scanBrackets 0 true (unionText is)).2 (unionText is) = (unionText is, .set) := by
    match is, h0, hp with
    | [i], _, hp =>
      have hb : i.leftOpen ≠ i.rightOpen := fun h => hp ⟨i, rfl, h⟩
      have e : unionText [i] = ((if i.leftOpen then '(' else '[') :: (i.left ++ ',' :: i.right)) ++ [if i.rightOpen then ')' else ']'] := by
        simp [unionText, join, Itv.text]
      unfold peelBrackets
      split
      · rw [e, List.getLast?_concat]
        cases hl : i.leftOpen <;> cases hr : i.rightOpen <;> simp_all
      · rfl
    | i :: j :: is, _, _ =>
      have : (scanBrackets 0 true (unionText (i :: j :: is))).2 = false := by
        rw [Bool.eq_false_iff, ne_eq, scanBrackets_snd]
        rintro ⟨-, h⟩
        have e : unionText (i :: j :: is) = ((if i.leftOpen then '(' else '[') :: (i.left ++ ',' :: i.right)) ++
            (if i.rightOpen then ')' else ']') :: (s%"\\cup" ++ unionText (j :: is)) := by
          rw [unionText_cons]; simp [Itv.text]
        refine h _ _ _ e (by simp) ?_
        have := (itv_depth (hw i (by simp))).1
        rw [zero_add, ← this]
        congr 1
        simp [Itv.text]
      rw [this]
      rfl
  generalize scanBrackets 0 true (unionText is) = r at h1 peel
  obtain ⟨r1, r2⟩ := r
  simp only at h1 peel
  subst h1
  simp [peel, union_loop h0 hw]

/-- An interval in brackets of the same kind is also a list. -/
theorem union_split (U : Uni) (ord : List Str → List Str) (hp : IsPair is) :
    ∃ e, splitTuple U ord (unionText is) none = .ok e ∧ (e.sameType (.str []) = false) := by
  obtain ⟨i, rfl, hb⟩ := hp
  have hi := hw i (by simp)
  have key : ∀ br : Bracket, (br = .round ∨ br = .square) → unionText [i] = br.open :: (join s%"," [i.left, i.right] ++ [br.close]) →
      ∃ e, splitTuple U ord (unionText [i]) none = .ok e ∧ (e.sameType (.str []) = false) := by
    intro br hbr e
    have ht := union_thousands hw U
    rw [e] at ht ⊢
    rw [C34_split_bracketed U ord br [i.left, i.right] (by simp) (by
      intro x hx
      simp only [List.mem_cons, List.not_mem_nil, or_false] at hx
      rcases hx with rfl | rfl
      · exact hi.left.element
      · exact hi.right.element) (by simpa using hi.right.nonempty) ht]
    rcases hbr with rfl | rfl <;> exact ⟨_, rfl, rfl⟩
  cases hl : i.leftOpen with
  | true => exact key .round (.inl rfl) (by simp [unionText, join, Itv.text, hl, ← hb, Bracket.open, Bracket.close])
  | false => exact key .square (.inr rfl) (by simp [unionText, join, Itv.text, hl, ← hb, Bracket.open, Bracket.close])

theorem union_brackets : hasBracket (unionText is) = true := by
  unfold hasBracket
  obtain ⟨t, h | h⟩ := union_head h0 hw <;> rw [h]
  · simp [(contains_iff s%"(" ('(' :: t)).2 ⟨[], t, rfl⟩]
  · simp [(contains_iff s%"[" ('[' :: t)).2 ⟨[], t, rfl⟩]

omit h0 in
theorem union_notMatrix : strIsMat (unionText is) = false :=
  (contains_eq_false _ _).2 (union_word hw (p := s%"matrix") (by decide +kernel))

end

/-! ### Texts that no parser reads -/

theorem fails_ext {α : Type} {e : Ext X α} (h : ∀ x, ∃ r x', e x = (.error r, x')) : Fails (M.ext e) := by
  intro w
  obtain ⟨r, x', h⟩ := h w.ext
  exact ⟨r, _, by simp only [M.ext, h]; rfl⟩

theorem Unread.parse {E : Env X V S} {s : Str} (h : Unread E s) : Always (sympyParse E s) [none, none, none] := by
  unfold sympyParse
  have h1 : Always (parseCands12 E s) (none, none) := by
    unfold parseCands12
    refine Always.bind (Fails.tryExcept (fails_ext h.l2s).bind fun _ => Always.pure none) ?_
    exact Always.bind (Fails.tryExcept (fails_ext h.parseLatex).bind fun _ => Always.pure none) (Always.pure _)
  refine h1.bind ?_
  have h2 : Always (parseCand3 E s none none) none := by
    unfold parseCand3
    exact Fails.tryExcept (fails_ext h.parseExpr).bind fun _ => Always.pure none
  exact h2.bind (Always.pure _)

theorem candsOuter_unread (cmp : V → V → M X Bool) : ∀ gs : List (Option V), Always (candsOuter cmp gs [none, none, none]) false
  | [] => Always.pure _
  | none :: gs => candsOuter_unread cmp gs
  | some g :: gs => by
    have h : Always (candsInner cmp g [none, none, none]) false := Always.pure _
    exact h.bind (by simpa using candsOuter_unread cmp gs)

theorem unread_unequal {E : Env X V S} {s t : Str} (n : Nat) (verbose : Bool) (h : Unread E s ∨ Unread E t) :
    Always (areEqualUnderSympy E n s t verbose) false := by
  unfold areEqualUnderSympy
  apply Always.tryExcept
  unfold areEqualWithSimplify
  rcases h with h | h
  · refine h.parse.bind ?_
    refine AlwaysP.always (P := fun _ => True) ?_ fun vs _ => ?_
    swap
    · cases verbose with
      | false => exact Always.pure _
      | true => exact fun w => ⟨_, rfl⟩
    intro w
    obtain ⟨l, w', h⟩ := C38_parse_total E t w
    exact ⟨l, w', h, trivial⟩
  · refine AlwaysP.always (P := fun _ => True) (m := sympyParse E s) ?_ fun gs _ => h.parse.bind ?_
    swap
    · have main := candsOuter_unread (eqTyped E (areEqual E n)) gs
      cases verbose with
      | false => simpa using main
      | true =>
        intro w
        obtain ⟨w', h⟩ := main { w with out := candsLine :: candsLine :: w.out }
        exact ⟨w', by simpa using h⟩
    intro w
    obtain ⟨l, w', h⟩ := C38_parse_total E s w
    exact ⟨l, w', h, trivial⟩

/-! ### The comparison -/

section
variable [LinearOrder K] {E : Env X V S} {pts : S → Set K} {bound : V → Bound K → Prop}

theorem union_points (H : SetSem E pts bound) {is : List (Itv K)} (h0 : is ≠ []) (hok : ∀ i ∈ is, i.Ok E bound) :
    ∃ s, Always (strToInterval E (unionText is)) (some s) ∧ pts s = unionPoints is := by
  obtain ⟨s, h1, h2⟩ := C48_intervals_partial H false (is.map fun i => ⟨false, [i]⟩) (by simpa using h0) (by
    intro m hm
    obtain ⟨i, hi, rfl⟩ := List.mem_map.1 hm
    refine ⟨by simp, by simpa using hok i hi, ?_⟩
    intro a b hab ha hb
    cases a with
    | nil => exact absurd rfl ha
    | cons x a => cases a <;> cases b <;> simp at hab hb)
  refine ⟨s, ?_, ?_⟩
  · have e : (is.map fun i => (⟨false, [i]⟩ : Meet K)).map Meet.text = is.map Itv.text := by
      simp [Meet.text, join]
    rw [e] at h1
    exact h1
  · rw [h2]
    ext p
    simp [unionPoints]

open Classical in
/-- **C97**, for two unions that are not both single intervals in brackets of one kind (those are also lists of two numbers, see C95):
they are judged equivalent exactly if they denote the same set of points.  At least one of the two texts must be unreadable as a
formula. -/
theorem C97_unions_partial (H : SetSem E pts bound) (hE : ComparesSets E pts) {as bs : List (Itv K)} {n : Nat} {verbose : Bool}
    (ha : as ≠ []) (hb : bs ≠ []) (wa : ∀ i ∈ as, i.Wordy) (wb : ∀ i ∈ bs, i.Wordy)
    (oka : ∀ i ∈ as, i.Ok E bound) (okb : ∀ i ∈ bs, i.Ok E bound) (hp : ¬ (IsPair as ∧ IsPair bs))
    (hu : Unread E (unionText as) ∨ Unread E (unionText bs)) :
    Always (isEquiv E (n + 2) (some (unionText as)) (some (unionText bs)) verbose) (decide (unionPoints as = unionPoints bs)) := by
  by_cases hw : Nonempty (World X)
  swap
  · exact fun w => (hw ⟨w⟩).elim
  obtain ⟨w₀⟩ := hw
  obtain ⟨s, hs1, hs2⟩ := union_points H ha oka
  obtain ⟨t, ht1, ht2⟩ := union_points H hb okb
  simp only [isEquiv, isEquivStr, union_strip ha wa, union_strip hb wb]
  by_cases htx : unionText as = unionText bs
  · rw [if_pos htx]
    rw [htx] at hs1
    have := hs1.unique w₀ ht1
    simp only [Option.some.injEq] at this
    rw [this, ht2] at hs2
    rw [decide_eq_true hs2.symm]
    exact Always.pure _
  rw [if_neg htx]
  apply (union_fixed ha wa E n).bind
  apply (union_fixed hb wb E n).bind
  apply print_always
  unfold compareNorms
  simp only [htx, decide_false, Bool.false_eq_true, if_false]
  apply Always.tryExcept
  have hem : (unionText bs).isEmpty = false := by
    obtain ⟨t, h | h⟩ := union_head hb wb <;> rw [h] <;> rfl
  unfold isLatexEquiv
  simp only [hem, union_brackets ha wa, union_notMatrix wa, union_notMatrix wb, Bool.or_self, Bool.and_false,
    Bool.false_eq_true, if_false, if_true]
  have first : Always (possibleIntervals E (unionText as) (unionText bs)) (decide (unionPoints as = unionPoints bs), true) := by
    unfold possibleIntervals
    refine hs1.bind (ht1.bind ?_)
    have := (hE s t).always
    rw [hs2, ht2] at this
    refine this.bind ?_
    by_cases h : unionPoints as = unionPoints bs
    · simpa [h] using Always.pure _
    · simpa [h] using Always.pure _
  refine first.bind ?_
  by_cases h : unionPoints as = unionPoints bs
  · simp only [h, decide_true, Bool.not_true, Bool.false_eq_true, if_false]
    refine (Always.pure (true, true)).bind ?_
    refine (Always.pure (true, true)).bind ?_
    simpa using Always.pure true
  simp only [h, decide_false, Bool.not_false, if_true]
  have second : ∀ eq : EqFun X, Always (possibleTuple E eq (unionText as) (unionText bs) verbose) (false, false) ∨
      Always (possibleTuple E eq (unionText as) (unionText bs) verbose) (false, true) := by
    intro eq
    have lift : ∀ {e e' : Elems} {r : Bool × Bool}, splitTuple E.U E.setOrder (unionText as) none = .ok e →
        splitTuple E.U E.setOrder (unionText bs) none = .ok e' →
        Always (elemsEquiv eq (unionText as) (unionText bs) verbose e e') r →
        Always (possibleTuple E eq (unionText as) (unionText bs) verbose) r := by
      intro e e' r h1 h2 h3
      unfold possibleTuple
      rw [h1, h2]
      refine Always.bind (a := e) (fun w => ⟨w, rfl⟩) ?_
      refine Always.bind (a := e') (fun w => ⟨w, rfl⟩) ?_
      exact print_always _ _ h3
    by_cases h1 : IsPair as
    · have h2 : ¬ IsPair bs := fun h => hp ⟨h1, h⟩
      obtain ⟨e, e1, e2⟩ := union_split ha wa E.U E.setOrder h1
      refine .inr (lift e1 (union_unsplit hb wb E.U E.setOrder h2) ?_)
      cases e with
      | str x => cases e2
      | _ =>
        unfold elemsEquiv
        dsimp only
        split
        · exact Always.pure _
        · exact Always.pure _
    · by_cases h2 : IsPair bs
      · obtain ⟨e, e1, e2⟩ := union_split hb wb E.U E.setOrder h2
        refine .inr (lift (union_unsplit ha wa E.U E.setOrder h1) e1 ?_)
        cases e with
        | str x => cases e2
        | _ =>
          unfold elemsEquiv
          dsimp only
          split
          · exact Always.pure _
          · exact Always.pure _
      · refine .inl (lift (union_unsplit ha wa E.U E.setOrder h1) (union_unsplit hb wb E.U E.setOrder h2) ?_)
        simpa [elemsEquiv] using Always.pure _
  rcases second (isEquivStr E (n + 1)) with h | h
  · refine h.bind ?_
    refine (Always.pure (false, false)).bind ?_
    simpa using unread_unequal (n + 1) verbose hu
  · refine h.bind ?_
    refine (Always.pure (false, true)).bind ?_
    simpa using Always.pure _

end

/-! ### An environment in which sets are sets of rational numbers, with infinity -/

/-- The end point that a value stands for. -/
def lineBound : TVal → Bound ℚ
  | .num q => .fin q
  | .sym s => if s = s%"oo" then .plusInf else .minusInf
  | _ => .fin 0

open Classical in
/-- Sets of rational numbers, computed exactly; `\infty` and `-\infty` are end points. -/
noncomputable def lineEnv : Env Unit TVal (Set ℚ) :=
  { setEnv with
    l2s := fun s => if s = s%"\\infty" then okCall (.sym s%"oo") else if s = s%"-\\infty" then okCall (.sym s%"-oo") else ratEnv.l2s s
    isNumber := fun v => okCall (match v with | .num _ => true | _ => false)
    gtV := fun a b => okCall (decide ((lineBound b).lt (lineBound a)))
    interval := fun a b lo ro => okCall {p | (lineBound a).rightOf lo p ∧ (lineBound b).leftOf ro p} }

theorem lineEnv_sem : SetSem lineEnv id fun v b => lineBound v = b where
  empty := rfl
  isEmpty s := ⟨_, fun x => ⟨x, rfl⟩, by simp⟩
  intersect s t := ⟨_, fun x => ⟨x, rfl⟩, rfl⟩
  union s t := ⟨_, fun x => ⟨x, rfl⟩, rfl⟩
  interval a b x y lo ro ha hb := by subst ha hb; exact ⟨_, fun x => ⟨x, rfl⟩, rfl⟩
  isNumber v x h := ⟨_, fun x => ⟨x, rfl⟩⟩
  evalf v x h := ⟨v, fun x => ⟨x, rfl⟩, h⟩
  isInt v x h := ⟨_, fun x => ⟨x, rfl⟩⟩
  toInteger v x h _ := ⟨v, fun x => ⟨x, rfl⟩, h⟩
  gtV a b x y ha hb := by subst ha hb; exact ⟨_, fun x => ⟨x, rfl⟩, by simp⟩

theorem lineEnv_compares : ComparesSets lineEnv id := fun s t x => ⟨x, by
  show okCall _ x = _
  unfold okCall
  congr!⟩

/-- The end points of the examples. -/
def lineEnd (e : Str) : Bound ℚ :=
  if e = s%"\\infty" then .plusInf else if e = s%"-\\infty" then .minusInf else
    match toyParse e with | some v => lineBound v | none => .fin 0

/-- An interval with the end points of the given texts. -/
def lineItv (lo : Bool) (a b : Str) (ro : Bool) : Itv ℚ := ⟨lo, a, b, ro, lineEnd a, lineEnd b⟩

/-- The texts of end points used in the examples. -/
def lineTexts : List Str := [s%"\\infty", s%"-\\infty", s%"0", s%"1", s%"2", s%"2.5", s%"-3"]

theorem lineTexts_words : ∀ e ∈ lineTexts, EndWord e ∧ startsThree e = false ∧ EndText e := by
  have h : ∀ e ∈ lineTexts, ((tidyB e = true ∨ e ∈ [s%"\\infty", s%"-\\infty", s%"+\\infty"]) ∧ e ≠ [] ∧
      (∀ p ∈ [s%"\\", s%"{", s%"\\right"], p.isSuffixOf e = false) ∧ contains s%"matrix" e = false ∧ elementB e = true) ∧
      startsThree e = false ∧ (∀ c ∈ e, c ≠ ',' ∧ c ≠ '(' ∧ c ≠ ')' ∧ c ≠ '[' ∧ c ≠ ']' ∧ c ≠ '∩' ∧ c ≠ '⋃') ∧
      contains s%"\\cap" e = false ∧ contains s%"\\cup" e = false := by decide +kernel
  intro e he
  obtain ⟨⟨h1, h2, h3, h4, h5⟩, h6, h7, h8, h9⟩ := h e he
  refine ⟨⟨h1.imp_left tidyB_sound, h2, fun p hp hs => ?_, (contains_eq_false _ _).1 h4, element_of_elementB _ h5⟩, h6, h7,
    (contains_eq_false _ _).1 h8, (contains_eq_false _ _).1 h9⟩
  have := h3 p hp
  rw [List.isSuffixOf_iff_suffix.2 hs] at this
  cases this

theorem lineTexts_values : ∀ e ∈ lineTexts, ∃ v, Ret (lineEnv.l2s e) v ∧ lineBound v = lineEnd e := by
  intro e he
  by_cases h1 : e = s%"\\infty"
  · subst h1
    exact ⟨.sym s%"oo", fun x => ⟨x, rfl⟩, rfl⟩
  by_cases h2 : e = s%"-\\infty"
  · subst h2
    exact ⟨.sym s%"-oo", fun x => ⟨x, rfl⟩, rfl⟩
  have h : ∀ e ∈ lineTexts, e ≠ s%"\\infty" → e ≠ s%"-\\infty" → (toyParse e).isSome = true := by decide +kernel
  obtain ⟨v, hv⟩ := Option.isSome_iff_exists.1 (h e he h1 h2)
  refine ⟨v, fun x => ⟨x, ?_⟩, ?_⟩
  · show (if e = s%"\\infty" then _ else if e = s%"-\\infty" then _ else optCall (toyParse e) : Ext Unit TVal) x = _
    rw [if_neg h1, if_neg h2, hv]
    rfl
  · unfold lineEnd
    rw [if_neg h1, if_neg h2, hv]

theorem lineItv_wordy (lo ro : Bool) {a b : Str} (ha : a ∈ lineTexts) (hb : b ∈ lineTexts) : (lineItv lo a b ro).Wordy :=
  ⟨(lineTexts_words a ha).1, (lineTexts_words b hb).1, (lineTexts_words b hb).2.1⟩

theorem lineItv_ok (lo ro : Bool) {a b : Str} (ha : a ∈ lineTexts) (hb : b ∈ lineTexts) (h : ¬ (lineEnd b).lt (lineEnd a)) :
    (lineItv lo a b ro).Ok lineEnv fun v b => lineBound v = b :=
  ⟨(lineTexts_words a ha).2.2, (lineTexts_words b hb).2.2, lineTexts_values a ha, lineTexts_values b hb, h⟩

theorem lineEnv_unread {s : Str} (h1 : s ≠ s%"\\infty") (h2 : s ≠ s%"-\\infty") (h3 : toyParse s = none) : Unread lineEnv s :=
  ⟨fun x => ⟨_, x, by
    show (if s = s%"\\infty" then _ else if s = s%"-\\infty" then _ else optCall (toyParse s) : Ext Unit TVal) x = _
    rw [if_neg h1, if_neg h2, h3]
    rfl⟩, fun x => ⟨_, x, rfl⟩, fun x => ⟨_, x, rfl⟩⟩

/-- `(-\infty,1)\cup[1,2]` and `(-\infty,2]` are equivalent. -/
example : Always (isEquiv lineEnv 9 (some s%"(-\\infty,1)\\cup[1,2]") (some s%"(-\\infty,2]") false) true := by
  have m : ∀ e ∈ [s%"-\\infty", s%"1", s%"2"], e ∈ lineTexts := by decide +kernel
  have hv : lineEnd s%"-\\infty" = .minusInf ∧ lineEnd s%"1" = .fin 1 ∧ lineEnd s%"2" = .fin 2 := by
    refine ⟨rfl, ?_, ?_⟩ <;> (unfold lineEnd; rw [if_neg (by decide), if_neg (by decide)]; kernel_rfl)
  obtain ⟨v0, v1, v2⟩ := hv
  have := C97_unions_partial lineEnv_sem lineEnv_compares (n := 7) (verbose := false)
    (as := [lineItv true s%"-\\infty" s%"1" true, lineItv false s%"1" s%"2" false]) (bs := [lineItv true s%"-\\infty" s%"2" false])
    (by simp) (by simp)
    (by simpa using ⟨lineItv_wordy _ _ (m _ (by simp)) (m _ (by simp)), lineItv_wordy _ _ (m _ (by simp)) (m _ (by simp))⟩)
    (by simpa using lineItv_wordy _ _ (m _ (by simp)) (m _ (by simp)))
    (by simpa using ⟨lineItv_ok _ _ (m _ (by simp)) (m _ (by simp)) (by rw [v0, v1]; simp [Bound.lt]),
      lineItv_ok _ _ (m _ (by simp)) (m _ (by simp)) (by rw [v1, v2]; simp [Bound.lt])⟩)
    (by simpa using lineItv_ok _ _ (m _ (by simp)) (m _ (by simp)) (by rw [v0, v2]; simp [Bound.lt]))
    (by rintro ⟨⟨i, h, -⟩, -⟩; simp at h)
    (.inl (lineEnv_unread (by decide) (by decide) (by kernel_rfl)))
  have e : unionPoints [lineItv true s%"-\\infty" s%"1" true, lineItv false s%"1" s%"2" false] =
      unionPoints [lineItv true s%"-\\infty" s%"2" false] := by
    ext p
    simp only [unionPoints, Itv.points, lineItv, v0, v1, v2, Bound.rightOf, Bound.leftOf, List.mem_cons, List.not_mem_nil, or_false,
      Set.mem_ofPred_eq, exists_eq_or_imp, exists_eq_left, true_and]
    constructor
    · rintro (h | h)
      · linarith
      · exact h.2
    · intro h
      rcases lt_or_ge p 1 with h1 | h1
      · exact .inl h1
      · exact .inr ⟨h1, h⟩
  exact this.yes e

/-- `(0,1)\cup(1,2]` and `(0,2]` are not. -/
example : Always (isEquiv lineEnv 9 (some s%"(0,1)\\cup(1,2]") (some s%"(0,2]") false) false := by
  have m : ∀ e ∈ [s%"0", s%"1", s%"2"], e ∈ lineTexts := by decide +kernel
  have hv : lineEnd s%"0" = .fin 0 ∧ lineEnd s%"1" = .fin 1 ∧ lineEnd s%"2" = .fin 2 := by
    refine ⟨?_, ?_, ?_⟩ <;> (unfold lineEnd; rw [if_neg (by decide), if_neg (by decide)]; kernel_rfl)
  obtain ⟨v0, v1, v2⟩ := hv
  have := C97_unions_partial lineEnv_sem lineEnv_compares (n := 7) (verbose := false)
    (as := [lineItv true s%"0" s%"1" true, lineItv true s%"1" s%"2" false]) (bs := [lineItv true s%"0" s%"2" false])
    (by simp) (by simp)
    (by simpa using ⟨lineItv_wordy _ _ (m _ (by simp)) (m _ (by simp)), lineItv_wordy _ _ (m _ (by simp)) (m _ (by simp))⟩)
    (by simpa using lineItv_wordy _ _ (m _ (by simp)) (m _ (by simp)))
    (by simpa using ⟨lineItv_ok _ _ (m _ (by simp)) (m _ (by simp)) (by rw [v0, v1]; simp [Bound.lt]),
      lineItv_ok _ _ (m _ (by simp)) (m _ (by simp)) (by rw [v1, v2]; simp [Bound.lt])⟩)
    (by simpa using lineItv_ok _ _ (m _ (by simp)) (m _ (by simp)) (by rw [v0, v2]; simp [Bound.lt]))
    (by rintro ⟨⟨i, h, -⟩, -⟩; simp at h)
    (.inl (lineEnv_unread (by decide) (by decide) (by kernel_rfl)))
  refine this.no fun h => ?_
  have h := Set.ext_iff.1 h 1
  simp only [unionPoints, Itv.points, lineItv, v0, v1, v2, Bound.rightOf, Bound.leftOf, List.mem_cons, List.not_mem_nil, or_false,
      Set.mem_ofPred_eq, exists_eq_or_imp, exists_eq_left] at h
  norm_num at h

/-- **C97** fails for single intervals in brackets of one kind: they are also compared as lists, up to the numeric tolerance.  The same
intervals with a square bracket at one end, or as parts of a union, are told apart. -/
theorem C97_pairs_refuted :
    (isEquiv ratEnv 9 (some s%"(0,1)") (some s%"(0,1.0001)") false ⟨(), []⟩).1 = .ok true ∧
    (isEquiv ratEnv 9 (some s%"(0,1]") (some s%"(0,1.0001]") false ⟨(), []⟩).1 = .ok false ∧
    (isEquiv ratEnv 9 (some s%"(0,1)\\cup(2,3)") (some s%"(0,1.0001)\\cup(2,3)") false ⟨(), []⟩).1 = .ok false := by
  refine ⟨?_, ?_, ?_⟩ <;> decide +kernel

end Verif
