import Verif.Props.Calm
import Verif.Py.ScanMem
/-
Property C33: "and" and "or" between elements.
-/

namespace Verif
open Re

variable {X V S : Type}

/-! ### Specification -/

/-- `k` blanks. -/
def blanks (k : Nat) : Str := List.replicate k ' '

/-- The ways of writing "and"/"or" between two elements: an optional comma, blanks, then the word between blanks or
in `\text{}`. -/
inductive AndOrSep : Str → Prop
  | word (comma : Bool) (k : Nat) (w : Str) (hw : w = s%"and" ∨ w = s%"or") :
      AndOrSep ((if comma then s%"," else []) ++ blanks k ++ s%" " ++ w ++ s%" ")
  | text (comma : Bool) (k i j : Nat) (w : Str) (hw : w = s%"and" ∨ w = s%"or") :
      AndOrSep ((if comma then s%"," else []) ++ blanks k ++ s%"\\text{" ++ blanks i ++ w ++ blanks j ++ s%"}")

/-- An element that can stand before the separator: it does not begin with a blank and does not end with a blank,
a comma or a backslash. -/
structure LeftElem (a : Str) : Prop where
  calm : Calm a
  ne : a ≠ []
  head : a.head? ≠ some ' '
  last : a.getLast? ≠ some ' '
  comma : a.getLast? ≠ some ','
  slash : a.getLast? ≠ some '\\'

/-- An element that can stand after it: not empty, not ending with a blank. -/
structure RightElem (b : Str) : Prop where
  calm : Calm b
  ne : b ≠ []
  last : b.getLast? ≠ some ' '

/-! ### Infixes -/

theorem infix_drop {x : Char} {p r b : Str} (hx : x ∉ r) (h : x :: p <:+: r ++ b) : x :: p <:+: b := by
  induction r with
  | nil => exact h
  | cons y ys ih =>
    rw [List.cons_append, List.infix_cons_iff] at h
    rcases h with h | h
    · simp at h
      exact absurd h.1 (by rintro rfl; exact hx (by simp))
    · exact ih (fun hm => hx (by simp [hm])) h

theorem infix_chop {x : Char} {p a r : Str} (hx : x ∉ r) (h : p ++ [x] <:+: a ++ r) : p ++ [x] <:+: a := by
  have h1 := List.reverse_infix.2 h
  rw [List.reverse_append, List.reverse_append] at h1
  have := infix_drop (by simpa using hx) h1
  rw [← List.reverse_infix]
  simpa using this

theorem infix_snoc {x : Char} {p a : Str} (h : p ++ [x] <:+: a ++ [x]) : p ++ [x] <:+: a ∨ p <:+ a := by
  have h1 := List.reverse_infix.2 h
  rw [List.reverse_append, List.reverse_append] at h1
  simp only [List.reverse_cons, List.reverse_nil, List.nil_append, List.cons_append] at h1
  rw [List.infix_cons_iff] at h1
  rcases h1 with h1 | h1
  · right
    simp only [List.cons_prefix_cons, true_and] at h1
    exact List.reverse_prefix.1 h1
  · left
    rw [← List.reverse_infix]; simpa using h1

theorem scan_id_of_lang {r : Re} (f : Str → RSt → Str) {s : Str} (h : ∀ u, r.Lang u → ¬ u <:+: s) (pre : Str) :
    scanSub (r.scanner f) 0 pre s = s := by
  apply scanSub_id
  intro a b hab
  have : r.run ⟨a.reverse ++ pre, b, []⟩ = [] := by
    rw [List.eq_nil_iff_forall_not_mem]
    intro t ht
    obtain ⟨u, hu, hl⟩ := run_lang r _ t ht
    exact h u hl ⟨a, t.rest, by rw [hab, List.append_assoc, ← hu]⟩
  simp [Re.scanner, Re.matchAt, this]

/-! ### The separator -/

/-- The two halves of a separator around the `n` of "and" or the `o` of "or". -/
structure Halves (sep l r : Str) (y : Char) : Prop where
  eq : sep = l ++ y :: r
  left : ∀ c ∈ l, c ∈ s%", \\text{a"
  right : ∀ c ∈ r, c ∈ s%"dr }"
  mark : y = 'n' ∨ y = 'o'

theorem blanks_mem {k : Nat} {c : Char} (h : c ∈ blanks k) : c = ' ' := (List.mem_replicate.1 h).2

theorem comma_mem {b : Bool} {c : Char} (h : c ∈ (if b then s%"," else [])) : c = ',' := by
  cases b <;> simp at h; exact h

theorem sep_halves {sep : Str} (h : AndOrSep sep) : ∃ l r y, Halves sep l r y := by
  cases h with
  | word comma k w hw =>
    have hl : ∀ c ∈ (if comma then s%"," else []) ++ blanks k ++ s%" a", c ∈ s%", \\text{a" := by
      intro c hc
      simp only [List.mem_append] at hc
      rcases hc with (hc | hc) | hc
      · rw [comma_mem hc]; decide
      · rw [blanks_mem hc]; decide
      · revert c; decide
    rcases hw with rfl | rfl
    · exact ⟨_, s%"d ", 'n', by simp, hl, by decide, .inl rfl⟩
    · refine ⟨(if comma then s%"," else []) ++ blanks k ++ s%" ", s%"r ", 'o', by simp, ?_, by decide, .inr rfl⟩
      intro c hc
      apply hl
      simp only [List.mem_append] at hc ⊢
      rcases hc with hc | hc
      · exact .inl hc
      · right; revert c; decide
  | text comma k i j w hw =>
    have hl : ∀ c ∈ (if comma then s%"," else []) ++ blanks k ++ s%"\\text{" ++ blanks i ++ s%"a", c ∈ s%", \\text{a" := by
      intro c hc
      simp only [List.mem_append] at hc
      rcases hc with (((hc | hc) | hc) | hc) | hc
      · rw [comma_mem hc]; decide
      · rw [blanks_mem hc]; decide
      · revert c; decide
      · rw [blanks_mem hc]; decide
      · revert c; decide
    have hr : ∀ x ∈ s%"dr", ∀ c ∈ x :: (blanks j ++ s%"}"), c ∈ s%"dr }" := by
      intro x hx c hc
      rcases List.mem_cons.1 hc with rfl | hc
      · have : ∀ c ∈ s%"dr", c ∈ s%"dr }" := by decide
        exact this c hx
      · rcases List.mem_append.1 hc with hc | hc
        · rw [blanks_mem hc]; decide
        · rw [List.mem_singleton.1 hc]; decide
    rcases hw with rfl | rfl
    · exact ⟨_, 'd' :: (blanks j ++ s%"}"), 'n', by simp, hl, hr 'd' (by simp), .inl rfl⟩
    · refine ⟨(if comma then s%"," else []) ++ blanks k ++ s%"\\text{" ++ blanks i, 'r' :: (blanks j ++ s%"}"), 'o', by simp, ?_,
        hr 'r' (by simp), .inr rfl⟩
      intro c hc
      exact hl c (List.mem_append_left _ hc)

theorem sep_chars {sep : Str} (h : AndOrSep sep) : ∀ c ∈ sep, c ∈ s%", \\text{andor}" := by
  obtain ⟨l, r, y, rfl, hl, hr, hy⟩ := sep_halves h
  intro c hc
  rcases List.mem_append.1 hc with hc | hc
  · have := hl c hc
    have hs : ∀ c ∈ s%", \\text{a", c ∈ s%", \\text{andor}" := by decide
    exact hs c this
  · rcases List.mem_cons.1 hc with rfl | hc
    · rcases hy with rfl | rfl <;> decide
    · have := hr c hc
      have hs : ∀ c ∈ s%"dr }", c ∈ s%", \\text{andor}" := by decide
      exact hs c this

theorem sep_head {sep : Str} (h : AndOrSep sep) : sep.head? = some ',' ∨ sep.head? = some ' ' ∨ sep.head? = some '\\' := by
  cases h with
  | word comma k w hw => cases comma <;> cases k <;> simp [blanks, List.replicate_succ]
  | text comma k i j w hw => cases comma <;> cases k <;> simp [blanks, List.replicate_succ]

section
variable {a b sep : Str} (ha : LeftElem a) (hb : RightElem b) (hs : AndOrSep sep)
include ha hb hs

omit ha hb in
/-- A word that contains neither `n` nor `o`, starting with a brace or backslash and ending in a character that is
not in the separator's left half, occurs in the text only if it occurs in an element. -/
theorem joined_absent {x y : Char} {p : Str} (hn : 'n' ∉ x :: p) (ho : 'o' ∉ x :: p) (hx : x ∉ s%"dr }")
    (hp : ∃ q, x :: p = q ++ [y]) (hy : y ∉ s%", \\text{a") (h1 : ¬ x :: p <:+: a) (h2 : ¬ x :: p <:+: b) :
    ¬ x :: p <:+: a ++ sep ++ b := by
  obtain ⟨l, r, z, rfl, hl, hr, hz⟩ := sep_halves hs
  intro hi
  have hi' : x :: p <:+: (a ++ l) ++ z :: (r ++ b) := by simpa using hi
  have hzp : z ∉ x :: p := by rcases hz with rfl | rfl <;> assumption
  rcases infix_straddle hzp hi' with h | h
  · obtain ⟨q, hq⟩ := hp
    rw [hq] at h
    exact h1 (by rw [hq]; exact infix_chop (fun hm => hy (hl _ hm)) h)
  · exact h2 (infix_drop (fun hm => hx (hr _ hm)) h)

theorem joined_no_comma : ¬ s%"\\," <:+: a ++ sep ++ b := by
  have h1 := ha.calm.words s%"\\," (by simp [special])
  have h2 := hb.calm.words s%"\\," (by simp [special])
  have main : ∀ (comma : Bool) (l r : Str) (z : Char), z ∉ s%"\\," → '\\' ∉ r → ',' ∉ l →
      ¬ s%"\\," <:+: a ++ ((if comma then s%"," else []) ++ l ++ z :: r) ++ b := by
    intro comma l r z hz hr hl hi
    have hi' : s%"\\," <:+: (a ++ (if comma then s%"," else []) ++ l) ++ z :: (r ++ b) := by simpa using hi
    rcases infix_straddle hz hi' with h | h
    · have h := infix_chop (x := ',') (p := s%"\\") hl h
      cases comma with
      | false => exact h1 (by simpa using h)
      | true =>
        rcases infix_snoc (p := s%"\\") h with h | h
        · exact h1 h
        · obtain ⟨u, rfl⟩ := h
          exact ha.slash (by simp)
    · exact h2 (infix_drop hr h)
  cases hs with
  | word comma k w hw =>
    have := main comma (blanks k) (w ++ s%" ") ' ' (by decide) (by rcases hw with rfl | rfl <;> decide)
      (fun hm => by have := blanks_mem hm; revert this; decide)
    simpa using this
  | text comma k i j w hw =>
    have := main comma (blanks k ++ s%"\\t") (s%"xt{" ++ blanks i ++ w ++ blanks j ++ s%"}") 'e' (by decide)
      (by
        intro hm
        simp only [List.mem_append] at hm
        rcases hm with (((hm | hm) | hm) | hm) | hm
        · revert hm; decide
        · have := blanks_mem hm; revert this; decide
        · rcases hw with rfl | rfl <;> revert hm <;> decide
        · have := blanks_mem hm; revert this; decide
        · revert hm; decide)
      (by
        intro hm
        rcases List.mem_append.1 hm with hm | hm
        · have := blanks_mem hm; revert this; decide
        · revert hm; decide)
    simpa using this

theorem joined_no_double : ¬ s%"\\\\" <:+: a ++ sep ++ b := by
  have h1 := ha.calm.words s%"\\\\" (by simp [special])
  have h2 := hb.calm.words s%"\\\\" (by simp [special])
  cases hs with
  | word comma k w hw =>
    intro hi
    have hno : '\\' ∉ (if comma then s%"," else []) ++ blanks k ++ s%" " ++ w ++ s%" " := by
      intro hm
      simp only [List.mem_append] at hm
      rcases hm with (((hm | hm) | hm) | hm) | hm
      · have := comma_mem hm; revert this; decide
      · have := blanks_mem hm; revert this; decide
      · revert hm; decide
      · rcases hw with rfl | rfl <;> revert hm <;> decide
      · revert hm; decide
    have hi' : s%"\\\\" <:+: (a ++ ((if comma then s%"," else []) ++ blanks k)) ++ ' ' :: ((w ++ s%" ") ++ b) := by simpa using hi
    rcases infix_straddle (by decide) hi' with h | h
    · refine h1 (infix_chop (x := '\\') (p := s%"\\") (fun hm => hno ?_) h)
      simp only [List.append_assoc, List.mem_append] at hm ⊢
      rcases hm with hm | hm
      · exact .inl hm
      · exact .inr (.inl hm)
    · refine h2 (infix_drop (fun hm => hno ?_) h)
      simp only [List.append_assoc, List.mem_append] at hm ⊢
      exact .inr (.inr (.inr hm))
  | text comma k i j w hw =>
    intro hi
    have hi' : s%"\\\\" <:+: (a ++ (if comma then s%"," else []) ++ blanks k ++ s%"\\") ++ 't' :: ((s%"ext{" ++ blanks i ++ w ++ blanks j ++ s%"}") ++ b) := by
      simpa using hi
    rcases infix_straddle (by decide) hi' with h | h
    · rcases infix_snoc (p := s%"\\") h with h | h
      · cases comma with
        | false =>
          refine h1 (infix_chop (x := '\\') (p := s%"\\") (r := blanks k) (fun hm => ?_) (by simpa using h))
          have := blanks_mem hm; revert this; decide
        | true =>
          refine h1 (infix_chop (x := '\\') (p := s%"\\") (r := s%"," ++ blanks k) (fun hm => ?_) (by simpa using h))
          rcases List.mem_append.1 hm with hm | hm
          · revert hm; decide
          · have := blanks_mem hm; revert this; decide
      · -- the element would end with a backslash
        obtain ⟨u, hu⟩ := h
        have hl : (a ++ (if comma then s%"," else []) ++ blanks k).getLast? = some '\\' := by rw [← hu]; simp
        cases k with
        | succ k => rw [blanks, List.replicate_succ', ← List.append_assoc] at hl; simp at hl
        | zero =>
          cases comma with
          | false => exact ha.slash (by simpa [blanks] using hl)
          | true => simp [blanks] at hl
    · refine h2 (infix_drop (fun hm => ?_) h)
      simp only [List.mem_append] at hm
      rcases hm with (((hm | hm) | hm) | hm) | hm
      · revert hm; decide
      · have := blanks_mem hm; revert this; decide
      · rcases hw with rfl | rfl <;> revert hm <;> decide
      · have := blanks_mem hm; revert this; decide
      · revert hm; decide

theorem joined_no_cases : ¬ s%"{cases}" <:+: a ++ sep ++ b := by
  intro hi
  have hna := math_no ha.calm.chars (x := 'e') rfl
  have hnb := math_no hb.calm.chars (x := 'e') rfl
  cases hs with
  | word comma k w hw =>
    have : 'e' ∈ a ++ ((if comma then s%"," else []) ++ blanks k ++ s%" " ++ w ++ s%" ") ++ b := hi.subset (by simp)
    simp only [List.mem_append] at this
    rcases this with (h | (((h | h) | h) | h) | h) | h
    · exact hna h
    · have := comma_mem h; revert this; decide
    · have := blanks_mem h; revert this; decide
    · revert h; decide
    · rcases hw with rfl | rfl <;> revert h <;> decide
    · revert h; decide
    · exact hnb h
  | text comma k i j w hw =>
    have hi' : 'e' :: s%"s}" <:+: (a ++ (if comma then s%"," else []) ++ blanks k ++ s%"\\t") ++ 'e' :: (s%"xt{" ++ blanks i ++ w ++ blanks j ++ s%"}" ++ b) := by
      refine List.IsInfix.trans ⟨s%"{cas", [], rfl⟩ (List.IsInfix.trans hi ?_)
      rw [show (a ++ (if comma then s%"," else []) ++ blanks k ++ s%"\\t") ++ 'e' :: (s%"xt{" ++ blanks i ++ w ++ blanks j ++ s%"}" ++ b) =
        a ++ ((if comma then s%"," else []) ++ blanks k ++ s%"\\text{" ++ blanks i ++ w ++ blanks j ++ s%"}") ++ b by simp]
    have := once_infix ?_ ?_ hi'
    · simp at this
    · simp only [List.mem_append, not_or]
      refine ⟨⟨⟨hna, fun h => ?_⟩, fun h => ?_⟩, by decide⟩
      · have := comma_mem h; revert this; decide
      · have := blanks_mem h; revert this; decide
    · simp only [List.mem_append, not_or]
      refine ⟨⟨⟨⟨⟨by decide, fun h => ?_⟩, fun h => ?_⟩, fun h => ?_⟩, by decide⟩, hnb⟩
      · have := blanks_mem h; revert this; decide
      · rcases hw with rfl | rfl <;> revert h <;> decide
      · have := blanks_mem h; revert this; decide

theorem joined_textRe : reSearch textRe (a ++ sep ++ b) = none := by
  cases hm : reSearch textRe (a ++ sep ++ b) with
  | none => rfl
  | some t =>
    exfalso
    obtain ⟨u, hu, hl⟩ := reSearch_bos_lang hm
    obtain ⟨x1, y1, rfl, hx1, hl⟩ := lang_cat_cons.1 hl
    rw [lang_c.1 hx1] at hu
    obtain ⟨w, y2, rfl, hw, hl⟩ := lang_cat_cons.1 hl
    obtain ⟨kw, y3, rfl, hkw, hl⟩ := lang_cat_cons.1 hl
    have hws : ∀ c ∈ w, isSpace c = true := lang_star_chr hw
    rcases hkw with hkw | hkw
    · rw [lang_lit.1 hkw] at hu
      have hna := math_no ha.calm.chars (x := 'e') rfl
      have hnb := math_no hb.calm.chars (x := 'e') rfl
      have hwe : 'e' ∉ w := fun h => by have := hws _ h; revert this; decide
      cases hs with
      | word comma k v hv =>
        have : 'e' ∈ a ++ ((if comma then s%"," else []) ++ blanks k ++ s%" " ++ v ++ s%" ") ++ b := by rw [hu]; simp
        simp only [List.mem_append] at this
        rcases this with (h | (((h | h) | h) | h) | h) | h
        · exact hna h
        · have := comma_mem h; revert this; decide
        · have := blanks_mem h; revert this; decide
        · revert h; decide
        · rcases hv with rfl | rfl <;> revert h <;> decide
        · revert h; decide
        · exact hnb h
      | text comma k i j v hv =>
        have e : (a ++ (if comma then s%"," else []) ++ blanks k ++ s%"\\t") ++ 'e' :: (s%"xt{" ++ blanks i ++ v ++ blanks j ++ s%"}" ++ b) =
            ('\\' :: w ++ s%"t") ++ 'e' :: (s%"xt" ++ y3 ++ t.rest) := by
          rw [show ('\\' :: w ++ s%"t") ++ 'e' :: (s%"xt" ++ y3 ++ t.rest) = '\\' :: (w ++ (s%"text" ++ y3)) ++ t.rest by simp]
          rw [show '\\' :: (w ++ (s%"text" ++ y3)) ++ t.rest = s%"\\" ++ (w ++ (s%"text" ++ y3)) ++ t.rest by simp, ← hu]
          simp
        have e1 : ('\\' :: w ++ s%"t") = a ++ (if comma then s%"," else []) ++ blanks k ++ s%"\\t" := by
          refine ((List.append_eq_append_iff.1 e).elim ?_ ?_)
          · rintro ⟨m, h1, h2⟩
            cases m with
            | nil => simpa using h1
            | cons z zs =>
              simp only [List.cons_append, List.cons.injEq] at h2
              have : 'e' ∈ '\\' :: w ++ s%"t" := by rw [h1, h2.1]; simp
              simp [hwe] at this
          · rintro ⟨m, h1, h2⟩
            cases m with
            | nil => simpa using h1.symm
            | cons z zs =>
              simp only [List.cons_append, List.cons.injEq] at h2
              have : 'e' ∈ a ++ (if comma then s%"," else []) ++ blanks k ++ s%"\\t" := by rw [h1, h2.1]; simp
              exfalso
              simp only [List.mem_append] at this
              rcases this with ((h | h) | h) | h
              · exact hna h
              · have := comma_mem h; revert this; decide
              · have := blanks_mem h; revert this; decide
              · revert h; decide
        obtain ⟨x, xs, rfl⟩ := List.exists_cons_of_ne_nil ha.ne
        simp only [List.cons_append, List.cons.injEq] at e1
        have e2 : w ++ s%"t" = (xs ++ (if comma then s%"," else []) ++ blanks k ++ s%"\\") ++ s%"t" := by rw [e1.2]; simp
        have e3 := List.append_cancel_right e2
        have := hws '\\' (by rw [e3]; simp)
        revert this; decide
    · rw [lang_lit.1 hkw] at hu
      have : 'm' ∈ a ++ sep ++ b := by rw [hu]; simp
      simp only [List.mem_append] at this
      rcases this with (h | h) | h
      · exact math_no ha.calm.chars rfl h
      · have := sep_chars hs _ h; revert this; decide
      · exact math_no hb.calm.chars rfl h

theorem joined_char {x : Char} (h : mathChar x = false) (h' : x ∉ s%", \\text{andor}") : x ∉ a ++ sep ++ b := by
  simp only [List.mem_append, not_or]
  exact ⟨⟨math_no ha.calm.chars h, fun hm => h' (sep_chars hs x hm)⟩, math_no hb.calm.chars h⟩

theorem joined_matrix : matrixNormalize (stripBlank (a ++ sep ++ b)) = a ++ sep ++ b := by
  rw [stripBlank_id]
  · refine matrixNormalize_id (joined_no_cases ha hb hs) ?_ (joined_no_double ha hb hs)
    exact joined_absent hs (y := '}') (by decide) (by decide) (by decide) ⟨s%"{array", rfl⟩ (by decide)
      (ha.calm.words _ (by simp [special])) (hb.calm.words _ (by simp [special]))
  · obtain ⟨x, xs, rfl⟩ := List.exists_cons_of_ne_nil ha.ne
    have := ha.head
    simpa using this
  · rw [List.getLast?_append_of_ne_nil _ hb.ne]
    exact hb.last

theorem joined_spacing : removeSpacing (a ++ sep ++ b) = a ++ sep ++ b := by
  have key : ∀ (q : Str) (y : Char), q ++ [y] ∈ special → q ++ [y] ∈ [s%"\\:", s%"\\;", s%"\\!", s%"{,}"] → ¬ q ++ [y] <:+: a ++ sep ++ b := by
    intro q y h1 h2
    have h3 := ha.calm.words _ h1
    have h4 := hb.calm.words _ h1
    have aux : ∀ p : Str, p = q ++ [y] → p ∈ [s%"\\:", s%"\\;", s%"\\!", s%"{,}"] → ¬ p <:+: a ++ sep ++ b := by
      intro p hp hm
      rw [← hp] at h3 h4
      simp only [List.mem_cons, List.not_mem_nil, or_false] at hm
      rcases hm with rfl | rfl | rfl | rfl
      · exact joined_absent hs (y := ':') (by decide) (by decide) (by decide) ⟨s%"\\", rfl⟩ (by decide) h3 h4
      · exact joined_absent hs (y := ';') (by decide) (by decide) (by decide) ⟨s%"\\", rfl⟩ (by decide) h3 h4
      · exact joined_absent hs (y := '!') (by decide) (by decide) (by decide) ⟨s%"\\", rfl⟩ (by decide) h3 h4
      · exact joined_absent hs (y := '}') (by decide) (by decide) (by decide) ⟨s%"{,", rfl⟩ (by decide) h3 h4
    exact aux _ rfl h2
  exact removeSpacing_id (key s%"\\" ':' (by simp [special]) (by simp)) (joined_no_comma ha hb hs)
    (key s%"\\" ';' (by simp [special]) (by simp)) (key s%"\\" '!' (by simp [special]) (by simp))
    (key s%"{," '}' (by simp [special]) (by simp))

end

/-! ### Replacing the separator -/

/-- The words of the pattern are exactly the separators. -/
theorem andOr_sep {u : Str} (h : andOrRe.Lang u) : AndOrSep u := by
  have key : ∀ n v, (grp n (alt (lit s%"and") (lit s%"or"))).Lang v → v = s%"and" ∨ v = s%"or" := by
    intro n v hv
    rcases hv with hv | hv
    · exact .inl (lang_lit.1 hv)
    · exact .inr (lang_lit.1 hv)
  have bl : ∀ v, (many (c ' ')).Lang v → ∃ k, v = blanks k := by
    intro v hv
    have : ∀ x ∈ v, (x == ' ') = true := lang_star_chr hv
    exact ⟨v.length, List.eq_replicate_iff.2 ⟨rfl, fun x hx => by simpa using this x hx⟩⟩
  obtain ⟨x, y, rfl, hx, h⟩ := h
  obtain ⟨x', z, rfl, hx', hz⟩ := h
  obtain ⟨k, rfl⟩ := bl _ hx'
  have hc : ∃ comma : Bool, x = if comma then s%"," else [] := by
    rcases hx with hx | hx
    · exact ⟨true, by rw [lang_c.1 hx]; rfl⟩
    · exact ⟨false, by simpa [Re.Lang] using hx⟩
  obtain ⟨comma, rfl⟩ := hc
  rcases hz with hz | hz
  · obtain ⟨x1, y1, rfl, h1, hz1⟩ := lang_cat_cons.1 hz
    rw [lang_lit.1 h1]
    obtain ⟨x2, y2, rfl, h2, hz2⟩ := lang_cat_cons.1 hz1
    obtain ⟨i, rfl⟩ := bl _ h2
    obtain ⟨x3, y3, rfl, h3, hz3⟩ := lang_cat_cons.1 hz2
    obtain ⟨x4, y4, rfl, h4, hz4⟩ := lang_cat_cons.1 hz3
    obtain ⟨j, rfl⟩ := bl _ h4
    have h5 : y4 = s%"}" := lang_c.1 hz4
    subst h5
    have := AndOrSep.text comma k i j x3 (key 3 _ h3)
    simpa using this
  · obtain ⟨x1, y1, rfl, h1, hz1⟩ := lang_cat_cons.1 hz
    rw [lang_c.1 h1]
    obtain ⟨x2, y2, rfl, h2, hz2⟩ := lang_cat_cons.1 hz1
    have h3 : y2 = s%" " := lang_c.1 hz2
    subst h3
    have := AndOrSep.word comma k x2 (key 4 _ h2)
    simpa using this

theorem First.seq_back {a b : Re} {s t₁ t₂ v : RSt} {l : List RSt} (h : a.run s = t₁ :: t₂ :: l) (h1 : b.run t₁ = [])
    (h2 : b.First t₂ v) : (Re.seq a b).First s v := by
  unfold Re.First at *
  rw [run_seq, h]
  simp only [List.flatMap_cons, h1, List.nil_append]
  cases hl : b.run t₂ with
  | nil => rw [hl] at h2; cases h2
  | cons x xs => rw [hl] at h2; cases h2; simp

theorem first_andOr {sep b : Str} (hs : AndOrSep sep) (pre : Str) : ∃ caps pre', andOrRe.First ⟨pre, sep ++ b, []⟩ ⟨pre', b, caps⟩ := by
  have hword : ∀ (n : Nat) (w : Str), (w = s%"and" ∨ w = s%"or") → ∀ (pre cs : Str) (caps : List (Nat × Str)),
      (grp n (alt (lit s%"and") (lit s%"or"))).First ⟨pre, w ++ cs, caps⟩ ⟨w.reverse ++ pre, cs, (n, w) :: caps⟩ := by
    intro n w hw pre cs caps
    apply First.grp
    rcases hw with rfl | rfl
    · exact First.alt_l (First.lit _ _ _ _)
    · exact First.alt_r rfl (First.lit _ _ _ _)
  have hcomma : ∀ (comma : Bool) (cs : Str), cs.head? ≠ some ',' →
      (opt (c ',')).First ⟨pre, (if comma then s%"," else []) ++ cs, []⟩ ⟨(if comma then s%"," else []) ++ pre, cs, []⟩ := by
    intro comma cs h
    cases comma with
    | true => exact First.opt_some (First.c ',' _ _ _)
    | false =>
      refine First.opt_none (run_chr_empty fun x hx => ?_)
      rw [beq_eq_false_iff_ne]; rintro rfl; exact h hx
  cases hs with
  | word comma k w hw =>
    have hne : ∀ x, (w ++ s%" " ++ b).head? = some x → x = 'a' ∨ x = 'o' := by
      rcases hw with rfl | rfl
      · rintro x ⟨⟩; exact .inl rfl
      · rintro x ⟨⟩; exact .inr rfl
    have hrun : (many (c ' ')).run ⟨(if comma then s%"," else []) ++ pre, blanks k ++ (s%" " ++ w ++ s%" " ++ b), []⟩ =
        (List.range (k + 1 + 1)).reverse.map (RSt.adv ⟨(if comma then s%"," else []) ++ pre, blanks k ++ (s%" " ++ w ++ s%" " ++ b), []⟩) := by
      have := run_many_chr (· == ' ') ⟨(if comma then s%"," else []) ++ pre, blanks k ++ (s%" " ++ w ++ s%" " ++ b), []⟩
      have hr : runLen (· == ' ') (blanks k ++ (s%" " ++ w ++ s%" " ++ b)) = k + 1 := by
        have e : blanks k ++ (s%" " ++ w ++ s%" " ++ b) = blanks (k + 1) ++ (w ++ s%" " ++ b) := by
          rw [blanks, blanks, List.replicate_succ']; simp
        rw [e, runLen_append_all (by simp [blanks])]
        cases h : w ++ s%" " ++ b with
        | nil => simp at h
        | cons x xs =>
          rw [runLen_cons_neg (by rcases hne x (by rw [h]; rfl) with rfl | rfl <;> decide)]
          simp [blanks]
      simp only [hr] at this
      exact this
    rw [List.range_succ, List.range_succ] at hrun
    rw [List.reverse_append, List.reverse_append, List.map_append, List.map_append] at hrun
    have e : (if comma then s%"," else []) ++ blanks k ++ s%" " ++ w ++ s%" " ++ b =
        (if comma then s%"," else []) ++ (blanks k ++ (s%" " ++ w ++ s%" " ++ b)) := by simp
    rw [e]
    have hadv1 : RSt.adv ⟨(if comma then s%"," else []) ++ pre, blanks k ++ (s%" " ++ w ++ s%" " ++ b), []⟩ (k + 1) =
        ⟨(s%" ") ++ (blanks k ++ ((if comma then s%"," else []) ++ pre)), w ++ s%" " ++ b, []⟩ := by
      have e : blanks k ++ (s%" " ++ w ++ s%" " ++ b) = blanks (k + 1) ++ (w ++ s%" " ++ b) := by
        rw [blanks, blanks, List.replicate_succ']; simp
      have e2 : blanks (k + 1) = s%" " ++ blanks k := rfl
      rw [e]
      unfold RSt.adv
      simp only
      rw [List.take_append_of_le_length (by simp [blanks]), List.drop_append_of_le_length (by simp [blanks])]
      rw [List.take_of_length_le (by simp [blanks]), List.drop_of_length_le (by simp [blanks])]
      rw [show (blanks (k+1)).reverse = blanks (k+1) by simp [blanks], e2]; simp
    have hadv2 : RSt.adv ⟨(if comma then s%"," else []) ++ pre, blanks k ++ (s%" " ++ w ++ s%" " ++ b), []⟩ k =
        ⟨blanks k ++ ((if comma then s%"," else []) ++ pre), ' ' :: (w ++ s%" " ++ b), []⟩ := by
      unfold RSt.adv
      simp only
      rw [List.take_append_of_le_length (by simp [blanks]), List.drop_append_of_le_length (by simp [blanks])]
      rw [List.take_of_length_le (by simp [blanks]), List.drop_of_length_le (by simp [blanks])]
      rw [show (blanks k).reverse = blanks k by simp [blanks]]; simp
    simp only [List.reverse_singleton, List.map_singleton, hadv1, hadv2] at hrun
    have h0 := First.cat_cons (First.c ' ' (blanks k ++ ((if comma then s%"," else []) ++ pre)) (w ++ (s%" " ++ b)) [])
      (First.cat_cons (hword 4 w hw _ _ _) (First.cat_one (First.c ' ' _ b _)))
    have h1 := First.alt_r (a := grp 2 (cat [lit s%"\\text{", many (c ' '), grp 3 (alt (lit s%"and") (lit s%"or")), many (c ' '), c '}']))
      (by simp only [run_grp, List.map_eq_nil_iff]; exact run_cat_nil rfl) h0
    have h2 := First.grp (n := 1) (u := s%" " ++ w ++ s%" ") (cs := b)
      (by rw [show (s%" " ++ w ++ s%" ") ++ b = ' ' :: (w ++ (s%" " ++ b)) by simp]; exact h1)
    rw [show (s%" " ++ w ++ s%" ") ++ b = ' ' :: (w ++ s%" " ++ b) by simp] at h2
    refine ⟨_, _, First.cat_cons (hcomma comma _ ?_) (First.seq_back (l := (List.range k).reverse.map
      (RSt.adv ⟨(if comma then s%"," else []) ++ pre, blanks k ++ (s%" " ++ w ++ s%" " ++ b), []⟩)) (by rw [hrun]; rfl) ?_ h2)⟩
    · cases k <;> simp [blanks, List.replicate_succ]
    · -- after all the blanks neither alternative fits
      have h1 : (c ' ').run ⟨(s%" ") ++ (blanks k ++ ((if comma then s%"," else []) ++ pre)), w ++ s%" " ++ b, []⟩ = [] :=
        run_chr_empty fun x hx => by rcases hne x hx with rfl | rfl <;> rfl
      have h2 : (lit s%"\\text{").run ⟨(s%" ") ++ (blanks k ++ ((if comma then s%"," else []) ++ pre)), w ++ s%" " ++ b, []⟩ = [] := by
        rcases hw with rfl | rfl <;> rfl
      show (grp 1 _).run _ = []
      simp only [run_grp, List.map_eq_nil_iff]
      refine run_alt_nil ?_ (run_cat_nil h1)
      simp only [run_grp, List.map_eq_nil_iff]
      exact run_cat_nil h2
  | text comma k i j w hw =>
    have e : (if comma then s%"," else []) ++ blanks k ++ s%"\\text{" ++ blanks i ++ w ++ blanks j ++ s%"}" ++ b =
        (if comma then s%"," else []) ++ (blanks k ++ ((s%"\\text{" ++ blanks i ++ w ++ blanks j ++ s%"}") ++ b)) := by simp
    rw [e]
    have hbl : ∀ k, ∀ x ∈ blanks k, (x == ' ') = true := fun k x hx => by rw [blanks_mem hx]; rfl
    have h1 := First.many (p := (· == ' ')) (blanks j) (s%"}" ++ b) (w.reverse ++ ((blanks i).reverse ++ ((s%"\\text{").reverse ++
      ((blanks k).reverse ++ ((if comma then s%"," else []) ++ pre))))) [(3, w)] (hbl j) (by intro x hx; simp at hx; subst hx; rfl)
    have h2 := First.many (p := (· == ' ')) (blanks i) (w ++ (blanks j ++ (s%"}" ++ b))) ((s%"\\text{").reverse ++
      ((blanks k).reverse ++ ((if comma then s%"," else []) ++ pre))) [] (hbl i)
      (by rcases hw with rfl | rfl <;> (intro x hx; simp at hx; subst hx; rfl))
    have h3 := First.cat_cons (First.lit s%"\\text{" ((blanks k).reverse ++ ((if comma then s%"," else []) ++ pre)) (blanks i ++ (w ++ (blanks j ++ (s%"}" ++ b)))) [])
      (First.cat_cons h2 (First.cat_cons (hword 3 w hw _ _ _) (First.cat_cons h1 (First.cat_one (First.c '}' _ b _)))))
    rw [show s%"\\text{" ++ (blanks i ++ (w ++ (blanks j ++ (s%"}" ++ b)))) = (s%"\\text{" ++ blanks i ++ w ++ blanks j ++ s%"}") ++ b by simp] at h3
    refine ⟨_, _, First.cat_cons (hcomma comma _ ?_) (First.cat_cons (First.many (blanks k) _ _ _ (hbl k) ?_)
      (First.cat_one (First.grp (First.alt_l (First.grp h3)))))⟩
    · cases k <;> simp [blanks, List.replicate_succ]
    · intro x hx; simp at hx; subst hx; rfl

/-- No separator begins inside the first element. -/
theorem sep_not_inside {a b sep : Str} (ha : LeftElem a) (hs : AndOrSep sep) {a₁ a₂ : Str} (e : a = a₁ ++ a₂) (hne : a₂ ≠ [])
    {u : Str} (hu : AndOrSep u) (hp : u <+: a₂ ++ sep ++ b) : False := by
  have hlast : ∀ y, a₂.getLast? = some y → y ≠ ' ' ∧ y ≠ ',' ∧ y ≠ '\\' := by
    intro y hy
    have : a.getLast? = some y := by rw [e, List.getLast?_append_of_ne_nil _ hne]; exact hy
    refine ⟨?_, ?_, ?_⟩ <;> rintro rfl
    · exact ha.last this
    · exact ha.comma this
    · exact ha.slash this
  have hchars : ∀ c ∈ a₂, mathChar c = true := fun c hc => ha.calm.chars c (by rw [e]; simp [hc])
  -- the separator extends beyond the element
  obtain ⟨h, v, huv, hh⟩ : ∃ h v, u = a₂ ++ h :: v ∧ (h = ',' ∨ h = ' ' ∨ h = '\\') := by
    have hle : ¬ u.length ≤ a₂.length := by
      intro hle
      obtain ⟨l, r, y, he, _, _, hy⟩ := sep_halves hu
      have : u <+: a₂ := List.prefix_of_prefix_length_le hp (by rw [List.append_assoc]; exact List.prefix_append _ _) hle
      have := hchars y (this.subset (by rw [he]; simp))
      rcases hy with rfl | rfl <;> revert this <;> decide
    have h2 : a₂ <+: u := List.prefix_of_prefix_length_le (l₃ := a₂ ++ sep ++ b) (by rw [List.append_assoc]; exact List.prefix_append _ _) hp (by omega)
    obtain ⟨m, rfl⟩ := h2
    cases m with
    | nil => simp at hle
    | cons h v =>
      refine ⟨h, v, rfl, ?_⟩
      rw [List.append_assoc, List.prefix_append_right_inj] at hp
      have : (sep ++ b).head? = some h := by obtain ⟨q, hq⟩ := hp; rw [← hq]; rfl
      have hsh := sep_head hs
      have hsne : sep ≠ [] := by rintro rfl; simp at hsh
      rw [List.head?_append_of_ne_nil _ hsne] at this
      rw [this] at hsh
      simpa using hsh
  -- the separator as commas and blanks, then the word
  obtain ⟨q, m, hq, hm, hum⟩ : ∃ q m, (∀ c ∈ q, c = ',' ∨ c = ' ') ∧ (m = s%"and " ∨ m = s%"or " ∨ s%"\\text{" <+: m) ∧ u = q ++ m := by
    cases hu with
    | word comma k w hw =>
      refine ⟨(if comma then s%"," else []) ++ blanks k ++ s%" ", w ++ s%" ", ?_, ?_, by simp⟩
      · intro c hc
        simp only [List.mem_append] at hc
        rcases hc with (hc | hc) | hc
        · exact .inl (comma_mem hc)
        · exact .inr (blanks_mem hc)
        · exact .inr (List.mem_singleton.1 hc)
      · rcases hw with rfl | rfl
        · exact .inl rfl
        · exact .inr (.inl rfl)
    | text comma k i j w hw =>
      refine ⟨(if comma then s%"," else []) ++ blanks k, s%"\\text{" ++ (blanks i ++ w ++ blanks j ++ s%"}"), ?_, .inr (.inr (List.prefix_append _ _)), by simp⟩
      intro c hc
      simp only [List.mem_append] at hc
      rcases hc with hc | hc
      · exact .inl (comma_mem hc)
      · exact .inr (blanks_mem hc)
  have hend : ∀ p, a₂ ++ p = q → False := by
    intro p hpq
    obtain ⟨y, hy⟩ : ∃ y, a₂.getLast? = some y := ⟨_, List.getLast?_eq_some_getLast hne⟩
    have := hq y (by rw [← hpq]; simp [List.mem_of_getLast? hy])
    rcases this with rfl | rfl
    · exact (hlast _ hy).2.1 rfl
    · exact (hlast _ hy).1 rfl
  rw [huv] at hum
  rcases List.append_eq_append_iff.1 hum with ⟨p, h1, _⟩ | ⟨p, h1, h2⟩
  · exact hend p h1.symm
  · cases p with
    | nil => exact hend [] (by rw [h1]; simp)
    | cons z zs =>
      have hz : ∀ c ∈ z :: zs, mathChar c = true := fun c hc => hchars c (by rw [h1]; exact List.mem_append_right _ hc)
      have hl : ∀ y, (z :: zs).getLast? = some y → y ≠ '\\' := by
        intro y hy
        refine (hlast y ?_).2.2
        rw [h1, List.getLast?_append_of_ne_nil _ (by simp)]; exact hy
      rcases hm with rfl | rfl | hm
      · simp only [List.cons_append, List.cons.injEq] at h2
        obtain ⟨rfl, h2⟩ := h2
        cases zs with
        | nil =>
          simp only [List.nil_append, List.cons.injEq] at h2
          rw [← h2.1] at hh; revert hh; decide
        | cons y ys =>
          simp only [List.cons_append, List.cons.injEq] at h2
          have := hz y (by simp); rw [← h2.1] at this; revert this; decide
      · simp only [List.cons_append, List.cons.injEq] at h2
        have := hz z (by simp); rw [← h2.1] at this; revert this; decide
      · obtain ⟨m', rfl⟩ := hm
        simp only [List.cons_append, List.cons.injEq] at h2
        obtain ⟨rfl, h2⟩ := h2
        cases zs with
        | nil => exact hl '\\' rfl rfl
        | cons y ys =>
          simp only [List.cons_append, List.cons.injEq] at h2
          obtain ⟨rfl, h2⟩ := h2
          cases ys with
          | nil =>
            simp only [List.nil_append, List.cons.injEq] at h2
            rw [← h2.1] at hh; revert hh; decide
          | cons x xs =>
            simp only [List.cons_append, List.cons.injEq] at h2
            have := hz x (by simp); rw [← h2.1] at this; revert this; decide

/-- The step for "and" and "or". -/
theorem joined_step {a b sep : Str} (ha : LeftElem a) (hb : RightElem b) (hs : AndOrSep sep) :
    andOrStep (a ++ sep ++ b) = a ++ s%" , " ++ b := by
  unfold andOrStep reSubConst reSub
  rw [List.append_assoc, scanSub_skip]
  · obtain ⟨caps, pre', h⟩ := first_andOr (b := b) hs (a.reverse ++ [])
    have hsc := First.scanner (fun _ _ => s%" , ") h
    have hsne : sep ≠ [] := by rintro rfl; have := sep_head hs; simp at this
    rw [scanSub_match _ _ sep b _ hsne hsc, scan_id_of_lang]
    · simp
    · intro u hu hi
      obtain ⟨l, r, y, rfl, _, _, hy⟩ := sep_halves (andOr_sep hu)
      have := hb.calm.chars y (hi.subset (by simp))
      rcases hy with rfl | rfl <;> revert this <;> decide
  · intro a₁ a₂ e hne
    have : andOrRe.run ⟨a₁.reverse ++ [], a₂ ++ (sep ++ b), []⟩ = [] := by
      rw [List.eq_nil_iff_forall_not_mem]
      intro t ht
      obtain ⟨u, hu, hl⟩ := run_lang andOrRe _ t ht
      exact sep_not_inside (b := b) ha hs e hne (andOr_sep hl) (by rw [List.append_assoc]; exact ⟨t.rest, hu.symm⟩)
    simp only [Re.scanner, Re.matchAt, this]; rfl

theorem special_noblank : ∀ p ∈ special, ' ' ∉ p := by decide

theorem special_comma : ∀ p ∈ special, ¬ p <:+: s%"," := by decide

/-- Elements with a comma in between are ordinary again. -/
theorem comma_calm {a b : Str} (ha : Calm a) (hb : Calm b) : Calm (a ++ s%" , " ++ b) := by
  refine ⟨?_, ?_⟩
  · intro c hc
    simp only [List.mem_append] at hc
    rcases hc with (hc | hc) | hc
    · exact ha.chars c hc
    · have : ∀ c ∈ s%" , ", mathChar c = true := by decide
      exact this c hc
    · exact hb.chars c hc
  · intro p hp hi
    have hn := special_noblank p hp
    have hi' : p <:+: a ++ ' ' :: (s%"," ++ ' ' :: b) := by simpa using hi
    rcases infix_straddle hn hi' with h | h
    · exact ha.words p hp h
    · rcases infix_straddle hn h with h | h
      · exact special_comma p hp h
      · exact hb.words p hp h

theorem joined_normBody (E : Env X V S) (rec : Str → M X Norm) {a b sep : Str} (ha : LeftElem a) (hb : RightElem b) (hs : AndOrSep sep) :
    normBody E rec (a ++ sep ++ b) = (do let r ← further E (a ++ s%" , " ++ b); pure (.str r)) := by
  have hc := comma_calm ha.calm hb.calm
  unfold normBody
  simp only [joined_matrix ha hb hs]
  rw [joined_textRe ha hb hs, setBuilderRe_none' (joined_char ha hb hs rfl (by decide))]
  refine normTail_calm E (joined_spacing ha hb hs) (joined_char ha hb hs rfl (by decide)) (joined_char ha hb hs rfl (by decide)) ?_ hc.chars
    (hc.words _ (by simp [special])) (hc.words _ (by simp [special]))
  have h := calm_middle hc
  unfold middle at h ⊢
  rw [removeDollar_id (math_no hc.chars rfl), andOrStep_id (math_absent hc.chars (x := 'n') (by simp) rfl) (math_absent hc.chars (x := 'o') (by simp) rfl)] at h
  rw [removeDollar_id (joined_char ha hb hs rfl (by decide)), joined_step ha hb hs, h]

/-- C33: "a and b" (or "or", with a comma before it, in `\text{}`, any number of blanks) has the normal form of "a , b". -/
theorem C33_and_or (E : Env X V S) (hE : StrTotal E) (n : Nat) (a b sep : Str) (ha : LeftElem a) (hb : RightElem b) (hs : AndOrSep sep) :
    stringNormalize E (n + 1) (a ++ sep ++ b) = stringNormalize E (n + 1) (a ++ s%" , " ++ b) := by
  apply same_normal E hE (joined_normBody E _ ha hb hs)
  rw [calm_normBody E _ (comma_calm ha.calm hb.calm), stripBlank_id]
  · obtain ⟨x, xs, rfl⟩ := List.exists_cons_of_ne_nil ha.ne
    have := ha.head
    simpa using this
  · rw [List.getLast?_append_of_ne_nil _ hb.ne]
    exact hb.last

/-! ### Blanks around the comma do not matter -/

theorem blanks_succ (k : Nat) : blanks (k + 1) = ' ' :: blanks k := rfl

theorem blanks_succ' (k : Nat) : blanks (k + 1) = blanks k ++ s%" " := by
  unfold blanks; rw [List.replicate_succ']

/-- `re.sub("- *", "-", s)` -/
def dash (s : Str) : Str := reSubConst (.seq (c '-') (many (c ' '))) s%"-" s

theorem scan_step {m : Str → Str → Option (Nat × Str)} {pre xs : Str} {x : Char} (h : m pre (x :: xs) = none) :
    scanSub m 0 pre (x :: xs) = x :: scanSub m 0 (x :: pre) xs := by
  simp only [scanSub, h]

theorem dash_scan (pre x : Str) (k : Nat) (hx : ' ' ∉ x) : ∃ k',
    scanSub ((Re.seq (c '-') (many (c ' '))).scanner fun _ _ => s%"-") 0 pre (x ++ blanks k) = x ++ blanks k' := by
  induction x generalizing pre with
  | nil =>
    refine ⟨k, ?_⟩
    apply scan_id_of_lang
    rintro u ⟨a, b, rfl, ha, _⟩ hi
    rw [lang_c.1 ha] at hi
    have := blanks_mem (hi.subset (by simp : '-' ∈ s%"-" ++ b))
    revert this; decide
  | cons a as ih =>
    have has : ' ' ∉ as := fun h' => hx (by simp [h'])
    by_cases ha : a = '-'
    · subst ha
      cases as with
      | nil =>
        refine ⟨0, ?_⟩
        have hf : (Re.seq (c '-') (many (c ' '))).First ⟨pre, '-' :: blanks k ++ [], []⟩ ⟨(blanks k).reverse ++ ('-' :: pre), [], []⟩ :=
          First.seq (First.c '-' _ _ _) (First.many (blanks k) [] _ _ (fun x hx => by rw [blanks_mem hx]; rfl) (by simp))
        have hsc := First.scanner (fun _ _ => s%"-") hf
        have := scanSub_match _ pre ('-' :: blanks k) [] _ (by simp) hsc
        rw [List.append_nil] at this
        rw [List.cons_append, List.nil_append, this]
        rfl
      | cons y ys =>
        obtain ⟨k', hk⟩ := ih ('-' :: pre) has
        refine ⟨k', ?_⟩
        have hf : (Re.seq (c '-') (many (c ' '))).First ⟨pre, s%"-" ++ (y :: ys ++ blanks k), []⟩ ⟨'-' :: pre, y :: ys ++ blanks k, []⟩ := by
          refine First.seq (First.c '-' _ _ _) (First.many [] (y :: ys ++ blanks k) _ _ (by simp) ?_)
          rintro z ⟨⟩
          show (y == ' ') = false
          rw [beq_eq_false_iff_ne]; rintro rfl; exact has (by simp)
        have hsc := First.scanner (fun _ _ => s%"-") hf
        have := scanSub_match _ pre s%"-" (y :: ys ++ blanks k) _ (by simp) hsc
        rw [show '-' :: y :: ys ++ blanks k = s%"-" ++ (y :: ys ++ blanks k) by simp, this]
        simp only [List.reverse_cons, List.reverse_nil, List.nil_append, List.cons_append]
        rw [show y :: (ys ++ blanks k) = y :: ys ++ blanks k by simp, hk]
        simp
    · obtain ⟨k', hk⟩ := ih (a :: pre) has
      refine ⟨k', ?_⟩
      have hm : (Re.seq (c '-') (many (c ' '))).run ⟨pre, a :: (as ++ blanks k), []⟩ = [] := by
        apply run_seq_nil
        refine run_chr_empty (p := (· == '-')) ?_
        rintro z ⟨⟩; simp [ha]
      rw [List.cons_append, scan_step (by simp only [Re.scanner, Re.matchAt, hm]; rfl), hk]
      rfl

theorem dash_lead (pre x : Str) (j k : Nat) (hx : ' ' ∉ x) : ∃ k',
    scanSub ((Re.seq (c '-') (many (c ' '))).scanner fun _ _ => s%"-") 0 pre (blanks j ++ (x ++ blanks k)) = blanks j ++ (x ++ blanks k') := by
  induction j generalizing pre with
  | zero => simpa [blanks] using dash_scan pre x k hx
  | succ j ih =>
    obtain ⟨k', hk⟩ := ih (' ' :: pre)
    refine ⟨k', ?_⟩
    rw [blanks_succ, List.cons_append, scan_step rfl, hk]
    rfl

/-- `mixedRe2` without the blanks. -/
def mixedRe2' (U : Uni) : Re :=
  cat [grp 1 (plus (d U)), grp 2 (cat [lit s%"\\frac", digitOrBraced U 3, digitOrBraced U 4])]

theorem mixed2_run {U : Uni} {s : RSt} (h : ∀ x k, isDigit U x = true → ¬ x :: (blanks (k + 1) ++ s%"\\") <:+: s.rest) :
    (mixedRe2 U).run s = (mixedRe2' U).run s := by
  unfold mixedRe2 mixedRe2'
  simp only [cat, run_seq]
  apply flatMap_congr'
  intro t ht
  obtain ⟨ds, hds, hl⟩ := run_lang _ _ t ht
  obtain ⟨hne, hd⟩ := lang_plus_chr (p := isDigit U) hl
  have key : ∀ k, k ≤ runLen (· == ' ') t.rest → ((List.range (k + 1)).reverse.map t.adv).flatMap
      (grp 2 (.seq (lit s%"\\frac") (.seq (digitOrBraced U 3) (digitOrBraced U 4)))).run =
      (grp 2 (.seq (lit s%"\\frac") (.seq (digitOrBraced U 3) (digitOrBraced U 4)))).run t := by
    intro k
    induction k with
    | zero => intro _; simp [RSt.adv]
    | succ k ih =>
      intro hk
      rw [List.range_succ, List.reverse_append, List.map_append, List.flatMap_append, ih (by omega)]
      have : (grp 2 (.seq (lit s%"\\frac") (.seq (digitOrBraced U 3) (digitOrBraced U 4)))).run (t.adv (k + 1)) = [] := by
        rw [List.eq_nil_iff_forall_not_mem]
        intro v hv
        obtain ⟨u, hu, hl⟩ := run_lang _ _ v hv
        obtain ⟨u1, u2, rfl, h1, _⟩ := hl
        rw [lang_lit.1 h1] at hu
        have e : t.rest = blanks (k + 1) ++ (t.adv (k + 1)).rest := by
          have e1 : t.rest.take (k + 1) = blanks (k + 1) := by
            refine List.eq_replicate_iff.2 ⟨?_, ?_⟩
            · rw [List.length_take]
              have := runLen_le (· == ' ') t.rest
              omega
            · intro b hb
              have h1 : t.rest.take (k + 1) <+: t.rest.takeWhile (· == ' ') := by
                refine List.prefix_of_prefix_length_le (List.take_prefix _ _) (List.takeWhile_prefix _) ?_
                rw [List.length_take]
                unfold runLen at hk
                omega
              have h2 := List.all_eq_true.1 (List.all_takeWhile (p := (· == ' ')) (l := t.rest)) b (h1.subset hb)
              simpa using h2
          conv_lhs => rw [← List.take_append_drop (k + 1) t.rest]
          rw [e1]; rfl
        obtain ⟨y, hy⟩ : ∃ y, ds.getLast? = some y := ⟨_, List.getLast?_eq_some_getLast hne⟩
        obtain ⟨l, hl⟩ := List.getLast?_eq_some_iff.1 hy
        refine h y k (hd y (List.mem_of_getLast? hy)) ⟨l, s%"frac" ++ u2 ++ v.rest, ?_⟩
        rw [hds, e, hu, hl]
        simp
      simp [this]
  have := run_many_chr (· == ' ') t
  show ((many (c ' ')).run t).flatMap _ = _
  rw [show (many (c ' ')).run t = _ from this]
  exact key _ (Nat.le_refl _)

theorem scanSub_congr_on (m m' : Str → Str → Option (Nat × Str)) (k : Nat) (pre s : Str)
    (h : ∀ a b, s = a ++ b → m (a.reverse ++ pre) b = m' (a.reverse ++ pre) b) : scanSub m k pre s = scanSub m' k pre s := by
  induction s generalizing k pre with
  | nil =>
    cases k with
    | zero =>
      have := h [] [] rfl
      simp only [List.reverse_nil, List.nil_append] at this
      simp [scanSub, this]
    | succ k => simp [scanSub]
  | cons x xs ih =>
    have ih' : ∀ k, scanSub m k (x :: pre) xs = scanSub m' k (x :: pre) xs := by
      intro k
      apply ih
      intro a b hab
      have := h (x :: a) b (by simp [hab])
      simpa using this
    cases k with
    | zero =>
      have := h [] (x :: xs) rfl
      simp only [List.reverse_nil, List.nil_append] at this
      simp only [scanSub, this, ih']
    | succ k => simp only [scanSub, ih']

theorem mixed2_congr {U : Uni} {s : Str} (f : Str → RSt → Str)
    (h : ∀ x k, isDigit U x = true → ¬ x :: (blanks (k + 1) ++ s%"\\") <:+: s) : reSub (mixedRe2 U) f s = reSub (mixedRe2' U) f s := by
  apply scanSub_congr_on
  intro a b hab
  have : (mixedRe2 U).matchAt (a.reverse ++ []) b = (mixedRe2' U).matchAt (a.reverse ++ []) b := by
    unfold Re.matchAt
    rw [mixed2_run]
    intro x k hx hi
    exact h x k hx (hi.trans ⟨a, [], by simp [hab]⟩)
  simp only [Re.scanner, this]

/-- The replacement in `_inject_implicit_mixed_number`. -/
def plusSub (_ : Str) (t : RSt) : Str := t.groupD 1 ++ s%"+" ++ t.groupD 2

theorem plusSub_caps : ∀ m t t', RSt.caps t = RSt.caps t' → plusSub m t = plusSub m t' := by
  intro m t t' h
  unfold plusSub RSt.groupD RSt.group
  rw [h]

theorem injectMixed_eq (U : Uni) (s : Str) : injectMixed U s = reSub (mixedRe2 U) plusSub (reSub (mixedRe1 U) plusSub s) := rfl

theorem local_d {U : Uni} {x : Char} (h : isDigit U x = false) : (d U).Local x := h

theorem local_mixed1 {U : Uni} : (mixedRe1 U).Local ',' := by
  have h : isDigit U ',' = false := rfl
  exact ⟨⟨h, h⟩, ⟨rfl, rfl⟩, ⟨h, h⟩, rfl, h, h⟩

theorem local_braced {U : Uni} {n : Nat} {x : Char} (h : isDigit U x = false) (h1 : x ≠ '{') (h2 : x ≠ '}') : (digitOrBraced U n).Local x :=
  ⟨h, local_c h1, ⟨h, h⟩, local_c h2⟩

theorem local_mixed2 {U : Uni} : (mixedRe2 U).Local ',' := by
  have h : isDigit U ',' = false := rfl
  exact ⟨⟨h, h⟩, rfl, local_lit (by decide), local_braced h (by decide) (by decide), local_braced h (by decide) (by decide)⟩

theorem local_mixed2' {U : Uni} : (mixedRe2' U).Local ' ' := by
  have h : isDigit U ' ' = false := rfl
  exact ⟨⟨h, h⟩, local_lit (by decide), local_braced h (by decide) (by decide), local_braced h (by decide) (by decide)⟩

/-- Dashes, mixed numbers and blanks: the middle of the last stage. -/
def tidy (U : Uni) (s : Str) : Str := replace s%" " [] (injectMixed U (dash s))

theorem local_dash : (Re.seq (c '-') (many (c ' '))).Local ',' := ⟨rfl, rfl⟩

theorem tidy_barrier (U : Uni) (x y : Str) : tidy U (x ++ ',' :: y) = tidy U x ++ ',' :: tidy U y := by
  unfold tidy dash
  rw [reSubConst_barrier local_dash, injectMixed_eq, reSub_barrier local_mixed1 plusSub_caps, reSub_barrier local_mixed2 plusSub_caps,
    replace_barrier (by decide)]
  rfl

theorem lang_mixed1 {U : Uni} {u : Str} (h : (mixedRe1 U).Lang u) : ∃ x p y q, isDigit U x = true ∧ isDigit U y = true ∧
    u = x :: p ∧ u = q ++ [y] ∧ ' ' ∈ u := by
  obtain ⟨a, b, rfl, ha, b1, b2, rfl, hb1, hb2⟩ := h
  obtain ⟨hne, hd⟩ := lang_plus_chr (p := isDigit U) ha
  obtain ⟨hne1, hd1⟩ := lang_plus_chr (p := (· == ' ')) hb1
  obtain ⟨c1, c2, rfl, _, c3, c4, rfl, _, h4⟩ := hb2
  obtain ⟨hne4, hd4⟩ := lang_plus_chr (p := isDigit U) h4
  obtain ⟨x, xs, rfl⟩ := List.exists_cons_of_ne_nil hne
  obtain ⟨z, zs, rfl⟩ := List.exists_cons_of_ne_nil hne1
  obtain ⟨y, hy⟩ : ∃ y, c4.getLast? = some y := ⟨_, List.getLast?_eq_some_getLast hne4⟩
  obtain ⟨l, hl⟩ := List.getLast?_eq_some_iff.1 hy
  refine ⟨x, xs ++ (z :: zs ++ (c1 ++ (c3 ++ c4))), y, x :: xs ++ (z :: zs ++ (c1 ++ (c3 ++ l))), hd x (by simp),
    hd4 y (List.mem_of_getLast? hy), rfl, by rw [hl]; simp, ?_⟩
  have : z = ' ' := by simpa using hd1 z (by simp)
  subst this; simp

/-- Blanks before and after a text without blanks do not matter. -/
theorem tidy_pad {U : Uni} {x : Str} (hx : ' ' ∉ x) (j k : Nat) : tidy U (blanks j ++ (x ++ blanks k)) = tidy U x := by
  obtain ⟨k', hk⟩ := dash_lead [] x j k hx
  have hd : dash (blanks j ++ (x ++ blanks k)) = blanks j ++ (x ++ blanks k') := hk
  have key : ∀ y : Str, ' ' ∉ y → ∀ j k, replace s%" " [] (injectMixed U (blanks j ++ (y ++ blanks k))) =
      replace s%" " [] (reSub (mixedRe2' U) plusSub y) := by
    intro y hy j k
    rw [injectMixed_eq]
    have h1 : reSub (mixedRe1 U) plusSub (blanks j ++ (y ++ blanks k)) = blanks j ++ (y ++ blanks k) := by
      apply reSub_of_lang
      intro u hu hi
      obtain ⟨a, p, b, q, ha, hb, e1, e2, hm⟩ := lang_mixed1 hu
      rw [e1] at hi
      have h2 := infix_drop (fun h => by have := blanks_mem h; subst this; exact absurd (show false = true from ha) (by decide)) hi
      rw [← e1, e2] at h2
      have h3 := infix_chop (fun h => by have := blanks_mem h; subst this; exact absurd (show false = true from hb) (by decide)) h2
      rw [← e2] at h3
      exact hy (h3.subset hm)
    rw [h1, mixed2_congr]
    · have r1 : ∀ k, reSub (mixedRe2' U) plusSub (y ++ blanks k) = reSub (mixedRe2' U) plusSub y ++ blanks k := by
        intro k
        induction k with
        | zero => simp [blanks]
        | succ k ih =>
          rw [blanks_succ', ← List.append_assoc, reSub_barrier local_mixed2' plusSub_caps, ih]
          simp [reSub, scanSub, Re.scanner]
          rfl
      have r2 : ∀ j, reSub (mixedRe2' U) plusSub (blanks j ++ (y ++ blanks k)) = blanks j ++ (reSub (mixedRe2' U) plusSub y ++ blanks k) := by
        intro j
        induction j with
        | zero => simpa [blanks] using r1 k
        | succ j ih =>
          have := reSub_barrier (local_mixed2' (U := U)) plusSub_caps [] (blanks j ++ (y ++ blanks k))
          rw [List.nil_append] at this
          rw [blanks_succ, List.cons_append, this, ih]
          simp [reSub, scanSub, Re.scanner]
          rfl
      rw [r2, replace_one_nil, replace_one_nil]
      simp [blanks, List.filter_append]
    · intro a i ha hi
      have h2 := infix_drop (fun h => by have := blanks_mem h; subst this; exact absurd (show false = true from ha) (by decide)) hi
      have h3 := infix_chop (x := '\\') (p := a :: blanks (i + 1)) (fun h => by have := blanks_mem h; revert this; decide) h2
      exact hy (h3.subset (by simp [blanks_succ]))
  have e1 := key x hx j k'
  have e2 := key x hx 0 0
  simp only [blanks, List.replicate_zero, List.nil_append, List.append_nil] at e2
  unfold tidy
  rw [hd, e1, ← e2]
  congr 2
  exact (dash_id x hx).symm

theorem tidy_comma {U : Uni} {x y : Str} (hx : ' ' ∉ x) (hy : ' ' ∉ y) (j k : Nat) :
    tidy U (x ++ blanks j ++ ',' :: (blanks k ++ y)) = tidy U (x ++ ',' :: y) := by
  have h1 := tidy_pad (U := U) hx 0 j
  have h2 := tidy_pad (U := U) hy k 0
  simp only [blanks, List.replicate_zero, List.nil_append, List.append_nil] at h1 h2
  rw [tidy_barrier, tidy_barrier, blanks, blanks, h1, h2]

/-- The replacements of `_parse_latex` before the final strip. -/
def latexReplace (s : Str) : Str :=
  replace s%"×" s%"*" (replace s%"·" s%"*" (replace s%"∪" s%"U" (replace s%"∞" s%"inf" (replace s%"π" s%"pi" (replace s%"√" s%"sqrt"
    (replace s%"\\dfrac" s%"\\frac" (replace s%"\\cfrac" s%"\\frac" (replace s%"\\tfrac" s%"\\frac" s))))))))

theorem parseLatexStr_eq (s : Str) : parseLatexStr s = strip (latexReplace s) := rfl

theorem latexReplace_barrier {x : Char} (hx : x = ',' ∨ x = ' ') (a b : Str) :
    latexReplace (a ++ x :: b) = latexReplace a ++ x :: latexReplace b := by
  unfold latexReplace
  rcases hx with rfl | rfl
  · rw [replace_barrier (by decide), replace_barrier (by decide), replace_barrier (by decide), replace_barrier (by decide),
      replace_barrier (by decide), replace_barrier (by decide), replace_barrier (by decide), replace_barrier (by decide), replace_barrier (by decide)]
  · rw [replace_barrier (by decide), replace_barrier (by decide), replace_barrier (by decide), replace_barrier (by decide),
      replace_barrier (by decide), replace_barrier (by decide), replace_barrier (by decide), replace_barrier (by decide), replace_barrier (by decide)]

theorem mem_latexReplace {s : Str} {x : Char} (h : x ∈ latexReplace s) : x ∈ s ∨ x ∈ s%"*Uinfpisqrt\\frac" := by
  unfold latexReplace at h
  have hs : ∀ (new : Str), (∀ y ∈ new, y ∈ s%"*Uinfpisqrt\\frac") → ∀ p t, (x ∈ t → x ∈ s ∨ x ∈ s%"*Uinfpisqrt\\frac") →
      x ∈ replace p new t → x ∈ s ∨ x ∈ s%"*Uinfpisqrt\\frac" := by
    intro new hn p t ht h
    rcases mem_replace h with h | h
    · exact ht h
    · exact .inr (hn x h)
  refine hs _ (by decide) _ _ ?_ h
  refine hs _ (by decide) _ _ ?_
  refine hs _ (by decide) _ _ ?_
  refine hs _ (by decide) _ _ ?_
  refine hs _ (by decide) _ _ ?_
  refine hs _ (by decide) _ _ ?_
  refine hs _ (by decide) _ _ ?_
  refine hs _ (by decide) _ _ ?_
  refine hs _ (by decide) _ _ ?_
  exact fun h => .inl h

theorem strip_comma {x y : Str} (hx : ∀ c ∈ x, isSpace c = false) (hy : ∀ c ∈ y, isSpace c = false) (j k : Nat) :
    ∃ j' k', strip (x ++ blanks j ++ ',' :: (blanks k ++ y)) = x ++ blanks j' ++ ',' :: (blanks k' ++ y) := by
  have bl : ∀ k, (blanks k).all isSpace = true := by
    intro k; rw [List.all_eq_true]; intro c hc; rw [blanks_mem hc]; decide
  have hb : isSpace ',' = false := by decide
  have hl : ∃ j' l, l.all isSpace = true ∧ x ++ blanks j = l ++ (x ++ blanks j') ∧ (x = [] → j' = 0) := by
    cases x with
    | nil => exact ⟨0, blanks j, bl j, by simp [blanks], fun _ => rfl⟩
    | cons a as => exact ⟨j, [], rfl, rfl, fun h => by cases h⟩
  have hr : ∃ k' r, r.all isSpace = true ∧ blanks k ++ y = (blanks k' ++ y) ++ r ∧ (y = [] → k' = 0) := by
    cases y with
    | nil => exact ⟨0, blanks k, bl k, by simp [blanks], fun _ => rfl⟩
    | cons a as => exact ⟨k, [], rfl, by simp, fun h => by cases h⟩
  obtain ⟨j', l, h1, h2, h3⟩ := hl
  obtain ⟨k', r, h4, h5, h6⟩ := hr
  refine ⟨j', k', ?_⟩
  have e : x ++ blanks j ++ ',' :: (blanks k ++ y) = l ++ (x ++ blanks j' ++ ',' :: (blanks k' ++ y)) ++ r := by
    rw [h2, h5]; simp
  rw [e]
  unfold strip
  rw [stripBy_pad isSpace l _ r h1 h4]
  show strip _ = _
  apply strip_id
  · intro c hc
    cases x with
    | nil =>
      rw [h3 rfl] at hc
      simp [blanks] at hc; rw [← hc]; exact hb
    | cons a as => simp at hc; rw [← hc]; exact hx a (by simp)
  · intro c hc
    rw [List.getLast?_append_of_ne_nil _ (by simp)] at hc
    cases hy' : y with
    | nil =>
      rw [h6 hy', hy'] at hc
      simp [blanks] at hc; rw [← hc]; exact hb
    | cons a as =>
      rw [← List.cons_append, List.getLast?_append_of_ne_nil _ (by rw [hy']; simp)] at hc
      exact hy c (List.mem_of_getLast? hc)

theorem math_space {c : Char} (h : mathChar c = true) (h' : c ≠ ' ') : isSpace c = false := by
  have h1 : 32 ≤ c.toNat ∧ c.toNat < 127 := by
    simp only [mathChar, Bool.and_eq_true, decide_eq_true_eq] at h; exact h.1
  have h2 : c.toNat ≠ 32 := fun e => h' (by rw [← Char.ofNat_toNat c, e])
  simp only [isSpace, decide_eq_false_iff_not]; omega

theorem stripBraces_ends (p q : Char) (m : Str) : stripBraces (p :: m ++ [q]) = if p = '{' ∧ q = '}' then m else p :: m ++ [q] := by
  unfold stripBraces
  rw [show (p :: m ++ [q]).getLast? = some q from List.getLast?_concat]
  by_cases h : p = '{' ∧ q = '}'
  · obtain ⟨rfl, rfl⟩ := h
    simp [List.dropLast_append_of_ne_nil]
  · rw [if_neg h, if_neg]
    simpa using h

/-- Blanks around a comma do not matter to the last stage (if the parts have no blanks themselves). -/
theorem furtherPure_comma {U : Uni} {a b : Str} (ha : ∀ c ∈ a, mathChar c = true) (hb : ∀ c ∈ b, mathChar c = true) (ha' : ' ' ∉ a) (hb' : ' ' ∉ b)
    (hane : a ≠ []) (hbne : b ≠ []) : furtherPure U (a ++ s%" , " ++ b) = furtherPure U (a ++ ',' :: b) := by
  -- the braces around the text
  have hbr : ∃ x y, (∀ c ∈ x, c ∈ a) ∧ (∀ c ∈ y, c ∈ b) ∧ stripBraces (a ++ s%" , " ++ b) = x ++ s%" , " ++ y ∧
      stripBraces (a ++ ',' :: b) = x ++ ',' :: y := by
    obtain ⟨p, ps, rfl⟩ := List.exists_cons_of_ne_nil hane
    obtain ⟨q, hq⟩ : ∃ q, b.getLast? = some q := ⟨_, List.getLast?_eq_some_getLast hbne⟩
    obtain ⟨l, rfl⟩ := List.getLast?_eq_some_iff.1 hq
    rw [show p :: ps ++ s%" , " ++ (l ++ [q]) = p :: (ps ++ s%" , " ++ l) ++ [q] by simp,
      show p :: ps ++ ',' :: (l ++ [q]) = p :: (ps ++ ',' :: l) ++ [q] by simp, stripBraces_ends, stripBraces_ends]
    by_cases h : p = '{' ∧ q = '}'
    · rw [if_pos h, if_pos h]
      exact ⟨ps, l, fun c hc => by simp [hc], fun c hc => by simp [hc], rfl, rfl⟩
    · rw [if_neg h, if_neg h]
      exact ⟨p :: ps, l ++ [q], fun c hc => hc, fun c hc => hc, by simp, by simp⟩
  obtain ⟨x, y, hx, hy, e1, e2⟩ := hbr
  have hx' : ' ' ∉ x := fun h => ha' (hx _ h)
  have hy' : ' ' ∉ y := fun h => hb' (hy _ h)
  unfold furtherPure
  simp only [e1, e2]
  have c1 : ∀ z : Str, ',' ∈ z → canonFloat U z = z := by
    intro z hz; unfold canonFloat; rw [pyFloat_none ',' hz rfl]
  rw [c1 _ (by simp), c1 (x ++ ',' :: y) (by simp)]
  have hfin : ∀ z z', tidy U z = tidy U z' → lower U (replace s%" " [] (injectMixed U (dash z))) = lower U (replace s%" " [] (injectMixed U (dash z'))) := by
    intro z z' h; exact congrArg (lower U) h
  apply hfin
  have es : x ++ s%" , " ++ y = x ++ blanks 1 ++ ',' :: (blanks 1 ++ y) := by simp [blanks]
  have hcont : contains s%"\\" (x ++ s%" , " ++ y) = contains s%"\\" (x ++ ',' :: y) := by
    rw [Bool.eq_iff_iff, contains_iff, contains_iff]
    have h1 : ∀ z : Str, s%"\\" <:+: z ↔ '\\' ∈ z := by
      intro z
      constructor
      · intro h; exact h.subset (by simp)
      · intro h
        obtain ⟨u, v, rfl⟩ := List.append_of_mem h
        exact ⟨u, v, by simp⟩
    rw [h1, h1]; simp
  rw [hcont]
  by_cases hs : contains s%"\\" (x ++ ',' :: y) = true
  · rw [if_pos hs, if_pos hs, parseLatexStr_eq, parseLatexStr_eq, latexReplace_barrier (.inl rfl)]
    have e3 : latexReplace (x ++ s%" , " ++ y) = latexReplace x ++ blanks 1 ++ ',' :: (blanks 1 ++ latexReplace y) := by
      rw [show x ++ s%" , " ++ y = x ++ ' ' :: ([] ++ ',' :: ([] ++ ' ' :: y)) by simp, latexReplace_barrier (.inr rfl), latexReplace_barrier (.inl rfl),
        latexReplace_barrier (.inr rfl)]
      have : latexReplace [] = [] := rfl
      rw [this]; simp [blanks]
    have sp : ∀ z : Str, (∀ c ∈ z, mathChar c = true) → ' ' ∉ z → ∀ c ∈ latexReplace z, isSpace c = false := by
      intro z hz hz' c hc
      rcases mem_latexReplace hc with h | h
      · exact math_space (hz c h) (fun e => hz' (e ▸ h))
      · have : ∀ c ∈ s%"*Uinfpisqrt\\frac", isSpace c = false := by decide
        exact this c h
    have s1 := sp x (fun c hc => ha c (hx c hc)) hx'
    have s2 := sp y (fun c hc => hb c (hy c hc)) hy'
    have n1 : ' ' ∉ latexReplace x := fun h => by have := s1 _ h; revert this; decide
    have n2 : ' ' ∉ latexReplace y := fun h => by have := s2 _ h; revert this; decide
    obtain ⟨j, k, h1⟩ := strip_comma s1 s2 1 1
    obtain ⟨j', k', h2⟩ := strip_comma s1 s2 0 0
    rw [show latexReplace x ++ blanks 0 ++ ',' :: (blanks 0 ++ latexReplace y) = latexReplace x ++ ',' :: latexReplace y by simp [blanks]] at h2
    rw [e3, h1, h2, tidy_comma n1 n2, tidy_comma n1 n2]
  · rw [if_neg hs, if_neg hs, es, tidy_comma hx' hy']

theorem infix_comma {a b : Str} (p q : Str) (hp : ',' ∉ p) (hq : ',' ∉ q) (h : p ++ ',' :: q <:+: a ++ ',' :: b) :
    p ++ ',' :: q <:+: a ∨ p ++ ',' :: q <:+: b ∨ (p <:+ a ∧ q <+: b) := by
  obtain ⟨u, v, e⟩ := h
  rw [show u ++ (p ++ ',' :: q) ++ v = (u ++ p) ++ ',' :: (q ++ v) by simp] at e
  rcases List.append_eq_append_iff.1 e with ⟨w, h1, h2⟩ | ⟨w, h1, h2⟩
  · cases w with
    | nil =>
      simp only [List.append_nil, List.nil_append, List.cons.injEq, true_and] at h1 h2
      exact .inr (.inr ⟨⟨u, h1.symm⟩, ⟨v, h2⟩⟩)
    | cons c w =>
      simp only [List.cons_append, List.cons.injEq] at h2
      obtain ⟨rfl, h2⟩ := h2
      rcases List.append_eq_append_iff.1 h2 with ⟨z, h3, h4⟩ | ⟨z, h3, h4⟩
      · exact .inl ⟨u, z, by rw [h1, h3]; simp⟩
      · cases z with
        | nil =>
          simp only [List.append_nil] at h3
          exact .inl ⟨u, [], by rw [h1, h3]; simp⟩
        | cons c z =>
          simp only [List.cons_append, List.cons.injEq] at h4
          exact absurd (h3 ▸ (by simp [← h4.1])) hq
  · cases w with
    | nil =>
      simp only [List.append_nil, List.nil_append, List.cons.injEq, true_and] at h1 h2
      exact .inr (.inr ⟨⟨u, h1⟩, ⟨v, h2.symm⟩⟩)
    | cons c w =>
      simp only [List.cons_append, List.cons.injEq] at h2
      obtain ⟨rfl, h2⟩ := h2
      rcases List.append_eq_append_iff.1 h1 with ⟨z, h3, h4⟩ | ⟨z, h3, h4⟩
      · cases z with
        | nil =>
          simp only [List.nil_append] at h4
          exact absurd (h4 ▸ (by simp)) hp
        | cons c z => exact absurd (h4 ▸ (by simp)) hp
      · cases z with
        | nil =>
          simp only [List.nil_append] at h4
          exact absurd (h4 ▸ (by simp)) hp
        | cons c z =>
          simp only [List.cons_append, List.cons.injEq] at h4
          refine .inr (.inl ⟨z, v, ?_⟩)
          rw [h2, h4.2]; simp

theorem comma_calm' {a b : Str} (ha : Calm a) (hb : Calm b) (h : a.getLast? ≠ some '\\') (h' : ¬ (a.getLast? = some '{' ∧ b.head? = some '}')) :
    Calm (a ++ ',' :: b) := by
  refine ⟨?_, ?_⟩
  · intro c hc
    simp only [List.mem_append, List.mem_cons] at hc
    rcases hc with hc | rfl | hc
    · exact ha.chars c hc
    · decide
    · exact hb.chars c hc
  · intro p hp hi
    have hca : ',' ∉ p ∨ p = s%"\\," ∨ p = s%"{,}" := by
      have : ∀ p ∈ special, ',' ∉ p ∨ p = s%"\\," ∨ p = s%"{,}" := by decide
      exact this p hp
    rcases hca with hca | rfl | rfl
    · rcases infix_straddle hca hi with h | h
      · exact ha.words p hp h
      · exact hb.words p hp h
    · rcases infix_comma s%"\\" [] (by decide) (by decide) hi with h1 | h1 | ⟨h1, -⟩
      · exact ha.words _ hp h1
      · exact hb.words _ hp h1
      · exact h (by obtain ⟨t, rfl⟩ := h1; simp)
    · rcases infix_comma s%"{" s%"}" (by decide) (by decide) hi with h1 | h1 | ⟨h1, h2⟩
      · exact ha.words _ hp h1
      · exact hb.words _ hp h1
      · exact h' ⟨by obtain ⟨t, rfl⟩ := h1; simp, by obtain ⟨t, rfl⟩ := h2; simp⟩

/-- C33, in terms of a plain comma: for elements without blanks, "a and b" has the normal form of "a,b". -/
theorem C33_comma (E : Env X V S) (hE : StrTotal E) (n : Nat) (a b sep : Str) (ha : LeftElem a) (hb : RightElem b) (hs : AndOrSep sep)
    (ha' : ' ' ∉ a) (hb' : ' ' ∉ b) (hbr : ¬ (a.getLast? = some '{' ∧ b.head? = some '}')) :
    stringNormalize E (n + 1) (a ++ sep ++ b) = stringNormalize E (n + 1) (a ++ s%"," ++ b) := by
  refine same_normal E hE (u := a ++ s%" , " ++ b) (joined_normBody E _ ha hb hs) ?_
  rw [show a ++ s%"," ++ b = a ++ ',' :: b by simp]
  rw [calm_normBody E _ (comma_calm' ha.calm hb.calm ha.slash hbr), stripBlank_noblank (by simp [ha', hb'])]
  unfold further
  rw [furtherPure_comma ha.calm.chars hb.calm.chars ha' hb' ha.ne hb.ne]

/-- The hypotheses hold for ordinary answers. -/
theorem leftElem_example : LeftElem s%"\\frac{1}{2}" :=
  ⟨⟨by decide, by decide⟩, by decide, by decide, by decide, by decide, by decide⟩

theorem rightElem_example : RightElem s%"x^2+1" :=
  ⟨⟨by decide, by decide⟩, by decide, by decide⟩

end Verif
