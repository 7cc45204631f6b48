import Verif.Props.Kinds

/-! # C99: matrices in different notations

A matrix in a `matrix` environment and a matrix in nested brackets, or a vector written as a list, are compared entry by entry. -/

namespace Verif
open Re

variable {X V S : Type}

/-! ### Specification -/

/-- An entry of a matrix in brackets: an element of a list without signs of set operations and without matrices. -/
structure Entry (c : Str) : Prop where
  piece : Piece c
  plain : ¬ s%"\\cap" <:+: c ∧ ¬ s%"\\cup" <:+: c ∧ ¬ s%"matrix" <:+: c

/-- Matrices written with brackets: at least two rows in round or square brackets, in brackets; or a vector written as a list, with or
without brackets.  No entry but the first of its row begins with three digits, and no entry of a vector with a bracket. -/
inductive InBrackets : List (List Str) → Str → Prop
  | nested {br : Bracket} {rows : List (Bracket × List Str)} : br ≠ .curly → 2 ≤ rows.length → (∃ n, IsArray (rows.map Prod.snd) n) →
      (∀ r ∈ rows, r.1 ≠ .curly) → (∀ r ∈ rows, ∀ c ∈ r.2, Entry c) → (∀ r ∈ rows, ∀ c ∈ r.2.tail, startsThree c = false) →
      InBrackets (rows.map Prod.snd) (spellBrackets br rows)
  | vector {es : List Str} {f : Frame} : Pieces es → (∀ e ∈ es, ∀ x, e.head? = some x → isOpen x = false) → f ≠ some .curly →
      InBrackets [es] (f.text es)

/-! ### Occurrences in nested brackets -/

theorem infix_atComma {x : Char} {q : Str} (hx : x ≠ ',') (hq : ',' ∉ q) : ∀ {es : List Str}, x :: ',' :: q <:+: join s%"," es →
    (∃ e ∈ es, x :: ',' :: q <:+: e) ∨ ∃ e ∈ es, [x] <:+ e
  | [], h => by simp [join] at h
  | [e], h => .inl ⟨e, by simp, by simpa [join] using h⟩
  | e :: e' :: es, h => by
    have h : x :: ',' :: q <:+: e ++ (',' :: join s%"," (e' :: es)) := by simpa [join] using h
    rcases infix_cut h with h | h | ⟨p1, p2, h1, h2, h3, h4, h5⟩
    · exact .inl ⟨e, by simp, h⟩
    · have h : x :: ',' :: q <:+: join s%"," (e' :: es) := by
        rcases List.infix_cons_iff.1 h with h | h
        · exact absurd (List.cons_prefix_cons.1 h).1 hx
        · exact h
      rcases infix_atComma hx hq h with ⟨y, hy, h⟩ | ⟨y, hy, h⟩
      · exact .inl ⟨y, by simp [hy], h⟩
      · exact .inr ⟨y, by simp [hy], h⟩
    · match p1, h2 with
      | [y], _ =>
        simp only [List.singleton_append, List.cons.injEq] at h1
        exact .inr ⟨e, by simp, h1.1 ▸ h4⟩
      | y :: z :: p1, _ =>
        simp only [List.cons_append, List.cons.injEq] at h1
        match p2, h3 with
        | c :: p2, _ =>
          have := (List.cons_prefix_cons.1 h5).1
          exact absurd (by rw [h1.2.2, this]; simp) hq

/-- A part of a list, possibly a list itself. -/
structure Part (e : Str) : Prop where
  neat : Neat e
  slash : ¬ s%"\\" <:+ e
  brace : ¬ s%"{" <:+ e
  right : ¬ s%"\\right" <:+ e

theorem Piece.part {e : Str} (h : Piece e) : Part e := ⟨h.tidy.neat, h.slash, h.noOpen, h.right⟩

/-- A list of parts in round or square brackets has nothing with a meaning to the normaliser. -/
theorem parts_neat {br : Bracket} (hbr : br ≠ .curly) {es : List Str} (h : ∀ e ∈ es, Part e) : Neat (bracketed br es) := by
  have hin : ∀ p : Str, p ≠ [] → ',' ∉ p → br.open ∉ p → br.close ∉ p → p <:+: bracketed br es → ∃ e ∈ es, p <:+: e := by
    intro p h0 hc ho hcl hi
    rcases infix_enclosed (by
      intro hh
      exact ho (List.mem_of_mem_head? hh)) hi with hi | ⟨q, rfl, -⟩
    · exact infix_join h0 hc hi
    · exact absurd (by simp) hcl
  have hbase : ∀ (u v : Str) (d : Char) (w : Str), ',' ∉ w → br.open ∉ w → br.close ∉ w → bracketed br es = u ++ d :: w ++ v →
      asciiDigit d = true → ∃ e ∈ es, ∃ u v, e = u ++ d :: w ++ v := by
    intro u v d w hc ho hcl he hd
    have hne : ∀ x : Char, asciiDigit x = false → x ≠ d := by rintro x hx rfl; rw [hd] at hx; cases hx
    have hob : asciiDigit br.open = false := by cases br <;> decide
    have hcb : asciiDigit br.close = false := by cases br <;> decide
    obtain ⟨e, he, u', v', h'⟩ := hin (d :: w) (by simp) (by simp [hc, hne ',' (by decide)]) (by simp [ho, hne _ hob])
      (by simp [hcl, hne _ hcb]) ⟨u, v, he.symm⟩
    exact ⟨e, he, u', v', h'.symm⟩
  refine ⟨?_, ?_, ?_, ?_, ?_, ?_⟩
  · intro c hc
    simp only [bracketed, List.mem_cons, List.mem_append, List.not_mem_nil, or_false] at hc
    rcases hc with rfl | hc | rfl
    · cases br <;> decide
    · rcases mem_join hc with rfl | ⟨e, he, hc⟩
      · decide
      · exact (h e he).neat.chars c hc
    · cases br <;> decide
  · intro p hp hi
    obtain ⟨h1, h2, h3, h4, h5, h6⟩ := tidySpecial_shape p hp
    rcases infix_enclosed (by cases br <;> first | exact h3 | exact h4 | exact absurd rfl hbr) hi with hi | ⟨q, rfl, hq⟩
    · obtain ⟨e, he, hi⟩ := infix_join h1 h2 hi
      exact (h e he).neat.words p hp hi
    · have hq' : q = s%"\\right" := by
        cases br with
        | curly => exact absurd rfl hbr
        | round =>
          have := h5 (by simp [Bracket.close])
          exact List.append_inj_left' (t₁ := [Bracket.round.close]) (t₂ := s%")") this rfl
        | square =>
          have := h6 (by simp [Bracket.close])
          exact List.append_inj_left' (t₁ := [Bracket.square.close]) (t₂ := s%"]") this rfl
      subst hq'
      obtain ⟨e, he, hs⟩ := suffix_join (by simp) (by decide) hq
      exact (h e he).right hs
  · constructor
    · cases br <;> first | exact absurd rfl hbr | simp [bracketed, Bracket.open]
    · rintro ⟨t, ht⟩
      cases br <;> first
        | exact absurd rfl hbr
        | simp [bracketed, Bracket.open] at ht
  · intro u v d he
    cases hd : asciiDigit d with
    | false => rfl
    | true =>
      obtain ⟨e, hm, u', v', h'⟩ := hbase u v d s%"\\frac" (by decide) (by cases br <;> decide) (by cases br <;> decide) he hd
      rw [(h e hm).neat.mixed u' v' d h'] at hd
      cases hd
  · intro u v d he
    cases hd : asciiDigit d with
    | false => rfl
    | true =>
      obtain ⟨e, hm, u', v', h'⟩ := hbase u v d s%"_" (by decide) (by cases br <;> decide) (by cases br <;> decide)
        (by simpa using he) hd
      rw [(h e hm).neat.base u' v' d (by simpa using h')] at hd
      cases hd
  · have key : ∀ (x : Char) (q : Str), x ≠ ',' → ',' ∉ q → x ≠ br.open → br.close ∉ ',' :: q → (∀ e ∈ es, ¬ x :: ',' :: q <:+: e) →
        (∀ e ∈ es, ¬ [x] <:+ e) → ¬ x :: ',' :: q <:+: bracketed br es := by
      intro x q hx hq ho hc h1 h2 hi
      rcases infix_enclosed (by simpa using ho) hi with hi | ⟨z, hz, -⟩
      · rcases infix_atComma hx hq hi with ⟨e, he, hi⟩ | ⟨e, he, hi⟩
        · exact h1 e he hi
        · exact h2 e he hi
      · cases z with
        | nil => simp at hz
        | cons y z =>
          simp only [List.cons_append, List.cons.injEq] at hz
          exact hc (by rw [hz.2]; simp)
    exact ⟨key '\\' [] (by decide) (by simp) (by cases br <;> decide) (by cases br <;> decide) (fun e he => (h e he).neat.commas.1)
        (fun e he => (h e he).slash),
      key '{' s%"}" (by decide) (by decide) (by cases br <;> first | decide | exact absurd rfl hbr)
        (by cases br <;> first | decide | exact absurd rfl hbr) (fun e he => (h e he).neat.commas.2) (fun e he => (h e he).brace)⟩

theorem bracketed_suffix {br : Bracket} {es : List Str} {p : Str} {x : Char} (h : p ++ [x] <:+ bracketed br es) : x = br.close := by
  obtain ⟨u, hu⟩ := h
  have e : bracketed br es = (br.open :: join s%"," es) ++ [br.close] := by simp [bracketed]
  rw [e, ← List.append_assoc] at hu
  simpa using (List.append_inj' hu rfl).2

theorem bracketed_part {br : Bracket} (hbr : br ≠ .curly) {es : List Str} (h : ∀ e ∈ es, Part e) : Part (bracketed br es) where
  neat := parts_neat hbr h
  slash hs := by
    have := bracketed_suffix (p := []) hs
    cases br <;> revert this <;> decide
  brace hs := by
    have := bracketed_suffix (p := []) hs
    cases br <;> revert this <;> decide
  right hs := by
    have := bracketed_suffix (p := s%"\\righ") hs
    cases br <;> revert this <;> decide

/-- No comma of a bracketed list reads as a thousands separator. -/
theorem bracketed_thousands (U : Uni) {br : Bracket} {es : List Str} (h1 : ∀ e ∈ es, ¬ ThousandsComma U e)
    (h2 : ∀ e ∈ es, ∀ x, [x] <:+ e → isDigit U x = false) : ¬ ThousandsComma U (bracketed br es) := by
  have ho : isDigit U br.open = false := by cases br <;> simp [Bracket.open, isDigit, asciiDigit]
  have hc : isDigit U br.close = false := by cases br <;> simp [Bracket.close, isDigit, asciiDigit]
  have hcm : isDigit U ',' = false := by simp [isDigit, asciiDigit]
  have ne : ∀ {x c : Char}, isDigit U x = true → isDigit U c = false → x ≠ c := by
    rintro x c hx hc rfl
    rw [hx] at hc
    cases hc
  rintro ⟨a, d, y, z₁, z₂, z₃, b, hs, hd, d₁, d₂, d₃, hy⟩
  have hi : d :: ',' :: (y ++ [z₁, z₂, z₃]) <:+: bracketed br es := ⟨a, b, by rw [hs]; simp⟩
  have hq : ',' ∉ y ++ [z₁, z₂, z₃] := by
    have := (ne d₁ hcm).symm
    have := (ne d₂ hcm).symm
    have := (ne d₃ hcm).symm
    rcases hy with rfl | rfl <;> simp [*]
  rcases infix_enclosed (by simpa using ne hd ho) hi with hi | ⟨z, hz, -⟩
  · rcases infix_atComma (ne hd hcm) hq hi with ⟨e, he, u, v, hi⟩ | ⟨e, he, hi⟩
    · exact h1 e he ⟨u, d, y, z₁, z₂, z₃, v, by rw [← hi]; simp, hd, d₁, d₂, d₃, hy⟩
    · exact ne hd (h2 e he d hi) rfl
  · have e : d :: ',' :: (y ++ [z₁, z₂, z₃]) = (d :: ',' :: (y ++ [z₁, z₂])) ++ [z₃] := by simp
    rw [e] at hz
    have := (List.append_inj' hz rfl).2
    simp only [List.cons.injEq, and_true] at this
    exact ne d₃ hc this

theorem nocomma_thousands (U : Uni) {s : Str} (h : ',' ∉ s) : ¬ ThousandsComma U s := by
  rintro ⟨a, d, y, z₁, z₂, z₃, b, hs, -⟩
  exact h (by rw [hs]; simp)

/-- A row in brackets. -/
theorem row_thousands (U : Uni) {br : Bracket} (hbr : br ≠ .curly) {es : List Str} (h : ∀ c ∈ es, Entry c)
    (h3 : ∀ c ∈ es.tail, startsThree c = false) : ¬ ThousandsComma U (bracketed br es) := by
  match es, h, h3 with
  | [], _, _ => exact nocomma_thousands U (by cases br <;> decide)
  | [e], h, _ =>
    have := (h e (by simp)).piece.tidy.noComma
    exact nocomma_thousands U (by cases br <;> simpa [bracketed, join, Bracket.open, Bracket.close] using this)
  | a :: b :: es, h, h3 =>
    exact spell_thousands ⟨by simp, fun e he => (h e he).piece, h3, fun e he => (h e he).plain⟩ U hbr

/-! ### What the stages make of a matrix in brackets -/

/-- A text that is split into an array. -/
structure Shown (E : Env X V S) (as : List (List Str)) (s : Str) : Prop where
  strip : strip s = s
  nonempty : s ≠ []
  fixed : ∀ n, Always (stringNormalize E (n + 1) s) (.str s)
  array : ∃ n, IsArray as n
  split : ∀ w, splitMatrix E s w = (.ok (arrayMat as), w)

theorem shown_env (E : Env X V S) {as : List (List Str)} {nm nm' : Str} (h : CellArray as) (hnm : LowerName nm) (hnm' : LowerName nm') :
    Shown E as (spellEnv nm nm' as) :=
  ⟨h.strip hnm hnm', by simp [spellEnv], fun n => h.fixed E n hnm hnm', h.array, h.split E hnm hnm'⟩

theorem vector_split (E : Env X V S) {es : List Str} {f : Frame} (h : Pieces es) (ho : ∀ e ∈ es, ∀ x, e.head? = some x → isOpen x = false)
    (hf : f ≠ some .curly) (w : World X) : splitMatrix E (f.text es) w = (.ok (arrayMat [es]), w) := by
  have h2 := h.two
  have hm : ¬ s%"matrix" <:+: f.text es := (contains_eq_false _ _).1 (h.notMatrix f)
  have houter : splitTuple E.U E.setOrder (f.text es) (some .list) = .ok (.list es) := by
    rw [splitTuple_expected, splitTuple_spells (h.spells E.U hf) id]
    rcases f with _ | _ | _ | _ <;> rfl
  have hel : matrixElements E.U E.setOrder (f.text es) = .ok (es.map .str) := by
    unfold matrixElements
    rw [matrixRe_none hm]
    simp only [houter, bind, Except.bind]
    rw [mapM_eq_ok _ es (fun c => .str c)]
    intro c hc
    have p := h.piece c hc
    rw [splitTuple_cell E.U E.setOrder c p.element p.nonempty (ho c hc) (nocomma_thousands _ p.tidy.noComma)]
    rfl
  have := splitMatrix_of_elements E (f.text es) (es.map fun c => [c]) 1 (isArray_col es h2) (by
    rw [hel, List.map_map]
    rfl) w
  rw [this, arrayMat_col es h2, ← arrayMat_row es h2]

theorem InBrackets.parts {bs : List (List Str)} {t : Str} (h : InBrackets bs t) (E : Env X V S) :
    Shown E bs t ∧ strIsMat t = false ∧ ∃ e, splitTuple E.U E.setOrder t none = .ok e ∧ e.sameType (.str []) = false := by
  cases h with
  | @vector es f hp ho hf =>
    have h2 := hp.two
    refine ⟨⟨hp.strip hf, ?_, fun n => hp.fixed E n hf, ⟨_, isArray_row es h2⟩, vector_split E hp ho hf⟩, hp.notMatrix f, _,
      splitTuple_spells (hp.spells E.U hf) E.setOrder, ?_⟩
    · intro e
      have := hp.comma f
      rw [e] at this
      cases this
    · rcases f with _ | _ | _ | _ <;> rfl
  | @nested br rows hbr h2 ha hr hc h3 =>
    have hpart : ∀ e ∈ rows.map fun r => bracketed r.1 r.2, Part e := by
      intro e he
      obtain ⟨r, hm, rfl⟩ := List.mem_map.1 he
      exact bracketed_part (hr r hm) fun c hcm => (hc r hm c hcm).piece.part
    have hneat : Neat (spellBrackets br rows) := parts_neat hbr hpart
    have hth : ¬ ThousandsComma E.U (spellBrackets br rows) := by
      refine bracketed_thousands E.U ?_ ?_
      · intro e he
        obtain ⟨r, hm, rfl⟩ := List.mem_map.1 he
        exact row_thousands E.U (hr r hm) (hc r hm) (h3 r hm)
      · intro e he x hx
        obtain ⟨r, hm, rfl⟩ := List.mem_map.1 he
        rw [bracketed_suffix (p := []) hx]
        cases r.1 <;> simp [Bracket.close, isDigit, asciiDigit]
    have hcomma : ',' ∈ spellBrackets br rows := by
      have := join_comma_mem (rows.map fun r => bracketed r.1 r.2) (by simpa using h2)
      simp [spellBrackets, bracketed] at this ⊢
      tauto
    have hcl : litChar E.U ',' = false := by
      simp [litChar, isDigit, asciiDigit, isSpace]; decide
    have hp : pyFloat E.U (spellBrackets br rows) = none := pyFloat_none ',' hcomma hcl
    obtain ⟨n, hn⟩ := ha
    refine ⟨⟨strip_of_no_space _ fun _ hc => hneat.space hc, by simp [spellBrackets, bracketed], fun n => hneat.fixed E n
      (fun x hx => by rw [hp] at hx; cases hx) ?_, ⟨n, hn⟩,
      C37_brackets E br rows n hn (fun r hm c hcm => ⟨(hc r hm c hcm).piece.element, (hc r hm c hcm).piece.nonempty⟩) hth⟩, ?_, ?_⟩
    · unfold strIsInt
      rw [stripCommas_id _ _ hth, hp]
    · refine (contains_eq_false _ _).2 fun hi => ?_
      have step : ∀ {br : Bracket} {es : List Str}, s%"matrix" <:+: bracketed br es → ∃ e ∈ es, s%"matrix" <:+: e := fun {br es} hi =>
        infix_frame (f := some br) (es := es) (by simp) (by decide) (by decide) hi
      obtain ⟨e, he, hi⟩ := step hi
      obtain ⟨r, hm, rfl⟩ := List.mem_map.1 he
      obtain ⟨c, hcm, hi⟩ := step hi
      exact (hc r hm c hcm).plain.2.2 hi
    · have hs : Spells E.U (some br) (rows.map fun r => bracketed r.1 r.2) (spellBrackets br rows) := by
        refine ⟨rfl, by simpa using h2, ?_, ?_, hth⟩
        · intro e he
          obtain ⟨r, hm, rfl⟩ := List.mem_map.1 he
          exact bracketed_element _ _ fun c hcm => (hc r hm c hcm).piece.element
        · intro hl
          obtain ⟨r, hm, hr⟩ := List.mem_map.1 (List.mem_of_getLast? hl)
          exact bracketed_ne_nil _ _ hr
      refine ⟨_, splitTuple_spells hs E.setOrder, ?_⟩
      cases br <;> rfl

/-! ### The comparison -/

open Classical in
/-- The stages after the normalisation, for an environment and a text with brackets in either order. -/
theorem notations_rel {E : Env X V S} {R : Str → Str → Prop} {as bs : List (List Str)} {s t : Str} (hs : Shown E as s) (ht : Shown E bs t)
    (hne : s ≠ t) (hm : strIsMat s = true ∨ strIsMat t = true) (hi : Always (strToInterval E s) none ∨ Always (strToInterval E t) none)
    {n : Nat} {verbose : Bool} {final : Bool} (htup : Always (possibleTuple E (isEquivStr E (n + 2)) s t verbose) (false, final))
    (short : ∀ x y, as.flatten = [x] → bs.flatten = [y] → ¬ (x = s ∧ y = t))
    (h : ∀ a ∈ as.flatten, ∀ b ∈ bs.flatten, Always (isEquiv E (n + 2) (some a) (some b) false) (decide (R a b))) :
    Always (isEquiv E (n + 3) (some s) (some t) verbose) (decide (EntriesAgree R as bs)) := by
  obtain ⟨na, ga⟩ := hs.array
  obtain ⟨nb, gb⟩ := ht.array
  have mat := possibleMatrix_arrays (E := E) (eq := isEquivStr E (n + 2)) (R := R) ga gb hs.split ht.split short h
  have hem : t.isEmpty = false := by simpa using ht.nonempty
  simp only [isEquiv, isEquivStr, hs.strip, ht.strip]
  rw [if_neg hne]
  apply (hs.fixed (n + 1)).bind
  apply (ht.fixed (n + 1)).bind
  apply print_always
  unfold compareNorms
  simp only [hne, decide_false, Bool.false_eq_true, if_false]
  apply Always.tryExcept
  unfold isLatexEquiv
  simp only [hem, Bool.false_eq_true, if_false]
  have first : AlwaysP (if hasBracket s then possibleIntervals E s t else pure (false, false)) fun p => p.1 = false := by
    split
    · unfold possibleIntervals
      rcases hi with hi | hi
      · refine AlwaysP.bind (hi.alwaysP (P := (· = none)) rfl) ?_
        rintro _ rfl
        refine AlwaysP.bind (strToInterval_safe E _) fun b _ => ?_
        cases b <;> exact AlwaysP.pure rfl
      · refine AlwaysP.bind (strToInterval_safe E _) fun a _ => ?_
        refine AlwaysP.bind (hi.alwaysP (P := (· = none)) rfl) ?_
        rintro _ rfl
        cases a <;> exact AlwaysP.pure rfl
    · exact AlwaysP.pure rfl
  refine first.always ?_
  rintro ⟨c, r⟩ hc
  simp only at hc
  subst hc
  simp only [Bool.not_false, if_true]
  refine htup.bind ?_
  have hmm : (strIsMat s || strIsMat t) = true := by simpa using hm
  simp only [Bool.not_false, Bool.true_and, hmm, if_true]
  apply mat.bind
  simpa using Always.pure _

theorem env_isMat (nm nm' : Str) (rows : List (List Str)) : strIsMat (spellEnv nm nm' rows) = true :=
  (contains_iff _ _).2 ⟨s%"\\begin{" ++ nm, s%"}" ++ join s%"\\\\" (rows.map (join s%"&")) ++ (s%"\\end{" ++ nm' ++ s%"matrix}"), by simp [spellEnv]⟩

open Classical in
/-- **C99.**  A matrix in an environment and a matrix written with brackets are judged equivalent, in either order, exactly if they have
the same shape — row vectors being column vectors — and corresponding entries are judged equivalent. -/
theorem C99_notations_partial {E : Env X V S} {R : Str → Str → Prop} {as bs : List (List Str)} {nm nm' t : Str}
    (ha : CellArray as) (hb : InBrackets bs t) (hnm : LowerName nm) (hnm' : LowerName nm') {n : Nat} (verbose : Bool) :
    ((∀ a ∈ as.flatten, ∀ b ∈ bs.flatten, Always (isEquiv E (n + 2) (some a) (some b) false) (decide (R a b))) →
      Always (isEquiv E (n + 3) (some (spellEnv nm nm' as)) (some t) verbose) (decide (EntriesAgree R as bs))) ∧
    ((∀ b ∈ bs.flatten, ∀ a ∈ as.flatten, Always (isEquiv E (n + 2) (some b) (some a) false) (decide (R b a))) →
      Always (isEquiv E (n + 3) (some t) (some (spellEnv nm nm' as)) verbose) (decide (EntriesAgree R bs as))) := by
  have sa := shown_env E ha hnm hnm'
  obtain ⟨sb, hm, e, h1, h2⟩ := hb.parts E
  have hne : spellEnv nm nm' as ≠ t := by
    rintro rfl
    rw [env_isMat] at hm
    cases hm
  have hi := strToInterval_none E (ha.noComma hnm hnm')
  have hu := ha.unsplit E.U E.setOrder hnm hnm'
  exact ⟨fun h => notations_rel sa sb hne (.inl (env_isMat _ _ _)) (.inl hi) (lift_splits hu h1 (elems_mixed h2).2)
      (fun x y fx _ hn => short_cell ha.row_ne fx hn.1) h,
    fun h => notations_rel sb sa hne.symm (.inr (env_isMat _ _ _)) (.inr hi) (lift_splits h1 hu (elems_mixed h2).1)
      (fun x y _ fy hn => short_cell ha.row_ne fy hn.2) h⟩

theorem entry_of_pieces {es : List Str} (h : Pieces es) : ∀ e ∈ es, Entry e := fun e he => ⟨h.piece e he, h.plain e he⟩

/-- nested brackets of two rows and two columns -/
theorem nested22 {br b1 b2 : Bracket} {a b c d : Str} (hb : ∀ x ∈ [br, b1, b2], x ≠ .curly) (h1 : Pieces [a, b]) (h2 : Pieces [c, d]) :
    InBrackets [[a, b], [c, d]] (spellBrackets br [(b1, [a, b]), (b2, [c, d])]) := by
  refine InBrackets.nested (br := br) (rows := [(b1, [a, b]), (b2, [c, d])]) (hb br (by simp)) (by simp) ⟨2, by constructor <;> simp⟩ ?_ ?_ ?_
  · simp only [List.mem_cons, List.not_mem_nil, or_false, forall_eq_or_imp, forall_eq]
    exact ⟨hb b1 (by simp), hb b2 (by simp)⟩
  · simp only [List.mem_cons, List.not_mem_nil, or_false, forall_eq_or_imp, forall_eq]
    exact ⟨by simpa using entry_of_pieces h1, by simpa using entry_of_pieces h2⟩
  · simp only [List.mem_cons, List.not_mem_nil, or_false, forall_eq_or_imp, forall_eq]
    exact ⟨h1.apart, h2.apart⟩

/-- **C99 is not transitive**: the matrix `\begin{pmatrix}1&2\\3&4\end{pmatrix}` is judged equivalent to `[[1,2],[3,4]]` and to
`((1,2),(3,4))`, which are not judged equivalent to each other; and the vector `\begin{pmatrix}1&2\end{pmatrix}` is judged equivalent to
the list `1,2` but not to `2,1`, although the two lists are. -/
theorem C99_transitive_refuted :
    (isEquiv ratEnv 9 (some s%"\\begin{pmatrix}1&2\\\\3&4\\end{pmatrix}") (some s%"[[1,2],[3,4]]") false ⟨(), []⟩).1 = .ok true ∧
    (isEquiv ratEnv 9 (some s%"\\begin{pmatrix}1&2\\\\3&4\\end{pmatrix}") (some s%"((1,2),(3,4))") false ⟨(), []⟩).1 = .ok true ∧
    (isEquiv ratEnv 9 (some s%"[[1,2],[3,4]]") (some s%"((1,2),(3,4))") false ⟨(), []⟩).1 = .ok false ∧
    (isEquiv ratEnv 9 (some s%"\\begin{pmatrix}1&2\\end{pmatrix}") (some s%"1,2") false ⟨(), []⟩).1 = .ok true ∧
    (isEquiv ratEnv 9 (some s%"\\begin{pmatrix}1&2\\end{pmatrix}") (some s%"2,1") false ⟨(), []⟩).1 = .ok false ∧
    (isEquiv ratEnv 9 (some s%"1,2") (some s%"2,1") false ⟨(), []⟩).1 = .ok true := by
  refine ⟨?_, ?_, ?_, ?_, ?_, ?_⟩ <;> decide +kernel

end Verif

namespace Verif.L2S
open Verif Verif.Reading Verif.Grammar

section
variable {K : Type} [Field K] [LinearOrder K] [IsStrictOrderedRing K]
variable {Y S : Type} {E : Env (St Y) SV S} {L : Lib Y} {I : Interp K} {Is Ev : SV → K → Prop} {N : Nat}

open Classical in
/-- **C99.**  A matrix of answers in LaTeX notation in an environment and one written with brackets are judged equivalent, in either
order, exactly if they have the same shape — row vectors being column vectors — and the values of corresponding entries agree within the
tolerance.  `val` gives the values of the entries. -/
theorem C99_values_partial (H : RealArith E Is Ev) (hL : SoundLib I L) (hp : ∀ s t, parseText s = some t → L.parse s = .ok t)
    (hl : UsesLatex2sympy E L N) (hE : PrintsIntegers E) (hlit : ∀ l : Literal, Exactly E I Is l.text (l.value : K))
    {as bs : List (List Str)} {nm nm' t : Str} (val : Str → K) (pa : CellArray as) (pb : InBrackets bs t)
    (hnm : LowerName nm) (hnm' : LowerName nm')
    (ha : ∀ a ∈ as.flatten, Answer E I Is a (val a)) (hb : ∀ b ∈ bs.flatten, Answer E I Is b (val b)) (n : Nat) (verbose : Bool) :
    Always (isEquiv E (n + 3) (some (spellEnv nm nm' as)) (some t) verbose)
      (decide (EntriesAgree (fun a b => WithinTolerance (val a) (val b)) as bs)) ∧
    Always (isEquiv E (n + 3) (some t) (some (spellEnv nm nm' as)) verbose)
      (decide (EntriesAgree (fun a b => WithinTolerance (val a) (val b)) bs as)) := by
  obtain ⟨h1, h2⟩ := C99_notations_partial (E := E) (R := fun a b => WithinTolerance (val a) (val b)) pa pb hnm hnm' (n := n) verbose
  exact ⟨h1 fun a hm b hm' => by convert C84_judged_by_value_partial H hL hp hl hE hlit (ha a hm) (hb b hm') n false,
    h2 fun b hm a hm' => by convert C84_judged_by_value_partial H hL hp hl hE hlit (hb b hm) (ha a hm') n false⟩
end

open Classical in
/-- The hypotheses of C99 are met by `pointEnv`. -/
theorem point_notations {as bs : List (List Str)} {nm nm' t : Str} (val : Str → ℝ) (pa : CellArray as) (pb : InBrackets bs t)
    (hnm : LowerName nm) (hnm' : LowerName nm')
    (ha : ∀ a ∈ as.flatten, Answer realEnv reals IsReal a (val a)) (hb : ∀ b ∈ bs.flatten, Answer realEnv reals IsReal b (val b))
    (n : Nat) (verbose : Bool) :
    Always (isEquiv pointEnv (n + 3) (some (spellEnv nm nm' as)) (some t) verbose)
      (decide (EntriesAgree (fun a b => WithinTolerance (val a) (val b)) as bs)) ∧
    Always (isEquiv pointEnv (n + 3) (some t) (some (spellEnv nm nm' as)) verbose)
      (decide (EntriesAgree (fun a b => WithinTolerance (val a) (val b)) bs as)) :=
  C99_values_partial pointEnv_arith (nodeLib_sound _ none _) partLib_parse pointEnv_uses pointEnv_prints
    (fun l => pointEnv_exactly l.text (l.value : ℝ)) val pa pb hnm hnm' (fun a h => (ha a h).point) (fun b h => (hb b h).point) n verbose

/-- `\begin{pmatrix}0.5&0.7\\0.5&0.5\end{pmatrix}` and `[(\frac{1}{2},0.7),(\sqrt{9}-\frac{5}{2},0.5)]` are judged equivalent. -/
example (n : Nat) (verbose : Bool) : Always (isEquiv pointEnv (n + 3) (some s%"\\begin{pmatrix}0.5&0.7\\\\0.5&0.5\\end{pmatrix}")
    (some s%"[(\\frac{1}{2},0.7),(\\sqrt{9}-\\frac{5}{2},0.5)]") verbose) true :=
  (point_notations (as := [[s%"0.5", s%"0.7"], [s%"0.5", s%"0.5"]]) (bs := [[s%"\\frac{1}{2}", s%"0.7"], [s%"\\sqrt{9}-\\frac{5}{2}", s%"0.5"]])
    tenthsOf (cells22 (by decide +kernel)) (nested22 (br := .square) (b1 := .round) (b2 := .round) (by simp)
      (piecesB_sound (by decide +kernel)) (piecesB_sound (by decide +kernel))) lower_p lower_p
    (fun a h => tenths_answer a (by revert h; simp; tauto)) (fun a h => tenths_answer a (by revert h; simp; tauto)) n verbose).1.yes
    (.inl (by simp only [tenths_within]; decide))

/-- `[[0.5,0.5],[0.7,0.5]]` and `\begin{pmatrix}0.5&0.7\\0.5&0.5\end{pmatrix}` are not. -/
example (n : Nat) (verbose : Bool) : Always (isEquiv pointEnv (n + 3) (some s%"[[0.5,0.5],[0.7,0.5]]")
    (some s%"\\begin{pmatrix}0.5&0.7\\\\0.5&0.5\\end{pmatrix}") verbose) false :=
  (point_notations (as := [[s%"0.5", s%"0.7"], [s%"0.5", s%"0.5"]]) (bs := [[s%"0.5", s%"0.5"], [s%"0.7", s%"0.5"]])
    tenthsOf (cells22 (by decide +kernel)) (nested22 (br := .square) (b1 := .square) (b2 := .square) (by simp)
      (piecesB_sound (by decide +kernel)) (piecesB_sound (by decide +kernel))) lower_p lower_p
    (fun a h => tenths_answer a (by revert h; simp; tauto)) (fun a h => tenths_answer a (by revert h; simp; tauto)) n verbose).2.no
    (by
      rintro (h | ⟨h, -⟩)
      · simp only [tenths_within] at h
        revert h
        decide
      · revert h
        simp [IsVector])

/-- The column vector `\begin{pmatrix}0.5\\0.7\end{pmatrix}` and the point `(\frac{1}{2},0.7)` are judged equivalent. -/
example (n : Nat) (verbose : Bool) : Always (isEquiv pointEnv (n + 3) (some s%"\\begin{pmatrix}0.5\\\\0.7\\end{pmatrix}")
    (some s%"(\\frac{1}{2},0.7)") verbose) true :=
  (point_notations (as := [[s%"0.5"], [s%"0.7"]]) (bs := [[s%"\\frac{1}{2}", s%"0.7"]])
    tenthsOf ⟨⟨1, by constructor <;> simp⟩, by
      simp only [List.mem_cons, List.not_mem_nil, or_false, forall_eq_or_imp, forall_eq]
      exact ⟨cellB_sound (by decide +kernel), cellB_sound (by decide +kernel)⟩⟩
    (InBrackets.vector (f := some .round) (piecesB_sound (by decide +kernel)) (by decide) (by simp)) lower_p lower_p
    (fun a h => tenths_answer a (by revert h; simp; tauto)) (fun a h => tenths_answer a (by revert h; simp; tauto)) n verbose).1.yes
    (.inr ⟨by simp [IsVector], by simp [IsVector], by simp only [tenths_within]; decide⟩)

end Verif.L2S
