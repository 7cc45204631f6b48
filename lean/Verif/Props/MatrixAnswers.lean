import Verif.Props.ListsReal
import Verif.Props.Matrix
import Verif.Props.ReadingMatrix
/-
Property C96: matrices of answers in LaTeX notation are compared entry by entry.
-/

namespace Verif
open Re

variable {X V S : Type}

/-! ### Specification -/

/-- A cell of a matrix: a tidy text whose brackets match up, without column separator and not ending in a backslash; behind a row
separator it has no meaning to the normaliser either. -/
structure Cell (c : Str) : Prop where
  tidy : Tidy c
  balanced : (c.map bracketDelta).sum = 0
  amp : '&' ∉ c
  last : c.getLast? ≠ some '\\'
  behind : ∀ p ∈ s%"\\\\begin" :: s%"\\in" :: clearSpecial, ¬ p <:+: s%"\\\\" ++ c

/-- A rectangular array of cells. -/
structure CellArray (rows : List (List Str)) : Prop where
  array : ∃ n, IsArray rows n
  cell : ∀ row ∈ rows, ∀ c ∈ row, Cell c

/-- The environments `matrix`, `pmatrix`, `bmatrix` and so on, in lower case. -/
def LowerName (nm : Str) : Prop := nm = [] ∨ ∃ a, nm = [a] ∧ 'a' ≤ a ∧ a ≤ 'z'

/-- A single row or a single column. -/
def IsVector (rows : List (List Str)) : Prop := rows.length = 1 ∨ ∀ row ∈ rows, row.length = 1

/-- Matrices of the same shape with related entries; a row vector is a column vector. -/
def EntriesAgree (R : Str → Str → Prop) (as bs : List (List Str)) : Prop :=
  List.Forall₂ (List.Forall₂ R) as bs ∨ (IsVector as ∧ IsVector bs ∧ List.Forall₂ R as.flatten bs.flatten)

/-! ### Occurrences in matrices -/

theorem infix_cut {p u v : Str} (h : p <:+: u ++ v) :
    p <:+: u ∨ p <:+: v ∨ ∃ p1 p2, p = p1 ++ p2 ∧ p1 ≠ [] ∧ p2 ≠ [] ∧ p1 <:+ u ∧ p2 <+: v := by
  rcases Grammar.infix_append h with ⟨a1, a2, rfl, h2, r, hr⟩ | h
  · rcases prefix_of_append hr with ⟨z, rfl, hz⟩ | ⟨z, rfl, -⟩
    · cases z with
      | nil => exact .inl ⟨a1, [], by simp⟩
      | cons x z => exact .inr (.inr ⟨a2, x :: z, rfl, h2, by simp, ⟨a1, rfl⟩, ⟨r, hz.symm⟩⟩)
    · exact .inl ⟨a1, z, by simp⟩
  · exact .inr (.inl h)

/-- An occurrence of the word does not extend from the middle of a row separator or of `\end` to the left, nor from a brace to the
right. -/
def stays (p : Str) : Bool :=
  !p.isEmpty && !p.contains '&' && (List.range p.length).all fun k => k == 0 || (((p.take k).getLast? != some '}') && match p.drop k with
    | '\\' :: x :: _ => x != '\\' && x != 'e'
    | '\\' :: [] => false
    | _ => true)

theorem stays_cut {p p1 p2 : Str} (h : stays p = true) (e : p = p1 ++ p2) (h1 : p1 ≠ []) (h2 : p2 ≠ []) :
    p1.getLast? ≠ some '}' ∧ ∀ r, p2 <+: r → (∀ t, r ≠ '\\' :: '\\' :: t) ∧ ∀ t, r ≠ '\\' :: 'e' :: t := by
  subst e
  simp only [stays, Bool.and_eq_true, List.all_eq_true, List.mem_range] at h
  have hp1 : 0 < p1.length := List.length_pos_iff.2 h1
  have hp2 : 0 < p2.length := List.length_pos_iff.2 h2
  have := h.2 p1.length (by simp; omega)
  simp only [List.take_left', List.drop_left', Bool.or_eq_true, beq_iff_eq, Bool.and_eq_true, bne_iff_ne] at this
  rcases this with h0 | ⟨h3, h4⟩
  · omega
  refine ⟨h3, fun r hr => ⟨?_, ?_⟩⟩
  all_goals
    rintro t rfl
    match p2, h2, hr, h4 with
    | [x], _, hr, h4 =>
      simp only [List.cons_prefix_cons] at hr
      obtain ⟨rfl, -⟩ := hr
      simp at h4
    | x :: y :: r, _, hr, h4 =>
      simp only [List.cons_prefix_cons] at hr
      obtain ⟨rfl, rfl, -⟩ := hr
      simp at h4

theorem row_infix {p : Str} (h0 : p ≠ []) (ha : '&' ∉ p) : ∀ {cs : List Str}, cs ≠ [] → p <:+: s%"\\\\" ++ join s%"&" cs →
    ∃ c ∈ cs, p <:+: s%"\\\\" ++ c
  | [], h, _ => absurd rfl h
  | [c], _, h => ⟨c, by simp, by simpa [join] using h⟩
  | c :: c' :: cs, _, h => by
    have : p <:+: (s%"\\\\" ++ c) ++ '&' :: join s%"&" (c' :: cs) := by simpa [join] using h
    rcases infix_straddle ha this with h | h
    · exact ⟨c, by simp, h⟩
    · obtain ⟨x, hx, hi⟩ := row_infix h0 ha (cs := c' :: cs) (by simp) (h.trans ⟨s%"\\\\", [], by simp⟩)
      exact ⟨x, by simp [hx], hi⟩

theorem rows_infix {p : Str} (hp : stays p = true) (t : Str) : ∀ {rows : List (List Str)}, rows ≠ [] → (∀ r ∈ rows, r ≠ []) →
    p <:+: s%"\\\\" ++ join s%"\\\\" (rows.map (join s%"&")) ++ '\\' :: 'e' :: t →
    (∃ row ∈ rows, ∃ c ∈ row, p <:+: s%"\\\\" ++ c) ∨ p <:+: '\\' :: 'e' :: t := by
  have h0 : p ≠ [] := by rintro rfl; simp [stays] at hp
  have ha : '&' ∉ p := by
    simp only [stays, Bool.and_eq_true, Bool.not_eq_true'] at hp
    simpa using hp.1.2
  intro rows
  induction rows with
  | nil => intro h; exact absurd rfl h
  | cons r rows ih =>
    intro _ hr h
    cases rows with
    | nil =>
      simp only [List.map_cons, List.map_nil, join] at h
      rcases infix_cut h with h | h | ⟨p1, p2, e, h1, h2, _, h3⟩
      · obtain ⟨c, hc, hi⟩ := row_infix h0 ha (hr r (by simp)) h
        exact .inl ⟨r, by simp, c, hc, hi⟩
      · exact .inr h
      · exact absurd rfl (((stays_cut hp e h1 h2).2 _ h3).2 _)
    | cons r' rows =>
      have h : p <:+: (s%"\\\\" ++ join s%"&" r) ++ ('\\' :: '\\' :: (join s%"\\\\" ((r' :: rows).map (join s%"&")) ++ '\\' :: 'e' :: t)) := by
        simpa [join] using h
      rcases infix_cut h with h | h | ⟨p1, p2, e, h1, h2, _, h3⟩
      · obtain ⟨c, hc, hi⟩ := row_infix h0 ha (hr r (by simp)) h
        exact .inl ⟨r, by simp, c, hc, hi⟩
      · rcases ih (by simp) (fun x hx => hr x (by simp [hx])) (by simpa using h) with ⟨row, h1, h2⟩ | h
        · exact .inl ⟨row, by simp [h1], h2⟩
        · exact .inr h
      · exact absurd rfl (((stays_cut hp e h1 h2).2 _ h3).1 _)

/-- An occurrence of the word in the text of a matrix is in the name of the environment or in a cell behind a row separator. -/
theorem matrix_infix {p nm nm' : Str} (hp : stays p = true) {rows : List (List Str)} (h0 : rows ≠ []) (hr : ∀ r ∈ rows, r ≠ [])
    (h : p <:+: spellEnv nm nm' rows) :
    p <:+: s%"\\begin{" ++ nm ++ s%"matrix}" ∨ (∃ row ∈ rows, ∃ c ∈ row, p <:+: s%"\\\\" ++ c) ∨ p <:+: s%"\\end{" ++ nm' ++ s%"matrix}" := by
  have h : p <:+: (s%"\\begin{" ++ nm ++ s%"matrix}") ++ (join s%"\\\\" (rows.map (join s%"&")) ++ (s%"\\end{" ++ nm' ++ s%"matrix}")) := by
    simpa [spellEnv] using h
  rcases infix_cut h with h | h | ⟨p1, p2, e, h1, h2, h3, _⟩
  · exact .inl h
  · exact .inr (rows_infix hp (s%"nd{" ++ nm' ++ s%"matrix}") h0 hr (h.trans ⟨s%"\\\\", [], by simp⟩))
  · have := (stays_cut hp e h1 h2).1
    obtain ⟨u, hu⟩ := h3
    have : p1.getLast? = some '}' := by
      have e := congrArg List.getLast? hu
      rw [List.getLast?_append_of_ne_nil _ h1] at e
      rw [e, List.getLast?_append_of_ne_nil _ (by simp)]
      rfl
    contradiction

/-! ### The normal form -/

/-- the names of the environments -/
def lowerNames : List Str := [] :: (s%"abcdefghijklmnopqrstuvwxyz").map fun c => [c]

theorem LowerName.mem {nm : Str} (h : LowerName nm) : nm ∈ lowerNames := by
  rcases h with rfl | ⟨a, rfl, h1, h2⟩
  · simp [lowerNames]
  · have : ∀ n, 97 ≤ n → n ≤ 122 → [Char.ofNat n] ∈ lowerNames := by
      intro n h1 h2
      have : n ∈ (List.range 123).filter (97 ≤ ·) := by simp; omega
      revert n
      decide +kernel
    have := this a.toNat h1 h2
    rwa [Char.ofNat_toNat] at this

theorem LowerName.env {nm : Str} (h : LowerName nm) : EnvName nm := by
  rcases h with rfl | ⟨a, rfl, h1, h2⟩
  · exact .inl rfl
  · refine .inr ⟨a, rfl, ?_⟩
    have := LowerName.mem (.inr ⟨a, rfl, h1, h2⟩)
    have key : ∀ nm ∈ lowerNames, ∀ a ∈ nm, asciiAlpha a = true := by decide +kernel
    exact key _ this a (by simp)

theorem name_chars : ∀ nm ∈ lowerNames, ∀ c ∈ s%"\\begin{" ++ nm ++ s%"matrix}\\end{",
    (33 ≤ c.toNat ∧ c.toNat < 127 ∧ asciiUpper c = false ∧ c ∉ s%"$%:,") := by decide +kernel

theorem name_words : ∀ nm ∈ lowerNames, ∀ p ∈ s%"\\\\begin" :: s%"\\in" :: clearSpecial,
    contains p (s%"\\begin{" ++ nm ++ s%"matrix}") = false ∧ contains p (s%"\\end{" ++ nm ++ s%"matrix}") = false := by decide +kernel

theorem words_stay : ∀ p ∈ s%"\\\\begin" :: s%"\\in" :: clearSpecial, stays p = true := by decide +kernel

section
variable {rows : List (List Str)} (h : CellArray rows)
include h

theorem CellArray.rows_ne : rows ≠ [] := h.array.choose_spec.nonempty

theorem CellArray.row_ne : ∀ r ∈ rows, r ≠ [] := by
  rintro r hr rfl
  obtain ⟨n, hn⟩ := h.array
  have := hn.rect [] hr
  have := hn.cols
  simp at *
  omega

theorem CellArray.word {nm nm' p : Str} (hnm : LowerName nm) (hnm' : LowerName nm') (hp : p ∈ s%"\\\\begin" :: s%"\\in" :: clearSpecial) :
    ¬ p <:+: spellEnv nm nm' rows := by
  intro hi
  rcases matrix_infix (words_stay p hp) h.rows_ne h.row_ne hi with hi | ⟨r, hr, c, hc, hi⟩ | hi
  · exact (contains_eq_false _ _).1 (name_words nm hnm.mem p hp).1 hi
  · exact (h.cell r hr c hc).behind p hp hi
  · exact (contains_eq_false _ _).1 (name_words nm' hnm'.mem p hp).2 hi

omit h in
theorem mem_env {x : Char} {nm nm' : Str} (hx : x ∈ spellEnv nm nm' rows) :
    x ∈ s%"\\begin{" ++ nm ++ s%"matrix}\\end{" ∨ x ∈ nm' ∨ x = '&' ∨ ∃ r ∈ rows, ∃ c ∈ r, x ∈ c := by
  have row : ∀ {cs : List Str}, x ∈ join s%"&" cs → x = '&' ∨ ∃ c ∈ cs, x ∈ c := by
    intro cs
    induction cs with
    | nil => simp [join]
    | cons c cs ih =>
      cases cs with
      | nil => simpa [join] using fun h => .inr h
      | cons c' cs =>
        intro hm
        have : x ∈ c ∨ x = '&' ∨ x ∈ join s%"&" (c' :: cs) := by simpa [join] using hm
        rcases this with h | h | h
        · exact .inr ⟨c, by simp, h⟩
        · exact .inl h
        · rcases ih h with h | ⟨c, hc, hx⟩
          · exact .inl h
          · exact .inr ⟨c, List.mem_cons_of_mem _ hc, hx⟩
  have body : ∀ {rs : List (List Str)}, x ∈ join s%"\\\\" (rs.map (join s%"&")) → x = '\\' ∨ x = '&' ∨ ∃ r ∈ rs, ∃ c ∈ r, x ∈ c := by
    intro rs
    induction rs with
    | nil => simp [join]
    | cons c cs ih =>
      cases cs with
      | nil =>
        intro hm
        rcases row (by simpa [join] using hm) with h | h
        · exact .inr (.inl h)
        · exact .inr (.inr ⟨c, by simp, h⟩)
      | cons c' cs =>
        intro hm
        have : x ∈ join s%"&" c ∨ x = '\\' ∨ x ∈ join s%"\\\\" ((c' :: cs).map (join s%"&")) := by simpa [join] using hm
        rcases this with h | h | h
        · rcases row h with h | h
          · exact .inr (.inl h)
          · exact .inr (.inr ⟨c, by simp, h⟩)
        · exact .inl h
        · rcases ih h with h | h | ⟨c, hc, hx⟩
          · exact .inl h
          · exact .inr (.inl h)
          · exact .inr (.inr ⟨c, List.mem_cons_of_mem _ hc, hx⟩)
  have hx : (x ∈ s%"\\begin{" ++ nm ++ s%"matrix}") ∨ x ∈ join s%"\\\\" (rows.map (join s%"&")) ∨ x ∈ s%"\\end{" ∨ x ∈ nm' ∨ x ∈ s%"matrix}" := by
    simpa [spellEnv, or_assoc] using hx
  rcases hx with hx | hx | hx | hx | hx
  · refine .inl ?_
    have : x ∈ (s%"\\begin{" ++ nm ++ s%"matrix}") ++ s%"\\end{" := List.mem_append.2 (.inl hx)
    simpa using this
  · rcases body hx with rfl | h | h
    · exact .inl (by simp)
    · exact .inr (.inr (.inl h))
    · exact .inr (.inr (.inr h))
  · exact .inl (by simp at hx ⊢; tauto)
  · exact .inr (.inl hx)
  · exact .inl (by simp at hx ⊢; tauto)

theorem CellArray.chars {nm nm' : Str} (hnm : LowerName nm) (hnm' : LowerName nm') {x : Char} (hx : x ∈ spellEnv nm nm' rows) :
    33 ≤ x.toNat ∧ x.toNat < 127 ∧ asciiUpper x = false ∧ x ∉ s%"$%:," := by
  rcases mem_env hx with hx | hx | rfl | ⟨r, hr, c, hc, hx⟩
  · exact name_chars nm hnm.mem x hx
  · exact name_chars nm' hnm'.mem x (by simp [hx])
  · decide
  · exact (h.cell r hr c hc).tidy.chars x hx

theorem CellArray.noComma {nm nm' : Str} (hnm : LowerName nm) (hnm' : LowerName nm') : ',' ∉ spellEnv nm nm' rows :=
  fun hm => (h.chars hnm hnm' hm).2.2.2 (by decide)

/-- a digit before the word -/
theorem CellArray.digit {nm nm' : Str} (hnm : LowerName nm) (hnm' : LowerName nm') {q : Str} (hq : q = s%"\\frac" ∨ q = s%"_")
    {u v : Str} {d : Char} (e : spellEnv nm nm' rows = u ++ d :: q ++ v) : asciiDigit d = false := by
  cases hd : asciiDigit d with
  | false => rfl
  | true =>
    have hm : d ∈ s%"0123456789" := by
      have : ∀ n, 48 ≤ n → n ≤ 57 → Char.ofNat n ∈ s%"0123456789" := by
        intro n h1 h2
        have : n ∈ (List.range 58).filter (48 ≤ ·) := by simp; omega
        revert n
        decide +kernel
      simp only [asciiDigit, decide_eq_true_eq] at hd
      have := this d.toNat hd.1 hd.2
      rwa [Char.ofNat_toNat] at this
    have key : ∀ d ∈ s%"0123456789", ∀ q ∈ [s%"\\frac", s%"_"], stays (d :: q) = true ∧ d ≠ '\\' ∧ ∀ nm ∈ lowerNames,
        contains (d :: q) (s%"\\begin{" ++ nm ++ s%"matrix}") = false ∧ contains (d :: q) (s%"\\end{" ++ nm ++ s%"matrix}") = false := by
      decide +kernel
    obtain ⟨k1, k0, k2⟩ := key d hm q (by simpa using hq)
    exfalso
    rcases matrix_infix k1 h.rows_ne h.row_ne ⟨u, v, e.symm⟩ with hi | ⟨r, hr, c, hc, hi⟩ | hi
    · exact (contains_eq_false _ _).1 (k2 nm hnm.mem).1 hi
    · have hi : d :: q <:+: c := by
        rcases List.infix_cons_iff.1 hi with hi | hi
        · exact absurd (List.cons_prefix_cons.1 hi).1 k0
        · rcases List.infix_cons_iff.1 hi with hi | hi
          · exact absurd (List.cons_prefix_cons.1 hi).1 k0
          · exact hi
      obtain ⟨a, b, hab⟩ := hi
      have ht := (h.cell r hr c hc).tidy
      rcases hq with rfl | rfl
      · have := ht.mixed a b d hab.symm
        rw [hd] at this; cases this
      · have := ht.base a b d (by rw [← hab]; simp)
        rw [hd] at this; cases this
    · exact (contains_eq_false _ _).1 (k2 nm' hnm'.mem).2 hi

theorem CellArray.clear {nm nm' : Str} (hnm : LowerName nm) (hnm' : LowerName nm') : Clear (spellEnv nm nm' rows) where
  chars c hc := by
    obtain ⟨h1, h2, h3, h4⟩ := h.chars hnm hnm' hc
    exact ⟨h1, h2, h3, fun hm => h4 (List.mem_append_left s%"," hm)⟩
  words p hp := h.word hnm hnm' (List.mem_cons_of_mem _ (List.mem_cons_of_mem _ hp))
  slashes := .inr ⟨h.word hnm hnm' (by simp), ⟨[], s%"{" ++ nm ++ s%"matrix}" ++ (join s%"\\\\" (rows.map (join s%"&")) ++
      (s%"\\end{" ++ nm' ++ s%"matrix}")), by simp [spellEnv]⟩,
    ⟨s%"\\begin{" ++ nm, s%"}" ++ (join s%"\\\\" (rows.map (join s%"&")) ++ (s%"\\end{" ++ nm' ++ s%"matrix}")), by simp [spellEnv]⟩⟩
  clock := .inr (by simp [spellEnv, asciiDigit])
  letter u v c e := absurd ⟨u ++ [c], v, by rw [e]; simp⟩ (h.word hnm hnm' (p := s%"\\in") (by simp))
  builder := .inl (by simp [spellEnv])
  mixed u v d e := h.digit hnm hnm' (.inl rfl) e
  base u v d e := h.digit hnm hnm' (u := u) (v := v) (.inr rfl) (by rw [e]; simp)
  commas := ⟨not_infix_of_not_mem ',' (by simp) (h.noComma hnm hnm'), not_infix_of_not_mem ',' (by simp) (h.noComma hnm hnm')⟩

theorem CellArray.strip {nm nm' : Str} (hnm : LowerName nm) (hnm' : LowerName nm') :
    strip (spellEnv nm nm' rows) = spellEnv nm nm' rows :=
  strip_of_no_space _ fun _ hc => (h.clear hnm hnm').space hc

/-- The text of a matrix is its own normal form. -/
theorem CellArray.fixed (E : Env X V S) (n : Nat) {nm nm' : Str} (hnm : LowerName nm) (hnm' : LowerName nm') :
    Always (stringNormalize E (n + 1) (spellEnv nm nm' rows)) (.str (spellEnv nm nm' rows)) := by
  have hp : pyFloat E.U (spellEnv nm nm' rows) = none := pyFloat_none '{' (by simp [spellEnv]) (by simp [litChar, isDigit, asciiDigit, isSpace, asciiAlpha, asciiLower, asciiUpper])
  refine (h.clear hnm hnm').fixed E n (by simp [spellEnv]) (fun x hx => by rw [hp] at hx; cases hx) ?_
  unfold strIsInt
  rw [stripCommas_nocomma (h.noComma hnm hnm'), hp]

theorem CellArray.balanced {nm nm' : Str} (hnm : LowerName nm) (hnm' : LowerName nm') :
    ((spellEnv nm nm' rows).map bracketDelta).sum = 0 := by
  have names : ∀ nm ∈ lowerNames, ((s%"\\begin{" ++ nm ++ s%"matrix}").map bracketDelta).sum = 0 ∧
      ((s%"\\end{" ++ nm ++ s%"matrix}").map bracketDelta).sum = 0 := by decide +kernel
  have row : ∀ (sep : Str), (sep.map bracketDelta).sum = 0 → ∀ cs : List Str, (∀ c ∈ cs, (c.map bracketDelta).sum = 0) →
      ((join sep cs).map bracketDelta).sum = 0 := by
    intro sep hsep cs
    induction cs with
    | nil => simp [join]
    | cons c cs ih =>
      intro hc
      cases cs with
      | nil => simpa [join] using hc
      | cons c' cs =>
        have := ih fun c hm => hc c (List.mem_cons_of_mem _ hm)
        simp only [join, List.map_append, List.sum_append, hc c (by simp), hsep] at this ⊢
        simpa using this
  have h2 := row s%"\\\\" (by decide) (rows.map (join s%"&")) fun r hr => by
    obtain ⟨r, hm, rfl⟩ := List.mem_map.1 hr
    exact row s%"&" (by decide) r fun c hc => (h.cell r hm c hc).balanced
  rw [spellEnv, List.map_append, List.sum_append, List.map_append, List.sum_append, (names nm hnm.mem).1, (names nm' hnm'.mem).2, h2]
  rfl

theorem CellArray.unsplit (U : Uni) (ord : List Str → List Str) {nm nm' : Str} (hnm : LowerName nm) (hnm' : LowerName nm') :
    splitTuple U ord (spellEnv nm nm' rows) none = .ok (.str (spellEnv nm nm' rows)) :=
  splitTuple_single (h.noComma hnm hnm') (h.balanced hnm hnm') (by simp [spellEnv])

theorem CellArray.split (E : Env X V S) {nm nm' : Str} (hnm : LowerName nm) (hnm' : LowerName nm') (w : World X) :
    splitMatrix E (spellEnv nm nm' rows) w = (.ok (arrayMat rows), w) := by
  obtain ⟨n, hn⟩ := h.array
  exact C37_env E nm nm' hnm.env hnm'.env rows n hn
    (fun r hr c hc => ⟨(h.cell r hr c hc).amp, (h.cell r hr c hc).tidy.words _ (by decide), (h.cell r hr c hc).last⟩) w

end

/-! ### The comparison -/

/-- related rows -/
def RowRel (R : Str → Str → Prop) : Row → Row → Prop
  | .str x, .str y => R x y
  | .list xs, .list ys => List.Forall₂ R xs ys
  | _, _ => False

open Classical in
theorem rowsEquiv_rel {eq : EqFun X} {R : Str → Str → Prop} (as bs : List Row) (hl : as.length = bs.length)
    (h : ∀ r ∈ as, ∀ a ∈ r.entries, ∀ r' ∈ bs, ∀ b ∈ r'.entries, Always (eq a b false) (decide (R a b))) :
    Always (rowsEquiv eq as bs) (decide (List.Forall₂ (RowRel R) as bs)) := by
  induction as generalizing bs with
  | nil =>
    cases bs with
    | nil => simpa [rowsEquiv] using Always.pure true
    | cons _ _ => simp at hl
  | cons r as ih =>
    cases bs with
    | nil => simp at hl
    | cons r' bs =>
      have ih := ih bs (by simpa using hl) fun r hr a ha r' hr' b hb => h r (by simp [hr]) a ha r' (by simp [hr']) b hb
      have step : ∀ {m : M X Bool} {P : Prop} {i : Decidable P}, Always m (@decide P i) → (P ↔ RowRel R r r') →
          Always (do if ← m then rowsEquiv eq as bs else pure false) (decide (List.Forall₂ (RowRel R) (r :: as) (r' :: bs))) := by
        intro m P i hm hP
        refine hm.bind ?_
        by_cases hp : P
        · simp only [hp, decide_true, if_true]
          have : List.Forall₂ (RowRel R) (r :: as) (r' :: bs) ↔ List.Forall₂ (RowRel R) as bs := by
            simp [List.forall₂_cons, hP.1 hp]
          simpa only [this] using ih
        · have : ¬ List.Forall₂ (RowRel R) (r :: as) (r' :: bs) := by
            simp [List.forall₂_cons, (not_congr hP).1 hp]
          simp only [hp, this, decide_false, Bool.false_eq_true, if_false]
          exact Always.pure _
      have stop : ¬ RowRel R r r' → Always (pure false : M X Bool) (decide (List.Forall₂ (RowRel R) (r :: as) (r' :: bs))) := by
        intro hn
        rw [decide_eq_false (by simp [List.forall₂_cons, hn])]
        exact Always.pure _
      cases r with
      | str x =>
        cases r' with
        | str y =>
          rw [rowsEquiv]
          exact step (h (.str x) (by simp) x (by simp [Row.entries]) (.str y) (by simp) y (by simp [Row.entries])) Iff.rfl
        | list ys => rw [rowsEquiv.eq_def]; exact stop (by simp [RowRel])
      | list xs =>
        cases r' with
        | str y => rw [rowsEquiv.eq_def]; exact stop (by simp [RowRel])
        | list ys =>
          rw [rowsEquiv]
          by_cases hl : xs.length = ys.length
          · rw [if_neg (by simpa using hl)]
            exact step (zipLoop_forall (R := R) xs ys hl fun a ha b hb => by
              convert h (.list xs) (by simp) a (by simpa [Row.entries] using ha) (.list ys) (by simp) b (by simpa [Row.entries] using hb)) Iff.rfl
          · rw [if_pos hl]
            exact stop fun hn => hl hn.length_eq

/-- How `split_matrix` presents vectors and other matrices. -/
theorem arrayMat_cases {as : List (List Str)} {n : Nat} (h : IsArray as n) :
    (IsVector as ∧ ((∃ x, as.flatten = [x] ∧ arrayMat as = .str x) ∨ (2 ≤ as.flatten.length ∧ arrayMat as = .rows (as.flatten.map .str)))) ∨
    (¬ IsVector as ∧ arrayMat as = .rows (as.map .list)) := by
  match as, h with
  | [], h => exact absurd rfl h.nonempty
  | [row], h =>
    refine .inl ⟨.inl rfl, ?_⟩
    match row, h with
    | [], h => exact absurd (h.rect [] (by simp)) (by have := h.cols; simp; omega)
    | [x], _ => exact .inl ⟨x, rfl, rfl⟩
    | x :: y :: r, _ => exact .inr ⟨by simp, by simp [arrayMat]⟩
  | r :: r' :: rs, h =>
    have e : arrayMat (r :: r' :: rs) = .rows ((r :: r' :: rs).map rowOf) := by
      simp only [arrayMat]
      rfl
    by_cases hn : n = 1
    · subst hn
      have key : ∀ l : List (List Str), (∀ r ∈ l, r.length = 1) → l.flatten.length = l.length ∧ l.map rowOf = l.flatten.map .str := by
        intro l
        induction l with
        | nil => simp
        | cons r l ih =>
          intro hl
          obtain ⟨i1, i2⟩ := ih fun r hr => hl r (by simp [hr])
          match r, hl r (by simp) with
          | [x], _ => simp [i1, i2, rowOf]
      obtain ⟨k1, k2⟩ := key _ h.rect
      exact .inl ⟨.inr h.rect, .inr ⟨by rw [k1]; simp, by rw [e, k2]⟩⟩
    · refine .inr ⟨?_, ?_⟩
      · rintro (hv | hv)
        · simp at hv
        · exact hn ((h.rect r (by simp)).symm.trans (hv r (by simp)))
      · rw [e]
        congr 1
        apply List.map_congr_left
        intro row hrow
        have h1 := h.rect row hrow
        have := h.cols
        match row, h1 with
        | [], h1 => simp at h1; omega
        | [x], h1 => simp at h1; omega
        | _ :: _ :: _, _ => rfl

theorem IsVector.of_agree {R : Str → Str → Prop} {as bs : List (List Str)} (h : List.Forall₂ (List.Forall₂ R) as bs) :
    IsVector as ↔ IsVector bs := by
  have hl := h.length_eq
  have : (∀ r ∈ as, r.length = 1) ↔ ∀ r ∈ bs, r.length = 1 := by
    induction h with
    | nil => simp
    | cons h1 h2 ih =>
      have := ih (by simpa using hl)
      simp only [List.forall_mem_cons, this, h1.length_eq]
  rw [IsVector, IsVector, hl, this]

theorem flatten_agree {R : Str → Str → Prop} {as bs : List (List Str)} (h : List.Forall₂ (List.Forall₂ R) as bs) :
    List.Forall₂ R as.flatten bs.flatten := by
  induction h with
  | nil => exact .nil
  | cons h1 _ ih => exact List.rel_append h1 ih

theorem entriesAgree_iff {R : Str → Str → Prop} {as bs : List (List Str)} : EntriesAgree R as bs ↔
    (IsVector as ∧ IsVector bs ∧ List.Forall₂ R as.flatten bs.flatten) ∨
    (¬ IsVector as ∧ ¬ IsVector bs ∧ List.Forall₂ (List.Forall₂ R) as bs) := by
  constructor
  · rintro (h | h)
    · have := IsVector.of_agree h
      by_cases ha : IsVector as
      · exact .inl ⟨ha, this.1 ha, flatten_agree h⟩
      · exact .inr ⟨ha, (not_congr this).1 ha, h⟩
    · exact .inl h
  · rintro (h | ⟨_, _, h⟩)
    · exact .inr h
    · exact .inl h

theorem rowRel_str {R : Str → Str → Prop} (as bs : List Str) :
    List.Forall₂ (RowRel R) (as.map .str) (bs.map .str) ↔ List.Forall₂ R as bs := by
  rw [List.forall₂_map_left_iff, List.forall₂_map_right_iff]
  exact Iff.rfl

theorem rowRel_list {R : Str → Str → Prop} (as bs : List (List Str)) :
    List.Forall₂ (RowRel R) (as.map .list) (bs.map .list) ↔ List.Forall₂ (List.Forall₂ R) as bs := by
  rw [List.forall₂_map_left_iff, List.forall₂_map_right_iff]
  exact Iff.rfl

theorem short_cell {as : List (List Str)} {nm nm' x : Str} (h0 : ∀ r ∈ as, r ≠ []) (h : as.flatten = [x]) : x ≠ spellEnv nm nm' as := by
  have : as = [[x]] := by
    match as, h0, h with
    | (y :: r) :: rs, h0, h =>
      simp only [List.flatten_cons, List.cons_append, List.cons.injEq, List.append_eq_nil_iff] at h
      obtain ⟨rfl, rfl, h⟩ := h
      cases rs with
      | nil => rfl
      | cons r rs =>
        simp only [List.flatten_cons, List.append_eq_nil_iff] at h
        exact absurd h.1 (h0 r (by simp))
    | [] :: _, h0, _ => exact absurd rfl (h0 [] (by simp))
  subst this
  intro e
  have := congrArg List.length e
  simp [spellEnv, join] at this
  omega

open Classical in
/-- The matrix stage on two texts that are split into arrays. -/
theorem possibleMatrix_arrays {E : Env X V S} {eq : EqFun X} {R : Str → Str → Prop} {as bs : List (List Str)} {s t : Str} {n m : Nat}
    (ga : IsArray as n) (gb : IsArray bs m) (hs : ∀ w, splitMatrix E s w = (.ok (arrayMat as), w))
    (ht : ∀ w, splitMatrix E t w = (.ok (arrayMat bs), w)) (short : ∀ x y, as.flatten = [x] → bs.flatten = [y] → ¬ (x = s ∧ y = t))
    (h : ∀ a ∈ as.flatten, ∀ b ∈ bs.flatten, Always (eq a b false) (decide (R a b))) :
    Always (possibleMatrix E eq s t) (decide (EntriesAgree R as bs), true) := by
  unfold possibleMatrix
  refine Always.bind (a := arrayMat as) (fun w => ⟨w, hs w⟩) ?_
  refine Always.bind (a := arrayMat bs) (fun w => ⟨w, ht w⟩) ?_
  have ha' := ga.nonempty
  have hb' := gb.nonempty
  have tie : ∀ {p q : Prop} {i : Decidable p} {mm : M X Bool}, Always mm (@decide p i) → (p ↔ q) →
      Always (do let r ← mm; pure (r, true)) (decide q, true) := by
    intro p q i mm hm hpq
    refine hm.bind ?_
    have : @decide p i = decide q := decide_eq_decide.2 hpq
    rw [this]
    exact Always.pure _
  have no : ¬ EntriesAgree R as bs → Always (pure (false, true) : M X (Bool × Bool)) (decide (EntriesAgree R as bs), true) := by
    intro hn
    rw [decide_eq_false hn]
    exact Always.pure _
  have rows : ∀ {xs ys : List Row}, (List.Forall₂ (RowRel R) xs ys ↔ EntriesAgree R as bs) →
      (∀ r ∈ xs, ∀ a ∈ r.entries, a ∈ as.flatten) → (∀ r ∈ ys, ∀ a ∈ r.entries, a ∈ bs.flatten) →
      Always (if xs.length ≠ ys.length then pure (false, true) else do
        let r ← rowsEquiv eq xs ys
        pure (r, true)) (decide (EntriesAgree R as bs), true) := by
    intro xs ys hrel hx hy
    by_cases hl : xs.length = ys.length
    · rw [if_neg (by simpa using hl)]
      exact tie (rowsEquiv_rel (R := R) xs ys hl fun r hr a ha r' hr' b hb => h a (hx r hr a ha) b (hy r' hr' b hb)) hrel
    · rw [if_pos hl]
      exact no fun hn => hl (hrel.2 hn).length_eq
  have strs : ∀ (l : List (List Str)), ∀ r ∈ l.flatten.map Row.str, ∀ a ∈ r.entries, a ∈ l.flatten := by
    intro l r hr a ha
    obtain ⟨x, hx, rfl⟩ := List.mem_map.1 hr
    simp only [Row.entries, List.mem_singleton] at ha
    rwa [ha]
  have lists : ∀ (l : List (List Str)), ∀ r ∈ l.map Row.list, ∀ a ∈ r.entries, a ∈ l.flatten := by
    intro l r hr a ha
    obtain ⟨x, hx, rfl⟩ := List.mem_map.1 hr
    exact List.mem_flatten.2 ⟨x, hx, ha⟩
  rcases arrayMat_cases ga with ⟨va, ⟨x, fx, ex⟩ | ⟨lx, ex⟩⟩ | ⟨va, ex⟩ <;>
    rcases arrayMat_cases gb with ⟨vb, ⟨y, fy, ey⟩ | ⟨ly, ey⟩⟩ | ⟨vb, ey⟩ <;> rw [ex, ey] <;> simp only
  · rw [if_neg (short x y fx fy)]
    refine tie (h x (by simp [fx]) y (by simp [fy])) ?_
    rw [entriesAgree_iff, fx, fy]
    simp [va, vb]
  · apply no
    rw [entriesAgree_iff]
    rintro (⟨_, _, hn⟩ | hn)
    · have := hn.length_eq
      rw [fx] at this
      simp only [List.length_singleton] at this
      omega
    · exact hn.1 va
  · apply no
    rw [entriesAgree_iff]
    simp [va, vb]
  · apply no
    rw [entriesAgree_iff]
    rintro (⟨_, _, hn⟩ | hn)
    · have := hn.length_eq
      rw [fy] at this
      simp only [List.length_singleton] at this
      omega
    · exact hn.1 va
  · refine rows ?_ (strs as) (strs bs)
    rw [rowRel_str, entriesAgree_iff]
    simp [va, vb]
  · refine rows ⟨fun hn => ?_, fun hn => ?_⟩ (strs as) (lists bs)
    · cases hb : bs with
      | nil => exact absurd hb hb'
      | cons r rs =>
        rw [hb] at hn
        cases hn' : as.flatten with
        | nil => rw [hn'] at lx; simp at lx
        | cons x xs => rw [hn'] at hn; cases hn with | cons h1 _ => exact h1.elim
    · rw [entriesAgree_iff] at hn
      simp [va, vb] at hn
  · apply no
    rw [entriesAgree_iff]
    simp [va, vb]
  · refine rows ⟨fun hn => ?_, fun hn => ?_⟩ (lists as) (strs bs)
    · cases ha : as with
      | nil => exact absurd ha ha'
      | cons r rs =>
        rw [ha] at hn
        cases hn' : bs.flatten with
        | nil => rw [hn'] at ly; simp at ly
        | cons x xs => rw [hn'] at hn; cases hn with | cons h1 _ => exact h1.elim
    · rw [entriesAgree_iff] at hn
      simp [va, vb] at hn
  · refine rows ?_ (lists as) (lists bs)
    rw [rowRel_list, entriesAgree_iff]
    simp [va, vb]

open Classical in
theorem possibleMatrix_rel {E : Env X V S} {eq : EqFun X} {R : Str → Str → Prop} {as bs : List (List Str)} {na na' nb nb' : Str}
    (ha : CellArray as) (hb : CellArray bs) (hna : LowerName na) (hna' : LowerName na') (hnb : LowerName nb) (hnb' : LowerName nb')
    (h : ∀ a ∈ as.flatten, ∀ b ∈ bs.flatten, Always (eq a b false) (decide (R a b))) :
    Always (possibleMatrix E eq (spellEnv na na' as) (spellEnv nb nb' bs)) (decide (EntriesAgree R as bs), true) := by
  obtain ⟨n, ga⟩ := ha.array
  obtain ⟨m, gb⟩ := hb.array
  exact possibleMatrix_arrays ga gb (ha.split E hna hna') (hb.split E hnb hnb') (fun x y fx _ hn => short_cell ha.row_ne fx hn.1) h

theorem arrayMat_inj {as bs : List (List Str)} {n m : Nat} (ga : IsArray as n) (gb : IsArray bs m) (h : arrayMat as = arrayMat bs) :
    (IsVector as ∧ IsVector bs ∧ as.flatten = bs.flatten) ∨ as = bs := by
  have strs : ∀ as bs : List Str, as.map Row.str = bs.map .str → as = bs := fun _ _ h =>
    (List.map_injective_iff.2 (fun _ _ e => by injection e)) h
  have lists : ∀ as bs : List (List Str), as.map Row.list = bs.map .list → as = bs := fun _ _ h =>
    (List.map_injective_iff.2 (fun _ _ e => by injection e)) h
  have mixed : ∀ (as : List Str) (bs : List (List Str)), bs ≠ [] → as.map Row.str ≠ bs.map .list := by
    rintro (_ | ⟨x, as⟩) (_ | ⟨y, bs⟩) h e <;> simp at h e
  rcases arrayMat_cases ga with ⟨va, ⟨x, fx, ea⟩ | ⟨-, ea⟩⟩ | ⟨va, ea⟩ <;>
    rcases arrayMat_cases gb with ⟨vb, ⟨y, fy, eb⟩ | ⟨-, eb⟩⟩ | ⟨vb, eb⟩ <;> rw [ea, eb] at h
  case inl.inl.inl.inl =>
    injection h with h
    exact .inl ⟨va, vb, by rw [fx, fy, h]⟩
  case inl.inr.inl.inr =>
    injection h with h
    exact .inl ⟨va, vb, strs _ _ h⟩
  case inl.inr.inr =>
    injection h with h
    exact absurd h (mixed _ _ gb.nonempty)
  case inr.inl.inr =>
    injection h with h
    exact absurd h.symm (mixed _ _ ga.nonempty)
  case inr.inr =>
    injection h with h
    exact .inr (lists _ _ h)
  all_goals cases h

theorem forall₂_diag {α : Type} {R : α → α → Prop} : ∀ {l : List α}, (∀ x ∈ l, R x x) → List.Forall₂ R l l
  | [], _ => .nil
  | x :: _, h => .cons (h x (by simp)) (forall₂_diag fun y hy => h y (by simp [hy]))

open Classical in
/-- **C96.**  Two matrices of tidy cells, in any `matrix` environments, are judged equivalent exactly if they have the same shape — row
vectors being column vectors — and corresponding entries are judged equivalent. -/
theorem C96_entrywise {E : Env X V S} {R : Str → Str → Prop} {as bs : List (List Str)} {na na' nb nb' : Str}
    (ha : CellArray as) (hb : CellArray bs) (hna : LowerName na) (hna' : LowerName na') (hnb : LowerName nb) (hnb' : LowerName nb') {n : Nat}
    (h : ∀ a ∈ as.flatten, ∀ b ∈ bs.flatten, Always (isEquiv E (n + 2) (some a) (some b) false) (decide (R a b))) (verbose : Bool) :
    Always (isEquiv E (n + 3) (some (spellEnv na na' as)) (some (spellEnv nb nb' bs)) verbose) (decide (EntriesAgree R as bs)) := by
  by_cases hw : Nonempty (World X)
  swap
  · exact fun w => (hw ⟨w⟩).elim
  obtain ⟨w⟩ := hw
  have mat := possibleMatrix_rel (E := E) (eq := isEquivStr E (n + 2)) (R := R) ha hb hna hna' hnb hnb' h
  have hem : (spellEnv nb nb' bs).isEmpty = false := rfl
  have hmat : strIsMat (spellEnv na na' as) = true := by
    rw [strIsMat, contains_iff]
    exact ⟨s%"\\begin{" ++ na, s%"}" ++ (join s%"\\\\" (as.map (join s%"&")) ++ (s%"\\end{" ++ na' ++ s%"matrix}")), by simp [spellEnv]⟩
  simp only [isEquiv, isEquivStr, ha.strip hna hna', hb.strip hnb hnb']
  by_cases htx : spellEnv na na' as = spellEnv nb nb' bs
  · rw [if_pos htx]
    have em : arrayMat as = arrayMat bs := by
      have h1 := ha.split E hna hna' w
      rw [htx, hb.split E hnb hnb' w] at h1
      injection h1 with h1
      injection h1 with h1
      exact h1.symm
    have refl : ∀ {x : Str}, x ∈ as.flatten → x ∈ bs.flatten → R x x := by
      intro x h1 h2
      have h3 : Always (isEquiv E (n + 2) (some x) (some x) false) true := by
        simp only [isEquiv, isEquivStr, if_true]
        exact Always.pure _
      exact of_decide_eq_true ((h x h1 x h2).unique w h3)
    obtain ⟨n, ga⟩ := ha.array
    obtain ⟨m, gb⟩ := hb.array
    have agree : EntriesAgree R as bs := by
      rcases arrayMat_inj ga gb em with ⟨va, vb, e⟩ | rfl
      · refine .inr ⟨va, vb, ?_⟩
        rw [← e]
        exact forall₂_diag fun x hx => refl hx (e ▸ hx)
      · refine .inl (forall₂_diag fun row hr => forall₂_diag fun x hx => ?_)
        have : x ∈ as.flatten := List.mem_flatten.2 ⟨row, hr, hx⟩
        exact refl this this
    rw [decide_eq_true agree]
    exact Always.pure _
  rw [if_neg htx]
  apply (ha.fixed E (n + 1) hna hna').bind
  apply (hb.fixed E (n + 1) hnb hnb').bind
  apply print_always
  unfold compareNorms
  simp only [htx, decide_false, Bool.false_eq_true, if_false]
  apply Always.tryExcept
  unfold isLatexEquiv
  simp only [hem, Bool.false_eq_true, if_false]
  apply Always.bind (a := (false, false))
  · split
    · unfold possibleIntervals
      apply (strToInterval_none E (ha.noComma hna hna')).bind
      apply (strToInterval_none E (hb.noComma hnb hnb')).bind
      exact Always.pure _
    · exact Always.pure _
  simp only [Bool.not_false, if_true]
  apply Always.bind (a := (false, false))
  · intro w
    cases verbose <;> simp [possibleTuple, ha.unsplit _ _ hna hna', hb.unsplit _ _ hnb hnb', elemsEquiv]
  simp only [Bool.not_false, hmat, Bool.true_or, Bool.and_self, if_true]
  apply mat.bind
  simpa using Always.pure _

def cellB (c : Str) : Bool := tidyB c && decide ((c.map bracketDelta).sum = 0) && !c.contains '&' && (c.getLast? != some '\\') &&
  (s%"\\\\begin" :: s%"\\in" :: clearSpecial).all fun p => !contains p (s%"\\\\" ++ c)

theorem cellB_sound {c : Str} (h : cellB c = true) : Cell c := by
  simp only [cellB, Bool.and_eq_true, List.all_eq_true, decide_eq_true_eq, Bool.not_eq_true', bne_iff_ne, ne_eq] at h
  obtain ⟨⟨⟨⟨h1, h2⟩, h3⟩, h4⟩, h5⟩ := h
  exact ⟨tidyB_sound h1, h2, by simpa using h3, h4, fun p hp => (contains_eq_false _ _).1 (h5 p hp)⟩

end Verif

namespace Verif.L2S
open Verif Verif.Reading Verif.Grammar

section
variable {K : Type} [Field K] [LinearOrder K] [IsStrictOrderedRing K]
variable {Y S : Type} {E : Env (St Y) SV S} {L : Lib Y} {I : Interp K} {Is Ev : SV → K → Prop} {N : Nat}

open Classical in
/-- **C96.**  Two matrices of answers in LaTeX notation, in any `matrix` environments, are judged equivalent exactly if they have the same
shape — row vectors being column vectors — and the values of corresponding entries agree within the tolerance.  `val` gives the values of
the entries. -/
theorem C96_matrices_partial (H : RealArith E Is Ev) (hL : SoundLib I L) (hp : ∀ s t, parseText s = some t → L.parse s = .ok t)
    (hl : UsesLatex2sympy E L N) (hE : PrintsIntegers E) (hlit : ∀ l : Literal, Exactly E I Is l.text (l.value : K))
    {as bs : List (List Str)} {na na' nb nb' : Str} (val : Str → K) (pa : CellArray as) (pb : CellArray bs)
    (hna : LowerName na) (hna' : LowerName na') (hnb : LowerName nb) (hnb' : LowerName nb')
    (ha : ∀ a ∈ as.flatten, Answer E I Is a (val a)) (hb : ∀ b ∈ bs.flatten, Answer E I Is b (val b)) (n : Nat) (verbose : Bool) :
    Always (isEquiv E (n + 3) (some (spellEnv na na' as)) (some (spellEnv nb nb' bs)) verbose)
      (decide (EntriesAgree (fun a b => WithinTolerance (val a) (val b)) as bs)) :=
  C96_entrywise pa pb hna hna' hnb hnb' (fun a hm b hm' => by
    convert C84_judged_by_value_partial H hL hp hl hE hlit (ha a hm) (hb b hm') n false) verbose
end

open Classical in
/-- The hypotheses of C96 are met by `pointEnv`. -/
theorem point_matrices {as bs : List (List Str)} {na na' nb nb' : Str} (val : Str → ℝ) (pa : CellArray as) (pb : CellArray bs)
    (hna : LowerName na) (hna' : LowerName na') (hnb : LowerName nb) (hnb' : LowerName nb')
    (ha : ∀ a ∈ as.flatten, Answer realEnv reals IsReal a (val a)) (hb : ∀ b ∈ bs.flatten, Answer realEnv reals IsReal b (val b))
    (n : Nat) (verbose : Bool) :
    Always (isEquiv pointEnv (n + 3) (some (spellEnv na na' as)) (some (spellEnv nb nb' bs)) verbose)
      (decide (EntriesAgree (fun a b => WithinTolerance (val a) (val b)) as bs)) :=
  C96_matrices_partial pointEnv_arith (nodeLib_sound _ none _) partLib_parse pointEnv_uses pointEnv_prints
    (fun l => pointEnv_exactly l.text (l.value : ℝ)) val pa pb hna hna' hnb hnb' (fun a h => (ha a h).point) (fun b h => (hb b h).point)
    n verbose

theorem cells22 {a b c d : Str} (h : [a, b, c, d].all cellB = true) : CellArray [[a, b], [c, d]] where
  array := ⟨2, by constructor <;> simp⟩
  cell := by
    simp only [List.all_cons, List.all_nil, Bool.and_true, Bool.and_eq_true] at h
    obtain ⟨h1, h2, h3, h4⟩ := h
    simp [cellB_sound h1, cellB_sound h2, cellB_sound h3, cellB_sound h4]

theorem lower_p : LowerName s%"p" := .inr ⟨'p', rfl, by decide, by decide⟩
theorem lower_b : LowerName s%"b" := .inr ⟨'b', rfl, by decide, by decide⟩
theorem lower_v : LowerName s%"v" := .inr ⟨'v', rfl, by decide, by decide⟩

/-- `\begin{pmatrix}0.5&0.7\\0.5&0.5\end{pmatrix}` and `\begin{bmatrix}\frac{1}{2}&0.7\\\sqrt{9}-\frac{5}{2}&0.5\end{bmatrix}` are judged
equivalent. -/
example (n : Nat) (verbose : Bool) : Always (isEquiv pointEnv (n + 3) (some s%"\\begin{pmatrix}0.5&0.7\\\\0.5&0.5\\end{pmatrix}")
    (some s%"\\begin{bmatrix}\\frac{1}{2}&0.7\\\\\\sqrt{9}-\\frac{5}{2}&0.5\\end{bmatrix}") verbose) true :=
  (point_matrices (as := [[s%"0.5", s%"0.7"], [s%"0.5", s%"0.5"]]) (bs := [[s%"\\frac{1}{2}", s%"0.7"], [s%"\\sqrt{9}-\\frac{5}{2}", s%"0.5"]])
    tenthsOf (cells22 (by decide +kernel)) (cells22 (by decide +kernel)) lower_p lower_p lower_b lower_b
    (fun a h => tenths_answer a (by revert h; simp; tauto)) (fun a h => tenths_answer a (by revert h; simp; tauto)) n verbose).yes
    (.inl (by simp only [tenths_within]; decide))

/-- The transposed matrix is not. -/
example (n : Nat) (verbose : Bool) : Always (isEquiv pointEnv (n + 3) (some s%"\\begin{pmatrix}0.5&0.7\\\\0.5&0.5\\end{pmatrix}")
    (some s%"\\begin{pmatrix}\\frac{1}{2}&0.5\\\\0.7&0.5\\end{pmatrix}") verbose) false :=
  (point_matrices (as := [[s%"0.5", s%"0.7"], [s%"0.5", s%"0.5"]]) (bs := [[s%"\\frac{1}{2}", s%"0.5"], [s%"0.7", s%"0.5"]])
    tenthsOf (cells22 (by decide +kernel)) (cells22 (by decide +kernel)) lower_p lower_p lower_p lower_p
    (fun a h => tenths_answer a (by revert h; simp; tauto)) (fun a h => tenths_answer a (by revert h; simp; tauto)) n verbose).no
    (by
      rintro (h | ⟨h, -⟩)
      · simp only [tenths_within] at h
        revert h
        decide
      · revert h
        simp [IsVector])

/-- the values of the digits -/
def digitsOf (s : Str) : ℝ := if s = s%"1" then 1 else if s = s%"2" then 2 else if s = s%"3" then 3 else 4

theorem digits_answer : ∀ s ∈ [s%"1", s%"2", s%"3", s%"4"], Answer realEnv reals IsReal s (digitsOf s) := by
  have h : ∀ k : ℕ, k ≤ 4 → Answer realEnv reals IsReal (intStr k) (k : ℝ) := fun k hk => int_answer k (hk.trans (by norm_num))
  intro s hs
  simp only [List.mem_cons, List.not_mem_nil, or_false] at hs
  rcases hs with rfl | rfl | rfl | rfl
  · have := h 1 (by norm_num)
    rw [show intStr ((1 : ℕ) : ℤ) = s%"1" by decide +kernel] at this
    simpa [digitsOf] using this
  · have := h 2 (by norm_num)
    rw [show intStr ((2 : ℕ) : ℤ) = s%"2" by decide +kernel] at this
    simpa [digitsOf] using this
  · have := h 3 (by norm_num)
    rw [show intStr ((3 : ℕ) : ℤ) = s%"3" by decide +kernel] at this
    simpa [digitsOf] using this
  · have := h 4 (by norm_num)
    rw [show intStr ((4 : ℕ) : ℤ) = s%"4" by decide +kernel] at this
    simpa [digitsOf] using this

theorem det_text (a b c d : Fin 10) (s : Str)
    (hw : Written [.cmd s%"begin{vmatrix}", .digit a, .mark '&', .digit b, .cmd s%"\\", .digit c, .mark '&', .digit d, .cmd s%"end{vmatrix}"] s) :
    ∃ v w', latex2sympy matTextLib 1 s [] startWorld = (.ok v, w') ∧ v.scalar = true ∧ den ratInterp v = a.val * d.val - b.val * c.val := by
  obtain ⟨v, w', h1, h2, h3⟩ := C90_det matTextLib_sound matTextLib_matrix matTextLib_parse 0 [] startWorld
    ⟨rfl, fun _ _ => rfl⟩ (n := 2) (wide := false) matTextLib_det rfl (body22 a b c d) rfl (by simp) (s := s) hw
  refine ⟨v, w', h1, h2, ?_⟩
  rw [h3, Matrix.det_fin_two]
  simp [ofRows]

/-- **C96 is violated for determinants**, which are numbers but are compared as matrices: `\begin{vmatrix}1&2\\3&4\end{vmatrix}` and
`\begin{vmatrix}2&2\\3&2\end{vmatrix}` are both -2 for `latex2sympy` but are judged different, and
`\begin{vmatrix}1&2\\3&4\end{vmatrix}` is judged equivalent to the matrix `\begin{pmatrix}1&2\\3&4\end{pmatrix}`. -/
theorem C96_determinants_refuted (n : Nat) (verbose : Bool) :
    Always (isEquiv pointEnv (n + 3) (some s%"\\begin{vmatrix}1&2\\\\3&4\\end{vmatrix}") (some s%"\\begin{vmatrix}2&2\\\\3&2\\end{vmatrix}") verbose) false ∧
    Always (isEquiv pointEnv (n + 3) (some s%"\\begin{vmatrix}1&2\\\\3&4\\end{vmatrix}") (some s%"\\begin{pmatrix}1&2\\\\3&4\\end{pmatrix}") verbose) true ∧
    ∀ s ∈ [s%"\\begin{vmatrix}1&2\\\\3&4\\end{vmatrix}", s%"\\begin{vmatrix}2&2\\\\3&2\\end{vmatrix}"],
      ∃ v w', latex2sympy matTextLib 1 s [] startWorld = (.ok v, w') ∧ v.scalar = true ∧ den ratInterp v = -2 := by
  refine ⟨?_, ?_, ?_⟩
  · refine (point_matrices (as := [[s%"1", s%"2"], [s%"3", s%"4"]]) (bs := [[s%"2", s%"2"], [s%"3", s%"2"]])
      digitsOf (cells22 (by decide +kernel)) (cells22 (by decide +kernel)) lower_v lower_v lower_v lower_v
      (fun a h => digits_answer a (by revert h; simp)) (fun a h => digits_answer a (by revert h; simp; tauto)) n verbose).no ?_
    rintro (h | ⟨h, -⟩)
    · cases h with
      | cons h _ => cases h with
        | cons h _ =>
          revert h
          rw [WithinTolerance, digitsOf, digitsOf, if_pos rfl, if_neg (by decide), if_pos rfl, abs_one,
            show |(1 - 2 : ℝ)| = 1 by rw [abs_of_neg] <;> norm_num]
          norm_num
    · revert h
      simp [IsVector]
  · exact (point_matrices (as := [[s%"1", s%"2"], [s%"3", s%"4"]]) (bs := [[s%"1", s%"2"], [s%"3", s%"4"]])
      digitsOf (cells22 (by decide +kernel)) (cells22 (by decide +kernel)) lower_v lower_v lower_p lower_p
      (fun a h => digits_answer a (by revert h; simp)) (fun a h => digits_answer a (by revert h; simp)) n verbose).yes
      (.inl (forall₂_diag fun _ _ => forall₂_diag fun _ _ => near _))
  · intro s hs
    simp only [List.mem_cons, List.not_mem_nil, or_false] at hs
    rcases hs with rfl | rfl
    · obtain ⟨v, w', h1, h2, h3⟩ := det_text 1 2 3 4 _ (writtenB_sound (s := s%"\\begin{vmatrix}1&2\\\\3&4\\end{vmatrix}") (by decide +kernel))
      exact ⟨v, w', h1, h2, by rw [h3]; norm_num⟩
    · obtain ⟨v, w', h1, h2, h3⟩ := det_text 2 2 3 2 _ (writtenB_sound (s := s%"\\begin{vmatrix}2&2\\\\3&2\\end{vmatrix}") (by decide +kernel))
      exact ⟨v, w', h1, h2, by rw [h3]; norm_num⟩

end Verif.L2S
