import Verif.Props.Calm
import Verif.Py.ScanMem
/-
Properties C27 and C29: dollar signs, spacing commands and sized brackets.
-/

namespace Verif
open Re

variable {X V S : Type}

/-! ### Specification -/

/-- `Marked ms s t`: the text `s` is `t` with some pieces written differently.  Each pair `(m, o)` of `ms` allows to
write `m` for `o` anywhere except directly after a backslash. -/
inductive Marked (ms : List (Str × Str)) : Str → Str → Prop
  | nil : Marked ms [] []
  | last : Marked ms s%"\\" s%"\\"
  | keep (x : Char) (hx : x ≠ '\\') {s t : Str} (h : Marked ms s t) : Marked ms (x :: s) (x :: t)
  | pair (x : Char) (hx : x ≠ '\\') {s t : Str} (h : Marked ms s t) : Marked ms ('\\' :: x :: s) ('\\' :: x :: t)
  | mark (m o : Str) (hm : (m, o) ∈ ms) {s t : Str} (h : Marked ms s t) : Marked ms (m ++ s) (o ++ t)

/-- The dollar sign and the spacing commands, to be dropped. -/
def spacingMarks : List (Str × Str) := [(s%"\\:", []), (s%"\\,", []), (s%"\\;", []), (s%"\\!", []), (s%"$", [])]

/-- The sized brackets. -/
def bracketMarks : List (Str × Str) :=
  [(s%"\\left(", s%"("), (s%"\\left[", s%"["), (s%"\\right)", s%")"), (s%"\\right]", s%"]")]

/-! ### Marked texts -/

/-- `m` begins with a character that is not in `q`. -/
def headOff (q : Str) : Str → Bool
  | [] => false
  | x :: _ => !q.contains x

theorem headOff_iff {q m : Str} : headOff q m = true ↔ ∃ x m', m = x :: m' ∧ x ∉ q := by
  cases m with
  | nil => simp [headOff]
  | cons x m => simp [headOff]

theorem Marked.keeps {ms : List (Str × Str)} {s t : Str} (h : Marked ms s t) : ∀ (o : Str), '\\' ∉ o → Marked ms (o ++ s) (o ++ t)
  | [], _ => h
  | x :: o, ho => .keep x (by rintro rfl; exact ho (by simp)) (Marked.keeps h o (fun hm => ho (by simp [hm])))

/-- A text without backslashes and without the first characters of marks is found only where nothing is marked. -/
theorem Marked.begins {ms : List (Str × Str)} {s t : Str} (h : Marked ms s t) :
    ∀ (q : Str), '\\' ∉ q → (∀ m ∈ ms, headOff q m.1 = true) → q <+: s → q <+: t := by
  induction h with
  | nil => exact fun q _ _ h => h
  | last => exact fun q _ _ h => h
  | keep x hx _ ih =>
    intro q h1 h2 hq
    cases q with
    | nil => exact List.nil_prefix
    | cons y q =>
      rw [List.cons_prefix_cons] at hq ⊢
      refine ⟨hq.1, ih q (fun h => h1 (by simp [h])) (fun m hm => ?_) hq.2⟩
      obtain ⟨z, m', e, hz⟩ := headOff_iff.1 (h2 m hm)
      exact headOff_iff.2 ⟨z, m', e, fun h => hz (by simp [h])⟩
  | pair x hx _ ih =>
    intro q h1 h2 hq
    cases q with
    | nil => exact List.nil_prefix
    | cons y q =>
      rw [List.cons_prefix_cons] at hq
      exact absurd (by simp [hq.1]) h1
  | mark m o hm _ ih =>
    intro q h1 h2 hq
    cases q with
    | nil => exact List.nil_prefix
    | cons y q =>
      obtain ⟨z, m', e, hz⟩ := headOff_iff.1 (h2 _ hm)
      simp only at e
      rw [e, List.cons_append, List.cons_prefix_cons] at hq
      exact absurd (by simp [hq.1]) hz

/-- Neither text is a beginning of the other. -/
def clash : Str → Str → Bool
  | [], _ => false
  | _, [] => false
  | x :: p, y :: q => x != y || clash p q

theorem clash_prefix {p : Str} : ∀ {q : Str} (r : Str), clash p q = true → ¬ p <+: q ++ r := by
  induction p with
  | nil => intro q r h; simp [clash] at h
  | cons x p ih =>
    intro q r h hp
    cases q with
    | nil => simp [clash] at h
    | cons y q =>
      rw [List.cons_append, List.cons_prefix_cons] at hp
      simp only [clash, Bool.or_eq_true, bne_iff_ne] at h
      rcases h with h | h
      · exact h hp.1
      · exact ih r h hp.2

/-- `p` begins nowhere within `q`, whatever follows. -/
def apart (p : Str) : Str → Bool
  | [] => true
  | y :: q => clash p (y :: q) && apart p q

theorem apart_infix {p : Str} : ∀ {q r : Str}, apart p q = true → p <:+: q ++ r → p <:+: r
  | [], _, _, hi => hi
  | y :: q, r, h, hi => by
    simp only [apart, Bool.and_eq_true] at h
    rw [List.cons_append, List.infix_cons_iff] at hi
    rcases hi with hi | hi
    · exact absurd hi (clash_prefix (q := y :: q) r h.1)
    · exact apart_infix h.2 hi

theorem apart_replace {p : Str} (new : Str) : ∀ {q r : Str}, apart p q = true → replace p new (q ++ r) = q ++ replace p new r
  | [], _, _ => rfl
  | y :: q, r, h => by
    simp only [apart, Bool.and_eq_true] at h
    rw [List.cons_append, replace_cons new y (q ++ r) (clash_prefix (q := y :: q) r h.1), apart_replace new h.2, List.cons_append]

/-- A command found in the marked text is one of the unmarked text, unless the marks make it. -/
theorem Marked.infix_slash {ms : List (Str × Str)} {s t : Str} (h : Marked ms s t) (y : Char) (q : Str) (hq : '\\' ∉ q)
    (h1 : ∀ m ∈ ms, headOff q m.1 = true) (h2 : ∀ m ∈ ms, apart ('\\' :: y :: q) m.1 = true)
    (hi : '\\' :: y :: q <:+: s) : '\\' :: y :: q <:+: t := by
  induction h with
  | nil => exact hi
  | last => exact hi
  | keep x hx _ ih =>
    rw [List.infix_cons_iff] at hi ⊢
    rcases hi with hi | hi
    · rw [List.cons_prefix_cons] at hi
      exact absurd hi.1.symm hx
    · exact .inr (ih hi)
  | pair x hx h ih =>
    rw [List.infix_cons_iff, List.infix_cons_iff] at hi
    rcases hi with hi | hi | hi
    · rw [List.cons_prefix_cons, List.cons_prefix_cons] at hi
      have := h.begins q hq h1 hi.2.2
      rw [List.infix_cons_iff, List.cons_prefix_cons, List.cons_prefix_cons]
      exact .inl ⟨rfl, hi.2.1, this⟩
    · rw [List.cons_prefix_cons] at hi
      exact absurd hi.1.symm hx
    · rw [List.infix_cons_iff, List.infix_cons_iff]
      exact .inr (.inr (ih hi))
  | mark m o hm _ ih =>
    exact (ih (apart_infix (h2 _ hm) hi)).trans ⟨o, [], by simp⟩

/-- The same for a text that begins with something else than a backslash. -/
theorem Marked.infix_plain {ms : List (Str × Str)} {s t : Str} (h : Marked ms s t) (y : Char) (q : Str) (hq : '\\' ∉ y :: q)
    (h1 : ∀ m ∈ ms, headOff q m.1 = true) (h2 : ∀ m ∈ ms, apart (y :: q) m.1 = true)
    (hi : y :: q <:+: s) : y :: q <:+: t := by
  have hq' : '\\' ∉ q := fun h => hq (by simp [h])
  have hy : y ≠ '\\' := by rintro rfl; exact hq (by simp)
  induction h with
  | nil => exact hi
  | last => exact hi
  | keep x hx h ih =>
    rw [List.infix_cons_iff] at hi ⊢
    rcases hi with hi | hi
    · rw [List.cons_prefix_cons] at hi ⊢
      exact .inl ⟨hi.1, h.begins q hq' h1 hi.2⟩
    · exact .inr (ih hi)
  | pair x hx h ih =>
    rw [List.infix_cons_iff, List.infix_cons_iff] at hi ⊢
    rcases hi with hi | hi | hi
    · rw [List.cons_prefix_cons] at hi
      exact absurd hi.1 hy
    · rw [List.cons_prefix_cons] at hi
      rw [List.cons_prefix_cons (a := y) (b := x)]
      exact .inr (.inl ⟨hi.1, h.begins q hq' h1 hi.2⟩)
    · exact .inr (.inr (ih hi))
  | mark m o hm _ ih =>
    exact (ih (apart_infix (h2 _ hm) hi)).trans ⟨o, [], by simp⟩

/-- Two backslashes are never adjacent if every mark has only one, at its beginning, and something after it. -/
theorem Marked.slashes {ms : List (Str × Str)} {s t : Str} (h : Marked ms s t)
    (h1 : ∀ m ∈ ms, ∃ x m', m.1 = x :: m' ∧ '\\' ∉ m' ∧ (x = '\\' → m' ≠ [])) : ¬ s%"\\\\" <:+: s := by
  have aux : ∀ (m' s : Str), '\\' ∉ m' → s%"\\\\" <:+: m' ++ s → s%"\\\\" <:+: s := fun m' s hm hi => by
    induction m' with
    | nil => exact hi
    | cons y ys ih =>
      rw [List.cons_append, List.infix_cons_iff, List.cons_prefix_cons] at hi
      rcases hi with hi | hi
      · exact absurd (by rw [← hi.1]; simp) hm
      · exact ih (fun h => hm (by simp [h])) hi
  induction h with
  | nil => decide
  | last => decide
  | @keep x hx s _ _ ih => exact fun hi => ih (aux [x] s (by simpa using hx.symm) hi)
  | @pair x hx s _ _ ih =>
    intro hi
    rw [List.infix_cons_iff, List.cons_prefix_cons, List.cons_prefix_cons] at hi
    rcases hi with hi | hi
    · exact hx hi.2.1.symm
    · exact ih (aux [x] s (by simpa using hx.symm) hi)
  | @mark m o hm s _ _ ih =>
    intro hi
    obtain ⟨x, m', e, h2, h3⟩ := h1 _ hm
    simp only at e
    subst e
    rw [List.cons_append, List.infix_cons_iff] at hi
    rcases hi with hi | hi
    · rw [List.cons_prefix_cons] at hi
      cases m' with
      | nil => exact h3 hi.1.symm rfl
      | cons y m' =>
        rw [List.cons_append, List.cons_prefix_cons] at hi
        exact h2 (by rw [← hi.2.1]; simp)
    · exact ih (aux m' s h2 hi)

/-- Replacing one of the marks. -/
theorem Marked.elim {ms : List (Str × Str)} {s t : Str} (y : Char) (q o : Str) (h : Marked (('\\' :: y :: q, o) :: ms) s t)
    (hq : '\\' ∉ q) (ho : '\\' ∉ o)
    (h1 : ∀ m ∈ ms, headOff q m.1 = true) (h2 : ∀ m ∈ ms, apart ('\\' :: y :: q) m.1 = true)
    (ht : ¬ '\\' :: y :: q <:+: t) : Marked ms (replace ('\\' :: y :: q) o s) t := by
  generalize hms : ('\\' :: y :: q, o) :: ms = ms' at h
  have h1' : ∀ m ∈ ms', headOff q m.1 = true := by
    subst hms
    intro m hm
    rcases List.mem_cons.1 hm with rfl | hm
    · exact headOff_iff.2 ⟨'\\', y :: q, rfl, hq⟩
    · exact h1 m hm
  induction h with
  | nil => rw [replace_nil _ (by simp)]; exact .nil
  | last =>
    rw [replace_cons _ _ _ (by simp [List.cons_prefix_cons]), replace_nil _ (by simp)]
    exact .last
  | keep x hx h ih =>
    rw [replace_cons _ _ _ (by rw [List.cons_prefix_cons]; exact fun h => hx h.1.symm)]
    exact .keep x hx (ih (fun h => ht (h.trans ⟨[x], [], by simp⟩)))
  | @pair x hx s t h ih =>
    rw [replace_cons _ _ _, replace_cons _ _ _ (by rw [List.cons_prefix_cons]; exact fun h => hx h.1.symm)]
    · exact .pair x hx (ih (fun h => ht (h.trans ⟨['\\', x], [], by simp⟩)))
    · intro hp
      rw [List.cons_prefix_cons, List.cons_prefix_cons] at hp
      apply ht
      rw [List.infix_cons_iff, List.cons_prefix_cons, List.cons_prefix_cons]
      exact .inl ⟨rfl, hp.2.1, h.begins q hq h1' hp.2.2⟩
  | @mark m o' hm s t h ih =>
    have ih' := ih (fun h => ht (h.trans ⟨o', [], by simp⟩))
    subst hms
    rcases List.mem_cons.1 hm with e | hm
    · simp only [Prod.mk.injEq] at e
      obtain ⟨rfl, rfl⟩ := e
      rw [replace_match _ _ _ (by simp)]
      exact ih'.keeps _ ho
    · rw [apart_replace _ (h2 _ hm)]
      exact .mark m o' hm ih'

theorem Marked.nil_eq {s t : Str} (h : Marked [] s t) : s = t := by
  induction h with
  | nil => rfl
  | last => rfl
  | keep x _ _ ih => rw [ih]
  | pair x _ _ ih => rw [ih]
  | mark m o hm => simp at hm


theorem Marked.chars {ms : List (Str × Str)} {s t : Str} (h : Marked ms s t) {x : Char} (hx : x ∈ s) : x ∈ t ∨ ∃ m ∈ ms, x ∈ m.1 := by
  induction h with
  | nil => exact .inl hx
  | last => exact .inl hx
  | keep y _ _ ih =>
    rcases List.mem_cons.1 hx with rfl | hx
    · exact .inl (by simp)
    · exact (ih hx).imp_left (fun h => by simp [h])
  | pair y _ _ ih =>
    simp only [List.mem_cons] at hx
    rcases hx with rfl | rfl | hx
    · exact .inl (by simp)
    · exact .inl (by simp)
    · exact (ih hx).imp_left (fun h => by simp [h])
  | mark m o hm _ ih =>
    rcases List.mem_append.1 hx with hx | hx
    · exact .inr ⟨_, hm, hx⟩
    · exact (ih hx).imp_left (fun h => by simp [h])

/-- Marks that neither begin nor end with a blank. -/
def NoBlankEnds (ms : List (Str × Str)) : Prop := ∀ m ∈ ms, m.1 ≠ [] ∧ m.1.head? ≠ some ' ' ∧ m.1.getLast? ≠ some ' '

theorem Marked.head {ms : List (Str × Str)} (hms : NoBlankEnds ms) {s t : Str} (h : Marked ms s t) (ht : t.head? ≠ some ' ') : s.head? ≠ some ' ' := by
  cases h with
  | nil => exact ht
  | last => exact ht
  | keep y _ _ => exact ht
  | pair y _ _ => simp
  | mark m o hm _ =>
    obtain ⟨h1, h2, -⟩ := hms _ hm
    obtain ⟨x, m', e⟩ := List.exists_cons_of_ne_nil h1
    simp only at e h2
    subst e
    simpa using h2

theorem Marked.empty {ms : List (Str × Str)} (hms : NoBlankEnds ms) {s t : Str} (h : Marked ms s t) (hs : s = []) : t = [] := by
  cases h with
  | nil => rfl
  | last => cases hs
  | keep y _ _ => cases hs
  | pair y _ _ => cases hs
  | mark m o hm _ => exact absurd (List.append_eq_nil_iff.1 hs).1 (hms _ hm).1

theorem Marked.getLast {ms : List (Str × Str)} (hms : NoBlankEnds ms) {s t : Str} (h : Marked ms s t) (hs : s.getLast? = some ' ') : t.getLast? = some ' ' := by
  induction h with
  | nil => exact hs
  | last => exact hs
  | @keep y _ s t h ih =>
    by_cases e : s = []
    · rw [h.empty hms e]; rw [e] at hs; exact hs
    · have h1 : t.getLast? = some ' ' := ih (by rw [List.getLast?_cons, List.getLast?_eq_some_getLast e] at hs; rw [List.getLast?_eq_some_getLast e]; simpa using hs)
      rw [List.getLast?_cons, h1]; rfl
  | @pair y hy s t h ih =>
    by_cases e : s = []
    · rw [h.empty hms e]; rw [e] at hs; exact hs
    · have h1 : t.getLast? = some ' ' := ih (by
        rw [List.getLast?_cons, List.getLast?_cons, List.getLast?_eq_some_getLast e] at hs; rw [List.getLast?_eq_some_getLast e]; simpa using hs)
      rw [List.getLast?_cons, List.getLast?_cons, h1]; rfl
  | @mark m o hm s t h ih =>
    by_cases e : s = []
    · rw [e, List.append_nil] at hs
      exact absurd hs (hms _ hm).2.2
    · rw [List.getLast?_append_of_ne_nil _ e] at hs
      have := ih hs
      have e' : t ≠ [] := by rintro rfl; cases this
      rw [List.getLast?_append_of_ne_nil _ e']; exact this

theorem Marked.stripBlank {ms : List (Str × Str)} (hms : NoBlankEnds ms) {s t : Str} (h : Marked ms s t) (h1 : t.head? ≠ some ' ')
    (h2 : t.getLast? ≠ some ' ') : Verif.stripBlank s = s :=
  stripBlank_id (h.head hms h1) (fun h' => h2 (h.getLast hms h'))

/-- Dropping the dollar signs. -/
theorem Marked.dollars {s t : Str} (h : Marked [(s%"$", [])] s t) (ht : '$' ∉ t) : s.filter (· ≠ '$') = t := by
  induction h with
  | nil => rfl
  | last => rfl
  | @keep x _ s t _ ih =>
    rw [List.filter_cons_of_pos (by simpa using fun h => ht (by simp [h])), ih (fun h => ht (by simp [h]))]
  | @pair x _ s t _ ih =>
    rw [List.filter_cons_of_pos (by decide), List.filter_cons_of_pos (by simpa using fun h => ht (by simp [h])), ih (fun h => ht (by simp [h]))]
  | @mark m o hm s t _ ih =>
    simp only [List.mem_singleton, Prod.mk.injEq] at hm
    obtain ⟨rfl, rfl⟩ := hm
    rw [List.cons_append, List.filter_cons_of_neg (by decide)]
    exact ih ht

/-! ### C27: dollar signs and spacing commands -/

theorem spaced_removeSpacing {s t : Str} (h : Marked spacingMarks s t) (ht : Calm t) :
    Marked [(s%"$", [])] (removeSpacing s) t := by
  have w : ∀ p ∈ special, ¬ p <:+: t := ht.words
  have h1 := Marked.elim ':' [] [] h (by decide) (by decide) (by decide) (by decide) (w _ (by simp [special]))
  have h2 := Marked.elim ',' [] [] h1 (by decide) (by decide) (by decide) (by decide) (w _ (by simp [special]))
  have h3 := Marked.elim ';' [] [] h2 (by decide) (by decide) (by decide) (by decide) (w _ (by simp [special]))
  have h4 := Marked.elim '!' [] [] h3 (by decide) (by decide) (by decide) (by decide) (w _ (by simp [special]))
  unfold removeSpacing
  simp only [reSubConst_lit]
  rw [replace_id s%"{,}" _ _ (fun hi => w s%"{,}" (by simp [special]) (h4.infix_plain '{' s%",}" (by decide) (by decide) (by decide) hi))]
  exact h4

/-- The characters of a calm text with marks. -/
theorem Marked.absent {ms : List (Str × Str)} {s t : Str} (h : Marked ms s t) (ht : ∀ c ∈ t, mathChar c = true) {x : Char}
    (hx : mathChar x = false) (hm : ∀ m ∈ ms, x ∉ m.1) : x ∉ s := by
  intro hs
  rcases h.chars hs with h' | ⟨m, h1, h2⟩
  · exact math_no ht hx h'
  · exact hm m h1 h2

theorem spaced_normBody (E : Env X V S) (rec : Str → M X Norm) {s t : Str} (h : Marked spacingMarks s t) (ht : Calm t)
    (hh : t.head? ≠ some ' ') (hl : t.getLast? ≠ some ' ') : normBody E rec s = (do let a ← further E t; pure (.str a)) := by
  have hu := spaced_removeSpacing h ht
  generalize hru : removeSpacing s = u at hu
  have hd : removeDollar u = t := by
    unfold removeDollar
    rw [replace_id s%"\\$" _ _ (fun hi => math_absent ht.chars (x := '$') (by simp) rfl
      (hu.infix_slash '$' [] (by decide) (by decide) (by decide) hi)), replace_one_nil]
    exact hu.dollars (math_no ht.chars rfl)
  have hmid : middle u = t := by
    have h1 := calm_middle ht
    unfold middle at h1 ⊢
    rw [removeDollar_id (math_no ht.chars rfl)] at h1
    rw [hd, h1]
  have hmat : matrixNormalize (stripBlank s) = s := by
    rw [h.stripBlank (by unfold NoBlankEnds; decide) hh hl]
    apply matrixNormalize_id
    · exact not_infix_of_not_mem 'e' (by simp) (h.absent ht.chars rfl (by decide))
    · exact fun hi => ht.words s%"{array}" (by simp [special]) (h.infix_plain '{' s%"array}" (by decide) (by decide) (by decide) hi)
    · apply h.slashes
      intro m hm
      have : ∀ m ∈ spacingMarks, ∃ x m', m.1 = x :: m' ∧ '\\' ∉ m' ∧ (x = '\\' → m' ≠ []) := by
        unfold spacingMarks; simp
      exact this m hm
  rw [normBody_nowrap E rec hmat (not_infix_of_not_mem 'e' (by simp) (h.absent ht.chars rfl (by decide)))
    (not_infix_of_not_mem 'm' (by simp) (h.absent ht.chars rfl (by decide))) (h.absent ht.chars rfl (by decide))]
  rw [normTail_str E hru (hu.absent ht.chars rfl (by decide)) (hu.absent ht.chars rfl (by decide)) (t' := t) (by rw [hmid]; exact math_time ht.chars),
    math_unitsStep ht.chars (ht.words _ (by simp [special])), degrees_none E (ht.words _ (by simp [special]))]

/-- C27, second part: dollar signs and spacing commands anywhere in an answer (but not in the middle of a command) do
not change the normal form. -/
theorem C27_spacing (E : Env X V S) (hE : StrTotal E) (n : Nat) {s t : Str} (h : Marked spacingMarks s t) (ht : Calm t)
    (hh : t.head? ≠ some ' ') (hl : t.getLast? ≠ some ' ') : stringNormalize E (n + 1) s = stringNormalize E (n + 1) t := by
  apply same_normal E hE (spaced_normBody E _ h ht hh hl)
  rw [calm_normBody E _ ht, stripBlank_id hh hl]

/-! ### C29: sized brackets -/

theorem bracket_leftRight {s t : Str} (h : Marked bracketMarks s t) (ht : ∀ c ∈ t, mathChar c = true) : leftRight s = t := by
  have w1 : ∀ p : Str, 'e' ∈ p → ¬ p <:+: t := fun p hp => math_absent ht hp rfl
  have w2 : ∀ p : Str, 'g' ∈ p → ¬ p <:+: t := fun p hp => math_absent ht hp rfl
  have h1 := Marked.elim 'l' s%"eft(" s%"(" h (by decide) (by decide) (by decide) (by decide) (w1 _ (by simp))
  have h2 := Marked.elim 'l' s%"eft[" s%"[" h1 (by decide) (by decide) (by decide) (by decide) (w1 _ (by simp))
  have h3 := Marked.elim 'r' s%"ight)" s%")" h2 (by decide) (by decide) (by decide) (by decide) (w2 _ (by simp))
  have h4 := Marked.elim 'r' s%"ight]" s%"]" h3 (by decide) (by decide) (by decide) (by decide) (w2 _ (by simp))
  unfold leftRight
  simp only [reSubConst_lit]
  exact h4.nil_eq

theorem bracket_normBody (E : Env X V S) (rec : Str → M X Norm) {s t : Str} (h : Marked bracketMarks s t) (ht : Calm t)
    (hh : t.head? ≠ some ' ') (hl : t.getLast? ≠ some ' ') : normBody E rec s = (do let a ← further E t; pure (.str a)) := by
  have no : ∀ x, mathChar x = false → (∀ m ∈ bracketMarks, x ∉ m.1) → x ∉ s := fun x h1 h2 => h.absent ht.chars h1 h2
  have sl : ∀ y, ['\\', y] ∈ special → (∀ m ∈ bracketMarks, apart ['\\', y] m.1 = true) → ¬ ['\\', y] <:+: s := fun y h1 h2 hi =>
    ht.words _ h1 (h.infix_slash y [] (by simp) (by decide) h2 hi)
  have hmat : matrixNormalize (stripBlank s) = s := by
    rw [h.stripBlank (by unfold NoBlankEnds; decide) hh hl]
    apply matrixNormalize_id
    · exact fun hi => math_absent ht.chars (x := 'e') (by simp) rfl (h.infix_plain '{' s%"cases}" (by decide) (by decide) (by decide) hi)
    · exact fun hi => ht.words s%"{array}" (by simp [special]) (h.infix_plain '{' s%"array}" (by decide) (by decide) (by decide) hi)
    · apply h.slashes
      have : ∀ m ∈ bracketMarks, ∃ x m', m.1 = x :: m' ∧ '\\' ∉ m' ∧ (x = '\\' → m' ≠ []) := by
        unfold bracketMarks; simp
      exact this
  have hsp : removeSpacing s = s := by
    apply removeSpacing_id
    · exact sl ':' (by decide) (by decide)
    · exact sl ',' (by decide) (by decide)
    · exact sl ';' (by decide) (by decide)
    · exact sl '!' (by decide) (by decide)
    · exact fun hi => ht.words s%"{,}" (by simp [special]) (h.infix_plain '{' s%",}" (by decide) (by decide) (by decide) hi)
  have hctl : noControl s := by
    intro c hc hm
    rcases h.chars hc with h' | ⟨m, h1, h2⟩
    · exact math_noControl ht.chars c h' hm
    · have : ∀ m ∈ bracketMarks, ∀ c ∈ m.1, c.toNat ∉ ([7, 8, 9, 12, 13] : List Nat) := by decide
      exact this m h1 c h2 hm
  have hmid : middle s = t := by
    unfold middle
    rw [removeDollar_id (no _ rfl (by decide)), andOrStep_id (not_infix_of_not_mem 'n' (by simp) (no _ rfl (by decide)))
      (not_infix_of_not_mem 'o' (by simp) (no _ rfl (by decide))), wordsAndControls_id (not_infix_of_not_mem 'o' (by simp) (no _ rfl (by decide))) hctl,
      bracket_leftRight h ht.chars, math_member ht.chars]
  rw [normBody_nowrap E rec hmat (fun hi => math_absent ht.chars (x := 'e') (by simp) rfl (h.infix_plain 't' s%"ext" (by decide) (by decide) (by decide) hi))
    (not_infix_of_not_mem 'm' (by simp) (no _ rfl (by decide))) (no _ rfl (by decide))]
  exact normTail_calm E hsp (no _ rfl (by decide)) (no _ rfl (by decide)) hmid ht.chars (ht.words _ (by simp [special])) (ht.words _ (by simp [special]))

/-- C29: an answer written with sized brackets has the normal form of the one written with plain brackets. -/
theorem C29_brackets (E : Env X V S) (hE : StrTotal E) (n : Nat) {s t : Str} (h : Marked bracketMarks s t) (ht : Calm t)
    (hh : t.head? ≠ some ' ') (hl : t.getLast? ≠ some ' ') : stringNormalize E (n + 1) s = stringNormalize E (n + 1) t := by
  apply same_normal E hE (bracket_normBody E _ h ht hh hl)
  rw [calm_normBody E _ ht, stripBlank_id hh hl]

end Verif
