import Verif.Props.LastStage
/-
Property C25: clock times.
-/

namespace Verif
open Re

variable {X V S : Type}

/-! ### Specification -/

/-- Spellings of a.m. and p.m.: letters of either case, with or without dots.  The flag says whether it means p.m.
(The code's pattern also accepts "p.m" without the last dot but then ignores it, see `C25_missing_dot`.) -/
inductive MeridiemWord : Bool → Str → Prop
  | am {a m : Char} {x y : Str} : a ∈ s%"aA" → (x = [] ∨ x = s%".") → m ∈ s%"mM" → (y = [] ∨ y = s%".") →
      MeridiemWord false (a :: (x ++ m :: y))
  | pm {p m : Char} {y : Str} : p ∈ s%"pP" → m ∈ s%"mM" → (y = [] ∨ y = s%".") → MeridiemWord true (p :: m :: y)
  | pdm {p m : Char} : p ∈ s%"pP" → m ∈ s%"mM" → MeridiemWord true [p, '.', m, '.']

/-- A spelling of a.m. or p.m., bare or as `\text{ ... }` with any number of blanks. -/
inductive MeridiemText : Bool → Str → Prop
  | bare {b : Bool} {w : Str} : MeridiemWord b w → MeridiemText b w
  | text {b : Bool} {w : Str} (i j : Nat) : MeridiemWord b w →
      MeridiemText b (s%"\\text{" ++ (List.replicate i ' ' ++ (w ++ (List.replicate j ' ' ++ s%"}"))))

/-- What may follow the time: nothing, or blanks and a meridiem. -/
inductive ClockSuffix : Bool → Str → Prop
  | none : ClockSuffix false []
  | some {b : Bool} {w : Str} (k : Nat) : MeridiemText b w → ClockSuffix b (List.replicate k ' ' ++ w)

/-- The list spelling of a time, without the parts that are zero. -/
def clockText (sep : Str) (h m s : Nat) : Str :=
  if s ≠ 0 then s%"[" ++ natStr h ++ s%"," ++ sep ++ natStr m ++ s%"," ++ sep ++ natStr s ++ s%"]"
  else if m ≠ 0 then s%"[" ++ natStr h ++ s%"," ++ sep ++ natStr m ++ s%"]"
  else natStr h

/-! ### The pattern -/

theorem first_d12 {U : Uni} {hs cs : Str} (pre : Str) (caps : List (Nat × Str)) (hd : ∀ x ∈ hs, isDigit U x = true)
    (hl : hs.length = 1 ∨ hs.length = 2) (hc : ∀ x, cs.head? = some x → isDigit U x = false) :
    (d12 U).First ⟨pre, hs ++ cs, caps⟩ ⟨hs.reverse ++ pre, cs, caps⟩ := by
  rcases hl with hl | hl
  · obtain ⟨a, rfl⟩ := List.length_eq_one_iff.1 hl
    refine First.seq (First.chr (hd a (by simp))) (First.alt_r (run_chr_empty hc) (First.eps _))
  · obtain ⟨a, b, rfl⟩ := List.length_eq_two.1 hl
    exact First.seq (First.chr (hd a (by simp))) (First.alt_l (First.chr (hd b (by simp))))

theorem first_dd {U : Uni} {ms cs : Str} (pre : Str) (caps : List (Nat × Str)) (hd : ∀ x ∈ ms, isDigit U x = true)
    (hl : ms.length = 2) : (Re.seq (d U) (d U)).First ⟨pre, ms ++ cs, caps⟩ ⟨ms.reverse ++ pre, cs, caps⟩ := by
  obtain ⟨a, b, rfl⟩ := List.length_eq_two.1 hl
  exact First.seq (First.chr (hd a (by simp))) (First.chr (hd b (by simp)))

theorem first_optDot {y cs : Str} (pre : Str) (caps : List (Nat × Str)) (hy : y = [] ∨ y = s%".")
    (hc : ∀ x, cs.head? = some x → x ≠ '.') : (opt (c '.')).First ⟨pre, y ++ cs, caps⟩ ⟨y.reverse ++ pre, cs, caps⟩ := by
  rcases hy with rfl | rfl
  · exact First.opt_none (run_chr_empty fun x hx => by simpa using hc x hx)
  · exact First.opt_some (First.c '.' _ _ _)

theorem first_word {b : Bool} {w cs : Str} (pre : Str) (caps : List (Nat × Str)) (hw : MeridiemWord b w)
    (hc : ∀ x, cs.head? = some x → x ≠ '.') : meridiemRe.First ⟨pre, w ++ cs, caps⟩ ⟨w.reverse ++ pre, cs, caps⟩ := by
  have hm : ∀ m ∈ s%"mM", (asciiToLower m == 'm') = true := by decide
  have hp : ∀ m ∈ s%"aApP", (asciiToLower m == 'a' || asciiToLower m == 'p') = true := by decide
  have hmd : ∀ m ∈ s%"mM", m ≠ '.' := by decide
  have key : ∀ (a m : Char) (x y : Str), a ∈ s%"aApP" → (x = [] ∨ x = s%".") → m ∈ s%"mM" → (y = [] ∨ y = s%".") →
      meridiemRe.First ⟨pre, a :: (x ++ m :: (y ++ cs)), caps⟩ ⟨y.reverse ++ m :: (x.reverse ++ a :: pre), cs, caps⟩ := by
    intro a m x y ha hx hm' hy
    refine First.cat_cons (First.chr (hp a ha)) ?_
    refine First.cat_cons (first_optDot _ _ hx (by rintro _ ⟨⟩; exact hmd m hm')) ?_
    exact First.cat_cons (First.chr (hm m hm')) (First.cat_one (first_optDot _ _ hy hc))
  cases hw with
  | @am a m x y ha hx hm' hy =>
    have := key a m x y (by revert ha; revert a; decide) hx hm' hy
    simpa using this
  | @pm p m y hp' hm' hy =>
    have := key p m [] y (by revert hp'; revert p; decide) (.inl rfl) hm' hy
    simpa using this
  | @pdm p m hp' hm' =>
    have := key p m s%"." s%"." (by revert hp'; revert p; decide) (.inr rfl) hm' (.inr rfl)
    simpa using this

theorem word_head {b : Bool} {w : Str} (hw : MeridiemWord b w) : ∃ x xs, w = x :: xs ∧ x ∈ s%"aApP" := by
  have h1 : ∀ x ∈ s%"aA", x ∈ s%"aApP" := by decide
  have h2 : ∀ x ∈ s%"pP", x ∈ s%"aApP" := by decide
  cases hw with
  | am ha => exact ⟨_, _, rfl, h1 _ ha⟩
  | pm hp => exact ⟨_, _, rfl, h2 _ hp⟩
  | pdm hp => exact ⟨_, _, rfl, h2 _ hp⟩

/-- Characters of a meridiem text. -/
theorem word_chars {b : Bool} {w : Str} (hw : MeridiemWord b w) : ∀ c ∈ w, c ∈ s%".apmAPM" := by
  have h1 : ∀ x ∈ s%"aA", x ∈ s%".apmAPM" := by decide
  have h2 : ∀ x ∈ s%"pP", x ∈ s%".apmAPM" := by decide
  have h3 : ∀ x ∈ s%"mM", x ∈ s%".apmAPM" := by decide
  have h4 : ∀ x : Str, (x = [] ∨ x = s%".") → ∀ c ∈ x, c ∈ s%".apmAPM" := by
    rintro x (rfl | rfl) c hc
    · cases hc
    · rw [List.mem_singleton.1 hc]; decide
  intro c hc
  cases hw with
  | am ha hx hm hy =>
    rw [List.mem_cons, List.mem_append, List.mem_cons] at hc
    rcases hc with rfl | hc | rfl | hc
    · exact h1 _ ha
    · exact h4 _ hx _ hc
    · exact h3 _ hm
    · exact h4 _ hy _ hc
  | pm hp hm hy =>
    rw [List.mem_cons, List.mem_cons] at hc
    rcases hc with rfl | rfl | hc
    · exact h2 _ hp
    · exact h3 _ hm
    · exact h4 _ hy _ hc
  | pdm hp hm =>
    simp only [List.mem_cons, List.not_mem_nil, or_false] at hc
    rcases hc with rfl | rfl | rfl | rfl
    · exact h2 _ hp
    · decide
    · exact h3 _ hm
    · decide

theorem blank_space {k : Nat} : ∀ x ∈ List.replicate k ' ', isSpace x = true := by
  intro x hx; rw [List.eq_of_mem_replicate hx]; decide

theorem first_meridiem {b : Bool} {w : Str} (pre : Str) (caps : List (Nat × Str)) (hw : MeridiemText b w) :
    meridiemAlt.First ⟨pre, w, caps⟩ ⟨w.reverse ++ pre, [], caps⟩ := by
  cases hw with
  | bare hw =>
    obtain ⟨x, xs, rfl, hx⟩ := word_head hw
    have hx' : ∀ x ∈ s%"aApP", (x == '\\') = false := by decide
    refine First.alt_r (run_cat_nil (run_chr_empty (by rintro _ ⟨⟩; exact hx' _ hx))) ?_
    have := first_word (cs := []) pre caps hw (by simp)
    rwa [List.append_nil] at this
  | @text w i j hw =>
    obtain ⟨x, xs, rfl, hx⟩ := word_head hw
    have hx' : ∀ x ∈ s%"aApP", isSpace x = false := by decide
    have := First.alt_l (b := meridiemRe) (First.cat_cons (First.c '\\' pre _ caps) (First.cat_cons (a := ci 't') (First.chr (x := 't') rfl)
      (First.cat_cons (a := ci 'e') (First.chr (x := 'e') rfl) (First.cat_cons (a := ci 'x') (First.chr (x := 'x') rfl)
      (First.cat_cons (a := ci 't') (First.chr (x := 't') rfl) (First.cat_cons (First.c '{' _ _ _)
      (First.cat_cons (First.many (List.replicate i ' ') (x :: xs ++ (List.replicate j ' ' ++ s%"}")) _ _ blank_space (by rintro _ ⟨⟩; exact hx' _ hx))
      (First.cat_cons (first_word _ _ hw (by
        intro y hy
        cases j with
        | zero => simp at hy; subst hy; decide
        | succ j => simp [List.replicate_succ] at hy; subst hy; decide))
      (First.cat_cons (First.many (List.replicate j ' ') s%"}" _ _ blank_space (by rintro _ ⟨⟩; decide))
      (First.cat_one (First.c '}' _ [] _)))))))))))
    simpa [meridiemAlt, ws] using this

/-- The optional seconds. -/
def secText : Option Str → Str
  | none => []
  | some ss => ':' :: ss

def secCaps : Option Str → List (Nat × Str)
  | none => []
  | some ss => [(3, ss)]

theorem suffix_head {b : Bool} {sfx : Str} (h : ClockSuffix b sfx) : ∀ x, sfx.head? = some x → x ∈ s%" aApP\\" := by
  have hx' : ∀ x ∈ s%"aApP", x ∈ s%" aApP\\" := by decide
  intro x hx
  cases h with
  | none => cases hx
  | @some _ w k hw =>
    cases k with
    | succ k => simp [List.replicate_succ] at hx; subst hx; decide
    | zero =>
      simp only [List.replicate_zero, List.nil_append] at hx
      cases hw with
      | bare hw =>
        obtain ⟨y, ys, rfl, hy⟩ := word_head hw
        simp at hx; subst hx; exact hx' _ hy
      | text => simp at hx; subst hx; decide

theorem first_time {U : Uni} {hs ms sfx : Str} {ss : Option Str} {b : Bool} (hh : ∀ x ∈ hs, isDigit U x = true)
    (hhl : hs.length = 1 ∨ hs.length = 2) (hm : ∀ x ∈ ms, isDigit U x = true) (hml : ms.length = 2)
    (hs' : ∀ s, ss = some s → s.length = 2 ∧ ∀ x ∈ s, isDigit U x = true) (hsfx : ClockSuffix b sfx) :
    ∃ t, reSearch (timeRe2 U) (hs ++ ':' :: (ms ++ (secText ss ++ sfx))) = some t ∧ t.groupD 1 = hs ∧ t.groupD 2 = ms ∧
      t.group 3 = ss ∧ (match t.group 4 with | some m => MeridiemText b m | none => b = false) := by
  have hd := suffix_head hsfx
  have hsec : ∀ pre caps, ∃ pre', (opt (.seq (c ':') (grp 3 (.seq (d U) (d U))))).First ⟨pre, secText ss ++ sfx, caps⟩
      ⟨pre', sfx, secCaps ss ++ caps⟩ := by
    intro pre caps
    cases ss with
    | none =>
      refine ⟨pre, First.opt_none (run_seq_nil (run_chr_empty ?_))⟩
      intro x hx
      have h1 : ∀ x ∈ s%" aApP\\", (x == ':') = false := by decide
      exact h1 x (hd x hx)
    | some s =>
      obtain ⟨hl, hdg⟩ := hs' s rfl
      exact ⟨_, First.opt_some (First.seq (First.c ':' _ _ _) (First.grp (first_dd _ _ hdg hl)))⟩
  have hopt : ∀ pre caps, ∃ pre' u, (match u with | some m => MeridiemText b m | none => b = false) ∧
      (cat [many ws, opt (grp 4 meridiemAlt), eos]).First ⟨pre, sfx, caps⟩
        ⟨pre', [], (match u with | some m => [(4, m)] | none => []) ++ caps⟩ := by
    intro pre caps
    cases hsfx with
    | none =>
      refine ⟨pre, none, rfl, First.cat_cons (First.many [] [] pre caps (by simp) (by simp)) ?_⟩
      refine First.cat_cons (First.opt_none ?_) (First.cat_one (First.eos _ _))
      rfl
    | @some _ w k hw =>
      refine ⟨w.reverse ++ ((List.replicate k ' ').reverse ++ pre), some w, hw,
        First.cat_cons (First.many (List.replicate k ' ') w pre caps blank_space ?_) ?_⟩
      · intro x hx
        cases hw with
        | bare hw =>
          obtain ⟨y, ys, rfl, hy⟩ := word_head hw
          have hx' : ∀ x ∈ s%"aApP", isSpace x = false := by decide
          simp at hx; subst hx; exact hx' _ hy
        | text => simp at hx; subst hx; decide
      · have := first_meridiem ((List.replicate k ' ').reverse ++ pre) caps hw
        have h2 := First.grp (n := 4) (u := w) (cs := []) (by rw [List.append_nil]; exact this)
        rw [List.append_nil] at h2
        exact First.cat_cons (First.opt_some h2) (First.cat_one (First.eos _ _))
  obtain ⟨pre1, h1⟩ := hsec (ms.reverse ++ ':' :: (hs.reverse ++ [])) [(2, ms), (1, hs)]
  obtain ⟨pre2, u, hu, h2⟩ := hopt pre1 (secCaps ss ++ [(2, ms), (1, hs)])
  have h : (timeRe2 U).First ⟨[], hs ++ ':' :: (ms ++ (secText ss ++ sfx)), []⟩ _ :=
    First.cat_cons (First.bos _ _) (First.cat_cons (First.grp (first_d12 [] [] hh hhl (by rintro _ ⟨⟩; rfl)))
      (First.cat_cons (First.c ':' _ _ _) (First.cat_cons (First.grp (first_dd _ _ hm hml)) (First.cat_cons h1 h2))))
  refine ⟨_, First.search h, ?_, ?_, ?_, ?_⟩
  · cases u <;> cases ss <;> rfl
  · cases u <;> cases ss <;> rfl
  · cases u <;> cases ss <;> rfl
  · have : RSt.group ⟨pre2, [], (match u with | some m => [(4, m)] | none => []) ++ (secCaps ss ++ [(2, ms), (1, hs)])⟩ 4 = u := by
      cases u <;> cases ss <;> rfl
    rw [this]; exact hu

theorem lower_ascii (U : Uni) (pre s : Str) (h : ∀ c ∈ s, c.toNat < 128) : lowerGo U pre s = s.map asciiToLower := by
  induction s generalizing pre with
  | nil => rfl
  | cons c cs ih =>
    simp only [lowerGo, h c (by simp), if_true, List.map_cons]
    rw [ih _ (fun d hd => h d (by simp [hd]))]
    rfl

theorem text_chars {b : Bool} {w : Str} (hw : MeridiemText b w) : ∀ c ∈ w, c ∈ s%".apmAPM \\tex{}" := by
  have hsub : ∀ c ∈ s%".apmAPM", c ∈ s%".apmAPM \\tex{}" := by decide
  intro c hc
  cases hw with
  | bare hw => exact hsub _ (word_chars hw c hc)
  | text i j hw =>
    simp only [List.mem_append] at hc
    rcases hc with hc | hc | hc | hc | hc
    · have : ∀ c ∈ s%"\\text{", c ∈ s%".apmAPM \\tex{}" := by decide
      exact this c hc
    · rw [List.eq_of_mem_replicate hc]; decide
    · exact hsub _ (word_chars hw c hc)
    · rw [List.eq_of_mem_replicate hc]; decide
    · have : ∀ c ∈ s%"}", c ∈ s%".apmAPM \\tex{}" := by decide
      exact this c hc

theorem isPm_text (U : Uni) {b : Bool} {w : Str} (hw : MeridiemText b w) : isPm U w = b := by
  have hascii : ∀ c ∈ w, c.toNat < 128 := by
    have : ∀ c ∈ s%".apmAPM \\tex{}", c.toNat < 128 := by decide
    exact fun c hc => this c (text_chars hw c hc)
  unfold isPm lower
  rw [lower_ascii U [] w hascii]
  have hword : ∃ w', MeridiemWord b w' ∧ w' <:+: w ∧ (b = false → ∀ c ∈ w, asciiToLower c ≠ 'p') := by
    have hw0 : ∀ w', MeridiemWord false w' → ∀ c ∈ w', asciiToLower c ≠ 'p' := by
      intro w' hw' c hc
      have h1 : ∀ x ∈ s%"aA", asciiToLower x ≠ 'p' := by decide
      have h3 : ∀ x ∈ s%"mM", asciiToLower x ≠ 'p' := by decide
      have h4 : ∀ x : Str, (x = [] ∨ x = s%".") → ∀ c ∈ x, asciiToLower c ≠ 'p' := by
        rintro x (rfl | rfl) c hc
        · cases hc
        · rw [List.mem_singleton.1 hc]; decide
      cases hw' with
      | am ha hx hm hy =>
        rw [List.mem_cons, List.mem_append, List.mem_cons] at hc
        rcases hc with rfl | hc | rfl | hc
        · exact h1 _ ha
        · exact h4 _ hx _ hc
        · exact h3 _ hm
        · exact h4 _ hy _ hc
    cases hw with
    | bare hw => exact ⟨w, hw, List.infix_rfl, fun hb => by subst hb; exact hw0 w hw⟩
    | @text w' i j hw =>
      refine ⟨w', hw, ⟨s%"\\text{" ++ List.replicate i ' ', List.replicate j ' ' ++ s%"}", by simp⟩, ?_⟩
      rintro rfl c hc
      simp only [List.mem_append] at hc
      rcases hc with hc | hc | hc | hc | hc
      · have : ∀ c ∈ s%"\\text{", asciiToLower c ≠ 'p' := by decide
        exact this c hc
      · rw [List.eq_of_mem_replicate hc]; decide
      · exact hw0 w' hw c hc
      · rw [List.eq_of_mem_replicate hc]; decide
      · have : ∀ c ∈ s%"}", asciiToLower c ≠ 'p' := by decide
        exact this c hc
  obtain ⟨w', hw', hi, hp⟩ := hword
  cases b with
  | false =>
    have hn : 'p' ∉ w.map asciiToLower := by
      intro hm
      obtain ⟨c, hc, hc'⟩ := List.mem_map.1 hm
      exact hp rfl c hc hc'
    rw [(contains_eq_false _ _).2 (not_infix_of_not_mem 'p' (by simp) hn),
      (contains_eq_false _ _).2 (not_infix_of_not_mem 'p' (by simp) hn)]
    rfl
  | true =>
    have hP : ∀ x ∈ s%"pP", asciiToLower x = 'p' := by decide
    have hM : ∀ x ∈ s%"mM", asciiToLower x = 'm' := by decide
    have hi' : w'.map asciiToLower <:+: w.map asciiToLower := by
      obtain ⟨a, b, rfl⟩ := hi
      exact ⟨a.map asciiToLower, b.map asciiToLower, by simp⟩
    rw [Bool.or_eq_true, contains_iff, contains_iff]
    cases hw' with
    | pm h1 h2 h3 =>
      right
      refine List.IsInfix.trans ?_ hi'
      rw [List.map_cons, List.map_cons, hP _ h1, hM _ h2]
      exact ⟨[], _, rfl⟩
    | pdm h1 h2 =>
      left
      refine List.IsInfix.trans ?_ hi'
      simp only [List.map_cons, List.map_nil, hP _ h1, hM _ h2]
      exact ⟨[], [], rfl⟩

/-! ### The whole text -/

theorem suffix_chars {b : Bool} {sfx : Str} (h : ClockSuffix b sfx) : ∀ c ∈ sfx, c ∈ s%".apmAPM \\tex{}" := by
  intro c hc
  cases h with
  | none => cases hc
  | some k hw =>
    rcases List.mem_append.1 hc with hc | hc
    · rw [List.eq_of_mem_replicate hc]; decide
    · exact text_chars hw c hc

/-- A suffix has no backslash or exactly one, before "text{". -/
theorem suffix_slash {b : Bool} {sfx : Str} (h : ClockSuffix b sfx) :
    '\\' ∉ sfx ∨ ∃ x y, sfx = x ++ '\\' :: ('t' :: y) ∧ '\\' ∉ x ∧ '\\' ∉ 't' :: y := by
  have hbl : ∀ k, '\\' ∉ List.replicate k ' ' := fun k h => absurd (List.eq_of_mem_replicate h) (by decide)
  have hwd : ∀ b w, MeridiemWord b w → '\\' ∉ w := fun b w hw h => absurd (word_chars hw _ h) (by decide)
  cases h with
  | none => left; simp
  | some k hw =>
    cases hw with
    | bare hw =>
      left; rw [List.mem_append, not_or]; exact ⟨hbl k, hwd _ _ hw⟩
    | @text w i j hw =>
      right
      refine ⟨List.replicate k ' ', s%"ext{" ++ (List.replicate i ' ' ++ (w ++ (List.replicate j ' ' ++ s%"}"))), by simp, hbl k, ?_⟩
      have h1 := hbl i
      have h2 := hbl j
      have h3 := hwd _ _ hw
      simp only [List.mem_cons, List.mem_append, not_or]
      exact ⟨by decide, by decide, h1, h3, h2, by decide⟩

theorem suffix_last {b : Bool} {sfx : Str} (h : ClockSuffix b sfx) : sfx.getLast? ≠ some ' ' := by
  have hy : ∀ (m : Char) (y : Str), m ∈ s%"mM" → (y = [] ∨ y = s%".") → (m :: y).getLast? ≠ some ' ' := by
    rintro m y hm (rfl | rfl)
    · have : ∀ m ∈ s%"mM", [m].getLast? ≠ some ' ' := by decide
      exact this m hm
    · have : ∀ m ∈ s%"mM", [m, '.'].getLast? ≠ some ' ' := by decide
      exact this m hm
  have hw' : ∀ b w, MeridiemWord b w → ∃ u v, w = u ++ v ∧ v ≠ [] ∧ v.getLast? ≠ some ' ' := by
    intro b w hw
    cases hw with
    | @am a m x y ha hx hm hy' => exact ⟨a :: x, m :: y, by simp, by simp, hy m y hm hy'⟩
    | @pm p m y hp hm hy' => exact ⟨[p], m :: y, by simp, by simp, hy m y hm hy'⟩
    | @pdm p m hp hm => exact ⟨[p, '.'], [m, '.'], by simp, by simp, by simp⟩
  have key : ∀ u v : Str, v ≠ [] → v.getLast? ≠ some ' ' → (u ++ v).getLast? ≠ some ' ' := by
    intro u v h1 h2
    rw [List.getLast?_append_of_ne_nil _ h1]; exact h2
  cases h with
  | none => simp
  | some k hw =>
    cases hw with
    | bare hw =>
      obtain ⟨u, v, rfl, h1, h2⟩ := hw' _ _ hw
      rw [← List.append_assoc]
      exact key _ _ h1 h2
    | @text w i j hw =>
      have := key (List.replicate k ' ' ++ s%"\\text{" ++ List.replicate i ' ' ++ w ++ List.replicate j ' ') s%"}" (by simp) (by simp)
      simpa using this

/-- No earlier stage changes a clock time. -/
theorem clock_stages (E : Env X V S) (rec : Str → M X Norm) {h0 : Char} {hr sfx : Str} {b : Bool}
    (hh0 : isDigit E.U h0 = true) (hhr : ∀ x ∈ hr, isDigit E.U x = true ∨ x = ':') (hsfx : ClockSuffix b sfx) :
    normBody E rec (h0 :: hr ++ sfx) =
      match strToTimeList E.U (h0 :: hr ++ sfx) with
      | .set xs => pure (.set (E.setOrder xs))
      | .str s => degrees E (unitsStep E.U s) := by
  have hh : ∀ x ∈ h0 :: hr, isDigit E.U x = true ∨ x = ':' := by
    intro x hx
    rcases List.mem_cons.1 hx with rfl | hx
    · exact .inl hh0
    · exact hhr x hx
  have hA : ∀ c ∈ h0 :: hr ++ sfx, (isDigit E.U c || (s%":.apmAPM \\tex{}").contains c) = true := by
    intro c hc
    rw [Bool.or_eq_true, List.contains_iff_mem]
    rcases List.mem_append.1 hc with hc | hc
    · rcases hh c hc with h | rfl
      · exact .inl h
      · right; simp
    · right
      have h1 : ∀ c ∈ s%".apmAPM \\tex{}", c ∈ s%":.apmAPM \\tex{}" := by decide
      exact h1 c (suffix_chars hsfx c hc)
  have hno : ∀ x, (isDigit E.U x || (s%":.apmAPM \\tex{}").contains x) = false → x ∉ h0 :: hr ++ sfx := by
    intro x hx hm'
    rw [hA x hm'] at hx; cases hx
  have hpre : '\\' ∉ h0 :: hr := by
    intro h
    rcases hh _ h with h | h
    · exact isDigit_ne h rfl rfl
    · exact absurd h (by decide)
  have hslash : ∀ p : Str, (∀ y, ¬ p <+: 't' :: y) → ¬ '\\' :: p <:+: h0 :: hr ++ sfx := by
    intro p hp hi
    rcases suffix_slash hsfx with h | ⟨x, y, rfl, h1, h2⟩
    · exact not_infix_of_not_mem '\\' (by simp) (by rw [List.mem_append, not_or]; exact ⟨hpre, h⟩) hi
    · rw [← List.append_assoc] at hi
      exact hp y (once_infix (by rw [List.mem_append, not_or]; exact ⟨hpre, h1⟩) h2 hi)
  have hlast : (h0 :: hr ++ sfx).getLast? ≠ some ' ' := by
    cases hsfxe : sfx with
    | cons a as =>
      rw [List.getLast?_append_of_ne_nil _ (by simp), ← hsfxe]
      exact suffix_last hsfx
    | nil =>
      rw [List.append_nil]
      intro he
      rcases hh _ (List.mem_of_getLast? he) with h | h
      · exact isDigit_ne h rfl rfl
      · exact absurd h (by decide)
  have hhead : (h0 :: hr ++ sfx).head? = some h0 := rfl
  generalize h0 :: hr ++ sfx = t at *
  have hmat : matrixNormalize (stripBlank t) = t := by
    rw [stripBlank_id (by rw [hhead]; intro e; simp at e; exact isDigit_ne hh0 rfl e) hlast]
    exact matrixNormalize_id (not_infix_of_not_mem 'c' (by simp) (hno 'c' rfl)) (not_infix_of_not_mem 'r' (by simp) (hno 'r' rfl))
      (hslash _ (by intro y h; simp at h))
  rw [normBody_unwrapped E rec hmat (by rw [hhead]; intro e; simp at e; exact isDigit_ne hh0 rfl e)]
  unfold normTail
  simp only
  rw [removeSpacing_id (hslash _ (by intro y h; simp at h)) (not_infix_of_not_mem ',' (by simp) (hno ',' rfl))
    (not_infix_of_not_mem ';' (by simp) (hno ';' rfl)) (not_infix_of_not_mem '!' (by simp) (hno '!' rfl))
    (not_infix_of_not_mem ',' (by simp) (hno ',' rfl)), baseReadings_none (hno '_' rfl)]
  simp only
  rw [percentStep_id (hno '%' rfl)]
  simp only
  rw [middle_id (hno '$' rfl) (not_infix_of_not_mem 'n' (by simp) (hno 'n' rfl)) (not_infix_of_not_mem 'o' (by simp) (hno 'o' rfl))
    (not_infix_of_not_mem 'l' (by simp) (hno 'l' rfl))
    (noControl_alpha (A := fun c => isDigit E.U c || (s%":.apmAPM \\tex{}").contains c) hA (by
      intro k hk
      simp only [List.mem_cons, List.not_mem_nil, or_false] at hk
      rcases hk with rfl | rfl | rfl | rfl | rfl <;> rfl))
    (not_infix_of_not_mem 'l' (by simp) (hno 'l' rfl)) (not_infix_of_not_mem 'r' (by simp) (hno 'r' rfl))
    (not_infix_of_not_mem 'i' (by simp) (hno 'i' rfl))]
  cases strToTimeList E.U t <;> rfl

theorem clock_middle (E : Env X V S) (rec : Str → M X Norm) {hs ms sfx : Str} {ss : Option Str} {b : Bool}
    (hh : ∀ x ∈ hs, isDigit E.U x = true) (hhl : hs.length = 1 ∨ hs.length = 2)
    (hm : ∀ x ∈ ms, isDigit E.U x = true)
    (hs' : ∀ s, ss = some s → s.length = 2 ∧ ∀ x ∈ s, isDigit E.U x = true) (hsfx : ClockSuffix b sfx) :
    normBody E rec (hs ++ ':' :: (ms ++ (secText ss ++ sfx))) =
      match strToTimeList E.U (hs ++ ':' :: (ms ++ (secText ss ++ sfx))) with
      | .set xs => pure (.set (E.setOrder xs))
      | .str s => degrees E (unitsStep E.U s) := by
  obtain ⟨h0, hr, rfl⟩ : ∃ h0 hr, hs = h0 :: hr := by
    cases hs with
    | nil => simp at hhl
    | cons a as => exact ⟨a, as, rfl⟩
  have := clock_stages E rec (h0 := h0) (hr := hr ++ ':' :: (ms ++ secText ss)) (hh h0 (by simp)) ?_ hsfx
  · simpa using this
  · intro c hc
    simp only [List.mem_append, List.mem_cons] at hc
    rcases hc with hc | rfl | hc | hc
    · exact .inl (hh c (by simp [hc]))
    · right; rfl
    · exact .inl (hm c hc)
    · cases ss with
      | none => cases hc
      | some s =>
        simp only [secText, List.mem_cons] at hc
        rcases hc with rfl | hc
        · right; rfl
        · exact .inl ((hs' s rfl).2 c hc)

/-- A colon excludes the pattern for full hours. -/
theorem timeRe1_colon {U : Uni} {s : Str} (h : ':' ∈ s) : reSearch (timeRe1 U) s = none := by
  cases hm : reSearch (timeRe1 U) s with
  | none => rfl
  | some t =>
    exfalso
    have hrun := List.mem_of_head? (reSearch_bos hm)
    obtain ⟨u, hu, hl⟩ := run_lang _ _ t hrun
    simp only at hu
    have hrest : t.rest = [] ∨ t.rest = ['\n'] := eos_last [grp 1 (d12 U), many ws, grp 2 meridiemAlt] _ t hrun
    have hno : ':' ∉ t.rest := by rcases hrest with h | h <;> rw [h] <;> simp
    rw [hu, List.mem_append] at h
    rcases h with h | h
    · have hd : (d U).Within (· ≠ ':') := by
        intro c hc
        simp only [ne_eq, decide_eq_true_eq]
        rintro rfl; exact absurd hc (by rw [show isDigit U ':' = false from rfl]; decide)
      have hc : ∀ x, x ≠ ':' → (c x).Within (· ≠ ':') := by
        intro x hx y hy
        simp only [beq_iff_eq] at hy
        simp [hy, hx]
      have hci : ∀ x, x ≠ ':' → (ci x).Within (· ≠ ':') := by
        intro x hx y hy
        simp only [beq_iff_eq] at hy
        simp only [ne_eq, decide_eq_true_eq]
        rintro rfl
        exact hx (by rw [← hy]; decide)
      have hws : ws.Within (· ≠ ':') := by
        intro y hy
        simp only [ne_eq, decide_eq_true_eq]
        rintro rfl; exact absurd hy (by decide)
      have hap : (Re.chr fun y => asciiToLower y == 'a' || asciiToLower y == 'p').Within (· ≠ ':') := by
        intro y hy
        simp only [ne_eq, decide_eq_true_eq]
        rintro rfl; exact absurd hy (by decide)
      have hmer : meridiemRe.Within (· ≠ ':') :=
        ⟨hap, ⟨hc _ (by decide), trivial⟩, hci _ (by decide), hc _ (by decide), trivial⟩
      have hw : (cat [grp 1 (d12 U), many ws, grp 2 meridiemAlt, eos]).Within (· ≠ ':') :=
        ⟨⟨hd, hd, trivial⟩, hws,
          ⟨⟨hc _ (by decide), hci _ (by decide), hci _ (by decide), hci _ (by decide), hci _ (by decide), hc _ (by decide),
            hws, hmer, hws, hc _ (by decide)⟩, hmer⟩, trivial⟩
      have := lang_within _ u hw hl _ h
      simp at this
    · exact hno h

theorem fmt3 (a b c : Str) : fmtList [a, b, c] = s%"[" ++ a ++ s%"," ++ s%" " ++ b ++ s%"," ++ s%" " ++ c ++ s%"]" := by
  simp [fmtList, join]

theorem fmt2 (a b : Str) : fmtList [a, b] = s%"[" ++ a ++ s%"," ++ s%" " ++ b ++ s%"]" := by
  simp [fmtList, join]

/-- What `_str_to_time_list` makes of a clock time. -/
theorem clock_time {U : Uni} {hs ms sfx : Str} {ss : Option Str} {b : Bool}
    (hh : ∀ x ∈ hs, isDigit U x = true) (hhl : hs.length = 1 ∨ hs.length = 2)
    (hm : ∀ x ∈ ms, isDigit U x = true) (hml : ms.length = 2)
    (hs' : ∀ s, ss = some s → s.length = 2 ∧ ∀ x ∈ s, isDigit U x = true) (hsfx : ClockSuffix b sfx) :
    strToTimeList U (hs ++ ':' :: (ms ++ (secText ss ++ sfx))) =
      let h := positional U 10 hs
      let m := positional U 10 ms
      let s := positional U 10 (ss.getD [])
      if b then .set [clockText s%" " (h % 12) m s, clockText s%" " (h % 12 + 12) m s] else .str (clockText s%" " h m s) := by
  obtain ⟨t, ht, g1, g2, g3, g4⟩ := first_time hh hhl hm hml hs' hsfx
  unfold strToTimeList
  rw [timeRe1_colon (by simp), ht]
  simp only [g1, g2, g3]
  have hnum : ∀ s : Str, natOfDigits U s = positional U 10 s := natOfDigits_eq U
  have fin : ∀ sec : Option Nat, (sec = if positional U 10 (ss.getD []) ≠ 0 then some (positional U 10 (ss.getD [])) else none) →
      ∀ pm : Bool, pm = b →
      (match sec with
      | some sc =>
        match (if pm then some (hours12 U hs) else none : Option (List Str)) with
        | some hs => TimeRes.set (hs.map fun h => fmtList [h, natStr (natOfDigits U ms), natStr sc])
        | none => .str (fmtList [natStr (natOfDigits U hs), natStr (natOfDigits U ms), natStr sc])
      | none =>
        if natOfDigits U ms = 0 then
          match (if pm then some (hours12 U hs) else none : Option (List Str)) with
          | some hs => .set hs
          | none => .str (natStr (natOfDigits U hs))
        else
          match (if pm then some (hours12 U hs) else none : Option (List Str)) with
          | some hs => .set (hs.map fun h => fmtList [h, natStr (natOfDigits U ms)])
          | none => .str (fmtList [natStr (natOfDigits U hs), natStr (natOfDigits U ms)])) =
      if b then TimeRes.set [clockText s%" " (positional U 10 hs % 12) (positional U 10 ms) (positional U 10 (ss.getD [])),
          clockText s%" " (positional U 10 hs % 12 + 12) (positional U 10 ms) (positional U 10 (ss.getD []))]
        else .str (clockText s%" " (positional U 10 hs) (positional U 10 ms) (positional U 10 (ss.getD []))) := by
    rintro sec rfl pm rfl
    simp only [hours12, hnum]
    unfold clockText
    by_cases h1 : positional U 10 (ss.getD []) = 0
    · by_cases h2 : positional U 10 ms = 0
      · cases pm <;> simp [h1, h2]
      · cases pm <;> simp [h1, h2, fmt2]
    · cases pm <;> simp [h1, fmt3]
  refine fin _ ?_ _ ?_
  · cases ss with
    | none => rfl
    | some s =>
      have : s.isEmpty = false := by
        cases s with
        | nil => have := (hs' [] rfl).1; simp at this
        | cons => rfl
      simp only [this, hnum]
      rfl
  · cases hg : t.group 4 with
    | none => rw [hg] at g4; exact g4.symm
    | some m =>
      rw [hg] at g4
      simp only [isPm_text U g4]
      have : m.isEmpty = false := by
        cases g4 with
        | bare hw => obtain ⟨x, xs, rfl, _⟩ := word_head hw; rfl
        | text => rfl
      rw [this]; rfl

/-! ### The last stage -/

/-- Every unit has a letter (or a non-ASCII character). -/
theorem unit_letter : ∀ u ∈ unitAll, ∃ x ∈ u, x ≠ '.' ∧ (asciiAlpha x = true ∨ 128 ≤ x.toNat) := by
  decide +kernel

theorem clockText_chars (sep : Str) (hsep : ∀ c ∈ sep, c = ' ') (h m s : Nat) :
    ∀ c ∈ clockText sep h m s, asciiDigit c = true ∨ c ∈ s%"[], " := by
  have hd : ∀ n, ∀ c ∈ natStr n, asciiDigit c = true ∨ c ∈ s%"[], " := fun n c hc => .inl (natStr_digits n c hc)
  have hs : ∀ c ∈ sep, asciiDigit c = true ∨ c ∈ s%"[], " := fun c hc => .inr (by rw [hsep c hc]; decide)
  intro c hc
  unfold clockText at hc
  split at hc
  · simp only [List.mem_append] at hc
    rcases hc with (((((((hc | hc) | hc) | hc) | hc) | hc) | hc) | hc) | hc <;>
      first | exact hd _ c hc | exact hs c hc | (rw [List.mem_singleton.1 hc]; right; decide)
  · split at hc
    · simp only [List.mem_append] at hc
      rcases hc with ((((hc | hc) | hc) | hc) | hc) | hc <;>
        first | exact hd _ c hc | exact hs c hc | (rw [List.mem_singleton.1 hc]; right; decide)
    · exact hd _ c hc

theorem clock_further (E : Env X V S) (hE : PrintsIntegers E) (h m s : Nat) (hh : h ≤ 99) :
    Always (further E (clockText s%" " h m s)) (clockText [] h m s) := by
  have hc := clockText_chars s%" " (by simp) h m s
  by_cases hz : s = 0 ∧ m = 0
  · obtain ⟨rfl, rfl⟩ := hz
    exact further_small E hE (h : ℤ) (by
      have : (99 : ℕ) ≤ 2 ^ 53 := by norm_num
      simp only [Int.natAbs_natCast]; omega)
  · have hbr : '[' ∈ clockText s%" " h m s := by
      unfold clockText
      by_cases h1 : s = 0
      · have h2 : m ≠ 0 := fun e => hz ⟨h1, e⟩
        rw [if_neg (by simpa using h1), if_pos h2]; simp
      · rw [if_pos h1]; simp
    have hfil : (clockText s%" " h m s).filter (· ≠ ' ') = clockText [] h m s := by
      have hn : ∀ n, (natStr n).filter (· ≠ ' ') = natStr n := by
        intro n
        rw [List.filter_eq_self]
        intro c hc
        have := natStr_digits n c hc
        simp only [ne_eq, decide_eq_true_eq]
        rintro rfl; revert this; decide
      unfold clockText
      split
      · simp only [List.filter_append, hn]; rfl
      · split
        · simp only [List.filter_append, hn]; rfl
        · exact hn h
    have hno : ∀ x, asciiDigit x = false → x ∉ s%"[], " → x ∉ clockText s%" " h m s := by
      intro x h1 h2 h3
      rcases hc x h3 with h | h
      · rw [h1] at h; cases h
      · exact h2 h
    have hfp : furtherPure E.U (clockText s%" " h m s) = clockText [] h m s := by
      rw [furtherPure_text (fun e => hno '{' rfl (by decide) (List.mem_of_head? e)) (pyFloat_none '[' hbr rfl)
        (hno '\\' rfl (by decide)) (hno '-' rfl (by decide)) (hno '/' rfl (by decide)) ?_, hfil]
      intro c hm
      rcases hc c hm with h | h
      · exact plain_ascii (by simp [plain, h])
      · have : ∀ c ∈ s%"[], ", c.toNat < 128 ∧ asciiUpper c = false := by decide
        exact this c h
    unfold further
    rw [hfp, canonInt_id E (strIsInt_false (x := '[') ?_ rfl (by decide))]
    · exact Always.pure _
    · rw [← hfil, List.mem_filter]; exact ⟨hbr, by decide⟩

theorem positional_two {U : Uni} {hs : Str} (hh : ∀ x ∈ hs, isDigit U x = true) (hl : hs.length = 1 ∨ hs.length = 2) :
    positional U 10 hs ≤ 99 := by
  have hv : ∀ c, isDigit U c = true → digitVal U c ≤ 9 := by
    intro c hc
    unfold isDigit at hc
    unfold digitVal
    split
    · rename_i h
      rw [if_pos h] at hc
      have : 48 ≤ c.toNat ∧ c.toNat ≤ 57 := by simpa [asciiDigit] using hc
      omega
    · omega
  rcases hl with hl | hl
  · obtain ⟨a, rfl⟩ := List.length_eq_one_iff.1 hl
    have := hv a (hh a (by simp))
    simp [positional, Nat.ofDigits_cons]; omega
  · obtain ⟨a, b, rfl⟩ := List.length_eq_two.1 hl
    have h1 := hv a (hh a (by simp))
    have h2 := hv b (hh b (by simp))
    simp [positional, Nat.ofDigits_cons]; omega

/-- C25: a time `hh:mm` or `hh:mm:ss` (hours of one or two digits), alone or with a.m., becomes the list of hours,
minutes and seconds without trailing zero parts; with p.m. it has exactly the two readings with the hour mod 12 and the
hour mod 12 plus 12. -/
theorem C25_clock (E : Env X V S) (hE : PrintsIntegers E) (n : Nat) {hs ms sfx : Str} {ss : Option Str} {pm : Bool}
    (hh : ∀ x ∈ hs, isDigit E.U x = true) (hhl : hs.length = 1 ∨ hs.length = 2)
    (hm : ∀ x ∈ ms, isDigit E.U x = true) (hml : ms.length = 2)
    (hs' : ∀ s, ss = some s → s.length = 2 ∧ ∀ x ∈ s, isDigit E.U x = true) (hsfx : ClockSuffix pm sfx) :
    let t := hs ++ s%":" ++ ms ++ secText ss ++ sfx
    let h := positional E.U 10 hs
    let m := positional E.U 10 ms
    let s := positional E.U 10 (ss.getD [])
    (pm = false → Always (stringNormalize E (n + 1) t) (.str (clockText [] h m s))) ∧
    (pm = true → ∃ o, Always (stringNormalize E (n + 1) t) o ∧
      ReadingsAre o [clockText s%" " (h % 12) m s, clockText s%" " (h % 12 + 12) m s]) := by
  intro t h m s
  have ht : t = hs ++ ':' :: (ms ++ (secText ss ++ sfx)) := by simp [t]
  have hb := clock_middle E (stringNormalize E n) hh hhl hm hs' hsfx
  rw [clock_time hh hhl hm hml hs' hsfx, ← ht] at hb
  constructor
  · rintro rfl
    apply always_normalize
    rw [hb]
    simp only [Bool.false_eq_true, if_false]
    have hc := clockText_chars s%" " (by simp) h m s
    have hno : ∀ x, asciiDigit x = false → x ∉ s%"[], " → x ∉ clockText s%" " h m s := by
      intro x h1 h2 h3
      rcases hc x h3 with h | h
      · rw [h1] at h; cases h
      · exact h2 h
    rw [unitsStep_id (.inl (hno '{' rfl (by decide))) ?_, degrees_none E (not_infix_of_not_mem '\\' (by simp) (hno '\\' rfl (by decide)))]
    · exact Always.bind (clock_further E hE h m s (positional_two hh hhl)) (Always.pure _)
    · intro u hu
      obtain ⟨x, hx, hd, ha⟩ := unit_letter u (by
        rw [unitAll, List.append_assoc]; rw [List.mem_append] at hu
        rcases hu with h | h <;> simp [h])
      refine ⟨x, hx, hd, fun hm' => ?_⟩
      rcases hc x hm' with h | h
      · have h2 : 48 ≤ x.toNat ∧ x.toNat ≤ 57 := by simpa [asciiDigit] using h
        rcases ha with ha | ha
        · simp [asciiAlpha, asciiLower, asciiUpper] at ha; omega
        · omega
      · have : ∀ x ∈ s%"[], ", ¬ (asciiAlpha x = true ∨ 128 ≤ x.toNat) := by decide
        exact this x h ha
  · rintro rfl
    refine ⟨_, ?_, readingsAre_setOrder E _⟩
    apply always_normalize
    rw [hb]
    exact Always.pure _

/-- C25 for full hours: `h p.m.` has the two readings with the hour mod 12 and mod 12 plus 12; `h a.m.` is `h`. -/
theorem C25_full_hours (E : Env X V S) (hE : PrintsIntegers E) (n : Nat) {hs w : Str} (k : Nat) {pm : Bool}
    (hh : ∀ x ∈ hs, asciiDigit x = true) (hhl : hs.length = 1 ∨ hs.length = 2) (hw : MeridiemText pm w) :
    let t := hs ++ List.replicate k ' ' ++ w
    let h := positional E.U 10 hs
    (pm = false → Always (stringNormalize E (n + 1) t) (.str (natStr h))) ∧
    (pm = true → ∃ o, Always (stringNormalize E (n + 1) t) o ∧ ReadingsAre o [natStr (h % 12), natStr (h % 12 + 12)]) := by
  intro t h
  have hdig : ∀ x, asciiDigit x = true → isDigit E.U x = true := by
    intro x hx
    have : 48 ≤ x.toNat ∧ x.toNat ≤ 57 := by simpa [asciiDigit] using hx
    unfold isDigit
    rw [if_pos (by omega)]; exact hx
  have hh' : ∀ x ∈ hs, isDigit E.U x = true := fun x hx => hdig x (hh x hx)
  have hsfx : ClockSuffix pm (List.replicate k ' ' ++ w) := .some k hw
  have ht : t = hs ++ (List.replicate k ' ' ++ w) := by simp [t]
  have hne : hs ≠ [] := by rintro rfl; simp at hhl
  have hb : normBody E (stringNormalize E n) t =
      match strToTimeList E.U t with
      | .set xs => pure (.set (E.setOrder xs))
      | .str s => degrees E (unitsStep E.U s) := by
    rw [ht]
    obtain ⟨h0, hr, rfl⟩ := List.exists_cons_of_ne_nil hne
    exact clock_stages E _ (hh' h0 (by simp)) (fun x hx => .inl (hh' x (by simp [hx]))) hsfx
  have hwhead : ∀ x, w.head? = some x → isSpace x = false := by
    intro x hx
    cases hw with
    | bare hw =>
      obtain ⟨y, ys, rfl, hy⟩ := word_head hw
      have hx' : ∀ x ∈ s%"aApP", isSpace x = false := by decide
      simp at hx; subst hx; exact hx' _ hy
    | text => simp at hx; subst hx; decide
  have hmer := first_meridiem ((List.replicate k ' ').reverse ++ (hs.reverse ++ [])) [(1, hs)] hw
  have hgrp := First.grp (n := 2) (u := w) (cs := []) (by rw [List.append_nil]; exact hmer)
  rw [List.append_nil w] at hgrp
  have hdh : ∀ x, (List.replicate k ' ' ++ w).head? = some x → isDigit E.U x = false := by
    intro x hx
    have h1 : ∀ x ∈ s%" aApP\\", isDigit E.U x = false := by
      intro x hx
      simp only [List.mem_cons, List.not_mem_nil, or_false] at hx
      rcases hx with rfl | rfl | rfl | rfl | rfl | rfl <;> rfl
    exact h1 x (suffix_head hsfx x hx)
  have hfirst : (timeRe1 E.U).First ⟨[], hs ++ (List.replicate k ' ' ++ w), []⟩ _ :=
    First.cat_cons (First.bos _ _) (First.cat_cons (First.grp (first_d12 [] [] hh' hhl hdh))
      (First.cat_cons (First.many (List.replicate k ' ') w _ _ blank_space hwhead)
        (First.cat_cons hgrp (First.cat_one (First.eos _ _)))))
  have htime : strToTimeList E.U t = if pm then .set [natStr (h % 12), natStr (h % 12 + 12)] else .str hs := by
    unfold strToTimeList
    rw [ht, First.search hfirst]
    simp only [RSt.groupD, RSt.group, List.lookup]
    have : isPm E.U w = pm := isPm_text E.U hw
    simp [this, hours12, natOfDigits_eq, h]
  rw [htime] at hb
  constructor
  · rintro rfl
    apply always_normalize
    rw [hb]
    simp only [Bool.false_eq_true, if_false]
    have hq : Quiet hs := fun c hc => quiet_digit (hh c hc)
    rw [quiet_unitsStep hq, degrees_none E (not_infix_of_not_mem '\\' (by simp) (fun hm => absurd (hh _ hm) (by decide)))]
    refine Always.bind (a := natStr h) ?_ (Always.pure _)
    have hcf : canonFloat E.U hs = intStr (h : ℤ) := by
      have h1 := canonFloat_small E.U (h : ℤ) (by
        have : (99 : ℕ) ≤ 2 ^ 53 := by norm_num
        have := positional_two hh' hhl
        simp only [Int.natAbs_natCast]; omega)
      unfold canonFloat at h1 ⊢
      have e1 : pyFloat E.U hs = some (F64.ofDecimal false (natOfDigits E.U hs) 0) := pyFloat_int E.U false hs hh hne
      have e2 : pyFloat E.U (intStr (h : ℤ)) = some (F64.ofDecimal false h 0) := by
        have := pyFloat_int E.U false (natStr h) (natStr_digits h) (natStr_ne_nil h)
        rw [natOfDigits_natStr] at this
        exact this
      rw [e1, natOfDigits_eq]
      rw [e2] at h1
      simp only at h1 ⊢
      have c1 : contains s%"e" hs = false :=
        (contains_eq_false _ _).2 (not_infix_of_not_mem 'e' (by simp) (fun hm => absurd (hh _ hm) (by decide)))
      rw [contains_e_intStr] at h1
      rw [c1]
      have hint : isIntFloat (F64.ofDecimal false h 0) = true := by
        have : ∀ m ≤ 99, isIntFloat (F64.ofDecimal false m 0) = true := by decide +kernel
        exact this h (positional_two hh' hhl)
      have hri : ∃ z, F64.roundInt (F64.ofDecimal false h 0) = some z := by
        have : ∀ m ≤ 99, (F64.roundInt (F64.ofDecimal false m 0)).isSome = true := by decide +kernel
        exact Option.isSome_iff_exists.1 (this h (positional_two hh' hhl))
      obtain ⟨z, hz⟩ := hri
      rw [hint, hz] at h1 ⊢
      simpa using h1
    have := further_int E hE hs (h : ℤ) (fun c hc => by simp [plain, hh c hc]) hcf
    exact this
  · rintro rfl
    refine ⟨_, ?_, readingsAre_setOrder E _⟩
    apply always_normalize
    rw [hb]
    exact Always.pure _

/-- Half past three in the afternoon; the hypotheses are met by ordinary times. -/
example : ClockSuffix true s%"  \\text{ p.m. }" :=
  .some 2 (.text 1 1 (.pdm (p := 'p') (m := 'm') (by decide) (by decide)))
example : (stringNormalize failEnv 1 s%"3:30 \\text{ p.m. }" ⟨(), []⟩).1 = .ok (.set [s%"[3, 30]", s%"[15, 30]"]) := by
  decide +kernel
example : (stringNormalize failEnv 1 s%"09:05:07" ⟨(), []⟩).1 = .ok (.str s%"[9,5,7]") := by decide +kernel
example : (stringNormalize failEnv 1 s%"7:00AM" ⟨(), []⟩).1 = .ok (.str s%"7") := by decide +kernel
example : (stringNormalize failEnv 1 s%"12 pm" ⟨(), []⟩).1 = .ok (.set [s%"0", s%"12"]) := by decide +kernel

/-- The pattern accepts "p.m" without the last dot, but the afternoon is then lost. -/
theorem C25_missing_dot : (stringNormalize failEnv 1 s%"3:30 p.m" ⟨(), []⟩).1 = .ok (.str s%"[3,30]") := by decide +kernel

end Verif
