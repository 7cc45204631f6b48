import Verif.Props.Idem
import Verif.Props.Decimals
/-
Property C82: decimals, fractions and mixed numbers are compared by value.
-/

namespace Verif
open Re

variable {X V S : Type}

/-! ### Specification -/

/-- Ways of writing a number: a decimal literal, `b/c` or `\frac bc` with an optional minus sign, and the mixed
numbers `a b/c` and `a\frac bc`.  The numerators and denominators of `\frac` are digits or numbers in braces. -/
inductive NumText : Str → ℚ → Prop
  | decimal (a : Literal) (h : a.Tame) : NumText a.text a.value
  | slash (neg : Bool) {b c : Str} (hb0 : b ≠ []) (hb : ∀ x ∈ b, asciiDigit x = true) (hc0 : c ≠ [])
      (hc : ∀ x ∈ c, asciiDigit x = true) (hz : decVal c ≠ 0) :
      NumText (sign neg ++ (b ++ '/' :: c)) (if neg then -((decVal b : ℚ) / decVal c) else (decVal b : ℚ) / decVal c)
  | frac (neg : Bool) {b c B C : Str} (hb : FracArg b B) (hc : FracArg c C) (hz : decVal c ≠ 0) :
      NumText (sign neg ++ (s%"\\frac" ++ B ++ C)) (if neg then -((decVal b : ℚ) / decVal c) else (decVal b : ℚ) / decVal c)
  | mixed (k : Nat) {a b c : Str} (ha0 : a ≠ []) (ha : ∀ x ∈ a, asciiDigit x = true) (hb0 : b ≠ [])
      (hb : ∀ x ∈ b, asciiDigit x = true) (hc0 : c ≠ []) (hc : ∀ x ∈ c, asciiDigit x = true) (hz : decVal c ≠ 0) :
      NumText (a ++ blanks (k + 1) ++ b ++ s%"/" ++ c) ((decVal a : ℚ) + decVal b / decVal c)
  | mixedFrac (k : Nat) {a b c B C : Str} (ha0 : a ≠ []) (ha : ∀ x ∈ a, asciiDigit x = true) (hb : FracArg b B)
      (hc : FracArg c C) (hz : decVal c ≠ 0) :
      NumText (a ++ blanks k ++ s%"\\frac" ++ B ++ C) ((decVal a : ℚ) + decVal b / decVal c)

/-- The parsers read sums of numbers and fractions as their values. -/
def ReadsFractions {K : Type} [Field K] (E : Env X V S) (num : K → V) : Prop :=
  ∀ r q, evalSum r = some q → ('/' ∈ r ∨ '\\' ∈ r) → Reads E r (num (q : K))

/-! ### Texts that are not split -/

theorem scanBrackets_sum (s : Str) (cnt : Int) (rp : Bool) : (scanBrackets cnt rp s).1 = cnt + (s.map bracketDelta).sum := by
  induction s generalizing cnt rp with
  | nil => simp [scanBrackets]
  | cons x xs ih =>
    simp only [scanBrackets, ih, List.map_cons, List.sum_cons]
    ring

theorem splitLoop_one (s stack : Str) (cnt : Int) (h : ',' ∉ s) : (splitLoop cnt stack s).length ≤ 1 := by
  induction s generalizing cnt stack with
  | nil => simp only [splitLoop]; split <;> simp
  | cons x xs ih =>
    have e : (x == ',') = false := by
      rw [beq_eq_false_iff_ne]; rintro rfl; exact h (by simp)
    simp only [splitLoop, e, Bool.false_and, Bool.false_eq_true, if_false]
    exact ih _ _ fun hm => h (by simp [hm])

/-- A text without commas whose brackets balance and do not enclose it is not split. -/
theorem splitTuple_single {U : Uni} {ord : List Str → List Str} {s : Str} (hc : ',' ∉ s) (hb : (s.map bracketDelta).sum = 0)
    (hh : ∀ x, s.head? = some x → x ≠ '[' ∧ x ≠ '(' ∧ x ≠ '{') : splitTuple U ord s none = .ok (.str s) := by
  have hpeel : ∀ rp, peelBrackets rp s = (s, .set) := by
    intro rp
    unfold peelBrackets
    split
    · cases s with
      | nil => simp
      | cons c cs =>
        obtain ⟨c1, c2, c3⟩ := hh c rfl
        simp [c1, c2, c3]
    · rfl
  unfold splitTuple
  simp only [stripCommas_nocomma hc]
  have h1 := scanBrackets_sum s 0 true
  have h2 := splitLoop_one s [] 0 hc
  rw [hb, add_zero] at h1
  generalize scanBrackets 0 true s = q at h1
  obtain ⟨q1, q2⟩ := q
  simp only at h1
  subst h1
  simp only [ne_eq, not_true_eq_false, if_false, hpeel]
  rw [if_neg (by omega)]

/-! ### Two answers with atomic normal forms that read as numbers -/

theorem Always.unique {α : Type} {m : M X α} {a b : α} (w : World X) (ha : Always m a) (hb : Always m b) : a = b := by
  obtain ⟨w1, h1⟩ := ha w
  obtain ⟨w2, h2⟩ := hb w
  rw [h1] at h2
  cases h2; rfl

section
variable {K : Type} [Field K] [LinearOrder K] [IsStrictOrderedRing K]

theorem withinTolerance_refl (g : K) : (@decide (WithinTolerance g g) (Classical.dec _)) = true := by
  simp [WithinTolerance]

/-- What the verdict is for two answers whose normal forms are read as the numbers `g` and `v`. -/
theorem isEquiv_by_value {E : Env X V S} {num : K → V} (H : ExactNumbers E num) {a b x y : Str} {g v : K} (n : Nat) (verbose : Bool)
    (sa : strip a = a) (sb : strip b = b)
    (ha : Always (stringNormalize E (n + 1) a) (.str x)) (hb : Always (stringNormalize E (n + 1) b) (.str y))
    (hx : Atomic E x) (hy : Atomic E y) (cx : '^' ∉ x) (cy : '^' ∉ y) (rx : Reads E x (num g)) (ry : Reads E y (num v)) :
    Always (isEquiv E (n + 2) (some a) (some b) verbose) (@decide (WithinTolerance g v) (Classical.dec _)) := by
  have hat : ∀ {u : Str}, '^' ∉ u → replace s%"^" s%"**" u = u := fun h => replace_id _ _ _ (not_infix_of_not_mem '^' (by simp) h)
  have cas := areEqualUnderSympy_num H (hat cx) (hat cy) rx ry n verbose
  by_cases hxy : x = y
  · have hw : (@decide (WithinTolerance g v) (Classical.dec _)) = true ∨ IsEmpty (World X) := by
      by_cases hi : Nonempty (World X)
      · obtain ⟨w⟩ := hi
        left
        have := areEqualUnderSympy_num H (hat cx) (hat cx) rx rx n verbose
        rw [← hxy] at cas
        rw [cas.unique w this]
        exact withinTolerance_refl g
      · exact .inr (not_nonempty_iff.1 hi)
    rcases hw with hw | hw
    · rw [hw]
      show Always (isEquivStr E (n + 2) a b verbose) true
      unfold isEquivStr
      split
      · exact Always.pure _
      · apply ha.bind
        apply hb.bind
        apply print_always
        unfold compareNorms
        simpa [hxy] using Always.pure true
    · exact fun w => (hw.false w).elim
  · by_cases hab : a = b
    · subst hab
      by_cases hi : Nonempty (World X)
      · obtain ⟨w⟩ := hi
        have := ha.unique w hb
        simp only [Norm.str.injEq] at this
        exact absurd this hxy
      · exact fun w => (hi ⟨w⟩).elim
    · exact isEquiv_atomic E (n + 1) a b x y verbose _ ha hb hx hy (by rw [sa, sb]; exact hab) hxy cas

end

/-! ### Normal forms of fractions -/

def sumChar (c : Char) : Prop := mixedChar c = true ∨ c = '+'

theorem sumChar_no {s : Str} (h : ∀ c ∈ s, sumChar c) {x : Char} (h1 : mixedChar x = false) (h2 : x ≠ '+') : x ∉ s := by
  intro hm
  rcases h x hm with h | h
  · rw [h] at h1; cases h1
  · exact h2 h

theorem atomic_sum (E : Env X V S) {s : Str} (h0 : s ≠ []) (h : ∀ c ∈ s, sumChar c) (hb : (s.map bracketDelta).sum = 0)
    (hh : s.head? ≠ some '{') : Atomic E s := by
  refine ⟨h0, ?_, ?_, ?_⟩
  · intro c hc
    refine ⟨?_, ?_, ?_, ?_⟩ <;> rintro rfl <;> exact sumChar_no h (by decide) (by decide) hc
  · apply splitTuple_single (sumChar_no h (by decide) (by decide)) hb
    intro x hx
    have hm := List.mem_of_head? hx
    refine ⟨?_, ?_, ?_⟩ <;> rintro rfl
    · exact sumChar_no h (by decide) (by decide) hm
    · exact sumChar_no h (by decide) (by decide) hm
    · exact hh hx
  · exact (contains_eq_false _ _).2 (not_infix_of_not_mem 'm' (by simp) (sumChar_no h (by decide) (by decide)))

theorem delta_digits {s : Str} (h : ∀ c ∈ s, asciiDigit c = true) : (s.map bracketDelta).sum = 0 := by
  apply List.sum_eq_zero
  intro z hz
  obtain ⟨c, hc, rfl⟩ := List.mem_map.1 hz
  have hd := h c hc
  unfold bracketDelta
  simp [digit_ne hd (x := '[') (by decide), digit_ne hd (x := '(') (by decide), digit_ne hd (x := '{') (by decide),
    digit_ne hd (x := ']') (by decide), digit_ne hd (x := ')') (by decide), digit_ne hd (x := '}') (by decide)]

theorem delta_sign (neg : Bool) : ((sign neg).map bracketDelta).sum = 0 := by cases neg <;> decide

theorem FracArg.delta {b B : Str} (h : FracArg b B) : (B.map bracketDelta).sum = 0 := by
  cases h with
  | digit x h => exact delta_digits (by simpa using h)
  | braced _ h0 h =>
    simp only [List.cons_append, List.map_cons, List.map_append, List.sum_cons, List.sum_append, delta_digits h]
    decide

theorem digit_sumChar {c : Char} (h : asciiDigit c = true) : sumChar c := .inl (by simp [mixedChar, h])

theorem FracArg.sumChar {b B : Str} (h : FracArg b B) : ∀ c ∈ B, Verif.sumChar c := by
  intro c hc
  rcases h.chars c hc with h | rfl | rfl
  · exact digit_sumChar h
  · exact .inl (by decide)
  · exact .inl (by decide)

theorem sign_sumChar {neg : Bool} : ∀ c ∈ sign neg, sumChar c := by
  intro c hc; rw [sign_mem hc]; exact .inl (by decide)

theorem evalSum_sign (neg : Bool) {t : Str} {q : ℚ} (ht : ∀ c ∈ t, c ≠ '+' ∧ c ≠ '-') (h : evalTerm t = some q) :
    evalSum (sign neg ++ t) = some (if neg then -q else q) := by
  have e : ∀ ng, evalSumGo ng [] 0 t = some (if ng then -q else q) := by
    intro ng
    have := evalSumGo_word ng [] 0 t [] ht
    rw [List.append_nil, List.append_nil] at this
    rw [this]
    simp [evalSumGo, addTerm, h]
  cases neg with
  | false => exact e false
  | true => simpa [sign, evalSum, evalSumGo] using e true

theorem FracArg.notSign {b B : Str} (h : FracArg b B) : ∀ x ∈ B, x ≠ '+' ∧ x ≠ '-' := by
  intro x hx
  rcases h.chars x hx with h | rfl | rfl
  · exact ⟨digit_ne h (by decide), digit_ne h (by decide)⟩
  · decide
  · decide

theorem slash_notSign {b c : Str} (hb : ∀ x ∈ b, asciiDigit x = true) (hc : ∀ x ∈ c, asciiDigit x = true) :
    ∀ x ∈ b ++ '/' :: c, x ≠ '+' ∧ x ≠ '-' := by
  intro x hx
  simp only [List.mem_append, List.mem_cons] at hx
  rcases hx with h | rfl | h
  · exact ⟨digit_ne (hb x h) (by decide), digit_ne (hb x h) (by decide)⟩
  · decide
  · exact ⟨digit_ne (hc x h) (by decide), digit_ne (hc x h) (by decide)⟩

theorem frac_notSign {b c B C : Str} (hb : FracArg b B) (hc : FracArg c C) : ∀ x ∈ s%"\\frac" ++ B ++ C, x ≠ '+' ∧ x ≠ '-' := by
  intro x hx
  simp only [List.append_assoc, List.mem_append] at hx
  rcases hx with h | h | h
  · have : ∀ x ∈ s%"\\frac", x ≠ '+' ∧ x ≠ '-' := by decide
    exact this x h
  · exact hb.notSign x h
  · exact hc.notSign x h

theorem slash_chars {b c : Str} (hb : ∀ x ∈ b, asciiDigit x = true) (hc : ∀ x ∈ c, asciiDigit x = true) :
    ∀ x ∈ b ++ '/' :: c, asciiDigit x = true ∨ x = '/' := by
  intro x hx
  simp only [List.mem_append, List.mem_cons] at hx
  rcases hx with h | rfl | h
  · exact .inl (hb x h)
  · exact .inr rfl
  · exact .inl (hc x h)

theorem head_sign {neg : Bool} {t : Str} {y : Char} (hy : y ≠ '-') (ht : t.head? ≠ some y) : (sign neg ++ t).head? ≠ some y := by
  cases neg with
  | false => simpa [sign] using ht
  | true => simp [sign]; exact fun h => hy h.symm

theorem slash_normal (E : Env X V S) (n : Nat) (neg : Bool) {b c : Str} (hb : ∀ x ∈ b, asciiDigit x = true)
    (hc : ∀ x ∈ c, asciiDigit x = true) :
    Always (stringNormalize E (n + 1) (sign neg ++ (b ++ '/' :: c))) (.str (sign neg ++ (b ++ '/' :: c))) := by
  have hch : ∀ x ∈ sign neg ++ (b ++ '/' :: c), asciiDigit x = true ∨ x = '/' ∨ x = '-' := by
    intro x hx
    rcases List.mem_append.1 hx with h | h
    · exact .inr (.inr (sign_mem h))
    · rcases slash_chars hb hc x h with h | h
      · exact .inl h
      · exact .inr (.inl h)
  have hno : ∀ x, asciiDigit x = false → x ≠ '/' → x ≠ '-' → x ∉ sign neg ++ (b ++ '/' :: c) := by
    intro x h1 h2 h3 hm
    rcases hch x hm with h | h | h
    · rw [h] at h1; cases h1
    · exact h2 h
    · exact h3 h
  have hlit : litChar E.U '/' = false := by simp [litChar, isSpace, isDigit]; decide
  have hs : Settled (sign neg ++ (b ++ '/' :: c)) := by
    refine ⟨mixed_calm ?_ (not_infix_of_not_mem '\\' (by simp) (hno _ (by decide) (by decide) (by decide))),
      hno _ (by decide) (by decide) (by decide), hno _ (by decide) (by decide) (by decide), ?_,
      not_infix_of_not_mem 'f' (by simp) (hno _ (by decide) (by decide) (by decide)), ?_⟩
    · intro x hx
      rcases hch x hx with h | rfl | rfl
      · simp [mixedChar, h]
      · decide
      · decide
    · intro x hx
      rcases hch x hx with h | rfl | rfl
      · simp only [asciiDigit, decide_eq_true_eq] at h
        simp [asciiUpper]; omega
      · decide
      · decide
    · intro h; exact hno _ (by decide) (by decide) (by decide) (List.mem_of_head? h)
  apply hs.fixed E n
  · unfold canonFloat; rw [pyFloat_none '/' (by simp) hlit]
  · exact strIsInt_false (x := '/') (by simp) hlit (by decide)

theorem frac_normal (E : Env X V S) (n : Nat) (neg : Bool) {b c' B C : Str} (hb : FracArg b B) (hc : FracArg c' C) :
    Always (stringNormalize E (n + 1) (sign neg ++ (s%"\\frac" ++ B ++ C))) (.str (sign neg ++ (s%"\\frac" ++ B ++ C))) := by
  have hd : ∀ c : Char, asciiDigit c = true → mixedChar c = true ∧ c ≠ '\\' ∧ c ≠ ' ' ∧ c ≠ '/' := by
    intro c h
    exact ⟨by simp [mixedChar, h], digit_ne h (by decide), digit_ne h (by decide), digit_ne h (by decide)⟩
  have hfa : ∀ {b B : Str}, FracArg b B → ∀ c ∈ B, mixedChar c = true ∧ c ≠ '\\' ∧ c ≠ ' ' ∧ c ≠ '/' := by
    intro b B h c hc
    rcases h.chars c hc with h | rfl | rfl
    · exact hd c h
    · decide
    · decide
  have hfr : ∀ c ∈ s%"\\frac", mixedChar c = true ∧ c ≠ ' ' ∧ c ≠ '/' := by decide
  have hch : ∀ x ∈ sign neg ++ (s%"\\frac" ++ B ++ C), mixedChar x = true ∧ x ≠ ' ' ∧ x ≠ '/' := by
    intro x hx
    simp only [List.append_assoc, List.mem_append] at hx
    rcases hx with h | h | h | h
    · rw [sign_mem h]; decide
    · exact hfr x h
    · exact ⟨(hfa hb x h).1, (hfa hb x h).2.2⟩
    · exact ⟨(hfa hc x h).1, (hfa hc x h).2.2⟩
  have eT : sign neg ++ (s%"\\frac" ++ B ++ C) = sign neg ++ '\\' :: (s%"frac" ++ (B ++ C)) := by simp
  have hA : '\\' ∉ sign neg := fun h => absurd (sign_mem h) (by decide)
  have hB : '\\' ∉ s%"frac" ++ (B ++ C) := by
    intro h
    simp only [List.mem_append] at h
    rcases h with h | h | h
    · exact absurd h (by decide)
    · exact (hfa hb _ h).2.1 rfl
    · exact (hfa hc _ h).2.1 rfl
  have honce : ∀ p, ¬ p <+: s%"frac" ++ (B ++ C) → ¬ '\\' :: p <:+: sign neg ++ (s%"\\frac" ++ B ++ C) := by
    intro p hp hi
    rw [eT] at hi
    exact hp (once_infix hA hB hi)
  have hno : ∀ z, mixedChar z = false → z ∉ sign neg ++ (s%"\\frac" ++ B ++ C) := fun z hz => not_mem_of (fun c hc => (hch c hc).1) hz
  have hblank : ' ' ∉ sign neg ++ (s%"\\frac" ++ B ++ C) := fun h => (hch _ h).2.1 rfl
  have hlit : litChar E.U '\\' = false := by simp [litChar, isSpace, isDigit]; decide
  apply always_normalize
  rw [calm_normBody E _ (mixed_calm (fun c hc => (hch c hc).1) (honce s%"\\" (by simp))), stripBlank_noblank hblank]
  have hfp : furtherPure E.U (sign neg ++ (s%"\\frac" ++ B ++ C)) = sign neg ++ (s%"\\frac" ++ B ++ C) := by
    have hcf : canonFloat E.U (sign neg ++ (s%"\\frac" ++ B ++ C)) = sign neg ++ (s%"\\frac" ++ B ++ C) := by
      unfold canonFloat; rw [pyFloat_none '\\' (by simp) hlit]
    have hpl : parseLatexStr (sign neg ++ (s%"\\frac" ++ B ++ C)) = sign neg ++ (s%"\\frac" ++ B ++ C) := by
      rw [parseLatexStr_eq]
      unfold latexReplace
      rw [replace_id _ _ _ (not_infix_of_not_mem 't' (by simp) (hno 't' (by decide))),
        replace_id s%"\\cfrac" _ _ (honce s%"cfrac" (by simp)),
        replace_id s%"\\dfrac" _ _ (honce s%"dfrac" (by simp)),
        replace_id _ _ _ (not_infix_of_not_mem '√' (by simp) (hno '√' (by decide))),
        replace_id _ _ _ (not_infix_of_not_mem 'π' (by simp) (hno 'π' (by decide))),
        replace_id _ _ _ (not_infix_of_not_mem '∞' (by simp) (hno '∞' (by decide))),
        replace_id _ _ _ (not_infix_of_not_mem '∪' (by simp) (hno '∪' (by decide))),
        replace_id _ _ _ (not_infix_of_not_mem '·' (by simp) (hno '·' (by decide))),
        replace_id _ _ _ (not_infix_of_not_mem '×' (by simp) (hno '×' (by decide)))]
      apply strip_of_no_space
      intro c h
      refine math_not_space (mixed_math (hch c h).1) (hch c h).2.1
    unfold furtherPure
    simp only [stripBraces_id (head_sign (neg := neg) (t := s%"\\frac" ++ B ++ C) (y := '{') (by decide) (by simp)), hcf, hpl, ite_self]
    rw [dash_id _ hblank, injectMixed_eq]
    have h1 : reSub (mixedRe1 E.U) plusSub (sign neg ++ (s%"\\frac" ++ B ++ C)) = sign neg ++ (s%"\\frac" ++ B ++ C) := by
      apply reSub_id_of_part (r := grp 2 (cat [plus (d E.U), c '/', plus (d E.U)])) (by simp)
      intro u hu hi
      obtain ⟨p, v, q, rfl, hv⟩ := lang_cat_mem (r := c '/') (by simp) hu
      rw [lang_c.1 hv] at hi
      exact (hch '/' (hi.subset (by simp))).2.2 rfl
    have h2 : reSub (mixedRe2 E.U) plusSub (sign neg ++ (s%"\\frac" ++ B ++ C)) = sign neg ++ (s%"\\frac" ++ B ++ C) := by
      apply reSub_of_lang
      rintro u ⟨p, q, rfl, hp, hq⟩ ⟨l, r, hlr⟩
      obtain ⟨hp0, hp1⟩ := lang_plus_chr hp
      obtain ⟨q1, v, q2, rfl, hv⟩ := lang_cat_mem (r := grp 2 (cat [lit s%"\\frac", digitOrBraced E.U 3, digitOrBraced E.U 4])) (by simp) hq
      obtain ⟨v1, v2, rfl, hv1, _⟩ := hv
      rw [lang_lit] at hv1
      subst hv1
      -- the digits stand before the only backslash, where there is only the sign
      rw [eT] at hlr
      have hpre : p ⊆ sign neg := by
        have hpb : '\\' ∉ l ++ (p ++ q1) := by
          intro hm
          have h1 := congrArg (List.count '\\') hlr
          simp only [List.count_append, List.count_cons_self, List.count_eq_zero.2 hA] at h1
          have h3 : List.count '\\' (s%"frac") = 0 := by decide
          have h4 : List.count '\\' (s%"\\frac") = 1 := by decide
          have h5 := List.count_eq_zero.2 hB
          simp only [List.count_append] at h5
          have h6 := List.count_pos_iff.2 hm
          simp only [List.count_append] at h6
          omega
        have e2 : (l ++ (p ++ q1)) ++ '\\' :: (s%"frac" ++ v2 ++ q2 ++ r) = sign neg ++ '\\' :: (s%"frac" ++ (B ++ C)) := by
          rw [← hlr]; simp
        have e3 := congrArg (List.takeWhile (· != '\\')) e2
        rw [takeWhile_until hpb, takeWhile_until hA] at e3
        rw [← e3]
        intro z hz; simp [hz]
      obtain ⟨z, hz⟩ := List.exists_mem_of_ne_nil p hp0
      have hzd := hp1 z hz
      rw [sign_mem (hpre hz)] at hzd
      exact absurd hzd (by simp [isDigit]; decide)
    rw [h1, h2, replace_id _ _ _ (not_infix_of_not_mem ' ' (by simp) hblank), mixed_lower (fun c hc => .inl (hch c hc).1)]
  have hci : strIsInt E.U (sign neg ++ (s%"\\frac" ++ B ++ C)) = false := strIsInt_false (x := '\\') (by simp) hlit (by decide)
  unfold further
  rw [hfp, canonInt_id E hci]
  exact Always.bind (Always.pure _) (Always.pure _)

/-! ### C82 -/

section
variable {K : Type} [Field K] [LinearOrder K] [IsStrictOrderedRing K]

/-- The outer characters of a written number. -/
def outer (c : Char) : Bool := asciiDigit c || (s%"-}\\").contains c

theorem outer_not_space {c : Char} (h : outer c = true) : isSpace c = false := by
  simp only [outer, Bool.or_eq_true] at h
  rcases h with h | h
  · exact isSpace_digit h
  · have : ∀ c ∈ s%"-}\\", isSpace c = false := by decide
    exact this c (List.contains_iff_mem.1 h)

theorem strip_outer {s : Str} (h1 : ∀ c, s.head? = some c → outer c = true) (h2 : ∀ c, s.getLast? = some c → outer c = true) : strip s = s :=
  strip_id _ (fun c h => outer_not_space (h1 c h)) (fun c h => outer_not_space (h2 c h))

theorem outer_digit {c : Char} (h : asciiDigit c = true) : outer c = true := by simp [outer, h]

theorem last_digits {r c : Str} (h0 : c ≠ []) (h : ∀ x ∈ c, asciiDigit x = true) : ∀ x, (r ++ c).getLast? = some x → outer x = true := by
  intro x hx
  rw [List.getLast?_append] at hx
  cases hl : c.getLast? with
  | none => simp at hl; exact absurd hl h0
  | some y =>
    rw [hl] at hx
    simp at hx; subst hx
    exact outer_digit (h _ (List.mem_of_getLast? hl))

theorem last_frac {r c C : Str} (h : FracArg c C) : ∀ x, (r ++ C).getLast? = some x → outer x = true := by
  intro x hx
  obtain ⟨y, h1, h2⟩ := mixed_last h r
  rw [h1] at hx
  simp at hx; subst hx
  rcases h2 with h2 | rfl
  · exact outer_digit h2
  · decide

theorem head_digits {b r : Str} (h0 : b ≠ []) (h : ∀ x ∈ b, asciiDigit x = true) : ∀ x, (b ++ r).head? = some x → outer x = true := by
  intro x hx
  obtain ⟨y, ys, rfl⟩ := List.exists_cons_of_ne_nil h0
  simp at hx; subst hx
  exact outer_digit (h _ (by simp))

theorem head_signed {neg : Bool} {t : Str} (h : ∀ x, t.head? = some x → outer x = true) : ∀ x, (sign neg ++ t).head? = some x → outer x = true := by
  intro x hx
  cases neg with
  | false => exact h x (by simpa [sign] using hx)
  | true => simp [sign] at hx; subst hx; decide

theorem NumText.strip {s : Str} {q : ℚ} (h : NumText s q) : Verif.strip s = s := by
  cases h with
  | decimal a _ =>
    exact strip_of_no_space _ fun c hc => by
      have := a.text_plain c hc
      simp only [plain, Bool.or_eq_true, beq_iff_eq] at this
      rcases this with (h | rfl) | rfl
      · exact isSpace_digit h
      · decide
      · decide
  | @slash neg b c hb0 hb hc0 hc hz =>
    apply strip_outer (head_signed (head_digits hb0 hb))
    rw [show sign neg ++ (b ++ '/' :: c) = (sign neg ++ (b ++ s%"/")) ++ c by simp]
    exact last_digits hc0 hc
  | @frac neg b c B C hb hc hz =>
    apply strip_outer (head_signed (by intro x hx; simp at hx; subst hx; decide))
    rw [show sign neg ++ (s%"\\frac" ++ B ++ C) = (sign neg ++ (s%"\\frac" ++ B)) ++ C by simp]
    exact last_frac hc
  | @mixed k a b c ha0 ha hb0 hb hc0 hc hz =>
    refine strip_outer ?_ (last_digits hc0 hc)
    simp only [List.append_assoc]
    exact head_digits ha0 ha
  | @mixedFrac k a b c B C ha0 ha hb hc hz =>
    refine strip_outer ?_ (last_frac hc)
    simp only [List.append_assoc]
    exact head_digits ha0 ha

omit [LinearOrder K] [IsStrictOrderedRing K] in
/-- The normal form of a written number is an atomic text that reads as the number. -/
theorem NumText.normal {E : Env X V S} {num : K → V} (hR : ReadsDecimals E num) (hF : ReadsFractions E num) (hE : PrintsIntegers E)
    {s : Str} {q : ℚ} (h : NumText s q) (n : Nat) :
    ∃ r, Always (stringNormalize E (n + 1) s) (.str r) ∧ Atomic E r ∧ '^' ∉ r ∧ Reads E r (num (q : K)) := by
  have hat : ∀ {r : Str}, (∀ c ∈ r, sumChar c) → '^' ∉ r := fun h => sumChar_no h (by decide) (by decide)
  have hsl : ∀ {b c : Str}, (∀ x ∈ b, asciiDigit x = true) → (∀ x ∈ c, asciiDigit x = true) → ∀ x ∈ b ++ '/' :: c, sumChar x := by
    intro b c hb hc x hx
    rcases slash_chars hb hc x hx with h | rfl
    · exact digit_sumChar h
    · exact .inl (by decide)
  have hfr : ∀ {b c B C : Str}, FracArg b B → FracArg c C → ∀ x ∈ s%"\\frac" ++ B ++ C, sumChar x := by
    intro b c B C hb hc x hx
    simp only [List.append_assoc, List.mem_append] at hx
    rcases hx with h | h | h
    · have : ∀ x ∈ s%"\\frac", mixedChar x = true := by decide
      exact .inl (this x h)
    · exact hb.sumChar x h
    · exact hc.sumChar x h
  have dsl : ∀ {b c : Str}, (∀ x ∈ b, asciiDigit x = true) → (∀ x ∈ c, asciiDigit x = true) → ((b ++ '/' :: c).map bracketDelta).sum = 0 := by
    intro b c hb hc
    simp only [List.map_append, List.map_cons, List.sum_append, List.sum_cons, delta_digits hb, delta_digits hc]
    decide
  have dfr : ∀ {b c B C : Str}, FracArg b B → FracArg c C → ((s%"\\frac" ++ B ++ C).map bracketDelta).sum = 0 := by
    intro b c B C hb hc
    simp only [List.map_append, List.sum_append, hb.delta, hc.delta]
    decide
  cases h with
  | decimal a ha =>
    obtain ⟨b, hv, hn⟩ := normalize_literal E hE a ha n
    have hno : ∀ x, plain x = false → x ∉ b.text := fun x hx => not_mem_of b.text_plain hx
    refine ⟨b.text, hn, ⟨b.text_ne, ?_, splitTuple_plain b.text_plain b.text_ne, ?_⟩, hno _ (by decide), ?_⟩
    · intro c hc
      refine ⟨?_, ?_, ?_, ?_⟩ <;> rintro rfl <;> exact hno _ (by decide) hc
    · exact (contains_eq_false _ _).2 (not_infix_of_not_mem 'm' (by simp) (hno _ (by decide)))
    · rw [← hv]; exact hR b
  | @slash neg b c hb0 hb hc0 hc hz =>
    have hch : ∀ x ∈ sign neg ++ (b ++ '/' :: c), sumChar x := by
      intro x hx
      rcases List.mem_append.1 hx with h | h
      · exact sign_sumChar x h
      · exact hsl hb hc x h
    refine ⟨_, slash_normal E n neg hb hc, atomic_sum E (by simp) hch ?_ ?_, hat hch, ?_⟩
    · rw [List.map_append, List.sum_append, delta_sign, dsl hb hc]; rfl
    · obtain ⟨y, ys, rfl⟩ := List.exists_cons_of_ne_nil hb0
      exact head_sign (by decide) (by simp; exact digit_ne (hb y (by simp)) (by decide))
    · exact hF _ _ (evalSum_sign neg (slash_notSign hb hc) (evalTerm_quot hb0 hb hc0 hc hz)) (.inl (by simp))
  | @frac neg b c B C hb hc hz =>
    have hch : ∀ x ∈ sign neg ++ (s%"\\frac" ++ B ++ C), sumChar x := by
      intro x hx
      rcases List.mem_append.1 hx with h | h
      · exact sign_sumChar x h
      · exact hfr hb hc x h
    refine ⟨_, frac_normal E n neg hb hc, atomic_sum E (by simp) hch ?_ (head_sign (by decide) (by simp)), hat hch, ?_⟩
    · rw [List.map_append, List.sum_append, delta_sign, dfr hb hc]; rfl
    · exact hF _ _ (evalSum_sign neg (frac_notSign hb hc) (evalTerm_frac hb hc hz)) (.inr (by simp))
  | @mixed k a b c ha0 ha hb0 hb hc0 hc hz =>
    have hn := mixed1_normal E n false k ha0 ha hb0 hb hc0 hc
    rw [show sign false ++ (a ++ (blanks (k + 1) ++ (b ++ '/' :: c))) = a ++ blanks (k + 1) ++ b ++ s%"/" ++ c by simp [sign],
      show sign false ++ (a ++ '+' :: (b ++ '/' :: c)) = a ++ '+' :: (b ++ '/' :: c) by simp [sign]] at hn
    have e := evalSum_plus false ha0 ha (slash_notSign hb hc) (evalTerm_quot hb0 hb hc0 hc hz)
    simp only [Bool.false_eq_true, if_false, List.nil_append] at e
    have hch : ∀ x ∈ a ++ '+' :: (b ++ '/' :: c), sumChar x := by
      intro x hx
      rcases List.mem_append.1 hx with h | h
      · exact digit_sumChar (ha x h)
      · rcases List.mem_cons.1 h with rfl | h
        · exact .inr rfl
        · exact hsl hb hc x h
    refine ⟨_, hn, atomic_sum E (by simp) hch ?_ ?_, hat hch, hF _ _ (by simpa using e) (.inl (by simp))⟩
    · rw [List.map_append, List.sum_append, delta_digits ha, List.map_cons, List.sum_cons, dsl hb hc]; rfl
    · obtain ⟨y, ys, rfl⟩ := List.exists_cons_of_ne_nil ha0
      simp; exact digit_ne (ha y (by simp)) (by decide)
  | @mixedFrac k a b c B C ha0 ha hb hc hz =>
    have hn := mixed2_normal E n false k ha0 ha hb hc
    rw [show sign false ++ (a ++ (blanks k ++ (s%"\\frac" ++ B ++ C))) = a ++ blanks k ++ s%"\\frac" ++ B ++ C by simp [sign],
      show sign false ++ (a ++ '+' :: (s%"\\frac" ++ B ++ C)) = a ++ '+' :: (s%"\\frac" ++ B ++ C) by simp [sign]] at hn
    have e := evalSum_plus false ha0 ha (frac_notSign hb hc) (evalTerm_frac hb hc hz)
    simp only [Bool.false_eq_true, if_false, List.nil_append] at e
    have hch : ∀ x ∈ a ++ '+' :: (s%"\\frac" ++ B ++ C), sumChar x := by
      intro x hx
      rcases List.mem_append.1 hx with h | h
      · exact digit_sumChar (ha x h)
      · rcases List.mem_cons.1 h with rfl | h
        · exact .inr rfl
        · exact hfr hb hc x h
    refine ⟨_, hn, atomic_sum E (by simp) hch ?_ ?_, hat hch, hF _ _ (by simpa using e) (.inr (by simp))⟩
    · rw [List.map_append, List.sum_append, delta_digits ha, List.map_cons, List.sum_cons, dfr hb hc]; rfl
    · obtain ⟨y, ys, rfl⟩ := List.exists_cons_of_ne_nil ha0
      simp; exact digit_ne (ha y (by simp)) (by decide)

/-- **C82** (partial: of the negative numbers only literals and fractions; negative mixed numbers are misread, see
`C82_refuted`; decimal literals are those of C70).  However two numbers are written, as decimals, fractions or mixed numbers, they
are judged equivalent exactly if the values are within the tolerance relative to the reference. -/
theorem C82_by_value_partial {E : Env X V S} {num : K → V} (H : ExactNumbers E num) (hR : ReadsDecimals E num) (hF : ReadsFractions E num)
    (hE : PrintsIntegers E) {a b : Str} {p q : ℚ} (ha : NumText a p) (hb : NumText b q) (n : Nat) (verbose : Bool) :
    Always (isEquiv E (n + 2) (some a) (some b) verbose) (@decide (WithinTolerance (p : K) (q : K)) (Classical.dec _)) := by
  obtain ⟨x, h1, h2, h3, h4⟩ := ha.normal hR hF hE n
  obtain ⟨y, g1, g2, g3, g4⟩ := hb.normal hR hF hE n
  exact isEquiv_by_value H n verbose ha.strip hb.strip h1 g1 h2 g2 h3 g3 h4 g4

/-- However one number is written twice, the two texts are judged equivalent. -/
theorem C82_spelling {E : Env X V S} {num : K → V} (H : ExactNumbers E num) (hR : ReadsDecimals E num) (hF : ReadsFractions E num)
    (hE : PrintsIntegers E) {a b : Str} {q : ℚ} (ha : NumText a q) (hb : NumText b q) (n : Nat) (verbose : Bool) :
    Always (isEquiv E (n + 2) (some a) (some b) verbose) true := by
  have := C82_by_value_partial H hR hF hE ha hb n verbose
  rwa [withinTolerance_refl] at this

end

/-! ### Examples -/

/-- The toy CAS with a parser for sums of fractions. -/
def sumEnv : Env Unit TVal TSet :=
  { ratEnv with l2s := fun s => if '/' ∈ s ∨ '\\' ∈ s then optCall ((evalSum s).map .num) else ratEnv.l2s s }

def sumExact : ExactNumbers (K := ℚ) sumEnv TVal.num := { ratExact with }

theorem sumEnv_l2s {s : Str} (h1 : '/' ∉ s) (h2 : '\\' ∉ s) : sumEnv.l2s s = ratEnv.l2s s := by
  show (if '/' ∈ s ∨ '\\' ∈ s then _ else _) = _
  rw [if_neg (by simp [h1, h2])]

theorem readsDecimals_sumEnv : ReadsDecimals (K := ℚ) sumEnv TVal.num := by
  intro a
  obtain ⟨h1, h2, h3, h4⟩ := readsDecimals_ratEnv a
  have e := sumEnv_l2s (s := a.text) (not_mem_of a.text_plain (by decide)) (not_mem_of a.text_plain (by decide))
  exact ⟨by rw [e]; exact h1, h2, h3, by rw [e]; exact h4⟩

theorem readsFractions_sumEnv : ReadsFractions (K := ℚ) sumEnv TVal.num := by
  intro r q h hm
  have hret : Ret (sumEnv.l2s r) (.num (q : ℚ)) := fun x => ⟨x, by
    show (if '/' ∈ r ∨ '\\' ∈ r then optCall ((evalSum r).map .num) else ratEnv.l2s r) x = _
    rw [if_pos hm, h]; simp [optCall]⟩
  exact ⟨fun x => .inr (hret x), fun x => .inl ⟨_, _, rfl⟩, fun x => .inl ⟨_, _, rfl⟩, .inl hret⟩

theorem printsIntegers_sumEnv : PrintsIntegers sumEnv := by
  intro n x
  have := printsIntegers_ratEnv n x
  have hp := intStr_allPlain n
  rw [sumEnv_l2s (not_mem_of hp (by decide)) (not_mem_of hp (by decide))]
  exact this

/-- `1\frac{1}{4}` and `1.25`. -/
example : Always (isEquiv sumEnv 2 (some s%"1\\frac{1}{4}") (some s%"1.25") false) true := by
  have h1 : NumText s%"1\\frac{1}{4}" (1 + 1 / 4) := by
    have := NumText.mixedFrac 0 (a := s%"1") (b := s%"1") (c := s%"4") (B := s%"{1}") (C := s%"{4}") (by decide) (by decide)
      (.braced _ (by decide) (by decide)) (.braced _ (by decide) (by decide)) (by decide)
    norm_num [show decVal s%"1" = 1 from rfl, show decVal s%"4" = 4 from rfl] at this ⊢
    exact this
  have h2 : NumText s%"1.25" (1 + 1 / 4) := by
    have := NumText.decimal (Literal.mk? false s%"1" s%"25" rfl rfl) (.inr ⟨by
        norm_num [Literal.mag, Literal.mk?, show decVal s%"125" = 125 from rfl], by
        intro z
        norm_num [Literal.mag, Literal.mk?, show decVal s%"125" = 125 from rfl]
        rcases Nat.lt_or_ge z 2 with h | h
        · have : (z : ℚ) ≤ 1 := by exact_mod_cast Nat.lt_succ_iff.1 h
          rw [abs_of_pos (by linarith)]; linarith
        · have : (2 : ℚ) ≤ z := by exact_mod_cast h
          rw [abs_of_neg (by linarith)]; linarith⟩)
    norm_num [Literal.value, Literal.mag, Literal.mk?, show decVal s%"125" = 125 from rfl] at this ⊢
    exact this
  exact C82_spelling sumExact readsDecimals_sumEnv readsFractions_sumEnv printsIntegers_sumEnv h1 h2 0 false

example : (isEquivStr sumEnv 2 s%"\\frac13" s%"0.3333" false ⟨(), []⟩).1 = .ok true := by decide +kernel
example : (isEquivStr sumEnv 2 s%"-1/3" s%"-\\frac{2}{7}" false ⟨(), []⟩).1 = .ok false := by decide +kernel

/-- For negative mixed numbers the claim fails: `-1 1/2` is judged equivalent to `-0.5` and not to `-1.5`. -/
theorem C82_refuted :
    (isEquivStr sumEnv 2 s%"-1 1/2" s%"-0.5" false ⟨(), []⟩).1 = .ok true ∧
      (isEquivStr sumEnv 2 s%"-1 1/2" s%"-1.5" false ⟨(), []⟩).1 = .ok false := by
  constructor <;> decide +kernel

end Verif
