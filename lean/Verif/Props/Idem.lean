import Verif.Props.AndOr
import Verif.Props.Degrees
import Verif.Spec.Toy
/-
Property C30: normalising a normal form.
-/

namespace Verif
open Re

variable {X V S : Type}

/-- Ordinary mathematical answers (`Calm`) in lower case, without blanks, commas and fractions, not starting with a brace. -/
structure Settled (s : Str) : Prop where
  calm : Calm s
  noBlank : ' ' ∉ s
  noComma : ',' ∉ s
  noUpper : ∀ c ∈ s, asciiUpper c = false
  noFrac : ¬ s%"frac" <:+: s
  head : s.head? ≠ some '{'

theorem math_ascii {c : Char} (h : mathChar c = true) : 32 ≤ c.toNat ∧ c.toNat < 127 := by
  simp only [mathChar, Bool.and_eq_true, decide_eq_true_eq] at h
  exact ⟨h.1.1, h.1.2⟩

theorem math_not_space {c : Char} (h : mathChar c = true) (hb : c ≠ ' ') : isSpace c = false := by
  have := math_ascii h
  have h32 : c.toNat ≠ 32 := fun e => hb (Char.ext (UInt32.toNat_inj.1 e))
  simp only [isSpace]
  simp
  omega

theorem Settled.stripCommas {U : Uni} {s : Str} (h : Settled s) : stripCommas U s = s := by
  apply reSub_of_lang
  rintro u ⟨a, b, rfl, _, hb⟩ hi
  obtain ⟨b1, b2, rfl, hb1, _⟩ := hb
  obtain ⟨p, v, q, rfl, hv⟩ := lang_cat_mem (r := c ',') (by simp) hb1
  rw [lang_c.1 hv] at hi
  exact h.noComma (hi.subset (by simp : ',' ∈ _))

theorem Settled.latexReplace {s : Str} (h : Settled s) : latexReplace s = s := by
  have hf : ∀ p : Str, s%"frac" <:+: p → ∀ new, replace p new s = s := fun p hp new => replace_id _ _ _ (fun hi => h.noFrac (hp.trans hi))
  have hu : ∀ x : Char, mathChar x = false → ∀ new, replace [x] new s = s := fun x hx new =>
    replace_id _ _ _ (not_infix_of_not_mem x (by simp) (math_no h.calm.chars hx))
  unfold Verif.latexReplace
  rw [hf s%"\\tfrac" ⟨s%"\\t", [], rfl⟩, hf s%"\\cfrac" ⟨s%"\\c", [], rfl⟩, hf s%"\\dfrac" ⟨s%"\\d", [], rfl⟩,
    hu '√' (by decide), hu 'π' (by decide), hu '∞' (by decide), hu '∪' (by decide), hu '·' (by decide), hu '×' (by decide)]

theorem Settled.injectMixed {U : Uni} {s : Str} (h : Settled s) : injectMixed U s = s := by
  rw [Verif.injectMixed]
  have e1 : ∀ f, reSub (mixedRe1 U) f s = s := by
    intro f
    refine reSub_id_of_part (r := plus (c ' ')) (by simp) ?_
    rintro u ⟨a, b, rfl, ha, _⟩ hi
    rw [lang_c.1 ha] at hi
    exact h.noBlank (hi.subset (by simp))
  have e2 : ∀ f, reSub (mixedRe2 U) f s = s := by
    intro f
    refine reSub_id_of_part (r := grp 2 (cat [lit s%"\\frac", digitOrBraced U 3, digitOrBraced U 4])) (by simp) ?_
    intro u hu hi
    obtain ⟨p, v, q, rfl, hv⟩ := lang_cat_mem (r := lit s%"\\frac") (by simp) hu
    rw [lang_lit.1 hv] at hi
    exact h.noFrac (List.IsInfix.trans ⟨p ++ s%"\\", q, by simp⟩ hi)
  simp only [e1, e2]

/-- The last stage on such a text. -/
theorem Settled.furtherPure {U : Uni} {s : Str} (h : Settled s) (hc : canonFloat U s = s) : furtherPure U s = s := by
  have hp : (if contains s%"\\" s = true then parseLatexStr s else s) = s := by
    split
    · rw [parseLatexStr_eq, h.latexReplace]
      apply strip_id
      · intro c hc'
        have hm := List.mem_of_head? hc'
        exact math_not_space (h.calm.chars c hm) (by rintro rfl; exact h.noBlank hm)
      · intro c hc'
        have hm := List.mem_of_getLast? hc'
        exact math_not_space (h.calm.chars c hm) (by rintro rfl; exact h.noBlank hm)
    · rfl
  unfold Verif.furtherPure
  simp only [stripBraces_id h.head, hc, hp]
  rw [dash_id _ h.noBlank, h.injectMixed, replace_id _ _ _ (not_infix_of_not_mem ' ' (by simp) h.noBlank)]
  apply lower_id
  intro c hc'
  exact ⟨by have := math_ascii (h.calm.chars c hc'); omega, h.noUpper c hc'⟩

/-- Either the text reads as an integer, or the last stage leaves it alone. -/
theorem Settled.cases {U : Uni} {s : Str} (h : Settled s) :
    (∃ x z, pyFloat U s = some x ∧ isIntFloat x = true ∧ x.roundInt = some z ∧ canonFloat U s = intStr z) ∨
      (canonFloat U s = s ∧ strIsInt U s = false) := by
  have he : contains s%"e" s = false := (contains_eq_false _ _).2 (not_infix_of_not_mem 'e' (by simp) (math_no h.calm.chars rfl))
  unfold canonFloat strIsInt
  rw [h.stripCommas]
  cases hf : pyFloat U s with
  | none => right; simp
  | some x =>
    simp only
    by_cases hi : isIntFloat x = true
    · left
      have : ∃ z, x.roundInt = some z := by
        cases x with
        | nan => exact absurd hi (by decide)
        | inf b => exact absurd hi (by cases b <;> decide)
        | fin b m e => exact ⟨_, rfl⟩
      obtain ⟨z, hz⟩ := this
      refine ⟨x, z, rfl, hi, hz, ?_⟩
      rw [hi, he, hz]; simp
    · right
      rw [Bool.not_eq_true] at hi
      rw [hi]; simp

theorem Settled.stripBlank {s : Str} (h : Settled s) : stripBlank s = s := stripBlank_noblank h.noBlank

theorem Settled.fixed (E : Env X V S) (k : Nat) {s : Str} (h : Settled s) (h1 : canonFloat E.U s = s) (h2 : strIsInt E.U s = false) :
    Always (stringNormalize E (k + 1) s) (.str s) := by
  apply always_normalize
  rw [calm_normBody E _ h.calm, h.stripBlank]
  unfold further
  rw [h.furtherPure h1, canonInt_id E h2]
  exact Always.bind (Always.pure _) (Always.pure _)

theorem Settled.int (E : Env X V S) (hE : PrintsIntegers E) (k : Nat) {s : Str} (h : Settled s) {z : ℤ} (h1 : canonFloat E.U s = intStr z) :
    Always (stringNormalize E (k + 1) s) (.str (intStr z)) := by
  apply always_normalize
  rw [calm_normBody E _ h.calm, h.stripBlank]
  have hno : ∀ x, plain x = false → x ∉ intStr z := fun x hx hm => by rw [intStr_allPlain z x hm] at hx; cases hx
  have hp : Verif.furtherPure E.U s = intStr z := by
    unfold Verif.furtherPure
    simp only [stripBraces_id h.head, h1]
    rw [(contains_eq_false s%"\\" _).2 (not_infix_of_not_mem '\\' (by simp) (hno _ (by decide)))]
    simp only [Bool.false_eq_true, if_false]
    rw [dash_id _ (hno _ (by decide)), injectMixed_id (hno _ (by decide)) (not_infix_of_not_mem '\\' (by simp) (hno _ (by decide))),
      replace_id _ _ _ (not_infix_of_not_mem ' ' (by simp) (hno _ (by decide)))]
    exact lower_id _ _ _ (fun c hc => plain_ascii (intStr_allPlain z c hc))
  unfold further
  rw [hp]
  exact Always.bind (canonInt_intStr E hE z) (Always.pure _)

/-- A rounded float is representable. -/
theorem roundInt_double {x : F64} (hw : x.WF) {z : ℤ} (h : x.roundInt = some z) : IsDouble z.natAbs := by
  cases x with
  | nan => cases h
  | inf b => cases h
  | fin b m e =>
    have hz : z.natAbs = rneDiv (F64.num m e) (F64.den e) := by
      simp only [F64.roundInt, Option.some.injEq] at h
      cases b <;> simp at h <;> omega
    rw [hz]
    obtain ⟨w1, w2, -, -⟩ := hw
    rcases le_or_gt 0 e with he | he
    · refine ⟨m, e, w1, w2, ?_⟩
      rw [← num_den]
      have hd : F64.den e = 1 := by unfold F64.den pow2neg; rw [show (-e).toNat = 0 by omega, pow_zero]
      have := rneDiv_exact (F64.num m e) 1 (by norm_num)
      rw [Nat.mul_one] at this
      rw [hd, this]
      simp
    · apply isDouble_nat
      have hn : F64.num m e = m := by unfold F64.num pow2pos; rw [show e.toNat = 0 by omega]; simp
      have hd : 2 ≤ F64.den e := by
        unfold F64.den pow2neg
        calc 2 = 2 ^ 1 := rfl
          _ ≤ 2 ^ (-e).toNat := Nat.pow_le_pow_right (by norm_num) (by omega)
      rw [hn]
      have h1 := rneDiv_near m (F64.den e) (den_pos e)
      have hdq : (2 : ℚ) ≤ F64.den e := by exact_mod_cast hd
      have h2 : (m : ℚ) / F64.den e ≤ m / 2 := div_le_div_of_nonneg_left (by positivity) (by norm_num) hdq
      have h3 : (m : ℚ) ≤ 2 ^ 53 := by exact_mod_cast w1
      have h4 : ((rneDiv m (F64.den e) : ℕ) : ℚ) ≤ 2 ^ 53 := by
        have := (abs_le.1 h1).2
        linarith
      exact_mod_cast h4

theorem canonFloat_double (U : Uni) {z : ℤ} (h : IsDouble z.natAbs) : canonFloat U (intStr z) = intStr z := by
  obtain ⟨z', h1, h2⟩ := canonFloat_intStr U z
  rw [h1]
  rcases h2 with ⟨_, rfl⟩ | ⟨_, g1, g2, g3⟩
  · rfl
  · have := g3 _ h
    rw [sub_self, abs_zero] at this
    have he : (z'.natAbs : ℚ) = z.natAbs := by linarith [abs_nonpos_iff.1 this]
    have he' : z'.natAbs = z.natAbs := by exact_mod_cast he
    congr 1
    omega

/-! ### C30 -/

/-- C30 on settled texts: the normal form is reached after one pass. -/
theorem C30_idempotent_partial (E : Env X V S) (hE : PrintsIntegers E) (k : Nat) {s : Str} (h : Settled s) :
    ∃ r, Always (stringNormalize E (k + 1) s) (.str r) ∧ Always (stringNormalize E (k + 1) r) (.str r) := by
  rcases h.cases (U := E.U) with ⟨x, z, h1, h2, h3, h4⟩ | ⟨h1, h2⟩
  · exact ⟨intStr z, h.int E hE k h4,
      normalize_intStr E hE z z (canonFloat_double E.U (roundInt_double (pyFloat_WF E.U s x h1) h3)) k⟩
  · exact ⟨s, h.fixed E k h1 h2, h.fixed E k h1 h2⟩

/-- Settled texts that do not read as an integer are themselves normal forms. -/
theorem C30_fixed (E : Env X V S) (k : Nat) {s : Str} (h : Settled s) (hi : ∀ x, pyFloat E.U s = some x → isIntFloat x = false) :
    Always (stringNormalize E (k + 1) s) (.str s) := by
  rcases h.cases (U := E.U) with ⟨x, z, h1, h2, _, _⟩ | ⟨h1, h2⟩
  · rw [hi x h1] at h2; cases h2
  · exact h.fixed E k h1 h2

instance (s : Str) : Decidable (Calm s) := decidable_of_iff ((∀ c ∈ s, mathChar c = true) ∧ ∀ p ∈ special, contains p s = false)
  ⟨fun h => ⟨h.1, fun p hp => (contains_eq_false p s).1 (h.2 p hp)⟩, fun h => ⟨h.chars, fun p hp => (contains_eq_false p s).2 (h.words p hp)⟩⟩

example : Settled s%"x^2+\\sqrt{2}-(3/4)y" :=
  ⟨by decide +kernel, by decide, by decide, by decide, (contains_eq_false _ _).1 (by decide +kernel), by decide⟩
example : (stringNormalize ratEnv 1 s%"x^2+\\sqrt{2}-(3/4)y" ⟨(), []⟩).1 = .ok (.str s%"x^2+\\sqrt{2}-(3/4)y") := by decide +kernel
example : Settled s%"-007.00" := ⟨by decide +kernel, by decide, by decide, by decide, (contains_eq_false _ _).1 (by decide +kernel), by decide⟩
example : (stringNormalize ratEnv 1 s%"-007.00" ⟨(), []⟩).1 = .ok (.str s%"-7") := by decide +kernel

/-- The full statement fails: only one pair of braces is removed, and `(\d+) *\frac..` looks at every digit only once, so that the
second pass changes the value. -/
theorem C30_refuted :
    ((stringNormalize ratEnv 1 s%"{{x}}" ⟨(), []⟩).1 = .ok (.str s%"{x}") ∧
      (stringNormalize ratEnv 1 s%"{x}" ⟨(), []⟩).1 = .ok (.str s%"x")) ∧
    ((stringNormalize ratEnv 1 s%"1\\frac23\\frac45" ⟨(), []⟩).1 = .ok (.str s%"1+\\frac23\\frac45") ∧
      (stringNormalize ratEnv 1 s%"1+\\frac23\\frac45" ⟨(), []⟩).1 = .ok (.str s%"1+\\frac23+\\frac45")) := by
  refine ⟨⟨?_, ?_⟩, ?_, ?_⟩ <;> decide +kernel

end Verif
