import Verif.Props.FinalStage
import Verif.Props.Readings
/-
The last stage of `string_normalize` on texts of particular shapes.
-/

namespace Verif
open Re

variable {X V S : Type}

theorem canonFloat_small (U : Uni) (n : ℤ) (hn : n.natAbs ≤ 2 ^ 53) : canonFloat U (intStr n) = intStr n := by
  obtain ⟨z, hz, h⟩ := canonFloat_intStr U n
  have : z = n := by
    rcases h with ⟨_, h⟩ | ⟨_, h1, h2, h3⟩
    · exact h
    · have := h3 n.natAbs (isDouble_nat hn)
      rw [sub_self, abs_zero, abs_nonpos_iff, sub_eq_zero] at this
      have : z.natAbs = n.natAbs := by exact_mod_cast this
      omega
  rw [hz, this]

/-- The last stage on a plain number that the integer conversion turns into the integer `z`. -/
theorem further_int (E : Env X V S) (hE : PrintsIntegers E) (s : Str) (z : ℤ) (hs : ∀ c ∈ s, plain c = true)
    (hz : canonFloat E.U s = intStr z) : Always (further E s) (intStr z) := by
  unfold further
  rw [furtherPure_plain E.U _ hs (by rw [hz]; exact intStr_allPlain z), hz]
  exact canonInt_intStr E hE z

theorem further_small (E : Env X V S) (hE : PrintsIntegers E) (n : ℤ) (hn : n.natAbs ≤ 2 ^ 53) :
    Always (further E (intStr n)) (intStr n) :=
  further_int E hE _ n (intStr_allPlain n) (canonFloat_small E.U n hn)

/-- A character that cannot be part of a number with thousands separators survives their removal. -/
theorem mem_stripCommas {U : Uni} {s : Str} {x : Char} (hx : x ∈ s) (h1 : isDigit U x = false) (h2 : x ≠ ',') (h3 : x ≠ ' ') :
    x ∈ stripCommas U s := by
  obtain ⟨a, b, rfl⟩ := List.append_of_mem hx
  have hl : (commasRe U).Local x := by
    have hd : (d U).Local x := h1
    exact ⟨⟨hd, ⟨hd, hd, trivial⟩, trivial⟩, ⟨local_c h2, ⟨local_c h3, trivial⟩, hd, hd, hd⟩,
      ⟨local_c h2, ⟨local_c h3, trivial⟩, hd, hd, hd⟩⟩
  unfold stripCommas
  rw [reSub_barrier hl (fun _ _ _ _ => rfl)]
  simp

theorem strIsInt_false {U : Uni} {s : Str} {x : Char} (hx : x ∈ s) (h1 : litChar U x = false) (h2 : x ≠ ',') : strIsInt U s = false := by
  have hd : isDigit U x = false := by
    by_contra h; rw [Bool.not_eq_false] at h; rw [litChar_digit h] at h1; cases h1
  have hb : x ≠ ' ' := by rintro rfl; simp [litChar, isSpace] at h1
  unfold strIsInt
  rw [pyFloat_none x (mem_stripCommas hx hd h2 hb) h1]

theorem canonInt_id (E : Env X V S) {s : Str} (h : strIsInt E.U s = false) : canonInt E s = pure s := by
  unfold canonInt
  rw [h]; simp

/-- `re.sub("- *", "-", s)` changes nothing if there is no minus sign. -/
theorem dash_none {s : Str} (h : '-' ∉ s) : reSubConst (.seq (c '-') (many (c ' '))) s%"-" s = s := by
  apply reSubConst_of_lang
  rintro u ⟨a, b, rfl, ha, _⟩ hi
  rw [lang_c.1 ha] at hi
  exact h (hi.subset (by simp))

theorem injectMixed_id {U : Uni} {s : Str} (h1 : '/' ∉ s) (h2 : ¬ s%"\\frac" <:+: s) : injectMixed U s = s := by
  unfold injectMixed
  simp only
  have e1 : reSub (mixedRe1 U) (fun _ t => t.groupD 1 ++ s%"+" ++ t.groupD 2) s = s := by
    refine reSub_id_of_part (r := grp 2 (cat [plus (d U), c '/', plus (d U)])) (by simp) ?_
    intro u hu hi
    obtain ⟨a, v, b, rfl, hv⟩ := lang_cat_mem (r := c '/') (by simp) hu
    rw [lang_c.1 hv] at hi
    exact h1 (hi.subset (by simp))
  rw [e1]
  refine reSub_id_of_part (r := grp 2 (cat [lit s%"\\frac", digitOrBraced U 3, digitOrBraced U 4])) (by simp) ?_
  intro u hu hi
  obtain ⟨a, v, b, rfl, hv⟩ := lang_cat_mem (r := lit s%"\\frac") (by simp) hu
  rw [lang_lit.1 hv] at hi
  exact h2 (List.IsInfix.trans ⟨a, b, rfl⟩ hi)

theorem stripBraces_id {s : Str} (h : s.head? ≠ some '{') : stripBraces s = s := by
  unfold stripBraces
  rw [if_neg]
  intro hc
  simp only [Bool.and_eq_true, beq_iff_eq] at hc
  exact h hc.1.2

/-- The last stage on a text that is neither a number nor LaTeX: blanks are removed and capitals lowered. -/
theorem furtherPure_text {U : Uni} {s : Str} (h1 : s.head? ≠ some '{') (h2 : pyFloat U s = none) (h3 : '\\' ∉ s) (h4 : '-' ∉ s)
    (h5 : '/' ∉ s) (h6 : ∀ c ∈ s, c.toNat < 128 ∧ asciiUpper c = false) :
    furtherPure U s = s.filter (· ≠ ' ') := by
  have h7 : canonFloat U s = s := by unfold canonFloat; rw [h2]
  unfold furtherPure
  simp only [stripBraces_id h1, h7]
  rw [(contains_eq_false s%"\\" s).2 (not_infix_of_not_mem '\\' (by simp) h3)]
  simp only [Bool.false_eq_true, if_false]
  rw [dash_none h4, injectMixed_id h5 (not_infix_of_not_mem '\\' (by simp) h3), replace_one_nil]
  apply lower_id
  intro x hx
  exact h6 x (List.mem_filter.1 hx).1

/-- An alphabet without control characters. -/
theorem noControl_alpha {A : Char → Bool} {s : Str} (hs : ∀ c ∈ s, A c = true)
    (h : ∀ k ∈ ([7, 8, 9, 12, 13] : List Nat), A (Char.ofNat k) = false) : noControl s := by
  intro x hx hm
  have h1 := h _ hm
  rw [Char.ofNat_toNat, hs x hx] at h1
  cases h1

/-- A text whose only `x` is at a known place. -/
theorem once_infix {x : Char} {p a b : Str} (ha : x ∉ a) (hb : x ∉ b) (h : x :: p <:+: a ++ x :: b) : p <+: b := by
  obtain ⟨u, v, e⟩ := h
  have hu : x ∉ u := by
    intro hm
    have h1 : (u ++ x :: p ++ v).count x = (a ++ x :: b).count x := by rw [e]
    simp only [List.count_append, List.count_cons_self, List.count_eq_zero.2 ha, List.count_eq_zero.2 hb] at h1
    have := List.count_pos_iff.2 hm
    omega
  have : u = a := by
    have e' : u ++ x :: (p ++ v) = a ++ x :: b := by rw [← e]; simp
    clear e
    induction u generalizing a with
    | nil =>
      cases a with
      | nil => rfl
      | cons y ys =>
        simp at e'
        exact absurd (by simp [e'.1]) ha
    | cons z zs ih =>
      cases a with
      | nil =>
        simp at e'
        exact absurd (by simp [e'.1]) hu
      | cons y ys =>
        simp only [List.cons_append, List.cons.injEq] at e'
        rw [e'.1, ih (fun h => ha (by simp [h])) (fun h => hu (by simp [h])) e'.2]
  subst this
  have e' : u ++ x :: (p ++ v) = u ++ x :: b := by rw [← e]; simp
  have := List.append_cancel_left e'
  simp at this
  exact ⟨v, this⟩

end Verif
