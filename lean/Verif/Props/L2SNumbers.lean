import Mathlib.Tactic.Ring
import Mathlib.Tactic.FieldSimp
import Mathlib.Tactic.NormNum
import Verif.Model.Latex2Sympy
import Verif.Py.NumLemmas
import Verif.Py.ReplaceLemmas
/-
Numeric literals of the LaTeX converter: the text of a literal is converted to its exact value.
-/

namespace Verif.L2S
open Verif

/-! ### Specification -/

/-- value of digits before the decimal point, most significant first -/
def intPart : List (Fin 10) → Rat
  | [] => 0
  | d :: ds => (d.val : Rat) * 10 ^ ds.length + intPart ds

/-- value of digits after the decimal point -/
def fracPart : List (Fin 10) → Rat
  | [] => 0
  | d :: ds => ((d.val : Rat) + fracPart ds) / 10

/-- the digits as text -/
def digitText (ds : List (Fin 10)) : Str := ds.map fun d => digitChar d.val

/-- `s` is a decimal literal, possibly with commas between its digits, of value `q`. -/
inductive Decimal : Str → Rat → Prop
  | whole {s : Str} {ip : List (Fin 10)} : ip ≠ [] → s.filter (· ≠ ',') = digitText ip →
      Decimal s (intPart ip)
  | point {s : Str} {ip fp : List (Fin 10)} : fp ≠ [] →
      s.filter (· ≠ ',') = digitText ip ++ '.' :: digitText fp →
      Decimal s (intPart ip + fracPart fp)

/-- `s` is a literal in scientific notation of value `q`. -/
inductive Scientific : Str → Rat → Prop
  | plain {m : Str} {q : Rat} {es : List (Fin 10)} {k : Nat} : Decimal m q → es ≠ [] →
      intPart es = (k : Rat) → Scientific (m ++ 'E' :: digitText es) (q * 10 ^ k)
  | plus {m : Str} {q : Rat} {es : List (Fin 10)} {k : Nat} : Decimal m q → es ≠ [] →
      intPart es = (k : Rat) → Scientific (m ++ 'E' :: '+' :: digitText es) (q * 10 ^ k)
  | minus {m : Str} {q : Rat} {es : List (Fin 10)} {k : Nat} : Decimal m q → es ≠ [] →
      intPart es = (k : Rat) → Scientific (m ++ 'E' :: '-' :: digitText es) (q / 10 ^ k)

/-! ### Lemmas -/

theorem digitChar_range (d : Fin 10) : '0' ≤ digitChar d.val ∧ digitChar d.val ≤ '9' := by
  revert d; decide

theorem digitChar_sub (d : Fin 10) : (digitChar d.val).toNat - 48 = d.val := by
  rw [toNat_digitChar d.isLt]; omega

theorem natOfText_digits (ds : List (Fin 10)) (acc : Nat) :
    ∃ n, natOfText (digitText ds) acc = some n ∧
      (n : Rat) = (acc : Rat) * 10 ^ ds.length + intPart ds := by
  induction ds generalizing acc with
  | nil => exact ⟨acc, rfl, by simp [intPart]⟩
  | cons d ds ih =>
    obtain ⟨n, h1, h2⟩ := ih (10 * acc + d.val)
    refine ⟨n, ?_, ?_⟩
    · simp only [digitText, List.map_cons, natOfText, digitChar_range d, and_self, if_true,
        digitChar_sub]
      exact h1
    · rw [h2]; simp only [intPart, List.length_cons]; push_cast; ring

theorem intPart_append (a b : List (Fin 10)) :
    intPart (a ++ b) = intPart a * 10 ^ b.length + intPart b := by
  induction a with
  | nil => simp [intPart]
  | cons d a ih => simp only [List.cons_append, intPart, ih, List.length_append]; ring

theorem fracPart_eq (b : List (Fin 10)) : fracPart b = intPart b / 10 ^ b.length := by
  induction b with
  | nil => simp [intPart, fracPart]
  | cons d b ih => simp only [fracPart, intPart, ih, List.length_cons]; field_simp; ring

theorem digitChar_not (d : Fin 10) :
    digitChar d.val ≠ '.' ∧ digitChar d.val ≠ 'E' ∧ digitChar d.val ≠ ',' ∧
      digitChar d.val ≠ '-' ∧ digitChar d.val ≠ '+' := by
  revert d; decide

theorem splitGo_one_none (x : Char) (s acc : Str) (h : x ∉ s) :
    splitGo [x] 0 acc s = [acc.reverse ++ s] := by
  induction s generalizing acc with
  | nil => simp [splitGo]
  | cons c s ih =>
    have hc : x ≠ c := by intro e; exact h (by simp [e])
    rw [splitGo, if_neg (by simp [List.isPrefixOf, hc]), ih _ (fun e => h (by simp [e]))]
    simp

theorem split_one_none (x : Char) (s : Str) (h : x ∉ s) : split [x] s = [s] := by
  rw [split, splitGo_one_none x s [] h]; rfl

theorem splitGo_one_some (x : Char) (a b acc : Str) (h : x ∉ a) (hb : x ∉ b) :
    splitGo [x] 0 acc (a ++ x :: b) = [acc.reverse ++ a, b] := by
  induction a generalizing acc with
  | nil =>
    rw [List.nil_append, splitGo, if_pos (by simp [List.isPrefixOf])]
    simp [splitGo_one_none x b [] hb]
  | cons c s ih =>
    have hc : x ≠ c := by intro e; exact h (by simp [e])
    rw [List.cons_append, splitGo, if_neg (by simp [List.isPrefixOf, hc]),
      ih _ (fun e => h (by simp [e]))]
    simp

theorem split_one_some (x : Char) (a b : Str) (h : x ∉ a) (hb : x ∉ b) :
    split [x] (a ++ x :: b) = [a, b] := by
  rw [split, splitGo_one_some x a b [] h hb]; rfl

theorem not_mem_digitText (ds : List (Fin 10)) :
    '.' ∉ digitText ds ∧ 'E' ∉ digitText ds ∧ ',' ∉ digitText ds := by
  simp only [digitText, List.mem_map, not_exists, not_and]
  exact ⟨fun d _ => (digitChar_not d).1, fun d _ => (digitChar_not d).2.1,
    fun d _ => (digitChar_not d).2.2.1⟩

theorem digitText_isEmpty {ds : List (Fin 10)} (h : ds ≠ []) : (digitText ds).isEmpty = false := by
  cases ds with
  | nil => exact absurd rfl h
  | cons d ds => rfl

theorem decOfText_whole {ip : List (Fin 10)} (h : ip ≠ []) :
    decOfText (digitText ip) = some (intPart ip) := by
  obtain ⟨n, h1, h2⟩ := natOfText_digits ip 0
  have h2 : (n : Rat) = intPart ip := by simpa using h2
  rw [decOfText, split_one_none '.' _ (not_mem_digitText ip).1]
  simp [digitText_isEmpty h, h1, h2]

theorem decOfText_point {ip fp : List (Fin 10)} (h : fp ≠ []) :
    decOfText (digitText ip ++ '.' :: digitText fp) = some (intPart ip + fracPart fp) := by
  obtain ⟨n, h1, h2⟩ := natOfText_digits (ip ++ fp) 0
  have h2 : (n : Rat) = intPart (ip ++ fp) := by simpa using h2
  have h1 : natOfText (digitText ip ++ digitText fp) 0 = some n := by
    simpa [digitText] using h1
  rw [decOfText, split_one_some '.' _ _ (not_mem_digitText ip).1 (not_mem_digitText fp).1]
  simp only [digitText_isEmpty h, Bool.and_false, Bool.false_eq_true, if_false, h1,
    Option.map_some, h2, intPart_append, fracPart_eq]
  have : (digitText fp).length = fp.length := by simp [digitText]
  rw [this]
  congr 1
  field_simp

theorem decimal_text {s : Str} {q : Rat} (h : Decimal s q) :
    decOfText (s.filter (· ≠ ',')) = some q ∧ 'E' ∉ s.filter (· ≠ ',') := by
  cases h with
  | whole h1 h2 =>
    rw [h2]; exact ⟨decOfText_whole h1, (not_mem_digitText _).2.1⟩
  | point h1 h2 =>
    rw [h2]
    refine ⟨decOfText_point h1, ?_⟩
    simp only [List.mem_append, List.mem_cons, not_or]
    exact ⟨(not_mem_digitText _).2.1, by decide, (not_mem_digitText _).2.1⟩

/-- A decimal literal is read as its exact value. -/
theorem ratOfText_decimal {s : Str} {q : Rat} (h : Decimal s q) :
    ratOfText (replace s%"," [] s) = some q := by
  obtain ⟨h1, h2⟩ := decimal_text h
  rw [replace_one_nil, ratOfText, split_one_none 'E' _ h2]
  exact h1

theorem expOfText_digits {es : List (Fin 10)} (h : es ≠ []) {k : Nat} (hk : intPart es = (k : Rat)) :
    expOfText (digitText es) = some (k : Int) ∧ expOfText ('+' :: digitText es) = some (k : Int)
      ∧ expOfText ('-' :: digitText es) = some (-(k : Int)) := by
  obtain ⟨n, h1, h2⟩ := natOfText_digits es 0
  have h2 : n = k := by
    have : (n : Rat) = (k : Rat) := by rw [h2, hk]; simp
    exact_mod_cast this
  subst h2
  refine ⟨?_, ?_, ?_⟩
  · cases es with
    | nil => exact absurd rfl h
    | cons d es =>
      obtain ⟨-, -, -, hm, hp⟩ := digitChar_not d
      have e : digitText (d :: es) = digitChar d.val :: digitText es := rfl
      rw [e] at h1 ⊢
      unfold expOfText
      split
      · rename_i heq; exact absurd (List.cons.inj heq).1 hm
      · rename_i heq; exact absurd (List.cons.inj heq).1 hp
      · simp [h1]
  · simp [expOfText, digitText_isEmpty h, h1]
  · simp [expOfText, digitText_isEmpty h, h1]

theorem filter_digitText (ds : List (Fin 10)) :
    (digitText ds).filter (· ≠ ',') = digitText ds := by
  rw [List.filter_eq_self]
  intro c hc
  have := (not_mem_digitText ds).2.2
  simp only [ne_eq, decide_eq_true_eq]
  intro e
  exact this (e ▸ hc)

/-- A literal in scientific notation is read as its exact value. -/
theorem ratOfText_scientific {s : Str} {q : Rat} (h : Scientific s q) :
    ratOfText (replace s%"," [] s) = some q := by
  rw [replace_one_nil]
  cases h with
  | @plain m q es k h1 h2 h3 =>
    obtain ⟨ha, hb⟩ := decimal_text h1
    rw [List.filter_append, List.filter_cons_of_pos (by decide), filter_digitText, ratOfText,
      split_one_some 'E' _ _ hb (not_mem_digitText es).2.1]
    simp only [ha, (expOfText_digits h2 h3).1, zpow_natCast]
  | @plus m q es k h1 h2 h3 =>
    obtain ⟨ha, hb⟩ := decimal_text h1
    rw [List.filter_append, List.filter_cons_of_pos (by decide),
      List.filter_cons_of_pos (by decide), filter_digitText, ratOfText,
      split_one_some 'E' _ _ hb (by simp [(not_mem_digitText es).2.1])]
    simp only [ha, (expOfText_digits h2 h3).2.1, zpow_natCast]
  | @minus m q es k h1 h2 h3 =>
    obtain ⟨ha, hb⟩ := decimal_text h1
    rw [List.filter_append, List.filter_cons_of_pos (by decide),
      List.filter_cons_of_pos (by decide), filter_digitText, ratOfText,
      split_one_some 'E' _ _ hb (by simp [(not_mem_digitText es).2.1])]
    simp only [ha, (expOfText_digits h2 h3).2.2, zpow_neg, zpow_natCast, div_eq_mul_inv]

end Verif.L2S
