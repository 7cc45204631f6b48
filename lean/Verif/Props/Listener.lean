import Verif.Model.Listener
import Mathlib.Data.List.Forall2

/-! # C104: reports of syntax errors -/

namespace Verif

/-- The names of the token types, where every type has a name: type `i` is the name number `i`. -/
def NamedAs (names : List Str) : List Nat → List Str → Prop := List.Forall₂ fun i s => names[i]? = some s

theorem expectedNames_nat (names : List Str) (is : List Nat) :
    ∃ ss, NamedAs names (is.filter (· < names.length)) ss ∧ expectedNames names (is.map Int.ofNat) = .ok ss := by
  induction is with
  | nil => exact ⟨[], .nil, rfl⟩
  | cons i is ih =>
    obtain ⟨ss, h1, h2⟩ := ih
    by_cases hi : i < names.length
    · refine ⟨names[i] :: ss, ?_, ?_⟩
      · rw [List.filter_cons_of_pos (by simpa using hi)]
        exact .cons (by simp [hi]) h1
      · have : pyIndex names (Int.ofNat i) = .ok names[i] := by simp [pyIndex, hi]
        simp only [List.map_cons, expectedNames, this, h2]
        rw [if_pos (by simpa using hi)]
        rfl
    · refine ⟨ss, ?_, ?_⟩
      · rwa [List.filter_cons_of_neg (by simpa using hi)]
      · simp only [List.map_cons, expectedNames]
        rw [if_neg (by simpa using hi), h2]

/-- The first line of the report. -/
inductive HeadOf (names : List Str) (msg : Str) (is : List Nat) : Str → Prop
  | missing : s%"missing" <+: msg → HeadOf names msg is msg
  | viable : s%"no viable" <+: msg → HeadOf names msg is s%"I expected something else here"
  /-- fewer than ten tokens with a literal name are expected -/
  | few {ss} : s%"mismatched" <+: msg → NamedAs names (is.filter (· < names.length)) ss → ss.length < 10 →
      HeadOf names msg is (s%"I expected one of these: " ++ join s%" " ss)
  | many : s%"mismatched" <+: msg → 10 ≤ (is.filter (· < names.length)).length → HeadOf names msg is s%"I expected something else here"
  | unknown : ¬ s%"missing" <+: msg → ¬ s%"no viable" <+: msg → ¬ s%"mismatched" <+: msg →
      HeadOf names msg is s%"I don't understand this"

/-- **C104.**  For every source, message, column and set of expected tokens, an `Exception` is raised whose text is the head for the
message, the source, and a line of as many `~` as the column says, followed by `^`. -/
theorem C104_report_partial (names : List Str) (src msg : Str) (line : Int) (col : Nat) (is : List Nat) :
    ∃ head marker : Str, syntaxError names src line col msg (some (is.map Int.ofNat)) = .report (head ++ '\n' :: src ++ '\n' :: marker) ∧
      HeadOf names msg is head ∧ marker.length = col + 1 ∧ marker[col]? = some '^' ∧ ∀ i < col, marker[i]? = some '~' := by
  have mk : ∀ head, reportText head src col = head ++ '\n' :: src ++ '\n' :: (List.replicate col '~' ++ ['^']) := by
    intro head
    simp [reportText]
  suffices h : ∃ head, syntaxError names src line col msg (some (is.map Int.ofNat)) = .report (reportText head src col) ∧ HeadOf names msg is head by
    obtain ⟨head, h1, h2⟩ := h
    refine ⟨head, List.replicate col '~' ++ ['^'], by rw [h1, mk], h2, by simp, by simp, fun i hi => ?_⟩
    rw [List.getElem?_append_left (by simpa using hi)]
    simp [hi]
  unfold syntaxError
  simp only [startsWith, List.isPrefixOf_iff_prefix]
  split
  · exact ⟨_, rfl, .missing (by assumption)⟩
  split
  · exact ⟨_, rfl, .viable (by assumption)⟩
  split
  · obtain ⟨ss, h1, h2⟩ := expectedNames_nat names is
    simp only [h2]
    split
    · exact ⟨_, rfl, .few (by assumption) h1 (by assumption)⟩
    · refine ⟨_, rfl, .many (by assumption) ?_⟩
      rw [show (is.filter (· < names.length)).length = ss.length from List.Forall₂.length_eq h1]
      omega
  · exact ⟨_, rfl, .unknown (by assumption) (by assumption) (by assumption)⟩

/-- `1+*2` with an error at the second operator. -/
example : syntaxError [s%"<INVALID>", s%"'('"] s%"1+*2" 1 2 s%"mismatched input '*'" (some [1, 7]) =
    .report s%"I expected one of these: '('\n1+*2\n~~^" := by decide +kernel

/-- **C104 is violated for the end of the text as an expected token**: its type is -1, so that the last literal name is reported in its
place, whatever the names are; for those of the parser it is `'\%'`. -/
theorem C104_end_refuted (names : List Str) (hn : names ≠ []) (src msg : Str) (line : Int) (col : Nat) (hm : s%"mismatched" <+: msg) :
    syntaxError names src line col msg (some [-1]) =
      .report (s%"I expected one of these: " ++ names.getLast hn ++ '\n' :: src ++ '\n' :: (List.replicate col '~' ++ ['^'])) := by
  have hl : 0 < names.length := List.length_pos_iff.2 hn
  have e : expectedNames names [-1] = .ok [names.getLast hn] := by
    have : pyIndex names (-1) = .ok (names.getLast hn) := by
      have h2 : ¬ names.length < 1 := by omega
      have h3 : names[names.length - 1]? = some (names.getLast hn) := by
        rw [List.getLast_eq_getElem, List.getElem?_eq_getElem (by omega)]
      simp [pyIndex, h2, h3]
    simp only [expectedNames, this]
    rw [if_pos (by omega)]
    rfl
  obtain ⟨r, rfl⟩ := hm
  unfold syntaxError
  rw [if_neg (by simp [startsWith]), if_neg (by simp [startsWith]), if_pos (by simp [startsWith])]
  simp [e, join, reportText]

/-- **C104 is violated for texts of several lines**: the number of the line is not used, so that the marker stands below the last line
also if the error is in another one. -/
theorem C104_lines_refuted (names : List Str) (line : Int) (col : Nat) (l1 l2 : Str) :
    syntaxError names (l1 ++ '\n' :: l2) line col s%"extraneous input" none =
      .report (s%"I don't understand this\n" ++ l1 ++ '\n' :: (l2 ++ '\n' :: (List.replicate col '~' ++ ['^']))) := by
  unfold syntaxError
  rw [if_neg (by decide), if_neg (by decide), if_neg (by decide)]
  simp [reportText]

/-- a message about a mismatch without an exception object would be an `AttributeError` -/
theorem C104_object (names : List Str) (src : Str) (line col : Int) (r : Str) :
    syntaxError names src line col (s%"mismatched" ++ r) none = .error .attributeError := by
  unfold syntaxError
  rw [if_neg (by simp [startsWith]), if_neg (by simp [startsWith]), if_pos (by simp [startsWith])]

end Verif
