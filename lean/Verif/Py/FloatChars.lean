import Verif.Py.FloatPrint
/-
The characters of a text accepted by `float`.
-/

namespace Verif

/-- Characters that may occur in a text accepted by `float`. -/
def litChar (U : Uni) (c : Char) : Bool :=
  isSpace c || c == '_' || isDigit U c || c == '+' || c == '-' || c == '.' || asciiAlpha c

theorem litChar_digit {U : Uni} {c : Char} (h : isDigit U c = true) : litChar U c = true := by simp [litChar, h]
theorem litChar_alpha {U : Uni} {c : Char} (h : asciiAlpha c = true) : litChar U c = true := by simp [litChar, h]

theorem parseExp_chars {U : Uni} {s : Str} {k : ℤ} (h : parseExp U s = some k) : ∀ c ∈ s, litChar U c = true := by
  cases s with
  | nil => intro c hc; cases hc
  | cons x xs =>
    simp only [parseExp] at h
    split at h
    · rename_i hx
      have hx' : litChar U x = true := by
        apply litChar_alpha
        simp only [Bool.or_eq_true, beq_iff_eq] at hx
        rcases hx with rfl | rfl <;> decide
      have hall : ∀ (b : Bool) (ds : Str) (o : ℤ), (if (ds.isEmpty || !ds.all (isDigit U)) = true then none else some o) = some k →
          ∀ c ∈ ds, litChar U c = true := by
        intro _ ds o hds c hc
        split at hds
        · cases hds
        · rename_i hn
          simp only [Bool.or_eq_true, not_or, Bool.not_eq_true', Bool.not_eq_false] at hn
          exact litChar_digit (List.all_eq_true.1 (by simpa using hn.2) c hc)
      intro c hc
      rcases List.mem_cons.1 hc with rfl | hc
      · exact hx'
      · revert h
        split
        · intro h
          rcases List.mem_cons.1 hc with rfl | hc
          · simp [litChar]
          · exact hall true _ _ h c hc
        · intro h
          rcases List.mem_cons.1 hc with rfl | hc
          · simp [litChar]
          · exact hall true _ _ h c hc
        · intro h
          exact hall true _ _ h c hc
    · cases h

theorem takeWhile_chars (U : Uni) (t : Str) : ∀ c ∈ t.takeWhile (isDigit U), litChar U c = true := by
  intro c hc
  induction t with
  | nil => cases hc
  | cons x xs ih =>
    by_cases hx : isDigit U x = true
    · rw [List.takeWhile_cons_of_pos hx] at hc
      rcases List.mem_cons.1 hc with rfl | hc
      · exact litChar_digit hx
      · exact ih hc
    · rw [List.takeWhile_cons_of_neg hx] at hc; cases hc

theorem parseDecimal_chars {U : Uni} {s : Str} {q : Nat × ℤ} (h : parseDecimal U s = some q) : ∀ c ∈ s, litChar U c = true := by
  have hs : s = s.takeWhile (isDigit U) ++ s.dropWhile (isDigit U) := (List.takeWhile_append_dropWhile).symm
  have key : ∀ c ∈ s.dropWhile (isDigit U), litChar U c = true := by
    unfold parseDecimal at h
    simp only at h
    generalize s.dropWhile (isDigit U) = r at h
    revert h
    split
    · rename_i t
      intro h
      split at h
      · cases h
      · obtain ⟨k, hk, _⟩ := Option.map_eq_some_iff.1 h
        intro c hc
        rcases List.mem_cons.1 hc with rfl | hc
        · simp [litChar]
        · rw [← List.takeWhile_append_dropWhile (p := isDigit U) (l := t)] at hc
          rcases List.mem_append.1 hc with hc | hc
          · exact takeWhile_chars U t c hc
          · exact parseExp_chars hk c hc
    · intro h
      split at h
      · cases h
      · obtain ⟨k, hk, _⟩ := Option.map_eq_some_iff.1 h
        exact parseExp_chars hk
  intro c hc
  rw [hs] at hc
  rcases List.mem_append.1 hc with hc | hc
  · exact takeWhile_chars U s c hc
  · exact key c hc

theorem asciiToLower_alpha {c : Char} (h : asciiAlpha (asciiToLower c) = true) : asciiAlpha c = true := by
  unfold asciiToLower at h
  split at h
  · rename_i hu; simp [asciiAlpha, hu]
  · exact h

theorem parseSpecial_chars {U : Uni} {neg : Bool} {s : Str} {x : F64} (h : parseSpecial neg s = some x) :
    ∀ c ∈ s, litChar U c = true := by
  intro c hc
  have hm : asciiToLower c ∈ s.map asciiToLower := List.mem_map.2 ⟨c, hc, rfl⟩
  apply litChar_alpha
  apply asciiToLower_alpha
  have key : ∀ l : Str, (∀ d ∈ l, asciiAlpha d = true) → s.map asciiToLower = l → asciiAlpha (asciiToLower c) = true := by
    intro l hl e
    exact hl _ (e ▸ hm)
  unfold parseSpecial at h
  simp only at h
  split at h
  · rename_i hh
    rcases hh with e | e
    · exact key _ (by decide) e
    · exact key _ (by decide) e
  · split at h
    · rename_i e
      exact key _ (by decide) e
    · cases h

/-- A text accepted by `float` contains only blanks, digits, underscores, signs, points and letters. -/
theorem pyFloat_chars {U : Uni} {s : Str} {x : F64} (h : pyFloat U s = some x) : ∀ c ∈ s, litChar U c = true := by
  obtain ⟨l, r, hs, hl, hr⟩ := stripBy_spec isSpace s
  have key : ∀ c ∈ strip s, litChar U c = true := by
    unfold pyFloat at h
    simp only at h
    split at h
    · cases h
    · have hf : ∀ c ∈ (strip s).filter (· ≠ '_'), litChar U c = true := by
        generalize (strip s).filter (· ≠ '_') = t at h
        have body : ∀ (neg : Bool) (r : Str), (match parseSpecial neg r with
            | some x => some x
            | none => (parseDecimal U r).map fun (c, k) => F64.ofDecimal neg c k) = some x → ∀ c ∈ r, litChar U c = true := by
          intro neg r h
          cases hp : parseSpecial neg r with
          | some y => exact parseSpecial_chars hp
          | none =>
            rw [hp] at h
            simp only at h
            obtain ⟨q, hq, _⟩ := Option.map_eq_some_iff.1 h
            exact parseDecimal_chars hq
        cases t with
        | nil => intro c hc; cases hc
        | cons y ys =>
          by_cases h1 : y = '+'
          · subst h1
            have := body false ys h
            intro c hc
            rcases List.mem_cons.1 hc with rfl | hc
            · simp [litChar]
            · exact this c hc
          · by_cases h2 : y = '-'
            · subst h2
              have := body true ys h
              intro c hc
              rcases List.mem_cons.1 hc with rfl | hc
              · simp [litChar]
              · exact this c hc
            · simp [h1, h2] at h
              exact body false (y :: ys) h
      intro c hc
      by_cases e : c = '_'
      · simp [litChar, e]
      · exact hf c (List.mem_filter.2 ⟨hc, by simp [e]⟩)
  intro c hc
  rw [hs] at hc
  simp only [List.mem_append] at hc
  rcases hc with (hc | hc) | hc
  · simp [litChar, List.all_eq_true.1 hl c hc]
  · exact key c hc
  · simp [litChar, List.all_eq_true.1 hr c hc]

/-- A text with a character that cannot occur is not a number. -/
theorem pyFloat_none {U : Uni} {s : Str} (x : Char) (hx : x ∈ s) (h : litChar U x = false) : pyFloat U s = none := by
  cases hp : pyFloat U s with
  | none => rfl
  | some y => rw [pyFloat_chars hp x hx] at h; cases h

/-- `float` ignores white space around the text. -/
theorem pyFloat_pad {U : Uni} (l s r : Str) (hl : ∀ c ∈ l, isSpace c = true) (hr : ∀ c ∈ r, isSpace c = true) :
    pyFloat U (l ++ s ++ r) = pyFloat U s := by
  have : strip (l ++ s ++ r) = strip s := stripBy_pad isSpace l s r (by simpa using hl) (by simpa using hr)
  unfold pyFloat
  rw [this]

end Verif
