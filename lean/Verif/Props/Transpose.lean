import Verif.Props.Differential
/-
A power with the exponent `T` is read as a transpose, so that the exponent is lost (C127).
-/

namespace Verif.L2S
open Verif Verif.Reading Verif.Grammar

/-- **C127, the token.**  `^T` and `^{T}` are one token of the rule `transpose`, whatever follows. -/
theorem C127_token (rest : Str) : (∃ k ∈ transposeKinds, Longest rules (s%"^T" ++ rest) k 2) ∧
    ∃ k ∈ transposeKinds, Longest rules (s%"^{T}" ++ rest) k 4 :=
  ⟨⟨.T40, by decide, (C88_longest _ _ _).1 (by cases rest <;> kernel_rfl)⟩,
    ⟨.T41, by decide, (C88_longest _ _ _).1 (by cases rest <;> kernel_rfl)⟩⟩

/-- The rule `transpose` of the grammar is nothing but these tokens. -/
example : Verif.PS.grammar .transpose = (PS.E.tok .T40).alt ((PS.E.tok .T41).alt ((PS.E.tok .T42).alt ((PS.E.tok .T43).alt (.tok .T44)))) := by kernel_rfl

section
variable {Y : Type} {K : Type} [Field K] [CharZero K] {I : Interp K} {L : Lib Y} {free : Str → Prop}

/-- **C127**, partial: the power of a base with a variable as exponent, with or without braces, for texts in which the exponent
is not `T` (this is part of `Written`). -/
theorem C127_powers_partial (hL : SoundLib I L) (hp : ∀ s t, parseText s = some t → L.parse s = .ok t) {c : Char}
    (hc : isVariable c = true) (hf : free [c]) {d : Bool} {us vs : List Sign} {x : K} (hu : Denotes I free false (.base ⟨d, false⟩) us x)
    (hv : vs = [.letter c] ∨ vs = [.mark '{', .letter c, .mark '}']) {s : Str} (hw : Written (us ++ .mark '^' :: vs) s) (n : Nat)
    (vals : List (Str × PV)) (w : World (St Y)) (hr : Ready I free w) :
    ∃ v w', latex2sympy L (n + 1) s vals w = (.ok v, w') ∧ v.scalar = true ∧ den I v = I.pw x (I.var [c]) := by
  have he : ∃ e, Denotes I free false (.exponent e) vs (I.var [c]) := by
    rcases hv with rfl | rfl
    · exact ⟨_, .expLetter (.latin hc) hf⟩
    · exact ⟨_, .expBraces (us := [.letter c]) (.term (.signed (.product (.factor (.power (.base (.letter (.latin hc) hf)))))))⟩
  obtain ⟨e, he⟩ := he
  exact C76_latex2sympy hL hp hw (.term (.signed (.product (.factor (.power (.pow hu he)))))) n vals w hr

end

/-- `2^x` has the value 2 to the power `x`, and `2^{t}` 2 to the power `t`. -/
example (x : ℝ) : (∃ v w', latex2sympy textLib 1 s%"2^x" [] startWorld = (.ok v, w') ∧ v.scalar = true ∧ den (realAt x) v = 2 ^ x) ∧
    ∃ v w', latex2sympy textLib 1 s%"2^{t}" [] startWorld = (.ok v, w') ∧ v.scalar = true ∧ den (realAt x) v = 2 ^ x := by
  have h2 : Denotes (realAt x) (fun _ => True) false (.base _) [.digit 2] (((2 : ℚ) : ℝ)) := .number (num1 2)
  have h1 := C127_powers_partial (I := realAt x) (L := textLib) (nodeLib_sound _ none _) textLib_parse (c := 'x') (by decide) trivial
    h2 (.inl rfl) (s := s%"2^x") (writtenB_sound (by decide +kernel)) 0 [] startWorld ⟨rfl, fun _ _ => rfl⟩
  have h3 := C127_powers_partial (I := realAt x) (L := textLib) (nodeLib_sound _ none _) textLib_parse (c := 't') (by decide) trivial
    h2 (.inr rfl) (s := s%"2^{t}") (writtenB_sound (by decide +kernel)) 0 [] startWorld ⟨rfl, fun _ _ => rfl⟩
  exact ⟨by simpa [realInterp, Interp.var] using h1, by simpa [realInterp, Interp.var] using h3⟩

/-- **C127 is violated** for the exponent `T`: `2^T` is not 2 to the power `T`, however the functions of the CAS are interpreted. -/
theorem C127_refuted (f : Str → List ℝ → ℝ) : ¬ ∀ ρ : Str → ℝ, ∃ v w', latex2sympy textLib 1 s%"2^T" [] startWorld = (.ok v, w') ∧
    den { realInterp (fun n _ => ρ n) none with fn := f } v = 2 ^ ρ s%"T" := by
  intro h
  have e : (latex2sympy textLib 1 s%"2^T" [] startWorld).1 = .ok (.fn s%".T" [.num 2]) := by kernel_rfl
  obtain ⟨v, w, h1, h2⟩ := h fun _ => 0
  obtain ⟨v', w', h1', h2'⟩ := h fun _ => 1
  rw [h1] at h1'
  rw [h1] at e
  cases e
  cases h1'
  rw [den] at h2 h2'
  simp only [denList, den] at h2 h2'
  rw [h2] at h2'
  norm_num at h2'

end Verif.L2S
