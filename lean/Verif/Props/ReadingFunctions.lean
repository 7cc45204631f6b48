import Verif.Props.ReadingEnd
/-
Functions whose argument is not in parentheses (C77), and subscripts and exponents without braces
(C78).
-/

namespace Verif.Grammar
open Verif Verif.L2S Verif.Reading

section
variable {K : Type} [Field K] [CharZero K] {I : Interp K} {free : Str → Prop}
  {Y : Type} {L : Lib Y}

/-- **C77**, for products without operator.  `\sin u \cos v` is the product of the two functions: the
argument of a function without parentheses ends at the next function. -/
theorem C77_product_partial (hL : SoundLib I L)
    (hp : ∀ s t, parseText s = some t → L.parse s = .ok t) {nm f nm' f' : Str} {us vs : List Sign}
    {s : Str} {x y : K} (hf : (nm, f) ∈ functionNames) (hf' : (nm', f') ∈ functionNames)
    (hu : Denotes I free false (.bare false) us x) (hv : Denotes I free false (.bare false) vs y)
    (hu' : inParens us = false) (hv' : inParens vs = false)
    (hw : Written (.cmd nm :: us ++ .cmd nm' :: vs) s) (n : Nat) (vals : List (Str × PV))
    (w : World (St Y)) (hr : Ready I free w) :
    ∃ v w', latex2sympy L (n + 1) s vals w = (.ok v, w') ∧ v.scalar = true ∧
      den I v = I.fn f [x] * I.fn f' [y] := by
  refine C76_latex2sympy hL hp hw (.term (.signed (.product (.appJuxt
    (.appFunc hf (.bareSigned (.bare hu)) hu')
    (.app (.appFunc hf' (.bareSigned (.bare hv)) hv')) ?_)))) n vals w hr
  have : functionNames.all (fun p => named (.cmd p.1)) = true := by decide +kernel
  exact List.all_eq_true.1 this _ hf'

/-- **C77**, what happens with an operator.  In `\sin u \cdot v` the argument of the function goes on
after the operator: the text is read as the function of the product. -/
theorem C77_operator (hL : SoundLib I L)
    (hp : ∀ s t, parseText s = some t → L.parse s = .ok t) {nm f : Str} {us vs : List Sign} {o : Sign}
    {b : Bool} {s : Str} {x y : K} (hf : (nm, f) ∈ functionNames)
    (hu : Denotes I free true (.bare false) us x) (ho : o ∈ timesSigns)
    (hv : Denotes I free true (.bare b) vs y) (hu' : inParens (us ++ o :: vs) = false)
    (hw : Written (.cmd nm :: (us ++ o :: vs)) s) (n : Nat) (vals : List (Str × PV))
    (w : World (St Y)) (hr : Ready I free w) :
    ∃ v w', latex2sympy L (n + 1) s vals w = (.ok v, w') ∧ v.scalar = true ∧
      den I v = I.fn f [x * y] :=
  C76_latex2sympy hL hp hw (.term (.signed (.product (.app (.appFunc hf
    (.bareMul rfl ho (.bareSigned (.bare hu)) (.bare hv)) hu'))))) n vals w hr

/-- the same for divisions: `\ln u / \ln v` is read as `\ln (u / \ln v)` -/
theorem C77_division (hL : SoundLib I L)
    (hp : ∀ s t, parseText s = some t → L.parse s = .ok t) {us vs : List Sign} {o : Sign}
    {b : Bool} {s : Str} {x y : K}
    (hu : Denotes I free true (.bare false) us x) (ho : o ∈ overSigns)
    (hv : Denotes I free true (.bare b) vs y) (hu' : inParens (us ++ o :: vs) = false)
    (hw : Written (.cmd s%"ln" :: (us ++ o :: vs)) s) (n : Nat) (vals : List (Str × PV))
    (w : World (St Y)) (hr : Ready I free w) :
    ∃ v w', latex2sympy L (n + 1) s vals w = (.ok v, w') ∧ v.scalar = true ∧
      den I v = I.fn s%"log" [x / y, I.const s%"E"] :=
  C76_latex2sympy hL hp hw (.term (.signed (.product (.app (.appLn
    (.bareDiv rfl ho (.bareSigned (.bare hu)) (.bare hv)) hu'))))) n vals w hr

/-- **C78**, where no digit follows the index.  The subscript of a logarithm is its base: an expression
in braces, a letter, or a digit that is not followed by another digit. -/
theorem C78_base_partial (hL : SoundLib I L)
    (hp : ∀ s t, parseText s = some t → L.parse s = .ok t) {e : End} {b : Bool} {us vs : List Sign}
    {a : Sign} {s : Str} {x y : K} (hu : Denotes I free false (.exponent e) us y)
    (hv : Denotes I free false (.bare b) (a :: vs) x) (hp' : inParens (a :: vs) = false)
    (hf : Follows e a) (hw : Written (.cmd s%"log" :: .mark '_' :: us ++ a :: vs) s) (n : Nat)
    (vals : List (Str × PV)) (w : World (St Y)) (hr : Ready I free w) :
    ∃ v w', latex2sympy L (n + 1) s vals w = (.ok v, w') ∧ v.scalar = true ∧
      den I v = I.fn s%"log" [x, y] :=
  C76_latex2sympy hL hp hw (.term (.signed (.product (.app (.appLogBase hu (.bareSigned (.bare hv))
    hp' hf))))) n vals w hr

end

/-! ### Texts that are not read as usual -/

/-- the parser of the model in the library of C62 -/
def textLib : Lib Unit := nodeLib fun s => match parseText s with
  | some t => .ok t
  | none => .error .other

theorem textLib_parse (s : Str) (t : MathTree) (h : parseText s = some t) : textLib.parse s = .ok t := by
  simp [textLib, nodeLib, h]

/-- the state before the first conversion -/
abbrev startWorld : World (St Unit) := ⟨⟨Globals.init, ()⟩, []⟩

/-- the value over the real numbers, with the value `x` of every variable -/
noncomputable abbrev realAt (x : ℝ) : Interp ℝ := realInterp (fun _ _ => x) none

/-- a letter as an argument -/
theorem bareLetter {K : Type} [Field K] {I : Interp K} {wide : Bool} {c : Char}
    (hc : isVariable c = true) :
    Denotes I (fun _ => True) wide (.bare false) [.letter c] (I.var [c]) :=
  .bareFactor (.power (.base (.letter (.latin hc) trivial)))

/-- a digit as an argument -/
theorem bareDigit {K : Type} [Field K] {I : Interp K} {free : Str → Prop} {wide : Bool} (d : Fin 10) :
    Denotes I free wide (.bare false) [.digit d] (((d.val : ℚ) : K)) :=
  .bareFactor (.power (.base (.number (num1 d))))

/-- The hypotheses of `C77_product_partial` are met by `\sin x\cos x`. -/
example (x : ℝ) : ∃ v w', latex2sympy textLib 1 s%"\\sin x\\cos x" [] startWorld = (.ok v, w') ∧
    v.scalar = true ∧ den (realAt x) v = Real.sin x * Real.cos x := by
  have := C77_product_partial (I := realAt x) (L := textLib) (nodeLib_sound _ none _) textLib_parse
    (nm := s%"sin") (f := s%"sin") (nm' := s%"cos") (f' := s%"cos") (by decide) (by decide)
    (bareLetter (c := 'x') (by decide)) (bareLetter (c := 'x') (by decide)) rfl rfl
    (s := s%"\\sin x\\cos x") (writtenB_sound (by decide +kernel)) 0 [] startWorld ⟨rfl, fun _ _ => rfl⟩
  simpa [realInterp, realFn, Interp.var] using this

/-- **C77 is violated** for explicit products: `\sin x \cdot \cos x` is converted to `sin(x·cos x)`. -/
theorem C77_cdot_read (x : ℝ) :
    ∃ v w', latex2sympy textLib 1 s%"\\sin x \\cdot \\cos x" [] startWorld = (.ok v, w') ∧
      v.scalar = true ∧ den (realAt x) v = Real.sin (x * Real.cos x) := by
  have := C77_operator (I := realAt x) (L := textLib) (nodeLib_sound _ none _) textLib_parse
    (nm := s%"sin") (f := s%"sin") (us := [.letter 'x']) (o := .cmd s%"cdot")
    (vs := [.cmd s%"cos", .letter 'x']) (by decide)
    (bareLetter (c := 'x') (by decide)) (by decide)
    (.bareApp (.appFunc (f := s%"cos") (by decide) (.bareSigned (.bare (bareLetter (c := 'x') (by decide)))) rfl))
    (by decide) (s := s%"\\sin x \\cdot \\cos x") (writtenB_sound (by decide +kernel)) 0 [] startWorld
    ⟨rfl, fun _ _ => rfl⟩
  simpa [realInterp, realFn, Interp.var] using this

/-- **C77 is violated**: the value of `\sin x \cdot \cos x` at `π/3` is not `sin(π/3)·cos(π/3)`. -/
theorem C77_refuted :
    ¬ ∀ x : ℝ, ∃ v w', latex2sympy textLib 1 s%"\\sin x \\cdot \\cos x" [] startWorld = (.ok v, w') ∧
      den (realAt x) v = Real.sin x * Real.cos x := by
  intro h
  obtain ⟨v, w, h1, h2⟩ := h (Real.pi / 3)
  obtain ⟨v', w', h3, -, h4⟩ := C77_cdot_read (Real.pi / 3)
  rw [h1] at h3
  cases h3
  rw [h2, Real.cos_pi_div_three, Real.sin_pi_div_three,
    show Real.pi / 3 * (1 / 2) = Real.pi / 6 by ring, Real.sin_pi_div_six] at h4
  have h5 : Real.sqrt 3 = 2 := by linarith
  have := Real.sq_sqrt (show (0 : ℝ) ≤ 3 by norm_num)
  rw [h5] at this
  norm_num at this

/-- **C78 is violated**: `\log_2 16` is converted to the logarithm of 6 to the base 21. -/
theorem C78_log_read :
    ∃ v w', latex2sympy textLib 1 s%"\\log_2 16" [] startWorld = (.ok v, w') ∧
      v.scalar = true ∧ den (realAt 0) v = Real.logb 21 6 := by
  have d21 : Decimal s%"21" 21 := by
    have := Decimal.whole (s := s%"21") (ip := [2, 1]) (by simp) (by decide)
    simp [intPart] at this
    norm_num at this
    exact this
  have d6 : Decimal s%"6" 6 := by
    have := Decimal.whole (s := s%"6") (ip := [6]) (by simp) (by decide)
    simpa [intPart] using this
  have hparse : parseText s%"\\log_2 16" = some (.one (.juxt
      [.fnSingle s%"log" [] (some (.number s%"21")) none (.juxt [.number s%"6"])])) := by kernel_rfl
  have := C62_latex2sympy_partial (realAt 0) textLib (nodeLib_sound _ none _) 0 s%"\\log_2 16" []
    (free := fun _ => True) (t := .juxt
      [.fnSingle s%"log" [] (some (.number s%"21")) none (.juxt [.number s%"6"])])
    (textLib_parse _ _ hparse) (.one (.logBase (.one (.number d6)) (.number d21))) startWorld
    ⟨rfl, fun _ _ => rfl⟩
  simpa [realInterp, realFn] using this

/-- **C78 is violated**: the value of `\log_2 16` is not `log₂ 16 = 4`. -/
theorem C78_refuted :
    ¬ ∃ v w', latex2sympy textLib 1 s%"\\log_2 16" [] startWorld = (.ok v, w') ∧
      den (realAt 0) v = Real.logb 2 16 := by
  rintro ⟨v, w, h1, h2⟩
  obtain ⟨v', w', h3, -, h4⟩ := C78_log_read
  rw [h1] at h3
  cases h3
  rw [h2] at h4
  have h5 : Real.logb 2 16 = 4 := by
    rw [show (16 : ℝ) = 2 ^ (4 : ℝ) by norm_num, Real.logb_rpow (by norm_num) (by norm_num)]
  have h6 : Real.logb 21 6 < 1 := by
    rw [Real.logb_lt_iff_lt_rpow (by norm_num) (by norm_num)]
    norm_num
  linarith

/-- With braces around the index the hypotheses of `C78_base_partial` are met. -/
example : ∃ v w', latex2sympy textLib 1 s%"\\log_{2} 8" [] startWorld = (.ok v, w') ∧
    v.scalar = true ∧ den (realAt 0) v = Real.logb 2 8 := by
  have := C78_base_partial (I := realAt 0) (free := fun _ => True) (L := textLib)
    (nodeLib_sound _ none _) textLib_parse
    (.expBraces (.term (.signed (.product (.factor (.power (.base (.number (num1 2)))))))))
    (bareDigit (8 : Fin 10)) rfl ⟨by simp [closed], by simp [closed]⟩
    (s := s%"\\log_{2} 8") (writtenB_sound (by decide +kernel)) 0 [] startWorld ⟨rfl, fun _ _ => rfl⟩
  simpa [realInterp, realFn] using this

/-- Exponents: `2^10` is read as `2^{10}`, not as `2^1·0`. -/
theorem C78_power_refuted :
    ¬ ∃ v w', latex2sympy textLib 1 s%"2^10" [] startWorld = (.ok v, w') ∧
      den (realAt 0) v = (2 : ℝ) ^ (1 : ℝ) * 0 := by
  rintro ⟨v, w, h1, h2⟩
  have d2 : Decimal s%"2" 2 := dec_two
  have d10 : Decimal s%"10" 10 := by
    have := Decimal.whole (s := s%"10") (ip := [1, 0]) (by simp) (by decide)
    simpa [intPart] using this
  have hparse : parseText s%"2^10" = some (.one (.juxt
      [.pow (.number s%"2") (.number s%"10")])) := by kernel_rfl
  obtain ⟨v', w', h3, -, h4⟩ := C62_latex2sympy_partial (realAt 0) textLib (nodeLib_sound _ none _) 0
    s%"2^10" [] (free := fun _ => True) (t := .juxt [.pow (.number s%"2") (.number s%"10")])
    (textLib_parse _ _ hparse) (.one (.pow (.number d2) (.number d10))) startWorld
    ⟨rfl, fun _ _ => rfl⟩
  rw [h1] at h3
  cases h3
  rw [h2] at h4
  simp only [realInterp, mul_zero] at h4
  have : (0 : ℝ) < ((2 : ℚ) : ℝ) ^ ((10 : ℚ) : ℝ) := by positivity
  rw [← h4] at this
  exact lt_irrefl _ this

/-- Chains of powers are read from the left: `2^3^2` is converted to `(2^3)^2 = 64`. -/
theorem C93_chain_read :
    ∃ v w', latex2sympy textLib 1 s%"2^3^2" [] startWorld = (.ok v, w') ∧
      v.scalar = true ∧ den (realAt 0) v = 64 := by
  have d2 : Decimal s%"2" 2 := dec_two
  have d3 : Decimal s%"3" 3 := by
    have := Decimal.whole (s := s%"3") (ip := [3]) (by simp) (by decide)
    simpa [intPart] using this
  have hparse : parseText s%"2^3^2" = some (.one (.juxt
      [.pow (.pow (.number s%"2") (.number s%"3")) (.number s%"2")])) := by kernel_rfl
  obtain ⟨v, w', h1, h2, h3⟩ := C62_latex2sympy_partial (realAt 0) textLib (nodeLib_sound _ none _) 0
    s%"2^3^2" [] (free := fun _ => True) (t := .juxt [.pow (.pow (.number s%"2") (.number s%"3")) (.number s%"2")])
    (textLib_parse _ _ hparse) (.one (.pow (.pow (.number d2) (.number d3)) (.number d2))) startWorld
    ⟨rfl, fun _ _ => rfl⟩
  refine ⟨v, w', h1, h2, ?_⟩
  rw [h3]
  simp only [realInterp]
  norm_num

/-- **C93 is violated**: `2^3^2` is not `2^(3^2) = 512`. -/
theorem C93_chain_refuted :
    ¬ ∃ v w', latex2sympy textLib 1 s%"2^3^2" [] startWorld = (.ok v, w') ∧ den (realAt 0) v = 512 := by
  rintro ⟨v, w, h1, h2⟩
  obtain ⟨v', w', h3, -, h4⟩ := C93_chain_read
  rw [h1] at h3
  cases h3
  rw [h2] at h4
  norm_num at h4

end Verif.Grammar
