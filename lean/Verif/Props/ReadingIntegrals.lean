import Verif.Props.ReadingCalculus
import Verif.Props.L2SEvalAt
/-
Integrals, from the text to the value over the real numbers (C86).
-/

namespace Verif.Grammar
open Verif Verif.L2S Verif.Reading

/-- A phrase without integrals is a phrase of the notation with integrals. -/
theorem _root_.Verif.Reading.Denotes.also {K : Type} [Field K] {I : Interp K} {free : Str → Prop} {wide : Style} {l : Level}
    {ws : List Sign} {x : K} (h : Denotes I free wide l ws x) :
    Denotes I free ⟨wide.wide, true⟩ l ws x := by
  induction h with
  | term _ i0 => exact .term i0
  | add _ _ i0 i1 => exact .add i0 i1
  | sub _ _ i0 i1 => exact .sub i0 i1
  | signed _ i0 => exact .signed i0
  | mul h0 _ _ i1 i2 => exact .mul h0 i1 i2
  | div h0 _ _ i1 i2 => exact .div h0 i1 i2
  | mod _ _ i0 i1 => exact .mod i0 i1
  | product _ i0 => exact .product i0
  | pos _ i0 => exact .pos i0
  | neg _ i0 => exact .neg i0
  | factor _ i0 => exact .factor i0
  | juxt _ _ h2 i0 i1 => exact .juxt i0 i1 h2
  | app _ i0 => exact .app i0
  | appJuxt _ _ h2 i0 i1 => exact .appJuxt i0 i1 h2
  | long _ i0 => exact .long i0
  | derivative h0 h1 h2 _ h4 i3 => exact .derivative h0 h1 h2 i3 h4
  | integral _ h1 h2 _ h4 _ h6 h7 h8 _ h10 i3 i5 i9 => exact .integral rfl h1 h2 i3 h4 i5 h6 h7 h8 i9 h10
  | integralOne _ h1 h2 _ h4 _ h6 i3 i5 => exact .integralOne rfl h1 h2 i3 h4 i5 h6
  | antiderivative _ h1 h2 h3 _ h5 i4 => exact .antiderivative rfl h1 h2 h3 i4 h5
  | power _ i0 => exact .power i0
  | fact _ i0 => exact .fact i0
  | base _ i0 => exact .base i0
  | pow _ _ i0 i1 => exact .pow i0 i1
  | expBraces _ i0 => exact .expBraces i0
  | expDigit => exact .expDigit
  | expLetter h0 h1 => exact .expLetter h0 h1
  | number h0 => exact .number h0
  | percent h0 => exact .percent h0
  | pi => exact .pi
  | letter h0 h1 => exact .letter h0 h1
  | letterPow h0 h1 _ i2 => exact .letterPow h0 h1 i2
  | euler => exact .euler
  | eulerPow _ i0 => exact .eulerPow i0
  | bracket h0 _ i1 => exact .bracket h0 i1
  | bracketFn h0 _ i1 => exact .bracketFn h0 i1
  | partDigit => exact .partDigit
  | partBraces _ i0 => exact .partBraces i0
  | frac _ _ i0 i1 => exact .frac i0 i1
  | sqrt _ i0 => exact .sqrt i0
  | root _ _ h2 i0 i1 => exact .root i0 i1 h2
  | binom _ _ i0 i1 => exact .binom i0 i1
  | argParens _ i0 => exact .argParens i0
  | argLeft _ i0 => exact .argLeft i0
  | func h0 _ i1 => exact .func h0 i1
  | funcPow h0 _ _ h3 h4 i1 i2 => exact .funcPow h0 i1 i2 h3 h4
  | funcInv h0 _ i1 => exact .funcInv h0 i1
  | log _ i0 => exact .log i0
  | ln _ i0 => exact .ln i0
  | logBase _ _ i0 i1 => exact .logBase i0 i1
  | appFunc h0 _ h2 i1 => exact .appFunc h0 i1 h2
  | appFuncPow h0 _ _ h3 h4 h5 h6 i1 i2 => exact .appFuncPow h0 i1 i2 h3 h4 h5 h6
  | appFuncInv h0 _ h2 i1 => exact .appFuncInv h0 i1 h2
  | appLog _ h1 i0 => exact .appLog i0 h1
  | appLn _ h1 i0 => exact .appLn i0 h1
  | appLogBase _ _ h2 h3 i0 i1 => exact .appLogBase i0 i1 h2 h3
  | bareSigned _ i0 => exact .bareSigned i0
  | bareMul h0 h1 _ _ i2 i3 => exact .bareMul h0 h1 i2 i3
  | bareDiv h0 h1 _ _ i2 i3 => exact .bareDiv h0 h1 i2 i3
  | bare _ i0 => exact .bare i0
  | barePos _ i0 => exact .barePos i0
  | bareNeg _ i0 => exact .bareNeg i0
  | bareFactor _ i0 => exact .bareFactor i0
  | bareApp _ i0 => exact .bareApp i0
  | bareJuxt _ _ h2 i0 i1 => exact .bareJuxt i0 i1 h2
  | restFactor _ h1 i0 => exact .restFactor i0 h1
  | restJuxt _ h1 _ h3 i0 i2 => exact .restJuxt i0 h1 i2 h3
  | sum h0 h1 h2 _ h4 _ h6 h7 h8 _ h10 i3 i5 i9 => exact .sum h0 h1 h2 i3 h4 i5 h6 h7 h8 i9 h10
  | limInfinity h0 h1 h2 h3 h4 _ h6 i5 => exact .limInfinity h0 h1 h2 h3 h4 i5 h6
  | limRight h0 h1 h2 _ h4 _ h6 i3 i5 => exact .limRight h0 h1 h2 i3 h4 i5 h6
  | limLeft h0 h1 h2 _ h4 _ h6 i3 i5 => exact .limLeft h0 h1 h2 i3 h4 i5 h6
  | limBoth h0 h1 h2 _ h4 _ h6 i3 i5 => exact .limBoth h0 h1 h2 i3 h4 i5 h6
  | pointBase _ i0 => exact .pointBase i0
  | pointName h0 h1 => exact .pointName h0 h1
  | pointNeg _ i0 => exact .pointNeg i0

/-- Differentials are apart if only the last sign is one that does not stand before a closing brace. -/
theorem apart_last {ws : List Sign} {c : Char} (h : boxed ws = true) : Apart (ws ++ [.diff c]) := by
  intro a b d x y e
  rcases List.eq_nil_or_concat d with rfl | ⟨d', z, rfl⟩
  · have e' : ws ++ [Sign.diff c] = (a ++ .diff x :: b) ++ [.diff y] := by simpa using e
    obtain ⟨rfl, -⟩ := List.append_inj' e' rfl
    -- `x` stands before a closing brace
    have key : ∀ a : List Sign, boxed (a ++ .diff x :: b) = true → b.head? = some (.mark '}') := by
      intro a
      induction a with
      | nil => intro h; simp only [List.nil_append, boxed, Bool.and_eq_true, beq_iff_eq] at h; exact h.1
      | cons w a ih =>
        intro h
        cases w with
        | diff c => simp only [List.cons_append, boxed, Bool.and_eq_true] at h; exact ih h.2
        | _ => exact ih h
    have h1 := key a h
    cases b with
    | nil => simp at h1
    | cons w b =>
      simp at h1
      subst h1
      simp [level]
  · have e' : ws ++ [Sign.diff c] = (a ++ .diff x :: (b ++ .diff y :: d')) ++ [z] := by simpa using e
    obtain ⟨rfl, -⟩ := List.append_inj' e' rfl
    exact apart_of_boxed h a b d' x y rfl

/-! ### The phrases -/

/-- The signs of an integral: lower and upper bound, integrand, variable. -/
def intSigns (as bs us : List Sign) (c : Char) : List Sign :=
  .cmd s%"int" :: .mark '_' :: (as ++ .mark '^' :: (bs ++ (us ++ [.diff c])))

theorem apart_int {as bs us : List Sign} {c : Char} (ha : boxed as = true) (hb : boxed bs = true)
    (hu : boxed us = true) : Apart (intSigns as bs us c) := by
  have e : intSigns as bs us c = (.cmd s%"int" :: .mark '_' :: (as ++ .mark '^' :: (bs ++ us))) ++ [.diff c] := by
    simp [intSigns]
  rw [e]
  refine apart_last ?_
  show boxed (as ++ .mark '^' :: (bs ++ us)) = true
  rw [boxed_append ha]
  show boxed (bs ++ us) = true
  rw [boxed_append hb, hu]

section
variable {σ : Str → Option Bool → ℝ} {r : Option Bool} {free : Str → Prop} {wide : Style}
  (hw : wide.integrals = true) {c : Char} (hc : isVariable c = true) (hi : free [c])
  {d e : End} {w : Sign} {as bs vs : List Sign} {f : ℝ → ℝ}
include hw hc hi

theorem denotes_integral {x y : ℝ}
    (ha : Denotes (realInterp σ r) free wide (.exponent d) as x)
    (hb : Denotes (realInterp σ r) free wide (.exponent e) bs y) (hf' : Follows e w)
    (hf : Writes σ r free wide .expr (w :: vs) [c] (Set.uIcc x y) f) :
    Denotes (realInterp σ r) free wide (.product false) (intSigns as bs (w :: vs) c)
      (∫ z in x..y, f z) := by
  refine .integral (lo := .fin x) (hi := .fin y) (S := fun z => z ∈ Set.uIcc x y) (f := f) (k₀ := x) hw hc hi
    (by rintro y ⟨⟩; exact ha) (fun h => absurd rfl (h _)) (by rintro y ⟨⟩; exact hb)
    (fun h => absurd rfl (h _)) hf' Set.left_mem_uIcc hf ?_
  intro g hg
  rw [realInterp_binder]
  have h1 : (s%"Integral" : Str) ≠ s%"Sum" := by decide
  have h2 : (s%"Integral" : Str) ≠ s%"Product" := by decide
  simp only [realBinder, if_neg h1, if_neg h2, if_true]
  exact intervalIntegral.integral_congr fun z hz => hg z hz

theorem denotes_above {x : ℝ}
    (ha : Denotes (realInterp σ r) free wide (.exponent d) as x) (hb : EndlessAbove bs (.posInf : Bound ℝ))
    (hf : Writes σ r free wide .expr (w :: vs) [c] (Set.Ioi x) f) :
    Denotes (realInterp σ r) free wide (.product false) (intSigns as bs (w :: vs) c)
      (∫ z in Set.Ioi x, f z) := by
  refine .integral (e := closed) (lo := .fin x) (hi := .posInf) (S := fun z => z ∈ Set.Ioi x) (f := f)
    (k₀ := x + 1) hw hc hi
    (by rintro y ⟨⟩; exact ha) (fun h => absurd rfl (h _)) (by rintro y ⟨⟩)
    (fun _ => ⟨rfl, hb⟩) (by simp [Follows, closed]) (by simp) hf ?_
  intro g hg
  rw [realInterp_binder]
  have h1 : (s%"Integral" : Str) ≠ s%"Sum" := by decide
  have h2 : (s%"Integral" : Str) ≠ s%"Product" := by decide
  simp only [realBinder, if_neg h1, if_neg h2, if_true]
  exact MeasureTheory.setIntegral_congr_fun measurableSet_Ioi fun z hz => hg z hz

theorem denotes_below {y : ℝ}
    (ha : EndlessAbove as (.negInf : Bound ℝ)) (hb : Denotes (realInterp σ r) free wide (.exponent e) bs y)
    (hf' : Follows e w) (hf : Writes σ r free wide .expr (w :: vs) [c] (Set.Iic y) f) :
    Denotes (realInterp σ r) free wide (.product false) (intSigns as bs (w :: vs) c)
      (∫ z in Set.Iic y, f z) := by
  refine .integral (d := closed) (lo := .negInf) (hi := .fin y) (S := fun z => z ∈ Set.Iic y) (f := f) (k₀ := y) hw hc hi
    (by rintro y ⟨⟩) (fun _ => ha) (by rintro y ⟨⟩; exact hb)
    (fun h => absurd rfl (h _)) hf' (by simp) hf ?_
  intro g hg
  rw [realInterp_binder]
  simp only [realBinder, if_true]
  exact MeasureTheory.setIntegral_congr_fun measurableSet_Iic fun z hz => hg z hz

theorem denotes_everywhere
    (ha : EndlessAbove as (.negInf : Bound ℝ)) (hb : EndlessAbove bs (.posInf : Bound ℝ))
    (hf : Writes σ r free wide .expr (w :: vs) [c] Set.univ f) :
    Denotes (realInterp σ r) free wide (.product false) (intSigns as bs (w :: vs) c) (∫ z, f z) := by
  refine .integral (d := closed) (e := closed) (lo := .negInf) (hi := .posInf) (S := fun z => z ∈ Set.univ) (f := f)
    (k₀ := 0) hw hc hi
    (by rintro y ⟨⟩) (fun _ => ha) (by rintro y ⟨⟩)
    (fun _ => ⟨rfl, hb⟩) (by simp [Follows, closed]) trivial hf ?_
  intro g hg
  rw [realInterp_binder]
  simp only [realBinder, if_true]
  exact MeasureTheory.integral_congr_ae (.of_forall fun z => hg z trivial)

theorem denotes_length {x y : ℝ}
    (ha : Denotes (realInterp σ r) free wide (.exponent d) as x)
    (hb : Denotes (realInterp σ r) free wide (.exponent e) bs y) :
    Denotes (realInterp σ r) free wide (.product false) (intSigns as bs [] c) (y - x) := by
  have h := Denotes.integralOne (I := realInterp σ r) (lo := .fin x) (hi := .fin y) hw hc hi
    (by rintro y ⟨⟩; exact ha) (fun h => absurd rfl (h _)) (by rintro y ⟨⟩; exact hb)
    (fun h => absurd rfl (h _))
  rw [realInterp_binder] at h
  have h1 : (s%"Integral" : Str) ≠ s%"Sum" := by decide
  have h2 : (s%"Integral" : Str) ≠ s%"Product" := by decide
  simp only [realBinder, if_neg h1, if_neg h2, if_true, intervalIntegral.integral_const, smul_eq_mul, mul_one] at h
  exact h

end

/-! ### C86 -/

section
variable {Y : Type} {L : Lib Y} {σ : Str → Option Bool → ℝ} {r : Option Bool} {free : Str → Prop}
  (hL : SoundLib (realInterp σ r) L)
  (hp : ∀ s t, parseText s = some t → L.parse s = .ok t) {s : Str} {f : ℝ → ℝ}
include hL hp

/-- **C86.**  A text of the notation with integrals, also nested and as parts of other expressions, is
converted to an expression of its value if no two differentials stand in the same group of braces. -/
theorem C86_text_partial {wide : Style} {ws : List Sign} {x : ℝ} (hs : Written ws s)
    (hd : Denotes (realInterp σ r) free wide .expr ws x) (ha : Apart ws) : ConvertsTo L σ r free s x :=
  fun n vals w hr => latex2sympy_apart hL hp hs hd ha n vals w hr

variable {wide : Bool} {c : Char} (hc : isVariable c = true) (hi : free [c]) {d e : End} {w : Sign}
  {as bs vs : List Sign}
include hc hi

/-- **C86, integrals.**  A text `\int_{a}^{b} t dx` is converted to the integral from `a` to `b` of the
function of `x` written as `t`. -/
theorem C86_integral_partial {x y : ℝ} (hs : Written (intSigns as bs (w :: vs) c) s)
    (ha : Denotes (realInterp σ r) free wide (.exponent d) as x)
    (hb : Denotes (realInterp σ r) free wide (.exponent e) bs y) (hf' : Follows e w)
    (hf : Writes σ r free wide .expr (w :: vs) [c] (Set.uIcc x y) f) :
    ConvertsTo L σ r free s (∫ z in x..y, f z) :=
  C86_text_partial hL hp hs (.term (.signed (.product (denotes_integral (wide := ⟨wide, true⟩) rfl hc hi
    ha.also hb.also hf' fun z hz => (hf z hz).also))))
    (apart_int (boxed_denotes ha rfl) (boxed_denotes hb rfl)
      (boxed_denotes (hf x Set.left_mem_uIcc) rfl))

/-- **C86, integrals to infinity.** -/
theorem C86_above_partial {x : ℝ} (hs : Written (intSigns as bs (w :: vs) c) s)
    (ha : Denotes (realInterp σ r) free wide (.exponent d) as x) (hb : EndlessAbove bs (.posInf : Bound ℝ))
    (hf : Writes σ r free wide .expr (w :: vs) [c] (Set.Ioi x) f) :
    ConvertsTo L σ r free s (∫ z in Set.Ioi x, f z) :=
  C86_text_partial hL hp hs (.term (.signed (.product (denotes_above (wide := ⟨wide, true⟩) rfl hc hi
    ha.also hb fun z hz => (hf z hz).also))))
    (apart_int (boxed_denotes ha rfl) (boxed_above hb)
      (boxed_denotes (hf (x + 1) (by simp)) rfl))

/-- **C86, integrals from minus infinity.** -/
theorem C86_below_partial {y : ℝ} (hs : Written (intSigns as bs (w :: vs) c) s)
    (ha : EndlessAbove as (.negInf : Bound ℝ)) (hb : Denotes (realInterp σ r) free wide (.exponent e) bs y)
    (hf' : Follows e w) (hf : Writes σ r free wide .expr (w :: vs) [c] (Set.Iic y) f) :
    ConvertsTo L σ r free s (∫ z in Set.Iic y, f z) :=
  C86_text_partial hL hp hs (.term (.signed (.product (denotes_below (wide := ⟨wide, true⟩) rfl hc hi
    ha hb.also hf' fun z hz => (hf z hz).also))))
    (apart_int (boxed_above ha) (boxed_denotes hb rfl)
      (boxed_denotes (hf y (by simp)) rfl))

/-- **C86, integrals over all real numbers.** -/
theorem C86_everywhere_partial (hs : Written (intSigns as bs (w :: vs) c) s)
    (ha : EndlessAbove as (.negInf : Bound ℝ)) (hb : EndlessAbove bs (.posInf : Bound ℝ))
    (hf : Writes σ r free wide .expr (w :: vs) [c] Set.univ f) :
    ConvertsTo L σ r free s (∫ z, f z) :=
  C86_text_partial hL hp hs (.term (.signed (.product (denotes_everywhere (wide := ⟨wide, true⟩) rfl hc hi
    ha hb fun z hz => (hf z hz).also))))
    (apart_int (boxed_above ha) (boxed_above hb) (boxed_denotes (hf 0 trivial) rfl))

/-- **C86, integrals without integrand.**  `\int_{a}^{b} dx` is converted to `b - a`. -/
theorem C86_length_partial {x y : ℝ} (hs : Written (intSigns as bs [] c) s)
    (ha : Denotes (realInterp σ r) free wide (.exponent d) as x)
    (hb : Denotes (realInterp σ r) free wide (.exponent e) bs y) :
    ConvertsTo L σ r free s (y - x) :=
  C86_text_partial hL hp hs (.term (.signed (.product (denotes_length (wide := ⟨wide, true⟩) rfl hc hi
    ha.also hb.also))))
    (apart_int (boxed_denotes ha rfl) (boxed_denotes hb rfl) rfl)

end

/-! ### Concrete texts -/

/-- no differential before the group of braces is closed -/
def far : Nat → List Sign → Bool
  | _, [] => true
  | n, w :: ws =>
    if w = .mark '{' then far (n + 1) ws
    else if w = .mark '}' then
      match n with
      | 0 => true
      | m + 1 => far m ws
    else (match w with | .diff _ => n != 0 | _ => true) && far n ws

/-- a check of `Apart` -/
def apartB : List Sign → Bool
  | [] => true
  | w :: ws => (match w with | .diff _ => far 0 ws | _ => true) && apartB ws

theorem far_sound {b : List Sign} : ∀ {n : Nat} {y : Char} {c : List Sign},
    far n (b ++ .diff y :: c) = true → level n b ≠ some 0 := by
  induction b with
  | nil =>
    intro n y c h
    rw [List.nil_append, far.eq_def] at h
    simp only [reduceCtorEq, if_false, Bool.and_eq_true, bne_iff_ne] at h
    simpa [level] using h.1
  | cons w b ih =>
    intro n y c h
    rw [List.cons_append, far.eq_def] at h
    rw [level.eq_def]
    simp only at h ⊢
    split_ifs at h ⊢ with h1 h2
    · exact ih h
    · cases n with
      | zero => simp
      | succ n => exact ih h
    · rw [Bool.and_eq_true] at h
      exact ih h.2

theorem apartB_sound {ws : List Sign} (h : apartB ws = true) : Apart ws := by
  intro a b c x y e
  subst e
  induction a with
  | nil =>
    rw [List.nil_append, apartB, Bool.and_eq_true] at h
    exact far_sound h.1
  | cons w a ih =>
    rw [List.cons_append, apartB.eq_def] at h
    simp only [Bool.and_eq_true] at h
    exact ih h.2

theorem squareExpr {σ : Str → Option Bool → ℝ} {r : Option Bool} {wide : Style} (x : ℝ) :
    Denotes (realInterp (assign σ r s%"x" x) r) (fun _ => True) wide .expr
      [.letter 'x', .mark '^', .digit 2] (x ^ ((2 : ℕ) : ℝ)) := by
  have h := Denotes.letterPow (I := realInterp (assign σ r s%"x" x) r)
    (free := fun _ => True) (wide := wide) (.latin (c := 'x') (by decide)) trivial (.expDigit (d := 2))
  have e : (realInterp (assign σ r s%"x" x) r).var s%"x" = x := assign_self σ r s%"x" x
  rw [e] at h
  exact .term (.signed (.product (.factor (.power (.base h)))))

/-- `\int_0^{1} x^2 dx` is converted to an expression of value 1/3. -/
example : ConvertsTo textLib (fun _ _ => 7) none (fun _ => True) s%"\\int_0^{1} x^2 dx" (1 / 3) := by
  have h := C86_integral_partial (r := none) (free := fun _ => True) (wide := false) (σ := fun _ _ => (7 : ℝ))
    (nodeLib_sound _ _ _) textLib_parse (s := s%"\\int_0^{1} x^2 dx") (f := fun x => x ^ ((2 : ℕ) : ℝ))
    (c := 'x') (as := [.digit 0]) (bs := .mark '{' :: [.digit 1] ++ [.mark '}'])
    (w := .letter 'x') (vs := [.mark '^', .digit 2]) (by decide) trivial
    (writtenB_sound (by decide +kernel)) .expDigit (.expBraces (digitExpr 1)) (by simp [Follows, closed])
    (fun x _ => squareExpr x)
  have e : ∫ z in ((((0 : Fin 10).val : ℕ) : ℝ))..((((1 : Fin 10).val : ℚ) : ℝ)), z ^ ((2 : ℕ) : ℝ) = 1 / 3 := by
    simp only [Real.rpow_natCast]
    norm_num
  exact e ▸ h

/-- In `3\int_0^{1} x^2 dx+5` the integral is a part of a longer text, of value 6. -/
example : ConvertsTo textLib (fun _ _ => 7) none (fun _ => True) s%"3\\int_0^{1} x^2 dx+5" 6 := by
  have h0 := denotes_integral (r := none) (free := fun _ => True) (wide := ⟨false, true⟩) (σ := fun _ _ => (7 : ℝ))
    (f := fun x => x ^ ((2 : ℕ) : ℝ)) (c := 'x') (as := [.digit 0]) (bs := .mark '{' :: [.digit 1] ++ [.mark '}'])
    (w := .letter 'x') (vs := [.mark '^', .digit 2]) rfl (by decide) trivial
    .expDigit (.expBraces (digitExpr 1)) (by simp [Follows, closed]) (fun x _ => squareExpr x)
  have e : ∫ z in ((((0 : Fin 10).val : ℕ) : ℝ))..((((1 : Fin 10).val : ℚ) : ℝ)), z ^ ((2 : ℕ) : ℝ) = 1 / 3 := by
    simp only [Real.rpow_natCast]
    norm_num
  rw [e] at h0
  have h3 : Denotes (realInterp (fun _ _ => (7 : ℝ)) none) (fun _ => True) ⟨false, true⟩ (.factor ⟨true, false⟩) [.digit 3]
      (((3 : Fin 10).val : ℚ) : ℝ) := .power (.base (.number (num1 3)))
  have h5 : Denotes (realInterp (fun _ _ => (7 : ℝ)) none) (fun _ => True) ⟨false, true⟩ (.term false) [.digit 5]
      (((5 : Fin 10).val : ℚ) : ℝ) := .signed (.product (.factor (.power (.base (.number (num1 5))))))
  have h := C86_text_partial (s := s%"3\\int_0^{1} x^2 dx+5") (nodeLib_sound _ _ _) textLib_parse
    (writtenB_sound (by decide +kernel))
    (.add (.term (.signed (.product (.juxt h3 h0 (by simp [Follows]))))) h5) (apartB_sound (by decide +kernel))
  have e6 : (((3 : Fin 10).val : ℚ) : ℝ) * (1 / 3) + (((5 : Fin 10).val : ℚ) : ℝ) = 6 := by norm_num
  exact e6 ▸ h

/-- the text of the counterexample: the sum of two integrals -/
def twoIntegrals : Str := s%"\\int_{0}^{1} 2 dx + \\int_{0}^{1} 2 dy"

/-- the signs of one of its integrals -/
def twoSigns (c : Char) : List Sign :=
  intSigns (.mark '{' :: [.digit 0] ++ [.mark '}']) (.mark '{' :: [.digit 1] ++ [.mark '}']) [.digit 2] c

theorem twoSigns_denotes (σ : Str → Option Bool → ℝ) (c : Char) (hc : isVariable c = true) :
    Denotes (realInterp σ none) (fun _ => True) ⟨false, true⟩ (.product false) (twoSigns c) 2 := by
  have h0 := denotes_integral (r := none) (free := fun _ => True) (wide := ⟨false, true⟩) (σ := σ)
    (f := fun _ => (((2 : Fin 10).val : ℚ) : ℝ)) (c := c) (as := .mark '{' :: [.digit 0] ++ [.mark '}'])
    (bs := .mark '{' :: [.digit 1] ++ [.mark '}']) (w := .digit 2) (vs := []) rfl hc trivial
    (.expBraces (digitExpr 0)) (.expBraces (digitExpr 1)) (by simp [Follows, closed])
    (fun x _ => digitExpr 2)
  have e : ∫ _ in ((((0 : Fin 10).val : ℚ) : ℝ))..((((1 : Fin 10).val : ℚ) : ℝ)), (((2 : Fin 10).val : ℚ) : ℝ) = 2 := by
    norm_num
  rw [e] at h0
  exact h0

/-- **C86 is violated** when two differentials stand side by side: `\int_{0}^{1} 2 dx + \int_{0}^{1} 2 dy`
is 4, but the first integral extends to the last differential, and the expression returned has the value
`2 dx + 2` with a variable `dx`. -/
theorem C86_refuted (σ : Str → Option Bool → ℝ) :
    (∃ ws, Written ws twoIntegrals ∧
      Denotes (realInterp σ none) (fun _ => True) ⟨false, true⟩ .expr ws 4) ∧
    ∃ v w', latex2sympy barLib 1 twoIntegrals [] startWorld = (.ok v, w') ∧ v.scalar = true ∧
      den (realInterp σ none) v = 2 * σ s%"dx" none + 2 := by
  constructor
  · refine ⟨twoSigns 'x' ++ .mark '+' :: twoSigns 'y', writtenB_sound (by decide +kernel), ?_⟩
    have := Denotes.add (.term (.signed (.product (twoSigns_denotes σ 'x' (by decide)))))
      (.signed (.product (twoSigns_denotes σ 'y' (by decide))))
    have e : (2 : ℝ) + 2 = 4 := by norm_num
    rwa [e] at this
  · have ht : parseText twoIntegrals = some (.one (.juxt [.integral
        (some (.add (.juxt [.number s%"2", .differential s%"dx"])
          (.juxt [.integral (some (.juxt [.number s%"2"])) none (some (.juxt [.number s%"0"])) (some (.juxt [.number s%"1"]))])))
        (some s%"dy") (some (.juxt [.number s%"0"])) (some (.juxt [.number s%"1"]))])) := by
      kernel_rfl
    have hp := barLib_parse (s := twoIntegrals) (by decide +kernel) ht
    refine ⟨.binder s%"Integral" s%"y" none (.add [.mul [.num 2, .sym s%"dx" none],
      .binder s%"Integral" s%"x" none (.num 2) [.num 0, .num 1]]) [.num 0, .num 1], ?_⟩
    rw [latex2sympy]
    simp only [M.bind_run, modG, M.ext, M.lift_run, hp]
    refine ⟨_, rfl, by decide, ?_⟩
    simp [den, denSum, denProd, denBounds, boundOf, realInterp, realBinder, Interp.upd, Interp.at]

end Verif.Grammar
