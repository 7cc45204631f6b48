import Verif.Props.Thousands
import Mathlib.Data.Nat.Factorial.DoubleFactorial
/-
Several signs of the factorial after a number (C129).
-/

namespace Verif.L2S
open Verif Verif.Reading Verif.Grammar

open Nat (factorial doubleFactorial)

variable {K : Type} [Field K] [CharZero K] {Y : Type} {I : Interp K} {L : Lib Y} {free : Str → Prop} {wide : Bool}

/-- the factorials of natural numbers -/
def Interp.Factorials (I : Interp K) : Prop := ∀ m : Nat, I.fn s%"factorial" [(m : K)] = ((factorial m : Nat) : K)

omit [CharZero K] in
theorem denotes_facts {e : End} {us : List Sign} {x : K} (h : Denotes I free wide (.factor e) us x) :
    ∀ k : Nat, ∃ e', Denotes I free wide (.factor e') (us ++ List.replicate k (.mark '!')) ((fun y => I.fn s%"factorial" [y])^[k] x)
  | 0 => ⟨e, by simpa using h⟩
  | k + 1 => by
    obtain ⟨e', h'⟩ := denotes_facts h k
    refine ⟨closed, ?_⟩
    have := h'.fact
    rwa [List.append_assoc, ← List.replicate_succ', ← Function.iterate_succ_apply' (fun y => I.fn s%"factorial" [y]) k x] at this

/-- **C129**, partial: a factor with several signs of the factorial is converted to the factorial of the factorial and so on, for every
factor of the notation and every number of signs.  With one sign this is the factorial. -/
theorem C129_iterated_partial (hL : SoundLib I L) (hp : ∀ s t, parseText s = some t → L.parse s = .ok t) {e : End} {us : List Sign} {x : K}
    (h : Denotes I free wide (.factor e) us x) (k : Nat) {s : Str} (hw : Written (us ++ List.replicate k (.mark '!')) s) (n : Nat)
    (vals : List (Str × PV)) (w : World (St Y)) (hr : Ready I free w) :
    ∃ v w', latex2sympy L (n + 1) s vals w = (.ok v, w') ∧ v.scalar = true ∧ den I v = (fun y => I.fn s%"factorial" [y])^[k] x := by
  obtain ⟨e', h'⟩ := denotes_facts h k
  exact C76_latex2sympy hL hp hw (.term (.signed (.product (.factor h')))) n vals w hr

theorem double_lt {m : Nat} (h : 3 ≤ m) : doubleFactorial m < factorial (factorial m) := by
  have h1 := Nat.doubleFactorial_le_factorial m
  have h2 : 6 ≤ factorial m := Nat.factorial_le h
  have h3 : factorial m < factorial (factorial m) := Nat.lt_factorial_self (by omega)
  omega

/-- **C129 is violated** by every number from 3 on: with two signs it is not converted to its double factorial, the product of every second
number. -/
theorem C129_refuted (hL : SoundLib I L) (hI : Interp.Factorials I) (hp : ∀ s t, parseText s = some t → L.parse s = .ok t) {ds : List (Fin 10)}
    {m : Nat} (hd : intPart ds = m) (hm : 3 ≤ m) {s : Str} (hw : Written (ds.map .digit ++ [.mark '!', .mark '!']) s) (n : Nat)
    (vals : List (Str × PV)) (w : World (St Y)) (hr : Ready I free w) :
    ∃ v w', latex2sympy L (n + 1) s vals w = (.ok v, w') ∧ den I v = (factorial (factorial m) : Nat) ∧ den I v ≠ (doubleFactorial m : Nat) := by
  have h0 : ds ≠ [] := by
    rintro rfl
    have : (m : ℚ) = 0 := by simpa [intPart] using hd.symm
    have : m = 0 := by exact_mod_cast this
    omega
  have h : Denotes I free (false : Bool) (.factor ⟨true, false⟩) (ds.map .digit) ((intPart ds : ℚ) : K) :=
    .power (.base (.number (.whole h0)))
  obtain ⟨v, w', h1, -, h2⟩ := C129_iterated_partial hL hp h 2 (s := s) hw n vals w hr
  have e : den I v = ((factorial (factorial m) : Nat) : K) := by
    rw [h2, hd]
    simp [hI m, hI (factorial m)]
  refine ⟨v, w', h1, e, ?_⟩
  rw [e]
  exact_mod_cast (double_lt hm).ne'

/-! ### A CAS with factorials -/

/-- real numbers, with the factorials of natural numbers -/
noncomputable def facReals : Interp ℝ :=
  { reals with fn := fun f xs => if f = s%"factorial" then (factorial (Nat.floor (xs.headD 0)) : Nat) else realFn f xs }

theorem facReals_factorials : Interp.Factorials facReals := fun m => by simp [facReals]

theorem facReals_sound : SoundLib facReals grammarLib where
  call τ f hf args h y := ⟨.fn f args, y, by simp [grammarLib, nodeLib, binderNode_call hf h], by
    simpa [SV.scalar] using h, by rw [den]; rfl⟩
  inv τ a h _ y := ⟨.fn s%"1/" [a], y, by simp [grammarLib, nodeLib, binderNode], by
    simp [SV.scalar, SV.scalars, h], by
    rw [den, denList, denList]
    simp [facReals, realInterp, realFn, Interp.at]⟩
  bind τ {f args op n r b as} hc hb has y := ⟨.binder op n r b as, y, by simp [grammarLib, nodeLib, hc.node], by
    simp [SV.scalar, hb, has], by rw [den]; rfl⟩

/-- `5!!` is converted to an expression with the value 120!, not 15. -/
example : ∃ v w', latex2sympy grammarLib 1 s%"5!!" [] ⟨⟨Globals.init, ()⟩, []⟩ = (.ok v, w') ∧ den facReals v = (factorial 120 : Nat) ∧
    den facReals v ≠ 15 := by
  have h := C129_refuted (free := fun _ => True) facReals_sound facReals_factorials grammarLib_parse (ds := [5]) (m := 5) (by simp [intPart]) (by decide) (s := s%"5!!")
    (writtenB_sound (by decide +kernel)) 0 [] ⟨⟨Globals.init, ()⟩, []⟩ ⟨rfl, fun _ _ => rfl⟩
  have e : doubleFactorial 5 = 15 := by decide
  rw [e] at h
  exact_mod_cast h

/-- an expression with variables as a function -/
noncomputable def asFac (v : SV) : FV := .fn fun ρ => den (facReals.vars ρ) v

/-- `funEnv`, with factorials. -/
noncomputable def facEnv : Env Unit FV Unit :=
  { funEnv with l2s := fun s x => ((latex2sympy grammarLib 2 s [] ⟨⟨Globals.init, x⟩, []⟩).1.map asFac, x) }

theorem facEnv_uses : UsesUndeclared facEnv grammarLib 1 asFac none := by
  intro s x
  refine ⟨⟨⟨Globals.init, x⟩, []⟩, ⟨rfl, rfl, rfl⟩, ?_⟩
  simp only [facEnv]

theorem facEnv_numbers : RealArith facEnv IsConst IsConst :=
  ⟨funEnv_numbers.view, funEnv_numbers.freeSyms, funEnv_numbers.isNumber, funEnv_numbers.evalf, funEnv_numbers.ev, funEnv_numbers.expandEq,
    funEnv_numbers.sub, funEnv_numbers.isZero, funEnv_numbers.isInteger, funEnv_numbers.abs, funEnv_numbers.ltThr, funEnv_numbers.ge1,
    funEnv_numbers.gt0, funEnv_numbers.div⟩

theorem facEnv_valued (s : Str) (x : ℝ) : Valued facEnv facReals asFac IsConst s x where
  value v hv h := by rw [asFac, funext h]; rfl
  parseExpr := (funEnv_valued s x).parseExpr

theorem facEnv_prints : PrintsIntegers facEnv := by
  intro z x
  right
  have key : ∀ ρ, ∃ v w', latex2sympy grammarLib 2 (intStr z) [] ⟨⟨Globals.init, x⟩, []⟩ = (.ok v, w') ∧ v.scalar = true ∧
      den (facReals.vars ρ) v = z := by
    intro ρ
    obtain ⟨ws, hw, hd⟩ := literal_denotes (facReals.vars ρ) false (Literal.ofInt z)
    obtain ⟨v, w', h1, h2, h3⟩ := latex2sympy_closed (facReals_sound.vars ρ) grammarLib_parse hw hd 1 [] ⟨⟨Globals.init, x⟩, []⟩
    rw [Literal.ofInt_text] at h1
    rw [Literal.ofInt_value] at h3
    exact ⟨v, w', h1, h2, by rw [h3]; push_cast; rfl⟩
  obtain ⟨v, w', e, _, _⟩ := key fun _ => 0
  have hden : IsConst (asFac v) z := by
    show FV.fn _ = FV.fn _
    congr 1
    funext ρ
    obtain ⟨v', w'', e', _, h'⟩ := key ρ
    rw [e] at e'
    cases e'
    exact h'
  have h : ∃ z : ℤ, IsConst (asFac v) z := ⟨z, hden⟩
  have hz : h.choose = z := by
    have := hden.unique.1 h.choose_spec
    exact_mod_cast this.symm
  refine ⟨asFac v, x, x, ?_, ?_⟩
  · simp only [facEnv]
    rw [e]
    rfl
  · simp only [facEnv, funEnv, gives]
    rw [dif_pos h, hz]

theorem integer_called (z : ℤ) (hz : z.natAbs ≤ 2 ^ 53) : NumberCalled facEnv grammarLib facReals IsConst asFac 0 (intStr z) z := by
  have h := NumAnswer.literal (E := facEnv) (I := facReals) (inj := asFac) (Is := IsConst) (Literal.ofInt z) (ofInt_tame z hz)
  rw [Literal.ofInt_value, Literal.ofInt_text] at h
  exact .number (by simpa using h)

/-- `3!!` -/
theorem three_answer : NumberCalled facEnv grammarLib facReals IsConst asFac 0 s%"3!!" 720 := by
  have h : ∀ ρ, Denotes (facReals.vars ρ) (fun _ => False) (false : Bool) .expr [.digit 3, .mark '!', .mark '!'] (720 : ℝ) := by
    intro ρ
    obtain ⟨e, h⟩ := denotes_facts (I := facReals.vars ρ) (free := fun _ => False) (wide := false)
      (.power (.base (.number (num1 3))) : Denotes _ _ _ (.factor ⟨true, false⟩) [.digit 3] _) 2
    have e1 : (fun y => (facReals.vars ρ).fn s%"factorial" [y])^[2] (((3 : Fin 10).val : ℚ) : ℝ) = 720 := by
      have f3 : (facReals.vars ρ).fn s%"factorial" [(3 : ℝ)] = (6 : Nat) := facReals_factorials 3
      have f6 : (facReals.vars ρ).fn s%"factorial" [((6 : Nat) : ℝ)] = (720 : Nat) := facReals_factorials 6
      show (facReals.vars ρ).fn s%"factorial" [(facReals.vars ρ).fn s%"factorial" [(((3 : Fin 10).val : ℚ) : ℝ)]] = 720
      rw [show ((((3 : Fin 10).val : ℚ) : ℝ)) = 3 by norm_num, f3, f6]
      norm_num
    rw [e1] at h
    exact .term (.signed (.product (.factor h)))
  exact .number (.text (tidyB_sound (by decide +kernel)) (singleB_sound (by decide +kernel)) (fun f hf => by cases hf)
    (writtenB_sound (by decide +kernel)) h (facEnv_valued _ _))

/-- **C129 is violated** in the verdict: `3!!`, which is 3, is judged equivalent to 720 and not to 3. -/
theorem C129_verdict_refuted (n : Nat) (verbose : Bool) : doubleFactorial 3 = 3 ∧
    Always (isEquiv facEnv (n + 3) (some s%"3!!") (some s%"720") verbose) true ∧
    Always (isEquiv facEnv (n + 3) (some s%"3!!") (some s%"3") verbose) false := by
  have key := fun z hz => C123_numbers_partial facReals_sound grammarLib_parse grammarLib_reads facEnv_uses facEnv_numbers facEnv_prints
    (fun _ => facEnv_valued _ _) three_answer (integer_called z hz) n verbose
  have h9 := key 720 (by decide)
  have h5 := key 3 (by decide)
  rw [show intStr 720 = s%"720" by decide +kernel] at h9
  rw [show intStr 3 = s%"3" by decide +kernel] at h5
  exact ⟨by decide, h9.yes (by norm_num [WithinTolerance]), h5.no (by norm_num [WithinTolerance, abs_of_pos])⟩

end Verif.L2S
