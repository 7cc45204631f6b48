import Mathlib.Analysis.SpecialFunctions.Pow.Real
import Mathlib.Analysis.SpecialFunctions.Log.Base
import Mathlib.Analysis.Calculus.Deriv.Basic
import Mathlib.MeasureTheory.Integral.IntervalIntegral.Basic
import Verif.Props.L2SArith
/-
The hypotheses of C62 are met by the real numbers and a concrete library.
-/

namespace Verif.L2S
open Verif

open Filter Topology in
/-- The operators with a bound variable over the real numbers: finite and infinite sums and products
over integers, integrals, the derivative at a point, and one-sided limits. -/
noncomputable def realBinder (op : Str) (f : ℝ → ℝ) : List (Bound ℝ) → ℝ
  | [.fin a, .fin b] =>
    if op = s%"Sum" then ∑ k ∈ Finset.Icc ⌈a⌉ ⌊b⌋, f k
    else if op = s%"Product" then ∏ k ∈ Finset.Icc ⌈a⌉ ⌊b⌋, f k
    else if op = s%"Integral" then ∫ x in a..b, f x
    else 0
  | [.fin a, .posInf] =>
    if op = s%"Sum" then ∑' k : ℕ, f (⌈a⌉ + k)
    else if op = s%"Product" then ∏' k : ℕ, f (⌈a⌉ + k)
    else if op = s%"Integral" then ∫ x in Set.Ioi a, f x
    else 0
  | [.negInf, .fin b] => if op = s%"Integral" then ∫ x in Set.Iic b, f x else 0
  | [.negInf, .posInf] => if op = s%"Integral" then ∫ x, f x else 0
  | [.fin a] =>
    if op = s%"Limit+" then limUnder (𝓝[>] a) f
    else if op = s%"Limit-" then limUnder (𝓝[<] a) f
    else if op = s%"Derivative" then deriv f a
    else if op = s%"Antiderivative" then ∫ x in (0 : ℝ)..a, f x
    else if op = s%"Subs" then f a
    else 0
  | [.posInf] => limUnder atTop f
  | [.negInf] => limUnder atBot f
  | _ => 0

/-- Functions over the real numbers. -/
noncomputable def realFn (f : Str) : List ℝ → ℝ
  | [x] =>
    if f = s%"1/" then x⁻¹ else if f = s%"exp" then Real.exp x else if f = s%"sin" then Real.sin x
    else if f = s%"cos" then Real.cos x else if f = s%"tan" then Real.tan x
    else if f = s%"Abs" then |x| else if f = s%"floor" then ⌊x⌋ else if f = s%"ceiling" then ⌈x⌉
    else 0
  | [x, b] => if f = s%"log" then Real.logb b x else 0
  | _ => 0

/-- Real numbers, with an assignment of the symbols. -/
noncomputable def realInterp (σ : Str → Option Bool → ℝ) (r : Option Bool) : Interp ℝ where
  sym := σ
  real := r
  const n := if n = s%"pi" then Real.pi else if n = s%"E" then Real.exp 1 else 0
  pw x y := x ^ y
  pw_neg_one x := Real.rpow_neg_one x
  fn := realFn
  binder := realBinder

/-- A library that builds a node for every call and knows one text. -/
def nodeLib (parse : Str → Except PyErr MathTree) : Lib Unit where
  parse := parse
  call f args y := (.ok ((binderNode f args).getD (.fn f args)), y)
  validate _ _ y := (.ok (), y)
  str _ y := (.ok [], y)
  md5 s := s
  latex _ y := (.ok [], y)
  hasNUMBER := false

theorem nodeLib_sound (σ : Str → Option Bool → ℝ) (r : Option Bool)
    (parse : Str → Except PyErr MathTree) : SoundLib (realInterp σ r) (nodeLib parse) where
  call τ f hf args h y := ⟨.fn f args, y, by simp [nodeLib, binderNode_call hf h], by
    simpa [SV.scalar] using h, by rw [den]; rfl⟩
  inv τ a h _ y := ⟨.fn s%"1/" [a], y, by simp [nodeLib, binderNode], by
    simp [SV.scalar, SV.scalars, h], by
    rw [den, denList, denList]; simp [realInterp, realFn, Interp.at]⟩
  bind τ {f args op n r b as} hc hb has y := ⟨.binder op n r b as, y, by simp [nodeLib, hc.node], by
    simp [SV.scalar, hb, has], by rw [den]; rfl⟩

/-- the number literal -/
abbrev lit (s : Str) : T := .juxt [.number s]

theorem dec_one : Decimal s%"1" 1 := by
  have := Decimal.whole (s := s%"1") (ip := [1]) (by simp) (by decide)
  simpa [intPart] using this
theorem dec_two : Decimal s%"2" 2 := by
  have := Decimal.whole (s := s%"2") (ip := [2]) (by simp) (by decide)
  simpa [intPart] using this
theorem dec_half : Decimal s%"1,000.5" (1000.5) := by
  have := Decimal.point (s := s%"1,000.5") (ip := [1, 0, 0, 0]) (fp := [5]) (by simp) (by decide)
  simp [intPart, fracPart] at this
  norm_num at this ⊢
  exact this

/-- `\frac{x^2-1}{2}-1,000.5\sqrt{x}` -/
def sampleTree : T :=
  .sub (.juxt [.frac (.sub (.juxt [.name (.letter s%"x") none (some (lit s%"2"))]) (lit s%"1")) none
      (lit s%"2") none])
    (.juxt [.number s%"1,000.5", .sqrt (.juxt [.name (.letter s%"x") none none]) none])

/-- The hypotheses of `C62_latex2sympy_partial` are satisfiable: the expression has its value at
`x = 3` over the real numbers. -/
example : ∃ v w', latex2sympy (nodeLib fun _ => .ok (.one sampleTree)) 1 s%"..." []
      ⟨⟨Globals.init, ()⟩, []⟩ = (.ok v, w') ∧ v.scalar = true ∧
      den (realInterp (fun _ _ => 3) none) v
        = ((3 : ℝ) ^ ((2 : ℚ) : ℝ) - ((1 : ℚ) : ℝ)) / ((2 : ℚ) : ℝ)
          - ((1000.5 : ℚ) : ℝ) * (3 : ℝ) ^ ((1 : ℝ) / 2) := by
  refine C62_latex2sympy_partial _ _ (nodeLib_sound (fun _ _ => 3) none _) 0 _ _ (free := fun _ => True)
    (t := sampleTree) rfl ?_ _ ⟨rfl, fun _ _ => rfl⟩
  have hx : SymbolName (.letter s%"x") none s%"x" := .letter (by decide)
  refine .sub (.one (.frac (fun _ h => by simp at h) (.sub (.one ?_) (.one (.number dec_one)))
    (.one (.number dec_two)))) (.juxt (.number dec_half) (.one ?_))
  · exact .namePow hx trivial (.one (.number dec_two))
  · exact .sqrt (.one (.name hx trivial))

end Verif.L2S
