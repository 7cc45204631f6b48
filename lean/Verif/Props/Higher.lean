import Verif.Props.Exponents
/-
Second derivatives and primes (C131).
-/

namespace Verif.L2S
open Verif Verif.Reading Verif.Grammar

theorem second_value (x : Unit) : (latex2sympy grammarLib 1 s%"\\frac{d^2}{dx^2}x^3" [] ⟨⟨Globals.init, x⟩, []⟩).1 =
    .ok (.mul [.pow (.sym s%"d" none) (.num 2), .pow (.pow (.sym s%"dx" none) (.num 2)) (.num (-1)), .pow (.sym s%"x" none) (.num 3)]) := by kernel_rfl

theorem prime_value (x : Unit) : (latex2sympy grammarLib 1 s%"f'(x)" [] ⟨⟨Globals.init, x⟩, []⟩).1 =
    .ok (.mul [.fn s%".T" [.sym s%"f" none], .sym s%"x" none]) := by kernel_rfl

/-- **C131 is violated** by the second derivative: `\frac{d^2}{dx^2}x^3` is converted to the product of `d^2`, the inverse of `dx^2` and `x^3`,
with symbols `d` and `dx`, and not to an expression with the value of the second derivative. -/
theorem C131_second_refuted : ¬ ∃ v : SV, (latex2sympy grammarLib 1 s%"\\frac{d^2}{dx^2}x^3" [] ⟨⟨Globals.init, ()⟩, []⟩).1 = .ok v ∧
    ∀ ρ : Str → ℝ, den (reals.vars ρ) v = deriv (deriv fun y : ℝ => y ^ 3) (ρ s%"x") := by
  rintro ⟨v, h1, h2⟩
  rw [second_value] at h1
  cases h1
  have e : deriv (fun y : ℝ => y ^ 3) = fun y => 3 * y ^ 2 := by
    funext y
    simp
  have e' : deriv (deriv fun y : ℝ => y ^ 3) 1 = 6 := by
    rw [e]
    norm_num
  have h0 := h2 fun n => if n = s%"x" then 1 else 0
  rw [show (if (s%"x" : Str) = s%"x" then (1 : ℝ) else 0) = 1 from rfl, e'] at h0
  have hd : den (reals.vars fun n => if n = s%"x" then (1 : ℝ) else 0) (.sym s%"d" none) = 0 := by
    rw [den]
    rfl
  simp only [den, denProd] at h0 hd
  rw [hd] at h0
  have hp : (reals.vars fun n => if n = s%"x" then (1 : ℝ) else 0).pw 0 ((2 : ℚ) : ℝ) = 0 := by
    show (0 : ℝ) ^ (((2 : ℚ) : ℝ)) = 0
    exact Real.zero_rpow (by norm_num)
  rw [hp, zero_mul] at h0
  norm_num at h0

/-- **C131 is violated** by the prime: `f'(x)` is converted to a product with the factor `x`, so that its value at 0 is 0 and not that of the
derivative, whatever the functions of the CAS are and whatever `f` stands for, unless the derivative vanishes there. -/
theorem C131_prime_refuted (fn : Str → List ℝ → ℝ) (ρ : Str → ℝ) (F : ℝ → ℝ) (h : ρ s%"x" = 0) (hF : deriv F 0 ≠ 0) : ¬ ∃ v : SV,
    (latex2sympy grammarLib 1 s%"f'(x)" [] ⟨⟨Globals.init, ()⟩, []⟩).1 = .ok v ∧
      den { reals.vars ρ with fn := fn } v = deriv F (ρ s%"x") := by
  rintro ⟨v, h1, h2⟩
  rw [prime_value] at h1
  cases h1
  have hx : ({ reals.vars ρ with fn := fn } : Interp ℝ).sym s%"x" none = 0 := h
  simp only [den, denProd] at h2
  rw [hx, h] at h2
  simp at h2
  exact hF h2.symm

/-- the hypotheses of `C131_prime_refuted` are met by the sine, whose derivative at 0 is 1 -/
example : deriv Real.sin 0 ≠ 0 := by simp

end Verif.L2S
