import Verif.Props.Factorials
import Mathlib.Analysis.Complex.ExponentialBounds
/-
Numbers in scientific notation within formulas (C130).
-/

namespace Verif.L2S
open Verif Verif.Reading Verif.Grammar

/-- the converter reads `1E5` as 100000 -/
theorem capital_value (x : Unit) : (latex2sympy grammarLib 1 s%"x+1E5" [] ⟨⟨Globals.init, x⟩, []⟩).1 =
    .ok (.add [.sym s%"x" none, .num 100000]) := by kernel_rfl

theorem small_value (x : Unit) : (latex2sympy grammarLib 1 s%"x+1e5" [] ⟨⟨Globals.init, x⟩, []⟩).1 =
    .ok (.add [.sym s%"x" none, .mul [.num 1, .fn s%"exp" [.num 1], .num 5]]) := by kernel_rfl

theorem euler_value (x : Unit) : (latex2sympy grammarLib 1 s%"x+5e" [] ⟨⟨Globals.init, x⟩, []⟩).1 =
    .ok (.add [.sym s%"x" none, .mul [.num 5, .fn s%"exp" [.num 1]]]) := by kernel_rfl

theorem whole_value (x : Unit) : (latex2sympy grammarLib 1 s%"x+100000" [] ⟨⟨Globals.init, x⟩, []⟩).1 =
    .ok (.add [.sym s%"x" none, .num 100000]) := by kernel_rfl

theorem supports_shift (q : ℝ) : Supports [s%"x"] fun ρ => ρ s%"x" + q := supports_x (h := fun y => y + q) (by norm_num)

/-- **C130 is violated**: `x+1E5`, which the converter reads as `x+100000`, is judged equivalent to `x+5e` and not to `x+100000`, since
it is lowered first (CAS of functions). -/
theorem C130_refuted (n : Nat) (verbose : Bool) :
    (∀ x : Unit, (latex2sympy grammarLib 1 s%"x+1E5" [] ⟨⟨Globals.init, x⟩, []⟩).1 =
      (latex2sympy grammarLib 1 s%"x+100000" [] ⟨⟨Globals.init, x⟩, []⟩).1) ∧
    Always (isEquiv funEnv (n + 2) (some s%"x+1E5") (some s%"x+5e") verbose) true ∧
    Always (isEquiv funEnv (n + 2) (some s%"x+1E5") (some s%"x+100000") verbose) false := by
  have r1 : ReadsFun funEnv IsFun s%"x+1e5" [s%"x"] fun ρ => ρ s%"x" + 5 * Real.exp 1 :=
    readsFun_of small_value rfl (fun ρ => by simp [den, denSum, denProd, denList]; show ρ s%"x" + Real.exp 1 * 5 = _; ring) (supports_shift _) (by simp)
  have r2 : ReadsFun funEnv IsFun s%"x+5e" [s%"x"] fun ρ => ρ s%"x" + 5 * Real.exp 1 :=
    readsFun_of euler_value rfl (fun ρ => by simp [den, denSum, denProd, denList]; rfl) (supports_shift _) (by simp)
  have r3 : ReadsFun funEnv IsFun s%"x+100000" [s%"x"] fun ρ => ρ s%"x" + 100000 :=
    readsFun_of whole_value rfl (fun ρ => by simp [den, denSum]; rfl) (supports_shift _) (by simp)
  have he := Real.exp_one_lt_d9
  have t1 : Cased s%"x+1E5" := casedB_sound (by decide +kernel)
  have n1 : Always (stringNormalize funEnv (n + 1) s%"x+1E5") (.str s%"x+1e5") :=
    C128_normal funEnv t1 (fun x h => by cases h) rfl n
  have t2 : Tidy s%"x+5e" := tidyB_sound (by decide +kernel)
  have t3 : Tidy s%"x+100000" := tidyB_sound (by decide +kernel)
  have sp : strip s%"x+1E5" = s%"x+1E5" := by decide
  refine ⟨fun x => (capital_value x).trans (whole_value x).symm, ?_, ?_⟩
  · exact isEquiv_by_fun funEnv_arith n verbose sp (strip_of_no_space _ fun _ hc => t2.space hc)
      n1 (t2.fixed funEnv n fun q h => by cases h) (singleB_sound (by decide +kernel))
      (singleB_sound (by decide +kernel)) r1 r2 (by simp) (by simp) ⟨s%"x", by simp, by decide⟩ ⟨s%"x", by simp, by decide⟩
      (r := true) ⟨fun _ => Iff.rfl, fun ρ _ => .inl rfl⟩
  · refine isEquiv_by_fun funEnv_arith n verbose sp (strip_of_no_space _ fun _ hc => t3.space hc)
      n1 (t3.fixed funEnv n fun q h => by cases h) (singleB_sound (by decide +kernel))
      (singleB_sound (by decide +kernel)) r1 r3 (by simp) (by simp) ⟨s%"x", by simp, by decide⟩ ⟨s%"x", by simp, by decide⟩
      (r := false) ⟨?_, .inr ?_⟩
    · rintro ⟨q, hq, h⟩
      have := h fun _ => 0
      rw [abs_lt] at hq
      norm_num at this
      linarith
    · intro ρ hρ
      obtain ⟨h1, h10⟩ := hρ s%"x"
      have hpos := Real.exp_pos 1
      rw [WithinTolerance, abs_of_pos (show 0 < ρ s%"x" + 5 * Real.exp 1 by linarith),
        abs_of_neg (show ρ s%"x" + 5 * Real.exp 1 - (ρ s%"x" + 100000) < 0 by linarith)]
      rintro (h | ⟨h, _⟩ | ⟨_, h⟩ | ⟨_, h, _⟩) <;> linarith

end Verif.L2S
