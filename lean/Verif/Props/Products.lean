import Verif.Props.Case
/-
The verdict on two products with the letter `d` in different places (C126): see Differential for how they are read.
-/

namespace Verif.L2S
open Verif Verif.Reading Verif.Grammar

theorem bdc_value (x : Unit) : (latex2sympy grammarLib 1 s%"bdc" [] ⟨⟨Globals.init, x⟩, []⟩).1 =
    .ok (.mul [.sym s%"b" none, .sym s%"dc" none]) := by kernel_rfl

theorem bcd_value (x : Unit) : (latex2sympy grammarLib 1 s%"bcd" [] ⟨⟨Globals.init, x⟩, []⟩).1 =
    .ok (.mul [.sym s%"b" none, .sym s%"c" none, .sym s%"d" none]) := by kernel_rfl

/-- the variables of a product -/
theorem supports_product (a : List Str) : Supports a fun ρ => (a.map ρ).prod where
  only ρ τ e := congrArg List.prod (List.map_congr_left e)
  each k hk := by
    refine ⟨fun _ => 1, fun j => if j = k then 0 else 1, fun j hj => by simp [hj], ?_⟩
    have h0 : (a.map fun j => if j = k then (0 : ℝ) else 1).prod = 0 := List.prod_eq_zero (List.mem_map.2 ⟨k, hk, by simp⟩)
    show (a.map fun _ => (1 : ℝ)).prod ≠ (a.map fun j => if j = k then (0 : ℝ) else 1).prod
    rw [h0]
    simp

/-- how an answer with a known value is read in the CAS of functions -/
theorem readsFun_of {s : Str} {v : SV} {a : List Str} {f : (Str → ℝ) → ℝ}
    (h : ∀ x : Unit, (latex2sympy grammarLib 1 s [] ⟨⟨Globals.init, x⟩, []⟩).1 = .ok v) (hv : v.scalar = true)
    (hf : ∀ ρ, den (reals.vars ρ) v = f ρ) (ha : Supports a f) (hne : a ≠ []) : ReadsFun funEnv IsFun s a f := by
  refine ⟨fun x => ⟨asFun v, x, ?_, ?_⟩, fun x => .inl ⟨.other, x, rfl⟩⟩
  · show ((latex2sympy grammarLib 1 s [] ⟨⟨Globals.init, x⟩, []⟩).1.map asFun, x) = _
    rw [h]
    rfl
  · exact ⟨by rw [asFun_scalar hv, funext hf], ha, hne⟩

/-- **C126 is violated** in the verdict: `bdc` and `bcd` are judged not equivalent (CAS of functions). -/
theorem C126_verdict_refuted (n : Nat) (verbose : Bool) : Always (isEquiv funEnv (n + 2) (some s%"bdc") (some s%"bcd") verbose) false := by
  have t1 : Tidy s%"bdc" := tidyB_sound (by decide +kernel)
  have t2 : Tidy s%"bcd" := tidyB_sound (by decide +kernel)
  have h1 : ReadsFun funEnv IsFun s%"bdc" [s%"b", s%"dc"] fun ρ => ([s%"b", s%"dc"].map ρ).prod :=
    readsFun_of bdc_value rfl (fun ρ => by simp [den, denProd]; rfl) (supports_product _) (by simp)
  have h2 : ReadsFun funEnv IsFun s%"bcd" [s%"b", s%"c", s%"d"] fun ρ => ([s%"b", s%"c", s%"d"].map ρ).prod :=
    readsFun_of bcd_value rfl (fun ρ => by simp [den, denProd]; rfl) (supports_product _) (by simp)
  refine isEquiv_by_fun funEnv_arith n verbose (strip_of_no_space _ fun _ hc => t1.space hc) (strip_of_no_space _ fun _ hc => t2.space hc)
    (t1.fixed funEnv n fun q h => by cases h) (t2.fixed funEnv n fun q h => by cases h) (singleB_sound (by decide +kernel))
    (singleB_sound (by decide +kernel)) h1 h2 (by simp) (by simp) ⟨s%"b", by simp, by decide⟩ ⟨s%"b", by simp, by decide⟩
    (r := false) ⟨?_, .inl ?_⟩
  · rintro ⟨q, _, h⟩
    have h0 := h fun _ => 0
    have h1 := h fun _ => 2
    norm_num at h0 h1
    linarith
  · intro h
    have := (h s%"dc").1 (by simp)
    simp at this

end Verif.L2S
