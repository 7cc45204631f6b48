import Verif.Props.Higher
/-
Integrals whose differential stands inside the integrand (C132).
-/

namespace Verif.L2S
open Verif Verif.Reading Verif.Grammar

mutual
/-- the symbols of an expression, from the left (SymPy `atoms`, latex2sympy2.py:1006; for example libraries) -/
def SV.symbols : SV → List SV
  | .sym n r => [.sym n r]
  | .add xs => SV.symbolsL xs
  | .mul xs => SV.symbolsL xs
  | .pow a b => a.symbols ++ b.symbols
  | .fn _ xs => SV.symbolsL xs
  | .binder _ _ _ b xs => b.symbols ++ SV.symbolsL xs
  | _ => []
def SV.symbolsL : List SV → List SV
  | [] => []
  | x :: xs => x.symbols ++ SV.symbolsL xs
end

/-- a symbol that looks like a differential: `d` and the name of a variable -/
def LikeDifferential : SV → Prop
  | .sym ('d' :: _ :: _) _ => True
  | _ => False

/-- the only symbol that looks like a differential is found -/
theorem differentialSymbol_only {c : Char} {u : Str} {r : Option Bool} (hc : c ≠ '\\') {ss : List SV}
    (only : ∀ s ∈ ss, LikeDifferential s → s = .sym ('d' :: c :: u) r) (mem : SV.sym ('d' :: c :: u) r ∈ ss) :
    differentialSymbol ss = some (.sym ('d' :: c :: u) r, c :: u) := by
  unfold differentialSymbol
  suffices H : ∀ (ss : List SV) (acc : Option (SV × Str)), (∀ s ∈ ss, LikeDifferential s → s = .sym ('d' :: c :: u) r) →
      (SV.sym ('d' :: c :: u) r ∈ ss ∨ acc = some (.sym ('d' :: c :: u) r, c :: u)) →
      ss.foldl (fun acc s => match s with
        | .sym ('d' :: '\\' :: v) _ => some (s, v)
        | .sym ('d' :: c :: v) _ => some (s, c :: v)
        | _ => acc) acc = some (.sym ('d' :: c :: u) r, c :: u) from H ss _ only (.inl mem)
  intro ss
  induction ss with
  | nil =>
    intro acc _ h
    rcases h with h | h
    · cases h
    · exact h
  | cons s ss ih =>
    intro acc ho h
    rw [List.foldl_cons]
    apply ih _ (fun s hs => ho s (List.mem_cons_of_mem _ hs))
    have hs := ho s List.mem_cons_self
    split
    · have := hs trivial
      simp only [SV.sym.injEq, List.cons.injEq, true_and] at this
      exact absurd this.1.1.symm hc
    · have := hs trivial
      rw [this]
      simp only [SV.sym.injEq, List.cons.injEq, true_and] at this
      right
      rw [this.1.1, this.1.2]
    · rename_i h1 h2
      rcases h with h | h
      · rcases List.mem_cons.1 h with h | h
        · exact absurd h.symm (h2 c u r)
        · exact .inl h
      · exact .inr h

/-- What is assumed of the CAS: `atoms` lists the symbols of the integrand, in any order, and `subs` of a symbol by 1 gives an expression
whose values are those with 1 for the symbol. -/
structure Substitutes {K : Type} [Field K] (I : Interp K) {Y : Type} (L : Lib Y) : Prop where
  atoms : ∀ b : SV, b.scalar = true → ∀ y, ∃ ss y', L.call s%"atoms" [b] y = (.ok (.list ss), y') ∧ ∀ s, s ∈ ss ↔ s ∈ b.symbols
  subs : ∀ (b : SV) (n : Str) (r : Option Bool), b.scalar = true → ∀ y, ∃ b' y',
    L.call s%"subs" [b, .sym n r, .num 1] y = (.ok b', y') ∧ b'.scalar = true ∧ ∀ σ, den (I.at σ) b' = den ((I.at σ).upd n r 1) b

/-- **C132.**  An integral without a differential behind the integrand is taken over the variable of the differential inside the integrand,
if there is one only, and the integrand is the one with 1 in the place of the differential. -/
theorem C132_inside_partial {K : Type} [Field K] {I : Interp K} {Y : Type} {L : Lib Y} (hL : Substitutes I L) {b : SV} (hb : b.scalar = true)
    {c : Char} {u : Str} {r : Option Bool} (hc : c ≠ '\\') (mem : SV.sym ('d' :: c :: u) r ∈ b.symbols)
    (only : ∀ s ∈ b.symbols, LikeDifferential s → s = .sym ('d' :: c :: u) r) (w : World (St Y)) : ∃ b' w',
      integralVar L b none w = (.ok (b', .sym (c :: u) w.ext.g.isReal), w') ∧ b'.scalar = true ∧ w'.ext.g = w.ext.g ∧
        ∀ σ, den (I.at σ) b' = den ((I.at σ).upd ('d' :: c :: u) r 1) b := by
  obtain ⟨ss, y1, h1, h2⟩ := hL.atoms b hb w.ext.lib
  obtain ⟨b', y2, h3, h4, h5⟩ := hL.subs b ('d' :: c :: u) r hb y1
  have hd := differentialSymbol_only hc (fun s hs => only s ((h2 s).1 hs)) ((h2 _).2 mem)
  refine ⟨b', ⟨⟨w.ext.g, y2⟩, w.out⟩, ?_, h4, rfl, h5⟩
  simp [integralVar, getG, Lib.ev, libExt, M.ext, h1, symbolsOf, hd, h3]

/-- a library for examples: as `grammarLib`, with the symbols of an expression for `atoms` -/
def atomLib : Lib Unit := { grammarLib with
  call := fun f args y => match args with
    | [b] => if f = s%"atoms" then (.ok (.list b.symbols), y) else grammarLib.call f args y
    | _ => grammarLib.call f args y }

/-- `atomLib` satisfies what C132 assumes -/
theorem atomLib_substitutes (σ : Str → Option Bool → ℝ) (r : Option Bool) : Substitutes (realInterp σ r) atomLib where
  atoms b _ y := ⟨b.symbols, y, by simp [atomLib], fun _ => Iff.rfl⟩
  subs b n r h y := ⟨.binder s%"Subs" n r b [.num 1], y, by simp [atomLib, grammarLib, nodeLib, binderNode], by
    simp [SV.scalar, SV.boundsOk, h], fun τ => by
    simp [den, denBounds, boundOf, realInterp, realBinder, Interp.upd, Interp.at]⟩

theorem inverse_integral : ∫ k : ℝ in 1..2, k ^ (-1 : ℝ) = Real.log 2 := by
  simp only [Real.rpow_neg_one]
  rw [integral_inv_of_pos (by norm_num) (by norm_num)]
  norm_num

theorem inside_value (x : Unit) : (latex2sympy atomLib 1 s%"\\int_1^2\\frac{dx}{x}" [] ⟨⟨Globals.init, x⟩, []⟩).1 =
    .ok (.binder s%"Integral" s%"x" none (.binder s%"Subs" s%"dx" none
      (.mul [.sym s%"dx" none, .pow (.sym s%"x" none) (.num (-1))]) [.num 1]) [.num 1, .num 2]) := by kernel_rfl

/-- **C132, from the text.**  `\int_1^2\frac{dx}{x}` is converted to an expression whose value is the logarithm of 2. -/
theorem C132_logarithm (ρ : Str → ℝ) : ∃ v : SV,
    (latex2sympy atomLib 1 s%"\\int_1^2\\frac{dx}{x}" [] ⟨⟨Globals.init, ()⟩, []⟩).1 = .ok v ∧ den (reals.vars ρ) v = Real.log 2 := by
  refine ⟨_, inside_value (), ?_⟩
  simp [den, denBounds, denProd, boundOf, realInterp, realBinder, Interp.upd, Interp.at, Interp.vars]
  exact inverse_integral

/-- the hypotheses of `C132_inside_partial` are met by the integrand of that text -/
example : SV.sym s%"dx" none ∈ (SV.mul [.sym s%"dx" none, .pow (.sym s%"x" none) (.num (-1))]).symbols ∧
    ∀ s ∈ (SV.mul [.sym s%"dx" none, .pow (.sym s%"x" none) (.num (-1))]).symbols, LikeDifferential s → s = .sym s%"dx" none := by
  simp [SV.symbols, SV.symbolsL, LikeDifferential]

theorem outside_value (x : Unit) : (latex2sympy atomLib 1 s%"\\int_1^2\\frac{dx}{x+d_1}" [] ⟨⟨Globals.init, x⟩, []⟩).1 =
    .ok (.binder s%"Integral" s%"_1" none (.binder s%"Subs" s%"d_1" none
      (.mul [.sym s%"dx" none, .pow (.add [.sym s%"x" none, .sym s%"d_1" none]) (.num (-1))]) [.num 1]) [.num 1, .num 2]) := by kernel_rfl

/-- **C132 is violated** if another name of the integrand begins with `d`: over a CAS that lists the symbols from the left,
`\int_1^2\frac{dx}{x+d_1}` is an integral over a variable `_1`, with the symbol `dx` in the integrand, and not the integral over `x`. -/
theorem C132_refuted : ¬ ∃ v : SV,
    (latex2sympy atomLib 1 s%"\\int_1^2\\frac{dx}{x+d_1}" [] ⟨⟨Globals.init, ()⟩, []⟩).1 = .ok v ∧
      ∀ ρ : Str → ℝ, den (reals.vars ρ) v = ∫ k in (1 : ℝ)..2, (k + ρ s%"d_1") ^ (-1 : ℝ) := by
  rintro ⟨v, h1, h2⟩
  rw [outside_value] at h1
  cases h1
  have h0 := h2 fun _ => 0
  simp only [add_zero] at h0
  rw [inverse_integral] at h0
  simp [den, denBounds, denProd, denSum, boundOf, realInterp, realBinder, Interp.upd, Interp.at, Interp.vars] at h0
  exact (Real.log_pos (by norm_num : (1 : ℝ) < 2)).ne h0

end Verif.L2S
