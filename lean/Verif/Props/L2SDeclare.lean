import Verif.Props.L2SEvalAt
import Verif.Props.L2SState
/-
Declarations of matrices (C81): `A \in R^{n\times m}`.
-/

namespace Verif.L2S
open Verif Verif.Grammar

section
variable {Y : Type} (L : Lib Y) (rec : Str → List (Str × PV) → M (St Y) SV)

/-- A number of rows or columns: a number or a symbol that is not a declared matrix. -/
inductive SizeTree (g : Globals) : T → SV → Prop
  | number {s : Str} {q : ℚ} : Decimal s q → SizeTree g (.juxt [.number s]) (.num q)
  | name {b : NameTok} {sub : Option Str} {n : Str} : SymbolName b sub n → g.var.lookup n = none →
      SizeTree g (.juxt [.name b sub none]) (.sym n g.isReal)

variable {L rec}

theorem conv_size {w : World (St Y)} {t : T} {v : SV} (h : SizeTree w.ext.g t v) :
    conv L rec t w = (.ok v, w) ∧ v.scalar = true ∧ v.mulArgs = [v] ∧ v.addArgs = [v] := by
  cases h with
  | number h =>
    refine ⟨?_, rfl, rfl, rfl⟩
    rw [conv, convJuxt, conv, numberOf_some L (ratOfText_decimal h)]
    rfl
  | name h hf =>
    obtain ⟨h1, h2⟩ := symbolName_text h
    refine ⟨?_, rfl, rfl, rfl⟩
    rw [conv, convJuxt, conv, if_neg h2, h1, M.bind_run, M.bind_run, symbolOf_free L hf]
    rfl

/-- The left side of a declaration. -/
theorem conv_declared {w : World (St Y)} {b : NameTok} {sub : Option Str} {n : Str}
    (h : SymbolName b sub n) (hf : w.ext.g.var.lookup n = none) :
    conv L rec (.juxt [.name b sub none]) w = (.ok (.sym n w.ext.g.isReal), w) :=
  (conv_size (.name h hf)).1

/-- The set of a declaration, `R` with an exponent. -/
theorem conv_space {w : World (St Y)} {b : NameTok} {sub : Option Str} {n : Str}
    (h : SymbolName b sub n) (hf : w.ext.g.var.lookup n = none) {t : T} {v : SV}
    (ht : conv L rec t w = (.ok v, w)) (hv : v.plain = true) :
    conv L rec (.juxt [.name b sub (some t)]) w = (.ok (.pow (.sym n w.ext.g.isReal) v), w) := by
  obtain ⟨h1, h2⟩ := symbolName_text h
  have hs : (SV.sym n w.ext.g.isReal).plain = true := rfl
  rw [conv, convJuxt, conv, if_neg h2, h1, M.bind_run, M.bind_run, symbolOf_free L hf]
  simp only [M.bind_run, ht, mkPow, hs, hv, Bool.and_self, if_true]
  rfl

/-- SymPy accepts the two sizes of a matrix symbol and prints a symbol as its name. -/
structure DeclareLib (L : Lib Y) (l n m : SV) (name : Str) : Prop where
  valid : ∀ y, ∃ y', L.validate s%"MatrixSymbol" [l, n, m] y = (.ok (), y')
  str : ∀ y, ∃ y', L.str l y = (.ok name, y')

theorem declare_run {w : World (St Y)} {a : Str} {x n m : SV} {e : SV}
    (he : e.args = [n, m]) (hL : DeclareLib L (.sym a w.ext.g.isReal) n m a)
    (hn : lookupSV n w.ext.g.variances = none) (hm : lookupSV m w.ext.g.variances = none) :
    ∃ y', convertRel L .isIn (.sym a w.ext.g.isReal) (.pow x e) w =
      (.ok (.sym a w.ext.g.isReal), ⟨⟨{ w.ext.g with
        variances := (.sym a w.ext.g.isReal, .matSym a n m) :: w.ext.g.variances,
        var := (a, .matSym a n m) :: w.ext.g.var }, y'⟩, w.out⟩) := by
  obtain ⟨y1, h1⟩ := hL.valid w.ext.lib
  obtain ⟨y2, h2⟩ := hL.str y1
  refine ⟨y2, ?_⟩
  simp only [convertRel, he, M.bind_run, getG, M.ext, hn, hm, Option.getD_none, libExt, h1, h2, modG]
  rfl

/-- A declared name is converted to the matrix symbol. -/
theorem conv_matrix {w : World (St Y)} {b : NameTok} {sub : Option Str} {a : Str} {n m : SV}
    (h : SymbolName b sub a) (hv : w.ext.g.var.lookup a = some (.matSym a n m)) :
    (conv L rec (.name b sub none) w).1 = .ok (.matSym a n m) := by
  obtain ⟨h1, h2⟩ := symbolName_text h
  rw [conv, if_neg h2, h1, M.bind_run]
  simp only [symbolOf, M.bind_run, getG, M.ext, matrixSymbol, hv, shapeOf, M.pure_run]
  cases lookupSV (.sym a w.ext.g.isReal) w.ext.g.variances <;> rfl

/-- **C81**, for products of two sizes.  After `A \in R^{n\times m}` the name `A` is a matrix symbol with
`n` rows and `m` columns. -/
theorem C81_declared_partial {w : World (St Y)} {b c : NameTok} {sub sub' : Option Str} {a r : Str}
    {tn tm : T} {n m : SV} (ha : SymbolName b sub a) (hr : SymbolName c sub' r)
    (hfa : w.ext.g.var.lookup a = none) (hfr : w.ext.g.var.lookup r = none)
    (hn : SizeTree w.ext.g tn n) (hm : SizeTree w.ext.g tm m)
    (hvn : lookupSV n w.ext.g.variances = none) (hvm : lookupSV m w.ext.g.variances = none)
    (hL : DeclareLib L (.sym a w.ext.g.isReal) n m a) :
    ∃ w', conv L rec (.rel .isIn (.juxt [.name b sub none]) (.juxt [.name c sub' (some (.mul tn tm))])) w =
        (.ok (.sym a w.ext.g.isReal), w') ∧
      (conv L rec (.name b sub none) w').1 = .ok (.matSym a n m) := by
  obtain ⟨n1, n2, n3, -⟩ := conv_size (L := L) (rec := rec) hn
  obtain ⟨m1, m2, m3, -⟩ := conv_size (L := L) (rec := rec) hm
  have hp : conv L rec (.mul tn tm) w = (.ok (.mul [n, m]), w) := by
    rw [conv]
    simp only [M.bind_run, n1, m1, convertMul, eitherMatrix_scalar n2 m2, M.pure_run]
    simp only [Bool.false_eq_true, if_false, mulFlat, n3, m3, mkMul]
    rw [if_pos (by simp [scalar_plain n2, scalar_plain m2])]
    rfl
  obtain ⟨y', h⟩ := declare_run (x := .sym r w.ext.g.isReal) (e := .mul [n, m]) rfl hL hvn hvm
  refine ⟨_, Eq.trans ?_ h, conv_matrix ha (by simp)⟩
  rw [conv]
  simp only [M.bind_run, conv_declared ha hfa, conv_space hr hfr hp rfl]

/-- **C81 is violated** for other exponents: the exponent is not checked to be a product, and a sum is
taken apart in the same way.  After `A \in R^{n+m}` the name `A` is a matrix symbol with `n` rows and
`m` columns. -/
theorem C81_sum_refuted {w : World (St Y)} {b c : NameTok} {sub sub' : Option Str} {a r : Str}
    {tn tm : T} {n m : SV} (ha : SymbolName b sub a) (hr : SymbolName c sub' r)
    (hfa : w.ext.g.var.lookup a = none) (hfr : w.ext.g.var.lookup r = none)
    (hn : SizeTree w.ext.g tn n) (hm : SizeTree w.ext.g tm m)
    (hvn : lookupSV n w.ext.g.variances = none) (hvm : lookupSV m w.ext.g.variances = none)
    (hL : DeclareLib L (.sym a w.ext.g.isReal) n m a) :
    ∃ w', conv L rec (.rel .isIn (.juxt [.name b sub none]) (.juxt [.name c sub' (some (.add tn tm))])) w =
        (.ok (.sym a w.ext.g.isReal), w') ∧
      (conv L rec (.name b sub none) w').1 = .ok (.matSym a n m) := by
  obtain ⟨n1, n2, -, n3⟩ := conv_size (L := L) (rec := rec) hn
  obtain ⟨m1, m2, -, m3⟩ := conv_size (L := L) (rec := rec) hm
  have hp : conv L rec (.add tn tm) w = (.ok (.add [n, m]), w) := by
    rw [conv]
    simp only [M.bind_run, n1, m1, convertAdd, eitherMatrix_scalar n2 m2, M.pure_run]
    simp only [Bool.false_eq_true, if_false, addFlat, n3, m3, mkAdd]
    rw [if_pos (by simp [scalar_plain n2, scalar_plain m2])]
    rfl
  obtain ⟨y', h⟩ := declare_run (x := .sym r w.ext.g.isReal) (e := .add [n, m]) rfl hL hvn hvm
  refine ⟨_, Eq.trans ?_ h, conv_matrix ha (by simp)⟩
  rw [conv]
  simp only [M.bind_run, conv_declared ha hfa, conv_space hr hfr hp rfl]

/-- **C81 is violated** for vectors: `A \in R^{3}` is an `IndexError` (not the message for unsupported
definitions), because the exponent has no arguments. -/
theorem C81_vector_refuted {w : World (St Y)} {b c : NameTok} {sub sub' : Option Str} {a r : Str}
    {tn : T} {n : SV} (ha : SymbolName b sub a) (hr : SymbolName c sub' r)
    (hfa : w.ext.g.var.lookup a = none) (hfr : w.ext.g.var.lookup r = none)
    (hn : SizeTree w.ext.g tn n) :
    (conv L rec (.rel .isIn (.juxt [.name b sub none]) (.juxt [.name c sub' (some tn)])) w).1 =
      .error .indexError := by
  obtain ⟨n1, n2, -, -⟩ := conv_size (L := L) (rec := rec) hn
  rw [conv]
  simp only [M.bind_run, conv_declared ha hfa, conv_space hr hfr n1 (scalar_plain n2)]
  cases hn <;> rfl

end

/-! ### Texts -/

theorem tableLib_declare (table : List (Str × MathTree)) (a : Str) (r : Option Bool) (n m : SV) :
    DeclareLib (tableLib table) (.sym a r) n m a := ⟨fun y => ⟨y, rfl⟩, fun y => ⟨y, rfl⟩⟩

theorem three : Decimal s%"3" 3 := by
  have := Decimal.whole (s := s%"3") (ip := [3]) (by simp) (by decide)
  simpa [intPart] using this

/-- the parts of `A \in R^{n\times 3}` and `A \in R^{n+3}` -/
example : parseText s%"A \\in R^{n\\times 3}" = some (.one (.rel .isIn
      (.juxt [.name (.letter s%"A") none none])
      (.juxt [.name (.letter s%"R") none (some (.mul (.juxt [.name (.letter s%"n") none none])
        (.juxt [.number s%"3"])))]))) ∧
    parseText s%"A \\in R^{n+3}" = some (.one (.rel .isIn
      (.juxt [.name (.letter s%"A") none none])
      (.juxt [.name (.letter s%"R") none (some (.add (.juxt [.name (.letter s%"n") none none])
        (.juxt [.number s%"3"])))]))) ∧
    parseText s%"A \\in R^{3}" = some (.one (.rel .isIn
      (.juxt [.name (.letter s%"A") none none])
      (.juxt [.name (.letter s%"R") none (some (.juxt [.number s%"3"]))]))) := by
  refine ⟨?_, ?_, ?_⟩ <;> kernel_rfl

/-- The hypotheses of `C81_declared_partial` are met by `A \in R^{n\times 3}`. -/
example (rec : Str → List (Str × PV) → M (St Unit) SV) :
    ∃ w', conv (tableLib []) rec (.rel .isIn (.juxt [.name (.letter s%"A") none none])
        (.juxt [.name (.letter s%"R") none (some (.mul (.juxt [.name (.letter s%"n") none none])
          (.juxt [.number s%"3"])))])) freshWorld = (.ok (.sym s%"A" none), w') ∧
      (conv (tableLib []) rec (.name (.letter s%"A") none none) w').1 =
        .ok (.matSym s%"A" (.sym s%"n" none) (.num 3)) :=
  C81_declared_partial (w := freshWorld) (.letter (by decide)) (.letter (by decide)) rfl rfl
    (.name (.letter (by decide)) rfl) (.number three) rfl rfl (tableLib_declare _ _ _ _ _)

end Verif.L2S
