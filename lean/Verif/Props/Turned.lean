import Verif.Props.Chains
/-
If the left side of one of two equations is a name, the two are judged by their right sides, whatever the left side of the other
(C115).
-/

namespace Verif

section
variable {X V S : Type} {E : Env X V S}

/-- an equation whose left side is a name or not, as `b` says, and whose right side has the property `P` -/
def Equated (E : Env X V S) (b : Bool) (P : V → Prop) (v : V) : Prop := ∃ l r, E.view v = .equality l r ∧ Names E l b ∧ P r

/-- Two equations, one of which defines a name, are compared by their right sides. -/
theorem eqTyped_equated {P Q : V → Prop} (hP : ∀ v, P v → E.view v = .expr false) (hQ : ∀ v, Q v → E.view v = .expr false)
    {r : Bool} (h : ∀ n g v, P g → Q v → Always (areEqual E (n + 1) g v .expr .expr) r) (n : Nat) {g v : V} {b b' : Bool}
    (hb : (b || b') = true) (hg : Equated E b P g) (hv : Equated E b' Q v) : Always (eqTyped E (areEqual E (n + 2)) g v) r := by
  have side : ∀ {u l r t}, E.view u = .equality l r → E.view r = .expr false → Always (rhsIfEq E u t) (r, .expr) := by
    intro u l r t hu hr
    have ty : Always (getType E r) .expr := by
      unfold getType
      rw [hr]
      exact Always.pure _
    unfold rhsIfEq
    rw [hu]
    apply ty.bind
    exact Always.pure _
  obtain ⟨l, x, h1, h2, h3⟩ := hg
  obtain ⟨l', y, k1, k2, k3⟩ := hv
  have main : ∀ t t', Always (functionsEqual E (areEqual E (n + 1)) g v t t') r := by
    intro t t'
    apply (side h1 (hP x h3)).bind
    apply (side k1 (hQ y k3)).bind
    exact h n x y h3 k3
  unfold eqTyped
  apply (getType_equation h1 h2).bind
  apply (getType_equation k1 k2).bind
  cases b <;> cases b'
  · cases hb
  · exact main .equl .func
  · exact main .func .equl
  · exact main .func .func

end

end Verif

namespace Verif.L2S
open Verif Verif.Reading Verif.Grammar

section
variable {K : Type} [Field K] [LinearOrder K] [IsStrictOrderedRing K] {X V Y S : Type}

/-- An equation between two expressions in LaTeX notation with the values `f` and `g`.  Its left side is a name or not, as `b` says;
`P` says what its right side is to SymPy. -/
def Equation (E : Env X V S) (L : Lib Y) (N : Nat) (I : Interp K) (inj : SV → V) (P : V → Prop) (s : Str) (b : Bool)
    (f g : (Str → K) → K) : Prop :=
  Statement E L N I inj s s%"=" f g (fun l r => Verif.Names E l b ∧ P r)

variable {E : Env X V S} {L : Lib Y} {I : Interp K} {Is Ev : V → K → Prop} {Fun : V → List Str → ((Str → K) → K) → Prop}
  {inj : SV → V} {N : Nat} (hL : SoundLib I L) (hp : ∀ s t, parseText s = some t → L.parse s = .ok t)
  (hl : UsesUndeclared E L N inj I.real) (hr : SeesRelations E inj)
include hL hp hl hr

theorem Equation.reads {s : Str} {b : Bool} {f g : (Str → K) → K} {P : V → Prop} (h : Equation E L N I inj P s b f g) :
    ReadsAs E s (Equated E b P) := by
  refine (readsAs_alone (P := fun v => ∃ l r, v = inj (.rel s%"=" l r) ∧ Verif.Names E (inj l) b ∧ P (inj r)) ?_
    (Statement.reads hL hp hl h)).mono ?_
  · rintro _ ⟨l, r, rfl, _⟩
    exact hr.truth _ l r
  · rintro vs ⟨h1, h2⟩
    refine ⟨fun v hv => ?_, h2⟩
    obtain ⟨l, r, rfl, h3, h4⟩ := h1 v hv
    exact ⟨inj l, inj r, hr.equation l r, h3, h4⟩

theorem isEquiv_equated {s t : Str} {b b' : Bool} {f g f' g' : (Str → K) → K} {P Q : V → Prop} (hP : ∀ v, P v → E.view v = .expr false)
    (hQ : ∀ v, Q v → E.view v = .expr false) (hs : Equation E L N I inj P s b f g) (ht : Equation E L N I inj Q t b' f' g')
    (hb : (b || b') = true) (hst : s ≠ t) {r : Bool} (h : ∀ n g v, P g → Q v → Always (areEqual E (n + 1) g v .expr .expr) r) (n : Nat)
    (verbose : Bool) : Always (isEquiv E (n + 3) (some s) (some t) verbose) r := by
  have ss := strip_of_no_space _ fun _ hc => Tidy.space (Statement.tidy hs) hc
  have st := strip_of_no_space _ fun _ hc => Tidy.space (Statement.tidy ht) hc
  refine isEquiv_single E (n + 2) s t s t verbose _ ((Statement.tidy hs).fixed E (n + 1) (Statement.notInt hs))
    ((Statement.tidy ht).fixed E (n + 1) (Statement.notInt ht)) (Statement.single hs) (Statement.single ht)
    (by rw [ss, st]; exact hst) hst ?_
  refine areEqualUnderSympy_by (hs.reads hL hp hl hr) (ht.reads hL hp hl hr) (fun _ _ hg hv => ?_) verbose
  exact eqTyped_equated hP hQ h n hb hg hv

open Classical in
/-- **C115**, numbers.  Two different equations, of which at least one has a name as its left side, with numbers as right sides are
judged equivalent exactly if the numbers agree within the tolerance, whatever the left sides are. -/
theorem C115_numbers (H : RealArith E Is Ev) {s t : Str} {b b' : Bool} {f f' : (Str → K) → K} {p q : K}
    (hs : Equation E L N I inj (Is · p) s b f fun _ => p) (ht : Equation E L N I inj (Is · q) t b' f' fun _ => q)
    (hb : (b || b') = true) (hst : s ≠ t) (n : Nat) (verbose : Bool) :
    Always (isEquiv E (n + 3) (some s) (some t) verbose) (decide (WithinTolerance p q)) :=
  isEquiv_equated hL hp hl hr (fun _ h => H.view h) (fun _ h => H.view h) hs ht hb hst (fun n _ _ hg hv => areEqual_real H n hg hv) n verbose

/-- **C115**, formulas.  Two different equations, of which at least one has a name as its left side, with formulas as right sides are
judged as the formulas are, whatever the left sides are. -/
theorem C115_formulas_partial (H : FunArith E Is Ev Fun) {s t : Str} {b b' : Bool} {c d : List Str} {f g f' g' : (Str → K) → K}
    (hs : Equation E L N I inj (Fun · c g) s b f g) (ht : Equation E L N I inj (Fun · d g') t b' f' g') (hc : c ≠ []) (hd : d ≠ [])
    (hic : ∃ k ∈ c, E.symName k ≠ s%"i") (hid : ∃ k ∈ d, E.symName k ≠ s%"i") (hb : (b || b') = true) (hst : s ≠ t) (n : Nat)
    (verbose : Bool) :
    ((∀ k, k ∈ c ↔ k ∈ d) → (∀ ρ, Sampled ρ → WithinTolerance (g ρ) (g' ρ)) →
      Always (isEquiv E (n + 3) (some s) (some t) verbose) true) ∧
    ((¬ NearlyConstant fun ρ => g ρ - g' ρ) → ((¬ ∀ k, k ∈ c ↔ k ∈ d) ∨ ∀ ρ, Sampled ρ → ¬ WithinTolerance (g ρ) (g' ρ)) →
      Always (isEquiv E (n + 3) (some s) (some t) verbose) false) := by
  have key : ∀ {r : Bool}, Decided c d g g' r → Always (isEquiv E (n + 3) (some s) (some t) verbose) r := fun hv =>
    isEquiv_equated hL hp hl hr (fun _ h => H.view h) (fun _ h => H.view h) hs ht hb hst
      (fun n _ _ hg hv' => areEqual_fun H n hg hv' hc hd hic hid hv) n verbose
  exact ⟨fun h1 h2 => key (r := true) ⟨h1, h2⟩, fun h1 h2 => key (r := false) ⟨h1, h2⟩⟩

/-- **C115**, a number and a formula as right sides.  The equations are judged not equivalent. -/
theorem C115_unlike (H : FunArith E Is Ev Fun) (Mx : MixedArith E Is Ev Fun) {s t : Str} {b b' : Bool} {d : List Str}
    {f f' g' : (Str → K) → K} {p : K} (hs : Equation E L N I inj (Is · p) s b f fun _ => p)
    (ht : Equation E L N I inj (Fun · d g') t b' f' g') (hid : ∃ k ∈ d, E.symName k ≠ s%"i") (hc : Varies g')
    (hb : (b || b') = true) (hst : s ≠ t) (n : Nat) (verbose : Bool) :
    Always (isEquiv E (n + 3) (some s) (some t) verbose) false ∧ Always (isEquiv E (n + 3) (some t) (some s) verbose) false :=
  ⟨isEquiv_equated hL hp hl hr (fun _ h => H.numbers.view h) (fun _ h => H.view h) hs ht hb hst
      (fun n _ _ hg hv => (areEqual_mixed H Mx n hg hv hid hc).1) n verbose,
    isEquiv_equated hL hp hl hr (fun _ h => H.view h) (fun _ h => H.numbers.view h) ht hs (by rw [Bool.or_comm]; exact hb) hst.symm
      (fun n _ _ hg hv => (areEqual_mixed H Mx n hv hg hid hc).2) n verbose⟩

end

/-! ### The hypotheses are met -/

theorem three_denotes (ρ : Str → ℝ) : Denotes (reals.vars ρ) (fun _ => True) (false : Bool) .expr [.digit 3] 3 := by
  have h := digit_says ρ 3
  norm_num at h ⊢
  exact h

theorem function_not_symbol {f : (Str → ℝ) → ℝ} (c : ℝ) (h : f (fun _ => c) ≠ c) : false = true ↔ ∃ k, f = fun ρ => ρ k := by
  simp only [Bool.false_eq_true, false_iff, not_exists]
  intro k e
  rw [e] at h
  exact h rfl

/-- `x=3` -/
theorem x_three : Equation funEnv grammarLib 0 reals asFun (IsConst · 3) s%"x=3" true (fun ρ => ρ s%"x") fun _ => 3 :=
  statement_of (us := [.letter 'x']) (o := .mark '=') (by decide +kernel) (singleB_sound (by decide +kernel)) (by decide +kernel)
    (by decide +kernel) (by decide) (fun ρ => letter_denotes ρ (by decide)) three_denotes
    ⟨funEnv_names ⟨fun _ => ⟨_, rfl⟩, fun _ => rfl⟩, rfl⟩

/-- `2x=3` -/
theorem twice_three : Equation funEnv grammarLib 0 reals asFun (IsConst · 3) s%"2x=3" false (fun ρ => 2 * ρ s%"x") fun _ => 3 :=
  statement_of (o := .mark '=') (by decide +kernel) (singleB_sound (by decide +kernel)) (by decide +kernel) (by decide +kernel)
    (by decide) twice_denotes three_denotes ⟨funEnv_names (function_not_symbol 1 (by norm_num)), rfl⟩

/-- `3=x` -/
theorem three_x : Equation funEnv grammarLib 0 reals asFun (IsFun · [s%"x"] fun ρ => ρ s%"x") s%"3=x" false (fun _ => 3) fun ρ => ρ s%"x" :=
  statement_of (vs := [.letter 'x']) (o := .mark '=') (by decide +kernel) (singleB_sound (by decide +kernel)) (by decide +kernel)
    (by decide +kernel) (by decide) three_denotes (fun ρ => letter_denotes ρ (by decide))
    ⟨funEnv_names (function_not_symbol 1 (by norm_num)), rfl, supports_x (h := fun x => x) (by norm_num), by simp⟩

/-- **C115**, refuted as a comparison of the solutions: `x=3` and `2x=3` have no solution in common and are always judged equivalent,
whichever is the reference. -/
theorem C115_false_refuted : ∃ f g f' g' : (Str → ℝ) → ℝ,
    Equation funEnv grammarLib 0 reals asFun (IsConst · 3) s%"x=3" true f g ∧
    Equation funEnv grammarLib 0 reals asFun (IsConst · 3) s%"2x=3" false f' g' ∧ (∀ ρ, ¬ (f ρ = g ρ ∧ f' ρ = g' ρ)) ∧
    ∀ n verbose, Always (isEquiv funEnv (n + 3) (some s%"x=3") (some s%"2x=3") verbose) true ∧
      Always (isEquiv funEnv (n + 3) (some s%"2x=3") (some s%"x=3") verbose) true := by
  refine ⟨_, _, _, _, x_three, twice_three, fun ρ h => ?_, fun n verbose => ⟨?_, ?_⟩⟩
  · obtain ⟨h1, h2⟩ := h
    linarith
  · have := C115_numbers (nodeLib_sound _ none _) grammarLib_parse funEnv_uses funEnv_relations funEnv_numbers x_three twice_three rfl
      (by decide) n verbose
    rwa [withinTolerance_refl] at this
  · have := C115_numbers (nodeLib_sound _ none _) grammarLib_parse funEnv_uses funEnv_relations funEnv_numbers twice_three x_three rfl
      (by decide) n verbose
    rwa [withinTolerance_refl] at this

/-- **C115**, refuted as a comparison of the solutions: `x=3` and `3=x` have the same solutions and are never judged equivalent. -/
theorem C115_turned_refuted : ∃ f g f' g' : (Str → ℝ) → ℝ,
    Equation funEnv grammarLib 0 reals asFun (IsConst · 3) s%"x=3" true f g ∧
    Equation funEnv grammarLib 0 reals asFun (IsFun · [s%"x"] fun ρ => ρ s%"x") s%"3=x" false f' g' ∧ (∀ ρ, f ρ = g ρ ↔ f' ρ = g' ρ) ∧
    ∀ n verbose, Always (isEquiv funEnv (n + 3) (some s%"x=3") (some s%"3=x") verbose) false ∧
      Always (isEquiv funEnv (n + 3) (some s%"3=x") (some s%"x=3") verbose) false := by
  refine ⟨_, _, _, _, x_three, three_x, fun ρ => eq_comm, fun n verbose => ?_⟩
  exact C115_unlike (nodeLib_sound _ none _) grammarLib_parse funEnv_uses funEnv_relations funEnv_arith funEnv_mixed x_three three_x
    (by simp [funEnv]) ⟨fun _ => 0, fun _ => 1, by norm_num⟩ rfl (by decide) n verbose

/-- `y=2x` and `3=2x` are judged equivalent. -/
example (n : Nat) (verbose : Bool) : Always (isEquiv funEnv (n + 3) (some s%"y=2x") (some s%"3=2x") verbose) true := by
  have sx : Supports [s%"x"] fun ρ => 2 * ρ s%"x" := supports_x (h := fun x => 2 * x) (by norm_num)
  have h1 : Equation funEnv grammarLib 0 reals asFun (IsFun · [s%"x"] fun ρ => 2 * ρ s%"x") s%"y=2x" true (fun ρ => ρ s%"y")
      fun ρ => 2 * ρ s%"x" :=
    statement_of (us := [.letter 'y']) (o := .mark '=') (by decide +kernel) (singleB_sound (by decide +kernel)) (by decide +kernel)
      (by decide +kernel) (by decide) (fun ρ => letter_denotes ρ (by decide)) twice_denotes
      ⟨funEnv_names ⟨fun _ => ⟨_, rfl⟩, fun _ => rfl⟩, rfl, sx, by simp⟩
  have h2 : Equation funEnv grammarLib 0 reals asFun (IsFun · [s%"x"] fun ρ => 2 * ρ s%"x") s%"3=2x" false (fun _ => 3)
      fun ρ => 2 * ρ s%"x" :=
    statement_of (o := .mark '=') (by decide +kernel) (singleB_sound (by decide +kernel)) (by decide +kernel)
      (by decide +kernel) (by decide) three_denotes twice_denotes
      ⟨funEnv_names (function_not_symbol 1 (by norm_num)), rfl, sx, by simp⟩
  exact (C115_formulas_partial (nodeLib_sound _ none _) grammarLib_parse funEnv_uses funEnv_relations funEnv_arith h1 h2 (by simp) (by simp)
    (by simp [funEnv]) (by simp [funEnv]) rfl (by decide) n verbose).1 (fun _ => Iff.rfl) fun ρ _ => .inl rfl

end Verif.L2S
