import Verif.Model.Evaluations
import Verif.Model.TypeEval
import Verif.Model.Scripts
import Verif.Spec.Basic
import Verif.Spec.Toy
/-
Property C14: `verbose` does not change results (nor the external state).  Relational proof: the two
runs go through the same results and external states; only the printed lines differ.
-/

namespace Verif

variable {X V S : Type}

namespace SameUpToOutput

theorem pure {α : Type} (a : α) : SameUpToOutput (Pure.pure a : M X α) (Pure.pure a) := by
  intro w w' h; exact ⟨rfl, h⟩
theorem raise {α : Type} (e : PyErr) : SameUpToOutput (M.raise e : M X α) (M.raise e) := by
  intro w w' h; exact ⟨rfl, h⟩
theorem lift {α : Type} (r : Except PyErr α) : SameUpToOutput (M.lift r : M X α) (M.lift r) := by
  intro w w' h; exact ⟨rfl, h⟩
theorem ext {α : Type} (f : Ext X α) : SameUpToOutput (M.ext f : M X α) (M.ext f) := by
  intro w w' h; simp [M.ext, h]
theorem print (s t : Str) : SameUpToOutput (M.print s : M X Unit) (M.print t) := by
  intro w w' h; exact ⟨rfl, h⟩

theorem bind {α β : Type} {x y : M X α} {f g : α → M X β} (h : SameUpToOutput x y)
    (hf : ∀ a, SameUpToOutput (f a) (g a)) : SameUpToOutput (x >>= f) (y >>= g) := by
  intro w w' hw
  have := h w w' hw
  simp only [M.bind_run]
  cases hx : x w with
  | mk r u => cases hy : y w' with
    | mk r' u' =>
      rw [hx, hy] at this
      simp only at this
      obtain ⟨h1, h2⟩ := this
      subst h1
      cases r with
      | ok a => exact hf a u u' h2
      | error e => exact ⟨rfl, h2⟩

theorem tryExcept {α : Type} {x y : M X α} {f g : PyErr → M X α} (h : SameUpToOutput x y)
    (hf : ∀ e, SameUpToOutput (f e) (g e)) :
    SameUpToOutput (M.tryExcept x f) (M.tryExcept y g) := by
  intro w w' hw
  have := h w w' hw
  simp only [M.tryExcept_run]
  cases hx : x w with
  | mk r u => cases hy : y w' with
    | mk r' u' =>
      rw [hx, hy] at this
      simp only at this
      obtain ⟨h1, h2⟩ := this
      subst h1
      cases r with
      | ok a => exact ⟨rfl, h2⟩
      | error e => exact hf e u u' h2

theorem ite {α : Type} (c : Prop) [Decidable c] {x y x' y' : M X α} (h : SameUpToOutput x x')
    (h' : SameUpToOutput y y') : SameUpToOutput (if c then x else y) (if c then x' else y') := by
  by_cases hc : c
  · simpa [hc] using h
  · simpa [hc] using h'

/-- Printing first makes no difference. -/
theorem print_if {α : Type} (v v' : Bool) (s s' : Str) {x y : M X α} (h : SameUpToOutput x y) :
    SameUpToOutput (do
      if v then M.print s
      x : M X α) (do
      if v' then M.print s'
      y) := by
  intro w w' hw
  cases v <;> cases v' <;> exact h _ _ (by exact hw)

end SameUpToOutput

attribute [local irreducible] SameUpToOutput

/-- Closes `SameUpToOutput` goals by walking through the code, using the given lemmas. -/
macro "same" "[" ts:term,* "]" : tactic => `(tactic|
  repeat' first
    $[| with_reducible apply $ts]*
    | with_reducible exact SameUpToOutput.pure _
    | with_reducible exact SameUpToOutput.raise _
    | with_reducible exact SameUpToOutput.ext _
    | with_reducible exact SameUpToOutput.lift _
    | with_reducible exact SameUpToOutput.print _ _
    | with_reducible apply SameUpToOutput.bind
    | with_reducible apply SameUpToOutput.tryExcept
    | with_reducible apply SameUpToOutput.ite
    | intro _
    | split)

/-! ### Functions that have no `verbose` argument: insensitive to what was printed before -/

/-- The result does not depend on what was printed before. -/
abbrev Obl {α : Type} (x : M X α) : Prop := SameUpToOutput x x

variable (E : Env X V S)

theorem numEnd_obl (v : V) : Obl (oneInterval.numEnd E v) := by unfold oneInterval.numEnd; same []
theorem oneInterval_obl (s : Str) : Obl (oneInterval E s) := by
  unfold oneInterval; simp only; same [numEnd_obl]
theorem interLoop_obl (acc : S) (l : List Str) : Obl (interLoop E acc l) := by
  induction l generalizing acc with
  | nil => unfold interLoop; same []
  | cons a as ih => unfold interLoop; same [oneInterval_obl, ih]
theorem unionLoop_obl (acc : S) (l : List Str) : Obl (unionLoop E acc l) := by
  induction l generalizing acc with
  | nil => unfold unionLoop; same []
  | cons a as ih => unfold unionLoop; same [interLoop_obl, ih]
theorem strToInterval_obl (s : Str) : Obl (strToInterval E s) := by
  unfold strToInterval; same [unionLoop_obl]
theorem canonInt_obl (s : Str) : Obl (canonInt E s) := by
  unfold canonInt; same []
theorem further_obl (s : Str) : Obl (further E s) := canonInt_obl E _
theorem degrees_obl (s : Str) : Obl (degrees E s) := by
  unfold degrees; same [further_obl]
theorem normTail_obl (s : Str) : Obl (normTail E s) := by
  unfold normTail; simp only; same [degrees_obl]
theorem stringNormalize_obl (n : Nat) (s : Str) : Obl (stringNormalize E n s) := by
  induction n generalizing s with
  | zero => unfold stringNormalize; same []
  | succ n ih =>
    unfold stringNormalize normBody; simp only
    same [ih, normTail_obl]
theorem splitMatrix_obl (s : Str) : Obl (splitMatrix E s) := by
  unfold splitMatrix; same []

theorem parseCands12_obl (s : Str) : Obl (parseCands12 E s) := by
  unfold parseCands12; same []
theorem parseCand3_obl (s : Str) (a b : Option V) : Obl (parseCand3 E s a b) := by
  unfold parseCand3; simp only; same []
theorem sympyParse_obl (s : Str) : Obl (sympyParse E s) := by
  unfold sympyParse; same [parseCands12_obl, parseCand3_obl]
theorem isSympyZero_obl (v : V) : Obl (isSympyZero E v) := by unfold isSympyZero; same []
theorem getType_obl (v : V) : Obl (getType E v) := by unfold getType; same []
theorem dims_obl (v : V) : Obl (dims E v) := by unfold dims; same []
theorem listToMat_obl (v : V) (r c : Nat) : Obl (listToMat E v r c) := by
  unfold listToMat; same [dims_obl]
theorem ineqToExpr_obl (v : V) : Obl (ineqToExpr E v) := by unfold ineqToExpr; same []
theorem relOp_obl (v : V) : Obl (relOp E v) := by unfold relOp; same []
theorem uneqToSet_obl (v : V) : Obl (uneqToSet E v) := by unfold uneqToSet; same []
theorem exprWithOnlyI_obl (v : V) : Obl (exprWithOnlyI E v) := by unfold exprWithOnlyI; same []
theorem sympySimplify_obl (v : V) : Obl (sympySimplify E v) := by unfold sympySimplify; same []
theorem sympyExpandEqual_obl (g v : V) : Obl (sympyExpandEqual E g v) := by
  unfold sympyExpandEqual; same []
theorem sympyAbs_obl (v : V) : Obl (sympyAbs E v) := by unfold sympyAbs; same []
theorem sympyEvalf_obl (v : V) : Obl (sympyEvalf E v) := by unfold sympyEvalf; same []
theorem sympyEvalfAt_obl (v : V) (σ) : Obl (sympyEvalfAt E v σ) := by unfold sympyEvalfAt; same []
theorem condTest_obl (c : Cond V) : Obl (c.test E) := by unfold Cond.test; same []
theorem absSmaller_obl (v : V) (t : Rat) : Obl (absSmaller E v t) := by
  unfold absSmaller; same [sympyAbs_obl, sympyEvalf_obl]
theorem diffEqual_obl (g d : V) : Obl (diffEqual E g d) := by
  unfold diffEqual; same [isSympyZero_obl, sympyAbs_obl, absSmaller_obl]
theorem drawAll_obl (rng : Ext X V) (l : List Str) : Obl (drawAll rng l) := by
  induction l with
  | nil => unfold drawAll; same []
  | cons k ks ih => unfold drawAll; same [ih]
theorem sampleLoop_obl (g v : V) (rng : Ext X V) (l : List Str) (n : Nat) :
    Obl (sampleLoop E g v rng l n) := by
  induction n with
  | zero => unfold sampleLoop; same []
  | succ n ih =>
    unfold sampleLoop; same [ih, drawAll_obl, sympyEvalfAt_obl, diffEqual_obl, condTest_obl]
theorem numericalEqual_obl (g v : V) (rng : Ext X V) : Obl (numericalEqual E g v rng) := by
  unfold numericalEqual; same [sampleLoop_obl]
theorem evalIfNumber_obl (v : V) : Obl (evalIfNumber E v) := by
  unfold evalIfNumber; same [sympyEvalf_obl]
theorem numericStage_obl (g v : V) : Obl (numericStage E g v) := by
  unfold numericStage; same [numericalEqual_obl]
theorem scalarEqual_obl (g v : V) : Obl (scalarEqual E g v) := by
  unfold scalarEqual
  same [evalIfNumber_obl, sympyExpandEqual_obl, sympySimplify_obl, diffEqual_obl, condTest_obl,
    numericStage_obl]
theorem allPairs_obl {α : Type} (f : α → α → M X Bool) (hf : ∀ a b, Obl (f a b)) (l l' : List α) :
    Obl (allPairs f l l') := by
  induction l generalizing l' with
  | nil => unfold allPairs; same []
  | cons a as ih => cases l' with
    | nil => unfold allPairs; same []
    | cons b bs => unfold allPairs; same [hf, ih]
theorem findMatch_obl {α : Type} (f : α → M X Bool) (hf : ∀ a, Obl (f a)) (l : List α) :
    Obl (findMatch f l) := by
  induction l with
  | nil => unfold findMatch; same []
  | cons a as ih => unfold findMatch; same [hf, ih]
theorem allFound_obl {α : Type} (f : α → α → M X Bool) (hf : ∀ a b, Obl (f a b)) (l l' : List α) :
    Obl (allFound f l l') := by
  induction l with
  | nil => unfold allFound; same []
  | cons a as ih => unfold allFound; same [ih, findMatch_obl _ (hf a)]
theorem entriesEqual_obl (f : V → V → M X Bool) (hf : ∀ a b, Obl (f a b)) (eg ev : Nat → Nat → V)
    (l : List (Nat × Nat)) : Obl (entriesEqual f eg ev l) := by
  induction l with
  | nil => unfold entriesEqual; same []
  | cons a as ih => unfold entriesEqual; same [hf, ih]

section rec
variable (rec : V → V → Ty → Ty → M X Bool) (hr : ∀ g v t u, Obl (rec g v t u))
include hr

theorem eqTyped_obl (g v : V) : Obl (eqTyped E rec g v) := by
  unfold eqTyped; same [hr, getType_obl]
omit hr in
theorem eqDiff_obl (v : V) : Obl (eqDiff E v) := by unfold eqDiff; same []
theorem equationsEqual_obl (g v : V) : Obl (equationsEqual E rec g v) := by
  unfold equationsEqual; same [hr, getType_obl, eqDiff_obl]
theorem ineqsEqual_obl (g v : V) : Obl (ineqsEqual E rec g v) := by
  unfold ineqsEqual
  same [eqTyped_obl E rec hr, relOp_obl, ineqToExpr_obl, uneqToSet_obl]
theorem matricesEqual_obl (g v : V) : Obl (matricesEqual E rec g v) := by
  unfold matricesEqual; same [entriesEqual_obl _ (eqTyped_obl E rec hr)]
theorem complexEqual_obl (g v : V) : Obl (complexEqual E rec g v) := by
  unfold complexEqual; same [hr, getType_obl]
omit hr in
theorem rhsIfEq_obl (v : V) (t : Ty) : Obl (rhsIfEq E v t) := by
  unfold rhsIfEq; same [getType_obl]
theorem functionsEqual_obl (g v : V) (t u : Ty) : Obl (functionsEqual E rec g v t u) := by
  unfold functionsEqual; same [hr, rhsIfEq_obl]
omit hr in
theorem listElems_obl (v : V) : Obl (listElems E v) := by unfold listElems; same []
omit hr in
theorem setElems_obl (v : V) : Obl (setElems E v) := by unfold setElems; same []
theorem areEqualBody_obl (g v : V) (t u : Ty) : Obl (areEqualBody E rec g v t u) := by
  unfold areEqualBody
  same [hr, listElems_obl, setElems_obl, allPairs_obl _ (eqTyped_obl E rec hr),
    allFound_obl _ (eqTyped_obl E rec hr), equationsEqual_obl E rec hr, ineqsEqual_obl E rec hr,
    matricesEqual_obl E rec hr, dims_obl, listToMat_obl, complexEqual_obl E rec hr,
    exprWithOnlyI_obl, scalarEqual_obl, functionsEqual_obl E rec hr]
end rec

theorem areEqual_obl (n : Nat) (g v : V) (t u : Ty) : Obl (areEqual E n g v t u) := by
  induction n generalizing g v t u with
  | zero => unfold areEqual; same []
  | succ n ih => unfold areEqual; exact areEqualBody_obl E _ ih g v t u
theorem candsInner_obl (cmp : V → V → M X Bool) (hf : ∀ a b, Obl (cmp a b)) (g : V)
    (l : List (Option V)) : Obl (candsInner cmp g l) := by
  induction l with
  | nil => unfold candsInner; same []
  | cons a as ih => cases a <;> (unfold candsInner; same [hf, ih])
theorem candsOuter_obl (cmp : V → V → M X Bool) (hf : ∀ a b, Obl (cmp a b))
    (l l' : List (Option V)) : Obl (candsOuter cmp l l') := by
  induction l with
  | nil => unfold candsOuter; same []
  | cons a as ih => cases a <;> (unfold candsOuter; same [candsInner_obl cmp hf, ih])

/-! ### Functions with a `verbose` argument -/

theorem areEqualWithSimplify_verbose (n : Nat) (gt gv : Str) (v v' : Bool) :
    SameUpToOutput (areEqualWithSimplify E n gt gv v) (areEqualWithSimplify E n gt gv v') := by
  have h := candsOuter_obl _ (eqTyped_obl E _ (areEqual_obl E n))
  unfold areEqualWithSimplify
  apply SameUpToOutput.bind (sympyParse_obl E gt)
  intro gs
  apply SameUpToOutput.bind (sympyParse_obl E gv)
  intro vs
  have h2 := h gs vs
  unfold Obl SameUpToOutput at h2
  unfold SameUpToOutput
  intro w w' hw
  cases v <;> cases v' <;> exact h2 _ _ hw
theorem areEqualUnderSympy_verbose (n : Nat) (gt gv : Str) (v v' : Bool) :
    SameUpToOutput (areEqualUnderSympy E n gt gv v) (areEqualUnderSympy E n gt gv v') := by
  unfold areEqualUnderSympy; same [areEqualWithSimplify_verbose]

/-- `eq` is insensitive to `verbose`. -/
def EqIgnores (eq : EqFun X) : Prop := ∀ a b v v', SameUpToOutput (eq a b v) (eq a b v')

theorem zipLoop_same (f f' : Str → Str → M X Bool) (hf : ∀ a b, SameUpToOutput (f a b) (f' a b))
    (l l' : List Str) : SameUpToOutput (zipLoop f l l') (zipLoop f' l l') := by
  induction l generalizing l' with
  | nil => unfold zipLoop; same []
  | cons a as ih => cases l' with
    | nil => unfold zipLoop; same []
    | cons b bs => unfold zipLoop; same [hf, ih]
theorem matchOne_same (f f' : Str → M X Bool) (hf : ∀ a, SameUpToOutput (f a) (f' a))
    (l : List (Str × Bool)) : SameUpToOutput (matchOne f l) (matchOne f' l) := by
  induction l with
  | nil => unfold matchOne; same []
  | cons a as ih => obtain ⟨b, c⟩ := a; cases c <;> (unfold matchOne; same [hf, ih])
theorem matchLoop_same (f f' : Str → Str → M X Bool) (hf : ∀ a b, SameUpToOutput (f a b) (f' a b))
    (l : List Str) (l' : List (Str × Bool)) :
    SameUpToOutput (matchLoop f l l') (matchLoop f' l l') := by
  induction l generalizing l' with
  | nil => unfold matchLoop; same []
  | cons a as ih => unfold matchLoop; same [ih, matchOne_same _ _ (hf a)]
theorem setsMatch_same (f f' : Str → Str → M X Bool) (hf : ∀ a b, SameUpToOutput (f a b) (f' a b))
    (l l' : List Str) : SameUpToOutput (setsMatch f l l') (setsMatch f' l l') := by
  unfold setsMatch; same [matchLoop_same _ _ hf]

section eq
variable (eq : EqFun X) (he : EqIgnores eq)
include he

theorem elemsEquiv_verbose (gt gv : Str) (v v' : Bool) (a b : Elems) :
    SameUpToOutput (elemsEquiv eq gt gv v a b) (elemsEquiv eq gt gv v' a b) := by
  have hf : ∀ a b, SameUpToOutput (eq a b v) (eq a b v') := fun a b => he a b v v'
  cases a <;> cases b <;>
    (simp only [elemsEquiv]; same [hf, zipLoop_same _ _ hf, setsMatch_same _ _ hf])
theorem possibleTuple_verbose (gt gv : Str) (v v' : Bool) :
    SameUpToOutput (possibleTuple E eq gt gv v) (possibleTuple E eq gt gv v') := by
  unfold possibleTuple
  same [SameUpToOutput.print_if v v' _ _ (elemsEquiv_verbose eq he _ _ _ _ _ _)]
theorem rowsEquiv_obl (l l' : List Row) : Obl (rowsEquiv eq l l') := by
  have hf : ∀ a b, SameUpToOutput (eq a b false) (eq a b false) := fun a b => he a b _ _
  induction l generalizing l' with
  | nil => unfold rowsEquiv; same []
  | cons a as ih => cases l' with
    | nil => cases a <;> (unfold rowsEquiv; same [])
    | cons b bs =>
      cases a <;> cases b <;> (unfold rowsEquiv; same [hf, ih, zipLoop_same _ _ hf])
theorem possibleMatrix_obl (gt gv : Str) : Obl (possibleMatrix E eq gt gv) := by
  have hf : ∀ a b, SameUpToOutput (eq a b false) (eq a b false) := fun a b => he a b _ _
  unfold possibleMatrix; same [splitMatrix_obl, hf, rowsEquiv_obl eq he]
omit he in
theorem possibleIntervals_obl (gt gv : Str) : Obl (possibleIntervals E gt gv) := by
  unfold possibleIntervals; same [strToInterval_obl]
theorem isLatexEquiv_verbose (n : Nat) (gt gv : Str) (v v' : Bool) :
    SameUpToOutput (isLatexEquiv E eq n gt gv v) (isLatexEquiv E eq n gt gv v') := by
  unfold isLatexEquiv
  same [possibleIntervals_obl, possibleTuple_verbose E eq he, possibleMatrix_obl E eq he,
    areEqualUnderSympy_verbose]
omit he in
theorem readingsInner_same (f f' : Str → Str → M X Bool) (hf : ∀ a b, SameUpToOutput (f a b) (f' a b))
    (g : Str) (l : List Str) : SameUpToOutput (readingsInner f g l) (readingsInner f' g l) := by
  induction l with
  | nil => unfold readingsInner; same []
  | cons a as ih => unfold readingsInner; same [hf, ih]
omit he in
theorem readingsOuter_same (f f' : Str → Str → M X Bool) (hf : ∀ a b, SameUpToOutput (f a b) (f' a b))
    (l l' : List Str) : SameUpToOutput (readingsOuter f l l') (readingsOuter f' l l') := by
  induction l with
  | nil => unfold readingsOuter; same []
  | cons a as ih => unfold readingsOuter; same [readingsInner_same f f' hf, ih]
theorem compareNorms_verbose (n : Nat) (v v' : Bool) (a b : Norm) :
    SameUpToOutput (compareNorms E eq n v a b) (compareNorms E eq n v' a b) := by
  have hf : ∀ x y, SameUpToOutput (isLatexEquiv E eq n x y v) (isLatexEquiv E eq n x y v') :=
    fun x y => isLatexEquiv_verbose E eq he n x y v v'
  cases a <;> cases b <;>
    (simp only [compareNorms]; same [hf, readingsOuter_same _ _ hf])
end eq

theorem isEquivStr_verbose (n : Nat) : EqIgnores (isEquivStr E n) := by
  induction n with
  | zero => intro a b v v'; unfold isEquivStr; same []
  | succ n ih =>
    intro a b v v'
    unfold isEquivStr
    same [stringNormalize_obl,
      SameUpToOutput.print_if v v' _ _ (compareNorms_verbose E _ ih n v v' _ _)]

/-- **C14**.  Switching `verbose` on or off changes neither the result of `is_equiv` (value or exception) nor
its effect on the state of the libraries; only the printed text may differ.  The two runs may also start
with different printed text. -/
theorem C14_verbose_noninterference (n : Nat) (gt gv : Option Str) :
    SameUpToOutput (isEquiv E n gt gv true) (isEquiv E n gt gv false) := by
  have h := isEquivStr_verbose E n
  cases gt <;> cases gv
  · unfold isEquiv; same []
  · unfold isEquiv; same []
  · unfold isEquiv; same []
  · unfold isEquiv; exact h _ _ _ _

/-- **C14** for the entry points of the test script: `is_equiv_MATH`. -/
theorem C14_is_equiv_MATH (n : Nat) (gt : GroundTruth) (pred : Option Str) :
    SameUpToOutput (isEquivMATH E n gt pred true) (isEquivMATH E n gt pred false) := by
  have h := C14_verbose_noninterference E n
  cases gt with
  | list gs =>
    unfold isEquivMATH
    simp only
    induction gs with
    | nil => unfold mathLoop; same []
    | cons g gs ih => unfold mathLoop; same [h, ih]
  | str s => unfold isEquivMATH; exact h _ _
  | other => unfold isEquivMATH; same []

/-- The printed text does differ: the theorem is about two different runs. -/
example : (isEquiv failEnv 3 (some s%"1") (some s%"2") true ⟨(), []⟩).2.out ≠
    (isEquiv failEnv 3 (some s%"1") (some s%"2") false ⟨(), []⟩).2.out := by decide +kernel

end Verif
