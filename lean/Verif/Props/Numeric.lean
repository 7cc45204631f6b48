import Verif.Model.Evaluations
import Verif.Spec.Basic
import Verif.Spec.Toy
import Verif.Spec.KernelRfl
import Verif.Props.Cas
import Verif.Props.Equiv
import Mathlib.Algebra.Order.Field.Basic
import Mathlib.Algebra.Order.AbsoluteValue.Basic
import Mathlib.Tactic.Linarith
import Mathlib.Tactic.NormNum
import Mathlib.Algebra.Order.Field.Rat
import Mathlib.Data.Rat.Cast.Order
/-
Properties C16, C46, C47: numeric comparison, random sampling, symmetry.
-/

namespace Verif

variable {X V S : Type}

/-- The computation returns `a` whatever the state. -/
def Always {α : Type} (m : M X α) (a : α) : Prop := ∀ w, ∃ w', m w = (.ok a, w')

/-- The library call returns `a` whatever the state. -/
def Ret {α : Type} (e : Ext X α) (a : α) : Prop := ∀ x, ∃ x', e x = (.ok a, x')

theorem Ret.always {α : Type} {e : Ext X α} {a : α} (h : Ret e a) : Always (M.ext e) a := by
  intro w
  obtain ⟨x', hx⟩ := h w.ext
  exact ⟨{ w with ext := x' }, by simp [M.ext, hx]⟩

theorem Always.pure {α : Type} (a : α) : Always (pure a : M X α) a := fun w => ⟨w, rfl⟩

theorem Always.bind {α β : Type} {m : M X α} {f : α → M X β} {a : α} {b : β} (h : Always m a)
    (h' : Always (f a) b) : Always (m >>= f) b := by
  intro w
  obtain ⟨w₁, h1⟩ := h w
  obtain ⟨w₂, h2⟩ := h' w₁
  exact ⟨w₂, by simp [h1, h2]⟩

theorem Always.tryExcept {α : Type} {m : M X α} {a : α} (h : Always m a) (k : PyErr → M X α) :
    Always (M.tryExcept m k) a := by
  intro w
  obtain ⟨w₁, h1⟩ := h w
  exact ⟨w₁, by simp [h1]⟩

/-! ### C46 -/

section
variable {K : Type} [Field K] [LinearOrder K] [IsStrictOrderedRing K]

/-- The CAS computes exactly on the numbers `num q`: what SymPy does on real numbers, except that its
floating-point evaluation is replaced by exact arithmetic.  `is_Integer` is asked after evaluation, when only
zero still is an `Integer`. -/
structure ExactNumbers (E : Env X V S) (num : K → V) where
  view : ∀ q, E.view (num q) = .expr false
  freeSyms : ∀ q, Ret (E.freeSyms (num q)) []
  isNumber : ∀ q, Ret (E.isNumber (num q)) true
  evalf : ∀ q, Ret (E.evalf (num q)) (num q)
  expandEq : ∀ a b, Ret (E.expandEq (num a) (num b)) (decide (a = b))
  sub : ∀ a b, Ret (E.sub (num a) (num b)) (num (a - b))
  isZero : ∀ q, Ret (E.isZeroExpr (num q)) (decide (q = 0))
  isInteger : ∀ q, Ret (E.isInteger (num q)) (decide (q = 0))
  abs : ∀ q, Ret (E.abs (num q)) (num |q|)
  lt : K → Rat → V
  ltThr : ∀ q r, Ret (E.ltThr (num q) r) (lt q r)
  truth : ∀ q r, Ret (E.truth (lt q r)) (decide (q < (r : K)))
  ge1 : ∀ q, Ret (E.ge1 (num q)) (decide (1 ≤ q))
  gt0 : ∀ q, Ret (E.gt0 (num q)) (decide (0 < q))
  div : ∀ a b, b ≠ 0 → Ret (E.div (num a) (num b)) (num (a / b))

/-- The tolerance: absolute 0.001 around zero, absolute 0.005 for numbers of absolute value at least one,
relative 0.001 in between. -/
def WithinTolerance (g v : K) : Prop :=
  g = v ∨ (g = 0 ∧ |g - v| < 1 / 1000) ∨ (1 ≤ |g| ∧ |g - v| < 5 / 1000) ∨
    (0 < |g| ∧ |g| < 1 ∧ |g - v| / |g| < 1 / 1000)

variable {E : Env X V S} {num : K → V} (H : ExactNumbers E num)
include H

omit [IsStrictOrderedRing K] in
theorem sympyAbs_num (q : K) : Always (sympyAbs E (num q)) (num |q|) :=
  (H.abs q).always.tryExcept _

omit [IsStrictOrderedRing K] in
theorem absSmaller_num (q : K) (r : Rat) :
    ∃ c, Always (absSmaller E (num q) r) c ∧ Always (c.test E) (decide (|q| < (r : K))) := by
  by_cases h : |q| < (r : K)
  · refine ⟨.val (H.lt |q| r), ?_, (H.truth _ _).always⟩
    apply Always.tryExcept
    apply (sympyAbs_num H q).bind
    apply (H.ltThr _ _).always.bind
    apply (H.truth _ _).always.bind
    simp only [h, decide_true, if_true]
    exact Always.pure _
  · refine ⟨.val (H.lt |q| r), ?_, (H.truth _ _).always⟩
    apply Always.tryExcept
    apply (sympyAbs_num H q).bind
    apply (H.ltThr _ _).always.bind
    apply (H.truth _ _).always.bind
    simp only [h, decide_false, Bool.false_eq_true, if_false]
    apply Always.bind (a := some (num |q|))
    · apply Always.tryExcept
      exact (H.evalf _).always.bind (Always.pure _)
    · exact (H.ltThr _ _).always.bind (Always.pure _)

theorem diffEqual_num (g d : K) :
    ∃ c, Always (diffEqual E (num g) (num d)) c ∧ Always (c.test E) (decide (d = 0 ∨ (g = 0 ∧ |d| < 1 / 1000) ∨
      (1 ≤ |g| ∧ |d| < 5 / 1000) ∨ (0 < |g| ∧ |g| < 1 ∧ |d| / |g| < 1 / 1000))) := by
  have hz : Always (isSympyZero E (num d)) (decide (d = 0)) := by
    unfold isSympyZero; rw [H.view]; exact (H.isZero d).always
  by_cases hd : d = 0
  · refine ⟨.lit true, ?_, ?_⟩
    · apply hz.bind
      simp only [hd, decide_true, if_true]; exact Always.pure _
    · simp only [hd, true_or, decide_true]; exact Always.pure _
  · have start : ∀ c, Always (do
        let small ← M.ext (E.isInteger (num g))
        if small then absSmaller E (num d) epsilon
        else do
          let a ← sympyAbs E (num g)
          if ← M.ext (E.ge1 a) then absSmaller E (num d) (5 * epsilon)
          else do
            let pos ← (do
              if ← M.ext (E.isNumber (num g)) then do
                let a ← sympyAbs E (num g)
                M.ext (E.gt0 a)
              else pure false)
            if pos then do
              let q ← M.ext (E.div (num d) (num g))
              absSmaller E q epsilon
            else pure (.lit false)) c → Always (diffEqual E (num g) (num d)) c := by
      intro c h
      unfold diffEqual
      apply hz.bind
      simp only [hd, decide_false, Bool.false_eq_true, if_false]
      apply (H.isNumber d).always.bind
      simp only [if_true]
      apply (H.freeSyms g).always.bind
      exact h
    by_cases hg : g = 0
    · obtain ⟨c, h1, h2⟩ := absSmaller_num H d epsilon
      refine ⟨c, start c ?_, ?_⟩
      · apply (H.isInteger g).always.bind
        simp only [hg, decide_true, if_true]; exact h1
      · have e : (decide (|d| < ((epsilon : Rat) : K))) = decide (d = 0 ∨ (g = 0 ∧ |d| < 1 / 1000) ∨
            (1 ≤ |g| ∧ |d| < 5 / 1000) ∨ (0 < |g| ∧ |g| < 1 ∧ |d| / |g| < 1 / 1000)) := by
          apply decide_eq_decide.2
          have : ((epsilon : Rat) : K) = 1 / 1000 := by norm_num [epsilon]
          rw [this]
          simp only [hd, hg, abs_zero, false_or, true_and, lt_irrefl, false_and, or_false]
          have : ¬ (1 : K) ≤ 0 := not_le.2 one_pos
          simp [this]
        rw [← e]; exact h2
    · have hpos : 0 < |g| := abs_pos.2 hg
      by_cases h1 : 1 ≤ |g|
      · obtain ⟨c, h3, h4⟩ := absSmaller_num H d (5 * epsilon)
        refine ⟨c, start c ?_, ?_⟩
        · apply (H.isInteger g).always.bind
          simp only [hg, decide_false, Bool.false_eq_true, if_false]
          apply (sympyAbs_num H g).bind
          apply (H.ge1 _).always.bind
          simp only [h1, decide_true, if_true]; exact h3
        · have e : (decide (|d| < ((5 * epsilon : Rat) : K))) = decide (d = 0 ∨ (g = 0 ∧ |d| < 1 / 1000) ∨
              (1 ≤ |g| ∧ |d| < 5 / 1000) ∨ (0 < |g| ∧ |g| < 1 ∧ |d| / |g| < 1 / 1000)) := by
            apply decide_eq_decide.2
            have : ((5 * epsilon : Rat) : K) = 5 / 1000 := by norm_num [epsilon]
            rw [this]
            have h5 : ¬ |g| < 1 := not_lt.2 h1
            simp only [hd, hg, h1, h5, false_or, true_and, false_and, and_false, or_false]
          rw [← e]; exact h4
      · obtain ⟨c, h3, h4⟩ := absSmaller_num H (d / g) epsilon
        refine ⟨c, start c ?_, ?_⟩
        · apply (H.isInteger g).always.bind
          simp only [hg, decide_false, Bool.false_eq_true, if_false]
          apply (sympyAbs_num H g).bind
          apply (H.ge1 _).always.bind
          simp only [h1, decide_false, Bool.false_eq_true, if_false]
          apply Always.bind (a := true)
          · apply (H.isNumber g).always.bind
            simp only [if_true]
            apply (sympyAbs_num H g).bind
            have := (H.gt0 |g|).always
            simpa [hpos] using this
          · simp only [if_true]
            apply (H.div d g hg).always.bind
            exact h3
        · have e : (decide (|d / g| < ((epsilon : Rat) : K))) = decide (d = 0 ∨ (g = 0 ∧ |d| < 1 / 1000) ∨
              (1 ≤ |g| ∧ |d| < 5 / 1000) ∨ (0 < |g| ∧ |g| < 1 ∧ |d| / |g| < 1 / 1000)) := by
            apply decide_eq_decide.2
            have : ((epsilon : Rat) : K) = 1 / 1000 := by norm_num [epsilon]
            rw [this, abs_div]
            have h5 : |g| < 1 := not_le.1 h1
            simp only [hd, hg, h1, h5, hpos, false_or, true_and, false_and]
          rw [← e]; exact h4

/-- **C46**.  For real (or any exactly computed) numbers the comparison answers, and answers "equal" exactly
within the tolerance relative to the reference `g`. -/
theorem C46_numeric_tolerance (n : Nat) (g v : K) :
    Always (areEqual E (n + 1) (num g) (num v) .expr .expr) (@decide (WithinTolerance g v) (Classical.dec _)) := by
  have hi : ∀ q, Always (exprWithOnlyI E (num q)) (num q, false) := by
    intro q
    apply (H.freeSyms q).always.bind
    exact Always.pure _
  have he : ∀ q, Always (evalIfNumber E (num q)) (some (num q)) := by
    intro q
    apply (H.isNumber q).always.bind
    simp only [if_true]
    apply Always.tryExcept
    exact (H.evalf q).always.bind (Always.pure _)
  show Always (areEqualBody E (areEqual E n) (num g) (num v) .expr .expr) _
  unfold areEqualBody
  apply (hi g).bind
  apply (hi v).bind
  simp only [Bool.or_self, Bool.false_eq_true, if_false]
  apply (he g).bind
  apply (he v).bind
  simp only
  apply ((H.expandEq g v).always.tryExcept _).bind
  by_cases hgv : g = v
  · have : @decide (WithinTolerance g v) (Classical.dec _) = true := by
      simp [WithinTolerance, hgv]
    rw [this]
    simp only [hgv, decide_true, if_true]
    exact Always.pure _
  · simp only [hgv, decide_false, Bool.false_eq_true, if_false]
    obtain ⟨c, h1, h2⟩ := diffEqual_num H g (g - v)
    apply Always.bind (a := c)
    · apply Always.tryExcept
      apply (H.sub g v).always.bind
      apply Always.bind (a := num (g - v))
      · apply Always.tryExcept
        apply (H.isNumber _).always.bind
        simp only [if_true]
        exact (H.evalf _).always
      · exact h1
    · apply h2.bind
      have hsub : g - v = 0 ↔ g = v := sub_eq_zero
      by_cases hw : WithinTolerance g v
      · rw [if_pos]
        · have : @decide (WithinTolerance g v) (Classical.dec _) = true := by simp [hw]
          rw [this]; exact Always.pure _
        · unfold WithinTolerance at hw
          rw [decide_eq_true_iff, hsub]
          exact hw
      · rw [if_neg]
        · have : @decide (WithinTolerance g v) (Classical.dec _) = false := by simp [hw]
          rw [this]
          unfold numericStage
          apply Always.tryExcept
          apply (H.freeSyms g).always.bind
          simp only [List.isEmpty_nil, Bool.not_true, Bool.false_eq_true, if_false]
          exact (Always.pure false).bind (Always.pure false)
        · unfold WithinTolerance at hw
          rw [decide_eq_true_iff, hsub]
          exact hw

end

theorem ret_okCall {α : Type} (a : α) : Ret (okCall a) a := fun x => ⟨x, rfl⟩

/-- The toy CAS over the rationals computes exactly, so the hypothesis of C46 can be met. -/
def ratExact : ExactNumbers (K := ℚ) ratEnv TVal.num where
  view _ := rfl
  freeSyms _ := fun x => ⟨x, rfl⟩
  isNumber _ := fun x => ⟨x, rfl⟩
  evalf _ := fun x => ⟨x, rfl⟩
  expandEq _ _ := fun x => ⟨x, rfl⟩
  sub _ _ := fun x => ⟨x, rfl⟩
  isZero _ := fun x => ⟨x, rfl⟩
  isInteger _ := fun x => ⟨x, rfl⟩
  abs q := fun x => ⟨x, by
    have : |q| = if q < 0 then -q else q := by
      split
      · rename_i h; exact abs_of_neg h
      · rename_i h; exact abs_of_nonneg (not_lt.1 h)
    rw [this]; rfl⟩
  lt q r := .bool (decide (q < r))
  ltThr _ _ := fun x => ⟨x, rfl⟩
  truth q r := fun x => ⟨x, by simp [ratEnv, optCall]⟩
  ge1 _ := fun x => ⟨x, rfl⟩
  gt0 _ := fun x => ⟨x, rfl⟩
  div _ _ _ := fun x => ⟨x, rfl⟩

example : WithinTolerance (1 : ℚ) (9951 / 10000) := by
  unfold WithinTolerance; norm_num [abs_of_pos, abs_lt]
example : ¬ WithinTolerance (9951 / 10000 : ℚ) 1 := by
  unfold WithinTolerance; norm_num [abs_of_pos, abs_of_neg, abs_lt]

/-! ### C47 -/

/-- **C47**, different variables: if the sets of free symbols differ, the comparison is `False`. -/
theorem C47_symbols_differ (E : Env X V S) (g v : V) (rng : Ext X V) (a b : List Str) (k : Str)
    (ha : Ret (E.freeSyms g) a) (hb : Ret (E.freeSyms v) b) (hk : ¬ (k ∈ a ↔ k ∈ b)) :
    Always (numericalEqual E g v rng) false := by
  apply ha.always.bind
  apply hb.always.bind
  have : sameSyms a b = false := by
    cases h : sameSyms a b with
    | false => rfl
    | true =>
      simp only [sameSyms, Bool.and_eq_true, List.all_eq_true, List.contains_iff_mem] at h
      exact absurd ⟨h.1 k, h.2 k⟩ hk
  simp only [this, Bool.not_false, if_true]
  exact Always.pure _

theorem drawAll_runs (rng : Ext X V) (hr : ∀ x, ∃ r x', rng x = (.ok r, x')) (ks : List Str) (w : World X) :
    ∃ σ w', Runs (drawAll rng ks) w σ w' ∧ σ.map Prod.fst = ks := by
  induction ks generalizing w with
  | nil => exact ⟨[], w, rfl, rfl⟩
  | cons k ks ih =>
    obtain ⟨r, x', h⟩ := hr w.ext
    obtain ⟨σ, w', h1, h2⟩ := ih { w with ext := x' }
    refine ⟨(k, r) :: σ, w', ?_, by simp [h2]⟩
    unfold Runs at h1
    simp [Runs, drawAll, M.ext, h, h1]

/-- **C47**, equal functions: if both sides have the same free symbols and evaluate to the same value on every
assignment of them, and that value minus itself is zero, then the comparison is `True`, for every source of
random values. -/
theorem C47_equal_functions (E : Env X V S) (g v : V) (rng : Ext X V) (a b : List Str)
    (hrng : ∀ x, ∃ r x', rng x = (.ok r, x'))
    (ha : Ret (E.freeSyms g) a) (hb : Ret (E.freeSyms v) b) (hab : ∀ k, k ∈ a ↔ k ∈ b)
    (heval : ∀ σ : List (Str × V), σ.map Prod.fst = a → ∃ y z, Ret (E.evalfAt g σ) y ∧ Ret (E.evalfAt v σ) y ∧
      Ret (E.sub y y) z ∧ E.view z = .expr false ∧ Ret (E.isZeroExpr z) true) :
    Always (numericalEqual E g v rng) true := by
  apply ha.always.bind
  apply hb.always.bind
  have : sameSyms a b = true := by
    simp only [sameSyms, Bool.and_eq_true, List.all_eq_true, List.contains_iff_mem]
    exact ⟨fun k => (hab k).1, fun k => (hab k).2⟩
  simp only [this, Bool.not_true, Bool.false_eq_true, if_false]
  apply ha.always.bind
  generalize 10 = n
  induction n with
  | zero => exact Always.pure _
  | succ n ih =>
    intro w
    obtain ⟨σ, w', h1, h2⟩ := drawAll_runs rng hrng a w
    obtain ⟨y, z, e1, e2, e3, e4, e5⟩ := heval σ h2
    have rest : Always (do
        let tg ← sympyEvalfAt E g σ
        let tv ← sympyEvalfAt E v σ
        match tg, tv with
        | some a', some b => do
          let d ← M.ext (E.sub a' b)
          let r ← diffEqual E a' d
          if ← r.test E then sampleLoop E g v rng a n else pure false
        | _, _ => pure false) true := by
      apply Always.bind (a := some y)
      · exact Always.tryExcept (e1.always.bind (Always.pure (some y))) _
      apply Always.bind (a := some y)
      · exact Always.tryExcept (e2.always.bind (Always.pure (some y))) _
      apply e3.always.bind
      apply Always.bind (a := Cond.lit true)
      · apply Always.bind (a := true)
        · unfold isSympyZero; rw [e4]; exact e5.always
        · exact Always.pure _
      · exact (Always.pure true).bind ih
    obtain ⟨w'', hw⟩ := rest w'
    refine ⟨w'', ?_⟩
    show (drawAll rng a >>= _) w = _
    rw [M.bind_run, h1]
    exact hw

/-- The computation makes at most `k` of the counted calls. -/
def CallsAtMost {α : Type} (cnt : X → Nat) (k : Nat) (m : M X α) : Prop :=
  ∀ w, cnt (m w).2.ext ≤ cnt w.ext + k

section
variable {cnt : X → Nat}

theorem CallsAtMost.pure {α : Type} (a : α) : CallsAtMost cnt 0 (pure a : M X α) := fun w => by simp

theorem CallsAtMost.bind {α β : Type} {m : M X α} {f : α → M X β} {j k : Nat} (h : CallsAtMost cnt j m)
    (h' : ∀ a, CallsAtMost cnt k (f a)) : CallsAtMost cnt (j + k) (m >>= f) := by
  intro w
  rw [M.bind_run]
  have := h w
  cases hm : m w with
  | mk r w₁ =>
    rw [hm] at this
    cases r with
    | ok a => have := h' a w₁; simp only at *; omega
    | error e => simp only at *; omega

theorem CallsAtMost.bind0 {α β : Type} {m : M X α} {f : α → M X β} {k : Nat} (h : CallsAtMost cnt 0 m)
    (h' : ∀ a, CallsAtMost cnt k (f a)) : CallsAtMost cnt k (m >>= f) := by
  simpa using h.bind h'

theorem CallsAtMost.try0 {α : Type} {m : M X α} {f : PyErr → M X α} {k : Nat} (h : CallsAtMost cnt k m)
    (h' : ∀ e, CallsAtMost cnt 0 (f e)) : CallsAtMost cnt k (M.tryExcept m f) := by
  intro w
  rw [M.tryExcept_run]
  have := h w
  cases hm : m w with
  | mk r w₁ =>
    rw [hm] at this
    cases r with
    | ok a => exact this
    | error e => have := h' e w₁; simp only at *; omega

theorem CallsAtMost.mono {α : Type} {m : M X α} {j k : Nat} (h : CallsAtMost cnt j m) (hjk : j ≤ k) :
    CallsAtMost cnt k m := fun w => Nat.le_trans (h w) (by omega)

theorem CallsAtMost.ite {α : Type} {c : Prop} [Decidable c] {m m' : M X α} {k : Nat} (h : CallsAtMost cnt k m)
    (h' : CallsAtMost cnt k m') : CallsAtMost cnt k (if c then m else m') := by
  split <;> assumption

theorem CallsAtMost.raise {α : Type} (e : PyErr) : CallsAtMost cnt 0 (M.raise e : M X α) := fun w => by simp
theorem CallsAtMost.print (s : Str) : CallsAtMost cnt 0 (M.print s : M X Unit) := fun w => by simp

/-- The library call makes at most `k` of the counted calls. -/
def ExtAtMost {α : Type} (cnt : X → Nat) (k : Nat) (e : Ext X α) : Prop := ∀ x, cnt (e x).2 ≤ cnt x + k

theorem ExtAtMost.calls {α : Type} {e : Ext X α} {k : Nat} (h : ExtAtMost cnt k e) :
    CallsAtMost cnt k (M.ext e) := fun w => h w.ext

/-- None of the CAS operations used by the sampling comparison is counted (what is counted is `rng`). -/
structure NotCounted (E : Env X V S) (cnt : X → Nat) : Prop where
  freeSyms : ∀ v, ExtAtMost cnt 0 (E.freeSyms v)
  evalfAt : ∀ v σ, ExtAtMost cnt 0 (E.evalfAt v σ)
  evalf : ∀ v, ExtAtMost cnt 0 (E.evalf v)
  sub : ∀ v u, ExtAtMost cnt 0 (E.sub v u)
  div : ∀ v u, ExtAtMost cnt 0 (E.div v u)
  abs : ∀ v, ExtAtMost cnt 0 (E.abs v)
  isZeroExpr : ∀ v, ExtAtMost cnt 0 (E.isZeroExpr v)
  isZeroMatrix : ∀ v, ExtAtMost cnt 0 (E.isZeroMatrix v)
  isNumber : ∀ v, ExtAtMost cnt 0 (E.isNumber v)
  isInteger : ∀ v, ExtAtMost cnt 0 (E.isInteger v)
  ltThr : ∀ v r, ExtAtMost cnt 0 (E.ltThr v r)
  truth : ∀ v, ExtAtMost cnt 0 (E.truth v)
  ge1 : ∀ v, ExtAtMost cnt 0 (E.ge1 v)
  gt0 : ∀ v, ExtAtMost cnt 0 (E.gt0 v)

variable {E : Env X V S} (H : NotCounted E cnt)
include H

theorem calls_sympyAbs (v : V) : CallsAtMost cnt 0 (sympyAbs E v) :=
  (H.abs v).calls.try0 fun _ => (CallsAtMost.print _).bind0 fun _ => .raise _

theorem calls_sympyEvalf (v : V) : CallsAtMost cnt 0 (sympyEvalf E v) :=
  ((H.evalf v).calls.bind0 fun _ => .pure _).try0 fun _ => (CallsAtMost.print _).bind0 fun _ => .pure _

theorem calls_sympyEvalfAt (v : V) (σ : List (Str × V)) : CallsAtMost cnt 0 (sympyEvalfAt E v σ) :=
  ((H.evalfAt v σ).calls.bind0 fun _ => .pure _).try0 fun _ => (CallsAtMost.print _).bind0 fun _ => .pure _

theorem calls_absSmaller (v : V) (r : Rat) : CallsAtMost cnt 0 (absSmaller E v r) := by
  refine CallsAtMost.try0 ?_ fun _ => .pure _
  refine (calls_sympyAbs H v).bind0 fun a => (H.ltThr a r).calls.bind0 fun c => (H.truth c).calls.bind0 fun b => ?_
  refine CallsAtMost.ite (.pure _) ?_
  refine (calls_sympyEvalf H a).bind0 fun o => ?_
  cases o with
  | some b => exact (H.ltThr b r).calls.bind0 fun _ => .pure _
  | none => exact .raise _

theorem calls_diffEqual (g d : V) : CallsAtMost cnt 0 (diffEqual E g d) := by
  have h0 : CallsAtMost cnt 0 (isSympyZero E d) := by
    unfold isSympyZero
    split
    · exact (H.isZeroExpr _).calls
    · exact (H.isZeroMatrix _).calls
    · exact .pure _
  unfold diffEqual
  refine h0.bind0 fun _ => CallsAtMost.ite (.pure _) ?_
  refine (H.isNumber d).calls.bind0 fun _ => CallsAtMost.ite ?_ (.pure _)
  refine (H.freeSyms g).calls.bind0 fun _ => ?_
  refine CallsAtMost.bind0 (CallsAtMost.ite (.pure _) (H.isInteger g).calls) fun _ => ?_
  refine CallsAtMost.ite (calls_absSmaller H _ _) ?_
  refine (calls_sympyAbs H g).bind0 fun a => (H.ge1 a).calls.bind0 fun _ => ?_
  refine CallsAtMost.ite (calls_absSmaller H _ _) ?_
  refine CallsAtMost.bind0 ?_ fun _ => ?_
  · refine (H.isNumber g).calls.bind0 fun _ => CallsAtMost.ite ?_ (.pure _)
    exact (calls_sympyAbs H g).bind0 fun a => (H.gt0 a).calls
  · exact CallsAtMost.ite ((H.div d g).calls.bind0 fun q => calls_absSmaller H _ _) (.pure _)

omit H in
theorem calls_drawAll (rng : Ext X V) (k : Nat) (hr : ExtAtMost cnt k rng) (ks : List Str) :
    CallsAtMost cnt (ks.length * k) (drawAll rng ks) := by
  induction ks with
  | nil => exact (CallsAtMost.pure _).mono (Nat.zero_le _)
  | cons a ks ih =>
    have := hr.calls.bind fun v => ih.bind fun rest => CallsAtMost.pure (cnt := cnt) ((a, v) :: rest)
    refine this.mono ?_
    simp [Nat.add_mul]; omega

/-- **C47**, number of draws: if `rng` is called at most `k` times by `rng` (once, or never if what is counted is
the other generator), the whole comparison calls it at most ten times per free symbol. -/
theorem C47_draws (g v : V) (rng : Ext X V) (k : Nat) (hr : ExtAtMost cnt k rng) (a : List Str)
    (ha : Ret (E.freeSyms g) a) : CallsAtMost cnt (10 * (a.length * k)) (numericalEqual E g v rng) := by
  have loop : ∀ n, CallsAtMost cnt (n * (a.length * k)) (sampleLoop E g v rng a n) := by
    intro n
    induction n with
    | zero => exact (CallsAtMost.pure _).mono (Nat.zero_le _)
    | succ n ih =>
      have : (n + 1) * (a.length * k) = a.length * k + n * (a.length * k) := by rw [Nat.add_mul]; omega
      rw [this]
      refine (calls_drawAll rng k hr a).bind fun σ => ?_
      refine (calls_sympyEvalfAt H g σ).bind0 fun tg => (calls_sympyEvalfAt H v σ).bind0 fun tv => ?_
      cases tg with
      | none => exact (CallsAtMost.pure _).mono (Nat.zero_le _)
      | some x =>
        cases tv with
        | none => exact (CallsAtMost.pure _).mono (Nat.zero_le _)
        | some y =>
          refine (H.sub x y).calls.bind0 fun d => (calls_diffEqual H x d).bind0 fun r => ?_
          have ht : CallsAtMost cnt 0 (r.test E) := by
            cases r with
            | lit b => exact .pure _
            | val u => exact (H.truth u).calls
          exact ht.bind0 fun _ => CallsAtMost.ite ih ((CallsAtMost.pure _).mono (Nat.zero_le _))
  unfold numericalEqual
  refine (H.freeSyms g).calls.bind0 fun b => (H.freeSyms v).calls.bind0 fun c => ?_
  refine CallsAtMost.ite ((CallsAtMost.pure _).mono (Nat.zero_le _)) ?_
  intro w
  obtain ⟨x', hx⟩ := ha w.ext
  have e : (M.ext (E.freeSyms g) : M X _) w = (.ok a, { w with ext := x' }) := by simp [M.ext, hx]
  rw [M.bind_run, e]
  have h1 := loop 10 { w with ext := x' }
  have h2 := (H.freeSyms g).calls w
  rw [e] at h2
  simp only at *
  omega

end

/-- **C47**, integers first: when the integer samples decide "equal", or raise, the real samples are not drawn;
otherwise the real samples decide. -/
theorem C47_integers_first (E : Env X V S) (g v : V) (a b : List Str) (w w₁ w₂ w₃ : World X)
    (ha : Runs (M.ext (E.freeSyms g)) w a w₁) (hb : Runs (M.ext (E.freeSyms v)) w₁ b w₂) (ha0 : a ≠ []) (hb0 : b ≠ []) :
    (Runs (numericalEqual E g v E.randint) w₂ true w₃ → Runs (numericStage E g v) w true w₃) ∧
    (∀ e, numericalEqual E g v E.randint w₂ = (.error e, w₃) → Runs (numericStage E g v) w false w₃) ∧
    (Runs (numericalEqual E g v E.randint) w₂ false w₃ → ∀ r w₄,
      Runs (numericalEqual E g v E.uniform) w₃ r w₄ → Runs (numericStage E g v) w r w₄) := by
  have ha' : a.isEmpty = false := by simpa using ha0
  have hb' : b.isEmpty = false := by simpa using hb0
  unfold Runs at *
  refine ⟨?_, ?_, ?_⟩
  · intro h
    simp [numericStage, ha, ha0, hb, hb', h]
  · intro e h
    simp [numericStage, ha, ha0, hb, hb', h]
  · intro h r w₄ h'
    simp [numericStage, ha, ha0, hb, hb', h, h']

/-- A symbol against itself in the toy CAS meets the hypotheses of `C47_equal_functions` (every sample is the
number the generator gives). -/
example : Always (numericalEqual ratEnv (.sym s%"x") (.sym s%"x") ratEnv.randint) true := fun w => ⟨w, by kernel_rfl⟩
/-- A symbol against another one. -/
example : Always (numericalEqual ratEnv (.sym s%"x") (.sym s%"y") ratEnv.randint) false :=
  C47_symbols_differ ratEnv _ _ _ [s%"x"] [s%"y"] s%"x" (fun x => ⟨x, rfl⟩) (fun x => ⟨x, rfl⟩) (by decide)
/-- A constant expression with a free symbol: every hypothesis of `C47_equal_functions` holds. -/
def constEnv : Env Unit TVal TSet :=
  { ratEnv with freeSyms := fun _ => okCall [s%"x"], evalfAt := fun _ _ => okCall (.num 7) }
example : Always (numericalEqual constEnv (.sym s%"x") (.sym s%"z") constEnv.uniform) true :=
  C47_equal_functions constEnv _ _ _ [s%"x"] [s%"x"] (fun x => ⟨_, _, rfl⟩) (fun x => ⟨x, rfl⟩) (fun x => ⟨x, rfl⟩)
    (fun _ => Iff.rfl) (fun σ _ => ⟨.num 7, .num 0, fun x => ⟨x, rfl⟩, fun x => ⟨x, rfl⟩,
      fun x => ⟨x, by kernel_rfl⟩, rfl, fun x => ⟨x, by kernel_rfl⟩⟩)

/-- A generator that counts its own calls. -/
def countEnv : Env Nat TVal TSet :=
  let up {α : Type} (e : Ext Unit α) : Ext Nat α := fun x => ((e ()).1, x)
  { U := asciiUni, setOrder := dedup, setOrder_perm := fun _ => List.Perm.refl _, view := TVal.view, ofList := .list,
    view_ofList := fun _ => rfl, symName := fun k => k, emptySet := [],
    l2s := fun s => up (ratEnv.l2s s), parseLatex := fun s => up (ratEnv.parseLatex s),
    parseExpr := fun s => up (ratEnv.parseExpr s), str := fun v => up (ratEnv.str v),
    truth := fun v => up (ratEnv.truth v), eqv := fun v u => up (ratEnv.eqv v u), inv := fun v => up (ratEnv.inv v),
    isNamedFunction := fun v => up (ratEnv.isNamedFunction v), isSymbol := fun v => up (ratEnv.isSymbol v),
    isNumber := fun v => up (ratEnv.isNumber v), isZeroExpr := fun v => up (ratEnv.isZeroExpr v),
    isZeroMatrix := fun v => up (ratEnv.isZeroMatrix v), isInteger := fun v => up (ratEnv.isInteger v),
    sub := fun v u => up (ratEnv.sub v u), neg := fun v => up (ratEnv.neg v), div := fun v u => up (ratEnv.div v u),
    abs := fun v => up (ratEnv.abs v), re := fun v => up (ratEnv.re v), im := fun v => up (ratEnv.im v),
    ltThr := fun v r => up (ratEnv.ltThr v r), ge1 := fun v => up (ratEnv.ge1 v), gt0 := fun v => up (ratEnv.gt0 v),
    evalf := fun v => up (ratEnv.evalf v), evalfAt := fun v σ => up (ratEnv.evalfAt v σ),
    expandEq := fun v u => up (ratEnv.expandEq v u), simplify := fun v => up (ratEnv.simplify v),
    freeSyms := fun v => up (ratEnv.freeSyms v), subsI := fun v k => up (ratEnv.subsI v k),
    randint := fun x => (.ok (.num 3), x + 1), uniform := fun x => (.ok (.num (5 / 2)), x + 1),
    mkMatrix := fun v => up (ratEnv.mkMatrix v), transpose := fun v => up (ratEnv.transpose v),
    isIntNum := fun v => up (ratEnv.isIntNum v), toInteger := fun v => up (ratEnv.toInteger v),
    gtV := fun v u => up (ratEnv.gtV v u), interval := fun v u a b => up (ratEnv.interval v u a b),
    isEmptySet := fun s => up (ratEnv.isEmptySet s), intersect := fun s t => up (ratEnv.intersect s t),
    union := fun s t => up (ratEnv.union s t), compareEq := fun s t => up (ratEnv.compareEq s t) }

/-- The hypotheses of `C47_draws` hold for the counting generator, and the bound is attained. -/
example : NotCounted countEnv id ∧ ExtAtMost id 1 countEnv.randint ∧
    (numericalEqual countEnv (.sym s%"x") (.sym s%"x") countEnv.randint ⟨0, []⟩).2.ext = 10 := by
  refine ⟨by constructor <;> intros <;> intro x <;> exact Nat.le_refl _, fun x => Nat.le_refl _, by decide +kernel⟩

/-! ### C16 -/

/-- **C16** fails: `1` against `0.9951` is accepted (absolute tolerance for a reference of size at least one),
`0.9951` against `1` is not (relative tolerance). -/
theorem C16_refuted : ∃ a b : Str,
    (isEquiv ratEnv 9 (some a) (some b) false ⟨(), []⟩).1 = .ok true ∧
    (isEquiv ratEnv 9 (some b) (some a) false ⟨(), []⟩).1 = .ok false :=
  ⟨s%"1", s%"0.9951", by decide +kernel, by decide +kernel⟩

/-- A normal form that is neither an interval nor a list nor a matrix. -/
structure Atomic (E : Env X V S) (s : Str) : Prop where
  nonempty : s ≠ []
  brackets : ∀ c ∈ s, c ≠ '(' ∧ c ≠ ')' ∧ c ≠ '[' ∧ c ≠ ']'
  unsplit : splitTuple E.U E.setOrder s none = .ok (.str s)
  notMatrix : contains s%"matrix" s = false

theorem hasBracket_false (s : Str) (h : ∀ c ∈ s, c ≠ '(' ∧ c ≠ ')' ∧ c ≠ '[' ∧ c ≠ ']') : hasBracket s = false := by
  have : ∀ x, (∀ c ∈ s, c ≠ x) → contains [x] s = false := by
    intro x hx
    cases hc : contains [x] s with
    | false => rfl
    | true =>
      rw [contains_iff] at hc
      obtain ⟨u, v, huv⟩ := hc
      exact absurd rfl (hx x (by rw [← huv]; simp))
  unfold hasBracket
  rw [this _ fun c hc => (h c hc).1, this _ fun c hc => (h c hc).2.1, this _ fun c hc => (h c hc).2.2.1,
    this _ fun c hc => (h c hc).2.2.2]
  rfl

theorem isEquiv_atomic (E : Env X V S) (n : Nat) (a b x y : Str) (verbose : Bool) (r : Bool)
    (ha : Always (stringNormalize E n a) (.str x)) (hb : Always (stringNormalize E n b) (.str y))
    (hx : Atomic E x) (hy : Atomic E y) (hab : strip a ≠ strip b) (hxy : x ≠ y)
    (hr : Always (areEqualUnderSympy E n x y verbose) r) :
    Always (isEquiv E (n + 1) (some a) (some b) verbose) r := by
  show Always (isEquivStr E (n + 1) a b verbose) r
  unfold isEquivStr
  rw [if_neg hab]
  have hy' : y.isEmpty = false := by simpa using hy.nonempty
  have main : Always (compareNorms E (isEquivStr E n) n verbose (.str x) (.str y)) r := by
    unfold compareNorms
    simp only [hxy, decide_false, Bool.false_eq_true, if_false]
    apply Always.tryExcept
    unfold isLatexEquiv
    simp only [hy', Bool.false_eq_true, if_false, hasBracket_false x hx.brackets]
    apply Always.bind (Always.pure _)
    simp only [Bool.not_false, if_true]
    apply Always.bind (a := (false, false))
    · intro w
      cases verbose <;> simp [possibleTuple, hx.unsplit, hy.unsplit, elemsEquiv]
    · have h1 : strIsMat x = false := hx.notMatrix
      have h2 : strIsMat y = false := hy.notMatrix
      simp only [h1, h2, Bool.not_false, Bool.or_self, Bool.and_false, Bool.false_eq_true, if_false]
      apply Always.bind (Always.pure _)
      simpa using hr
  apply ha.bind
  apply hb.bind
  cases verbose with
  | false => exact main
  | true => exact Always.bind (a := ()) (fun w => ⟨_, rfl⟩) main

/-- What holds of **C16**: `None`, answers equal up to white space and answers whose normal forms are equal strings
are accepted in both orders, and if the normal forms are atomic and the CAS verdict is symmetric, so is the verdict
of `is_equiv`.  Missing: tuples, sets, matrices and intervals (the greedy matching of sets is not symmetric),
normal forms with several readings. -/
theorem C16_symmetric_partial (E : Env X V S) (n : Nat) (verbose : Bool) :
    (∀ a : Option Str, Always (isEquiv E (n + 1) a none verbose) a.isNone ∧
      Always (isEquiv E (n + 1) none a verbose) a.isNone) ∧
    (∀ a b : Str, SameUpToSpace a b → Always (isEquiv E (n + 1) (some a) (some b) verbose) true ∧
      Always (isEquiv E (n + 1) (some b) (some a) verbose) true) ∧
    (∀ a b x y : Str, Always (stringNormalize E n a) (.str x) → Always (stringNormalize E n b) (.str y) →
      Atomic E x → Atomic E y → ∀ r, Always (areEqualUnderSympy E n x y verbose) r →
      Always (areEqualUnderSympy E n y x verbose) r → ∃ r',
        Always (isEquiv E (n + 1) (some a) (some b) verbose) r' ∧
        Always (isEquiv E (n + 1) (some b) (some a) verbose) r') := by
  have same : ∀ a b : Str, SameUpToSpace a b → Always (isEquiv E (n + 1) (some a) (some b) verbose) true := by
    intro a b h w
    rw [sameUpToSpace_iff] at h
    refine ⟨w, ?_⟩
    simp [isEquiv, isEquivStr, h]
  have symm : ∀ a b : Str, SameUpToSpace a b → SameUpToSpace b a := by
    intro a b h; rw [sameUpToSpace_iff] at *; exact h.symm
  refine ⟨?_, fun a b h => ⟨same a b h, same b a (symm a b h)⟩, ?_⟩
  · intro a
    cases a with
    | none => exact ⟨fun w => ⟨_, rfl⟩, fun w => ⟨_, rfl⟩⟩
    | some a => exact ⟨fun w => ⟨_, rfl⟩, fun w => ⟨_, rfl⟩⟩
  · intro a b x y ha hb hx hy r h1 h2
    by_cases hab : strip a = strip b
    · have := (sameUpToSpace_iff a b).2 hab
      exact ⟨true, same a b this, same b a (symm a b this)⟩
    · by_cases hxy : x = y
      · subst hxy
        refine ⟨true, ?_, ?_⟩
        all_goals
          show Always (isEquivStr E (n + 1) _ _ verbose) true
          unfold isEquivStr
        · rw [if_neg hab]
          apply ha.bind
          apply hb.bind
          have : Always (compareNorms E (isEquivStr E n) n verbose (.str x) (.str x)) true := by
            unfold compareNorms; simpa using Always.pure true
          cases verbose with
          | false => exact this
          | true => exact Always.bind (a := ()) (fun w => ⟨_, rfl⟩) this
        · rw [if_neg (Ne.symm hab)]
          apply hb.bind
          apply ha.bind
          have : Always (compareNorms E (isEquivStr E n) n verbose (.str x) (.str x)) true := by
            unfold compareNorms; simpa using Always.pure true
          cases verbose with
          | false => exact this
          | true => exact Always.bind (a := ()) (fun w => ⟨_, rfl⟩) this
      · exact ⟨r, isEquiv_atomic E n a b x y verbose r ha hb hx hy hab hxy h1,
          isEquiv_atomic E n b a y x verbose r hb ha hy hx (Ne.symm hab) (Ne.symm hxy) h2⟩

/-- `x` and `y` in the toy CAS: atomic, different, rejected in both orders. -/
example : ∃ r, Always (isEquiv failEnv 3 (some s%"x") (some s%"y") false) r ∧
    Always (isEquiv failEnv 3 (some s%"y") (some s%"x") false) r := by
  refine (C16_symmetric_partial failEnv 2 false).2.2 s%"x" s%"y" s%"x" s%"y" (fun w => ⟨w, by kernel_rfl⟩)
    (fun w => ⟨w, by kernel_rfl⟩) ⟨by simp, by decide, by decide +kernel, by decide +kernel⟩
    ⟨by simp, by decide, by decide +kernel, by decide +kernel⟩ false (fun w => ⟨w, by kernel_rfl⟩)
    (fun w => ⟨w, by kernel_rfl⟩)

end Verif
