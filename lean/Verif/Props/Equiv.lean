import Verif.Model.TypeEval
import Verif.Model.Scripts
import Verif.Spec.Basic
import Verif.Spec.Toy
import Verif.Py.StrLemmas
/-
Properties of `is_equiv` and `is_equiv_MATH`: C01-C05, C13, C15, C17.
-/

namespace Verif

variable {X V S : Type}

/-! ### C01: identical answers are always accepted -/

theorem sameUpToSpace_iff (a b : Str) : SameUpToSpace a b ↔ strip a = strip b := by
  constructor
  · rintro ⟨l, core, r, l', r', rfl, rfl, h⟩
    have hl : l.all isSpace = true := List.all_eq_true.2 fun c hc => h c (by simp [hc])
    have hr : r.all isSpace = true := List.all_eq_true.2 fun c hc => h c (by simp [hc])
    have hl' : l'.all isSpace = true := List.all_eq_true.2 fun c hc => h c (by simp [hc])
    have hr' : r'.all isSpace = true := List.all_eq_true.2 fun c hc => h c (by simp [hc])
    unfold strip
    rw [stripBy_pad isSpace l core r hl hr, stripBy_pad isSpace l' core r' hl' hr']
  · intro h
    obtain ⟨l, r, h1, h2, h3⟩ := stripBy_spec isSpace a
    obtain ⟨l', r', h4, h5, h6⟩ := stripBy_spec isSpace b
    refine ⟨l, strip a, r, l', r', h1, ?_, ?_⟩
    · rw [h]; exact h4
    · intro c hc
      rw [List.all_eq_true] at h2 h3 h5 h6
      simp only [List.mem_append] at hc
      rcases hc with ((hc | hc) | hc) | hc
      · exact h2 c hc
      · exact h3 c hc
      · exact h5 c hc
      · exact h6 c hc

/-- Answers that agree up to surrounding white space are accepted; nothing is printed, no library
is called, and no recursion budget beyond the call itself is needed. -/
theorem C01_identical_accepted (E : Env X V S) (n : Nat) (a b : Str) (verbose : Bool)
    (h : SameUpToSpace a b) (w : World X) :
    isEquiv E (n + 1) (some a) (some b) verbose w = (.ok true, w) := by
  have h' := (sameUpToSpace_iff a b).1 h
  simp [isEquiv, isEquivStr, h']

example : SameUpToSpace s%" \\frac{1}{2}\n" s%"\\frac{1}{2}" :=
  (sameUpToSpace_iff _ _).2 (by decide)

/-! ### C02: None answers -/

/-- `None` against `None` is accepted; the external state is untouched. -/
theorem C02_both_none (E : Env X V S) (n : Nat) (verbose : Bool) (w : World X) :
    ∃ w', isEquiv E n none none verbose w = (.ok true, w') ∧ w'.ext = w.ext :=
  ⟨_, rfl, rfl⟩

/-- `None` against a string is rejected; nothing happens. -/
theorem C02_one_none (E : Env X V S) (n : Nat) (verbose : Bool) (a : Str) (w : World X) :
    isEquiv E n none (some a) verbose w = (.ok false, w) ∧
    isEquiv E n (some a) none verbose w = (.ok false, w) :=
  ⟨rfl, rfl⟩

/-! ### C03, C17: totality -/

theorem tryExcept_total {α : Type} (x : M X α) (h : PyErr → M X α) (hh : ∀ e, Total (h e)) :
    Total (M.tryExcept x h) := by
  intro w
  simp only [M.tryExcept_run]
  split
  · exact ⟨_, _, rfl⟩
  · exact hh _ _

/-- `string_normalize` never raises when it can be entered at all, and on a string it returns a
string or a set of strings. -/
theorem C17_string_normalize_total (E : Env X V S) (n : Nat) (s : Str) :
    Total (stringNormalize E (n + 1) s) := by
  unfold stringNormalize
  exact tryExcept_total _ _ fun _ _ => ⟨_, _, rfl⟩

/-- If the body raises, `string_normalize` returns its argument unchanged (and prints a line). -/
theorem C17_string_normalize_failure (E : Env X V S) (n : Nat) (s : Str) (w w' : World X)
    (e : PyErr) (h : normBody E (stringNormalize E n) s w = (.error e, w')) :
    ∃ line, stringNormalize E (n + 1) s w = (.ok (.str s), { w' with out := line :: w'.out }) := by
  refine ⟨errLine e, ?_⟩
  simp [stringNormalize, h]

/-- `string_normalize(None)` is `None`. -/
theorem C17_string_normalize_none (E : Env X V S) (n : Nat) (w : World X) :
    stringNormalizeOpt E n none w = (.ok none, w) := rfl

/-- a set-builder answer with nothing after the bar makes the body raise (IndexError on
`m.group(3)`), and the raw answer comes back -/
example : (stringNormalize failEnv 3 s%"\\{x|\\}" ⟨(), []⟩).1 = .ok (.str s%"\\{x|\\}") := by
  decide +kernel

theorem ite_total {α : Type} (c : Prop) [Decidable c] (x y : M X α) (hx : Total x) (hy : Total y) :
    Total (if c then x else y) := by
  split
  · exact hx
  · exact hy

theorem compareNorms_total (E : Env X V S) (eq : EqFun X) (n : Nat) (verbose : Bool) (a b : Norm) :
    Total (compareNorms E eq n verbose a b) :=
  ite_total _ _ _ (fun _ => ⟨_, _, rfl⟩) (tryExcept_total _ _ fun _ _ => ⟨_, _, rfl⟩)

theorem bind_total {α β : Type} (x : M X α) (f : α → M X β) (hx : Total x) (hf : ∀ a, Total (f a)) :
    Total (x >>= f) := by
  intro w
  obtain ⟨a, w', h⟩ := hx w
  rw [M.bind_run, h]
  exact hf a w'

/-- `is_equiv` always returns a Boolean: for any strings or `None`, any environment (every library
call may raise or time out at will) and any recursion budget that suffices to call `is_equiv` and
enter `string_normalize`. -/
theorem C03_is_equiv_total (E : Env X V S) (n : Nat) (a b : Option Str) (verbose : Bool) :
    Total (isEquiv E (n + 2) a b verbose) := by
  intro w
  cases a <;> cases b
  · exact ⟨_, _, rfl⟩
  · exact ⟨_, _, rfl⟩
  · exact ⟨_, _, rfl⟩
  · rename_i a b
    simp only [isEquiv, isEquivStr]
    split
    · exact ⟨_, _, rfl⟩
    · refine bind_total _ _ (C17_string_normalize_total E n a) (fun x => ?_) w
      refine bind_total _ _ (C17_string_normalize_total E n b) (fun y => ?_)
      split
      · refine bind_total _ _ (fun w => ⟨_, _, rfl⟩) (fun _ => ?_)
        exact compareNorms_total _ _ _ _ _ _
      · exact compareNorms_total _ _ _ _ _ _

/-- `are_equal_under_sympy` always returns a Boolean. -/
theorem C03_are_equal_under_sympy_total (E : Env X V S) (n : Nat) (a b : Str) (verbose : Bool) :
    Total (areEqualUnderSympy E n a b verbose) :=
  tryExcept_total _ _ fun _ _ => ⟨_, _, rfl⟩

/-- The bound on the budget cannot be dropped: with no frame left for `string_normalize` the
RecursionError of line 29 is outside every `try`. -/
theorem C03_budget_needed (E : Env X V S) (a b : Str) (verbose : Bool)
    (h : ¬ SameUpToSpace a b) (w : World X) :
    isEquiv E 1 (some a) (some b) verbose w = (.error .recursionError, w) := by
  rw [sameUpToSpace_iff] at h
  simp [isEquiv, isEquivStr, h, stringNormalize]

example : ¬ SameUpToSpace s%"1" s%"2" := by
  rw [sameUpToSpace_iff]; decide

/-! ### C04: equal normal forms are accepted -/

/-- If both answers normalise to the same string the pair is accepted right after normalisation:
the external state is the one normalisation left. -/
theorem C04_equal_normal_forms (E : Env X V S) (n : Nat) (a b s : Str) (verbose : Bool)
    (w w₁ w₂ : World X)
    (ha : Runs (stringNormalize E n a) w (.str s) w₁)
    (hb : Runs (stringNormalize E n b) w₁ (.str s) w₂) :
    ∃ w', isEquiv E (n + 1) (some a) (some b) verbose w = (.ok true, w') ∧
      (w'.ext = w₂.ext ∨ w' = w) := by
  unfold Runs at ha hb
  simp only [isEquiv, isEquivStr]
  split
  · exact ⟨w, rfl, .inr rfl⟩
  · cases verbose <;> simp [ha, hb, compareNorms]

example : Runs (stringNormalize failEnv 3 s%"\\text{ YES }") ⟨(), []⟩ (.str s%"yes") ⟨(), []⟩ ∧
    Runs (stringNormalize failEnv 3 s%" Y E S ") ⟨(), []⟩ (.str s%"yes") ⟨(), []⟩ := by
  unfold Runs
  exact ⟨by decide +kernel, by decide +kernel⟩

/-! ### C05: an empty prediction is not accepted -/

theorem readingsOuter_empty (E : Env X V S) (eq : EqFun X) (n : Nat) (verbose : Bool)
    (gs : List Str) (w : World X) :
    readingsOuter (fun x y => isLatexEquiv E eq n x y verbose) gs [[]] w = (.ok false, w) := by
  induction gs with
  | nil => rfl
  | cons g gs ih =>
    have e : readingsInner (fun x y => isLatexEquiv E eq n x y verbose) g [[]] w = (.ok false, w) := by
      simp [readingsInner, isLatexEquiv]
    simp only [readingsOuter, M.bind_run, e]
    exact ih

/-- If the prediction normalises to the empty string and the reference does not, and the two are
not the same up to white space, the verdict is `False`. -/
theorem C05_empty_prediction (E : Env X V S) (n : Nat) (a b : Str) (na : Norm) (verbose : Bool)
    (w w₁ w₂ : World X) (hne : ¬ SameUpToSpace a b)
    (ha : Runs (stringNormalize E n a) w na w₁) (hna : na ≠ .str [])
    (hb : Runs (stringNormalize E n b) w₁ (.str []) w₂) :
    ∃ w', isEquiv E (n + 1) (some a) (some b) verbose w = (.ok false, w') := by
  rw [sameUpToSpace_iff] at hne
  unfold Runs at ha hb
  cases na with
  | str x =>
    have hx : x ≠ [] := fun h => hna (by rw [h])
    cases verbose <;> simp [isEquiv, isEquivStr, hne, ha, hb, compareNorms, hx, isLatexEquiv]
  | set xs =>
    cases verbose <;>
      simp [isEquiv, isEquivStr, hne, ha, hb, compareNorms, Norm.readings, readingsOuter_empty]

example : Runs (stringNormalize failEnv 3 s%"5") ⟨(), []⟩ (.str s%"5") ⟨(), []⟩ ∧
    Runs (stringNormalize failEnv 3 s%"$ $") ⟨(), []⟩ (.str []) ⟨(), []⟩ := by
  unfold Runs
  exact ⟨by decide +kernel, by decide +kernel⟩

/-! ### C13: several readings -/

theorem readingsInner_true (f : Str → Str → M X Bool) (g : Str) (vs : List Str) (w w' : World X) :
    readingsInner f g vs w = (.ok true, w') ↔ AcceptsSome (f g) vs w w' := by
  induction vs generalizing w with
  | nil =>
    constructor
    · intro h; simp [readingsInner] at h
    · intro h; cases h
  | cons v vs ih =>
    simp only [readingsInner, M.bind_run]
    constructor
    · intro h
      cases hf : f g v w with
      | mk r w₁ =>
        rw [hf] at h
        cases r with
        | error e => simp at h
        | ok b =>
          cases b with
          | true => simp at h; subst h; exact .here hf
          | false => simp at h; exact .there hf ((ih w₁).1 h)
    · intro h
      cases h with
      | here h => unfold Runs at h; rw [h]; rfl
      | there h₁ h₂ => unfold Runs at h₁; rw [h₁]; exact (ih _).2 h₂

theorem readingsInner_false (f : Str → Str → M X Bool) (g : Str) (vs : List Str) (w w' : World X) :
    readingsInner f g vs w = (.ok false, w') ↔ RejectsAll (f g) vs w w' := by
  induction vs generalizing w with
  | nil =>
    constructor
    · intro h; simp [readingsInner] at h; subst h; exact .nil _
    · intro h; cases h; rfl
  | cons v vs ih =>
    simp only [readingsInner, M.bind_run]
    constructor
    · intro h
      cases hf : f g v w with
      | mk r w₁ =>
        rw [hf] at h
        cases r with
        | error e => simp at h
        | ok b =>
          cases b with
          | true => simp at h
          | false => simp at h; exact .cons hf ((ih w₁).1 h)
    · intro h
      cases h with
      | cons h₁ h₂ => unfold Runs at h₁; rw [h₁]; exact (ih _).2 h₂

/-- All pairs of readings in the order in which they are tried. -/
def readingPairs (gs vs : List Str) : List (Str × Str) :=
  gs.flatMap fun g => vs.map fun v => (g, v)

theorem acceptsSome_append {α : Type} (f : α → M X Bool) (as bs : List α) (w w' : World X) :
    AcceptsSome f (as ++ bs) w w' ↔
      AcceptsSome f as w w' ∨ ∃ w₁, RejectsAll f as w w₁ ∧ AcceptsSome f bs w₁ w' := by
  induction as generalizing w with
  | nil =>
    constructor
    · intro h; exact .inr ⟨w, .nil _, h⟩
    · rintro (h | ⟨w₁, h, h'⟩)
      · cases h
      · cases h; exact h'
  | cons a as ih =>
    constructor
    · intro h
      cases h with
      | here h => exact .inl (.here h)
      | there h h' =>
        rcases (ih _).1 h' with h'' | ⟨w₁, h₁, h₂⟩
        · exact .inl (.there h h'')
        · exact .inr ⟨w₁, .cons h h₁, h₂⟩
    · rintro (h | ⟨w₁, h, h'⟩)
      · cases h with
        | here h => exact .here h
        | there h h' => exact .there h ((ih _).2 (.inl h'))
      · cases h with
        | cons h h'' => exact .there h ((ih _).2 (.inr ⟨w₁, h'', h'⟩))

theorem acceptsSome_map {α β : Type} (f : β → M X Bool) (g : α → β) (as : List α) (w w' : World X) :
    AcceptsSome f (as.map g) w w' ↔ AcceptsSome (fun a => f (g a)) as w w' := by
  induction as generalizing w with
  | nil => constructor <;> (intro h; cases h)
  | cons a as ih =>
    constructor
    · intro h
      cases h with
      | here h => exact .here h
      | there h h' => exact .there h ((ih _).1 h')
    · intro h
      cases h with
      | here h => exact .here h
      | there h h' => exact .there h ((ih _).2 h')

theorem rejectsAll_map {α β : Type} (f : β → M X Bool) (g : α → β) (as : List α) (w w' : World X) :
    RejectsAll f (as.map g) w w' ↔ RejectsAll (fun a => f (g a)) as w w' := by
  induction as generalizing w with
  | nil => constructor <;> (intro h; cases h; exact .nil _)
  | cons a as ih =>
    constructor
    · intro h; cases h with | cons h h' => exact .cons h ((ih _).1 h')
    · intro h; cases h with | cons h h' => exact .cons h ((ih _).2 h')

theorem readingsOuter_true (f : Str → Str → M X Bool) (gs vs : List Str) (w w' : World X) :
    readingsOuter f gs vs w = (.ok true, w') ↔
      AcceptsSome (fun p : Str × Str => f p.1 p.2) (readingPairs gs vs) w w' := by
  induction gs generalizing w with
  | nil =>
    constructor
    · intro h; simp [readingsOuter] at h
    · intro h; cases h
  | cons g gs ih =>
    have e : readingPairs (g :: gs) vs = vs.map (fun v => (g, v)) ++ readingPairs gs vs := by
      simp [readingPairs]
    rw [e, acceptsSome_append, acceptsSome_map]
    simp only [rejectsAll_map]
    simp only [readingsOuter, M.bind_run]
    constructor
    · intro h
      cases hf : readingsInner f g vs w with
      | mk r w₁ =>
        rw [hf] at h
        cases r with
        | error e => simp at h
        | ok b =>
          cases b with
          | true => simp at h; subst h; exact .inl ((readingsInner_true f g vs w w₁).1 hf)
          | false =>
            simp at h
            exact .inr ⟨w₁, (readingsInner_false f g vs w w₁).1 hf, (ih w₁).1 h⟩
    · rintro (h | ⟨w₁, h, h'⟩)
      · rw [(readingsInner_true f g vs w w').2 h]; rfl
      · rw [(readingsInner_false f g vs w w₁).2 h]; exact (ih w₁).2 h'

/-- If at least one normal form is a set of readings, `is_equiv` accepts exactly when, going
through the pairs (reading of the reference, reading of the prediction), some pair is accepted by
`is_latex_equiv` and all pairs before it are rejected without an exception. -/
theorem C13_several_readings (E : Env X V S) (n : Nat) (a b : Str) (na nb : Norm)
    (w w₁ w₂ : World X) (hne : ¬ SameUpToSpace a b)
    (ha : Runs (stringNormalize E n a) w na w₁) (hb : Runs (stringNormalize E n b) w₁ nb w₂)
    (hset : (∃ xs, na = .set xs) ∨ (∃ xs, nb = .set xs)) :
    (∃ w', isEquiv E (n + 1) (some a) (some b) false w = (.ok true, w')) ↔
      ∃ w', AcceptsSome (fun p : Str × Str => isLatexEquiv E (isEquivStr E n) n p.1 p.2 false)
        (readingPairs na.readings nb.readings) w₂ w' := by
  rw [sameUpToSpace_iff] at hne
  unfold Runs at ha hb
  have key : isEquiv E (n + 1) (some a) (some b) false w =
      M.tryExcept (readingsOuter (fun x y => isLatexEquiv E (isEquivStr E n) n x y false)
        na.readings nb.readings) (fun _ => pure false) w₂ := by
    rcases hset with ⟨xs, rfl⟩ | ⟨xs, rfl⟩
    · simp [isEquiv, isEquivStr, hne, ha, hb, compareNorms]
    · cases na <;> simp [isEquiv, isEquivStr, hne, ha, hb, compareNorms]
  rw [key]
  simp only [M.tryExcept_run]
  constructor
  · rintro ⟨w', h⟩
    split at h
    · rename_i r w₃ hr
      simp at h
      obtain ⟨rfl, rfl⟩ := h
      exact ⟨_, (readingsOuter_true _ _ _ _ _).1 hr⟩
    · simp at h
  · rintro ⟨w', h⟩
    rw [(readingsOuter_true _ _ _ _ _).2 h]
    exact ⟨w', rfl⟩

example : Runs (stringNormalize failEnv 3 s%"50\\%") ⟨(), []⟩ (.set [s%"0.5", s%"50.0"]) ⟨(), []⟩ ∧
    Runs (stringNormalize failEnv 3 s%"0.5") ⟨(), []⟩ (.str s%"0.5") ⟨(), []⟩ := by
  unfold Runs
  exact ⟨by decide +kernel, by decide +kernel⟩

/-- Two answers are accepted only for one of three reasons: they are equal up to surrounding white
space, or their normal forms are the same string, or some pair of their readings is accepted by
`is_latex_equiv` after all pairs before it were rejected without an exception.  In particular an
exception in a comparison never counts as acceptance. -/
theorem C80_acceptance (E : Env X V S) (n : Nat) (a b : Str) (na nb : Norm) (w w₁ w₂ : World X)
    (ha : Runs (stringNormalize E n a) w na w₁) (hb : Runs (stringNormalize E n b) w₁ nb w₂) :
    (∃ w', isEquiv E (n + 1) (some a) (some b) false w = (.ok true, w')) ↔
      SameUpToSpace a b ∨ (∃ s, na = .str s ∧ nb = .str s) ∨
      ∃ w', AcceptsSome (fun p : Str × Str => isLatexEquiv E (isEquivStr E n) n p.1 p.2 false)
        (readingPairs na.readings nb.readings) w₂ w' := by
  by_cases hne : SameUpToSpace a b
  · have h := (sameUpToSpace_iff a b).1 hne
    simp [isEquiv, isEquivStr, h, hne]
  by_cases hset : (∃ xs, na = .set xs) ∨ (∃ xs, nb = .set xs)
  · rw [C13_several_readings E n a b na nb w w₁ w₂ hne ha hb hset]
    constructor
    · exact fun h => .inr (.inr h)
    · rintro (h | ⟨s, rfl, rfl⟩ | h)
      · exact absurd h hne
      · simp at hset
      · exact h
  · obtain ⟨x, rfl⟩ : ∃ x, na = .str x := by
      cases na with
      | str x => exact ⟨x, rfl⟩
      | set xs => simp at hset
    obtain ⟨y, rfl⟩ : ∃ y, nb = .str y := by
      cases nb with
      | str x => exact ⟨x, rfl⟩
      | set xs => simp at hset
    have hne' := hne
    rw [sameUpToSpace_iff] at hne'
    unfold Runs at ha hb
    by_cases hxy : x = y
    · subst hxy
      simp [isEquiv, isEquivStr, hne', ha, hb, compareNorms]
    · have key : isEquiv E (n + 1) (some a) (some b) false w =
          M.tryExcept (isLatexEquiv E (isEquivStr E n) n x y false) (fun _ => pure false) w₂ := by
        simp [isEquiv, isEquivStr, hne', ha, hb, compareNorms, hxy]
      rw [key]
      simp only [M.tryExcept_run]
      constructor
      · rintro ⟨w', h⟩
        split at h
        · rename_i r w₃ hr
          simp at h
          obtain ⟨rfl, rfl⟩ := h
          exact .inr (.inr ⟨_, .here hr⟩)
        · simp at h
      · rintro (h | ⟨s, h1, h2⟩ | ⟨w', h⟩)
        · exact absurd h hne
        · cases h1; cases h2; exact absurd rfl hxy
        · cases h with
          | here h =>
            unfold Runs at h
            dsimp only at h
            rw [h]
            exact ⟨_, rfl⟩
          | there _ h => cases h

/-- two answers of different normal forms, compared with a library whose calls raise -/
example : Runs (stringNormalize failEnv 3 s%"2x") ⟨(), []⟩ (.str s%"2x") ⟨(), []⟩ ∧
    (isEquiv failEnv 4 (some s%"2x") (some s%"3y") false ⟨(), []⟩).1 = .ok false := by
  unfold Runs
  exact ⟨by decide +kernel, by decide +kernel⟩

/-! ### C15: any annotated ground truth suffices -/

theorem mathLoop_true (f : Option Str → M X Bool) (gs : List (Option Str)) (w w' : World X) :
    mathLoop f gs w = (.ok true, w') ↔ AcceptsSome f gs w w' := by
  induction gs generalizing w with
  | nil =>
    constructor
    · intro h; simp [mathLoop] at h
    · intro h; cases h
  | cons v vs ih =>
    simp only [mathLoop, M.bind_run]
    constructor
    · intro h
      cases hf : f v w with
      | mk r w₁ =>
        rw [hf] at h
        cases r with
        | error e => simp at h
        | ok b =>
          cases b with
          | true => simp at h; subst h; exact .here hf
          | false => simp at h; exact .there hf ((ih w₁).1 h)
    · intro h
      cases h with
      | here h => unfold Runs at h; rw [h]; rfl
      | there h₁ h₂ => unfold Runs at h₁; rw [h₁]; exact (ih _).2 h₂

theorem mathLoop_false (f : Option Str → M X Bool) (gs : List (Option Str)) (w w' : World X) :
    mathLoop f gs w = (.ok false, w') ↔ RejectsAll f gs w w' := by
  induction gs generalizing w with
  | nil =>
    constructor
    · intro h; simp [mathLoop] at h; subst h; exact .nil _
    · intro h; cases h; rfl
  | cons v vs ih =>
    simp only [mathLoop, M.bind_run]
    constructor
    · intro h
      cases hf : f v w with
      | mk r w₁ =>
        rw [hf] at h
        cases r with
        | error e => simp at h
        | ok b =>
          cases b with
          | true => simp at h
          | false => simp at h; exact .cons hf ((ih w₁).1 h)
    · intro h
      cases h with
      | cons h₁ h₂ => unfold Runs at h₁; rw [h₁]; exact (ih _).2 h₂

/-- With a list of references, `is_equiv_MATH` is `True` exactly when some reference is accepted
by `is_equiv` after all references before it were rejected. -/
theorem C15_any_reference (E : Env X V S) (n : Nat) (gs : List (Option Str)) (pred : Option Str)
    (verbose : Bool) (w w' : World X) :
    Runs (isEquivMATH E n (.list gs) pred verbose) w true w' ↔
      AcceptsSome (fun g => isEquiv E n g pred verbose) gs w w' :=
  mathLoop_true _ _ _ _

/-- It is `False` exactly when every reference is rejected. -/
theorem C15_no_reference (E : Env X V S) (n : Nat) (gs : List (Option Str)) (pred : Option Str)
    (verbose : Bool) (w w' : World X) :
    Runs (isEquivMATH E n (.list gs) pred verbose) w false w' ↔
      RejectsAll (fun g => isEquiv E n g pred verbose) gs w w' :=
  mathLoop_false _ _ _ _

/-- It is total on lists and strings. -/
theorem C15_total (E : Env X V S) (n : Nat) (gs : List (Option Str)) (pred : Option Str)
    (verbose : Bool) : Total (isEquivMATH E (n + 2) (.list gs) pred verbose) := by
  show Total (mathLoop _ gs)
  induction gs with
  | nil => exact fun w => ⟨_, _, rfl⟩
  | cons g gs ih =>
    refine bind_total _ _ (C03_is_equiv_total E n g pred verbose) fun b => ?_
    cases b
    · exact ih
    · exact fun w => ⟨_, _, rfl⟩

/-- A single string is compared by `is_equiv`; the empty list is rejected; anything else is an
assertion failure. -/
theorem C15_other_cases (E : Env X V S) (n : Nat) (s : Str) (pred : Option Str) (verbose : Bool)
    (w : World X) :
    isEquivMATH E n (.str s) pred verbose w = isEquiv E n (some s) pred verbose w ∧
    isEquivMATH E n (.list []) pred verbose w = (.ok false, w) ∧
    isEquivMATH E n .other pred verbose w = (.error .assertionError, w) :=
  ⟨rfl, rfl, rfl⟩

/-- second reference accepted, first rejected -/
example : (isEquivMATH failEnv 5 (.list [some s%"2", some s%"3"]) (some s%"3") false ⟨(), []⟩).1
    = .ok true := by decide +kernel

end Verif
