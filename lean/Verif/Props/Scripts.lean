import Verif.Model.Scripts
import Verif.Spec.Basic
import Mathlib.Algebra.Order.Ring.Rat
import Mathlib.Tactic.Linarith
import Mathlib.Algebra.Order.Field.Basic
/-
Properties C60-C61: example_tora_eval.py.
-/

namespace Verif

variable {X : Type}

/-! ### `str.rfind` -/

theorem rfind_none_iff (sub s : Str) : rfind sub s = none ↔ ∀ a b, s ≠ a ++ sub ++ b := by
  induction s with
  | nil =>
    unfold rfind
    by_cases h : sub.isPrefixOf [] = true
    · simp only [h, if_true, reduceCtorEq, false_iff]
      intro hn
      have : sub = [] := by simpa using h
      exact hn [] [] (by simp [this])
    · simp only [h]
      simp only [Bool.false_eq_true, if_false, true_iff]
      intro a b hab
      have := List.append_eq_nil_iff.1 hab.symm
      have := List.append_eq_nil_iff.1 this.1
      exact h (by simp [this.2])
  | cons c cs ih =>
    unfold rfind
    cases hr : rfind sub cs with
    | some n =>
      simp only [reduceCtorEq, false_iff]
      intro hn
      rw [hr] at ih
      have : ¬ ∀ a b, cs ≠ a ++ sub ++ b := by
        intro h; have := ih.2 h; cases this
      apply this
      intro a b hab
      exact hn (c :: a) b (by rw [hab]; simp)
    | none =>
      simp only
      have ih' := ih.1 hr
      by_cases h : sub.isPrefixOf (c :: cs) = true
      · simp only [h, if_true, reduceCtorEq, false_iff]
        intro hn
        obtain ⟨z, hz⟩ := List.isPrefixOf_iff_prefix.1 h
        exact hn [] z (by rw [← hz]; simp)
      · simp only [h]
        simp only [Bool.false_eq_true, if_false, true_iff]
        intro a b hab
        cases a with
        | nil => exact h (List.isPrefixOf_iff_prefix.2 ⟨b, by simpa using hab.symm⟩)
        | cons x xs =>
          simp at hab
          exact ih' xs b (by rw [hab.2]; simp)

/-- The last occurrence. -/
theorem rfind_last (sub a b : Str)
    (hlast : ∀ a' b', a ++ sub ++ b = a' ++ sub ++ b' → a'.length ≤ a.length) :
    rfind sub (a ++ sub ++ b) = some a.length := by
  induction a with
  | nil =>
    simp only [List.nil_append] at *
    cases hs : sub ++ b with
    | nil =>
      have := List.append_eq_nil_iff.1 hs
      simp [this.1, rfind]
    | cons c cs =>
      unfold rfind
      have hnone : rfind sub cs = none := by
        rw [rfind_none_iff]
        intro a' b' h
        have := hlast (c :: a') b' (by rw [hs, h]; simp)
        simp at this
      have hp : sub.isPrefixOf (c :: cs) = true := by
        rw [← hs]; exact List.isPrefixOf_iff_prefix.2 ⟨b, rfl⟩
      simp [hnone, hp]
  | cons c cs ih =>
    have := ih (by
      intro a' b' h
      have := hlast (c :: a') b' (by simp at h ⊢; exact h)
      simpa using this)
    simp only [List.cons_append, rfind]
    simp only [List.append_assoc] at this
    simp [this]

theorem rfind_char (x : Char) (a b : Str) (hb : x ∉ b) : rfind [x] (a ++ x :: b) = some a.length := by
  have := rfind_last [x] a b (by
    intro a' b' h
    simp only [List.append_assoc, List.cons_append, List.nil_append] at h
    apply Nat.le_of_not_lt
    intro hlt
    have hpre : a ++ [x] <+: a' := by
      have h1 : a ++ [x] <+: a ++ x :: b := ⟨b, by simp⟩
      have h2 : a' <+: a ++ x :: b := ⟨x :: b', h.symm⟩
      exact List.prefix_of_prefix_length_le h1 h2 (by simp; omega)
    obtain ⟨z, hz⟩ := hpre
    subst hz
    simp at h
    apply hb; rw [h]; simp)
  simpa using this

/-! ### C60 -/

/-- **C60** (the provable part): no `\boxed{` gives `None`; otherwise, when something precedes the last
`\boxed{` and a `}` follows it, the result is the text between the last `\boxed{` and the last `}`.
Missing: the case of a `\boxed{` at the very beginning, where the code returns `None` (see
`C60_refuted`), and of a text with no `}` after the last `\boxed{`. -/
theorem C60_extract_boxed_partial (output : Str) :
    ((∀ a b, output ≠ a ++ s%"\\boxed{" ++ b) → extractBoxed output = none) ∧
    (∀ a body tail : Str, output = a ++ s%"\\boxed{" ++ body ++ s%"}" ++ tail →
      (∀ a' b', output = a' ++ s%"\\boxed{" ++ b' → a'.length ≤ a.length) → '}' ∉ tail → a ≠ [] →
      extractBoxed output = some body) := by
  constructor
  · intro h
    have := (rfind_none_iff s%"\\boxed{" output).2 h
    simp [extractBoxed, this]
  · intro a body tail ho hlast htail ha
    have h1 : rfind s%"\\boxed{" output = some a.length := by
      have := rfind_last s%"\\boxed{" a (body ++ s%"}" ++ tail) (by
        intro a' b' h; exact hlast a' b' (by rw [ho, ← h]; simp))
      rw [ho]; simpa using this
    have h2 : rfind s%"}" output = some (a ++ s%"\\boxed{" ++ body).length := by
      have := rfind_char '}' (a ++ s%"\\boxed{" ++ body) tail htail
      rw [ho]; simpa using this
    unfold extractBoxed
    rw [h1]
    cases hl : a.length with
    | zero => exact absurd (List.length_eq_zero_iff.1 hl) ha
    | succ k =>
      simp only [h2]
      congr 1
      rw [← hl]
      unfold slice
      have : output = (a ++ s%"\\boxed{" ++ body) ++ (s%"}" ++ tail) := by rw [ho]; simp
      rw [this, List.take_left]
      have : a.length + 7 = (a ++ s%"\\boxed{").length := by simp
      rw [this, List.drop_left]

example : extractBoxed s%"so \\boxed{1} or \\boxed{\\frac{1}{2}} holds" = some s%"\\frac{1}{2}" := by
  decide +kernel

/-- **C60 is false for the code**: a text that starts with `\boxed{` is treated as if there were none. -/
theorem C60_refuted : ∃ body : Str, extractBoxed (s%"\\boxed{" ++ body ++ s%"}") = none ∧ '}' ∉ body :=
  ⟨s%"5", by decide +kernel, by decide⟩

/-- Exactly when the last `\boxed{` is at the beginning (or absent) the result is `None`. -/
theorem C60_none_iff (output : Str) :
    extractBoxed output = none ↔
      ∀ a b, output = a ++ s%"\\boxed{" ++ b → a = [] := by
  unfold extractBoxed
  cases h : rfind s%"\\boxed{" output with
  | none =>
    simp only [true_iff]
    intro a b hab
    exact absurd hab ((rfind_none_iff _ _).1 h a b)
  | some k =>
    -- the last occurrence
    have hex : ∃ a b, output = a ++ s%"\\boxed{" ++ b ∧
        ∀ a' b', output = a' ++ s%"\\boxed{" ++ b' → a'.length ≤ a.length := by
      have hne : ∃ a b, output = a ++ s%"\\boxed{" ++ b := by
        apply Classical.byContradiction
        intro hno
        have : rfind s%"\\boxed{" output = none := by
          rw [rfind_none_iff]; intro a b hab; exact hno ⟨a, b, hab⟩
        rw [h] at this; cases this
      -- maximal length by strong induction on the remaining length
      apply Classical.byContradiction
      intro hno
      have grow : ∀ n, ∃ a b, output = a ++ s%"\\boxed{" ++ b ∧ n ≤ a.length := by
        intro n
        induction n with
        | zero => obtain ⟨a, b, hab⟩ := hne; exact ⟨a, b, hab, by omega⟩
        | succ n ih =>
          obtain ⟨a, b, hab, hn⟩ := ih
          apply Classical.byContradiction
          intro hno2
          apply hno
          refine ⟨a, b, hab, ?_⟩
          intro a' b' hab'
          apply Nat.le_of_not_lt
          intro hlt
          exact hno2 ⟨a', b', hab', by omega⟩
      obtain ⟨a, b, hab, hn⟩ := grow (output.length + 1)
      have := congrArg List.length hab
      simp at this; omega
    obtain ⟨a, b, hab, hlast⟩ := hex
    have := rfind_last s%"\\boxed{" a b (by rw [← hab]; exact hlast)
    rw [← hab, h] at this
    have hk : k = a.length := by simpa using this
    cases k with
    | zero =>
      simp only [true_iff]
      intro a' b' hab'
      have := hlast a' b' hab'
      exact List.length_eq_zero_iff.1 (by omega)
    | succ k =>
      have hr : (match rfind s%"}" output with
        | some r => some (slice output (k + 1 + 7) r)
        | none => some (slice output (k + 1 + 7) (output.length - 1))) ≠ none := by
        split <;> simp
      constructor
      · intro hc; exact absurd hc hr
      · intro hall
        have := hall a b hab
        subst this; simp at hk

/-! ### C61 -/

/-- One record after the other is judged: unboxed outputs are rejected without a call, the others by the
equivalence test against the annotated answer of their question. -/
inductive Judged (eqMath : GroundTruth → Str → M X Bool) (answer : Str → Option GroundTruth)
    (boxed : Str → Option Str) : List ToraRecord → List Bool → World X → World X → Prop
  | nil (w) : Judged eqMath answer boxed [] [] w w
  | unboxed {r rs vs w w' out g} : r.code.getLast? = some out → answer r.question = some g →
      boxed out = none → Judged eqMath answer boxed rs vs w w' →
      Judged eqMath answer boxed (r :: rs) (false :: vs) w w'
  | tested {r rs v vs w w' w'' out g p} : r.code.getLast? = some out → answer r.question = some g →
      boxed out = some p → Runs (eqMath g p) w v w' → Judged eqMath answer boxed rs vs w' w'' →
      Judged eqMath answer boxed (r :: rs) (v :: vs) w w''

theorem Judged.length {eqMath : GroundTruth → Str → M X Bool} {answer boxed recs vs w w'}
    (h : Judged eqMath answer boxed recs vs w w') : vs.length = recs.length := by
  induction h with
  | nil => rfl
  | unboxed _ _ _ _ ih => simp [ih]
  | tested _ _ _ _ _ ih => simp [ih]

theorem toraLoop_judged (eqMath : GroundTruth → Str → M X Bool) (data : List (Str × GroundTruth))
    (cnt : Nat) (recs : List ToraRecord) (w w' : World X) (m : Nat) :
    toraLoop eqMath data cnt recs w = (.ok m, w') ↔
      ∃ vs, Judged eqMath (q2aLookup data) extractBoxed recs vs w w' ∧ m = cnt + vs.count true := by
  induction recs generalizing cnt w with
  | nil =>
    simp only [toraLoop, M.pure_run, Prod.mk.injEq, Except.ok.injEq]
    constructor
    · rintro ⟨rfl, rfl⟩; exact ⟨[], .nil _, by simp⟩
    · rintro ⟨vs, hj, hm⟩; cases hj; simp at hm; simp [hm]
  | cons r rs ih =>
    simp only [toraLoop]
    cases ha : q2aLookup data r.question with
    | none =>
      simp only [M.raise_run, Prod.mk.injEq, reduceCtorEq, false_and, false_iff]
      rintro ⟨vs, hj, _⟩
      cases hj <;> simp_all
    | some g =>
      cases hc : r.code.getLast? with
      | none =>
        simp only [M.raise_run, Prod.mk.injEq, reduceCtorEq, false_and, false_iff]
        rintro ⟨vs, hj, _⟩
        cases hj <;> simp_all
      | some out =>
        simp only
        cases hb : extractBoxed out with
        | none =>
          simp only
          rw [ih]
          constructor
          · rintro ⟨vs, hj, hm⟩; exact ⟨false :: vs, .unboxed hc ha hb hj, by simpa using hm⟩
          · rintro ⟨vs, hj, hm⟩
            cases hj with
            | unboxed h1 h2 h3 h4 => exact ⟨_, h4, by simpa using hm⟩
            | tested h1 h2 h3 h4 h5 =>
              rw [hc] at h1; cases h1; rw [hb] at h3; cases h3
        | some p =>
          simp only [M.bind_run]
          have hrev : ∀ (vs : List Bool) (_ : Nat), Judged eqMath (q2aLookup data) extractBoxed (r :: rs) vs w w' →
              ∃ v w₁ vs', vs = v :: vs' ∧ eqMath g p w = (.ok v, w₁) ∧
                Judged eqMath (q2aLookup data) extractBoxed rs vs' w₁ w' := by
            intro vs _ hj
            cases hj with
            | unboxed h1 h2 h3 h4 => rw [hc] at h1; cases h1; rw [hb] at h3; cases h3
            | tested h1 h2 h3 h4 h5 =>
              rw [hc] at h1; cases h1; rw [hb] at h3; cases h3; rw [ha] at h2; cases h2
              exact ⟨_, _, _, rfl, h4, h5⟩
          cases he : eqMath g p w with
          | mk res w₁ =>
            cases res with
            | error e =>
              simp only [Prod.mk.injEq, reduceCtorEq, false_and, false_iff]
              rintro ⟨vs, hj, _⟩
              obtain ⟨v, w₂, vs', _, h2, _⟩ := hrev vs 0 hj
              rw [he] at h2; cases h2
            | ok v =>
              simp only
              have hfin : ∀ cnt' , (cnt' = if v then cnt + 1 else cnt) →
                  ((∃ vs, Judged eqMath (q2aLookup data) extractBoxed rs vs w₁ w' ∧
                    m = cnt' + vs.count true) ↔
                  ∃ vs, Judged eqMath (q2aLookup data) extractBoxed (r :: rs) vs w w' ∧
                    m = cnt + vs.count true) := by
                intro cnt' hcnt
                constructor
                · rintro ⟨vs, hj, hm⟩
                  refine ⟨v :: vs, .tested hc ha hb he hj, ?_⟩
                  rw [hm, hcnt]; cases v <;> simp; omega
                · rintro ⟨vs, hj, hm⟩
                  obtain ⟨v', w₂, vs', rfl, h2, h3⟩ := hrev vs 0 hj
                  rw [he] at h2; cases h2
                  refine ⟨vs', h3, ?_⟩
                  rw [hm, hcnt]; cases v <;> simp; omega
              cases v with
              | true => simp only [if_true]; rw [ih]; exact hfin _ rfl
              | false =>
                simp only [Bool.false_eq_true, if_false]; rw [ih]; exact hfin _ rfl

/-- The annotation of the question `q`: the last entry of the file for it. -/
def LastAnnotated (data : List (Str × GroundTruth)) (q : Str) (g : GroundTruth) : Prop :=
  ∃ before after, data = before ++ (q, g) :: after ∧ ∀ e ∈ after, e.1 ≠ q

theorem q2aLookup_iff (data : List (Str × GroundTruth)) (q : Str) (g : GroundTruth) :
    q2aLookup data q = some g ↔ LastAnnotated data q g := by
  unfold q2aLookup LastAnnotated
  rw [List.lookup_eq_some_iff]
  constructor
  · rintro ⟨a, b, e, h⟩
    refine ⟨b.reverse, a.reverse, ?_, ?_⟩
    · have := congrArg List.reverse e
      simpa using this
    · intro e he h'
      have := h e (by simpa using he)
      simp [h'] at this
  · rintro ⟨a, b, rfl, h⟩
    refine ⟨b.reverse, a.reverse, by simp, ?_⟩
    intro e he
    have := h e (by simpa using he)
    simpa using fun h' => this h'.symm

/-- **C61**.  Whenever the script prints an accuracy, there is one verdict per record, given against the last
annotation of its question, the accuracy is the
number of accepted records divided by the number of records, and it lies between 0 and 1. -/
theorem C61_accuracy_is_proportion (eqMath : GroundTruth → Str → M X Bool)
    (data : List (Str × GroundTruth)) (recs : List ToraRecord) (w w' : World X) (q : Rat)
    (h : toraAccuracy eqMath data recs w = (.ok q, w')) :
    ∃ answer, (∀ q g, answer q = some g ↔ LastAnnotated data q g) ∧
    ∃ vs : List Bool, Judged eqMath answer extractBoxed recs vs w w' ∧
      vs.length = recs.length ∧ recs ≠ [] ∧ q = (vs.count true : Rat) / (recs.length : Rat) ∧
      0 ≤ q ∧ q ≤ 1 := by
  unfold toraAccuracy at h
  by_cases hlen : recs.length ≠ data.length
  · simp [hlen] at h
  · rw [if_neg hlen] at h
    simp only [M.bind_run] at h
    cases hl : toraLoop eqMath data 0 recs w with
    | mk res w₁ =>
      rw [hl] at h
      cases res with
      | error e => simp at h
      | ok m =>
        simp only at h
        by_cases h0 : recs.length = 0
        · simp [h0] at h
        · rw [if_neg h0] at h
          simp only [M.pure_run, Prod.mk.injEq, Except.ok.injEq] at h
          obtain ⟨hq, hw⟩ := h
          subst hw
          obtain ⟨vs, hj, hm⟩ := (toraLoop_judged eqMath data 0 recs w w₁ m).1 hl
          have hvl := hj.length
          have hm' : m = vs.count true := by omega
          have hle : vs.count true ≤ recs.length := by rw [← hvl]; exact List.count_le_length
          have hpos : (0 : Rat) < (recs.length : Rat) := by exact_mod_cast Nat.pos_of_ne_zero h0
          refine ⟨q2aLookup data, q2aLookup_iff data, vs, hj, hvl, ?_, ?_, ?_, ?_⟩
          · intro hn; exact h0 (by simp [hn])
          · rw [← hq, hm']
          · rw [← hq]; exact div_nonneg (by exact_mod_cast Nat.zero_le _) hpos.le
          · rw [← hq, hm', div_le_one hpos]; exact_mod_cast hle

/-- The script does print an accuracy when the files have the same non-zero number of records, every
question is annotated, every record has code, and the equivalence test does not raise. -/
theorem C61_accuracy_exists (eqMath : GroundTruth → Str → M X Bool)
    (data : List (Str × GroundTruth)) (recs : List ToraRecord) (w : World X)
    (hlen : recs.length = data.length) (hne : recs ≠ [])
    (hans : ∀ r ∈ recs, ∃ g, LastAnnotated data r.question g) (hcode : ∀ r ∈ recs, r.code ≠ [])
    (htot : ∀ g p, Total (eqMath g p)) : ∃ q w', toraAccuracy eqMath data recs w = (.ok q, w') := by
  have hans : ∀ r ∈ recs, q2aLookup data r.question ≠ none := fun r hr e => by
    obtain ⟨g, hg⟩ := hans r hr
    rw [(q2aLookup_iff data _ g).2 hg] at e; cases e
  have hloop : ∀ (rs : List ToraRecord) cnt (w : World X),
      (∀ r ∈ rs, q2aLookup data r.question ≠ none) → (∀ r ∈ rs, r.code ≠ []) →
      ∃ m w', toraLoop eqMath data cnt rs w = (.ok m, w') := by
    intro rs
    induction rs with
    | nil => intro cnt w _ _; exact ⟨cnt, w, rfl⟩
    | cons r rs ih =>
      intro cnt w h1 h2
      simp only [toraLoop]
      cases ha : q2aLookup data r.question with
      | none => exact absurd ha (h1 r (by simp))
      | some g =>
        cases hc : r.code.getLast? with
        | none => exact absurd (by simpa using hc) (h2 r (by simp))
        | some out =>
          have hr := fun cnt w => ih cnt w (fun r' h => h1 r' (by simp [h])) (fun r' h => h2 r' (by simp [h]))
          simp only
          cases hb : extractBoxed out with
          | none => exact hr cnt w
          | some p =>
            obtain ⟨v, w', hv⟩ := htot g p w
            simp only [M.bind_run, hv]
            cases v <;> simp [hr]
  obtain ⟨m, w', hm⟩ := hloop recs 0 w hans hcode
  have h0 : recs.length ≠ 0 := by simpa using hne
  exact ⟨_, w', by simp only [toraAccuracy, hlen, ne_eq, not_true, if_false, M.bind_run, hm]
                   rw [if_neg (by rw [← hlen]; exact h0)]; rfl⟩

/-- A string-equality test in place of `is_equiv_MATH`. -/
def sameStr (g : GroundTruth) (p : Str) : M Unit Bool :=
  match g with
  | .str s => pure (s == p)
  | _ => pure false

example : (toraAccuracy sameStr [(s%"q", .str s%"1"), (s%"r", .str s%"2")]
    [⟨s%"q", [s%"x", s%"= \\boxed{1}"]⟩, ⟨s%"r", [s%"= \\boxed{3}"]⟩] ⟨(), []⟩).1.toOption = some (1 / 2) := by
  decide +kernel

end Verif
