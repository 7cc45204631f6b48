import Verif.Model.Evaluations
import Verif.Props.Equiv
import Verif.Props.Tuple
import Verif.Props.Matrix
import Verif.Spec.KernelRfl
/-
Property C06: no acceptance without evidence.
-/

namespace Verif

variable {X V S : Type}

/-! ### Evidence trees -/

/-- `string_normalize` gives `na` on `a` (for some recursion budget and state). -/
def NormalForm (E : Env X V S) (a : Str) (na : Norm) : Prop :=
  ∃ n w w', Runs (stringNormalize E n a) w na w'

/-- `v` is one of the parses of the text (`latex2sympy`, `parse_latex`, `parse_expr`). -/
def Candidate (E : Env X V S) (a : Str) (v : V) : Prop :=
  ∃ w vs w', Runs (sympyParse E a) w vs w' ∧ some v ∈ vs

/-- The comparison of parsed values said "equal" for some parse of each text. -/
def CasVerdict (E : Env X V S) (a b : Str) : Prop :=
  ∃ g v, Candidate E a g ∧ Candidate E b v ∧
    ∃ n tg tv w w₁ w₂ w', Runs (getType E g) w tg w₁ ∧ Runs (getType E v) w₁ tv w₂ ∧
      Runs (areEqual E n g v tg tv) w₂ true w'

/-- Both texts denote interval sets and the sets compare equal. -/
def SameIntervals (E : Env X V S) (a b : Str) : Prop :=
  ∃ s t, (∃ w w', Runs (strToInterval E a) w (some s) w') ∧
    (∃ w w', Runs (strToInterval E b) w (some t) w') ∧
    ∃ x x', E.compareEq s t x = (.ok true, x')

mutual
/-- Finite evidence that two answers may be accepted. -/
inductive Evidence (E : Env X V S) : Str → Str → Prop
  /-- the same text up to surrounding white space -/
  | same {a b} : SameUpToSpace a b → Evidence E a b
  /-- equal normal forms -/
  | norms {a b x} : NormalForm E a (.str x) → NormalForm E b (.str x) → Evidence E a b
  /-- evidence for a pair of readings of the normal forms; the prediction is not empty -/
  | readings {a b na nb x y} : NormalForm E a na → NormalForm E b nb →
      x ∈ na.readings → y ∈ nb.readings → y ≠ [] → FormEvidence E x y → Evidence E a b
/-- Evidence for two normal forms. -/
inductive FormEvidence (E : Env X V S) : Str → Str → Prop
  | intervals {x y} : SameIntervals E x y → FormEvidence E x y
  /-- both are a single thing once brackets or digit-group commas are removed -/
  | peeled {x y x' y'} : splitTuple E.U E.setOrder x none = .ok (.str x') →
      splitTuple E.U E.setOrder y none = .ok (.str y') → (x', y') ≠ (x, y) →
      Evidence E x' y' → FormEvidence E x y
  /-- ordered: element by element -/
  | list {x y xs ys} : splitTuple E.U E.setOrder x none = .ok (.list xs) →
      splitTuple E.U E.setOrder y none = .ok (.list ys) →
      (s%"\\in" ∉ ys → xs.length = ys.length) →
      (∀ p ∈ xs.zip ys, Evidence E p.1 p.2) → FormEvidence E x y
  | tuple {x y xs ys} : splitTuple E.U E.setOrder x none = .ok (.tuple xs) →
      splitTuple E.U E.setOrder y none = .ok (.tuple ys) →
      (s%"\\in" ∉ ys → xs.length = ys.length) →
      (∀ p ∈ xs.zip ys, Evidence E p.1 p.2) → FormEvidence E x y
  /-- unordered: one to one -/
  | set {x y xs ys} (ps : List (Str × Str)) : splitTuple E.U E.setOrder x none = .ok (.set xs) →
      splitTuple E.U E.setOrder y none = .ok (.set ys) →
      (s%"\\in" ∉ ys → xs.length = ys.length) →
      ps.map Prod.fst = xs → (ps.map Prod.snd).Subperm ys →
      (∀ p ∈ ps, Evidence E p.1 p.2) → FormEvidence E x y
  /-- matrices: same shape, entry by entry -/
  | matrix {x y xs ys} : (∃ w w', Runs (splitMatrix E x) w (.rows xs) w') →
      (∃ w w', Runs (splitMatrix E y) w (.rows ys) w') → xs.map Row.nCol = ys.map Row.nCol →
      (∀ p ∈ (xs.flatMap Row.entries).zip (ys.flatMap Row.entries), Evidence E p.1 p.2) →
      FormEvidence E x y
  /-- 1×1 matrices -/
  | entry {x y x' y'} : (∃ w w', Runs (splitMatrix E x) w (.str x') w') →
      (∃ w w', Runs (splitMatrix E y) w (.str y') w') → (x', y') ≠ (x, y) →
      Evidence E x' y' → FormEvidence E x y
  | cas {x y} : CasVerdict E x y → FormEvidence E x y
end

/-! ### Soundness -/

theorem bind_ok {α β : Type} {x : M X α} {f : α → M X β} {w : World X} {b : β} {w' : World X}
    (h : (x >>= f) w = (.ok b, w')) : ∃ a w₁, x w = (.ok a, w₁) ∧ f a w₁ = (.ok b, w') := by
  rw [M.bind_run] at h
  cases hx : x w with
  | mk r w₁ =>
    rw [hx] at h
    cases r with
    | error e => simp at h
    | ok a => exact ⟨a, w₁, rfl, h⟩

theorem ext_ok {α : Type} {e : Ext X α} {w w' : World X} {a : α} (h : M.ext e w = (.ok a, w')) :
    e w.ext = (.ok a, w'.ext) := by
  unfold M.ext at h
  simp only [Prod.mk.injEq] at h
  rw [← h.2, ← h.1]

theorem candsInner_true (cmp : V → V → M X Bool) (g : V) (vs : List (Option V)) (w w' : World X)
    (h : candsInner cmp g vs w = (.ok true, w')) :
    ∃ v, some v ∈ vs ∧ ∃ u u', Runs (cmp g v) u true u' := by
  induction vs generalizing w with
  | nil => simp [candsInner] at h
  | cons v vs ih =>
    cases v with
    | none =>
      obtain ⟨v, hv, h⟩ := ih w h
      exact ⟨v, by simp [hv], h⟩
    | some v =>
      unfold candsInner at h
      obtain ⟨r, w₁, h1, h2⟩ := bind_ok h
      cases r with
      | true => exact ⟨v, by simp, w, w₁, h1⟩
      | false =>
        obtain ⟨v, hv, h⟩ := ih w₁ (by simpa using h2)
        exact ⟨v, by simp [hv], h⟩

theorem candsOuter_true (cmp : V → V → M X Bool) (gs vs : List (Option V)) (w w' : World X)
    (h : candsOuter cmp gs vs w = (.ok true, w')) :
    ∃ g v, some g ∈ gs ∧ some v ∈ vs ∧ ∃ u u', Runs (cmp g v) u true u' := by
  induction gs generalizing w with
  | nil => simp [candsOuter] at h
  | cons g gs ih =>
    cases g with
    | none =>
      obtain ⟨g, v, hg, hv, h⟩ := ih w h
      exact ⟨g, v, by simp [hg], hv, h⟩
    | some g =>
      unfold candsOuter at h
      obtain ⟨r, w₁, h1, h2⟩ := bind_ok h
      cases r with
      | true =>
        obtain ⟨v, hv, h⟩ := candsInner_true cmp g vs w w₁ h1
        exact ⟨g, v, by simp, hv, h⟩
      | false =>
        obtain ⟨g, v, hg, hv, h⟩ := ih w₁ (by simpa using h2)
        exact ⟨g, v, by simp [hg], hv, h⟩

theorem areEqualUnderSympy_true (E : Env X V S) (n : Nat) (x y : Str) (v : Bool) (w w' : World X)
    (h : areEqualUnderSympy E n x y v w = (.ok true, w')) : CasVerdict E x y := by
  unfold areEqualUnderSympy at h
  rw [M.tryExcept_run] at h
  cases hr : areEqualWithSimplify E n x y v w with
  | mk r w₁ =>
    rw [hr] at h
    cases r with
    | error e => simp at h
    | ok b =>
      simp at h
      rw [h.1] at hr
      unfold areEqualWithSimplify at hr
      obtain ⟨gs, w₂, h1, hr⟩ := bind_ok hr
      obtain ⟨vs, w₃, h2, hr⟩ := bind_ok hr
      have : ∃ w₄, candsOuter (eqTyped E (areEqual E n)) gs vs w₄ = (.ok true, w₁) := by
        cases v with
        | false => exact ⟨w₃, by simpa using hr⟩
        | true => exact ⟨_, by simpa using hr⟩
      obtain ⟨w₄, hr⟩ := this
      obtain ⟨g, v, hg, hv, u, u', hc⟩ := candsOuter_true _ _ _ _ _ hr
      unfold Runs eqTyped at hc
      obtain ⟨tg, w₅, h3, hc⟩ := bind_ok hc
      obtain ⟨tv, w₆, h4, hc⟩ := bind_ok hc
      exact ⟨g, v, ⟨_, gs, _, h1, hg⟩, ⟨_, vs, _, h2, hv⟩, n, tg, tv, u, w₅, w₆, u', h3, h4, hc⟩

theorem zipLoop_true (f : Str → Str → M X Bool) (as bs : List Str) (w w' : World X)
    (h : zipLoop f as bs w = (.ok true, w')) :
    ∀ p ∈ as.zip bs, ∃ u u', Runs (f p.1 p.2) u true u' := by
  induction as generalizing bs w with
  | nil => simp
  | cons a as ih =>
    cases bs with
    | nil => simp
    | cons b bs =>
      unfold zipLoop at h
      obtain ⟨r, w₁, h1, h2⟩ := bind_ok h
      cases r with
      | false => simp at h2
      | true =>
        simp only [if_true] at h2
        intro p hp
        simp only [List.zip_cons_cons, List.mem_cons] at hp
        rcases hp with rfl | hp
        · exact ⟨w, w₁, h1⟩
        · exact ih bs w₁ h2 p hp

theorem acceptsAll_zip {f : Str → Str → M X Bool} {as bs : List Str} {w w' : World X}
    (h : AcceptsAll f as bs w w') : ∀ p ∈ as.zip bs, ∃ u u', Runs (f p.1 p.2) u true u' := by
  induction h with
  | nil => simp
  | cons h1 _ ih =>
    intro p hp
    simp only [List.zip_cons_cons, List.mem_cons] at hp
    rcases hp with rfl | hp
    · exact ⟨_, _, h1⟩
    · exact ih p hp

theorem possibleIntervals_true (E : Env X V S) (x y : Str) (s : Bool) (w w' : World X)
    (h : possibleIntervals E x y w = (.ok (true, s), w')) : SameIntervals E x y := by
  unfold possibleIntervals at h
  obtain ⟨a, w₁, h1, h⟩ := bind_ok h
  obtain ⟨b, w₂, h2, h⟩ := bind_ok h
  cases a with
  | none => cases b <;> simp at h
  | some a =>
    cases b with
    | none => simp at h
    | some b =>
      simp only at h
      obtain ⟨r, w₃, h3, h⟩ := bind_ok h
      cases r with
      | false => simp at h
      | true =>
        refine ⟨a, b, ⟨_, _, h1⟩, ⟨_, _, h2⟩, ?_⟩
        exact ⟨_, _, ext_ok h3⟩

section
variable (E : Env X V S) (eq : EqFun X)
  (heq : ∀ x y v w w', eq x y v w = (.ok true, w') → Evidence E x y)
include heq

theorem possibleTuple_true (x y : Str) (v s : Bool) (w w' : World X)
    (h : possibleTuple E eq x y v w = (.ok (true, s), w')) : FormEvidence E x y := by
  unfold possibleTuple at h
  obtain ⟨a, w₁, h1, h⟩ := bind_ok h
  obtain ⟨b, w₂, h2, h⟩ := bind_ok h
  have ha : splitTuple E.U E.setOrder x none = .ok a := by
    cases hs : splitTuple E.U E.setOrder x none <;> simp [hs] at h1; rw [h1.1]
  have hb : splitTuple E.U E.setOrder y none = .ok b := by
    cases hs : splitTuple E.U E.setOrder y none <;> simp [hs] at h2; rw [h2.1]
  have h : ∃ w₃, elemsEquiv eq x y v a b w₃ = (.ok (true, s), w') := by
    cases v with
    | false => exact ⟨w₂, by simpa using h⟩
    | true => exact ⟨_, by simpa using h⟩
  obtain ⟨w₃, h⟩ := h
  have zipEv : ∀ xs ys : List Str, (∃ u u', zipLoop (fun x y => eq x y v) xs ys u = (.ok true, u')) →
      ∀ p ∈ xs.zip ys, Evidence E p.1 p.2 := by
    rintro xs ys ⟨u, u', hz⟩ p hp
    obtain ⟨w, w', hr⟩ := zipLoop_true _ _ _ _ _ hz p hp
    exact heq _ _ _ _ _ hr
  cases a with
  | str x' =>
    cases b with
    | str y' =>
      unfold elemsEquiv at h
      simp only at h
      by_cases hc : x' = x ∧ y' = y
      · rw [if_pos hc] at h; simp at h
      · rw [if_neg hc] at h
        obtain ⟨r, w₄, h3, h⟩ := bind_ok h
        simp at h
        rw [h.1.1] at h3
        exact .peeled ha hb (by intro e; simp at e; exact hc e) (heq _ _ _ _ _ h3)
    | list ys => exact absurd h (by simp only [elemsEquiv, Elems.sameType]; by_cases hc : (Elems.str x').len ≠ (Elems.list ys).len ∧ (!(Elems.list ys).has s%"\\in") = true <;> simp [hc])
    | tuple ys => exact absurd h (by simp only [elemsEquiv, Elems.sameType]; by_cases hc : (Elems.str x').len ≠ (Elems.tuple ys).len ∧ (!(Elems.tuple ys).has s%"\\in") = true <;> simp [hc])
    | set ys => exact absurd h (by simp only [elemsEquiv, Elems.sameType]; by_cases hc : (Elems.str x').len ≠ (Elems.set ys).len ∧ (!(Elems.set ys).has s%"\\in") = true <;> simp [hc])
  | list xs =>
    cases b with
    | list ys =>
      rw [elemsEquiv_list, sameKind_true] at h
      exact .list ha hb h.2.1 (zipEv _ _ ⟨_, _, h.2.2⟩)
    | str y' => exact absurd h (by simp only [elemsEquiv, Elems.sameType]; by_cases hc : (Elems.list xs).len ≠ (Elems.str y').len ∧ (!(Elems.str y').has s%"\\in") = true <;> simp [hc])
    | tuple ys => exact absurd h (by simp only [elemsEquiv, Elems.sameType]; by_cases hc : (Elems.list xs).len ≠ (Elems.tuple ys).len ∧ (!(Elems.tuple ys).has s%"\\in") = true <;> simp [hc])
    | set ys => exact absurd h (by simp only [elemsEquiv, Elems.sameType]; by_cases hc : (Elems.list xs).len ≠ (Elems.set ys).len ∧ (!(Elems.set ys).has s%"\\in") = true <;> simp [hc])
  | tuple xs =>
    cases b with
    | tuple ys =>
      rw [elemsEquiv_tuple, sameKind_true] at h
      exact .tuple ha hb h.2.1 (zipEv _ _ ⟨_, _, h.2.2⟩)
    | str y' => exact absurd h (by simp only [elemsEquiv, Elems.sameType]; by_cases hc : (Elems.tuple xs).len ≠ (Elems.str y').len ∧ (!(Elems.str y').has s%"\\in") = true <;> simp [hc])
    | list ys => exact absurd h (by simp only [elemsEquiv, Elems.sameType]; by_cases hc : (Elems.tuple xs).len ≠ (Elems.list ys).len ∧ (!(Elems.list ys).has s%"\\in") = true <;> simp [hc])
    | set ys => exact absurd h (by simp only [elemsEquiv, Elems.sameType]; by_cases hc : (Elems.tuple xs).len ≠ (Elems.set ys).len ∧ (!(Elems.set ys).has s%"\\in") = true <;> simp [hc])
  | set xs =>
    cases b with
    | set ys =>
      rw [elemsEquiv_set, sameKind_true] at h
      obtain ⟨ps, h3, h4, h5⟩ := setsMatch_injection _ _ _ _ _ h.2.2
      refine .set ps ha hb h.2.1 h3 h4 ?_
      intro p hp
      obtain ⟨u, u', hr⟩ := h5 p hp
      exact heq _ _ _ _ _ hr
    | str y' => exact absurd h (by simp only [elemsEquiv, Elems.sameType]; by_cases hc : (Elems.set xs).len ≠ (Elems.str y').len ∧ (!(Elems.str y').has s%"\\in") = true <;> simp [hc])
    | list ys => exact absurd h (by simp only [elemsEquiv, Elems.sameType]; by_cases hc : (Elems.set xs).len ≠ (Elems.list ys).len ∧ (!(Elems.list ys).has s%"\\in") = true <;> simp [hc])
    | tuple ys => exact absurd h (by simp only [elemsEquiv, Elems.sameType]; by_cases hc : (Elems.set xs).len ≠ (Elems.tuple ys).len ∧ (!(Elems.tuple ys).has s%"\\in") = true <;> simp [hc])

theorem possibleMatrix_true (x y : Str) (s : Bool) (w w' : World X)
    (h : possibleMatrix E eq x y w = (.ok (true, s), w')) : FormEvidence E x y := by
  have h0 := h
  unfold possibleMatrix at h
  obtain ⟨a, w₁, h1, h⟩ := bind_ok h
  obtain ⟨b, w₂, h2, h⟩ := bind_ok h
  cases a with
  | str x' =>
    cases b with
    | rows _ => simp at h
    | str y' =>
      simp only at h
      by_cases hc : x' = x ∧ y' = y
      · rw [if_pos hc] at h; simp at h
      · rw [if_neg hc] at h
        obtain ⟨r, w₄, h3, h⟩ := bind_ok h
        simp at h
        rw [h.1.1] at h3
        exact .entry ⟨_, _, h1⟩ ⟨_, _, h2⟩ (by intro e; simp at e; exact hc e) (heq _ _ _ _ _ h3)
  | rows xs =>
    cases b with
    | str _ => simp at h
    | rows ys =>
      obtain ⟨-, h3, h4⟩ := (C11_shape_and_entries E eq x y xs ys w w₁ w₂ h1 h2 s w').1 h0
      refine .matrix ⟨_, _, h1⟩ ⟨_, _, h2⟩ h3 ?_
      intro p hp
      obtain ⟨u, u', hr⟩ := acceptsAll_zip h4 p hp
      exact heq _ _ _ _ _ hr

theorem isLatexEquiv_true (n : Nat) (x y : Str) (v : Bool) (w w' : World X)
    (h : isLatexEquiv E eq n x y v w = (.ok true, w')) : y ≠ [] ∧ FormEvidence E x y := by
  unfold isLatexEquiv at h
  cases y with
  | nil => simp at h
  | cons y₀ ys =>
    refine ⟨by simp, ?_⟩
    simp only [List.isEmpty_cons, Bool.false_eq_true, if_false] at h
    obtain ⟨⟨c, s⟩, w₁, h1, h⟩ := bind_ok h
    simp only at h
    obtain ⟨⟨c', s'⟩, w₂, h2, h⟩ := bind_ok h
    simp only at h
    obtain ⟨⟨c'', s''⟩, w₃, h3, h⟩ := bind_ok h
    simp only at h
    have e1 : c = true → FormEvidence E x (y₀ :: ys) := by
      rintro rfl
      by_cases hb : hasBracket x = true
      · rw [if_pos hb] at h1
        exact .intervals (possibleIntervals_true E _ _ _ _ _ h1)
      · rw [if_neg hb] at h1; simp at h1
    have e2 : c' = true → FormEvidence E x (y₀ :: ys) := by
      rintro rfl
      cases c with
      | true => exact e1 rfl
      | false =>
        simp only [Bool.not_false, if_true] at h2
        exact possibleTuple_true E eq heq _ _ _ _ _ _ h2
    have e3 : c'' = true → FormEvidence E x (y₀ :: ys) := by
      rintro rfl
      by_cases hb : (!c' && (strIsMat x || strIsMat (y₀ :: ys))) = true
      · rw [if_pos hb] at h3
        exact possibleMatrix_true E eq heq _ _ _ _ _ h3
      · rw [if_neg hb] at h3
        simp only [M.pure_run, Prod.mk.injEq, Except.ok.injEq] at h3
        exact e2 h3.1.1
    by_cases hb : (!c'' && !s'') = true
    · rw [if_pos hb] at h
      exact .cas (areEqualUnderSympy_true E n _ _ v w₃ w' h)
    · rw [if_neg hb] at h
      simp only [M.pure_run, Prod.mk.injEq, Except.ok.injEq] at h
      exact e3 h.1

theorem compareNorms_true (n : Nat) (v : Bool) (a b : Str) (na nb : Norm) (ha : NormalForm E a na)
    (hb : NormalForm E b nb) (w w' : World X) (h : compareNorms E eq n v na nb w = (.ok true, w')) :
    Evidence E a b := by
  have use : ∀ x y u u', x ∈ na.readings → y ∈ nb.readings →
      isLatexEquiv E eq n x y v u = (.ok true, u') → Evidence E a b := by
    intro x y u u' hx hy h
    have := isLatexEquiv_true E eq heq n x y v u u' h
    exact .readings ha hb hx hy this.1 this.2
  have outer : (∃ u u', readingsOuter (fun x y => isLatexEquiv E eq n x y v) na.readings nb.readings u =
      (.ok true, u')) → Evidence E a b := by
    rintro ⟨u, u', h⟩
    rw [readingsOuter_true] at h
    have : ∀ (l : List (Str × Str)) (w w' : World X),
        AcceptsSome (fun p : Str × Str => isLatexEquiv E eq n p.1 p.2 v) l w w' →
        ∃ p ∈ l, ∃ u u', isLatexEquiv E eq n p.1 p.2 v u = (.ok true, u') := by
      intro l w w' h
      induction h with
      | here h => exact ⟨_, by simp, _, _, h⟩
      | there _ _ ih => obtain ⟨p, hp, h⟩ := ih; exact ⟨p, by simp [hp], h⟩
    obtain ⟨⟨x, y⟩, hp, u, u', h⟩ := this _ _ _ h
    simp only [readingPairs, List.mem_flatMap, List.mem_map, Prod.mk.injEq] at hp
    obtain ⟨g, hg, v', hv', rfl, rfl⟩ := hp
    exact use _ _ _ _ hg hv' h
  have caught : ∀ m : M X Bool, M.tryExcept m (fun _ => pure false) w = (.ok true, w') →
      m w = (.ok true, w') := by
    intro m hm
    rw [M.tryExcept_run] at hm
    cases hr : m w with
    | mk r w₁ =>
      rw [hr] at hm
      cases r with
      | error _ => simp at hm
      | ok _ => exact hm
  cases na with
  | str x =>
    cases nb with
    | str y =>
      by_cases hxy : x = y
      · subst hxy; exact .norms ha hb
      · simp only [compareNorms, hxy, decide_false, Bool.false_eq_true, if_false] at h
        exact use x y _ _ (by simp [Norm.readings]) (by simp [Norm.readings]) (caught _ h)
    | set ys =>
      simp only [compareNorms, Bool.false_eq_true, if_false] at h
      exact outer ⟨_, _, caught _ h⟩
  | set xs =>
    simp only [compareNorms, Bool.false_eq_true, if_false] at h
    cases nb <;> exact outer ⟨_, _, caught _ h⟩

end

/-- **C06**.  Whatever the CAS, the parsers and the recursion budget do: if `is_equiv` returns `True` on two
strings there is a finite evidence tree. -/
theorem C06_evidence (E : Env X V S) (n : Nat) (a b : Str) (verbose : Bool) (w w' : World X)
    (h : isEquiv E n (some a) (some b) verbose w = (.ok true, w')) : Evidence E a b := by
  have key : ∀ n a b v w w', isEquivStr E n a b v w = (.ok true, w') → Evidence E a b := by
    intro n
    induction n with
    | zero => intro a b v w w' h; simp [isEquivStr] at h
    | succ n ih =>
      intro a b v w w' h
      unfold isEquivStr at h
      by_cases hs : strip a = strip b
      · exact .same ((sameUpToSpace_iff a b).2 hs)
      · rw [if_neg hs] at h
        obtain ⟨na, w₁, h1, h⟩ := bind_ok h
        obtain ⟨nb, w₂, h2, h⟩ := bind_ok h
        have : ∃ w₃, compareNorms E (isEquivStr E n) n v na nb w₃ = (.ok true, w') := by
          cases v with
          | false => exact ⟨w₂, by simpa using h⟩
          | true => exact ⟨_, by simpa using h⟩
        obtain ⟨w₃, h⟩ := this
        exact compareNorms_true E (isEquivStr E n) ih n v a b na nb ⟨n, w, w₁, h1⟩ ⟨n, w₁, w₂, h2⟩ w₃ w' h
  exact key n a b verbose w w' h

/-- The evidence relation is not trivially true: with parsers that always fail, `1` and `2` have none. -/
theorem C06_not_trivial : ¬ Evidence failEnv s%"1" s%"2" := by
  have n1 : ∀ n (w : World Unit), stringNormalize failEnv (n + 1) s%"1" w = (.ok (.str s%"1"), w) := by
    intro n w; kernel_rfl
  have n2 : ∀ n (w : World Unit), stringNormalize failEnv (n + 1) s%"2" w = (.ok (.str s%"2"), w) := by
    intro n w; kernel_rfl
  have nf1 : ∀ na, NormalForm failEnv s%"1" na → na = .str s%"1" := by
    rintro na ⟨n, w, w', h⟩
    unfold Runs at h
    cases n with
    | zero => simp [stringNormalize] at h
    | succ n => rw [n1] at h; simp at h; exact h.1.symm
  have nf2 : ∀ na, NormalForm failEnv s%"2" na → na = .str s%"2" := by
    rintro na ⟨n, w, w', h⟩
    unfold Runs at h
    cases n with
    | zero => simp [stringNormalize] at h
    | succ n => rw [n2] at h; simp at h; exact h.1.symm
  have st1 : splitTuple failEnv.U failEnv.setOrder s%"1" none = .ok (.str s%"1") := by decide +kernel
  have st2 : splitTuple failEnv.U failEnv.setOrder s%"2" none = .ok (.str s%"2") := by decide +kernel
  have sm1 : ∀ w : World Unit, splitMatrix failEnv s%"1" w = (.ok (.str s%"1"), w) := by
    intro w; kernel_rfl
  have sm2 : ∀ w : World Unit, splitMatrix failEnv s%"2" w = (.ok (.str s%"2"), w) := by
    intro w; kernel_rfl
  have si1 : ∀ w : World Unit, strToInterval failEnv s%"1" w = (.ok none, w) := by
    intro w; kernel_rfl
  have sp : ∀ w : World Unit, sympyParse failEnv s%"1" w = (.ok [none, none, none], w) := by
    intro w; kernel_rfl
  intro h
  cases h with
  | same h => rw [sameUpToSpace_iff] at h; exact absurd h (by decide)
  | norms h1 h2 =>
    have := (nf1 _ h1).symm.trans (nf2 _ h2)
    exact absurd this (by decide)
  | readings h1 h2 hx hy _ h =>
    rw [nf1 _ h1] at hx
    rw [nf2 _ h2] at hy
    simp only [Norm.readings, List.mem_singleton] at hx hy
    subst hx; subst hy
    cases h with
    | intervals h =>
      obtain ⟨s, t, ⟨w, w', h⟩, -⟩ := h
      rw [Runs, si1] at h; simp at h
    | peeled ha hb hne _ =>
      rw [st1] at ha; rw [st2] at hb
      simp only [Except.ok.injEq, Elems.str.injEq] at ha hb
      subst ha; subst hb; exact hne rfl
    | list ha => rw [st1] at ha; simp at ha
    | tuple ha => rw [st1] at ha; simp at ha
    | set _ ha => rw [st1] at ha; simp at ha
    | matrix ha =>
      obtain ⟨w, w', h⟩ := ha
      rw [Runs, sm1] at h; simp at h
    | entry ha hb hne _ =>
      obtain ⟨w, w', h⟩ := ha
      obtain ⟨u, u', h'⟩ := hb
      rw [Runs, sm1] at h; rw [Runs, sm2] at h'
      simp only [Prod.mk.injEq, Except.ok.injEq, Mat.str.injEq] at h h'
      rw [← h.1, ← h'.1] at hne; exact hne rfl
    | cas h =>
      obtain ⟨g, v, ⟨w, vs, w', hr, hm⟩, -⟩ := h
      rw [Runs, sp] at hr
      simp only [Prod.mk.injEq, Except.ok.injEq] at hr
      rw [← hr.1] at hm; simp at hm

/-- accepted pairs with evidence of several kinds: a nested tuple, and a set out of order -/
example : (isEquiv failEnv 4 (some s%"(1,{2,3})") (some s%"(1,{3,2})") false ⟨(), []⟩).1 = .ok true := by
  decide +kernel

end Verif
