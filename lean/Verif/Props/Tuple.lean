import Verif.Model.Evaluations
import Verif.Props.SplitTuple
import Verif.Spec.Basic
import Verif.Spec.Toy
import Mathlib.Data.List.Perm.Subperm
import Mathlib.Data.List.Nodup
/-
Properties C07-C10: `is_equiv_possible_tuple`.
-/

namespace Verif

variable {X V S : Type}

/-! ### Spelling of compound answers -/

/-- The answer `[e₁,e₂,...]` with a given kind of bracket. -/
def Bracket.spell (br : Bracket) (es : List Str) : Str := br.open :: (join s%"," es ++ [br.close])

/-- `s` spells `n ≥ 2` elements in the given kind of bracket; `none` is "no brackets". -/
structure Spells (U : Uni) (br : Option Bracket) (es : List Str) (s : Str) : Prop where
  spelled : s = match br with | some b => b.spell es | none => join s%"," es
  two : 2 ≤ es.length
  elements : ∀ e ∈ es, Element e
  last : es.getLast? ≠ some []
  thousands : ¬ ThousandsComma U s

/-- `{...}` and unbracketed lists are unordered. -/
def kindOf : Option Bracket → RetType
  | some .square => .list
  | some .round => .tuple
  | some .curly => .set
  | none => .set

theorem splitTuple_spells {U : Uni} {br : Option Bracket} {es : List Str} {s : Str}
    (h : Spells U br es s) (ord : List Str → List Str) :
    splitTuple U ord s none = .ok ((kindOf br).wrap ord es) := by
  obtain ⟨hs, h2, he, hl, ht⟩ := h
  subst hs
  cases br with
  | none => exact C34_split_unbracketed U ord es h2 he hl ht
  | some b =>
    have := C34_split_bracketed U ord b es h2 he hl ht
    simp only [Bracket.spell]
    rw [this]
    cases b <;> rfl

/-! ### The ordered comparison -/

theorem zipLoop_iff (f : Str → Str → M X Bool) (as bs : List Str) (w w' : World X)
    (h : as.length = bs.length) :
    zipLoop f as bs w = (.ok true, w') ↔ AcceptsAll f as bs w w' := by
  induction as generalizing bs w with
  | nil =>
    cases bs with
    | nil =>
      simp only [zipLoop, M.pure_run, Prod.mk.injEq, true_and]
      constructor
      · intro e; subst e; exact .nil w
      · intro e; cases e; rfl
    | cons _ _ => simp at h
  | cons a as ih =>
    cases bs with
    | nil => simp at h
    | cons b bs =>
      simp only [zipLoop, M.bind_run]
      constructor
      · intro e
        cases hf : f a b w with
        | mk r w₁ =>
          rw [hf] at e
          cases r with
          | error _ => simp at e
          | ok r =>
            cases r with
            | false => simp at e
            | true =>
              simp only [if_true] at e
              exact .cons hf ((ih bs w₁ (by simpa using h)).1 e)
      · intro e
        cases e with
        | cons h1 h2 =>
          rw [Runs] at h1
          rw [h1]
          simp only [if_true]
          exact (ih bs _ (by simpa using h)).2 h2

theorem AcceptsAll.length_eq {α β : Type} {f : α → β → M X Bool} {as bs w w'}
    (h : AcceptsAll f as bs w w') : as.length = bs.length := by
  induction h with
  | nil => rfl
  | cons _ _ ih => simp [ih]

theorem possibleTuple_run (E : Env X V S) (eq : EqFun X) (gt gv : Str) (verbose : Bool) (a b : Elems)
    (ha : splitTuple E.U E.setOrder gt none = .ok a) (hb : splitTuple E.U E.setOrder gv none = .ok b)
    (w : World X) : ∃ w₁, w₁.ext = w.ext ∧ (verbose = false → w₁ = w) ∧
      possibleTuple E eq gt gv verbose w = elemsEquiv eq gt gv verbose a b w₁ := by
  cases verbose with
  | false => exact ⟨w, rfl, fun _ => rfl, by simp [possibleTuple, ha, hb]⟩
  | true =>
    exact ⟨{ w with out := elemsLine :: w.out }, rfl, by simp, by simp [possibleTuple, ha, hb]⟩

/-- Comparison of two containers of the same kind, `cmp` being the comparison of that kind. -/
def sameKind (cmp : M X Bool) (xs ys : List Str) : M X (Bool × Bool) :=
  if xs.length ≠ ys.length ∧ s%"\\in" ∉ ys then pure (false, true) else do
    let r ← cmp
    pure (r, true)

theorem elemsEquiv_list (eq : EqFun X) (gt gv : Str) (v : Bool) (xs ys : List Str) :
    elemsEquiv eq gt gv v (.list xs) (.list ys) =
      sameKind (zipLoop (fun x y => eq x y v) xs ys) xs ys := by
  unfold elemsEquiv sameKind
  simp [Elems.len, Elems.has, Elems.sameType]
theorem elemsEquiv_tuple (eq : EqFun X) (gt gv : Str) (v : Bool) (xs ys : List Str) :
    elemsEquiv eq gt gv v (.tuple xs) (.tuple ys) =
      sameKind (zipLoop (fun x y => eq x y v) xs ys) xs ys := by
  unfold elemsEquiv sameKind
  simp [Elems.len, Elems.has, Elems.sameType]
theorem elemsEquiv_set (eq : EqFun X) (gt gv : Str) (v : Bool) (xs ys : List Str) :
    elemsEquiv eq gt gv v (.set xs) (.set ys) =
      sameKind (setsMatch (fun x y => eq x y v) xs ys) xs ys := by
  unfold elemsEquiv sameKind
  simp [Elems.len, Elems.has, Elems.sameType]

theorem sameKind_true (cmp : M X Bool) (xs ys : List Str) (s : Bool) (w w' : World X) :
    sameKind cmp xs ys w = (.ok (true, s), w') ↔
      s = true ∧ (s%"\\in" ∉ ys → xs.length = ys.length) ∧ cmp w = (.ok true, w') := by
  unfold sameKind
  by_cases h : xs.length ≠ ys.length ∧ s%"\\in" ∉ ys
  · rw [if_pos h]
    simp only [M.pure_run, Prod.mk.injEq, Except.ok.injEq]
    constructor
    · rintro ⟨⟨h, -⟩, -⟩; cases h
    · rintro ⟨-, h', -⟩; exact absurd (h' h.2) h.1
  · rw [if_neg h]
    simp only [M.bind_run]
    have h' : s%"\\in" ∉ ys → xs.length = ys.length := by
      intro h1
      apply Classical.byContradiction
      intro h2; exact h ⟨h2, h1⟩
    cases hz : cmp w with
    | mk r w₂ =>
      cases r with
      | error e => simp
      | ok r =>
        simp only [M.pure_run, Prod.mk.injEq, Except.ok.injEq]
        constructor
        · rintro ⟨⟨h1, h2⟩, h3⟩; exact ⟨h2.symm, h', h1, h3⟩
        · rintro ⟨h1, -, h2, h3⟩; exact ⟨⟨h2, h1.symm⟩, h3⟩

/-- **C07**.  Two answers in the same ordered brackets are accepted by the tuple comparison exactly when they
have the same number of elements and the elements are accepted one after the other, in order.
`w₁` is the state after the message printed in verbose mode. -/
theorem C07_ordered_elementwise (E : Env X V S) (eq : EqFun X) (br : Bracket) (hbr : br ≠ .curly)
    (xs ys : List Str) (gt gv : Str) (hx : Spells E.U (some br) xs gt) (hy : Spells E.U (some br) ys gv)
    (hin : s%"\\in" ∉ ys) (verbose : Bool) (w : World X) :
    ∃ w₁, w₁.ext = w.ext ∧ (verbose = false → w₁ = w) ∧ ∀ s w',
      (possibleTuple E eq gt gv verbose w = (.ok (true, s), w') ↔
        s = true ∧ AcceptsAll (fun x y => eq x y verbose) xs ys w₁ w') := by
  obtain ⟨w₁, h1, h2, h3⟩ := possibleTuple_run E eq gt gv verbose _ _
    (splitTuple_spells hx E.setOrder) (splitTuple_spells hy E.setOrder) w
  refine ⟨w₁, h1, h2, ?_⟩
  intro s w'
  rw [h3]
  have key : sameKind (zipLoop (fun x y => eq x y verbose) xs ys) xs ys w₁ = (.ok (true, s), w') ↔
      s = true ∧ AcceptsAll (fun x y => eq x y verbose) xs ys w₁ w' := by
    rw [sameKind_true]
    constructor
    · rintro ⟨h1, h2, h3⟩; exact ⟨h1, (zipLoop_iff _ _ _ _ _ (h2 hin)).1 h3⟩
    · rintro ⟨h1, h2⟩; exact ⟨h1, fun _ => h2.length_eq, (zipLoop_iff _ _ _ _ _ h2.length_eq).2 h2⟩
  cases br with
  | square => rw [← key, ← elemsEquiv_list eq gt gv]; rfl
  | round => rw [← key, ← elemsEquiv_tuple eq gt gv]; rfl
  | curly => exact absurd rfl hbr

/-- The exception named in the property: a prediction with the literal element `\in` skips the length
comparison. -/
theorem C07_in_exception : ∃ xs ys : List Str, xs.length ≠ ys.length ∧ s%"\\in" ∈ ys ∧
    (possibleTuple failEnv (isEquivStr failEnv 3) (Bracket.square.spell xs) (Bracket.square.spell ys) false
      ⟨(), []⟩).1 = .ok (true, true) :=
  ⟨[s%"1", s%"2"], [s%"1", s%"2", s%"\\in"], by decide, by decide, by decide +kernel⟩

/-! ### C08 -/

/-- **C08**.  Split answers of different kinds (square, round, unordered) are never accepted by the tuple
comparison, and the CAS is not consulted afterwards (the second component is `True`). -/
theorem C08_bracket_kind (E : Env X V S) (eq : EqFun X) (br br' : Option Bracket) (hbr : kindOf br ≠ kindOf br')
    (xs ys : List Str) (gt gv : Str) (hx : Spells E.U br xs gt) (hy : Spells E.U br' ys gv)
    (verbose : Bool) (w : World X) :
    ∃ w', w'.ext = w.ext ∧ possibleTuple E eq gt gv verbose w = (.ok (false, true), w') := by
  obtain ⟨w₁, h1, -, h3⟩ := possibleTuple_run E eq gt gv verbose _ _
    (splitTuple_spells hx E.setOrder) (splitTuple_spells hy E.setOrder) w
  refine ⟨w₁, h1, ?_⟩
  rw [h3]
  cases ha : kindOf br <;> cases hb : kindOf br' <;> first
    | exact absurd (ha.trans hb.symm) hbr
    | (simp only [RetType.wrap, elemsEquiv, Elems.sameType, Bool.not_false, if_true]
       split <;> rfl)

/-- A split answer is never accepted by the tuple comparison against one that does not split. -/
theorem C08_split_vs_single (E : Env X V S) (eq : EqFun X) (br : Option Bracket)
    (xs : List Str) (gt gv t : Str) (hx : Spells E.U br xs gt)
    (hy : splitTuple E.U E.setOrder gv none = .ok (.str t)) (verbose : Bool) (w : World X) :
    (∃ w', w'.ext = w.ext ∧ possibleTuple E eq gt gv verbose w = (.ok (false, true), w')) ∧
    (∃ w', w'.ext = w.ext ∧ possibleTuple E eq gv gt verbose w = (.ok (false, true), w')) := by
  constructor
  · obtain ⟨w₁, h1, -, h3⟩ := possibleTuple_run E eq gt gv verbose _ _
      (splitTuple_spells hx E.setOrder) hy w
    refine ⟨w₁, h1, ?_⟩
    rw [h3]
    cases kindOf br <;>
      (simp only [RetType.wrap, elemsEquiv, Elems.sameType, Bool.not_false, if_true]; split <;> rfl)
  · obtain ⟨w₁, h1, -, h3⟩ := possibleTuple_run E eq gv gt verbose _ _ hy
      (splitTuple_spells hx E.setOrder) w
    refine ⟨w₁, h1, ?_⟩
    rw [h3]
    cases kindOf br <;>
      (simp only [RetType.wrap, elemsEquiv, Elems.sameType, Bool.not_false, if_true]; split <;> rfl)

theorem spells_example (br : Option Bracket) : Spells asciiUni br [s%"x", s%"y"]
    (match br with | some b => b.spell [s%"x", s%"y"] | none => s%"x,y") where
  spelled := by cases br <;> rfl
  two := by decide
  elements := by intro e he; exact element_of_elementB e (by revert he e; decide)
  last := by decide
  thousands := by
    apply not_thousands_of_no_digit
    cases br with
    | none => decide
    | some b => cases b <;> decide

/-- the hypotheses of C07 and C08 can be met, and the comparison does accept -/
example : (possibleTuple failEnv (isEquivStr failEnv 3) (Bracket.round.spell [s%"x", s%"y"])
    (Bracket.round.spell [s%"x", s%"y"]) false ⟨(), []⟩).1 = .ok (true, true) := by decide +kernel
example : Spells asciiUni (some .round) [s%"x", s%"y"] s%"(x,y)" := spells_example (some .round)
example : Spells asciiUni none [s%"x", s%"y"] s%"x,y" := spells_example none
example : kindOf (some .square) ≠ kindOf none := by decide

/-! ### C09 -/

/-- The prediction elements not matched so far. -/
def freeElems (bs : List (Str × Bool)) : List Str := (bs.filter fun p => !p.2).map Prod.fst

theorem matchOne_some (f : Str → M X Bool) (bs bs' : List (Str × Bool)) (w w' : World X)
    (h : matchOne f bs w = (.ok (some bs'), w')) :
    ∃ l b r, freeElems bs = l ++ b :: r ∧ freeElems bs' = l ++ r ∧ ∃ u u', Runs (f b) u true u' := by
  induction bs generalizing bs' w with
  | nil => simp [matchOne] at h
  | cons p rest ih =>
    obtain ⟨b, flag⟩ := p
    cases flag with
    | true =>
      simp only [matchOne, M.bind_run] at h
      cases hm : matchOne f rest w with
      | mk r w₁ =>
        rw [hm] at h
        cases r with
        | error _ => simp at h
        | ok r =>
          cases r with
          | none => simp at h
          | some r =>
            simp only [M.pure_run, Prod.mk.injEq, Except.ok.injEq, Option.some.injEq] at h
            obtain ⟨l, c, r', h1, h2, h3⟩ := ih r w (by rw [hm, h.2])
            refine ⟨l, c, r', ?_, ?_, h3⟩
            · simpa [freeElems] using h1
            · rw [← h.1]; simpa [freeElems] using h2
    | false =>
      simp only [matchOne, M.bind_run] at h
      cases hf : f b w with
      | mk r w₁ =>
        rw [hf] at h
        cases r with
        | error _ => simp at h
        | ok r =>
          cases r with
          | true =>
            simp only [if_true, M.pure_run, Prod.mk.injEq, Except.ok.injEq, Option.some.injEq] at h
            refine ⟨[], b, freeElems rest, by simp [freeElems], ?_, w, w₁, hf⟩
            rw [← h.1]; simp [freeElems]
          | false =>
            simp only [Bool.false_eq_true, if_false, M.bind_run] at h
            cases hm : matchOne f rest w₁ with
            | mk r w₂ =>
              rw [hm] at h
              cases r with
              | error _ => simp at h
              | ok r =>
                cases r with
                | none => simp at h
                | some r =>
                  simp only [M.pure_run, Prod.mk.injEq, Except.ok.injEq, Option.some.injEq] at h
                  obtain ⟨l, c, r', h1, h2, h3⟩ := ih r w₁ (by rw [hm, h.2])
                  refine ⟨b :: l, c, r', ?_, ?_, h3⟩
                  · have : freeElems ((b, false) :: rest) = b :: freeElems rest := by simp [freeElems]
                    rw [this, h1]; rfl
                  · rw [← h.1]
                    have : freeElems ((b, false) :: r) = b :: freeElems r := by simp [freeElems]
                    rw [this, h2]; rfl

theorem matchLoop_injection (f : Str → Str → M X Bool) (as : List Str) (bs : List (Str × Bool))
    (flags : List Bool) (w w' : World X) (h : matchLoop f as bs w = (.ok flags, w'))
    (hall : flags.all id = true) :
    ∃ ps : List (Str × Str), ps.map Prod.fst = as ∧ (ps.map Prod.snd).Subperm (freeElems bs) ∧
      ∀ p ∈ ps, ∃ u u', Runs (f p.1 p.2) u true u' := by
  induction as generalizing bs flags w with
  | nil => exact ⟨[], rfl, List.nil_subperm, by simp⟩
  | cons a as ih =>
    simp only [matchLoop, M.bind_run] at h
    cases hm : matchOne (f a) bs w with
    | mk r w₁ =>
      rw [hm] at h
      cases r with
      | error _ => simp at h
      | ok r =>
        cases r with
        | none =>
          simp only [M.bind_run] at h
          cases hl : matchLoop f as bs w₁ with
          | mk r w₂ =>
            rw [hl] at h
            cases r with
            | error _ => simp at h
            | ok r =>
              simp only [M.pure_run, Prod.mk.injEq, Except.ok.injEq] at h
              rw [← h.1] at hall; simp at hall
        | some bs' =>
          simp only [M.bind_run] at h
          cases hl : matchLoop f as bs' w₁ with
          | mk r w₂ =>
            rw [hl] at h
            cases r with
            | error _ => simp at h
            | ok r =>
              simp only [M.pure_run, Prod.mk.injEq, Except.ok.injEq] at h
              rw [← h.1] at hall
              obtain ⟨ps, h1, h2, h3⟩ := ih bs' r w₁ (by rw [hl, h.2]) (by simpa using hall)
              obtain ⟨l, b, r', e1, e2, hb⟩ := matchOne_some (f a) bs bs' w w₁ hm
              refine ⟨(a, b) :: ps, by simp [h1], ?_, ?_⟩
              · rw [e1, List.map_cons]
                rw [e2] at h2
                exact ((List.subperm_cons b).2 h2).trans (List.perm_middle.symm.subperm)
              · intro p hp
                simp only [List.mem_cons] at hp
                rcases hp with rfl | hp
                · exact hb
                · exact h3 p hp

theorem setsMatch_injection (f : Str → Str → M X Bool) (as bs : List Str) (w w' : World X)
    (h : setsMatch f as bs w = (.ok true, w')) :
    ∃ ps : List (Str × Str), ps.map Prod.fst = as ∧ (ps.map Prod.snd).Subperm bs ∧
      ∀ p ∈ ps, ∃ u u', Runs (f p.1 p.2) u true u' := by
  simp only [setsMatch, M.bind_run] at h
  cases hl : matchLoop f as (bs.map fun b => (b, false)) w with
  | mk r w₂ =>
    rw [hl] at h
    cases r with
    | error _ => simp at h
    | ok r =>
      simp only [M.pure_run, Prod.mk.injEq, Except.ok.injEq] at h
      have := matchLoop_injection f as _ r w w₂ hl h.1
      have e : freeElems (bs.map fun b => (b, false)) = bs := by
        have : (bs.map fun b => (b, false)).filter (fun p : Str × Bool => !p.2) =
            bs.map fun b => (b, false) := by
          rw [List.filter_eq_self]; intro p hp
          obtain ⟨b, -, rfl⟩ := List.mem_map.1 hp; rfl
        rw [freeElems, this, List.map_map]
        exact List.map_id bs
      rwa [e] at this

theorem mem_dedup (x : Str) (xs : List Str) : x ∈ dedup xs ↔ x ∈ xs := by
  induction xs with
  | nil => simp [dedup]
  | cons y ys ih =>
    simp only [dedup, List.mem_cons, List.mem_filter, ih]
    by_cases h : x = y
    · simp [h]
    · simp [h]

theorem nodup_dedup (xs : List Str) : (dedup xs).Nodup := by
  induction xs with
  | nil => simp [dedup]
  | cons y ys ih =>
    simp only [dedup, List.nodup_cons]
    exact ⟨by simp, ih.filter _⟩

/-- **C09**.  When two unordered answers are accepted by the tuple comparison there is a list of pairs, each
accepted by the comparison of elements, in which every distinct reference element occurs exactly once on
the left and no prediction element occurs twice on the right; and (unless the prediction has the literal
element `\in`) every prediction element occurs. -/
theorem C09_one_to_one (E : Env X V S) (eq : EqFun X) (br br' : Option Bracket)
    (hbr : kindOf br = .set) (hbr' : kindOf br' = .set)
    (xs ys : List Str) (gt gv : Str) (hx : Spells E.U br xs gt) (hy : Spells E.U br' ys gv)
    (verbose s : Bool) (w w' : World X)
    (h : possibleTuple E eq gt gv verbose w = (.ok (true, s), w')) :
    ∃ ps : List (Str × Str),
      (ps.map Prod.fst).Nodup ∧ (∀ x, x ∈ ps.map Prod.fst ↔ x ∈ xs) ∧
      (ps.map Prod.snd).Nodup ∧ (∀ y ∈ ps.map Prod.snd, y ∈ ys) ∧
      (s%"\\in" ∉ ys → ∀ y ∈ ys, y ∈ ps.map Prod.snd) ∧
      ∀ p ∈ ps, ∃ u u', Runs (eq p.1 p.2 verbose) u true u' := by
  obtain ⟨w₁, -, -, h3⟩ := possibleTuple_run E eq gt gv verbose _ _
    (splitTuple_spells hx E.setOrder) (splitTuple_spells hy E.setOrder) w
  rw [h3, hbr, hbr'] at h
  simp only [RetType.wrap] at h
  rw [elemsEquiv_set, sameKind_true] at h
  obtain ⟨-, hlen, hm⟩ := h
  have px := E.setOrder_perm xs
  have py := E.setOrder_perm ys
  obtain ⟨ps, h1, h2, h4⟩ := setsMatch_injection _ _ _ _ _ hm
  have hndy : (E.setOrder ys).Nodup := py.nodup_iff.2 (nodup_dedup ys)
  have hnd2 : (ps.map Prod.snd).Nodup := by
    obtain ⟨l, hl, hs⟩ := h2
    exact hl.nodup_iff.1 (hs.nodup hndy)
  refine ⟨ps, ?_, ?_, hnd2, ?_, ?_, h4⟩
  · rw [h1]; exact px.nodup_iff.2 (nodup_dedup xs)
  · intro x; rw [h1, px.mem_iff, mem_dedup]
  · intro y hy'
    have := h2.subset hy'
    rwa [py.mem_iff, mem_dedup] at this
  · intro hin y hy'
    have hl := hlen (by rw [py.mem_iff, mem_dedup]; exact hin)
    have hlps : (ps.map Prod.snd).length = (E.setOrder ys).length := by
      rw [← hl, ← h1]; simp
    have hp := h2.perm_of_length_le (by omega)
    rw [hp.mem_iff, py.mem_iff, mem_dedup]; exact hy'

example : (possibleTuple failEnv (isEquivStr failEnv 3) s%"x,y" s%"y,x" false ⟨(), []⟩).1 =
    .ok (true, true) := by decide +kernel
example : Spells asciiUni none [s%"x", s%"y"] s%"x,y" ∧ kindOf none = .set := ⟨spells_example none, rfl⟩

/-! ### C10 -/

/-- The comparison always answers, and its answer is the given relation, whatever the state. -/
def Decides (f : Str → Str → M X Bool) (R : Str → Str → Bool) : Prop :=
  ∀ a b w, ∃ w', f a b w = (.ok (R a b), w')

/-- `R` relates classes of reference elements to classes of prediction elements (as an equivalence does). -/
def Difunctional (R : Str → Str → Bool) : Prop :=
  ∀ a b a' b', R a b = true → R a' b = true → R a' b' = true → R a b' = true

/-- Every element of `as` can be assigned its own partner in `bs`. -/
def Matchable (R : Str → Str → Bool) (as bs : List Str) : Prop :=
  ∃ g : Str → Str, (∀ a ∈ as, g a ∈ bs ∧ R a (g a) = true) ∧
    ∀ a ∈ as, ∀ a' ∈ as, g a = g a' → a = a'

theorem matchOne_decides (f : Str → Str → M X Bool) (R) (hf : Decides f R) (a : Str)
    (bs : List (Str × Bool)) (w : World X) :
    ∃ r w', matchOne (f a) bs w = (.ok r, w') ∧
      (r = none → ∀ b ∈ freeElems bs, R a b = false) := by
  induction bs generalizing w with
  | nil => exact ⟨none, w, rfl, by simp [freeElems]⟩
  | cons p rest ih =>
    obtain ⟨b, flag⟩ := p
    cases flag with
    | true =>
      obtain ⟨r, w₁, h1, h2⟩ := ih w
      cases r with
      | none => exact ⟨none, w₁, by simp [matchOne, h1], by simpa [freeElems] using h2 rfl⟩
      | some r => exact ⟨some ((b, true) :: r), w₁, by simp [matchOne, h1], by simp⟩
    | false =>
      obtain ⟨w₁, hb⟩ := hf a b w
      cases hR : R a b with
      | true => rw [hR] at hb; exact ⟨some ((b, true) :: rest), w₁, by simp [matchOne, hb], by simp⟩
      | false =>
        rw [hR] at hb
        obtain ⟨r, w₂, h1, h2⟩ := ih w₁
        cases r with
        | none =>
          refine ⟨none, w₂, by simp [matchOne, hb, h1], ?_⟩
          intro _ c hc
          have : freeElems ((b, false) :: rest) = b :: freeElems rest := by simp [freeElems]
          rw [this, List.mem_cons] at hc
          rcases hc with rfl | hc
          · exact hR
          · exact h2 rfl c hc
        | some r => exact ⟨some ((b, false) :: r), w₂, by simp [matchOne, hb, h1], by simp⟩

theorem matchLoop_decides (f : Str → Str → M X Bool) (R) (hf : Decides f R) (hd : Difunctional R)
    (as : List Str) (has : as.Nodup) (bs : List (Str × Bool)) (hbs : (freeElems bs).Nodup) (w : World X) :
    ∃ flags w', matchLoop f as bs w = (.ok flags, w') ∧
      (flags.all id = true ↔ Matchable R as (freeElems bs)) := by
  induction as generalizing bs w with
  | nil =>
    exact ⟨[], w, rfl, by simp; exact ⟨id, by simp, by simp⟩⟩
  | cons a as ih =>
    obtain ⟨r, w₁, h1, h2⟩ := matchOne_decides f R hf a bs w
    obtain ⟨hna, has⟩ := List.nodup_cons.1 has
    cases r with
    | none =>
      obtain ⟨fl, w₂, h3, -⟩ := ih has bs hbs w₁
      refine ⟨false :: fl, w₂, by simp [matchLoop, h1, h3], ?_⟩
      simp only [List.all_cons, id_eq, Bool.false_and, Bool.false_eq_true, false_iff]
      rintro ⟨g, hg, -⟩
      have := hg a (by simp)
      rw [h2 rfl _ this.1] at this
      exact absurd this.2 (by simp)
    | some bs' =>
      obtain ⟨l, b, r', e1, e2, u, u', hb⟩ := matchOne_some (f a) bs bs' w w₁ h1
      have hRab : R a b = true := by
        obtain ⟨u₁, hu⟩ := hf a b u
        rw [Runs, hu] at hb
        simpa using congrArg Prod.fst hb
      have hnd : (freeElems bs').Nodup ∧ b ∉ freeElems bs' := by
        rw [e1] at hbs; rw [e2]
        have := List.nodup_middle.1 hbs
        exact ⟨(List.nodup_cons.1 this).2, (List.nodup_cons.1 this).1⟩
      have hmem : ∀ y, y ∈ freeElems bs ↔ y = b ∨ y ∈ freeElems bs' := by
        intro y; rw [e1, e2]; simp only [List.mem_append, List.mem_cons]; tauto
      obtain ⟨fl, w₂, h3, h4⟩ := ih has bs' hnd.1 w₁
      refine ⟨true :: fl, w₂, by simp [matchLoop, h1, h3], ?_⟩
      simp only [List.all_cons, id_eq, Bool.true_and]
      rw [h4]
      constructor
      · rintro ⟨g, hg, hinj⟩
        have hb' : ∀ x ∈ as, g x ≠ b := fun x hx e => hnd.2 (e ▸ (hg x hx).1)
        refine ⟨fun x => if x = a then b else g x, ?_, ?_⟩
        · intro x hx
          by_cases hxa : x = a
          · subst hxa; simp [hRab, hmem]
          · have hx' : x ∈ as := by simpa [hxa] using hx
            simp only [hxa, if_false]
            exact ⟨(hmem _).2 (Or.inr (hg x hx').1), (hg x hx').2⟩
        · intro x hx y hy
          by_cases hxa : x = a <;> by_cases hya : y = a
          · intro _; rw [hxa, hya]
          · have hy' : y ∈ as := by simpa [hya] using hy
            simp only [hxa, hya, if_true, if_false]
            intro e; exact absurd e.symm (hb' y hy')
          · have hx' : x ∈ as := by simpa [hxa] using hx
            simp only [hxa, hya, if_true, if_false]
            intro e; exact absurd e (hb' x hx')
          · have hx' : x ∈ as := by simpa [hxa] using hx
            have hy' : y ∈ as := by simpa [hya] using hy
            simp only [hxa, hya, if_false]
            exact hinj x hx' y hy'
      · rintro ⟨g, hg, hinj⟩
        have ha := hg a (by simp)
        have hga : ∀ x ∈ as, g x ≠ g a := by
          intro x hx e
          have := hinj x (by simp [hx]) a (by simp) e
          exact hna (this ▸ hx)
        refine ⟨fun x => if g x = b then g a else g x, ?_, ?_⟩
        · intro x hx
          have hgx := hg x (by simp [hx])
          by_cases hxb : g x = b
          · simp only [hxb, if_true]
            constructor
            · rcases (hmem _).1 ha.1 with h | h
              · exact absurd (hxb.trans h.symm) (hga x hx)
              · exact h
            · rw [hxb] at hgx
              exact hd x b a (g a) hgx.2 hRab ha.2
          · simp only [hxb, if_false]
            exact ⟨((hmem _).1 hgx.1).resolve_left hxb, hgx.2⟩
        · intro x hx y hy
          by_cases hxb : g x = b <;> by_cases hyb : g y = b
          · intro _; exact hinj x (by simp [hx]) y (by simp [hy]) (hxb.trans hyb.symm)
          · simp only [hxb, hyb, if_true, if_false]
            intro e; exact absurd e.symm (hga y hy)
          · simp only [hxb, hyb, if_true, if_false]
            intro e; exact absurd e (hga x hx)
          · simp only [hxb, hyb, if_false]
            exact hinj x (by simp [hx]) y (by simp [hy])

theorem setsMatch_decides (f : Str → Str → M X Bool) (R) (hf : Decides f R) (hd : Difunctional R)
    (as bs : List Str) (has : as.Nodup) (hbs : bs.Nodup) (w : World X) :
    ∃ r w', setsMatch f as bs w = (.ok r, w') ∧ (r = true ↔ Matchable R as bs) := by
  have e : freeElems (bs.map fun b => (b, false)) = bs := by
    have : (bs.map fun b => (b, false)).filter (fun p : Str × Bool => !p.2) =
        bs.map fun b => (b, false) := by
      rw [List.filter_eq_self]; intro p hp
      obtain ⟨b, -, rfl⟩ := List.mem_map.1 hp; rfl
    rw [freeElems, this, List.map_map]
    exact List.map_id bs
  obtain ⟨fl, w', h1, h2⟩ := matchLoop_decides f R hf hd as has (bs.map fun b => (b, false))
    (by rw [e]; exact hbs) w
  rw [e] at h2
  exact ⟨fl.all id, w', by simp [setsMatch, h1], h2⟩

theorem setOrder_mem (E : Env X V S) (xs : List Str) (x : Str) : x ∈ E.setOrder xs ↔ x ∈ xs := by
  rw [(E.setOrder_perm xs).mem_iff, mem_dedup]
theorem setOrder_nodup (E : Env X V S) (xs : List Str) : (E.setOrder xs).Nodup :=
  (E.setOrder_perm xs).nodup_iff.2 (nodup_dedup xs)

theorem length_eq_of_same_members {l l' : List Str} (h : l.Nodup) (h' : l'.Nodup)
    (hm : ∀ x, x ∈ l ↔ x ∈ l') : l.length = l'.length :=
  ((List.perm_ext_iff_of_nodup h h').2 hm).length_eq

/-- What the unordered comparison decides. -/
theorem unordered_decides (E : Env X V S) (eq : EqFun X) (verbose : Bool) (R : Str → Str → Bool)
    (hf : Decides (fun x y => eq x y verbose) R) (hd : Difunctional R) (br br' : Option Bracket)
    (hbr : kindOf br = .set) (hbr' : kindOf br' = .set) (xs ys : List Str) (gt gv : Str)
    (hx : Spells E.U br xs gt) (hy : Spells E.U br' ys gv) (w : World X) :
    ∃ r w', possibleTuple E eq gt gv verbose w = (.ok (r, true), w') ∧
      (r = true ↔ (s%"\\in" ∉ ys → (dedup xs).length = (dedup ys).length) ∧ Matchable R xs ys) := by
  obtain ⟨w₁, -, -, h3⟩ := possibleTuple_run E eq gt gv verbose _ _
    (splitTuple_spells hx E.setOrder) (splitTuple_spells hy E.setOrder) w
  rw [h3, hbr, hbr']
  simp only [RetType.wrap]
  rw [elemsEquiv_set]
  obtain ⟨r, w₂, h4, h5⟩ := setsMatch_decides _ R hf hd (E.setOrder xs) (E.setOrder ys)
    (setOrder_nodup E xs) (setOrder_nodup E ys) w₁
  have hm : Matchable R (E.setOrder xs) (E.setOrder ys) ↔ Matchable R xs ys := by
    simp only [Matchable, setOrder_mem]
  rw [hm] at h5
  have hlx : (E.setOrder xs).length = (dedup xs).length := (E.setOrder_perm xs).length_eq
  have hly : (E.setOrder ys).length = (dedup ys).length := (E.setOrder_perm ys).length_eq
  unfold sameKind
  simp only [hlx, hly, setOrder_mem]
  by_cases hl : (dedup xs).length ≠ (dedup ys).length ∧ s%"\\in" ∉ ys
  · rw [if_pos hl]
    refine ⟨false, w₁, rfl, ?_⟩
    simp only [Bool.false_eq_true, false_iff]
    rintro ⟨h, -⟩; exact hl.1 (h hl.2)
  · rw [if_neg hl]
    refine ⟨r, w₂, by simp [h4], ?_⟩
    rw [h5]
    constructor
    · intro h
      refine ⟨fun h1 => ?_, h⟩
      apply Classical.byContradiction
      intro h2; exact hl ⟨h2, h1⟩
    · exact fun h => h.2

/-- **C10**, partial: if the comparison of elements always answers, does not depend on the state and relates
classes to classes (`Difunctional`, as every equivalence relation does), then the verdict on unordered
answers depends neither on the order (or multiplicity) in which the elements are listed nor on the iteration
order of Python sets (`E` and `E'` may differ in `setOrder`).
Missing: comparisons that are not difunctional, for which the claim is false (`C10_refuted`). -/
theorem C10_order_independent_partial (E E' : Env X V S) (hU : E'.U = E.U) (eq : EqFun X)
    (verbose : Bool) (R : Str → Str → Bool)
    (hf : Decides (fun x y => eq x y verbose) R) (hd : Difunctional R) (br br' : Option Bracket)
    (hbr : kindOf br = .set) (hbr' : kindOf br' = .set) (xs xs' ys ys' : List Str) (gt gt' gv gv' : Str)
    (hx : Spells E.U br xs gt) (hy : Spells E.U br' ys gv)
    (hx' : Spells E.U br xs' gt') (hy' : Spells E.U br' ys' gv')
    (hxx : ∀ x, x ∈ xs ↔ x ∈ xs') (hyy : ∀ y, y ∈ ys ↔ y ∈ ys') (w w' : World X) :
    ∃ r w₁ w₂, possibleTuple E eq gt gv verbose w = (.ok (r, true), w₁) ∧
      possibleTuple E' eq gt' gv' verbose w' = (.ok (r, true), w₂) := by
  obtain ⟨r, w₁, h1, h2⟩ := unordered_decides E eq verbose R hf hd br br' hbr hbr' xs ys gt gv hx hy w
  obtain ⟨r', w₂, h3, h4⟩ := unordered_decides E' eq verbose R hf hd br br' hbr hbr' xs' ys' gt' gv'
    (hU ▸ hx') (hU ▸ hy') w'
  have hm : Matchable R xs ys ↔ Matchable R xs' ys' := by simp only [Matchable, hxx, hyy]
  have hlx : (dedup xs).length = (dedup xs').length :=
    length_eq_of_same_members (nodup_dedup _) (nodup_dedup _) (by simpa only [mem_dedup] using hxx)
  have hly : (dedup ys).length = (dedup ys').length :=
    length_eq_of_same_members (nodup_dedup _) (nodup_dedup _) (by simpa only [mem_dedup] using hyy)
  rw [hm, hlx, hly, hyy, ← h4] at h2
  have : r = r' := by cases r <;> cases r' <;> simp_all
  subst this
  exact ⟨r, w₁, w₂, h1, h3⟩

/-- the hypotheses can be met by a non-trivial comparison of elements -/
example : Decides (fun x y => (fun a b _ => pure (decide (a.length = b.length)) : EqFun Unit) x y false)
      (fun a b => decide (a.length = b.length)) ∧
    Difunctional (fun a b => decide (a.length = b.length)) :=
  ⟨fun _ _ w => ⟨w, rfl⟩, by intro a b a' b' h1 h2 h3; simp_all⟩

/-- `ratEnv` with sets iterated in the opposite order. -/
def ratEnvRev : Env Unit TVal TSet :=
  { ratEnv with setOrder := fun xs => (dedup xs).reverse, setOrder_perm := fun _ => List.reverse_perm _ }

/-- **C10** is false for the code: with the numeric tolerance the verdict depends on the iteration order of
Python sets (the two environments differ in nothing else), and on the order in which the elements are
listed. -/
theorem C10_refuted :
    (isEquiv ratEnv 9 (some s%"1,1.004") (some s%"1.004,1.008") false ⟨(), []⟩).1 = .ok true ∧
    (isEquiv ratEnv 9 (some s%"1.004,1") (some s%"1.004,1.008") false ⟨(), []⟩).1 = .ok false ∧
    (isEquiv ratEnv 9 (some s%"1,1.004") (some s%"1.008,1.004") false ⟨(), []⟩).1 = .ok true ∧
    (isEquiv ratEnvRev 9 (some s%"1,1.004") (some s%"1.008,1.004") false ⟨(), []⟩).1 = .ok false := by
  refine ⟨?_, ?_, ?_, ?_⟩ <;> decide +kernel

end Verif
