import Verif.Model.LatexParser
import Verif.Spec.Basic
import Verif.Spec.Toy
import Verif.Spec.KernelRfl
import Verif.Props.Equiv
import Mathlib.Data.List.Perm.Subperm
import Mathlib.Data.List.Nodup
/-
Properties C38-C45: comparison of parsed values (`_are_equal_latex_sympy`).
-/

namespace Verif

variable {X V S : Type}

/-- Sequencing: the second computation starts where the first one ends. -/
theorem bind_iff {α β : Type} {x : M X α} {f : α → M X β} {w : World X} {b : β} {w' : World X} :
    (x >>= f) w = (.ok b, w') ↔ ∃ a w₁, Runs x w a w₁ ∧ Runs (f a) w₁ b w' := by
  rw [M.bind_run]
  unfold Runs
  cases hx : x w with
  | mk r w₁ =>
    cases r with
    | error e => simp
    | ok a =>
      constructor
      · intro h; exact ⟨a, w₁, rfl, h⟩
      · rintro ⟨a', w₁', h1, h2⟩
        simp only [Prod.mk.injEq, Except.ok.injEq] at h1
        obtain ⟨rfl, rfl⟩ := h1
        exact h2

theorem pure_iff {α : Type} {a b : α} {w w' : World X} :
    (pure a : M X α) w = (.ok b, w') ↔ a = b ∧ w = w' := by
  simp

theorem Runs.unique {α : Type} {x : M X α} {w : World X} {a b : α} {w' w'' : World X}
    (h : Runs x w a w') (h' : Runs x w b w'') : a = b ∧ w' = w'' := by
  unfold Runs at *
  rw [h] at h'
  simpa using h'

/-- Compare two parsed values with the types found for them. -/
def Accepted (E : Env X V S) (n : Nat) (g v : V) (w w' : World X) : Prop :=
  ∃ tg tv w₁ w₂, Runs (getType E g) w tg w₁ ∧ Runs (getType E v) w₁ tv w₂ ∧
    Runs (areEqual E n g v tg tv) w₂ true w'

theorem eqTyped_iff (E : Env X V S) (n : Nat) (g v : V) (w w' : World X) :
    Runs (eqTyped E (areEqual E n) g v) w true w' ↔ Accepted E n g v w w' := by
  unfold Runs eqTyped Accepted
  rw [bind_iff]
  constructor
  · rintro ⟨tg, w₁, h1, h2⟩
    unfold Runs at h2
    rw [bind_iff] at h2
    obtain ⟨tv, w₂, h2, h3⟩ := h2
    exact ⟨tg, tv, w₁, w₂, h1, h2, h3⟩
  · rintro ⟨tg, tv, w₁, w₂, h1, h2, h3⟩
    refine ⟨tg, w₁, h1, ?_⟩
    unfold Runs
    rw [bind_iff]
    exact ⟨tv, w₂, h2, h3⟩

/-! ### C38 -/

/-- The candidates that parsed. -/
def parsed (vs : List (Option V)) : List V := vs.filterMap id

/-- All pairs, reference candidates first. -/
def candPairs (gs vs : List V) : List (V × V) := gs.flatMap fun g => vs.map fun v => (g, v)

theorem candsInner_true_iff (cmp : V → V → M X Bool) (g : V) (vs : List (Option V)) (w w' : World X) :
    candsInner cmp g vs w = (.ok true, w') ↔ AcceptsSome (cmp g) (parsed vs) w w' := by
  induction vs generalizing w with
  | nil =>
    constructor
    · intro h; simp [candsInner] at h
    · intro h; cases h
  | cons v vs ih =>
    cases v with
    | none => exact ih w
    | some v =>
      have e : parsed (some v :: vs) = v :: parsed vs := rfl
      rw [e]
      simp only [candsInner]
      rw [bind_iff]
      constructor
      · rintro ⟨r, w₁, h1, h2⟩
        cases r with
        | true => simp [Runs] at h2; subst h2; exact .here h1
        | false => exact .there h1 ((ih w₁).1 (by simpa [Runs] using h2))
      · intro h
        cases h with
        | here h => exact ⟨true, w', h, by simp [Runs]⟩
        | there h1 h2 => exact ⟨false, _, h1, by simpa [Runs] using (ih _).2 h2⟩

theorem candsInner_false_iff (cmp : V → V → M X Bool) (g : V) (vs : List (Option V)) (w w' : World X) :
    candsInner cmp g vs w = (.ok false, w') ↔ RejectsAll (cmp g) (parsed vs) w w' := by
  induction vs generalizing w with
  | nil =>
    constructor
    · intro h; simp [candsInner] at h; subst h; exact .nil _
    · intro h; cases h; rfl
  | cons v vs ih =>
    cases v with
    | none => exact ih w
    | some v =>
      have e : parsed (some v :: vs) = v :: parsed vs := rfl
      rw [e]
      simp only [candsInner]
      rw [bind_iff]
      constructor
      · rintro ⟨r, w₁, h1, h2⟩
        cases r with
        | true => simp [Runs] at h2
        | false => exact .cons h1 ((ih w₁).1 (by simpa [Runs] using h2))
      · intro h
        cases h with
        | cons h1 h2 => exact ⟨false, _, h1, by simpa [Runs] using (ih _).2 h2⟩

theorem candsOuter_true_iff (cmp : V → V → M X Bool) (gs vs : List (Option V)) (w w' : World X) :
    candsOuter cmp gs vs w = (.ok true, w') ↔
      AcceptsSome (fun p : V × V => cmp p.1 p.2) (candPairs (parsed gs) (parsed vs)) w w' := by
  induction gs generalizing w with
  | nil =>
    constructor
    · intro h; simp [candsOuter] at h
    · intro h; cases h
  | cons g gs ih =>
    cases g with
    | none => exact ih w
    | some g =>
      have e : candPairs (parsed (some g :: gs)) (parsed vs) =
          (parsed vs).map (fun v => (g, v)) ++ candPairs (parsed gs) (parsed vs) := by
        simp [candPairs, parsed]
      rw [e, acceptsSome_append, acceptsSome_map]
      simp only [rejectsAll_map]
      simp only [candsOuter]
      rw [bind_iff]
      constructor
      · rintro ⟨r, w₁, h1, h2⟩
        cases r with
        | true =>
          simp [Runs] at h2; subst h2
          exact Or.inl ((candsInner_true_iff _ _ _ _ _).1 h1)
        | false =>
          exact Or.inr ⟨w₁, (candsInner_false_iff _ _ _ _ _).1 h1, (ih w₁).1 (by simpa [Runs] using h2)⟩
      · rintro (h | ⟨w₁, h1, h2⟩)
        · exact ⟨true, w', (candsInner_true_iff _ _ _ _ _).2 h, by simp [Runs]⟩
        · exact ⟨false, w₁, (candsInner_false_iff _ _ _ _ _).2 h1, by simpa [Runs] using (ih w₁).2 h2⟩

/-- **C38**.  `gs` and `vs` are the parse candidates (at most three each, `None` where a parser failed).
The verdict is always `True` or `False`; it is `True` exactly when going through the pairs of candidates in
order the comparison says "no" (without raising) until it says "yes". -/
theorem C38_candidate_pairs (E : Env X V S) (n : Nat) (gt gv : Str) (verbose : Bool)
    (gs vs : List (Option V)) (w w₁ w₂ : World X) (hg : Runs (sympyParse E gt) w gs w₁)
    (hv : Runs (sympyParse E gv) w₁ vs w₂) :
    ∃ w₃, w₃.ext = w₂.ext ∧ (verbose = false → w₃ = w₂) ∧
      (∃ b w', areEqualUnderSympy E n gt gv verbose w = (.ok b, w')) ∧
      ∀ w', (areEqualUnderSympy E n gt gv verbose w = (.ok true, w') ↔
        AcceptsSome (fun p : V × V => do
            let tg ← getType E p.1
            let tv ← getType E p.2
            areEqual E n p.1 p.2 tg tv) (candPairs (parsed gs) (parsed vs)) w₃ w') := by
  have tot : ∃ b w', areEqualUnderSympy E n gt gv verbose w = (.ok b, w') := by
    unfold areEqualUnderSympy
    rw [M.tryExcept_run]
    cases areEqualWithSimplify E n gt gv verbose w with
    | mk r w' => cases r <;> exact ⟨_, _, rfl⟩
  have key : ∃ w₃, w₃.ext = w₂.ext ∧ (verbose = false → w₃ = w₂) ∧
      areEqualWithSimplify E n gt gv verbose w = candsOuter (eqTyped E (areEqual E n)) gs vs w₃ := by
    unfold Runs at hg hv
    cases verbose with
    | false => exact ⟨w₂, rfl, fun _ => rfl, by simp [areEqualWithSimplify, hg, hv]⟩
    | true =>
      refine ⟨_, ?_, ?_, by simp only [areEqualWithSimplify, M.bind_run, hg, hv]; rfl⟩
      · rfl
      · simp
  obtain ⟨w₃, h1, h2, h3⟩ := key
  refine ⟨w₃, h1, h2, tot, ?_⟩
  intro w'
  have := candsOuter_true_iff (eqTyped E (areEqual E n)) gs vs w₃ w'
  refine Iff.trans ?_ this
  unfold areEqualUnderSympy
  rw [M.tryExcept_run, h3]
  cases candsOuter (eqTyped E (areEqual E n)) gs vs w₃ with
  | mk r w₄ => cases r <;> simp

/-- Parsing itself never raises, so the hypotheses of C38 can always be met. -/
theorem C38_parse_total (E : Env X V S) (s : Str) : Total (sympyParse E s) := by
  have cases2 : ∀ {α : Type} (m : M X α) (h : PyErr → M X α), (∀ e, Total (h e)) → Total (M.tryExcept m h) := by
    intro α m h hh w
    rw [M.tryExcept_run]
    cases m w with
    | mk r w' =>
      cases r with
      | ok a => exact ⟨a, w', rfl⟩
      | error e => exact hh e w'
  have bindT : ∀ {α β : Type} (m : M X α) (f : α → M X β), Total m → (∀ a, Total (f a)) → Total (m >>= f) := by
    intro α β m f hm hf w
    obtain ⟨a, w', h⟩ := hm w
    obtain ⟨b, w'', h'⟩ := hf a w'
    exact ⟨b, w'', bind_iff.2 ⟨a, w', h, h'⟩⟩
  have pureT : ∀ {α : Type} (a : α), Total (pure a : M X α) := fun a w => ⟨a, w, rfl⟩
  unfold sympyParse
  apply bindT
  · unfold parseCands12
    apply bindT _ _ (cases2 _ _ fun _ => pureT _)
    intro a
    cases a with
    | some v => exact pureT _
    | none => exact bindT _ _ (cases2 _ _ fun _ => pureT _) fun _ => pureT _
  · rintro ⟨a, b⟩
    apply bindT
    · exact cases2 _ _ fun _ => pureT _
    · intro c; exact pureT _

example : (areEqualUnderSympy ratEnv 3 s%"2" s%"2.001" false ⟨(), []⟩).1 = .ok true := by decide +kernel
example : (areEqualUnderSympy ratEnv 3 s%"2" s%"2.1" false ⟨(), []⟩).1 = .ok false := by decide +kernel

/-! ### C39 -/

theorem allPairs_iff {α : Type} (f : α → α → M X Bool) (as bs : List α) (h : as.length = bs.length)
    (w w' : World X) : allPairs f as bs w = (.ok true, w') ↔ AcceptsAll f as bs w w' := by
  induction as generalizing bs w with
  | nil =>
    cases bs with
    | cons _ _ => simp at h
    | nil =>
      simp only [allPairs]
      rw [pure_iff]
      constructor
      · rintro ⟨-, rfl⟩; exact .nil w
      · intro h; cases h; exact ⟨rfl, rfl⟩
  | cons a as ih =>
    cases bs with
    | nil => simp at h
    | cons b bs =>
      simp only [allPairs]
      rw [bind_iff]
      constructor
      · rintro ⟨r, w₁, h1, h2⟩
        cases r with
        | false => simp [Runs] at h2
        | true => exact .cons h1 ((ih bs (by simpa using h) w₁).1 (by simpa [Runs] using h2))
      · intro h'
        cases h' with
        | cons h1 h2 => exact ⟨true, _, h1, by simpa [Runs] using (ih bs (by simpa using h) _).2 h2⟩

theorem acceptsAll_length {α β : Type} {f : α → β → M X Bool} {as bs w w'}
    (h : AcceptsAll f as bs w w') : as.length = bs.length := by
  induction h with
  | nil => rfl
  | cons _ _ ih => simp [ih]

/-- **C39**.  Two parsed lists compare equal iff they have the same length and the elements, each with its own
type, compare equal in order. -/
theorem C39_lists (E : Env X V S) (n : Nat) (g v : V) (xs ys : List V) (hg : E.view g = .list xs)
    (hv : E.view v = .list ys) (w w' : World X) :
    Runs (areEqual E (n + 1) g v .vec .vec) w true w' ↔
      AcceptsAll (fun x y => do
        let tx ← getType E x
        let ty ← getType E y
        areEqual E n x y tx ty) xs ys w w' := by
  have e : areEqual E (n + 1) g v .vec .vec w =
      (if xs.length ≠ ys.length then (pure false : M X Bool) else allPairs (eqTyped E (areEqual E n)) xs ys) w := by
    simp [areEqual, areEqualBody, listElems, hg, hv]
  unfold Runs
  rw [e]
  by_cases hl : xs.length = ys.length
  · rw [if_neg (by simpa using hl)]
    exact allPairs_iff _ xs ys hl w w'
  · rw [if_pos hl]
    constructor
    · intro h; simp at h
    · intro h; exact absurd (acceptsAll_length h) hl

example : (areEqual ratEnv 3 (.list [.num 1, .num 2]) (.list [.num 1, .num 2]) .vec .vec ⟨(), []⟩).1 = .ok true ∧
    (areEqual ratEnv 3 (.list [.num 1, .num 2]) (.list [.num 2, .num 1]) .vec .vec ⟨(), []⟩).1 = .ok false := by
  decide +kernel

/-! ### C40 -/

theorem findMatch_true {α : Type} (f : α → M X Bool) (bs : List α) (w w' : World X)
    (h : findMatch f bs w = (.ok true, w')) : ∃ b ∈ bs, ∃ u u', Runs (f b) u true u' := by
  induction bs generalizing w with
  | nil => simp [findMatch] at h
  | cons b bs ih =>
    simp only [findMatch] at h
    rw [bind_iff] at h
    obtain ⟨r, w₁, h1, h2⟩ := h
    cases r with
    | true => exact ⟨b, by simp, w, w₁, h1⟩
    | false =>
      obtain ⟨c, hc, h⟩ := ih w₁ (by simpa [Runs] using h2)
      exact ⟨c, by simp [hc], h⟩

theorem allFound_true {α : Type} (f : α → α → M X Bool) (as bs : List α) (w w' : World X)
    (h : allFound f as bs w = (.ok true, w')) :
    ∀ a ∈ as, ∃ b ∈ bs, ∃ u u', Runs (f a b) u true u' := by
  induction as generalizing w with
  | nil => simp
  | cons a as ih =>
    simp only [allFound] at h
    rw [bind_iff] at h
    obtain ⟨r, w₁, h1, h2⟩ := h
    cases r with
    | false => simp [Runs] at h2
    | true =>
      intro a' ha'
      rcases List.mem_cons.1 ha' with rfl | ha'
      · exact findMatch_true _ _ _ _ h1
      · exact ih w₁ (by simpa [Runs] using h2) a' ha'

theorem sets_equal (E : Env X V S) (n : Nat) (g v : V) (xs ys : List V) (hg : E.view g = .set xs)
    (hv : E.view v = .set ys) (w w' : World X) (h : Runs (areEqual E (n + 1) g v .set .set) w true w') :
    xs.length = ys.length ∧ ∀ x ∈ xs, ∃ y ∈ ys, ∃ u u', Accepted E n x y u u' := by
  have e : areEqual E (n + 1) g v .set .set w =
      (if xs.length ≠ ys.length then (pure false : M X Bool) else allFound (eqTyped E (areEqual E n)) xs ys) w := by
    simp [areEqual, areEqualBody, setElems, hg, hv]
  unfold Runs at h
  rw [e] at h
  by_cases hl : xs.length = ys.length
  · rw [if_neg (by simpa using hl)] at h
    refine ⟨hl, ?_⟩
    intro x hx
    obtain ⟨y, hy, u, u', hr⟩ := allFound_true _ _ _ _ _ h x hx
    exact ⟨y, hy, u, u', (eqTyped_iff _ _ _ _ _ _).1 hr⟩
  · rw [if_pos hl] at h; simp at h

/-- **C40**, the part that holds.  If two parsed sets compare equal they have the same number of elements, and
every reference element is accepted against some prediction element; if moreover no prediction element is
accepted for two different reference elements, the elements can be paired one to one. -/
theorem C40_one_to_one_partial (E : Env X V S) (n : Nat) (g v : V) (xs ys : List V) (hg : E.view g = .set xs)
    (hv : E.view v = .set ys) (w w' : World X) (h : Runs (areEqual E (n + 1) g v .set .set) w true w') :
    (xs.length = ys.length ∧ ∀ x ∈ xs, ∃ y ∈ ys, ∃ u u', Accepted E n x y u u') ∧
    (xs.Nodup → (∀ x ∈ xs, ∀ x' ∈ xs, ∀ y u u' t t', Accepted E n x y u u' → Accepted E n x' y t t' → x = x') →
      ∃ ps : List (V × V), ps.map Prod.fst = xs ∧ (ps.map Prod.snd).Perm ys ∧
        ∀ p ∈ ps, ∃ u u', Accepted E n p.1 p.2 u u') := by
  have h0 := sets_equal E n g v xs ys hg hv w w' h
  refine ⟨h0, ?_⟩
  intro hnd huniq
  obtain ⟨hlen, hfind⟩ := h0
  have build : ∀ zs : List V, (∀ z ∈ zs, z ∈ xs) → zs.Nodup → ∃ ps : List (V × V), ps.map Prod.fst = zs ∧
      (ps.map Prod.snd).Nodup ∧ (∀ p ∈ ps, p.2 ∈ ys) ∧ ∀ p ∈ ps, ∃ u u', Accepted E n p.1 p.2 u u' := by
    intro zs hzs hn
    induction zs with
    | nil => exact ⟨[], rfl, by simp, by simp, by simp⟩
    | cons z zs ih =>
      obtain ⟨ps, h1, h2, h3, h4⟩ := ih (fun y hy => hzs y (by simp [hy])) (List.nodup_cons.1 hn).2
      obtain ⟨y, hy, u, u', ha⟩ := hfind z (hzs z (by simp))
      refine ⟨(z, y) :: ps, by simp [h1], ?_, ?_, ?_⟩
      · simp only [List.map_cons, List.nodup_cons]
        refine ⟨?_, h2⟩
        intro hmem
        obtain ⟨p, hp, hpy⟩ := List.mem_map.1 hmem
        obtain ⟨t, t', hb⟩ := h4 p hp
        have hp1 : p.1 ∈ zs := by rw [← h1]; exact List.mem_map_of_mem hp
        rw [hpy] at hb
        have : z = p.1 := huniq z (hzs z (by simp)) p.1 (hzs _ (by simp [hp1])) y u u' t t' ha hb
        rw [this] at hn
        exact (List.nodup_cons.1 hn).1 hp1
      · intro p hp
        rcases List.mem_cons.1 hp with rfl | hp
        · exact hy
        · exact h3 p hp
      · intro p hp
        rcases List.mem_cons.1 hp with rfl | hp
        · exact ⟨u, u', ha⟩
        · exact h4 p hp
  obtain ⟨ps, h1, h2, h3, h4⟩ := build xs (fun _ h => h) hnd
  refine ⟨ps, h1, ?_, h4⟩
  have hsub : (ps.map Prod.snd).Subperm ys := List.Nodup.subperm h2 (by
    intro y hy; obtain ⟨p, hp, rfl⟩ := List.mem_map.1 hy; exact h3 p hp)
  apply hsub.perm_of_length_le
  rw [List.length_map, ← hlen, ← h1, List.length_map]
  exact Nat.le_refl _

/-- **C40** fails: `{1, 1.0005}` is accepted for `{1, 5}` although nothing is accepted for `5`. -/
theorem C40_refuted : ∃ xs ys : List TVal,
    (∀ n w, (areEqual ratEnv (n + 2) (.set xs) (.set ys) .set .set w).1 = .ok true) ∧
    ∃ y ∈ ys, ∀ x ∈ xs, ∀ n w w', ¬ Accepted ratEnv n x y w w' := by
  refine ⟨[.num 1, .num (10005 / 10000)], [.num 1, .num 5], ?_, .num 5, by simp, ?_⟩
  · intro n w; kernel_rfl
  · intro x hx n w w' ha
    rw [← eqTyped_iff] at ha
    unfold Runs at ha
    simp only [List.mem_cons, List.not_mem_nil, or_false] at hx
    have e1 : ∀ n w, eqTyped ratEnv (areEqual ratEnv (n + 1)) (.num 1) (.num 5) w = (.ok false, w) := by
      intro n w; kernel_rfl
    have e2 : ∀ n w, eqTyped ratEnv (areEqual ratEnv (n + 1)) (.num (10005 / 10000)) (.num 5) w =
        (.ok false, w) := by
      intro n w; kernel_rfl
    cases n with
    | zero => rcases hx with rfl | rfl <;> simp [eqTyped, getType, ratEnv, TVal.view, areEqual] at ha
    | succ n =>
      rcases hx with rfl | rfl
      · rw [e1] at ha; simp at ha
      · rw [e2] at ha; simp at ha

/-! ### C41 -/

/-- **C41**.  With `d = l - r` and `d' = l' - r'`: the equations compare equal iff `d` and `d'` compare equal,
or they do not (without raising) and `-d` and `d'` do. -/
theorem C41_equations (E : Env X V S) (n : Nat) (g v l r l' r' : V) (hg : E.view g = .equality l r)
    (hv : E.view v = .equality l' r') (w w' : World X) :
    Runs (areEqual E (n + 1) g v .equl .equl) w true w' ↔
      ∃ d d' t t' w₁ w₂ w₃ w₄, Runs (M.ext (E.sub l r)) w d w₁ ∧ Runs (M.ext (E.sub l' r')) w₁ d' w₂ ∧
        Runs (getType E d) w₂ t w₃ ∧ Runs (getType E d') w₃ t' w₄ ∧
        (Runs (areEqual E n d d' t t') w₄ true w' ∨
          ∃ m w₅ w₆, Runs (areEqual E n d d' t t') w₄ false w₅ ∧ Runs (M.ext (E.neg d)) w₅ m w₆ ∧
            Runs (areEqual E n m d' t t') w₆ true w') := by
  have e : areEqual E (n + 1) g v .equl .equl = equationsEqual E (areEqual E n) g v := rfl
  have eg : eqDiff E g = M.ext (E.sub l r) := by simp [eqDiff, hg]
  have ev : eqDiff E v = M.ext (E.sub l' r') := by simp [eqDiff, hv]
  rw [e, Runs]
  unfold equationsEqual
  rw [eg, ev]
  simp only [bind_iff, Runs]
  constructor
  · rintro ⟨d, w₁, h1, d', w₂, h2, t, w₃, h3, t', w₄, h4, b, w₅, h5, h6⟩
    refine ⟨d, d', t, t', w₁, w₂, w₃, w₄, h1, h2, h3, h4, ?_⟩
    cases b with
    | true => left; simp at h6; rw [← h6]; exact h5
    | false =>
      right
      rw [if_neg (by simp), bind_iff] at h6
      obtain ⟨m, w₆, h6, h7⟩ := h6
      exact ⟨m, w₅, w₆, h5, h6, h7⟩
  · rintro ⟨d, d', t, t', w₁, w₂, w₃, w₄, h1, h2, h3, h4, h⟩
    refine ⟨d, w₁, h1, d', w₂, h2, t, w₃, h3, t', w₄, h4, ?_⟩
    rcases h with h | ⟨m, w₅, w₆, h5, h6, h7⟩
    · exact ⟨true, w', h, by simp⟩
    · refine ⟨false, w₅, h5, ?_⟩
      rw [if_neg (by simp), bind_iff]
      exact ⟨m, w₆, h6, h7⟩

example : (areEqual ratEnv 3 (.eq (.num 1) (.num 3)) (.eq (.num 5) (.num 3)) .equl .equl ⟨(), []⟩).1 = .ok true := by
  decide +kernel

/-! ### C42 -/

/-- The relation with the sides exchanged. -/
def RelOp.flip : RelOp → RelOp
  | .lt => .gt | .gt => .lt | .le => .ge | .ge => .le | .ne => .ne

theorem pure_bind' {α β : Type} (a : α) (f : α → M X β) : (pure a >>= f) = f a := rfl
theorem raise_bind' {α β : Type} (e : PyErr) (f : α → M X β) : (M.raise e >>= f) = M.raise e := rfl

/-- **C42**, direction.  `a < b` and `b > a` (and likewise `≤`, `≥`) are compared in exactly the same way with
every other value, on both sides. -/
theorem C42_direction (E : Env X V S) (n : Nat) (g g' u : V) (op : RelOp) (hop : op ≠ .ne) (l r : V)
    (hg : E.view g = .rel op l r) (hg' : E.view g' = .rel op.flip r l) :
    areEqual E (n + 1) g u .ineq .ineq = areEqual E (n + 1) g' u .ineq .ineq ∧
    areEqual E (n + 1) u g .ineq .ineq = areEqual E (n + 1) u g' .ineq .ineq := by
  have hc : op.nonStrict = op.flip.nonStrict ∧ op.strict = op.flip.strict := by
    cases op <;> exact ⟨rfl, rfl⟩
  have r1 : relOp E g = pure op := by simp [relOp, hg]
  have r2 : relOp E g' = pure op.flip := by simp [relOp, hg']
  have i1 : ineqToExpr E g = ineqToExpr E g' := by
    unfold ineqToExpr
    rw [hg, hg']
    cases op <;> first | exact absurd rfl hop | rfl
  have u1 : uneqToSet E g = uneqToSet E g' := by
    unfold uneqToSet
    rw [hg, hg']
    cases op <;> first | exact absurd rfl hop | rfl
  constructor
  · show ineqsEqual E _ g u = ineqsEqual E _ g' u
    unfold ineqsEqual
    rw [r1, r2, i1, u1]
    simp only [pure_bind', hc.1, hc.2]
  · show ineqsEqual E _ u g = ineqsEqual E _ u g'
    unfold ineqsEqual
    rw [r1, r2, i1]
    simp only [pure_bind', hc.1, hc.2]

/-- `<` or `>` -/
def IsStrict (op : RelOp) : Prop := op = .lt ∨ op = .gt
/-- `≤` or `≥` -/
def IsNonStrict (op : RelOp) : Prop := op = .le ∨ op = .ge

/-- **C42**, strictness.  A strict and a non-strict inequality never compare equal (the comparison raises). -/
theorem C42_strictness (E : Env X V S) (n : Nat) (g v : V) (o o' : RelOp) (l r l' r' : V)
    (hg : E.view g = .rel o l r) (hv : E.view v = .rel o' l' r') (ho : IsStrict o) (ho' : IsNonStrict o')
    (w w' : World X) :
    ¬ Runs (areEqual E (n + 1) g v .ineq .ineq) w true w' ∧
    ¬ Runs (areEqual E (n + 1) v g .ineq .ineq) w true w' := by
  have e1 : areEqual E (n + 1) g v .ineq .ineq = ineqsEqual E (areEqual E n) g v := rfl
  have e2 : areEqual E (n + 1) v g .ineq .ineq = ineqsEqual E (areEqual E n) v g := rfl
  rw [e1, e2]
  unfold ineqsEqual Runs
  rcases ho with rfl | rfl <;> rcases ho' with rfl | rfl <;>
    simp [relOp, hg, hv, RelOp.nonStrict, RelOp.strict, uneqToSet]

/-- Two inequalities of the same strictness are compared by the difference of their sides, small side first. -/
theorem C42_difference (E : Env X V S) (n : Nat) (g v : V) (o o' : RelOp) (l r l' r' : V)
    (hg : E.view g = .rel o l r) (hv : E.view v = .rel o' l' r')
    (hs : (o = .lt ∧ o' = .lt) ∨ (o = .le ∧ o' = .le)) (w w' : World X) :
    Runs (areEqual E (n + 1) g v .ineq .ineq) w true w' ↔
      ∃ d d' w₁ w₂, Runs (M.ext (E.sub l r)) w d w₁ ∧ Runs (M.ext (E.sub l' r')) w₁ d' w₂ ∧
        Accepted E n d d' w₂ w' := by
  have e1 : areEqual E (n + 1) g v .ineq .ineq = ineqsEqual E (areEqual E n) g v := rfl
  have e2 : ineqsEqual E (areEqual E n) g v = (do
      let d ← M.ext (E.sub l r)
      let d' ← M.ext (E.sub l' r')
      eqTyped E (areEqual E n) d d') := by
    unfold ineqsEqual
    rcases hs with ⟨rfl, rfl⟩ | ⟨rfl, rfl⟩ <;>
      simp [relOp, ineqToExpr, hg, hv, RelOp.nonStrict, RelOp.strict, pure_bind']
  rw [e1, e2, Runs]
  simp only [bind_iff]
  constructor
  · rintro ⟨d, w₁, h1, h2⟩
    rw [Runs, bind_iff] at h2
    obtain ⟨d', w₂, h2, h3⟩ := h2
    exact ⟨d, d', w₁, w₂, h1, h2, (eqTyped_iff _ _ _ _ _ _).1 h3⟩
  · rintro ⟨d, d', w₁, w₂, h1, h2, h3⟩
    refine ⟨d, w₁, h1, ?_⟩
    rw [Runs, bind_iff]
    exact ⟨d', w₂, h2, (eqTyped_iff _ _ _ _ _ _).2 h3⟩

example : (areEqual ratEnv 3 (.rel .lt (.num 1) (.num 3)) (.rel .gt (.num 3) (.num 1)) .ineq .ineq ⟨(), []⟩).1 =
    .ok true := by decide +kernel
example : RelOp.flip .lt = .gt ∧ IsStrict .lt ∧ IsNonStrict .ge := ⟨rfl, Or.inl rfl, Or.inr rfl⟩

/-! ### C43 -/

/-- **C43** fails for every pair of disequations, in every environment: the comparison raises, so no
disequation ever compares equal to another one, not even to itself. -/
theorem C43_refuted (E : Env X V S) (n : Nat) (g v l r l' r' : V) (hg : E.view g = .rel .ne l r)
    (hv : E.view v = .rel .ne l' r') (w : World X) :
    areEqual E (n + 1) g v .ineq .ineq w = (.error .attributeError, w) := by
  have e1 : areEqual E (n + 1) g v .ineq .ineq = ineqsEqual E (areEqual E n) g v := rfl
  rw [e1]
  simp [ineqsEqual, relOp, hg, hv, RelOp.nonStrict, RelOp.strict, uneqToSet]

/-- What holds instead: the property is true of no pair at all, and a disequation is not confused with an
inequality either. -/
theorem C43_never_equal_partial (E : Env X V S) (n : Nat) (g v l r : V) (hg : E.view g = .rel .ne l r)
    (w w' : World X) :
    ¬ Runs (areEqual E n g v .ineq .ineq) w true w' ∧ ¬ Runs (areEqual E n v g .ineq .ineq) w true w' := by
  cases n with
  | zero => simp [areEqual, Runs]
  | succ n =>
    have e1 : areEqual E (n + 1) g v .ineq .ineq = ineqsEqual E (areEqual E n) g v := rfl
    have e2 : areEqual E (n + 1) v g .ineq .ineq = ineqsEqual E (areEqual E n) v g := rfl
    rw [e1, e2]
    unfold ineqsEqual Runs
    constructor
    · cases hv : E.view v <;> simp [relOp, hg, hv, RelOp.nonStrict, RelOp.strict, uneqToSet]
    · cases hv : E.view v with
      | rel op a b => cases op <;> simp [relOp, hg, hv, RelOp.nonStrict, RelOp.strict, uneqToSet]
      | _ => simp [relOp, hv]

/-! ### C44 -/

/-- The positions of an `m × n` matrix in reading order. -/
def positions (m n : Nat) : List (Nat × Nat) :=
  (List.range m).flatMap fun i => (List.range n).map fun j => (i, j)

theorem mem_positions (m n i j : Nat) : (i, j) ∈ positions m n ↔ i < m ∧ j < n := by
  simp only [positions, List.mem_flatMap, List.mem_range, List.mem_map, Prod.mk.injEq]
  constructor
  · rintro ⟨a, ha, b, hb, rfl, rfl⟩; exact ⟨ha, hb⟩
  · rintro ⟨ha, hb⟩; exact ⟨i, ha, j, hb, rfl, rfl⟩

theorem entriesEqual_iff (f : V → V → M X Bool) (eg ev : Nat → Nat → V) (ps : List (Nat × Nat))
    (w w' : World X) : entriesEqual f eg ev ps w = (.ok true, w') ↔
      AcceptsAll f (ps.map fun p => eg p.1 p.2) (ps.map fun p => ev p.1 p.2) w w' := by
  induction ps generalizing w with
  | nil =>
    simp only [entriesEqual, List.map_nil]
    rw [pure_iff]
    constructor
    · rintro ⟨-, rfl⟩; exact .nil w
    · intro h; cases h; exact ⟨rfl, rfl⟩
  | cons p ps ih =>
    obtain ⟨i, j⟩ := p
    simp only [entriesEqual, List.map_cons]
    rw [bind_iff]
    constructor
    · rintro ⟨r, w₁, h1, h2⟩
      cases r with
      | false => simp [Runs] at h2
      | true => exact .cons h1 ((ih w₁).1 (by simpa [Runs] using h2))
    · intro h
      cases h with
      | cons h1 h2 => exact ⟨true, _, h1, by simpa [Runs] using (ih _).2 h2⟩

/-- **C44**, matrices.  Two parsed matrices compare equal iff they have the same shape and all entries, each
with its own type, compare equal. -/
theorem C44_matrices (E : Env X V S) (n : Nat) (g v : V) (r c r' c' : Nat) (eg ev : Nat → Nat → V)
    (hg : E.view g = .matrix r c eg) (hv : E.view v = .matrix r' c' ev) (w w' : World X) :
    Runs (areEqual E (n + 1) g v .mat .mat) w true w' ↔ (r = r' ∧ c = c') ∧
      AcceptsAll (fun x y => do
        let tx ← getType E x
        let ty ← getType E y
        areEqual E n x y tx ty)
        ((positions r c).map fun p => eg p.1 p.2) ((positions r c).map fun p => ev p.1 p.2) w w' := by
  have e : areEqual E (n + 1) g v .mat .mat = (if r' ≠ r ∨ c' ≠ c then (pure false : M X Bool) else
      entriesEqual (eqTyped E (areEqual E n)) eg ev (matIndices r c)) := by
    show matricesEqual E _ g v = _
    simp only [matricesEqual, hg, hv]
  rw [e, Runs]
  by_cases h : r = r' ∧ c = c'
  · obtain ⟨rfl, rfl⟩ := h
    rw [if_neg (by simp)]
    simp only [true_and, and_self]
    exact entriesEqual_iff (eqTyped E (areEqual E n)) eg ev (matIndices r c) w w'
  · have : r' ≠ r ∨ c' ≠ c := by
      by_cases h1 : r = r'
      · exact Or.inr fun h2 => h ⟨h1, h2.symm⟩
      · exact Or.inl fun h2 => h1 h2.symm
    rw [if_pos this]
    simp [h]

/-- The matrix made of a list for comparison with an `r × c` matrix: the list as a matrix if it already has
that shape; its transpose if the other one is a row (column) and the list gave a column (row) of that length. -/
inductive ListAsMatrix (E : Env X V S) (v : V) (r c : Nat) (w : World X) (m : V) (w' : World X) : Prop
  | exact (f : Nat → Nat → V) : Runs (M.ext (E.mkMatrix v)) w m w' → E.view m = .matrix r c f →
      ListAsMatrix E v r c w m w'
  | turned (m₀ : V) (r₀ c₀ : Nat) (f : Nat → Nat → V) (w₁ : World X) : Runs (M.ext (E.mkMatrix v)) w m₀ w₁ →
      E.view m₀ = .matrix r₀ c₀ f → ¬ (r₀ = r ∧ c₀ = c) → ((r = 1 ∧ r₀ = c) ∨ (c = 1 ∧ c₀ = r)) →
      Runs (M.ext (E.transpose m₀)) w₁ m w' → ListAsMatrix E v r c w m w'

theorem listToMat_iff (E : Env X V S) (v : V) (r c : Nat) (w : World X) (m : V) (w' : World X) :
    Runs (listToMat E v r c) w m w' ↔ ListAsMatrix E v r c w m w' := by
  unfold listToMat
  rw [Runs, bind_iff]
  constructor
  · rintro ⟨m₀, w₁, h1, h2⟩
    rw [Runs, bind_iff] at h2
    obtain ⟨⟨r₀, c₀⟩, w₂, h2, h3⟩ := h2
    cases hv : E.view m₀ with
    | matrix a b f =>
      simp only [Runs, dims, hv, M.pure_run, Prod.mk.injEq, Except.ok.injEq] at h2
      obtain ⟨⟨rfl, rfl⟩, rfl⟩ := h2
      simp only [Runs] at h3
      by_cases hc : a = r ∧ b = c
      · rw [if_pos hc, pure_iff] at h3
        obtain ⟨rfl, rfl⟩ := hc
        rw [← h3.1, ← h3.2]
        exact .exact f h1 hv
      · rw [if_neg hc] at h3
        by_cases hd : (r = 1 ∧ a = c) ∨ (c = 1 ∧ b = r)
        · rw [if_pos hd] at h3
          exact .turned m₀ a b f w₁ h1 hv hc hd h3
        · rw [if_neg hd] at h3; simp at h3
    | _ => simp [Runs, dims, hv] at h2
  · intro h
    cases h with
    | exact f h1 hv =>
      refine ⟨m, w', h1, ?_⟩
      rw [Runs, bind_iff]
      exact ⟨(r, c), w', by simp [Runs, dims, hv], by simp [Runs]⟩
    | turned m₀ r₀ c₀ f w₁ h1 hv hc hd h2 =>
      refine ⟨m₀, w₁, h1, ?_⟩
      rw [Runs, bind_iff]
      refine ⟨(r₀, c₀), w₁, by simp [Runs, dims, hv], ?_⟩
      simp only [Runs]
      rw [if_neg hc, if_pos hd]
      exact h2

/-- **C44**, lists.  A matrix and a list compare equal iff the list can be made into a matrix for comparison
and that compares equal with the matrix; nothing raises. -/
theorem C44_list_matrix (E : Env X V S) (n : Nat) (g v : V) (r c : Nat) (eg : Nat → Nat → V)
    (hg : E.view g = .matrix r c eg) (w : World X) :
    (∀ w', Runs (areEqual E (n + 1) g v .mat .vec) w true w' ↔
      ∃ m w₁, ListAsMatrix E v r c w m w₁ ∧ Runs (areEqual E n g m .mat .mat) w₁ true w') ∧
    (∀ w', Runs (areEqual E (n + 1) v g .vec .mat) w true w' ↔
      ∃ m w₁, ListAsMatrix E v r c w m w₁ ∧ Runs (areEqual E n m g .mat .mat) w₁ true w') ∧
    (∃ b w', Runs (areEqual E (n + 1) g v .mat .vec) w b w') ∧
    (∃ b w', Runs (areEqual E (n + 1) v g .vec .mat) w b w') := by
  have hd : dims E g = pure (r, c) := by simp [dims, hg]
  have e1 : areEqual E (n + 1) g v .mat .vec = M.tryExcept (do
      let m ← listToMat E v r c
      areEqual E n g m .mat .mat) (fun _ => pure false) := by
    show areEqualBody E _ g v .mat .vec = _
    funext w
    simp [areEqualBody, hd]
  have e2 : areEqual E (n + 1) v g .vec .mat = M.tryExcept (do
      let m ← listToMat E v r c
      areEqual E n m g .mat .mat) (fun _ => pure false) := by
    show areEqualBody E _ v g .vec .mat = _
    funext w
    simp [areEqualBody, hd]
  have tr : ∀ (m : M X Bool) (w' : World X), Runs (M.tryExcept m fun _ => pure false) w true w' ↔ Runs m w true w' := by
    intro m w'
    simp only [Runs, M.tryExcept_run]
    cases m w with
    | mk r w₁ => cases r <;> simp
  have tot : ∀ (m : M X Bool), ∃ b w', Runs (M.tryExcept m fun _ => pure false) w b w' := by
    intro m
    simp only [Runs, M.tryExcept_run]
    cases m w with
    | mk r w₁ => cases r <;> exact ⟨_, _, rfl⟩
  refine ⟨?_, ?_, ?_, ?_⟩
  · intro w'
    rw [e1, tr, Runs, bind_iff]
    simp only [listToMat_iff]
  · intro w'
    rw [e2, tr, Runs, bind_iff]
    simp only [listToMat_iff]
  · rw [e1]; exact tot _
  · rw [e2]; exact tot _

example : (areEqual ratEnv 4 (.mat 1 2 [.num 1, .num 2]) (.list [.num 1, .num 2]) .mat .vec ⟨(), []⟩).1 = .ok true := by
  decide +kernel
example : ratEnv.view (.mat 1 2 [.num 1, .num 2]) = .matrix 1 2 fun i j =>
    ([TVal.num 1, .num 2][i * 2 + j]?).getD (.num 0) := rfl

/-! ### C45 -/

/-- **C45**.  Two complex values compare equal iff their real parts compare equal and then their imaginary
parts compare equal. -/
theorem C45_complex (E : Env X V S) (n : Nat) (g v : V) (w w' : World X) :
    Runs (areEqual E (n + 1) g v .cplx .cplx) w true w' ↔
      ∃ gr gi vr vi w₁ w₂ w₃ w₄, Runs (M.ext (E.re g)) w gr w₁ ∧ Runs (M.ext (E.im g)) w₁ gi w₂ ∧
        Runs (M.ext (E.re v)) w₂ vr w₃ ∧ Runs (M.ext (E.im v)) w₃ vi w₄ ∧
        ∃ tgr tgi tvr tvi u₁ u₂ u₃ u₄, Runs (getType E gr) w₄ tgr u₁ ∧ Runs (getType E gi) u₁ tgi u₂ ∧
          Runs (getType E vr) u₂ tvr u₃ ∧ Runs (getType E vi) u₃ tvi u₄ ∧
          ∃ u₅, Runs (areEqual E n gr vr tgr tvr) u₄ true u₅ ∧ Runs (areEqual E n gi vi tgi tvi) u₅ true w' := by
  have e : areEqual E (n + 1) g v .cplx .cplx = complexEqual E (areEqual E n) g v := rfl
  rw [e, Runs]
  unfold complexEqual
  simp only [bind_iff, Runs]
  constructor
  · rintro ⟨gr, w₁, h1, gi, w₂, h2, vr, w₃, h3, vi, w₄, h4, tgr, u₁, h5, tgi, u₂, h6, tvr, u₃, h7, tvi, u₄, h8,
      b, u₅, h9, h10⟩
    refine ⟨gr, gi, vr, vi, w₁, w₂, w₃, w₄, h1, h2, h3, h4, tgr, tgi, tvr, tvi, u₁, u₂, u₃, u₄, h5, h6, h7, h8, u₅, ?_⟩
    cases b with
    | true => exact ⟨h9, by simpa using h10⟩
    | false => simp at h10
  · rintro ⟨gr, gi, vr, vi, w₁, w₂, w₃, w₄, h1, h2, h3, h4, tgr, tgi, tvr, tvi, u₁, u₂, u₃, u₄, h5, h6, h7, h8, u₅,
      h9, h10⟩
    exact ⟨gr, w₁, h1, gi, w₂, h2, vr, w₃, h3, vi, w₄, h4, tgr, u₁, h5, tgi, u₂, h6, tvr, u₃, h7, tvi, u₄, h8,
      true, u₅, h9, by simpa using h10⟩

example : (areEqual ratEnv 3 (.cplx 1 2) (.cplx 1 2) .cplx .cplx ⟨(), []⟩).1 = .ok true ∧
    (areEqual ratEnv 3 (.cplx 1 2) (.cplx 1 3) .cplx .cplx ⟨(), []⟩).1 = .ok false := by decide +kernel

end Verif
