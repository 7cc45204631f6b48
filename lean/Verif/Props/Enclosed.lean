import Verif.Props.Applied
/-
Answers with commas inside brackets, such as `f(x,y)=...`: they are not split into lists, and not taken for intervals (C121).
-/

namespace Verif
open Verif.L2S Verif.Reading Verif.Grammar

variable {X V S : Type}

/-- A text that is one expression, as `Single`, but with commas inside brackets: none of them stands between thousands.  No unions and
intersections. -/
structure Together (U : Uni) (s : Str) : Prop where
  nonempty : s ≠ []
  commas : ∀ p q, s = p ++ ',' :: q → 0 < (p.map bracketDelta).sum
  thousands : ¬ ThousandsComma U s
  notMatrix : ¬ s%"matrix" <:+: s
  balanced : (s.map bracketDelta).sum = 0
  head : ∀ x, s.head? = some x → x ≠ '[' ∧ x ≠ '(' ∧ x ≠ '{'
  sets : ¬ s%"\\cup" <:+: s ∧ ¬ s%"\\cap" <:+: s

theorem splitLoop_enclosed (s stack : Str) (cnt : Int) (h : ∀ p q, s = p ++ ',' :: q → 0 < cnt + (p.map bracketDelta).sum) :
    (splitLoop cnt stack s).length ≤ 1 := by
  induction s generalizing cnt stack with
  | nil => simp only [splitLoop]; split <;> simp
  | cons x xs ih =>
    have e : (x == ',' && cnt == 0) = false := by
      rw [Bool.and_eq_false_iff]
      by_cases hx : x = ','
      · right
        have := h [] xs (by simp [hx])
        simp only [List.map_nil, List.sum_nil, add_zero] at this
        rw [beq_eq_false_iff_ne]
        omega
      · left; simpa using hx
    simp only [splitLoop, e, Bool.false_eq_true, if_false]
    refine ih _ _ fun p q hpq => ?_
    have := h (x :: p) q (by simp [hpq])
    simp only [List.map_cons, List.sum_cons] at this
    omega

theorem Together.unsplit {U : Uni} {s : Str} (h : Together U s) (ord : List Str → List Str) : splitTuple U ord s none = .ok (.str s) := by
  have hpeel : ∀ rp, peelBrackets rp s = (s, .set) := by
    intro rp
    unfold peelBrackets
    split
    · cases s with
      | nil => simp
      | cons c cs =>
        obtain ⟨c1, c2, c3⟩ := h.head c rfl
        simp [c1, c2, c3]
    · rfl
  unfold splitTuple
  simp only [stripCommas_id _ _ h.thousands]
  have h1 := scanBrackets_sum s 0 true
  have h2 := splitLoop_enclosed s [] 0 fun p q e => by have := h.commas p q e; omega
  rw [h.balanced, add_zero] at h1
  generalize scanBrackets 0 true s = r at h1
  obtain ⟨r1, r2⟩ := r
  simp only at h1
  subst h1
  simp only [ne_eq, not_true_eq_false, if_false, hpeel]
  rw [if_neg (by omega)]

/-! ### No intervals -/

theorem first_comma {s : Str} (h : ',' ∈ s) : ∃ a b, s = a ++ ',' :: b ∧ ',' ∉ a := by
  induction s with
  | nil => cases h
  | cons c cs ih =>
    by_cases hc : c = ','
    · exact ⟨[], cs, by simp [hc], by simp⟩
    · have : ',' ∈ cs := by
        rcases List.mem_cons.1 h with e | e
        · exact absurd e.symm hc
        · exact e
      obtain ⟨a, b, rfl, hb⟩ := ih this
      exact ⟨c :: a, b, by simp, by simp [hb, Ne.symm hc]⟩

theorem split_ne_nil (s : Str) : split s%"," s ≠ [] := by
  by_cases h : ',' ∈ s
  · obtain ⟨a, b, rfl, ha⟩ := first_comma h
    rw [split_comma _ _ ha]
    simp
  · rw [show (s%"," : Str) = [','] from rfl, split_one_none ',' _ h]
    simp

theorem split_pair {s l r : Str} (h : split s%"," s = [l, r]) : s = l ++ ',' :: r ∧ ',' ∉ l ∧ ',' ∉ r := by
  by_cases hs : ',' ∈ s
  · obtain ⟨a, b, rfl, ha⟩ := first_comma hs
    rw [split_comma _ _ ha, List.cons.injEq] at h
    obtain ⟨rfl, h⟩ := h
    by_cases hb : ',' ∈ b
    · obtain ⟨c, d, rfl, hc⟩ := first_comma hb
      rw [split_comma _ _ hc, List.cons.injEq] at h
      exact absurd h.2 (split_ne_nil d)
    · rw [show (s%"," : Str) = [','] from rfl, split_one_none ',' _ hb] at h
      cases h
      exact ⟨rfl, ha, hb⟩
  · rw [show (s%"," : Str) = [','] from rfl, split_one_none ',' _ hs] at h
    cases h

theorem replace_away (x : Char) (s : Str) : replace [x] [] s = s.filter (· ≠ x) := by
  induction s with
  | nil => simp [replace_nil]
  | cons c cs ih =>
    by_cases h : c = x
    · subst h
      have := replace_match [c] [] cs (by simp)
      simp only [List.singleton_append, List.nil_append] at this
      rw [this, ih]
      simp
    · rw [replace_cons [] c cs fun hp => h (by simpa using (List.cons_prefix_cons.1 hp).1.symm), ih]
      simp [h]

/-- SymPy's relations are not numbers, and `Interval` does not take them for end points. -/
structure RefusesRelations (E : Env X V S) (inj : SV → V) : Prop where
  isNumber : ∀ op l r, Ret (E.isNumber (inj (.rel op l r))) false
  interval : ∀ v op l r a b, AlwaysRaises (E.interval v (inj (.rel op l r)) a b)

/-- What makes a text no interval: it has not exactly one comma, or what follows the comma, once the closing brackets are taken away, is
an equation, as `y=2x`, or raises, as `y=(x+1` does (`uneven_raises`). -/
def NotRange {K Y : Type} [Field K] (I : Interp K) (L : Lib Y) (N : Nat) (s : Str) : Prop :=
  ∀ a b, s = a ++ ',' :: b → ',' ∉ a → ',' ∉ b →
    (∃ ws, ∃ free : Str → Prop, ∃ wide : Bool, ∃ f g : (Str → K) → K,
      Written ws (b.filter fun c => c ≠ ')' ∧ c ≠ ']') ∧ ∀ ρ, Item (I.vars ρ) free wide ws (.relation s%"=" (f ρ) (g ρ))) ∨
    ∀ w, ∃ e w', latex2sympy L (N + 1) (b.filter fun c => c ≠ ')' ∧ c ≠ ']') [] w = (.error e, w')

/-- A text without as many closing as opening brackets raises, if texts that are no phrases do. -/
theorem uneven_raises {Y : Type} {L : Lib Y} (he : ∀ s, parseText s = none → ∃ e, L.parse s = .error e) {s : Str}
    (hp : prepare s = s) (hs : levels s ≠ 0) (n : Nat) (vals : List (Str × PV)) (w : World (St Y)) :
    ∃ e w', latex2sympy L (n + 1) s vals w = (.error e, w') := by
  cases ht : parseText s with
  | some t => exact absurd (C89_accepted ht).1 hs
  | none =>
    obtain ⟨e, h⟩ := he _ ht
    rw [latex2sympy, hp]
    simp only [M.bind_run, modG, M.ext, M.lift_run, h]
    exact ⟨_, _, rfl⟩

section
variable {K Y : Type} [Field K] [CharZero K] {E : Env X V S} {L : Lib Y} {I : Interp K} {inj : SV → V} {N : Nat}

theorem strToInterval_refused (hL : SoundLib I L) (hp : ∀ s t, parseText s = some t → L.parse s = .ok t)
    (hl : UsesUndeclared E L N inj I.real) (hR : RefusesRelations E inj) {s : Str} (hn : Neat s)
    (hs : ¬ s%"\\cup" <:+: s ∧ ¬ s%"\\cap" <:+: s) (h : NotRange I L N s) : Always (strToInterval E s) none := by
  have ascii : ∀ x : Char, 127 ≤ x.toNat → x ∉ s := fun x hx hm => by have := (hn.chars x hm).2.1; omega
  have h1 : cupSplit s = [s] := by
    unfold cupSplit
    rw [(contains_eq_false _ _).2 (not_infix_of_not_mem '⋃' (by simp) (ascii _ (by decide)))]
    simp only [Bool.false_eq_true, if_false]
    exact split_none (by simp) hs.1 '\\' s%"cup" rfl (by decide)
  have h2 : capSplit s = [s] := by
    unfold capSplit
    rw [(contains_eq_false _ _).2 (not_infix_of_not_mem '∩' (by simp) (ascii _ (by decide)))]
    simp only [Bool.false_eq_true, if_false]
    exact split_none (by simp) hs.2 '\\' s%"cap" rfl (by decide)
  have main : Fails (oneInterval E s) := by
    unfold oneInterval
    simp only [strip_of_no_space _ fun _ hc => hn.space hc]
    split
    · next l r e =>
      obtain ⟨e, hl', hr'⟩ := split_pair e
      have er : replace s%"]" [] (replace s%")" [] r) = r.filter fun c => c ≠ ')' ∧ c ≠ ']' := by
        rw [show (s%"]" : Str) = [']'] from rfl, show (s%")" : Str) = [')'] from rfl, replace_away, replace_away, List.filter_filter]
        congr 1
        funext c
        simp [Bool.and_comm]
      rw [er]
      rcases h l r e hl' hr' with ⟨ws, free, wide, f, g, hw, hd⟩ | hraise
      rotate_left
      · refine Fails.last fun lv => Fails.bind (AlwaysRaises.fails ?_)
        intro x
        obtain ⟨w, -, he⟩ := hl (r.filter fun c => c ≠ ')' ∧ c ≠ ']') x
        obtain ⟨e', w', e''⟩ := hraise w
        rw [e''] at he
        exact ⟨e', (E.l2s _ x).2, Prod.ext he rfl⟩
      have key : RetP (E.l2s (r.filter fun c => c ≠ ')' ∧ c ≠ ']')) fun v => ∃ l r, v = inj (.rel s%"=" l r) := by
        intro x
        obtain ⟨w, ⟨k1, k2, _⟩, he⟩ := hl (r.filter fun c => c ≠ ')' ∧ c ≠ ']') x
        obtain ⟨v, w', e, hv⟩ := C87_relation (hL.vars fun _ => 0) hp N [] w ⟨k1, fun n _ => by rw [k2]; rfl⟩ (hd fun _ => 0) hw
        rw [e] at he
        cases hv with
        | relation _ _ _ _ => exact ⟨_, (E.l2s _ x).2, Prod.ext he rfl, _, _, rfl⟩
      refine Fails.last fun lv => ?_
      refine Fails.after (key.always) fun rv hrv => ?_
      obtain ⟨l', r', rfl⟩ := hrv
      refine Fails.last fun lv => ?_
      have hnum := (hR.isNumber s%"=" l' r').always
      refine Fails.after (P := fun v => v = inj (.rel s%"=" l' r')) ?_ ?_
      · unfold oneInterval.numEnd
        refine AlwaysP.bind (P := fun b => b = false) (fun w => ?_) ?_
        · obtain ⟨w', e⟩ := hnum w
          exact ⟨_, w', e, rfl⟩
        · rintro _ rfl
          exact fun w => ⟨_, w, rfl, rfl⟩
      · rintro _ rfl
        refine Fails.last fun bad => ?_
        split
        · exact fun w => ⟨_, w, rfl⟩
        · exact (hR.interval _ _ _ _ _ _).fails
    · exact fun w => ⟨_, w, rfl⟩
  unfold strToInterval
  refine Fails.tryExcept ?_ fun _ => Always.pure _
  rw [h1]
  refine Fails.bind ?_
  unfold unionLoop
  rw [h2]
  refine Fails.bind ?_
  unfold interLoop
  exact Fails.bind main

end

/-! ### The verdict of the CAS -/

/-- The comparison does not look into the text: it is not split, not an interval and not a matrix. -/
structure Undivided (E : Env X V S) (s : Str) : Prop where
  nonempty : s ≠ []
  unsplit : splitTuple E.U E.setOrder s none = .ok (.str s)
  notMat : strIsMat s = false
  noRange : Always (strToInterval E s) none

theorem Single.undivided {s : Str} (h : Single s) (E : Env X V S) : Undivided E s :=
  ⟨h.nonempty, h.unsplit _ _, by rw [strIsMat, Bool.eq_false_iff, ne_eq, contains_iff]; exact h.notMatrix, strToInterval_none E h.comma⟩

theorem isEquiv_undivided (E : Env X V S) (n : Nat) (a b x y : Str) (verbose : Bool) (r : Bool)
    (ha : Always (stringNormalize E n a) (.str x)) (hb : Always (stringNormalize E n b) (.str y))
    (hx : Undivided E x) (hy : Undivided E y) (hab : strip a ≠ strip b) (hxy : x ≠ y)
    (hr : Always (areEqualUnderSympy E n x y verbose) r) :
    Always (isEquiv E (n + 1) (some a) (some b) verbose) r := by
  show Always (isEquivStr E (n + 1) a b verbose) r
  unfold isEquivStr
  rw [if_neg hab]
  have hy' : y.isEmpty = false := by simpa using hy.nonempty
  have main : Always (compareNorms E (isEquivStr E n) n verbose (.str x) (.str y)) r := by
    unfold compareNorms
    simp only [hxy, decide_false, Bool.false_eq_true, if_false]
    apply Always.tryExcept
    unfold isLatexEquiv
    simp only [hy', Bool.false_eq_true, if_false]
    apply Always.bind (a := (false, false))
    · split
      · unfold possibleIntervals
        apply hx.noRange.bind
        apply hy.noRange.bind
        exact Always.pure _
      · exact Always.pure _
    simp only [Bool.not_false, if_true]
    apply Always.bind (a := (false, false))
    · intro w
      cases verbose <;> simp [possibleTuple, hx.unsplit, hy.unsplit, elemsEquiv]
    · simp only [hx.notMat, hy.notMat, Bool.not_false, Bool.or_self, Bool.and_false, Bool.false_eq_true, if_false]
      apply Always.bind (Always.pure _)
      simpa using hr
  apply ha.bind
  apply hb.bind
  exact print_always _ _ main

theorem isEquiv_by_undivided {E : Env X V S} {a b x y : Str} (n : Nat) {verbose r : Bool} (sa : strip a = a) (sb : strip b = b)
    (ha : Always (stringNormalize E n a) (.str x)) (hb : Always (stringNormalize E n b) (.str y))
    (hx : Undivided E x) (hy : Undivided E y) (cas : Always (areEqualUnderSympy E n x y verbose) r)
    (self : Always (areEqualUnderSympy E n x x verbose) true) :
    Always (isEquiv E (n + 1) (some a) (some b) verbose) r := by
  by_cases hi : Nonempty (World X)
  swap
  · exact fun w => (hi ⟨w⟩).elim
  obtain ⟨w⟩ := hi
  by_cases hxy : x = y
  · subst hxy
    rw [cas.unique w self]
    show Always (isEquivStr E (n + 1) a b verbose) true
    unfold isEquivStr
    split
    · exact Always.pure _
    · apply ha.bind
      apply hb.bind
      apply print_always
      unfold compareNorms
      simpa using Always.pure true
  · by_cases hab : a = b
    · subst hab
      have := ha.unique w hb
      simp only [Norm.str.injEq] at this
      exact absurd this hxy
    · exact isEquiv_undivided E n a b x y verbose _ ha hb hx hy (by rw [sa, sb]; exact hab) hxy cas

end Verif

namespace Verif.L2S
open Verif Verif.Reading Verif.Grammar

section
variable {K : Type} [Field K] [LinearOrder K] [IsStrictOrderedRing K] {X V Y S : Type}

/-- As `Presents`, for texts that may have commas inside brackets. -/
def Shows (E : Env X V S) (n : Nat) (P : V → Prop) (a : Str) : Prop :=
  strip a = a ∧ ∃ s, Always (stringNormalize E n a) (.str s) ∧ Undivided E s ∧ ReadsAs E s (Stated E P)

/-- An answer `f(a,b)=...` or `f^{-1}(a,b)=...` with any number of arguments, whose right side has the value `g` for all values of the
variables.  `P` says what its right side is to SymPy. -/
structure ValuesAnswer (E : Env X V S) (L : Lib Y) (N : Nat) (I : Interp K) (inj : SV → V) (P : V → Prop) (s : Str) (g : (Str → K) → K) : Prop where
  neat : Neat s
  together : Together E.U s
  notRange : NotRange I L N s
  notInt : ∀ q, pyFloat E.U s = some q → isIntFloat q = false
  written : ValueText I s g
  right : ∀ r : SV, r.scalar = true → (∀ ρ, den (I.vars ρ) r = g ρ) → P (inj r)

variable {E : Env X V S} {L : Lib Y} {I : Interp K} {Is Ev : V → K → Prop} {Fun : V → List Str → ((Str → K) → K) → Prop}
  {inj : SV → V} {N : Nat}

omit [LinearOrder K] [IsStrictOrderedRing K] in
theorem Presents.shows {n : Nat} {P : V → Prop} {a : Str} (h : Presents E n P a) : Shows E n P a := by
  obtain ⟨h1, s, h2, h3, h4⟩ := h
  exact ⟨h1, s, h2, h3.undivided E, h4⟩

theorem isEquiv_shows {s t : Str} {P Q : V → Prop} (hP : ∀ v, P v → E.view v = .expr false) (hQ : ∀ v, Q v → E.view v = .expr false)
    (n : Nat) (hs : Shows E (n + 2) P s) (ht : Shows E (n + 2) Q t) {r : Bool}
    (h : ∀ n g v, P g → Q v → Always (areEqual E (n + 1) g v .expr .expr) r)
    (hself : ∀ n g v, P g → P v → Always (areEqual E (n + 1) g v .expr .expr) true) (verbose : Bool) :
    Always (isEquiv E (n + 3) (some s) (some t) verbose) r := by
  obtain ⟨s1, s', s2, s3, s4⟩ := hs
  obtain ⟨t1, t', t2, t3, t4⟩ := ht
  exact isEquiv_by_undivided (n + 2) s1 t1 s2 t2 s3 t3
    (areEqualUnderSympy_by s4 t4 (fun _ _ hg hv => eqTyped_definitions hP hQ h n hg hv) verbose)
    (areEqualUnderSympy_by s4 s4 (fun _ _ hg hv => eqTyped_definitions hP hP hself n hg hv) verbose)

variable (E L N I inj Is Fun) in
/-- An answer that gives a formula `g` in the variables `a`: as in C120, or as the value of a function at several arguments. -/
inductive FormulaShown (s : Str) (a : List Str) (g : (Str → K) → K) : Prop
  | given : FormulaGiven E L I Fun inj N s a g → FormulaShown s a g
  | values : ValuesAnswer E L (N + 1) I inj (Fun · a g) s g → a ≠ [] → (∃ k ∈ a, E.symName k ≠ s%"i") → FormulaShown s a g

variable (E L N I inj Is Fun) in
/-- An answer that gives a number `p`: as in C120, or as the value of a function at several arguments. -/
inductive NumberShown (s : Str) (p : K) : Prop
  | given : NumberGiven E L I Is inj N s p → NumberShown s p
  | values : ValuesAnswer E L (N + 1) I inj (Is · p) s (fun _ => p) → NumberShown s p

section
variable (hL : SoundLib I L) (hp : ∀ s t, parseText s = some t → L.parse s = .ok t) (hl : UsesUndeclared E L (N + 1) inj I.real)
  (hr : SeesRelations E inj) (hR : RefusesRelations E inj) (hA : AppliesAll E L I inj)
include hL hp hl hr hR hA

theorem ValuesAnswer.shows {s : Str} {g : (Str → K) → K} {P : V → Prop} (h : ValuesAnswer E L (N + 1) I inj P s g) (n : Nat) :
    Shows E (n + 1) P s := by
  refine ⟨strip_of_no_space _ fun _ hc => h.neat.space hc, s, h.neat.fixed E n h.notInt ?_, ⟨h.together.nonempty, h.together.unsplit _, ?_,
    strToInterval_refused hL hp hl hR h.neat h.together.sets h.notRange⟩, value_defines hL hp hl hr hA h.written h.right⟩
  · unfold strIsInt
    rw [stripCommas_id _ _ h.together.thousands]
    cases hq : pyFloat E.U s with
    | none => rfl
    | some q => exact h.notInt q hq
  · rw [strIsMat, Bool.eq_false_iff, ne_eq, contains_iff]
    exact h.together.notMatrix

theorem FormulaShown.shows (H : FunArith E Is Ev Fun) {s : Str} {a : List Str} {g : (Str → K) → K}
    (h : FormulaShown E L I Fun inj N s a g) (n : Nat) :
    Shows E (n + 1) (Fun · a g) s ∧ a ≠ [] ∧ ∃ k ∈ a, E.symName k ≠ s%"i" := by
  cases h with
  | given h =>
    obtain ⟨h1, h2⟩ := h.presents hL hp hl hr hA H n
    exact ⟨h1.shows, h2⟩
  | values h ha hi => exact ⟨h.shows hL hp hl hr hR hA n, ha, hi⟩

theorem NumberShown.shows (H : RealArith E Is Ev) (hE : PrintsIntegers E)
    (hlit : ∀ l : Literal, Valued E I inj Is l.text (l.value : K)) {s : Str} {p : K} (h : NumberShown E L I Is inj N s p) (n : Nat) :
    Shows E (n + 1) (Is · p) s := by
  cases h with
  | given h => exact (h.presents hL hp hl hr hA H hE hlit n).shows
  | values h => exact h.shows hL hp hl hr hR hA n

/-- **C121**, formulas.  An equation `f(x,y)=...` is judged as its right side, for any number of arguments.  Missing: verdicts near the
tolerance as in C94. -/
theorem C121_formulas_partial (H : FunArith E Is Ev Fun) {s t : Str} {a b : List Str} {g g' : (Str → K) → K}
    (hs : FormulaShown E L I Fun inj N s a g) (ht : FormulaShown E L I Fun inj N t b g') (n : Nat) (verbose : Bool) :
    ((∀ k, k ∈ a ↔ k ∈ b) → (∀ ρ, Sampled ρ → WithinTolerance (g ρ) (g' ρ)) →
      Always (isEquiv E (n + 3) (some s) (some t) verbose) true) ∧
    ((¬ NearlyConstant fun ρ => g ρ - g' ρ) → ((¬ ∀ k, k ∈ a ↔ k ∈ b) ∨ ∀ ρ, Sampled ρ → ¬ WithinTolerance (g ρ) (g' ρ)) →
      Always (isEquiv E (n + 3) (some s) (some t) verbose) false) := by
  obtain ⟨rs, ha, hia⟩ := hs.shows hL hp hl hr hR hA H (n + 1)
  obtain ⟨rt, hb, hib⟩ := ht.shows hL hp hl hr hR hA H (n + 1)
  have key : ∀ {r : Bool}, Decided a b g g' r → Always (isEquiv E (n + 3) (some s) (some t) verbose) r := fun hv =>
    isEquiv_shows (fun _ h => H.view h) (fun _ h => H.view h) n rs rt
      (fun n _ _ hg hv' => areEqual_fun H n hg hv' ha hb hia hib hv)
      (fun n _ _ hg hv' => areEqual_fun H n hg hv' ha ha hia hia (decided_refl _ _)) verbose
  exact ⟨fun h1 h2 => key (r := true) ⟨h1, h2⟩, fun h1 h2 => key (r := false) ⟨h1, h2⟩⟩

open Classical in
/-- **C121**, numbers.  `f(1,2)=5` and `5`: exactly by the tolerance, whatever the function and its arguments. -/
theorem C121_numbers (H : RealArith E Is Ev) (hE : PrintsIntegers E) (hlit : ∀ l : Literal, Valued E I inj Is l.text (l.value : K))
    {s t : Str} {p q : K} (hs : NumberShown E L I Is inj N s p) (ht : NumberShown E L I Is inj N t q) (n : Nat) (verbose : Bool) :
    Always (isEquiv E (n + 3) (some s) (some t) verbose) (decide (WithinTolerance p q)) :=
  isEquiv_shows (fun _ h => H.view h) (fun _ h => H.view h) n (hs.shows hL hp hl hr hR hA H hE hlit (n + 1))
    (ht.shows hL hp hl hr hR hA H hE hlit (n + 1)) (fun n _ _ hg hv => areEqual_real H n hg hv)
    (fun n _ _ hg hv => by
      have := areEqual_real H n hg hv
      rwa [withinTolerance_refl p] at this) verbose

/-- **C121**, a number and a formula.  They are judged not equivalent, however they are stated. -/
theorem C121_unlike (H : FunArith E Is Ev Fun) (Mx : MixedArith E Is Ev Fun) (hE : PrintsIntegers E)
    (hlit : ∀ l : Literal, Valued E I inj Is l.text (l.value : K)) {s t : Str} {p : K} {a : List Str} {g : (Str → K) → K}
    (hs : NumberShown E L I Is inj N s p) (ht : FormulaShown E L I Fun inj N t a g) (hc : Varies g) (n : Nat) (verbose : Bool) :
    Always (isEquiv E (n + 3) (some s) (some t) verbose) false ∧ Always (isEquiv E (n + 3) (some t) (some s) verbose) false := by
  obtain ⟨rt, hb, hib⟩ := ht.shows hL hp hl hr hR hA H (n + 1)
  have rs := hs.shows hL hp hl hr hR hA H.numbers hE hlit (n + 1)
  exact ⟨isEquiv_shows (fun _ h => H.numbers.view h) (fun _ h => H.view h) n rs rt
      (fun n _ _ hg hv => (areEqual_mixed H Mx n hg hv hib hc).1)
      (fun n _ _ hg hv => by
        have := areEqual_real H.numbers n hg hv
        rwa [withinTolerance_refl p] at this) verbose,
    isEquiv_shows (fun _ h => H.view h) (fun _ h => H.numbers.view h) n rt rs
      (fun n _ _ hg hv => (areEqual_mixed H Mx n hv hg hib hc).2)
      (fun n _ _ hg hv => areEqual_fun H n hg hv hb hb hib hib (decided_refl _ _)) verbose⟩

end

end

/-! ### The hypotheses are met -/

/-- `callEnv` with SymPy's `Interval`, which does not take relations for end points. -/
noncomputable def rangeEnv : Env Unit FV Unit :=
  { callEnv with
    interval := fun _ r _ _ => match r with
      | .eq _ _ => raises
      | .rel _ _ _ => raises
      | _ => gives () }

theorem rangeEnv_refuses : RefusesRelations rangeEnv asFun where
  isNumber op l r x := by
    refine ⟨x, ?_⟩
    have : ¬ ∃ q, IsConst (asFun (.rel op l r)) q := by
      rintro ⟨q, hq⟩
      simp only [asFun] at hq
      cases h : relOps.lookup op <;> simp [h, IsConst] at hq
    show (Except.ok _, x) = _
    simp [this]
  interval v op l r a b x := by
    simp only [rangeEnv, asFun]
    cases relOps.lookup op <;> exact ⟨_, _, rfl⟩

theorem rangeEnv_uses : UsesUndeclared rangeEnv grammarLib 1 asFun none := fun s x => callEnv_uses s x

theorem rangeEnv_relations : SeesRelations rangeEnv asFun :=
  ⟨funEnv_relations.equation, funEnv_relations.relation, funEnv_relations.truth⟩

theorem rangeEnv_numbers : RealArith rangeEnv IsConst IsConst :=
  ⟨funEnv_numbers.view, funEnv_numbers.freeSyms, funEnv_numbers.isNumber, funEnv_numbers.evalf, funEnv_numbers.ev, funEnv_numbers.expandEq,
    funEnv_numbers.sub, funEnv_numbers.isZero, funEnv_numbers.isInteger, funEnv_numbers.abs, funEnv_numbers.ltThr, funEnv_numbers.ge1,
    funEnv_numbers.gt0, funEnv_numbers.div⟩

theorem rangeEnv_arith : FunArith rangeEnv IsConst IsConst IsFun :=
  ⟨rangeEnv_numbers, funEnv_arith.subEv, funEnv_arith.isZeroIs, funEnv_arith.view, funEnv_arith.freeSyms, funEnv_arith.isNumber,
    funEnv_arith.expandEq, funEnv_arith.sub, funEnv_arith.simplify, funEnv_arith.isZero, funEnv_arith.evalfAt,
    funEnv_arith.randint, funEnv_arith.uniform⟩

theorem rangeEnv_mixed : MixedArith rangeEnv IsConst IsConst IsFun :=
  ⟨funEnv_mixed.expandEq, funEnv_mixed.expandEq', funEnv_mixed.sub, funEnv_mixed.sub'⟩

theorem rangeEnv_valued (s : Str) (x : ℝ) : Valued rangeEnv reals asFun IsConst s x where
  value v hv h := by rw [asFun_scalar hv, funext h]; rfl
  parseExpr := (funEnv_valued s x).parseExpr

theorem rangeEnv_prints : PrintsIntegers rangeEnv := fun z x => callEnv_prints z x

theorem rangeEnv_appliesAll : AppliesAll rangeEnv grammarLib reals asFun := fun c as y hc ha => by
  obtain ⟨v, y', h1, h2, h3, h4⟩ := callEnv_appliesAll c as y hc ha
  exact ⟨v, y', h1, h2, h3, h4⟩

/-- what `Neat` says -/
def neatB (s : Str) : Bool :=
  s.all (fun c => decide (33 ≤ c.toNat) && decide (c.toNat < 127) && !asciiUpper c && !(s%"$%:").contains c) &&
    tidySpecial.all (fun p => !contains p s) && !(s.head? == some '{') && !(s%"\\{").isPrefixOf s &&
    noDigitBefore s%"\\frac" s && noDigitBefore s%"_" s && !contains s%"\\," s && !contains s%"{,}" s

theorem neatB_sound {s : Str} (h : neatB s = true) : Neat s := by
  simp only [neatB, Bool.and_eq_true, List.all_eq_true, decide_eq_true_eq, Bool.not_eq_true'] at h
  obtain ⟨⟨⟨⟨⟨⟨⟨h1, h2⟩, h3⟩, h4⟩, h5⟩, h6⟩, h7⟩, h8⟩ := h
  refine ⟨fun c hc => ?_, fun p hp => (contains_eq_false p s).1 (h2 p hp), ⟨by simpa using h3, ?_⟩, ?_, ?_,
    (contains_eq_false _ s).1 h7, (contains_eq_false _ s).1 h8⟩
  · obtain ⟨⟨⟨a, b⟩, c'⟩, d⟩ := h1 c hc
    exact ⟨a, b, c', fun hm => by rw [List.contains_iff_mem.2 hm] at d; cases d⟩
  · intro hp
    rw [List.isPrefixOf_iff_prefix.2 hp] at h4
    cases h4
  · intro u v d e; exact noDigitBefore_spec h5 e
  · intro u v d e; exact noDigitBefore_spec h6 (v := v) (by simpa using e)

/-- every comma is inside brackets -/
def enclosedB : Int → Str → Bool
  | _, [] => true
  | n, c :: cs => (c != ',' || decide (0 < n)) && enclosedB (n + bracketDelta c) cs

theorem enclosedB_sound {s : Str} : ∀ {n : Int}, enclosedB n s = true → ∀ p q, s = p ++ ',' :: q → 0 < n + (p.map bracketDelta).sum := by
  induction s with
  | nil => intro n _ p q e; cases p <;> cases e
  | cons c cs ih =>
    intro n h p q e
    simp only [enclosedB, Bool.and_eq_true] at h
    cases p with
    | nil =>
      rw [List.nil_append, List.cons.injEq] at e
      obtain ⟨rfl, -⟩ := e
      simpa using h.1
    | cons x p =>
      rw [List.cons_append, List.cons.injEq] at e
      obtain ⟨rfl, e⟩ := e
      have := ih h.2 p q e
      simp only [List.map_cons, List.sum_cons]
      omega

/-- no blanks, and no three digits after a comma -/
def unmarkedB : Str → Bool
  | [] => true
  | c :: cs => c != ' ' && !(c == ',' && (cs.take 3).all (isDigit asciiUni) && decide (3 ≤ cs.length)) && unmarkedB cs

theorem unmarkedB_sound {s : Str} (h : unmarkedB s = true) : ¬ ThousandsComma asciiUni s := by
  rintro ⟨a, x, y, z₁, z₂, z₃, b, rfl, -, h1, h2, h3, hy⟩
  have key : ∀ u v : Str, unmarkedB (u ++ v) = true → unmarkedB v = true := by
    intro u v
    induction u with
    | nil => exact id
    | cons c u ih => intro h; simp only [List.cons_append, unmarkedB, Bool.and_eq_true] at h; exact ih h.2
  have h := key _ _ h
  rcases hy with rfl | rfl <;> simp [unmarkedB, h1, h2, h3] at h

/-- what `Together` says, for texts without blanks -/
def togetherB (s : Str) : Bool :=
  !s.isEmpty && enclosedB 0 s && unmarkedB s && !contains s%"matrix" s && decide ((s.map bracketDelta).sum = 0) &&
    (match s.head? with | some x => decide (x ≠ '[' ∧ x ≠ '(' ∧ x ≠ '{') | none => true) && !contains s%"\\cup" s && !contains s%"\\cap" s

theorem togetherB_sound {s : Str} (h : togetherB s = true) : Together asciiUni s := by
  simp only [togetherB, Bool.and_eq_true, Bool.not_eq_true', decide_eq_true_eq] at h
  obtain ⟨⟨⟨⟨⟨⟨⟨h1, h2⟩, h3⟩, h4⟩, h5⟩, h6⟩, h7⟩, h8⟩ := h
  refine ⟨by simpa using h1, fun p q e => by simpa using enclosedB_sound h2 p q e, unmarkedB_sound h3, (contains_eq_false _ _).1 h4, h5, ?_,
    (contains_eq_false _ _).1 h7, (contains_eq_false _ _).1 h8⟩
  · intro x hx
    rw [hx] at h6
    simpa using h6

theorem notRange_pair {s a b : Str} {us vs : List Sign} {f g : (Str → ℝ) → ℝ} (h : split s%"," s = [a, b])
    (hw : writtenB (us ++ .mark '=' :: vs) (b.filter fun c => c ≠ ')' ∧ c ≠ ']') = true)
    (hu : ∀ ρ, Denotes (reals.vars ρ) (fun _ => True) (false : Bool) .expr us (f ρ))
    (hv : ∀ ρ, Denotes (reals.vars ρ) (fun _ => True) (false : Bool) .expr vs (g ρ)) : NotRange reals grammarLib 1 s := by
  intro a' b' e ha hb
  have e' : split s%"," s = [a', b'] := by rw [e]; exact split_one_some ',' a' b' ha hb
  rw [h] at e'
  cases e'
  exact .inl ⟨_, _, false, f, g, writtenB_sound hw, fun ρ => .rel (by decide) (hu ρ) (hv ρ)⟩

/-- `y=(x+1` is not balanced. -/
theorem notRange_uneven {s a b : Str} (h : split s%"," s = [a, b])
    (hp : prepare (b.filter fun c => c ≠ ')' ∧ c ≠ ']') = b.filter fun c => c ≠ ')' ∧ c ≠ ']')
    (hb : levels (b.filter fun c => c ≠ ')' ∧ c ≠ ']') ≠ 0) : NotRange reals grammarLib 1 s := by
  intro a' b' e ha hb'
  have e' : split s%"," s = [a', b'] := by rw [e]; exact split_one_some ',' a' b' ha hb'
  rw [h] at e'
  cases e'
  refine .inr fun w => uneven_raises (fun s hs => ⟨.other, ?_⟩) hp hb 1 [] w
  simp [grammarLib, nodeLib, hs]

theorem notRange_many {s : Str} (h : (split s%"," s).length ≠ 2) : NotRange reals grammarLib 1 s := by
  intro a b e ha hb
  rw [e, show (s%"," : Str) = [','] from rfl, split_one_some ',' a b ha hb] at h
  exact absurd rfl h

theorem valuesAnswer_of {s : Str} {c : Char} {b : Bool} {ws vs : List Sign} {g : (Str → ℝ) → ℝ} {P : FV → Prop} (hn : neatB s = true)
    (ht : togetherB s = true) (hi : NotRange reals grammarLib 1 s) (hf : (pyFloat asciiUni s).isNone = true) (hc : isVariable c = true)
    (hw : writtenB (headWith c b ws ++ .mark '=' :: vs) s = true)
    (ha : ∀ ρ, ∃ xs, Applied (reals.vars ρ) (fun _ => True) (false : Bool) ws xs)
    (hv : ∀ ρ, Denotes (reals.vars ρ) (fun _ => True) (false : Bool) .expr vs (g ρ)) (hP : P (.fn g)) :
    ValuesAnswer rangeEnv grammarLib 1 reals asFun P s g where
  neat := neatB_sound hn
  together := togetherB_sound ht
  notRange := hi
  notInt q hq := by
    rw [show pyFloat rangeEnv.U s = none from Option.isNone_iff_eq_none.1 hf] at hq
    cases hq
  written := ⟨c, b, ws, vs, fun _ => True, false, false, hc, writtenB_sound hw, fun ρ => ⟨hv ρ, ha ρ⟩⟩
  right r hr h := by rw [asFun_scalar hr, funext h]; exact hP

theorem xy_applied (ρ : Str → ℝ) : ∃ xs, Applied (reals.vars ρ) (fun _ => True) (false : Bool)
    ([.letter 'x', .mark '+', .digit 1] ++ .mark ',' :: [.letter 'y']) xs :=
  ⟨_, .cons (plus_denotes ρ) ⟨by decide, writtenB_sound (by decide +kernel)⟩
    (.one (letter_denotes ρ (by decide)) ⟨by decide, writtenB_sound (by decide +kernel)⟩) (by decide), .inl (by simp)⟩

theorem xyz_applied (ρ : Str → ℝ) : ∃ xs, Applied (reals.vars ρ) (fun _ => True) (false : Bool)
    ([.letter 'x'] ++ .mark ',' :: ([.letter 'y'] ++ .mark ',' :: [.letter 'z'])) xs :=
  ⟨_, .cons (letter_denotes ρ (by decide)) ⟨by decide, writtenB_sound (by decide +kernel)⟩
    (.cons (letter_denotes ρ (by decide)) ⟨by decide, writtenB_sound (by decide +kernel)⟩
      (.one (letter_denotes ρ (by decide)) ⟨by decide, writtenB_sound (by decide +kernel)⟩) (by decide)) (by decide), .inl (by simp)⟩

/-- `g^{-1}(x+1,y)=2x` -/
theorem g_pair : FormulaShown rangeEnv grammarLib reals IsFun asFun 0 s%"g^{-1}(x+1,y)=2x" [s%"x"] fun ρ => 2 * ρ s%"x" :=
  .values (valuesAnswer_of (c := 'g') (b := true) (by decide +kernel) (by decide +kernel)
    (notRange_pair (a := s%"g^{-1}(x+1") (b := s%"y)=2x") (by decide +kernel) (by decide +kernel)
      (fun ρ => letter_denotes ρ (c := 'y') (by decide)) twice_denotes)
    (by decide +kernel) (by decide) (by decide +kernel) xy_applied twice_denotes
    ⟨rfl, supports_x (h := fun x => 2 * x) (by norm_num), by simp⟩) (by simp) (by simp [rangeEnv, callEnv, funEnv])

theorem bracket_denotes (ρ : Str → ℝ) : Denotes (reals.vars ρ) (fun _ => True) (false : Bool) .expr
    [.digit 2, .mark '(', .letter 'x', .mark ')'] (2 * ρ s%"x") := by
  have h1 := Denotes.bracket (l := [.mark '(']) (r := [.mark ')']) (by decide) (letter_denotes ρ (c := 'x') (by decide))
  have h2 := Denotes.juxt (o := false) (w := .mark '(') (vs := [.letter 'x', .mark ')']) (.power (.base (dig_denotes ρ 2)))
    (.factor (.power (.base h1))) (by constructor <;> simp)
  have h3 := Denotes.term (o := false) (.signed (.product h2))
  norm_num at h3 ⊢
  exact h3

/-- `f(x+1,y)=2(x)` -/
theorem f_bracket : FormulaShown rangeEnv grammarLib reals IsFun asFun 0 s%"f(x+1,y)=2(x)" [s%"x"] fun ρ => 2 * ρ s%"x" :=
  .values (valuesAnswer_of (c := 'f') (b := false) (by decide +kernel) (by decide +kernel)
    (notRange_uneven (a := s%"f(x+1") (b := s%"y)=2(x)") (by decide +kernel) (by decide +kernel) (by decide +kernel))
    (by decide +kernel) (by decide) (by decide +kernel) xy_applied bracket_denotes
    ⟨rfl, supports_x (h := fun x => 2 * x) (by norm_num), by simp⟩) (by simp) (by simp [rangeEnv, callEnv, funEnv])

/-- `f(x,y,z)=2x` -/
theorem f_triple : FormulaShown rangeEnv grammarLib reals IsFun asFun 0 s%"f(x,y,z)=2x" [s%"x"] fun ρ => 2 * ρ s%"x" :=
  .values (valuesAnswer_of (c := 'f') (b := false) (by decide +kernel) (by decide +kernel) (notRange_many (by decide +kernel))
    (by decide +kernel) (by decide) (by decide +kernel) xyz_applied twice_denotes
    ⟨rfl, supports_x (h := fun x => 2 * x) (by norm_num), by simp⟩) (by simp) (by simp [rangeEnv, callEnv, funEnv])

/-- `f(x+1,y)=3` -/
theorem f_constant : NumberShown rangeEnv grammarLib reals IsConst asFun 0 s%"f(x+1,y)=3" 3 :=
  .values (valuesAnswer_of (c := 'f') (b := false) (by decide +kernel) (by decide +kernel)
    (notRange_pair (a := s%"f(x+1") (b := s%"y)=3") (by decide +kernel) (by decide +kernel)
      (fun ρ => letter_denotes ρ (c := 'y') (by decide)) three_denotes)
    (by decide +kernel) (by decide) (by decide +kernel) xy_applied three_denotes rfl)

/-- `g^{-1}(x+1,y)=2x` and `f(x,y,z)=2x` are judged equivalent. -/
example (n : Nat) (verbose : Bool) :
    Always (isEquiv rangeEnv (n + 3) (some s%"g^{-1}(x+1,y)=2x") (some s%"f(x,y,z)=2x") verbose) true :=
  (C121_formulas_partial (nodeLib_sound _ none _) grammarLib_parse rangeEnv_uses rangeEnv_relations rangeEnv_refuses rangeEnv_appliesAll
    rangeEnv_arith g_pair f_triple n verbose).1 (fun _ => Iff.rfl) fun _ _ => .inl rfl

/-- `f(x+1,y)=2(x)` and `f(x,y,z)=2x` are judged equivalent. -/
example (n : Nat) (verbose : Bool) :
    Always (isEquiv rangeEnv (n + 3) (some s%"f(x+1,y)=2(x)") (some s%"f(x,y,z)=2x") verbose) true :=
  (C121_formulas_partial (nodeLib_sound _ none _) grammarLib_parse rangeEnv_uses rangeEnv_relations rangeEnv_refuses rangeEnv_appliesAll
    rangeEnv_arith f_bracket f_triple n verbose).1 (fun _ => Iff.rfl) fun _ _ => .inl rfl

/-- `f(x+1,y)=3` and `3` are judged equivalent. -/
example (n : Nat) (verbose : Bool) : Always (isEquiv rangeEnv (n + 3) (some s%"f(x+1,y)=3") (some s%"3") verbose) true := by
  have h := NumAnswer.literal (E := rangeEnv) (I := reals) (inj := asFun) (Is := IsConst) (Literal.ofInt 3) (ofInt_tame 3 (by decide))
  rw [Literal.ofInt_value, show (((3 : ℤ) : ℚ) : ℝ) = 3 by norm_num] at h
  have := C121_numbers (nodeLib_sound _ none _) grammarLib_parse rangeEnv_uses rangeEnv_relations rangeEnv_refuses rangeEnv_appliesAll
    rangeEnv_numbers rangeEnv_prints (fun _ => rangeEnv_valued _ _) f_constant (.given (.stated (.plain h))) n verbose
  rwa [withinTolerance_refl] at this

/-- `f(x+1,y)=3` and `f(x,y,z)=2x` are not. -/
example (n : Nat) (verbose : Bool) : Always (isEquiv rangeEnv (n + 3) (some s%"f(x+1,y)=3") (some s%"f(x,y,z)=2x") verbose) false :=
  (C121_unlike (nodeLib_sound _ none _) grammarLib_parse rangeEnv_uses rangeEnv_relations rangeEnv_refuses rangeEnv_appliesAll rangeEnv_arith
    rangeEnv_mixed rangeEnv_prints (fun _ => rangeEnv_valued _ _) f_constant f_triple ⟨fun _ => 0, fun _ => 1, by norm_num⟩ n verbose).1

end Verif.L2S
