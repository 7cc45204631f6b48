import Verif.Props.Systems
/-
Pairs of formulas in brackets – points `(x,2x)` – are judged coordinate by coordinate, but also as intervals (C110).
-/

namespace Verif.L2S
open Verif Verif.Reading Verif.Grammar

section
variable {K : Type} [Field K] [LinearOrder K] [IsStrictOrderedRing K] {X V Y S : Type}

/-- the expression is a number or a function, in either case the function `f` of the variables -/
def EndOf (Is : V → K → Prop) (Fun : V → List Str → ((Str → K) → K) → Prop) (v : V) (f : (Str → K) → K) : Prop :=
  (∃ q, Is v q ∧ f = fun _ => q) ∨ ∃ a, Fun v a f

/-- The CAS operations on the intervals that pairs of formulas are also read as: `pts s ρ` is the set of points of `s` if the variables
have the values `ρ`.  Only the comparison has to return, and it need not find out that two sets are equal. -/
structure IntervalArith (E : Env X V S) (Ev : V → K → Prop) (Fun : V → List Str → ((Str → K) → K) → Prop)
    (pts : S → (Str → K) → Set K) : Prop where
  toInteger : ∀ {v q}, Ev v q → IfOk (E.toInteger v) (Ev · q)
  interval : ∀ {v w f g} (lo ro : Bool), EndOf Ev Fun v f → EndOf Ev Fun w g → IfOk (E.interval v w lo ro) fun s =>
    ∀ ρ, pts s ρ = {x | (if lo then f ρ < x else f ρ ≤ x) ∧ (if ro then x < g ρ else x ≤ g ρ)}
  isEmpty : IfOk (E.isEmptySet E.emptySet) (· = true)
  union : ∀ t, IfOk (E.union E.emptySet t) fun u => pts u = pts t
  compare : ∀ s t, RetP (E.compareEq s t) (· = true → pts s = pts t)

variable {E : Env X V S} {L : Lib Y} {I : Interp K} {Is Ev : V → K → Prop} {Fun : V → List Str → ((Str → K) → K) → Prop}
  {inj : SV → V} {N : Nat} {pts : S → (Str → K) → Set K}

omit [IsStrictOrderedRing K] in
theorem numEnd_formula (H : FunArith E Is Ev Fun) (hI : IntervalArith E Ev Fun pts) {v : V} {f : (Str → K) → K}
    (h : EndOf Is Fun v f) : Safe (oneInterval.numEnd E v) (EndOf Ev Fun · f) := by
  unfold oneInterval.numEnd
  rcases h with ⟨q, hq, rfl⟩ | ⟨a, ha⟩
  · refine Safe.bind ((H.numbers.isNumber hq).always.alwaysP (P := (· = true)) rfl).safe ?_
    rintro _ rfl
    simp only [if_true]
    refine Safe.bind (H.numbers.evalf hq).always.safe fun v' hv' => ?_
    refine Safe.bind (Safe.any _) fun b _ => ?_
    cases b with
    | false => exact Safe.pure (.inl ⟨q, hv', rfl⟩)
    | true => exact (hI.toInteger hv').safe.mono fun u hu => .inl ⟨q, hu, rfl⟩
  · refine Safe.bind ((H.isNumber ha).always.alwaysP (P := (· = false)) rfl).safe ?_
    rintro _ rfl
    exact Safe.pure (.inr ⟨a, ha⟩)

omit [IsStrictOrderedRing K] in
/-- What a pair of formulas is read as when it is tried as an interval. -/
theorem pair_formulas (H : FunArith E Is Ev Fun) (hI : IntervalArith E Ev Fun pts) {br : Bracket} (hbr : br ≠ .curly) {a b : Str}
    {f g : (Str → K) → K} (ha : EndText a) (hb : EndText b) (pa : Pieces [a, b]) (la : RetP (E.l2s a) (EndOf Is Fun · f))
    (lb : RetP (E.l2s b) (EndOf Is Fun · g)) :
    AlwaysP (strToInterval E (pairText br a b)) fun o => ∀ s, o = some s → ∀ ρ, pts s ρ = between br (f ρ) (g ρ) := by
  have hf : (some br : Verif.Frame) ≠ some .curly := by simpa using hbr
  obtain ⟨c1, c2⟩ := pair_contains hbr ha hb
  have one : Safe (oneInterval E (pairText br a b)) fun s => ∀ ρ, pts s ρ = between br (f ρ) (g ρ) := by
    unfold oneInterval
    simp only [show strip (pairText br a b) = pairText br a b from pa.strip hf, pair_split ha hb, pair_left hbr ha, pair_right hbr hb]
    refine Safe.bind la.always.safe fun lv hlv => ?_
    refine Safe.bind lb.always.safe fun rv hrv => ?_
    refine Safe.bind (numEnd_formula H hI hlv) fun lv hlv => ?_
    refine Safe.bind (numEnd_formula H hI hrv) fun rv hrv => ?_
    refine Safe.bind (Safe.any _) fun bad _ => ?_
    cases bad with
    | true => exact Safe.raised _ _
    | false =>
      simp only [Bool.false_eq_true, if_false]
      refine (hI.interval _ _ hlv hrv).safe.mono fun s hs ρ => ?_
      rw [hs, c1, c2]
      cases br <;> first
        | exact absurd rfl hbr
        | (ext p; exact Iff.rfl)
  obtain ⟨m1, m2⟩ := pa.oneMember hf
  unfold strToInterval
  refine Safe.caught ?_ fun _ => AlwaysP.pure fun s hs => nomatch hs
  rw [show cupSplit (pairText br a b) = [pairText br a b] from m1]
  simp only [unionLoop]
  rw [show capSplit (pairText br a b) = [pairText br a b] from m2]
  simp only [interLoop]
  refine Safe.bind (Q := fun t => ∀ ρ, pts t ρ = between br (f ρ) (g ρ)) ?_ fun r hr => Safe.pure fun s hs => by cases hs; exact hr
  refine Safe.bind (Q := fun t => ∀ ρ, pts t ρ = between br (f ρ) (g ρ)) ?_ fun t ht => ?_
  · refine Safe.bind one fun t ht => ?_
    refine Safe.bind (Q := fun t => ∀ ρ, pts t ρ = between br (f ρ) (g ρ)) ?_ fun r hr => Safe.pure hr
    refine Safe.bind hI.isEmpty.safe ?_
    rintro _ rfl
    exact Safe.pure ht
  · refine Safe.bind (hI.union t).safe fun u hu => ?_
    exact Safe.pure (by rw [hu]; exact ht)

/-- A formula is read as its function by `latex2sympy`. -/
theorem Formula.reads (hL : SoundLib I L) (hp : ∀ s t, parseText s = some t → L.parse s = .ok t) (hl : UsesUndeclared E L N inj I.real)
    (hlit : ∀ l : Literal, Valued E I inj Is l.text (l.value : K)) {s : Str} {a : List Str} {f : (Str → K) → K}
    (h : Formula E I inj Is Fun s a f) : RetP (E.l2s s) (EndOf Is Fun · f) := by
  have mono : ∀ {P Q : V → Prop}, RetP (E.l2s s) P → (∀ v, P v → Q v) → RetP (E.l2s s) Q := by
    intro P Q h hpq x
    obtain ⟨v, x', e, hv⟩ := h x
    exact ⟨v, x', e, hpq v hv⟩
  cases h with
  | number h =>
    cases h with
    | literal l _ => exact mono (reads_literal hL hp hl l (hlit l)).l2s fun v hv => .inl ⟨_, hv, rfl⟩
    | text _ _ _ hw hd he => exact mono (reads_valued hL hp hl hw hd he).l2s fun v hv => .inl ⟨_, hv, rfl⟩
  | function h _ => exact mono (h.reads hL hp hl).l2s fun v hv => .inr ⟨_, hv⟩

open Classical in
/-- **C110.**  Two pairs of formulas in brackets are judged equivalent exactly if they are written with the same brackets and agree
coordinate by coordinate: the coordinates have the same variables and values.  Missing: pairs that do not agree but are the same interval
for all values of the variables (refuted, `C110_intervals_refuted`), and the formulas missing in C108. -/
theorem C110_pairs_partial (H : FunArith E Is Ev Fun) (Mx : MixedArith E Is Ev Fun) (hI : IntervalArith E Ev Fun pts) (hL : SoundLib I L)
    (hp : ∀ s t, parseText s = some t → L.parse s = .ok t) (hl : UsesUndeclared E L N inj I.real) (hE : PrintsIntegers E)
    (hlit : ∀ l : Literal, Valued E I inj Is l.text (l.value : K)) {br br' : Bracket} (hbr : br ≠ .curly) (hbr' : br' ≠ .curly)
    {a b c d : Str} (val : Str → List Str × ((Str → K) → K)) (pa : Pieces [a, b]) (pb : Pieces [c, d])
    (hs : ∀ s ∈ [a, b, c, d], EndText s) (hv : ∀ s ∈ [a, b, c, d], Formula E I inj Is Fun s (val s).1 (val s).2)
    (hd : ∀ s ∈ [a, b], ∀ t ∈ [c, d], SameFormula (val s) (val t) ∨ OtherFormula (val s) (val t))
    (hne : (∀ ρ, between br ((val a).2 ρ) ((val b).2 ρ) = between br' ((val c).2 ρ) ((val d).2 ρ)) →
      br = br' ∧ SameFormula (val a) (val c) ∧ SameFormula (val b) (val d)) (n : Nat) (verbose : Bool) :
    Always (isEquiv E (n + 3) (some (pairText br a b)) (some (pairText br' c d)) verbose)
      (decide (br = br' ∧ SameFormula (val a) (val c) ∧ SameFormula (val b) (val d))) := by
  have hf : (some br : Verif.Frame) ≠ some .curly := by simpa using hbr
  have hf' : (some br' : Verif.Frame) ≠ some .curly := by simpa using hbr'
  have rd := fun s h => (hv s h).reads hL hp hl hlit
  have hA : Agree (some br) (fun s t => SameFormula (val s) (val t)) [a, b] [c, d] ↔
      SameFormula (val a) (val c) ∧ SameFormula (val b) (val d) := by
    show List.Forall₂ _ [a, b] [c, d] ↔ _
    simp
  have main := lists_rel (E := E) (f := some br) (f' := some br') (n := n) (verbose := verbose)
    (R := fun s t => SameFormula (val s) (val t)) (D := False) pa pb hf hf'
    (fun s hm t hm' => judged_formulas H Mx hL hp hl hE hlit (hv s (by revert hm; simp; tauto)) (hv t (by revert hm'; simp; tauto))
      (hd s hm t hm') n verbose) (by simp) (fun _ => ?_) fun _ => id
  · have e : (some br = some br' ∧ (Agree (some br) (fun s t => SameFormula (val s) (val t)) [a, b] [c, d] ∨ False)) ↔
        br = br' ∧ SameFormula (val a) (val c) ∧ SameFormula (val b) (val d) := by
      rw [hA]
      simp
    rw [← decide_eq_decide.2 e]
    exact main
  · show AlwaysP (possibleIntervals E (pairText br a b) (pairText br' c d)) _
    unfold possibleIntervals
    refine AlwaysP.bind (pair_formulas H hI hbr (hs a (by simp)) (hs b (by simp)) pa (rd a (by simp)) (rd b (by simp))) fun o ho => ?_
    refine AlwaysP.bind (pair_formulas H hI hbr' (hs c (by simp)) (hs d (by simp)) pb (rd c (by simp)) (rd d (by simp))) fun o' ho' => ?_
    cases o with
    | none => cases o' <;> exact AlwaysP.pure ⟨by simp, fun _ => False.elim⟩
    | some s =>
      cases o' with
      | none => exact AlwaysP.pure ⟨by simp, fun _ => False.elim⟩
      | some t =>
        refine AlwaysP.bind (hI.compare s t).always fun r hr => ?_
        cases r with
        | false => exact AlwaysP.pure ⟨by simp, fun _ => False.elim⟩
        | true =>
          refine AlwaysP.pure ⟨fun _ => ?_, fun _ => False.elim⟩
          have := hne fun ρ => by rw [← ho s rfl ρ, ← ho' t rfl ρ, hr rfl]
          exact ⟨by rw [this.1], .inl (hA.2 this.2)⟩

end

/-! ### The hypotheses are met -/

/-- the value of an end point -/
noncomputable def FV.at : FV → (Str → ℝ) → ℝ
  | .fn f => f
  | _ => fun _ => 0

open Classical in
/-- The CAS of functions with intervals whose end points may contain variables: the sets depend on the values of the variables. -/
noncomputable def setEnv : Env Unit FV ((Str → ℝ) → Set ℝ) :=
  { funEnv with
    emptySet := fun _ => ∅
    interval := fun v w lo ro => gives fun ρ => {x | (if lo then v.at ρ < x else v.at ρ ≤ x) ∧ (if ro then x < w.at ρ else x ≤ w.at ρ)}
    isEmptySet := fun s => gives (decide (s = fun _ => ∅))
    intersect := fun s t => gives fun ρ => s ρ ∩ t ρ
    union := fun s t => gives fun ρ => s ρ ∪ t ρ
    compareEq := fun s t => gives (decide (s = t)) }

theorem setEnv_numbers : RealArith setEnv IsConst IsConst :=
  ⟨funEnv_numbers.view, funEnv_numbers.freeSyms, funEnv_numbers.isNumber, funEnv_numbers.evalf, funEnv_numbers.ev, funEnv_numbers.expandEq,
    funEnv_numbers.sub, funEnv_numbers.isZero, funEnv_numbers.isInteger, funEnv_numbers.abs, funEnv_numbers.ltThr, funEnv_numbers.ge1,
    funEnv_numbers.gt0, funEnv_numbers.div⟩

theorem setEnv_arith : FunArith setEnv IsConst IsConst IsFun :=
  ⟨setEnv_numbers, funEnv_arith.subEv, funEnv_arith.isZeroIs, funEnv_arith.view, funEnv_arith.freeSyms, funEnv_arith.isNumber,
    funEnv_arith.expandEq, funEnv_arith.sub, funEnv_arith.simplify, funEnv_arith.isZero, funEnv_arith.evalfAt, funEnv_arith.randint,
    funEnv_arith.uniform⟩

theorem setEnv_mixed : MixedArith setEnv IsConst IsConst IsFun :=
  ⟨funEnv_mixed.expandEq, funEnv_mixed.expandEq', funEnv_mixed.sub, funEnv_mixed.sub'⟩

theorem setEnv_end {v : FV} {f : (Str → ℝ) → ℝ} (h : EndOf IsConst IsFun v f) : v.at = f := by
  rcases h with ⟨q, rfl, rfl⟩ | ⟨a, rfl, _⟩ <;> rfl

theorem setEnv_intervals : IntervalArith setEnv IsConst IsFun (fun s => s) where
  toInteger {v q} h := by
    rintro x r x' e
    have : v = r := by simpa [setEnv, funEnv, gives] using congrArg Prod.fst e
    rw [← this]
    exact h
  interval {v w f g} lo ro hv hw := by
    rintro x r x' e ρ
    rw [← setEnv_end hv, ← setEnv_end hw]
    simp only [setEnv, gives, Prod.mk.injEq, Except.ok.injEq] at e
    rw [← e.1]
  isEmpty := by
    rintro x r x' e
    simp only [setEnv, gives, Prod.mk.injEq, Except.ok.injEq] at e
    rw [← e.1]
    simp
  union t := by
    rintro x r x' e
    simp only [setEnv, gives, Prod.mk.injEq, Except.ok.injEq] at e
    rw [← e.1]
    funext ρ
    simp
  compare s t := fun x => ⟨_, x, rfl, by simp⟩

theorem setEnv_uses : UsesUndeclared setEnv grammarLib 0 asFun none := funEnv_uses

theorem setEnv_prints : PrintsIntegers setEnv := funEnv_prints

theorem setEnv_valued (s : Str) (x : ℝ) : Valued setEnv reals asFun IsConst s x :=
  ⟨(funEnv_valued s x).value, (funEnv_valued s x).parseExpr⟩

/-- The answers of `funEnv` are answers here. -/
theorem FunAnswer.set {s : Str} {a : List Str} {f : (Str → ℝ) → ℝ} (h : FunAnswer funEnv reals asFun IsFun s a f) :
    FunAnswer setEnv reals asFun IsFun s a f :=
  ⟨h.tidy, h.single, h.notInt, h.denotes, h.value, h.parseExpr, h.names, h.notI⟩

theorem Formula.set {s : Str} {a : List Str} {f : (Str → ℝ) → ℝ} (h : Formula funEnv reals asFun IsConst IsFun s a f) :
    Formula setEnv reals asFun IsConst IsFun s a f := by
  cases h with
  | number h =>
    cases h with
    | literal l ht => exact .number (.literal l ht)
    | text ht hs hf hw hd he => exact .number (.text ht hs hf hw hd (setEnv_valued _ _))
  | function h hv => exact .function h.set hv

open Classical in
theorem set_pairs {br br' : Bracket} (hbr : br ≠ .curly) (hbr' : br' ≠ .curly) {a b c d : Str}
    (val : Str → List Str × ((Str → ℝ) → ℝ)) (pa : Pieces [a, b]) (pb : Pieces [c, d]) (hs : ∀ s ∈ [a, b, c, d], EndText s)
    (hv : ∀ s ∈ [a, b, c, d], Formula funEnv reals asFun IsConst IsFun s (val s).1 (val s).2)
    (hd : ∀ s ∈ [a, b], ∀ t ∈ [c, d], SameFormula (val s) (val t) ∨ OtherFormula (val s) (val t))
    (hne : (∀ ρ, between br ((val a).2 ρ) ((val b).2 ρ) = between br' ((val c).2 ρ) ((val d).2 ρ)) →
      br = br' ∧ SameFormula (val a) (val c) ∧ SameFormula (val b) (val d)) (n : Nat) (verbose : Bool) :
    Always (isEquiv setEnv (n + 3) (some (pairText br a b)) (some (pairText br' c d)) verbose)
      (decide (br = br' ∧ SameFormula (val a) (val c) ∧ SameFormula (val b) (val d))) :=
  C110_pairs_partial setEnv_arith setEnv_mixed setEnv_intervals (nodeLib_sound _ none _) grammarLib_parse setEnv_uses setEnv_prints
    (fun _ => setEnv_valued _ _) hbr hbr' val pa pb hs (fun s h => (hv s h).set) hd hne n verbose

/-- The points `(2x,3y)` and `(3y,2x)` are not equivalent. -/
example (n : Nat) (verbose : Bool) : Always (isEquiv setEnv (n + 3) (some s%"(2x,3y)") (some s%"(3y,2x)") verbose) false := by
  have m : ∀ s ∈ [s%"2x", s%"3y", s%"3y", s%"2x"], s ∈ [s%"2", s%"2x", s%"3y"] := by decide
  have e1 : termOf s%"2x" = ([s%"x"], fun ρ => 2 * ρ s%"x") := by simp [termOf]
  have e2 : termOf s%"3y" = ([s%"y"], fun ρ => 3 * ρ s%"y") := by simp [termOf]
  refine (set_pairs (br := .round) (br' := .round) (a := s%"2x") (b := s%"3y") (c := s%"3y") (d := s%"2x") (by simp) (by simp) termOf
    (piecesB_sound (by decide +kernel)) (piecesB_sound (by decide +kernel)) (fun s h => endB_sound (by revert s; decide +kernel))
    (fun s h => term_formula s (m s h)) (fun s h t h' => (terms_decided s (m s (by revert h; simp; tauto)) t
      (m t (by revert h'; simp; tauto))).imp And.right And.right) ?_ n verbose).no ?_
  · intro h
    exfalso
    have := h fun _ => 1
    rw [e1, e2] at this
    have h1 : (5 / 2 : ℝ) ∈ between Bracket.round (2 * (1 : ℝ)) (3 * 1) := ⟨by norm_num, by norm_num⟩
    rw [show between Bracket.round (2 * (1 : ℝ)) (3 * 1) = between Bracket.round (3 * (1 : ℝ)) (2 * 1) from this] at h1
    have := h1.1
    norm_num at this
  · rintro ⟨_, h, _⟩
    exact terms_apart.1.notSame h

/-! ### The intervals -/

section
variable {X V S : Type} {E : Env X V S}

/-- Lists that are read as intervals found to be the same are judged equivalent. -/
theorem lists_same_interval {as bs : List Str} {f f' : Verif.Frame} {n : Nat} {verbose : Bool} (pa : Pieces as) (pb : Pieces bs)
    (hf : f ≠ some .curly) (hf' : f' ≠ some .curly) (hbk : hasBracket (f.text as) = true)
    (first : Always (possibleIntervals E (f.text as) (f'.text bs)) (true, true)) :
    Always (isEquiv E (n + 3) (some (f.text as)) (some (f'.text bs)) verbose) true := by
  have hem : (f'.text bs).isEmpty = false := by
    cases hb : f'.text bs with
    | nil => have := pb.comma f'; rw [hb] at this; cases this
    | cons _ _ => rfl
  simp only [isEquiv, isEquivStr, pa.strip hf, pb.strip hf']
  by_cases htx : f.text as = f'.text bs
  · rw [if_pos htx]
    exact Always.pure _
  rw [if_neg htx]
  apply (pa.fixed E (n + 1) hf).bind
  apply (pb.fixed E (n + 1) hf').bind
  apply print_always
  unfold compareNorms
  simp only [htx, decide_false, Bool.false_eq_true, if_false]
  apply Always.tryExcept
  unfold isLatexEquiv
  simp only [hem, Bool.false_eq_true, if_false, hbk, if_true]
  apply first.bind
  simp only [Bool.not_true, Bool.false_eq_true, if_false]
  apply (Always.pure (true, true)).bind
  apply (Always.pure (true, true)).bind
  simpa using Always.pure true

end

/-- An open interval between a variable and itself is empty. -/
theorem empty_interval {c : Str} {k : List Str} {f : (Str → ℝ) → ℝ} (hc : EndText c) (pc : Pieces [c, c])
    (h : FunAnswer funEnv reals asFun IsFun c k f) :
    Always (strToInterval setEnv (pairText .round c c)) (some fun _ => ∅) := by
  have hf : (some Bracket.round : Verif.Frame) ≠ some .curly := by simp
  have hbr : Bracket.round ≠ .curly := by simp
  have l := (h.set.reads (nodeLib_sound _ none _) grammarLib_parse setEnv_uses).l2s
  obtain ⟨c1, c2⟩ := pair_contains hbr hc hc
  have en : ∀ {v}, IsFun v k f → Always (oneInterval.numEnd setEnv v) v := by
    intro v hv
    unfold oneInterval.numEnd
    apply (setEnv_arith.isNumber hv).always.bind
    exact Always.pure v
  have one : Always (oneInterval setEnv (pairText .round c c)) fun _ => ∅ := by
    unfold oneInterval
    simp only [show strip (pairText .round c c) = pairText .round c c from pc.strip hf, pair_split hc hc, pair_left hbr hc,
      pair_right hbr hc]
    refine l.always.always fun v hv => ?_
    refine l.always.always fun w hw => ?_
    apply (en hv).bind
    apply (en hw).bind
    have hbad : Always (do
        if ← M.ext (setEnv.isNumber v) then
          if ← M.ext (setEnv.isNumber w) then M.ext (setEnv.gtV v w) else pure false
        else pure false) false := by
      apply (setEnv_arith.isNumber hv).always.bind
      exact Always.pure false
    apply hbad.bind
    simp only [Bool.false_eq_true, if_false]
    refine Ret.always fun x => ⟨x, ?_⟩
    rw [c1, c2]
    simp only [setEnv, gives, hv.1, hw.1, FV.at]
    congr 2
    funext ρ
    ext y
    simp
    intro h1
    exact h1.le
  obtain ⟨m1, m2⟩ := pc.oneMember hf
  unfold strToInterval
  apply Always.tryExcept
  rw [show cupSplit (pairText .round c c) = [pairText .round c c] from m1]
  simp only [unionLoop]
  rw [show capSplit (pairText .round c c) = [pairText .round c c] from m2]
  simp only [interLoop]
  have hem : Always (M.ext (setEnv.isEmptySet setEnv.emptySet)) true := Ret.always fun x => ⟨x, by simp [setEnv, gives]⟩
  have hun : Always (M.ext (setEnv.union setEnv.emptySet fun _ => ∅)) (fun _ => ∅) :=
    Ret.always fun x => ⟨x, by simp [setEnv, gives]⟩
  refine Always.bind (a := fun _ => ∅) ?_ (Always.pure _)
  refine Always.bind (a := fun _ => ∅) ?_ ?_
  · apply one.bind
    refine Always.bind (a := fun _ => ∅) ?_ (Always.pure _)
    apply hem.bind
    exact Always.pure _
  · apply hun.bind
    exact Always.pure _

/-- `y` is the function `y`. -/
theorem y_answer : FunAnswer funEnv reals asFun IsFun s%"y" [s%"y"] fun ρ => ρ s%"y" := by
  refine funAnswer_of (ws := [.letter 'y']) (by decide +kernel) ?_ ?_ (by decide +kernel) ?_ ?_ (by simp) (by simp)
  · exact ⟨by simp, by decide, (contains_eq_false _ _).1 (by decide +kernel), by decide +kernel, .inl (by simp)⟩
  · intro f hf
    have h0 := Option.isNone_iff_eq_none.1 (show (pyFloat asciiUni s%"y").isNone = true by decide +kernel)
    rw [show pyFloat funEnv.U s%"y" = none from h0] at hf
    cases hf
  · intro ρ
    exact letter_denotes ρ (c := 'y') (by decide)
  · refine ⟨fun ρ ρ' h => by simp only [h s%"y" (by simp)], ?_⟩
    intro k hk
    simp only [List.mem_singleton] at hk
    subst hk
    exact ⟨fun _ => 0, fun j => if j = s%"y" then 1 else 0, fun j hj => by simp [hj], by norm_num⟩

/-- **C110**, refuted for points on the diagonal: `(x,x)` and `(y,y)` differ in both coordinates, and are always judged equivalent, since
both are also read as empty intervals. -/
theorem C110_intervals_refuted : ∃ f h : (Str → ℝ) → ℝ, FunAnswer setEnv reals asFun IsFun s%"x" [s%"x"] f ∧
    FunAnswer setEnv reals asFun IsFun s%"y" [s%"y"] h ∧ ¬ SameFormula ([s%"x"], f) ([s%"y"], h) ∧
    ∀ n verbose, Always (isEquiv setEnv (n + 3) (some s%"(x,x)") (some s%"(y,y)") verbose) true := by
  refine ⟨_, _, x_answer.set, y_answer.set, fun h => by simpa using h.1 s%"x", fun n verbose => ?_⟩
  have px : Pieces [s%"x", s%"x"] := piecesB_sound (by decide +kernel)
  have py : Pieces [s%"y", s%"y"] := piecesB_sound (by decide +kernel)
  refine lists_same_interval (as := [s%"x", s%"x"]) (bs := [s%"y", s%"y"]) (f := some .round) (f' := some .round) px py (by simp) (by simp)
    (by decide +kernel) ?_
  show Always (possibleIntervals setEnv (pairText .round s%"x" s%"x") (pairText .round s%"y" s%"y")) (true, true)
  unfold possibleIntervals
  apply (empty_interval (endB_sound (by decide +kernel)) px x_answer).bind
  apply (empty_interval (endB_sound (by decide +kernel)) py y_answer).bind
  have : Always (M.ext (setEnv.compareEq (fun _ => ∅) fun _ => ∅)) true := Ret.always fun x => ⟨x, by simp [setEnv, gives]⟩
  apply this.bind
  exact Always.pure _

end Verif.L2S
