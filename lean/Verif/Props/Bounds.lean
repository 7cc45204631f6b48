import Verif.Props.Compounds
import Verif.Props.AndOr
/-
Lists of inequalities, `x<-1,x>3`, are judged inequality by inequality, whatever word stands between them (C122).
-/

namespace Verif.L2S
open Verif Verif.Reading Verif.Grammar

section
variable {K : Type} [Field K] [LinearOrder K] [IsStrictOrderedRing K] {X V Y S : Type}

/-- Both strict or both not strict, and the same difference of the sides. -/
def SameInequality (p q : Bool × List Str × ((Str → K) → K)) : Prop := p.1 = q.1 ∧ SameFormula p.2 q.2

/-- One strict and the other not; or differences of the sides that do not differ by a constant below 1/1000 and that have different
variables or values outside of the tolerance wherever the variables lie between 1 and 10. -/
def OtherInequality (p q : Bool × List Str × ((Str → K) → K)) : Prop :=
  p.1 ≠ q.1 ∨ (¬ NearlyConstant (fun ρ => p.2.2 ρ - q.2.2 ρ) ∧
    ((¬ ∀ k, k ∈ p.2.1 ↔ k ∈ q.2.1) ∨ ∀ ρ, Sampled ρ → ¬ WithinTolerance (p.2.2 ρ) (q.2.2 ρ)))

theorem OtherInequality.notSame {p q : Bool × List Str × ((Str → K) → K)} (h : OtherInequality p q) : ¬ SameInequality p q := by
  rintro ⟨h1, h2⟩
  rcases h with h | ⟨h3, h4⟩
  · exact h h1
  · exact OtherFormula.notSame (.functions h3 h4) h2

variable {E : Env X V S} {L : Lib Y} {I : Interp K} {Is Ev : V → K → Prop} {Fun : V → List Str → ((Str → K) → K) → Prop}
  {inj : SV → V} {N : Nat}

/-- `s` is an inequality, strict or not as `p` says, whose smaller side minus greater side is the function that `p` gives. -/
def Inequality (E : Env X V S) (L : Lib Y) (N : Nat) (I : Interp K) (inj : SV → V) (Fun : V → List Str → ((Str → K) → K) → Prop)
    (s : Str) (p : Bool × List Str × ((Str → K) → K)) : Prop :=
  ∃ f g, InequalityAnswer E L N I inj Fun s p.1 p.2.1 f g p.2.2

section
variable (hL : SoundLib I L) (hp : ∀ s t, parseText s = some t → L.parse s = .ok t) (hl : UsesUndeclared E L N inj I.real)
  (hr : SeesRelations E inj)
include hL hp hl hr

open Classical in
/-- Two inequalities that are alike or unlike are judged so. -/
theorem judged_inequalities (H : FunArith E Is Ev Fun) {s t : Str} {p q : Bool × List Str × ((Str → K) → K)}
    (hs : Inequality E L N I inj Fun s p) (ht : Inequality E L N I inj Fun t q) (hd : SameInequality p q ∨ OtherInequality p q) (n : Nat)
    (verbose : Bool) : Always (isEquiv E (n + 3) (some s) (some t) verbose) (decide (SameInequality p q)) := by
  obtain ⟨f, g, hs⟩ := hs
  obtain ⟨f', g', ht⟩ := ht
  obtain ⟨o, a, d⟩ := p
  obtain ⟨o', b, e⟩ := q
  rcases hd with hd | hd
  · rw [decide_eq_true hd]
    obtain ⟨rfl, h1, h2⟩ := hd
    exact (C100_inequalities_partial hL hp hl hr H hs ht n verbose).1 h1 h2
  · rw [decide_eq_false hd.notSame]
    by_cases ho : o = o'
    · subst ho
      rcases hd with hd | ⟨h1, h2⟩
      · exact absurd rfl hd
      · exact (C100_inequalities_partial hL hp hl hr H hs ht n verbose).2 h1 h2
    · exact C100_strictness hL hp hl hr H hs ht ho n verbose

open Classical in
/-- **C122.**  Two lists of inequalities — in round or square brackets or without brackets — are judged equivalent exactly if they are
written with the same brackets and corresponding inequalities are both strict or both not strict and have the same difference of their
sides: in order if in brackets, in any order if not.  `val` says what the elements mean.  Missing: inequalities whose differences agree
at some, but not all, of the points where the variables lie between 1 and 10, and pairs in brackets, which are also read as
intervals. -/
theorem C122_lists_partial (H : FunArith E Is Ev Fun) {as bs : List Str} {f f' : Verif.Frame}
    (val : Str → Bool × List Str × ((Str → K) → K)) (pa : Pieces as) (pb : Pieces bs) (hf : f ≠ some .curly) (hf' : f' ≠ some .curly)
    (h3 : 3 ≤ as.length ∨ 3 ≤ bs.length ∨ hasBracket (f.text as) = false)
    (ha : ∀ a ∈ as, Inequality E L N I inj Fun a (val a)) (hb : ∀ b ∈ bs, Inequality E L N I inj Fun b (val b))
    (hd : ∀ a ∈ as, ∀ b ∈ bs, SameInequality (val a) (val b) ∨ OtherInequality (val a) (val b))
    (ho : f = none → f' = none → OneToOne (fun a b => SameInequality (val a) (val b)) as bs) (n : Nat) (verbose : Bool) :
    Always (isEquiv E (n + 4) (some (f.text as)) (some (f'.text bs)) verbose)
      (decide (f = f' ∧ Agree f (fun a b => SameInequality (val a) (val b)) as bs)) :=
  C95_elementwise (n := n + 1) pa pb hf hf' h3
    (fun a hm b hm' => judged_inequalities hL hp hl hr H (ha a hm) (hb b hm') (hd a hm b hm') n verbose) ho

open Classical in
/-- **C122.**  The same of systems of inequalities, written as matrices in any `matrix` environments. -/
theorem C122_systems_partial (H : FunArith E Is Ev Fun) {as bs : List (List Str)} {na na' nb nb' : Str}
    (val : Str → Bool × List Str × ((Str → K) → K)) (pa : CellArray as) (pb : CellArray bs)
    (hna : LowerName na) (hna' : LowerName na') (hnb : LowerName nb) (hnb' : LowerName nb')
    (ha : ∀ a ∈ as.flatten, Inequality E L N I inj Fun a (val a)) (hb : ∀ b ∈ bs.flatten, Inequality E L N I inj Fun b (val b))
    (hd : ∀ a ∈ as.flatten, ∀ b ∈ bs.flatten, SameInequality (val a) (val b) ∨ OtherInequality (val a) (val b)) (n : Nat) (verbose : Bool) :
    Always (isEquiv E (n + 4) (some (spellEnv na na' as)) (some (spellEnv nb nb' bs)) verbose)
      (decide (EntriesAgree (fun a b => SameInequality (val a) (val b)) as bs)) :=
  C96_entrywise (n := n + 1) pa pb hna hna' hnb hnb'
    (fun a hm b hm' => judged_inequalities hL hp hl hr H (ha a hm) (hb b hm') (hd a hm b hm') n false) verbose

end

end

/-! ### The word between two elements -/

section
variable {X V S : Type}

/-- Texts with the same normal form are judged equivalent. -/
theorem isEquiv_common {E : Env X V S} {s t u : Str} {n : Nat} (hs : Always (stringNormalize E n s) (.str u))
    (ht : Always (stringNormalize E n t) (.str u)) (verbose : Bool) : Always (isEquiv E (n + 1) (some s) (some t) verbose) true := by
  intro w
  obtain ⟨w₁, h1⟩ := hs w
  obtain ⟨w₂, h2⟩ := ht w₁
  obtain ⟨w', h, _⟩ := C04_equal_normal_forms E n s t u verbose w w₁ w₂ h1 h2
  exact ⟨w', h⟩

/-- What can stand between two elements: a comma, "and" or "or", the words also in `\text{}` and after a comma. -/
inductive Between : Str → Prop
  | comma : Between s%","
  | word {sep} : AndOrSep sep → Between sep

/-- **C122**, the words.  Whatever stands between two elements, a comma, "and" or "or", makes no difference. -/
theorem C122_words (E : Env X V S) (hE : StrTotal E) {a b sep sep' : Str} (ha : LeftElem a) (hb : RightElem b) (ha' : ' ' ∉ a)
    (hb' : ' ' ∉ b) (hbr : ¬ (a.getLast? = some '{' ∧ b.head? = some '}')) (h : Pieces [a, b]) (hs : Between sep) (hs' : Between sep')
    (n : Nat) (verbose : Bool) : Always (isEquiv E (n + 2) (some (a ++ sep ++ b)) (some (a ++ sep' ++ b)) verbose) true := by
  have key : ∀ {sep}, Between sep → Always (stringNormalize E (n + 1) (a ++ sep ++ b)) (.str (a ++ s%"," ++ b)) := by
    have := h.fixed E n (f := none) (by simp)
    rw [show Frame.text none [a, b] = a ++ s%"," ++ b by simp [Frame.text, join]] at this
    rintro _ (_ | h)
    · exact this
    · rw [C33_comma E hE n a b _ ha hb h ha' hb' hbr]
      exact this
  exact isEquiv_common (key hs) (key hs') verbose

end

/-! ### The hypotheses are met -/

/-- `x+1<0`, `0>x+1`, `x+1\leq0` and `2x+2<0` -/
noncomputable def inequalityOf (s : Str) : Bool × List Str × ((Str → ℝ) → ℝ) :=
  if s = s%"2x+2<0" then (true, [s%"x"], fun ρ => 2 * ρ s%"x" + 2 - 0)
  else if s = s%"x+1\\leq0" then (false, [s%"x"], fun ρ => ρ s%"x" + 1 - 0)
  else (true, [s%"x"], fun ρ => ρ s%"x" + 1 - 0)

theorem bound_inequality : ∀ s ∈ [s%"x+1<0", s%"0>x+1", s%"x+1\\leq0", s%"2x+2<0"],
    Inequality funEnv grammarLib 0 reals asFun IsFun s (inequalityOf s) := by
  intro s hs
  simp only [List.mem_cons, List.not_mem_nil, or_false] at hs
  rcases hs with rfl | rfl | rfl | rfl
  · exact ⟨_, _, by simpa [inequalityOf] using less_answer⟩
  · exact ⟨_, _, by simpa [inequalityOf] using greater_answer⟩
  · exact ⟨_, _, by simpa [inequalityOf] using most_answer⟩
  · exact ⟨_, _, by simpa [inequalityOf] using lessTwice_answer⟩

/-- the kinds of these inequalities -/
def boundKind (s : Str) : Nat := if s = s%"2x+2<0" then 0 else if s = s%"x+1\\leq0" then 1 else 2

theorem far_half {x : ℝ} (h : 1 ≤ x) : ¬ WithinTolerance (2 * x + 2) (x + 1) := by
  rw [WithinTolerance, abs_of_pos (show 0 < 2 * x + 2 by linarith), show 2 * x + 2 - (x + 1) = x + 1 by ring,
    abs_of_pos (show 0 < x + 1 by linarith)]
  rintro (h | ⟨h, _⟩ | ⟨_, h⟩ | ⟨_, h, _⟩) <;> linarith

theorem bound_cases (s t : Str) : (boundKind s = boundKind t → SameInequality (inequalityOf s) (inequalityOf t)) ∧
    (boundKind s ≠ boundKind t → OtherInequality (inequalityOf s) (inequalityOf t)) := by
  have far : ∀ ρ : Str → ℝ, Sampled ρ → ¬ WithinTolerance (2 * ρ s%"x" + 2 - 0) (ρ s%"x" + 1 - 0) ∧
      ¬ WithinTolerance (ρ s%"x" + 1 - 0) (2 * ρ s%"x" + 2 - 0) := by
    intro ρ hρ
    simp only [sub_zero]
    exact ⟨far_half (hρ s%"x").1, far_twice (hρ s%"x").1⟩
  have c1 : ¬ NearlyConstant fun ρ : Str → ℝ => 2 * ρ s%"x" + 2 - 0 - (ρ s%"x" + 1 - 0) := by
    rintro ⟨q, _, h⟩
    have h0 := h fun _ => 0
    have h1 := h fun _ => 1
    norm_num at h0 h1
    linarith
  have c2 : ¬ NearlyConstant fun ρ : Str → ℝ => ρ s%"x" + 1 - 0 - (2 * ρ s%"x" + 2 - 0) := by
    rintro ⟨q, _, h⟩
    have h0 := h fun _ => 0
    have h1 := h fun _ => 1
    norm_num at h0 h1
    linarith
  have refl : ∀ p : Bool × List Str × ((Str → ℝ) → ℝ), SameInequality p p := fun p => ⟨rfl, fun _ => Iff.rfl, fun _ _ => .inl rfl⟩
  unfold boundKind inequalityOf
  split_ifs <;> refine ⟨fun h => ?_, fun h => ?_⟩ <;> first
    | exact refl _
    | exact absurd rfl h
    | exact absurd h (by decide)
    | exact .inl Bool.false_ne_true
    | exact .inl Bool.false_ne_true.symm
    | exact .inr ⟨c1, .inr fun ρ hρ => (far ρ hρ).1⟩
    | exact .inr ⟨c2, .inr fun ρ hρ => (far ρ hρ).2⟩

theorem bound_same (s t : Str) : SameInequality (inequalityOf s) (inequalityOf t) ↔ boundKind s = boundKind t := by
  refine ⟨fun h => ?_, (bound_cases s t).1⟩
  by_contra hn
  exact ((bound_cases s t).2 hn).notSame h

open Classical in
theorem bound_lists {as bs : List Str} (pa : piecesB as = true) (pb : piecesB bs = true) (h3 : hasBracket (join s%"," as) = false)
    (ha : ∀ a ∈ as, a ∈ [s%"x+1<0", s%"0>x+1", s%"x+1\\leq0", s%"2x+2<0"])
    (hb : ∀ b ∈ bs, b ∈ [s%"x+1<0", s%"0>x+1", s%"x+1\\leq0", s%"2x+2<0"])
    (ho : OneToOne (fun a b => SameInequality (inequalityOf a) (inequalityOf b)) as bs) (n : Nat) (verbose : Bool) :
    Always (isEquiv funEnv (n + 4) (some (join s%"," as)) (some (join s%"," bs)) verbose)
      (decide (Paired (fun a b => SameInequality (inequalityOf a) (inequalityOf b)) as bs)) := by
  have := C122_lists_partial (f := none) (f' := none) (nodeLib_sound _ none _) grammarLib_parse funEnv_uses funEnv_relations funEnv_arith inequalityOf
    (piecesB_sound pa) (piecesB_sound pb) (by simp) (by simp) (.inr (.inr h3)) (fun a h => bound_inequality a (ha a h))
    (fun b h => bound_inequality b (hb b h)) (fun a _ b _ => (Classical.em _).imp ((bound_cases a b).1) ((bound_cases a b).2)) (fun _ _ => ho) n verbose
  rw [decide_eq_decide.2 (show _ ↔ _ from ⟨fun h => ⟨rfl, h⟩, And.right⟩)]
  exact this

/-- `2x+2<0,x+1<0` and `0>x+1,2x+2<0` are judged equivalent. -/
example (n : Nat) (verbose : Bool) : Always (isEquiv funEnv (n + 4) (some s%"2x+2<0,x+1<0") (some s%"0>x+1,2x+2<0") verbose) true := by
  refine (bound_lists (as := [s%"2x+2<0", s%"x+1<0"]) (bs := [s%"0>x+1", s%"2x+2<0"]) (by decide +kernel) (by decide +kernel)
    (by decide +kernel) (by decide) (by decide) ⟨?_, ?_⟩ n verbose).yes ⟨?_, ?_⟩ <;> (simp only [bound_same]; decide)

/-- `2x+2<0,x+1<0` and `2x+2<0,x+1\leq0` are not. -/
example (n : Nat) (verbose : Bool) : Always (isEquiv funEnv (n + 4) (some s%"2x+2<0,x+1<0") (some s%"2x+2<0,x+1\\leq0") verbose) false := by
  refine (bound_lists (as := [s%"2x+2<0", s%"x+1<0"]) (bs := [s%"2x+2<0", s%"x+1\\leq0"]) (by decide +kernel) (by decide +kernel)
    (by decide +kernel) (by decide) (by decide) ⟨?_, ?_⟩ n verbose).no ?_
  · simp only [bound_same]; decide
  · simp only [bound_same]; decide
  · simp only [Paired, bound_same]; decide

/-- The matrices of `x+1<0`, `x+1\leq0`, `2x+2<0`, `x+1<0` and of `0>x+1`, `x+1\leq0`, `2x+2<0`, `0>x+1` are judged equivalent. -/
example (n : Nat) (verbose : Bool) : Always (isEquiv funEnv (n + 4)
    (some (spellEnv s%"p" s%"p" [[s%"x+1<0", s%"x+1\\leq0"], [s%"2x+2<0", s%"x+1<0"]]))
    (some (spellEnv s%"b" s%"b" [[s%"0>x+1", s%"x+1\\leq0"], [s%"2x+2<0", s%"0>x+1"]])) verbose) true := by
  refine (C122_systems_partial (nodeLib_sound _ none _) grammarLib_parse funEnv_uses funEnv_relations funEnv_arith inequalityOf
    (cells22 (by decide +kernel)) (cells22 (by decide +kernel)) lower_p lower_p lower_b lower_b
    (fun a h => bound_inequality a (by revert h; simp; tauto)) (fun b h => bound_inequality b (by revert h; simp; tauto))
    (fun a _ b _ => (Classical.em _).imp ((bound_cases a b).1) ((bound_cases a b).2)) n verbose).yes (.inl ?_)
  simp only [bound_same]
  decide

/-- `x+1>0` -/
theorem more_answer : InequalityAnswer funEnv grammarLib 0 reals asFun IsFun s%"x+1>0" true [s%"x"] (fun ρ => ρ s%"x" + 1) (fun _ => 0)
    fun ρ => 0 - (ρ s%"x" + 1) :=
  ⟨.inr ⟨statement_of (o := .mark '>') (by decide +kernel) (singleB_sound (by decide +kernel)) (by decide +kernel) (by decide +kernel)
    (by decide) plus_denotes zero_denotes (funEnv_sub (supports_x (h := fun x => 0 - (x + 1)) (by norm_num)) (by simp)), rfl⟩,
    by simp, by simp [funEnv]⟩

/-- **C122**, refuted for the words: "`x+1<0` and `x+1>0`" holds for no number, "`x+1<0` or `x+1>0`" for all but one, and they are judged
equivalent whatever the CAS does. -/
theorem C122_words_refuted :
    (∀ {X V S : Type} (E : Env X V S), StrTotal E → ∀ n verbose,
      Always (isEquiv E (n + 2) (some s%"x+1<0 and x+1>0") (some s%"x+1<0 or x+1>0") verbose) true) ∧
    ∃ f g d e : (Str → ℝ) → ℝ, InequalityAnswer funEnv grammarLib 0 reals asFun IsFun s%"x+1<0" true [s%"x"] f g d ∧
      InequalityAnswer funEnv grammarLib 0 reals asFun IsFun s%"x+1>0" true [s%"x"] f g e ∧
      ¬ ∀ ρ, (f ρ < g ρ ∧ f ρ > g ρ) ↔ (f ρ < g ρ ∨ f ρ > g ρ) := by
  refine ⟨fun E hE n verbose => ?_, _, _, _, _, less_answer, more_answer, fun h => ?_⟩
  · have h1 : AndOrSep s%" and " := .word false 0 s%"and" (.inl rfl)
    have h2 : AndOrSep s%" or " := .word false 0 s%"or" (.inr rfl)
    exact C122_words E hE (a := s%"x+1<0") (b := s%"x+1>0")
      ⟨⟨by decide, by decide +kernel⟩, by decide, by decide, by decide, by decide, by decide⟩
      ⟨⟨by decide, by decide +kernel⟩, by decide, by decide⟩ (by decide) (by decide) (by decide) (piecesB_sound (by decide +kernel))
      (.word h1) (.word h2) n verbose
  · have := (h fun _ => 0).2 (.inr (by norm_num))
    norm_num at this

end Verif.L2S
