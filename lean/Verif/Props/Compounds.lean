import Verif.Props.Complexes
import Verif.Props.MatrixAnswers
/-
Lists and matrices of formulas and of complex numbers are judged element by element (C108).
-/

namespace Verif.L2S
open Verif Verif.Reading Verif.Grammar

section
variable {K : Type} [Field K] [LinearOrder K] [IsStrictOrderedRing K] {X V Y S : Type}

/-- Answers with and without variables: `Formula s a f` says that `s` denotes the function `f` of the variables `a`. -/
inductive Formula (E : Env X V S) (I : Interp K) (inj : SV → V) (Is : V → K → Prop) (Fun : V → List Str → ((Str → K) → K) → Prop) :
    Str → List Str → ((Str → K) → K) → Prop
  | number {s q} : NumAnswer E I inj Is s q → Formula E I inj Is Fun s [] fun _ => q
  | function {s a f} : FunAnswer E I inj Fun s a f → Varies f → Formula E I inj Is Fun s a f

/-- The same variables, and values within the tolerance wherever the variables lie between 1 and 10. -/
def SameFormula (p q : List Str × ((Str → K) → K)) : Prop := (∀ k, k ∈ p.1 ↔ k ∈ q.1) ∧ ∀ ρ, Sampled ρ → WithinTolerance (p.2 ρ) (q.2 ρ)

/-- Different numbers; or a number and a function; or functions whose difference is not a constant below 1/1000 and that have different
variables or values outside of the tolerance wherever the variables lie between 1 and 10. -/
inductive OtherFormula (p q : List Str × ((Str → K) → K)) : Prop
  | numbers : p.1 = [] → q.1 = [] → (∀ ρ, ¬ WithinTolerance (p.2 ρ) (q.2 ρ)) → OtherFormula p q
  | mixed : (p.1 = [] ↔ q.1 ≠ []) → OtherFormula p q
  | functions : ¬ NearlyConstant (fun ρ => p.2 ρ - q.2 ρ) →
      ((¬ ∀ k, k ∈ p.1 ↔ k ∈ q.1) ∨ ∀ ρ, Sampled ρ → ¬ WithinTolerance (p.2 ρ) (q.2 ρ)) → OtherFormula p q

theorem sampled_one : Sampled fun _ => (1 : K) := fun _ => ⟨le_refl _, by norm_num⟩

/-- No two formulas are both. -/
theorem OtherFormula.notSame {p q : List Str × ((Str → K) → K)} (h : OtherFormula p q) : ¬ SameFormula p q := by
  rintro ⟨h1, h2⟩
  cases h with
  | numbers _ _ h => exact h _ (h2 _ sampled_one)
  | mixed h =>
    cases hp : p.1 with
    | nil =>
      have hq := h.1 hp
      obtain ⟨k, hk⟩ := List.exists_mem_of_ne_nil _ hq
      have := (h1 k).2 hk
      rw [hp] at this
      cases this
    | cons k l =>
      have hq : q.1 = [] := by
        by_contra hq
        rw [h.2 hq] at hp
        cases hp
      have := (h1 k).1 (by simp [hp])
      rw [hq] at this
      cases this
  | functions _ h =>
    rcases h with h | h
    · exact h h1
    · exact h _ sampled_one (h2 _ sampled_one)

variable {E : Env X V S} {L : Lib Y} {I : Interp K} {Is Ev : V → K → Prop} {Fun : V → List Str → ((Str → K) → K) → Prop}
  {inj : SV → V} {N : Nat}

open Classical in
/-- Two numbers among answers with variables. -/
theorem judged_numbers (H : RealArith E Is Ev) (hL : SoundLib I L)
    (hp : ∀ s t, parseText s = some t → L.parse s = .ok t) (hl : UsesUndeclared E L N inj I.real) (hE : PrintsIntegers E)
    (hlit : ∀ l : Literal, Valued E I inj Is l.text (l.value : K)) {s t : Str} {p q : K}
    (hs : NumAnswer E I inj Is s p) (ht : NumAnswer E I inj Is t q) (n : Nat) (verbose : Bool) :
    Always (isEquiv E (n + 2) (some s) (some t) verbose) (decide (WithinTolerance p q)) := by
  obtain ⟨sa, x, na, hx, rx⟩ := hs.normal hL hp hl hE hlit n
  obtain ⟨sb, y, nb, hy, ry⟩ := ht.normal hL hp hl hE hlit n
  convert isEquiv_by_real H n verbose sa sb na nb hx hy rx ry

open Classical in
/-- Two formulas that are alike or unlike are judged so. -/
theorem judged_formulas (H : FunArith E Is Ev Fun) (Mx : MixedArith E Is Ev Fun) (hL : SoundLib I L)
    (hp : ∀ s t, parseText s = some t → L.parse s = .ok t) (hl : UsesUndeclared E L N inj I.real) (hE : PrintsIntegers E)
    (hlit : ∀ l : Literal, Valued E I inj Is l.text (l.value : K)) {s t : Str} {a b : List Str} {f h : (Str → K) → K}
    (hs : Formula E I inj Is Fun s a f) (ht : Formula E I inj Is Fun t b h) (hd : SameFormula (a, f) (b, h) ∨ OtherFormula (a, f) (b, h)) (n : Nat)
    (verbose : Bool) : Always (isEquiv E (n + 2) (some s) (some t) verbose) (decide (SameFormula (a, f) (b, h))) := by
  cases hs with
  | number hs =>
    cases ht with
    | number ht =>
      have := judged_numbers H.numbers hL hp hl hE hlit hs ht n verbose
      convert this using 2
      exact ⟨fun h => h.2 _ sampled_one, fun h => ⟨fun _ => Iff.rfl, fun _ _ => h⟩⟩
    | function ht hv =>
      rw [decide_eq_false (OtherFormula.notSame (.mixed ⟨fun _ => ht.names, fun _ => rfl⟩))]
      exact (C106_number_function_partial H Mx hL hp hl hE hlit hs ht hv n verbose).1
  | function hs hv =>
    cases ht with
    | number ht =>
      rw [decide_eq_false (OtherFormula.notSame (.mixed ⟨fun e => absurd e hs.names, fun e => absurd rfl e⟩))]
      exact (C106_number_function_partial H Mx hL hp hl hE hlit ht hs hv n verbose).2
    | function ht hv' =>
      rcases hd with hd | hd
      · rw [decide_eq_true hd]
        exact C94_same_partial H hL hp hl hs ht hd.1 hd.2 n verbose
      · rw [decide_eq_false hd.notSame]
        cases hd with
        | numbers e => exact absurd e hs.names
        | mixed e => exact absurd (e.2 ht.names) hs.names
        | functions h1 h2 => exact C94_apart_partial H hL hp hl hs ht h1 h2 n verbose

open Classical in
/-- **C108.**  Two lists of formulas — in round or square brackets or without brackets — are judged equivalent exactly if they are
written with the same brackets and corresponding formulas have the same variables and values: in order if in brackets, in any order if
not.  `val` gives the variables and the functions that the elements denote.  Missing: pairs of formulas that agree at some, but not all,
of the points where the variables lie between 1 and 10, and pairs in brackets, which are also read as intervals. -/
theorem C108_lists_partial (H : FunArith E Is Ev Fun) (Mx : MixedArith E Is Ev Fun) (hL : SoundLib I L)
    (hp : ∀ s t, parseText s = some t → L.parse s = .ok t) (hl : UsesUndeclared E L N inj I.real) (hE : PrintsIntegers E)
    (hlit : ∀ l : Literal, Valued E I inj Is l.text (l.value : K)) {as bs : List Str} {f f' : Verif.Frame}
    (val : Str → List Str × ((Str → K) → K)) (pa : Pieces as) (pb : Pieces bs) (hf : f ≠ some .curly) (hf' : f' ≠ some .curly)
    (h3 : 3 ≤ as.length ∨ 3 ≤ bs.length ∨ hasBracket (f.text as) = false)
    (ha : ∀ a ∈ as, Formula E I inj Is Fun a (val a).1 (val a).2) (hb : ∀ b ∈ bs, Formula E I inj Is Fun b (val b).1 (val b).2)
    (hd : ∀ a ∈ as, ∀ b ∈ bs, SameFormula (val a) (val b) ∨ OtherFormula (val a) (val b))
    (ho : f = none → f' = none → OneToOne (fun a b => SameFormula (val a) (val b)) as bs) (n : Nat) (verbose : Bool) :
    Always (isEquiv E (n + 3) (some (f.text as)) (some (f'.text bs)) verbose)
      (decide (f = f' ∧ Agree f (fun a b => SameFormula (val a) (val b)) as bs)) :=
  C95_elementwise pa pb hf hf' h3
    (fun a hm b hm' => judged_formulas H Mx hL hp hl hE hlit (ha a hm) (hb b hm') (hd a hm b hm') n verbose) ho

open Classical in
/-- **C108.**  Two matrices of formulas, in any `matrix` environments, are judged equivalent exactly if they have the same shape — row
vectors being column vectors — and corresponding entries have the same variables and values.  Missing: entries that agree at some, but
not all, of the points where the variables lie between 1 and 10. -/
theorem C108_matrices_partial (H : FunArith E Is Ev Fun) (Mx : MixedArith E Is Ev Fun) (hL : SoundLib I L)
    (hp : ∀ s t, parseText s = some t → L.parse s = .ok t) (hl : UsesUndeclared E L N inj I.real) (hE : PrintsIntegers E)
    (hlit : ∀ l : Literal, Valued E I inj Is l.text (l.value : K)) {as bs : List (List Str)} {na na' nb nb' : Str}
    (val : Str → List Str × ((Str → K) → K)) (pa : CellArray as) (pb : CellArray bs)
    (hna : LowerName na) (hna' : LowerName na') (hnb : LowerName nb) (hnb' : LowerName nb')
    (ha : ∀ a ∈ as.flatten, Formula E I inj Is Fun a (val a).1 (val a).2)
    (hb : ∀ b ∈ bs.flatten, Formula E I inj Is Fun b (val b).1 (val b).2)
    (hd : ∀ a ∈ as.flatten, ∀ b ∈ bs.flatten, SameFormula (val a) (val b) ∨ OtherFormula (val a) (val b)) (n : Nat) (verbose : Bool) :
    Always (isEquiv E (n + 3) (some (spellEnv na na' as)) (some (spellEnv nb nb' bs)) verbose)
      (decide (EntriesAgree (fun a b => SameFormula (val a) (val b)) as bs)) :=
  C96_entrywise pa pb hna hna' hnb hnb'
    (fun a hm b hm' => judged_formulas H Mx hL hp hl hE hlit (ha a hm) (hb b hm') (hd a hm b hm') n false) verbose

end

section
variable {X V Y S : Type} {E : Env X V S} {L : Lib Y} {I : Interp ℂ} {Is Ev : V → ℝ → Prop} {Cx Nc : V → ℂ → Prop} {inj : SV → V} {N : Nat}

open Classical in
/-- **C108.**  Two lists of complex numbers — in round or square brackets or without brackets — are judged equivalent exactly if they are
written with the same brackets and the real and imaginary parts of corresponding elements agree within the tolerance: in order if in
brackets, in any order if not.  Missing: pairs in brackets, which are also read as intervals. -/
theorem C108_complex_lists_partial (H : ComplexArith E Is Ev Cx Nc) (hL : SoundLib I L)
    (hp : ∀ s t, parseText s = some t → L.parse s = .ok t) (hl : UsesUndeclared E L N inj I.real) (hE : PrintsIntegers E)
    (hlit : ReadsLiterals E I inj Is) {as bs : List Str} {f f' : Verif.Frame} (val : Str → ℂ) (pa : Pieces as) (pb : Pieces bs)
    (hf : f ≠ some .curly) (hf' : f' ≠ some .curly) (h3 : 3 ≤ as.length ∨ 3 ≤ bs.length ∨ hasBracket (f.text as) = false)
    (ha : ∀ a ∈ as, CpxAnswer E I inj Is Cx a (val a)) (hb : ∀ b ∈ bs, CpxAnswer E I inj Is Cx b (val b))
    (ho : f = none → f' = none → OneToOne (fun a b => PartsAgree (val a) (val b)) as bs) (n : Nat) (verbose : Bool) :
    Always (isEquiv E (n + 5) (some (f.text as)) (some (f'.text bs)) verbose)
      (decide (f = f' ∧ Agree f (fun a b => PartsAgree (val a) (val b)) as bs)) :=
  C95_elementwise (n := n + 2) pa pb hf hf' h3
    (fun a hm b hm' => C107_complex_partial H hL hp hl hE hlit (ha a hm) (hb b hm') n verbose) ho

open Classical in
/-- **C108.**  Two matrices of complex numbers, in any `matrix` environments, are judged equivalent exactly if they have the same shape —
row vectors being column vectors — and the real and imaginary parts of corresponding entries agree within the tolerance. -/
theorem C108_complex_matrices_partial (H : ComplexArith E Is Ev Cx Nc) (hL : SoundLib I L)
    (hp : ∀ s t, parseText s = some t → L.parse s = .ok t) (hl : UsesUndeclared E L N inj I.real) (hE : PrintsIntegers E)
    (hlit : ReadsLiterals E I inj Is) {as bs : List (List Str)} {na na' nb nb' : Str} (val : Str → ℂ) (pa : CellArray as) (pb : CellArray bs)
    (hna : LowerName na) (hna' : LowerName na') (hnb : LowerName nb) (hnb' : LowerName nb')
    (ha : ∀ a ∈ as.flatten, CpxAnswer E I inj Is Cx a (val a)) (hb : ∀ b ∈ bs.flatten, CpxAnswer E I inj Is Cx b (val b)) (n : Nat)
    (verbose : Bool) : Always (isEquiv E (n + 5) (some (spellEnv na na' as)) (some (spellEnv nb nb' bs)) verbose)
      (decide (EntriesAgree (fun a b => PartsAgree (val a) (val b)) as bs)) :=
  C96_entrywise (n := n + 2) pa pb hna hna' hnb hnb'
    (fun a hm b hm' => C107_complex_partial H hL hp hl hE hlit (ha a hm) (hb b hm') n false) verbose

end

/-! ### The hypotheses are met -/

open Classical in
theorem funEnv_lists {as bs : List Str} {f f' : Verif.Frame} (val : Str → List Str × ((Str → ℝ) → ℝ)) (pa : Pieces as) (pb : Pieces bs)
    (hf : f ≠ some .curly) (hf' : f' ≠ some .curly) (h3 : 3 ≤ as.length ∨ 3 ≤ bs.length ∨ hasBracket (f.text as) = false)
    (ha : ∀ a ∈ as, Formula funEnv reals asFun IsConst IsFun a (val a).1 (val a).2)
    (hb : ∀ b ∈ bs, Formula funEnv reals asFun IsConst IsFun b (val b).1 (val b).2)
    (hd : ∀ a ∈ as, ∀ b ∈ bs, SameFormula (val a) (val b) ∨ OtherFormula (val a) (val b))
    (ho : f = none → f' = none → OneToOne (fun a b => SameFormula (val a) (val b)) as bs) (n : Nat) (verbose : Bool) :
    Always (isEquiv funEnv (n + 3) (some (f.text as)) (some (f'.text bs)) verbose)
      (decide (f = f' ∧ Agree f (fun a b => SameFormula (val a) (val b)) as bs)) :=
  C108_lists_partial funEnv_arith funEnv_mixed (nodeLib_sound _ none _) grammarLib_parse funEnv_uses funEnv_prints
    (fun _ => funEnv_valued _ _) val pa pb hf hf' h3 ha hb hd ho n verbose

open Classical in
theorem funEnv_matrices {as bs : List (List Str)} {na na' nb nb' : Str}
    (val : Str → List Str × ((Str → ℝ) → ℝ)) (pa : CellArray as) (pb : CellArray bs)
    (hna : LowerName na) (hna' : LowerName na') (hnb : LowerName nb) (hnb' : LowerName nb')
    (ha : ∀ a ∈ as.flatten, Formula funEnv reals asFun IsConst IsFun a (val a).1 (val a).2)
    (hb : ∀ b ∈ bs.flatten, Formula funEnv reals asFun IsConst IsFun b (val b).1 (val b).2)
    (hd : ∀ a ∈ as.flatten, ∀ b ∈ bs.flatten, SameFormula (val a) (val b) ∨ OtherFormula (val a) (val b)) (n : Nat) (verbose : Bool) :
    Always (isEquiv funEnv (n + 3) (some (spellEnv na na' as)) (some (spellEnv nb nb' bs)) verbose)
      (decide (EntriesAgree (fun a b => SameFormula (val a) (val b)) as bs)) :=
  C108_matrices_partial funEnv_arith funEnv_mixed (nodeLib_sound _ none _) grammarLib_parse funEnv_uses funEnv_prints
    (fun _ => funEnv_valued _ _) val pa pb hna hna' hnb hnb' ha hb hd n verbose

/-- `2` and multiples of variables -/
noncomputable def termOf (s : Str) : List Str × ((Str → ℝ) → ℝ) :=
  if s = s%"2" then ([], fun _ => 2) else if s = s%"2x" then ([s%"x"], fun ρ => 2 * ρ s%"x") else ([s%"y"], fun ρ => 3 * ρ s%"y")

theorem term_formula : ∀ s ∈ [s%"2", s%"2x", s%"3y"], Formula funEnv reals asFun IsConst IsFun s (termOf s).1 (termOf s).2 := by
  intro s hs
  simp only [List.mem_cons, List.not_mem_nil, or_false] at hs
  rcases hs with rfl | rfl | rfl
  · have h := integer_answer 2 (by decide)
    rw [show intStr 2 = s%"2" by decide +kernel] at h
    simpa [termOf] using Formula.number (Fun := IsFun) h
  · have h := multiple_answer 2 (by decide) 'x' (.inl rfl)
    rw [show [digitChar (2 : Fin 10).val, 'x'] = s%"2x" by decide +kernel] at h
    have := Formula.function (Is := IsConst) h ⟨fun _ => 0, fun _ => 1, by norm_num⟩
    simpa [termOf] using this
  · have h := multiple_answer 3 (by decide) 'y' (.inr rfl)
    rw [show [digitChar (3 : Fin 10).val, 'y'] = s%"3y" by decide +kernel] at h
    have := Formula.function (Is := IsConst) h ⟨fun _ => 0, fun _ => 1, by norm_num⟩
    simpa [termOf] using this

theorem alike_refl {K : Type} [Field K] [LinearOrder K] (p : List Str × ((Str → K) → K)) : SameFormula p p := ⟨fun _ => Iff.rfl, fun _ _ => .inl rfl⟩

theorem terms_apart : OtherFormula (termOf s%"2x") (termOf s%"3y") ∧ OtherFormula (termOf s%"3y") (termOf s%"2x") := by
  have e1 : termOf s%"2x" = ([s%"x"], fun ρ => 2 * ρ s%"x") := by simp [termOf]
  have e2 : termOf s%"3y" = ([s%"y"], fun ρ => 3 * ρ s%"y") := by simp [termOf]
  rw [e1, e2]
  constructor <;> refine .functions ?_ (.inl fun h => by simpa using h s%"x")
  · rintro ⟨q, _, h⟩
    have h0 := h fun _ => 0
    have h1 := h fun _ => 1
    norm_num at h0 h1
    linarith
  · rintro ⟨q, _, h⟩
    have h0 := h fun _ => 0
    have h1 := h fun _ => 1
    norm_num at h0 h1
    linarith

theorem terms_decided : ∀ s ∈ [s%"2", s%"2x", s%"3y"], ∀ t ∈ [s%"2", s%"2x", s%"3y"],
    (s = t ∧ SameFormula (termOf s) (termOf t)) ∨ (s ≠ t ∧ OtherFormula (termOf s) (termOf t)) := by
  intro s hs t ht
  by_cases e : s = t
  · subst e
    exact .inl ⟨rfl, alike_refl _⟩
  refine .inr ⟨e, ?_⟩
  simp only [List.mem_cons, List.not_mem_nil, or_false] at hs ht
  rcases hs with rfl | rfl | rfl <;> rcases ht with rfl | rfl | rfl
  · exact absurd rfl e
  · exact .mixed (by simp [termOf])
  · exact .mixed (by simp [termOf])
  · exact .mixed (by simp [termOf])
  · exact absurd rfl e
  · exact terms_apart.1
  · exact .mixed (by simp [termOf])
  · exact terms_apart.2
  · exact absurd rfl e

theorem terms_alike {s t : Str} (hs : s ∈ [s%"2", s%"2x", s%"3y"]) (ht : t ∈ [s%"2", s%"2x", s%"3y"]) :
    SameFormula (termOf s) (termOf t) ↔ s = t := by
  rcases terms_decided s hs t ht with ⟨h1, h2⟩ | ⟨h1, h2⟩
  · exact ⟨fun _ => h1, fun _ => h2⟩
  · exact ⟨fun h => absurd h h2.notSame, fun h => absurd h h1⟩

/-- The lists `2x,3y,2` and `2,2x,3y` are judged equivalent: there are no brackets, so the order does not matter. -/
example (n : Nat) (verbose : Bool) : Always (isEquiv funEnv (n + 3) (some s%"2x,3y,2") (some s%"2,2x,3y") verbose) true := by
  have ma : ∀ a ∈ [s%"2x", s%"3y", s%"2"], a ∈ [s%"2", s%"2x", s%"3y"] := by decide
  refine (funEnv_lists (as := [s%"2x", s%"3y", s%"2"]) (bs := [s%"2", s%"2x", s%"3y"]) (f := none) (f' := none) termOf
    (piecesB_sound (by decide +kernel)) (piecesB_sound (by decide +kernel)) (by simp) (by simp) (.inl (by simp))
    (fun a h => term_formula a (ma a h)) term_formula
    (fun a h b h' => (terms_decided a (ma a h) b h').imp And.right And.right) (fun _ _ => ⟨?_, ?_⟩) n verbose).yes ⟨rfl, ?_, ?_⟩
  · intro a h b h1 b' h2 r1 r2
    exact ((terms_alike (ma a h) h1).1 r1).symm.trans ((terms_alike (ma a h) h2).1 r2)
  · intro a h a' h' b h1 r1 r2
    exact ((terms_alike (ma a h) h1).1 r1).trans ((terms_alike (ma a' h') h1).1 r2).symm
  · exact fun a h => ⟨a, ma a h, alike_refl _⟩
  · exact fun b h => ⟨b, by revert b; decide, alike_refl _⟩

/-- The points `(2x,3y,2)` and `(2,2x,3y)` are not: in brackets the order matters. -/
example (n : Nat) (verbose : Bool) : Always (isEquiv funEnv (n + 3) (some s%"(2x,3y,2)") (some s%"(2,2x,3y)") verbose) false := by
  have ma : ∀ a ∈ [s%"2x", s%"3y", s%"2"], a ∈ [s%"2", s%"2x", s%"3y"] := by decide
  refine (funEnv_lists (as := [s%"2x", s%"3y", s%"2"]) (bs := [s%"2", s%"2x", s%"3y"]) (f := some .round) (f' := some .round) termOf
    (piecesB_sound (by decide +kernel)) (piecesB_sound (by decide +kernel)) (by simp) (by simp) (.inl (by simp))
    (fun a h => term_formula a (ma a h)) term_formula
    (fun a h b h' => (terms_decided a (ma a h) b h').imp And.right And.right) (fun h => nomatch h) n verbose).no ?_
  rintro ⟨-, h⟩
  cases h with
  | cons h _ => exact absurd ((terms_alike (by simp) (by simp)).1 h) (by decide)

/-- The matrices `\begin{pmatrix}2x&2\\3y&2\end{pmatrix}` and `\begin{bmatrix}2x&2\\3y&2\end{bmatrix}` are judged equivalent. -/
example (n : Nat) (verbose : Bool) : Always (isEquiv funEnv (n + 3) (some s%"\\begin{pmatrix}2x&2\\\\3y&2\\end{pmatrix}")
    (some s%"\\begin{bmatrix}2x&2\\\\3y&2\\end{bmatrix}") verbose) true := by
  have ma : ∀ a ∈ [[s%"2x", s%"2"], [s%"3y", s%"2"]].flatten, a ∈ [s%"2", s%"2x", s%"3y"] := by decide
  exact (funEnv_matrices (as := [[s%"2x", s%"2"], [s%"3y", s%"2"]]) (bs := [[s%"2x", s%"2"], [s%"3y", s%"2"]]) termOf
    (cells22 (by decide +kernel)) (cells22 (by decide +kernel)) lower_p lower_p lower_b lower_b
    (fun a h => term_formula a (ma a h)) (fun a h => term_formula a (ma a h))
    (fun a h b h' => (terms_decided a (ma a h) b (ma b h')).imp And.right And.right) n verbose).yes
    (.inl (forall₂_diag fun _ _ => forall₂_diag fun _ _ => alike_refl _))

/-- The transposed matrix is not. -/
example (n : Nat) (verbose : Bool) : Always (isEquiv funEnv (n + 3) (some s%"\\begin{pmatrix}2x&2\\\\3y&2\\end{pmatrix}")
    (some s%"\\begin{pmatrix}2x&3y\\\\2&2\\end{pmatrix}") verbose) false := by
  have ma : ∀ a ∈ [[s%"2x", s%"2"], [s%"3y", s%"2"]].flatten, a ∈ [s%"2", s%"2x", s%"3y"] := by decide
  have mb : ∀ a ∈ [[s%"2x", s%"3y"], [s%"2", s%"2"]].flatten, a ∈ [s%"2", s%"2x", s%"3y"] := by decide
  refine (funEnv_matrices (as := [[s%"2x", s%"2"], [s%"3y", s%"2"]]) (bs := [[s%"2x", s%"3y"], [s%"2", s%"2"]]) termOf
    (cells22 (by decide +kernel)) (cells22 (by decide +kernel)) lower_p lower_p lower_p lower_p
    (fun a h => term_formula a (ma a h)) (fun a h => term_formula a (mb a h))
    (fun a h b h' => (terms_decided a (ma a h) b (mb b h')).imp And.right And.right) n verbose).no ?_
  rintro (h | ⟨h, -⟩)
  · cases h with
    | cons h _ => cases h with
      | cons _ h => cases h with
        | cons h _ => exact absurd ((terms_alike (by simp) (by simp)).1 h) (by decide)
  · revert h
    simp [IsVector]

/-- `2+3i`, `2-3i` and `3i+2` -/
noncomputable def rootOf (s : Str) : ℂ := if s = s%"2-3i" then ⟨2, -3⟩ else ⟨2, 3⟩

theorem cpxRoot_answer : ∀ s ∈ [s%"2+3i", s%"2-3i", s%"3i+2"], CpxAnswer cpxEnv complexes asCpx IsRe WithI s (rootOf s) := by
  intro s hs
  simp only [List.mem_cons, List.not_mem_nil, or_false] at hs
  rcases hs with rfl | rfl | rfl
  · simpa [rootOf] using sum_cpx
  · simpa [rootOf] using diff_cpx
  · simpa [rootOf] using sum_cpx'

theorem roots_agree (s t : Str) : PartsAgree (rootOf s) (rootOf t) ↔ (s = s%"2-3i" ↔ t = s%"2-3i") := by
  unfold rootOf
  by_cases hs : s = s%"2-3i" <;> by_cases ht : t = s%"2-3i" <;>
    simp only [hs, ht, if_true, if_false, iff_true, iff_false, not_true, partsAgree_refl] <;> (
    rintro ⟨_, h⟩
    norm_num [WithinTolerance, abs_of_pos] at h)

/-- The lists `2+3i,2-3i` and `2-3i,3i+2` are judged equivalent. -/
example (n : Nat) (verbose : Bool) : Always (isEquiv cpxEnv (n + 5) (some s%"2+3i,2-3i") (some s%"2-3i,3i+2") verbose) true := by
  refine (C108_complex_lists_partial (as := [s%"2+3i", s%"2-3i"]) (bs := [s%"2-3i", s%"3i+2"]) (f := none) (f' := none)
    cpxEnv_arith complexes_sound grammarLib_parse cpxEnv_uses cpxEnv_prints cpxEnv_literals rootOf (piecesB_sound (by decide +kernel))
    (piecesB_sound (by decide +kernel)) (by simp) (by simp) (.inr (.inr (by decide +kernel)))
    (fun a h => cpxRoot_answer a (by revert a; decide)) (fun a h => cpxRoot_answer a (by revert a; decide)) (fun _ _ => ⟨?_, ?_⟩) n verbose).yes
    ⟨rfl, ?_, ?_⟩
  all_goals
    simp only [roots_agree]
    decide

end Verif.L2S
