import Verif.Props.Compounds
/-
Solutions of systems of equations, `x=1,y=2`, are judged by the right sides only (C109).
-/

namespace Verif.L2S
open Verif Verif.Reading Verif.Grammar

section
variable {K : Type} [Field K] [LinearOrder K] [IsStrictOrderedRing K] {X V Y S : Type}

/-- A number, alone or as the right side of an equation whose left side is a name. -/
inductive Solution (E : Env X V S) (L : Lib Y) (N : Nat) (I : Interp K) (inj : SV → V) (Is : V → K → Prop) : Str → K → Prop
  | number {s q} : NumAnswer E I inj Is s q → Solution E L N I inj Is s q
  | equation {s f q} : Statement E L N I inj s s%"=" f (fun _ => q) (fun l r => Verif.Names E l true ∧ Is r q) → Solution E L N I inj Is s q

variable {E : Env X V S} {L : Lib Y} {I : Interp K} {Is Ev : V → K → Prop} {inj : SV → V} {N : Nat}
  (H : RealArith E Is Ev) (hL : SoundLib I L) (hp : ∀ s t, parseText s = some t → L.parse s = .ok t)
  (hl : UsesUndeclared E L N inj I.real) (hr : SeesRelations E inj) (hE : PrintsIntegers E)
  (hlit : ∀ l : Literal, Valued E I inj Is l.text (l.value : K))
include H hL hp hl hr hE hlit

theorem Solution.normal {s : Str} {q : K} (h : Solution E L N I inj Is s q) (n : Nat) : strip s = s ∧
    ∃ t, Always (stringNormalize E (n + 1) s) (.str t) ∧ Single t ∧ ReadsAs E t (Stated E (Is · q)) := by
  cases h with
  | number h =>
    obtain ⟨h1, t, h2, h3, h4⟩ := h.normal hL hp hl hE hlit n
    refine ⟨h1, t, h2, h3, (sympyParse_real E (fun v h => ⟨_, H.view h⟩) h4.parseExpr h4.l2s).mono ?_⟩
    exact fun vs hv => ⟨fun v hm => .inl (hv.1 v hm), hv.2⟩
  | equation h =>
    exact ⟨strip_of_no_space _ fun _ hc => h.tidy.space hc, s, h.tidy.fixed E n h.notInt, h.single, h.defines hL hp hl hr⟩

open Classical in
/-- **C109.**  A number and an equation that gives a name the value of a number – `x=2` – are judged by the number only, whatever the
name. -/
theorem C109_solution {s t : Str} {p q : K} (hs : Solution E L N I inj Is s p) (ht : Solution E L N I inj Is t q) (n : Nat)
    (verbose : Bool) : Always (isEquiv E (n + 3) (some s) (some t) verbose) (decide (WithinTolerance p q)) := by
  obtain ⟨sa, x, na, hx, rs⟩ := hs.normal H hL hp hl hr hE hlit (n + 1)
  obtain ⟨sb, y, nb, hy, rt⟩ := ht.normal H hL hp hl hr hE hlit (n + 1)
  refine isEquiv_by_cas (n + 2) sa sb na nb hx hy (areEqualUnderSympy_by rs rt ?_ verbose) (areEqualUnderSympy_by rs rs ?_ verbose)
  · intro _ _ hg hv
    exact eqTyped_definitions (fun _ h => H.view h) (fun _ h => H.view h) (fun n _ _ hg hv => areEqual_real H n hg hv) n hg hv
  · intro _ _ hg hv
    refine eqTyped_definitions (fun _ h => H.view h) (fun _ h => H.view h) (fun n _ _ hg hv => ?_) n hg hv
    have := areEqual_real H n hg hv
    rwa [withinTolerance_refl p] at this

open Classical in
/-- **C109.**  Two lists of such solutions, without brackets, are judged by the right sides in any order, whatever the names: they are
equivalent exactly if every value in either list agrees with one in the other list within the tolerance.  `val` gives the values. -/
theorem C109_solutions_partial {as bs : List Str} (val : Str → K) (pa : Pieces as) (pb : Pieces bs)
    (h3 : 3 ≤ as.length ∨ 3 ≤ bs.length ∨ hasBracket (join s%"," as) = false)
    (ha : ∀ a ∈ as, Solution E L N I inj Is a (val a)) (hb : ∀ b ∈ bs, Solution E L N I inj Is b (val b))
    (ho : OneToOne (fun a b => WithinTolerance (val a) (val b)) as bs) (n : Nat) (verbose : Bool) :
    Always (isEquiv E (n + 4) (some (join s%"," as)) (some (join s%"," bs)) verbose)
      (decide ((∀ a ∈ as, ∃ b ∈ bs, WithinTolerance (val a) (val b)) ∧ ∀ b ∈ bs, ∃ a ∈ as, WithinTolerance (val a) (val b))) := by
  have := C95_elementwise (E := E) (f := none) (f' := none) (n := n + 1) (verbose := verbose) pa pb (by simp) (by simp) h3
    (fun a hm b hm' => C109_solution H hL hp hl hr hE hlit (ha a hm) (hb b hm') n verbose) fun _ _ => ho
  rw [decide_eq_decide.2 (show _ ↔ _ from ⟨fun h => ⟨rfl, h⟩, And.right⟩)]
  exact this

end

/-! ### The hypotheses are met -/

/-- an equation of a variable and a digit -/
theorem digit_statement {P : FV → FV → Prop} (c : Char) (hc : c = 'x' ∨ c = 'y') (d : Fin 10)
    (hP : P (.fn fun ρ => ρ [c]) (.fn fun _ => (d.val : ℝ))) :
    Statement funEnv grammarLib 0 reals asFun [c, '=', digitChar d.val] s%"=" (fun ρ => ρ [c]) (fun _ => (d.val : ℝ)) P := by
  refine statement_of (us := [.letter c]) (vs := [.digit d]) (o := .mark '=') ?_ (singleB_sound ?_) ?_ ?_
    (by decide) (fun ρ => letter_denotes ρ (by rcases hc with rfl | rfl <;> decide)) (fun ρ => ?_) hP
  · clear hP; revert d; rcases hc with rfl | rfl <;> decide +kernel
  · clear hP; revert d; rcases hc with rfl | rfl <;> decide +kernel
  · clear hP; revert d; rcases hc with rfl | rfl <;> decide +kernel
  · clear hP; revert d; rcases hc with rfl | rfl <;> decide +kernel
  · have h := digitExpr (I := reals.vars ρ) (free := fun _ => True) (wide := (false : Bool)) d
    have e : (((d.val : ℕ) : ℚ) : ℝ) = (d.val : ℝ) := by push_cast; rfl
    rw [e] at h
    exact h

theorem digit_solution (c : Char) (hc : c = 'x' ∨ c = 'y') (d : Fin 10) :
    Solution funEnv grammarLib 0 reals asFun IsConst [c, '=', digitChar d.val] (d.val : ℝ) :=
  .equation (digit_statement c hc d ⟨funEnv_names ⟨fun _ => ⟨_, rfl⟩, fun _ => rfl⟩, rfl⟩)

/-- the values of `x=1`, `y=2`, `x=2`, `y=1`, `1` and `2` -/
noncomputable def solvedOf (s : Str) : ℝ := if s = s%"x=1" ∨ s = s%"y=1" ∨ s = s%"1" then 1 else 2

theorem solved_solution : ∀ s ∈ [s%"x=1", s%"y=2", s%"x=2", s%"y=1", s%"1", s%"2"],
    Solution funEnv grammarLib 0 reals asFun IsConst s (solvedOf s) := by
  have hx := digit_solution 'x' (.inl rfl)
  have hy := digit_solution 'y' (.inr rfl)
  have hz := fun z hz => integer_answer z hz
  intro s hs
  simp only [List.mem_cons, List.not_mem_nil, or_false] at hs
  rcases hs with rfl | rfl | rfl | rfl | rfl | rfl
  · have := hx 1
    rw [show ['x', '=', digitChar (1 : Fin 10).val] = s%"x=1" by decide +kernel] at this
    simpa [solvedOf] using this
  · have := hy 2
    rw [show ['y', '=', digitChar (2 : Fin 10).val] = s%"y=2" by decide +kernel] at this
    simpa [solvedOf] using this
  · have := hx 2
    rw [show ['x', '=', digitChar (2 : Fin 10).val] = s%"x=2" by decide +kernel] at this
    simpa [solvedOf] using this
  · have := hy 1
    rw [show ['y', '=', digitChar (1 : Fin 10).val] = s%"y=1" by decide +kernel] at this
    simpa [solvedOf] using this
  · have := hz 1 (by decide)
    rw [show intStr 1 = s%"1" by decide +kernel] at this
    exact .number (by simpa [solvedOf] using this)
  · have := hz 2 (by decide)
    rw [show intStr 2 = s%"2" by decide +kernel] at this
    exact .number (by simpa [solvedOf] using this)

theorem solved_within (s t : Str) : WithinTolerance (solvedOf s) (solvedOf t) ↔
    ((s = s%"x=1" ∨ s = s%"y=1" ∨ s = s%"1") ↔ (t = s%"x=1" ∨ t = s%"y=1" ∨ t = s%"1")) := by
  unfold solvedOf
  by_cases hs : s = s%"x=1" ∨ s = s%"y=1" ∨ s = s%"1" <;> by_cases ht : t = s%"x=1" ∨ t = s%"y=1" ∨ t = s%"1" <;>
    simp only [hs, ht, if_true, if_false, iff_true, iff_false, not_true]
  · exact near _
  · norm_num [WithinTolerance, abs_of_pos]
  · norm_num [WithinTolerance, abs_of_pos]
  · exact near _

open Classical in
theorem solved_lists {as bs : List Str} (pa : piecesB as = true) (pb : piecesB bs = true)
    (h3 : hasBracket (join s%"," as) = false)
    (ha : ∀ a ∈ as, a ∈ [s%"x=1", s%"y=2", s%"x=2", s%"y=1", s%"1", s%"2"]) (hb : ∀ b ∈ bs, b ∈ [s%"x=1", s%"y=2", s%"x=2", s%"y=1", s%"1", s%"2"])
    (ho : OneToOne (fun a b => WithinTolerance (solvedOf a) (solvedOf b)) as bs) (n : Nat) (verbose : Bool) :
    Always (isEquiv funEnv (n + 4) (some (join s%"," as)) (some (join s%"," bs)) verbose)
      (decide ((∀ a ∈ as, ∃ b ∈ bs, WithinTolerance (solvedOf a) (solvedOf b)) ∧
        ∀ b ∈ bs, ∃ a ∈ as, WithinTolerance (solvedOf a) (solvedOf b))) :=
  C109_solutions_partial funEnv_numbers (nodeLib_sound _ none _) grammarLib_parse funEnv_uses funEnv_relations funEnv_prints
    (fun _ => funEnv_valued _ _) solvedOf (piecesB_sound pa) (piecesB_sound pb) (.inr (.inr h3)) (fun a h => solved_solution a (ha a h))
    (fun b h => solved_solution b (hb b h)) ho n verbose

/-- `x=1,y=2` and `1,2` are judged equivalent. -/
example (n : Nat) (verbose : Bool) : Always (isEquiv funEnv (n + 4) (some s%"x=1,y=2") (some s%"1,2") verbose) true := by
  refine (solved_lists (as := [s%"x=1", s%"y=2"]) (bs := [s%"1", s%"2"]) (by decide +kernel) (by decide +kernel) (by decide +kernel)
    (by decide) (by decide) ⟨?_, ?_⟩ n verbose).yes ⟨?_, ?_⟩ <;> (simp only [solved_within]; decide)

/-- `x=1` and `y=2` are not. -/
example (n : Nat) (verbose : Bool) : Always (isEquiv funEnv (n + 4) (some s%"x=1") (some s%"y=2") verbose) false :=
  (C109_solution (n := n + 1) funEnv_numbers (nodeLib_sound _ none _) grammarLib_parse funEnv_uses funEnv_relations funEnv_prints
    (fun _ => funEnv_valued _ _) (solved_solution s%"x=1" (by simp)) (solved_solution s%"y=2" (by simp)) verbose).no (by
      rw [solved_within]; decide)

/-- **C109**, refuted: the names are ignored.  `x=1,y=2` and `x=2,y=1` are solutions of different systems – they hold for different
values of the variables – and are always judged equivalent. -/
theorem C109_names_refuted :
    (∀ n verbose, Always (isEquiv funEnv (n + 4) (some s%"x=1,y=2") (some s%"x=2,y=1") verbose) true) ∧
    (∀ s ∈ [(s%"x=1", s%"x", (1 : ℝ)), (s%"y=2", s%"y", 2), (s%"x=2", s%"x", 2), (s%"y=1", s%"y", 1)],
      Statement funEnv grammarLib 0 reals asFun s.1 s%"=" (fun ρ => ρ s.2.1) (fun _ => s.2.2) fun _ _ => True) ∧
    ¬ ∀ ρ : Str → ℝ, ρ s%"x" = 1 ∧ ρ s%"y" = 2 ↔ ρ s%"x" = 2 ∧ ρ s%"y" = 1 := by
  refine ⟨?_, ?_, fun h => ?_⟩
  · intro n verbose
    refine (solved_lists (as := [s%"x=1", s%"y=2"]) (bs := [s%"x=2", s%"y=1"]) (by decide +kernel) (by decide +kernel) (by decide +kernel)
      (by decide) (by decide) ⟨?_, ?_⟩ n verbose).yes ⟨?_, ?_⟩ <;> (simp only [solved_within]; decide)
  · have key : ∀ c, c = 'x' ∨ c = 'y' → ∀ d : Fin 10, Statement funEnv grammarLib 0 reals asFun [c, '=', digitChar d.val] s%"=" (fun ρ => ρ [c])
        (fun _ => (d.val : ℝ)) fun _ _ => True := fun c hc d => digit_statement c hc d trivial
    have h1 := key 'x' (.inl rfl) 1
    have h2 := key 'y' (.inr rfl) 2
    have h3 := key 'x' (.inl rfl) 2
    have h4 := key 'y' (.inr rfl) 1
    rw [show digitChar (1 : Fin 10).val = '1' by decide +kernel] at h1 h4
    rw [show digitChar (2 : Fin 10).val = '2' by decide +kernel] at h2 h3
    intro s hs
    simp only [List.mem_cons, List.not_mem_nil, or_false] at hs
    rcases hs with rfl | rfl | rfl | rfl
    · simpa using h1
    · simpa using h2
    · simpa using h3
    · simpa using h4
  · have := (h fun k => if k = s%"x" then 1 else 2).1 ⟨by simp, by simp⟩
    norm_num at this

end Verif.L2S
