import Verif.Props.PointFormulas
/-
The role of chance in the comparison of formulas: which points decide the verdict (C111).
-/

namespace Verif
variable {K : Type} [Field K] [LinearOrder K] [IsStrictOrderedRing K] {X V S : Type}
variable {E : Env X V S} {Is Ev : V → K → Prop} {Fun : V → List Str → ((Str → K) → K) → Prop} (H : FunArith E Is Ev Fun)

/-- the random source returns numbers of this kind -/
def Draws (Is : V → K → Prop) (D : K → Prop) (rng : Ext X V) : Prop := RetP rng fun u => ∃ q, D q ∧ Is u q

omit [Field K] [LinearOrder K] [IsStrictOrderedRing K] in
theorem drawAll_draws {D : K → Prop} {rng : Ext X V} (hr : Draws Is D rng) (ks : List Str) :
    AlwaysP (drawAll rng ks) fun σ => ∀ k ∈ ks, ∃ u, σ.lookup k = some u ∧ ∃ q, D q ∧ Is u q := by
  induction ks with
  | nil => exact AlwaysP.pure (by simp)
  | cons k ks ih =>
    apply hr.always.bind
    intro u hu
    apply ih.bind
    intro σ hσ
    apply AlwaysP.pure
    intro j hj
    rw [List.lookup_cons]
    by_cases e : j = k
    · subst e
      exact ⟨u, by simp, hu⟩
    · rcases List.mem_cons.1 hj with e' | hj
      · exact absurd e' e
      · obtain ⟨v, h1, h2⟩ := hσ j hj
        exact ⟨v, by rw [beq_false_of_ne e]; exact h1, h2⟩

include H

/-- One round of sampling, with numbers of some kind. -/
theorem sampleLoop_draw {gv vv : V} {a b : List Str} {f h : (Str → K) → K} (hg : Fun gv a f) (hv : Fun vv b h)
    {D : K → Prop} (hD : ∀ q, D q → 1 ≤ q ∧ q ≤ 10) {d : K} (hd : D d) {rng : Ext X V} (hr : Draws Is D rng) {l : List Str}
    (hla : ∀ k ∈ a, k ∈ l) (hlb : ∀ k ∈ b, k ∈ l) {r : Bool}
    (hw : ∀ ρ, (∀ k, D (ρ k)) → @decide (WithinTolerance (f ρ) (h ρ)) (Classical.dec _) = r) (n : Nat)
    (ih : r = true → Always (sampleLoop E gv vv rng l n) true) : Always (sampleLoop E gv vv rng l (n + 1)) r := by
  rw [sampleLoop]
  apply (drawAll_draws hr l).always
  intro σ hσ
  classical
  let ρ : Str → K := fun k => if e : ∃ u, σ.lookup k = some u ∧ ∃ q, D q ∧ Is u q then e.choose_spec.2.choose else d
  have hρ : ∀ k ∈ l, ∃ u, σ.lookup k = some u ∧ Is u (ρ k) := by
    intro k hk
    have e := hσ k hk
    refine ⟨e.choose, e.choose_spec.1, ?_⟩
    simp only [ρ, dif_pos e]
    exact e.choose_spec.2.choose_spec.2
  have hs : ∀ k, D (ρ k) := by
    intro k
    by_cases e : ∃ u, σ.lookup k = some u ∧ ∃ q, D q ∧ Is u q
    · simp only [ρ, dif_pos e]
      exact e.choose_spec.2.choose_spec.1
    · simp only [ρ, dif_neg e]
      exact hd
  have he : ∀ {u c k}, Fun u c k → (∀ j ∈ c, j ∈ l) →
      AlwaysP (sympyEvalfAt E u σ) fun o => ∃ y, o = some y ∧ Ev y (k ρ) := by
    intro u c k hu hc
    apply AlwaysP.tryExcept
    apply (H.evalfAt hu σ ρ (fun k => hD _ (hs k)) fun j hj => hρ j (hc j hj)).always.bind
    intro y hy
    exact AlwaysP.pure ⟨y, rfl, hy⟩
  apply (he hg hla).always
  rintro _ ⟨y, rfl, hy⟩
  apply (he hv hlb).always
  rintro _ ⟨z, rfl, hz⟩
  simp only
  apply (H.subEv hy hz).always.always
  intro d hd
  apply (diffEqual_real H.numbers hy hd).always
  intro c hc
  apply hc.bind
  have hw := hw ρ hs
  have e : (decide (f ρ - h ρ = 0 ∨ (f ρ = 0 ∧ |f ρ - h ρ| < 1 / 1000) ∨ (1 ≤ |f ρ| ∧ |f ρ - h ρ| < 5 / 1000) ∨
      (0 < |f ρ| ∧ |f ρ| < 1 ∧ |f ρ - h ρ| / |f ρ| < 1 / 1000))) = r := by
    rw [← hw]
    apply decide_eq_decide.2
    rw [WithinTolerance, sub_eq_zero]
  rw [e]
  cases r with
  | true => simpa using ih rfl
  | false => simpa using Always.pure false

/-- The sampling comparison of functions of the same variables, with numbers of some kind. -/
theorem numericalEqual_draws {gv vv : V} {a b : List Str} {f h : (Str → K) → K} (hg : Fun gv a f) (hv : Fun vv b h)
    {D : K → Prop} (hD : ∀ q, D q → 1 ≤ q ∧ q ≤ 10) {d : K} (hd : D d) {rng : Ext X V} (hr : Draws Is D rng)
    (hab : ∀ k, k ∈ a ↔ k ∈ b) (r : Bool)
    (hw : ∀ ρ, (∀ k, D (ρ k)) → @decide (WithinTolerance (f ρ) (h ρ)) (Classical.dec _) = r) :
    Always (numericalEqual E gv vv rng) r := by
  unfold numericalEqual
  apply (H.freeSyms hg).always.always
  intro l hl
  apply (H.freeSyms hv).always.always
  intro m hm
  have : sameSyms l m = true := by
    simp only [sameSyms, Bool.and_eq_true, List.all_eq_true, List.contains_iff_mem]
    exact ⟨fun k hk => (hm k).2 ((hab k).1 ((hl k).1 hk)), fun k hk => (hl k).2 ((hab k).2 ((hm k).1 hk))⟩
  simp only [this, Bool.not_true, Bool.false_eq_true, if_false]
  apply (H.freeSyms hg).always.always
  intro l hl
  have key : ∀ n, Always (sampleLoop E gv vv rng l (n + 1)) r := by
    intro n
    induction n with
    | zero =>
      exact sampleLoop_draw H hg hv hD hd hr (fun k hk => (hl k).2 hk) (fun k hk => (hl k).2 ((hab k).2 hk)) hw 0 fun _ => Always.pure _
    | succ n ih =>
      exact sampleLoop_draw H hg hv hD hd hr (fun k hk => (hl k).2 hk) (fun k hk => (hl k).2 ((hab k).2 hk)) hw (n + 1)
        fun e => by simpa [e] using ih
  exact key 9

omit [IsStrictOrderedRing K] in
/-- The two stages of sampling: with the first random source, then with the second. -/
theorem numericStage_draws {gv vv : V} {a b : List Str} {f h : (Str → K) → K} (hg : Fun gv a f) (hv : Fun vv b h) (ha : a ≠ [])
    (hb : b ≠ []) {r₁ r₂ : Bool} (h1 : Always (numericalEqual E gv vv E.randint) r₁)
    (h2 : r₁ = false → Always (numericalEqual E gv vv E.uniform) r₂) : Always (numericStage E gv vv) (r₁ || r₂) := by
  have hne : ∀ {l c : List Str}, c ≠ [] → (∀ k, k ∈ l ↔ k ∈ c) → l.isEmpty = false := by
    intro l c hc hl
    obtain ⟨k, hk⟩ := List.exists_mem_of_ne_nil c hc
    have := (hl k).2 hk
    cases l with
    | nil => simp at this
    | cons => rfl
  unfold numericStage
  apply Always.tryExcept
  apply (H.freeSyms hg).always.always
  intro l hl
  simp only [hne ha hl, Bool.not_false, if_true]
  apply Always.bind (a := true)
  · apply (H.freeSyms hv).always.always
    intro m hm
    rw [hne hb hm]
    exact Always.pure _
  simp only [if_true]
  apply h1.bind
  cases r₁ with
  | true => simpa using Always.pure true
  | false => simpa using h2 rfl

/-- From the verdict of the sampling to the verdict on the answers. -/
theorem isEquiv_by_sampling {a b x y : Str} {c d : List Str} {f h : (Str → K) → K} (n : Nat) (verbose : Bool) (sa : strip a = a)
    (sb : strip b = b) (ha : Always (stringNormalize E (n + 1) a) (.str x)) (hb : Always (stringNormalize E (n + 1) b) (.str y))
    (hx : Single x) (hy : Single y) (rx : ReadsFun E Fun x c f) (ry : ReadsFun E Fun y d h) (hc : c ≠ [])
    (hic : ∃ k ∈ c, E.symName k ≠ s%"i") (hid : ∃ k ∈ d, E.symName k ≠ s%"i") {r : Bool}
    (hn : ∀ {g v}, Fun g c f → Fun v d h → Always (numericStage E g v) r) (hr : NearlyConstant (fun ρ => f ρ - h ρ) → r = true) :
    Always (isEquiv E (n + 2) (some a) (some b) verbose) r := by
  have hty : ∀ {u c k}, Fun u c k → Always (getType E u) .expr := by
    intro u c k hu
    unfold getType
    rw [H.view hu]
    exact Always.pure _
  have cas : Always (areEqualUnderSympy E (n + 1) x y verbose) r := by
    unfold areEqualUnderSympy
    apply Always.tryExcept
    unfold areEqualWithSimplify
    apply (sympyParse_real E (fun v h => ⟨_, H.view h⟩) rx.parseExpr rx.l2s).always
    rintro gs ⟨hg1, hg2⟩
    apply (sympyParse_real E (fun v h => ⟨_, H.view h⟩) ry.parseExpr ry.l2s).always
    rintro vs ⟨hv1, hv2⟩
    have main := candsOuter_all (cmp := eqTyped E (areEqual E (n + 1))) (P := (Fun · c f)) (Q := (Fun · d h)) (r := r) (by
        intro g v hg hv
        unfold eqTyped
        apply (hty hg).bind
        apply (hty hv).bind
        have key := areEqual_sampled H n hg hv hc hic hid (P := (· = r)) ((hn hg hv).alwaysP rfl) fun e => (hr e).symm
        intro w
        obtain ⟨_, w', h, rfl⟩ := key w
        exact ⟨w', h⟩) hg1 hg2 hv1 hv2
    cases verbose with
    | false => simpa using main
    | true =>
      intro w
      obtain ⟨w', h⟩ := main { w with out := candsLine :: candsLine :: w.out }
      exact ⟨w', by simpa using h⟩
  by_cases hi : Nonempty (World X)
  swap
  · exact fun w => (hi ⟨w⟩).elim
  obtain ⟨w⟩ := hi
  by_cases hxy : x = y
  · have hw : r = true := by
      have := areEqualUnderSympy_fun H rx rx hc hc hic hic (decided_refl c f) n verbose
      rw [← hxy] at cas
      exact cas.unique w this
    rw [hw]
    show Always (isEquivStr E (n + 2) a b verbose) true
    unfold isEquivStr
    split
    · exact Always.pure _
    · apply ha.bind
      apply hb.bind
      apply print_always
      unfold compareNorms
      simpa [hxy] using Always.pure true
  · by_cases hab : a = b
    · subst hab
      have := ha.unique w hb
      simp only [Norm.str.injEq] at this
      exact absurd this hxy
    · exact isEquiv_single E (n + 1) a b x y verbose _ ha hb hx hy (by rw [sa, sb]; exact hab) hxy cas

end Verif

namespace Verif.L2S
open Verif Verif.Reading Verif.Grammar

section
variable {K : Type} [Field K] [LinearOrder K] [IsStrictOrderedRing K] {X V Y S : Type}
variable {E : Env X V S} {L : Lib Y} {I : Interp K} {Is Ev : V → K → Prop} {Fun : V → List Str → ((Str → K) → K) → Prop}
  {inj : SV → V} {N : Nat}

/-- `random.randint(1, 10)` returns a whole number from 1 to 10 -/
def DrawsIntegers (E : Env X V S) (Is : V → K → Prop) : Prop := Draws Is (fun q => ∃ z : ℤ, (1 ≤ z ∧ z ≤ 10) ∧ q = z) E.randint

/-- The values of all variables are whole numbers from 1 to 10. -/
def OnGrid (ρ : Str → K) : Prop := ∀ k, ∃ z : ℤ, (1 ≤ z ∧ z ≤ 10) ∧ ρ k = z

/-- **C111.**  Two answers that denote functions of the same variables are judged equivalent in every run if the functions agree within the
tolerance wherever the values of the variables are whole numbers from 1 to 10; what they are elsewhere has no influence. -/
theorem C111_integers (H : FunArith E Is Ev Fun) (hri : DrawsIntegers E Is) (hL : SoundLib I L)
    (hp : ∀ s t, parseText s = some t → L.parse s = .ok t) (hl : UsesUndeclared E L N inj I.real) {s t : Str} {a b : List Str}
    {f h : (Str → K) → K} (hs : FunAnswer E I inj Fun s a f) (ht : FunAnswer E I inj Fun t b h) (hab : ∀ k, k ∈ a ↔ k ∈ b)
    (hfh : ∀ ρ, OnGrid ρ → WithinTolerance (f ρ) (h ρ)) (n : Nat) (verbose : Bool) :
    Always (isEquiv E (n + 2) (some s) (some t) verbose) true :=
  isEquiv_by_sampling H n verbose (strip_of_no_space _ fun _ hc => hs.tidy.space hc) (strip_of_no_space _ fun _ hc => ht.tidy.space hc)
    (hs.tidy.fixed E n hs.notInt) (ht.tidy.fixed E n ht.notInt) hs.single ht.single (hs.reads hL hp hl) (ht.reads hL hp hl)
    hs.names hs.notI ht.notI (fun hg hv => numericStage_draws H hg hv hs.names ht.names (r₁ := true) (r₂ := false)
      (numericalEqual_draws H hg hv (by
        rintro q ⟨z, ⟨h1, h2⟩, rfl⟩
        exact ⟨by exact_mod_cast h1, by exact_mod_cast h2⟩) (d := 1) ⟨1, by decide, by simp⟩ hri hab true
        fun ρ hρ => by simpa using hfh ρ hρ) (by simp)) fun _ => rfl

end

/-! ### What the random numbers decide -/

/-- The CAS of functions with random sources that always return `z` and `q`. -/
noncomputable def drawEnv (z : ℤ) (q : ℝ) : Env Unit FV Unit :=
  { funEnv with
    randint := gives (.fn fun _ => z)
    uniform := gives (.fn fun _ => q) }

theorem drawEnv_numbers (z : ℤ) (q : ℝ) : RealArith (drawEnv z q) IsConst IsConst :=
  ⟨funEnv_numbers.view, funEnv_numbers.freeSyms, funEnv_numbers.isNumber, funEnv_numbers.evalf, funEnv_numbers.ev, funEnv_numbers.expandEq,
    funEnv_numbers.sub, funEnv_numbers.isZero, funEnv_numbers.isInteger, funEnv_numbers.abs, funEnv_numbers.ltThr, funEnv_numbers.ge1,
    funEnv_numbers.gt0, funEnv_numbers.div⟩

theorem drawEnv_randint (z : ℤ) (q : ℝ) : Draws IsConst (· = (z : ℝ)) (drawEnv z q).randint := fun x => ⟨_, x, rfl, z, rfl, rfl⟩

theorem drawEnv_uniform (z : ℤ) (q : ℝ) : Draws IsConst (· = q) (drawEnv z q).uniform := fun x => ⟨_, x, rfl, q, rfl, rfl⟩

theorem drawEnv_arith {z : ℤ} {q : ℝ} (hz : 1 ≤ z ∧ z ≤ 10) (hq : 1 ≤ q ∧ q ≤ 10) : FunArith (drawEnv z q) IsConst IsConst IsFun :=
  ⟨drawEnv_numbers z q, funEnv_arith.subEv, funEnv_arith.isZeroIs, funEnv_arith.view, funEnv_arith.freeSyms, funEnv_arith.isNumber,
    funEnv_arith.expandEq, funEnv_arith.sub, funEnv_arith.simplify, funEnv_arith.isZero, funEnv_arith.evalfAt,
    fun x => ⟨_, x, rfl, z, ⟨by exact_mod_cast hz.1, by exact_mod_cast hz.2⟩, rfl⟩, fun x => ⟨_, x, rfl, q, hq, rfl⟩⟩

theorem drawEnv_integers {z : ℤ} (hz : 1 ≤ z ∧ z ≤ 10) (q : ℝ) : DrawsIntegers (drawEnv z q) IsConst :=
  fun x => ⟨_, x, rfl, z, ⟨z, hz, rfl⟩, rfl⟩

theorem drawEnv_uses (z : ℤ) (q : ℝ) : UsesUndeclared (drawEnv z q) grammarLib 0 asFun none := funEnv_uses

theorem FunAnswer.draw {s : Str} {a : List Str} {f : (Str → ℝ) → ℝ} (h : FunAnswer funEnv reals asFun IsFun s a f) (z : ℤ) (q : ℝ) :
    FunAnswer (drawEnv z q) reals asFun IsFun s a f :=
  ⟨h.tidy, h.single, h.notInt, h.denotes, h.value, h.parseExpr, h.names, h.notI⟩

open Classical in
/-- **C111.**  With random numbers that are always the same the verdict on two functions of the same variables is that of the two
points drawn: where all variables have the whole number, and where all have the other number. -/
theorem C111_drawn {z : ℤ} {q : ℝ} (hz : 1 ≤ z ∧ z ≤ 10) (hq : 1 ≤ q ∧ q ≤ 10) {s t : Str} {a b : List Str} {f h : (Str → ℝ) → ℝ}
    (hs : FunAnswer funEnv reals asFun IsFun s a f) (ht : FunAnswer funEnv reals asFun IsFun t b h) (hab : ∀ k, k ∈ a ↔ k ∈ b)
    (hc : ¬ NearlyConstant fun ρ => f ρ - h ρ) (n : Nat) (verbose : Bool) :
    Always (isEquiv (drawEnv z q) (n + 2) (some s) (some t) verbose)
      (decide (WithinTolerance (f fun _ => z) (h fun _ => z) ∨ WithinTolerance (f fun _ => q) (h fun _ => q))) := by
  have H := drawEnv_arith hz hq
  have hs := hs.draw z q
  have ht := ht.draw z q
  have hL := nodeLib_sound (fun _ _ => 0) none
  rw [Bool.decide_or]
  refine isEquiv_by_sampling H n verbose (strip_of_no_space _ fun _ hc => hs.tidy.space hc) (strip_of_no_space _ fun _ hc => ht.tidy.space hc)
    (hs.tidy.fixed _ n hs.notInt) (ht.tidy.fixed _ n ht.notInt) hs.single ht.single
    (hs.reads (nodeLib_sound _ none _) grammarLib_parse (drawEnv_uses z q)) (ht.reads (nodeLib_sound _ none _) grammarLib_parse (drawEnv_uses z q))
    hs.names hs.notI ht.notI (fun hg hv => numericStage_draws H hg hv hs.names ht.names
      (numericalEqual_draws H hg hv (D := (· = (z : ℝ))) ?_ rfl (drawEnv_randint z q) hab _ ?_)
      fun _ => numericalEqual_draws H hg hv (D := (· = q)) ?_ rfl (drawEnv_uniform z q) hab _ ?_) fun e => absurd e hc
  · rintro _ rfl
    exact ⟨by exact_mod_cast hz.1, by exact_mod_cast hz.2⟩
  · intro ρ hρ
    rw [show ρ = fun _ => (z : ℝ) from funext hρ]
  · rintro _ rfl
    exact hq
  · intro ρ hρ
    rw [show ρ = fun _ => q from funext hρ]

/-- **C111.**  Two functions of one variable whose difference is not nearly constant are judged equivalent in every run, whatever
numbers are drawn, if and only if they agree within the tolerance at the whole numbers from 1 to 10. -/
theorem C111_always {s t : Str} {k : Str} {f h : (Str → ℝ) → ℝ} (hs : FunAnswer funEnv reals asFun IsFun s [k] f)
    (ht : FunAnswer funEnv reals asFun IsFun t [k] h) (hf : Supports [k] f) (hh : Supports [k] h)
    (hc : ¬ NearlyConstant fun ρ => f ρ - h ρ) :
    (∀ (z : ℤ) (q : ℝ), (1 ≤ z ∧ z ≤ 10) → (1 ≤ q ∧ q ≤ 10) → ∀ n verbose,
      Always (isEquiv (drawEnv z q) (n + 2) (some s) (some t) verbose) true) ↔
    ∀ z : ℤ, (1 ≤ z ∧ z ≤ 10) → WithinTolerance (f fun _ => z) (h fun _ => z) := by
  constructor
  · intro hall z hz
    have hq : (1 : ℝ) ≤ z ∧ (z : ℝ) ≤ 10 := ⟨by exact_mod_cast hz.1, by exact_mod_cast hz.2⟩
    have h1 := hall z z hz hq 0 false
    have h2 := C111_drawn hz hq hs ht (fun _ => Iff.rfl) hc 0 false
    have := h1.unique ⟨(), []⟩ h2
    simpa using this.symm
  · intro hgrid z q hz hq n verbose
    refine C111_integers (drawEnv_arith hz hq) (drawEnv_integers hz q) (nodeLib_sound _ none _) grammarLib_parse (drawEnv_uses z q)
      (hs.draw z q) (ht.draw z q) (fun _ => Iff.rfl) (fun ρ hρ => ?_) n verbose
    obtain ⟨w, hw, e⟩ := hρ k
    rw [hf.only ρ (fun _ => (w : ℝ)) (by simpa using e), hh.only ρ (fun _ => (w : ℝ)) (by simpa using e)]
    exact hgrid w hw

/-- `x+\sin(x\cdot\pi)` is the function `x + sin (x π)`. -/
theorem wave_answer : FunAnswer funEnv reals asFun IsFun s%"x+\\sin(x\\cdot\\pi)" [s%"x"]
    fun ρ => ρ s%"x" + Real.sin (ρ s%"x" * Real.pi) := by
  refine funAnswer_of (ws := [.letter 'x'] ++ .mark '+' :: (.cmd s%"sin" :: (.mark '(' :: ([.letter 'x'] ++ .cmd s%"cdot" :: [.cmd s%"pi"]) ++
    [.mark ')']))) (by decide +kernel) (singleB_sound (by decide +kernel)) ?_ (by decide +kernel) ?_ ?_ (by simp) (by simp)
  · intro f hf
    rw [pyFloat_none '(' (by simp) (by decide)] at hf
    cases hf
  · intro ρ
    have hx := Denotes.product (o := false) (.factor (.power (.base (var_denotes ρ (c := 'x') (by decide)))))
    have hpi : Denotes (reals.vars ρ) (fun _ => True) (false : Bool) (.signed false) [.cmd s%"pi"] Real.pi := by
      have := Denotes.product (o := false) (.factor (.power (.base (Denotes.pi (I := reals.vars ρ) (free := fun _ => True)
        (wide := ((false : Bool) : Style))))))
      exact this
    have h1 := Denotes.argParens (.term (.mul (o := .cmd s%"cdot") (by decide) (.signed hx) hpi))
    have h2 := Denotes.func (nm := s%"sin") (f := s%"sin") (by decide) h1
    exact .add (letter_denotes ρ (c := 'x') (by decide)) (.signed (.product (o := false) (.factor (.power (.base h2)))))
  · refine supports_x (h := fun x => x + Real.sin (x * Real.pi)) ?_
    simp

/-- **C111**, refuted as a criterion for functions: `x` and `x+\sin(x\cdot\pi)` are different functions — they differ by 1 where `x` is
3/2 — and are judged equivalent in every run, whatever numbers are drawn. -/
theorem C111_refuted : ∃ f h : (Str → ℝ) → ℝ, FunAnswer funEnv reals asFun IsFun s%"x" [s%"x"] f ∧
    FunAnswer funEnv reals asFun IsFun s%"x+\\sin(x\\cdot\\pi)" [s%"x"] h ∧ (f fun _ => 3 / 2) - (h fun _ => 3 / 2) = 1 ∧
    ∀ (z : ℤ) (q : ℝ), (1 ≤ z ∧ z ≤ 10) → (1 ≤ q ∧ q ≤ 10) → ∀ n verbose,
      Always (isEquiv (drawEnv z q) (n + 2) (some s%"x") (some s%"x+\\sin(x\\cdot\\pi)") verbose) true := by
  refine ⟨_, _, x_answer, wave_answer, ?_, ?_⟩
  · have : Real.sin (3 / 2 * Real.pi) = -1 := by
      rw [show 3 / 2 * Real.pi = Real.pi / 2 + Real.pi by ring, Real.sin_add_pi, Real.sin_pi_div_two]
    rw [this]
    ring
  · intro z q hz hq n verbose
    refine C111_integers (drawEnv_arith hz hq) (drawEnv_integers hz q) (nodeLib_sound _ none _) grammarLib_parse (drawEnv_uses z q)
      (x_answer.draw z q) (wave_answer.draw z q) (fun _ => Iff.rfl) (fun ρ hρ => .inl ?_) n verbose
    obtain ⟨w, _, e⟩ := hρ s%"x"
    rw [e, Real.sin_int_mul_pi, add_zero]

/-- **C111**, refuted for single runs: `4x` and `x^{2}+2x` agree where `x` is 2 only; they are judged equivalent in a run in which 2 is
drawn each time, and not in one in which 3 is drawn. -/
theorem C111_chance_refuted (n : Nat) (verbose : Bool) :
    Always (isEquiv (drawEnv 2 2) (n + 2) (some s%"4x") (some s%"x^{2}+2x") verbose) true ∧
    Always (isEquiv (drawEnv 3 3) (n + 2) (some s%"4x") (some s%"x^{2}+2x") verbose) false := by
  have hc : ¬ NearlyConstant fun ρ : Str → ℝ => (((4 : Fin 10).val : ℕ) : ℝ) * ρ s%"x" - (ρ s%"x" ^ 2 + 2 * ρ s%"x") := by
    rintro ⟨q, _, h⟩
    have h0 := h fun _ => 0
    have h1 := h fun _ => 1
    norm_num at h0 h1
    linarith
  have h4 := multiple_answer 4 (by decide) 'x' (.inl rfl)
  rw [show [digitChar (4 : Fin 10).val, 'x'] = s%"4x" by decide +kernel] at h4
  constructor
  · refine (C111_drawn (z := 2) (q := 2) (by decide) (by norm_num) h4 sum_answer (fun _ => Iff.rfl) hc n verbose).yes (.inl (.inl ?_))
    norm_num
  · refine (C111_drawn (z := 3) (q := 3) (by decide) (by norm_num) h4 sum_answer (fun _ => Iff.rfl) hc n verbose).no ?_
    norm_num [WithinTolerance]

/-- The hypotheses of `C111_always` are met: `4x` and `x^{2}+2x` are not judged equivalent in every run, since they differ at 1. -/
example : ¬ ∀ (z : ℤ) (q : ℝ), (1 ≤ z ∧ z ≤ 10) → (1 ≤ q ∧ q ≤ 10) → ∀ n verbose,
    Always (isEquiv (drawEnv z q) (n + 2) (some s%"4x") (some s%"x^{2}+2x") verbose) true := by
  have h4 := multiple_answer 4 (by decide) 'x' (.inl rfl)
  rw [show [digitChar (4 : Fin 10).val, 'x'] = s%"4x" by decide +kernel] at h4
  rw [C111_always h4 sum_answer (supports_x (h := fun x => (((4 : Fin 10).val : ℕ) : ℝ) * x) (by norm_num))
    (supports_x (h := fun x => x ^ 2 + 2 * x) (by norm_num))]
  · intro h
    have := h 1 (by decide)
    norm_num [WithinTolerance] at this
  · rintro ⟨q, _, h⟩
    have h0 := h fun _ => 0
    have h1 := h fun _ => 1
    norm_num at h0 h1
    linarith

end Verif.L2S
