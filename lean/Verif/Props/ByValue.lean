import Verif.Props.Tidy
import Verif.Props.L2SNumbers
/-
The verdict on two answers that read as real numbers, for a CAS in which one number has many representations.
-/

namespace Verif
open Re

variable {X V S : Type}

/-- The library call returns something satisfying `P` whatever the state. -/
def RetP {α : Type} (e : Ext X α) (P : α → Prop) : Prop := ∀ x, ∃ a x', e x = (.ok a, x') ∧ P a

theorem RetP.always {α : Type} {e : Ext X α} {P : α → Prop} (h : RetP e P) : AlwaysP (M.ext e) P := by
  intro w
  obtain ⟨a, x', hx, ha⟩ := h w.ext
  exact ⟨a, { w with ext := x' }, by simp [M.ext, hx], ha⟩

theorem AlwaysP.tryExcept {α : Type} {m : M X α} {P : α → Prop} (h : AlwaysP m P) (k : PyErr → M X α) :
    AlwaysP (M.tryExcept m k) P := by
  intro w
  obtain ⟨a, w₁, h1, ha⟩ := h w
  exact ⟨a, w₁, by simp [h1], ha⟩

theorem AlwaysP.mono {α : Type} {m : M X α} {P Q : α → Prop} (h : AlwaysP m P) (hpq : ∀ a, P a → Q a) : AlwaysP m Q := by
  intro w
  obtain ⟨a, w₁, h1, ha⟩ := h w
  exact ⟨a, w₁, h1, hpq a ha⟩

section
variable {K : Type} [Field K] [LinearOrder K] [IsStrictOrderedRing K]

/-- The CAS computes exactly on real numbers: `Is v q` says that the expression `v` is the real number `q`, `Ev v q` that it is
the result of evaluating such an expression.  This is what SymPy does, except that its floating-point evaluation is replaced by
exact arithmetic.  `is_Integer` is asked after evaluation, when only zero still is an `Integer`. -/
structure RealArith (E : Env X V S) (Is Ev : V → K → Prop) : Prop where
  view : ∀ {v q}, Is v q → E.view v = .expr false
  freeSyms : ∀ {v q}, Is v q → Ret (E.freeSyms v) []
  isNumber : ∀ {v q}, Is v q → Ret (E.isNumber v) true
  evalf : ∀ {v q}, Is v q → RetP (E.evalf v) (Ev · q)
  ev : ∀ {v q}, Ev v q → Is v q
  expandEq : ∀ {a b p q}, Ev a p → Ev b q → Ret (E.expandEq a b) (decide (p = q))
  sub : ∀ {a b p q}, Ev a p → Ev b q → RetP (E.sub a b) (Is · (p - q))
  isZero : ∀ {v q}, Ev v q → Ret (E.isZeroExpr v) (decide (q = 0))
  isInteger : ∀ {v q}, Ev v q → Ret (E.isInteger v) (decide (q = 0))
  abs : ∀ {v q}, Is v q → RetP (E.abs v) (Is · |q|)
  ltThr : ∀ {v q} (r : Rat), Is v q → RetP (E.ltThr v r) fun c => Ret (E.truth c) (decide (q < (r : K)))
  ge1 : ∀ {v q}, Is v q → Ret (E.ge1 v) (decide (1 ≤ q))
  gt0 : ∀ {v q}, Is v q → Ret (E.gt0 v) (decide (0 < q))
  div : ∀ {a b p q}, Ev a p → Ev b q → q ≠ 0 → RetP (E.div a b) (Is · (p / q))

variable {E : Env X V S} {Is Ev : V → K → Prop} (H : RealArith E Is Ev)
include H

omit [IsStrictOrderedRing K] in
theorem sympyAbs_real {v : V} {q : K} (h : Is v q) : AlwaysP (sympyAbs E v) (Is · |q|) :=
  (H.abs h).always.tryExcept _

omit [IsStrictOrderedRing K] in
theorem absSmaller_real {v : V} {q : K} (hv : Is v q) (r : Rat) :
    AlwaysP (absSmaller E v r) fun c => Always (c.test E) (decide (|q| < (r : K))) := by
  apply AlwaysP.tryExcept
  apply (sympyAbs_real H hv).bind
  intro a ha
  apply (H.ltThr r ha).always.bind
  intro c hc
  apply AlwaysP.bind (hc.always.alwaysP (P := (· = decide (|q| < (r : K)))) rfl)
  rintro _ rfl
  by_cases h : |q| < (r : K)
  · simp only [h, decide_true, if_true]
    apply AlwaysP.pure
    have := hc.always
    rw [decide_eq_true h] at this
    exact this
  · simp only [h, decide_false, Bool.false_eq_true, if_false]
    apply AlwaysP.bind (P := fun o => ∃ b, o = some b ∧ Is b |q|)
    · apply AlwaysP.tryExcept
      apply (H.evalf ha).always.bind
      intro b hb
      exact AlwaysP.pure ⟨b, rfl, H.ev hb⟩
    · rintro _ ⟨b, rfl, hb⟩
      apply (H.ltThr r hb).always.bind
      intro c hc
      apply AlwaysP.pure
      have := hc.always
      rw [decide_eq_false h] at this
      exact this

omit H in
theorem Always.bindP {α β : Type} {m : M X α} {f : α → M X β} {a : α} {P : β → Prop} (h : Always m a) (h' : AlwaysP (f a) P) :
    AlwaysP (m >>= f) P := by
  intro w
  obtain ⟨w₁, h1⟩ := h w
  obtain ⟨b, w₂, h2, hb⟩ := h' w₁
  exact ⟨b, w₂, by simp [h1, h2], hb⟩

theorem diffEqual_real {gv dv : V} {g d : K} (hg : Ev gv g) (hd' : Ev dv d) :
    AlwaysP (diffEqual E gv dv) fun c => Always (c.test E) (decide (d = 0 ∨ (g = 0 ∧ |d| < 1 / 1000) ∨
      (1 ≤ |g| ∧ |d| < 5 / 1000) ∨ (0 < |g| ∧ |g| < 1 ∧ |d| / |g| < 1 / 1000))) := by
  have hz : Always (isSympyZero E dv) (decide (d = 0)) := by
    unfold isSympyZero; rw [H.view (H.ev hd')]; exact (H.isZero hd').always
  unfold diffEqual
  apply hz.bindP
  by_cases hd : d = 0
  · simp only [hd, decide_true, if_true, true_or]
    exact AlwaysP.pure (Always.pure _)
  · simp only [hd, decide_false, Bool.false_eq_true, if_false]
    apply (H.isNumber (H.ev hd')).always.bindP
    simp only [if_true]
    apply (H.freeSyms (H.ev hg)).always.bindP
    simp only [List.isEmpty_nil, Bool.not_true, Bool.false_eq_true, if_false]
    apply (H.isInteger hg).always.bindP
    by_cases hg0 : g = 0
    · simp only [hg0, decide_true, if_true]
      apply (absSmaller_real H (H.ev hd') epsilon).mono
      intro c h2
      have e : (decide (|d| < ((epsilon : Rat) : K))) = decide (d = 0 ∨ (g = 0 ∧ |d| < 1 / 1000) ∨
          (1 ≤ |g| ∧ |d| < 5 / 1000) ∨ (0 < |g| ∧ |g| < 1 ∧ |d| / |g| < 1 / 1000)) := by
        apply decide_eq_decide.2
        have : ((epsilon : Rat) : K) = 1 / 1000 := by norm_num [epsilon]
        rw [this]
        simp only [hd, hg0, abs_zero, false_or, true_and, lt_irrefl, false_and, or_false]
        have : ¬ (1 : K) ≤ 0 := not_le.2 one_pos
        simp [this]
      rw [e] at h2
      simpa [hg0, hd] using h2
    · have hpos : 0 < |g| := abs_pos.2 hg0
      simp only [hg0, decide_false, Bool.false_eq_true, if_false]
      apply (sympyAbs_real H (H.ev hg)).bind
      intro a ha
      apply (H.ge1 ha).always.bindP
      by_cases h1 : 1 ≤ |g|
      · simp only [h1, decide_true, if_true]
        apply (absSmaller_real H (H.ev hd') (5 * epsilon)).mono
        intro c h4
        have e : (decide (|d| < ((5 * epsilon : Rat) : K))) = decide (d = 0 ∨ (g = 0 ∧ |d| < 1 / 1000) ∨
            (1 ≤ |g| ∧ |d| < 5 / 1000) ∨ (0 < |g| ∧ |g| < 1 ∧ |d| / |g| < 1 / 1000)) := by
          apply decide_eq_decide.2
          have : ((5 * epsilon : Rat) : K) = 5 / 1000 := by norm_num [epsilon]
          rw [this]
          have h5 : ¬ |g| < 1 := not_lt.2 h1
          simp only [hd, hg0, h1, h5, false_or, true_and, false_and, and_false, or_false]
        rw [e] at h4
        simpa [hg0, hd, h1] using h4
      · simp only [h1, decide_false, Bool.false_eq_true, if_false]
        apply Always.bindP (a := true)
        · apply (H.isNumber (H.ev hg)).always.bind
          simp only [if_true]
          apply (sympyAbs_real H (H.ev hg)).always
          intro a ha
          have := (H.gt0 ha).always
          simpa [hpos] using this
        · simp only [if_true]
          apply (H.div hd' hg hg0).always.bind
          intro q hq
          apply (absSmaller_real H hq epsilon).mono
          intro c h4
          have e : (decide (|d / g| < ((epsilon : Rat) : K))) = decide (d = 0 ∨ (g = 0 ∧ |d| < 1 / 1000) ∨
              (1 ≤ |g| ∧ |d| < 5 / 1000) ∨ (0 < |g| ∧ |g| < 1 ∧ |d| / |g| < 1 / 1000)) := by
            apply decide_eq_decide.2
            have : ((epsilon : Rat) : K) = 1 / 1000 := by norm_num [epsilon]
            rw [this, abs_div]
            have h5 : |g| < 1 := not_le.1 h1
            simp only [hd, hg0, h1, h5, hpos, false_or, true_and, false_and]
          rw [e] at h4
          simpa [hg0, hd, h1] using h4

/-- The comparison of two expressions that are real numbers. -/
theorem areEqual_real (n : Nat) {gv vv : V} {g v : K} (hg : Is gv g) (hv : Is vv v) :
    Always (areEqual E (n + 1) gv vv .expr .expr) (@decide (WithinTolerance g v) (Classical.dec _)) := by
  have hi : ∀ {u q}, Is u q → Always (exprWithOnlyI E u) (u, false) := by
    intro u q h
    apply (H.freeSyms h).always.bind
    exact Always.pure _
  have he : ∀ {u q}, Is u q → AlwaysP (evalIfNumber E u) fun o => ∃ a, o = some a ∧ Ev a q := by
    intro u q h
    apply (H.isNumber h).always.bindP
    simp only [if_true]
    apply AlwaysP.tryExcept
    apply (H.evalf h).always.bind
    intro a ha
    exact AlwaysP.pure ⟨a, rfl, ha⟩
  show Always (areEqualBody E (areEqual E n) gv vv .expr .expr) _
  unfold areEqualBody
  apply (hi hg).bind
  apply (hi hv).bind
  simp only [Bool.or_self, Bool.false_eq_true, if_false]
  apply (he hg).always
  rintro _ ⟨ga, rfl, hga⟩
  apply (he hv).always
  rintro _ ⟨va, rfl, hva⟩
  simp only
  apply ((H.expandEq hga hva).always.tryExcept _).bind
  by_cases hgv : g = v
  · have : @decide (WithinTolerance g v) (Classical.dec _) = true := by
      simp [WithinTolerance, hgv]
    rw [this]
    simp only [hgv, decide_true, if_true]
    exact Always.pure _
  · simp only [hgv, decide_false, Bool.false_eq_true, if_false]
    apply AlwaysP.always (P := fun c => Always (c.test E) (decide (g - v = 0 ∨ (g = 0 ∧ |g - v| < 1 / 1000) ∨
      (1 ≤ |g| ∧ |g - v| < 5 / 1000) ∨ (0 < |g| ∧ |g| < 1 ∧ |g - v| / |g| < 1 / 1000))))
    · apply AlwaysP.tryExcept
      apply (H.sub hga hva).always.bind
      intro s hs
      apply AlwaysP.bind (P := (Ev · (g - v)))
      · apply AlwaysP.tryExcept
        apply (H.isNumber hs).always.bindP
        simp only [if_true]
        exact (H.evalf hs).always
      · intro d hd
        exact diffEqual_real H hga hd
    · intro c h2
      apply h2.bind
      have hsub : g - v = 0 ↔ g = v := sub_eq_zero
      by_cases hw : WithinTolerance g v
      · rw [if_pos]
        · have : @decide (WithinTolerance g v) (Classical.dec _) = true := by simp [hw]
          rw [this]; exact Always.pure _
        · unfold WithinTolerance at hw
          rw [decide_eq_true_iff, hsub]
          exact hw
      · rw [if_neg]
        · have : @decide (WithinTolerance g v) (Classical.dec _) = false := by simp [hw]
          rw [this]
          unfold numericStage
          apply Always.tryExcept
          apply (H.freeSyms (H.ev hga)).always.bind
          simp only [List.isEmpty_nil, Bool.not_true, Bool.false_eq_true, if_false]
          exact (Always.pure false).bind (Always.pure false)
        · unfold WithinTolerance at hw
          rw [decide_eq_true_iff, hsub]
          exact hw

omit H

/-- Each of the three parsers raises or returns the number `q` for the text `s` (`parse_expr` is given the text with `**` for
`^`), and `latex2sympy` returns. -/
structure ReadsReal (E : Env X V S) (Is : V → K → Prop) (s : Str) (q : K) : Prop where
  l2s : RetP (E.l2s s) (Is · q)
  parseExpr : ∀ x, (∃ e x', E.parseExpr (replace s%"^" s%"**" s) x = (.error e, x')) ∨
    ∃ v x', E.parseExpr (replace s%"^" s%"**" s) x = (.ok v, x') ∧ Is v q

end

/-! ### Candidates -/

/-- What `parse_expr` contributes. -/
theorem parseCand3_real (E : Env X V S) {s : Str} {P : V → Prop} (hview : ∀ v, P v → ∃ b, E.view v = .expr b)
    (h : ∀ x, (∃ e x', E.parseExpr (replace s%"^" s%"**" s) x = (.error e, x')) ∨
      ∃ v x', E.parseExpr (replace s%"^" s%"**" s) x = (.ok v, x') ∧ P v)
    (a c : Option V) : AlwaysP (parseCand3 E s a c) (fun r => ∀ v, r = some v → P v) := by
  have hsafe : Safe (parseCand3 E s a c) (fun r => ∀ v, r = some v → P v) := by
    unfold parseCand3
    refine Safe.tryExcept (fun _ => Safe.pure (by simp)) ?_
    refine Safe.bind (Q := P) ?_ ?_
    · intro w u w' hu
      rcases h w.ext with ⟨r, x', h⟩ | ⟨v, x', h, hp⟩
      · simp [M.ext, h] at hu
      · simp [M.ext, h] at hu; rw [← hu.1]; exact hp
    · intro u hu
      obtain ⟨b, hb⟩ := hview u hu
      have hP : ∀ v, some u = some v → P v := by rintro v ⟨⟩; exact hu
      simp only [hb]
      refine Safe.bind (Safe.any _) ?_
      intro dup _
      cases c with
      | none => cases dup <;> exact Safe.pure (by simpa using hu)
      | some p =>
        refine Safe.bind (Safe.any _) ?_
        intro t _
        refine Safe.ite ?_ ?_
        · cases dup
          · refine Safe.bind (Safe.any _) ?_
            intro q _
            refine Safe.ite ?_ ?_
            · exact Safe.pure (by simp)
            · exact Safe.pure hP
          · exact Safe.pure (by simp)
        · cases dup <;> exact Safe.pure (by simpa using hu)
  intro w
  have htot : ∃ r w', parseCand3 E s a c w = (.ok r, w') := by
    unfold parseCand3
    rw [M.tryExcept_run]
    split
    · exact ⟨_, _, rfl⟩
    · exact ⟨_, _, rfl⟩
  obtain ⟨r, w', hr⟩ := htot
  exact ⟨r, w', hr, hsafe _ _ _ hr⟩

theorem sympyParse_real (E : Env X V S) {s : Str} {P : V → Prop} (hview : ∀ v, P v → ∃ b, E.view v = .expr b)
    (h : ∀ x, (∃ e x', E.parseExpr (replace s%"^" s%"**" s) x = (.error e, x')) ∨
      ∃ v x', E.parseExpr (replace s%"^" s%"**" s) x = (.ok v, x') ∧ P v)
    (hl : RetP (E.l2s s) P) :
    AlwaysP (sympyParse E s) (fun l => (∀ v, some v ∈ l → P v) ∧ ∃ v, some v ∈ l) := by
  unfold sympyParse
  apply AlwaysP.bind (P := fun p : Option V × Option V => ∃ v, p = (some v, none) ∧ P v)
  · unfold parseCands12
    apply AlwaysP.bind (P := fun o => ∃ v, o = some v ∧ P v)
    · apply AlwaysP.tryExcept
      apply hl.always.bind
      intro v hv
      exact AlwaysP.pure ⟨v, rfl, hv⟩
    · rintro _ ⟨v, rfl, hv⟩
      exact AlwaysP.pure ⟨v, rfl, hv⟩
  · rintro _ ⟨v, rfl, hv⟩
    apply AlwaysP.bind (parseCand3_real E hview h (some v) none)
    intro d hd
    apply AlwaysP.pure
    refine ⟨?_, v, by simp⟩
    intro u hu
    simp only [List.mem_cons, List.not_mem_nil, or_false, Option.some.injEq, reduceCtorEq, false_or] at hu
    rcases hu with rfl | hu
    · exact hv
    · exact hd u hu.symm

theorem candsInner_all {cmp : V → V → M X Bool} {g : V} {P : V → Prop} {r : Bool} (h : ∀ v, P v → Always (cmp g v) r)
    {vs : List (Option V)} (hv : ∀ v, some v ∈ vs → P v) (hm : ∃ v, some v ∈ vs) : Always (candsInner cmp g vs) r := by
  have key : ∀ vs : List (Option V), (∀ v, some v ∈ vs → P v) →
      Always (candsInner cmp g vs) (r && vs.any Option.isSome) := by
    intro vs
    induction vs with
    | nil => intro _; rw [List.any_nil, Bool.and_false]; exact Always.pure false
    | cons a vs ih =>
      intro hv
      have ih := ih fun x hx => hv x (by simp [hx])
      cases a with
      | none => simpa [candsInner] using ih
      | some v =>
        simp only [candsInner]
        apply (h v (hv v (by simp))).bind
        cases r with
        | true => simpa using Always.pure true
        | false => simpa using ih
  obtain ⟨v, hm⟩ := hm
  have := key vs hv
  rwa [show vs.any Option.isSome = true from List.any_eq_true.2 ⟨_, hm, rfl⟩, Bool.and_true] at this

theorem candsOuter_all {cmp : V → V → M X Bool} {P Q : V → Prop} {r : Bool} (h : ∀ g v, P g → Q v → Always (cmp g v) r)
    {gs vs : List (Option V)} (hg : ∀ v, some v ∈ gs → P v) (hmg : ∃ v, some v ∈ gs) (hv : ∀ v, some v ∈ vs → Q v)
    (hmv : ∃ v, some v ∈ vs) : Always (candsOuter cmp gs vs) r := by
  have key : ∀ gs : List (Option V), (∀ v, some v ∈ gs → P v) →
      Always (candsOuter cmp gs vs) (r && gs.any Option.isSome) := by
    intro gs
    induction gs with
    | nil => intro _; rw [List.any_nil, Bool.and_false]; exact Always.pure false
    | cons a gs ih =>
      intro hg
      have ih := ih fun x hx => hg x (by simp [hx])
      cases a with
      | none => simpa [candsOuter] using ih
      | some g =>
        simp only [candsOuter]
        apply (candsInner_all (fun v hv => h g v (hg g (by simp)) hv) hv hmv).bind
        cases r with
        | true => simpa using Always.pure true
        | false => simpa using ih
  obtain ⟨v, hm⟩ := hmg
  have := key gs hg
  rwa [show gs.any Option.isSome = true from List.any_eq_true.2 ⟨_, hm, rfl⟩, Bool.and_true] at this

section
variable {K : Type} [Field K] [LinearOrder K] [IsStrictOrderedRing K]

theorem areEqualUnderSympy_real {E : Env X V S} {Is Ev : V → K → Prop} (H : RealArith E Is Ev) {s t : Str} {g v : K}
    (hg : ReadsReal E Is s g) (hv : ReadsReal E Is t v) (n : Nat) (verbose : Bool) :
    Always (areEqualUnderSympy E (n + 1) s t verbose) (@decide (WithinTolerance g v) (Classical.dec _)) := by
  have hty : ∀ {u q}, Is u q → Always (getType E u) .expr := by
    intro u q h
    unfold getType
    rw [H.view h]
    exact Always.pure _
  unfold areEqualUnderSympy
  apply Always.tryExcept
  unfold areEqualWithSimplify
  apply (sympyParse_real E (fun v h => ⟨_, H.view h⟩) hg.parseExpr hg.l2s).always
  rintro gs ⟨hg1, hg2⟩
  apply (sympyParse_real E (fun v h => ⟨_, H.view h⟩) hv.parseExpr hv.l2s).always
  rintro vs ⟨hv1, hv2⟩
  have main := candsOuter_all (cmp := eqTyped E (areEqual E (n + 1))) (P := (Is · g)) (Q := (Is · v))
    (r := @decide (WithinTolerance g v) (Classical.dec _)) (by
      intro a b ha hb
      unfold eqTyped
      apply (hty ha).bind
      apply (hty hb).bind
      exact areEqual_real H n ha hb) hg1 hg2 hv1 hv2
  cases verbose with
  | false => simpa using main
  | true =>
    intro w
    obtain ⟨w', h⟩ := main { w with out := candsLine :: candsLine :: w.out }
    exact ⟨w', by simpa using h⟩

end

/-! ### Texts with brackets -/

theorem split_head_nocomma (sep : Str) {x : Char} (s : Str) (h : x ∉ s) : ∃ p ps, split sep s = p :: ps ∧ x ∉ p := by
  have key : ∀ (s : Str) (k : Nat) (acc : Str), x ∉ s → x ∉ acc → ∃ p ps, splitGo sep k acc s = p :: ps ∧ x ∉ p := by
    intro s
    induction s with
    | nil =>
      intro k acc _ ha
      exact ⟨_, _, rfl, by simpa using ha⟩
    | cons c cs ih =>
      intro k acc hs ha
      have hc : x ≠ c := fun e => hs (by simp [e])
      have hcs : x ∉ cs := fun e => hs (by simp [e])
      cases k with
      | zero =>
        rw [splitGo]
        split
        · exact ⟨_, _, rfl, by simpa using ha⟩
        · exact ih _ _ hcs (by simp [hc, ha])
      | succ k => exact ih _ _ hcs ha
  exact key s 0 [] h (by simp)

/-- A text without comma is no interval. -/
theorem strToInterval_none (E : Env X V S) {s : Str} (h : ',' ∉ s) : Always (strToInterval E s) none := by
  unfold strToInterval
  obtain ⟨p, ps, hp, hp'⟩ : ∃ q qs, cupSplit s = q :: qs ∧ ',' ∉ q := by
    unfold cupSplit; split_ifs <;> exact split_head_nocomma _ s h
  obtain ⟨q, qs, hq, hq'⟩ : ∃ q qs, capSplit p = q :: qs ∧ ',' ∉ q := by
    unfold capSplit; split_ifs <;> exact split_head_nocomma _ p hp'
  have hs : ',' ∉ strip q := by
    intro hm
    obtain ⟨l, r, h1, _⟩ := stripBy_spec isSpace q
    exact hq' (by rw [h1]; simp; exact .inr (.inl hm))
  intro w
  refine ⟨w, ?_⟩
  rw [M.tryExcept_run, hp]
  simp [unionLoop, hq, interLoop, oneInterval, L2S.split_one_none ',' _ hs, M.raise]

/-- A text that is one expression: no comma, no matrix, brackets that balance and do not enclose the whole text. -/
structure Single (s : Str) : Prop where
  nonempty : s ≠ []
  comma : ',' ∉ s
  notMatrix : ¬ s%"matrix" <:+: s
  balanced : (s.map bracketDelta).sum = 0
  notEnclosed : (∀ x, s.head? = some x → x ≠ '[' ∧ x ≠ '(' ∧ x ≠ '{') ∨
    ∃ p q, s = p ++ q ∧ p ≠ [] ∧ q ≠ [] ∧ (p.map bracketDelta).sum = 0

theorem scanBrackets_open (p q : Str) (cnt : Int) (hp : p ≠ []) (hq : q ≠ []) (h : cnt + (p.map bracketDelta).sum = 0) (rp : Bool) :
    (scanBrackets cnt rp (p ++ q)).2 = false := by
  have stay : ∀ (s : Str) (cnt : Int), (scanBrackets cnt false s).2 = false := by
    intro s
    induction s with
    | nil => intro _; rfl
    | cons x xs ih => intro cnt; simp only [scanBrackets, ite_self]; exact ih _
  induction p generalizing cnt rp with
  | nil => exact absurd rfl hp
  | cons x xs ih =>
    simp only [List.cons_append, scanBrackets]
    simp only [List.map_cons, List.sum_cons] at h
    cases xs with
    | nil =>
      have e : cnt + bracketDelta x = 0 := by simpa using h
      have e' : (q.isEmpty) = false := by simpa using hq
      simp only [List.nil_append, e, e', beq_self_eq_true, Bool.not_false, Bool.and_self, if_true]
      exact stay _ _
    | cons y ys => exact ih _ (by simp) (by rw [← h]; ring) _

theorem Single.unsplit {s : Str} (h : Single s) (U : Uni) (ord : List Str → List Str) : splitTuple U ord s none = .ok (.str s) := by
  rcases h.notEnclosed with hh | ⟨p, q, e, hp, hq, hs⟩
  · exact splitTuple_single h.comma h.balanced hh
  · unfold splitTuple
    simp only [stripCommas_nocomma h.comma]
    have h1 := scanBrackets_sum s 0 true
    have h2 := splitLoop_one s [] 0 h.comma
    have h3 : (scanBrackets 0 true s).2 = false := by
      rw [e]; exact scanBrackets_open p q 0 hp hq (by rw [hs, add_zero]) true
    rw [h.balanced, add_zero] at h1
    generalize scanBrackets 0 true s = r at h1 h3
    obtain ⟨r1, r2⟩ := r
    simp only at h1 h3
    subst h1 h3
    simp only [ne_eq, not_true_eq_false, if_false, peelBrackets, Bool.false_and, Bool.false_eq_true]
    rw [if_neg (by omega)]

/-- Two answers whose different normal forms are single expressions are judged by the CAS. -/
theorem isEquiv_single (E : Env X V S) (n : Nat) (a b x y : Str) (verbose : Bool) (r : Bool)
    (ha : Always (stringNormalize E n a) (.str x)) (hb : Always (stringNormalize E n b) (.str y))
    (hx : Single x) (hy : Single y) (hab : strip a ≠ strip b) (hxy : x ≠ y)
    (hr : Always (areEqualUnderSympy E n x y verbose) r) :
    Always (isEquiv E (n + 1) (some a) (some b) verbose) r := by
  show Always (isEquivStr E (n + 1) a b verbose) r
  unfold isEquivStr
  rw [if_neg hab]
  have hy' : y.isEmpty = false := by simpa using hy.nonempty
  have hm : ∀ {s : Str}, Single s → strIsMat s = false := by
    intro s h
    rw [strIsMat, Bool.eq_false_iff, ne_eq, contains_iff]
    exact h.notMatrix
  have main : Always (compareNorms E (isEquivStr E n) n verbose (.str x) (.str y)) r := by
    unfold compareNorms
    simp only [hxy, decide_false, Bool.false_eq_true, if_false]
    apply Always.tryExcept
    unfold isLatexEquiv
    simp only [hy', Bool.false_eq_true, if_false]
    apply Always.bind (a := (false, false))
    · split
      · unfold possibleIntervals
        apply (strToInterval_none E hx.comma).bind
        apply (strToInterval_none E hy.comma).bind
        exact Always.pure _
      · exact Always.pure _
    simp only [Bool.not_false, if_true]
    apply Always.bind (a := (false, false))
    · intro w
      cases verbose <;> simp [possibleTuple, hx.unsplit, hy.unsplit, elemsEquiv]
    · simp only [hm hx, hm hy, Bool.not_false, Bool.or_self, Bool.and_false, Bool.false_eq_true, if_false]
      apply Always.bind (Always.pure _)
      simpa using hr
  apply ha.bind
  apply hb.bind
  exact print_always _ _ main

section
variable {K : Type} [Field K] [LinearOrder K] [IsStrictOrderedRing K]

/-- The verdict on two answers whose normal forms are single expressions that read as the numbers `g` and `v`. -/
theorem isEquiv_by_real {E : Env X V S} {Is Ev : V → K → Prop} (H : RealArith E Is Ev) {a b x y : Str} {g v : K} (n : Nat)
    (verbose : Bool) (sa : strip a = a) (sb : strip b = b)
    (ha : Always (stringNormalize E (n + 1) a) (.str x)) (hb : Always (stringNormalize E (n + 1) b) (.str y))
    (hx : Single x) (hy : Single y) (rx : ReadsReal E Is x g) (ry : ReadsReal E Is y v) :
    Always (isEquiv E (n + 2) (some a) (some b) verbose) (@decide (WithinTolerance g v) (Classical.dec _)) := by
  have cas := areEqualUnderSympy_real H rx ry n verbose
  by_cases hi : Nonempty (World X)
  swap
  · exact fun w => (hi ⟨w⟩).elim
  obtain ⟨w⟩ := hi
  by_cases hxy : x = y
  · have hw : (@decide (WithinTolerance g v) (Classical.dec _)) = true := by
      have := areEqualUnderSympy_real H rx rx n verbose
      rw [← hxy] at cas
      rw [cas.unique w this]
      exact withinTolerance_refl g
    rw [hw]
    show Always (isEquivStr E (n + 2) a b verbose) true
    unfold isEquivStr
    split
    · exact Always.pure _
    · apply ha.bind
      apply hb.bind
      apply print_always
      unfold compareNorms
      simpa [hxy] using Always.pure true
  · by_cases hab : a = b
    · subst hab
      have := ha.unique w hb
      simp only [Norm.str.injEq] at this
      exact absurd this hxy
    · exact isEquiv_single E (n + 1) a b x y verbose _ ha hb hx hy (by rw [sa, sb]; exact hab) hxy cas

end

end Verif
