import Verif.Props.FinalStage
import Verif.Props.Tuple
import Verif.Props.Commas
import Verif.Props.Sci
/-
Properties C70 and C71: the whole comparison on decimal literals and on integers.
-/

namespace Verif
open Re

variable {X V S : Type}

/-! ### Specification -/

/-- A decimal literal `[-]ip[.fp]`. -/
structure Literal where
  neg : Bool
  ip : Str
  fp : Option Str
  ip_digits : ∀ c ∈ ip, asciiDigit c = true
  fp_digits : ∀ f, fp = some f → ∀ c ∈ f, asciiDigit c = true
  ip_ne : ip ≠ []
  fp_ne : fp ≠ some []

/-- Its spelling. -/
def Literal.text (a : Literal) : Str := (if a.neg then s%"-" else []) ++ (a.ip ++ fracText a.fp)

/-- Its absolute value. -/
def Literal.mag (a : Literal) : ℚ := (decVal (a.ip ++ a.fp.getD []) : ℚ) / 10 ^ (a.fp.getD []).length

/-- Its value. -/
def Literal.value (a : Literal) : ℚ := if a.neg then -a.mag else a.mag

/-- The literal is an integer of at most 53 bits, or below 10^9 and at least 2·10^-7 away from every integer. -/
def Literal.Tame (a : Literal) : Prop :=
  (∃ z : ℕ, a.mag = z ∧ z ≤ 2 ^ 53) ∨ (a.mag < 10 ^ 9 ∧ ∀ z : ℕ, 2 / 10 ^ 7 ≤ |a.mag - z|)

/-- Each of the three parsers raises or returns the number `v` for the text `s`, and one of them returns. -/
structure Reads (E : Env X V S) (s : Str) (v : V) : Prop where
  l2s : ∀ x, (∃ e x', E.l2s s x = (.error e, x')) ∨ ∃ x', E.l2s s x = (.ok v, x')
  parseLatex : ∀ x, (∃ e x', E.parseLatex s x = (.error e, x')) ∨ ∃ x', E.parseLatex s x = (.ok v, x')
  parseExpr : ∀ x, (∃ e x', E.parseExpr s x = (.error e, x')) ∨ ∃ x', E.parseExpr s x = (.ok v, x')
  some_parser : Ret (E.l2s s) v ∨ Ret (E.parseLatex s) v ∨ Ret (E.parseExpr s) v

/-- The parsers read decimal literals as their values. -/
def ReadsDecimals {K : Type} [Field K] (E : Env X V S) (num : K → V) : Prop :=
  ∀ a : Literal, Reads E a.text (num (a.value : K))

/-! ### The CAS comparison -/

/-- The computation returns something satisfying `P` whatever the state. -/
def AlwaysP {α : Type} (m : M X α) (P : α → Prop) : Prop := ∀ w, ∃ a w', m w = (.ok a, w') ∧ P a

theorem AlwaysP.bind {α β : Type} {m : M X α} {f : α → M X β} {P : α → Prop} {Q : β → Prop} (h : AlwaysP m P)
    (h' : ∀ a, P a → AlwaysP (f a) Q) : AlwaysP (m >>= f) Q := by
  intro w
  obtain ⟨a, w₁, h1, ha⟩ := h w
  obtain ⟨b, w₂, h2, hb⟩ := h' a ha w₁
  exact ⟨b, w₂, by simp [h1, h2], hb⟩

theorem AlwaysP.pure {α : Type} {a : α} {P : α → Prop} (h : P a) : AlwaysP (pure a : M X α) P := fun w => ⟨a, w, rfl, h⟩

theorem AlwaysP.always {α β : Type} {m : M X α} {f : α → M X β} {P : α → Prop} {b : β} (h : AlwaysP m P)
    (h' : ∀ a, P a → Always (f a) b) : Always (m >>= f) b := by
  intro w
  obtain ⟨a, w₁, h1, ha⟩ := h w
  obtain ⟨w₂, h2⟩ := h' a ha w₁
  exact ⟨w₂, by simp [h1, h2]⟩

theorem Always.alwaysP {α : Type} {m : M X α} {a : α} {P : α → Prop} (h : Always m a) (ha : P a) : AlwaysP m P := by
  intro w
  obtain ⟨w', h⟩ := h w
  exact ⟨a, w', h, ha⟩

/-- A parser call as the code makes it. -/
theorem tryParse {e : Ext X V} {v : V} (h : ∀ x, (∃ r x', e x = (.error r, x')) ∨ ∃ x', e x = (.ok v, x')) :
    AlwaysP (M.tryExcept (do let v ← M.ext e; pure (some v)) (fun _ => pure none))
      (fun a => (a = none ∨ a = some v) ∧ (Ret e v → a = some v)) := by
  intro w
  rw [M.tryExcept_run, M.bind_run]
  rcases h w.ext with ⟨r, x', h⟩ | ⟨x', h⟩
  · refine ⟨none, { w with ext := x' }, by simp [M.ext, h], .inl rfl, ?_⟩
    intro h'
    obtain ⟨_, h'⟩ := h' w.ext
    rw [h] at h'; cases h'
  · exact ⟨some v, { w with ext := x' }, by simp [M.ext, h], .inr rfl, fun _ => rfl⟩

/-- Whatever the computation returns satisfies `P`. -/
def Safe {α : Type} (m : M X α) (P : α → Prop) : Prop := ∀ w a w', m w = (.ok a, w') → P a

theorem Safe.bind {α β : Type} {m : M X α} {f : α → M X β} {Q : α → Prop} {P : β → Prop} (hm : Safe m Q)
    (h : ∀ a, Q a → Safe (f a) P) : Safe (m >>= f) P := by
  intro w b w' hb
  rw [M.bind_run] at hb
  cases hr : m w with
  | mk r w₁ =>
    rw [hr] at hb
    cases r with
    | error e => cases hb
    | ok a => exact h a (hm w a w₁ hr) w₁ b w' hb

theorem Safe.any {α : Type} (m : M X α) : Safe m (fun _ => True) := fun _ _ _ _ => trivial

theorem Safe.pure {α : Type} {a : α} {P : α → Prop} (h : P a) : Safe (pure a : M X α) P := by
  intro w b w' hb
  cases hb; exact h

theorem Safe.ite {α : Type} {c : Prop} [Decidable c] {m m' : M X α} {P : α → Prop} (h : Safe m P) (h' : Safe m' P) :
    Safe (if c then m else m') P := by
  split <;> assumption

theorem Safe.tryExcept {α : Type} {m : M X α} {f : PyErr → M X α} {P : α → Prop} (hf : ∀ e, Safe (f e) P) (h : Safe m P) :
    Safe (M.tryExcept m f) P := by
  intro w a w' ha
  rw [M.tryExcept_run] at ha
  cases hr : m w with
  | mk r w₁ =>
    rw [hr] at ha
    cases r with
    | error e => exact hf e w₁ a w' ha
    | ok r => cases ha; exact h _ _ _ hr

theorem parseCand3_num (E : Env X V S) {s : Str} {v : V} (hs : replace s%"^" s%"**" s = s) {b : Bool}
    (hv : E.view v = .expr b) (h : ∀ x, (∃ r x', E.parseExpr s x = (.error r, x')) ∨ ∃ x', E.parseExpr s x = (.ok v, x'))
    (a c : Option V) : AlwaysP (parseCand3 E s a c)
      (fun r => (r = none ∨ r = some v) ∧ (Ret (E.parseExpr s) v → a = none → c = none → r = some v)) := by
  have hsafe : Safe (parseCand3 E s a c) (fun r => r = none ∨ r = some v) := by
    unfold parseCand3
    rw [hs]
    refine Safe.tryExcept (fun _ => Safe.pure (Or.inl rfl)) ?_
    refine Safe.bind (Q := fun u => u = v) ?_ ?_
    · intro w u w' hu
      rcases h w.ext with ⟨r, x', h⟩ | ⟨x', h⟩
      · simp [M.ext, h] at hu
      · simp [M.ext, h] at hu; exact hu.1.symm
    · rintro u rfl
      simp only [hv]
      refine Safe.bind (Safe.any _) ?_
      intro dup _
      cases c with
      | none => cases dup <;> exact Safe.pure (by simp)
      | some p =>
        refine Safe.bind (Safe.any _) ?_
        intro t _
        refine Safe.ite ?_ ?_
        · cases dup
          · refine Safe.bind (Safe.any _) ?_
            intro q _
            refine Safe.ite ?_ ?_
            · exact Safe.pure (.inl rfl)
            · exact Safe.pure (.inr rfl)
          · exact Safe.pure (.inl rfl)
        · cases dup <;> exact Safe.pure (by simp)
  intro w
  have htot : ∃ r w', parseCand3 E s a c w = (.ok r, w') := by
    unfold parseCand3
    rw [M.tryExcept_run]
    split
    · exact ⟨_, _, rfl⟩
    · exact ⟨_, _, rfl⟩
  obtain ⟨r, w', hr⟩ := htot
  refine ⟨r, w', hr, hsafe _ _ _ hr, ?_⟩
  rintro hret rfl rfl
  obtain ⟨x', hx⟩ := hret w.ext
  unfold parseCand3 at hr
  rw [hs] at hr
  simp [M.ext, hx, hv] at hr
  exact hr.1.symm

/-- The candidates for a text that reads as `v`. -/
theorem sympyParse_num (E : Env X V S) {s : Str} {v : V} (hs : replace s%"^" s%"**" s = s) {b : Bool}
    (hv : E.view v = .expr b) (h : Reads E s v) :
    AlwaysP (sympyParse E s) (fun l => (∀ a ∈ l, a = none ∨ a = some v) ∧ some v ∈ l) := by
  unfold sympyParse
  apply AlwaysP.bind (P := fun p : Option V × Option V => (p.1 = none ∨ p.1 = some v) ∧ (p.2 = none ∨ p.2 = some v) ∧
    (Ret (E.l2s s) v → p.1 = some v) ∧ (Ret (E.parseLatex s) v → p.1 = some v ∨ p.2 = some v))
  · unfold parseCands12
    apply AlwaysP.bind (tryParse h.l2s)
    rintro a ⟨h1, h2⟩
    rcases h1 with rfl | rfl
    · apply AlwaysP.bind (tryParse h.parseLatex)
      rintro b ⟨h3, h4⟩
      exact AlwaysP.pure ⟨.inl rfl, h3, h2, fun hr => .inr (h4 hr)⟩
    · exact AlwaysP.pure ⟨.inr rfl, .inl rfl, fun _ => rfl, fun _ => .inl rfl⟩
  · rintro ⟨a, c⟩ ⟨h1, h2, h3, h4⟩
    apply AlwaysP.bind (parseCand3_num E hs hv h.parseExpr a c)
    rintro d ⟨h5, h6⟩
    apply AlwaysP.pure
    refine ⟨?_, ?_⟩
    · simp only [List.mem_cons, List.not_mem_nil, or_false]
      rintro x (rfl | rfl | rfl)
      · exact h1
      · exact h2
      · exact h5
    · simp only [List.mem_cons, List.not_mem_nil, or_false]
      rcases h.some_parser with hr | hr | hr
      · exact .inl (h3 hr).symm
      · rcases h4 hr with h | h
        · exact .inl h.symm
        · exact .inr (.inl h.symm)
      · rcases h1 with rfl | rfl
        · rcases h2 with rfl | rfl
          · exact .inr (.inr (h6 hr rfl rfl).symm)
          · simp
        · simp

theorem candsInner_const {cmp : V → V → M X Bool} {g v : V} {r : Bool} (h : Always (cmp g v) r) {vs : List (Option V)}
    (hv : ∀ a ∈ vs, a = none ∨ a = some v) (hm : some v ∈ vs) : Always (candsInner cmp g vs) r := by
  have key : ∀ vs : List (Option V), (∀ a ∈ vs, a = none ∨ a = some v) →
      Always (candsInner cmp g vs) (r && vs.any Option.isSome) := by
    intro vs
    induction vs with
    | nil => intro _; rw [List.any_nil, Bool.and_false]; exact Always.pure false
    | cons a vs ih =>
      intro hv
      have ih := ih fun x hx => hv x (by simp [hx])
      rcases hv a (by simp) with rfl | rfl
      · simpa [candsInner] using ih
      · simp only [candsInner]
        apply h.bind
        cases r with
        | true => simpa using Always.pure true
        | false => simpa using ih
  have := key vs hv
  rwa [show vs.any Option.isSome = true from List.any_eq_true.2 ⟨_, hm, rfl⟩, Bool.and_true] at this

theorem candsOuter_const {cmp : V → V → M X Bool} {g v : V} {r : Bool} (h : Always (cmp g v) r) {gs vs : List (Option V)}
    (hg : ∀ a ∈ gs, a = none ∨ a = some g) (hmg : some g ∈ gs) (hv : ∀ a ∈ vs, a = none ∨ a = some v) (hmv : some v ∈ vs) :
    Always (candsOuter cmp gs vs) r := by
  have key : ∀ gs : List (Option V), (∀ a ∈ gs, a = none ∨ a = some g) →
      Always (candsOuter cmp gs vs) (r && gs.any Option.isSome) := by
    intro gs
    induction gs with
    | nil => intro _; rw [List.any_nil, Bool.and_false]; exact Always.pure false
    | cons a gs ih =>
      intro hg
      have ih := ih fun x hx => hg x (by simp [hx])
      rcases hg a (by simp) with rfl | rfl
      · simpa [candsOuter] using ih
      · simp only [candsOuter]
        apply (candsInner_const h hv hmv).bind
        cases r with
        | true => simpa using Always.pure true
        | false => simpa using ih
  have := key gs hg
  rwa [show gs.any Option.isSome = true from List.any_eq_true.2 ⟨_, hmg, rfl⟩, Bool.and_true] at this

section
variable {K : Type} [Field K] [LinearOrder K] [IsStrictOrderedRing K]

/-- The CAS comparison of two texts that read as numbers. -/
theorem areEqualUnderSympy_num {E : Env X V S} {num : K → V} (H : ExactNumbers E num) {s t : Str} {g v : K}
    (hs : replace s%"^" s%"**" s = s) (ht : replace s%"^" s%"**" t = t) (hg : Reads E s (num g)) (hv : Reads E t (num v))
    (n : Nat) (verbose : Bool) :
    Always (areEqualUnderSympy E (n + 1) s t verbose) (@decide (WithinTolerance g v) (Classical.dec _)) := by
  have hty : ∀ q, Always (getType E (num q)) .expr := by
    intro q
    unfold getType
    rw [H.view q]
    exact Always.pure _
  unfold areEqualUnderSympy
  apply Always.tryExcept
  unfold areEqualWithSimplify
  apply (sympyParse_num E hs (H.view g) hg).always
  rintro gs ⟨hg1, hg2⟩
  apply (sympyParse_num E ht (H.view v) hv).always
  rintro vs ⟨hv1, hv2⟩
  have main := candsOuter_const (cmp := eqTyped E (areEqual E (n + 1))) (g := num g) (v := num v)
    (r := @decide (WithinTolerance g v) (Classical.dec _)) (by
      unfold eqTyped
      apply (hty g).bind
      apply (hty v).bind
      exact C46_numeric_tolerance H n g v) hg1 hg2 hv1 hv2
  cases verbose with
  | false => simpa using main
  | true =>
    intro w
    obtain ⟨w', h⟩ := main { w with out := candsLine :: candsLine :: w.out }
    exact ⟨w', by simpa using h⟩

end

/-! ### Literals -/

theorem Literal.text_plain (a : Literal) : ∀ c ∈ a.text, plain c = true := by
  intro c hc
  unfold Literal.text at hc
  have hd : ∀ c, asciiDigit c = true → plain c = true := fun c h => by simp [plain, h]
  rcases List.mem_append.1 hc with h | h
  · split at h
    · rw [List.mem_singleton.1 h]; decide
    · simp at h
  rcases List.mem_append.1 h with h | h
  · exact hd c (a.ip_digits c h)
  · cases hf : a.fp with
    | none => rw [hf] at h; simp [fracText] at h
    | some f =>
      rw [hf] at h
      rcases List.mem_cons.1 h with rfl | h
      · decide
      · exact hd c (a.fp_digits f hf c h)

theorem Literal.text_ne (a : Literal) : a.text ≠ [] := by
  intro h
  have := a.ip_ne
  simp [Literal.text] at h
  exact this h.2.1

/-- A spelling belongs to one literal only. -/
theorem Literal.text_inj {a b : Literal} (h : a.text = b.text) : a = b := by
  obtain ⟨n, i, f, h1, h2, h3, h4⟩ := a
  obtain ⟨n', i', f', h1', h2', h3', h4'⟩ := b
  unfold Literal.text at h
  simp only at h h1 h2 h3 h4 h1' h2' h3' h4'
  have hh : ∀ (i : Str), (∀ c ∈ i, asciiDigit c = true) → i ≠ [] → ∀ r x, i ++ r ≠ '-' :: x := by
    intro i hi h0 r x he
    cases i with
    | nil => exact h0 rfl
    | cons c cs =>
      have := hi c (by simp)
      simp only [List.cons_append, List.cons.injEq] at he
      rw [he.1] at this
      revert this; decide
  have hn : n = n' := by
    cases n <;> cases n' <;> simp only [if_true, if_false, Bool.false_eq_true] at h
    · rfl
    · exact absurd h (hh i h1 h3 _ _)
    · exact absurd h.symm (hh i' h1' h3' _ _)
    · rfl
  subst hn
  have h := List.append_cancel_left h
  have ht : ∀ (i : Str) (f : Option Str), (∀ c ∈ i, asciiDigit c = true) →
      (i ++ fracText f).takeWhile asciiDigit = i ∧ (i ++ fracText f).dropWhile asciiDigit = fracText f := by
    intro i f hi
    induction i with
    | nil => cases f with
      | none => exact ⟨rfl, rfl⟩
      | some f => exact ⟨rfl, rfl⟩
    | cons c cs ih =>
      obtain ⟨e1, e2⟩ := ih fun d hd => hi d (by simp [hd])
      have hc := hi c (by simp)
      constructor
      · simp [hc, e1]
      · simp [hc, e2]
  obtain ⟨e1, e2⟩ := ht i f h1
  obtain ⟨e1', e2'⟩ := ht i' f' h1'
  rw [h] at e1 e2
  have hi : i = i' := e1.symm.trans e1'
  have hf : fracText f = fracText f' := e2.symm.trans e2'
  have hf : f = f' := by
    cases f <;> cases f' <;> simp [fracText] at hf <;> simp [hf]
  subst hi hf
  rfl

/-- The spelling of an integer. -/
def Literal.ofInt (z : ℤ) : Literal where
  neg := decide (z < 0)
  ip := natStr z.natAbs
  fp := none
  ip_digits := natStr_digits _
  fp_digits := by simp
  ip_ne := natStr_ne_nil _
  fp_ne := by simp

theorem Literal.ofInt_text (z : ℤ) : (Literal.ofInt z).text = intStr z := by
  rw [intStr_sign]
  simp [Literal.text, Literal.ofInt, fracText, signStr]

theorem Literal.ofInt_value (z : ℤ) : (Literal.ofInt z).value = z := by
  simp only [Literal.value, Literal.mag, Literal.ofInt, Option.getD_none, List.append_nil, List.length_nil, pow_zero,
    div_one, decVal_natStr, decide_eq_true_eq]
  have : ((z.natAbs : ℕ) : ℚ) = |(z : ℚ)| := by rw [Nat.cast_natAbs, Int.cast_abs]
  rw [this]
  split
  · rename_i h
    rw [abs_of_neg (by exact_mod_cast h)]; simp
  · rename_i h
    rw [abs_of_nonneg (by exact_mod_cast not_lt.1 h)]

theorem Literal.digits (a : Literal) : ∀ c ∈ a.ip ++ a.fp.getD [], asciiDigit c = true := by
  intro c hc
  rcases List.mem_append.1 hc with h | h
  · exact a.ip_digits c h
  · cases hf : a.fp with
    | none => rw [hf] at h; simp at h
    | some f => rw [hf] at h; exact a.fp_digits f hf c h

theorem Literal.pyFloat (a : Literal) (U : Uni) : pyFloat U a.text =
    some (F64.ofFrac a.neg (decVal (a.ip ++ a.fp.getD [])) (10 ^ (a.fp.getD []).length)) := by
  have hs : a.text = signStr a.neg ++ (a.ip ++ fracText a.fp) := rfl
  rw [hs, decVal_nat U a.digits]
  cases hf : a.fp with
  | none =>
    simp only [fracText, List.append_nil, Option.getD_none]
    rw [pyFloat_int U _ _ a.ip_digits a.ip_ne]
    simp [F64.ofDecimal]
  | some f =>
    simp only [fracText, Option.getD_some]
    rw [pyFloat_frac U _ _ _ a.ip_digits (a.fp_digits f hf) a.ip_ne (by rintro rfl; exact a.fp_ne hf)]
    simp [F64.ofDecimal]

/-- The tolerance of the integer test. -/
theorem tenth7_le : ∃ s m e, F64.ofFrac false 1 (10 ^ 7) = .fin s m e ∧ F64.num m e * 10 ^ 8 ≤ 11 * F64.den e := by
  have : (match F64.ofFrac false 1 (10 ^ 7) with
    | .fin _ m e => decide (F64.num m e * 10 ^ 8 ≤ 11 * F64.den e) | _ => false) = true := by decide +kernel
  split at this
  · rename_i h; exact ⟨_, _, _, h, of_decide_eq_true this⟩
  · cases this

/-- A quotient below 10^9 that is far from every integer is read as a float that is not an integer. -/
theorem not_isIntFloat {neg : Bool} {n d : Nat} (hn : 0 < n) (hd : 0 < d) (hlt : (n : ℚ) / d < 10 ^ 9)
    (hfar : ∀ z : ℕ, 2 / 10 ^ 7 ≤ |(n : ℚ) / d - z|) : isIntFloat (F64.ofFrac neg n d) = false := by
  rw [ofFrac_pos neg n d hn]
  split
  · rfl
  · rename_i hov
    clear hov
    generalize hq : (n : ℚ) / d = q at hlt hfar
    have hnear := rmant_near n d hd
    have hspec := (ulpExp_spec n d hn hd).2.2
    rw [hq] at hnear hspec
    generalize rmant n d = m at hnear
    generalize ulpExp n d = e at hnear hspec
    have he : e ≤ -23 := by
      rcases hspec with h | h
      · omega
      · by_contra hc
        have h2 : (2 : ℚ) ^ (30 : ℤ) ≤ 2 ^ (52 + e) := two_zpow_le (by omega)
        have h3 : (10 : ℚ) ^ 9 < 2 ^ (30 : ℤ) := by norm_num
        linarith
    have hpos := two_zpow_pos e
    have hle : (2 : ℚ) ^ e ≤ 2 ^ (-23 : ℤ) := two_zpow_le he
    have herr : |(m : ℚ) * 2 ^ e - q| ≤ 1 / 10 ^ 7 * (6 / 10) := by
      have h1 : (m : ℚ) * 2 ^ e - q = ((m : ℚ) - q / 2 ^ e) * 2 ^ e := by field_simp
      rw [h1, abs_mul, abs_of_pos hpos]
      have h2 : (2 : ℚ) ^ (-23 : ℤ) * (1 / 2) ≤ 1 / 10 ^ 7 * (6 / 10) := by norm_num
      calc |(m : ℚ) - q / 2 ^ e| * 2 ^ e ≤ 1 / 2 * 2 ^ (-23 : ℤ) :=
            mul_le_mul hnear hle hpos.le (by norm_num)
        _ ≤ _ := by rw [mul_comm]; exact h2
    obtain ⟨s', m', e', h7, h8⟩ := tenth7_le
    unfold isIntFloat F64.nearInt
    simp only [h7]
    rw [← num_den] at herr
    have hD := den_pos e
    have hD' := den_pos e'
    generalize F64.num m e = N at herr
    generalize F64.den e = D at herr hD
    generalize F64.num m' e' = N' at h8
    generalize F64.den e' = D' at h8 hD'
    generalize rneDiv N D = k
    have hfk := hfar k
    have hDq : (0 : ℚ) < D := by exact_mod_cast hD
    have hDq' : (0 : ℚ) < D' := by exact_mod_cast hD'
    have hgap : 14 / 10 ^ 8 ≤ |(N : ℚ) / D - k| := by
      have := abs_sub_abs_le_abs_sub (q - k) (q - (N : ℚ) / D)
      have e1 : q - k - (q - (N : ℚ) / D) = (N : ℚ) / D - k := by ring
      rw [e1, abs_sub_comm q ((N : ℚ) / D)] at this
      norm_num at *
      linarith
    have hdiff : ((if N ≤ k * D then k * D - N else N - k * D : ℕ) : ℚ) = |(N : ℚ) / D - k| * D := by
      have e2 : |(N : ℚ) / D - k| * D = |(N : ℚ) - k * D| := by
        rw [← abs_of_pos hDq, ← abs_mul, abs_of_pos hDq, sub_mul, div_mul_cancel₀ _ hDq.ne']
      rw [e2]
      split
      · rename_i h
        rw [Nat.cast_sub h, abs_sub_comm, abs_of_nonneg]
        · push_cast; ring
        · rw [sub_nonneg]; exact_mod_cast h
      · rename_i h
        rw [Nat.cast_sub (by omega), abs_of_nonneg]
        · push_cast; ring
        · rw [sub_nonneg]; exact_mod_cast (not_le.1 h).le
    have hno : ¬ ((if N ≤ k * D then k * D - N else N - k * D) * D' ≤ N' * D) := by
      intro hc
      have hc' : ((if N ≤ k * D then k * D - N else N - k * D : ℕ) : ℚ) * D' ≤ N' * D := by exact_mod_cast hc
      rw [hdiff] at hc'
      have h8' : (N' : ℚ) * 10 ^ 8 ≤ 11 * D' := by exact_mod_cast h8
      have h9 : 14 / 10 ^ 8 * (D : ℚ) * D' ≤ |(N : ℚ) / D - k| * D * D' := by
        apply mul_le_mul_of_nonneg_right _ hDq'.le
        exact mul_le_mul_of_nonneg_right hgap hDq.le
      have h10 : (N' : ℚ) * D ≤ 11 / 10 ^ 8 * D' * D := by
        apply mul_le_mul_of_nonneg_right _ hDq.le
        norm_num at *
        linarith
      have h11 : (0 : ℚ) < D * D' := mul_pos hDq hDq'
      norm_num at *
      nlinarith
    rw [decide_eq_false hno]; rfl

theorem stripCommas_plain {U : Uni} {s : Str} (h : ∀ c ∈ s, plain c = true) : stripCommas U s = s :=
  stripCommas_nocomma fun h' => by have := h _ h'; revert this; decide

/-- The normal form of a text made of digits, points and minus signs. -/
theorem normalize_plain (E : Env X V S) {s r : Str} (hs : ∀ c ∈ s, plain c = true) (hr : canonFloat E.U s = r)
    (hr' : ∀ c ∈ r, plain c = true) (hi : Always (canonInt E r) r) (k : Nat) :
    Always (stringNormalize E (k + 1) s) (.str r) := by
  have hq : Quiet s := fun c hc => plain_quiet (hs c hc)
  unfold stringNormalize
  apply Always.tryExcept
  rw [quiet_normBody hq]
  apply Always.bind (a := r)
  · unfold further
    rw [furtherPure_plain E.U _ hs (by rw [hr]; exact hr'), hr]
    exact hi
  · exact Always.pure _

/-- The normal form of a literal is a literal of the same value. -/
theorem normalize_literal (E : Env X V S) (hE : PrintsIntegers E) (a : Literal) (ha : a.Tame) (k : Nat) :
    ∃ b : Literal, b.value = a.value ∧ Always (stringNormalize E (k + 1) a.text) (.str b.text) := by
  have hpos : 0 < 10 ^ (a.fp.getD []).length := by positivity
  rcases ha with ⟨z, hz, hz'⟩ | ⟨hlt, hfar⟩
  · refine ⟨Literal.ofInt (if a.neg then -z else z), ?_, ?_⟩
    · rw [Literal.ofInt_value]
      unfold Literal.value
      rw [hz]
      split <;> simp
    · rw [Literal.ofInt_text]
      apply normalize_plain E a.text_plain _ (intStr_allPlain _) (canonInt_intStr E hE _)
      unfold canonFloat
      rw [a.pyFloat]
      simp only
      have hc : decVal (a.ip ++ a.fp.getD []) * 1 = z * 10 ^ (a.fp.getD []).length := by
        unfold Literal.mag at hz
        rw [div_eq_iff (by positivity)] at hz
        rw [Nat.mul_one]
        exact_mod_cast hz
      rw [ofFrac_congr a.neg _ _ z 1 hpos (by norm_num) hc]
      rcases ofFrac_nat a.neg z with h | ⟨m, e, j, h, hv, hnear⟩
      · exfalso
        obtain ⟨m', e', hj⟩ : ∃ m' e', F64.ofFrac a.neg z 1 = .fin a.neg m' e' := by
          rcases Nat.eq_zero_or_pos z with h0 | h0
          · rw [h0]; exact ⟨0, 0, by simp [F64.ofFrac]⟩
          · obtain ⟨m', e', h', -⟩ := ofFrac_double a.neg z 1 z 0 h0 (by norm_num) hz' (by norm_num) (by simp) (by
              have h1 : (z : ℚ) ≤ 2 ^ (53 : ℤ) := cast_le_zpow hz'
              have h2 : (2 : ℚ) ^ (53 : ℤ) < 2 ^ (1024 : ℤ) := two_zpow_lt (by norm_num)
              rw [zpow_zero, mul_one]
              exact lt_of_le_of_lt h1 h2)
            exact ⟨m', e', h'⟩
        rw [hj] at h; cases h
      · have hj : j = z := by
          have := hnear z (isDouble_nat hz')
          rw [sub_self, abs_zero, abs_nonpos_iff, sub_eq_zero] at this
          exact_mod_cast this
        obtain ⟨h1, h2⟩ := float_of_int a.neg m e j hv
        have he : contains s%"e" a.text = false := contains_alpha (A := plain) (x := 'e') (by simp) (by decide) a.text_plain
        rw [h, h1, h2, he, hj]
        simp
  · refine ⟨a, rfl, ?_⟩
    have hnum : 0 < decVal (a.ip ++ a.fp.getD []) := by
      have := hfar 0
      unfold Literal.mag at this
      rcases Nat.eq_zero_or_pos (decVal (a.ip ++ a.fp.getD [])) with h | h
      · rw [h] at this; norm_num at this
      · exact h
    have hno := not_isIntFloat (neg := a.neg) hnum hpos
      (by unfold Literal.mag at hlt; exact_mod_cast hlt) (by unfold Literal.mag at hfar; exact_mod_cast hfar)
    apply normalize_plain E a.text_plain _ a.text_plain
    · unfold canonInt strIsInt
      rw [stripCommas_plain a.text_plain, a.pyFloat]
      simp only [hno, Bool.false_eq_true, if_false]
      exact Always.pure _
    · unfold canonFloat
      rw [a.pyFloat]
      simp only [hno, Bool.false_eq_true, if_false]

/-- A text without brackets and commas is not split. -/
theorem splitTuple_plain {U : Uni} {ord : List Str → List Str} {s : Str} (h : ∀ c ∈ s, plain c = true) (h0 : s ≠ []) :
    splitTuple U ord s none = .ok (.str s) := by
  have hch : ∀ c ∈ s, bracketDelta c = 0 ∧ c ≠ ',' := by
    intro c hc
    have := h c hc
    constructor
    · unfold bracketDelta
      simp only [plain, Bool.or_eq_true, beq_iff_eq] at this
      rcases this with (h' | rfl) | rfl
      · have h2 : 48 ≤ c.toNat ∧ c.toNat ≤ 57 := by simpa [asciiDigit] using h'
        have hne : ∀ d : Char, d.toNat < 48 ∨ 57 < d.toNat → c ≠ d := by
          rintro d hd rfl; omega
        simp [hne '[' (by decide), hne '(' (by decide), hne '{' (by decide), hne ']' (by decide), hne ')' (by decide),
          hne '}' (by decide)]
      · decide
      · decide
    · rintro rfl; revert this; decide
  have hscan : ∀ (s : Str) (rp : Bool), (∀ c ∈ s, bracketDelta c = 0 ∧ c ≠ ',') → (scanBrackets 0 rp s).1 = 0 := by
    intro s
    induction s with
    | nil => intro _ _; rfl
    | cons c cs ih =>
      intro rp hs
      simp only [scanBrackets, (hs c (by simp)).1, add_zero]
      exact ih _ fun d hd => hs d (by simp [hd])
  have hloop : ∀ (s stack : Str), (∀ c ∈ s, bracketDelta c = 0 ∧ c ≠ ',') → (splitLoop 0 stack s).length ≤ 1 := by
    intro s
    induction s with
    | nil => intro st _; simp only [splitLoop]; split <;> simp
    | cons c cs ih =>
      intro st hs
      obtain ⟨e1, e2⟩ := hs c (by simp)
      have e3 : (c == ',') = false := by simpa using e2
      simp only [splitLoop, e3, Bool.false_and, Bool.false_eq_true, if_false, e1, add_zero]
      exact ih _ fun d hd => hs d (by simp [hd])
  have hpeel : ∀ rp, peelBrackets rp s = (s, .set) := by
    intro rp
    unfold peelBrackets
    split
    · cases s with
      | nil => exact absurd rfl h0
      | cons c cs =>
        have hp := h c (by simp)
        have c1 : c ≠ '[' := by rintro rfl; revert hp; decide
        have c2 : c ≠ '(' := by rintro rfl; revert hp; decide
        have c3 : c ≠ '{' := by rintro rfl; revert hp; decide
        simp [c1, c2, c3]
    · rfl
  unfold splitTuple
  simp only [stripCommas_plain h]
  have h1 := hscan s true hch
  have h2 := hloop s [] hch
  generalize scanBrackets 0 true s = q at h1
  obtain ⟨q1, q2⟩ := q
  simp only at h1
  subst h1
  simp only [ne_eq, not_true_eq_false, if_false, hpeel]
  rw [if_neg (by omega)]

section
variable {K : Type} [Field K] [LinearOrder K] [IsStrictOrderedRing K]

/-- Two plain texts are left to the CAS. -/
theorem isLatexEquiv_plain {E : Env X V S} {eq : EqFun X} {n : Nat} {s t : Str} (hs : ∀ c ∈ s, plain c = true)
    (ht : ∀ c ∈ t, plain c = true) (hs0 : s ≠ []) (ht0 : t ≠ []) {verbose b : Bool}
    (h : Always (areEqualUnderSympy E n s t verbose) b) : Always (isLatexEquiv E eq n s t verbose) b := by
  have hbr : hasBracket s = false := by
    unfold hasBracket
    rw [contains_alpha (A := plain) (x := '(') (by simp) (by decide) hs,
      contains_alpha (A := plain) (x := ')') (by simp) (by decide) hs,
      contains_alpha (A := plain) (x := '[') (by simp) (by decide) hs,
      contains_alpha (A := plain) (x := ']') (by simp) (by decide) hs]
    rfl
  have hm : ∀ {u : Str}, (∀ c ∈ u, plain c = true) → strIsMat u = false := fun hu =>
    contains_alpha (A := plain) (x := 'm') (by simp) (by decide) hu
  have he : t.isEmpty = false := by cases t with
    | nil => exact absurd rfl ht0
    | cons _ _ => rfl
  unfold isLatexEquiv
  simp only [he, Bool.false_eq_true, if_false, hbr]
  apply (Always.pure (false, false)).bind
  simp only [Bool.not_false, if_true]
  apply Always.bind (a := (false, false))
  · intro w
    obtain ⟨w₁, -, -, h3⟩ := possibleTuple_run E eq s t verbose _ _ (splitTuple_plain hs hs0) (splitTuple_plain ht ht0) w
    refine ⟨w₁, ?_⟩
    rw [h3]
    simp [elemsEquiv]
  · simp only [hm hs, hm ht, Bool.or_self, Bool.and_false, Bool.false_eq_true, if_false]
    apply (Always.pure (false, false)).bind
    simpa using h

theorem replace_hat_plain {s : Str} (h : ∀ c ∈ s, plain c = true) : replace s%"^" s%"**" s = s :=
  replace_alpha (x := '^') (by simp) (by decide) h

theorem print_always {α : Type} (b : Bool) (l : Str) {m : M X α} {a : α} (h : Always m a) :
    Always (if b then do M.print l; m else m) a := by
  intro w
  cases b
  · exact h w
  · obtain ⟨w', hw⟩ := h { w with out := l :: w.out }
    exact ⟨w', by simpa using hw⟩

/-- **C70** (partial: the claim is about all decimal literals; this is about the `Tame` ones, and close to an
integer the claim fails, see `C70_refuted`).  Two decimal literals are judged equivalent exactly if the values are
within the tolerance relative to the reference. -/
theorem C70_decimal_literals_partial {E : Env X V S} {num : K → V} (H : ExactNumbers E num) (hR : ReadsDecimals E num)
    (hE : PrintsIntegers E) (a b : Literal) (ha : a.Tame) (hb : b.Tame) (n : Nat) (verbose : Bool) :
    Always (isEquivStr E (n + 2) a.text b.text verbose)
      (@decide (WithinTolerance (a.value : K) (b.value : K)) (Classical.dec _)) := by
  have refl : ∀ x : K, (@decide (WithinTolerance x x) (Classical.dec _)) = true := fun x => by
    simp [WithinTolerance]
  have hsp : ∀ l : Literal, strip l.text = l.text := fun l => strip_of_no_space _ fun c hc => by
    have := l.text_plain c hc
    simp only [plain, Bool.or_eq_true, beq_iff_eq] at this
    rcases this with (h | rfl) | rfl
    · exact isSpace_digit h
    · decide
    · decide
  simp only [isEquivStr, hsp]
  by_cases hab : a.text = b.text
  · rw [if_pos hab, Literal.text_inj hab, refl]
    exact Always.pure _
  · rw [if_neg hab]
    obtain ⟨a', va, na⟩ := normalize_literal E hE a ha n
    obtain ⟨b', vb, nb⟩ := normalize_literal E hE b hb n
    apply na.bind
    apply nb.bind
    apply print_always
    unfold compareNorms
    simp only
    by_cases hab' : a'.text = b'.text
    · have : (a.value : K) = b.value := by rw [← va, ← vb, Literal.text_inj hab']
      simp only [hab', decide_true, if_true]
      rw [this, refl]
      exact Always.pure _
    · simp only [hab', decide_false, Bool.false_eq_true, if_false]
      apply Always.tryExcept
      apply isLatexEquiv_plain a'.text_plain b'.text_plain a'.text_ne b'.text_ne
      rw [← va, ← vb]
      exact areEqualUnderSympy_num H (replace_hat_plain a'.text_plain) (replace_hat_plain b'.text_plain)
        (hR a') (hR b') n verbose

/-- **C71**.  Two integers of at most 53 bits are judged equivalent exactly if they are equal. -/
theorem C71_integers {E : Env X V S} {num : K → V} (H : ExactNumbers E num) (hR : ReadsDecimals E num)
    (hE : PrintsIntegers E) (p q : ℤ) (hp : p.natAbs ≤ 2 ^ 53) (hq : q.natAbs ≤ 2 ^ 53) (n : Nat) (verbose : Bool) :
    Always (isEquiv E (n + 2) (some (intStr p)) (some (intStr q)) verbose) (decide (p = q)) := by
  have tame : ∀ z : ℤ, z.natAbs ≤ 2 ^ 53 → (Literal.ofInt z).Tame := fun z hz =>
    .inl ⟨z.natAbs, by simp [Literal.mag, Literal.ofInt, decVal_natStr], hz⟩
  have h := C70_decimal_literals_partial H hR hE _ _ (tame p hp) (tame q hq) n verbose
  rw [Literal.ofInt_text, Literal.ofInt_text, Literal.ofInt_value, Literal.ofInt_value] at h
  have e : (@decide (WithinTolerance (((p : ℤ) : ℚ) : K) (((q : ℤ) : ℚ) : K)) (Classical.dec _)) = decide (p = q) := by
    apply decide_eq_decide.2
    simp only [Rat.cast_intCast]
    constructor
    · intro hw
      have hlt : p ≠ q → (1 : K) ≤ |(p : K) - q| := by
        intro hne
        have : (1 : ℤ) ≤ |p - q| := Int.one_le_abs (sub_ne_zero.2 hne)
        exact_mod_cast this
      by_contra hne
      have h1 := hlt hne
      rcases hw with h | ⟨-, h⟩ | ⟨-, h⟩ | ⟨h0, h0', -⟩
      · exact hne (by exact_mod_cast h)
      · norm_num at h; linarith
      · norm_num at h; linarith
      · have : (0 : ℤ) < |p| := by exact_mod_cast h0
        have : |p| < 1 := by exact_mod_cast h0'
        omega
    · rintro rfl; exact .inl rfl
  rw [e] at h
  exact h

end

/-! ### Examples -/

theorem toyParse_literal (a : Literal) : toyParse a.text = some (.num a.value) := by
  have hbody : parseDecimal asciiUni (a.ip ++ fracText a.fp) =
      some (decVal (a.ip ++ a.fp.getD []), -((a.fp.getD []).length : ℤ)) := by
    rw [decVal_nat asciiUni a.digits]
    have hnil : NoDigitAhead [] := by intro c hc; simp at hc
    cases hf : a.fp with
    | none =>
      rw [show a.ip ++ fracText none = a.ip ++ [] from rfl, parseDecimal_int asciiUni _ _ a.ip_digits a.ip_ne hnil]
      simp [parseExp]
    | some f =>
      have := parseDecimal_frac asciiUni a.ip f [] a.ip_digits (a.fp_digits f hf) (.inl a.ip_ne) hnil
      rw [List.append_nil] at this
      rw [show a.ip ++ fracText (some f) = a.ip ++ '.' :: f from rfl, this]
      simp [parseExp]
  have hq : (decVal (a.ip ++ a.fp.getD []) : ℚ) * 10 ^ (-((a.fp.getD []).length : ℤ)) = a.mag := by
    unfold Literal.mag
    rw [zpow_neg, zpow_natCast, div_eq_mul_inv]
  have hhead : ∀ r, a.ip ++ fracText a.fp ≠ '-' :: r := by
    intro r hr
    have h1 := a.ip_digits
    have h2 := a.ip_ne
    cases hi : a.ip with
    | nil => exact h2 hi
    | cons c cs =>
      rw [hi] at hr h1
      have := h1 c (by simp)
      simp only [List.cons_append, List.cons.injEq] at hr
      rw [hr.1] at this
      revert this; decide
  unfold toyParse Literal.text Literal.value
  cases a.neg with
  | true =>
    simp only [if_true, List.singleton_append, hbody, Option.map_some, hq]
  | false =>
    simp only [Bool.false_eq_true, if_false, List.nil_append]
    simp only [hbody, Option.map_some, hq]

theorem printsIntegers_ratEnv : PrintsIntegers ratEnv := by
  intro n x
  have h := toyParse_literal (Literal.ofInt n)
  rw [Literal.ofInt_text, Literal.ofInt_value] at h
  refine .inr ⟨.num n, x, x, ?_, ?_⟩
  · show optCall (toyParse (intStr n)) x = _
    rw [h]; rfl
  · show optCall (toyStr (.num n)) x = _
    simp [toyStr, optCall]

/-- The hypotheses of C70 can be met. -/
theorem readsDecimals_ratEnv : ReadsDecimals (K := ℚ) ratEnv TVal.num := by
  intro a
  have hret : Ret (ratEnv.l2s a.text) (.num (a.value : ℚ)) := fun x => ⟨x, by
    show optCall (toyParse a.text) x = _
    rw [toyParse_literal]; simp [optCall]⟩
  exact ⟨fun x => .inr (hret x), fun x => .inl ⟨_, _, rfl⟩, fun x => .inl ⟨_, _, rfl⟩, .inl hret⟩

/-- The literal with the given parts, if they are proper. -/
def Literal.mk? (neg : Bool) (ip fp : Str) (h : isDec ip = true) (h' : isDec fp = true) : Literal where
  neg := neg
  ip := ip
  fp := some fp
  ip_digits := by simp only [isDec, Bool.and_eq_true, List.all_eq_true] at h; exact h.2
  fp_digits := by
    simp only [isDec, Bool.and_eq_true, List.all_eq_true] at h'
    rintro f ⟨⟩; exact h'.2
  ip_ne := by rintro rfl; simp [isDec] at h
  fp_ne := by rintro ⟨⟩; simp [isDec] at h'

example : (Literal.mk? true s%"1" s%"50" rfl rfl).text = s%"-1.50" := by decide
example : (Literal.mk? true s%"1" s%"50" rfl rfl).value = -3 / 2 := by
  norm_num [Literal.value, Literal.mag, Literal.mk?, show decVal s%"150" = 150 from rfl]
example : (Literal.mk? false s%"2" s%"00" rfl rfl).Tame :=
  .inl ⟨2, by norm_num [Literal.mag, Literal.mk?, show decVal s%"200" = 200 from rfl], by norm_num⟩
example : (isEquivStr ratEnv 2 s%"0.333" s%"0.3333" false ⟨(), []⟩).1 = .ok true := by decide +kernel
example : (isEquivStr ratEnv 2 s%"0.333" s%"0.334" false ⟨(), []⟩).1 = .ok false := by decide +kernel
example : (isEquivStr ratEnv 2 s%"2.00" s%"1.996" false ⟨(), []⟩).1 = .ok true := by decide +kernel

/-- Close to an integer the claim fails: the reference 0.00000001 is read as 0, and 0.0005 is accepted. -/
theorem C70_refuted :
    (isEquivStr ratEnv 2 s%"0.00000001" s%"0.0005" false ⟨(), []⟩).1 = .ok true ∧
      ¬ WithinTolerance (1 / 10 ^ 8 : ℚ) (5 / 10 ^ 4) := by
  refine ⟨by decide +kernel, ?_⟩
  unfold WithinTolerance
  norm_num [abs_of_pos, abs_of_neg, abs_lt]

end Verif
