import Verif.Props.ByValue
import Verif.Props.ReadingEnd
/-
Answers in LaTeX notation are judged by the values they denote (C84): normaliser, `latex2sympy` and comparison together.
-/

namespace Verif.L2S
open Verif Verif.Reading Verif.Grammar

section
variable {K : Type} [Field K]

/-- the same interpretation for symbols created with another assumption -/
def Interp.assuming (I : Interp K) (r : Option Bool) : Interp K := { I with real := r }

mutual
theorem den_assuming (r : Option Bool) : ∀ (v : SV) (I : Interp K), den (I.assuming r) v = den I v
  | .num _, _ => rfl
  | .sym _ _, _ => rfl
  | .const _, _ => rfl
  | .add xs, I => by rw [den, den, denSum_assuming r xs I]
  | .mul xs, I => by rw [den, den, denProd_assuming r xs I]
  | .pow b e, I => by rw [den, den, den_assuming r b I, den_assuming r e I]; rfl
  | .fn f xs, I => by rw [den, den, denList_assuming r xs I]; rfl
  | .binder op n q b xs, I => by
    rw [den, den, denBounds_assuming r xs I]
    have : (fun k => den ((I.assuming r).upd n q k) b) = fun k => den (I.upd n q k) b := by
      funext k
      exact den_assuming r b (I.upd n q k)
    rw [this]; rfl
  | .mat _, _ => rfl
  | .matSym _ _ _, _ => rfl
  | .matAdd _, _ => rfl
  | .matMul _, _ => rfl
  | .rel _ _ _, _ => rfl
  | .list _, _ => rfl
  | .tuple _, _ => rfl
  | .none, _ => rfl
theorem denSum_assuming (r : Option Bool) : ∀ (vs : List SV) (I : Interp K), denSum (I.assuming r) vs = denSum I vs
  | [], _ => rfl
  | v :: vs, I => by rw [denSum, denSum, den_assuming r v I, denSum_assuming r vs I]
theorem denProd_assuming (r : Option Bool) : ∀ (vs : List SV) (I : Interp K), denProd (I.assuming r) vs = denProd I vs
  | [], _ => rfl
  | v :: vs, I => by rw [denProd, denProd, den_assuming r v I, denProd_assuming r vs I]
theorem denList_assuming (r : Option Bool) : ∀ (vs : List SV) (I : Interp K), denList (I.assuming r) vs = denList I vs
  | [], _ => rfl
  | v :: vs, I => by rw [denList, denList, den_assuming r v I, denList_assuming r vs I]
theorem denBounds_assuming (r : Option Bool) : ∀ (vs : List SV) (I : Interp K), denBounds (I.assuming r) vs = denBounds I vs
  | [], _ => rfl
  | v :: vs, I => by rw [denBounds, denBounds, den_assuming r v I, denBounds_assuming r vs I]
end

theorem SoundLib.assuming {I : Interp K} {Y : Type} {L : Lib Y} (h : SoundLib I L) (r : Option Bool) :
    SoundLib (I.assuming r) L where
  call σ f hf args ha y := by
    obtain ⟨v, y', h1, h2, h3⟩ := h.call σ f hf args ha y
    refine ⟨v, y', h1, h2, ?_⟩
    rw [show (I.assuming r).at σ = (I.at σ).assuming r from rfl, den_assuming, denList_assuming]
    exact h3
  inv σ a ha h0 y := by
    rw [show (I.assuming r).at σ = (I.at σ).assuming r from rfl, den_assuming] at h0 ⊢
    obtain ⟨v, y', h1, h2, h3⟩ := h.inv σ a ha h0 y
    exact ⟨v, y', h1, h2, by rw [den_assuming]; exact h3⟩
  bind σ {f args op n q b as} hc hb has y := by
    obtain ⟨v, y', h1, h2, h3⟩ := h.bind σ hc hb has y
    refine ⟨v, y', h1, h2, ?_⟩
    rw [show (I.assuming r).at σ = (I.at σ).assuming r from rfl, den_assuming, denBounds_assuming, h3]
    have : (fun k => den (((I.at σ).assuming r).upd n q k) b) = fun k => den ((I.at σ).upd n q k) b := by
      funext k
      exact den_assuming r b ((I.at σ).upd n q k)
    rw [this]; rfl

/-- The value of a text without variables does not depend on the assumption made for variables. -/
theorem denotes_assuming {I : Interp K} {free : Str → Prop} {wide : Style} {lv : Level} {ws : List Sign}
    {x : K} (r : Option Bool) (h : Denotes I free wide lv ws x) (hf : ∀ n, ¬ free n) :
    Denotes (I.assuming r) free wide lv ws x := by
  induction h with
  | mod _ _ i j => exact .mod (i hf) (j hf)
  | long _ i => exact .long (i hf)
  | funcInv h _ i => exact .funcInv h (i hf)
  | appFuncInv h _ h1 i => exact .appFuncInv h (i hf) h1
  | pointBase _ i => exact .pointBase (i hf)
  | pointNeg _ i => exact .pointNeg (i hf)
  | derivative _ h | pointName _ h => exact (hf _ h).elim
  | integral _ _ h | integralOne _ _ h | antiderivative _ _ h => exact (hf _ h).elim
  | sum _ _ h | limInfinity _ _ h | limRight _ _ h | limLeft _ _ h | limBoth _ _ h => exact (hf _ h).elim
  | term _ i => exact .term (i hf)
  | add _ _ i j => exact .add (i hf) (j hf)
  | sub _ _ i j => exact .sub (i hf) (j hf)
  | signed _ i => exact .signed (i hf)
  | mul h _ _ i j => exact .mul h (i hf) (j hf)
  | div h _ _ i j => exact .div h (i hf) (j hf)
  | product _ i => exact .product (i hf)
  | pos _ i => exact .pos (i hf)
  | neg _ i => exact .neg (i hf)
  | factor _ i => exact .factor (i hf)
  | juxt _ _ h i j => exact .juxt (i hf) (j hf) h
  | app _ i => exact .app (i hf)
  | appJuxt _ _ h i j => exact .appJuxt (i hf) (j hf) h
  | power _ i => exact .power (i hf)
  | fact _ i => exact .fact (i hf)
  | base _ i => exact .base (i hf)
  | pow _ _ i j => exact .pow (i hf) (j hf)
  | expBraces _ i => exact .expBraces (i hf)
  | expDigit => exact .expDigit
  | expLetter _ h => exact (hf _ h).elim
  | number h => exact .number h
  | percent h => exact .percent h
  | pi => exact .pi
  | letter _ h => exact (hf _ h).elim
  | letterPow _ h => exact (hf _ h).elim
  | euler => exact .euler
  | eulerPow _ i => exact .eulerPow (i hf)
  | bracket h _ i => exact .bracket h (i hf)
  | bracketFn h _ i => exact .bracketFn h (i hf)
  | partDigit => exact .partDigit
  | partBraces _ i => exact .partBraces (i hf)
  | frac _ _ i j => exact .frac (i hf) (j hf)
  | sqrt _ i => exact .sqrt (i hf)
  | root _ _ h i j => exact .root (i hf) (j hf) h
  | binom _ _ i j => exact .binom (i hf) (j hf)
  | argParens _ i => exact .argParens (i hf)
  | argLeft _ i => exact .argLeft (i hf)
  | func h _ i => exact .func h (i hf)
  | funcPow h _ _ h1 h2 i j => exact .funcPow h (i hf) (j hf) h1 h2
  | log _ i => exact .log (i hf)
  | ln _ i => exact .ln (i hf)
  | logBase _ _ i j => exact .logBase (i hf) (j hf)
  | appFunc h _ h1 i => exact .appFunc h (i hf) h1
  | appFuncPow h _ _ h1 h2 h3 h4 i j => exact .appFuncPow h (i hf) (j hf) h1 h2 h3 h4
  | appLog _ h i => exact .appLog (i hf) h
  | appLn _ h i => exact .appLn (i hf) h
  | appLogBase _ _ h1 h2 i j => exact .appLogBase (i hf) (j hf) h1 h2
  | bareSigned _ i => exact .bareSigned (i hf)
  | bareMul h h' _ _ i j => exact .bareMul h h' (i hf) (j hf)
  | bareDiv h h' _ _ i j => exact .bareDiv h h' (i hf) (j hf)
  | bare _ i => exact .bare (i hf)
  | barePos _ i => exact .barePos (i hf)
  | bareNeg _ i => exact .bareNeg (i hf)
  | bareFactor _ i => exact .bareFactor (i hf)
  | bareApp _ i => exact .bareApp (i hf)
  | bareJuxt _ _ h i j => exact .bareJuxt (i hf) (j hf) h
  | restFactor _ h i => exact .restFactor (i hf) h
  | restJuxt _ h _ h' i j => exact .restJuxt (i hf) h (j hf) h'

/-- `latex2sympy` of a text without variables returns an expression of the value of the text, in every state. -/
theorem latex2sympy_closed [CharZero K] {I : Interp K} {Y : Type} {L : Lib Y} (hL : SoundLib I L)
    (hp : ∀ s t, parseText s = some t → L.parse s = .ok t) {wide : Bool} {ws : List Sign} {s : Str} {x : K}
    (hw : Written ws s) (hd : Denotes I (fun _ => False) wide .expr ws x) (n : Nat) (vals : List (Str × PV))
    (w : World (St Y)) : ∃ v w', latex2sympy L (n + 1) s vals w = (.ok v, w') ∧ v.scalar = true ∧ den I v = x := by
  obtain ⟨v, w', h1, h2, h3⟩ := C76_latex2sympy (hL.assuming w.ext.g.isReal) hp hw (denotes_assuming w.ext.g.isReal hd fun _ h => h) n vals w
    ⟨rfl, fun _ h => h.elim⟩
  exact ⟨v, w', h1, h2, by rw [← h3, den_assuming]⟩

/-! ### Literals -/

theorem digits_of {s : Str} (h : ∀ c ∈ s, asciiDigit c = true) : ∃ ds : List (Fin 10), s = digitText ds := by
  induction s with
  | nil => exact ⟨[], rfl⟩
  | cons c s ih =>
    obtain ⟨ds, rfl⟩ := ih fun c hc => h c (by simp [hc])
    obtain ⟨d, hd⟩ : ∃ d : Fin 10, c = digitChar d.val := by
      have hc := h c (by simp)
      have h2 : 48 ≤ c.toNat ∧ c.toNat ≤ 57 := by
        simpa [asciiDigit, Char.le_def, UInt32.le_iff_toNat_le] using hc
      refine ⟨⟨c.toNat - 48, by omega⟩, ?_⟩
      apply Char.toNat_inj.1
      rw [toNat_digitChar (by simp; omega)]
      simp; omega
    exact ⟨d :: ds, by simp [digitText, hd]⟩

theorem decVal_digits (ds : List (Fin 10)) : (decVal (digitText ds) : ℚ) = intPart ds := by
  have key : ∀ (ds : List (Fin 10)) (acc : ℕ), (((digitText ds).foldl (fun n c => 10 * n + (c.toNat - 48)) acc : ℕ) : ℚ)
      = acc * 10 ^ ds.length + intPart ds := by
    intro ds
    induction ds with
    | nil => intro acc; simp [digitText, intPart]
    | cons d ds ih =>
      intro acc
      simp only [digitText, List.map_cons, List.foldl_cons] at ih ⊢
      rw [ih, digitChar_sub]
      simp only [intPart, List.length_cons]
      push_cast; ring
  have := key ds 0
  rw [Nat.cast_zero, zero_mul, zero_add] at this
  exact this

theorem written_signs : ∀ {ws : List Sign}, (∀ w ∈ ws, (∃ d, w = .digit d) ∨ w = .mark '-' ∨ w = .mark '.') →
    Written ws (ws.flatMap Sign.text)
  | [], _ => .nil (by simp [Reading.blanks])
  | w :: ws, h => by
    have := Written.cons (b := []) (w := w) (ws := ws) (by simp [Reading.blanks]) (by
      rcases h w (by simp) with ⟨d, rfl⟩ | rfl | rfl <;> simp [Ends]) (written_signs fun v hv => h v (by simp [hv]))
    simpa using this

/-- A literal is a text of the notation that denotes its value. -/
theorem literal_denotes (I : Interp K) [CharZero K] (wide : Bool) (l : Literal) :
    ∃ ws, Written ws l.text ∧ Denotes I (fun _ => False) wide .expr ws (l.value : K) := by
  obtain ⟨ip, hip⟩ := digits_of l.ip_digits
  have hne : ip ≠ [] := by rintro rfl; exact l.ip_ne (by simpa [digitText] using hip)
  obtain ⟨us, hus, hm, hn⟩ : ∃ us : List Sign, us.flatMap Sign.text = l.ip ++ fracText l.fp ∧
      (∀ w ∈ us, (∃ d, w = .digit d) ∨ w = .mark '-' ∨ w = .mark '.') ∧ Reading.Numeral us l.mag := by
    have hd : ∀ ds : List (Fin 10), (ds.map Sign.digit).flatMap Sign.text = digitText ds := by
      intro ds; induction ds with
      | nil => rfl
      | cons d ds ih => simpa [digitText, Sign.text] using ih
    cases hf : l.fp with
    | none =>
      refine ⟨ip.map .digit, by simp [hd, hip, fracText], by simp +contextual, ?_⟩
      have : l.mag = intPart ip := by simp [Literal.mag, hf, hip, decVal_digits]
      rw [this]; exact .whole hne
    | some f =>
      obtain ⟨fp, hfp⟩ := digits_of (l.fp_digits f hf)
      have hne' : fp ≠ [] := by
        rintro rfl
        exact l.fp_ne (by rw [hf, hfp]; rfl)
      refine ⟨ip.map .digit ++ .mark '.' :: fp.map .digit, by simp [hd, hip, hfp, fracText, Sign.text], by
        intro w hw; simp at hw; rcases hw with ⟨d, _, rfl⟩ | rfl | ⟨d, _, rfl⟩ <;> simp, ?_⟩
      have : l.mag = intPart ip + fracPart fp := by
        simp only [Literal.mag, hf, hip, hfp, Option.getD_some]
        have e : digitText ip ++ digitText fp = digitText (ip ++ fp) := by simp [digitText]
        rw [e, decVal_digits, intPart_append, fracPart_eq]
        simp only [digitText, List.length_map]
        field_simp
      rw [this]; exact .point hne'
  have hden : Denotes I (fun _ => False) wide (.signed false) us ((l.mag : ℚ) : K) :=
    .product (.factor (.power (.base (.number hn))))
  unfold Literal.text Literal.value
  cases l.neg with
  | false =>
    refine ⟨us, ?_, .term (o := false) (.signed ?_)⟩
    · simpa [hus] using written_signs hm
    · simpa using hden
  | true =>
    refine ⟨.mark '-' :: us, ?_, .term (o := false) (.signed ?_)⟩
    · have := written_signs (ws := .mark '-' :: us) (by
        intro w hw; simp only [List.mem_cons] at hw
        rcases hw with rfl | hw
        · simp
        · exact hm w hw)
      simpa [Sign.text, hus] using this
    · have := Denotes.neg hden
      simpa using this

end

/-! ### C84 -/

section
variable {K : Type} [Field K] [LinearOrder K] [IsStrictOrderedRing K] {Y S : Type}

/-- SymPy and `parse_expr` on one text: the expression built by `latex2sympy`, if it has the value `x`, is a number of the value
`x`; `parse_expr` (given the text with `**` for `^`) raises or returns a number of the value `x`. -/
structure Exactly (E : Env (St Y) SV S) (I : Interp K) (Is : SV → K → Prop) (s : Str) (x : K) : Prop where
  value : ∀ w v w', E.l2s s w = (.ok v, w') → v.scalar = true → den I v = x → Is v x
  parseExpr : ∀ w, (∃ e w', E.parseExpr (replace s%"^" s%"**" s) w = (.error e, w')) ∨
    ∃ v w', E.parseExpr (replace s%"^" s%"**" s) w = (.ok v, w') ∧ Is v x

/-- Answers with a value: decimal literals, and texts without variables in LaTeX notation, written in one expression without what
has a meaning of its own to the normaliser. -/
inductive Answer (E : Env (St Y) SV S) (I : Interp K) (Is : SV → K → Prop) : Str → K → Prop
  | literal (l : Literal) : l.Tame → Answer E I Is l.text (l.value : K)
  | text {s ws x} {wide : Bool} : Tidy s → Single s → (∀ f, pyFloat E.U s = some f → isIntFloat f = false) →
      Written ws s → Denotes I (fun _ => False) wide .expr ws x → Exactly E I Is s x → Answer E I Is s x

/-- The environment uses the modelled `latex2sympy`. -/
def UsesLatex2sympy (E : Env (St Y) SV S) (L : Lib Y) (N : Nat) : Prop :=
  ∀ s w, E.l2s s w = ((latex2sympy L (N + 1) s [] ⟨w, []⟩).1, (latex2sympy L (N + 1) s [] ⟨w, []⟩).2.ext)

variable {E : Env (St Y) SV S} {L : Lib Y} {I : Interp K} {Is Ev : SV → K → Prop} {N : Nat}

theorem reads_text (hL : SoundLib I L) (hp : ∀ s t, parseText s = some t → L.parse s = .ok t) (hl : UsesLatex2sympy E L N)
    {s : Str} {ws : List Sign} {wide : Bool} {x : K} (hw : Written ws s) (hd : Denotes I (fun _ => False) wide .expr ws x)
    (he : Exactly E I Is s x) : ReadsReal E Is s x := by
  refine ⟨fun w => ?_, he.parseExpr⟩
  obtain ⟨v, w', h1, h2, h3⟩ := latex2sympy_closed hL hp hw hd N [] ⟨w, []⟩
  have e : E.l2s s w = (.ok v, w'.ext) := by rw [hl, h1]
  exact ⟨v, _, e, he.value w v _ e h2 h3⟩

theorem literal_single (l : Literal) : Single l.text := by
  have hc : ∀ c, plain c = false → c ∉ l.text := fun c hc hm => by rw [l.text_plain c hm] at hc; cases hc
  refine ⟨l.text_ne, hc _ (by decide), not_infix_of_not_mem 'm' (by simp) (hc _ (by decide)), ?_, .inl ?_⟩
  · have : ∀ s : Str, (∀ c ∈ s, plain c = true) → (s.map bracketDelta).sum = 0 := by
      intro s hs
      induction s with
      | nil => rfl
      | cons c s ih =>
        have h0 : bracketDelta c = 0 := by
          have := hs c (by simp)
          unfold bracketDelta
          have h1 : ∀ x, plain x = false → c ≠ x := by rintro x hx rfl; rw [this] at hx; cases hx
          simp [h1 '(' (by decide), h1 ')' (by decide), h1 '[' (by decide), h1 ']' (by decide), h1 '{' (by decide),
            h1 '}' (by decide)]
        simp [h0, ih fun c hc => hs c (by simp [hc])]
    exact this _ l.text_plain
  · intro x hx
    have hm : x ∈ l.text := List.mem_of_mem_head? hx
    refine ⟨?_, ?_, ?_⟩ <;> rintro rfl <;> exact absurd hm (hc _ (by decide))

theorem literal_strip (l : Literal) : strip l.text = l.text := strip_of_no_space _ fun c hc => by
  have := l.text_plain c hc
  simp only [plain, Bool.or_eq_true, beq_iff_eq] at this
  rcases this with (h | rfl) | rfl
  · exact isSpace_digit h
  · decide
  · decide

/-- The normal form of an answer is one expression that is read as the value of the answer. -/
theorem Answer.normal (hL : SoundLib I L) (hp : ∀ s t, parseText s = some t → L.parse s = .ok t) (hl : UsesLatex2sympy E L N)
    (hE : PrintsIntegers E) (hlit : ∀ l : Literal, Exactly E I Is l.text (l.value : K)) {a : Str} {x : K}
    (h : Answer E I Is a x) (n : Nat) : strip a = a ∧
      ∃ s, Always (stringNormalize E (n + 1) a) (.str s) ∧ Single s ∧ ReadsReal E Is s x := by
  cases h with
  | literal l ht =>
    obtain ⟨b, hb, hn⟩ := normalize_literal E hE l ht n
    obtain ⟨ws, hw, hd⟩ := literal_denotes I false b
    refine ⟨literal_strip l, _, hn, literal_single b, ?_⟩
    rw [← hb]
    exact reads_text hL hp hl hw hd (hlit b)
  | text ht hs hf hw hd he =>
    exact ⟨strip_of_no_space _ fun c hc => ht.space hc, a, ht.fixed E n hf, hs, reads_text hL hp hl hw hd he⟩

/-- **C84.**  Two answers in LaTeX notation (or decimal literals) are judged equivalent exactly if the values they denote are within
the tolerance relative to the reference.  The normaliser, the conversion of LaTeX and the comparison are those of the code; the
library computes exactly on numbers.  Missing: variables, blanks, and what has a meaning of its own to the normaliser (`Tidy`). -/
theorem C84_judged_by_value_partial (H : RealArith E Is Ev) (hL : SoundLib I L)
    (hp : ∀ s t, parseText s = some t → L.parse s = .ok t) (hl : UsesLatex2sympy E L N) (hE : PrintsIntegers E)
    (hlit : ∀ l : Literal, Exactly E I Is l.text (l.value : K)) {a b : Str} {x y : K} (ha : Answer E I Is a x)
    (hb : Answer E I Is b y) (n : Nat) (verbose : Bool) :
    Always (isEquiv E (n + 2) (some a) (some b) verbose) (@decide (WithinTolerance x y) (Classical.dec _)) := by
  obtain ⟨sa, s, na, ha1, ha2⟩ := ha.normal hL hp hl hE hlit n
  obtain ⟨sb, t, nb, hb1, hb2⟩ := hb.normal hL hp hl hE hlit n
  exact isEquiv_by_real H n verbose sa sb na nb ha1 hb1 ha2 hb2

/-- **C84.**  Two notations for the same number are always judged equivalent. -/
theorem C84_same_value_partial (H : RealArith E Is Ev) (hL : SoundLib I L)
    (hp : ∀ s t, parseText s = some t → L.parse s = .ok t) (hl : UsesLatex2sympy E L N) (hE : PrintsIntegers E)
    (hlit : ∀ l : Literal, Exactly E I Is l.text (l.value : K)) {a b : Str} {x : K} (ha : Answer E I Is a x)
    (hb : Answer E I Is b x) (n : Nat) (verbose : Bool) : Always (isEquiv E (n + 2) (some a) (some b) verbose) true := by
  rw [← withinTolerance_refl x]
  exact C84_judged_by_value_partial H hL hp hl hE hlit ha hb n verbose

end

/-! ### The hypotheses are met: real numbers -/

/-- real numbers; there are no variables -/
noncomputable abbrev reals : Interp ℝ := realInterp (fun _ _ => 0) none

/-- the expression is a real number of this value -/
def IsReal (v : SV) (q : ℝ) : Prop := v.scalar = true ∧ den reals v = q

/-- parsing with the grammar -/
def grammarLib : Lib Unit := nodeLib fun s => match parseText s with
  | some t => .ok t
  | none => .error .other

/-- a call that returns -/
def gives {X α : Type} (a : α) : Ext X α := fun x => (.ok a, x)

/-- a call that raises -/
def raises {X α : Type} : Ext X α := fun x => (.error .other, x)

open Classical in
/-- A CAS that computes with real numbers, with the modelled `latex2sympy`; the other parsers raise. -/
noncomputable def realEnv : Env (St Unit) SV Unit where
  U := asciiUni
  setOrder := dedup
  setOrder_perm _ := List.Perm.refl _
  view v := match v with
    | .list xs => .list xs
    | _ => .expr false
  ofList := .list
  view_ofList _ := rfl
  symName k := k
  emptySet := ()
  l2s s w := ((latex2sympy grammarLib 1 s [] ⟨w, []⟩).1, (latex2sympy grammarLib 1 s [] ⟨w, []⟩).2.ext)
  parseLatex _ := raises
  parseExpr _ := raises
  str v := gives (if h : ∃ z : ℤ, den reals v = z then intStr h.choose else [])
  truth v := gives (decide (den reals v ≠ 0))
  eqv v w := gives (decide (den reals v = den reals w))
  inv v := gives (.pow v (.num (-1)))
  isNamedFunction _ := gives false
  isSymbol _ := gives false
  isNumber _ := gives true
  isZeroExpr v := gives (decide (den reals v = 0))
  isZeroMatrix _ := gives false
  isInteger v := gives (decide (den reals v = 0))
  sub v w := gives (.add [v, .mul [.num (-1), w]])
  neg v := gives (.mul [.num (-1), v])
  div v w := gives (.mul [v, .pow w (.num (-1))])
  abs v := gives (.fn s%"Abs" [v])
  re v := gives v
  im _ := gives (.num 0)
  ltThr v r := gives (.num (if den reals v < (r : ℝ) then 1 else 0))
  ge1 v := gives (decide (1 ≤ den reals v))
  gt0 v := gives (decide (0 < den reals v))
  evalf v := gives v
  evalfAt v _ := gives v
  expandEq v w := gives (decide (den reals v = den reals w))
  simplify v := gives v
  freeSyms _ := gives []
  subsI v _ := gives v
  randint := gives (.num 1)
  uniform := gives (.num 1)
  mkMatrix v := gives v
  transpose v := gives v
  isIntNum v := gives (decide (∃ z : ℤ, den reals v = z))
  toInteger v := gives v
  gtV v w := gives (decide (den reals v > den reals w))
  interval _ _ _ _ := gives ()
  isEmptySet _ := gives true
  intersect _ _ := gives ()
  union _ _ := gives ()
  compareEq _ _ := gives true

theorem realEnv_arith : RealArith realEnv IsReal IsReal where
  view {v q} h := by
    cases v <;> first | rfl | simp [IsReal, SV.scalar] at h
  freeSyms _ := fun x => ⟨x, rfl⟩
  isNumber _ := fun x => ⟨x, rfl⟩
  evalf {v q} h := fun x => ⟨v, x, rfl, h⟩
  ev h := h
  expandEq {a b p q} ha hb := fun x => ⟨x, by simp [realEnv, gives, ha.2, hb.2]⟩
  sub {a b p q} ha hb := fun x => ⟨_, x, rfl, by simp [SV.scalar, SV.scalars, ha.1, hb.1], by
    simp only [den, denSum, denProd, ha.2, hb.2]; push_cast; ring⟩
  isZero {v q} h := fun x => ⟨x, by simp [realEnv, gives, h.2]⟩
  isInteger {v q} h := fun x => ⟨x, by simp [realEnv, gives, h.2]⟩
  abs {v q} h := fun x => ⟨_, x, rfl, by simp [SV.scalar, SV.scalars, h.1], by
    simp only [den, denList, h.2]; simp [reals, realInterp, realFn]⟩
  ltThr {v q} r h := fun x => ⟨_, x, rfl, fun y => ⟨y, by
    simp only [realEnv, gives, den, h.2]
    by_cases hq : q < (r : ℝ) <;> simp [hq]⟩⟩
  ge1 {v q} h := fun x => ⟨x, by simp [realEnv, gives, h.2]⟩
  gt0 {v q} h := fun x => ⟨x, by simp [realEnv, gives, h.2]⟩
  div {a b p q} ha hb hq := fun x => ⟨_, x, rfl, by simp [SV.scalar, SV.scalars, ha.1, hb.1], by
    simp only [den, denProd, ha.2, hb.2]
    rw [show ((-1 : ℚ) : ℝ) = -1 by push_cast; rfl, reals.pw_neg_one]
    rw [mul_one, div_eq_mul_inv]⟩

theorem grammarLib_parse (s : Str) (t : MathTree) (h : parseText s = some t) : grammarLib.parse s = .ok t := by
  simp [grammarLib, nodeLib, h]

theorem realEnv_exactly (s : Str) (x : ℝ) : Exactly realEnv reals IsReal s x where
  value _ _ _ _ h1 h2 := ⟨h1, h2⟩
  parseExpr w := .inl ⟨_, w, rfl⟩

theorem realEnv_prints : PrintsIntegers realEnv := by
  intro z x
  right
  obtain ⟨ws, hw, hd⟩ := literal_denotes reals false (Literal.ofInt z)
  obtain ⟨v, w', h1, h2, h3⟩ := latex2sympy_closed (nodeLib_sound _ none _) grammarLib_parse hw hd 0 [] ⟨x, []⟩
  rw [Literal.ofInt_text] at h1
  rw [Literal.ofInt_value] at h3
  have h3 : den reals v = (z : ℝ) := by rw [h3]; push_cast; rfl
  have h : ∃ z : ℤ, den reals v = z := ⟨z, h3⟩
  have hz : h.choose = z := by
    have := h3.symm.trans h.choose_spec
    exact_mod_cast this.symm
  refine ⟨v, w'.ext, w'.ext, ?_, ?_⟩
  · show ((latex2sympy grammarLib 1 (intStr z) [] ⟨x, []⟩).1, (latex2sympy grammarLib 1 (intStr z) [] ⟨x, []⟩).2.ext) = _
    rw [show latex2sympy grammarLib 1 (intStr z) [] ⟨x, []⟩ = _ from h1]
  · simp only [realEnv, gives]
    rw [dif_pos h, hz]

/-- one digit as an expression -/
theorem digit_denotes (I : Interp ℝ) (d : Fin 10) : Denotes I (fun _ => False) false .expr [.digit d] ((d.val : ℚ) : ℝ) :=
  .term (.signed (.product (.factor (.power (.base (.number (num1 d)))))))

/-- `\frac{1}{2}` is an answer of value 1/2. -/
theorem half_answer : Answer realEnv reals IsReal s%"\\frac{1}{2}" (1 / 2) := by
  refine .text (ws := .cmd s%"frac" :: (.mark '{' :: [.digit 1] ++ [.mark '}']) ++ (.mark '{' :: [.digit 2] ++ [.mark '}']))
    (wide := false) (tidyB_sound (by decide +kernel)) ?_ ?_ (writtenB_sound (by decide +kernel)) ?_ (realEnv_exactly _ _)
  · exact ⟨by simp, by decide, (contains_eq_false _ _).1 (by decide +kernel), by decide +kernel, .inl (by simp)⟩
  · intro f hf
    rw [pyFloat_none '{' (by simp) (by decide)] at hf
    cases hf
  · have := Denotes.frac (.partBraces (digit_denotes reals 1)) (.partBraces (digit_denotes reals 2))
    norm_num at this ⊢
    exact .term (.signed (.product (.factor (.power (.base this)))))

/-- `\sqrt{9}-\frac{5}{2}` is an answer of value 1/2. -/
theorem root_answer : Answer realEnv reals IsReal s%"\\sqrt{9}-\\frac{5}{2}" (1 / 2) := by
  refine .text (ws := (.cmd s%"sqrt" :: (.mark '{' :: [.digit 9] ++ [.mark '}'])) ++ .mark '-' ::
      (.cmd s%"frac" :: (.mark '{' :: [.digit 5] ++ [.mark '}']) ++ (.mark '{' :: [.digit 2] ++ [.mark '}'])))
    (wide := false) (tidyB_sound (by decide +kernel)) ?_ ?_ (writtenB_sound (by decide +kernel)) ?_ (realEnv_exactly _ _)
  · exact ⟨by simp, by decide, (contains_eq_false _ _).1 (by decide +kernel), by decide +kernel, .inl (by simp)⟩
  · intro f hf
    rw [pyFloat_none '{' (by simp) (by decide)] at hf
    cases hf
  · have h1 := Denotes.frac (.partBraces (digit_denotes reals 5)) (.partBraces (digit_denotes reals 2))
    have h2 := Denotes.sqrt (.partBraces (digit_denotes reals 9))
    have h3 := Denotes.sub (o := false) (.term (o := false) (.signed (.product (.factor (.power (.base h2))))))
      (.signed (.product (.factor (.power (.base h1)))))
    have e : (1 / 2 : ℝ) = reals.pw (((9 : Fin 10).val : ℚ) : ℝ) (1 / 2) - (((5 : Fin 10).val : ℚ) : ℝ) / (((2 : Fin 10).val : ℚ) : ℝ) := by
      have : ((((9 : Fin 10).val : ℕ) : ℚ) : ℝ) = 3 ^ (2 : ℝ) := by norm_num
      rw [this]
      show _ = ((3 : ℝ) ^ (2 : ℝ)) ^ (1 / 2 : ℝ) - _
      rw [← Real.rpow_mul (by norm_num)]
      norm_num
    rw [e]
    exact h3

/-- a literal with one digit after the point -/
theorem tenth_answer (d : Fin 10) (hd : d ≠ 0) :
    Answer realEnv reals IsReal (s%"0." ++ [digitChar d.val]) ((d.val : ℝ) / 10) := by
  let l : Literal := ⟨false, s%"0", some [digitChar d.val], by decide, by rintro f ⟨⟩; revert d; decide, by simp, by simp⟩
  have hm : l.mag = (d.val : ℚ) / 10 := by
    have : ∀ d : Fin 10, decVal ['0', digitChar d.val] = d.val := by decide
    simp [l, Literal.mag, this]
  have hd0 : 1 ≤ d.val := by have : d.val ≠ 0 := fun e => hd (Fin.ext e); omega
  have hd9 : d.val ≤ 9 := by omega
  have h1 : (1 : ℚ) ≤ d.val := by exact_mod_cast hd0
  have h9 : (d.val : ℚ) ≤ 9 := by exact_mod_cast hd9
  have ht : l.Tame := .inr ⟨by rw [hm]; linarith, fun z => by
    rw [hm]
    rcases Nat.eq_zero_or_pos z with rfl | hz
    · rw [abs_of_nonneg] <;> norm_num <;> linarith
    · have : (1 : ℚ) ≤ z := by exact_mod_cast hz
      rw [abs_of_nonpos] <;> norm_num <;> linarith⟩
  have := Answer.literal (E := realEnv) (I := reals) (Is := IsReal) l ht
  rw [show l.value = (d.val : ℚ) / 10 from hm] at this
  push_cast at this
  exact this

theorem realEnv_uses : UsesLatex2sympy realEnv grammarLib 0 := fun _ _ => rfl

/-- The real numbers meet the hypotheses of C84. -/
theorem realEnv_judges {a b : Str} {x y : ℝ} (ha : Answer realEnv reals IsReal a x) (hb : Answer realEnv reals IsReal b y)
    (n : Nat) (verbose : Bool) :
    Always (isEquiv realEnv (n + 2) (some a) (some b) verbose) (@decide (WithinTolerance x y) (Classical.dec _)) :=
  C84_judged_by_value_partial realEnv_arith (nodeLib_sound _ none _) grammarLib_parse realEnv_uses realEnv_prints
    (fun l => realEnv_exactly l.text (l.value : ℝ)) ha hb n verbose

/-- `\frac{1}{2}` and `\sqrt{9}-\frac{5}{2}` are judged equivalent. -/
example (n : Nat) (verbose : Bool) :
    Always (isEquiv realEnv (n + 2) (some s%"\\frac{1}{2}") (some s%"\\sqrt{9}-\\frac{5}{2}") verbose) true := by
  have := realEnv_judges half_answer root_answer n verbose
  rwa [withinTolerance_refl] at this

/-- `0.5` and `\sqrt{9}-\frac{5}{2}` are judged equivalent. -/
example (n : Nat) (verbose : Bool) :
    Always (isEquiv realEnv (n + 2) (some s%"0.5") (some s%"\\sqrt{9}-\\frac{5}{2}") verbose) true := by
  have := realEnv_judges (tenth_answer 5 (by decide)) root_answer n verbose
  have e : @decide (WithinTolerance (((5 : Fin 10).val : ℝ) / 10) (1 / 2)) (Classical.dec _) = true :=
    @decide_eq_true _ (Classical.dec _) (.inl (by norm_num))
  rw [e] at this
  exact this

/-- `0.7` and `\sqrt{9}-\frac{5}{2}` are not. -/
example (n : Nat) (verbose : Bool) :
    Always (isEquiv realEnv (n + 2) (some s%"0.7") (some s%"\\sqrt{9}-\\frac{5}{2}") verbose) false := by
  have := realEnv_judges (tenth_answer 7 (by decide)) root_answer n verbose
  have e : @decide (WithinTolerance (((7 : Fin 10).val : ℝ) / 10) (1 / 2)) (Classical.dec _) = false := by
    rw [decide_eq_false_iff_not]
    have e7 : (((7 : Fin 10).val : ℕ) : ℝ) / 10 = 7 / 10 := by norm_num
    rw [e7, WithinTolerance]
    rw [show |(7 / 10 : ℝ)| = 7 / 10 by rw [abs_of_pos]; norm_num, show |(7 / 10 - 1 / 2 : ℝ)| = 1 / 5 by rw [abs_of_pos] <;> norm_num]
    norm_num
  rw [e] at this
  exact this

/-- Missing from C84 are answers with blanks: the normaliser removes them, so that `\sin h(2)` (the sine of a function value) becomes
`\sinh(2)` (a hyperbolic sine), and they are judged equivalent though they are read differently. -/
theorem C84_blanks_refuted :
    (isEquiv ratEnv 9 (some s%"\\sin h(2)") (some s%"\\sinh(2)") false ⟨(), []⟩).1 = .ok true ∧
    (lex s%"\\sin h(2)").map (List.map Tok.kind)
      = some [.FUNC_SIN, .LETTER_NO_E, .L_PAREN, .DIGIT, .R_PAREN] ∧
    (lex s%"\\sinh(2)").map (List.map Tok.kind) = some [.FUNC_SINH, .L_PAREN, .DIGIT, .R_PAREN] ∧
    (parseText s%"\\sin h(2)").isSome ∧ (parseText s%"\\sinh(2)").isSome := by
  refine ⟨by decide +kernel, by decide +kernel, by decide +kernel, by decide +kernel, by decide +kernel⟩

end Verif.L2S
