import Verif.Props.Turned
/-
Numbers with units, dollar signs, spacing commands and degree signs, from the text to the verdict (C116).
-/

namespace Verif

section
variable {X V S : Type}

/-- Two readings that are single expressions are judged by the CAS. -/
theorem isLatexEquiv_alone (E : Env X V S) (n : Nat) (eq : EqFun X) {x y : Str} (verbose : Bool) {r : Bool} (hx : Single x) (hy : Single y)
    (hr : Always (areEqualUnderSympy E n x y verbose) r) : Always (isLatexEquiv E eq n x y verbose) r := by
  have hy' : y.isEmpty = false := by simpa using hy.nonempty
  have hm : ∀ {s : Str}, Single s → strIsMat s = false := by
    intro s h
    rw [strIsMat, Bool.eq_false_iff, ne_eq, contains_iff]
    exact h.notMatrix
  unfold isLatexEquiv
  simp only [hy', Bool.false_eq_true, if_false]
  apply Always.bind (a := (false, false))
  · split
    · unfold possibleIntervals
      apply (strToInterval_none E hx.comma).bind
      apply (strToInterval_none E hy.comma).bind
      exact Always.pure _
    · exact Always.pure _
  simp only [Bool.not_false, if_true]
  apply Always.bind (a := (false, false))
  · intro w
    cases verbose <;> simp [possibleTuple, hx.unsplit, hy.unsplit, elemsEquiv]
  · simp only [hm hx, hm hy, Bool.not_false, Bool.or_self, Bool.and_false, Bool.false_eq_true, if_false]
    apply Always.bind (Always.pure _)
    simpa using hr

open Classical in
theorem readingsOuter_by {f : Str → Str → M X Bool} {R : Str → Str → Prop} {gs vs : List Str}
    (h : ∀ g ∈ gs, ∀ v ∈ vs, Always (f g v) (decide (R g v))) :
    Always (readingsOuter f gs vs) (decide (∃ g ∈ gs, ∃ v ∈ vs, R g v)) := by
  have inner : ∀ g, ∀ vs : List Str, (∀ v ∈ vs, Always (f g v) (decide (R g v))) →
      Always (readingsInner f g vs) (decide (∃ v ∈ vs, R g v)) := by
    intro g vs h
    induction vs with
    | nil => simpa [readingsInner] using Always.pure false
    | cons v vs ih =>
      rw [readingsInner]
      apply (h v (by simp)).bind
      by_cases hv : R g v
      · simp only [hv, decide_true, if_true]
        have : (∃ u ∈ v :: vs, R g u) := ⟨v, by simp, hv⟩
        simpa only [this, decide_true] using Always.pure true
      · simp only [hv, decide_false, Bool.false_eq_true, if_false]
        have : (∃ u ∈ v :: vs, R g u) ↔ ∃ u ∈ vs, R g u := by simp [hv]
        simp only [this]
        exact ih fun u hu => h u (by simp [hu])
  induction gs with
  | nil => simpa [readingsOuter] using Always.pure false
  | cons g gs ih =>
    rw [readingsOuter]
    apply (inner g vs fun v hv => h g (by simp) v hv).bind
    by_cases hg : ∃ v ∈ vs, R g v
    · simp only [hg, decide_true, if_true]
      have : (∃ u ∈ g :: gs, ∃ v ∈ vs, R u v) := ⟨g, by simp, hg⟩
      simpa only [this, decide_true] using Always.pure true
    · simp only [hg, decide_false, Bool.false_eq_true, if_false]
      have : (∃ u ∈ g :: gs, ∃ v ∈ vs, R u v) ↔ ∃ u ∈ gs, ∃ v ∈ vs, R u v := by
        simp only [List.mem_cons, exists_eq_or_imp, hg, false_or]
      simp only [this]
      exact ih fun u hu => h u (by simp [hu])

section
variable {K : Type} [Field K] [LinearOrder K] [IsStrictOrderedRing K] {E : Env X V S} {Is Ev : V → K → Prop}

/-- The normal form of the text has readings that are single expressions, read as the numbers of the list: every reading as one of
them, and every number from some reading. -/
def Offers (E : Env X V S) (Is : V → K → Prop) (n : Nat) (s : Str) (qs : List K) : Prop :=
  ∃ o, Always (stringNormalize E (n + 1) s) o ∧ (∀ r ∈ o.readings, Single r ∧ ∃ q ∈ qs, ReadsReal E Is r q) ∧
    ∀ q ∈ qs, ∃ r ∈ o.readings, ReadsReal E Is r q

open Classical in
/-- Two different answers are judged equivalent exactly if a reading of the one and a reading of the other agree within the tolerance. -/
theorem isEquiv_offers (H : RealArith E Is Ev) {s t : Str} {ps qs : List K} (n : Nat) (hs : Offers E Is n s ps) (ht : Offers E Is n t qs)
    (hst : strip s ≠ strip t) (verbose : Bool) :
    Always (isEquiv E (n + 2) (some s) (some t) verbose) (decide (∃ p ∈ ps, ∃ q ∈ qs, WithinTolerance p q)) := by
  by_cases hi : Nonempty (World X)
  swap
  · exact fun w => (hi ⟨w⟩).elim
  obtain ⟨w0⟩ := hi
  obtain ⟨o, h1, h2, h3⟩ := hs
  obtain ⟨o', k1, k2, k3⟩ := ht
  have cas : ∀ {x y p q}, ReadsReal E Is x p → ReadsReal E Is y q →
      Always (areEqualUnderSympy E (n + 1) x y verbose) (decide (WithinTolerance p q)) := fun hx hy => by
    convert areEqualUnderSympy_real H hx hy n verbose
  let R : Str → Str → Prop := fun x y => ∃ p q, ReadsReal E Is x p ∧ ReadsReal E Is y q ∧ WithinTolerance p q
  have all : ∀ {x y p q}, ReadsReal E Is x p → ReadsReal E Is y q → (R x y ↔ WithinTolerance p q) := by
    intro x y p q hx hy
    refine ⟨?_, fun h => ⟨p, q, hx, hy, h⟩⟩
    rintro ⟨p', q', hx', hy', h⟩
    have := (cas hx hy).unique w0 (cas hx' hy')
    rw [decide_eq_decide] at this
    exact this.2 h
  have pair : ∀ x ∈ o.readings, ∀ y ∈ o'.readings,
      Always (isLatexEquiv E (isEquivStr E (n + 1)) (n + 1) x y verbose) (decide (R x y)) := by
    intro x hx y hy
    obtain ⟨sx, p, _, rx⟩ := h2 x hx
    obtain ⟨sy, q, _, ry⟩ := k2 y hy
    have := isLatexEquiv_alone E (n + 1) (isEquivStr E (n + 1)) verbose sx sy (cas rx ry)
    simpa only [all rx ry] using this
  have val : (∃ x ∈ o.readings, ∃ y ∈ o'.readings, R x y) ↔ ∃ p ∈ ps, ∃ q ∈ qs, WithinTolerance p q := by
    constructor
    · rintro ⟨x, hx, y, hy, h⟩
      obtain ⟨_, p, hp, rx⟩ := h2 x hx
      obtain ⟨_, q, hq, ry⟩ := k2 y hy
      exact ⟨p, hp, q, hq, (all rx ry).1 h⟩
    · rintro ⟨p, hp, q, hq, h⟩
      obtain ⟨x, hx, rx⟩ := h3 p hp
      obtain ⟨y, hy, ry⟩ := k3 q hq
      exact ⟨x, hx, y, hy, (all rx ry).2 h⟩
  simp only [← val]
  show Always (isEquivStr E (n + 2) s t verbose) _
  unfold isEquivStr
  rw [if_neg hst]
  apply h1.bind
  apply k1.bind
  apply print_always
  have many : Always (M.tryExcept (readingsOuter (fun x y => isLatexEquiv E (isEquivStr E (n + 1)) (n + 1) x y verbose) o.readings
      o'.readings) (fun _ => pure false)) (decide (∃ x ∈ o.readings, ∃ y ∈ o'.readings, R x y)) :=
    Always.tryExcept (readingsOuter_by pair) _
  unfold compareNorms
  cases o with
  | set xs => simpa using many
  | str x =>
    cases o' with
    | set ys => simpa using many
    | str y =>
      have hx := h2 x (by simp [Norm.readings])
      by_cases e : x = y
      · subst e
        obtain ⟨_, p, _, rx⟩ := hx
        have : ∃ u ∈ (Norm.str x).readings, ∃ v ∈ (Norm.str x).readings, R u v :=
          ⟨x, by simp [Norm.readings], x, by simp [Norm.readings], (all rx rx).2 (by simp [WithinTolerance])⟩
        simpa only [this, decide_true, if_true] using Always.pure true
      · have one : (∃ u ∈ (Norm.str x).readings, ∃ v ∈ (Norm.str y).readings, R u v) ↔ R x y := by simp [Norm.readings]
        simp only [e, decide_false, Bool.false_eq_true, if_false, one]
        exact Always.tryExcept (pair x (by simp [Norm.readings]) y (by simp [Norm.readings])) _

end

end

end Verif

namespace Verif.L2S
open Verif Verif.Reading Verif.Grammar

section
variable {K : Type} [Field K]

/-- A literal is a text of the notation that denotes its value; a phrase that can be signed. -/
theorem literal_signed (I : Interp K) (wide : Bool) (l : Literal) :
    ∃ ws : List Sign, ws.flatMap Sign.text = l.text ∧ (∀ w ∈ ws, (∃ d, w = .digit d) ∨ w = .mark '-' ∨ w = .mark '.') ∧
      Denotes I (fun _ => False) wide (.signed false) ws (l.value : K) := by
  obtain ⟨ip, hip⟩ := digits_of l.ip_digits
  have hne : ip ≠ [] := by rintro rfl; exact l.ip_ne (by simpa [digitText] using hip)
  obtain ⟨us, hus, hm, hn⟩ : ∃ us : List Sign, us.flatMap Sign.text = l.ip ++ fracText l.fp ∧
      (∀ w ∈ us, (∃ d, w = .digit d) ∨ w = .mark '-' ∨ w = .mark '.') ∧ Reading.Numeral us l.mag := by
    have hd : ∀ ds : List (Fin 10), (ds.map Sign.digit).flatMap Sign.text = digitText ds := by
      intro ds; induction ds with
      | nil => rfl
      | cons d ds ih => simpa [digitText, Sign.text] using ih
    cases hf : l.fp with
    | none =>
      refine ⟨ip.map .digit, by simp [hd, hip, fracText], by simp +contextual, ?_⟩
      have : l.mag = intPart ip := by simp [Literal.mag, hf, hip, decVal_digits]
      rw [this]; exact .whole hne
    | some f =>
      obtain ⟨fp, hfp⟩ := digits_of (l.fp_digits f hf)
      have hne' : fp ≠ [] := by
        rintro rfl
        exact l.fp_ne (by rw [hf, hfp]; rfl)
      refine ⟨ip.map .digit ++ .mark '.' :: fp.map .digit, by simp [hd, hip, hfp, fracText, Sign.text], by
        intro w hw; simp at hw; rcases hw with ⟨d, _, rfl⟩ | rfl | ⟨d, _, rfl⟩ <;> simp, ?_⟩
      have : l.mag = intPart ip + fracPart fp := by
        simp only [Literal.mag, hf, hip, hfp, Option.getD_some]
        have e : digitText ip ++ digitText fp = digitText (ip ++ fp) := by simp [digitText]
        rw [e, decVal_digits, intPart_append, fracPart_eq]
        simp only [digitText, List.length_map]
        field_simp
      rw [this]; exact .point hne'
  have hden : Denotes I (fun _ => False) wide (.signed false) us ((l.mag : ℚ) : K) :=
    .product (.factor (.power (.base (.number hn))))
  unfold Literal.text Literal.value
  cases l.neg with
  | false => exact ⟨us, by simp [hus], hm, by simpa using hden⟩
  | true =>
    refine ⟨.mark '-' :: us, by simp [Sign.text, hus], ?_, ?_⟩
    · intro w hw
      simp only [List.mem_cons] at hw
      rcases hw with rfl | hw
      · simp
      · exact hm w hw
    · have := Denotes.neg hden
      simpa using this

/-- The text of a number of degrees as radians denotes the number of radians. -/
theorem radians_denotes (I : Interp K) (wide : Bool) (l : Literal) :
    ∃ ws, Written ws (l.text ++ s%"/180*\\pi") ∧
      Denotes I (fun _ => False) wide .expr ws ((l.value : K) / 180 * I.const s%"pi") := by
  obtain ⟨us, h1, h2, h3⟩ := literal_signed I wide l
  refine ⟨(us ++ .mark '/' :: [.digit 1, .digit 8, .digit 0]) ++ .mark '*' :: [.cmd s%"pi"], ?_, ?_⟩
  · rw [← h1]
    clear h1 h3
    have tail : Written (.mark '/' :: [.digit 1, .digit 8, .digit 0] ++ .mark '*' :: [.cmd s%"pi"]) s%"/180*\\pi" :=
      writtenB_sound (by decide +kernel)
    induction us with
    | nil => simpa using tail
    | cons w us ih =>
      have := Written.cons (b := []) (w := w) (by simp [Reading.blanks]) (by
        rcases h2 w (by simp) with ⟨d, rfl⟩ | rfl | rfl <;> simp [Ends]) (ih fun v hv => h2 v (by simp [hv]))
      simpa using this
  · have h180 : Denotes I (fun _ => False) wide (.signed false) [.digit 1, .digit 8, .digit 0] (180 : K) := by
      have hn : Reading.Numeral ([1, 8, 0].map Sign.digit) (intPart [1, 8, 0]) := .whole (by simp)
      have := Denotes.product (o := false) (.factor (.power (.base (Denotes.number (I := I) (free := fun _ => False)
        (wide := ((wide : Bool) : Style)) hn))))
      have e : ((intPart [1, 8, 0] : ℚ) : K) = 180 := by
        have : intPart [1, 8, 0] = 180 := by norm_num [intPart]
        rw [this]
        norm_num
      rw [e] at this
      exact this
    exact .term (.mul (by decide) (.div (by decide) (.signed h3) h180) (.product (.factor (.power (.base .pi)))))

end

section
variable {K : Type} [Field K] [LinearOrder K] [IsStrictOrderedRing K] {X V Y S : Type}

/-- a decimal literal as a numeral -/
def numeralOf (l : Literal) : Verif.Numeral := ⟨l.neg, l.ip, l.fp, l.ip_digits,
  fun f h => ⟨fun e => l.fp_ne (by rw [h, e]), l.fp_digits f h⟩, .inl l.ip_ne⟩

theorem numeralOf_text (l : Literal) : (numeralOf l).text = l.text := by
  obtain ⟨neg, ip, fp, _, _, _, _⟩ := l
  cases neg <;> cases fp <;> simp [Verif.Numeral.text, Literal.text, numeralOf, Verif.Numeral.fracText, fracText]

/-- Answers that are one number with what people write around it, and the numbers they may be read as:
a number without variables; the same with dollar signs and spacing commands; a decimal literal with a unit; a decimal literal with a
degree sign, read as the number and as the radians. -/
inductive Measured (E : Env X V S) (I : Interp K) (inj : SV → V) (Is : V → K → Prop) : Str → List K → Prop
  | number {s q} : NumAnswer E I inj Is s q → Measured E I inj Is s [q]
  | marked {s t q} : Marked spacingMarks s t → NumAnswer E I inj Is t q → Calm t → Measured E I inj Is s [q]
  | unit {t} (l : Literal) : l.Tame → BareUnit t ∨ WrappedUnit t → Measured E I inj Is (l.text ++ t) [(l.value : K)]
  | degrees {p} (l : Literal) : l.Tame → DegreeSign p →
      Valued E I inj Is (l.text ++ s%"/180*\\pi") ((l.value : K) / 180 * I.const s%"pi") →
      Measured E I inj Is (l.text ++ p) [(l.value : K), (l.value : K) / 180 * I.const s%"pi"]

variable {E : Env X V S} {L : Lib Y} {I : Interp K} {Is Ev : V → K → Prop} {inj : SV → V} {N : Nat}
  (H : RealArith E Is Ev) (hL : SoundLib I L) (hp : ∀ s t, parseText s = some t → L.parse s = .ok t)
  (hl : UsesUndeclared E L N inj I.real) (hE : PrintsIntegers E) (hT : StrTotal E)
  (hlit : ∀ l : Literal, Valued E I inj Is l.text (l.value : K))
include hL hp hl hE hlit

theorem NumAnswer.offers {s : Str} {q : K} (h : NumAnswer E I inj Is s q) (n : Nat) : Offers E Is n s [q] := by
  obtain ⟨_, t, h2, h3, h4⟩ := h.normal hL hp hl hE hlit n
  exact ⟨.str t, h2, by simp [Norm.readings, h3, h4], by simp [Norm.readings, h4]⟩

include hT in
theorem Measured.offers {s : Str} {qs : List K} (h : Measured E I inj Is s qs) (n : Nat) : Offers E Is n s qs := by
  cases h with
  | number h => exact h.offers hL hp hl hE hlit n
  | @marked s t q hm h hc =>
    obtain ⟨o, h1, h2⟩ := h.offers hL hp hl hE hlit n
    have hb : ' ' ∉ t := by
      cases h with
      | literal l _ =>
        intro hc
        have := l.text_plain _ hc
        revert this
        decide
      | text ht => intro hc; exact absurd (ht.space hc) (by decide)
    refine ⟨o, ?_, h2⟩
    rw [C27_spacing E hT n hm hc (fun e => hb (List.mem_of_head? e)) (fun e => hb (List.mem_of_getLast? e))]
    exact h1
  | @unit t l hl' ht =>
    obtain ⟨o, h1, h2⟩ := (NumAnswer.literal (E := E) (I := I) (inj := inj) (Is := Is) l hl').offers hL hp hl hE hlit n
    refine ⟨o, ?_, h2⟩
    rw [← numeralOf_text] at h1 ⊢
    rcases ht with ht | ht
    · rw [C26_units_partial E hT n _ t ht]
      exact h1
    · rw [C26_wrapped_partial E hT n _ t ht]
      exact h1
  | @degrees p l hl' hd hv =>
    by_cases hi : Nonempty (World X)
    swap
    · exact ⟨.str s%"1", fun w => (hi ⟨w⟩).elim, by
        intro r hr
        simp only [Norm.readings, List.mem_singleton] at hr
        subst hr
        refine ⟨singleB_sound (by decide +kernel), l.value, by simp, ?_⟩
        exact ⟨fun x => (hi ⟨⟨x, []⟩⟩).elim, fun x => (hi ⟨⟨x, []⟩⟩).elim⟩, by
        intro q _
        exact ⟨s%"1", by simp [Norm.readings], fun x => (hi ⟨⟨x, []⟩⟩).elim, fun x => (hi ⟨⟨x, []⟩⟩).elim⟩⟩
    obtain ⟨w0⟩ := hi
    obtain ⟨_, t, h2, h3, h4⟩ := (NumAnswer.literal (E := E) (I := I) (inj := inj) (Is := Is) l hl').normal hL hp hl hE hlit n
    obtain ⟨r, o, k1, k2, ⟨xs, rfl, _, k3⟩, _⟩ := C24_degrees E hE n (numeralOf l) p hd
    rw [numeralOf_text] at k1 k2 k3
    have e := k1.unique w0 h2
    simp only [Norm.str.injEq] at e
    subst e
    have hrad : ReadsReal E Is (l.text ++ s%"/180*\\pi") ((l.value : K) / 180 * I.const s%"pi") := by
      refine ⟨fun y => ?_, hv.parseExpr⟩
      obtain ⟨w, _, h⟩ := hl (l.text ++ s%"/180*\\pi") y
      have key : ∀ ρ, ∃ v w', latex2sympy L (N + 1) (l.text ++ s%"/180*\\pi") [] w = (.ok v, w') ∧ v.scalar = true ∧
          den (I.vars ρ) v = (l.value : K) / 180 * I.const s%"pi" := by
        intro ρ
        obtain ⟨ws, hw, hd⟩ := radians_denotes (I.vars ρ) false l
        exact latex2sympy_closed (hL.vars ρ) hp hw hd N [] w
      obtain ⟨v, w', h1, h2, _⟩ := key fun _ => 0
      rw [h1] at h
      refine ⟨inj v, (E.l2s _ y).2, Prod.ext h rfl, hv.value v h2 fun ρ => ?_⟩
      obtain ⟨v', w'', e', _, h'⟩ := key ρ
      rw [h1] at e'
      cases e'
      exact h'
    have hsingle : Single (l.text ++ s%"/180*\\pi") := by
      have hz : ∀ c ∈ l.text ++ s%"/180*\\pi", plain c = true ∨ c ∈ s%"/180*\\pi" := fun c hc => by
        rcases List.mem_append.1 hc with h | h
        · exact .inl (l.text_plain c h)
        · exact .inr h
      have no : ∀ c, plain c = false → c ∉ s%"/180*\\pi" → c ∉ l.text ++ s%"/180*\\pi" := fun c h1 h2 h3 => by
        rcases hz c h3 with h | h
        · rw [h] at h1; cases h1
        · exact h2 h
      refine ⟨by simp, no _ (by decide) (by decide), not_infix_of_not_mem 'm' (by simp) (no _ (by decide) (by decide)), ?_, .inl ?_⟩
      · have : ∀ c ∈ l.text ++ s%"/180*\\pi", bracketDelta c = 0 := by
          intro c hc
          have h : ∀ x, plain x = false → x ∉ s%"/180*\\pi" → c ≠ x := by rintro x h1 h2 rfl; exact no _ h1 h2 hc
          unfold bracketDelta
          simp [h '[' (by decide) (by decide), h '(' (by decide) (by decide), h '{' (by decide) (by decide), h ']' (by decide) (by decide),
            h ')' (by decide) (by decide), h '}' (by decide) (by decide)]
        apply List.sum_eq_zero
        intro d hd
        obtain ⟨c, hc, rfl⟩ := List.mem_map.1 hd
        exact this c hc
      · intro x hx
        have hx := List.mem_of_head? hx
        refine ⟨?_, ?_, ?_⟩ <;> rintro rfl <;> exact no _ (by decide) (by decide) hx
    refine ⟨_, k2, ?_, ?_⟩
    · intro x hx
      rcases List.mem_cons.1 ((k3 x).1 hx) with rfl | hx
      · exact ⟨h3, _, by simp, h4⟩
      · rw [List.mem_singleton] at hx
        subst hx
        exact ⟨hsingle, _, by simp, hrad⟩
    · intro q hq
      simp only [List.mem_cons, List.not_mem_nil, or_false] at hq
      rcases hq with rfl | rfl
      · exact ⟨r, (k3 r).2 (by simp), h4⟩
      · exact ⟨_, (k3 _).2 (by simp), hrad⟩

include H hT in
open Classical in
/-- **C116.**  Numbers with units, dollar signs, spacing commands and degree signs are judged equivalent exactly if a number the one may
be read as and a number the other may be read as agree within the tolerance; units are not compared. -/
theorem C116_measures {s t : Str} {ps qs : List K} (hs : Measured E I inj Is s ps) (ht : Measured E I inj Is t qs)
    (hst : strip s ≠ strip t) (n : Nat) (verbose : Bool) :
    Always (isEquiv E (n + 2) (some s) (some t) verbose) (decide (∃ p ∈ ps, ∃ q ∈ qs, WithinTolerance p q)) :=
  isEquiv_offers H n (hs.offers hL hp hl hE hT hlit n) (ht.offers hL hp hl hE hT hlit n) hst verbose

end

/-! ### The hypotheses are met -/

open Classical in
/-- In the CAS of functions. -/
theorem funEnv_measures {s t : Str} {ps qs : List ℝ} (hs : Measured funEnv reals asFun IsConst s ps)
    (ht : Measured funEnv reals asFun IsConst t qs) (hst : strip s ≠ strip t) (n : Nat) (verbose : Bool) :
    Always (isEquiv funEnv (n + 2) (some s) (some t) verbose) (decide (∃ p ∈ ps, ∃ q ∈ qs, WithinTolerance p q)) :=
  C116_measures funEnv_numbers (nodeLib_sound _ none _) grammarLib_parse funEnv_uses funEnv_prints (fun _ x => ⟨_, x, rfl⟩)
    (fun _ => funEnv_valued _ _) hs ht hst n verbose

theorem integer_tame {z : ℤ} (hz : z.natAbs ≤ 2 ^ 53) : (Literal.ofInt z).Tame :=
  .inl ⟨z.natAbs, by simp [Literal.mag, Literal.ofInt, decVal_natStr], hz⟩

/-- an integer with a unit -/
theorem integer_unit {z : ℤ} (hz : z.natAbs ≤ 2 ^ 53) {t : Str} (ht : BareUnit t ∨ WrappedUnit t) :
    Measured funEnv reals asFun IsConst (intStr z ++ t) [(z : ℝ)] := by
  have := Measured.unit (E := funEnv) (I := reals) (inj := asFun) (Is := IsConst) (Literal.ofInt z) (integer_tame hz) ht
  rw [Literal.ofInt_value, Literal.ofInt_text] at this
  simpa using this

/-- an integer with a degree sign -/
theorem integer_degrees {z : ℤ} (hz : z.natAbs ≤ 2 ^ 53) {p : Str} (hp : DegreeSign p) :
    Measured funEnv reals asFun IsConst (intStr z ++ p) [(z : ℝ), (z : ℝ) / 180 * Real.pi] := by
  have := Measured.degrees (E := funEnv) (I := reals) (inj := asFun) (Is := IsConst) (Literal.ofInt z) (integer_tame hz) hp
    (funEnv_valued _ _)
  rw [Literal.ofInt_value, Literal.ofInt_text, show reals.const s%"pi" = Real.pi from rfl] at this
  simpa using this

theorem two_cm : Measured funEnv reals asFun IsConst s%"2 cm" [2] := by
  have := integer_unit (z := 2) (by decide) (.inl (BareUnit.short 0 s%"cm" [] [] (by decide) (by decide) .bare))
  rw [show intStr 2 ++ (Verif.blanks (0 + 1) ++ (s%"cm" ++ []) ++ []) = s%"2 cm" by decide +kernel] at this
  simpa using this

theorem two_miles : Measured funEnv reals asFun IsConst s%"2\\text{ miles}" [2] := by
  have := integer_unit (z := 2) (by decide) (.inr (WrappedUnit.mk 0 1 s%"text" s%"mile" s%"s" [] [] (.inl rfl) (by decide) (by decide)
    .bare .bare))
  rw [show intStr 2 ++ (Verif.blanks 0 ++ ('\\' :: s%"text" ++ '{' :: (Verif.blanks 1 ++ (s%"mile" ++ s%"s") ++ [] ++ '}' :: []))) =
    s%"2\\text{ miles}" by decide +kernel] at this
  simpa using this

theorem right_angle : Measured funEnv reals asFun IsConst s%"90^\\circ" [90, 90 / 180 * Real.pi] := by
  have := integer_degrees (z := 90) (by decide) (.inl rfl)
  rw [show intStr 90 ++ s%"^\\circ" = s%"90^\\circ" by decide +kernel] at this
  simpa using this

theorem ninety : Measured funEnv reals asFun IsConst s%"90" [90] := by
  have := integer_answer 90 (by decide)
  rw [show intStr 90 = s%"90" by decide +kernel] at this
  simpa using Measured.number this

/-- `\frac{\pi}{2}` is the number π/2. -/
theorem half_pi : NumAnswer funEnv reals asFun IsConst s%"\\frac{\\pi}{2}" (Real.pi / 2) := by
  refine .text (ws := .cmd s%"frac" :: ((.mark '{' :: [.cmd s%"pi"] ++ [.mark '}']) ++ (.mark '{' :: [.digit 2] ++ [.mark '}'])))
    (tidyB_sound (by decide +kernel)) (singleB_sound (by decide +kernel)) ?_ (writtenB_sound (by decide +kernel)) (wide := false) ?_
    (funEnv_valued _ _)
  · intro f hf
    rw [pyFloat_none '{' (by simp) (by decide)] at hf
    cases hf
  · intro ρ
    have hpi : Denotes (reals.vars ρ) (fun _ => False) (false : Bool) .expr [.cmd s%"pi"] Real.pi := by
      have := Denotes.product (o := false) (.factor (.power (.base (Denotes.pi (I := reals.vars ρ) (free := fun _ => False)
        (wide := ((false : Bool) : Style))))))
      exact .term (.signed this)
    have h := Denotes.frac (.partBraces hpi) (.partBraces (digit_denotes (reals.vars ρ) 2))
    have h3 : Denotes (reals.vars ρ) (fun _ => False) false .expr _ _ := .term (.signed (.product (.factor (.power (.base h)))))
    have e2 : ((((2 : Fin 10).val : ℕ) : ℚ) : ℝ) = 2 := by norm_num
    rw [e2] at h3
    exact h3

/-- **C116**, refuted as a comparison of quantities: `2 cm` and `2\text{ miles}` are always judged equivalent. -/
theorem C116_units_refuted : Measured funEnv reals asFun IsConst s%"2 cm" [2] ∧
    Measured funEnv reals asFun IsConst s%"2\\text{ miles}" [2] ∧
    ∀ n verbose, Always (isEquiv funEnv (n + 2) (some s%"2 cm") (some s%"2\\text{ miles}") verbose) true := by
  refine ⟨two_cm, two_miles, fun n verbose => ?_⟩
  have := funEnv_measures two_cm two_miles (by decide +kernel) n verbose
  have e : ∃ p ∈ [(2 : ℝ)], ∃ q ∈ [(2 : ℝ)], WithinTolerance p q := by simp [WithinTolerance]
  simpa only [e, decide_true] using this

/-- **C116**, refuted as a comparison of angles: the right angle `90^\circ` is always judged equivalent to the number 90 and to the number
π/2, which are never judged equivalent. -/
theorem C116_degrees_refuted (n : Nat) (verbose : Bool) :
    Always (isEquiv funEnv (n + 2) (some s%"90^\\circ") (some s%"90") verbose) true ∧
    Always (isEquiv funEnv (n + 2) (some s%"90^\\circ") (some s%"\\frac{\\pi}{2}") verbose) true ∧
    Always (isEquiv funEnv (n + 2) (some s%"90") (some s%"\\frac{\\pi}{2}") verbose) false := by
  refine ⟨?_, ?_, ?_⟩
  · have := funEnv_measures right_angle ninety (by decide +kernel) n verbose
    have e : ∃ p ∈ [(90 : ℝ), 90 / 180 * Real.pi], ∃ q ∈ [(90 : ℝ)], WithinTolerance p q := ⟨90, by simp, 90, by simp, by simp [WithinTolerance]⟩
    simpa only [e, decide_true] using this
  · have := funEnv_measures right_angle (.number half_pi) (by decide +kernel) n verbose
    have e : ∃ p ∈ [(90 : ℝ), 90 / 180 * Real.pi], ∃ q ∈ [Real.pi / 2], WithinTolerance p q :=
      ⟨90 / 180 * Real.pi, by simp, Real.pi / 2, by simp, by
        rw [show 90 / 180 * Real.pi = Real.pi / 2 by ring]
        simp [WithinTolerance]⟩
    simpa only [e, decide_true] using this
  · have := funEnv_measures ninety (.number half_pi) (by decide +kernel) n verbose
    have e : ¬ ∃ p ∈ [(90 : ℝ)], ∃ q ∈ [Real.pi / 2], WithinTolerance p q := by
      simp only [List.mem_singleton, exists_eq_left, WithinTolerance]
      have h1 := Real.pi_pos
      have h2 := Real.pi_le_four
      rw [abs_of_pos (by linarith : (0 : ℝ) < 90 - Real.pi / 2)]
      rintro (h | ⟨h, _⟩ | ⟨_, h⟩ | ⟨_, h, _⟩)
      · linarith
      · norm_num at h
      · linarith
      · norm_num at h
    simpa only [e, decide_false] using this

/-- `$\frac\,{1}\!{2}$` and `2 cm` are not equivalent. -/
example (n : Nat) (verbose : Bool) : Always (isEquiv funEnv (n + 2) (some s%"$\\frac\\,{1}\\!{2}$") (some s%"2 cm") verbose) false := by
  have h : Measured funEnv reals asFun IsConst s%"$\\frac\\,{1}\\!{2}$" [1 / 2] :=
    .marked (t := s%"\\frac{1}{2}") (.mark s%"$" [] (by simp [spacingMarks]) <| .pair 'f' (by decide) <| .keep 'r' (by decide) <|
      .keep 'a' (by decide) <| .keep 'c' (by decide) <|
      .mark s%"\\," [] (by simp [spacingMarks]) <| .keep '{' (by decide) <| .keep '1' (by decide) <| .keep '}' (by decide) <|
      .mark s%"\\!" [] (by simp [spacingMarks]) <| .keep '{' (by decide) <| .keep '2' (by decide) <| .keep '}' (by decide) <|
      .mark s%"$" [] (by simp [spacingMarks]) .nil) half_number (by constructor <;> decide +kernel)
  have := funEnv_measures h two_cm (by decide +kernel) n verbose
  have e : ¬ ∃ p ∈ [(1 / 2 : ℝ)], ∃ q ∈ [(2 : ℝ)], WithinTolerance p q := by
    simp only [List.mem_singleton, exists_eq_left, WithinTolerance]
    norm_num
  simpa only [e, decide_false] using this

end Verif.L2S
