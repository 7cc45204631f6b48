import Verif.Props.Lists
import Verif.Props.GrammarText
import Verif.Spec.KernelRfl

/-! # C95: lists of real numbers

A CAS that computes with real numbers and sets of real numbers meets the hypotheses of `Props/Lists.lean`; concrete lists; and the
violations of the property. -/

namespace Verif

def piecesB (es : List Str) : Bool :=
  decide (2 ≤ es.length) && es.all (fun e => tidyB e && elementB e && !e.isEmpty && !(s%"\\").isSuffixOf e && !(s%"\\right").isSuffixOf e &&
    !contains s%"\\cap" e && !contains s%"\\cup" e && !contains s%"matrix" e) && es.tail.all (fun e => !startsThree e)

theorem piecesB_sound {es : List Str} (h : piecesB es = true) : Pieces es := by
  simp only [piecesB, Bool.and_eq_true, List.all_eq_true, decide_eq_true_eq, Bool.not_eq_true'] at h
  obtain ⟨⟨h1, h2⟩, h3⟩ := h
  refine ⟨h1, fun e he => ?_, h3, fun e he => ?_⟩
  · obtain ⟨⟨⟨⟨⟨⟨⟨a, b⟩, c⟩, d⟩, e'⟩, -⟩, -⟩, -⟩ := h2 e he
    refine ⟨tidyB_sound a, element_of_elementB _ b, ?_, fun hs => ?_, fun hs => ?_⟩
    · rintro rfl
      cases c
    · rw [List.isSuffixOf_iff_suffix.2 hs] at d
      cases d
    · rw [List.isSuffixOf_iff_suffix.2 hs] at e'
      cases e'
  · obtain ⟨⟨⟨-, f⟩, g⟩, i⟩ := h2 e he
    exact ⟨(contains_eq_false _ _).1 f, (contains_eq_false _ _).1 g, (contains_eq_false _ _).1 i⟩

theorem Always.yes {X : Type} {m : M X Bool} {p : Prop} {i : Decidable p} (h : Always m (@decide p i)) (hp : p) : Always m true := by
  rwa [decide_eq_true hp] at h

theorem Always.no {X : Type} {m : M X Bool} {p : Prop} {i : Decidable p} (h : Always m (@decide p i)) (hp : ¬ p) : Always m false := by
  rwa [decide_eq_false hp] at h

end Verif

namespace Verif.L2S
open Verif Verif.Reading Verif.Grammar

theorem partLib_parse (s : Str) (t : MathTree) (h : parseText s = some t) : partLib.parse s = .ok t := by
  show partParse s = .ok t
  rw [parseText] at h
  cases hl : lex s with
  | none => rw [hl] at h; cases h
  | some ts =>
    rw [hl] at h
    change parseTokens ts = some t at h
    simp only [partParse, hl, List.range_succ, List.reverse_append, List.reverse_cons, List.reverse_nil, List.nil_append,
      List.singleton_append, List.findSome?_cons, List.take_length, h]

open Classical in
/-- The real numbers of `realEnv`, with the parser that reads the longest beginning of the text, and with sets of real numbers. -/
noncomputable def pointEnv : Env (St Unit) SV (Set ℝ) :=
  { realEnv with
    l2s := fun s w => ((latex2sympy partLib 1 s [] ⟨w, []⟩).1, (latex2sympy partLib 1 s [] ⟨w, []⟩).2.ext)
    emptySet := ∅
    interval := fun v w lo ro => gives {x | (if lo then den reals v < x else den reals v ≤ x) ∧
      (if ro then x < den reals w else x ≤ den reals w)}
    isEmptySet := fun s => gives (decide (s = ∅))
    intersect := fun s t => gives (s ∩ t)
    union := fun s t => gives (s ∪ t)
    compareEq := fun s t => gives (decide (s = t)) }

theorem pointEnv_arith : RealArith pointEnv IsReal IsReal :=
  ⟨realEnv_arith.view, realEnv_arith.freeSyms, realEnv_arith.isNumber, realEnv_arith.evalf, realEnv_arith.ev, realEnv_arith.expandEq,
    realEnv_arith.sub, realEnv_arith.isZero, realEnv_arith.isInteger, realEnv_arith.abs, realEnv_arith.ltThr, realEnv_arith.ge1,
    realEnv_arith.gt0, realEnv_arith.div⟩

theorem pointEnv_pairs : PairArith pointEnv IsReal (fun s => s) where
  isInt {v q} h := fun x => ⟨_, x, rfl, fun _ y => ⟨v, y, rfl, h⟩⟩
  gtV {a b p q} ha hb := fun x => ⟨x, by simp [pointEnv, realEnv, gives, ha.2, hb.2]⟩
  interval {a b p q} lo ro ha hb _ := fun x => ⟨_, x, rfl, by rw [ha.2, hb.2]⟩
  empty := rfl
  isEmpty s := fun x => ⟨x, by simp [pointEnv, gives]⟩
  union s t := fun x => ⟨_, x, rfl, rfl⟩
  compare s t := fun x => ⟨x, by simp [pointEnv, gives]⟩

theorem pointEnv_exactly (s : Str) (x : ℝ) : Exactly pointEnv reals IsReal s x where
  value _ _ _ _ h1 h2 := ⟨h1, h2⟩
  parseExpr w := .inl ⟨_, w, rfl⟩

theorem pointEnv_uses : UsesLatex2sympy pointEnv partLib 0 := fun _ _ => rfl

theorem pointEnv_prints : PrintsIntegers pointEnv := by
  intro z x
  right
  obtain ⟨ws, hw, hd⟩ := literal_denotes reals false (Literal.ofInt z)
  obtain ⟨v, w', h1, h2, h3⟩ := latex2sympy_closed (nodeLib_sound _ none _) partLib_parse hw hd 0 [] ⟨x, []⟩
  rw [Literal.ofInt_text] at h1
  rw [Literal.ofInt_value] at h3
  have h3 : den reals v = (z : ℝ) := by rw [h3]; push_cast; rfl
  have h : ∃ z : ℤ, den reals v = z := ⟨z, h3⟩
  have hz : h.choose = z := by
    have := h3.symm.trans h.choose_spec
    exact_mod_cast this.symm
  refine ⟨v, w'.ext, w'.ext, ?_, ?_⟩
  · show ((latex2sympy partLib 1 (intStr z) [] ⟨x, []⟩).1, (latex2sympy partLib 1 (intStr z) [] ⟨x, []⟩).2.ext) = _
    rw [show latex2sympy partLib 1 (intStr z) [] ⟨x, []⟩ = _ from h1]
  · simp only [pointEnv, realEnv, gives]
    rw [dif_pos h, hz]

/-- The answers of `realEnv` are answers here. -/
theorem Answer.point {s : Str} {x : ℝ} (h : Answer realEnv reals IsReal s x) : Answer pointEnv reals IsReal s x := by
  cases h with
  | literal l ht => exact .literal l ht
  | text ht hs hf hw hd he => exact .text ht hs hf hw hd (pointEnv_exactly _ _)

open Classical in
/-- The hypotheses of C95 are met by `pointEnv`: lists. -/
theorem point_lists {as bs : List Str} {f f' : Frame} (val : Str → ℝ) (pa : Pieces as) (pb : Pieces bs)
    (hf : f ≠ some .curly) (hf' : f' ≠ some .curly) (h3 : 3 ≤ as.length ∨ 3 ≤ bs.length ∨ hasBracket (f.text as) = false)
    (ha : ∀ a ∈ as, Answer realEnv reals IsReal a (val a)) (hb : ∀ b ∈ bs, Answer realEnv reals IsReal b (val b))
    (ho : f = none → f' = none → OneToOne (fun a b => WithinTolerance (val a) (val b)) as bs) (n : Nat) (verbose : Bool) :
    Always (isEquiv pointEnv (n + 3) (some (f.text as)) (some (f'.text bs)) verbose)
      (decide (f = f' ∧ Agree f (fun a b => WithinTolerance (val a) (val b)) as bs)) :=
  C95_lists_partial pointEnv_arith (nodeLib_sound _ none _) partLib_parse pointEnv_uses pointEnv_prints
    (fun l => pointEnv_exactly l.text (l.value : ℝ)) val pa pb hf hf' h3 (fun a h => (ha a h).point) (fun b h => (hb b h).point) ho n verbose

/-- the values of the answers below -/
noncomputable def tenthsOf (s : Str) : ℝ := if s = s%"0.7" then 7 / 10 else 1 / 2

theorem tenths_answer : ∀ s ∈ [s%"0.7", s%"0.5", s%"\\frac{1}{2}", s%"\\sqrt{9}-\\frac{5}{2}"], Answer realEnv reals IsReal s (tenthsOf s) := by
  have h7 := tenth_answer 7 (by decide)
  have h5 := tenth_answer 5 (by decide)
  rw [show (((7 : Fin 10).val : ℕ) : ℝ) / 10 = 7 / 10 by norm_num] at h7
  rw [show (((5 : Fin 10).val : ℕ) : ℝ) / 10 = 1 / 2 by norm_num] at h5
  intro s hs
  simp only [List.mem_cons, List.not_mem_nil, or_false] at hs
  rcases hs with rfl | rfl | rfl | rfl
  · rw [tenthsOf, if_pos rfl]
    exact h7
  · rw [tenthsOf, if_neg (by decide)]
    exact h5
  · rw [tenthsOf, if_neg (by decide)]
    exact half_answer
  · rw [tenthsOf, if_neg (by decide)]
    exact root_answer

theorem far : ¬ WithinTolerance (7 / 10 : ℝ) (1 / 2) ∧ ¬ WithinTolerance (1 / 2 : ℝ) (7 / 10) := by
  constructor
  · rw [WithinTolerance, show |(7 / 10 : ℝ)| = 7 / 10 by rw [abs_of_pos]; norm_num,
      show |(7 / 10 - 1 / 2 : ℝ)| = 1 / 5 by rw [abs_of_pos] <;> norm_num]
    norm_num
  · rw [WithinTolerance, show |(1 / 2 : ℝ)| = 1 / 2 by rw [abs_of_pos]; norm_num,
      show |(1 / 2 - 7 / 10 : ℝ)| = 1 / 5 by rw [abs_of_neg] <;> norm_num]
    norm_num

theorem near (x : ℝ) : WithinTolerance x x := @of_decide_eq_true _ (Classical.dec _) (withinTolerance_refl x)

theorem tenths_within (a b : Str) : WithinTolerance (tenthsOf a) (tenthsOf b) ↔ (a = s%"0.7" ↔ b = s%"0.7") := by
  unfold tenthsOf
  by_cases ha : a = s%"0.7" <;> by_cases hb : b = s%"0.7" <;> simp only [ha, hb, if_true, if_false, iff_true, iff_false, not_true]
  · exact near _
  · exact far.1
  · exact far.2
  · exact near _

/-- `(\frac{1}{2},0.7,0.5)` and `(0.5,0.7,\sqrt{9}-\frac{5}{2})` are judged equivalent. -/
example (n : Nat) (verbose : Bool) : Always (isEquiv pointEnv (n + 3) (some s%"(\\frac{1}{2},0.7,0.5)")
    (some s%"(0.5,0.7,\\sqrt{9}-\\frac{5}{2})") verbose) true := by
  have := point_lists (as := [s%"\\frac{1}{2}", s%"0.7", s%"0.5"]) (bs := [s%"0.5", s%"0.7", s%"\\sqrt{9}-\\frac{5}{2}"])
    (f := some .round) (f' := some .round) tenthsOf (piecesB_sound (by decide +kernel)) (piecesB_sound (by decide +kernel)) (by simp) (by simp)
    (.inl (by decide)) (fun a h => tenths_answer a (by revert h; simp; tauto)) (fun a h => tenths_answer a (by revert h; simp; tauto))
    (by simp) n verbose
  have e : some Bracket.round = some Bracket.round ∧ Agree (some .round) (fun a b => WithinTolerance (tenthsOf a) (tenthsOf b))
      [s%"\\frac{1}{2}", s%"0.7", s%"0.5"] [s%"0.5", s%"0.7", s%"\\sqrt{9}-\\frac{5}{2}"] := by
    refine ⟨rfl, .cons ?_ (.cons ?_ (.cons ?_ .nil))⟩ <;> rw [tenths_within] <;> decide
  exact this.yes e

/-- `(\frac{1}{2},0.7,0.5)` and `(0.7,0.5,0.5)` are not. -/
example (n : Nat) (verbose : Bool) : Always (isEquiv pointEnv (n + 3) (some s%"(\\frac{1}{2},0.7,0.5)")
    (some s%"(0.7,0.5,0.5)") verbose) false := by
  have := point_lists (as := [s%"\\frac{1}{2}", s%"0.7", s%"0.5"]) (bs := [s%"0.7", s%"0.5", s%"0.5"])
    (f := some .round) (f' := some .round) tenthsOf (piecesB_sound (by decide +kernel)) (piecesB_sound (by decide +kernel)) (by simp) (by simp)
    (.inl (by decide)) (fun a h => tenths_answer a (by revert h; simp; tauto)) (fun a h => tenths_answer a (by revert h; simp; tauto))
    (by simp) n verbose
  have e : ¬ (some Bracket.round = some Bracket.round ∧ Agree (some .round) (fun a b => WithinTolerance (tenthsOf a) (tenthsOf b))
      [s%"\\frac{1}{2}", s%"0.7", s%"0.5"] [s%"0.7", s%"0.5", s%"0.5"]) := by
    rintro ⟨-, h⟩
    cases h with
    | cons h _ =>
      rw [tenths_within] at h
      revert h
      decide
  exact this.no e

/-- The lists `0.7,\frac{1}{2}` and `0.5,0.7` are judged equivalent. -/
example (n : Nat) (verbose : Bool) : Always (isEquiv pointEnv (n + 3) (some s%"0.7,\\frac{1}{2}") (some s%"0.5,0.7") verbose) true := by
  have := point_lists (as := [s%"0.7", s%"\\frac{1}{2}"]) (bs := [s%"0.5", s%"0.7"])
    (f := none) (f' := none) tenthsOf (piecesB_sound (by decide +kernel)) (piecesB_sound (by decide +kernel)) (by simp) (by simp)
    (.inr (.inr (by decide +kernel))) (fun a h => tenths_answer a (by revert h; simp; tauto))
    (fun a h => tenths_answer a (by revert h; simp; tauto))
    (fun _ _ => by refine ⟨?_, ?_⟩ <;> simp only [tenths_within] <;> decide) n verbose
  have e : (none : Frame) = none ∧ Agree none (fun a b => WithinTolerance (tenthsOf a) (tenthsOf b))
      [s%"0.7", s%"\\frac{1}{2}"] [s%"0.5", s%"0.7"] := by
    refine ⟨rfl, ?_⟩
    simp only [Agree, Paired, tenths_within]
    decide
  exact this.yes e

/-- The hypotheses of C95 are met by `pointEnv`: pairs. -/
theorem point_pairs {br br' : Bracket} (hbr : br ≠ .curly) (hbr' : br' ≠ .curly) {a b c d : Str} {x y z t : ℝ} (pa : Pieces [a, b])
    (pb : Pieces [c, d]) (hs : ∀ s ∈ [a, b, c, d], EndText s) (ha : Answer realEnv reals IsReal a x) (hb : Answer realEnv reals IsReal b y)
    (hc : Answer realEnv reals IsReal c z) (hd : Answer realEnv reals IsReal d t) (n : Nat) (verbose : Bool) :
    Always (isEquiv pointEnv (n + 3) (some (pairText br a b)) (some (pairText br' c d)) verbose)
      (@decide (br = br' ∧ ((WithinTolerance x z ∧ WithinTolerance y t) ∨ (br = .round ∧ x = y ∧ z = t))) (Classical.dec _)) := by
  convert C95_pairs_partial pointEnv_arith pointEnv_pairs (nodeLib_sound _ none _) partLib_parse pointEnv_uses pointEnv_prints
    (fun l => pointEnv_exactly l.text (l.value : ℝ)) hbr hbr' pa pb hs ha.point hb.point hc.point hd.point n verbose

def endB (s : Str) : Bool := s.all (fun c => c != ',' && c != '(' && c != ')' && c != '[' && c != ']' && c != '∩' && c != '⋃') &&
  !contains s%"\\cap" s && !contains s%"\\cup" s

theorem endB_sound {s : Str} (h : endB s = true) : EndText s := by
  simp only [endB, Bool.and_eq_true, List.all_eq_true, Bool.not_eq_true', bne_iff_ne, ne_eq] at h
  obtain ⟨⟨h1, h2⟩, h3⟩ := h
  exact ⟨fun c hc => by have := h1 c hc; tauto, (contains_eq_false _ _).1 h2, (contains_eq_false _ _).1 h3⟩

/-- `(0.5,0.7)` and `(\frac{1}{2},0.7)` are judged equivalent. -/
example (n : Nat) (verbose : Bool) :
    Always (isEquiv pointEnv (n + 3) (some s%"(0.5,0.7)") (some s%"(\\frac{1}{2},0.7)") verbose) true :=
  (point_pairs (br := .round) (br' := .round) (by simp) (by simp) (piecesB_sound (by decide +kernel)) (piecesB_sound (by decide +kernel))
    (fun s h => endB_sound (by revert s; decide +kernel)) (tenths_answer s%"0.5" (by simp)) (tenths_answer s%"0.7" (by simp))
    (tenths_answer s%"\\frac{1}{2}" (by simp)) (tenths_answer s%"0.7" (by simp)) n verbose).yes
    ⟨rfl, .inl ⟨(tenths_within _ _).2 (by decide), (tenths_within _ _).2 (by decide)⟩⟩

/-- `[0.5,0.7]` and `(\frac{1}{2},0.7)` are not. -/
example (n : Nat) (verbose : Bool) :
    Always (isEquiv pointEnv (n + 3) (some s%"[0.5,0.7]") (some s%"(\\frac{1}{2},0.7)") verbose) false :=
  (point_pairs (br := .square) (br' := .round) (by simp) (by simp) (piecesB_sound (by decide +kernel)) (piecesB_sound (by decide +kernel))
    (fun s h => endB_sound (by revert s; decide +kernel)) (tenths_answer s%"0.5" (by simp)) (tenths_answer s%"0.7" (by simp))
    (tenths_answer s%"\\frac{1}{2}" (by simp)) (tenths_answer s%"0.7" (by simp)) n verbose).no (by simp)

/-- what `latex2sympy` does with an answer, in `pointEnv` -/
theorem Answer.pointReads {s : Str} {x : ℝ} (h : Answer realEnv reals IsReal s x) : RetP (pointEnv.l2s s) (IsReal · x) :=
  h.point.reads (nodeLib_sound _ none _) partLib_parse pointEnv_uses (fun l => pointEnv_exactly l.text (l.value : ℝ))

/-- **C95 is violated for a list without brackets and a pair in square brackets**: `0.5,0.7` is then read as a closed interval, so
that `[0.5,0.7]` and `0.5,0.7` are judged equivalent — in this order; in the other order, they are not. -/
theorem C95_brackets_refuted (n : Nat) (verbose : Bool) :
    Always (isEquiv pointEnv (n + 3) (some s%"[0.5,0.7]") (some s%"0.5,0.7") verbose) true ∧
    Always (isEquiv pointEnv (n + 3) (some s%"0.5,0.7") (some s%"[0.5,0.7]") verbose) false := by
  have p : Pieces [s%"0.5", s%"0.7"] := piecesB_sound (by decide +kernel)
  have h5 := tenths_answer s%"0.5" (by simp)
  have h7 := tenths_answer s%"0.7" (by simp)
  have hle : tenthsOf s%"0.5" ≤ tenthsOf s%"0.7" := by
    rw [tenthsOf, tenthsOf, if_neg (by decide), if_pos rfl]
    norm_num
  constructor
  · refine lists_by_interval (as := [s%"0.5", s%"0.7"]) (bs := [s%"0.5", s%"0.7"]) (f := some .square) (f' := none) pointEnv_pairs p p
      (by simp) (by simp) (by decide +kernel)
      (A := {q | tenthsOf s%"0.5" ≤ q ∧ q ≤ tenthsOf s%"0.7"}) ?_ ?_
    · have := (text_interval pointEnv_arith pointEnv_pairs (s := s%"[0.5,0.7]") (l := s%"[0.5") (r := s%"0.7]") (a := s%"0.5") (b := s%"0.7")
        (by decide +kernel) (by decide +kernel) (by decide +kernel) (by decide +kernel) h5.pointReads h7.pointReads).1 hle
      rw [show contains s%"(" s%"[0.5,0.7]" = false by decide +kernel, show contains s%")" s%"[0.5,0.7]" = false by decide +kernel] at this
      exact this
    · have := (text_interval pointEnv_arith pointEnv_pairs (s := s%"0.5,0.7") (l := s%"0.5") (r := s%"0.7") (a := s%"0.5") (b := s%"0.7")
        (by decide +kernel) (by decide +kernel) (by decide +kernel) (by decide +kernel) h5.pointReads h7.pointReads).1 hle
      rw [show contains s%"(" s%"0.5,0.7" = false by decide +kernel, show contains s%")" s%"0.5,0.7" = false by decide +kernel] at this
      exact this
  · exact (point_lists (as := [s%"0.5", s%"0.7"]) (bs := [s%"0.5", s%"0.7"]) (f := none) (f' := some .square) tenthsOf p p
      (by simp) (by simp) (.inr (.inr (by decide +kernel))) (fun a h => tenths_answer a (by revert h; simp; tauto))
      (fun a h => tenths_answer a (by revert h; simp; tauto)) (by simp) n verbose).no (by simp)

/-- `(1+2)\cdot3` is an answer of value 9. -/
theorem nine_answer : Answer realEnv reals IsReal s%"(1+2)\\cdot3" 9 := by
  refine .text (ws := ([.mark '('] ++ ([.digit 1] ++ .mark '+' :: [.digit 2]) ++ [.mark ')']) ++ .cmd s%"cdot" :: [.digit 3])
    (wide := false) (tidyB_sound (by decide +kernel)) ?_ ?_ (writtenB_sound (by decide +kernel)) ?_ (realEnv_exactly _ _)
  · exact ⟨by simp, by decide, (contains_eq_false _ _).1 (by decide +kernel), by decide +kernel,
      .inr ⟨s%"(1+2)", s%"\\cdot3", rfl, by simp, by simp, by decide +kernel⟩⟩
  · intro f hf
    rw [pyFloat_none '(' (by simp) (by decide)] at hf
    cases hf
  · have d : ∀ d : Fin 10, Denotes reals (fun _ => False) false (.signed false) [.digit d] ((d.val : ℚ) : ℝ) :=
      fun d => .product (.factor (.power (.base (.number (num1 d)))))
    have h1 := Denotes.add (digit_denotes reals 1) (.signed (d 2))
    have h2 := Denotes.mul (o := .cmd s%"cdot") (by decide +kernel)
      (.signed (.product (.factor (.power (.base (.bracket (l := [.mark '(']) (r := [.mark ')']) (by decide +kernel) h1)))))) (d 3)
    have e : (9 : ℝ) = ((((1 : Fin 10).val : ℚ) : ℝ) + (((2 : Fin 10).val : ℚ) : ℝ)) * (((3 : Fin 10).val : ℚ) : ℝ) := by norm_num
    rw [e]
    exact .term h2

/-- integers with one or two digits -/
theorem int_answer (k : ℕ) (hk : k ≤ 2 ^ 53) : Answer realEnv reals IsReal (intStr k) k := by
  have := Answer.literal (E := realEnv) (I := reals) (Is := IsReal) (Literal.ofInt k) (.inl ⟨k, ?_, hk⟩)
  · rw [Literal.ofInt_text, Literal.ofInt_value] at this
    push_cast at this
    exact this
  · simp [Literal.ofInt, Literal.mag, decVal_natStr]

/-- **C95 is violated for pairs with brackets in the coordinates**: `((1+2)\cdot3,20)` and `(3,20)` are judged equivalent.  The pair is
tried as an interval, all opening brackets are deleted from its left end, and the parser reads the beginning `1+2` of what is left. -/
theorem C95_coordinates_refuted (n : Nat) (verbose : Bool) :
    Always (isEquiv pointEnv (n + 3) (some s%"((1+2)\\cdot3,20)") (some s%"(3,20)") verbose) true ∧
    Answer pointEnv reals IsReal s%"(1+2)\\cdot3" 9 ∧ Answer pointEnv reals IsReal s%"3" 3 ∧ ¬ WithinTolerance (9 : ℝ) 3 := by
  have h3 : Answer realEnv reals IsReal s%"3" ((3 : ℕ) : ℝ) := int_answer 3 (by norm_num)
  have h20 : Answer realEnv reals IsReal s%"20" ((20 : ℕ) : ℝ) := int_answer 20 (by norm_num)
  push_cast at h3 h20
  refine ⟨?_, nine_answer.point, h3.point, ?_⟩
  · refine lists_by_interval (as := [s%"(1+2)\\cdot3", s%"20"]) (bs := [s%"3", s%"20"]) (f := some .round) (f' := some .round) pointEnv_pairs
      (piecesB_sound (by decide +kernel)) (piecesB_sound (by decide +kernel)) (by simp) (by simp) (by decide +kernel)
      (A := {q | 3 < q ∧ q < 20}) ?_ ?_
    · have h : RetP (pointEnv.l2s s%"1+2)\\cdot3") (IsReal · 3) := by
        intro w
        have e : (latex2sympy partLib 1 s%"1+2)\\cdot3" [] ⟨w, []⟩).1 = .ok (.add [.num 1, .num 2]) := by kernel_rfl
        refine ⟨.add [.num 1, .num 2], (latex2sympy partLib 1 s%"1+2)\\cdot3" [] ⟨w, []⟩).2.ext, ?_, ?_, ?_⟩
        · show ((latex2sympy partLib 1 s%"1+2)\\cdot3" [] ⟨w, []⟩).1, (latex2sympy partLib 1 s%"1+2)\\cdot3" [] ⟨w, []⟩).2.ext) = _
          rw [e]
        · rfl
        · simp only [den, denSum]
          norm_num
      have := (text_interval pointEnv_arith pointEnv_pairs (s := s%"((1+2)\\cdot3,20)") (l := s%"((1+2)\\cdot3") (r := s%"20)")
        (a := s%"1+2)\\cdot3") (b := s%"20")
        (by decide +kernel) (by decide +kernel) (by decide +kernel) (by decide +kernel) h h20.pointReads).1 (by norm_num)
      rw [show contains s%"(" s%"((1+2)\\cdot3,20)" = true by decide +kernel,
        show contains s%")" s%"((1+2)\\cdot3,20)" = true by decide +kernel] at this
      exact this
    · have := (text_interval pointEnv_arith pointEnv_pairs (s := s%"(3,20)") (l := s%"(3") (r := s%"20)")
        (a := s%"3") (b := s%"20")
        (by decide +kernel) (by decide +kernel) (by decide +kernel) (by decide +kernel) h3.pointReads h20.pointReads).1 (by norm_num)
      rw [show contains s%"(" s%"(3,20)" = true by decide +kernel, show contains s%")" s%"(3,20)" = true by decide +kernel] at this
      exact this
  · rw [WithinTolerance, show |(9 : ℝ)| = 9 by rw [abs_of_pos]; norm_num, show |(9 - 3 : ℝ)| = 6 by rw [abs_of_pos] <;> norm_num]
    norm_num

end Verif.L2S
