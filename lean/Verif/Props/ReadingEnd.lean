import Verif.Props.ReadingText
import Verif.Props.ReadingApart
import Verif.Props.L2SArithReal
import Verif.Spec.KernelRfl
/-
LaTeX texts are converted to the values they denote (C76).
-/

namespace Verif.Grammar
open Verif Verif.L2S Verif.Reading

section
variable {K : Type} [Field K] {I : Interp K} {free : Str → Prop} {wide : Bool}

/-- Texts with integrals are read if their differentials are apart. -/
theorem parse_apart {style : Style} {ws : List Sign} {s : Str} {x : K} (hw : Written ws s)
    (hd : Denotes I free style .expr ws x) (ha : Apart ws) :
    ∃ t, parseText s = some (.one t) ∧ Means I free t x := by
  obtain ⟨ts, h1, h2⟩ := lex_written hw (denotes_kinds hd)
  obtain ⟨t, h3, h4⟩ := parseTokens_first hd h2 (oneDiff_of_apart h2 ha)
  exact ⟨t, by rw [parseText, h1]; exact h3, h4⟩

theorem latex2sympy_apart [CharZero K] {style : Style} {Y : Type} {L : Lib Y} (hL : SoundLib I L)
    (hp : ∀ s t, parseText s = some t → L.parse s = .ok t) {ws : List Sign} {s : Str} {x : K}
    (hw : Written ws s) (hd : Denotes I free style .expr ws x) (ha : Apart ws) (n : Nat)
    (vals : List (Str × PV)) (w : World (St Y)) (hr : Ready I free w) :
    ∃ v w', latex2sympy L (n + 1) s vals w = (.ok v, w') ∧ v.scalar = true ∧ den I v = x := by
  obtain ⟨t, h1, h2⟩ := parse_apart hw hd ha
  refine C62_latex2sympy_partial I L hL n s vals (t := t) ?_ h2 w hr
  rw [prepare_written hw (denotes_kinds hd) (denotes_sub hd).1]
  exact hp _ _ h1

/-- **C76.**  The parser accepts every text of the notation, and the tree it builds has the value of
the text: the usual precedence of operators, brackets, fractions, roots and functions. -/
theorem C76_parse {ws : List Sign} {s : Str} {x : K} (hw : Written ws s)
    (hd : Denotes I free wide .expr ws x) : ∃ t, parseText s = some (.one t) ∧ Means I free t x :=
  parse_apart hw hd (apart_of_boxed (boxed_denotes hd rfl))

/-- **C76.**  `latex2sympy` of a text of the notation returns an expression of the value the text
denotes, for every binding of the variables and whatever was converted before. -/
theorem C76_latex2sympy [CharZero K] {Y : Type} {L : Lib Y} (hL : SoundLib I L)
    (hp : ∀ s t, parseText s = some t → L.parse s = .ok t) {ws : List Sign} {s : Str} {x : K}
    (hw : Written ws s) (hd : Denotes I free wide .expr ws x) (n : Nat) (vals : List (Str × PV))
    (w : World (St Y)) (hr : Ready I free w) :
    ∃ v w', latex2sympy L (n + 1) s vals w = (.ok v, w') ∧ v.scalar = true ∧ den I v = x :=
  latex2sympy_apart hL hp hw hd (apart_of_boxed (boxed_denotes hd rfl)) n vals w hr

end

/-! ### Concrete texts -/

instance (p : Char → Prop) [DecidablePred p] (s : Str) : Decidable (∀ c, s.head? = some c → p c) := by
  cases s with
  | nil => exact isTrue (by simp)
  | cons a s => exact decidable_of_iff (p a) (by simp)

instance (w : Sign) (s : Str) : Decidable (Ends w s) := by
  cases w <;> unfold Ends <;> infer_instance

/-- The text is written with these signs. -/
def writtenB : List Sign → Str → Bool
  | [], s => s.all (· ∈ [' ', '\t', '\r', '\n'])
  | w :: ws, s =>
    let s := s.dropWhile (· ∈ [' ', '\t', '\r', '\n'])
    w.text.isPrefixOf s && decide (Ends w (s.drop w.text.length)) && writtenB ws (s.drop w.text.length)

theorem writtenB_sound : ∀ {ws : List Sign} {s : Str}, writtenB ws s = true → Written ws s
  | [], s, h => .nil fun c hc => by
    have := List.all_eq_true.1 h c hc
    simpa using this
  | w :: ws, s, h => by
    simp only [writtenB, Bool.and_eq_true, decide_eq_true_eq] at h
    obtain ⟨⟨h1, h2⟩, h3⟩ := h
    obtain ⟨r, hr⟩ := List.isPrefixOf_iff_prefix.1 h1
    have hd : (s.dropWhile (· ∈ [' ', '\t', '\r', '\n'])).drop w.text.length = r := by
      rw [← hr]; simp
    rw [hd] at h2 h3
    have he : s = s.takeWhile (· ∈ [' ', '\t', '\r', '\n']) ++ w.text ++ r := by
      rw [List.append_assoc, hr, List.takeWhile_append_dropWhile]
    rw [he]
    refine .cons (fun c hc => ?_) h2 (writtenB_sound h3)
    have := List.all_eq_true.1 List.all_takeWhile c hc
    simpa using this

/-- signs of `\frac{x^2-1}{2} - 0.5\sqrt{x}` -/
def sampleSigns : List Sign :=
  (.cmd s%"frac" :: (.mark '{' :: ((.letter 'x' :: .mark '^' :: [.digit 2]) ++ .mark '-' :: [.digit 1])
    ++ [.mark '}']) ++ (.mark '{' :: [.digit 2] ++ [.mark '}'])) ++ .mark '-' ::
    (([.digit 0] ++ .mark '.' :: [.digit 5]) ++ .cmd s%"sqrt" :: (.mark '{' :: [.letter 'x'] ++ [.mark '}']))

theorem num1 (d : Fin 10) : Numeral [.digit d] (d.val : ℚ) := by
  have := Numeral.whole (ip := [d]) (by simp)
  simpa [intPart] using this

/-- The text `\frac{x^2-1}{2} - 0.5\sqrt{x}` meets the hypotheses of C76 over the real numbers, and is
converted to `(x² - 1)/2 - 0.5·√x` at `x = 3`. -/
example : ∃ v w', latex2sympy (nodeLib fun s => match parseText s with
        | some t => .ok t
        | none => .error .other) 1 s%"\\frac{x^2-1}{2} - 0.5\\sqrt{x}" []
      ⟨⟨Globals.init, ()⟩, []⟩ = (.ok v, w') ∧ v.scalar = true ∧
      den (realInterp (fun _ _ => 3) none) v
        = ((3 : ℝ) ^ ((2 : ℕ) : ℝ) - ((1 : ℕ) : ℚ)) / ((2 : ℕ) : ℚ) - ((0.5 : ℚ) : ℝ) * (3 : ℝ) ^ ((1 : ℝ) / 2) := by
  refine C76_latex2sympy (I := realInterp (fun _ _ => 3) none) (free := fun _ => True) (wide := false)
    (nodeLib_sound (fun _ _ => 3) none _) (fun s t h => by simp [nodeLib, h])
    (ws := sampleSigns) (writtenB_sound (by decide +kernel)) ?_ 0 _ _ ⟨rfl, fun _ _ => rfl⟩
  have hn : ∀ d, Denotes (realInterp (fun _ _ => 3) none) (fun _ => True) false .expr [.digit d]
      ((d.val : ℚ) : ℝ) :=
    fun d => .term (.signed (.product (.factor (.power (.base (.number (num1 d)))))))
  have hx : Denotes (realInterp (fun _ _ => 3) none) (fun _ => True) false .expr [.letter 'x'] (3 : ℝ) :=
    .term (.signed (.product (.factor (.power (.base (.letter (.latin (c := 'x') (by decide)) trivial))))))
  refine .sub (.term (.signed (.product (.factor (.power (.base (.frac (.partBraces (.sub (o := false) ?_ ?_))
    (.partBraces (hn 2))))))))) (.signed (.product (.juxt (.power (.base (.number ?_)))
    (.factor (.power (.base (.sqrt (.partBraces hx))))) ?_)))
  · exact .term (.signed (.product (.factor (.power (.base (.letterPow (.latin (c := 'x') (by decide)) trivial .expDigit))))))
  · exact .signed (.product (.factor (.power (.base (.number (num1 1))))))
  · have := Numeral.point (ip := [0]) (fp := [5]) (by simp)
    simp [intPart, L2S.fracPart] at this
    norm_num at this ⊢
    exact this
  · exact ⟨fun _ => ⟨by simp, by simp⟩, by simp⟩

end Verif.Grammar
