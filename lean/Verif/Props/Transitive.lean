import Verif.Props.Chance
/-
How far the verdict is transitive (C112).
-/

namespace Verif.L2S
open Verif Verif.Reading Verif.Grammar

section
variable {K : Type} [Field K] [LinearOrder K] [IsStrictOrderedRing K] {Y S : Type}
variable {E : Env (St Y) SV S} {L : Lib Y} {I : Interp K} {Is Ev : SV → K → Prop} {N : Nat}

/-- Values within the tolerance are less than 5/1000 apart. -/
theorem withinTolerance_close {x y : K} (h : WithinTolerance x y) : |x - y| < 5 / 1000 := by
  rcases h with rfl | ⟨_, h⟩ | ⟨_, h⟩ | ⟨h0, h1, h⟩
  · rw [sub_self, abs_zero]; norm_num
  · exact h.trans (by norm_num)
  · exact h
  · rw [div_lt_iff₀ h0] at h
    linarith

/-- the verdict on the two texts is `True` in some run -/
def Accepted {X V S : Type} (E : Env X V S) (s t : Str) : Prop := ∃ n verbose w, (isEquiv E (n + 2) (some s) (some t) verbose w).1 = .ok true

theorem accepted_within (H : RealArith E Is Ev) (hL : SoundLib I L) (hp : ∀ s t, parseText s = some t → L.parse s = .ok t)
    (hl : UsesLatex2sympy E L N) (hE : PrintsIntegers E) (hlit : ∀ l : Literal, Exactly E I Is l.text (l.value : K)) {a b : Str} {x y : K}
    (ha : Answer E I Is a x) (hb : Answer E I Is b y) (h : Accepted E a b) : WithinTolerance x y := by
  obtain ⟨n, verbose, w, h⟩ := h
  obtain ⟨w', h'⟩ := C84_judged_by_value_partial H hL hp hl hE hlit ha hb n verbose w
  rw [h'] at h
  simpa using h

/-- **C112.**  If of some answers in LaTeX notation each is judged equivalent to the next, the values of the first and the last differ by
less than 5/1000 for each step; so equivalence is transitive up to the tolerance.  That the last is judged equivalent to the first is
missing: it fails (`C112_refuted`). -/
theorem C112_chain_partial (H : RealArith E Is Ev) (hL : SoundLib I L) (hp : ∀ s t, parseText s = some t → L.parse s = .ok t)
    (hl : UsesLatex2sympy E L N) (hE : PrintsIntegers E) (hlit : ∀ l : Literal, Exactly E I Is l.text (l.value : K))
    (s : ℕ → Str) (x : ℕ → K) (n : ℕ) (ha : ∀ i ≤ n, Answer E I Is (s i) (x i)) (h : ∀ i < n, Accepted E (s i) (s (i + 1))) :
    |x 0 - x n| ≤ n * (5 / 1000) ∧ (0 < n → |x 0 - x n| < n * (5 / 1000)) := by
  induction n with
  | zero => simp
  | succ n ih =>
    obtain ⟨h1, _⟩ := ih (fun i hi => ha i (by omega)) fun i hi => h i (by omega)
    have h2 := withinTolerance_close (accepted_within H hL hp hl hE hlit (ha n (by omega)) (ha (n + 1) le_rfl) (h n (by omega)))
    have h3 : |x 0 - x (n + 1)| < (n + 1 : ℕ) * (5 / 1000) := by
      calc |x 0 - x (n + 1)| = |(x 0 - x n) + (x n - x (n + 1))| := by congr 1; ring
        _ ≤ |x 0 - x n| + |x n - x (n + 1)| := abs_add_le _ _
        _ < n * (5 / 1000) + 5 / 1000 := by linarith
        _ = (n + 1 : ℕ) * (5 / 1000) := by push_cast; ring
    exact ⟨h3.le, fun _ => h3⟩

/-- **C112.**  On answers whose values are equal or at least 5/1000 apart — for instance integers, or decimals with at most two digits after
the point — the verdict is equality of the values, so it is an equivalence relation. -/
theorem C112_spaced_partial (H : RealArith E Is Ev) (hL : SoundLib I L) (hp : ∀ s t, parseText s = some t → L.parse s = .ok t)
    (hl : UsesLatex2sympy E L N) (hE : PrintsIntegers E) (hlit : ∀ l : Literal, Exactly E I Is l.text (l.value : K))
    {A : Set K} (hA : ∀ x ∈ A, ∀ y ∈ A, x = y ∨ 5 / 1000 ≤ |x - y|) :
    (∀ {a x}, Answer E I Is a x → ∀ n verbose, Always (isEquiv E (n + 2) (some a) (some a) verbose) true) ∧
    (∀ {a b x y}, Answer E I Is a x → Answer E I Is b y → x ∈ A → y ∈ A → Accepted E a b →
      ∀ n verbose, Always (isEquiv E (n + 2) (some b) (some a) verbose) true) ∧
    (∀ {a b c x y z}, Answer E I Is a x → Answer E I Is b y → Answer E I Is c z → x ∈ A → y ∈ A → z ∈ A → Accepted E a b →
      Accepted E b c → ∀ n verbose, Always (isEquiv E (n + 2) (some a) (some c) verbose) true) := by
  have eq : ∀ {a b x y}, Answer E I Is a x → Answer E I Is b y → x ∈ A → y ∈ A → Accepted E a b → x = y := by
    intro a b x y ha hb hx hy h
    rcases hA x hx y hy with e | e
    · exact e
    · exact absurd (withinTolerance_close (accepted_within H hL hp hl hE hlit ha hb h)) (not_lt.2 e)
  refine ⟨fun ha n verbose => C84_same_value_partial H hL hp hl hE hlit ha ha n verbose, ?_, ?_⟩
  · intro a b x y ha hb hx hy h n verbose
    obtain rfl := eq ha hb hx hy h
    exact C84_same_value_partial H hL hp hl hE hlit hb ha n verbose
  · intro a b c x y z ha hb hc hx hy hz h h' n verbose
    obtain rfl := eq ha hb hx hy h
    obtain rfl := eq hb hc hy hz h'
    exact C84_same_value_partial H hL hp hl hE hlit ha hc n verbose

end

/-! ### The hypotheses are met -/

/-- The multiples of 1/100 are spaced. -/
theorem hundredths_spaced : ∀ x ∈ {x : ℝ | ∃ z : ℤ, x = z / 100}, ∀ y ∈ {x : ℝ | ∃ z : ℤ, x = z / 100}, x = y ∨ 5 / 1000 ≤ |x - y| := by
  rintro _ ⟨z, rfl⟩ _ ⟨w, rfl⟩
  by_cases e : z = w
  · exact .inl (by rw [e])
  · right
    have : (1 : ℝ) ≤ |(z : ℝ) - w| := by
      have := Int.one_le_abs (sub_ne_zero.2 e)
      exact_mod_cast this
    rw [show (z : ℝ) / 100 - w / 100 = (z - w) / 100 by ring, abs_div, show |(100 : ℝ)| = 100 by norm_num]
    linarith

/-- `1.001` to `1.009` -/
theorem thousandth_answer (d : Fin 10) (hd : d ≠ 0) :
    Answer realEnv reals IsReal (s%"1.00" ++ [digitChar d.val]) (1 + (d.val : ℝ) / 1000) := by
  let l : Literal := ⟨false, s%"1", some (s%"00" ++ [digitChar d.val]), by decide, by rintro f ⟨⟩; revert d; decide, by simp, by simp⟩
  have hm : l.mag = 1 + (d.val : ℚ) / 1000 := by
    have : ∀ d : Fin 10, decVal ['1', '0', '0', digitChar d.val] = 1000 + d.val := by decide
    simp [l, Literal.mag, this]
    ring
  have hd0 : 1 ≤ d.val := by have : d.val ≠ 0 := fun e => hd (Fin.ext e); omega
  have hd9 : d.val ≤ 9 := by omega
  have h1 : (1 : ℚ) ≤ d.val := by exact_mod_cast hd0
  have h9 : (d.val : ℚ) ≤ 9 := by exact_mod_cast hd9
  have ht : l.Tame := .inr ⟨by rw [hm]; linarith, fun z => by
    rw [hm]
    by_cases hz : z ≤ 1
    · have : (z : ℚ) ≤ 1 := by exact_mod_cast hz
      rw [abs_of_nonneg] <;> norm_num <;> linarith
    · have : (2 : ℚ) ≤ z := by exact_mod_cast (by omega : 2 ≤ z)
      rw [abs_of_nonpos] <;> norm_num <;> linarith⟩
  have := Answer.literal (E := realEnv) (I := reals) (Is := IsReal) l ht
  rw [show l.value = 1 + (d.val : ℚ) / 1000 from hm] at this
  push_cast at this
  exact this

theorem real_verdict {a b : Str} {x y : ℝ} (ha : Answer realEnv reals IsReal a x) (hb : Answer realEnv reals IsReal b y) (n : Nat)
    (verbose : Bool) : Always (isEquiv realEnv (n + 2) (some a) (some b) verbose) (@decide (WithinTolerance x y) (Classical.dec _)) :=
  C84_judged_by_value_partial realEnv_arith (nodeLib_sound _ none _) grammarLib_parse realEnv_uses realEnv_prints
    (fun l => realEnv_exactly l.text (l.value : ℝ)) ha hb n verbose

/-- **C112**, refuted: `1.001` and `1.005` are always judged equivalent, `1.005` and `1.009` are, and `1.001` and `1.009` never are. -/
theorem C112_refuted (n : Nat) (verbose : Bool) :
    Always (isEquiv realEnv (n + 2) (some s%"1.001") (some s%"1.005") verbose) true ∧
    Always (isEquiv realEnv (n + 2) (some s%"1.005") (some s%"1.009") verbose) true ∧
    Always (isEquiv realEnv (n + 2) (some s%"1.001") (some s%"1.009") verbose) false := by
  have h1 := thousandth_answer 1 (by decide)
  have h5 := thousandth_answer 5 (by decide)
  have h9 := thousandth_answer 9 (by decide)
  rw [show s%"1.00" ++ [digitChar (1 : Fin 10).val] = s%"1.001" by decide +kernel] at h1
  rw [show s%"1.00" ++ [digitChar (5 : Fin 10).val] = s%"1.005" by decide +kernel] at h5
  rw [show s%"1.00" ++ [digitChar (9 : Fin 10).val] = s%"1.009" by decide +kernel] at h9
  refine ⟨(real_verdict h1 h5 n verbose).yes (.inr (.inr (.inl ?_))), (real_verdict h5 h9 n verbose).yes (.inr (.inr (.inl ?_))),
    (real_verdict h1 h9 n verbose).no ?_⟩
  · norm_num [abs_of_neg]
  · norm_num [abs_of_neg]
  · norm_num [WithinTolerance, abs_of_neg]

/-- `0.5` and `\frac{1}{2}` are accepted for each other, as in `C112_spaced_partial`. -/
example (n : Nat) (verbose : Bool) : Always (isEquiv realEnv (n + 2) (some s%"\\frac{1}{2}") (some s%"0.5") verbose) true := by
  have h5 := tenths_answer s%"0.5" (by simp)
  have hf := tenths_answer s%"\\frac{1}{2}" (by simp)
  have e5 : tenthsOf s%"0.5" = 1 / 2 := by simp [tenthsOf]
  have ef : tenthsOf s%"\\frac{1}{2}" = 1 / 2 := by simp [tenthsOf]
  rw [e5] at h5
  rw [ef] at hf
  have hm : (1 / 2 : ℝ) ∈ {x : ℝ | ∃ z : ℤ, x = z / 100} := ⟨50, by norm_num⟩
  refine (C112_spaced_partial realEnv_arith (nodeLib_sound _ none _) grammarLib_parse realEnv_uses realEnv_prints
    (fun l => realEnv_exactly l.text (l.value : ℝ)) hundredths_spaced).2.1 h5 hf hm hm ⟨0, false, ⟨⟨Globals.init, ()⟩, []⟩, ?_⟩ n verbose
  obtain ⟨w', h⟩ := (real_verdict h5 hf 0 false).yes (.inl rfl) ⟨⟨Globals.init, ()⟩, []⟩
  rw [h]

end Verif.L2S
