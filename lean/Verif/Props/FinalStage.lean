import Verif.Model.Normalize
import Verif.Py.FloatPrint
import Verif.Py.DeadLemmas
import Verif.Props.Quiet
import Verif.Props.Numeric
import Verif.Spec.Toy
/-
Properties C19, C20: the last stage of the normaliser, and integers.
-/

namespace Verif
open Re

variable {X V S : Type}

/-! ### C19 -/

/-- What the Unicode table of lower-case forms is assumed to satisfy (it does in CPython): the lower-case form
of a non-ASCII character contains no blank and no ASCII capital. -/
def LowerTable (U : Uni) : Prop := ∀ pre c post, 128 ≤ c.toNat → ∀ x ∈ U.lower pre c post, x ≠ ' ' ∧ asciiUpper x = false

theorem asciiToLower_props (c : Char) (hc : c ≠ ' ') : asciiToLower c ≠ ' ' ∧ asciiUpper (asciiToLower c) = false := by
  unfold asciiToLower
  split
  · rename_i h
    have h2 : 65 ≤ c.toNat ∧ c.toNat ≤ 90 := by simpa [asciiUpper] using h
    have hn : (Char.ofNat (c.toNat + 32)).toNat = c.toNat + 32 := by
      have hv : (c.toNat + 32).isValidChar := by left; omega
      unfold Char.ofNat
      rw [dif_pos hv]
      rfl
    constructor
    · intro e
      rw [e] at hn
      have : (' ' : Char).toNat = 32 := by decide
      omega
    · simp only [asciiUpper, hn]; simp; omega
  · rename_i h
    exact ⟨hc, by simpa using h⟩

theorem lower_props {U : Uni} (hU : LowerTable U) (pre s : Str) (hs : ' ' ∉ s) :
    ∀ x ∈ lowerGo U pre s, x ≠ ' ' ∧ asciiUpper x = false := by
  induction s generalizing pre with
  | nil => intro x hx; cases hx
  | cons c cs ih =>
    intro x hx
    simp only [lowerGo, List.mem_append] at hx
    rcases hx with hx | hx
    · split at hx
      · simp at hx; subst hx
        exact asciiToLower_props c (fun e => hs (by simp [e]))
      · rename_i hc; exact hU _ _ _ (Nat.le_of_not_lt hc) x hx
    · exact ih _ (fun h => hs (by simp [h])) x hx

theorem furtherPure_props {U : Uni} (hU : LowerTable U) (s : Str) :
    ∀ x ∈ furtherPure U s, x ≠ ' ' ∧ asciiUpper x = false := by
  unfold furtherPure
  simp only
  apply lower_props hU
  rw [replace_one_nil]
  simp

/-- C19: what the last stage returns contains neither a blank nor an ASCII capital, or it is what the CAS
printed for a value it had parsed from such a text. -/
theorem C19_no_blank_no_capital (E : Env X V S) (hU : LowerTable E.U) (s r : Str) (w w' : World X)
    (h : further E s w = (.ok r, w')) :
    (∀ c ∈ r, c ≠ ' ' ∧ asciiUpper c = false) ∨
      ∃ t v x₁ x₂, (∀ c ∈ t, c ≠ ' ' ∧ asciiUpper c = false) ∧
        E.l2s t w.ext = (.ok v, x₁) ∧ E.str v x₁ = (.ok r, x₂) := by
  have hp := furtherPure_props hU s
  unfold further canonInt at h
  generalize furtherPure E.U s = t at h hp
  by_cases hi : strIsInt E.U t = true
  · rw [if_pos hi] at h
    cases hl : E.l2s t w.ext with
    | mk res x₁ =>
      cases res with
      | error e =>
        simp [M.ext, hl] at h
        left; rw [← h.1]; exact hp
      | ok v =>
        right
        simp [M.ext, hl] at h
        exact ⟨t, v, x₁, (E.str v x₁).2, hp, hl, by rw [← h.1]⟩
  · rw [if_neg hi] at h
    left
    cases h; exact hp

/-- The assumption holds of the toy tables, and the stage does remove blanks and capitals. -/
example : LowerTable asciiUni := by
  intro _ c _ hc x hx
  simp [asciiUni] at hx
  subst hx
  refine ⟨?_, ?_⟩
  · rintro rfl; revert hc; decide
  · simp [asciiUpper]; omega

example : (further failEnv s%"X + Y" ⟨(), []⟩).1 = .ok s%"x+y" := by decide +kernel

/-! ### C20 -/

/-- Parsing a plain integer and printing it gives it back (or the parser fails). -/
def PrintsIntegers (E : Env X V S) : Prop := ∀ (n : ℤ) (x : X),
  (∃ e x', E.l2s (intStr n) x = (.error e, x')) ∨
    ∃ v x' x'', E.l2s (intStr n) x = (.ok v, x') ∧ E.str v x' = (.ok (intStr n), x'')

theorem lower_id (U : Uni) (pre s : Str) (h : ∀ c ∈ s, c.toNat < 128 ∧ asciiUpper c = false) :
    lowerGo U pre s = s := by
  induction s generalizing pre with
  | nil => rfl
  | cons c cs ih =>
    obtain ⟨h1, h2⟩ := h c (by simp)
    simp only [lowerGo, h1, if_true, asciiToLower, h2]
    simp [ih (c :: pre) fun d hd => h d (by simp [hd])]

/-- `re.sub("- *", "-", s)` changes nothing if there are no blanks. -/
theorem dash_id (s : Str) (h : ' ' ∉ s) : reSubConst (.seq (c '-') (many (c ' '))) s%"-" s = s := by
  have key : ∀ pre s, ' ' ∉ s →
      scanSub ((Re.seq (c '-') (many (c ' '))).scanner fun _ _ => s%"-") 0 pre s = s := by
    intro pre s
    induction s generalizing pre with
    | nil => intro _; rfl
    | cons a as ih =>
      intro h
      have has : ' ' ∉ as := fun h' => h (by simp [h'])
      by_cases ha : a = '-'
      · subst ha
        have hm : (Re.seq (c '-') (many (c ' '))).matchAt pre ('-' :: as) = some ⟨'-' :: pre, as, []⟩ := by
          unfold Re.matchAt
          rw [run_seq]
          simp only [c, run_chr_cons, beq_self_eq_true, if_true, List.flatMap_cons, List.flatMap_nil, List.append_nil]
          rw [Re.many, run_many_chr_head]
          have : runLen (· == ' ') as = 0 := by
            cases as with
            | nil => rfl
            | cons b bs =>
              apply runLen_cons_neg
              simp only [beq_iff_eq]
              rintro rfl; exact has (by simp)
          simp only
          rw [this]; simp
        have hsc : (Re.seq (c '-') (many (c ' '))).scanner (fun _ _ => s%"-") pre ('-' :: as) = some (1, s%"-") := by
          simp [Re.scanner, hm]
        simp only [scanSub, hsc]
        rw [ih _ has]; rfl
      · have hm : (Re.seq (c '-') (many (c ' '))).matchAt pre (a :: as) = none := by
          simp [Re.matchAt, c, ha]
        simp only [scanSub, Re.scanner, hm]
        rw [ih _ has]
  exact key [] s h

/-- Characters of plain numbers. -/
def plain (c : Char) : Bool := asciiDigit c || c == '-' || c == '.'

theorem plain_quiet {c : Char} (h : plain c = true) : quiet c = true := by
  simp only [plain, Bool.or_eq_true, beq_iff_eq] at h
  rcases h with (h | rfl) | rfl
  · exact quiet_digit h
  · decide
  · decide

theorem plain_ascii {c : Char} (h : plain c = true) : c.toNat < 128 ∧ asciiUpper c = false := by
  simp only [plain, Bool.or_eq_true, beq_iff_eq] at h
  rcases h with (h | rfl) | rfl
  · have h2 : 48 ≤ c.toNat ∧ c.toNat ≤ 57 := by simpa [asciiDigit] using h
    simp [asciiUpper]; omega
  · decide
  · decide

/-- On a plain number only the conversion of integers does anything. -/
theorem furtherPure_plain (U : Uni) (s : Str) (hs : ∀ c ∈ s, plain c = true)
    (hc : ∀ c ∈ canonFloat U s, plain c = true) : furtherPure U s = canonFloat U s := by
  have h1 : stripBraces s = s := by
    unfold stripBraces
    rw [if_neg]
    cases s with
    | nil => simp
    | cons a as =>
      have : a ≠ '{' := by rintro rfl; have := hs '{' (by simp); revert this; decide
      simp [this]
  have hb : ' ' ∉ canonFloat U s := fun h => by have := hc _ h; revert this; decide
  unfold furtherPure
  simp only [h1]
  rw [contains_alpha (x := '\\') (by simp) (by decide) hc]
  simp only [Bool.false_eq_true, if_false]
  rw [dash_id _ hb]
  have h2 : injectMixed U (canonFloat U s) = canonFloat U s := by
    unfold injectMixed
    simp only
    rw [reSub_dead (A := plain) (mixedRe1 U) _ _ (dead_cat (r := plus (c ' ')) (by simp) (dead_plus (dead_c (by decide)))) hc]
    apply reSub_dead (A := plain) (mixedRe2 U) _ _ _ hc
    refine dead_cat (List.mem_cons_of_mem _ (List.mem_cons_of_mem _ (List.mem_singleton.2 rfl))) ?_
    apply dead_grp
    exact dead_cat (r := lit s%"\\frac") (by simp) (dead_lit (x := '\\') (by simp) (by decide))
  rw [h2, replace_alpha (x := ' ') (by simp) (by decide) hc]
  exact lower_id U [] _ (fun c h => plain_ascii (hc c h))

theorem intStr_sign (n : ℤ) : intStr n = signStr (decide (n < 0)) ++ natStr n.natAbs := by
  cases n with
  | ofNat k => simp [intStr, signStr]
  | negSucc k => simp [intStr, signStr, Int.negSucc_lt_zero]

theorem intStr_allPlain (n : ℤ) : ∀ c ∈ intStr n, plain c = true := by
  intro c hc
  rcases intStr_chars n c hc with h | h
  · simp [plain, h]
  · simp [plain, h]

theorem pyFloat_intStr (U : Uni) (n : ℤ) :
    pyFloat U (intStr n) = some (F64.ofFrac (decide (n < 0)) n.natAbs 1) := by
  rw [intStr_sign, pyFloat_int U _ _ (natStr_digits _) (natStr_ne_nil _), natOfDigits_natStr]
  simp [F64.ofDecimal]

theorem tenth7_fin : ∃ s m e, F64.ofFrac false 1 (10 ^ 7) = .fin s m e := by
  have : (match F64.ofFrac false 1 (10 ^ 7) with | .fin _ _ _ => true | _ => false) = true := by decide +kernel
  split at this
  · rename_i h; exact ⟨_, _, _, h⟩
  · cases this

/-- A float with an integer value. -/
theorem float_of_int (s : Bool) (m : Nat) (e : ℤ) (k : Nat) (h : (m : ℚ) * 2 ^ e = k) :
    isIntFloat (.fin s m e) = true ∧ F64.roundInt (.fin s m e) = some (if s then -(k : ℤ) else k) := by
  have hden : 0 < F64.den e := den_pos e
  have hnum : F64.num m e = k * F64.den e := by
    rw [← num_den, div_eq_iff (by exact_mod_cast hden.ne')] at h
    exact_mod_cast h
  have hr : rneDiv (F64.num m e) (F64.den e) = k := by rw [hnum]; exact rneDiv_exact k _ hden
  constructor
  · obtain ⟨_, m', e', h7⟩ := tenth7_fin
    unfold isIntFloat F64.nearInt
    simp only [hr, h7]
    rw [hnum]
    simp
  · unfold F64.roundInt
    simp [hr]

/-- The double nearest to a natural number is a natural number (or infinite). -/
theorem ofFrac_nat (s : Bool) (n : Nat) :
    F64.ofFrac s n 1 = .inf s ∨ ∃ m e k, F64.ofFrac s n 1 = .fin s m e ∧ (m : ℚ) * 2 ^ e = (k : ℕ) ∧
      (∀ y, IsDouble y → |(k : ℚ) - n| ≤ |y - n|) := by
  by_cases hn : n = 0
  · right
    refine ⟨0, 0, 0, ?_, by simp, ?_⟩
    · unfold F64.ofFrac; rw [if_pos hn]
    · intro y _; rw [hn]; simp
  · have hn' := Nat.pos_of_ne_zero hn
    rw [ofFrac_pos s n 1 hn']
    split
    · exact .inl rfl
    · right
      have hnear := rmant_nearest n 1 hn' (by norm_num)
      simp only [Nat.cast_one, div_one] at hnear
      have hint : ∃ k : ℕ, (rmant n 1 : ℚ) * 2 ^ ulpExp n 1 = k := by
        rcases le_total (ulpExp n 1) 0 with h | h
        · refine ⟨n, ?_⟩
          have hpp : pow2pos (ulpExp n 1) = 1 := by
            unfold pow2pos
            rw [show (ulpExp n 1).toNat = 0 by omega]
          have : rmant n 1 = n * pow2neg (ulpExp n 1) := by
            have := rneDiv_exact (n * pow2neg (ulpExp n 1)) 1 (by norm_num)
            unfold rmant
            rw [hpp]
            simpa using this
          rw [this, ← pow2_cast, hpp]
          have h2 : (pow2neg (ulpExp n 1) : ℚ) ≠ 0 := by exact_mod_cast (pow2neg_pos _).ne'
          push_cast
          field_simp
        · refine ⟨rmant n 1 * 2 ^ (ulpExp n 1).toNat, ?_⟩
          have : (2 : ℚ) ^ ulpExp n 1 = 2 ^ ((ulpExp n 1).toNat : ℤ) := by congr 1; omega
          rw [this, two_zpow_natCast]
          push_cast
          ring
      obtain ⟨k, hk⟩ := hint
      exact ⟨_, _, k, rfl, hk, fun y hy => by rw [← hk]; exact hnear y hy⟩

theorem contains_e_intStr (n : ℤ) : contains s%"e" (intStr n) = false :=
  contains_alpha (A := plain) (x := 'e') (by simp) (by decide) (intStr_allPlain n)

theorem canonFloat_intStr (U : Uni) (n : ℤ) : ∃ z : ℤ, canonFloat U (intStr n) = intStr z ∧
    ((∃ b, F64.ofFrac (decide (n < 0)) n.natAbs 1 = .inf b) ∧ z = n ∨
      (∃ m e, F64.ofFrac (decide (n < 0)) n.natAbs 1 = .fin (decide (n < 0)) m e ∧ (m : ℚ) * 2 ^ e = (z.natAbs : ℕ)) ∧
      (z < 0 → n < 0) ∧ (0 < z → 0 < n) ∧
      ∀ y, IsDouble y → |(z.natAbs : ℚ) - n.natAbs| ≤ |y - n.natAbs|) := by
  unfold canonFloat
  rw [pyFloat_intStr]
  simp only
  rcases ofFrac_nat (decide (n < 0)) n.natAbs with h | ⟨m, e, k, h, hv, hnear⟩
  · refine ⟨n, ?_, .inl ⟨⟨_, h⟩, rfl⟩⟩
    rw [h, show isIntFloat (.inf (decide (n < 0))) = false from rfl]
    simp
  · obtain ⟨h1, h2⟩ := float_of_int (decide (n < 0)) m e k hv
    refine ⟨if decide (n < 0) then -(k : ℤ) else k, ?_, .inr ⟨⟨m, e, h, ?_⟩, ?_, ?_, ?_⟩⟩
    · rw [h, h1, h2, contains_e_intStr]
      simp
    · rw [hv]; split <;> simp
    · by_cases hn : n < 0
      · intro _; exact hn
      · simp [hn]
    · by_cases hn : n < 0
      · simp [hn]
      · by_cases h0 : n = 0
        · -- zero is a double
          have := hnear 0 ⟨0, 0, by norm_num, by norm_num, by simp⟩
          rw [h0] at this
          simp at this
          simp [h0, this]
        · intro _; omega
    · have : ((if decide (n < 0) = true then -(k : ℤ) else k).natAbs : ℚ) = k := by split <;> simp
      rw [this]; exact hnear

/-- The CAS leaves an integer alone. -/
theorem canonInt_intStr (E : Env X V S) (hE : PrintsIntegers E) (z : ℤ) : Always (canonInt E (intStr z)) (intStr z) := by
  intro w
  unfold canonInt
  by_cases hi : strIsInt E.U (intStr z) = true
  · rw [if_pos hi]
    rcases hE z w.ext with ⟨e, x', h⟩ | ⟨v, x', x'', h, h'⟩
    · exact ⟨{ w with ext := x' }, by simp [M.ext, h]⟩
    · exact ⟨{ w with ext := x'' }, by simp [M.ext, h, h']⟩
  · rw [if_neg hi]; exact ⟨w, rfl⟩

theorem normalize_intStr (E : Env X V S) (hE : PrintsIntegers E) (n z : ℤ) (hz : canonFloat E.U (intStr n) = intStr z)
    (k : Nat) : Always (stringNormalize E (k + 1) (intStr n)) (.str (intStr z)) := by
  have hq : Quiet (intStr n) := fun c hc => plain_quiet (intStr_allPlain n c hc)
  unfold stringNormalize
  apply Always.tryExcept
  rw [quiet_normBody hq]
  apply Always.bind (a := intStr z)
  · unfold further
    rw [furtherPure_plain E.U _ (intStr_allPlain n) (by rw [hz]; exact intStr_allPlain z), hz]
    exact canonInt_intStr E hE z
  · exact Always.pure _

/-- C20 for every integer: the normal form of `n` is `n` itself if `n` is too large for a float, and otherwise
the float nearest to `n`, which is an integer. -/
theorem C20_nearest_double (E : Env X V S) (hE : PrintsIntegers E) (n : ℤ) (k : Nat) :
    ∃ z : ℤ, Always (stringNormalize E (k + 1) (intStr n)) (.str (intStr z)) ∧
      (z = n ∨ (z < 0 → n < 0) ∧ (0 < z → 0 < n) ∧
        ∀ y, IsDouble y → |(z.natAbs : ℚ) - n.natAbs| ≤ |y - n.natAbs|) := by
  obtain ⟨z, hz, h⟩ := canonFloat_intStr E.U n
  refine ⟨z, normalize_intStr E hE n z hz k, ?_⟩
  rcases h with h | ⟨_, h⟩
  · exact .inl h.2
  · exact .inr h

theorem isDouble_nat {n : Nat} (h : n ≤ 2 ^ 53) : IsDouble n := ⟨n, 0, h, by norm_num, by simp⟩

/-- C20 (partial: the claim is about all integers; it holds up to 2^53 and fails beyond, see `C20_refuted`):
an integer is its own normal form. -/
theorem C20_integers_partial (E : Env X V S) (hE : PrintsIntegers E) (n : ℤ) (hn : n.natAbs ≤ 2 ^ 53) (k : Nat) :
    Always (stringNormalize E (k + 1) (intStr n)) (.str (intStr n)) := by
  obtain ⟨z, hz, h⟩ := C20_nearest_double E hE n k
  have : z = n := by
    rcases h with h | ⟨h1, h2, h3⟩
    · exact h
    · have := h3 n.natAbs (isDouble_nat hn)
      rw [sub_self, abs_zero, abs_nonpos_iff, sub_eq_zero] at this
      have : z.natAbs = n.natAbs := by exact_mod_cast this
      omega
  rw [this] at hz
  exact hz

theorem printsIntegers_failEnv : PrintsIntegers failEnv := fun _ x => .inl ⟨.other, x, rfl⟩

example : (-9007199254740992 : ℤ).natAbs ≤ 2 ^ 53 := by decide

example : (stringNormalize ratEnv 1 s%"-9007199254740992" ⟨(), []⟩).1 = .ok (.str s%"-9007199254740992") := by
  decide +kernel

/-- C20 refuted: not every integer is its own normal form; two neighbouring integers beyond 2^53 have the same. -/
theorem C20_refuted : ¬ ∀ n : ℤ, Always (stringNormalize failEnv 1 (intStr n)) (.str (intStr n)) := by
  intro h
  obtain ⟨w, hw⟩ := h 9007199254740993 ⟨(), []⟩
  have : (stringNormalize failEnv 1 (intStr 9007199254740993) ⟨(), []⟩).1 = .ok (.str s%"9007199254740992") := by
    decide +kernel
  rw [hw] at this
  have h2 : intStr 9007199254740993 ≠ s%"9007199254740992" := by decide +kernel
  apply h2
  cases this

/-- Two different integers with the same normal form, in an environment with a working parser. -/
theorem C20_collision : (stringNormalize ratEnv 1 (intStr 9007199254740993) ⟨(), []⟩).1 =
    (stringNormalize ratEnv 1 (intStr 9007199254740992) ⟨(), []⟩).1 := by
  decide +kernel

end Verif
