import Verif.Py.FloatLemmas
import Verif.Py.ReplaceLemmas
/-
Reading and printing of binary64 numbers: decimal literals, and the round trip through `str`.
-/

namespace Verif

/-! ### Reading decimal literals -/

theorem takeWhile_append {p : Char → Bool} {a b : Str} (ha : ∀ c ∈ a, p c = true)
    (hb : ∀ c, b.head? = some c → p c = false) :
    (a ++ b).takeWhile p = a ∧ (a ++ b).dropWhile p = b := by
  induction a with
  | nil =>
    cases b with
    | nil => simp
    | cons c cs => simp [hb c rfl]
  | cons c cs ih =>
    have := ih (fun d hd => ha d (by simp [hd]))
    simp [ha c (by simp), this]

/-- What may follow the digits of a literal. -/
def NoDigitAhead (ex : Str) : Prop := ∀ c, ex.head? = some c → asciiDigit c = false ∧ c ≠ '.' ∧ c.toNat < 128

theorem NoDigitAhead.isDigit {U : Uni} {ex : Str} (h : NoDigitAhead ex) :
    ∀ c, ex.head? = some c → isDigit U c = false := by
  intro c hc
  obtain ⟨h1, _, h3⟩ := h c hc
  simp [Verif.isDigit, h1, h3]

theorem parseDecimal_int (U : Uni) (ip ex : Str) (hip : ∀ c ∈ ip, asciiDigit c = true) (h0 : ip ≠ [])
    (hex : NoDigitAhead ex) :
    parseDecimal U (ip ++ ex) = (parseExp U ex).map fun e => (natOfDigits U ip, e) := by
  have ht := takeWhile_append (p := isDigit U) (fun c hc => isDigit_of_ascii U (hip c hc)) hex.isDigit
  have he : ip.isEmpty = false := by simpa using h0
  unfold parseDecimal
  simp only [ht.1, ht.2]
  cases ex with
  | nil => simp [he]
  | cons c cs =>
    have hc : c ≠ '.' := (hex c rfl).2.1
    simp [hc, he]

theorem parseDecimal_frac (U : Uni) (ip fp ex : Str) (hip : ∀ c ∈ ip, asciiDigit c = true)
    (hfp : ∀ c ∈ fp, asciiDigit c = true) (h0 : ip ≠ [] ∨ fp ≠ []) (hex : NoDigitAhead ex) :
    parseDecimal U (ip ++ '.' :: (fp ++ ex)) =
      (parseExp U ex).map fun e => (natOfDigits U (ip ++ fp), e - (fp.length : Int)) := by
  have ht := takeWhile_append (p := isDigit U) (a := ip) (b := '.' :: (fp ++ ex))
    (fun c hc => isDigit_of_ascii U (hip c hc)) (by intro c hc; simp at hc; subst hc; simp [isDigit, asciiDigit])
  have hf := takeWhile_append (p := isDigit U) (fun c hc => isDigit_of_ascii U (hfp c hc)) hex.isDigit
  have he : (ip.isEmpty && fp.isEmpty) = false := by
    rcases h0 with h | h
    · cases ip with
      | nil => exact absurd rfl h
      | cons _ _ => rfl
    · cases fp with
      | nil => exact absurd rfl h
      | cons _ _ => simp
  unfold parseDecimal
  simp only [ht.1, ht.2, hf.1, hf.2, he]
  simp

theorem underscoresOk_of_not_mem (U : Uni) (b : Bool) (s : Str) (h : '_' ∉ s) : underscoresOk U b s = true := by
  induction s generalizing b with
  | nil => rfl
  | cons c cs ih =>
    have hc : c ≠ '_' := fun e => h (by simp [e])
    unfold underscoresOk
    split
    · rfl
    · rename_i heq; cases heq; exact absurd rfl hc
    · rename_i heq; cases heq; exact ih _ (fun hm => h (by simp [hm]))

/-- The sign in front of a literal. -/
def signStr (neg : Bool) : Str := if neg then s%"-" else []

/-- Reading an optionally signed literal that starts with a digit. -/
theorem pyFloat_body (U : Uni) (neg : Bool) (r : Str) (hh : ∃ c cs, r = c :: cs ∧ (asciiDigit c = true ∨ c = '.'))
    (hl : ∀ c, r.getLast? = some c → isSpace c = false) (hu : '_' ∉ r) :
    pyFloat U (signStr neg ++ r) = (parseDecimal U r).map fun (c, k) => F64.ofDecimal neg c k := by
  obtain ⟨c, cs, rfl, hc⟩ := hh
  have hc1 : c ≠ '+' ∧ c ≠ '-' := by
    rcases hc with h | rfl
    · constructor
      · rintro rfl; revert h; decide
      · rintro rfl; revert h; decide
    · decide
  have hcs : isSpace c = false := by
    rcases hc with h | rfl
    · have h2 : 48 ≤ c.toNat ∧ c.toNat ≤ 57 := by simpa [asciiDigit] using h
      simp [isSpace]; omega
    · decide
  have hst : strip (signStr neg ++ c :: cs) = signStr neg ++ c :: cs := by
    apply strip_id
    · intro x hx
      cases neg with
      | true => simp [signStr] at hx; subst hx; decide
      | false => simp [signStr] at hx; subst hx; exact hcs
    · intro x hx
      apply hl
      rw [List.getLast?_append] at hx
      cases hg : (c :: cs).getLast? with
      | none => simp at hg
      | some y => rw [hg] at hx; simpa using hx
  have hno : '_' ∉ signStr neg ++ c :: cs := by
    rw [List.mem_append, not_or]
    refine ⟨?_, hu⟩
    cases neg <;> simp [signStr]
  have hfilter : (signStr neg ++ c :: cs).filter (· ≠ '_') = signStr neg ++ c :: cs := by
    rw [List.filter_eq_self]
    intro x hx
    simp only [ne_eq, decide_eq_true_eq]
    rintro rfl; exact hno hx
  have hsp : parseSpecial neg (c :: cs) = none := by
    have : asciiToLower c = c := by
      unfold asciiToLower
      rw [if_neg]
      rcases hc with h | rfl
      · have h2 : 48 ≤ c.toNat ∧ c.toNat ≤ 57 := by simpa [asciiDigit] using h
        simp [asciiUpper]; omega
      · decide
    have hi : c ≠ 'i' ∧ c ≠ 'n' := by
      rcases hc with h | rfl
      · constructor
        · rintro rfl; revert h; decide
        · rintro rfl; revert h; decide
      · decide
    simp [parseSpecial, this, hi.1, hi.2]
  unfold pyFloat
  simp only [hst, underscoresOk_of_not_mem U false _ hno, hfilter]
  cases neg with
  | true =>
    simp only [signStr, if_true, List.cons_append, List.nil_append]
    simp [hsp]
  | false =>
    simp only [signStr, Bool.false_eq_true, if_false, List.nil_append]
    simp [hc1.1, hc1.2, hsp]

/-! ### Numerals -/

theorem foldl_digits (U : Uni) (s : Str) (a : Nat) :
    s.foldl (fun acc c => acc * 10 + digitVal U c) a = a * 10 ^ s.length + natOfDigits U s := by
  induction s generalizing a with
  | nil => simp [natOfDigits]
  | cons c cs ih =>
    simp only [List.foldl_cons, List.length_cons, natOfDigits]
    rw [ih, ih (0 * 10 + digitVal U c)]
    rw [pow_succ]; ring

theorem natOfDigits_append (U : Uni) (a b : Str) :
    natOfDigits U (a ++ b) = natOfDigits U a * 10 ^ b.length + natOfDigits U b := by
  unfold natOfDigits
  rw [List.foldl_append]
  exact foldl_digits U b _

theorem natOfDigits_zeros (U : Uni) (k : Nat) : natOfDigits U (List.replicate k '0') = 0 := by
  induction k with
  | zero => rfl
  | succ k ih =>
    rw [List.replicate_succ, ← List.singleton_append, natOfDigits_append, ih]
    simp [natOfDigits, digitVal]

theorem natStr_length_eq (c p : Nat) (hp : 1 ≤ p) (h1 : 10 ^ (p - 1) ≤ c) (h2 : c < 10 ^ p) : (natStr c).length = p := by
  apply Nat.le_antisymm (natStr_length_lt c p h2 hp)
  have := lt_pow_natStr_length c
  have h3 : 10 ^ (p - 1) < 10 ^ (natStr c).length := lt_of_le_of_lt h1 this
  have := (Nat.pow_lt_pow_iff_right (by norm_num : 1 < 10)).1 h3
  omega

/-! ### Values -/

/-- The same binary64 value (mantissa and exponent need not be normalised). -/
inductive F64.Same : F64 → F64 → Prop
  | nan : Same .nan .nan
  | inf (s) : Same (.inf s) (.inf s)
  | fin (s : Bool) (m : ℕ) (e : ℤ) (m' : ℕ) (e' : ℤ) : (m : ℚ) * 2 ^ e = (m' : ℚ) * 2 ^ e' → Same (.fin s m e) (.fin s m' e')

/-- Well-formed floats: those that rounding can produce. -/
def F64.WF : F64 → Prop
  | .fin _ m e => FinWF m e
  | _ => True

theorem F64.Same.refl (x : F64) : F64.Same x x := by
  cases x with
  | nan => exact .nan
  | inf s => exact .inf s
  | fin s m e => exact .fin s m e m e rfl

theorem ofFrac_sign (neg : Bool) (n d m : Nat) (e : ℤ) (h : F64.ofFrac false n d = .fin false m e) :
    F64.ofFrac neg n d = .fin neg m e := by
  by_cases hn : n = 0
  · unfold F64.ofFrac at h ⊢
    rw [if_pos hn] at h ⊢
    cases h; rfl
  · rw [ofFrac_pos _ n d (Nat.pos_of_ne_zero hn)] at h ⊢
    split at h
    · cases h
    · rename_i hov
      cases h
      rw [if_neg hov]

theorem ofFrac_WF (neg : Bool) (n d : Nat) (hd : 0 < d) : (F64.ofFrac neg n d).WF := by
  cases h : F64.ofFrac neg n d with
  | nan => trivial
  | inf s => trivial
  | fin s m e => exact (ofFrac_wf neg s n d m e hd h).2

theorem ofDecimal_WF (neg : Bool) (c : Nat) (k : ℤ) : (F64.ofDecimal neg c k).WF :=
  ofFrac_WF _ _ _ (by positivity)

theorem parseSpecial_WF (neg : Bool) (r : Str) (x : F64) (h : parseSpecial neg r = some x) : x.WF := by
  unfold parseSpecial at h
  simp only at h
  split at h
  · cases h; trivial
  · split at h
    · cases h; trivial
    · cases h

theorem pyFloat_WF (U : Uni) (s : Str) (x : F64) (h : pyFloat U s = some x) : x.WF := by
  unfold pyFloat at h
  simp only at h
  split at h
  · cases h
  · split at h
    · rename_i y hy
      cases h
      exact parseSpecial_WF _ _ _ hy
    · rw [Option.map_eq_some_iff] at h
      obtain ⟨⟨c, k⟩, _, rfl⟩ := h
      exact ofDecimal_WF _ _ _

theorem num_pos {m : Nat} {e : ℤ} (h : m ≠ 0) : 0 < F64.num m e := Nat.mul_pos (Nat.pos_of_ne_zero h) (pow2pos_pos e)
theorem den_pos (e : ℤ) : 0 < F64.den e := pow2neg_pos e

theorem small_enough {m : Nat} {e : ℤ} (h : m ≠ 0) (he : -1074 ≤ e) : F64.den e ≤ F64.num m e * 10 ^ 1200 := by
  have h1 : F64.den e ≤ 2 ^ 1074 := by
    unfold F64.den pow2neg
    exact Nat.pow_le_pow_right (by norm_num) (by omega)
  have h2 : 2 ^ 1074 ≤ 10 ^ 1074 := Nat.pow_le_pow_left (by norm_num) _
  have h3 : 10 ^ 1074 ≤ 10 ^ 1200 := Nat.pow_le_pow_right (by norm_num) (by norm_num)
  have h4 := num_pos (e := e) h
  calc F64.den e ≤ 10 ^ 1200 := h1.trans (h2.trans h3)
    _ = 1 * 10 ^ 1200 := (Nat.one_mul _).symm
    _ ≤ F64.num m e * 10 ^ 1200 := Nat.mul_le_mul_right _ h4

theorem readsBack_spec {c : Nat} {k : ℤ} {m : Nat} {e : ℤ} (h : readsBack c k m e = true) :
    ∃ m' e', F64.ofDecimal false c k = .fin false m' e' ∧ (m' : ℚ) * 2 ^ e' = m * 2 ^ e := by
  unfold readsBack at h
  split at h
  · rename_i s m' e' heq
    have hs : s = false := (ofFrac_wf false s _ _ m' e' (by positivity) heq).1
    subst hs
    refine ⟨m', e', heq, ?_⟩
    rw [decide_eq_true_eq] at h
    rw [← num_den, ← num_den, div_eq_div_iff (by exact_mod_cast (den_pos e').ne') (by exact_mod_cast (den_pos e).ne')]
    exact_mod_cast h
  · cases h

theorem ofDecimal_val (c : Nat) (k : ℤ) :
    ((c * 10 ^ k.toNat : ℕ) : ℚ) / ((10 ^ (-k).toNat : ℕ) : ℚ) = c * 10 ^ k := by
  rw [← ten_cast k]
  push_cast
  ring

/-- Seventeen digits are enough. -/
theorem seventeen (m : Nat) (e : ℤ) (hw : FinWF m e) (h0 : m ≠ 0) :
    ∃ m' e', F64.ofDecimal false (sigDigits (F64.num m e) (F64.den e) 17).1
        ((sigDigits (F64.num m e) (F64.den e) 17).2 - (17 : ℕ) + 1) = .fin false m' e' ∧
      (m' : ℚ) * 2 ^ e' = m * 2 ^ e := by
  obtain ⟨c1, c2, c3⟩ := sigDigits_spec (F64.num m e) (F64.den e) 17 (den_pos e) (small_enough h0 hw.2.1) (by norm_num)
  generalize (sigDigits (F64.num m e) (F64.den e) 17).1 = c at c1 c2 c3 ⊢
  generalize (sigDigits (F64.num m e) (F64.den e) 17).2 = k at c3 ⊢
  rw [num_den] at c3
  have hc0 : 0 < c := lt_of_lt_of_le (by norm_num) c1
  unfold F64.ofDecimal
  apply ofFrac_close false _ _ m e (Nat.mul_pos hc0 (by positivity)) (by positivity) hw h0
  rw [ofDecimal_val, abs_sub_comm]
  have hp := two_zpow_pos e
  have hm : (m : ℚ) ≤ 2 ^ 53 := by exact_mod_cast hw.1
  have ht : (10 : ℚ) ^ (1 - ((17 : ℕ) : ℤ)) = 1 / 10 ^ 16 := by norm_num
  rw [ht] at c3
  have hb : 2 * |(c : ℚ) * 10 ^ (k - (17 : ℕ) + 1) - m * 2 ^ e| ≤ m * 2 ^ e * (1 / 10 ^ 16) := by linarith
  refine lt_of_le_of_lt hb ?_
  split
  · rename_i h52
    have h52' : (m : ℚ) ≤ 2 ^ 52 := by exact_mod_cast h52
    have : (2 : ℚ) ^ (e - 1) = 2 ^ e / 2 := by rw [zpow_sub₀ (by norm_num)]; norm_num
    rw [this]
    have h1 : (m : ℚ) * 2 ^ e ≤ 2 ^ 52 * 2 ^ e := mul_le_mul_of_nonneg_right h52' hp.le
    have h2 : (2 : ℚ) ^ 52 * (1 / 10 ^ 16) < 1 / 2 := by norm_num
    nlinarith
  · have h1 : (m : ℚ) * 2 ^ e ≤ 2 ^ 53 * 2 ^ e := mul_le_mul_of_nonneg_right hm hp.le
    have h2 : (2 : ℚ) ^ 53 * (1 / 10 ^ 16) < 1 := by norm_num
    nlinarith

/-- The digits printed for a float read back as that float. -/
theorem shortest_spec (m : Nat) (e : ℤ) (hw : FinWF m e) (h0 : m ≠ 0) (f p : Nat) (hp : 1 ≤ p) (hf : p + f = 17) :
    ∃ c p' k, shortest m e f p = (c, p', k) ∧ 1 ≤ p' ∧ 10 ^ (p' - 1) ≤ c ∧ c < 10 ^ p' ∧
      ∃ m' e', F64.ofDecimal false c (k - (p' : ℤ) + 1) = .fin false m' e' ∧ (m' : ℚ) * 2 ^ e' = m * 2 ^ e := by
  induction f generalizing p with
  | zero =>
    have hp17 : p = 17 := by omega
    subst hp17
    obtain ⟨c1, c2, _⟩ := sigDigits_spec (F64.num m e) (F64.den e) 17 (den_pos e) (small_enough h0 hw.2.1) (by norm_num)
    exact ⟨_, 17, _, rfl, by norm_num, c1, c2, seventeen m e hw h0⟩
  | succ f ih =>
    obtain ⟨c1, c2, _⟩ := sigDigits_spec (F64.num m e) (F64.den e) p (den_pos e) (small_enough h0 hw.2.1) hp
    simp only [shortest]
    generalize sigDigits (F64.num m e) (F64.den e) p = ck at c1 c2 ⊢
    obtain ⟨c, k⟩ := ck
    simp only at c1 c2 ⊢
    split
    · rename_i h
      exact ⟨c, p, k, rfl, hp, c1, c2, readsBack_spec h⟩
    · split
      · rename_i h
        rw [Bool.and_eq_true, decide_eq_true_eq] at h
        exact ⟨c + 1, p, k, rfl, hp, by omega, h.2, readsBack_spec h.1⟩
      · exact ih (p + 1) (by omega) (by omega)

/-! ### `str` and back -/

theorem isSpace_digit {c : Char} (h : asciiDigit c = true) : isSpace c = false := by
  have h2 : 48 ≤ c.toNat ∧ c.toNat ≤ 57 := by simpa [asciiDigit] using h
  simp [isSpace]; omega

theorem not_underscore_digits {s : Str} (h : ∀ c ∈ s, asciiDigit c = true) : '_' ∉ s := by
  intro hm
  have := h _ hm
  revert this; decide

/-- Reading `digits.digits`. -/
theorem pyFloat_frac (U : Uni) (neg : Bool) (ip fp : Str) (hip : ∀ c ∈ ip, asciiDigit c = true)
    (hfp : ∀ c ∈ fp, asciiDigit c = true) (h0 : ip ≠ []) (h1 : fp ≠ []) :
    pyFloat U (signStr neg ++ (ip ++ '.' :: fp)) =
      some (F64.ofDecimal neg (natOfDigits U (ip ++ fp)) (-(fp.length : ℤ))) := by
  rw [pyFloat_body]
  · have := parseDecimal_frac U ip fp [] hip hfp (.inl h0) (by intro c hc; simp at hc)
    rw [List.append_nil] at this
    rw [this]
    simp [parseExp]
  · cases ip with
    | nil => exact absurd rfl h0
    | cons c cs => exact ⟨c, _, rfl, .inl (hip c (by simp))⟩
  · intro c hc
    apply isSpace_digit
    apply hfp
    rw [show ip ++ '.' :: fp = (ip ++ ['.']) ++ fp by simp, List.getLast?_append_of_ne_nil _ h1] at hc
    exact List.mem_of_getLast? hc
  · simp only [List.mem_append, List.mem_cons, not_or]
    exact ⟨not_underscore_digits hip, by decide, not_underscore_digits hfp⟩

/-- Reading an integer. -/
theorem pyFloat_int (U : Uni) (neg : Bool) (ip : Str) (hip : ∀ c ∈ ip, asciiDigit c = true) (h0 : ip ≠ []) :
    pyFloat U (signStr neg ++ ip) = some (F64.ofDecimal neg (natOfDigits U ip) 0) := by
  rw [pyFloat_body]
  · have := parseDecimal_int U ip [] hip h0 (by intro c hc; simp at hc)
    rw [List.append_nil] at this
    rw [this]
    simp [parseExp]
  · cases ip with
    | nil => exact absurd rfl h0
    | cons c cs => exact ⟨c, _, rfl, .inl (hip c (by simp))⟩
  · intro c hc
    exact isSpace_digit (hip c (List.mem_of_getLast? hc))
  · exact not_underscore_digits hip

theorem parseExp_suffix (U : Uni) (k : ℤ) : parseExp U (expSuffix k) = some k := by
  have hd : ∀ n, natOfDigits U ('0' :: natStr n) = n := by
    intro n
    rw [show '0' :: natStr n = s%"0" ++ natStr n from rfl, natOfDigits_append, natOfDigits_natStr]
    simp [natOfDigits, digitVal]
  have hall : (natStr k.natAbs).all (isDigit U) = true := by
    rw [List.all_eq_true]; intro c hc; exact isDigit_of_ascii U (natStr_digits _ c hc)
  have h0 : isDigit U '0' = true := by simp [isDigit, asciiDigit]
  have hne : (natStr k.natAbs).isEmpty = false := by simpa using natStr_ne_nil k.natAbs
  unfold expSuffix parseExp
  simp only [beq_self_eq_true, Bool.true_or, if_true]
  by_cases hl : (natStr k.natAbs).length < 2
  · simp only [hl, if_true]
    by_cases hk : k < 0
    · simp only [hk, if_true, List.isEmpty_cons, List.all_cons, h0, hall, hd]
      simp [abs_of_neg hk]
    · simp only [hk, if_false, List.isEmpty_cons, List.all_cons, h0, hall, hd]
      simp; omega
  · simp only [hl, if_false]
    by_cases hk : k < 0
    · simp only [hk, if_true, hne, hall, natOfDigits_natStr]
      simp [abs_of_neg hk]
    · simp only [hk, if_false, hne, hall, natOfDigits_natStr]
      simp; omega

theorem expSuffix_ahead (k : ℤ) : NoDigitAhead (expSuffix k) := by
  intro c hc
  simp [expSuffix] at hc
  subst hc
  decide

theorem expSuffix_getLast (k : ℤ) : ∃ c, (expSuffix k).getLast? = some c ∧ asciiDigit c = true := by
  have hne := natStr_ne_nil k.natAbs
  have h : ∃ c, (natStr k.natAbs).getLast? = some c ∧ asciiDigit c = true := by
    cases hg : (natStr k.natAbs).getLast? with
    | none => exact absurd (List.getLast?_eq_none_iff.1 hg) hne
    | some c => exact ⟨c, rfl, natStr_digits _ c (List.mem_of_getLast? hg)⟩
  obtain ⟨c, hc, hd⟩ := h
  refine ⟨c, ?_, hd⟩
  unfold expSuffix
  simp only
  generalize (if k < 0 then '-' else '+') = sg
  split
  · rw [show 'e' :: sg :: '0' :: natStr k.natAbs = ['e', sg, '0'] ++ natStr k.natAbs from rfl,
      List.getLast?_append_of_ne_nil _ hne, hc]
  · rw [show 'e' :: sg :: natStr k.natAbs = ['e', sg] ++ natStr k.natAbs from rfl,
      List.getLast?_append_of_ne_nil _ hne, hc]

theorem expSuffix_not_underscore (k : ℤ) : '_' ∉ expSuffix k := by
  have := not_underscore_digits (natStr_digits k.natAbs)
  unfold expSuffix
  simp only
  split
  · split <;> simp [this]
  · split <;> simp [this]

/-- Reading `digits[.digits]e±XX`. -/
theorem pyFloat_exp (U : Uni) (neg : Bool) (ip fp : Str) (k : ℤ) (hip : ∀ c ∈ ip, asciiDigit c = true)
    (hfp : ∀ c ∈ fp, asciiDigit c = true) (h0 : ip ≠ []) :
    pyFloat U (signStr neg ++ (ip ++ (if fp = [] then [] else '.' :: fp) ++ expSuffix k)) =
      some (F64.ofDecimal neg (natOfDigits U (ip ++ fp)) (k - (fp.length : ℤ))) := by
  have hlast : ∀ a : Str, ∀ c, (a ++ expSuffix k).getLast? = some c → isSpace c = false := by
    intro a c hc
    obtain ⟨c', h1, h2⟩ := expSuffix_getLast k
    rw [List.getLast?_append, h1] at hc
    simp at hc; subst hc
    exact isSpace_digit h2
  rw [pyFloat_body]
  · by_cases hf : fp = []
    · subst hf
      rw [if_pos rfl, List.append_nil, parseDecimal_int U ip _ hip h0 (expSuffix_ahead k), parseExp_suffix]
      simp
    · rw [if_neg hf, List.append_assoc, List.cons_append,
        parseDecimal_frac U ip fp _ hip hfp (.inl h0) (expSuffix_ahead k), parseExp_suffix]
      simp
  · cases ip with
    | nil => exact absurd rfl h0
    | cons c cs => exact ⟨c, _, by rw [List.append_assoc, List.cons_append], .inl (hip c (by simp))⟩
  · exact hlast _
  · simp only [List.mem_append, not_or]
    refine ⟨⟨not_underscore_digits hip, ?_⟩, expSuffix_not_underscore k⟩
    split
    · simp
    · simp [not_underscore_digits hfp]

theorem ofDecimal_congr (neg : Bool) (c c' : Nat) (k k' : ℤ) (h : (c : ℚ) * 10 ^ k = c' * 10 ^ k') :
    F64.ofDecimal neg c k = F64.ofDecimal neg c' k' := by
  unfold F64.ofDecimal
  apply ofFrac_congr neg _ _ _ _ (by positivity) (by positivity)
  rw [← ofDecimal_val, ← ofDecimal_val,
    div_eq_div_iff (by exact_mod_cast (by positivity : (10 ^ (-k).toNat : ℕ) ≠ 0))
      (by exact_mod_cast (by positivity : (10 ^ (-k').toNat : ℕ) ≠ 0))] at h
  exact_mod_cast h

/-- `float(str(x)) = x` for every float. -/
theorem pyFloat_repr (U : Uni) (x : F64) (hw : x.WF) : ∃ y, pyFloat U x.repr = some y ∧ F64.Same y x := by
  cases x with
  | nan => exact ⟨.nan, rfl, .nan⟩
  | inf s => cases s <;> exact ⟨.inf _, rfl, .inf _⟩
  | fin neg m e =>
    have hs : (if neg then s%"-" else []) = signStr neg := rfl
    unfold F64.repr
    simp only [hs]
    by_cases h0 : m = 0
    · rw [if_pos h0]
      refine ⟨_, pyFloat_frac U neg s%"0" s%"0" (by decide) (by decide) (by decide) (by decide), ?_⟩
      have : natOfDigits U (s%"0" ++ s%"0") = 0 := by simp [natOfDigits, digitVal]
      rw [this, h0]
      unfold F64.ofDecimal F64.ofFrac
      simp only [Nat.zero_mul, if_true]
      exact .fin _ _ _ _ _ (by simp)
    · rw [if_neg h0]
      obtain ⟨c, p, k, hsh, hp, c1, c2, m', e', hv, hval⟩ := shortest_spec m e hw h0 16 1 (by norm_num) (by norm_num)
      rw [hsh]
      simp only
      have hlen := natStr_length_eq c p hp c1 c2
      have hdig := natStr_digits c
      have hnat := natOfDigits_natStr U c
      have hne := natStr_ne_nil c
      have hfin : ∀ (c' : ℕ) (k' : ℤ), (c' : ℚ) * 10 ^ k' = c * 10 ^ (k - (p : ℤ) + 1) →
          F64.Same (F64.ofDecimal neg c' k') (.fin neg m e) := by
        intro c' k' h
        rw [ofDecimal_congr neg c' c k' _ h]
        have := ofFrac_sign neg _ _ m' e' hv
        unfold F64.ofDecimal
        rw [this]
        exact .fin _ _ _ _ _ hval
      split
      · rename_i hk
        split
        · rename_i hneg
          -- 0.000ddd
          refine ⟨_, ?_, hfin c (-((List.replicate (-k - 1).toNat '0' ++ natStr c).length : ℤ)) ?_⟩
          · have := pyFloat_frac U neg s%"0" (List.replicate (-k - 1).toNat '0' ++ natStr c) (by decide)
              (by
                intro x hx
                rw [List.mem_append] at hx
                rcases hx with hx | hx
                · rw [(List.mem_replicate.1 hx).2]; decide
                · exact hdig x hx) (by decide) (by simp [hne])
            rw [natOfDigits_append, natOfDigits_append, natOfDigits_zeros, hnat] at this
            simp only [natOfDigits] at this
            simpa [digitVal] using this
          · congr 2
            rw [List.length_append, List.length_replicate, hlen]
            push_cast
            omega
        · rename_i hneg
          rw [not_lt] at hneg
          split
          · rename_i hle
            -- ddd000.0
            refine ⟨_, ?_, hfin (c * 10 ^ (k.toNat + 1 - (natStr c).length) * 10) (-1) ?_⟩
            · have := pyFloat_frac U neg (natStr c ++ List.replicate (k.toNat + 1 - (natStr c).length) '0') s%"0"
                (by
                  intro x hx
                  rw [List.mem_append] at hx
                  rcases hx with hx | hx
                  · exact hdig x hx
                  · rw [(List.mem_replicate.1 hx).2]; decide) (by decide) (by simp [hne]) (by decide)
              rw [natOfDigits_append, natOfDigits_append, natOfDigits_zeros, hnat] at this
              simp only [List.append_assoc] at this ⊢
              simpa [natOfDigits, digitVal] using this
            · rw [hlen] at hle ⊢
              push_cast
              rw [show (k - (p : ℤ) + 1) = ((k.toNat + 1 - p : ℕ) : ℤ) by omega, zpow_natCast]
              norm_num
              ring
          · rename_i hle
            -- dd.ddd
            rw [not_le] at hle
            refine ⟨_, ?_, hfin c (-(((natStr c).drop (k.toNat + 1)).length : ℤ)) ?_⟩
            · have := pyFloat_frac U neg ((natStr c).take (k.toNat + 1)) ((natStr c).drop (k.toNat + 1))
                (fun x hx => hdig x (List.mem_of_mem_take hx)) (fun x hx => hdig x (List.mem_of_mem_drop hx))
                (by simp [hne]) (by simp; omega)
              rw [List.take_append_drop, hnat] at this
              exact this
            · congr 2
              rw [List.length_drop, hlen]
              omega
      · -- d.dddde±XX
        refine ⟨_, ?_, hfin c (k - (((natStr c).drop 1).length : ℤ)) ?_⟩
        · have := pyFloat_exp U neg ((natStr c).take 1) ((natStr c).drop 1) k
            (fun x hx => hdig x (List.mem_of_mem_take hx)) (fun x hx => hdig x (List.mem_of_mem_drop hx))
            (by simp [hne])
          rw [List.take_append_drop, hnat] at this
          rw [← this]
          congr 3
          congr 1
          have : ((natStr c).length ≤ 1) ↔ (natStr c).drop 1 = [] := by rw [List.drop_eq_nil_iff]
          by_cases h : (natStr c).length ≤ 1
          · rw [if_pos h, if_pos (this.1 h)]
          · rw [if_neg h, if_neg (fun h' => h (this.2 h'))]
        · congr 2
          rw [List.length_drop, hlen]
          omega

end Verif
