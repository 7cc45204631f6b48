import Verif.Props.Mixed
import Verif.Py.FloatPrint
/-
Property C32: literals in scientific notation.
-/

namespace Verif
open Re

variable {X V S : Type}

/-! ### Specification -/

/-- The fractional part of a literal, if any. -/
def fracText : Option Str → Str
  | none => []
  | some f => '.' :: f

/-- The sign of an exponent, if any. -/
def expSign : Option Bool → Str
  | none => []
  | some neg => if neg then s%"-" else s%"+"

/-- The literal `[-]ip[.fp]e[+-]ed`. -/
def sciText (neg : Bool) (ip : Str) (fp : Option Str) (es : Option Bool) (ed : Str) : Str :=
  (if neg then s%"-" else []) ++ (ip ++ (fracText fp ++ ('e' :: (expSign es ++ ed))))

/-- Its value. -/
def sciVal (neg : Bool) (ip : Str) (fp : Option Str) (es : Option Bool) (ed : Str) : ℚ :=
  (if neg then -1 else 1) * (decVal (ip ++ fp.getD []) * 10 ^ ((if es = some true then -(decVal ed : ℤ) else decVal ed) - ((fp.getD []).length : ℤ)))

/-- The value of `a.b` or `a`. -/
def evalDec (s : Str) : Option ℚ :=
  match s.dropWhile (· != '.') with
  | [] => if isDec s then some (decVal s : ℚ) else none
  | _ :: f =>
    if isDec (s.takeWhile (· != '.')) && isDec f then
      some (decVal (s.takeWhile (· != '.')) + decVal f / 10 ^ f.length)
    else none

def evalInt (s : Str) : Option ℤ :=
  match s with
  | '-' :: r => if isDec r then some (-(decVal r : ℤ)) else none
  | '+' :: r => if isDec r then some (decVal r : ℤ) else none
  | r => if isDec r then some (decVal r : ℤ) else none

/-- The value of `a.b*10^{k}`. -/
def evalSciPos (s : Str) : Option ℚ :=
  let r := s.dropWhile (· != '*')
  if s%"*10^{".isPrefixOf r && r.getLast? == some '}' then
    (evalDec (s.takeWhile (· != '*'))).bind fun m => (evalInt (r.drop 5).dropLast).map fun k => m * 10 ^ k
  else none

def evalSci : Str → Option ℚ
  | '-' :: r => (evalSciPos r).map (- ·)
  | r => evalSciPos r

example : evalSci s%"-1.250000*10^{+02}" = some (-125) := by decide +kernel

/-! ### Seven digits -/

theorem scaled_unique {n d : Nat} (hd : 0 < d) {k : ℤ} {C : ℕ} (h : |(n : ℚ) / d * 10 ^ k - C| < 1 / 2) : scaled n d k = C := by
  have h1 := scaled_near n d hd k
  have h2 : |(scaled n d k : ℚ) - C| < 1 := by
    have := abs_sub_le (scaled n d k : ℚ) ((n : ℚ) / d * 10 ^ k) C
    linarith
  by_contra hne
  have : (1 : ℤ) ≤ |((scaled n d k : ℕ) : ℤ) - C| := Int.one_le_abs (sub_ne_zero.2 (by exact_mod_cast hne))
  have : (1 : ℚ) ≤ |(scaled n d k : ℚ) - C| := by exact_mod_cast this
  linarith

/-- A number close to a decimal with seven digits has these as its seven significant digits. -/
theorem seven {n d : Nat} (hd : 0 < d) (hs : d ≤ n * 10 ^ 1200) {C : ℕ} {K : ℤ} (h1 : 10 ^ 6 ≤ C) (h2 : C < 10 ^ 7)
    (hc : |(n : ℚ) / d - C * 10 ^ (K - 6)| ≤ C * 10 ^ (K - 6) / 2 ^ 53) : sigDigits n d 7 = (C, K) := by
  obtain ⟨k1, k2⟩ := decExp_spec n d hd hs
  clear hs
  have hp := ten_zpow_pos (K - 6)
  have q1 : (10 : ℚ) ^ 6 ≤ C := by exact_mod_cast h1
  have q2 : (C : ℚ) + 1 ≤ 10 ^ 7 := by exact_mod_cast h2
  generalize hx : (n : ℚ) / d = x at *
  generalize hk : decExp n d = k at *
  rw [abs_le] at hc
  obtain ⟨c1, c2⟩ := hc
  -- bounds in units of the last digit
  have e7 : (10 : ℚ) ^ (K + 1) = 10 ^ 7 * 10 ^ (K - 6) := by
    rw [← zpow_natCast, ← ten_zpow_add]; congr 1; push_cast; ring
  have e5 : (10 : ℚ) ^ (K - 1) = 10 ^ 5 * 10 ^ (K - 6) := by
    rw [← zpow_natCast, ← ten_zpow_add]; congr 1; push_cast; ring
  have e6 : (10 : ℚ) ^ K = 10 ^ 6 * 10 ^ (K - 6) := by
    rw [← zpow_natCast, ← ten_zpow_add]; congr 1; push_cast; ring
  set t := (10 : ℚ) ^ (K - 6) with ht
  have hCt : (C : ℚ) * t ≤ 10 ^ 7 * t := by nlinarith
  have hCt' : (C : ℚ) * t + t ≤ 10 ^ 7 * t := by nlinarith
  have hCt2 : (10 : ℚ) ^ 6 * t ≤ C * t := by nlinarith
  have xu : x < 10 ^ (K + 1) := by rw [e7]; nlinarith
  have xl : (10 : ℚ) ^ (K - 1) < x := by rw [e5]; nlinarith
  have hkK : k ≤ K := by
    by_contra h
    have := ten_zpow_le (show K + 1 ≤ k by omega)
    linarith
  have hkK' : K - 1 ≤ k := by
    by_contra h
    have := ten_zpow_le (show k + 1 ≤ K - 1 by omega)
    linarith
  have ti : t * (10 : ℚ) ^ (6 - K) = 1 := by
    rw [ht, ← ten_zpow_add]; simp
  have hp' := ten_zpow_pos (6 - K)
  unfold sigDigits
  simp only [hk]
  rcases (show k = K ∨ k = K - 1 by omega) with rfl | rfl
  · have hsc : scaled n d (((7 : ℕ) : ℤ) - 1 - k) = C := by
      apply scaled_unique hd
      rw [hx, show (((7 : ℕ) : ℤ) - 1 - k) = 6 - k by push_cast; ring]
      have : x * 10 ^ (6 - k) - C = (x - C * t) * 10 ^ (6 - k) := by
        rw [sub_mul, mul_assoc, ti, mul_one]
      rw [this, abs_mul, abs_of_pos hp']
      have hab : |x - C * t| ≤ C * t / 2 ^ 53 := abs_le.2 ⟨c1, c2⟩
      calc |x - C * t| * 10 ^ (6 - k) ≤ C * t / 2 ^ 53 * 10 ^ (6 - k) := by gcongr
        _ = C / 2 ^ 53 * (t * 10 ^ (6 - k)) := by ring
        _ = C / 2 ^ 53 := by rw [ti, mul_one]
        _ < 1 / 2 := by rw [div_lt_div_iff₀ (by positivity) (by positivity)]; linarith
    rw [hsc, if_neg (by omega)]
  · -- the number lies just below a power of ten
    rw [show K - 1 + 1 = K by ring, e6] at k2
    have hC : C = 10 ^ 6 := by
      have h3 : (C : ℚ) * t < (10 ^ 6 + 1) * t := by nlinarith
      have h4 : (C : ℚ) < 10 ^ 6 + 1 := lt_of_mul_lt_mul_right h3 hp.le
      have : C < 10 ^ 6 + 1 := by exact_mod_cast h4
      omega
    have hsc : scaled n d (((7 : ℕ) : ℤ) - 1 - (K - 1)) = 10 ^ 7 := by
      apply scaled_unique hd
      rw [hx, show (((7 : ℕ) : ℤ) - 1 - (K - 1)) = 1 + (6 - K) by push_cast; ring, ten_zpow_add]
      have : x * (10 ^ (1 : ℤ) * 10 ^ (6 - K)) - ((10 ^ 7 : ℕ) : ℚ) = 10 * ((x - C * t) * 10 ^ (6 - K)) := by
        rw [sub_mul, mul_assoc, ti, mul_one, hC]; push_cast; ring
      rw [this, abs_mul, abs_mul, abs_of_pos hp', abs_of_pos (by norm_num : (0 : ℚ) < 10)]
      have hab : |x - C * t| ≤ C * t / 2 ^ 53 := abs_le.2 ⟨c1, c2⟩
      calc 10 * (|x - C * t| * 10 ^ (6 - K)) ≤ 10 * (C * t / 2 ^ 53 * 10 ^ (6 - K)) := by gcongr
        _ = 10 * (C / 2 ^ 53 * (t * 10 ^ (6 - K))) := by ring
        _ = 10 * (C / 2 ^ 53) := by rw [ti, mul_one]
        _ < 1 / 2 := by rw [hC]; norm_num
    rw [hsc, if_pos rfl, hC]
    norm_num

/-! ### Integers as floats -/

theorem big_bound : (10 : ℚ) ^ 308 * 5 ≤ 2 ^ (1024 : ℤ) * 4 := by
  have h : (10 ^ 308 * 5 : ℕ) ≤ 2 ^ 1024 * 4 := Nat.le_of_ble_eq_true (by decide +kernel)
  have h6 : (2 : ℚ) ^ (1024 : ℤ) = ((2 ^ 1024 : ℕ) : ℚ) := two_zpow_natCast 1024
  rw [h6]
  generalize (2 ^ 1024 : ℕ) = B at h
  have h7 : ((10 ^ 308 * 5 : ℕ) : ℚ) ≤ ((B * 4 : ℕ) : ℚ) := Nat.cast_le.2 h
  rw [Nat.cast_mul, Nat.cast_mul, Nat.cast_pow] at h7
  exact h7

/-- The float nearest to a positive integer in range: it is finite, close, and an integer. -/
theorem int_float {n d z : Nat} (hd : 0 < d) (hz : 0 < z) (hv : (n : ℚ) / d = z) (hr : (z : ℚ) < 10 ^ 308) :
    ∃ m e, (∀ neg, F64.ofFrac neg n d = .fin neg m e) ∧ FinWF m e ∧ m ≠ 0 ∧ |(m : ℚ) * 2 ^ e - z| ≤ z / 2 ^ 53 ∧ ∃ y : ℕ, (m : ℚ) * 2 ^ e = y := by
  have hn : 0 < n := by
    rcases Nat.eq_zero_or_pos n with rfl | h
    · simp at hv; exact absurd hv.symm (by exact_mod_cast hz.ne')
    · exact h
  have hzq : (1 : ℚ) ≤ z := by exact_mod_cast hz
  have hrel : |(rmant n d : ℚ) * 2 ^ ulpExp n d - z| ≤ z / 2 ^ (53 : ℤ) := by
    have := rmant_rel n d hn hd (by
      rw [hv]
      have : (2 : ℚ) ^ (-1022 : ℤ) ≤ 2 ^ (0 : ℤ) := two_zpow_le (by norm_num)
      rw [zpow_zero] at this
      linarith)
    rwa [hv] at this
  have hrel' : |(rmant n d : ℚ) * 2 ^ ulpExp n d - z| ≤ z / 2 ^ 53 := by exact_mod_cast hrel
  have hint : ∃ y : ℕ, (rmant n d : ℚ) * 2 ^ ulpExp n d = y := by
    rcases le_or_gt 0 (ulpExp n d) with he | he
    · obtain ⟨j, hj⟩ := Int.eq_ofNat_of_zero_le he
      exact ⟨rmant n d * 2 ^ j, by rw [hj]; push_cast; rw [zpow_natCast]⟩
    · refine ⟨z, ?_⟩
      obtain ⟨_, hlt, _⟩ := ulpExp_spec n d hn hd
      have h53 : z < 2 ^ 53 := by
        have : (2 : ℚ) ^ (53 + ulpExp n d) ≤ 2 ^ (53 : ℤ) := two_zpow_le (by omega)
        have h' : (z : ℚ) < 2 ^ (53 : ℤ) := by rw [← hv]; linarith
        exact_mod_cast h'
      have := rmant_nearest n d hn hd z ⟨z, 0, h53.le, by norm_num, by simp⟩
      rw [hv, sub_self, abs_zero] at this
      linarith [abs_nonpos_iff.1 this]
  have hov : (rmant n d : ℚ) * 2 ^ ulpExp n d < 2 ^ (1024 : ℤ) := by
    have h1 := (abs_le.1 hrel').2
    have h2 : (z : ℚ) / 2 ^ 53 ≤ z / 4 := by
      apply div_le_div_of_nonneg_left (by linarith) (by norm_num) (by norm_num)
    have h3 := big_bound
    generalize (10 : ℚ) ^ 308 = A at hr h3
    generalize (2 : ℚ) ^ (1024 : ℤ) = B at h3 ⊢
    linarith
  have hpos : (0 : ℚ) < (rmant n d : ℚ) * 2 ^ ulpExp n d := by
    have h1 := (abs_le.1 hrel').1
    have h2 : (z : ℚ) / 2 ^ 53 ≤ z / 4 := by
      apply div_le_div_of_nonneg_left (by linarith) (by norm_num) (by norm_num)
    linarith
  have hf : ∀ neg, F64.ofFrac neg n d = .fin neg (rmant n d) (ulpExp n d) := by
    intro neg
    rw [ofFrac_pos neg n d hn, if_neg]
    rw [overflow_iff]
    exact not_le.2 hov
  refine ⟨rmant n d, ulpExp n d, hf, (ofFrac_wf true true n d _ _ hd (hf true)).2, ?_, hrel', hint⟩
  intro h0
  rw [h0] at hpos
  simp at hpos

theorem integral_near {m : ℕ} {e : ℤ} {y : ℕ} (neg : Bool) (h : (m : ℚ) * 2 ^ e = y) : isIntFloat (.fin neg m e) = true := by
  have hn : F64.num m e = y * F64.den e := by
    have h1 := num_den m e
    have h2 : (F64.den e : ℚ) ≠ 0 := by exact_mod_cast (den_pos e).ne'
    rw [h, div_eq_iff h2] at h1
    exact_mod_cast h1
  have hr : rneDiv (F64.num m e) (F64.den e) * F64.den e = F64.num m e := by
    rw [hn, rneDiv_exact _ _ (den_pos e)]
  unfold isIntFloat F64.nearInt
  simp only [hr, le_refl, if_true, Nat.sub_self, Nat.zero_mul, Nat.zero_le, decide_true]
  have h' : F64.ofFrac false 1 (10 ^ 7) = .fin false 7555786372591432 (-76) := by decide +kernel
  rw [h']
  rfl

/-! ### The printed text -/

theorem decVal_nat (U : Uni) {s : Str} (h : ∀ c ∈ s, asciiDigit c = true) : decVal s = natOfDigits U s := by
  have key : ∀ (s : Str) (n : Nat), (∀ c ∈ s, asciiDigit c = true) →
      s.foldl (fun n c => 10 * n + (c.toNat - 48)) n = s.foldl (fun n c => n * 10 + digitVal U c) n := by
    intro s
    induction s with
    | nil => intros; rfl
    | cons x xs ih =>
      intro n h
      have hx := h x (by simp)
      simp only [List.foldl_cons]
      rw [ih _ (fun c hc => h c (by simp [hc]))]
      congr 1
      have h128 : x.toNat < 128 := by simp only [asciiDigit, decide_eq_true_eq] at hx; omega
      simp [digitVal, h128]; omega
  exact key s 0 h

theorem decVal_append {a b : Str} (ha : ∀ c ∈ a, asciiDigit c = true) (hb : ∀ c ∈ b, asciiDigit c = true) :
    decVal (a ++ b) = decVal a * 10 ^ b.length + decVal b := by
  have U : Uni := ⟨fun _ => false, fun _ => 0, fun _ => false, fun _ _ _ => []⟩
  rw [decVal_nat U ha, decVal_nat U hb, decVal_nat U (s := a ++ b), natOfDigits_append]
  intro c hc
  rcases List.mem_append.1 hc with h | h
  · exact ha c h
  · exact hb c h

theorem decVal_natStr (n : Nat) : decVal (natStr n) = n := by
  have U : Uni := ⟨fun _ => false, fun _ => 0, fun _ => false, fun _ _ _ => []⟩
  rw [decVal_nat U (natStr_digits n), natOfDigits_natStr]

theorem replace_single {x : Char} {new a b : Str} (ha : x ∉ a) (hb : x ∉ b) : replace [x] new (a ++ x :: b) = a ++ (new ++ b) := by
  induction a with
  | nil =>
    have := replace_match [x] new b (by simp)
    rw [replace_id [x] new b (not_infix_of_not_mem x (by simp) hb)] at this
    exact this
  | cons y ys ih =>
    have hy : y ≠ x := by rintro rfl; exact ha (by simp)
    rw [List.cons_append, replace_cons _ _ _ (by simp; exact fun h => hy h.symm), ih (fun h => ha (by simp [h]))]
    rfl

/-- Exponent digits as printed. -/
def expDigits (k : ℤ) : Str := if (natStr k.natAbs).length < 2 then '0' :: natStr k.natAbs else natStr k.natAbs

theorem expSuffix_eq (k : ℤ) : expSuffix k = 'e' :: (if k < 0 then '-' else '+') :: expDigits k := rfl

theorem expDigits_digits (k : ℤ) : ∀ c ∈ expDigits k, asciiDigit c = true := by
  intro c hc
  unfold expDigits at hc
  split at hc
  · rcases List.mem_cons.1 hc with rfl | h
    · rfl
    · exact natStr_digits _ c h
  · exact natStr_digits _ c hc

theorem expDigits_ne (k : ℤ) : expDigits k ≠ [] := by
  unfold expDigits
  split
  · simp
  · exact natStr_ne_nil _

theorem decVal_expDigits (k : ℤ) : decVal (expDigits k) = k.natAbs := by
  unfold expDigits
  split
  · have := decVal_append (a := s%"0") (b := natStr k.natAbs) (by decide) (natStr_digits _)
    rw [show s%"0" ++ natStr k.natAbs = '0' :: natStr k.natAbs from rfl] at this
    rw [this, decVal_natStr]
    simp [decVal]
  · exact decVal_natStr _

theorem evalInt_exp (k : ℤ) : evalInt ((if k < 0 then '-' else '+') :: expDigits k) = some k := by
  by_cases h : k < 0
  · rw [if_pos h, evalInt]
    rw [if_pos (isDec_of (expDigits_ne k) (expDigits_digits k)), decVal_expDigits]
    congr 1; omega
  · rw [if_neg h, evalInt]
    rw [if_pos (isDec_of (expDigits_ne k) (expDigits_digits k)), decVal_expDigits]
    congr 1; omega

/-- The text printed for the coefficient `c` (seven digits) and the exponent `k`. -/
def sciOut (neg : Bool) (c : ℕ) (k : ℤ) : Str :=
  sign neg ++ ((natStr c).take 1 ++ ('.' :: ((natStr c).drop 1 ++ (s%"*10^{" ++ ((if k < 0 then '-' else '+') :: (expDigits k ++ s%"}"))))))

theorem sciOut_eval (neg : Bool) {c : ℕ} (k : ℤ) (h1 : 10 ^ 6 ≤ c) (h2 : c < 10 ^ 7) :
    evalSci (sciOut neg c k) = some ((if neg then -1 else 1) * ((c : ℚ) * 10 ^ (k - 6))) := by
  have hlen := natStr_length_eq c 7 (by norm_num) h1 h2
  have hdig := natStr_digits c
  have hval := decVal_natStr c
  unfold sciOut
  generalize natStr c = w at hlen hdig hval ⊢
  obtain ⟨x, xs, rfl⟩ := List.exists_cons_of_ne_nil (show w ≠ [] by rintro rfl; simp at hlen)
  have hxs : ∀ c ∈ xs, asciiDigit c = true := fun c hc => hdig c (by simp [hc])
  have hx := hdig x (by simp)
  have hl : xs.length = 6 := by simpa using hlen
  have hval' : decVal s%"" + 10 ^ 6 * (decVal [x]) + decVal xs = c := by
    have := decVal_append (a := [x]) (b := xs) (by simpa using hx) hxs
    rw [show [x] ++ xs = x :: xs from rfl, hval, hl] at this
    rw [this]; simp [decVal]; ring
  simp only [List.take_succ_cons, List.take_zero, List.drop_succ_cons, List.drop_zero]
  have key : evalSciPos ([x] ++ ('.' :: (xs ++ (s%"*10^{" ++ ((if k < 0 then '-' else '+') :: (expDigits k ++ s%"}")))))) = some ((c : ℚ) * 10 ^ (k - 6)) := by
    have hstar : '*' ∉ x :: '.' :: xs := by
      intro h
      simp only [List.mem_cons] at h
      rcases h with h | h | h
      · exact digit_ne hx (by decide) h.symm
      · exact absurd h (by decide)
      · exact absurd (hxs _ h) (by decide)
    have e : [x] ++ ('.' :: (xs ++ (s%"*10^{" ++ ((if k < 0 then '-' else '+') :: (expDigits k ++ s%"}"))))) =
        (x :: '.' :: xs) ++ '*' :: (s%"10^{" ++ ((if k < 0 then '-' else '+') :: (expDigits k ++ s%"}"))) := by simp
    rw [e]
    unfold evalSciPos
    rw [dropWhile_until hstar, takeWhile_until hstar]
    have hl1 : ('*' :: (s%"10^{" ++ ((if k < 0 then '-' else '+') :: (expDigits k ++ s%"}")))).getLast? = some '}' := by
      rw [show '*' :: (s%"10^{" ++ ((if k < 0 then '-' else '+') :: (expDigits k ++ s%"}"))) =
        (s%"*10^{" ++ ((if k < 0 then '-' else '+') :: expDigits k)) ++ s%"}" by simp, List.getLast?_concat]
    have hl2 : (('*' :: (s%"10^{" ++ ((if k < 0 then '-' else '+') :: (expDigits k ++ s%"}")))).drop 5).dropLast =
        (if k < 0 then '-' else '+') :: expDigits k := by
      rw [show (('*' :: (s%"10^{" ++ ((if k < 0 then '-' else '+') :: (expDigits k ++ s%"}")))).drop 5) =
        ((if k < 0 then '-' else '+') :: expDigits k) ++ s%"}" by simp, List.dropLast_concat]
    have hdot : '.' ∉ [x] := by
      intro h; simp at h; exact digit_ne hx (by decide) h.symm
    have hdec : evalDec (x :: '.' :: xs) = some ((decVal [x] : ℚ) + decVal xs / 10 ^ 6) := by
      unfold evalDec
      rw [show x :: '.' :: xs = [x] ++ '.' :: xs from rfl, dropWhile_until hdot, takeWhile_until hdot]
      simp only
      rw [isDec_of (by simp) (by simpa using hx), isDec_of (by rintro rfl; simp at hl) hxs, hl]
      simp
    simp only [hl1, hl2, hdec, evalInt_exp]
    have hc : (c : ℚ) = 10 ^ 6 * decVal [x] + decVal xs := by rw [← hval']; push_cast; simp [decVal]; norm_num
    simp only [List.isPrefixOf, List.cons_append, beq_self_eq_true, Bool.true_and, if_true, Option.bind_some, Option.map_some]
    congr 1
    rw [hc, zpow_sub₀ (by norm_num)]
    field_simp
  cases neg with
  | false =>
    have : evalSci (sign false ++ ([x] ++ ('.' :: (xs ++ (s%"*10^{" ++ ((if k < 0 then '-' else '+') :: (expDigits k ++ s%"}"))))))) =
        evalSciPos ([x] ++ ('.' :: (xs ++ (s%"*10^{" ++ ((if k < 0 then '-' else '+') :: (expDigits k ++ s%"}")))))) := by
      have hm : x ≠ '-' := digit_ne hx (by decide)
      rw [show sign false = [] from rfl]
      simp only [List.nil_append, List.cons_append]
      unfold evalSci
      split
      · rename_i heq; simp at heq; exact absurd heq.1 hm
      · rfl
    rw [this, key]; simp
  | true =>
    rw [show sign true = s%"-" from rfl, List.singleton_append, evalSci, key]
    simp

theorem sciOut_replace (neg : Bool) {m : ℕ} {e : ℤ} (hm : m ≠ 0) :
    replace s%"e" s%"*10^{" (F64.fin neg m e).fmtE ++ s%"}" =
      sciOut neg (sigDigits (F64.num m e) (F64.den e) 7).1 (sigDigits (F64.num m e) (F64.den e) 7).2 := by
  unfold F64.fmtE sciOut
  simp only [if_neg hm]
  generalize sigDigits (F64.num m e) (F64.den e) 7 = ck
  obtain ⟨c, k⟩ := ck
  simp only
  rw [expSuffix_eq, show (if neg then s%"-" else []) = sign neg from rfl]
  rw [replace_single]
  · simp
  · intro h
    simp only [List.append_assoc, List.mem_append, List.mem_cons] at h
    rcases h with h | h | h | h
    · exact absurd (sign_mem h) (by decide)
    · exact absurd (natStr_digits c _ (List.mem_of_mem_take h)) (by decide)
    · exact absurd h (by decide)
    · exact absurd (natStr_digits c _ (List.mem_of_mem_drop h)) (by decide)
  · intro h
    rcases List.mem_cons.1 h with h | h
    · split at h <;> exact absurd h (by decide)
    · exact absurd (expDigits_digits k _ h) (by decide)

theorem sciOut_chars (neg : Bool) (c : ℕ) (k : ℤ) : ∀ x ∈ sciOut neg c k, asciiDigit x = true ∨ x ∈ s%"-+.*^{}" := by
  intro x h
  unfold sciOut at h
  have hs : ∀ x ∈ s%"*10^{", asciiDigit x = true ∨ x ∈ s%"-+.*^{}" := by decide
  simp only [List.mem_append, List.mem_cons (a := x) (b := '.'), List.mem_cons (a := x) (b := if k < 0 then '-' else '+')] at h
  rcases h with h | h | h | h | h | h | h | h
  · rw [sign_mem h]; decide
  · exact .inl (natStr_digits c _ (List.mem_of_mem_take h))
  · rw [h]; decide
  · exact .inl (natStr_digits c _ (List.mem_of_mem_drop h))
  · exact hs x h
  · rw [h]; split <;> decide
  · exact .inl (expDigits_digits k _ h)
  · simp at h; rw [h]; decide

/-! ### Reading the literal -/

theorem sci_ahead (es : Option Bool) (ed : Str) : NoDigitAhead ('e' :: (expSign es ++ ed)) := by
  intro c hc
  simp at hc
  subst hc
  decide

theorem sci_parseExp (U : Uni) (es : Option Bool) {ed : Str} (h0 : ed ≠ []) (h : ∀ c ∈ ed, asciiDigit c = true) :
    parseExp U ('e' :: (expSign es ++ ed)) = some (if es = some true then -(decVal ed : ℤ) else decVal ed) := by
  have hall : ed.all (isDigit U) = true := List.all_eq_true.2 fun c hc => isDigit_of (h c hc)
  have hemp : ed.isEmpty = false := by cases ed with | nil => exact absurd rfl h0 | cons _ _ => rfl
  rw [decVal_nat U h]
  rcases es with _ | _ | _
  · obtain ⟨x, xs, rfl⟩ := List.exists_cons_of_ne_nil h0
    have hx := h x (by simp)
    have h1 : x ≠ '+' := digit_ne hx (by decide)
    have h2 : x ≠ '-' := digit_ne hx (by decide)
    rw [show expSign none ++ x :: xs = x :: xs from rfl]
    simp [parseExp, h1, h2]
    simpa using hall
  · simp [parseExp, expSign, hemp, hall]
  · simp [parseExp, expSign, hemp, hall]

theorem sci_parse (U : Uni) {ip : Str} {fp : Option Str} {es : Option Bool} {ed : Str} (hip : ∀ c ∈ ip, asciiDigit c = true)
    (hfp : ∀ f, fp = some f → ∀ c ∈ f, asciiDigit c = true) (h0 : ip ++ fp.getD [] ≠ []) (hed0 : ed ≠ []) (hed : ∀ c ∈ ed, asciiDigit c = true) :
    parseDecimal U (ip ++ (fracText fp ++ ('e' :: (expSign es ++ ed)))) =
      some (decVal (ip ++ fp.getD []), (if es = some true then -(decVal ed : ℤ) else decVal ed) - ((fp.getD []).length : ℤ)) := by
  cases fp with
  | none =>
    have h0' : ip ≠ [] := by simpa using h0
    have := parseDecimal_int U ip _ hip h0' (sci_ahead es ed)
    simp only [fracText, List.nil_append, Option.getD_none, List.append_nil, List.length_nil]
    rw [this, sci_parseExp U es hed0 hed, decVal_nat U hip]
    simp
  | some f =>
    have hf := hfp f rfl
    have h0' : ip ≠ [] ∨ f ≠ [] := by
      by_contra h; push Not at h; exact h0 (by simp [h.1, h.2])
    have := parseDecimal_frac U ip f _ hip hf h0' (sci_ahead es ed)
    simp only [fracText, List.cons_append, Option.getD_some]
    rw [this, sci_parseExp U es hed0 hed, decVal_nat U (s := ip ++ f)]
    · simp
    · intro c hc
      rcases List.mem_append.1 hc with h | h
      · exact hip c h
      · exact hf c h

def sciChar (c : Char) : Bool := asciiDigit c || (s%"-+.e").contains c

theorem sciChar_cases {P : Char → Prop} (hd : ∀ c, asciiDigit c = true → P c) (hs : ∀ c ∈ s%"-+.e", P c) {c : Char} (h : sciChar c = true) : P c := by
  simp only [sciChar, Bool.or_eq_true] at h
  rcases h with h | h
  · exact hd c h
  · exact hs c (List.contains_iff_mem.1 h)

section
variable {neg : Bool} {ip : Str} {fp : Option Str} {es : Option Bool} {ed : Str} (hip : ∀ c ∈ ip, asciiDigit c = true)
  (hfp : ∀ f, fp = some f → ∀ c ∈ f, asciiDigit c = true) (h0 : ip ++ fp.getD [] ≠ []) (hed0 : ed ≠ []) (hed : ∀ c ∈ ed, asciiDigit c = true)
include hip hfp hed

theorem sciText_chars : ∀ c ∈ sciText neg ip fp es ed, sciChar c = true := by
  have hd : ∀ c, asciiDigit c = true → sciChar c = true := fun c h => by simp [sciChar, h]
  intro c hc
  unfold sciText at hc
  simp only [List.mem_append, List.mem_cons (b := 'e')] at hc
  rcases hc with h | h | h | h | h | h
  · have := sign_mem (neg := neg) h; rw [this]; decide
  · exact hd c (hip c h)
  · cases fp with
    | none => cases h
    | some f =>
      rcases List.mem_cons.1 h with rfl | h
      · decide
      · exact hd c (hfp f rfl c h)
  · rw [h]; decide
  · have : ∀ es : Option Bool, ∀ c ∈ expSign es, sciChar c = true := by
      intro es
      rcases es with _ | _ | _ <;> decide
    exact this es c h
  · exact hd c (hed c h)

include h0 hed0

theorem sci_pyFloat (U : Uni) : pyFloat U (sciText neg ip fp es ed) = some (F64.ofDecimal neg (decVal (ip ++ fp.getD []))
    ((if es = some true then -(decVal ed : ℤ) else decVal ed) - ((fp.getD []).length : ℤ))) := by
  have hch := sciText_chars (neg := neg) (es := es) hip hfp hed
  unfold sciText at hch ⊢
  rw [show (if neg then s%"-" else []) = signStr neg from rfl, pyFloat_body]
  · rw [sci_parse U hip hfp h0 hed0 hed]; rfl
  · cases ip with
    | cons x xs => exact ⟨x, _, rfl, .inl (hip x (by simp))⟩
    | nil =>
      cases fp with
      | none => simp at h0
      | some f => exact ⟨'.', _, rfl, .inr rfl⟩
  · intro c hc
    cases hl : ed.getLast? with
    | none => simp at hl; exact absurd hl hed0
    | some y =>
      have e : ip ++ (fracText fp ++ ('e' :: (expSign es ++ ed))) = (ip ++ (fracText fp ++ ('e' :: expSign es))) ++ ed := by simp
      rw [e, List.getLast?_append, hl] at hc
      simp at hc; subst hc
      exact isSpace_digit (hed _ (List.mem_of_getLast? hl))
  · intro h
    exact absurd (hch '_' (List.mem_append_right _ h)) (by decide)

omit h0 hed0

theorem sci_no {x : Char} (h : sciChar x = false) : x ∉ sciText neg ip fp es ed := not_mem_of (sciText_chars hip hfp hed) h

theorem sci_normBody (E : Env X V S) (rec : Str → M X Norm) :
    normBody E rec (sciText neg ip fp es ed) = (do let a ← further E (sciText neg ip fp es ed); pure (.str a)) := by
  have no : ∀ x, sciChar x = false → x ∉ sciText neg ip fp es ed := fun x h => sci_no hip hfp hed h
  have hch := sciText_chars (neg := neg) (es := es) hip hfp hed
  generalize sciText neg ip fp es ed = s at no hch ⊢
  have noi : ∀ (x : Char) (p : Str), x ∈ p → sciChar x = false → ¬ p <:+: s := fun x p hp h => not_infix_of_not_mem x hp (no x h)
  have hb := no ' ' (by decide)
  have hbs := no '\\' (by decide)
  rw [normBody_unwrapped E rec (t := s) (by
      rw [stripBlank_noblank hb]
      exact matrixNormalize_id (noi 'c' _ (by simp) (by decide)) (noi 'a' _ (by simp) (by decide)) (noi '\\' _ (by simp) (by decide)))
    (fun h => hbs (List.mem_of_head? h))]
  have hmid : middle s = s := by
    apply middle_id (no '$' (by decide)) (noi 'a' _ (by simp) (by decide)) (noi 'o' _ (by simp) (by decide)) (noi 'l' _ (by simp) (by decide))
      ?_ (noi '\\' _ (by simp) (by decide)) (noi '\\' _ (by simp) (by decide)) (noi '\\' _ (by simp) (by decide))
    intro c hc
    refine sciChar_cases (P := fun c => c.toNat ∉ ([7, 8, 9, 12, 13] : List Nat)) ?_ (by decide) (hch c hc)
    intro c h hm
    simp only [asciiDigit, decide_eq_true_eq] at h
    simp only [List.mem_cons, List.not_mem_nil, or_false] at hm
    omega
  rw [normTail_str E (removeSpacing_noslash hbs (noi '{' _ (by simp) (by decide))) (no '_' (by decide)) (no '%' (by decide)) (t' := s)
    (by rw [hmid]; exact time_id (timeRe1_none (no 'm' (by decide)) (no 'M' (by decide))) (no ':' (by decide)))]
  rw [unitsStep_id (.inl (no '{' (by decide)))]
  · exact degrees_none E (noi '\\' _ (by simp) (by decide))
  · intro u hu
    have : ∀ u ∈ unitLong ++ unitShort, ∃ x ∈ u, x ≠ '.' ∧ sciChar x = false := by decide +kernel
    obtain ⟨x, h1, h2, h3⟩ := this u hu
    exact ⟨x, h1, h2, no x h3⟩

include h0 hed0

/-- The normal form of a literal with an integer value. -/
theorem sci_normal (E : Env X V S) (n : Nat) {z : ℕ} (hz : 0 < z) (hv : sciVal false ip fp es ed = z) (hr : (z : ℚ) < 10 ^ 308) :
    ∃ N D : ℕ, 0 < D ∧ D ≤ N * 10 ^ 1200 ∧ |(N : ℚ) / D - z| ≤ z / 2 ^ 53 ∧
      Always (stringNormalize E (n + 1) (sciText neg ip fp es ed)) (.str (sciOut neg (sigDigits N D 7).1 (sigDigits N D 7).2)) := by
  have hpy := sci_pyFloat (neg := neg) (es := es) hip hfp h0 hed0 hed E.U
  have hno := fun {x : Char} (h : sciChar x = false) => sci_no (neg := neg) (es := es) hip hfp hed h
  have hce : contains s%"e" (sciText neg ip fp es ed) = true := by
    rw [contains_iff]
    exact ⟨(if neg then s%"-" else []) ++ (ip ++ fracText fp), expSign es ++ ed, by simp [sciText]⟩
  unfold F64.ofDecimal at hpy
  obtain ⟨m, e, hf, hwf, hm0, hcl, y, hy⟩ := int_float
    (n := decVal (ip ++ fp.getD []) * 10 ^ ((if es = some true then -(decVal ed : ℤ) else decVal ed) - ((fp.getD []).length : ℤ)).toNat)
    (d := 10 ^ (-((if es = some true then -(decVal ed : ℤ) else decVal ed) - ((fp.getD []).length : ℤ))).toNat)
    (by positivity) hz (by rw [ofDecimal_val, ← hv]; simp [sciVal]) hr
  rw [hf neg] at hpy
  refine ⟨F64.num m e, F64.den e, den_pos e, small_enough hm0 hwf.2.1, by rw [num_den]; exact hcl, ?_⟩
  apply always_normalize
  rw [sci_normBody hip hfp hed]
  have hout := sciOut_chars neg (sigDigits (F64.num m e) (F64.den e) 7).1 (sigDigits (F64.num m e) (F64.den e) 7).2
  have hpure : furtherPure E.U (sciText neg ip fp es ed) =
      sciOut neg (sigDigits (F64.num m e) (F64.den e) 7).1 (sigDigits (F64.num m e) (F64.den e) 7).2 := by
    have hcf : canonFloat E.U (sciText neg ip fp es ed) =
        sciOut neg (sigDigits (F64.num m e) (F64.den e) 7).1 (sigDigits (F64.num m e) (F64.den e) 7).2 := by
      unfold canonFloat floatToLatexScientific
      rw [hpy]
      simp only [integral_near neg hy, hce, if_true]
      rw [if_pos (by simpa [F64.neZero] using hm0), sciOut_replace neg hm0]
    unfold furtherPure
    simp only [stripBraces_id (fun h => hno (x := '{') (by decide) (List.mem_of_head? h)), hcf]
    generalize sciOut neg (sigDigits (F64.num m e) (F64.den e) 7).1 (sigDigits (F64.num m e) (F64.den e) 7).2 = o at hout ⊢
    have no : ∀ x, asciiDigit x = false → x ∉ s%"-+.*^{}" → x ∉ o := by
      intro x h1 h2 hx
      rcases hout x hx with h | h
      · rw [h] at h1; cases h1
      · exact h2 h
    have hb := no ' ' (by decide) (by decide)
    have hs := no '\\' (by decide) (by decide)
    rw [(contains_eq_false s%"\\" _).2 (not_infix_of_not_mem '\\' (by simp) hs)]
    simp only [Bool.false_eq_true, if_false]
    rw [dash_id _ hb, injectMixed_id (no '/' (by decide) (by decide)) (not_infix_of_not_mem '\\' (by simp) hs),
      replace_id _ _ _ (not_infix_of_not_mem ' ' (by simp) hb)]
    apply lower_id
    intro c hc
    rcases hout c hc with h | h
    · simp only [asciiDigit, decide_eq_true_eq] at h
      refine ⟨by omega, ?_⟩
      simp [asciiUpper]; omega
    · have : ∀ c ∈ s%"-+.*^{}", c.toNat < 128 ∧ asciiUpper c = false := by decide
      exact this c h
  have hbr : '{' ∈ sciOut neg (sigDigits (F64.num m e) (F64.den e) 7).1 (sigDigits (F64.num m e) (F64.den e) 7).2 := by
    simp [sciOut]
  have hlit : litChar E.U '{' = false := by simp [litChar, isSpace, isDigit]; decide
  unfold further
  rw [hpure, canonInt_id E (strIsInt_false hbr hlit (by decide))]
  exact Always.bind (Always.pure _) (Always.pure _)

omit hip hfp h0 hed0 hed in
theorem sciVal_sign {z : ℚ} (hv : sciVal false ip fp es ed = z) : sciVal neg ip fp es ed = (if neg then -1 else 1) * z := by
  rw [← hv]
  unfold sciVal
  simp

/-! ### C32 -/

/-- C32: a literal with an exponent whose value is an integer with at most seven significant digits keeps its value. -/
theorem C32_exact_partial (E : Env X V S) (n : Nat) {z C j : ℕ} (hz : 0 < z) (hv : sciVal false ip fp es ed = z) (hr : (z : ℚ) < 10 ^ 308)
    (hC : C < 10 ^ 7) (hzC : z = C * 10 ^ j) :
    ∃ r, Always (stringNormalize E (n + 1) (sciText neg ip fp es ed)) (.str r) ∧ evalSci r = some (sciVal neg ip fp es ed) := by
  obtain ⟨N, D, hD, hs, hcl, hal⟩ := sci_normal (neg := neg) hip hfp h0 hed0 hed E n hz hv hr
  -- fill up to seven digits
  have hfill : ∃ (c : ℕ) (K : ℤ), 10 ^ 6 ≤ c ∧ c < 10 ^ 7 ∧ (z : ℚ) = c * 10 ^ (K - 6) := by
    have hC0 : 0 < C := by
      rcases Nat.eq_zero_or_pos C with rfl | h
      · simp at hzC; omega
      · exact h
    have : ∀ i : ℕ, ∀ C : ℕ, 0 < C → 10 ^ (6 - i) ≤ C → C < 10 ^ 7 → ∃ (c : ℕ) (i' : ℕ), 10 ^ 6 ≤ c ∧ c < 10 ^ 7 ∧ c = C * 10 ^ i' := by
      intro i
      induction i with
      | zero => intro C _ h1 h2; exact ⟨C, 0, h1, h2, by simp⟩
      | succ i ih =>
        intro C h0 h1 h2
        by_cases h : C < 10 ^ 6
        · obtain ⟨c, i', g1, g2, g3⟩ := ih (C * 10) (by omega) (by
            rcases Nat.lt_or_ge i 6 with hi | hi
            · rw [show 6 - i = (6 - (i + 1)) + 1 by omega, pow_succ]; omega
            · rw [show 6 - i = 0 by omega]; omega) (by omega)
          exact ⟨c, i' + 1, g1, g2, by rw [g3, pow_succ]; ring⟩
        · exact ⟨C, 0, by omega, h2, by simp⟩
    obtain ⟨c, i, h1, h2, h3⟩ := this 6 C hC0 (by simp; omega) hC
    refine ⟨c, (j : ℤ) - i + 6, h1, h2, ?_⟩
    rw [hzC, h3, show ((j : ℤ) - i + 6 - 6) = j - i by ring, zpow_sub₀ (by norm_num)]
    push_cast
    field_simp
    simp
    ring
  obtain ⟨c, K, h1, h2, h3⟩ := hfill
  rw [seven hD hs h1 h2 (by rw [← h3]; exact hcl)] at hal
  refine ⟨_, hal, ?_⟩
  rw [sciOut_eval neg K h1 h2, ← h3, sciVal_sign hv]

/-- C32, for all integers: the value changes by less than one millionth. -/
theorem C32_error (E : Env X V S) (n : Nat) {z : ℕ} (hz : 0 < z) (hv : sciVal false ip fp es ed = z) (hr : (z : ℚ) < 10 ^ 308) :
    ∃ r v, Always (stringNormalize E (n + 1) (sciText neg ip fp es ed)) (.str r) ∧ evalSci r = some v ∧
      |v - sciVal neg ip fp es ed| ≤ |sciVal neg ip fp es ed| / 10 ^ 6 := by
  obtain ⟨N, D, hD, hs, hcl, hal⟩ := sci_normal (neg := neg) hip hfp h0 hed0 hed E n hz hv hr
  obtain ⟨c1, c2, c3⟩ := sigDigits_spec N D 7 hD hs (by norm_num)
  clear hs
  generalize sigDigits N D 7 = ck at *
  obtain ⟨c, k⟩ := ck
  simp only at c1 c2 c3 hal
  refine ⟨_, _, hal, sciOut_eval neg k c1 c2, ?_⟩
  rw [sciVal_sign hv, ← mul_sub, abs_mul, abs_mul]
  have hs1 : |(if neg then -1 else 1 : ℚ)| = 1 := by cases neg <;> simp
  rw [hs1, one_mul, one_mul]
  have hzq : (0 : ℚ) < z := by exact_mod_cast hz
  rw [abs_of_pos hzq]
  rw [show k - ((7 : ℕ) : ℤ) + 1 = k - 6 by push_cast; ring] at c3
  have e : (10 : ℚ) ^ (1 - ((7 : ℕ) : ℤ)) = 1 / 10 ^ 6 := by norm_num
  rw [e] at c3
  have h1 := abs_le.1 hcl
  have h2 := abs_le.1 c3
  generalize (N : ℚ) / D = x at *
  rw [abs_le]
  constructor
  · linarith [h1.1, h1.2, h2.1, h2.2]
  · linarith [h1.1, h1.2, h2.1, h2.2]

/-- The full statement fails for every integer with more than seven significant digits. -/
theorem C32_refuted (E : Env X V S) (n : Nat) {z : ℕ} (hz : 0 < z) (hv : sciVal false ip fp es ed = z) (hr : (z : ℚ) < 10 ^ 308)
    (hC : ∀ C j : ℕ, C < 10 ^ 7 → z ≠ C * 10 ^ j) :
    ∃ r v, Always (stringNormalize E (n + 1) (sciText neg ip fp es ed)) (.str r) ∧ evalSci r = some v ∧ v ≠ sciVal neg ip fp es ed := by
  obtain ⟨N, D, hD, hs, hcl, hal⟩ := sci_normal (neg := neg) hip hfp h0 hed0 hed E n hz hv hr
  obtain ⟨c1, c2, -⟩ := sigDigits_spec N D 7 hD hs (by norm_num)
  clear hs
  generalize sigDigits N D 7 = ck at *
  obtain ⟨c, k⟩ := ck
  simp only at c1 c2 hal
  refine ⟨_, _, hal, sciOut_eval neg k c1 c2, ?_⟩
  rw [sciVal_sign hv]
  intro h
  have h' : (c : ℚ) * 10 ^ (k - 6) = z := by
    cases neg
    · simpa using h
    · simpa using h
  rcases le_or_gt 0 (k - 6) with hk | hk
  · obtain ⟨j, hj⟩ := Int.eq_ofNat_of_zero_le hk
    rw [hj, zpow_natCast] at h'
    exact hC c j c2 (by exact_mod_cast h'.symm)
  · have h10 : (10 : ℚ) ^ (k - 6) ≤ 1 := zpow_le_one_of_nonpos₀ (by norm_num) hk.le
    have hzc : (z : ℚ) ≤ c := by
      rw [← h']
      have : (0 : ℚ) ≤ c := by positivity
      nlinarith
    have hzc' : z ≤ c := by exact_mod_cast hzc
    exact hC z 0 (by omega) (by simp)

end

/-- `12345678e0` is such an integer. -/
example : sciVal false s%"12345678" none none s%"0" = (12345678 : ℕ) ∧ ∀ C j : ℕ, C < 10 ^ 7 → 12345678 ≠ C * 10 ^ j := by
  refine ⟨by decide +kernel, ?_⟩
  intro C j h1 h2
  cases j with
  | zero => omega
  | succ j => rw [pow_succ, ← Nat.mul_assoc] at h2; omega
example : (stringNormalize ratEnv 1 s%"12345678e0" ⟨(), []⟩).1 = .ok (.str s%"1.234568*10^{+07}") := by decide +kernel
example : sciText true s%"12" (some s%"50") (some false) s%"3" = s%"-12.50e+3" := by decide +kernel
example : (stringNormalize ratEnv 1 s%"-12.50e+3" ⟨(), []⟩).1 = .ok (.str s%"-1.250000*10^{+04}") := by decide +kernel
example : sciVal true s%"12" (some s%"50") (some false) s%"3" = -12500 := by decide +kernel

end Verif
