import Verif.Py.Float
import Verif.Py.NumLemmas
import Mathlib.Algebra.Order.Field.Rat
import Mathlib.Algebra.Order.Field.Power
import Mathlib.Algebra.Order.Field.Basic
import Mathlib.Data.Rat.Cast.Order
import Mathlib.Tactic.Linarith
import Mathlib.Tactic.Positivity
import Mathlib.Tactic.NormNum
import Mathlib.Tactic.FieldSimp
import Mathlib.Tactic.Ring
import Mathlib.Tactic.Zify
/-
Correctness of the binary64 model: rounding yields a nearest double, and the shortest decimal printed for a
double reads back as the same double.
-/

namespace Verif

/-! ### Rounding a quotient -/

theorem rneDiv_near (n d : Nat) (hd : 0 < d) : |((rneDiv n d : ℕ) : ℚ) - (n : ℚ) / d| ≤ 1 / 2 := by
  have hdq : (0 : ℚ) < d := by exact_mod_cast hd
  have e : (n : ℚ) = d * (n / d : ℕ) + (n % d : ℕ) := by exact_mod_cast (Nat.div_add_mod n d).symm
  have hlt : ((n % d : ℕ) : ℚ) < d := by exact_mod_cast Nat.mod_lt n hd
  have h0 : (0 : ℚ) ≤ ((n % d : ℕ) : ℚ) := by positivity
  have e2 : (n : ℚ) / d = (n / d : ℕ) + ((n % d : ℕ) : ℚ) / d := by
    conv_lhs => rw [e]
    field_simp
  rw [e2]
  unfold rneDiv
  simp only
  have key0 : 2 * (n % d) ≤ d → |(((n / d : ℕ)) : ℚ) - ((n / d : ℕ) + ((n % d : ℕ) : ℚ) / d)| ≤ 1 / 2 := by
    intro h
    have hq : 2 * ((n % d : ℕ) : ℚ) ≤ d := by exact_mod_cast h
    have : ((n % d : ℕ) : ℚ) / d ≤ 1 / 2 := by rw [div_le_div_iff₀ hdq (by norm_num)]; linarith
    have : 0 ≤ ((n % d : ℕ) : ℚ) / d := by positivity
    rw [abs_le]; constructor <;> linarith
  have key1 : d ≤ 2 * (n % d) → |(((n / d + 1 : ℕ)) : ℚ) - ((n / d : ℕ) + ((n % d : ℕ) : ℚ) / d)| ≤ 1 / 2 := by
    intro h
    have hq : (d : ℚ) ≤ 2 * ((n % d : ℕ) : ℚ) := by exact_mod_cast h
    have : 1 / 2 ≤ ((n % d : ℕ) : ℚ) / d := by rw [div_le_div_iff₀ (by norm_num) hdq]; linarith
    have : ((n % d : ℕ) : ℚ) / d ≤ 1 := by rw [div_le_one hdq]; linarith
    push_cast
    rw [abs_le]; constructor <;> linarith
  split
  · exact key0 (by omega)
  · split
    · exact key1 (by omega)
    · split
      · exact key0 (by omega)
      · exact key1 (by omega)

/-- Rounding gives a nearest integer. -/
theorem rneDiv_nearest (n d : Nat) (hd : 0 < d) (k : ℤ) :
    |((rneDiv n d : ℕ) : ℚ) - (n : ℚ) / d| ≤ |(k : ℚ) - (n : ℚ) / d| := by
  have h := rneDiv_near n d hd
  by_cases hk : (k : ℚ) = ((rneDiv n d : ℕ) : ℚ)
  · rw [hk]
  · have hne : k ≠ (rneDiv n d : ℕ) := fun e => hk (by rw [e]; simp)
    have h1 : (1 : ℚ) ≤ |(k : ℚ) - ((rneDiv n d : ℕ) : ℚ)| := by
      have : (1 : ℤ) ≤ |k - (rneDiv n d : ℕ)| := Int.one_le_abs (sub_ne_zero.2 hne)
      exact_mod_cast this
    have h2 : |(k : ℚ) - ((rneDiv n d : ℕ) : ℚ)| ≤ |(k : ℚ) - (n : ℚ) / d| + |((rneDiv n d : ℕ) : ℚ) - (n : ℚ) / d| := by
      have := abs_sub_le (k : ℚ) ((n : ℚ) / d) ((rneDiv n d : ℕ) : ℚ)
      rw [abs_sub_comm ((n : ℚ) / d)] at this
      exact this
    linarith

/-- An integer quotient is not changed by rounding. -/
theorem rneDiv_exact (k d : Nat) (hd : 0 < d) : rneDiv (k * d) d = k := by
  have hdq : (d : ℚ) ≠ 0 := by exact_mod_cast hd.ne'
  have h := rneDiv_near (k * d) d hd
  rw [show ((k * d : ℕ) : ℚ) / d = k by push_cast; field_simp] at h
  by_contra hne
  have : (1 : ℤ) ≤ |((rneDiv (k * d) d : ℕ) : ℤ) - k| := Int.one_le_abs (sub_ne_zero.2 (by exact_mod_cast hne))
  have : (1 : ℚ) ≤ |((rneDiv (k * d) d : ℕ) : ℚ) - k| := by exact_mod_cast this
  linarith

/-! ### Powers of two -/

theorem pow2_cast (e : ℤ) : (pow2pos e : ℚ) / pow2neg e = (2 : ℚ) ^ e := by
  unfold pow2pos pow2neg
  rcases le_total 0 e with h | h
  · obtain ⟨k, rfl⟩ := Int.eq_ofNat_of_zero_le h
    simp
  · obtain ⟨k, hk⟩ := Int.eq_ofNat_of_zero_le (Int.neg_nonneg_of_nonpos h)
    rw [hk]
    have : e = -(k : ℤ) := by omega
    subst this
    simp

theorem pow2pos_pos (e : ℤ) : 0 < pow2pos e := Nat.two_pow_pos _
theorem pow2neg_pos (e : ℤ) : 0 < pow2neg e := Nat.two_pow_pos _

theorem two_zpow_pos (e : ℤ) : (0 : ℚ) < 2 ^ e := by positivity

theorem two_zpow_le {a b : ℤ} (h : a ≤ b) : (2 : ℚ) ^ a ≤ 2 ^ b := zpow_le_zpow_right₀ (by norm_num) h
theorem two_zpow_lt {a b : ℤ} (h : a < b) : (2 : ℚ) ^ a < 2 ^ b := zpow_lt_zpow_right₀ (by norm_num) h

theorem two_zpow_add (a b : ℤ) : (2 : ℚ) ^ (a + b) = 2 ^ a * 2 ^ b := zpow_add₀ (by norm_num) a b

theorem two_zpow_natCast (k : ℕ) : (2 : ℚ) ^ (k : ℤ) = ((2 ^ k : ℕ) : ℚ) := by simp

theorem cast_le_zpow {m k : ℕ} (h : m ≤ 2 ^ k) : (m : ℚ) ≤ 2 ^ (k : ℤ) := by
  rw [two_zpow_natCast]; exact_mod_cast h

theorem zpow_le_cast {m k : ℕ} (h : 2 ^ k ≤ m) : (2 : ℚ) ^ (k : ℤ) ≤ m := by
  rw [two_zpow_natCast]; exact_mod_cast h

theorem div_pow2 (n d : Nat) (hd : 0 < d) (e : ℤ) :
    ((n * pow2neg e : ℕ) : ℚ) / ((d * pow2pos e : ℕ) : ℚ) = (n : ℚ) / d / 2 ^ e := by
  have h1 : (pow2pos e : ℚ) ≠ 0 := by exact_mod_cast (pow2pos_pos e).ne'
  have h2 : (pow2neg e : ℚ) ≠ 0 := by exact_mod_cast (pow2neg_pos e).ne'
  have h3 : (d : ℚ) ≠ 0 := by exact_mod_cast hd.ne'
  rw [← pow2_cast]
  push_cast
  field_simp

theorem log2_bounds (n : Nat) (h : 0 < n) : (2 : ℚ) ^ (n.log2 : ℤ) ≤ n ∧ (n : ℚ) < 2 ^ ((n.log2 : ℤ) + 1) := by
  constructor
  · rw [two_zpow_natCast]
    exact_mod_cast (Nat.le_log2 h.ne').1 (Nat.le_refl n.log2)
  · have := (Nat.log2_lt h.ne').1 (Nat.lt_succ_self n.log2)
    rw [show ((n.log2 : ℤ) + 1) = ((n.log2 + 1 : ℕ) : ℤ) by push_cast; rfl, two_zpow_natCast]
    exact_mod_cast this

/-- The exponent chosen for a quotient. -/
theorem ulpExp_spec (n d : Nat) (hn : 0 < n) (hd : 0 < d) :
    -1074 ≤ ulpExp n d ∧ (n : ℚ) / d < 2 ^ (53 + ulpExp n d) ∧
      (ulpExp n d = -1074 ∨ (2 : ℚ) ^ (52 + ulpExp n d) ≤ (n : ℚ) / d) := by
  have hdq : (0 : ℚ) < d := by exact_mod_cast hd
  obtain ⟨n1, n2⟩ := log2_bounds n hn
  obtain ⟨d1, d2⟩ := log2_bounds d hd
  generalize hL : (n.log2 : ℤ) = L at n1 n2
  generalize hD : (d.log2 : ℤ) = D at d1 d2
  have hlt : (n : ℚ) / d < 2 ^ (L - D + 1) := by
    rw [div_lt_iff₀ hdq]
    calc (n : ℚ) < 2 ^ (L + 1) := n2
      _ = 2 ^ (L - D + 1) * 2 ^ D := by rw [← two_zpow_add]; congr 1; omega
      _ ≤ 2 ^ (L - D + 1) * d := by
        apply mul_le_mul_of_nonneg_left d1 (two_zpow_pos _).le
  have hgt : (2 : ℚ) ^ (L - D - 1) < (n : ℚ) / d := by
    rw [lt_div_iff₀ hdq]
    calc (2 : ℚ) ^ (L - D - 1) * d < 2 ^ (L - D - 1) * 2 ^ (D + 1) := by
          apply mul_lt_mul_of_pos_left d2 (two_zpow_pos _)
      _ = 2 ^ L := by rw [← two_zpow_add]; congr 1; omega
      _ ≤ n := n1
  unfold ulpExp
  simp only
  rw [hL, hD]
  have key : ∀ e2 : ℤ, (n : ℚ) / d < 2 ^ (53 + e2) → (2 : ℚ) ^ (52 + e2) ≤ (n : ℚ) / d →
      -1074 ≤ max e2 (-1074) ∧ (n : ℚ) / d < 2 ^ (53 + max e2 (-1074)) ∧
        (max e2 (-1074) = -1074 ∨ (2 : ℚ) ^ (52 + max e2 (-1074)) ≤ (n : ℚ) / d) := by
    intro e2 h1 h2
    refine ⟨le_max_right _ _, lt_of_lt_of_le h1 (two_zpow_le (by have := le_max_left e2 (-1074); omega)), ?_⟩
    rcases le_total e2 (-1074) with h | h
    · left; exact max_eq_right h
    · right; rw [max_eq_left h]; exact h2
  have hc : (2 ^ 53 * (d * pow2pos (L - D - 53)) ≤ n * pow2neg (L - D - 53)) ↔
      (2 : ℚ) ^ (53 + (L - D - 53)) ≤ (n : ℚ) / d := by
    have h2 : (0 : ℚ) < pow2neg (L - D - 53) := by exact_mod_cast pow2neg_pos _
    rw [two_zpow_add, ← pow2_cast (L - D - 53), le_div_iff₀ hdq, mul_div_assoc', div_mul_eq_mul_div, div_le_iff₀ h2]
    rw [show (2 : ℚ) ^ (53 : ℤ) = ((2 ^ 53 : ℕ) : ℚ) by norm_num]
    rw [show ((2 ^ 53 : ℕ) : ℚ) * (pow2pos (L - D - 53) : ℚ) * d = ((2 ^ 53 * (d * pow2pos (L - D - 53)) : ℕ) : ℚ) by
      push_cast; ring]
    rw [show (n : ℚ) * (pow2neg (L - D - 53) : ℚ) = ((n * pow2neg (L - D - 53) : ℕ) : ℚ) by push_cast; ring]
    exact_mod_cast Iff.rfl
  by_cases h : 2 ^ 53 * (d * pow2pos (L - D - 53)) ≤ n * pow2neg (L - D - 53)
  · rw [if_pos h]
    apply key
    · rwa [show 53 + (L - D - 53 + 1) = L - D + 1 by omega]
    · rw [hc] at h
      rwa [show 52 + (L - D - 53 + 1) = 53 + (L - D - 53) by omega]
  · rw [if_neg h]
    rw [hc, not_le] at h
    apply key _ h
    rw [show 52 + (L - D - 53) = L - D - 1 by omega]
    exact hgt.le

/-! ### Nearest double -/

/-- Non-negative finite binary64 numbers (also beyond the largest one). -/
def IsDouble (y : ℚ) : Prop := ∃ (m : ℕ) (e : ℤ), m ≤ 2 ^ 53 ∧ -1074 ≤ e ∧ y = m * 2 ^ e

/-- Value of mantissa and exponent. -/
theorem num_den (m : Nat) (e : ℤ) : (F64.num m e : ℚ) / F64.den e = m * 2 ^ e := by
  rw [← pow2_cast]
  unfold F64.num F64.den
  push_cast
  ring

/-- The rounded mantissa. -/
def rmant (n d : Nat) : Nat := rneDiv (n * pow2neg (ulpExp n d)) (d * pow2pos (ulpExp n d))

theorem rmant_near (n d : Nat) (hd : 0 < d) :
    |(rmant n d : ℚ) - (n : ℚ) / d / 2 ^ ulpExp n d| ≤ 1 / 2 := by
  have := rneDiv_near (n * pow2neg (ulpExp n d)) (d * pow2pos (ulpExp n d)) (Nat.mul_pos hd (pow2pos_pos _))
  rw [div_pow2 n d hd] at this
  exact this

theorem rmant_le (n d : Nat) (hn : 0 < n) (hd : 0 < d) : rmant n d ≤ 2 ^ 53 := by
  obtain ⟨_, h, _⟩ := ulpExp_spec n d hn hd
  have hr := rmant_near n d hd
  have hx : (n : ℚ) / d / 2 ^ ulpExp n d < 2 ^ 53 := by
    rw [div_lt_iff₀ (two_zpow_pos _)]
    rw [two_zpow_add] at h
    exact_mod_cast h
  have : (rmant n d : ℚ) < 2 ^ 53 + 1 := by
    have := (abs_le.1 hr).2; linarith
  have : rmant n d < 2 ^ 53 + 1 := by exact_mod_cast this
  omega

theorem rmant_ge (n d : Nat) (hn : 0 < n) (hd : 0 < d) : ulpExp n d = -1074 ∨ 2 ^ 52 ≤ rmant n d := by
  obtain ⟨_, _, h⟩ := ulpExp_spec n d hn hd
  rcases h with h | h
  · exact .inl h
  · right
    have hr := rmant_near n d hd
    have hx : (2 : ℚ) ^ 52 ≤ (n : ℚ) / d / 2 ^ ulpExp n d := by
      rw [le_div_iff₀ (two_zpow_pos _)]
      rw [two_zpow_add] at h
      exact_mod_cast h
    have : (2 : ℚ) ^ 52 - 1 < (rmant n d : ℚ) := by
      have := (abs_le.1 hr).1; linarith
    have : (2 : ℚ) ^ 52 < (rmant n d : ℚ) + 1 := by linarith
    have : 2 ^ 52 < rmant n d + 1 := by exact_mod_cast this
    omega

/-- Rounding gives a nearest double. -/
theorem rmant_nearest (n d : Nat) (hn : 0 < n) (hd : 0 < d) (y : ℚ) (hy : IsDouble y) :
    |(rmant n d : ℚ) * 2 ^ ulpExp n d - (n : ℚ) / d| ≤ |y - (n : ℚ) / d| := by
  obtain ⟨m', e', hm', he', rfl⟩ := hy
  obtain ⟨_, hlt, hge⟩ := ulpExp_spec n d hn hd
  set e := ulpExp n d with he
  have hp := two_zpow_pos e
  have scale : ∀ k : ℚ, |k * 2 ^ e - (n : ℚ) / d| = |k - (n : ℚ) / d / 2 ^ e| * 2 ^ e := by
    intro k
    rw [← abs_of_pos hp, ← abs_mul, abs_of_pos hp]
    congr 1
    field_simp
  have near : ∀ k : ℤ, |(rmant n d : ℚ) * 2 ^ e - (n : ℚ) / d| ≤ |(k : ℚ) * 2 ^ e - (n : ℚ) / d| := by
    intro k
    rw [scale, scale]
    apply mul_le_mul_of_nonneg_right _ hp.le
    have := rneDiv_nearest (n * pow2neg e) (d * pow2pos e) (Nat.mul_pos hd (pow2pos_pos _)) k
    rw [div_pow2 n d hd] at this
    exact this
  by_cases hc : e ≤ e'
  · have hk : ((m' * 2 ^ (e' - e).toNat : ℕ) : ℤ) = ((m' * 2 ^ (e' - e).toNat : ℕ) : ℤ) := rfl
    have := near ((m' * 2 ^ (e' - e).toNat : ℕ) : ℤ)
    have hv : (((m' * 2 ^ (e' - e).toNat : ℕ) : ℤ) : ℚ) * 2 ^ e = m' * 2 ^ e' := by
      have : (2 : ℚ) ^ e' = 2 ^ ((e' - e).toNat : ℤ) * 2 ^ e := by
        rw [← two_zpow_add]; congr 1; omega
      rw [this, two_zpow_natCast]
      push_cast
      ring
    rwa [hv] at this
  · rw [not_le] at hc
    have hge' : (2 : ℚ) ^ (52 + e) ≤ (n : ℚ) / d := by
      rcases hge with h | h
      · omega
      · exact h
    have hB := near (2 ^ 52)
    have hB' : (((2 ^ 52 : ℤ)) : ℚ) * 2 ^ e = 2 ^ (52 + e) := by
      rw [two_zpow_add]; norm_num
    rw [hB'] at hB
    have hy : (m' : ℚ) * 2 ^ e' ≤ 2 ^ (52 + e) := by
      calc (m' : ℚ) * 2 ^ e' ≤ 2 ^ (53 : ℤ) * 2 ^ e' := by
            apply mul_le_mul_of_nonneg_right _ (two_zpow_pos _).le
            exact cast_le_zpow hm'
        _ = 2 ^ (53 + e') := (two_zpow_add _ _).symm
        _ ≤ 2 ^ (52 + e) := two_zpow_le (by omega)
    refine hB.trans ?_
    rw [abs_sub_comm, abs_of_nonneg (by linarith), abs_sub_comm, abs_of_nonneg (by linarith)]
    linarith

/-- Distance of a double to the other doubles. -/
theorem double_gap (m : ℕ) (e : ℤ) (hm : m ≤ 2 ^ 53) (he : e = -1074 ∨ 2 ^ 52 ≤ m) (y : ℚ) (hy : IsDouble y)
    (hne : y ≠ m * 2 ^ e) :
    (if m ≤ 2 ^ 52 then (2 : ℚ) ^ (e - 1) else 2 ^ e) ≤ |(m : ℚ) * 2 ^ e - y| := by
  obtain ⟨m', e', hm', he', rfl⟩ := hy
  have hfine : ∀ f : ℤ, f ≤ e → f ≤ e' → (2 : ℚ) ^ f ≤ |(m : ℚ) * 2 ^ e - m' * 2 ^ e'| := by
    intro f h1 h2
    have c1 : (2 : ℚ) ^ e = 2 ^ ((e - f).toNat : ℤ) * 2 ^ f := by rw [← two_zpow_add]; congr 1; omega
    have c2 : (2 : ℚ) ^ e' = 2 ^ ((e' - f).toNat : ℤ) * 2 ^ f := by rw [← two_zpow_add]; congr 1; omega
    have hp := two_zpow_pos f
    rw [c1, c2, two_zpow_natCast, two_zpow_natCast]
    rw [show (m : ℚ) * (((2 ^ (e - f).toNat : ℕ) : ℚ) * 2 ^ f) - m' * (((2 ^ (e' - f).toNat : ℕ) : ℚ) * 2 ^ f) =
      (((m * 2 ^ (e - f).toNat : ℕ) : ℤ) - ((m' * 2 ^ (e' - f).toNat : ℕ) : ℤ) : ℤ) * 2 ^ f by push_cast; ring]
    rw [abs_mul, abs_of_pos hp]
    have hz : ((m * 2 ^ (e - f).toNat : ℕ) : ℤ) - ((m' * 2 ^ (e' - f).toNat : ℕ) : ℤ) ≠ 0 := by
      intro h0
      apply hne
      rw [c1, c2, two_zpow_natCast, two_zpow_natCast]
      have : ((m * 2 ^ (e - f).toNat : ℕ) : ℚ) = ((m' * 2 ^ (e' - f).toNat : ℕ) : ℚ) := by
        have := sub_eq_zero.1 h0; exact_mod_cast this
      push_cast at this ⊢
      rw [← mul_assoc, ← mul_assoc, this]
    have h1 : (1 : ℤ) ≤ |((m * 2 ^ (e - f).toNat : ℕ) : ℤ) - ((m' * 2 ^ (e' - f).toNat : ℕ) : ℤ)| := Int.one_le_abs hz
    have h1' : (1 : ℚ) ≤ |((((m * 2 ^ (e - f).toNat : ℕ) : ℤ) - ((m' * 2 ^ (e' - f).toNat : ℕ) : ℤ) : ℤ) : ℚ)| := by
      exact_mod_cast h1
    nlinarith
  have hle : (if m ≤ 2 ^ 52 then (2 : ℚ) ^ (e - 1) else 2 ^ e) ≤ 2 ^ e := by
    split
    · exact two_zpow_le (by omega)
    · exact le_refl _
  by_cases hc : e ≤ e'
  · exact hle.trans (hfine e (le_refl _) hc)
  · rw [not_le] at hc
    have h52 : 2 ^ 52 ≤ m := by
      rcases he with h | h
      · omega
      · exact h
    have hx : (2 : ℚ) ^ (52 + e) ≤ m * 2 ^ e := by
      rw [two_zpow_add]
      apply mul_le_mul_of_nonneg_right _ (two_zpow_pos _).le
      exact zpow_le_cast h52
    have hy : (m' : ℚ) * 2 ^ e' ≤ 2 ^ (53 + e') := by
      rw [two_zpow_add]
      apply mul_le_mul_of_nonneg_right _ (two_zpow_pos _).le
      exact cast_le_zpow hm'
    by_cases h2 : e' = e - 1
    · split
      · exact hfine (e - 1) (by omega) (by omega)
      · rename_i hgt
        have hx' : (2 : ℚ) ^ (52 + e) + 2 ^ e ≤ m * 2 ^ e := by
          have : ((2 ^ 52 + 1 : ℕ) : ℚ) ≤ m := by exact_mod_cast (by omega : 2 ^ 52 + 1 ≤ m)
          rw [two_zpow_add]
          have hp := two_zpow_pos e
          have : ((2 ^ 52 + 1 : ℕ) : ℚ) * 2 ^ e ≤ m * 2 ^ e := mul_le_mul_of_nonneg_right this hp.le
          calc (2 : ℚ) ^ (52 : ℤ) * 2 ^ e + 2 ^ e = ((2 ^ 52 + 1 : ℕ) : ℚ) * 2 ^ e := by push_cast; ring
            _ ≤ _ := this
        have hy' : (2 : ℚ) ^ (53 + e') = 2 ^ (52 + e) := by congr 1; omega
        rw [hy'] at hy
        have := le_abs_self ((m : ℚ) * 2 ^ e - m' * 2 ^ e')
        linarith
    · have hy' : (2 : ℚ) ^ (53 + e') ≤ 2 ^ (51 + e) := two_zpow_le (by omega)
      have hd : (2 : ℚ) ^ (52 + e) = 2 ^ (51 + e) + 2 ^ (51 + e) := by
        rw [show (52 + e) = 1 + (51 + e) by omega, two_zpow_add]; norm_num; ring
      have hd' : (2 : ℚ) ^ e ≤ 2 ^ (51 + e) := two_zpow_le (by omega)
      have := le_abs_self ((m : ℚ) * 2 ^ e - m' * 2 ^ e')
      linarith

/-! ### `ofFrac` -/

/-- The rounded mantissa and exponent depend on the quotient only. -/
theorem ulpExp_unique (q : ℚ) (e e' : ℤ) (h1 : -1074 ≤ e) (h2 : q < 2 ^ (53 + e))
    (h3 : e = -1074 ∨ (2 : ℚ) ^ (52 + e) ≤ q) (h1' : -1074 ≤ e') (h2' : q < 2 ^ (53 + e'))
    (h3' : e' = -1074 ∨ (2 : ℚ) ^ (52 + e') ≤ q) : e = e' := by
  rcases lt_trichotomy e e' with h | h | h
  · rcases h3' with h3' | h3'
    · omega
    · have : (2 : ℚ) ^ (53 + e) ≤ 2 ^ (52 + e') := two_zpow_le (by omega)
      linarith
  · exact h
  · rcases h3 with h3 | h3
    · omega
    · have : (2 : ℚ) ^ (53 + e') ≤ 2 ^ (52 + e) := two_zpow_le (by omega)
      linarith

theorem rneDiv_mul (n d a : Nat) (ha : 0 < a) : rneDiv (n * a) (d * a) = rneDiv n d := by
  unfold rneDiv
  simp only
  rw [Nat.mul_div_mul_right _ _ ha, Nat.mul_mod_mul_right]
  have e1 : (2 * (n % d * a) < d * a) ↔ (2 * (n % d) < d) := by
    rw [← Nat.mul_assoc]; exact Nat.mul_lt_mul_right ha
  have e2 : (d * a < 2 * (n % d * a)) ↔ (d < 2 * (n % d)) := by
    rw [← Nat.mul_assoc]; exact Nat.mul_lt_mul_right ha
  simp only [e1, e2]

theorem rneDiv_congr (n d n' d' : Nat) (hd : 0 < d) (hd' : 0 < d') (h : n * d' = n' * d) :
    rneDiv n d = rneDiv n' d' := by
  rw [← rneDiv_mul n d d' hd', h, Nat.mul_comm d d', rneDiv_mul n' d' d hd]

theorem div_eq_div_nat (n d n' d' : Nat) (hd : 0 < d) (hd' : 0 < d') (h : n * d' = n' * d) :
    (n : ℚ) / d = (n' : ℚ) / d' := by
  rw [div_eq_div_iff (by exact_mod_cast hd.ne') (by exact_mod_cast hd'.ne')]
  exact_mod_cast h

theorem ulpExp_congr (n d n' d' : Nat) (hn : 0 < n) (hd : 0 < d) (hn' : 0 < n') (hd' : 0 < d')
    (h : n * d' = n' * d) : ulpExp n d = ulpExp n' d' := by
  obtain ⟨a1, a2, a3⟩ := ulpExp_spec n d hn hd
  obtain ⟨b1, b2, b3⟩ := ulpExp_spec n' d' hn' hd'
  rw [← div_eq_div_nat n d n' d' hd hd' h] at b2 b3
  exact ulpExp_unique _ _ _ a1 a2 a3 b1 b2 b3

theorem rmant_congr (n d n' d' : Nat) (hn : 0 < n) (hd : 0 < d) (hn' : 0 < n') (hd' : 0 < d')
    (h : n * d' = n' * d) : rmant n d = rmant n' d' := by
  have he := ulpExp_congr n d n' d' hn hd hn' hd' h
  unfold rmant
  rw [he]
  apply rneDiv_congr _ _ _ _ (Nat.mul_pos hd (pow2pos_pos _)) (Nat.mul_pos hd' (pow2pos_pos _))
  calc n * pow2neg (ulpExp n' d') * (d' * pow2pos (ulpExp n' d'))
      = (n * d') * (pow2neg (ulpExp n' d') * pow2pos (ulpExp n' d')) := by ring
    _ = (n' * d) * (pow2neg (ulpExp n' d') * pow2pos (ulpExp n' d')) := by rw [h]
    _ = _ := by ring

theorem ofFrac_pos (neg : Bool) (n d : Nat) (hn : 0 < n) :
    F64.ofFrac neg n d = if 2 ^ 1024 * pow2neg (ulpExp n d) ≤ rmant n d * pow2pos (ulpExp n d) then .inf neg
      else .fin neg (rmant n d) (ulpExp n d) := by
  unfold F64.ofFrac
  rw [if_neg (by omega : ¬ n = 0)]
  rfl

theorem ofFrac_congr (neg : Bool) (n d n' d' : Nat) (hd : 0 < d) (hd' : 0 < d') (h : n * d' = n' * d) :
    F64.ofFrac neg n d = F64.ofFrac neg n' d' := by
  by_cases hn : n = 0
  · have hn' : n' = 0 := by
      rw [hn, Nat.zero_mul] at h
      rcases Nat.mul_eq_zero.1 h.symm with h | h
      · exact h
      · omega
    unfold F64.ofFrac
    rw [if_pos hn, if_pos hn']
  · have hn' : n' ≠ 0 := by
      rintro rfl
      rw [Nat.zero_mul] at h
      rcases Nat.mul_eq_zero.1 h with h | h
      · exact hn h
      · omega
    rw [ofFrac_pos neg n d (Nat.pos_of_ne_zero hn), ofFrac_pos neg n' d' (Nat.pos_of_ne_zero hn'),
      rmant_congr n d n' d' (Nat.pos_of_ne_zero hn) hd (Nat.pos_of_ne_zero hn') hd' h,
      ulpExp_congr n d n' d' (Nat.pos_of_ne_zero hn) hd (Nat.pos_of_ne_zero hn') hd' h]

/-- A finite float in the form produced by rounding. -/
def FinWF (m : Nat) (e : ℤ) : Prop :=
  m ≤ 2 ^ 53 ∧ -1074 ≤ e ∧ (e = -1074 ∨ 2 ^ 52 ≤ m ∨ m = 0) ∧ (m : ℚ) * 2 ^ e < 2 ^ (1024 : ℤ)

theorem overflow_iff (m : Nat) (e : ℤ) :
    2 ^ 1024 * pow2neg e ≤ m * pow2pos e ↔ (2 : ℚ) ^ (1024 : ℤ) ≤ m * 2 ^ e := by
  have h2 : (0 : ℚ) < pow2neg e := by exact_mod_cast pow2neg_pos _
  rw [← pow2_cast e, mul_div_assoc', le_div_iff₀ h2]
  rw [show (2 : ℚ) ^ (1024 : ℤ) = ((2 ^ 1024 : ℕ) : ℚ) from two_zpow_natCast 1024]
  exact_mod_cast Iff.rfl

/-- A float produced by rounding is well formed. -/
theorem ofFrac_wf (neg neg' : Bool) (n d m : Nat) (e : ℤ) (hd : 0 < d)
    (h : F64.ofFrac neg n d = .fin neg' m e) : neg' = neg ∧ FinWF m e := by
  by_cases hn : n = 0
  · rw [hn] at h
    simp only [F64.ofFrac, if_true] at h
    cases h
    refine ⟨rfl, by norm_num, by norm_num, .inr (.inr rfl), ?_⟩
    simp
  · have hn' := Nat.pos_of_ne_zero hn
    rw [ofFrac_pos neg n d hn'] at h
    split at h
    · cases h
    · rename_i hov
      cases h
      rw [overflow_iff, not_le] at hov
      refine ⟨rfl, rmant_le n d hn' hd, (ulpExp_spec n d hn' hd).1, ?_, hov⟩
      rcases rmant_ge n d hn' hd with h | h
      · exact .inl h
      · exact .inr (.inl h)

/-- A quotient close enough to a finite double is rounded to it. -/
theorem ofFrac_close (neg : Bool) (n d m : Nat) (e : ℤ) (hn : 0 < n) (hd : 0 < d) (hw : FinWF m e) (h0 : m ≠ 0)
    (hc : 2 * |(m : ℚ) * 2 ^ e - (n : ℚ) / d| < if m ≤ 2 ^ 52 then (2 : ℚ) ^ (e - 1) else 2 ^ e) :
    ∃ m' e', F64.ofFrac neg n d = .fin neg m' e' ∧ (m' : ℚ) * 2 ^ e' = m * 2 ^ e := by
  obtain ⟨w1, w2, w3, w4⟩ := hw
  have w3' : e = -1074 ∨ 2 ^ 52 ≤ m := by
    rcases w3 with h | h | h
    · exact .inl h
    · exact .inr h
    · exact absurd h h0
  have hR : IsDouble ((rmant n d : ℚ) * 2 ^ ulpExp n d) :=
    ⟨_, _, rmant_le n d hn hd, (ulpExp_spec n d hn hd).1, rfl⟩
  have heq : (rmant n d : ℚ) * 2 ^ ulpExp n d = m * 2 ^ e := by
    by_contra hne
    have h1 := double_gap m e w1 w3' _ hR hne
    have h2 := rmant_nearest n d hn hd _ ⟨m, e, w1, w2, rfl⟩
    have h3 := abs_sub_le ((m : ℚ) * 2 ^ e) ((n : ℚ) / d) ((rmant n d : ℚ) * 2 ^ ulpExp n d)
    rw [abs_sub_comm ((n : ℚ) / d)] at h3
    have h4 := lt_of_lt_of_le hc h1
    linarith
  refine ⟨rmant n d, ulpExp n d, ?_, heq⟩
  rw [ofFrac_pos neg n d hn, if_neg]
  rw [overflow_iff, heq]
  exact not_le.2 w4

/-- Doubles are rounded to themselves. -/
theorem ofFrac_double (neg : Bool) (n d m : Nat) (e : ℤ) (hn : 0 < n) (hd : 0 < d) (hm : m ≤ 2 ^ 53)
    (he : -1074 ≤ e) (hv : (m : ℚ) * 2 ^ e = (n : ℚ) / d) (hov : (m : ℚ) * 2 ^ e < 2 ^ (1024 : ℤ)) :
    ∃ m' e', F64.ofFrac neg n d = .fin neg m' e' ∧ (m' : ℚ) * 2 ^ e' = (n : ℚ) / d := by
  have h2 := rmant_nearest n d hn hd _ ⟨m, e, hm, he, rfl⟩
  rw [hv, sub_self, abs_zero] at h2
  have heq : (rmant n d : ℚ) * 2 ^ ulpExp n d = (n : ℚ) / d := by
    have := abs_nonpos_iff.1 h2
    linarith
  refine ⟨rmant n d, ulpExp n d, ?_, heq⟩
  rw [ofFrac_pos neg n d hn, if_neg]
  rw [overflow_iff, heq, ← hv]
  exact not_le.2 hov

/-- The relative error of rounding a number in the normal range. -/
theorem rmant_rel (n d : Nat) (hn : 0 < n) (hd : 0 < d) (hbig : (2 : ℚ) ^ (-1022 : ℤ) ≤ (n : ℚ) / d) :
    |(rmant n d : ℚ) * 2 ^ ulpExp n d - (n : ℚ) / d| ≤ (n : ℚ) / d / 2 ^ (53 : ℤ) := by
  obtain ⟨h1, h2, h3⟩ := ulpExp_spec n d hn hd
  have h3' : (2 : ℚ) ^ (52 + ulpExp n d) ≤ (n : ℚ) / d := by
    rcases h3 with h | h
    · rw [h]; exact hbig
    · exact h
  have hp := two_zpow_pos (ulpExp n d)
  have := rmant_near n d hd
  have e1 : |(rmant n d : ℚ) * 2 ^ ulpExp n d - (n : ℚ) / d| =
      |(rmant n d : ℚ) - (n : ℚ) / d / 2 ^ ulpExp n d| * 2 ^ ulpExp n d := by
    rw [← abs_of_pos hp, ← abs_mul, abs_of_pos hp]
    congr 1
    field_simp
  rw [e1]
  calc |(rmant n d : ℚ) - (n : ℚ) / d / 2 ^ ulpExp n d| * 2 ^ ulpExp n d ≤ 1 / 2 * 2 ^ ulpExp n d :=
        mul_le_mul_of_nonneg_right this hp.le
    _ = 2 ^ (52 + ulpExp n d) / 2 ^ (53 : ℤ) := by
        rw [two_zpow_add]
        norm_num
        ring
    _ ≤ (n : ℚ) / d / 2 ^ (53 : ℤ) := by
        apply div_le_div_of_nonneg_right h3' (by positivity)

/-! ### Significant digits -/

theorem ten_zpow_pos (k : ℤ) : (0 : ℚ) < 10 ^ k := by positivity
theorem ten_zpow_le {a b : ℤ} (h : a ≤ b) : (10 : ℚ) ^ a ≤ 10 ^ b := zpow_le_zpow_right₀ (by norm_num) h
theorem ten_zpow_add (a b : ℤ) : (10 : ℚ) ^ (a + b) = 10 ^ a * 10 ^ b := zpow_add₀ (by norm_num) a b

theorem ten_cast (k : ℤ) : ((10 ^ k.toNat : ℕ) : ℚ) / ((10 ^ (-k).toNat : ℕ) : ℚ) = (10 : ℚ) ^ k := by
  rcases le_total 0 k with h | h
  · obtain ⟨j, rfl⟩ := Int.eq_ofNat_of_zero_le h
    simp
  · obtain ⟨j, hj⟩ := Int.eq_ofNat_of_zero_le (Int.neg_nonneg_of_nonpos h)
    have : k = -(j : ℤ) := by omega
    subst this
    simp

theorem negExp10_spec (n d f j : Nat) (h : d ≤ n * 10 ^ (j + f)) (hj : ∀ i < j, n * 10 ^ i < d) :
    d ≤ n * 10 ^ negExp10 n d f j ∧ ∀ i < negExp10 n d f j, n * 10 ^ i < d := by
  induction f generalizing j with
  | zero => exact ⟨h, hj⟩
  | succ f ih =>
    simp only [negExp10]
    split
    · rename_i hd; exact ⟨hd, hj⟩
    · rename_i hd
      apply ih (j + 1)
      · rwa [show j + 1 + f = j + (f + 1) by omega]
      · intro i hi
        by_cases h : i = j
        · subst h; omega
        · exact hj i (by omega)

/-- The decimal exponent of a quotient that is not too small. -/
theorem decExp_spec (n d : Nat) (hd : 0 < d) (hs : d ≤ n * 10 ^ 1200) :
    (10 : ℚ) ^ decExp n d ≤ (n : ℚ) / d ∧ (n : ℚ) / d < 10 ^ (decExp n d + 1) := by
  have hdq : (0 : ℚ) < d := by exact_mod_cast hd
  unfold decExp
  split
  · rename_i h
    have hpos : 1 ≤ n / d := Nat.div_pos h hd
    have h1 := pow_le_of_natStr_length (n / d) hpos
    have h2 := lt_pow_natStr_length (n / d)
    have hl : 1 ≤ (natStr (n / d)).length := List.length_pos_iff.2 (natStr_ne_nil _)
    obtain ⟨l, hl'⟩ : ∃ l, (natStr (n / d)).length = l + 1 := ⟨_, (Nat.sub_add_cancel hl).symm⟩
    rw [hl'] at h1 h2 ⊢
    simp only [Nat.add_sub_cancel] at h1
    constructor
    · rw [show (((l + 1 : ℕ) : ℤ) - 1) = (l : ℤ) by push_cast; ring, le_div_iff₀ hdq, zpow_natCast]
      have : 10 ^ l * d ≤ n := (Nat.mul_le_mul_right d h1).trans (Nat.div_mul_le_self n d)
      exact_mod_cast this
    · rw [show (((l + 1 : ℕ) : ℤ) - 1 + 1) = ((l + 1 : ℕ) : ℤ) by push_cast; ring, div_lt_iff₀ hdq, zpow_natCast]
      have : n < 10 ^ (l + 1) * d := (Nat.div_lt_iff_lt_mul hd).1 h2
      exact_mod_cast this
  · rename_i h
    obtain ⟨h1, h2⟩ := negExp10_spec n d 1200 0 (by rw [Nat.zero_add]; exact hs) (by simp)
    generalize negExp10 n d 1200 0 = r at h1 h2 ⊢
    have hr : r ≠ 0 := by
      rintro rfl
      simp at h1; omega
    obtain ⟨l, rfl⟩ := Nat.exists_eq_succ_of_ne_zero hr
    constructor
    · rw [zpow_neg, zpow_natCast, inv_eq_one_div, div_le_div_iff₀ (by positivity) hdq, one_mul]
      exact_mod_cast h1
    · rw [show (-((l.succ : ℕ) : ℤ) + 1) = -(l : ℤ) by push_cast; ring, zpow_neg, zpow_natCast, inv_eq_one_div,
        div_lt_div_iff₀ hdq (by positivity), one_mul]
      exact_mod_cast h2 l (Nat.lt_succ_self l)

theorem scaled_near (n d : Nat) (hd : 0 < d) (k : ℤ) : |(scaled n d k : ℚ) - (n : ℚ) / d * 10 ^ k| ≤ 1 / 2 := by
  have h := rneDiv_near (n * 10 ^ k.toNat) (d * 10 ^ (-k).toNat) (Nat.mul_pos hd (by positivity))
  have h3 : (d : ℚ) ≠ 0 := by exact_mod_cast hd.ne'
  have e : ((n * 10 ^ k.toNat : ℕ) : ℚ) / ((d * 10 ^ (-k).toNat : ℕ) : ℚ) = (n : ℚ) / d * 10 ^ k := by
    rw [← ten_cast k]
    push_cast
    field_simp
  rw [e] at h
  exact h

/-- Correctly rounded decimal digits. -/
theorem sigDigits_spec (n d p : Nat) (hd : 0 < d) (hs : d ≤ n * 10 ^ 1200) (hp : 1 ≤ p) :
    10 ^ (p - 1) ≤ (sigDigits n d p).1 ∧ (sigDigits n d p).1 < 10 ^ p ∧
    |((sigDigits n d p).1 : ℚ) * 10 ^ ((sigDigits n d p).2 - p + 1) - (n : ℚ) / d| ≤
      (n : ℚ) / d * 10 ^ (1 - (p : ℤ)) / 2 := by
  obtain ⟨k1, k2⟩ := decExp_spec n d hd hs
  unfold sigDigits
  simp only
  generalize decExp n d = k at k1 k2 ⊢
  have hc := scaled_near n d hd ((p : ℤ) - 1 - k)
  generalize scaled n d ((p : ℤ) - 1 - k) = c at hc ⊢
  obtain ⟨c1, c2⟩ := abs_le.1 hc
  generalize hq : (n : ℚ) / d = q at k1 k2 hc c1 c2 ⊢
  obtain ⟨r, rfl⟩ : ∃ r, p = r + 1 := ⟨p - 1, by omega⟩
  have hP := ten_zpow_pos ((((r + 1 : ℕ) : ℤ)) - 1 - k)
  have lo : (10 : ℚ) ^ r ≤ q * 10 ^ ((((r + 1 : ℕ) : ℤ)) - 1 - k) := by
    calc (10 : ℚ) ^ r = 10 ^ k * 10 ^ ((((r + 1 : ℕ) : ℤ)) - 1 - k) := by
          rw [← ten_zpow_add, ← zpow_natCast]; congr 1; push_cast; ring
      _ ≤ _ := mul_le_mul_of_nonneg_right k1 hP.le
  have hi : q * 10 ^ ((((r + 1 : ℕ) : ℤ)) - 1 - k) < (10 : ℚ) ^ (r + 1) := by
    calc q * 10 ^ ((((r + 1 : ℕ) : ℤ)) - 1 - k) < 10 ^ (k + 1) * 10 ^ ((((r + 1 : ℕ) : ℤ)) - 1 - k) :=
          mul_lt_mul_of_pos_right k2 hP
      _ = (10 : ℚ) ^ (r + 1) := by
          rw [← ten_zpow_add, ← zpow_natCast]; congr 1; push_cast; ring
  have clo : 10 ^ r ≤ c := by
    by_contra hlt
    have : c + 1 ≤ 10 ^ r := by omega
    have : (c : ℚ) + 1 ≤ 10 ^ r := by exact_mod_cast this
    linarith
  have chi : c ≤ 10 ^ (r + 1) := by
    by_contra hgt
    have : 10 ^ (r + 1) + 1 ≤ c := by omega
    have : (10 : ℚ) ^ (r + 1) + 1 ≤ c := by exact_mod_cast this
    linarith
  have err : |(c : ℚ) * 10 ^ (k - ((r + 1 : ℕ) : ℤ) + 1) - q| ≤ q * 10 ^ (1 - ((r + 1 : ℕ) : ℤ)) / 2 := by
    have hQ := ten_zpow_pos (k - ((r + 1 : ℕ) : ℤ) + 1)
    have e1 : (c : ℚ) * 10 ^ (k - ((r + 1 : ℕ) : ℤ) + 1) - q =
        ((c : ℚ) - q * 10 ^ ((((r + 1 : ℕ) : ℤ)) - 1 - k)) * 10 ^ (k - ((r + 1 : ℕ) : ℤ) + 1) := by
      rw [sub_mul, mul_assoc, ← ten_zpow_add,
        show ((((r + 1 : ℕ) : ℤ)) - 1 - k) + (k - ((r + 1 : ℕ) : ℤ) + 1) = 0 by ring]
      simp
    rw [e1, abs_mul, abs_of_pos hQ]
    calc |(c : ℚ) - q * 10 ^ ((((r + 1 : ℕ) : ℤ)) - 1 - k)| * 10 ^ (k - ((r + 1 : ℕ) : ℤ) + 1)
        ≤ 1 / 2 * 10 ^ (k - ((r + 1 : ℕ) : ℤ) + 1) := mul_le_mul_of_nonneg_right hc hQ.le
      _ = 10 ^ k * 10 ^ (1 - ((r + 1 : ℕ) : ℤ)) / 2 := by
          rw [← ten_zpow_add, show k + (1 - ((r + 1 : ℕ) : ℤ)) = k - ((r + 1 : ℕ) : ℤ) + 1 by ring]; ring
      _ ≤ q * 10 ^ (1 - ((r + 1 : ℕ) : ℤ)) / 2 := by
          apply div_le_div_of_nonneg_right _ (by norm_num)
          exact mul_le_mul_of_nonneg_right k1 (ten_zpow_pos _).le
  split
  · rename_i h
    refine ⟨by simp, by simp; exact Nat.pow_lt_pow_right (by norm_num) (by omega), ?_⟩
    have : ((10 ^ (r + 1 - 1) : ℕ) : ℚ) * 10 ^ (k + 1 - ((r + 1 : ℕ) : ℤ) + 1) =
        (c : ℚ) * 10 ^ (k - ((r + 1 : ℕ) : ℤ) + 1) := by
      rw [h]
      rw [show k + 1 - ((r + 1 : ℕ) : ℤ) + 1 = 1 + (k - ((r + 1 : ℕ) : ℤ) + 1) by ring, ten_zpow_add]
      simp only [Nat.add_sub_cancel]
      push_cast
      rw [pow_succ]
      ring
    rw [this]
    exact err
  · rename_i h
    exact ⟨by simpa using clo, lt_of_le_of_ne chi h, err⟩

end Verif
