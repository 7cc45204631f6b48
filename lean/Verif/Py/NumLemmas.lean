import Verif.Py.Str
/-
Decimal numerals: lemmas about `natStr`, `intStr`, `natOfDigits`.
-/

namespace Verif

theorem toNat_digitChar {d : Nat} (h : d < 10) : (digitChar d).toNat = 48 + d := by
  match d, h with
  | 0, _ => rfl | 1, _ => rfl | 2, _ => rfl | 3, _ => rfl | 4, _ => rfl
  | 5, _ => rfl | 6, _ => rfl | 7, _ => rfl | 8, _ => rfl | 9, _ => rfl

theorem asciiDigit_digitChar {d : Nat} (h : d < 10) : asciiDigit (digitChar d) = true := by
  simp only [asciiDigit, toNat_digitChar h, decide_eq_true_eq]; omega

theorem isDigit_of_ascii (U : Uni) {c : Char} (h : asciiDigit c = true) : isDigit U c = true := by
  have h' := h
  simp only [asciiDigit, decide_eq_true_eq] at h'
  unfold isDigit
  rw [if_pos (by omega)]; exact h

theorem digitVal_digitChar (U : Uni) {d : Nat} (h : d < 10) : digitVal U (digitChar d) = d := by
  unfold digitVal
  rw [toNat_digitChar h, if_pos (by omega)]; omega

/-- Digits of a number, most significant first. -/
def digitsOf : Nat → Nat → Str
  | 0, _ => []
  | f + 1, n => if n < 10 then [digitChar n] else digitsOf f (n / 10) ++ [digitChar (n % 10)]

theorem natStrGo_eq (f n : Nat) (acc : Str) : natStrGo f n acc = digitsOf f n ++ acc := by
  induction f generalizing n acc with
  | zero => rfl
  | succ f ih =>
    simp only [natStrGo, digitsOf]
    split
    · rfl
    · rw [ih]; simp

theorem natStr_eq (n : Nat) : natStr n = digitsOf (n + 1) n := by
  unfold natStr; rw [natStrGo_eq]; simp

theorem digitsOf_fuel (f g n : Nat) (hf : n < f) (hg : n < g) : digitsOf f n = digitsOf g n := by
  induction f generalizing g n with
  | zero => omega
  | succ f ih =>
    cases g with
    | zero => omega
    | succ g =>
      simp only [digitsOf]
      split
      · rfl
      · rw [ih g (n / 10) (by omega) (by omega)]

/-- Recursion of decimal printing. -/
theorem natStr_of_lt {n : Nat} (h : n < 10) : natStr n = [digitChar n] := by
  rw [natStr_eq, digitsOf, if_pos h]

theorem natStr_of_ge {n : Nat} (h : 10 ≤ n) :
    natStr n = natStr (n / 10) ++ [digitChar (n % 10)] := by
  rw [natStr_eq, digitsOf, if_neg (by omega), natStr_eq,
    digitsOf_fuel n (n / 10 + 1) (n / 10) (by omega) (by omega)]

/-- Induction along the decimal digits. -/
theorem natStr_induction {P : Nat → Str → Prop} (h0 : ∀ d, d < 10 → P d [digitChar d])
    (h1 : ∀ n s d, d < 10 → 1 ≤ n → s = natStr n → P n s → P (10 * n + d) (s ++ [digitChar d])) (n : Nat) :
    P n (natStr n) := by
  induction n using Nat.strongRecOn with
  | _ n ih =>
    by_cases h : n < 10
    · rw [natStr_of_lt h]; exact h0 n h
    · rw [natStr_of_ge (by omega)]
      have := h1 (n / 10) _ (n % 10) (by omega) (by omega) rfl (ih (n / 10) (by omega))
      have e : 10 * (n / 10) + n % 10 = n := by omega
      rwa [e] at this

theorem natStr_digits (n : Nat) : ∀ c ∈ natStr n, asciiDigit c = true := by
  refine natStr_induction (P := fun _ s => ∀ c ∈ s, asciiDigit c = true) ?_ ?_ n
  · intro d hd c hc; simp at hc; subst hc; exact asciiDigit_digitChar hd
  · intro n s d hd _ _ ih c hc
    simp only [List.mem_append, List.mem_singleton] at hc
    rcases hc with hc | hc
    · exact ih c hc
    · subst hc; exact asciiDigit_digitChar hd

theorem natStr_ne_nil (n : Nat) : natStr n ≠ [] := by
  refine natStr_induction (P := fun _ s => s ≠ []) ?_ ?_ n <;> simp

theorem natOfDigits_snoc (U : Uni) (s : Str) (c : Char) :
    natOfDigits U (s ++ [c]) = natOfDigits U s * 10 + digitVal U c := by
  simp [natOfDigits]

theorem natOfDigits_natStr (U : Uni) (n : Nat) : natOfDigits U (natStr n) = n := by
  refine natStr_induction (P := fun n s => natOfDigits U s = n) ?_ ?_ n
  · intro d hd; simp [natOfDigits, digitVal_digitChar U hd]
  · intro n s d hd _ _ ih
    rw [natOfDigits_snoc, ih, digitVal_digitChar U hd]; omega

theorem natStr_injective {m n : Nat} (h : natStr m = natStr n) : m = n := by
  have U : Uni := ⟨fun _ => false, fun _ => 0, fun _ => false, fun _ _ _ => []⟩
  rw [← natOfDigits_natStr U m, h, natOfDigits_natStr]

/-- No leading zero, except for zero itself. -/
theorem natStr_head (n : Nat) (h : 1 ≤ n) : ∃ d s, natStr n = digitChar d :: s ∧ 1 ≤ d ∧ d < 10 := by
  refine natStr_induction (P := fun n s => 1 ≤ n → ∃ d t, s = digitChar d :: t ∧ 1 ≤ d ∧ d < 10)
    ?_ ?_ n h
  · intro d hd h; exact ⟨d, [], rfl, h, hd⟩
  · intro n s d hd hn _ ih _
    obtain ⟨e, t, rfl, h1, h2⟩ := ih hn
    exact ⟨e, t ++ [digitChar d], by simp, h1, h2⟩

theorem natStr_length_lt (n k : Nat) (h : n < 10 ^ k) (hk : 1 ≤ k) : (natStr n).length ≤ k := by
  induction k generalizing n with
  | zero => omega
  | succ k ih =>
    by_cases h10 : n < 10
    · rw [natStr_of_lt h10]; simp
    · rw [natStr_of_ge (by omega)]
      rw [Nat.pow_succ] at h
      cases k with
      | zero => omega
      | succ k =>
        have := ih (n / 10) (by omega) (by omega)
        simp; omega

theorem pow_le_of_natStr_length (n : Nat) (h : 1 ≤ n) : 10 ^ ((natStr n).length - 1) ≤ n := by
  refine natStr_induction (P := fun n s => 1 ≤ n → 10 ^ (s.length - 1) ≤ n) ?_ ?_ n h
  · intro d _ h; simpa using h
  · intro n s d hd hn hs ih _
    have h1 := ih hn
    have hne : s.length ≠ 0 := by rw [hs]; simpa using natStr_ne_nil n
    have : (s ++ [digitChar d]).length - 1 = s.length - 1 + 1 := by simp; omega
    rw [this, Nat.pow_succ]; omega

theorem lt_pow_natStr_length (n : Nat) : n < 10 ^ (natStr n).length := by
  refine natStr_induction (P := fun n s => n < 10 ^ s.length) ?_ ?_ n
  · intro d hd; simpa using hd
  · intro n s d hd _ _ ih
    rw [List.length_append, List.length_singleton, Nat.pow_succ]; omega

theorem intStr_ofNat (n : Nat) : intStr (n : Int) = natStr n := rfl
theorem intStr_neg (n : Nat) : intStr (-((n : Int) + 1)) = '-' :: natStr (n + 1) := by
  have : (-((n : Int) + 1)) = Int.negSucc n := by omega
  rw [this]; rfl

theorem intStr_chars (z : Int) : ∀ c ∈ intStr z, asciiDigit c = true ∨ c = '-' := by
  intro c hc
  cases z with
  | ofNat n => exact Or.inl (natStr_digits n c hc)
  | negSucc n =>
    simp only [intStr, List.mem_cons] at hc
    rcases hc with hc | hc
    · exact Or.inr hc
    · exact Or.inl (natStr_digits _ c hc)

theorem intStr_ne_nil (z : Int) : intStr z ≠ [] := by
  cases z with
  | ofNat n => exact natStr_ne_nil n
  | negSucc n => simp [intStr]

theorem asciiDigit_ne {c : Char} (h : asciiDigit c = true) (d : Char) (hd : asciiDigit d = false) :
    c ≠ d := by
  intro e; subst e; rw [h] at hd; cases hd

theorem intStr_injective {a b : Int} (h : intStr a = intStr b) : a = b := by
  have aux : ∀ n k, natStr n ≠ '-' :: natStr k := by
    intro n k h
    have := natStr_digits n '-' (by rw [h]; simp)
    simp [asciiDigit] at this
  cases a with
  | ofNat m =>
    cases b with
    | ofNat n => rw [natStr_injective h]
    | negSucc n => exact absurd h (aux _ _)
  | negSucc m =>
    cases b with
    | ofNat n => exact absurd h.symm (aux _ _)
    | negSucc n =>
      simp only [intStr, List.cons.injEq, true_and] at h
      have := natStr_injective h
      have : m = n := by omega
      rw [this]

end Verif
