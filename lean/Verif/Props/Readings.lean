import Verif.Props.Stages
import Verif.Props.Numeric
import Verif.Props.Tuple
import Verif.Py.FloatChars
import Verif.Spec.Toy
import Mathlib.Data.Nat.Digits.Defs
/-
Properties C22 (positional base notation) and C23 (percentages).
-/

namespace Verif
open Re

variable {X V S : Type}

/-- The outcome is a set with exactly the readings of the list (in some order, without repetition). -/
def ReadingsAre (out : Norm) (rs : List Str) : Prop :=
  ∃ l, out = .set l ∧ l.Nodup ∧ ∀ t, t ∈ l ↔ t ∈ rs

theorem readingsAre_setOrder (E : Env X V S) (rs : List Str) : ReadingsAre (.set (E.setOrder rs)) rs :=
  ⟨_, rfl, setOrder_nodup E rs, setOrder_mem E rs⟩

/-- If the body returns, so does `string_normalize`. -/
theorem always_normalize (E : Env X V S) (n : Nat) (s : Str) (o : Norm)
    (h : Always (normBody E (stringNormalize E n) s) o) : Always (stringNormalize E (n + 1) s) o :=
  Always.tryExcept h _

/-! ### C22 -/

/-- Value of a string of digits in a given base: the sum of `d_i * base^i`, the last digit having `i = 0`. -/
def positional (U : Uni) (base : Nat) (ds : Str) : Nat := Nat.ofDigits base (ds.reverse.map (digitVal U))

theorem strToDecimalGo_eq (U : Uni) (b i tot : Nat) (l : Str) :
    strToDecimalGo U b i tot l = tot + b ^ i * Nat.ofDigits b (l.map (digitVal U)) := by
  induction l generalizing i tot with
  | nil => simp [strToDecimalGo]
  | cons x xs ih =>
    simp only [strToDecimalGo, List.map_cons, Nat.ofDigits_cons, ih]
    rw [pow_succ]
    ring

theorem strToDecimal_eq (U : Uni) (ds bs : Str) : strToDecimal U ds bs = positional U (natOfDigits U bs) ds := by
  simp [strToDecimal, positional, strToDecimalGo_eq]

theorem natOfDigits_eq (U : Uni) (bs : Str) : natOfDigits U bs = positional U 10 bs := by
  induction bs using List.reverseRecOn with
  | nil => rfl
  | append_singleton xs x ih =>
    rw [natOfDigits_snoc, ih]
    simp [positional, Nat.ofDigits_cons]
    ring

theorem isDigit_ne {U : Uni} {x y : Char} (h : isDigit U x = true) (hy : isDigit U y = false) : x ≠ y := by
  rintro rfl; rw [h] at hy; cases hy

theorem not_mem_digits {U : Uni} {s : Str} (h : ∀ x ∈ s, isDigit U x = true) {y : Char} (hy : isDigit U y = false) : y ∉ s :=
  fun hm => isDigit_ne (h y hm) hy rfl

theorem base_single {U : Uni} {ds : Str} {b : Char} (h0 : ds ≠ []) (hd : ∀ x ∈ ds, isDigit U x = true) (hb : isDigit U b = true) :
    baseReadings U (ds ++ '_' :: [b]) = some [ds, natStr (positional U (positional U 10 [b]) ds)] := by
  have h : (baseRe U).First ⟨[], ds ++ '_' :: [b], []⟩ ⟨b :: '_' :: ds.reverse, [], [(2, [b]), (1, ds)]⟩ := by
    refine First.cat_cons (First.bos _ _) ?_
    refine First.cat_cons (First.grp (First.plus ds _ _ _ h0 hd (by rintro x ⟨⟩; rfl))) ?_
    refine First.cat_cons (First.c '_' _ _ _) ?_
    refine First.cat_cons (First.alt_l (First.grp (u := [b]) (First.chr hb))) ?_
    exact First.cat_one (by simpa using First.eos _ _)
  unfold baseReadings
  rw [First.search h]
  simp only [RSt.group, RSt.groupD, List.lookup, strToDecimal_eq, natOfDigits_eq]
  simp

theorem base_braced {U : Uni} {ds bs : Str} (h0 : ds ≠ []) (hd : ∀ x ∈ ds, isDigit U x = true) (hb0 : bs ≠ [])
    (hb : ∀ x ∈ bs, isDigit U x = true) :
    baseReadings U (ds ++ '_' :: '{' :: (bs ++ ['}'])) = some [ds, natStr (positional U (positional U 10 bs) ds)] := by
  have h : (baseRe U).First ⟨[], ds ++ '_' :: '{' :: (bs ++ ['}']), []⟩
      ⟨'}' :: (bs.reverse ++ '{' :: '_' :: ds.reverse), [], [(3, bs), (1, ds)]⟩ := by
    refine First.cat_cons (First.bos _ _) ?_
    refine First.cat_cons (First.grp (First.plus ds _ _ _ h0 hd (by rintro x ⟨⟩; rfl))) ?_
    refine First.cat_cons (First.c '_' _ _ _) ?_
    refine First.cat_cons (First.alt_r ?_ ?_) (First.cat_one (First.eos _ _))
    · have hf : isDigit U '{' = false := rfl
      simp [d, hf]
    · refine First.cat_cons (First.c '{' _ _ _) ?_
      refine First.cat_cons (First.grp (First.plus bs _ _ _ hb0 hb (by rintro x ⟨⟩; rfl))) ?_
      exact First.cat_one (by simpa using First.c '}' _ _ _)
  unfold baseReadings
  rw [First.search h]
  simp only [RSt.group, RSt.groupD, List.lookup, strToDecimal_eq, natOfDigits_eq]
  simp

theorem base_normalize (E : Env X V S) (n : Nat) (t ds : Str) (v : Nat)
    (hb : baseReadings E.U t = some [ds, natStr v]) (hbl : ' ' ∉ t) (hs : '\\' ∉ t) (hc : 'c' ∉ t) (ha : 'a' ∉ t) (hk : ',' ∉ t) :
    ∃ o, Always (stringNormalize E (n + 1) t) o ∧ ReadingsAre o [ds, natStr v] := by
  refine ⟨_, always_normalize E n t (.set (E.setOrder [ds, natStr v])) ?_, readingsAre_setOrder E _⟩
  have hm : matrixNormalize (stripBlank t) = t := by
    rw [stripBlank_noblank hbl]
    exact matrixNormalize_id (not_infix_of_not_mem 'c' (by simp) hc) (not_infix_of_not_mem 'a' (by simp) ha)
      (not_infix_of_not_mem '\\' (by simp) hs)
  rw [normBody_unwrapped E _ hm (fun e => hs (List.mem_of_head? e))]
  unfold normTail
  simp only
  rw [removeSpacing_noslash hs (not_infix_of_not_mem ',' (by simp) hk), hb]
  exact Always.pure _

/-- C22: a string of digits with a base as a subscript of one digit, or of any number of digits in braces, has exactly the
two readings "digits" and the decimal spelling of `Σ dᵢ baseⁱ`.  The digits need not be below the base. -/
theorem C22_base_readings (E : Env X V S) (n : Nat) (t ds bs : Str) (h0 : ds ≠ []) (hd : ∀ x ∈ ds, isDigit E.U x = true)
    (hb : ∀ x ∈ bs, isDigit E.U x = true)
    (ht : (bs.length = 1 ∧ t = ds ++ s%"_" ++ bs) ∨ (bs ≠ [] ∧ t = ds ++ s%"_{" ++ bs ++ s%"}")) :
    ∃ o, Always (stringNormalize E (n + 1) t) o ∧
      ReadingsAre o [ds, natStr (positional E.U (positional E.U 10 bs) ds)] := by
  have hmem : ∀ y, isDigit E.U y = false → y ≠ '_' → y ≠ '{' → y ≠ '}' → y ∉ t := by
    intro y hy h1 h2 h3
    have hd' := not_mem_digits hd hy
    have hb' := not_mem_digits hb hy
    rcases ht with ⟨_, rfl⟩ | ⟨_, rfl⟩ <;> simp [hd', hb', h1, h2, h3]
  have hr : baseReadings E.U t = some [ds, natStr (positional E.U (positional E.U 10 bs) ds)] := by
    rcases ht with ⟨hl, rfl⟩ | ⟨hne, rfl⟩
    · obtain ⟨b, rfl⟩ := List.length_eq_one_iff.1 hl
      have := base_single h0 hd (hb b (by simp))
      simpa using this
    · have := base_braced h0 hd hne hb
      simpa using this
  exact base_normalize E n t ds _ hr (hmem ' ' rfl (by decide) (by decide) (by decide))
    (hmem '\\' rfl (by decide) (by decide) (by decide)) (hmem 'c' rfl (by decide) (by decide) (by decide))
    (hmem 'a' rfl (by decide) (by decide) (by decide)) (hmem ',' rfl (by decide) (by decide) (by decide))

/-- 1101 in base two is 13; 20 in base 16 is 32. -/
example : positional asciiUni (positional asciiUni 10 s%"2") s%"1101" = 13 := by decide +kernel
example : positional asciiUni (positional asciiUni 10 s%"16") s%"20" = 32 := by decide +kernel
example : (stringNormalize failEnv 1 s%"1101_2" ⟨(), []⟩).1 = .ok (.set [s%"1101", s%"13"]) := by decide +kernel
example : (stringNormalize failEnv 1 s%"20_{16}" ⟨(), []⟩).1 = .ok (.set [s%"20", s%"32"]) := by decide +kernel

/-! ### C23 -/

/-- `y` is the binary64 number nearest to a hundredth of `x` (infinities and NaN stay). -/
inductive IsHundredth : F64 → F64 → Prop
  | nan : IsHundredth .nan .nan
  | inf (s) : IsHundredth (.inf s) (.inf s)
  | fin (s : Bool) (m : ℕ) (e : ℤ) (m' : ℕ) (e' : ℤ) : IsDouble ((m' : ℚ) * 2 ^ e') →
      (∀ z, IsDouble z → |(m' : ℚ) * 2 ^ e' - (m : ℚ) * 2 ^ e / 100| ≤ |z - (m : ℚ) * 2 ^ e / 100|) →
      IsHundredth (.fin s m e) (.fin s m' e')

theorem isDouble_zero : IsDouble 0 := ⟨0, 0, by norm_num, by norm_num, by simp⟩

theorem div100_spec (x : F64) (hx : x.WF) : IsHundredth x x.div100 := by
  cases x with
  | nan => exact .nan
  | inf s => exact .inf s
  | fin s m e =>
    by_cases hm : m = 0
    · subst hm
      have : (F64.fin s 0 e).div100 = .fin s 0 0 := by
        show F64.ofFrac s (F64.num 0 e) (F64.den e * 100) = _
        have h0 : F64.num 0 e = 0 := by simp [F64.num]
        rw [h0]
        unfold F64.ofFrac
        rw [if_pos rfl]
      rw [this]
      refine .fin s 0 e 0 0 (by simpa using isDouble_zero) ?_
      intro z _
      simp
    · have hn : 0 < F64.num m e := num_pos hm
      have hd : 0 < F64.den e * 100 := Nat.mul_pos (den_pos e) (by norm_num)
      have hv : ((F64.num m e : ℕ) : ℚ) / ((F64.den e * 100 : ℕ) : ℚ) = (m : ℚ) * 2 ^ e / 100 := by
        rw [← num_den m e]; push_cast; rw [div_div]
      obtain ⟨_, _, _, hlt⟩ := hx
      have hpos : (0 : ℚ) < (m : ℚ) * 2 ^ e := by
        have : (0 : ℚ) < m := by exact_mod_cast Nat.pos_of_ne_zero hm
        have := two_zpow_pos e
        positivity
      have hnear := rmant_nearest _ _ hn hd
      rw [hv] at hnear
      have h0 := hnear 0 isDouble_zero
      have hfin : F64.ofFrac s (F64.num m e) (F64.den e * 100) =
          .fin s (rmant (F64.num m e) (F64.den e * 100)) (ulpExp (F64.num m e) (F64.den e * 100)) := by
        rw [ofFrac_pos _ _ _ hn, if_neg]
        rw [overflow_iff]
        intro hov
        have h1 : |(0 : ℚ) - (m : ℚ) * 2 ^ e / 100| = (m : ℚ) * 2 ^ e / 100 := by
          rw [zero_sub, abs_neg, abs_of_pos (by positivity)]
        rw [h1] at h0
        have h2 := (abs_le.1 h0).2
        generalize (2 : ℚ) ^ (1024 : ℤ) = P at hov hlt
        generalize (m : ℚ) * 2 ^ e = v at hpos hlt h2
        generalize (rmant (F64.num m e) (F64.den e * 100) : ℚ) * 2 ^ ulpExp (F64.num m e) (F64.den e * 100) = R at h2 hov
        linarith
      have hw := ofFrac_wf s s _ _ _ _ hd hfin
      show IsHundredth (.fin s m e) (F64.ofFrac s (F64.num m e) (F64.den e * 100))
      rw [hfin]
      refine .fin s m e _ _ ⟨_, _, hw.2.1, hw.2.2.1, rfl⟩ ?_
      intro z hz
      exact hnear z hz

/-- Characters in front of a percent sign that the earlier stages might notice. -/
theorem litChar_not {U : Uni} {s : Str} {x : F64} (h : pyFloat U s = some x) (y : Char) (hy : litChar U y = false) : y ∉ s :=
  fun hm => by rw [pyFloat_chars h y hm] at hy; cases hy

theorem replace_skip {x : Char} (p new a b : Str) (h : x ∉ a) : replace (x :: p) new (a ++ b) = a ++ replace (x :: p) new b := by
  induction a with
  | nil => rfl
  | cons y ys ih =>
    rw [List.cons_append, replace_cons, ih (fun h' => h (by simp [h'])), List.cons_append]
    rintro ⟨t, ht⟩
    simp at ht
    exact h (by simp [ht.1])

/-- The base notation ends with a digit or a brace. -/
theorem baseReadings_last {U : Uni} {s : Str} {y : Char} (hs : s.getLast? = some y) (h1 : isDigit U y = false) (h2 : y ≠ '}')
    (h3 : y ≠ '\n') : baseReadings U s = none := by
  unfold baseReadings
  cases hm : reSearch (baseRe U) s with
  | none => rfl
  | some t =>
    exfalso
    have hrun := List.mem_of_head? (reSearch_bos hm)
    obtain ⟨u, hu, hl⟩ := run_lang _ _ t hrun
    simp only at hu
    have hrest : t.rest = [] ∨ t.rest = ['\n'] :=
      eos_last [grp 1 (plus (d U)), c '_', alt (grp 2 (d U)) (cat [c '{', grp 3 (plus (d U)), c '}'])] _ t hrun
    rcases hrest with hr | hr
    · rw [hr, List.append_nil] at hu
      rw [hu] at hs
      obtain ⟨a, b, rfl, _, hb⟩ := hl
      obtain ⟨a', b', rfl, _, hb'⟩ := hb
      obtain ⟨w, z, rfl, hw, hz⟩ := hb'
      have hz' : z = [] := hz
      subst hz'
      rcases hw with ⟨x, rfl, hx⟩ | hw
      · simp at hs
        rw [hs, h1] at hx; cases hx
      · obtain ⟨_, r1, rfl, _, hr1⟩ := hw
        obtain ⟨_, r2, rfl, _, hr2⟩ := hr1
        rw [lang_c.1 hr2] at hs
        simp at hs
        exact h2 hs.symm
    · rw [hu, hr] at hs
      simp at hs
      exact h3 hs.symm

theorem percent_step {U : Uni} {s p : Str} {x : F64} (h : pyFloat U s = some x) (hp : p = s%"%" ∨ p = s%"\\%") :
    percentStep U (s ++ p) = .inl [x.div100.repr, x.repr] := by
  have hb : '\\' ∉ s := litChar_not h '\\' rfl
  have hq : '%' ∉ s := litChar_not h '%' rfl
  unfold percentStep
  have hc : contains s%"%" (s ++ p) = true := by
    rw [contains_iff]
    rcases hp with rfl | rfl
    · exact ⟨s, [], by simp⟩
    · exact ⟨s ++ ['\\'], [], by simp⟩
  rw [hc]
  simp only [if_true]
  have h1 : replace s%"\\%" s%"%" (s ++ p) = s ++ s%"%" := by
    rcases hp with rfl | rfl
    · exact replace_id _ _ _ (not_infix_of_not_mem '\\' (by simp) (by simp [hb]))
    · rw [replace_skip _ _ _ _ hb]
      rfl
  rw [h1, replace_one_nil]
  have h2 : (s ++ s%"%").filter (fun c => decide (c ≠ '%')) = s := by
    rw [List.filter_append]
    have : s.filter (fun c => decide (c ≠ '%')) = s := by
      rw [List.filter_eq_self]
      intro a ha
      simp only [decide_eq_true_eq]
      rintro rfl; exact hq ha
    rw [this]; simp
  rw [h2, h]

/-- C23: for every text accepted by `float`, the same text followed by `%` or `\%` has exactly two readings: one reads as
the same binary64 number, the other as the binary64 number nearest to its hundredth. -/
theorem C23_percent_readings (E : Env X V S) (n : Nat) (s p : Str) (x : F64) (h : pyFloat E.U s = some x)
    (hp : p = s%"%" ∨ p = s%"\\%") :
    ∃ o a b, Always (stringNormalize E (n + 1) (s ++ p)) o ∧ ReadingsAre o [a, b] ∧
      (∃ y z, pyFloat E.U a = some y ∧ IsHundredth x z ∧ F64.Same y z) ∧
      (∃ y, pyFloat E.U b = some y ∧ F64.Same y x) := by
  have hw := pyFloat_WF _ _ _ h
  have hd := div100_spec x hw
  have hdw : x.div100.WF := by
    cases x with
    | nan => trivial
    | inf s => trivial
    | fin s m e => exact ofFrac_WF _ _ _ (Nat.mul_pos (den_pos e) (by norm_num))
  obtain ⟨y, hy, hy'⟩ := pyFloat_repr E.U x.div100 hdw
  obtain ⟨y2, hy2, hy2'⟩ := pyFloat_repr E.U x hw
  refine ⟨.set (E.setOrder [x.div100.repr, x.repr]), _, _, always_normalize E n _ _ ?_, readingsAre_setOrder E _,
    ⟨y, _, hy, hd, hy'⟩, ⟨y2, hy2, hy2'⟩⟩
  -- leading blanks
  obtain ⟨l, hl, hl'⟩ := lstripBy_spec (· == ' ') s
  have hl'' : ∀ c ∈ l, c = ' ' := fun c hc => by simpa using List.all_eq_true.1 hl' c hc
  have hhead : ∀ c, (lstripBy (· == ' ') s).head? = some c → c ≠ ' ' := by
    intro c hc
    have := List.head?_dropWhile_not (fun c : Char => c == ' ') s
    unfold lstripBy at hc
    rw [hc] at this
    simpa using this
  generalize lstripBy (· == ' ') s = s' at hl hhead
  subst hl
  have hs' : pyFloat E.U s' = some x := by
    have := pyFloat_pad (U := E.U) l s' [] (fun c hc => by rw [hl'' c hc]; decide) (by simp)
    rw [List.append_nil] at this
    rw [← this]; exact h
  have hne : s' ≠ [] := by
    rintro rfl
    have : pyFloat E.U [] = none := rfl
    rw [this] at hs'; cases hs'
  have hn : ∀ y, litChar E.U y = false → y ≠ '\\' → y ≠ '%' → y ∉ s' ++ p := by
    intro y hy h1 h2
    have := litChar_not hs' y hy
    rcases hp with rfl | rfl <;> simp [this, h1, h2]
  have hb : '\\' ∉ s' := litChar_not hs' '\\' rfl
  have hlast : (s' ++ p).getLast? = some '%' := by
    rcases hp with rfl | rfl <;> simp
  obtain ⟨a, as, rfl⟩ := List.exists_cons_of_ne_nil hne
  have hm : matrixNormalize (stripBlank (l ++ (a :: as) ++ p)) = (a :: as) ++ p := by
    have e : stripBlank (l ++ (a :: as) ++ p) = (a :: as) ++ p := by
      have := stripBy_pad (· == ' ') l ((a :: as) ++ p) [] hl' rfl
      rw [List.append_nil, ← List.append_assoc] at this
      unfold stripBlank
      rw [this]
      apply stripBlank_id
      · intro e; exact hhead a rfl (by simpa using e)
      · rw [hlast]; simp
    rw [e]
    apply matrixNormalize_id (not_infix_of_not_mem '{' (by simp) (hn '{' rfl (by decide) (by decide)))
      (not_infix_of_not_mem '{' (by simp) (hn '{' rfl (by decide) (by decide)))
    intro hi
    have := hi.sublist.count_le '\\'
    have hc : ((a :: as) ++ p).count '\\' ≤ 1 := by
      rw [List.count_append, List.count_eq_zero.2 hb]
      rcases hp with rfl | rfl <;> decide
    have h2 : (s%"\\\\").count '\\' = 2 := by decide
    omega
  rw [normBody_unwrapped E _ hm (fun e => hb (by simp at e; simp [e]))]
  unfold normTail
  simp only
  rw [removeSpacing_id (not_infix_of_not_mem ':' (by simp) (hn ':' rfl (by decide) (by decide)))
    (not_infix_of_not_mem ',' (by simp) (hn ',' rfl (by decide) (by decide)))
    (not_infix_of_not_mem ';' (by simp) (hn ';' rfl (by decide) (by decide)))
    (not_infix_of_not_mem '!' (by simp) (hn '!' rfl (by decide) (by decide)))
    (not_infix_of_not_mem '{' (by simp) (hn '{' rfl (by decide) (by decide))),
    baseReadings_last hlast rfl (by decide) (by decide)]
  simp only
  rw [percent_step hs' hp]
  exact Always.pure _

/-- Hypotheses met by a number with a fraction, by one with an exponent and by an infinity. -/
example : (pyFloat asciiUni s%"12.5").isSome = true := by decide +kernel
example : (pyFloat asciiUni s%" -1_0e-3").isSome = true := by decide +kernel
example : pyFloat asciiUni s%"inf" = some (.inf false) := by decide +kernel
example : (stringNormalize failEnv 1 s%"12.5%" ⟨(), []⟩).1 = .ok (.set [s%"0.125", s%"12.5"]) := by decide +kernel
example : (stringNormalize failEnv 1 s%"50\\%" ⟨(), []⟩).1 = .ok (.set [s%"0.5", s%"50.0"]) := by decide +kernel

end Verif
