import Verif.Props.Units
/-
Property C28: mixed numbers.
-/

namespace Verif
open Re

variable {X V S : Type}

/-! ### Specification: the value of a sum of numbers and fractions -/

/-- Value of a decimal digit string. -/
def decVal (s : Str) : ℕ := s.foldl (fun n c => 10 * n + (c.toNat - 48)) 0

def isDec (s : Str) : Bool := !s.isEmpty && s.all asciiDigit

def quotient (x y : Str) : Option ℚ :=
  if isDec x && isDec y && decide (decVal y ≠ 0) then some ((decVal x : ℚ) / decVal y) else none

/-- The next argument of a LaTeX command: one character or a group in braces. -/
def readArg : Str → Option (Str × Str)
  | [] => none
  | c :: cs =>
    if c = '{' then
      match cs.dropWhile (· != '}') with
      | [] => none
      | _ :: r => some (cs.takeWhile (· != '}'), r)
    else some ([c], cs)

/-- A natural number, `b/c` or `\frac{b}{c}` (the braces are optional around single digits). -/
def evalTerm (t : Str) : Option ℚ :=
  if s%"\\frac".isPrefixOf t then
    (readArg (t.drop 5)).bind fun (x, r) => (readArg r).bind fun (y, r') => if r' = [] then quotient x y else none
  else match t.dropWhile (· != '/') with
    | [] => if isDec t then some (decVal t : ℚ) else none
    | _ :: y => quotient (t.takeWhile (· != '/')) y

def addTerm (neg : Bool) (cur : Str) (acc : ℚ) : Option ℚ :=
  (evalTerm cur.reverse).map fun q => acc + if neg then -q else q

/-- A sum with `+` and `-` (also as a sign), read from left to right; `cur` is the current summand, reversed. -/
def evalSumGo (neg : Bool) (cur : Str) (acc : ℚ) : Str → Option ℚ
  | [] => addTerm neg cur acc
  | c :: cs =>
    if c = '+' then (addTerm neg cur acc).bind fun a => evalSumGo false [] a cs
    else if c = '-' then
      if cur = [] then evalSumGo (!neg) [] acc cs else (addTerm neg cur acc).bind fun a => evalSumGo true [] a cs
    else evalSumGo neg (c :: cur) acc cs

def evalSum (s : Str) : Option ℚ := evalSumGo false [] 0 s

example : evalSum s%"-12+3/4-\\frac{5}6" = some (-12 + 3 / 4 - 5 / 6) := by decide +kernel

/-- A numerator or denominator in `\frac`: a digit or a number in braces. -/
inductive FracArg : Str → Str → Prop
  | digit (x : Char) (h : asciiDigit x = true) : FracArg [x] [x]
  | braced (b : Str) (h0 : b ≠ []) (h : ∀ c ∈ b, asciiDigit c = true) : FracArg b ('{' :: b ++ s%"}")

/-! ### Proof -/

theorem evalSumGo_word (neg : Bool) (cur : Str) (acc : ℚ) (w rest : Str) (hw : ∀ c ∈ w, c ≠ '+' ∧ c ≠ '-') :
    evalSumGo neg cur acc (w ++ rest) = evalSumGo neg (w.reverse ++ cur) acc rest := by
  induction w generalizing cur with
  | nil => rfl
  | cons x xs ih =>
    have := hw x (by simp)
    rw [List.cons_append, evalSumGo, if_neg this.1, if_neg this.2, ih _ (fun c hc => hw c (by simp [hc]))]
    simp

theorem digit_ne {c x : Char} (h : asciiDigit c = true) (hx : asciiDigit x = false) : c ≠ x := by
  rintro rfl; rw [h] at hx; cases hx

theorem isDec_of {b : Str} (h0 : b ≠ []) (h : ∀ c ∈ b, asciiDigit c = true) : isDec b = true := by
  unfold isDec
  rw [List.all_eq_true.2 h]
  cases b with
  | nil => exact absurd rfl h0
  | cons _ _ => rfl

theorem dropWhile_until {x : Char} {b r : Str} (h : x ∉ b) : (b ++ x :: r).dropWhile (· != x) = x :: r := by
  induction b with
  | nil => simp
  | cons y ys ih =>
    have : y ≠ x := by rintro rfl; exact h (by simp)
    rw [List.cons_append, List.dropWhile_cons, if_pos (by simpa using this), ih (fun hm => h (by simp [hm]))]

theorem takeWhile_until {x : Char} {b r : Str} (h : x ∉ b) : (b ++ x :: r).takeWhile (· != x) = b := by
  induction b with
  | nil => simp
  | cons y ys ih =>
    have : y ≠ x := by rintro rfl; exact h (by simp)
    rw [List.cons_append, List.takeWhile_cons, if_pos (by simpa using this), ih (fun hm => h (by simp [hm]))]

theorem dropWhile_never {x : Char} {b : Str} (h : x ∉ b) : b.dropWhile (· != x) = [] := by
  induction b with
  | nil => rfl
  | cons y ys ih =>
    have : y ≠ x := by rintro rfl; exact h (by simp)
    rw [List.dropWhile_cons, if_pos (by simpa using this), ih (fun hm => h (by simp [hm]))]

theorem frac_prefix_digits {b : Str} (h : ∀ c ∈ b, asciiDigit c = true) (h0 : b ≠ []) (r : Str) : s%"\\frac".isPrefixOf (b ++ r) = false := by
  obtain ⟨x, xs, rfl⟩ := List.exists_cons_of_ne_nil h0
  have : ('\\' == x) = false := by
    rw [beq_eq_false_iff_ne]
    exact (digit_ne (h x (by simp)) (by decide)).symm
  rw [List.cons_append, List.isPrefixOf_cons_cons, this]; rfl

theorem evalTerm_nat {b : Str} (h0 : b ≠ []) (h : ∀ c ∈ b, asciiDigit c = true) : evalTerm b = some (decVal b : ℚ) := by
  unfold evalTerm
  have := frac_prefix_digits h h0 []
  rw [List.append_nil] at this
  rw [this, dropWhile_never (fun hm => absurd (h _ hm) (by decide))]
  simp [isDec_of h0 h]

theorem evalTerm_quot {b c : Str} (hb0 : b ≠ []) (hb : ∀ x ∈ b, asciiDigit x = true) (hc0 : c ≠ []) (hc : ∀ x ∈ c, asciiDigit x = true)
    (hz : decVal c ≠ 0) : evalTerm (b ++ '/' :: c) = some ((decVal b : ℚ) / decVal c) := by
  unfold evalTerm
  have hn : '/' ∉ b := fun hm => absurd (hb _ hm) (by decide)
  rw [frac_prefix_digits hb hb0, dropWhile_until hn, takeWhile_until hn]
  simp [quotient, isDec_of hb0 hb, isDec_of hc0 hc, hz]

theorem FracArg.dec {b B : Str} (h : FracArg b B) : b ≠ [] ∧ ∀ c ∈ b, asciiDigit c = true := by
  cases h with
  | digit x h => exact ⟨by simp, by simpa using h⟩
  | braced _ h0 h => exact ⟨h0, h⟩

theorem readArg_of {b B : Str} (h : FracArg b B) (r : Str) : readArg (B ++ r) = some (b, r) := by
  cases h with
  | digit x h =>
    have : x ≠ '{' := digit_ne h (by decide)
    simp [readArg, this]
  | braced _ h0 h =>
    have hn : '}' ∉ b := fun hm => absurd (h _ hm) (by decide)
    have e : '{' :: b ++ s%"}" ++ r = '{' :: (b ++ '}' :: r) := by simp
    rw [e, readArg, if_pos rfl, dropWhile_until hn, takeWhile_until hn]

theorem evalTerm_frac {b c B C : Str} (hb : FracArg b B) (hc : FracArg c C) (hz : decVal c ≠ 0) :
    evalTerm (s%"\\frac" ++ B ++ C) = some ((decVal b : ℚ) / decVal c) := by
  unfold evalTerm
  have hp : s%"\\frac".isPrefixOf (s%"\\frac" ++ B ++ C) = true := by rw [List.append_assoc, List.isPrefixOf_iff_prefix]; exact List.prefix_append _ _
  have hd : (s%"\\frac" ++ B ++ C).drop 5 = B ++ C := by simp
  have hC := readArg_of hc []
  rw [List.append_nil] at hC
  rw [if_pos hp, hd, readArg_of hb C]
  simp [hC, quotient, isDec_of hb.dec.1 hb.dec.2, isDec_of hc.dec.1 hc.dec.2, hz]

/-- The value of `[-]a+t` for a summand `t`. -/
theorem evalSum_plus (neg : Bool) {a t : Str} {q : ℚ} (ha0 : a ≠ []) (ha : ∀ c ∈ a, asciiDigit c = true) (ht : ∀ c ∈ t, c ≠ '+' ∧ c ≠ '-')
    (hq : evalTerm t = some q) : evalSum ((if neg then s%"-" else []) ++ a ++ '+' :: t) = some ((if neg then -(decVal a : ℚ) else decVal a) + q) := by
  have haw : ∀ c ∈ a, c ≠ '+' ∧ c ≠ '-' := fun c hc => ⟨digit_ne (ha c hc) (by decide), digit_ne (ha c hc) (by decide)⟩
  have key : ∀ neg : Bool, evalSumGo neg [] 0 (a ++ '+' :: t) = some ((if neg then -(decVal a : ℚ) else decVal a) + q) := by
    intro neg
    rw [evalSumGo_word neg [] 0 a _ haw, evalSumGo, if_pos rfl]
    have h1 : addTerm neg (a.reverse ++ []) 0 = some (if neg then -(decVal a : ℚ) else decVal a) := by
      unfold addTerm
      rw [List.append_nil, List.reverse_reverse, evalTerm_nat ha0 ha]
      simp
    rw [h1]
    have h2 := evalSumGo_word false [] (if neg then -(decVal a : ℚ) else decVal a) t [] ht
    rw [List.append_nil, List.append_nil] at h2
    simp only [Option.bind_some]
    rw [h2, evalSumGo]
    unfold addTerm
    rw [List.reverse_reverse, hq]
    simp
  cases neg with
  | false => exact key false
  | true =>
    unfold evalSum
    rw [if_pos rfl, show s%"-" ++ a ++ '+' :: t = '-' :: (a ++ '+' :: t) by simp, evalSumGo, if_neg (by decide), if_pos rfl, if_pos rfl]
    exact key true

/-- The optional minus sign. -/
def sign (neg : Bool) : Str := if neg then s%"-" else []

theorem dash_sign (neg : Bool) {r : Str} (h1 : '-' ∉ r) (h2 : r.head? ≠ some ' ') :
    reSubConst (.seq (c '-') (many (c ' '))) s%"-" (sign neg ++ r) = sign neg ++ r := by
  cases neg with
  | false => exact dash_none h1
  | true =>
    unfold reSubConst reSub
    have hf : (Re.seq (c '-') (many (c ' '))).First ⟨[], s%"-" ++ r, []⟩ ⟨s%"-", r, []⟩ :=
      First.seq (First.c '-' [] r []) (First.many (p := (· == ' ')) [] r s%"-" [] (by simp) (by
        intro x hx; rw [beq_eq_false_iff_ne]; rintro rfl; exact h2 hx))
    have hm := First.scanner (fun _ _ => s%"-") hf
    rw [show sign true = s%"-" from rfl, scanSub_match _ [] s%"-" r s%"-" (by simp) hm]
    congr 1
    apply scanSub_id
    intro a b hab
    have : (Re.seq (c '-') (many (c ' '))).run ⟨a.reverse ++ (s%"-".reverse ++ []), b, []⟩ = [] :=
      run_seq_nil (run_chr_empty (by
        intro x hx; rw [beq_eq_false_iff_ne]; rintro rfl; exact h1 (by rw [hab]; simp [List.mem_of_head? hx])))
    unfold Re.scanner Re.matchAt
    rw [this]; rfl

/-- Replacing a match that reaches from a sign to the end. -/
theorem reSub_sign {r : Re} {f : Str → RSt → Str} (neg : Bool) {t : Str} {v : RSt} (h0 : t ≠ [])
    (ha : ∀ pre cs, r.run ⟨pre, '-' :: cs, []⟩ = []) (hn : ∀ pre, r.run ⟨pre, [], []⟩ = [])
    (hf : r.First ⟨(sign neg).reverse ++ [], t, []⟩ v) (hv : v.rest = []) : reSub r f (sign neg ++ t) = sign neg ++ f t v := by
  unfold reSub
  rw [scanSub_skip]
  · obtain ⟨p, q, cp⟩ := v
    simp only at hv
    subst hv
    have hsc := First.scanner f (cs := []) (pre := (sign neg).reverse ++ []) (by rw [List.append_nil t]; exact hf)
    have := scanSub_match (r.scanner f) ((sign neg).reverse ++ []) t [] _ h0 hsc
    rw [List.append_nil t] at this
    rw [this]
    have hm : ∀ pre, r.matchAt pre [] = none := fun pre => by unfold Re.matchAt; rw [hn]; rfl
    simp only [scanSub, Re.scanner, hm]
    simp
  · intro a₁ a₂ e hne
    obtain ⟨y, ys, rfl⟩ := List.exists_cons_of_ne_nil hne
    have hy : y = '-' := by
      have : y ∈ sign neg := by rw [e]; simp
      cases neg with
      | false => cases this
      | true => simpa [sign] using this
    have : r.matchAt (a₁.reverse ++ []) (y :: ys ++ t) = none := by
      unfold Re.matchAt
      rw [List.cons_append, hy, ha]; rfl
    simp only [Re.scanner, this]

section
variable {U : Uni} {a b c' : Str}

theorem mixed1_replaced (neg : Bool) (k : Nat) (ha0 : a ≠ []) (ha : ∀ x ∈ a, asciiDigit x = true) (hb0 : b ≠ [])
    (hb : ∀ x ∈ b, asciiDigit x = true) (hc0 : c' ≠ []) (hc : ∀ x ∈ c', asciiDigit x = true) :
    reSub (mixedRe1 U) plusSub (sign neg ++ (a ++ (blanks (k + 1) ++ (b ++ '/' :: c')))) = sign neg ++ (a ++ '+' :: (b ++ '/' :: c')) := by
  have hd : ∀ {w : Str}, (∀ x ∈ w, asciiDigit x = true) → ∀ x ∈ w, isDigit U x = true := fun h x hx => isDigit_of (h x hx)
  have hrun : ∀ pre cs, (∀ x, cs.head? = some x → isDigit U x = false) → (mixedRe1 U).run ⟨pre, cs, []⟩ = [] := by
    intro pre cs h
    unfold mixedRe1
    apply run_cat_nil
    have : (plus (d U)).run ⟨pre, cs, []⟩ = [] := run_seq_nil (run_chr_empty h)
    simp [this]
  have hf : ∀ P : Str, (mixedRe1 U).First ⟨P, a ++ (blanks (k + 1) ++ (b ++ '/' :: c')), []⟩
      ⟨c'.reverse ++ ('/' :: (b.reverse ++ ((blanks (k + 1)).reverse ++ (a.reverse ++ P)))), [], [(2, b ++ '/' :: c'), (1, a)]⟩ := by
    intro P
    have g3 := First.plus (p := isDigit U) c' [] ('/' :: (b.reverse ++ ((blanks (k + 1)).reverse ++ (a.reverse ++ P)))) [(1, a)] hc0 (hd hc) (by simp)
    rw [List.append_nil] at g3
    have g2 := First.cat_cons (First.c '/' (b.reverse ++ ((blanks (k + 1)).reverse ++ (a.reverse ++ P))) c' [(1, a)]) (First.cat_one g3)
    have g1 := First.cat_cons (First.plus (p := isDigit U) b ('/' :: c') ((blanks (k + 1)).reverse ++ (a.reverse ++ P)) [(1, a)] hb0 (hd hb)
      (by intro x hx; simp at hx; subst hx; rfl)) g2
    have g : (grp 2 (cat [plus (d U), c '/', plus (d U)])).First
        ⟨(blanks (k + 1)).reverse ++ (a.reverse ++ P), (b ++ '/' :: c') ++ [], [(1, a)]⟩ _ := First.grp (by rw [List.append_nil]; exact g1)
    rw [List.append_nil] at g
    have h2 := First.cat_cons (First.plus (p := (· == ' ')) (blanks (k + 1)) (b ++ '/' :: c') (a.reverse ++ P) [(1, a)] (by simp [blanks])
      (by intro x hx; simp [blanks_mem hx]) (by
        intro x hx
        obtain ⟨y, ys, rfl⟩ := List.exists_cons_of_ne_nil hb0
        simp at hx; subst hx
        rw [beq_eq_false_iff_ne]; exact digit_ne (hb _ (by simp)) (by decide))) (First.cat_one g)
    have h1 : (grp 1 (plus (d U))).First ⟨P, a ++ (blanks (k + 1) ++ (b ++ '/' :: c')), []⟩ ⟨a.reverse ++ P, blanks (k + 1) ++ (b ++ '/' :: c'), [(1, a)]⟩ :=
      First.grp (First.plus (p := isDigit U) a _ P [] ha0 (hd ha) (by intro x hx; simp [blanks_succ] at hx; subst hx; rfl))
    exact First.cat_cons h1 h2
  rw [reSub_sign neg (by simp [ha0]) (fun pre cs => hrun pre _ (by intro x hx; simp at hx; subst hx; rfl))
    (fun pre => hrun pre _ (by simp)) (hf _) rfl]
  simp [plusSub, RSt.groupD, RSt.group, List.lookup]

theorem first_arg {b B : Str} (h : FracArg b B) (n : Nat) (pre cs : Str) (caps : List (Nat × Str)) :
    (digitOrBraced U n).First ⟨pre, B ++ cs, caps⟩ ⟨B.reverse ++ pre, cs, (n, B) :: caps⟩ := by
  unfold digitOrBraced
  apply First.grp
  cases h with
  | digit x h =>
    exact First.alt_l (First.chr (isDigit_of h))
  | braced _ h0 h =>
    apply First.alt_r
    · exact run_chr_empty (by intro x hx; simp at hx; subst hx; rfl)
    · have h3 := First.c '}' (b.reverse ++ ('{' :: pre)) cs caps
      have h2 := First.cat_cons (First.plus (p := isDigit U) b ('}' :: cs) ('{' :: pre) caps h0 (fun x hx => isDigit_of (h x hx))
        (by intro x hx; simp at hx; subst hx; rfl)) (First.cat_one h3)
      have h1 := First.cat_cons (First.c '{' pre (b ++ '}' :: cs) caps) h2
      simp only [List.cons_append, List.append_assoc, List.reverse_append, List.reverse_cons] at h1 ⊢
      exact h1

theorem mixed2_replaced {b c' B C : Str} (neg : Bool) (k : Nat) (ha0 : a ≠ []) (ha : ∀ x ∈ a, asciiDigit x = true) (hb : FracArg b B) (hc : FracArg c' C) :
    reSub (mixedRe2 U) plusSub (sign neg ++ (a ++ (blanks k ++ (s%"\\frac" ++ B ++ C)))) = sign neg ++ (a ++ '+' :: (s%"\\frac" ++ B ++ C)) := by
  have hrun : ∀ pre cs, (∀ x, cs.head? = some x → isDigit U x = false) → (mixedRe2 U).run ⟨pre, cs, []⟩ = [] := by
    intro pre cs h
    unfold mixedRe2
    apply run_cat_nil
    have : (plus (d U)).run ⟨pre, cs, []⟩ = [] := run_seq_nil (run_chr_empty h)
    simp [this]
  have hhead : ∀ x, (blanks k ++ (s%"\\frac" ++ B ++ C)).head? = some x → isDigit U x = false := by
    intro x hx
    cases k with
    | zero => simp [blanks] at hx; subst hx; rfl
    | succ k => simp [blanks_succ] at hx; subst hx; rfl
  have hf : ∀ P : Str, ∃ v : RSt, (mixedRe2 U).First ⟨P, a ++ (blanks k ++ (s%"\\frac" ++ B ++ C)), []⟩ v ∧ v.rest = [] ∧
      v.caps = [(2, s%"\\frac" ++ B ++ C), (4, C), (3, B), (1, a)] := by
    intro P
    have g3 := first_arg (U := U) hc 4 (B.reverse ++ (s%"\\frac".reverse ++ ((blanks k).reverse ++ (a.reverse ++ P)))) [] [(3, B), (1, a)]
    have g2 := First.cat_cons (first_arg (U := U) hb 3 (s%"\\frac".reverse ++ ((blanks k).reverse ++ (a.reverse ++ P))) (C ++ []) [(1, a)]) (First.cat_one g3)
    have g1 := First.cat_cons (First.lit s%"\\frac" ((blanks k).reverse ++ (a.reverse ++ P)) (B ++ (C ++ [])) [(1, a)]) g2
    have g : (grp 2 (cat [lit s%"\\frac", digitOrBraced U 3, digitOrBraced U 4])).First
        ⟨(blanks k).reverse ++ (a.reverse ++ P), (s%"\\frac" ++ B ++ C) ++ [], [(1, a)]⟩ _ :=
      First.grp (by simp only [List.append_assoc] at g1 ⊢; exact g1)
    rw [List.append_nil] at g
    have h2 := First.cat_cons (First.many (p := (· == ' ')) (blanks k) (s%"\\frac" ++ B ++ C) (a.reverse ++ P) [(1, a)]
      (by intro x hx; simp [blanks_mem hx]) (by intro x hx; simp at hx; subst hx; rfl)) (First.cat_one g)
    have h1 : (grp 1 (plus (d U))).First ⟨P, a ++ (blanks k ++ (s%"\\frac" ++ B ++ C)), []⟩ ⟨a.reverse ++ P, blanks k ++ (s%"\\frac" ++ B ++ C), [(1, a)]⟩ :=
      First.grp (First.plus (p := isDigit U) a _ P [] ha0 (fun x hx => isDigit_of (ha x hx)) hhead)
    exact ⟨_, First.cat_cons h1 h2, rfl, rfl⟩
  obtain ⟨v, h1, h2, h3⟩ := hf ((sign neg).reverse ++ [])
  rw [reSub_sign neg (by simp [ha0]) (fun pre cs => hrun pre _ (by intro x hx; simp at hx; subst hx; rfl))
    (fun pre => hrun pre _ (by simp)) h1 h2]
  simp [plusSub, RSt.groupD, RSt.group, List.lookup, h3]

end

theorem mixed_last {b B : Str} (h : FracArg b B) (r : Str) : ∃ y, (r ++ B).getLast? = some y ∧ (asciiDigit y = true ∨ y = '}') := by
  cases h with
  | digit x h => exact ⟨x, by simp, .inl h⟩
  | braced _ h0 h => exact ⟨'}', by rw [← List.append_assoc, List.getLast?_concat], .inr rfl⟩

theorem FracArg.chars {b B : Str} (h : FracArg b B) : ∀ c ∈ B, asciiDigit c = true ∨ c = '{' ∨ c = '}' := by
  cases h with
  | digit x h => intro c hc; simp at hc; subst hc; exact .inl h
  | braced _ h0 h =>
    intro c hc
    simp at hc
    rcases hc with rfl | hc | rfl
    · simp
    · exact .inl (h c hc)
    · simp

theorem sign_mem {neg : Bool} {c : Char} (h : c ∈ sign neg) : c = '-' := by
  cases neg with
  | false => cases h
  | true => simpa [sign] using h

/-- Characters of `-12 3/4` and `-12\frac{3}{4}`. -/
def mixedChar (c : Char) : Bool := asciiDigit c || (s%"- /\\frac{}").contains c

theorem mixedChar_cases {P : Char → Prop} (hd : ∀ c, asciiDigit c = true → P c) (hs : ∀ c ∈ s%"- /\\frac{}", P c) {c : Char} (h : mixedChar c = true) : P c := by
  simp only [mixedChar, Bool.or_eq_true] at h
  rcases h with h | h
  · exact hd c h
  · exact hs c (List.contains_iff_mem.1 h)

theorem digit_math {c : Char} (h : asciiDigit c = true) : mathChar c = true := by
  have hn : c ∉ s%"$%:_|degmMno" := by
    intro hm
    have : ∀ c ∈ s%"$%:_|degmMno", asciiDigit c = false := by decide
    rw [this c hm] at h; cases h
  simp only [asciiDigit, decide_eq_true_eq] at h
  simp only [mathChar, Bool.and_eq_true, decide_eq_true_eq, Bool.not_eq_true']
  refine ⟨⟨by omega, by omega⟩, ?_⟩
  rw [← Bool.not_eq_true, List.contains_iff_mem]
  exact hn

theorem mixed_math {c : Char} (h : mixedChar c = true) : mathChar c = true :=
  mixedChar_cases (P := fun c => mathChar c = true) (fun _ h => digit_math h) (by decide) h

theorem mixed_calm {s : Str} (h : ∀ c ∈ s, mixedChar c = true) (h2 : ¬ s%"\\\\" <:+: s) : Calm s := by
  refine ⟨fun c hc => mixed_math (h c hc), ?_⟩
  intro p hp
  have : ∀ p ∈ special, p = s%"\\\\" ∨ ∃ x ∈ p, mixedChar x = false := by decide +kernel
  rcases this p hp with rfl | ⟨x, hx, hx'⟩
  · exact h2
  · exact not_infix_of_not_mem x hx (not_mem_of h hx')

theorem mixed_lower {U : Uni} {s : Str} (h : ∀ c ∈ s, mixedChar c = true ∨ c = '+') : lower U s = s := by
  apply lower_id
  intro c hc
  rcases h c hc with h | rfl
  · refine mixedChar_cases (P := fun c => c.toNat < 128 ∧ asciiUpper c = false) ?_ (by decide) h
    intro c h
    simp only [asciiDigit, decide_eq_true_eq] at h
    refine ⟨by omega, ?_⟩
    simp [asciiUpper]; omega
  · decide

theorem mixed1_normal (E : Env X V S) (n : Nat) (neg : Bool) (k : Nat) {a b c' : Str} (ha0 : a ≠ []) (ha : ∀ x ∈ a, asciiDigit x = true)
    (hb0 : b ≠ []) (hb : ∀ x ∈ b, asciiDigit x = true) (hc0 : c' ≠ []) (hc : ∀ x ∈ c', asciiDigit x = true) :
    Always (stringNormalize E (n + 1) (sign neg ++ (a ++ (blanks (k + 1) ++ (b ++ '/' :: c'))))) (.str (sign neg ++ (a ++ '+' :: (b ++ '/' :: c')))) := by
  have hd : ∀ c : Char, asciiDigit c = true → mixedChar c = true ∧ c ≠ '\\' ∧ c ≠ ' ' ∧ c ≠ '-' := by
    intro c h
    exact ⟨by simp [mixedChar, h], digit_ne h (by decide), digit_ne h (by decide), digit_ne h (by decide)⟩
  have hch : ∀ x ∈ sign neg ++ (a ++ (blanks (k + 1) ++ (b ++ '/' :: c'))), mixedChar x = true ∧ x ≠ '\\' := by
    intro x hx
    simp only [List.mem_append, List.mem_cons] at hx
    rcases hx with h | h | h | h | rfl | h
    · rw [sign_mem h]; decide
    · exact ⟨(hd x (ha x h)).1, (hd x (ha x h)).2.1⟩
    · rw [blanks_mem h]; decide
    · exact ⟨(hd x (hb x h)).1, (hd x (hb x h)).2.1⟩
    · decide
    · exact ⟨(hd x (hc x h)).1, (hd x (hc x h)).2.1⟩
  have hbs : '\\' ∉ sign neg ++ (a ++ (blanks (k + 1) ++ (b ++ '/' :: c'))) := fun h => (hch _ h).2 rfl
  have hout : ∀ x ∈ sign neg ++ (a ++ '+' :: (b ++ '/' :: c')), (mixedChar x = true ∨ x = '+') ∧ x ≠ ' ' ∧ x ≠ '\\' := by
    intro x hx
    simp only [List.mem_append, List.mem_cons] at hx
    rcases hx with h | h | rfl | h | rfl | h
    · rw [sign_mem h]; decide
    · exact ⟨.inl (hd x (ha x h)).1, (hd x (ha x h)).2.2.1, (hd x (ha x h)).2.1⟩
    · decide
    · exact ⟨.inl (hd x (hb x h)).1, (hd x (hb x h)).2.2.1, (hd x (hb x h)).2.1⟩
    · decide
    · exact ⟨.inl (hd x (hc x h)).1, (hd x (hc x h)).2.2.1, (hd x (hc x h)).2.1⟩
  obtain ⟨x, xs, rfl⟩ := List.exists_cons_of_ne_nil ha0
  have hx := ha x (by simp)
  have hhead : ∀ y r, asciiDigit y = false → y ≠ '-' → (sign neg ++ (x :: xs ++ r)).head? ≠ some y := by
    intro y r h1 h2 h
    cases neg with
    | false => simp [sign] at h; subst h; rw [hx] at h1; cases h1
    | true => simp [sign] at h; exact h2 h.symm
  have hlast : (sign neg ++ (x :: xs ++ (blanks (k + 1) ++ (b ++ '/' :: c')))).getLast? ≠ some ' ' := by
    rw [show sign neg ++ (x :: xs ++ (blanks (k + 1) ++ (b ++ '/' :: c'))) = (sign neg ++ (x :: xs ++ (blanks (k + 1) ++ (b ++ s%"/")))) ++ c' by simp,
      List.getLast?_append]
    cases hl : c'.getLast? with
    | none => simp at hl; exact absurd hl hc0
    | some y => simp; rintro rfl; exact absurd (hc _ (List.mem_of_getLast? hl)) (by decide)
  have hlit : litChar E.U '/' = false := by simp [litChar, isSpace, isDigit]; decide
  apply always_normalize
  rw [calm_normBody E _ (mixed_calm (fun c hc => (hch c hc).1) (not_infix_of_not_mem '\\' (by simp) hbs)),
    stripBlank_id (hhead _ _ (by decide) (by decide)) hlast]
  have hfp : furtherPure E.U (sign neg ++ (x :: xs ++ (blanks (k + 1) ++ (b ++ '/' :: c')))) = sign neg ++ (x :: xs ++ '+' :: (b ++ '/' :: c')) := by
    have hcf : canonFloat E.U (sign neg ++ (x :: xs ++ (blanks (k + 1) ++ (b ++ '/' :: c')))) = sign neg ++ (x :: xs ++ (blanks (k + 1) ++ (b ++ '/' :: c'))) := by
      unfold canonFloat; rw [pyFloat_none '/' (by simp) hlit]
    unfold furtherPure
    simp only [stripBraces_id (hhead '{' _ (by decide) (by decide)), hcf]
    rw [(contains_eq_false s%"\\" _).2 (not_infix_of_not_mem '\\' (by simp) hbs)]
    simp only [Bool.false_eq_true, if_false]
    rw [dash_sign neg, injectMixed_eq, mixed1_replaced neg k (by simp) ha hb0 hb hc0 hc]
    · have h2 : reSub (mixedRe2 E.U) plusSub (sign neg ++ (x :: xs ++ '+' :: (b ++ '/' :: c'))) = sign neg ++ (x :: xs ++ '+' :: (b ++ '/' :: c')) := by
        apply reSub_id_of_part (r := grp 2 (cat [lit s%"\\frac", digitOrBraced E.U 3, digitOrBraced E.U 4])) (by simp)
        intro u hu hi
        obtain ⟨y, z, rfl, hy, _⟩ := hu
        rw [lang_lit] at hy
        subst hy
        exact (hout '\\' (hi.subset (by simp))).2.2 rfl
      rw [h2, replace_id _ _ _ (not_infix_of_not_mem ' ' (by simp) (fun h => (hout _ h).2.1 rfl)), mixed_lower (fun c hc => (hout c hc).1)]
    · intro h
      simp only [List.mem_append, List.mem_cons] at h
      rcases h with (h | h) | h | h | h | h
      · subst h; exact absurd hx (by decide)
      · exact absurd (ha '-' (by simp [h])) (by decide)
      · exact absurd (blanks_mem h) (by decide)
      · exact absurd (hb _ h) (by decide)
      · exact absurd h (by decide)
      · exact absurd (hc _ h) (by decide)
    · intro h; simp at h; subst h; exact absurd hx (by decide)
  have hci : strIsInt E.U (sign neg ++ (x :: xs ++ '+' :: (b ++ '/' :: c'))) = false := strIsInt_false (x := '/') (by simp) hlit (by decide)
  unfold further
  rw [hfp, canonInt_id E hci]
  exact Always.bind (Always.pure _) (Always.pure _)

theorem mixed2_normal (E : Env X V S) (n : Nat) (neg : Bool) (k : Nat) {a b c' B C : Str} (ha0 : a ≠ []) (ha : ∀ x ∈ a, asciiDigit x = true)
    (hb : FracArg b B) (hc : FracArg c' C) :
    Always (stringNormalize E (n + 1) (sign neg ++ (a ++ (blanks k ++ (s%"\\frac" ++ B ++ C))))) (.str (sign neg ++ (a ++ '+' :: (s%"\\frac" ++ B ++ C)))) := by
  have hd : ∀ c : Char, asciiDigit c = true → mixedChar c = true ∧ c ≠ '\\' ∧ c ≠ ' ' ∧ c ≠ '/' := by
    intro c h
    exact ⟨by simp [mixedChar, h], digit_ne h (by decide), digit_ne h (by decide), digit_ne h (by decide)⟩
  have hfa : ∀ {b B : Str}, FracArg b B → ∀ c ∈ B, mixedChar c = true ∧ c ≠ '\\' ∧ c ≠ ' ' ∧ c ≠ '/' := by
    intro b B h c hc
    rcases h.chars c hc with h | rfl | rfl
    · exact hd c h
    · decide
    · decide
  have hfr : ∀ c ∈ s%"\\frac", mixedChar c = true ∧ c ≠ ' ' ∧ c ≠ '/' := by decide
  have hch : ∀ x ∈ sign neg ++ (a ++ (blanks k ++ (s%"\\frac" ++ B ++ C))), mixedChar x = true ∧ x ≠ '/' := by
    intro x hx
    simp only [List.append_assoc, List.mem_append] at hx
    rcases hx with h | h | h | h | h | h
    · rw [sign_mem h]; decide
    · exact ⟨(hd x (ha x h)).1, (hd x (ha x h)).2.2.2⟩
    · rw [blanks_mem h]; decide
    · exact ⟨(hfr x h).1, (hfr x h).2.2⟩
    · exact ⟨(hfa hb x h).1, (hfa hb x h).2.2.2⟩
    · exact ⟨(hfa hc x h).1, (hfa hc x h).2.2.2⟩
  have eT : sign neg ++ (a ++ (blanks k ++ (s%"\\frac" ++ B ++ C))) = (sign neg ++ (a ++ blanks k)) ++ '\\' :: (s%"frac" ++ (B ++ C)) := by simp
  have hA : '\\' ∉ sign neg ++ (a ++ blanks k) := by
    intro h
    simp only [List.mem_append] at h
    rcases h with h | h | h
    · exact absurd (sign_mem h) (by decide)
    · exact (hd _ (ha _ h)).2.1 rfl
    · exact absurd (blanks_mem h) (by decide)
  have hB : '\\' ∉ s%"frac" ++ (B ++ C) := by
    intro h
    simp only [List.mem_append] at h
    rcases h with h | h | h
    · exact absurd h (by decide)
    · exact (hfa hb _ h).2.1 rfl
    · exact (hfa hc _ h).2.1 rfl
  have honce : ∀ p, ¬ p <+: s%"frac" ++ (B ++ C) → ¬ '\\' :: p <:+: sign neg ++ (a ++ (blanks k ++ (s%"\\frac" ++ B ++ C))) := by
    intro p hp hi
    rw [eT] at hi
    exact hp (once_infix hA hB hi)
  have hout : ∀ x ∈ sign neg ++ (a ++ '+' :: (s%"\\frac" ++ B ++ C)), (mixedChar x = true ∨ x = '+') ∧ x ≠ ' ' := by
    intro x hx
    simp only [List.append_assoc, List.mem_append, List.mem_cons] at hx
    rcases hx with h | h | rfl | h | h | h
    · rw [sign_mem h]; decide
    · exact ⟨.inl (hd x (ha x h)).1, (hd x (ha x h)).2.2.1⟩
    · decide
    · have : x ∈ s%"\\frac" := by simpa using h
      exact ⟨.inl (hfr x this).1, (hfr x this).2.1⟩
    · exact ⟨.inl (hfa hb x h).1, (hfa hb x h).2.2.1⟩
    · exact ⟨.inl (hfa hc x h).1, (hfa hc x h).2.2.1⟩
  obtain ⟨x, xs, rfl⟩ := List.exists_cons_of_ne_nil ha0
  have hx := ha x (by simp)
  have hhead : ∀ y r, asciiDigit y = false → y ≠ '-' → (sign neg ++ (x :: xs ++ r)).head? ≠ some y := by
    intro y r h1 h2 h
    cases neg with
    | false => simp [sign] at h; subst h; rw [hx] at h1; cases h1
    | true => simp [sign] at h; exact h2 h.symm
  obtain ⟨y, hl, hy⟩ := mixed_last hc (sign neg ++ (x :: xs ++ (blanks k ++ (s%"\\frac" ++ B))))
  have hl' : (sign neg ++ (x :: xs ++ (blanks k ++ (s%"\\frac" ++ B ++ C)))).getLast? = some y := by
    rw [← hl]; congr 1; simp
  have hlast : (sign neg ++ (x :: xs ++ (blanks k ++ (s%"\\frac" ++ B ++ C)))).getLast? ≠ some ' ' := by
    rw [hl']
    intro h
    simp at h
    subst h
    rcases hy with hy | hy
    · exact absurd hy (by decide)
    · exact absurd hy (by decide)
  have hsp : ∀ c : Char, asciiDigit c = true → isSpace c = false := by
    intro c h
    exact isSpace_digit h
  have hlit : litChar E.U '\\' = false := by simp [litChar, isSpace, isDigit]; decide
  apply always_normalize
  rw [calm_normBody E _ (mixed_calm (fun c hc => (hch c hc).1) (honce s%"\\" (by simp))),
    stripBlank_id (hhead _ _ (by decide) (by decide)) hlast]
  have hfp : furtherPure E.U (sign neg ++ (x :: xs ++ (blanks k ++ (s%"\\frac" ++ B ++ C)))) = sign neg ++ (x :: xs ++ '+' :: (s%"\\frac" ++ B ++ C)) := by
    have hcf : canonFloat E.U (sign neg ++ (x :: xs ++ (blanks k ++ (s%"\\frac" ++ B ++ C)))) = sign neg ++ (x :: xs ++ (blanks k ++ (s%"\\frac" ++ B ++ C))) := by
      unfold canonFloat; rw [pyFloat_none '\\' (by simp) hlit]
    have hpl : parseLatexStr (sign neg ++ (x :: xs ++ (blanks k ++ (s%"\\frac" ++ B ++ C)))) = sign neg ++ (x :: xs ++ (blanks k ++ (s%"\\frac" ++ B ++ C))) := by
      have hno : ∀ z, mixedChar z = false → z ∉ sign neg ++ (x :: xs ++ (blanks k ++ (s%"\\frac" ++ B ++ C))) := fun z hz =>
        not_mem_of (fun c hc => (hch c hc).1) hz
      rw [parseLatexStr_eq]
      unfold latexReplace
      rw [replace_id _ _ _ (not_infix_of_not_mem 't' (by simp) (hno 't' (by decide))),
        replace_id s%"\\cfrac" _ _ (honce s%"cfrac" (by simp)),
        replace_id s%"\\dfrac" _ _ (honce s%"dfrac" (by simp)),
        replace_id _ _ _ (not_infix_of_not_mem '√' (by simp) (hno '√' (by decide))),
        replace_id _ _ _ (not_infix_of_not_mem 'π' (by simp) (hno 'π' (by decide))),
        replace_id _ _ _ (not_infix_of_not_mem '∞' (by simp) (hno '∞' (by decide))),
        replace_id _ _ _ (not_infix_of_not_mem '∪' (by simp) (hno '∪' (by decide))),
        replace_id _ _ _ (not_infix_of_not_mem '·' (by simp) (hno '·' (by decide))),
        replace_id _ _ _ (not_infix_of_not_mem '×' (by simp) (hno '×' (by decide)))]
      apply strip_id
      · intro c h
        cases neg with
        | false => simp [sign] at h; subst h; exact hsp _ hx
        | true => simp [sign] at h; subst h; decide
      · intro c h
        rw [hl'] at h
        simp at h; subst h
        rcases hy with hy | rfl
        · exact hsp _ hy
        · decide
    unfold furtherPure
    simp only [stripBraces_id (hhead '{' _ (by decide) (by decide)), hcf]
    rw [(contains_iff s%"\\" _).2 ⟨sign neg ++ (x :: xs ++ blanks k), s%"frac" ++ (B ++ C), by simp⟩]
    simp only [if_true, hpl]
    rw [dash_sign neg, injectMixed_eq]
    · have h2 : reSub (mixedRe1 E.U) plusSub (sign neg ++ (x :: xs ++ (blanks k ++ (s%"\\frac" ++ B ++ C)))) = sign neg ++ (x :: xs ++ (blanks k ++ (s%"\\frac" ++ B ++ C))) := by
        apply reSub_id_of_part (r := grp 2 (cat [plus (d E.U), c '/', plus (d E.U)])) (by simp)
        intro u hu hi
        obtain ⟨p, v, q, rfl, hv⟩ := lang_cat_mem (r := c '/') (by simp) hu
        rw [lang_c.1 hv] at hi
        exact (hch '/' (hi.subset (by simp))).2 rfl
      rw [h2, mixed2_replaced neg k (by simp) ha hb hc, replace_id _ _ _ (not_infix_of_not_mem ' ' (by simp) (fun h => (hout _ h).2 rfl)),
        mixed_lower (fun c hc => (hout c hc).1)]
    · intro h
      simp only [List.append_assoc, List.mem_append] at h
      rcases h with h | h | h | h | h
      · exact absurd (ha _ h) (by decide)
      · exact absurd (blanks_mem h) (by decide)
      · exact absurd h (by decide)
      · rcases hb.chars _ h with h | h | h
        · exact absurd h (by decide)
        · exact absurd h (by decide)
        · exact absurd h (by decide)
      · rcases hc.chars _ h with h | h | h
        · exact absurd h (by decide)
        · exact absurd h (by decide)
        · exact absurd h (by decide)
    · intro h; simp at h; subst h; exact absurd hx (by decide)
  have hci : strIsInt E.U (sign neg ++ (x :: xs ++ '+' :: (s%"\\frac" ++ B ++ C))) = false := strIsInt_false (x := '\\') (by simp) hlit (by decide)
  unfold further
  rw [hfp, canonInt_id E hci]
  exact Always.bind (Always.pure _) (Always.pure _)

/-! ### C28 -/

/-- C28: the normal form of `a b/c` is a sum whose value is `a + b/c`. -/
theorem C28_mixed_partial (E : Env X V S) (n k : Nat) {a b c' : Str} (ha0 : a ≠ []) (ha : ∀ x ∈ a, asciiDigit x = true)
    (hb0 : b ≠ []) (hb : ∀ x ∈ b, asciiDigit x = true) (hc0 : c' ≠ []) (hc : ∀ x ∈ c', asciiDigit x = true) (hz : decVal c' ≠ 0) :
    ∃ r, Always (stringNormalize E (n + 1) (a ++ blanks (k + 1) ++ b ++ s%"/" ++ c')) (.str r) ∧
      evalSum r = some ((decVal a : ℚ) + decVal b / decVal c') := by
  have h := mixed1_normal E n false k ha0 ha hb0 hb hc0 hc
  have e := evalSum_plus false ha0 ha (t := b ++ '/' :: c') (by
    intro x hx
    simp only [List.mem_append, List.mem_cons] at hx
    rcases hx with h | rfl | h
    · exact ⟨digit_ne (hb x h) (by decide), digit_ne (hb x h) (by decide)⟩
    · decide
    · exact ⟨digit_ne (hc x h) (by decide), digit_ne (hc x h) (by decide)⟩) (evalTerm_quot hb0 hb hc0 hc hz)
  refine ⟨sign false ++ (a ++ '+' :: (b ++ '/' :: c')), ?_, ?_⟩
  · rw [show a ++ blanks (k + 1) ++ b ++ s%"/" ++ c' = sign false ++ (a ++ (blanks (k + 1) ++ (b ++ '/' :: c'))) by simp [sign]]
    exact h
  · simpa [sign] using e

/-- C28: the normal form of `a\frac bc` is a sum whose value is `a + b/c`. -/
theorem C28_frac_partial (E : Env X V S) (n k : Nat) {a b c' B C : Str} (ha0 : a ≠ []) (ha : ∀ x ∈ a, asciiDigit x = true)
    (hb : FracArg b B) (hc : FracArg c' C) (hz : decVal c' ≠ 0) :
    ∃ r, Always (stringNormalize E (n + 1) (a ++ blanks k ++ s%"\\frac" ++ B ++ C)) (.str r) ∧
      evalSum r = some ((decVal a : ℚ) + decVal b / decVal c') := by
  have h := mixed2_normal E n false k ha0 ha hb hc
  have hw : ∀ {b B : Str}, FracArg b B → ∀ x ∈ B, x ≠ '+' ∧ x ≠ '-' := by
    intro b B h x hx
    rcases h.chars x hx with h | rfl | rfl
    · exact ⟨digit_ne h (by decide), digit_ne h (by decide)⟩
    · decide
    · decide
  have e := evalSum_plus false ha0 ha (t := s%"\\frac" ++ B ++ C) (by
    intro x hx
    simp only [List.append_assoc, List.mem_append] at hx
    rcases hx with h | h | h
    · have : ∀ x ∈ s%"\\frac", x ≠ '+' ∧ x ≠ '-' := by decide
      exact this x h
    · exact hw hb x h
    · exact hw hc x h) (evalTerm_frac hb hc hz)
  refine ⟨sign false ++ (a ++ '+' :: (s%"\\frac" ++ B ++ C)), ?_, ?_⟩
  · rw [show a ++ blanks k ++ s%"\\frac" ++ B ++ C = sign false ++ (a ++ (blanks k ++ (s%"\\frac" ++ B ++ C))) by simp [sign]]
    exact h
  · simpa [sign] using e

/-- The full statement fails for every negative mixed number: the normal form of `-a b/c` has the value `-a + b/c`,
which is `-(a + b/c)` only if `b = 0`. -/
theorem C28_negative_refuted (E : Env X V S) (n k : Nat) {a b c' : Str} (ha0 : a ≠ []) (ha : ∀ x ∈ a, asciiDigit x = true)
    (hb0 : b ≠ []) (hb : ∀ x ∈ b, asciiDigit x = true) (hc0 : c' ≠ []) (hc : ∀ x ∈ c', asciiDigit x = true) (hz : decVal c' ≠ 0)
    (hb1 : decVal b ≠ 0) :
    ∃ r, Always (stringNormalize E (n + 1) (s%"-" ++ a ++ blanks (k + 1) ++ b ++ s%"/" ++ c')) (.str r) ∧
      evalSum r = some (-(decVal a : ℚ) + decVal b / decVal c') ∧ evalSum r ≠ some (-((decVal a : ℚ) + decVal b / decVal c')) := by
  have h := mixed1_normal E n true k ha0 ha hb0 hb hc0 hc
  have e := evalSum_plus true ha0 ha (t := b ++ '/' :: c') (by
    intro x hx
    simp only [List.mem_append, List.mem_cons] at hx
    rcases hx with h | rfl | h
    · exact ⟨digit_ne (hb x h) (by decide), digit_ne (hb x h) (by decide)⟩
    · decide
    · exact ⟨digit_ne (hc x h) (by decide), digit_ne (hc x h) (by decide)⟩) (evalTerm_quot hb0 hb hc0 hc hz)
  have e' : evalSum (sign true ++ (a ++ '+' :: (b ++ '/' :: c'))) = some (-(decVal a : ℚ) + decVal b / decVal c') := by
    simpa [sign] using e
  refine ⟨_, ?_, e', ?_⟩
  · rw [show s%"-" ++ a ++ blanks (k + 1) ++ b ++ s%"/" ++ c' = sign true ++ (a ++ (blanks (k + 1) ++ (b ++ '/' :: c'))) by simp [sign]]
    exact h
  · rw [e']
    intro h
    have h' : -(decVal a : ℚ) + decVal b / decVal c' = -((decVal a : ℚ) + decVal b / decVal c') := Option.some.inj h
    have h2 : (decVal b : ℚ) / decVal c' = 0 := by linarith
    rw [div_eq_zero_iff] at h2
    rcases h2 with h2 | h2
    · exact hb1 (by exact_mod_cast h2)
    · exact hz (by exact_mod_cast h2)

example : (stringNormalize ratEnv 1 s%"-1 1/2" ⟨(), []⟩).1 = .ok (.str s%"-1+1/2") := by decide +kernel
example : (stringNormalize ratEnv 1 s%"12 \\frac3{45}" ⟨(), []⟩).1 = .ok (.str s%"12+\\frac3{45}") := by decide +kernel
example : evalSum s%"12+\\frac3{45}" = some (12 + 3 / 45) := by decide +kernel

end Verif
