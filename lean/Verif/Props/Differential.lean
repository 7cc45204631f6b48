import Verif.Props.Bare
/-
The letter `d` before a command is read with it as one symbol, so that the sign of a product after `d` is lost (C126).
-/

namespace Verif.L2S
open Verif Verif.Reading Verif.Grammar

/-! ### Proofs -/

/-- what may follow the name of a differential (PS.g4:160) -/
def diffEnd : Rx := .opt (.seq (.lit s%"_") (.alt (.chr digit) (.cat [.lit s%"{", .plus (.chr digit), .lit s%"}"])))

theorem letter_plain {c : Char} (h : letter c = true) : wsChar c = false ∧ c ≠ '_' ∧ c ≠ '\\' := by
  refine ⟨?_, ?_, ?_⟩
  · cases hw : wsChar c with
    | false => rfl
    | true =>
      simp only [wsChar, Bool.or_eq_true, beq_iff_eq] at hw
      rcases hw with ((rfl | rfl) | rfl) | rfl <;> revert h <;> decide
  · rintro rfl; revert h; decide
  · rintro rfl; revert h; decide

theorem name_step {c : Char} (h : letter c = true) :
    step [(Kind.DIFFERENTIAL, .seq (.star (.chr letter)) diffEnd)] c = [(Kind.DIFFERENTIAL, .seq (.star (.chr letter)) diffEnd)] := by
  simp [step, Rx.deriv, h, Rx.seq', Rx.alt', Rx.dead, Rx.nullable, diffEnd, Rx.opt, (letter_plain h).2.1]

theorem name_stop {c : Char} (h : letter c = false) (hc : c ≠ '_') :
    step [(Kind.DIFFERENTIAL, .seq (.star (.chr letter)) diffEnd)] c = [] := by
  simp [step, Rx.deriv, h, Rx.seq', Rx.alt', Rx.dead, Rx.nullable, diffEnd, Rx.opt, hc]

theorem munch_name : ∀ (nm rest : Str) (n : Nat), (∀ c ∈ nm, letter c = true) →
    (∀ c, rest.head? = some c → letter c = false ∧ c ≠ '_') →
    munch [(Kind.DIFFERENTIAL, .seq (.star (.chr letter)) diffEnd)] n (some (.DIFFERENTIAL, n)) (nm ++ rest) =
      some (.DIFFERENTIAL, n + nm.length)
  | [], rest, n, _, hr => by
    cases rest with
    | nil => rfl
    | cons c rest =>
      rw [List.nil_append, munch, name_stop (hr c rfl).1 (hr c rfl).2]
      rfl
  | c :: nm, rest, n, hn, hr => by
    rw [List.cons_append, munch, name_step (hn c (by simp))]
    simp only [List.find?, Rx.nullable, diffEnd, Rx.opt, List.isEmpty_nil, Bool.or_true, Bool.and_true]
    have := munch_name nm rest (n + 1) (fun d hd => hn d (by simp [hd])) hr
    simp only [diffEnd, Rx.opt] at this
    rw [this, List.length_cons]
    congr 2
    omega

/-- the rules after `d` and blanks -/
def blankState : List (Kind × Rx) := [(.DIFFERENTIAL, .seq (.star (.chr wsChar)) (.seq
  (.alt (.chr letter) (.seq (.lit s%"\\") (.plus (.chr letter)))) diffEnd))]

theorem blank_step {c : Char} (h : wsChar c = true) : step blankState c = blankState := by
  simp only [wsChar, Bool.or_eq_true, beq_iff_eq] at h
  rcases h with ((rfl | rfl) | rfl) | rfl <;> kernel_rfl

theorem munch_blank_name {nm rest : Str} {best : Option (Kind × Nat)} (h0 : nm ≠ []) (hn : ∀ c ∈ nm, letter c = true)
    (hr : ∀ c, rest.head? = some c → letter c = false ∧ c ≠ '_') : ∀ (b : Str) (n : Nat), (∀ c ∈ b, wsChar c = true) →
    munch blankState n best (b ++ '\\' :: (nm ++ rest)) = some (.DIFFERENTIAL, n + (b.length + (1 + nm.length)))
  | [], n, _ => by
    cases nm with
    | nil => exact absurd rfl h0
    | cons c nm =>
      have hc := hn c (by simp)
      have e1 : step blankState '\\' = [(.DIFFERENTIAL, .seq (.plus (.chr letter)) diffEnd)] := by kernel_rfl
      have e2 : step [(Kind.DIFFERENTIAL, .seq (.plus (.chr letter)) diffEnd)] c =
          [(Kind.DIFFERENTIAL, .seq (.star (.chr letter)) diffEnd)] := by
        simp [step, Rx.deriv, hc, Rx.seq', Rx.alt', Rx.dead, Rx.nullable, Rx.plus]
      have e3 : (Rx.seq (.star (.chr letter)) diffEnd).nullable = true := by decide
      rw [List.nil_append, munch, e1]
      simp only [List.find?, Rx.nullable, Rx.plus, Bool.false_and]
      rw [List.cons_append, munch]
      simp only [Rx.plus] at e2
      rw [e2]
      simp only [List.find?, e3]
      rw [munch_name nm rest (n + 1 + 1) (fun d hd => hn d (by simp [hd])) hr]
      simp only [List.length_cons, List.length_nil]
      congr 2
      omega
  | c :: b, n, hb => by
    have e3 : (Rx.seq (.star (.chr wsChar)) (.seq (.alt (.chr letter) (.seq (.lit s%"\\") (.plus (.chr letter)))) diffEnd)).nullable =
      false := by decide
    have ih := munch_blank_name (best := best) h0 hn hr b (n + 1) fun d hd => hb d (by simp [hd])
    rw [List.cons_append, munch, blank_step (hb c (by simp))]
    rw [blankState] at ih ⊢
    simp only [List.find?, e3]
    rw [ih, List.length_cons]
    congr 2
    omega

theorem munch_d_blank {c : Char} (h : wsChar c = true) {s : Str} : munch (steps rules s%"d") 1 (some (.LETTER_NO_E, 1)) (c :: s) =
    munch blankState 1 (some (.LETTER_NO_E, 1)) (c :: s) := by
  simp only [wsChar, Bool.or_eq_true, beq_iff_eq] at h
  rcases h with ((rfl | rfl) | rfl) | rfl <;> kernel_rfl

/-- **C126, the token.**  The letter `d`, blanks and a command are one token, a differential, whatever the command is. -/
theorem C126_token {b nm rest : Str} (hb : ∀ c ∈ b, c ∈ [' ', '\t', '\r', '\n']) (h0 : nm ≠ []) (hn : ∀ c ∈ nm, letter c = true)
    (hr : ∀ c, rest.head? = some c → letter c = false ∧ c ≠ '_') :
    Longest rules ('d' :: (b ++ '\\' :: (nm ++ rest))) .DIFFERENTIAL (b.length + nm.length + 2) := by
  refine (C88_longest _ _ _).1 ?_
  have hb' : ∀ c ∈ b, wsChar c = true := by
    intro c hc
    have := hb c hc
    simp only [List.mem_cons, List.not_mem_nil, or_false] at this
    rcases this with rfl | rfl | rfl | rfl <;> decide
  have e0 : ∀ s, munch rules 0 none ('d' :: s) = munch (steps rules s%"d") 1 (some (.LETTER_NO_E, 1)) s := fun s => by kernel_rfl
  rw [e0]
  cases b with
  | nil =>
    have e1 : ∀ s, munch (steps rules s%"d") 1 (some (.LETTER_NO_E, 1)) ('\\' :: s) =
      munch blankState 1 (some (.LETTER_NO_E, 1)) ('\\' :: s) := fun s => by kernel_rfl
    rw [List.nil_append, e1]
    have := munch_blank_name (best := some (.LETTER_NO_E, 1)) h0 hn hr [] 1 (by simp)
    rw [List.nil_append] at this
    rw [this]
    simp only [List.length_nil]
    congr 2
    omega
  | cons c b =>
    rw [List.cons_append, munch_d_blank (hb' c (by simp))]
    have := munch_blank_name (best := some (.LETTER_NO_E, 1)) h0 hn hr (c :: b) 1 hb'
    rw [List.cons_append] at this
    rw [this]
    simp only [List.length_cons]
    congr 2
    omega

/-- `d\times 3` and `d \cdot x` begin with the tokens `d\times` and `d \cdot`. -/
example : Longest rules s%"d\\times 3" .DIFFERENTIAL 7 ∧ Longest rules s%"d \\cdot x" .DIFFERENTIAL 7 :=
  ⟨C126_token (b := []) (nm := s%"times") (rest := s%" 3") (by simp) (by simp) (by decide) (by decide),
    C126_token (b := s%" ") (nm := s%"cdot") (rest := s%" x") (by decide) (by simp) (by decide) (by decide)⟩

theorem end_stop {rest : Str} {n : Nat} (hr : rest.head? ≠ some '_') :
    munch [(Kind.DIFFERENTIAL, diffEnd)] n (some (.DIFFERENTIAL, n)) rest = some (.DIFFERENTIAL, n) := by
  cases rest with
  | nil => rfl
  | cons c rest =>
    have hc : c ≠ '_' := fun e => hr (by rw [e]; rfl)
    have : step [(Kind.DIFFERENTIAL, diffEnd)] c = [] := by
      simp [step, Rx.deriv, Rx.seq', Rx.alt', Rx.dead, Rx.nullable, diffEnd, Rx.opt, hc]
    rw [munch, this]

theorem letter_step {c : Char} (h : letter c = true) : step blankState c = [(Kind.DIFFERENTIAL, diffEnd)] := by
  simp [step, blankState, Rx.deriv, h, Rx.seq', Rx.alt', Rx.dead, Rx.nullable, (letter_plain h).1, (letter_plain h).2.2]
  rfl

theorem munch_blank_letter {c : Char} {rest : Str} {best : Option (Kind × Nat)} (hc : letter c = true) (hr : rest.head? ≠ some '_') :
    ∀ (b : Str) (n : Nat), (∀ c ∈ b, wsChar c = true) →
    munch blankState n best (b ++ c :: rest) = some (.DIFFERENTIAL, n + (b.length + 1))
  | [], n, _ => by
    have e3 : diffEnd.nullable = true := by decide
    rw [List.nil_append, munch, letter_step hc]
    simp only [List.find?, e3]
    rw [end_stop hr, List.length_nil]
  | x :: b, n, hb => by
    have e3 : (Rx.seq (.star (.chr wsChar)) (.seq (.alt (.chr letter) (.seq (.lit s%"\\") (.plus (.chr letter)))) diffEnd)).nullable =
      false := by decide
    have ih := munch_blank_letter (best := best) hc hr b (n + 1) fun d hd => hb d (by simp [hd])
    rw [List.cons_append, munch, blank_step (hb x (by simp))]
    rw [blankState] at ih ⊢
    simp only [List.find?, e3]
    rw [ih, List.length_cons]
    congr 2
    omega

/-- **C126, the token before a letter.**  The letter `d`, blanks and a letter are one token, a differential; only `di` may begin a
longer word. -/
theorem C126_pair {c : Char} {b rest : Str} (hb : ∀ c ∈ b, c ∈ [' ', '\t', '\r', '\n']) (hc : letter c = true)
    (hi : b = [] → c ≠ 'i') (hr : rest.head? ≠ some '_') :
    Longest rules ('d' :: (b ++ c :: rest)) .DIFFERENTIAL (b.length + 2) := by
  refine (C88_longest _ _ _).1 ?_
  have hb' : ∀ c ∈ b, wsChar c = true := by
    intro c hc
    have := hb c hc
    simp only [List.mem_cons, List.not_mem_nil, or_false] at this
    rcases this with rfl | rfl | rfl | rfl <;> decide
  have e0 : ∀ s, munch rules 0 none ('d' :: s) = munch (steps rules s%"d") 1 (some (.LETTER_NO_E, 1)) s := fun s => by kernel_rfl
  rw [e0]
  cases b with
  | nil =>
    have e1 : step (steps rules s%"d") c = step blankState c := by
      have h1 := (letter_plain hc).1
      have h2 := (letter_plain hc).2.2
      have h3 := hi rfl
      rw [steps_d]
      simp [step, blankState, diffEnd, Rx.deriv, hc, Rx.seq', Rx.alt', Rx.dead, Rx.nullable, h1, h2, h3]
      rfl
    have := munch_blank_letter (best := some (.LETTER_NO_E, 1)) hc hr [] 1 (by simp)
    rw [List.nil_append, munch] at this
    rw [List.nil_append, munch, e1, this]
    simp only [List.length_nil]
  | cons x b =>
    rw [List.cons_append, munch_d_blank (hb' x (by simp))]
    have := munch_blank_letter (best := some (.LETTER_NO_E, 1)) hc hr (x :: b) 1 hb'
    rw [List.cons_append] at this
    rw [this]
    simp only [List.length_cons]
    congr 2
    omega

/-- In `dc+1` and `d x` the second letter is part of the symbol, so that `bdc` and `bcd` are read as different products. -/
example : Longest rules s%"dc+1" .DIFFERENTIAL 2 ∧ Longest rules s%"d x" .DIFFERENTIAL 3 :=
  ⟨C126_pair (b := []) (c := 'c') (rest := s%"+1") (by simp) (by decide) (by decide) (by decide),
    C126_pair (b := s%" ") (c := 'x') (rest := []) (by decide) (by decide) (by decide) (by decide)⟩

section
variable {Y : Type} {K : Type} [Field K] [CharZero K] {I : Interp K} {L : Lib Y} {free : Str → Prop}

/-- **C126, the symbol.**  This token is converted to one symbol, the name of which is `d` with the name of the command. -/
theorem C126_symbol (rec : Str → List (Str × PV) → M (St Y) SV) {b nm : Str} (hb : ∀ c ∈ b, c ∈ [' ', '\t', '\r', '\n'])
    (w : World (St Y)) : conv L rec (.differential ('d' :: (b ++ '\\' :: nm))) w = (.ok (.sym ('d' :: nm) w.ext.g.isReal), w) := by
  have h : ∀ b : Str, (∀ c ∈ b, c ∈ [' ', '\t', '\r', '\n']) → (b ++ '\\' :: nm).dropWhile (fun c =>
      c == ' ' || c == Char.ofNat 13 || c == Char.ofNat 10 || c == Char.ofNat 9) = '\\' :: nm := by
    intro b hb
    induction b with
    | nil => rfl
    | cons c b ih =>
      have hc := hb c (by simp)
      rw [List.cons_append, List.dropWhile_cons_of_pos, ih fun d hd => hb d (by simp [hd])]
      simp only [List.mem_cons, List.not_mem_nil, or_false] at hc
      rcases hc with rfl | rfl | rfl | rfl <;> decide
  have hv : differentialVar ('d' :: (b ++ '\\' :: nm)) = .ok nm := by
    rw [differentialVar]
    simp only [List.drop_succ_cons, List.drop_zero, h b hb]
  rw [conv]
  simp only [M.bind_run, hv, M.lift_run]
  rfl

/-- **C126**, partial: the product of a letter and what follows the sign, for the letters other than `d`, `e`, `E` and `I`. -/
theorem C126_products_partial (hL : SoundLib I L) (hp : ∀ s t, parseText s = some t → L.parse s = .ok t) {c : Char}
    (hc : isVariable c = true) (hf : free [c]) {o : Sign} (ho : o ∈ timesSigns) {b : Bool} {vs : List Sign} {y : K}
    (hv : Denotes I free false (.signed b) vs y) {s : Str} (hw : Written (.letter c :: o :: vs) s) (n : Nat)
    (vals : List (Str × PV)) (w : World (St Y)) (hr : Ready I free w) :
    ∃ v w', latex2sympy L (n + 1) s vals w = (.ok v, w') ∧ v.scalar = true ∧ den I v = I.var [c] * y :=
  C76_latex2sympy hL hp hw (.term (.mul (us := [.letter c]) ho
    (.signed (.product (.factor (.power (.base (.letter (.latin hc) hf)))))) hv)) n vals w hr

end

/-- `x\cdot 2` has the value `x·2`. -/
example (x : ℝ) : ∃ v w', latex2sympy textLib 1 s%"x\\cdot 2" [] startWorld = (.ok v, w') ∧ v.scalar = true ∧ den (realAt x) v = x * 2 := by
  have h2 : Denotes (realAt x) (fun _ => True) false (.signed false) [.digit 2] (((2 : ℚ) : ℝ)) :=
    .product (.factor (.power (.base (.number (num1 2)))))
  have h1 := C126_products_partial (I := realAt x) (L := textLib) (nodeLib_sound _ none _) textLib_parse (c := 'x') (by decide) trivial
    (o := .cmd s%"cdot") (by decide) h2 (s := s%"x\\cdot 2") (writtenB_sound (by decide +kernel)) 0 [] startWorld ⟨rfl, fun _ _ => rfl⟩
  simpa [realInterp, Interp.var] using h1

/-- `d*2` is the product of `d` and 2: only a command is lost. -/
example : (latex2sympy textLib 1 s%"d*2" [] startWorld).1 = .ok (.mul [.sym s%"d" none, .num 2]) := by kernel_rfl

/-- **C126 is violated** for the letter `d`: the value of `d\cdot 2` is not that of `d` times 2. -/
theorem C126_refuted : ¬ ∀ ρ : Str → ℝ, ∃ v w', latex2sympy textLib 1 s%"d\\cdot 2" [] startWorld = (.ok v, w') ∧
    den (realInterp (fun n _ => ρ n) none) v = ρ s%"d" * 2 := by
  intro h
  obtain ⟨v, w, h1, h2⟩ := h fun n => if n = s%"d" then 3 else 0
  have e : (latex2sympy textLib 1 s%"d\\cdot 2" [] startWorld).1 = .ok (.mul [.sym s%"dcdot" none, .num 2]) := by kernel_rfl
  rw [h1] at e
  cases e
  revert h2
  simp [den, denProd, realInterp]

theorem read_bdc : (latex2sympy textLib 1 s%"bdc" [] startWorld).1 = .ok (.mul [.sym s%"b" none, .sym s%"dc" none]) := by kernel_rfl

/-- **C126 is violated** without a sign as well: the value of `bdc` is not the product of `b`, `d` and `c`. -/
theorem C126_order_refuted : ¬ ∀ ρ : Str → ℝ, ∃ v w', latex2sympy textLib 1 s%"bdc" [] startWorld = (.ok v, w') ∧
    den (realInterp (fun n _ => ρ n) none) v = ρ s%"b" * ρ s%"d" * ρ s%"c" := by
  intro h
  obtain ⟨v, w, h1, h2⟩ := h fun n => if n = s%"dc" then 0 else 1
  have e := read_bdc
  rw [h1] at e
  cases e
  revert h2
  simp [den, denProd, realInterp]

end Verif.L2S
