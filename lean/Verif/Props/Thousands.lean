import Verif.Props.Products
import Verif.Props.Calls
/-
Commas between the arguments of a function that look like thousands separators (C123).
-/

namespace Verif.L2S
open Verif Verif.Reading Verif.Grammar

section
variable {X V S : Type} {E : Env X V S}

/-- An answer with one element of another text (by the thousands separators) is judged as that text. -/
theorem isEquiv_regrouped (n : Nat) {a b x y x' y' : Str} {verbose r : Bool}
    (ha : Always (stringNormalize E n a) (.str x)) (hb : Always (stringNormalize E n b) (.str y))
    (hab : strip a ≠ strip b) (hxy : x ≠ y) (hy : y ≠ []) (hx' : splitTuple E.U E.setOrder x none = .ok (.str x'))
    (hy' : splitTuple E.U E.setOrder y none = .ok (.str y')) (hne : x' ≠ x) (hm : strIsMat x = false ∧ strIsMat y = false)
    (ri : Always (strToInterval E x) none) (rj : Always (strToInterval E y) none)
    (h : Always (isEquiv E n (some x') (some y') verbose) r) : Always (isEquiv E (n + 1) (some a) (some b) verbose) r := by
  show Always (isEquivStr E (n + 1) a b verbose) r
  unfold isEquivStr
  rw [if_neg hab]
  have hye : y.isEmpty = false := by simpa using hy
  have main : Always (compareNorms E (isEquivStr E n) n verbose (.str x) (.str y)) r := by
    unfold compareNorms
    simp only [hxy, decide_false, Bool.false_eq_true, if_false]
    apply Always.tryExcept
    unfold isLatexEquiv
    simp only [hye, Bool.false_eq_true, if_false]
    apply Always.bind (a := (false, false))
    · split
      · unfold possibleIntervals
        apply ri.bind
        apply rj.bind
        exact Always.pure _
      · exact Always.pure _
    simp only [Bool.not_false, if_true]
    apply Always.bind (a := (r, true))
    · have key : Always (elemsEquiv (isEquivStr E n) x y verbose (.str x') (.str y')) (r, true) := by
        simp only [elemsEquiv, hne, false_and, if_false]
        exact Always.bind (show Always (isEquivStr E n x' y' verbose) r from h) (Always.pure _)
      unfold possibleTuple
      rw [hx', hy']
      have l : ∀ e : Elems, Always (M.lift (X := X) (.ok e)) e := fun e w => ⟨w, rfl⟩
      apply (l _).bind
      apply (l _).bind
      exact print_always _ _ key
    · simp only [hm.1, hm.2, Bool.or_self, Bool.and_false, Bool.false_eq_true, if_false]
      apply Always.bind (Always.pure _)
      simp only [Bool.not_true, Bool.and_false, Bool.false_eq_true, if_false]
      exact Always.pure _
  apply ha.bind
  apply hb.bind
  exact print_always _ _ main
end

section
variable {X Y V S : Type} {K : Type} [Field K] {E : Env X V S} {L : Lib Y} {I : Interp K} {inj : SV → V}
  {N : Nat}

/-- a word that a call of this command with digits and commas does not contain -/
def foreign (cmd p : Str) : Bool :=
  p.any (fun x => !cmd.contains x && !asciiDigit x && x != ',' && x != '(' && x != ')') ||
  !p.contains '(' && !contains p cmd && p.any (fun x => !asciiDigit x && x != ',' && x != ')')

omit [Field K] in
theorem foreign_absent {cmd p body : Str} (hb : ∀ x ∈ body, asciiDigit x = true ∨ x = ',') (h : foreign cmd p = true) :
    ¬ p <:+: cmd ++ '(' :: (body ++ [')']) := by
  intro hi
  rw [foreign, Bool.or_eq_true] at h
  rcases h with h | h
  · obtain ⟨x, hx, hf⟩ := List.any_eq_true.1 h
    have := hi.subset hx
    simp only [List.mem_append, List.mem_cons, List.not_mem_nil, or_false] at this
    simp only [Bool.and_eq_true, Bool.not_eq_true', bne_iff_ne, ne_eq, List.contains_eq_mem, decide_eq_false_iff_not] at hf
    obtain ⟨⟨⟨⟨f1, f2⟩, f3⟩, f4⟩, f5⟩ := hf
    rcases this with h | h | h | h
    · exact f1 h
    · exact f4 h
    · rcases hb x h with h | h
      · rw [h] at f2; cases f2
      · exact f3 h
    · exact f5 h
  · simp only [Bool.and_eq_true, Bool.not_eq_true', List.contains_eq_mem, decide_eq_false_iff_not] at h
    obtain ⟨⟨h1, h2⟩, h3⟩ := h
    rcases infix_straddle h1 hi with h | h
    · rw [(contains_iff _ _).2 h] at h2; cases h2
    · obtain ⟨x, hx, hf⟩ := List.any_eq_true.1 h3
      have := h.subset hx
      simp only [List.mem_append, List.mem_cons, List.not_mem_nil, or_false] at this
      simp only [Bool.and_eq_true, Bool.not_eq_true', bne_iff_ne, ne_eq] at hf
      rcases this with h | h
      · rcases hb x h with h | h
        · rw [h] at hf; exact Bool.noConfusion hf.1.1
        · exact hf.1.2 h
      · exact hf.2 h

/-- a call with digits and commas is left as it is by the normaliser -/
theorem call_neat {cmd body : Str} (hc : cmd ∈ severalCommands) (hb : ∀ x ∈ body, asciiDigit x = true ∨ x = ',') :
    Neat (cmd ++ '(' :: (body ++ [')'])) := by
  have out : ∀ p : Str, (∀ c ∈ severalCommands, foreign c p = true) → ¬ p <:+: cmd ++ '(' :: (body ++ [')']) :=
    fun p h => foreign_absent hb (h cmd hc)
  have one : ∀ (x : Char) (u v : Str), (∀ c ∈ severalCommands, foreign c [x] = true) → cmd ++ '(' :: (body ++ [')']) ≠ u ++ x :: v :=
    fun x u v h e => out [x] h ⟨u, v, by rw [e]; simp⟩
  refine ⟨fun x hx => ?_, fun p hp => out p fun c h => ?_, ?_, fun u v d e => ?_, fun u v d e => ?_, out _ (by decide +kernel), out _ (by decide +kernel)⟩
  · simp only [List.mem_append, List.mem_cons, List.not_mem_nil, or_false] at hx
    rcases hx with hx | rfl | hx | rfl
    · exact (show ∀ c ∈ severalCommands, ∀ x ∈ c, 33 ≤ x.toNat ∧ x.toNat < 127 ∧ asciiUpper x = false ∧ x ∉ s%"$%:" by decide +kernel) cmd hc x hx
    · decide
    · rcases hb x hx with h | rfl
      · simp only [asciiDigit, decide_eq_true_eq] at h
        refine ⟨by omega, by omega, ?_, ?_⟩
        · rw [asciiUpper, decide_eq_false_iff_not]
          omega
        · intro hm
          simp only [List.mem_cons, List.not_mem_nil, or_false] at hm
          rcases hm with rfl | rfl | rfl <;> revert h <;> decide
      · decide
    · decide
  · exact (show ∀ p ∈ tidySpecial, ∀ c ∈ severalCommands, foreign c p = true by decide +kernel) p hp c h
  · simp only [severalCommands, List.mem_cons, List.not_mem_nil, or_false] at hc
    rcases hc with rfl | rfl | rfl | rfl <;> exact ⟨by simp, by simp [List.cons_prefix_cons]⟩
  · exact absurd (by rw [e]; simp) (one 'f' (u ++ [d, '\\']) (s%"rac" ++ v) (by decide +kernel))
  · exact absurd (by rw [e]; simp) (one '_' (u ++ [d]) v (by decide +kernel))

/-- the normal form of `\max(1,234)` is the text itself, and it is no interval, but its one element is `\max(1234)` -/
theorem max_regrouped (he : ReadsPart L) (hl : UsesUndeclared E L N inj I.real) (n : Nat) {t y : Str} {verbose r : Bool}
    (ht : Always (stringNormalize E (n + 1) t) (.str y)) (hy : Undivided E y) (h1 : strip t ≠ s%"\\max(1,234)") (h2 : y ≠ s%"\\max(1,234)")
    (h : Always (isEquiv E (n + 1) (some s%"\\max(1234)") (some y) verbose) r) :
    Always (isEquiv E (n + 2) (some s%"\\max(1,234)") (some t) verbose) r := by
  have hn : Neat s%"\\max(1,234)" := neatB_sound (by decide +kernel)
  exact isEquiv_regrouped (n + 1) (hn.fixed E n (fun q hq => by cases hq) rfl) ht (fun e => h1 e.symm) (fun e => h2 e.symm) hy.nonempty
    (x' := s%"\\max(1234)") rfl hy.unsplit (by decide) ⟨by decide +kernel, hy.notMat⟩
    (C125_interval (cmd := s%"\\max") (rest := s%"(1,234)") he hl (by decide) hn (by decide +kernel)) hy.noRange h

/-- the text of a number with commas is different from the one without -/
theorem grouped_comma {k : Nat} (h : 1000 ≤ k) : ',' ∈ grouped k := by
  rw [grouped, if_neg (by omega)]
  simp

theorem grouped_chars (k : Nat) : ∀ x ∈ grouped k, asciiDigit x = true ∨ x = ',' := by
  induction k using Nat.strongRecOn with
  | _ k ih =>
    rw [grouped]
    split
    · exact fun x hx => .inl (natStr_digits k x hx)
    · intro x hx
      simp only [List.append_assoc, List.mem_append, List.mem_cons, List.not_mem_nil, or_false] at hx
      rcases hx with hx | rfl | hx
      · exact ih _ (by omega) x hx
      · exact .inr rfl
      · exact .inl (pad3_digits (Nat.mod_lt _ (by omega)) x hx)

/-- **C123 is violated** by every call whose two or more arguments look like one number with thousands separators, for every CAS: it is
judged equivalent to the call with this number as its only argument. -/
theorem C123_grouped_refuted (he : ReadsPart L) (hl : UsesUndeclared E L N inj I.real) {cmd : Str} (hc : cmd ∈ severalCommands) {k : Nat}
    (hk : 1000 ≤ k) (n : Nat) (verbose : Bool) :
    Always (isEquiv E (n + 2) (some (cmd ++ '(' :: (grouped k ++ [')']))) (some (cmd ++ '(' :: (natStr k ++ [')']))) verbose) true := by
  have hn : Neat (cmd ++ '(' :: (grouped k ++ [')'])) := call_neat hc (grouped_chars k)
  have hd : ∀ x ∈ natStr k, asciiDigit x = true ∨ x = ',' := fun x hx => .inl (natStr_digits k x hx)
  have hn' : Neat (cmd ++ '(' :: (natStr k ++ [')'])) := call_neat hc hd
  have hcc : ',' ∉ cmd := (show ∀ c ∈ severalCommands, ',' ∉ c by decide) cmd hc
  have hnc : ',' ∉ cmd ++ '(' :: (natStr k ++ [')']) := by
    intro hm
    simp only [List.mem_append, List.mem_cons, List.not_mem_nil, or_false] at hm
    rcases hm with h | h | h | h
    · exact hcc h
    · cases h
    · have := natStr_digits k _ h
      cases this
    · cases h
  have hs : stripCommas E.U (cmd ++ '(' :: (grouped k ++ [')'])) = cmd ++ '(' :: (natStr k ++ [')']) := by
    rw [C21_in_context E.U k cmd [] '(' ')' ⟨rfl, by decide, by decide⟩ ⟨rfl, by decide, by decide⟩, stripCommas_nocomma hcc,
      stripCommas_nocomma (by simp)]
  have flt : ∀ b : Str, pyFloat E.U (cmd ++ '(' :: b) = none := fun b => pyFloat_none '(' (by simp) rfl
  have hint : ∀ {s b : Str}, stripCommas E.U s = cmd ++ '(' :: b → strIsInt E.U s = false := by
    intro s b e
    unfold strIsInt
    rw [e, flt]
  have sets : ∀ {b : Str}, (∀ x ∈ b, asciiDigit x = true ∨ x = ',') → ¬ s%"\\cup" <:+: cmd ++ '(' :: (b ++ [')']) ∧
      ¬ s%"\\cap" <:+: cmd ++ '(' :: (b ++ [')']) := fun hb =>
    ⟨foreign_absent hb ((show ∀ c ∈ severalCommands, foreign c s%"\\cup" = true by decide +kernel) cmd hc),
      foreign_absent hb ((show ∀ c ∈ severalCommands, foreign c s%"\\cap" = true by decide +kernel) cmd hc)⟩
  have mat : ∀ {b : Str}, (∀ x ∈ b, asciiDigit x = true ∨ x = ',') → ¬ s%"matrix" <:+: cmd ++ '(' :: (b ++ [')']) := fun hb =>
    foreign_absent hb ((show ∀ c ∈ severalCommands, foreign c s%"matrix" = true by decide +kernel) cmd hc)
  have mat' : ∀ {b : Str}, (∀ x ∈ b, asciiDigit x = true ∨ x = ',') → strIsMat (cmd ++ '(' :: (b ++ [')'])) = false := fun hb => by
    rw [strIsMat, Bool.eq_false_iff, ne_eq, contains_iff]
    exact mat hb
  have tog : Together E.U (cmd ++ '(' :: (natStr k ++ [')'])) := by
    refine ⟨by simp, fun p q e => absurd (by rw [e]; simp) hnc, fun ⟨a, x, y, z₁, z₂, z₃, b, e, _⟩ => absurd (by rw [e]; simp) hnc, mat hd, ?_, ?_,
      sets hd⟩
    · have := (show ∀ c ∈ severalCommands, (c.map bracketDelta).sum = 0 by decide) cmd hc
      simp only [List.map_append, List.sum_append, List.map_cons, List.sum_cons, delta_digits (natStr_digits k), this]
      decide
    · intro x hx
      simp only [severalCommands, List.mem_cons, List.not_mem_nil, or_false] at hc
      rcases hc with rfl | rfl | rfl | rfl <;> (cases hx; decide)
  have hne : cmd ++ '(' :: (natStr k ++ [')']) ≠ cmd ++ '(' :: (grouped k ++ [')']) := fun e => hnc (by
    rw [e]
    simp [grouped_comma hk])
  have space : ∀ {s : Str}, Neat s → strip s = s := fun h => strip_of_no_space _ fun _ hc => h.space hc
  refine isEquiv_regrouped (n + 1) (hn.fixed E n (fun q hq => by rw [flt] at hq; cases hq) (hint hs))
    (hn'.fixed E n (fun q hq => by rw [flt] at hq; cases hq) (hint (stripCommas_nocomma hnc))) (by rw [space hn, space hn']; exact hne.symm) hne.symm
    (by simp) ?_ (tog.unsplit _) hne ⟨mat' (grouped_chars k), mat' hd⟩ (C125_interval he hl hc hn (sets (grouped_chars k)))
    (C125_interval he hl hc hn' (sets hd)) ?_
  · rw [← tog.unsplit E.setOrder]
    unfold splitTuple
    rw [hs, stripCommas_nocomma hnc]
  · show Always (isEquivStr E (n + 1) _ _ verbose) true
    unfold isEquivStr
    rw [if_pos rfl]
    exact Always.pure _

end

theorem max_grouped (x : Unit) : (latex2sympy grammarLib 2 s%"\\max(1,234)" [] ⟨⟨Globals.init, x⟩, []⟩).1 =
    .ok (.fn s%"Max" [.num 1, .num 234]) := by kernel_rfl

theorem maxNumber (ρ : Str → ℝ) {ds : List (Fin 10)} (h : ds ≠ []) :
    Denotes (maxReals.vars ρ) (fun _ => True) (false : Bool) .expr (ds.map .digit) ((intPart ds : ℚ) : ℝ) :=
  .term (.signed (.product (.factor (.power (.base (.number (.whole h)))))))

/-- `\max(1234)` -/
theorem max_one : NumberCalled maxEnv grammarLib maxReals IsConst asMax 0 s%"\\max(1234)" 1234 :=
  .call (callAnswer_of (ws := [.digit 1, .digit 2, .digit 3, .digit 4]) (by decide +kernel) (by decide +kernel)
    (by decide +kernel) (by decide +kernel)
    (fun ρ => ⟨_, .one (maxNumber ρ (ds := [1, 2, 3, 4]) (by simp)) (compact_of (by decide +kernel) (by decide +kernel)), by
      norm_num [greatest, intPart]⟩) rfl)

/-- `\max(234,1)` -/
theorem max_turned : NumberCalled maxEnv grammarLib maxReals IsConst asMax 0 s%"\\max(234,1)" 234 :=
  .call (callAnswer_of (ws := [.digit 2, .digit 3, .digit 4] ++ .mark ',' :: [.digit 1]) (by decide +kernel) (by decide +kernel)
    (by decide +kernel) (by decide +kernel)
    (fun ρ => ⟨_, .cons (maxNumber ρ (ds := [2, 3, 4]) (by simp)) (compact_of (by decide +kernel) (by decide +kernel))
      (.one (maxDigit ρ 1) (compact_of (by decide +kernel) (by decide +kernel))) (by decide), by norm_num [greatest, intPart]⟩) rfl)

/-- `\max(1,234)` and `\max(1234)` are judged equivalent. -/
theorem max_together (n : Nat) (verbose : Bool) :
    Always (isEquiv maxEnv (n + 4) (some s%"\\max(1,234)") (some s%"\\max(1234)") verbose) true := by
  have h := C123_grouped_refuted (E := maxEnv) (I := maxReals) grammarLib_reads maxEnv_uses (cmd := s%"\\max") (by decide) (k := 1234) (by decide) (n + 2)
    verbose
  have e : grouped 1234 = s%"1,234" := by rw [grouped, grouped]; decide +kernel
  have e' : natStr 1234 = s%"1234" := by decide +kernel
  rw [e, e'] at h
  exact h

/-- **C123 is violated by three digits after a comma**: `\max(1,234)`, which is converted to the greatest of 1 and 234, is judged
as if it were `\max(1234)`; it is not equivalent to `\max(234,1)`. -/
theorem C123_thousands_refuted (n : Nat) (verbose : Bool) :
    (∀ x : Unit, ∃ v, (latex2sympy grammarLib 2 s%"\\max(1,234)" [] ⟨⟨Globals.init, x⟩, []⟩).1 = .ok v ∧ den maxReals v = 234) ∧
    Always (isEquiv maxEnv (n + 4) (some s%"\\max(1,234)") (some s%"\\max(1234)") verbose) true ∧
    Always (isEquiv maxEnv (n + 4) (some s%"\\max(1,234)") (some s%"\\max(234,1)") verbose) false := by
  refine ⟨fun x => ⟨_, max_grouped x, ?_⟩, max_together n verbose, ?_⟩
  · simp [den, denList, maxReals, greatest]
  · have hn : Neat s%"\\max(234,1)" := neatB_sound (by decide +kernel)
    refine max_regrouped grammarLib_reads (I := maxReals) maxEnv_uses (n + 2) (hn.fixed maxEnv (n + 2) (fun q hq => by cases hq) rfl) ⟨by decide, rfl,
      by decide +kernel, C125_interval (I := maxReals) (cmd := s%"\\max") (rest := s%"(234,1)") grammarLib_reads maxEnv_uses (by decide) hn
        (by decide +kernel)⟩ (by decide) (by decide) ?_
    have key := C123_numbers_partial maxReals_sound grammarLib_parse grammarLib_reads maxEnv_uses maxEnv_numbers maxEnv_prints
      (fun _ => maxEnv_valued _ _) max_one max_turned n verbose
    exact key.no (by norm_num [WithinTolerance, abs_of_pos])

end Verif.L2S
