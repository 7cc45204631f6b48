import Verif.Props.Marks
/-
Property C27, first part: no dollar sign survives.
-/

namespace Verif
open Re

variable {X V S : Type}

/-! ### Captured groups are parts of the text -/

theorem mem_ite_single {α : Type} {b : Bool} {s t : α} (h : t ∈ if b = true then [s] else []) : t = s := by
  cases b
  · simp at h
  · simpa using h

theorem starGo_caps (g : Bool) (f : RSt → List RSt) (P : Char → Prop)
    (hf : ∀ s t, t ∈ f s → (∀ c ∈ s.rest, P c) → (∀ u ∈ s.caps, ∀ c ∈ u.2, P c) → (∀ c ∈ t.rest, P c) ∧ ∀ u ∈ t.caps, ∀ c ∈ u.2, P c)
    (n : Nat) (s t : RSt) (h : t ∈ starGo g f n s) (h1 : ∀ c ∈ s.rest, P c) (h2 : ∀ u ∈ s.caps, ∀ c ∈ u.2, P c) :
    (∀ c ∈ t.rest, P c) ∧ ∀ u ∈ t.caps, ∀ c ∈ u.2, P c := by
  induction n generalizing s with
  | zero =>
    simp only [starGo, List.mem_singleton] at h
    subst h; exact ⟨h1, h2⟩
  | succ n ih =>
    have key : t = s ∨ t ∈ ((f s).filter (fun t => decide (t.rest.length < s.rest.length))).flatMap (starGo g f n) := by
      simp only [starGo] at h
      cases g
      · simp only [Bool.false_eq_true, if_false, List.mem_cons] at h; exact h
      · simp only [if_true, List.mem_append, List.mem_singleton] at h; exact h.symm
    rcases key with rfl | h
    · exact ⟨h1, h2⟩
    · rw [List.mem_flatMap] at h
      obtain ⟨v, hv, ht⟩ := h
      obtain ⟨h3, h4⟩ := hf s v (List.mem_of_mem_filter hv) h1 h2
      exact ih v ht h3 h4

/-- Every captured group consists of characters of the text. -/
theorem run_caps (P : Char → Prop) (r : Re) : ∀ s t, t ∈ r.run s → (∀ c ∈ s.rest, P c) → (∀ u ∈ s.caps, ∀ c ∈ u.2, P c) →
    (∀ c ∈ t.rest, P c) ∧ ∀ u ∈ t.caps, ∀ c ∈ u.2, P c := by
  induction r with
  | eps =>
    intro s t h h1 h2
    simp only [Re.run, List.mem_singleton] at h
    subst h; exact ⟨h1, h2⟩
  | chr p =>
    intro s t h h1 h2
    simp only [Re.run] at h
    split at h
    · simp at h
    · rename_i c cs e
      split at h
      · simp only [List.mem_singleton] at h
        subst h
        exact ⟨fun x hx => h1 x (by rw [e]; simp [hx]), h2⟩
      · simp at h
  | seq a b iha ihb =>
    intro s t h h1 h2
    simp only [Re.run, List.mem_flatMap] at h
    obtain ⟨v, hv, ht⟩ := h
    obtain ⟨h3, h4⟩ := iha s v hv h1 h2
    exact ihb v t ht h3 h4
  | alt a b iha ihb =>
    intro s t h h1 h2
    simp only [Re.run, List.mem_append] at h
    rcases h with h | h
    · exact iha s t h h1 h2
    · exact ihb s t h h1 h2
  | star g r ih => exact fun s t h h1 h2 => starGo_caps g r.run P ih _ s t h h1 h2
  | grp n r ih =>
    intro s t h h1 h2
    simp only [Re.run, List.mem_map] at h
    obtain ⟨v, hv, rfl⟩ := h
    obtain ⟨h3, h4⟩ := ih s v hv h1 h2
    refine ⟨h3, ?_⟩
    intro u hu c hc
    rcases List.mem_cons.1 hu with rfl | hu
    · exact h1 c (List.mem_of_mem_take hc)
    · exact h4 u hu c hc
  | bos =>
    intro s t h h1 h2
    simp only [Re.run] at h
    split at h
    · simp only [List.mem_singleton] at h; subst h; exact ⟨h1, h2⟩
    · simp at h
  | eos =>
    intro s t h h1 h2
    simp only [Re.run] at h
    split at h
    · simp only [List.mem_singleton] at h; subst h; exact ⟨h1, h2⟩
    · simp at h
  | behind neg p =>
    intro s t h h1 h2
    simp only [Re.run] at h
    rw [mem_ite_single h]; exact ⟨h1, h2⟩
  | ahead neg p =>
    intro s t h h1 h2
    simp only [Re.run] at h
    rw [mem_ite_single h]; exact ⟨h1, h2⟩

theorem matchAt_caps (P : Char → Prop) {r : Re} {pre rest : Str} {t : RSt} (h : r.matchAt pre rest = some t) (h1 : ∀ c ∈ rest, P c) :
    ∀ n, ∀ c ∈ t.groupD n, P c := by
  have ht : t ∈ r.run ⟨pre, rest, []⟩ := List.mem_of_head? h
  obtain ⟨-, h2⟩ := run_caps P r _ t ht h1 (by simp)
  intro n c hc
  unfold RSt.groupD RSt.group at hc
  cases hl : t.caps.lookup n with
  | none => rw [hl] at hc; simp at hc
  | some u =>
    rw [hl] at hc
    obtain ⟨l1, l2, e, -⟩ := List.lookup_eq_some_iff.1 hl
    exact h2 (n, u) (by rw [e]; simp) c hc

theorem reSearch_caps (P : Char → Prop) {r : Re} {s : Str} {t : RSt} (h : reSearch r s = some t) (h1 : ∀ c ∈ s, P c) :
    ∀ n, ∀ c ∈ t.groupD n, P c := by
  have aux : ∀ s pre, searchFrom r pre s = some t → (∀ c ∈ s, P c) → ∀ n, ∀ c ∈ t.groupD n, P c := by
    intro s
    induction s with
    | nil => exact fun pre h h1 => matchAt_caps P h h1
    | cons x xs ih =>
      intro pre h h1
      simp only [searchFrom] at h
      cases hm : r.matchAt pre (x :: xs) with
      | none => rw [hm] at h; exact ih _ h (fun c hc => h1 c (by simp [hc]))
      | some v =>
        rw [hm] at h
        cases h
        exact matchAt_caps P hm h1
  exact aux s [] h h1


/-! ### The stages bring no dollar sign -/

/-- A text without dollar signs. -/
def Clean (s : Str) : Prop := ∀ c ∈ s, c ≠ '$'

theorem Clean.not_mem {s : Str} (h : Clean s) : '$' ∉ s := fun hm => h _ hm rfl
theorem clean_of {s : Str} (h : '$' ∉ s) : Clean s := fun _ hc e => h (e ▸ hc)

theorem clean_append {a b : Str} (ha : Clean a) (hb : Clean b) : Clean (a ++ b) := by
  intro c hc
  rcases List.mem_append.1 hc with h | h
  · exact ha c h
  · exact hb c h

theorem clean_digits {s : Str} (h : ∀ c ∈ s, asciiDigit c = true) : Clean s := by
  intro c hc e
  have := h c hc
  rw [e] at this
  revert this; decide

theorem clean_natStr (n : Nat) : Clean (natStr n) := clean_digits (natStr_digits n)

theorem clean_intStr (z : Int) : Clean (intStr z) := by
  intro c hc e
  have := intStr_chars z c hc
  rw [e] at this
  revert this; decide

theorem clean_replace {p new s : Str} (hn : Clean new) (h : Clean s) : Clean (replace p new s) := by
  intro c hc
  rcases mem_replace hc with h' | h'
  · exact h c h'
  · exact hn c h'

theorem clean_reSubConst {r : Re} {new s : Str} (hn : Clean new) (h : Clean s) : Clean (reSubConst r new s) := by
  intro c hc
  rcases mem_reSubConst hc with h' | h'
  · exact h c h'
  · exact hn c h'

/-- The scanner sees only pieces of the text. -/
theorem scanSub_inv {m : Str → Str → Option (Nat × Str)} {P : Char → Prop}
    (hm : ∀ a b n r, (∀ c ∈ b, P c) → m a b = some (n, r) → ∀ c ∈ r, P c) (k : Nat) (pre s : Str) (hs : ∀ c ∈ s, P c) :
    ∀ c ∈ scanSub m k pre s, P c := by
  induction s generalizing k pre with
  | nil =>
    cases k with
    | zero =>
      simp only [scanSub]
      cases hr : m pre [] with
      | none => simp
      | some nr => exact hm _ _ nr.1 nr.2 hs hr
    | succ k => simp [scanSub]
  | cons c cs ih =>
    have hs' : ∀ c ∈ cs, P c := fun x hx => hs x (by simp [hx])
    cases k with
    | zero =>
      simp only [scanSub]
      cases hr : m pre (c :: cs) with
      | none =>
        intro x hx
        rcases List.mem_cons.1 hx with rfl | hx
        · exact hs x (by simp)
        · exact ih _ _ hs' x hx
      | some nr =>
        obtain ⟨n, r⟩ := nr
        have h1 := hm _ _ _ _ hs hr
        cases n with
        | zero =>
          intro x hx
          simp only [List.mem_append, List.mem_cons] at hx
          rcases hx with hx | rfl | hx
          · exact h1 x hx
          · exact hs x (by simp)
          · exact ih _ _ hs' x hx
        | succ n =>
          intro x hx
          rcases List.mem_append.1 hx with hx | hx
          · exact h1 x hx
          · exact ih _ _ hs' x hx
    | succ k =>
      simp only [scanSub]
      exact ih _ _ hs'

theorem clean_reSub {r : Re} {f : Str → RSt → Str} {s : Str} (hs : Clean s)
    (hf : ∀ m t, Clean m → (∀ n, Clean (t.groupD n)) → Clean (f m t)) : Clean (reSub r f s) := by
  refine scanSub_inv ?_ _ _ _ hs
  intro a b n q hb hm
  unfold Re.scanner at hm
  cases ht : r.matchAt a b with
  | none => rw [ht] at hm; cases hm
  | some t =>
    rw [ht] at hm
    simp only [Option.some.injEq, Prod.mk.injEq] at hm
    rw [← hm.2]
    exact hf _ _ (fun c hc => hb c (List.mem_of_mem_take hc)) (fun n => matchAt_caps (· ≠ '$') ht hb n)

theorem clean_infix {s t : Str} (h : Clean s) (hi : t <:+: s) : Clean t := fun c hc => h c (hi.subset hc)

theorem clean_strip {s : Str} (h : Clean s) : Clean (strip s) := by
  obtain ⟨l, r, e, _⟩ := stripBy_spec isSpace s
  exact clean_infix h ⟨l, r, e.symm⟩

theorem clean_removeDollar (s : Str) : Clean (removeDollar s) := by
  unfold removeDollar
  rw [replace_one_nil]
  intro c hc
  simpa using (List.mem_filter.1 hc).2

theorem clean_wordsAndControls {s : Str} (h : Clean s) : Clean (wordsAndControls s) := by
  unfold wordsAndControls
  have : ∀ c ∈ (s%"*10^6" ++ s%"*10^9" ++ s%"*10^12" ++ s%"\\f" ++ s%"\\b" ++ s%"\\a" ++ s%"\\t" ++ s%"\\r"), c ≠ '$' := by decide
  have hc : ∀ t : Str, t <:+: (s%"*10^6" ++ s%"*10^9" ++ s%"*10^12" ++ s%"\\f" ++ s%"\\b" ++ s%"\\a" ++ s%"\\t" ++ s%"\\r") → Clean t :=
    fun t ht => clean_infix this ht
  refine clean_replace (hc _ (by decide)) (clean_replace (hc _ (by decide)) (clean_replace (hc _ (by decide)) (clean_replace (hc _ (by decide))
    (clean_replace (hc _ (by decide)) (clean_replace (hc _ (by decide)) (clean_replace (hc _ (by decide)) (clean_replace (hc _ (by decide)) h)))))))

theorem clean_middle (s : Str) : Clean (middle s) := by
  unfold middle memberStep leftRight andOrStep
  have h1 : Clean (andOrStep (removeDollar s)) := clean_reSubConst (clean_of (by decide)) (clean_removeDollar s)
  exact clean_reSubConst (clean_of (by decide)) (clean_reSubConst (clean_of (by decide)) (clean_reSubConst (clean_of (by decide))
    (clean_reSubConst (clean_of (by decide)) (clean_reSubConst (clean_of (by decide)) (clean_wordsAndControls h1)))))

theorem clean_foldl {α : Type} (f : Str → α → Str) (hf : ∀ s a, Clean s → Clean (f s a)) (l : List α) (s : Str) (h : Clean s) : Clean (l.foldl f s) := by
  induction l generalizing s with
  | nil => exact h
  | cons a l ih => exact ih _ (hf s a h)

theorem clean_nil : Clean [] := clean_of (by decide)

theorem clean_unitsStep (U : Uni) {s : Str} (h : Clean s) : Clean (unitsStep U s) := by
  unfold unitsStep bareUnits anyText textUnits
  refine clean_foldl _ (fun s a h => clean_reSubConst clean_nil h) _ _ (clean_foldl _ (fun s a h => clean_reSubConst clean_nil h) _ _ (clean_reSubConst clean_nil ?_))
  exact clean_foldl _ (fun s a h => clean_reSubConst clean_nil (clean_reSubConst clean_nil h)) _ _ h

theorem clean_join {sep : Str} (hsep : Clean sep) {xs : List Str} (h : ∀ x ∈ xs, Clean x) : Clean (join sep xs) := by
  induction xs with
  | nil => exact clean_nil
  | cons a l ih =>
    cases l with
    | nil => exact h a (by simp)
    | cons b l => exact clean_append (clean_append (h a (by simp)) hsep) (ih (fun x hx => h x (by simp [hx])))

theorem clean_fmtList {xs : List Str} (h : ∀ x ∈ xs, Clean x) : Clean (fmtList xs) :=
  clean_append (clean_append (clean_of (by decide)) (clean_join (clean_of (by decide)) h)) (clean_of (by decide))

/-- All readings of a time result. -/
def TimeRes.all : TimeRes → List Str
  | .str s => [s]
  | .set xs => xs

theorem clean_hours (U : Uni) (h : Str) : ∀ x ∈ hours12 U h, Clean x := by
  unfold hours12
  intro x hx
  simp only [List.mem_cons, List.not_mem_nil, or_false] at hx
  rcases hx with rfl | rfl <;> exact clean_natStr _

theorem clean_time (U : Uni) {s : Str} (h : Clean s) : ∀ x ∈ (strToTimeList U s).all, Clean x := by
  unfold strToTimeList
  cases h1 : reSearch (timeRe1 U) s with
  | some t =>
    simp only
    split
    · exact clean_hours U _
    · intro x hx
      rw [List.mem_singleton.1 hx]
      exact reSearch_caps (· ≠ '$') h1 h 1
  | none =>
    simp only
    cases h2 : reSearch (timeRe2 U) s with
    | none =>
      intro x hx
      rw [List.mem_singleton.1 hx]; exact h
    | some t =>
      simp only
      have hn : ∀ n, Clean (natStr n) := clean_natStr
      have hh : ∀ b : Bool, ∀ l, (if b = true then some (hours12 U (t.groupD 1)) else none) = some l → ∀ x ∈ l, ∃ k, x = natStr k := by
        intro b l e x hx
        cases b
        · simp at e
        · simp only [if_true, Option.some.injEq] at e
          rw [← e] at hx
          simp only [hours12, List.mem_cons, List.not_mem_nil, or_false] at hx
          rcases hx with rfl | rfl <;> exact ⟨_, rfl⟩
      have hl : ∀ a b, Clean (fmtList [natStr a, natStr b]) := fun a b => clean_fmtList (by simp [hn])
      have hl' : ∀ a b c, Clean (fmtList [natStr a, natStr b, natStr c]) := fun a b c => clean_fmtList (by simp [hn])
      cases t.group 3 <;> cases t.group 4 <;> simp only [] <;> repeat' split
      all_goals simp [TimeRes.all, hn, hl, hl']
      all_goals
        rename_i heq
        intro a ha
        obtain ⟨k, rfl⟩ := hh _ _ heq a ha
        first | exact hn _ | exact hl _ _ | exact hl' _ _ _

theorem clean_take {s : Str} (h : Clean s) (n : Nat) : Clean (s.take n) := fun c hc => h c (List.mem_of_mem_take hc)
theorem clean_drop {s : Str} (h : Clean s) (n : Nat) : Clean (s.drop n) := fun c hc => h c (List.mem_of_mem_drop hc)
theorem clean_cons {x : Char} {s : Str} (hx : x ≠ '$') (h : Clean s) : Clean (x :: s) := by
  intro c hc
  rcases List.mem_cons.1 hc with rfl | hc
  · exact hx
  · exact h c hc

theorem clean_sign (b : Bool) : Clean (if b = true then s%"-" else []) := by
  cases b <;> exact clean_of (by decide)

theorem clean_expSuffix (k : Int) : Clean (expSuffix k) := by
  unfold expSuffix
  refine clean_cons (by decide) (clean_cons (by split <;> decide) ?_)
  split
  · exact clean_cons (by decide) (clean_natStr _)
  · exact clean_natStr _

theorem clean_zeros (n : Nat) : Clean (List.replicate n '0') := fun c hc => by rw [(List.mem_replicate.1 hc).2]; decide

theorem clean_repr (x : F64) : Clean x.repr := by
  cases x with
  | nan => exact clean_of (by decide)
  | inf b => cases b <;> exact clean_of (by decide)
  | fin b m e =>
    unfold F64.repr
    simp only
    split
    · exact clean_append (clean_sign b) (clean_of (by decide))
    · generalize shortest m e 16 1 = r
      obtain ⟨c, q, k⟩ := r
      simp only
      refine clean_append (clean_sign b) ?_
      split
      · split
        · exact clean_append (clean_append (clean_of (by decide)) (clean_zeros _)) (clean_natStr _)
        · split
          · exact clean_append (clean_append (clean_natStr _) (clean_zeros _)) (clean_of (by decide))
          · exact clean_append (clean_take (clean_natStr _) _) (clean_cons (by decide) (clean_drop (clean_natStr _) _))
      · refine clean_append (clean_append (clean_take (clean_natStr _) _) ?_) (clean_expSuffix _)
        split
        · exact clean_nil
        · exact clean_cons (by decide) (clean_drop (clean_natStr _) _)

theorem clean_fmtE (x : F64) : Clean x.fmtE := by
  cases x with
  | nan => exact clean_of (by decide)
  | inf b => cases b <;> exact clean_of (by decide)
  | fin b m e =>
    unfold F64.fmtE
    simp only
    split
    · exact clean_append (clean_sign b) (clean_of (by decide))
    · generalize sigDigits (F64.num m e) (F64.den e) 7 = r
      obtain ⟨c, k⟩ := r
      exact clean_append (clean_append (clean_append (clean_sign b) (clean_take (clean_natStr _) _)) (clean_cons (by decide) (clean_drop (clean_natStr _) _)))
        (clean_expSuffix _)

/-- `str.lower` makes no dollar sign out of a non-ASCII character. -/
def LowerClean (U : Uni) : Prop := ∀ pre c cs, 128 ≤ c.toNat → Clean (U.lower pre c cs)

theorem clean_lower {U : Uni} (hU : LowerClean U) {s : Str} (h : Clean s) : Clean (lower U s) := by
  unfold lower
  generalize ([] : Str) = pre
  induction s generalizing pre with
  | nil => exact clean_nil
  | cons c cs ih =>
    simp only [lowerGo]
    refine clean_append ?_ (ih (fun x hx => h x (by simp [hx])) _)
    split
    · refine clean_cons ?_ clean_nil
      have hc := h c (by simp)
      unfold asciiToLower
      split
      · rename_i hu
        simp only [asciiUpper, decide_eq_true_eq] at hu
        intro e
        have e' := congrArg Char.toNat e
        have hn : (Char.ofNat (c.toNat + 32)).toNat = c.toNat + 32 := by
          have hv : (c.toNat + 32).isValidChar := by left; omega
          unfold Char.ofNat
          rw [dif_pos hv]
          rfl
        rw [hn] at e'
        have : '$'.toNat = 36 := rfl
        omega
      · exact hc
    · rename_i hc; exact hU _ _ _ (by omega)

theorem clean_latex {s : Str} (h : Clean s) : Clean (parseLatexStr s) := by
  unfold parseLatexStr
  refine clean_strip ?_
  refine clean_replace (clean_of (by decide)) (clean_replace (clean_of (by decide)) (clean_replace (clean_of (by decide)) (clean_replace (clean_of (by decide))
    (clean_replace (clean_of (by decide)) (clean_replace (clean_of (by decide)) (clean_replace (clean_of (by decide)) (clean_replace (clean_of (by decide))
    (clean_replace (clean_of (by decide)) h))))))))

theorem clean_canonFloat (U : Uni) {s : Str} (h : Clean s) : Clean (canonFloat U s) := by
  unfold canonFloat
  cases pyFloat U s with
  | none => exact h
  | some x =>
    simp only
    split
    · split
      · unfold floatToLatexScientific
        cases pyFloat U s with
        | none => exact h
        | some x =>
          simp only
          split
          · exact clean_append (clean_replace (clean_of (by decide)) (clean_fmtE x)) (clean_of (by decide))
          · exact h
      · cases x.roundInt with
        | none => exact h
        | some n => exact clean_intStr n
    · exact h

theorem clean_furtherPure {U : Uni} (hU : LowerClean U) {s : Str} (h : Clean s) : Clean (furtherPure U s) := by
  have h1 : Clean (stripBraces s) := by
    unfold stripBraces
    split
    · exact fun c hc => h c (List.mem_of_mem_drop (List.mem_of_mem_dropLast hc))
    · exact h
  have h2 := clean_canonFloat U h1
  have inj : ∀ {t : Str}, Clean t → Clean (injectMixed U t) := by
    intro t ht
    have hf : ∀ m (t : RSt), Clean m → (∀ n, Clean (t.groupD n)) → Clean (t.groupD 1 ++ s%"+" ++ t.groupD 2) :=
      fun m t _ hg => clean_append (clean_append (hg 1) (clean_of (by decide))) (hg 2)
    exact clean_reSub (clean_reSub ht hf) hf
  unfold furtherPure
  refine clean_lower hU (clean_replace clean_nil (inj (clean_reSubConst (clean_of (by decide)) ?_)))
  split
  · exact clean_latex h2
  · exact h2

/-! ### C27: no dollar sign survives -/

/-- `str(value)` never contains a dollar sign. -/
def StrClean (E : Env X V S) : Prop := ∀ v x r x', E.str v x = (.ok r, x') → Clean r

theorem clean_further (E : Env X V S) (hU : LowerClean E.U) (hE : StrClean E) {s : Str} (h : Clean s) {w w' : World X} {r : Str}
    (hr : further E s w = (.ok r, w')) : Clean r ∧ w'.out = w.out := by
  have hp := clean_furtherPure hU h
  unfold further canonInt at hr
  by_cases hi : strIsInt E.U (furtherPure E.U s) = true
  · rw [if_pos hi] at hr
    cases hx : E.l2s (furtherPure E.U s) w.ext with
    | mk q x =>
      cases q with
      | error e =>
        simp [M.bind_run, M.ext, hx] at hr
        obtain ⟨rfl, rfl⟩ := hr
        exact ⟨hp, rfl⟩
      | ok v =>
        cases hs : E.str v x with
        | mk q x' =>
          simp [M.bind_run, M.ext, hx, hs] at hr
          obtain ⟨rfl, rfl⟩ := hr
          exact ⟨hE _ _ _ _ hs, rfl⟩
  · rw [if_neg hi] at hr
    cases hr
    exact ⟨hp, rfl⟩

theorem clean_degrees (E : Env X V S) (hU : LowerClean E.U) (hE : StrClean E) {s : Str} (h : Clean s) {w w' : World X} {r : Norm}
    (hr : degrees E s w = (.ok r, w')) : (∀ x ∈ r.readings, Clean x) := by
  unfold degrees at hr
  by_cases hc : (reSearch circRe s).isSome = true
  · rw [if_pos hc] at hr
    rw [bind_iff] at hr
    obtain ⟨a, w1, h1, h2⟩ := hr
    unfold Runs at h2
    rw [bind_iff] at h2
    obtain ⟨b, w2, h3, h4⟩ := h2
    cases h4
    intro x hx
    have hx' : x ∈ dedup [a, b] := (E.setOrder_perm [a, b]).mem_iff.1 hx
    rw [mem_dedup] at hx'
    simp only [List.mem_cons, List.not_mem_nil, or_false] at hx'
    rcases hx' with rfl | rfl
    · exact (clean_further E hU hE (clean_reSubConst clean_nil h) h1).1
    · refine (clean_further E hU hE ?_ h3).1
      unfold circSub
      exact clean_reSub h (fun m t _ hg => clean_append (clean_append (hg 1) (hg 2)) (clean_of (by decide)))
  · rw [if_neg hc, bind_iff] at hr
    obtain ⟨a, w1, h1, h2⟩ := hr
    cases h2
    intro x hx
    rw [List.mem_singleton.1 hx]
    exact (clean_further E hU hE h h1).1

theorem clean_setOrder (E : Env X V S) {xs : List Str} (h : ∀ x ∈ xs, Clean x) : ∀ x ∈ (Norm.set (E.setOrder xs)).readings, Clean x := by
  intro x hx
  have hx' : x ∈ dedup xs := (E.setOrder_perm xs).mem_iff.1 hx
  rw [mem_dedup] at hx'
  exact h x hx'

theorem clean_base {U : Uni} {s : Str} {rs : List Str} (h : baseReadings U s = some rs) : ∀ x ∈ rs, Clean x := by
  unfold baseReadings at h
  cases hm : reSearch (baseRe U) s with
  | none => rw [hm] at h; cases h
  | some t =>
    rw [hm] at h
    simp only [Option.some.injEq] at h
    have hs : Clean s := by
      obtain ⟨u, e, hl⟩ := reSearch_bos_lang (r := cat [grp 1 (plus (d U)), c '_', alt (grp 2 (d U)) (cat [c '{', grp 3 (plus (d U)), c '}']), eos]) hm
      have hr := eos_last [grp 1 (plus (d U)), c '_', alt (grp 2 (d U)) (cat [c '{', grp 3 (plus (d U)), c '}'])] _ t
        (List.mem_of_head? (reSearch_bos (r := cat [grp 1 (plus (d U)), c '_', alt (grp 2 (d U)) (cat [c '{', grp 3 (plus (d U)), c '}']), eos]) hm))
      have hd : ∀ y, isDigit U y = true → (y != '$') = true := by
        intro y hy
        rw [bne_iff_ne]
        rintro rfl
        exact absurd (show false = true from hy) (by decide)
      have hc : ∀ z, z ≠ '$' → (c z).Within (· != '$') := by
        intro z hz y hy
        have : y = z := by simpa using hy
        rw [this]; simpa using hz
      have hw := lang_within (P := (· != '$')) _ u (show Re.Within _ (cat [grp 1 (plus (d U)), c '_', alt (grp 2 (d U)) (cat [c '{', grp 3 (plus (d U)), c '}']), eos])
        from ⟨⟨hd, hd⟩, hc _ (by decide), ⟨hd, hc _ (by decide), ⟨hd, hd⟩, hc _ (by decide)⟩, trivial⟩) hl
      intro y hy
      rw [e] at hy
      rcases List.mem_append.1 hy with hy | hy
      · simpa using hw y hy
      · rcases hr with hr | hr
        · rw [hr] at hy; cases hy
        · rw [hr] at hy
          rw [List.mem_singleton.1 hy]; decide
    rw [← h]
    intro x hx
    simp only [List.mem_cons, List.not_mem_nil, or_false] at hx
    rcases hx with rfl | rfl
    · exact reSearch_caps (· ≠ '$') hm hs 1
    · exact clean_natStr _

theorem clean_normTail (E : Env X V S) (hU : LowerClean E.U) (hE : StrClean E) {s : Str} {w w' : World X} {r : Norm}
    (hr : normTail E s w = (.ok r, w')) : ∀ x ∈ r.readings, Clean x := by
  unfold normTail at hr
  simp only at hr
  cases hb : baseReadings E.U (removeSpacing s) with
  | some rs =>
    rw [hb] at hr
    cases hr
    exact clean_setOrder E (clean_base hb)
  | none =>
    rw [hb] at hr
    simp only at hr
    cases hp : percentStep E.U (removeSpacing s) with
    | inl rs =>
      rw [hp] at hr
      cases hr
      apply clean_setOrder
      unfold percentStep at hp
      split at hp
      · simp only at hp
        split at hp
        · cases hp
          intro x hx
          simp only [List.mem_cons, List.not_mem_nil, or_false] at hx
          rcases hx with rfl | rfl <;> exact clean_repr _
        · cases hp
      · cases hp
    | inr u =>
      rw [hp] at hr
      simp only at hr
      have ht := clean_time E.U (clean_middle u)
      cases hs : strToTimeList E.U (middle u) with
      | set xs =>
        rw [hs] at hr ht
        cases hr
        exact clean_setOrder E ht
      | str v =>
        rw [hs] at hr ht
        exact clean_degrees E hU hE (clean_unitsStep E.U (ht v (by simp [TimeRes.all]))) hr

theorem further_out (E : Env X V S) (s : Str) (w : World X) : (further E s w).2.out = w.out := by
  unfold further canonInt
  by_cases hi : strIsInt E.U (furtherPure E.U s) = true
  · rw [if_pos hi]
    cases hx : E.l2s (furtherPure E.U s) w.ext with
    | mk q x =>
      cases q with
      | error e => simp [M.bind_run, M.ext, hx]
      | ok v =>
        cases hs : E.str v x with
        | mk q x' => simp [M.bind_run, M.ext, hx, hs]
  · rw [if_neg hi]
    rfl

theorem bind_out {α β : Type} {m : M X α} {f : α → M X β} (hm : ∀ w, (m w).2.out = w.out) (hf : ∀ a w, (f a w).2.out = w.out) (w : World X) :
    ((m >>= f) w).2.out = w.out := by
  rw [M.bind_run]
  have := hm w
  cases h : m w with
  | mk r w1 =>
    rw [h] at this
    cases r with
    | error e => exact this
    | ok a => exact (hf a w1).trans this

/-- Nothing is printed after the wrappers have been removed. -/
theorem normTail_out (E : Env X V S) (s : Str) (w : World X) : (normTail E s w).2.out = w.out := by
  have hd : ∀ (u : Str) (w : World X), (degrees E u w).2.out = w.out := by
    intro u w
    unfold degrees
    by_cases hc : (reSearch circRe u).isSome = true
    · rw [if_pos hc]
      apply bind_out (further_out E _)
      intro a w
      apply bind_out (further_out E _)
      intro b w
      rfl
    · rw [if_neg hc]
      apply bind_out (further_out E _)
      intro a w
      rfl
  unfold normTail
  cases baseReadings E.U (removeSpacing s) with
  | some rs => rfl
  | none =>
    simp only
    cases percentStep E.U (removeSpacing s) with
    | inl rs => rfl
    | inr u =>
      simp only
      cases strToTimeList E.U (middle u) with
      | set xs => rfl
      | str v =>
        simp only
        generalize unitsStep E.U v = u'
        exact hd u' w

/-- What is printed only grows. -/
theorem normalize_out (E : Env X V S) (n : Nat) (s : Str) (w : World X) : ∃ l, (stringNormalize E n s w).2.out = l ++ w.out := by
  induction n generalizing s w with
  | zero => exact ⟨[], rfl⟩
  | succ n ih =>
    have hb : ∃ l, (normBody E (stringNormalize E n) s w).2.out = l ++ w.out := by
      unfold normBody
      cases reSearch textRe (matrixNormalize (stripBlank s)) with
      | some t => exact ih _ _
      | none =>
        simp only
        cases reSearch setBuilderRe (matrixNormalize (stripBlank s)) with
        | some t =>
          simp only
          by_cases he : (t.groupD 2).isEmpty = true
          · rw [if_pos he]; exact ⟨[], rfl⟩
          · rw [if_neg he]; exact ih _ _
        | none => exact ⟨[], normTail_out E _ w⟩
    obtain ⟨l, hl⟩ := hb
    rw [stringNormalize, M.tryExcept_run]
    cases h : normBody E (stringNormalize E n) s w with
    | mk r w1 =>
      rw [h] at hl
      cases r with
      | ok a => exact ⟨l, hl⟩
      | error e => exact ⟨errLine e :: l, by simpa [M.bind_run] using hl⟩

/-- C27, first part: unless an exception was caught (then a line is printed and the answer is returned as it is), no
reading of a normal form has a dollar sign. -/
theorem C27_no_dollar_partial (E : Env X V S) (hU : LowerClean E.U) (hE : StrClean E) (n : Nat) (s : Str) (w w' : World X) (r : Norm)
    (hr : stringNormalize E n s w = (.ok r, w')) (hq : w'.out = w.out) : ∀ x ∈ r.readings, '$' ∉ x := by
  induction n generalizing s w w' r with
  | zero => simp [stringNormalize] at hr
  | succ n ih =>
    have grow : ∀ l : List Str, w'.out ≠ l ++ w.out ∨ l = [] := by
      intro l
      by_cases hl : l = []
      · exact .inr hl
      · left
        rw [hq]
        intro e
        have := congrArg List.length e
        rw [List.length_append] at this
        have : l.length = 0 := by omega
        exact hl (List.length_eq_zero_iff.1 this)
    -- the body did not raise
    have hb : normBody E (stringNormalize E n) s w = (.ok r, w') := by
      rw [stringNormalize, M.tryExcept_run] at hr
      cases h : normBody E (stringNormalize E n) s w with
      | mk q w1 =>
        rw [h] at hr
        cases q with
        | ok a => exact hr
        | error e =>
          exfalso
          have hg : ∃ l, w1.out = l ++ w.out := by
            have := h
            unfold normBody at this
            cases h1 : reSearch textRe (matrixNormalize (stripBlank s)) with
            | some t =>
              rw [h1] at this
              simp only at this
              obtain ⟨l, hl⟩ := normalize_out E n (t.groupD 2) w
              rw [this] at hl; exact ⟨l, hl⟩
            | none =>
              rw [h1] at this
              simp only at this
              cases h2 : reSearch setBuilderRe (matrixNormalize (stripBlank s)) with
              | some t =>
                rw [h2] at this
                simp only at this
                by_cases he : (t.groupD 2).isEmpty = true
                · rw [if_pos he] at this
                  cases this
                  exact ⟨[], rfl⟩
                · rw [if_neg he] at this
                  obtain ⟨l, hl⟩ := normalize_out E n (t.groupD 2) w
                  rw [this] at hl; exact ⟨l, hl⟩
              | none =>
                rw [h2] at this
                have h3 := normTail_out E (matrixNormalize (stripBlank s)) w
                simp only at this
                rw [this] at h3
                exact ⟨[], h3⟩
          obtain ⟨l, hl⟩ := hg
          simp only [M.bind_run, M.print_run, M.pure_run, Prod.mk.injEq] at hr
          rcases grow (errLine e :: l) with h1 | h1
          · exact h1 (by rw [← hr.2]; simp [hl])
          · cases h1
    unfold normBody at hb
    cases h1 : reSearch textRe (matrixNormalize (stripBlank s)) with
    | some t => rw [h1] at hb; exact ih _ _ _ _ hb hq
    | none =>
      rw [h1] at hb
      simp only at hb
      cases h2 : reSearch setBuilderRe (matrixNormalize (stripBlank s)) with
      | some t =>
        rw [h2] at hb
        simp only at hb
        by_cases he : (t.groupD 2).isEmpty = true
        · rw [if_pos he] at hb; cases hb
        · rw [if_neg he] at hb; exact ih _ _ _ _ hb hq
      | none =>
        rw [h2] at hb
        exact fun x hx => (clean_normTail E hU hE hb x hx).not_mem

/-- The whole claim fails: after a caught exception the answer is returned as it is. -/
theorem C27_no_dollar_refuted : ¬ ∀ (s : Str) (r : Norm) (w' : World Unit), stringNormalize failEnv 3 s ⟨(), []⟩ = (.ok r, w') →
    ∀ x ∈ r.readings, '$' ∉ x := by
  intro h
  have e : (stringNormalize failEnv 3 s%"\\{$x$|\\}" ⟨(), []⟩).1 = .ok (.str s%"\\{$x$|\\}") := by decide +kernel
  cases hr : stringNormalize failEnv 3 s%"\\{$x$|\\}" ⟨(), []⟩ with
  | mk q w' =>
    rw [hr] at e
    subst e
    have := h _ _ _ hr s%"\\{$x$|\\}" (by simp [Norm.readings])
    revert this
    decide

/-- The hypotheses are met by a run of an answer with dollar signs and a spacing command. -/
example : LowerClean ratEnv.U ∧ (stringNormalize ratEnv 3 s%"$x\\,+\\$y$" ⟨(), []⟩) = (.ok (.str s%"x+y"), ⟨(), []⟩) :=
  ⟨fun _ c _ h => clean_cons (by rintro rfl; exact absurd h (by decide)) clean_nil, by decide +kernel⟩

/-- Marked texts: two dollar signs and two spacing commands. -/
example : Marked spacingMarks s%"$\\frac\\,{1}\\!{2}$" s%"\\frac{1}{2}" :=
  .mark s%"$" [] (by simp [spacingMarks]) <| .pair 'f' (by decide) <| .keep 'r' (by decide) <| .keep 'a' (by decide) <| .keep 'c' (by decide) <|
  .mark s%"\\," [] (by simp [spacingMarks]) <| .keep '{' (by decide) <| .keep '1' (by decide) <| .keep '}' (by decide) <|
  .mark s%"\\!" [] (by simp [spacingMarks]) <| .keep '{' (by decide) <| .keep '2' (by decide) <| .keep '}' (by decide) <|
  .mark s%"$" [] (by simp [spacingMarks]) .nil

example : Marked bracketMarks s%"\\left(1,\\frac12\\right]" s%"(1,\\frac12]" :=
  .mark s%"\\left(" s%"(" (by simp [bracketMarks]) <| .keep '1' (by decide) <| .keep ',' (by decide) <| .pair 'f' (by decide) <|
  .keep 'r' (by decide) <| .keep 'a' (by decide) <| .keep 'c' (by decide) <| .keep '1' (by decide) <| .keep '2' (by decide) <|
  .mark s%"\\right]" s%"]" (by simp [bracketMarks]) .nil

example : Calm s%"(1,\\frac12]" := ⟨by decide, by decide⟩

/-- C29, the other half of the claim fails: such a command can be left over. -/
theorem C29_no_left_refuted : ¬ ∀ (s t : Str), (stringNormalize failEnv 3 s ⟨(), []⟩).1 = .ok (.str t) → ¬ s%"\\left(" <:+: t := by
  intro h
  have e : (stringNormalize failEnv 3 s%"\\left\\left((x)" ⟨(), []⟩).1 = .ok (.str s%"\\left((x)") := by decide +kernel
  exact h _ _ e (by decide)

end Verif
