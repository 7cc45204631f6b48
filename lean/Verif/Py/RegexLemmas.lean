import Verif.Py.Regex
import Verif.Py.StrLemmas
/-
Lemmas about the regular-expression engine.
-/

namespace Verif

/-- The state after consuming `k` characters. -/
def RSt.adv (s : RSt) (k : Nat) : RSt := ⟨(s.rest.take k).reverse ++ s.pre, s.rest.drop k, s.caps⟩

@[simp] theorem RSt.adv_zero (s : RSt) : s.adv 0 = s := by cases s; simp [RSt.adv]

theorem RSt.adv_adv (s : RSt) (j k : Nat) (h : j ≤ s.rest.length) :
    (s.adv j).adv k = s.adv (j + k) := by
  cases s with
  | mk pre rest caps =>
    simp only [RSt.adv, RSt.mk.injEq, and_true] at *
    constructor
    · rw [← List.append_assoc, ← List.reverse_append, ← List.take_add]
    · rw [List.drop_drop]

/-! ### Running the basic patterns -/

@[simp] theorem run_eps (s : RSt) : Re.eps.run s = [s] := rfl
@[simp] theorem run_seq (a b : Re) (s : RSt) : (Re.seq a b).run s = (a.run s).flatMap b.run := rfl
@[simp] theorem run_alt (a b : Re) (s : RSt) : (Re.alt a b).run s = a.run s ++ b.run s := rfl
@[simp] theorem run_grp (n : Nat) (r : Re) (s : RSt) : (Re.grp n r).run s = (r.run s).map fun t =>
      ⟨t.pre, t.rest, (n, s.rest.take (s.rest.length - t.rest.length)) :: t.caps⟩ := rfl
@[simp] theorem run_chr_nil (p : Char → Bool) (pre : Str) (caps) :
    (Re.chr p).run ⟨pre, [], caps⟩ = [] := rfl
@[simp] theorem run_chr_cons (p : Char → Bool) (pre : Str) (c : Char) (cs : Str) (caps) :
    (Re.chr p).run ⟨pre, c :: cs, caps⟩ = if p c then [⟨c :: pre, cs, caps⟩] else [] := rfl
@[simp] theorem run_bos (s : RSt) : Re.bos.run s = if s.pre.isEmpty then [s] else [] := rfl
@[simp] theorem run_eos (s : RSt) :
    Re.eos.run s = if s.rest.isEmpty || s.rest == ['\n'] then [s] else [] := rfl

/-- Length of the longest prefix whose characters satisfy `p`. -/
def runLen (p : Char → Bool) (s : Str) : Nat := (s.takeWhile p).length

@[simp] theorem runLen_nil (p : Char → Bool) : runLen p [] = 0 := rfl
theorem runLen_cons_pos {p : Char → Bool} {c : Char} (h : p c = true) (cs : Str) :
    runLen p (c :: cs) = runLen p cs + 1 := by
  simp [runLen, List.takeWhile_cons_of_pos h]
theorem runLen_cons_neg {p : Char → Bool} {c : Char} (h : ¬ p c = true) (cs : Str) :
    runLen p (c :: cs) = 0 := by
  simp [runLen, List.takeWhile_cons_of_neg h]

theorem runLen_le (p : Char → Bool) (s : Str) : runLen p s ≤ s.length := by
  induction s with
  | nil => simp
  | cons c cs ih =>
    by_cases h : p c = true
    · rw [runLen_cons_pos h]; simp; exact ih
    · rw [runLen_cons_neg h]; simp

theorem runLen_append_all {p : Char → Bool} {a b : Str} (h : a.all p = true) :
    runLen p (a ++ b) = a.length + runLen p b := by
  induction a with
  | nil => simp
  | cons c cs ih =>
    simp only [List.all_cons, Bool.and_eq_true] at h
    rw [List.cons_append, runLen_cons_pos h.1, ih h.2]; simp; omega

theorem runLen_all {p : Char → Bool} {a : Str} (h : a.all p = true) : runLen p a = a.length := by
  have := runLen_append_all (b := []) h
  simpa using this

theorem starGo_chr_greedy (p : Char → Bool) (n : Nat) (s : RSt) (h : s.rest.length ≤ n) :
    starGo true (Re.chr p).run n s = (List.range (runLen p s.rest + 1)).reverse.map s.adv := by
  induction n generalizing s with
  | zero =>
    cases s with
    | mk pre rest caps =>
      have : rest = [] := by cases rest <;> simp_all
      subst this
      simp [starGo, RSt.adv, runLen, List.range_succ]
  | succ n ih =>
    cases s with
    | mk pre rest caps =>
      cases rest with
      | nil => simp [starGo, RSt.adv, runLen, List.range_succ]
      | cons c cs =>
        by_cases hc : p c = true
        · simp only [starGo, run_chr_cons, hc, if_true]
          rw [runLen_cons_pos hc]
          rw [List.range_succ_eq_map, List.reverse_cons, List.map_append]
          simp only [List.map_cons, List.map_nil, RSt.adv_zero]
          rw [List.filter_cons_of_pos (by simp), List.filter_nil]
          simp only [List.flatMap_cons, List.flatMap_nil, List.append_nil]
          rw [ih ⟨c :: pre, cs, caps⟩ (by simpa using h)]
          congr 1
          rw [← List.map_reverse, List.map_map]
          apply List.map_congr_left
          intro k _
          simp [RSt.adv]
        · simp [starGo, hc, runLen_cons_neg hc, List.range_succ]

theorem starGo_chr_lazy (p : Char → Bool) (n : Nat) (s : RSt) (h : s.rest.length ≤ n) :
    starGo false (Re.chr p).run n s = (List.range (runLen p s.rest + 1)).map s.adv := by
  induction n generalizing s with
  | zero =>
    cases s with
    | mk pre rest caps =>
      have : rest = [] := by cases rest <;> simp_all
      subst this
      simp [starGo, RSt.adv, runLen, List.range_succ]
  | succ n ih =>
    cases s with
    | mk pre rest caps =>
      cases rest with
      | nil => simp [starGo, RSt.adv, runLen, List.range_succ]
      | cons c cs =>
        by_cases hc : p c = true
        · simp only [starGo, run_chr_cons, hc, if_true]
          rw [runLen_cons_pos hc, List.range_succ_eq_map]
          simp only [List.map_cons, RSt.adv_zero]
          rw [List.filter_cons_of_pos (by simp), List.filter_nil]
          simp only [List.flatMap_cons, List.flatMap_nil, List.append_nil]
          rw [ih ⟨c :: pre, cs, caps⟩ (by simpa using h)]
          simp only [Bool.false_eq_true, if_false]
          congr 1
          rw [List.map_map]
          apply List.map_congr_left
          intro k _
          simp [RSt.adv]
        · simp [starGo, hc, runLen_cons_neg hc, List.range_succ]

/-- A greedy starred class matches as much as possible first. -/
theorem run_many_chr (p : Char → Bool) (s : RSt) :
    (Re.star true (.chr p)).run s = (List.range (runLen p s.rest + 1)).reverse.map s.adv :=
  starGo_chr_greedy p _ s (Nat.le_refl _)

/-- A lazy starred class matches as little as possible first. -/
theorem run_manyLazy_chr (p : Char → Bool) (s : RSt) :
    (Re.star false (.chr p)).run s = (List.range (runLen p s.rest + 1)).map s.adv :=
  starGo_chr_lazy p _ s (Nat.le_refl _)

theorem run_many_chr_head (p : Char → Bool) (s : RSt) :
    (Re.star true (.chr p)).run s =
      s.adv (runLen p s.rest) :: (List.range (runLen p s.rest)).reverse.map s.adv := by
  rw [run_many_chr, List.range_succ, List.reverse_append]
  rfl

/-- A literal matches exactly when it is a prefix. -/
theorem run_lit (p : Str) (s : RSt) :
    (Re.lit p).run s = if p.isPrefixOf s.rest then [s.adv p.length] else [] := by
  induction p generalizing s with
  | nil => simp [Re.lit]
  | cons x xs ih =>
    cases s with
    | mk pre rest caps =>
      cases xs with
      | nil =>
        cases rest with
        | nil => simp [Re.lit, Re.c]
        | cons c cs =>
          simp only [Re.lit, Re.c, run_chr_cons, List.isPrefixOf, beq_iff_eq]
          by_cases h : c = x
          · subst h; simp [RSt.adv]
          · have : ¬ x = c := fun h' => h h'.symm
            simp [h, this]
      | cons y ys =>
        cases rest with
        | nil => simp [Re.lit, Re.c]
        | cons c cs =>
          rw [Re.lit]
          · simp only [Re.c, run_seq, run_chr_cons, List.isPrefixOf_cons_cons, beq_iff_eq]
            by_cases h : c = x
            · subst h
              simp only [if_true, List.flatMap_cons, List.flatMap_nil, List.append_nil, beq_self_eq_true,
                Bool.true_and]
              rw [ih]
              simp only [List.length_cons]
              split <;> simp [RSt.adv]
            · have : ¬ x = c := fun h' => h h'.symm
              simp [h, this]
          · simp

/-! ### Scanning substitution -/

/-- No match at any position: nothing changes. -/
theorem scanSub_id (m : Str → Str → Option (Nat × Str)) (pre s : Str)
    (h : ∀ a b, s = a ++ b → m (a.reverse ++ pre) b = none) : scanSub m 0 pre s = s := by
  induction s generalizing pre with
  | nil =>
    have := h [] [] rfl
    simp only [List.reverse_nil, List.nil_append] at this
    simp [scanSub, this]
  | cons c cs ih =>
    have h0 := h [] (c :: cs) rfl
    simp only [List.reverse_nil, List.nil_append] at h0
    simp only [scanSub, h0]
    rw [ih]
    intro a b hab
    have := h (c :: a) b (by simp [hab])
    simpa using this

/-- Copy a prefix in which no match starts. -/
theorem scanSub_skip (m : Str → Str → Option (Nat × Str)) (pre a b : Str)
    (h : ∀ a₁ a₂, a = a₁ ++ a₂ → a₂ ≠ [] → m (a₁.reverse ++ pre) (a₂ ++ b) = none) :
    scanSub m 0 pre (a ++ b) = a ++ scanSub m 0 (a.reverse ++ pre) b := by
  induction a generalizing pre with
  | nil => simp
  | cons c cs ih =>
    have h0 := h [] (c :: cs) rfl (by simp)
    simp only [List.reverse_nil, List.nil_append, List.cons_append] at h0
    simp only [List.cons_append, scanSub, h0]
    rw [ih]
    · simp
    · intro a₁ a₂ hab hne
      have := h (c :: a₁) a₂ (by simp [hab]) hne
      simpa using this

theorem scanSub_consume (m : Str → Str → Option (Nat × Str)) (pre a b : Str) :
    scanSub m a.length pre (a ++ b) = scanSub m 0 (a.reverse ++ pre) b := by
  induction a generalizing pre with
  | nil => simp
  | cons c cs ih =>
    simp only [List.length_cons, List.cons_append, scanSub]
    rw [ih]; simp

/-- A match of the non-empty text `a`. -/
theorem scanSub_match (m : Str → Str → Option (Nat × Str)) (pre a b r : Str) (ha : a ≠ [])
    (h : m pre (a ++ b) = some (a.length, r)) :
    scanSub m 0 pre (a ++ b) = r ++ scanSub m 0 (a.reverse ++ pre) b := by
  cases a with
  | nil => exact absurd rfl ha
  | cons c cs =>
    simp only [List.cons_append] at h ⊢
    simp only [scanSub, h, List.length_cons]
    rw [scanSub_consume]; simp

theorem scanSub_congr (m m' : Str → Str → Option (Nat × Str)) (h : ∀ pre s, m pre s = m' pre s)
    (k : Nat) (pre s : Str) : scanSub m k pre s = scanSub m' k pre s := by
  have : m = m' := by funext pre s; exact h pre s
  rw [this]

/-- `re.sub` of a literal pattern by a constant is `str.replace`. -/
theorem reSubConst_lit (p new s : Str) : reSubConst (Re.lit p) new s = replace p new s := by
  unfold reSubConst reSub replace
  apply scanSub_congr
  intro pre rest
  simp only [Re.scanner, Re.matchAt, run_lit]
  by_cases h : p.isPrefixOf rest = true
  · simp only [h, if_true, List.head?_cons, RSt.adv]
    have hle : p.length ≤ rest.length := (List.isPrefixOf_iff_prefix.1 h).length_le
    have : rest.length - (rest.drop p.length).length = p.length := by simp; omega
    rw [this]
  · simp [h]

/-! ### Patterns that cannot match in a given alphabet -/

/-- `r` needs a character outside the alphabet `A`. -/
def Re.Dead (A : Char → Bool) : Re → Prop
  | .eps => False
  | .chr p => ∀ c, A c = true → p c = false
  | .seq a b => a.Dead A ∨ b.Dead A
  | .alt a b => a.Dead A ∧ b.Dead A
  | .star _ _ => False
  | .grp _ r => r.Dead A
  | .bos => False
  | .eos => False
  | .behind _ _ => False
  | .ahead _ _ => False

theorem starGo_split (g : Bool) (f : RSt → List RSt)
    (ih : ∀ s t, t ∈ f s → ∃ u, s.rest = u ++ t.rest ∧ t.pre = u.reverse ++ s.pre) (n : Nat) :
    ∀ s t, t ∈ starGo g f n s → ∃ u, s.rest = u ++ t.rest ∧ t.pre = u.reverse ++ s.pre := by
  induction n with
  | zero => intro s t h; simp [starGo] at h; subst h; exact ⟨[], by simp⟩
  | succ n ihn =>
    intro s t h
    simp only [starGo] at h
    have key : ∀ t', t' ∈ ((f s).filter (fun t => decide (t.rest.length < s.rest.length))).flatMap
        (starGo g f n) → ∃ u, s.rest = u ++ t'.rest ∧ t'.pre = u.reverse ++ s.pre := by
      intro t' ht'
      simp only [List.mem_flatMap, List.mem_filter] at ht'
      obtain ⟨t₁, ⟨h₁, _⟩, h₂⟩ := ht'
      obtain ⟨u₁, e₁, p₁⟩ := ih s t₁ h₁
      obtain ⟨u₂, e₂, p₂⟩ := ihn t₁ t' h₂
      exact ⟨u₁ ++ u₂, by rw [e₁, e₂, List.append_assoc], by rw [p₂, p₁]; simp⟩
    cases g with
    | true =>
      simp only [if_true, List.mem_append, List.mem_singleton] at h
      rcases h with h | h
      · exact key t h
      · subst h; exact ⟨[], by simp⟩
    | false =>
      simp only [Bool.false_eq_true, if_false, List.mem_cons] at h
      rcases h with h | h
      · subst h; exact ⟨[], by simp⟩
      · exact key t h

/-- Running never invents text: what is left is a suffix, and what was consumed is recorded. -/
theorem run_split (r : Re) (s t : RSt) (h : t ∈ r.run s) :
    ∃ u, s.rest = u ++ t.rest ∧ t.pre = u.reverse ++ s.pre := by
  induction r generalizing s t with
  | eps => simp at h; subst h; exact ⟨[], by simp⟩
  | chr p =>
    cases s with
    | mk pre rest caps =>
      cases rest with
      | nil => simp at h
      | cons c cs =>
        simp only [run_chr_cons] at h
        split at h
        · simp at h; subst h; exact ⟨[c], by simp⟩
        · simp at h
  | seq a b iha ihb =>
    simp only [run_seq, List.mem_flatMap] at h
    obtain ⟨t₁, h₁, h₂⟩ := h
    obtain ⟨u₁, e₁, p₁⟩ := iha s t₁ h₁
    obtain ⟨u₂, e₂, p₂⟩ := ihb t₁ t h₂
    exact ⟨u₁ ++ u₂, by rw [e₁, e₂, List.append_assoc], by rw [p₂, p₁]; simp⟩
  | alt a b iha ihb =>
    simp only [run_alt, List.mem_append] at h
    rcases h with h | h
    · exact iha s t h
    · exact ihb s t h
  | star g r ih => exact starGo_split g r.run ih _ s t h
  | grp n r ih =>
    simp only [run_grp, List.mem_map] at h
    obtain ⟨t₁, h₁, rfl⟩ := h
    exact ih s t₁ h₁
  | bos => simp only [run_bos] at h; split at h <;> simp at h; subst h; exact ⟨[], by simp⟩
  | eos => simp only [run_eos] at h; split at h <;> simp at h; subst h; exact ⟨[], by simp⟩
  | behind neg p => simp only [Re.run] at h; split at h <;> simp at h <;> exact ⟨[], by simp [h]⟩
  | ahead neg p => simp only [Re.run] at h; split at h <;> simp at h <;> exact ⟨[], by simp [h]⟩

/-- Soundness of `Dead`. -/
theorem run_dead {A : Char → Bool} (r : Re) (s : RSt) (hd : r.Dead A) (hs : ∀ c ∈ s.rest, A c = true) :
    r.run s = [] := by
  induction r generalizing s with
  | chr p =>
    cases s with
    | mk pre rest caps =>
      cases rest with
      | nil => rfl
      | cons c cs => simp [hd c (hs c (by simp))]
  | seq a b iha ihb =>
    rcases hd with hd | hd
    · simp [iha s hd hs]
    · rw [run_seq, List.flatMap_eq_nil_iff]
      intro t ht
      apply ihb t hd
      obtain ⟨u, e, _⟩ := run_split a s t ht
      intro c hc
      exact hs c (by rw [e]; simp [hc])
  | alt a b iha ihb => simp [iha s hd.1 hs, ihb s hd.2 hs]
  | grp n r ih => simp [ih s hd hs]
  | eps => exact hd.elim
  | star => exact hd.elim
  | bos => exact hd.elim
  | eos => exact hd.elim
  | behind => exact hd.elim
  | ahead => exact hd.elim

theorem reSub_dead {A : Char → Bool} (r : Re) (f : Str → RSt → Str) (s : Str) (hd : r.Dead A)
    (hs : ∀ c ∈ s, A c = true) : reSub r f s = s := by
  apply scanSub_id
  intro a b hab
  have : r.run ⟨a.reverse ++ [], b, []⟩ = [] :=
    run_dead r _ hd (by intro c hc; exact hs c (by rw [hab]; simp at hc ⊢; exact Or.inr hc))
  simp [Re.scanner, Re.matchAt] at this ⊢
  simp [this]

theorem searchFrom_dead {A : Char → Bool} (r : Re) (pre s : Str) (hd : r.Dead A)
    (hs : ∀ c ∈ s, A c = true) : searchFrom r pre s = none := by
  induction s generalizing pre with
  | nil => simp [searchFrom, Re.matchAt, run_dead r ⟨pre, [], []⟩ hd (by simp)]
  | cons c cs ih =>
    have := run_dead r ⟨pre, c :: cs, []⟩ hd hs
    simp only [searchFrom, Re.matchAt, this]
    exact ih _ (fun d hd' => hs d (by simp [hd']))

theorem reSearch_dead {A : Char → Bool} (r : Re) (s : Str) (hd : r.Dead A)
    (hs : ∀ c ∈ s, A c = true) : reSearch r s = none := searchFrom_dead r [] s hd hs

/-- `re.search` finds the leftmost position with a match. -/
theorem searchFrom_some_iff (r : Re) (pre s : Str) (t : RSt) :
    searchFrom r pre s = some t ↔ ∃ a b, s = a ++ b ∧ r.matchAt (a.reverse ++ pre) b = some t ∧
      ∀ a₁ a₂, a = a₁ ++ a₂ → a₂ ≠ [] → r.matchAt (a₁.reverse ++ pre) (a₂ ++ b) = none := by
  induction s generalizing pre with
  | nil =>
    simp only [searchFrom]
    constructor
    · intro h; exact ⟨[], [], rfl, by simpa using h, by
        intro a₁ a₂ h1 h2; simp at h1; exact absurd h1.2 h2⟩
    · rintro ⟨a, b, hab, hm, _⟩
      have := List.append_eq_nil_iff.1 hab.symm
      rw [this.1, this.2] at hm; simpa using hm
  | cons c cs ih =>
    simp only [searchFrom]
    cases hm : r.matchAt pre (c :: cs) with
    | some t' =>
      simp only
      constructor
      · intro h; cases h
        exact ⟨[], c :: cs, rfl, by simpa using hm, by
          intro a₁ a₂ h1 h2; simp at h1; exact absurd h1.2 h2⟩
      · rintro ⟨a, b, hab, hm', hno⟩
        cases a with
        | nil =>
          simp at hab; rw [← hab] at hm'; simp at hm'; rw [hm] at hm'; exact hm'
        | cons x xs =>
          have := hno [] (x :: xs) rfl (by simp)
          rw [← hab] at this; simp at this; rw [hm] at this; simp at this
    | none =>
      simp only
      rw [ih]
      constructor
      · rintro ⟨a, b, hab, hm', hno⟩
        refine ⟨c :: a, b, by simp [hab], by simpa using hm', ?_⟩
        intro a₁ a₂ h1 h2
        cases a₁ with
        | nil =>
          simp at h1
          rw [← h1]; simp [← hab]; exact hm
        | cons y ys =>
          simp at h1
          have := hno ys a₂ h1.2 h2
          rw [← h1.1]; simpa using this
      · rintro ⟨a, b, hab, hm', hno⟩
        cases a with
        | nil => simp at hab; rw [← hab] at hm'; simp at hm'; rw [hm] at hm'; cases hm'
        | cons x xs =>
          simp at hab
          refine ⟨xs, b, hab.2, by rw [hab.1]; simpa using hm', ?_⟩
          intro a₁ a₂ h1 h2
          have := hno (x :: a₁) a₂ (by simp [h1]) h2
          rw [hab.1]; simpa using this

theorem searchFrom_none_iff (r : Re) (pre s : Str) :
    searchFrom r pre s = none ↔ ∀ a b, s = a ++ b → r.matchAt (a.reverse ++ pre) b = none := by
  induction s generalizing pre with
  | nil =>
    simp only [searchFrom]
    constructor
    · intro h a b hab
      have := List.append_eq_nil_iff.1 hab.symm
      rw [this.1, this.2]; simpa using h
    · intro h; simpa using h [] [] rfl
  | cons c cs ih =>
    simp only [searchFrom]
    cases hm : r.matchAt pre (c :: cs) with
    | some t' =>
      simp only [reduceCtorEq, false_iff]
      intro h
      have := h [] (c :: cs) rfl
      simp [hm] at this
    | none =>
      simp only
      rw [ih]
      constructor
      · intro h a b hab
        cases a with
        | nil => simp at hab; rw [← hab]; simpa using hm
        | cons x xs => simp at hab; rw [← hab.1]; simpa using h xs b hab.2
      · intro h a b hab
        simpa using h (c :: a) b (by simp [hab])

/-- First match of a concatenation. -/
theorem head?_flatMap {α β : Type} (l : List α) (f : α → List β) :
    (l.flatMap f).head? = l.findSome? (fun a => (f a).head?) := by
  induction l with
  | nil => rfl
  | cons a as ih =>
    simp only [List.flatMap_cons, List.findSome?_cons]
    cases h : f a with
    | nil => simpa using ih
    | cons b bs => simp

end Verif
