import Verif.Props.Member
import Verif.Props.Degrees
import Verif.Spec.Units
/-
Property C26: units are ignored.
-/

namespace Verif
open Re

variable {X V S : Type}

/-! ### Specification -/

/-- The plural endings. -/
def plurals : List Str := [[], s%"s", s%"es"]

/-- A power of a unit: `^d` or `^{d…d}`. -/
inductive Power : Str → Prop
  | one (d : Char) (hd : asciiDigit d = true) : Power ['^', d]
  | braced (ds : Str) (h0 : ds ≠ []) (hd : ∀ c ∈ ds, asciiDigit c = true) : Power (s%"^{" ++ ds ++ s%"}")

/-- What may follow a unit: nothing, or a power, possibly after blanks. -/
inductive PowerEnd : Str → Prop
  | bare : PowerEnd []
  | pow (j : Nat) (p : Str) (hp : Power p) : PowerEnd (blanks j ++ p)

/-- A unit as written after a number: a long unit after any number of blanks, a short one after at least one blank, in
the plural or not, with a power or not. -/
inductive BareUnit : Str → Prop
  | long (k : Nat) (u pl z : Str) (hu : u ∈ listedLong) (hp : pl ∈ plurals) (hz : PowerEnd z) :
      BareUnit (blanks k ++ (u ++ pl) ++ z)
  | short (k : Nat) (u pl z : Str) (hu : u ∈ shortUnits) (hp : pl ∈ plurals) (hz : PowerEnd z) :
      BareUnit (blanks (k + 1) ++ (u ++ pl) ++ z)

/-- A unit in `\text{…}` or `\mbox{…}`. -/
inductive WrappedUnit : Str → Prop
  | mk (k i : Nat) (kw u pl z1 z2 : Str) (hk : kw = s%"text" ∨ kw = s%"mbox") (hu : u ∈ listedLong ++ shortUnits ++ listedSingle)
      (hp : pl ∈ plurals) (hz1 : PowerEnd z1) (hz2 : PowerEnd z2) :
      WrappedUnit (blanks k ++ ('\\' :: kw ++ '{' :: (blanks i ++ (u ++ pl) ++ z1 ++ '}' :: z2)))

/-! ### Proof -/

/-- The characters after a unit. -/
def powChar (c : Char) : Bool := c == ' ' || c == '^' || c == '{' || c == '}' || asciiDigit c

theorem PowerEnd.chars {z : Str} (h : PowerEnd z) : ∀ c ∈ z, powChar c = true := by
  cases h with
  | bare => simp
  | pow j p hp =>
    intro c hc
    rcases List.mem_append.1 hc with h | h
    · rw [blanks_mem h]; decide
    · cases hp with
      | one d hd =>
        simp at h
        rcases h with rfl | rfl
        · decide
        · simp [powChar, hd]
      | braced ds h0 hd =>
        simp at h
        rcases h with rfl | rfl | h | rfl
        · decide
        · decide
        · simp [powChar, hd c h]
        · decide

theorem PowerEnd.last {z : Str} (h : PowerEnd z) : z.getLast? ≠ some ' ' := by
  cases h with
  | bare => simp
  | pow j p hp =>
    cases hp with
    | one d hd =>
      rw [List.getLast?_append]; simp; rintro rfl; exact absurd hd (by decide)
    | braced ds h0 hd => rw [← List.append_assoc, List.getLast?_concat]; simp

theorem isDigit_of {U : Uni} {x : Char} (h : asciiDigit x = true) : isDigit U x = true := isDigit_of_ascii U h

/-- The optional power matches what follows a unit. -/
theorem first_power' {U : Uni} {p : Str} (hp : Power p) (pre : Str) (caps : List (Nat × Str)) :
    (powerRe' U).First ⟨pre, p, caps⟩ ⟨p.reverse ++ pre, [], caps⟩ := by
  unfold powerRe'
  apply First.opt_some
  cases hp with
  | one d hd =>
    apply First.alt_l
    exact First.seq (First.c '^' pre [d] caps) (First.chr (isDigit_of hd))
  | braced ds h0 hd =>
    apply First.alt_r
    · apply run_seq_nil'
      intro t ht
      simp [Re.c] at ht
      subst ht
      exact run_chr_empty (by intro x hx; simp at hx; subst hx; rfl)
    · have h3 := First.plus (p := fun y => y == '}') s%"}" [] (ds.reverse ++ (s%"^{".reverse ++ pre)) caps (by simp) (by simp) (by simp)
      have h2 := First.cat_cons (First.plus (p := isDigit U) ds s%"}" (s%"^{".reverse ++ pre) caps h0 (fun x hx => isDigit_of (hd x hx))
        (by intro x hx; simp at hx; subst hx; rfl)) (First.cat_one h3)
      have h1 := First.cat_cons (First.lit s%"^{" pre (ds ++ s%"}") caps) h2
      simp only [List.reverse_append, List.append_assoc] at h1 ⊢; exact h1

theorem first_power {U : Uni} {p : Str} (hp : Power p) (cs pre : Str) (caps : List (Nat × Str)) :
    (powerRe U).First ⟨pre, p ++ cs, caps⟩ ⟨p.reverse ++ pre, cs, caps⟩ := by
  unfold powerRe
  apply First.opt_some
  cases hp with
  | one d hd =>
    apply First.alt_l
    exact First.seq (First.c '^' pre (d :: cs) caps) (First.chr (isDigit_of hd))
  | braced ds h0 hd =>
    apply First.alt_r
    · apply run_seq_nil'
      intro t ht
      simp [Re.c] at ht
      subst ht
      exact run_chr_empty (by intro x hx; simp at hx; subst hx; rfl)
    · have h3 := First.c '}' (ds.reverse ++ (s%"^{".reverse ++ pre)) cs caps
      have h2 := First.cat_cons (First.plus (p := isDigit U) ds ('}' :: cs) (s%"^{".reverse ++ pre) caps h0 (fun x hx => isDigit_of (hd x hx))
        (by intro x hx; simp at hx; subst hx; rfl)) (First.cat_one h3)
      have h1 := First.cat_cons (First.lit s%"^{" pre (ds ++ '}' :: cs) caps) h2
      simp only [List.reverse_append, List.append_assoc] at h1 ⊢; exact h1

theorem power_head {p : Str} (hp : Power p) (cs : Str) : ∃ t, p ++ cs = '^' :: t := by
  cases hp with
  | one d hd => exact ⟨_, rfl⟩
  | braced ds h0 hd => exact ⟨_, rfl⟩

theorem run_power'_none {U : Uni} {cs pre : Str} {caps : List (Nat × Str)} (h : cs.head? ≠ some '^') :
    (powerRe' U).First ⟨pre, cs, caps⟩ ⟨pre, cs, caps⟩ := by
  apply First.opt_none
  have hc : (c '^').run ⟨pre, cs, caps⟩ = [] := run_chr_empty (by intro x hx; rw [beq_eq_false_iff_ne]; rintro rfl; exact h hx)
  apply run_alt_nil
  · exact run_seq_nil hc
  · exact run_cat_nil (run_seq_nil hc)

theorem run_power_none {U : Uni} {cs pre : Str} {caps : List (Nat × Str)} (h : cs.head? ≠ some '^') :
    (powerRe U).First ⟨pre, cs, caps⟩ ⟨pre, cs, caps⟩ := by
  apply First.opt_none
  have hc : (c '^').run ⟨pre, cs, caps⟩ = [] := run_chr_empty (by intro x hx; rw [beq_eq_false_iff_ne]; rintro rfl; exact h hx)
  apply run_alt_nil
  · exact run_seq_nil hc
  · exact run_cat_nil (run_seq_nil hc)

/-- Blanks and a power after a unit are matched. -/
theorem first_end' {U : Uni} {z : Str} (h : PowerEnd z) (pre : Str) (caps : List (Nat × Str)) :
    (cat [many (c ' '), powerRe' U]).First ⟨pre, z, caps⟩ ⟨z.reverse ++ pre, [], caps⟩ := by
  cases h with
  | bare =>
    exact First.cat_cons (First.many (p := (· == ' ')) [] [] pre caps (by simp) (by simp)) (First.cat_one (run_power'_none (by simp)))
  | pow j p hp =>
    obtain ⟨t, ht⟩ := power_head hp []
    rw [List.append_nil] at ht
    have h1 := First.cat_cons (First.many (p := (· == ' ')) (blanks j) p pre caps (by intro x hx; simp [blanks_mem hx])
      (by rw [ht]; intro x hx; simp at hx; subst hx; rfl)) (First.cat_one (first_power' (U := U) hp _ caps))
    simp only [List.reverse_append, List.append_assoc] at h1 ⊢; exact h1

theorem first_end {U : Uni} {z : Str} (h : PowerEnd z) (rs : List Re) (cs pre : Str) (hc : cs.head? ≠ some '^') (hc' : cs.head? ≠ some ' ')
    (caps : List (Nat × Str)) {t : RSt} (ht : (cat rs).First ⟨z.reverse ++ pre, cs, caps⟩ t) (hr : rs ≠ []) :
    (cat (many (c ' ') :: powerRe U :: rs)).First ⟨pre, z ++ cs, caps⟩ t := by
  obtain ⟨r, rs, rfl⟩ := List.exists_cons_of_ne_nil hr
  cases h with
  | bare =>
    exact First.cat_cons (First.many (p := (· == ' ')) [] cs pre caps (by simp) (by
      intro x hx; rw [beq_eq_false_iff_ne]; rintro rfl; exact hc' hx)) (First.cat_cons (run_power_none hc) ht)
  | pow j p hp =>
    obtain ⟨t', ht'⟩ := power_head hp cs
    have h2 := First.cat_cons (first_power (U := U) hp cs ((blanks j).reverse ++ pre) caps) (by simpa [List.append_assoc] using ht)
    have h1 := First.cat_cons (First.many (p := (· == ' ')) (blanks j) (p ++ cs) pre caps (by intro x hx; simp [blanks_mem hx])
      (by rw [ht']; intro x hx; simp at hx; subst hx; rfl)) h2
    simp only [List.append_assoc] at h1 ⊢; exact h1

/-- The plural ending is matched. -/
theorem first_plural {pl : Str} (h : pl ∈ plurals) (cs pre : Str) (caps : List (Nat × Str)) (hc : ∀ x, cs.head? = some x → x ≠ 'e' ∧ x ≠ 's') :
    pluralRe.First ⟨pre, pl ++ cs, caps⟩ ⟨pl.reverse ++ pre, cs, caps⟩ := by
  have hn : ∀ (y : Char) (q cs pre : Str), (∀ x, cs.head? = some x → x ≠ y) → (lit (y :: q)).run ⟨pre, cs, caps⟩ = [] := by
    intro y q cs pre h
    rw [run_lit, if_neg]
    intro hp
    cases cs with
    | nil => simp at hp
    | cons x xs => rw [List.isPrefixOf_cons_cons] at hp; simp at hp; exact h x rfl hp.1.symm
  simp only [plurals, List.mem_cons, List.not_mem_nil, or_false] at h
  rcases h with rfl | rfl | rfl
  · apply First.opt_none
    exact run_alt_nil (hn _ _ _ _ fun x hx => (hc x hx).1) (hn _ _ _ _ fun x hx => (hc x hx).2)
  · apply First.opt_some
    apply First.alt_r
    · exact hn _ _ _ _ (by intro x hx; simp at hx; subst hx; decide)
    · exact First.lit _ _ _ _
  · apply First.opt_some
    exact First.alt_l (First.lit _ _ _ _)

/-- Removing one match at the end of a text. -/
theorem reSubConst_end {r : Re} {a t : Str} {v : RSt} (h0 : t ≠ []) (ha : ∀ x ∈ a, ∀ pre cs, r.run ⟨pre, x :: cs, []⟩ = [])
    (hn : ∀ pre, r.run ⟨pre, [], []⟩ = []) (hf : r.First ⟨a.reverse ++ [], t, []⟩ v) (hv : v.rest = []) : reSubConst r [] (a ++ t) = a := by
  unfold reSubConst reSub
  rw [scanSub_skip]
  · obtain ⟨p, q, cp⟩ := v
    simp only at hv
    subst hv
    have hsc := First.scanner (fun _ _ => []) (cs := []) (pre := a.reverse ++ []) (by rw [List.append_nil t]; exact hf)
    have := scanSub_match (r.scanner fun _ _ => []) (a.reverse ++ []) t [] _ h0 hsc
    rw [List.append_nil t] at this
    rw [this]
    have hm : ∀ pre, r.matchAt pre [] = none := fun pre => by unfold Re.matchAt; rw [hn]; rfl
    simp only [scanSub, Re.scanner, hm]
    simp
  · intro a₁ a₂ e hne
    obtain ⟨y, ys, rfl⟩ := List.exists_cons_of_ne_nil hne
    have : r.matchAt (a₁.reverse ++ []) (y :: ys ++ t) = none := by
      unfold Re.matchAt
      rw [List.cons_append, ha y (by rw [e]; simp)]; rfl
    simp only [Re.scanner, this]

/-- The letters of units. -/
def unitOk (c : Char) : Bool :=
  !(plain c) && !(powChar c) && !(s%":_%$,;!\\|").contains c && !([7, 8, 9, 12, 13] : List Nat).contains c.toNat

def theUnits : List Str := unitLong ++ shortUnits ++ unitSingle

theorem units_ok : ∀ u ∈ theUnits, u ≠ [] ∧ '.' ∉ u ∧ ∀ pl ∈ plurals, ∀ c ∈ u ++ pl, unitOk c = true := by decide +kernel

/-- Words that other stages look for. -/
def otherWords : List Str := [s%"cases", s%"array", s%"and", s%"or", s%"llion", s%"text", s%"mbox"]

theorem other_ok : ∀ p ∈ otherWords, p ≠ [] ∧ ∀ c ∈ p, unitOk c = true := by decide +kernel

theorem units_other : ∀ u ∈ theUnits, ∀ pl ∈ plurals, ∀ p ∈ otherWords, contains p (u ++ pl) = false := by decide +kernel

/-- An earlier unit of the table is not part of a later one. -/
theorem units_long_before : ∀ u ∈ unitLong, ∀ pl ∈ plurals, ∀ u' ∈ unitLong.takeWhile (· != u), contains u' (u ++ pl) = false := by
  decide +kernel

theorem units_short_before : ∀ u ∈ shortUnits, ∀ pl ∈ plurals,
    (∀ u' ∈ unitLong, contains u' (u ++ pl) = false) ∧ ∀ u' ∈ unitShort.takeWhile (· != u), '.' ∉ u' ∧ contains u' (u ++ pl) = false := by
  decide +kernel

/-- The units of the specification are those of the model. -/
theorem listedLong_iff (u : Str) : u ∈ listedLong ↔ u ∈ unitLong := by
  have h1 : ∀ u ∈ listedLong, u ∈ unitLong := by decide +kernel
  have h2 : ∀ u ∈ unitLong, u ∈ listedLong := by decide +kernel
  exact ⟨h1 u, h2 u⟩

theorem listedSingle_sub : ∀ u ∈ listedSingle, u ∈ unitSingle := by decide +kernel

theorem listed_sub {u : Str} (h : u ∈ listedLong ++ shortUnits ++ listedSingle) : u ∈ theUnits := by
  simp only [theUnits, List.mem_append] at h ⊢
  rcases h with (h | h) | h
  · exact .inl (.inl ((listedLong_iff u).1 h))
  · exact .inl (.inr h)
  · exact .inr (listedSingle_sub u h)

theorem shortUnits_sub : ∀ u ∈ shortUnits, u ∈ unitShort := by decide +kernel

/-- The unit pattern `u` fails on the word `w`, whatever power follows. -/
def mis : Str → Str → Bool
  | [], _ => false
  | x :: _, [] => unitOk x
  | x :: xs, y :: ys => (x != '.' && x != y) || mis xs ys

theorem units_wrapped_before : ∀ u ∈ theUnits, u ∈ unitAll ∧ ∀ pl ∈ plurals, ∀ u' ∈ unitAll.takeWhile (· != u),
    mis u' (u ++ pl) = true := by decide +kernel

theorem mis_run {u w : Str} (h : mis u w = true) (rest : Str) (hr : ∀ c ∈ rest, powChar c = true) (pre : Str) (caps : List (Nat × Str)) :
    (unitRe u).run ⟨pre, w ++ rest, caps⟩ = [] := by
  have key : ∀ (u w pre : Str), mis u w = true → (cat (u.map fun x => if x == '.' then Re.dot else c x)).run ⟨pre, w ++ rest, caps⟩ = [] := by
    intro u
    induction u with
    | nil => intro w pre h; cases h
    | cons x xs ih =>
      intro w pre h
      have hcat : ∀ s : RSt, (cat ((x :: xs).map fun x => if x == '.' then Re.dot else c x)).run s =
          ((if x == '.' then Re.dot else c x).run s).flatMap (cat (xs.map fun x => if x == '.' then Re.dot else c x)).run := by
        intro s
        cases xs with
        | nil =>
          have he : (cat (List.map (fun x => if x == '.' then Re.dot else c x) [])).run = fun s => [s] := rfl
          rw [he, List.flatMap_singleton']; rfl
        | cons y ys => rfl
      rw [hcat, List.flatMap_eq_nil_iff]
      cases w with
      | nil =>
        have hx : unitOk x = true := h
        have hd : (x == '.') = false := by rw [beq_eq_false_iff_ne]; rintro rfl; exact absurd hx (by decide)
        rw [hd]
        intro t ht
        rw [show (if false = true then Re.dot else c x) = c x from rfl, Re.c, run_chr_empty] at ht
        · cases ht
        · intro y hy
          rw [beq_eq_false_iff_ne]
          rintro rfl
          have := hr y (List.mem_of_head? hy)
          simp [unitOk, this] at hx
      | cons y ys =>
        intro t ht
        have hy : t = ⟨y :: pre, ys ++ rest, caps⟩ ∧ (x = '.' ∨ x = y) := by
          by_cases hd : x = '.'
          · subst hd
            simp [Re.dot] at ht
            exact ⟨ht.2, .inl rfl⟩
          · rw [if_neg (by simpa using hd)] at ht
            simp [Re.c] at ht
            exact ⟨ht.2, .inr ht.1.symm⟩
        rw [hy.1]
        apply ih
        have : (x != '.' && x != y) = false := by rcases hy.2 with h | h <;> simp [h]
        simpa [mis, this] using h
  exact key u w pre h

theorem unitOk_plain {c : Char} (h : unitOk c = true) : plain c = false := by
  simp only [unitOk, Bool.and_eq_true, Bool.not_eq_true'] at h; exact h.1.1.1

theorem unitOk_pow {c : Char} (h : unitOk c = true) : powChar c = false := by
  simp only [unitOk, Bool.and_eq_true, Bool.not_eq_true'] at h; exact h.1.1.2

theorem not_mem_of {P : Char → Bool} {s : Str} (h : ∀ c ∈ s, P c = true) {x : Char} (hx : P x = false) : x ∉ s :=
  fun hm => by rw [h x hm] at hx; cases hx

/-- A word of unit letters in `number blanks word power` is in the word. -/
theorem word_infix {a w z p : Str} {k : Nat} (ha : ∀ c ∈ a, plain c = true) (hz : ∀ c ∈ z, powChar c = true)
    (h0 : p ≠ []) (hp : ∀ c ∈ p, unitOk c = true) (h : p <:+: a ++ (blanks k ++ w ++ z)) : p <:+: w := by
  obtain ⟨x, xs, rfl⟩ := List.exists_cons_of_ne_nil h0
  have hx := hp x (by simp)
  have h1 := infix_drop (not_mem_of ha (unitOk_plain hx)) h
  rw [List.append_assoc] at h1
  have hb : x ∉ blanks k := by
    intro hm; rw [blanks_mem hm] at hx; exact absurd hx (by decide)
  have h2 := infix_drop hb h1
  obtain ⟨q, y, e⟩ : ∃ q y, x :: xs = q ++ [y] := ⟨(x :: xs).dropLast, (x :: xs).getLast (by simp), (List.dropLast_append_getLast _).symm⟩
  rw [e] at h2 hp ⊢
  exact infix_chop (not_mem_of hz (unitOk_pow (hp y (by simp)))) h2

/-- Every unit is found by the fold when its turn comes. -/
theorem fold_split {l : List Str} {u : Str} (h : u ∈ l) : ∃ l2, l = l.takeWhile (· != u) ++ u :: l2 := by
  induction l with
  | nil => cases h
  | cons x xs ih =>
    by_cases hx : x = u
    · subst hx; exact ⟨xs, by simp⟩
    · obtain ⟨l2, e⟩ := ih (by rcases List.mem_cons.1 h with h | h; exact absurd h.symm hx; exact h)
      refine ⟨l2, ?_⟩
      rw [List.takeWhile_cons, if_pos (by simpa using hx), List.cons_append, ← e]

theorem fold_hit (f : Str → Str → Str) {l : List Str} {u s a : Str} (h : u ∈ l) (h1 : ∀ u' ∈ l.takeWhile (· != u), f s u' = s)
    (h2 : f s u = a) (h3 : ∀ u' ∈ l, f a u' = a) : l.foldl f s = a := by
  obtain ⟨l2, e⟩ := fold_split h
  have : (l.takeWhile (· != u) ++ u :: l2).foldl f s = a := by
    rw [List.foldl_append, foldl_id f _ s h1, List.foldl_cons, h2]
    exact foldl_id f l2 a (fun u' hu' => h3 u' (by rw [e]; simp [hu']))
  rwa [← e] at this

theorem lit_run_none {u : Str} (h0 : u ≠ []) {cs pre : Str} {caps : List (Nat × Str)} (h : ∀ x, cs.head? = some x → u.head? ≠ some x) :
    (lit u).run ⟨pre, cs, caps⟩ = [] := by
  obtain ⟨y, ys, rfl⟩ := List.exists_cons_of_ne_nil h0
  rw [run_lit, if_neg]
  intro hp
  cases cs with
  | nil => simp at hp
  | cons x xs => rw [List.isPrefixOf_cons_cons] at hp; simp at hp; exact h x rfl (by simp [hp.1])

/-- A long unit after a number is removed. -/
theorem long_removed (U : Uni) {a u pl z : Str} (k : Nat) (ha : ∀ c ∈ a, plain c = true) (h0 : u ≠ []) (hd : '.' ∉ u)
    (hu : ∀ c ∈ u, unitOk c = true) (hp : pl ∈ plurals) (hz : PowerEnd z) :
    reSubConst (longUnitRe U u) [] (a ++ (blanks k ++ (u ++ pl) ++ z)) = a := by
  have huo : ∀ x, u.head? = some x → unitOk x = true := fun x hx => hu x (List.mem_of_head? hx)
  have hne : blanks k ++ (u ++ pl) ++ z ≠ [] := by simp [h0]
  have hsp : ∀ x, (u ++ (pl ++ z)).head? = some x → (x == ' ') = false := by
    intro x hx
    obtain ⟨y, ys, rfl⟩ := List.exists_cons_of_ne_nil h0
    simp at hx; subst hx
    rw [beq_eq_false_iff_ne]; rintro rfl; exact absurd (huo ' ' rfl) (by decide)
  have hzs : ∀ x, z.head? = some x → x ≠ 'e' ∧ x ≠ 's' := fun x hx =>
    ⟨by rintro rfl; exact absurd (hz.chars _ (List.mem_of_head? hx)) (by decide),
     by rintro rfl; exact absurd (hz.chars _ (List.mem_of_head? hx)) (by decide)⟩
  unfold longUnitRe
  rw [unitRe_lit hd]
  refine reSubConst_end (v := ⟨z.reverse ++ (pl.reverse ++ (u.reverse ++ ((blanks k).reverse ++ (a.reverse ++ [])))), [], []⟩) hne ?_ ?_ ?_ rfl
  · intro x hx pre cs
    have hx' := ha x hx
    apply run_seq_nil'
    intro t ht
    rw [Re.c, run_many_none (by intro y hy; simp at hy; subst hy; rw [beq_eq_false_iff_ne]; exact plain_ne hx' (by decide))] at ht
    simp at ht; subst ht
    apply run_seq_nil
    apply lit_run_none h0
    intro y hy hh
    simp at hy; subst hy
    rw [unitOk_plain (huo _ hh)] at hx'; cases hx'
  · intro pre
    apply run_seq_nil'
    intro t ht
    rw [Re.c, run_many_none (by simp)] at ht
    simp at ht; subst ht
    exact run_seq_nil (lit_run_none h0 (by simp))
  · have h4 := first_end' (U := U) hz (pl.reverse ++ (u.reverse ++ ((blanks k).reverse ++ (a.reverse ++ [])))) []
    have h3 := First.cat_cons (first_plural hp z (u.reverse ++ ((blanks k).reverse ++ (a.reverse ++ []))) [] hzs) h4
    have h2 := First.cat_cons (First.lit u ((blanks k).reverse ++ (a.reverse ++ [])) (pl ++ z) []) h3
    have h1 := First.cat_cons (First.many (p := (· == ' ')) (blanks k) (u ++ (pl ++ z)) (a.reverse ++ []) [] (by intro x hx; simp [blanks_mem hx]) hsp) h2
    simp only [List.append_assoc] at h1 ⊢
    exact h1

/-- A short unit after a number and a blank is removed. -/
theorem short_removed (U : Uni) {a u pl z : Str} (k : Nat) (ha : ∀ c ∈ a, plain c = true) (h0 : u ≠ []) (hd : '.' ∉ u)
    (hu : ∀ c ∈ u, unitOk c = true) (hp : pl ∈ plurals) (hz : PowerEnd z) :
    reSubConst (shortUnitRe U u) [] (a ++ (blanks (k + 1) ++ (u ++ pl) ++ z)) = a := by
  have huo : ∀ x, u.head? = some x → unitOk x = true := fun x hx => hu x (List.mem_of_head? hx)
  have hne : blanks (k + 1) ++ (u ++ pl) ++ z ≠ [] := by simp [h0]
  have hsp : ∀ x, (u ++ (pl ++ z)).head? = some x → (x == ' ') = false := by
    intro x hx
    obtain ⟨y, ys, rfl⟩ := List.exists_cons_of_ne_nil h0
    simp at hx; subst hx
    rw [beq_eq_false_iff_ne]; rintro rfl; exact absurd (huo ' ' rfl) (by decide)
  have hzs : ∀ x, z.head? = some x → x ≠ 'e' ∧ x ≠ 's' := fun x hx =>
    ⟨by rintro rfl; exact absurd (hz.chars _ (List.mem_of_head? hx)) (by decide),
     by rintro rfl; exact absurd (hz.chars _ (List.mem_of_head? hx)) (by decide)⟩
  unfold shortUnitRe
  rw [unitRe_lit hd]
  refine reSubConst_end (v := ⟨z.reverse ++ (pl.reverse ++ (u.reverse ++ ((blanks (k + 1)).reverse ++ (a.reverse ++ [])))), [], []⟩) hne ?_ ?_ ?_ rfl
  · intro x hx pre cs
    have hx' := ha x hx
    exact run_seq_nil (run_seq_nil (run_chr_empty (by
      intro y hy; simp at hy; subst hy; rw [beq_eq_false_iff_ne]; exact plain_ne hx' (by decide))))
  · intro pre
    exact run_seq_nil (run_seq_nil (run_chr_empty (by simp)))
  · have h4 := first_end' (U := U) hz (pl.reverse ++ (u.reverse ++ ((blanks (k + 1)).reverse ++ (a.reverse ++ [])))) []
    have h3 := First.cat_cons (first_plural hp z (u.reverse ++ ((blanks (k + 1)).reverse ++ (a.reverse ++ []))) [] hzs) h4
    have h2 := First.cat_cons (First.lit u ((blanks (k + 1)).reverse ++ (a.reverse ++ [])) (pl ++ z) []) h3
    have h1 := First.cat_cons (First.plus (p := (· == ' ')) (blanks (k + 1)) (u ++ (pl ++ z)) (a.reverse ++ []) [] (by simp [blanks])
      (by intro x hx; simp [blanks_mem hx]) hsp) h2
    simp only [List.append_assoc] at h1 ⊢
    exact h1

theorem long_id {U : Uni} {u s : Str} (h : ∀ w, (unitRe u).Lang w → ¬ w <:+: s) : reSubConst (longUnitRe U u) [] s = s :=
  reSubConst_id_of_part (r := unitRe u) (by simp) h

theorem short_id {U : Uni} {u s : Str} (h : ∀ w, (unitRe u).Lang w → ¬ w <:+: s) : reSubConst (shortUnitRe U u) [] s = s :=
  reSubConst_id_of_part (r := unitRe u) (by simp) h

/-- No unit in a text of number characters and blanks. -/
theorem unit_absent {a u : Str} (ha : ∀ c ∈ a, plain c = true ∨ c = ' ') (hu : u ∈ unitLong ++ unitShort) :
    ∀ w, (unitRe u).Lang w → ¬ w <:+: a := by
  have ht : ∀ u ∈ unitLong ++ unitShort, ∃ x ∈ u, x ≠ '.' ∧ plain x = false ∧ x ≠ ' ' := by decide +kernel
  intro w hw hi
  obtain ⟨x, h1, h2, h3, h4⟩ := ht u hu
  rcases ha x (hi.subset (unitRe_lang_mem hw h1 h2)) with h | h
  · rw [h] at h3; cases h3
  · exact h4 h

theorem bare_removed (U : Uni) {a t : Str} (ha : ∀ c ∈ a, plain c = true) (ht : BareUnit t) : bareUnits U (a ++ t) = a := by
  have ha' : ∀ c ∈ a, plain c = true ∨ c = ' ' := fun c hc => .inl (ha c hc)
  cases ht with
  | long k u pl z hu hp hz =>
    have hu := (listedLong_iff u).1 hu
    obtain ⟨h0, hd, hok⟩ := units_ok u (by simp [theUnits, hu])
    have hl : unitLong.foldl (fun s u => reSubConst (longUnitRe U u) [] s) (a ++ (blanks k ++ (u ++ pl) ++ z)) = a := by
      refine fold_hit _ hu ?_ (long_removed U k ha h0 hd (fun c hc => hok [] (by decide) c (by simpa using hc)) hp hz)
        (fun u' hu' => long_id (unit_absent ha' (by simp [hu'])))
      · intro u' hu'
        have hm : u' ∈ unitLong := (List.takeWhile_subset _) hu'
        obtain ⟨h0', hd', hok'⟩ := units_ok u' (by simp [theUnits, hm])
        apply long_id
        rw [unitRe_lit hd']
        apply lit_absent
        intro hi
        have := word_infix ha hz.chars h0' (fun c hc => hok' [] (by decide) c (by simpa using hc)) hi
        exact (contains_eq_false _ _).1 (units_long_before u hu pl hp u' hu') this
    unfold bareUnits
    rw [hl, foldl_id]
    intro u' hu'
    exact short_id (unit_absent ha' (by simp [hu']))
  | short k u pl z hu hp hz =>
    obtain ⟨h0, hd, hok⟩ := units_ok u (by simp [theUnits, hu])
    obtain ⟨hb1, hb2⟩ := units_short_before u hu pl hp
    unfold bareUnits
    rw [foldl_id (fun s u => reSubConst (longUnitRe U u) [] s) unitLong]
    · refine fold_hit _ (shortUnits_sub u hu) ?_ (short_removed U k ha h0 hd (fun c hc => hok [] (by decide) c (by simpa using hc)) hp hz)
        (fun u' hu' => short_id (unit_absent ha' (by simp [hu'])))
      · intro u' hu'
        obtain ⟨hd', hc'⟩ := hb2 u' hu'
        apply short_id
        rw [unitRe_lit hd']
        apply lit_absent
        intro hi
        have hm : u' ∈ unitShort := (List.takeWhile_subset _) hu'
        have hall : ∀ u ∈ unitShort, '.' ∉ u → u ≠ [] ∧ ∀ c ∈ u, unitOk c = true := by decide +kernel
        obtain ⟨h0', hok'⟩ := hall u' hm hd'
        exact (contains_eq_false _ _).1 hc' (word_infix ha hz.chars h0' hok' hi)
    · intro u' hu'
      obtain ⟨h0', hd', hok'⟩ := units_ok u' (by simp [theUnits, hu'])
      apply long_id
      rw [unitRe_lit hd']
      apply lit_absent
      intro hi
      exact (contains_eq_false _ _).1 (hb1 u' hu') (word_infix ha hz.chars h0' (fun c hc => hok' [] (by decide) c (by simpa using hc)) hi)

/-! #### The wrapped form -/

/-- A wrapped unit is removed in its turn. -/
theorem wrapped_removed (U : Uni) {a kw u pl z1 z2 : Str} (i : Nat) (ha : ∀ c ∈ a, plain c = true ∨ c = ' ') (hd : '.' ∉ u)
    (h0 : u ≠ []) (hu : ∀ c ∈ u, unitOk c = true ∧ isSpace c = false) (hp : pl ∈ plurals) (hz1 : PowerEnd z1) (hz2 : PowerEnd z2)
    (hk : kw.head? ≠ some '\\') :
    reSubConst (textUnitRe U kw u) [] (a ++ ('\\' :: kw ++ '{' :: (blanks i ++ (u ++ pl) ++ z1 ++ '}' :: z2))) = a := by
  unfold textUnitRe
  rw [unitRe_lit hd]
  have hzs : ∀ x, (z1 ++ '}' :: z2).head? = some x → x ≠ 'e' ∧ x ≠ 's' := by
    intro x hx
    have : powChar x = true := by
      have := List.mem_of_head? hx
      rcases List.mem_append.1 this with h | h
      · exact hz1.chars x h
      · rcases List.mem_cons.1 h with rfl | h
        · decide
        · exact hz2.chars x h
    constructor <;> (rintro rfl; exact absurd this (by decide))
  have hbad : ∀ x, x ≠ '\\' → ∀ pre cs, (plus (c '\\')).run ⟨pre, x :: cs, []⟩ = [] := by
    intro x hx pre cs
    exact run_seq_nil (run_chr_empty (by intro y hy; simp at hy; subst hy; rw [beq_eq_false_iff_ne]; exact hx))
  have hlast : ∀ (pre : Str), (cat [many (c ' '), powerRe U]).First ⟨pre, z2, []⟩ ⟨z2.reverse ++ pre, [], []⟩ := by
    intro pre
    have := first_end (U := U) hz2 [Re.eps] [] pre (by simp) (by simp) [] (t := ⟨z2.reverse ++ pre, [], []⟩) rfl (by simp)
    rw [List.append_nil] at this
    unfold Re.First at this ⊢
    have e : (cat [many (c ' '), powerRe U, Re.eps]).run ⟨pre, z2, []⟩ = (cat [many (c ' '), powerRe U]).run ⟨pre, z2, []⟩ := by
      have h1 : ((powerRe U).seq Re.eps).run = (powerRe U).run := by funext s; rw [run_seq]; exact List.flatMap_singleton' _
      simp only [cat, run_seq, h1]
    rw [← e]; exact this
  refine reSubConst_end (v := ⟨z2.reverse ++ ('}' :: (z1.reverse ++ (pl.reverse ++ (u.reverse ++ ((blanks i).reverse ++ ('{' :: (kw.reverse ++ ('\\' :: (a.reverse ++ []))))))))), [], []⟩)
    (by simp) ?_ ?_ ?_ rfl
  · intro x hx pre cs
    apply run_seq_nil
    apply hbad
    rintro rfl
    rcases ha _ hx with h | h
    · exact absurd h (by decide)
    · exact absurd h (by decide)
  · intro pre
    exact run_seq_nil (run_seq_nil (run_chr_empty (by simp)))
  · have h8 := hlast ('}' :: (z1.reverse ++ (pl.reverse ++ (u.reverse ++ ((blanks i).reverse ++ ('{' :: (kw.reverse ++ ('\\' :: (a.reverse ++ [])))))))))
    have h7 := First.cat_cons (First.c '}' (z1.reverse ++ (pl.reverse ++ (u.reverse ++ ((blanks i).reverse ++ ('{' :: (kw.reverse ++ ('\\' :: (a.reverse ++ [])))))))) z2 []) h8
    have h6 := first_end (U := U) hz1 _ ('}' :: z2) _ (by simp) (by simp) [] h7 (by simp)
    have h5 := First.cat_cons (first_plural hp (z1 ++ '}' :: z2) _ [] hzs) h6
    have h4 := First.cat_cons (First.lit u ((blanks i).reverse ++ ('{' :: (kw.reverse ++ ('\\' :: (a.reverse ++ []))))) (pl ++ (z1 ++ '}' :: z2)) []) h5
    have h3 := First.cat_cons (First.many (p := isSpace) (blanks i) (u ++ (pl ++ (z1 ++ '}' :: z2))) ('{' :: (kw.reverse ++ ('\\' :: (a.reverse ++ [])))) []
      (blanks_space i) (by
        intro x hx
        obtain ⟨y, ys, rfl⟩ := List.exists_cons_of_ne_nil h0
        simp at hx; subst hx; exact (hu _ (by simp)).2)) h4
    have h2 := First.cat_cons (First.c '{' (kw.reverse ++ ('\\' :: (a.reverse ++ []))) _ []) h3
    have h1 := First.cat_cons (First.lit kw ('\\' :: (a.reverse ++ [])) _ []) h2
    have h9 := First.cat_cons (First.plus (p := fun y => y == '\\') s%"\\" (kw ++ '{' :: (blanks i ++ (u ++ (pl ++ (z1 ++ '}' :: z2))))) (a.reverse ++ []) [] (by simp) (by simp) (by
      intro x hx
      rw [beq_eq_false_iff_ne]; rintro rfl
      cases kw with
      | nil => simp at hx
      | cons y ys => simp at hx; subst hx; exact hk rfl)) h1
    simp only [List.append_assoc, List.cons_append] at h9 ⊢
    exact h9

theorem units_heads : ∀ u ∈ unitAll, ∃ x xs, u = x :: xs ∧ x ≠ '.' ∧ x ≠ ' ' := by
  have : ∀ u ∈ unitAll, u.head? ≠ none ∧ u.head? ≠ some '.' ∧ u.head? ≠ some ' ' := by decide +kernel
  intro u hu
  obtain ⟨h1, h2, h3⟩ := this u hu
  cases u with
  | nil => exact absurd rfl h1
  | cons x xs => exact ⟨x, xs, rfl, by simpa using h2, by simpa using h3⟩

theorem units_nospace : ∀ u ∈ theUnits, ∀ pl ∈ plurals, ∀ c ∈ u ++ pl, isSpace c = false := by decide +kernel

theorem c_run (x : Char) (pre cs : Str) (caps : List (Nat × Str)) : (c x).run ⟨pre, x :: cs, caps⟩ = [⟨x :: pre, cs, caps⟩] := by
  simp [Re.c]

/-- The other patterns for wrapped units do not touch the text. -/
theorem wrapped_missed (U : Uni) {a kw kw' u' w z1 z2 : Str} (i : Nat) (ha : ∀ c ∈ a, plain c = true ∨ c = ' ')
    (hw : ∀ c ∈ w, unitOk c = true ∧ isSpace c = false) (hz1 : PowerEnd z1) (hz2 : PowerEnd z2) (hu' : u' ∈ unitAll)
    (hk : kw = s%"text" ∨ kw = s%"mbox") (hk' : kw' = s%"text" ∨ kw' = s%"mbox") (h : kw ≠ kw' ∨ mis u' w = true) (hw0 : w ≠ []) :
    reSubConst (textUnitRe U kw' u') [] (a ++ ('\\' :: kw ++ '{' :: (blanks i ++ w ++ z1 ++ '}' :: z2))) =
      a ++ ('\\' :: kw ++ '{' :: (blanks i ++ w ++ z1 ++ '}' :: z2)) := by
  have hrest : ∀ c ∈ z1 ++ '}' :: z2, powChar c = true := by
    intro c hc
    rcases List.mem_append.1 hc with h | h
    · exact hz1.chars c h
    · rcases List.mem_cons.1 h with rfl | h
      · decide
      · exact hz2.chars c h
  have hA : '\\' ∉ a := by
    intro hm
    rcases ha _ hm with h | h
    · exact absurd h (by decide)
    · exact absurd h (by decide)
  have hB : '\\' ∉ kw ++ '{' :: (blanks i ++ w ++ z1 ++ '}' :: z2) := by
    intro hm
    have h1 : '\\' ∉ kw := by rcases hk with rfl | rfl <;> decide
    rcases List.mem_append.1 hm with hm | hm
    · exact h1 hm
    · rcases List.mem_cons.1 hm with hm | hm
      · exact absurd hm (by decide)
      · rw [List.append_assoc] at hm
        rcases List.mem_append.1 hm with hm | hm
        · rcases List.mem_append.1 hm with hm | hm
          · exact absurd (blanks_mem hm) (by decide)
          · exact absurd (hw _ hm).1 (by decide)
        · exact absurd (hrest _ hm) (by decide)
  apply scanSub_id
  intro p q e
  have : (textUnitRe U kw' u').run ⟨p.reverse ++ [], q, []⟩ = [] := by
    by_cases hq : q.head? = some '\\'
    · obtain ⟨q', rfl⟩ : ∃ q', q = '\\' :: q' := by
        cases q with
        | nil => cases hq
        | cons x xs => simp at hq; exact ⟨xs, by rw [hq]⟩
      have e' : a = p ∧ kw ++ '{' :: (blanks i ++ w ++ z1 ++ '}' :: z2) = q' := by
        have hpre := once_infix (p := q') hA hB ⟨p, [], by rw [← List.cons_append, e]; simp⟩
        have hl : q'.length ≤ (kw ++ '{' :: (blanks i ++ w ++ z1 ++ '}' :: z2)).length := hpre.length_le
        have e2 : a ++ '\\' :: (kw ++ '{' :: (blanks i ++ w ++ z1 ++ '}' :: z2)) = p ++ '\\' :: q' := e
        rcases List.append_eq_append_iff.1 e2 with ⟨v, h1, h2⟩ | ⟨v, h1, h2⟩
        · cases v with
          | nil => simp at h1 h2; exact ⟨h1.symm, by simpa using h2⟩
          | cons y ys =>
            rw [List.cons_append, List.cons.injEq] at h2
            exact absurd (by rw [h2.2]; simp) hB
        · cases v with
          | nil => simp at h1 h2; exact ⟨h1, by simpa using h2.symm⟩
          | cons y ys =>
            simp at h2
            exact absurd (by rw [h1, ← h2.1]; simp) hA
      obtain ⟨_, rfl⟩ := e'
      apply run_seq_nil'
      intro t ht
      have ht' : t = ⟨'\\' :: (p.reverse ++ []), kw ++ '{' :: (blanks i ++ w ++ z1 ++ '}' :: z2), []⟩ := by
        unfold plus at ht
        rw [run_seq, c_run, List.flatMap_cons, List.flatMap_nil, List.append_nil] at ht
        change t ∈ (many (.chr (· == '\\'))).run _ at ht
        rw [run_many_none (fun x hx => by
          rw [beq_eq_false_iff_ne]; rintro rfl
          exact hB (List.mem_of_head? hx))] at ht
        simpa using ht
      subst ht'
      by_cases hkk : kw = kw'
      · subst hkk
        have hm : mis u' w = true := by rcases h with h | h; exact absurd rfl h; exact h
        apply run_seq_nil'
        intro t ht
        rw [run_lit] at ht
        rw [if_pos (by simp)] at ht
        simp only [List.mem_singleton] at ht
        subst ht
        simp only [RSt.adv, List.drop_left]
        apply run_seq_nil'
        intro t ht
        rw [c_run, List.mem_singleton] at ht
        subst ht
        apply run_seq_nil'
        intro t ht
        obtain ⟨x, hx, hl⟩ := run_lang _ _ _ ht
        have hxs := lang_star_chr hl
        simp only at hx
        obtain ⟨j, hj⟩ : ∃ j, t.rest = (blanks j ++ w) ++ (z1 ++ '}' :: z2) := by
          have e3 : blanks i ++ (w ++ (z1 ++ '}' :: z2)) = x ++ t.rest := by rw [← hx]; simp [List.append_assoc]
          rcases List.append_eq_append_iff.1 e3 with ⟨v, h1, h2⟩ | ⟨v, h1, h2⟩
          · cases v with
            | nil => exact ⟨0, by simp at h2; simp [blanks, h2]⟩
            | cons y ys =>
              exfalso
              obtain ⟨b, bs, rfl⟩ := List.exists_cons_of_ne_nil hw0
              simp at h2
              have := hxs y (by rw [h1]; simp)
              rw [← h2.1, (hw b (by simp)).2] at this
              cases this
          · refine ⟨v.length, ?_⟩
            have : v = blanks v.length := by
              unfold blanks
              rw [List.eq_replicate_iff]
              exact ⟨rfl, fun c hc => blanks_mem (k := i) (by rw [h1]; simp [hc])⟩
            rw [h2, ← this, List.append_assoc]
        have hm' : mis u' (blanks j ++ w) = true := by
          cases j with
          | zero => exact hm
          | succ j =>
            obtain ⟨y, ys, rfl, h1, h2⟩ := units_heads u' hu'
            simp [blanks_succ, mis, h1, h2]
        apply run_seq_nil
        obtain ⟨tp, tr, tc⟩ := t
        simp only at hj
        subst hj
        exact mis_run hm' _ hrest _ _
      · apply run_seq_nil
        rw [run_lit, if_neg]
        rcases hk with rfl | rfl <;> rcases hk' with rfl | rfl <;> simp at hkk ⊢
    · exact run_seq_nil (run_seq_nil (run_chr_empty (by
        intro x hx; rw [beq_eq_false_iff_ne]; rintro rfl; exact hq hx)))
  show (textUnitRe U kw' u').scanner _ _ _ = none
  unfold Re.scanner Re.matchAt
  rw [this]; rfl

theorem textUnits_removed (U : Uni) {a kw u pl z1 z2 : Str} (i : Nat) (ha : ∀ c ∈ a, plain c = true ∨ c = ' ')
    (hk : kw = s%"text" ∨ kw = s%"mbox") (hu : u ∈ theUnits) (hp : pl ∈ plurals) (hz1 : PowerEnd z1) (hz2 : PowerEnd z2) :
    textUnits U (a ++ ('\\' :: kw ++ '{' :: (blanks i ++ (u ++ pl) ++ z1 ++ '}' :: z2))) = a := by
  obtain ⟨hall, hbefore⟩ := units_wrapped_before u hu
  obtain ⟨h0, hd, hok⟩ := units_ok u hu
  have hok' : ∀ c ∈ u ++ pl, unitOk c = true ∧ isSpace c = false := fun c hc => ⟨hok pl hp c hc, units_nospace u hu pl hp c hc⟩
  have hA : '{' ∉ a := by
    intro hm
    rcases ha _ hm with h | h
    · exact absurd h (by decide)
    · exact absurd h (by decide)
  have hid : ∀ kw u, reSubConst (textUnitRe U kw u) [] a = a := fun kw u => reSubConst_id_of_part (r := c '{') (by simp) (c_absent hA)
  have hrem := wrapped_removed U (pl := pl) i ha hd h0 (fun c hc => hok' c (by simp [hc])) hp hz1 hz2 (kw := kw) (by rcases hk with rfl | rfl <;> decide)
  have hmis := fun kw' u' (hu' : u' ∈ unitAll) hk' h => wrapped_missed U (kw' := kw') (u' := u') i ha hok' hz1 hz2 hu' hk hk' h (by simp [h0])
  apply fold_hit (fun s u => reSubConst (textUnitRe U s%"mbox" u) [] (reSubConst (textUnitRe U s%"text" u) [] s)) hall
  · intro u' hu'
    have hm : u' ∈ unitAll := (List.takeWhile_subset _) hu'
    rw [hmis _ u' hm (.inl rfl) (.inr (hbefore pl hp u' hu')), hmis _ u' hm (.inr rfl) (.inr (hbefore pl hp u' hu'))]
  · rcases hk with rfl | rfl
    · rw [hrem, hid]
    · rw [hmis _ u hall (.inl rfl) (.inl (by decide)), hrem]
  · intro u' _
    rw [hid, hid]

/-! #### The stages before -/

/-- Characters of a clock time. -/
def clockChar (U : Uni) (c : Char) : Bool :=
  isDigit U c || isSpace c || (s%"apmtex").contains (asciiToLower c) || (s%".\\{}").contains c

theorem within_plus {P : Char → Bool} {p : Char → Bool} (h : ∀ c, p c = true → P c = true) : (plus (.chr p)).Within P := ⟨h, h⟩

/-- A text with a character that clock times do not have is not a clock time. -/
theorem timeRe1_none_char {U : Uni} {s : Str} {x : Char} (hx : x ∈ s) (hc : clockChar U x = false) : reSearch (timeRe1 U) s = none := by
  cases hm : reSearch (timeRe1 U) s with
  | none => rfl
  | some t =>
    exfalso
    obtain ⟨u, hu, hl⟩ := reSearch_bos_lang (r := cat [grp 1 (d12 U), many ws, grp 2 meridiemAlt, eos]) hm
    have he := eos_last [bos, grp 1 (d12 U), many ws, grp 2 meridiemAlt] ⟨[], s, []⟩ t (by
      have := List.mem_of_head? (reSearch_bos (r := cat [grp 1 (d12 U), many ws, grp 2 meridiemAlt, eos]) hm)
      show t ∈ (Re.seq bos (cat [grp 1 (d12 U), many ws, grp 2 meridiemAlt, eos])).run ⟨[], s, []⟩
      simpa using this)
    have hci : ∀ y ∈ s%"apmtex", ∀ c, (asciiToLower c == y) = true → clockChar U c = true := by
      intro y hy c h
      simp only [beq_iff_eq] at h
      simp only [clockChar, h, List.contains_iff_mem.2 hy, Bool.or_true, Bool.true_or]
    have hlit : ∀ y ∈ s%".\\{}", ∀ c, (c == y) = true → clockChar U c = true := by
      intro y hy c h
      simp only [beq_iff_eq] at h
      subst h
      simp only [clockChar, List.contains_iff_mem.2 hy, Bool.or_true]
    have hws : ∀ c, isSpace c = true → clockChar U c = true := fun c h => by simp [clockChar, h]
    have hdg : ∀ c, isDigit U c = true → clockChar U c = true := fun c h => by simp [clockChar, h]
    have hmer : meridiemRe.Within (clockChar U) := by
      refine ⟨?_, ⟨?_, trivial⟩, ?_, ⟨?_, trivial⟩⟩
      · intro c h
        rw [Bool.or_eq_true] at h
        rcases h with h | h
        · exact hci 'a' (by decide) c h
        · exact hci 'p' (by decide) c h
      · exact hlit '.' (by decide)
      · exact hci 'm' (by decide)
      · exact hlit '.' (by decide)
    have hwi : (cat [grp 1 (d12 U), many ws, grp 2 meridiemAlt, eos]).Within (clockChar U) := by
      refine ⟨⟨hdg, hdg, trivial⟩, hws, ⟨⟨hlit '\\' (by decide), hci 't' (by decide), hci 'e' (by decide), hci 'x' (by decide),
        hci 't' (by decide), hlit '{' (by decide), hws, hmer, hws, hlit '}' (by decide)⟩, hmer⟩, trivial⟩
    have hall := lang_within _ u hwi hl
    rw [hu] at hx
    rcases List.mem_append.1 hx with h | h
    · rw [hall x h] at hc; cases hc
    · rcases he with he | he
      · rw [he] at h; cases h
      · rw [he] at h; simp at h; subst h
        have : clockChar U '\n' = true := hws _ (by decide)
        rw [this] at hc; cases hc

theorem meridiem_lang_ap {u : Str} (h : meridiemAlt.Lang u) : 'a' ∈ u ∨ 'A' ∈ u ∨ 'p' ∈ u ∨ 'P' ∈ u := by
  have key : ∀ v, meridiemRe.Lang v → 'a' ∈ v ∨ 'A' ∈ v ∨ 'p' ∈ v ∨ 'P' ∈ v := by
    intro v hv
    obtain ⟨_, y, rfl, ⟨x, rfl, hx⟩, _⟩ := hv
    have low : ∀ y z : Char, y.toNat = z.toNat + 32 → 65 ≤ z.toNat → z.toNat ≤ 90 → asciiToLower x = y → x = y ∨ x = z := by
      intro y z hyz _ _ hx
      simp only [asciiToLower] at hx
      split at hx
      · rename_i hu
        right
        have h2 : 65 ≤ x.toNat ∧ x.toNat ≤ 90 := by simpa [asciiUpper] using hu
        have hn : (Char.ofNat (x.toNat + 32)).toNat = x.toNat + 32 := by
          have hv : (x.toNat + 32).isValidChar := by left; omega
          unfold Char.ofNat
          rw [dif_pos hv]
          rfl
        rw [hx] at hn
        have h3 : x.toNat = z.toNat := by omega
        rw [← Char.ofNat_toNat x, h3, Char.ofNat_toNat]
      · left; exact hx
    rw [Bool.or_eq_true, beq_iff_eq, beq_iff_eq] at hx
    rcases hx with hx | hx
    · rcases low 'a' 'A' (by decide) (by decide) (by decide) hx with rfl | rfl <;> simp
    · rcases low 'p' 'P' (by decide) (by decide) (by decide) hx with rfl | rfl <;> simp
  rcases h with h | h
  · obtain ⟨a, v, b, rfl, hv⟩ := lang_cat_mem (r := meridiemRe) (by simp) h
    rcases key v hv with h | h | h | h <;> simp [h]
  · exact key u h

theorem timeRe1_none_ap {U : Uni} {s : Str} (h : ∀ x ∈ s%"aApP", x ∉ s) : reSearch (timeRe1 U) s = none := by
  unfold timeRe1
  refine reSearch_none_of_part (r := grp 2 meridiemAlt) (by simp) ?_
  intro u hu hi
  rcases meridiem_lang_ap hu with h' | h' | h' | h'
  · exact h 'a' (by decide) (hi.subset h')
  · exact h 'A' (by decide) (hi.subset h')
  · exact h 'p' (by decide) (hi.subset h')
  · exact h 'P' (by decide) (hi.subset h')

/-- An ASCII character that clock times do not have. -/
def noClock (c : Char) : Bool :=
  decide (c.toNat < 128) && !asciiDigit c && !isSpace c && !(s%"apmtex").contains (asciiToLower c) && !(s%".\\{}").contains c

theorem noClock_clock {U : Uni} {c : Char} (h : noClock c = true) : clockChar U c = false := by
  simp only [noClock, Bool.and_eq_true, decide_eq_true_eq, Bool.not_eq_true'] at h
  obtain ⟨⟨⟨⟨h1, h2⟩, h3⟩, h4⟩, h5⟩ := h
  have hd : isDigit U c = false := by unfold isDigit; rw [if_pos h1]; exact h2
  unfold clockChar
  rw [hd, h3, h4, h5]; rfl

/-- No unit (of those considered) makes a clock time. -/
theorem units_clock : ∀ u ∈ theUnits, (∃ x ∈ u, noClock x = true) ∨ ('m' ∉ u ∧ 'M' ∉ u) ∨ ∀ x ∈ s%"aApP", x ∉ u := by decide +kernel

theorem plurals_clock : ∀ pl ∈ plurals, ∀ x ∈ s%"mMaApP", x ∉ pl := by decide

/-- The stages before the units do nothing. -/
theorem unit_normBody (E : Env X V S) (rec : Str → M X Norm) {a t : Str} (ha : ∀ c ∈ a, plain c = true) (h0 : a ≠ []) (ht0 : t ≠ [])
    (hch : ∀ c ∈ t, c ∉ s%":_%$,;!" ∧ c.toNat ∉ ([7, 8, 9, 12, 13] : List Nat)) (hlast : t.getLast? ≠ some ' ')
    (hw : ∀ p ∈ [s%"cases", s%"array", s%"and", s%"or", s%"llion", s%"\\\\", s%"\\left", s%"\\right", s%"\\in"], ¬ p <:+: a ++ t)
    (htime : reSearch (timeRe1 E.U) (a ++ t) = none) :
    normBody E rec (a ++ t) = degrees E (unitsStep E.U (a ++ t)) := by
  have hno : ∀ x ∈ s%":_%$,;!", x ∉ a ++ t := by
    intro x hx hm
    rcases List.mem_append.1 hm with h | h
    · have : ∀ x ∈ s%":_%$,;!", plain x = false := by decide
      exact absurd (ha x h) (by rw [this x hx]; decide)
    · exact (hch x h).1 hx
  have hctl : noControl (a ++ t) := by
    intro c hc
    rcases List.mem_append.1 hc with h | h
    · have := noControl_alpha (A := plain) ha (by decide)
      exact this c h
    · exact (hch c h).2
  have hhead : ∃ x, (a ++ t).head? = some x ∧ plain x = true := by
    obtain ⟨x, xs, rfl⟩ := List.exists_cons_of_ne_nil h0
    exact ⟨x, rfl, ha x (by simp)⟩
  obtain ⟨x, hx, hpx⟩ := hhead
  have hmat : matrixNormalize (stripBlank (a ++ t)) = a ++ t := by
    rw [stripBlank_id]
    · refine matrixNormalize_id (fun h => hw s%"cases" (by simp) (List.IsInfix.trans ⟨s%"{", s%"}", rfl⟩ h))
        (fun h => hw s%"array" (by simp) (List.IsInfix.trans ⟨s%"{", s%"}", rfl⟩ h)) (hw _ (by simp))
    · rw [hx]; intro e; simp at e; exact plain_ne hpx (by decide) e
    · rw [List.getLast?_append]
      cases hl : t.getLast? with
      | none => simp at hl; exact absurd hl ht0
      | some y => rw [hl] at hlast; simpa using hlast
  rw [normBody_unwrapped E rec hmat (by rw [hx]; intro e; simp at e; exact plain_ne hpx (by decide) e)]
  rw [normTail_str E (t := a ++ t) (t' := a ++ t)]
  · exact removeSpacing_id (not_infix_of_not_mem ':' (by simp) (hno ':' (by decide))) (not_infix_of_not_mem ',' (by simp) (hno ',' (by decide)))
      (not_infix_of_not_mem ';' (by simp) (hno ';' (by decide))) (not_infix_of_not_mem '!' (by simp) (hno '!' (by decide)))
      (not_infix_of_not_mem ',' (by simp) (hno ',' (by decide)))
  · exact hno '_' (by decide)
  · exact hno '%' (by decide)
  · rw [middle_id (hno '$' (by decide)) (hw _ (by simp)) (hw _ (by simp)) (hw _ (by simp)) hctl (hw _ (by simp)) (hw _ (by simp)) (hw _ (by simp))]
    exact time_id htime (hno ':' (by decide))

theorem unitOk_chars : ∀ c : Char, (unitOk c = true ∨ powChar c = true) → c ∉ s%":_%$,;!\\" ∧ c.toNat ∉ ([7, 8, 9, 12, 13] : List Nat) := by
  intro c h
  constructor
  · intro hm
    have : ∀ c ∈ s%":_%$,;!\\", unitOk c = false ∧ powChar c = false := by decide
    have := this c hm
    rw [this.1, this.2] at h; simp at h
  · intro hm
    have : ∀ n ∈ ([7, 8, 9, 12, 13] : List Nat), unitOk (Char.ofNat n) = false ∧ powChar (Char.ofNat n) = false := by decide
    have := this _ hm
    rw [Char.ofNat_toNat] at this
    rw [this.1, this.2] at h; simp at h

theorem further_pad (E : Env X V S) {a : Str} (ha : ∀ c ∈ a, plain c = true) (h0 : a ≠ []) (k : Nat) :
    further E (a ++ blanks k) = further E a := by
  have hbs : '\\' ∉ a := not_mem_of ha (by decide)
  have hbr : ∀ s : Str, a.head? = s.head? → stripBraces s = s := by
    intro s hs
    unfold stripBraces
    rw [if_neg]
    rw [← hs]
    intro h
    have : a.head? = some '{' := by simp at h; exact h.1.2
    exact absurd (ha _ (List.mem_of_head? this)) (by decide)
  have h1 := hbr a rfl
  have h2 := hbr (a ++ blanks k) (by
    obtain ⟨x, xs, rfl⟩ := List.exists_cons_of_ne_nil h0; rfl)
  have hf : pyFloat E.U (a ++ blanks k) = pyFloat E.U a := by
    have := pyFloat_pad (U := E.U) [] a (blanks k) (by simp) (blanks_space k)
    simpa using this
  have key : furtherPure E.U (a ++ blanks k) = furtherPure E.U a := by
    have he : ∀ j, contains s%"e" (a ++ blanks j) = false := fun j => (contains_eq_false _ _).2 (not_infix_of_not_mem 'e' (by simp) (by
      intro hm
      rcases List.mem_append.1 hm with h | h
      · exact absurd (ha _ h) (by decide)
      · exact absurd (blanks_mem h) (by decide)))
    have hs : ∀ j, contains s%"\\" (a ++ blanks j) = false := fun j => (contains_eq_false _ _).2 (not_infix_of_not_mem '\\' (by simp) (by
      intro hm
      rcases List.mem_append.1 hm with h | h
      · exact absurd (ha _ h) (by decide)
      · exact absurd (blanks_mem h) (by decide)))
    have he0 := he 0
    have hs0 := hs 0
    rw [show blanks 0 = [] from rfl, List.append_nil] at he0 hs0
    have hc : canonFloat E.U (a ++ blanks k) = canonFloat E.U a ∨ (canonFloat E.U (a ++ blanks k) = a ++ blanks k ∧ canonFloat E.U a = a) := by
      unfold canonFloat
      rw [hf, he k, he0]
      cases pyFloat E.U a with
      | none => exact .inr ⟨rfl, rfl⟩
      | some x =>
        simp only
        by_cases h1 : isIntFloat x = true
        · rw [if_pos h1, if_pos h1]
          cases x.roundInt with
          | none => exact .inr ⟨rfl, rfl⟩
          | some n => exact .inl rfl
        · rw [if_neg h1, if_neg h1]; exact .inr ⟨rfl, rfl⟩
    unfold furtherPure
    simp only [h1, h2]
    rcases hc with hc | ⟨h3, h4⟩
    · rw [hc]
    · rw [h3, h4, hs k, hs0]
      apply congrArg (lower E.U)
      exact tidy_pad (U := E.U) (x := a) (not_mem_of ha (by decide)) 0 k
  unfold further
  rw [key]

theorem plain_normBody (E : Env X V S) (rec : Str → M X Norm) {a : Str} (ha : ∀ c ∈ a, plain c = true) :
    normBody E rec a = (do let r ← further E a; pure (.str r)) := quiet_normBody (fun c hc => plain_quiet (ha c hc)) E rec

/-- The clock condition, for a text `number … unit plural …` whose other characters do not matter to clocks. -/
theorem unit_time {U : Uni} {T u pl : Str} (hu : u ∈ theUnits) (hp : pl ∈ plurals) (hin : ∀ c ∈ u, c ∈ T)
    (hoth : ∀ c ∈ T, c ∈ u ∨ c ∈ pl ∨ c ∉ s%"mMaApP") : reSearch (timeRe1 U) T = none := by
  have hn : ∀ x ∈ s%"mMaApP", x ∉ u → x ∉ T := by
    intro x hx hxu hm
    rcases hoth x hm with h | h | h
    · exact hxu h
    · exact plurals_clock pl hp x hx h
    · exact h hx
  rcases units_clock u hu with ⟨x, hx, hc⟩ | ⟨h1, h2⟩ | h
  · exact timeRe1_none_char (hin x hx) (noClock_clock hc)
  · exact timeRe1_none (hn 'm' (by decide) h1) (hn 'M' (by decide) h2)
  · apply timeRe1_none_ap
    intro x hx
    exact hn x (by have : ∀ x ∈ s%"aApP", x ∈ s%"mMaApP" := by decide
                   exact this x hx) (h x hx)

theorem bare_normBody (E : Env X V S) (rec : Str → M X Norm) {a t : Str} (ha : ∀ c ∈ a, plain c = true) (h0 : a ≠ []) (ht : BareUnit t) :
    normBody E rec (a ++ t) = (do let r ← further E a; pure (.str r)) := by
  have key : ∃ k u pl z, t = blanks k ++ (u ++ pl) ++ z ∧ u ∈ theUnits ∧ pl ∈ plurals ∧ PowerEnd z := by
    cases ht with
    | long k u pl z hu hp hz => exact ⟨k, u, pl, z, rfl, by simp [theUnits, (listedLong_iff u).1 hu], hp, hz⟩
    | short k u pl z hu hp hz => exact ⟨k + 1, u, pl, z, rfl, by simp [theUnits, hu], hp, hz⟩
  obtain ⟨k, u, pl, z, e, hu, hp, hz⟩ := key
  obtain ⟨hu0, _, hok⟩ := units_ok u hu
  have hok' := hok pl hp
  have hmem : ∀ c ∈ t, unitOk c = true ∨ powChar c = true := by
    intro c hc
    rw [e] at hc
    rcases List.mem_append.1 hc with h | h
    · rcases List.mem_append.1 h with h | h
      · right; rw [blanks_mem h]; decide
      · left; exact hok' c h
    · right; exact hz.chars c h
  have hbs : '\\' ∉ a ++ t := by
    intro hm
    rcases List.mem_append.1 hm with h | h
    · exact absurd (ha _ h) (by decide)
    · exact absurd (hmem _ h) (by decide)
  have hwords : ∀ p ∈ otherWords, ¬ p <:+: a ++ t := by
    intro p hp' hi
    rw [e] at hi
    exact (contains_eq_false _ _).1 (units_other u hu pl hp p hp') (word_infix ha hz.chars (other_ok p hp').1 (other_ok p hp').2 hi)
  have hlast : t.getLast? ≠ some ' ' := by
    rw [e, List.getLast?_append]
    cases hl : z.getLast? with
    | some y => have := hz.last; rw [hl] at this; simpa using this
    | none =>
      rw [Option.none_or, List.getLast?_append]
      intro hl'
      have hne : (u ++ pl).getLast? ≠ none := by simp [hu0]
      cases hl2 : (u ++ pl).getLast? with
      | none => exact hne hl2
      | some y =>
        rw [hl2] at hl'
        simp at hl'
        subst hl'
        exact absurd (hok' _ (List.mem_of_getLast? hl2)) (by decide)
  rw [unit_normBody E rec ha h0 (by rw [e]; simp [hu0]) ?_ hlast ?_ ?_]
  · unfold unitsStep
    rw [textUnits_id (.inr ⟨hwords _ (by simp [otherWords]), hwords _ (by simp [otherWords])⟩),
      anyText_id (fun h => hwords s%"text" (by simp [otherWords]) (List.IsInfix.trans ⟨[], s%"{", rfl⟩ h)), bare_removed E.U ha ht]
    exact degrees_none E (not_infix_of_not_mem '\\' (by simp) (not_mem_of ha (by decide)))
  · intro c hc
    have := unitOk_chars c (hmem c hc)
    refine ⟨fun h => this.1 ?_, this.2⟩
    have hs : ∀ c ∈ s%":_%$,;!", c ∈ s%":_%$,;!\\" := by decide
    exact hs c h
  · intro p hp'
    simp only [List.mem_cons, List.not_mem_nil, or_false] at hp'
    rcases hp' with rfl | rfl | rfl | rfl | rfl | rfl | rfl | rfl | rfl
    · exact hwords _ (by simp [otherWords])
    · exact hwords _ (by simp [otherWords])
    · exact hwords _ (by simp [otherWords])
    · exact hwords _ (by simp [otherWords])
    · exact hwords _ (by simp [otherWords])
    all_goals exact not_infix_of_not_mem '\\' (by simp) hbs
  · refine unit_time hu hp (fun c hc => by rw [e]; simp [hc]) ?_
    intro c hc
    rcases List.mem_append.1 hc with h | h
    · right; right; intro hm
      have : ∀ c ∈ s%"mMaApP", plain c = false := by decide
      exact absurd (ha c h) (by rw [this c hm]; decide)
    · rw [e] at h
      rcases List.mem_append.1 h with h | h
      · rcases List.mem_append.1 h with h | h
        · right; right; rw [blanks_mem h]; decide
        · rcases List.mem_append.1 h with h | h
          · exact .inl h
          · exact .inr (.inl h)
      · right; right; intro hm
        have : ∀ c ∈ s%"mMaApP", powChar c = false := by decide
        exact absurd (hz.chars c h) (by rw [this c hm]; decide)

theorem infix_barrier {x : Char} {p a b : Str} (hx : x ∉ p) (h : p <:+: a ++ x :: b) : p <:+: a ∨ p <:+: b := by
  obtain ⟨l, r, e⟩ := h
  rw [List.append_assoc] at e
  rcases List.append_eq_append_iff.1 e with ⟨v, h1, h2⟩ | ⟨v, h1, h2⟩
  · rcases List.append_eq_append_iff.1 h2 with ⟨v', h3, h4⟩ | ⟨v', h3, h4⟩
    · left; rw [h1, h3]; exact ⟨l, v', by simp⟩
    · cases v' with
      | nil => left; rw [h1]; simp at h3; rw [h3]; exact ⟨l, [], by simp⟩
      | cons y ys =>
        rw [List.cons_append, List.cons.injEq] at h4
        exact absurd (by rw [h3, h4.1]; simp) hx
  · cases v with
    | nil =>
      simp at h1 h2
      cases p with
      | nil => left; exact List.nil_infix
      | cons y ys => simp at h2; exact absurd (by rw [h2.1]; simp) hx
    | cons y ys =>
      rw [List.cons_append, List.cons.injEq] at h2
      right
      rw [h2.2]
      exact ⟨ys, r, by simp⟩

theorem wrapped_normBody (E : Env X V S) (rec : Str → M X Norm) {a t : Str} (ha : ∀ c ∈ a, plain c = true) (h0 : a ≠ []) (ht : WrappedUnit t) :
    normBody E rec (a ++ t) = (do let r ← further E a; pure (.str r)) := by
  obtain ⟨k, i, kw, u, pl, z1, z2, hk, hu, hp, hz1, hz2⟩ := ht
  have hu := listed_sub hu
  obtain ⟨hu0, _, hok⟩ := units_ok u hu
  have hok' := hok pl hp
  have hrest : ∀ c ∈ z1 ++ '}' :: z2, powChar c = true := by
    intro c hc
    rcases List.mem_append.1 hc with h | h
    · exact hz1.chars c h
    · rcases List.mem_cons.1 h with rfl | h
      · decide
      · exact hz2.chars c h
  have hY : ∀ c ∈ blanks i ++ (u ++ pl) ++ (z1 ++ '}' :: z2), unitOk c = true ∨ powChar c = true := by
    intro c hc
    rcases List.mem_append.1 hc with h | h
    · rcases List.mem_append.1 h with h | h
      · right; rw [blanks_mem h]; decide
      · left; exact hok' c h
    · right; exact hrest c h
  have hkw : ∀ c ∈ kw, unitOk c = true := by rcases hk with rfl | rfl <;> decide
  have hA : ∀ c ∈ a ++ blanks k, plain c = true ∨ c = ' ' := by
    intro c hc
    rcases List.mem_append.1 hc with h | h
    · exact .inl (ha c h)
    · exact .inr (blanks_mem h)
  have hAb : '\\' ∉ a ++ blanks k := by
    intro hm
    rcases hA _ hm with h | h
    · exact absurd h (by decide)
    · exact absurd h (by decide)
  have hKY : ∀ c ∈ kw ++ '{' :: (blanks i ++ (u ++ pl) ++ (z1 ++ '}' :: z2)), unitOk c = true ∨ powChar c = true := by
    intro c hc
    rcases List.mem_append.1 hc with h | h
    · exact .inl (hkw c h)
    · rcases List.mem_cons.1 h with rfl | h
      · right; decide
      · exact hY c h
  have hKb : '\\' ∉ kw ++ '{' :: (blanks i ++ (u ++ pl) ++ (z1 ++ '}' :: z2)) := by
    intro hm
    exact absurd (hKY _ hm) (by decide)
  have eT : a ++ (blanks k ++ ('\\' :: kw ++ '{' :: (blanks i ++ (u ++ pl) ++ z1 ++ '}' :: z2))) =
      (a ++ blanks k) ++ '\\' :: (kw ++ '{' :: (blanks i ++ (u ++ pl) ++ (z1 ++ '}' :: z2))) := by simp [List.append_assoc]
  have hword : ∀ p ∈ [s%"cases", s%"array", s%"and", s%"or", s%"llion"], ¬ p <:+: (a ++ blanks k) ++ '\\' :: (kw ++ '{' :: (blanks i ++ (u ++ pl) ++ (z1 ++ '}' :: z2))) := by
    intro p hp' hi
    have hpo : p ∈ otherWords := by
      have : ∀ p ∈ [s%"cases", s%"array", s%"and", s%"or", s%"llion"], p ∈ otherWords := by decide
      exact this p hp'
    obtain ⟨hp0, hpok⟩ := other_ok p hpo
    have hnb : '\\' ∉ p := fun h => absurd (hpok _ h) (by decide)
    have hnc : '{' ∉ p := fun h => absurd (hpok _ h) (by decide)
    rcases infix_barrier hnb hi with h | h
    · obtain ⟨x, xs, rfl⟩ := List.exists_cons_of_ne_nil hp0
      rcases hA x (h.subset (by simp)) with h' | h'
      · rw [unitOk_plain (hpok x (by simp))] at h'; cases h'
      · subst h'; exact absurd (hpok ' ' (by simp)) (by decide)
    · rcases infix_barrier hnc h with h | h
      · have : ∀ p ∈ [s%"cases", s%"array", s%"and", s%"or", s%"llion"], ¬ p <:+: s%"text" ∧ ¬ p <:+: s%"mbox" := by decide
        rcases hk with rfl | rfl
        · exact (this p hp').1 h
        · exact (this p hp').2 h
      · exact (contains_eq_false _ _).1 (units_other u hu pl hp p hpo) (word_infix (a := []) (by simp) hrest hp0 hpok (by simpa using h))
  have hslash : ∀ q ∈ [s%"\\", s%"left", s%"right", s%"in"], ¬ '\\' :: q <:+: (a ++ blanks k) ++ '\\' :: (kw ++ '{' :: (blanks i ++ (u ++ pl) ++ (z1 ++ '}' :: z2))) := by
    intro q hq hi
    have := once_infix hAb hKb hi
    simp only [List.mem_cons, List.not_mem_nil, or_false] at hq
    rcases hk with rfl | rfl <;> rcases hq with rfl | rfl | rfl | rfl <;> simp at this
  rw [unit_normBody E rec ha h0 (by simp) ?_ ?_ ?_ ?_]
  · unfold unitsStep
    rw [eT, show kw ++ '{' :: (blanks i ++ (u ++ pl) ++ (z1 ++ '}' :: z2)) = kw ++ '{' :: (blanks i ++ (u ++ pl) ++ z1 ++ '}' :: z2) by simp,
      ← List.cons_append]
    rw [textUnits_removed E.U i hA hk hu hp hz1 hz2]
    have hno : ∀ x, plain x = false → x ≠ ' ' → x ∉ a ++ blanks k := by
      intro x h1 h2 hm
      rcases hA x hm with h | h
      · rw [h1] at h; cases h
      · exact h2 h
    rw [anyText_id (not_infix_of_not_mem '{' (by simp) (hno _ rfl (by decide)))]
    have hb : bareUnits E.U (a ++ blanks k) = a ++ blanks k := by
      unfold bareUnits
      rw [foldl_id (fun s u => reSubConst (longUnitRe E.U u) [] s)]
      · exact foldl_id _ _ _ (fun u' hu' => short_id (unit_absent hA (by simp [hu'])))
      · exact (fun u' hu' => long_id (unit_absent hA (by simp [hu'])))
    rw [hb, degrees_none E (not_infix_of_not_mem '\\' (by simp) hAb), further_pad E ha h0]
  · intro c hc
    have hall : (c = '\\' ∨ unitOk c = true ∨ powChar c = true) := by
      rcases List.mem_append.1 hc with h | h
      · right; right; rw [blanks_mem h]; decide
      · rw [List.cons_append] at h
        rcases List.mem_cons.1 h with h | h
        · exact .inl h
        · right; exact hKY c (by simpa [List.append_assoc] using h)
    rcases hall with rfl | hall
    · decide
    · have := unitOk_chars c hall
      refine ⟨fun h => this.1 ?_, this.2⟩
      have hs : ∀ c ∈ s%":_%$,;!", c ∈ s%":_%$,;!\\" := by decide
      exact hs c h
  · rw [show blanks k ++ ('\\' :: kw ++ '{' :: (blanks i ++ (u ++ pl) ++ z1 ++ '}' :: z2)) =
      (blanks k ++ ('\\' :: kw ++ '{' :: (blanks i ++ (u ++ pl) ++ z1 ++ s%"}"))) ++ z2 by simp, List.getLast?_append]
    cases hl : z2.getLast? with
    | some y => have := hz2.last; rw [hl] at this; simpa using this
    | none =>
      rw [Option.none_or, show blanks k ++ ('\\' :: kw ++ '{' :: (blanks i ++ (u ++ pl) ++ z1 ++ s%"}")) =
        (blanks k ++ ('\\' :: kw ++ '{' :: (blanks i ++ (u ++ pl) ++ z1))) ++ s%"}" by simp, List.getLast?_concat]
      decide
  · intro p hp'
    rw [eT]
    simp only [List.mem_cons, List.not_mem_nil, or_false] at hp'
    rcases hp' with rfl | rfl | rfl | rfl | rfl | rfl | rfl | rfl | rfl
    · exact hword _ (by simp)
    · exact hword _ (by simp)
    · exact hword _ (by simp)
    · exact hword _ (by simp)
    · exact hword _ (by simp)
    · exact hslash _ (by simp)
    · exact hslash _ (by simp)
    · exact hslash _ (by simp)
    · exact hslash _ (by simp)
  · rcases hk with rfl | rfl
    · refine unit_time hu hp (fun c hc => by simp [hc]) ?_
      intro c hc
      rw [eT] at hc
      rcases List.mem_append.1 hc with h | h
      · right; right; intro hm
        have : ∀ c ∈ s%"mMaApP", plain c = false ∧ c ≠ ' ' := by decide
        rcases hA c h with h' | h'
        · rw [(this c hm).1] at h'; cases h'
        · exact (this c hm).2 h'
      · rcases List.mem_cons.1 h with rfl | h
        · right; right; decide
        · rcases List.mem_append.1 h with h | h
          · right; right
            have : ∀ c ∈ s%"text", c ∉ s%"mMaApP" := by decide
            exact this c h
          · rcases List.mem_cons.1 h with rfl | h
            · right; right; decide
            · rcases List.mem_append.1 h with h | h
              · rcases List.mem_append.1 h with h | h
                · right; right; rw [blanks_mem h]; decide
                · rcases List.mem_append.1 h with h | h
                  · exact .inl h
                  · exact .inr (.inl h)
              · right; right; intro hm
                have : ∀ c ∈ s%"mMaApP", powChar c = false := by decide
                exact absurd (hrest c h) (by rw [this c hm]; decide)
    · exact timeRe1_none_char (x := 'b') (by simp) (noClock_clock (by decide))

/-- C26: a unit after a number (blanks, plural ending and powers included) does not change its normal form. -/
theorem C26_units_partial (E : Env X V S) (hE : StrTotal E) (n : Nat) (x : Numeral) (t : Str) (ht : BareUnit t) :
    stringNormalize E (n + 1) (x.text ++ t) = stringNormalize E (n + 1) x.text :=
  same_normal E hE (bare_normBody E _ x.plain x.ne_nil ht) (plain_normBody E _ x.plain)

/-- C26: the same for units in `\text{…}` and `\mbox{…}`. -/
theorem C26_wrapped_partial (E : Env X V S) (hE : StrTotal E) (n : Nat) (x : Numeral) (t : Str) (ht : WrappedUnit t) :
    stringNormalize E (n + 1) (x.text ++ t) = stringNormalize E (n + 1) x.text :=
  same_normal E hE (wrapped_normBody E _ x.plain x.ne_nil ht) (plain_normBody E _ x.plain)

/-- The listed short unit `pm` is a clock time instead, so the full statement is false. -/
theorem C26_pm_refuted : s%"pm" ∈ unitShort ∧
    (stringNormalize failEnv 1 s%"5 pm" ⟨(), []⟩).1 ≠ (stringNormalize failEnv 1 s%"5" ⟨(), []⟩).1 := by decide +kernel

example : BareUnit s%"  centimeters ^{12}" := .long 2 s%"centimeter" s%"s" s%" ^{12}" (by decide +kernel) (by decide)
  (.pow 1 s%"^{12}" (.braced s%"12" (by decide) (by decide)))
example : (stringNormalize ratEnv 1 s%"-2.50 cm^2" ⟨(), []⟩).1 = .ok (.str s%"-2.50") := by decide +kernel
example : (stringNormalize ratEnv 1 s%"12 \\mbox{ inches }^2" ⟨(), []⟩).1 = .ok (.str s%"12") := by decide +kernel

end Verif
