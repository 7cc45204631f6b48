import Verif.Props.Commas
/-
Property C36, exactly: listed integers are kept apart if and only if every one but the first is below 100.
-/

namespace Verif
open Re

/-! ### Substitutions that remove characters -/

theorem scanSub_countP_le (q : Char → Bool) (m : Str → Str → Option (Nat × Str))
    (h : ∀ pre rest k r, m pre rest = some (k, r) → r.countP q ≤ (rest.take k).countP q)
    (k : Nat) (pre s : Str) : (scanSub m k pre s).countP q ≤ (s.drop k).countP q := by
  induction s generalizing k pre with
  | nil =>
    cases k with
    | zero =>
      simp only [scanSub]
      cases hm : m pre [] with
      | none => simp
      | some kr =>
        obtain ⟨k, r⟩ := kr
        have := h _ _ _ _ hm
        simpa using this
    | succ k => simp [scanSub]
  | cons c cs ih =>
    cases k with
    | succ k => simp only [scanSub, List.drop_succ_cons]; exact ih k _
    | zero =>
      simp only [scanSub]
      cases hm : m pre (c :: cs) with
      | none =>
        have := ih 0 (c :: pre)
        simp only [List.drop_zero, List.countP_cons] at this ⊢
        omega
      | some kr =>
        obtain ⟨k, r⟩ := kr
        have hr := h _ _ _ _ hm
        cases k with
        | zero =>
          have := ih 0 (c :: pre)
          simp only [List.take_zero, List.countP_nil, List.drop_zero, List.countP_cons, List.countP_append] at hr this ⊢
          omega
        | succ k =>
          have := ih k (c :: pre)
          have hcs : cs.countP q = (cs.take k).countP q + (cs.drop k).countP q := by
            rw [← List.countP_append, List.take_append_drop]
          simp only [List.drop_zero, List.countP_append, List.take_succ_cons, List.countP_cons] at hr this ⊢
          omega

theorem scanSub_countP_lt (q : Char → Bool) (m : Str → Str → Option (Nat × Str))
    (h : ∀ pre rest k r, m pre rest = some (k, r) → r.countP q < (rest.take k).countP q)
    (pre a b : Str) (hm : m (a.reverse ++ pre) b ≠ none) :
    (scanSub m 0 pre (a ++ b)).countP q < (a ++ b).countP q := by
  have hle := fun k pre s => scanSub_countP_le q m (fun pre rest k r h' => Nat.le_of_lt (h pre rest k r h')) k pre s
  induction a generalizing pre with
  | nil =>
    simp only [List.reverse_nil, List.nil_append] at hm ⊢
    obtain ⟨⟨k, r⟩, hk⟩ := Option.ne_none_iff_exists'.1 hm
    have hr := h _ _ _ _ hk
    cases b with
    | nil => simp at hr
    | cons c cs =>
      cases k with
      | zero => simp at hr
      | succ k =>
        simp only [scanSub, hk]
        have := hle k (c :: pre) cs
        have hcs : cs.countP q = (cs.take k).countP q + (cs.drop k).countP q := by
          rw [← List.countP_append, List.take_append_drop]
        simp only [List.countP_append, List.take_succ_cons, List.countP_cons] at hr this ⊢
        omega
  | cons c a ih =>
    rw [List.cons_append]
    simp only [scanSub]
    cases hk : m pre (c :: (a ++ b)) with
    | none =>
      have := ih (c :: pre) (by simpa using hm)
      simp only [List.countP_cons] at this ⊢
      omega
    | some kr =>
      obtain ⟨k, r⟩ := kr
      have hr := h _ _ _ _ hk
      cases k with
      | zero => simp at hr
      | succ k =>
        have := hle k (c :: pre) (a ++ b)
        have hcs : (a ++ b).countP q = ((a ++ b).take k).countP q + ((a ++ b).drop k).countP q := by
          rw [← List.countP_append, List.take_append_drop]
        simp only [List.countP_append (l₁ := r), List.take_succ_cons, List.countP_cons] at hr this ⊢
        omega

/-! ### A thousands comma is removed -/

theorem many_first (r : Re) (s : RSt) : ∃ t, (many r).First s t := by
  have : (many r).run s ≠ [] := by
    show starGo true r.run s.rest.length s ≠ []
    cases s.rest.length <;> simp [starGo]
  obtain ⟨t, ts, h⟩ := List.exists_cons_of_ne_nil this
  exact ⟨t, by unfold Re.First; rw [h]; rfl⟩

theorem commasRe_first (U : Uni) (pre y b : Str) (x z₁ z₂ z₃ : Char) (hx : isDigit U x = true)
    (h₁ : isDigit U z₁ = true) (h₂ : isDigit U z₂ = true) (h₃ : isDigit U z₃ = true) (hy : y = [] ∨ y = [' ']) :
    ∃ t, (commasRe U).First ⟨pre, x :: ',' :: (y ++ z₁ :: z₂ :: z₃ :: b), []⟩ t := by
  have hd := first_d13 (U := U) (g := [x]) (cs := ',' :: (y ++ z₁ :: z₂ :: z₃ :: b)) pre [] (by simpa using hx)
    (by simp) (by simp) (by rintro _ ⟨⟩; rfl)
  have hg : ∃ t, (cat [c ',', opt (c ' '), d U, d U, d U]).First
      ⟨[x].reverse ++ pre, ',' :: (y ++ z₁ :: z₂ :: z₃ :: b), []⟩ t := by
    rcases hy with rfl | rfl
    · exact ⟨_, first_group (x := [z₁, z₂, z₃]) _ [] rfl (by simp [h₁, h₂, h₃])⟩
    · exact ⟨_, First.cat_cons (First.c ',' _ _ _) (First.cat_cons (First.alt_l (First.c ' ' _ _ _))
        (First.cat_cons (First.chr h₁) (First.cat_cons (First.chr h₂) (First.cat_one (First.chr h₃)))))⟩
  obtain ⟨t, ht⟩ := hg
  obtain ⟨v, hv⟩ := many_first (cat [c ',', opt (c ' '), d U, d U, d U]) t
  exact ⟨v, First.seq hd (First.plus_of ht hv)⟩

/-- At least one comma is removed. -/
theorem stripCommas_count_lt (U : Uni) (s : Str) (h : ThousandsComma U s) :
    (stripCommas U s).countP (· == ',') < s.countP (· == ',') := by
  obtain ⟨a, x, y, z₁, z₂, z₃, b, rfl, hx, h₁, h₂, h₃, hy⟩ := h
  unfold stripCommas reSub
  apply scanSub_countP_lt
  · intro pre rest k r hm
    unfold Re.scanner at hm
    split at hm
    · rename_i t ht
      simp only [Option.some.injEq, Prod.mk.injEq] at hm
      obtain ⟨hk, hr⟩ := hm
      obtain ⟨u, hu, hl⟩ := run_lang _ _ t (List.mem_of_head? ht)
      have hu' : rest = u ++ t.rest := hu
      have htake : rest.take k = u := by
        rw [← hk, hu']; simp
      rw [hk, htake] at hr
      rw [htake, ← hr, replace_comma_filter]
      have h0 : (u.filter (· ≠ ',')).countP (· == ',') = 0 := by
        rw [List.countP_eq_zero]; intro c hc; simpa using (List.mem_filter.1 hc).2
      rw [h0, List.countP_pos_iff]
      obtain ⟨u₁, u₂, rfl, _, hb⟩ := hl
      obtain ⟨b1, b2, rfl, hb1, _⟩ := hb
      obtain ⟨p, v, q, rfl, hv⟩ := lang_cat_mem (r := c ',') (by simp) hb1
      rw [lang_c.1 hv]
      exact ⟨',', by simp, rfl⟩
    · cases hm
  · obtain ⟨t, ht⟩ := commasRe_first U (a.reverse ++ []) y b x z₁ z₂ z₃ hx h₁ h₂ h₃ hy
    have : (commasRe U).matchAt (a.reverse ++ []) (x :: ',' :: (y ++ z₁ :: z₂ :: z₃ :: b)) = some t := ht
    simp only [Re.scanner, this]
    simp

/-- A text with `n` commas has at most `n + 1` pieces. -/
theorem splitLoop_length_le (cnt : Int) (stack s : Str) :
    (splitLoop cnt stack s).length ≤ s.countP (· == ',') + 1 := by
  induction s generalizing cnt stack with
  | nil => unfold splitLoop; split <;> simp
  | cons a as ih =>
    unfold splitLoop
    split
    · rename_i h
      simp only [Bool.and_eq_true, beq_iff_eq] at h
      have := ih cnt []
      simp only [List.length_cons, List.countP_cons, h.1]
      simp
      omega
    · have := ih (cnt + bracketDelta a) (a :: stack)
      simp only [List.countP_cons]
      omega

theorem peelBrackets_count (rp : Bool) (s : Str) (q : Char → Bool) : (peelBrackets rp s).1.countP q ≤ s.countP q := by
  have h : ((s.drop 1).dropLast).countP q ≤ s.countP q :=
    ((List.dropLast_sublist _).trans (List.drop_sublist 1 s)).countP_le
  unfold peelBrackets
  split
  · split <;> first | exact h | exact Nat.le_refl _
  · exact Nat.le_refl _

/-- The number of elements of a split text. -/
def Elems.count : Elems → Nat
  | .str _ => 1
  | .list es => es.length
  | .tuple es => es.length
  | .set es => es.length

/-- With the order of sets left alone, splitting gives at most one element more than there are commas left. -/
theorem splitTuple_count (U : Uni) (s : Str) (r : Elems) (h : splitTuple U id s none = .ok r) :
    r.count ≤ (stripCommas U s).countP (· == ',') + 1 := by
  unfold splitTuple at h
  simp only at h
  split at h
  · cases h
  · have h1 := splitLoop_length_le 0 [] (peelBrackets (scanBrackets 0 true (stripCommas U s)).2 (stripCommas U s)).1
    have h2 := peelBrackets_count (scanBrackets 0 true (stripCommas U s)).2 (stripCommas U s) (· == ',')
    split at h
    · split at h <;> simp only [Except.ok.injEq] at h <;> subst h <;> simp only [Elems.count, id] <;> omega
    · simp only [Except.ok.injEq] at h; subst h; simp [Elems.count]

/-! ### C36 -/

theorem join_count (es : List Str) (hes : ∀ e ∈ es, ',' ∉ e) (h : es ≠ []) :
    (join s%"," es).countP (· == ',') + 1 = es.length := by
  induction es with
  | nil => exact absurd rfl h
  | cons e es ih =>
    have h0 : e.countP (· == ',') = 0 := by
      rw [List.countP_eq_zero]; intro c hc hcc
      exact hes e (by simp) (by rw [← (by simpa using hcc : c = ',')]; exact hc)
    cases es with
    | nil => simp [join, h0]
    | cons e' es =>
      have := ih (fun x hx => hes x (by simp [hx])) (by simp)
      simp only [join, List.countP_append, h0, List.length_cons] at this ⊢
      simp at this ⊢
      omega

theorem intStr_last (z : Int) : ∃ a d, intStr z = a ++ [d] ∧ asciiDigit d = true := by
  have key : ∀ n, ∃ a d, natStr n = a ++ [d] ∧ asciiDigit d = true := by
    intro n
    refine ⟨(natStr n).dropLast, (natStr n).getLast (natStr_ne_nil n), (List.dropLast_append_getLast _).symm, ?_⟩
    exact natStr_digits n _ (List.getLast_mem _)
  cases z with
  | ofNat n => exact key n
  | negSucc n =>
    obtain ⟨a, d, h1, h2⟩ := key (n + 1)
    exact ⟨'-' :: a, d, by simp only [intStr, h1]; rfl, h2⟩

theorem natStr_three (n : Nat) (h : 100 ≤ n) : ∃ z₁ z₂ z₃ b, natStr n = z₁ :: z₂ :: z₃ :: b := by
  have h1 := lt_pow_natStr_length n
  match hm : natStr n with
  | [] => exact absurd hm (natStr_ne_nil n)
  | [_] => rw [hm] at h1; simp at h1; omega
  | [_, _] => rw [hm] at h1; simp at h1; omega
  | z₁ :: z₂ :: z₃ :: b => exact ⟨z₁, z₂, z₃, b, rfl⟩

/-- A later integer of at least three digits is taken for a group of three. -/
theorem ints_thousands (U : Uni) (x : Int) (xs : List Int) (h : ∃ y ∈ xs, ¬ y < 100) (pre post : Str) :
    ThousandsComma U (pre ++ (join s%"," ((x :: xs).map intStr) ++ post)) := by
  obtain ⟨y, hy, h100⟩ := h
  -- the text before the first such integer ends in a digit
  have main : ∀ (x : Int) (xs : List Int) (pre : Str), y ∈ xs →
      ThousandsComma U (pre ++ (join s%"," ((x :: xs).map intStr) ++ post)) := by
    intro x xs
    induction xs generalizing x with
    | nil => intro _ h; cases h
    | cons z zs ih =>
      intro pre hm
      rcases List.mem_cons.1 hm with rfl | hm
      · obtain ⟨a, dg, e1, e2⟩ := intStr_last x
        obtain ⟨n, rfl⟩ : ∃ n : Nat, y = Int.ofNat n := by
          cases y with
          | ofNat n => exact ⟨n, rfl⟩
          | negSucc n => exact absurd (by omega) h100
        obtain ⟨z₁, z₂, z₃, b, e3⟩ := natStr_three n (by
          have : ¬ ((n : Nat) : Int) < 100 := h100
          omega)
        have hdig : ∀ c ∈ natStr n, isDigit U c = true := fun c hc => isDigit_of_ascii (U := U) (natStr_digits n c hc)
        rw [e3] at hdig
        obtain ⟨r, hr⟩ : ∃ r, join s%"," ((x :: Int.ofNat n :: zs).map intStr) = intStr x ++ s%"," ++ natStr n ++ r := by
          cases zs with
          | nil => exact ⟨[], by simp [join, intStr]⟩
          | cons w ws => exact ⟨s%"," ++ join s%"," ((w :: ws).map intStr), by simp [join, intStr]⟩
        refine ⟨pre ++ a, dg, [], z₁, z₂, z₃, b ++ r ++ post, ?_, isDigit_of_ascii (U := U) e2, hdig z₁ (by simp),
          hdig z₂ (by simp), hdig z₃ (by simp), Or.inl rfl⟩
        rw [hr, e1, e3]; simp
      · have := ih z (pre ++ intStr x ++ s%",") hm
        simpa [join] using this
  exact main x xs pre hy

/-- **C36**, exactly: listed integers are kept apart if and only if every one but the first is below 100 (numbers
of three or more digits are merged with their predecessor).  With `id` for the order of sets the claim is about the
elements before duplicates are removed. -/
theorem C36_exactly (U : Uni) (x : Int) (xs : List Int) (h1 : 1 ≤ xs.length) :
    (∀ br : Bracket, splitTuple U id (br.open :: (join s%"," ((x :: xs).map intStr) ++ [br.close])) none
      = .ok (br.wrap id ((x :: xs).map intStr)) ↔ ∀ y ∈ xs, y < 100) ∧
    (splitTuple U id (join s%"," ((x :: xs).map intStr)) none = .ok (.set ((x :: xs).map intStr)) ↔
      ∀ y ∈ xs, y < 100) := by
  have hnc : ∀ e ∈ (x :: xs).map intStr, ',' ∉ e := by
    intro e he hce
    obtain ⟨z, -, rfl⟩ := List.mem_map.1 he
    exact (intStr_plain z _ hce).2.2.1 rfl
  have hcount := join_count ((x :: xs).map intStr) hnc (by simp)
  refine ⟨fun br => ⟨fun h => ?_, fun h => (C36_elements_not_merged_partial U id x xs h1 h).1 br⟩,
    ⟨fun h => ?_, fun h => (C36_elements_not_merged_partial U id x xs h1 h).2⟩⟩
  · by_contra hcon
    push Not at hcon
    have hT := ints_thousands U x xs (by simpa using hcon) [br.open] [br.close]
    have h2 := splitTuple_count U _ _ h
    have h3 := stripCommas_count_lt U _ hT
    have h4 : (br.wrap id ((x :: xs).map intStr)).count = (x :: xs).length := by cases br <;> simp [Bracket.wrap, Elems.count]
    have h5 : ([br.open] ++ (join s%"," ((x :: xs).map intStr) ++ [br.close])).countP (· == ',') =
        (join s%"," ((x :: xs).map intStr)).countP (· == ',') := by
      have : (br.open == ',') = false ∧ (br.close == ',') = false := by cases br <;> decide
      simp [List.countP_append, this.1, this.2]
    rw [h4] at h2
    rw [h5] at h3
    simp only [List.singleton_append] at h3
    simp only [List.length_map] at hcount
    omega
  · by_contra hcon
    push Not at hcon
    have hT := ints_thousands U x xs (by simpa using hcon) [] []
    simp only [List.nil_append, List.append_nil] at hT
    have h2 := splitTuple_count U _ _ h
    have h3 := stripCommas_count_lt U _ hT
    simp only [Elems.count, List.length_map] at h2 hcount
    omega

example : splitTuple asciiUni id s%"(7,99,-1000)" none = .ok (.tuple [s%"7", s%"99", s%"-1000"]) := by decide +kernel
example : splitTuple asciiUni id s%"(7,100,-1000)" none = .ok (.tuple [s%"7100", s%"-1000"]) := by decide +kernel

end Verif
