import Verif.Props.Decimals
import Verif.Props.LastStage
import Verif.Props.Interval
import Mathlib.Order.Interval.Set.Basic
/-
Properties C74 and C75: the whole comparison on points, on lists of numbers in brackets and on lists of integers
without brackets.
-/

namespace Verif
open Re

variable {X V S : Type}

/-! ### Normal form of a list of numbers -/

/-- The characters of lists of numbers in round or square brackets. -/
def listChar (c : Char) : Bool := plain c || c == ',' || c == '(' || c == ')' || c == '[' || c == ']'

theorem listChar_quiet {c : Char} (h : listChar c = true) : quiet c = true := by
  simp only [listChar, Bool.or_eq_true, beq_iff_eq] at h
  rcases h with ((((h | rfl) | rfl) | rfl) | rfl) | rfl
  · exact plain_quiet h
  all_goals decide

theorem listChar_ascii {c : Char} (h : listChar c = true) : c.toNat < 128 ∧ asciiUpper c = false := by
  simp only [listChar, Bool.or_eq_true, beq_iff_eq] at h
  rcases h with ((((h | rfl) | rfl) | rfl) | rfl) | rfl
  · exact plain_ascii h
  all_goals decide

/-- A list of numbers is its own normal form. -/
theorem normalize_list (E : Env X V S) {s : Str} (hs : ∀ c ∈ s, listChar c = true) (hc : ',' ∈ s)
    (ht : ¬ ThousandsComma E.U s) (k : Nat) : Always (stringNormalize E (k + 1) s) (.str s) := by
  have hq : Quiet s := fun c h => listChar_quiet (hs c h)
  have hcl : litChar E.U ',' = false := by
    simp [litChar, isDigit, asciiDigit, isSpace]; decide
  have hf : pyFloat E.U s = none := pyFloat_none ',' hc hcl
  have h1 : canonFloat E.U s = s := by unfold canonFloat; rw [hf]
  have h2 : furtherPure E.U s = s := by
    have hb : ' ' ∉ s := fun h => by have := hs _ h; revert this; decide
    have h0 : s.head? ≠ some '{' := by
      intro h
      have := hs _ (List.mem_of_mem_head? h)
      revert this; decide
    have hbs : '\\' ∉ s := fun h => by have := hs _ h; revert this; decide
    have hsl : '/' ∉ s := fun h => by have := hs _ h; revert this; decide
    unfold furtherPure
    simp only [stripBraces_id h0, h1]
    rw [(contains_eq_false s%"\\" s).2 (not_infix_of_not_mem '\\' (by simp) hbs)]
    simp only [Bool.false_eq_true, if_false]
    rw [dash_id _ hb, injectMixed_id hsl (not_infix_of_not_mem '\\' (by simp) hbs),
      replace_alpha (x := ' ') (A := listChar) (by simp) (by decide) hs]
    exact lower_id E.U [] _ fun c h => listChar_ascii (hs c h)
  have h3 : strIsInt E.U s = false := by
    unfold strIsInt
    rw [stripCommas_id _ _ ht, hf]
  unfold stringNormalize
  apply Always.tryExcept
  rw [quiet_normBody hq]
  apply Always.bind (a := s)
  · unfold further
    rw [h2, canonInt_id E h3]
    exact Always.pure _
  · exact Always.pure _

theorem join_listChar (es : List Str) (h : ∀ e ∈ es, ∀ c ∈ e, plain c = true) :
    ∀ c ∈ join s%"," es, listChar c = true := by
  have hp : ∀ c, plain c = true → listChar c = true := fun c h => by simp [listChar, h]
  induction es with
  | nil => simp [join]
  | cons e es ih =>
    cases es with
    | nil => intro c hc; exact hp c (h e (by simp) c hc)
    | cons e' es =>
      intro c hc
      simp only [join, List.mem_append] at hc
      rcases hc with (hc | hc) | hc
      · exact hp c (h e (by simp) c hc)
      · rw [List.mem_singleton.1 hc]; decide
      · exact ih (fun x hx => h x (by simp [hx])) c hc

theorem join_comma_mem (es : List Str) (h : 2 ≤ es.length) : ',' ∈ join s%"," es := by
  match es, h with
  | e :: e' :: es, _ => simp [join]

theorem plain_element {e : Str} (h : ∀ c ∈ e, plain c = true) : Element e := by
  have key : ∀ c, plain c = true → isOpen c = false ∧ isClose c = false ∧ c ≠ ',' ∧ isSpace c = false := by
    intro c hc
    simp only [plain, Bool.or_eq_true, beq_iff_eq] at hc
    rcases hc with (hd | rfl) | rfl
    · have h2 : 48 ≤ c.toNat ∧ c.toNat ≤ 57 := by simpa [asciiDigit] using hd
      have hne : ∀ d : Char, d.toNat < 48 ∨ 57 < d.toNat → c ≠ d := by rintro d hd rfl; omega
      refine ⟨?_, ?_, hne ',' (by decide), isSpace_digit hd⟩
      · simp [isOpen, hne '[' (by decide), hne '(' (by decide), hne '{' (by decide)]
      · simp [isClose, hne ']' (by decide), hne ')' (by decide), hne '}' (by decide)]
    · decide
    · decide
  exact Element.of_plain e (fun c hc => ⟨(key c (h c hc)).1, (key c (h c hc)).2.1, (key c (h c hc)).2.2.1⟩)
    (strip_of_no_space _ fun c hc => (key c (h c hc)).2.2.2)

/-! ### Specification -/

/-- The text of a list of literals in brackets. -/
def pointText (br : Bracket) (as : List Literal) : Str := br.spell (as.map Literal.text)

/-- The points between two numbers, without them in round brackets, with them in square brackets. -/
def between {K : Type} [LinearOrder K] (br : Bracket) (a b : K) : Set K :=
  match br with
  | .round => Set.Ioo a b
  | _ => Set.Icc a b

/-- The CAS operations on the intervals that pairs of numbers are also read as: those of `SetSem`, numbers are
recognised as numbers, literals are read as their values, and the comparison is equality of sets. -/
structure PairSem {K : Type} [Field K] [LinearOrder K] (E : Env X V S) (pts : S → Set K) (bound : V → Bound K → Prop) : Prop
    extends SetSem E pts bound where
  number : ∀ v q, bound v (.fin q) → Ret (E.isNumber v) true
  literal : ∀ a : Literal, ∃ v, Ret (E.l2s a.text) v ∧ bound v (.fin (a.value : K))
  compare : ∀ s t, ∃ b, Ret (E.compareEq s t) b ∧ (b = true ↔ pts s = pts t)

/-- Two pairs in round brackets, each with equal coordinates. -/
def Diagonal (br : Bracket) (as bs : List ℚ) : Prop := br = .round ∧ ∃ a b, as = [a, a] ∧ bs = [b, b]

/-- No number after the first is unsigned with three or more digits before the point (such a number is glued to
the one before it, see C36). -/
def Apart (as : List Literal) : Prop := ∀ a ∈ as.tail, a.neg = true ∨ a.ip.length ≤ 2

/-! ### Thousands -/

theorem list_no_thousands (U : Uni) (as : List Literal) (h : Apart as) (post : Str)
    (hpost : ∀ c ∈ post.head?, isDigit U c = false) (hcp : ',' ∉ post) :
    ¬ ThousandsComma U (join s%"," (as.map Literal.text) ++ post) := by
  rintro ⟨a, d, y, z₁, z₂, z₃, b, hs, -, d₁, d₂, d₃, hy⟩
  have hplain : ∀ e ∈ as.map Literal.text, ',' ∉ e := by
    intro e he hce
    obtain ⟨l, -, rfl⟩ := List.mem_map.1 he
    have := l.text_plain _ hce
    revert this; decide
  have hs' : join s%"," (as.map Literal.text) ++ post = (a ++ [d]) ++ ',' :: (y ++ z₁ :: z₂ :: z₃ :: b) := by
    rw [hs]; simp
  obtain ⟨q, hq, hrest⟩ : ∃ q, join s%"," (as.map Literal.text) = (a ++ [d]) ++ ',' :: q ∧
      q ++ post = y ++ z₁ :: z₂ :: z₃ :: b := by
    rcases prefix_of_append hs' with ⟨z, h1, h2⟩ | ⟨z, h1, h2⟩
    · cases z with
      | nil => simp at h2; rw [← h2] at hcp; simp at hcp
      | cons c cs =>
        simp at h2
        exact ⟨cs, by rw [h1, ← h2.1], h2.2.symm⟩
    · exact absurd (by rw [h2]; simp) hcp
  obtain ⟨es₁, e, es₂, h1, h2, -, h4⟩ := join_comma_split _ hplain _ _ hq
  obtain ⟨l, hl, rfl⟩ : ∃ l ∈ as.tail, e = l.text := by
    cases es₁ with
    | nil => exact absurd rfl h2
    | cons e₀ es₁ =>
      cases as with
      | nil => simp at h1
      | cons a₀ as =>
        simp only [List.map_cons, List.cons_append, List.cons.injEq] at h1
        have : e ∈ as.map Literal.text := by rw [h1.2]; simp
        obtain ⟨z, hz, rfl⟩ := List.mem_map.1 this
        exact ⟨z, hz, rfl⟩
  obtain ⟨r, hr, hrd⟩ : ∃ r, join s%"," (l.text :: es₂) ++ post = l.text ++ r ∧
      ∀ c ∈ r.head?, isDigit U c = false := by
    cases es₂ with
    | nil => exact ⟨post, rfl, hpost⟩
    | cons e' es₂ =>
      refine ⟨s%"," ++ join s%"," (e' :: es₂) ++ post, by simp [join], ?_⟩
      intro c hc; simp at hc; subst hc; simp [isDigit, asciiDigit]
  rw [← h4, hrest] at hr
  -- what follows the integer part does not begin with a digit
  obtain ⟨r', hr', hrd'⟩ : ∃ r', l.text ++ r = (if l.neg then s%"-" else []) ++ (l.ip ++ r') ∧
      ∀ c ∈ r'.head?, isDigit U c = false := by
    refine ⟨fracText l.fp ++ r, by simp [Literal.text], ?_⟩
    cases l.fp with
    | none => simpa [fracText] using hrd
    | some f => intro c hc; simp [fracText] at hc; subst hc; simp [isDigit, asciiDigit]
  rw [hr'] at hr
  have hip := l.ip_digits
  have hip0 := l.ip_ne
  cases hn : l.neg with
  | true =>
    rw [hn] at hr
    simp only [if_true, List.cons_append, List.nil_append] at hr
    rcases hy with rfl | rfl
    · simp at hr
      rw [hr.1] at d₁; simp [isDigit, asciiDigit] at d₁
    · simp at hr
  | false =>
    have hlen : l.ip.length ≤ 2 := by
      rcases h l hl with h | h
      · rw [hn] at h; cases h
      · exact h
    rw [hn] at hr
    simp only [Bool.false_eq_true, if_false, List.nil_append] at hr
    generalize l.ip = ip at hr hip hip0 hlen
    rcases hy with rfl | rfl
    · match ip, hlen with
      | [], _ => exact hip0 rfl
      | [c₁], _ =>
        simp at hr
        have := hrd' z₂ (by rw [← hr.2]; simp)
        rw [d₂] at this; cases this
      | [c₁, c₂], _ =>
        simp at hr
        have := hrd' z₃ (by rw [← hr.2.2]; simp)
        rw [d₃] at this; cases this
    · cases ip with
      | nil => exact hip0 rfl
      | cons c cs =>
        simp at hr
        have := hip c (by simp)
        rw [← hr.1] at this
        revert this; decide

theorem literals_no_thousands (U : Uni) (as : List Literal) (h : Apart as) (pre : Char) (post : Str)
    (hpre : isDigit U pre = false) (hpost : ∀ c ∈ post.head?, isDigit U c = false) (hcp : ',' ∉ post) :
    ¬ ThousandsComma U (pre :: (join s%"," (as.map Literal.text) ++ post)) := by
  rintro ⟨a, d, y, z₁, z₂, z₃, b, hs, hd, d₁, d₂, d₃, hy⟩
  cases a with
  | nil =>
    simp only [List.nil_append, List.cons.injEq] at hs
    rw [← hs.1, hpre] at hd; cases hd
  | cons x a =>
    simp only [List.cons_append, List.cons.injEq] at hs
    exact list_no_thousands U as h post hpost hcp ⟨a, d, y, z₁, z₂, z₃, b, hs.2, hd, d₁, d₂, d₃, hy⟩

/-! ### Intervals -/

theorem ioo_eq {K : Type} [LinearOrder K] [DenselyOrdered K] {a b c d : K} (hab : a < b) (h : Set.Ioo a b = Set.Ioo c d) :
    a = c ∧ b = d := by
  have hcd : c < d := by
    obtain ⟨x, hx⟩ := exists_between hab
    have : x ∈ Set.Ioo c d := h ▸ hx
    exact this.1.trans this.2
  have key : ∀ {a b c d : K}, a < b → c < d → Set.Ioo a b = Set.Ioo c d → ¬ a < c ∧ ¬ d < b := by
    intro a b c d hab hcd h
    constructor
    · intro hac
      obtain ⟨x, h1, h2⟩ := exists_between (lt_min hab hac)
      have : x ∈ Set.Ioo c d := h ▸ ⟨h1, h2.trans_le (min_le_left _ _)⟩
      exact absurd (this.1.trans (h2.trans_le (min_le_right _ _))) (lt_irrefl _)
    · intro hdb
      obtain ⟨x, h1, h2⟩ := exists_between (max_lt hab hdb)
      have : x ∈ Set.Ioo c d := h ▸ ⟨(le_max_left _ _).trans_lt h1, h2⟩
      exact absurd (((le_max_right _ _).trans_lt h1).trans this.2) (lt_irrefl _)
  obtain ⟨k1, k2⟩ := key hab hcd h
  obtain ⟨k3, k4⟩ := key hcd hab h.symm
  exact ⟨le_antisymm (not_lt.1 k3) (not_lt.1 k1), le_antisymm (not_lt.1 k2) (not_lt.1 k4)⟩

theorem between_eq {K : Type} [LinearOrder K] [DenselyOrdered K] {br br' : Bracket} (hbr : br ≠ .curly) (hbr' : br' ≠ .curly)
    {a b c d : K} (hab : a ≤ b) (hcd : c ≤ d) :
    between br a b = between br' c d ↔ br = br' ∧ ((a = c ∧ b = d) ∨ (br = .round ∧ a = b ∧ c = d)) := by
  have mixed : ∀ {a b c d : K}, a ≤ b → c ≤ d → Set.Icc a b ≠ Set.Ioo c d := by
    intro a b c d hab hcd h
    have ha : a ∈ Set.Ioo c d := h ▸ ⟨le_refl a, hab⟩
    obtain ⟨x, h1, h2⟩ := exists_between ha.1
    have : x ∈ Set.Icc a b := h ▸ ⟨h1, h2.trans ha.2⟩
    exact absurd (lt_of_lt_of_le h2 this.1) (lt_irrefl _)
  cases br <;> cases br' <;> first
    | exact absurd rfl hbr
    | exact absurd rfl hbr'
    | skip
  · simp only [between, true_and, reduceCtorEq, false_and, or_false]
    constructor
    · intro h
      have h1 : a ∈ Set.Icc c d := h ▸ ⟨le_refl a, hab⟩
      have h2 : b ∈ Set.Icc c d := h ▸ ⟨hab, le_refl b⟩
      have h3 : c ∈ Set.Icc a b := h ▸ ⟨le_refl c, hcd⟩
      have h4 : d ∈ Set.Icc a b := h ▸ ⟨hcd, le_refl d⟩
      exact ⟨le_antisymm h3.1 h1.1, le_antisymm h2.2 h4.2⟩
    · rintro ⟨rfl, rfl⟩; rfl
  · simp only [between, reduceCtorEq, false_and, iff_false]
    exact mixed hab hcd
  · simp only [between, reduceCtorEq, false_and, iff_false]
    exact fun h => mixed hcd hab h.symm
  · simp only [between, true_and]
    constructor
    · intro h
      rcases hab.lt_or_eq with h1 | h1
      · exact .inl (ioo_eq h1 h)
      · refine .inr ⟨h1, ?_⟩
        rcases hcd.lt_or_eq with h2 | h2
        · obtain ⟨e1, e2⟩ := ioo_eq h2 h.symm
          rw [e1, e2] at h2
          exact absurd h1 h2.ne
        · exact h2
    · rintro (⟨rfl, rfl⟩ | ⟨rfl, rfl⟩)
      · rfl
      · simp


theorem plain_endText {t : Str} (h : ∀ c ∈ t, plain c = true) : EndText t := by
  refine ⟨?_, ?_, ?_⟩
  · intro c hc
    have hp := h c hc
    refine ⟨?_, ?_, ?_, ?_, ?_, ?_, ?_⟩ <;> (rintro rfl; revert hp; decide)
  · exact not_infix_of_not_mem '\\' (by simp) fun h' => by have := h _ h'; revert this; decide
  · exact not_infix_of_not_mem '\\' (by simp) fun h' => by have := h _ h'; revert this; decide

theorem split_none {p s : Str} (hp : p ≠ []) (h : ¬ p <:+: s) (x : Char) (t : Str) (hpx : p = x :: t) (hx : x ∉ t) :
    split p s = [s] := by
  subst hpx
  have := split_join (x :: t) hp [s] (by simp) fun q hq => by
    rw [List.mem_singleton.1 hq]
    exact noEarly_head x t s hx h
  simpa [join] using this

theorem cup_none {s : Str} (h1 : '⋃' ∉ s) (h2 : '\\' ∉ s) : cupSplit s = [s] := by
  unfold cupSplit
  rw [(contains_eq_false _ _).2 (not_infix_of_not_mem '⋃' (by simp) h1)]
  simp only [Bool.false_eq_true, if_false]
  exact split_none (by simp) (not_infix_of_not_mem '\\' (by simp) h2) '\\' s%"cup" rfl (by decide)

theorem cap_none {s : Str} (h1 : '∩' ∉ s) (h2 : '\\' ∉ s) : capSplit s = [s] := by
  unfold capSplit
  rw [(contains_eq_false _ _).2 (not_infix_of_not_mem '∩' (by simp) h1)]
  simp only [Bool.false_eq_true, if_false]
  exact split_none (by simp) (not_infix_of_not_mem '\\' (by simp) h2) '\\' s%"cap" rfl (by decide)

theorem pointText_listChar (br : Bracket) (hbr : br ≠ .curly) (as : List Literal) :
    ∀ c ∈ pointText br as, listChar c = true := by
  intro c hc
  simp only [pointText, Bracket.spell, List.mem_cons, List.mem_append, List.not_mem_nil, or_false] at hc
  rcases hc with rfl | hc | rfl
  · cases br <;> first | decide | exact absurd rfl hbr
  · refine join_listChar _ ?_ c hc
    intro e he
    obtain ⟨a, -, rfl⟩ := List.mem_map.1 he
    exact a.text_plain
  · cases br <;> first | decide | exact absurd rfl hbr

/-- The computation raises whatever the state. -/
def Fails {α : Type} (m : M X α) : Prop := ∀ w, ∃ e w', m w = (.error e, w')

theorem Fails.bind {α β : Type} {m : M X α} {f : α → M X β} (h : Fails m) : Fails (m >>= f) := by
  intro w
  obtain ⟨e, w', h⟩ := h w
  exact ⟨e, w', by simp [h]⟩

theorem Always.fails {α β : Type} {m : M X α} {f : α → M X β} {a : α} (h : Always m a) (h' : Fails (f a)) : Fails (m >>= f) := by
  intro w
  obtain ⟨w₁, h⟩ := h w
  obtain ⟨e, w', h'⟩ := h' w₁
  exact ⟨e, w', by simp [h, h']⟩

theorem Fails.tryExcept {α : Type} {m : M X α} {k : PyErr → M X α} {a : α} (h : Fails m) (h' : ∀ e, Always (k e) a) :
    Always (M.tryExcept m k) a := by
  intro w
  obtain ⟨e, w₁, h1⟩ := h w
  obtain ⟨w₂, h2⟩ := h' e w₁
  exact ⟨w₂, by simp [h1, h2]⟩

/-- No interval at all. -/
theorem strToInterval_fails {E : Env X V S} {s : Str} (h1 : '⋃' ∉ s) (h2 : '\\' ∉ s) (h3 : '∩' ∉ s)
    (h : Fails (oneInterval E s)) : Always (strToInterval E s) none := by
  unfold strToInterval
  rw [cup_none h1 h2]
  refine Fails.tryExcept ?_ fun _ => Always.pure _
  simp only [unionLoop]
  rw [cap_none h3 h2]
  simp only [interLoop]
  exact h.bind.bind.bind

theorem join_append_last (es : List Str) (z : Str) (h0 : es ≠ []) (hes : ∀ e ∈ es, ',' ∉ e) (hz : ',' ∉ z) :
    ∃ p : List Str, join s%"," es ++ z = join s%"," p ∧ p.length = es.length ∧ ∀ e ∈ p, ',' ∉ e := by
  induction es with
  | nil => exact absurd rfl h0
  | cons e es ih =>
    cases es with
    | nil => exact ⟨[e ++ z], rfl, rfl, by simp [hes e (by simp), hz]⟩
    | cons e' es =>
      obtain ⟨p, h1, h2, h3⟩ := ih (by simp) fun x hx => hes x (by simp [hx])
      refine ⟨e :: p, ?_, by simp [h2], ?_⟩
      · cases p with
        | nil => simp at h2
        | cons y p =>
          simp only [join, List.append_assoc] at h1 ⊢
          rw [h1]
      · intro x hx
        rcases List.mem_cons.1 hx with rfl | hx
        · exact hes _ (by simp)
        · exact h3 x hx

theorem join_cons_first (es : List Str) (x : Char) (h0 : es ≠ []) (hes : ∀ e ∈ es, ',' ∉ e) (hx : x ≠ ',') :
    ∃ p : List Str, x :: join s%"," es = join s%"," p ∧ p.length = es.length ∧ ∀ e ∈ p, ',' ∉ e := by
  cases es with
  | nil => exact absurd rfl h0
  | cons e es =>
    refine ⟨(x :: e) :: es, by cases es <;> rfl, rfl, ?_⟩
    intro y hy
    rcases List.mem_cons.1 hy with rfl | hy
    · simp only [List.mem_cons, not_or]
      exact ⟨hx.symm, hes e (by simp)⟩
    · exact hes y (by simp [hy])

section
variable {K : Type} [Field K] [LinearOrder K] [IsStrictOrderedRing K]
  {E : Env X V S} {pts : S → Set K} {bound : V → Bound K → Prop}

theorem pointText_strip (br : Bracket) (as : List Literal) (hbr : br ≠ .curly) :
    strip (pointText br as) = pointText br as := strip_of_no_space _ fun c hc => by
  have := pointText_listChar br hbr as c hc
  simp only [listChar, plain, Bool.or_eq_true, beq_iff_eq] at this
  rcases this with ((((((h | rfl) | rfl) | rfl) | rfl) | rfl) | rfl) | rfl
  · exact isSpace_digit h
  all_goals decide

theorem texts_nocomma (as : List Literal) : ∀ e ∈ as.map Literal.text, ',' ∉ e := by
  intro e he h
  obtain ⟨a, -, rfl⟩ := List.mem_map.1 he
  have := a.text_plain _ h
  revert this; decide

/-- Three or more numbers are not an interval. -/
theorem long_fails (br : Bracket) (as : List Literal) (h0 : as ≠ []) (hl : as.length ≠ 2) (hbr : br ≠ .curly) :
    Fails (oneInterval E (pointText br as)) := by
  obtain ⟨p, h1, h2, h3⟩ : ∃ p : List Str, pointText br as = join s%"," p ∧ p.length = as.length ∧
      ∀ e ∈ p, ',' ∉ e := by
    obtain ⟨p, h1, h2, h3⟩ := join_append_last (as.map Literal.text) [br.close] (by simpa using h0) (texts_nocomma as)
      (by cases br <;> decide)
    obtain ⟨q, h4, h5, h6⟩ := join_cons_first p br.open (by
      rintro rfl
      rw [List.length_map] at h2
      exact h0 (List.length_eq_zero_iff.1 h2.symm)) h3 (by cases br <;> decide)
    refine ⟨q, ?_, by rw [h5, h2, List.length_map], h6⟩
    rw [← h4, ← h1]; rfl
  have hsp : split s%"," (pointText br as) = p := by
    rw [h1]
    apply split_join _ (by simp) _ (by
      rintro rfl
      exact h0 (List.length_eq_zero_iff.1 h2.symm))
    intro e he
    exact noEarly_char _ _ (h3 e he)
  unfold oneInterval
  simp only [pointText_strip br as hbr, hsp]
  intro w
  match p, h2 with
  | [], _ => exact ⟨_, _, rfl⟩
  | [_], _ => exact ⟨_, _, rfl⟩
  | [_, _], h2 => exact absurd h2.symm hl
  | _ :: _ :: _ :: _, _ => exact ⟨_, _, rfl⟩

/-- A pair of numbers as a written interval. -/
def pairItv (br : Bracket) (a b : Literal) : Itv K :=
  ⟨br == .round, a.text, b.text, br == .round, .fin (a.value : K), .fin (b.value : K)⟩

omit [LinearOrder K] [IsStrictOrderedRing K] in
theorem pairItv_text (br : Bracket) (hbr : br ≠ .curly) (a b : Literal) :
    (pairItv (K := K) br a b).text = pointText br [a, b] := by
  cases br <;> first
    | exact absurd rfl hbr
    | simp [pairItv, Itv.text, pointText, Bracket.spell, join, Bracket.open, Bracket.close]

omit [IsStrictOrderedRing K] in
theorem pairItv_points (br : Bracket) (hbr : br ≠ .curly) (a b : Literal) :
    (pairItv (K := K) br a b).points = between br (a.value : K) (b.value : K) := by
  cases br <;> first
    | exact absurd rfl hbr
    | (ext p; exact Iff.rfl)

omit [IsStrictOrderedRing K] in
theorem numEnd_fin (H : PairSem E pts bound) (a : Literal) :
    ∃ v v', Always (M.ext (E.l2s a.text)) v ∧ Always (oneInterval.numEnd E v) v' ∧ bound v' (.fin (a.value : K)) := by
  obtain ⟨v, h1, h2⟩ := H.literal a
  obtain ⟨v', h3, h4⟩ := numEnd_sem H.toSetSem v _ h2
  exact ⟨v, v', h1.always, h3, h4⟩

omit [IsStrictOrderedRing K] in
/-- Two numbers in the wrong order are not an interval. -/
theorem disordered_fails (H : PairSem E pts bound) (br : Bracket) (hbr : br ≠ .curly) (a b : Literal)
    (hab : (b.value : K) < a.value) : Fails (oneInterval E (pointText br [a, b])) := by
  have hsp : split s%"," (pointText br [a, b]) = [br.open :: a.text, b.text ++ [br.close]] := by
    have e : pointText br [a, b] = join s%"," [br.open :: a.text, b.text ++ [br.close]] := by
      simp [pointText, Bracket.spell, join]
    rw [e]
    apply split_join _ (by simp) _ (by simp)
    intro p hp
    apply noEarly_char
    have ha : ∀ l : Literal, ',' ∉ l.text := fun l => texts_nocomma [l] _ (by simp)
    simp only [List.mem_cons, List.not_mem_nil, or_false] at hp
    rcases hp with rfl | rfl
    · simp only [List.mem_cons, not_or]
      exact ⟨by cases br <;> decide, ha a⟩
    · simp only [List.mem_append, List.mem_singleton, not_or]
      exact ⟨ha b, by cases br <;> decide⟩
  have hfil : ∀ (l : Literal) (x y : Char), plain x = false → plain y = false →
      (l.text.filter fun c => decide (c ≠ x) && decide (c ≠ y)) = l.text := by
    intro l x y hx hy
    rw [List.filter_eq_self]
    intro c hc
    have hp := l.text_plain c hc
    have h1 : c ≠ x := by rintro rfl; rw [hp] at hx; cases hx
    have h2 : c ≠ y := by rintro rfl; rw [hp] at hy; cases hy
    simp [h1, h2]
  have hrl : replace s%"[" [] (replace s%"(" [] (br.open :: a.text)) = a.text := by
    rw [replace_one_nil, replace_one_nil, List.filter_filter]
    have := hfil a '[' '(' (by decide) (by decide)
    cases br <;> first | exact absurd rfl hbr | simpa [Bracket.open] using this
  have hrr : replace s%"]" [] (replace s%")" [] (b.text ++ [br.close])) = b.text := by
    rw [replace_one_nil, replace_one_nil, List.filter_filter, List.filter_append,
      hfil b ']' ')' (by decide) (by decide)]
    cases br <;> first | exact absurd rfl hbr | simp [Bracket.close]
  obtain ⟨va, va', a1, a2, a3⟩ := numEnd_fin H a
  obtain ⟨vb, vb', b1, b2, b3⟩ := numEnd_fin H b
  obtain ⟨c, c1, c2⟩ := H.gtV va' vb' _ _ a3 b3
  have hc : c = true := c2.2 hab
  subst hc
  unfold oneInterval
  simp only [pointText_strip br _ hbr, hsp, hrl, hrr]
  apply a1.fails
  apply b1.fails
  apply a2.fails
  apply b2.fails
  apply Always.fails (a := true)
  · apply (H.number _ _ a3).always.bind
    simp only [if_true]
    apply (H.number _ _ b3).always.bind
    simpa using c1.always
  · intro w; exact ⟨_, _, rfl⟩

omit [IsStrictOrderedRing K] in
/-- What a list of numbers is read as when it is tried as an interval. -/
theorem point_interval (H : PairSem E pts bound) (br : Bracket) (hbr : br ≠ .curly) (as : List Literal) (h0 : as ≠ []) :
    (Always (strToInterval E (pointText br as)) none ∧ ∀ a b, as = [a, b] → ¬ (a.value : K) ≤ b.value) ∨
    ∃ s a b, Always (strToInterval E (pointText br as)) (some s) ∧ as = [a, b] ∧ (a.value : K) ≤ b.value ∧
      pts s = between br (a.value : K) b.value := by
  have hlc := pointText_listChar br hbr as
  have h1 : '⋃' ∉ pointText br as := fun h => by have := hlc _ h; revert this; decide
  have h2 : '\\' ∉ pointText br as := fun h => by have := hlc _ h; revert this; decide
  have h3 : '∩' ∉ pointText br as := fun h => by have := hlc _ h; revert this; decide
  by_cases hl : as.length = 2
  · match as, hl with
    | [a, b], _ =>
      by_cases hab : (a.value : K) ≤ b.value
      · obtain ⟨la, l1, l2⟩ := H.literal a
        obtain ⟨lb, l3, l4⟩ := H.literal b
        have hok : (pairItv (K := K) br a b).Ok E bound := ⟨plain_endText a.text_plain, plain_endText b.text_plain,
          ⟨la, l1, l2⟩, ⟨lb, l3, l4⟩, not_lt.2 hab⟩
        obtain ⟨s, s1, s2⟩ := C48_intervals_partial H.toSetSem false [⟨false, [pairItv br a b]⟩] (by simp) (by
          intro m hm
          rw [List.mem_singleton.1 hm]
          refine ⟨by simp, by simpa using hok, ?_⟩
          intro u v huv hu hv
          cases u with
          | nil => exact absurd rfl hu
          | cons x u => cases u <;> cases v <;> simp at huv hv)
        refine .inr ⟨s, a, b, ?_, rfl, hab, ?_⟩
        · rw [← pairItv_text (K := K) br hbr]
          simpa [join, Meet.text] using s1
        · rw [s2, ← pairItv_points br hbr]
          ext p; simp
      · refine .inl ⟨strToInterval_fails h1 h2 h3 (disordered_fails H br hbr a b (not_le.1 hab)), ?_⟩
        intro a' b' h
        simp only [List.cons.injEq, and_true] at h
        rw [← h.1, ← h.2]; exact hab
  · refine .inl ⟨strToInterval_fails h1 h2 h3 (long_fails br as h0 hl hbr), ?_⟩
    rintro a b rfl
    exact absurd rfl hl

/-- The interval comparison of two lists of numbers. -/
theorem point_intervals (H : PairSem E pts bound) (br br' : Bracket) (hbr : br ≠ .curly) (hbr' : br' ≠ .curly)
    (as bs : List Literal) (ha : as ≠ []) (hb : bs ≠ []) : ∃ c s,
    Always (possibleIntervals E (pointText br as) (pointText br' bs)) (c, s) ∧
    (c = true → br = br' ∧ (as.map Literal.value = bs.map Literal.value ∨
      Diagonal br (as.map Literal.value) (bs.map Literal.value))) ∧
    (br = br' → Diagonal br (as.map Literal.value) (bs.map Literal.value) → c = true) := by
  unfold possibleIntervals
  have hd : ∀ {cs : List Literal} {q : ℚ}, cs.map Literal.value = [q, q] →
      (∀ a b, cs = [a, b] → ¬ (a.value : K) ≤ b.value) → False := by
    intro cs q hq hn
    have hl : cs.length = 2 := by rw [← List.length_map (f := Literal.value), hq]; rfl
    obtain ⟨a, b, rfl⟩ := List.length_eq_two.1 hl
    simp only [List.map_cons, List.map_nil, List.cons.injEq, and_true] at hq
    exact hn a b rfl (by rw [hq.1, hq.2])
  rcases point_interval H br hbr as ha with ⟨h1, h2⟩ | ⟨s, a, b, h1, rfl, h2, h3⟩ <;>
  rcases point_interval H br' hbr' bs hb with ⟨k1, k2⟩ | ⟨t, a', b', k1, rfl, k2, k3⟩
  · refine ⟨false, false, h1.bind (k1.bind (Always.pure _)), by simp, ?_⟩
    rintro - ⟨-, p, q, e1, e2⟩
    exact (hd e1 h2).elim
  · refine ⟨false, true, h1.bind (k1.bind (Always.pure _)), by simp, ?_⟩
    rintro - ⟨-, p, q, e1, e2⟩
    exact (hd e1 h2).elim
  · refine ⟨false, true, h1.bind (k1.bind (Always.pure _)), by simp, ?_⟩
    rintro - ⟨-, p, q, e1, e2⟩
    exact (hd e2 k2).elim
  · obtain ⟨c, c1, c2⟩ := H.compare s t
    rw [h3, k3, between_eq hbr hbr' h2 k2] at c2
    simp only [Rat.cast_inj] at c2
    refine ⟨c, true, h1.bind (k1.bind (c1.always.bind ?_)), ?_, ?_⟩
    · cases c <;> exact Always.pure _
    · intro hc
      obtain ⟨e, h⟩ := c2.1 hc
      refine ⟨e, ?_⟩
      rcases h with ⟨e1, e2⟩ | ⟨e1, e2, e3⟩
      · exact .inl (by simp [e1, e2])
      · exact .inr ⟨e1, a.value, a'.value, by simp [e2], by simp [e3]⟩
    · rintro e ⟨e1, p, q, e2, e3⟩
      simp only [List.map_cons, List.map_nil, List.cons.injEq, and_true] at e2 e3
      exact c2.2 ⟨e, .inr ⟨e1, by rw [e2.1, e2.2], by rw [e3.1, e3.2]⟩⟩

/-! ### Elements -/

open Classical in
theorem zipLoop_literals {f : Str → Str → M X Bool} {R : Literal → Literal → Prop} (as bs : List Literal)
    (hl : as.length = bs.length) (h : ∀ a ∈ as, ∀ b ∈ bs, Always (f a.text b.text) (decide (R a b))) :
    Always (zipLoop f (as.map Literal.text) (bs.map Literal.text)) (decide (List.Forall₂ R as bs)) := by
  induction as generalizing bs with
  | nil =>
    cases bs with
    | nil => simpa [zipLoop] using Always.pure true
    | cons _ _ => simp at hl
  | cons a as ih =>
    cases bs with
    | nil => simp at hl
    | cons b bs =>
      simp only [List.map_cons, zipLoop]
      apply (h a (by simp) b (by simp)).bind
      by_cases hR : R a b
      · simp only [hR, decide_true, if_true, List.forall₂_cons, true_and]
        exact ih bs (by simpa using hl) fun x hx y hy => h x (by simp [hx]) y (by simp [hy])
      · simpa [hR] using Always.pure false

theorem literals_spell (br : Bracket) (as : List Literal) (h2 : 2 ≤ as.length) (U : Uni)
    (ht : ¬ ThousandsComma U (pointText br as)) : Spells U (some br) (as.map Literal.text) (pointText br as) where
  spelled := rfl
  two := by simpa using h2
  elements := by
    intro e he
    obtain ⟨a, -, rfl⟩ := List.mem_map.1 he
    exact plain_element a.text_plain
  last := by
    intro h
    obtain ⟨a, -, ha⟩ := List.mem_map.1 (List.mem_of_getLast? h)
    exact a.text_ne ha
  thousands := ht

theorem in_not_literal (as : List Literal) : s%"\\in" ∉ as.map Literal.text := by
  intro h
  obtain ⟨a, -, ha⟩ := List.mem_map.1 h
  have := a.text_plain '\\' (by rw [ha]; simp)
  revert this; decide

open Classical in
/-- The tuple comparison of two lists of literals. -/
theorem point_tuple {num : K → V} (H : ExactNumbers E num) (hR : ReadsDecimals E num) (hE : PrintsIntegers E)
    (br br' : Bracket) (hbr : br ≠ .curly) (hbr' : br' ≠ .curly) (as bs : List Literal) (ha : 2 ≤ as.length)
    (hb : 2 ≤ bs.length) (ta : ¬ ThousandsComma E.U (pointText br as)) (tb : ¬ ThousandsComma E.U (pointText br' bs))
    (hA : ∀ a ∈ as, a.Tame) (hB : ∀ b ∈ bs, b.Tame) (n : Nat) (verbose : Bool) :
    Always (possibleTuple E (isEquivStr E (n + 2)) (pointText br as) (pointText br' bs) verbose)
      (decide (br = br' ∧ List.Forall₂ (fun a b => WithinTolerance (a.value : K) (b.value : K)) as bs), true) := by
  have sa := literals_spell br as ha E.U ta
  have sb := literals_spell br' bs hb E.U tb
  intro w
  by_cases hk : br = br'
  · subst hk
    obtain ⟨w₁, -, -, h3⟩ := possibleTuple_run E (isEquivStr E (n + 2)) _ _ verbose _ _
      (splitTuple_spells sa E.setOrder) (splitTuple_spells sb E.setOrder) w
    rw [h3]
    have main : Always (sameKind (zipLoop (fun x y => isEquivStr E (n + 2) x y verbose) (as.map Literal.text)
        (bs.map Literal.text)) (as.map Literal.text) (bs.map Literal.text))
        (decide (br = br ∧ List.Forall₂ (fun a b => WithinTolerance (a.value : K) (b.value : K)) as bs), true) := by
      unfold sameKind
      by_cases hl : as.length = bs.length
      · rw [if_neg (by simp [hl])]
        simp only [true_and]
        refine Always.bind (zipLoop_literals (R := fun a b => WithinTolerance (a.value : K) (b.value : K)) as bs hl ?_)
          (Always.pure _)
        intro a ha b hb
        convert C70_decimal_literals_partial H hR hE a b (hA a ha) (hB b hb) n verbose
      · rw [if_pos ⟨by simpa using hl, in_not_literal bs⟩]
        have : ¬ List.Forall₂ (fun a b : Literal => WithinTolerance (a.value : K) (b.value : K)) as bs :=
          fun h => hl h.length_eq
        simpa [this] using Always.pure (false, true)
    cases br with
    | square => exact (by rw [← elemsEquiv_list _ (pointText .square as) (pointText .square bs)] at main; exact main w₁)
    | round => exact (by rw [← elemsEquiv_tuple _ (pointText .round as) (pointText .round bs)] at main; exact main w₁)
    | curly => exact absurd rfl hbr
  · obtain ⟨w', -, h⟩ := C08_bracket_kind E (isEquivStr E (n + 2)) (some br) (some br') (by
      cases br <;> cases br' <;> first | exact absurd rfl hk | exact absurd rfl hbr | exact absurd rfl hbr' | decide)
      _ _ _ _ sa sb verbose w
    exact ⟨w', by simpa [hk] using h⟩

open Classical in
/-- **C74**, exactly: two lists of at least two (`Tame`, `Apart`) decimal literals in round or square brackets are
judged equivalent if and only if the brackets are the same and corresponding numbers are within the tolerance — or
both are pairs in round brackets and each has equal coordinates.  The exception is the violation of C74, see
`C74_refuted`. -/
theorem C74_points_partial {num : K → V} (H : ExactNumbers E num) (hR : ReadsDecimals E num) (hE : PrintsIntegers E)
    (hP : PairSem E pts bound) (br br' : Bracket) (hbr : br ≠ .curly) (hbr' : br' ≠ .curly) (as bs : List Literal)
    (ha : 2 ≤ as.length) (hb : 2 ≤ bs.length) (pa : Apart as) (pb : Apart bs)
    (hA : ∀ a ∈ as, a.Tame) (hB : ∀ b ∈ bs, b.Tame) (n : Nat) (verbose : Bool) :
    Always (isEquiv E (n + 3) (some (pointText br as)) (some (pointText br' bs)) verbose)
      (decide (br = br' ∧ (List.Forall₂ (fun a b => WithinTolerance (a.value : K) (b.value : K)) as bs ∨
        Diagonal br (as.map Literal.value) (bs.map Literal.value)))) := by
  have thou : ∀ (br : Bracket), br ≠ .curly → ∀ as, Apart as → ¬ ThousandsComma E.U (pointText br as) := by
    intro br hbr as pa
    have h1 : isDigit E.U br.open = false := by cases br <;> simp [Bracket.open, isDigit, asciiDigit]
    have h2 : isDigit E.U br.close = false := by cases br <;> simp [Bracket.close, isDigit, asciiDigit]
    exact literals_no_thousands E.U as pa br.open [br.close] h1
      (by intro c hc; simp at hc; rw [← hc]; exact h2) (by cases br <;> decide)
  have ta := thou br hbr as pa
  have tb := thou br' hbr' bs pb
  have hcm : ∀ (br : Bracket) (as : List Literal), 2 ≤ as.length → ',' ∈ pointText br as := by
    intro br as h
    have := join_comma_mem (as.map Literal.text) (by simpa using h)
    simp [pointText, Bracket.spell, this]
  have tolEq : ∀ as bs : List Literal, as.map Literal.value = bs.map Literal.value →
      List.Forall₂ (fun a b : Literal => WithinTolerance (a.value : K) (b.value : K)) as bs := by
    intro as
    induction as with
    | nil => intro bs h; cases bs with
      | nil => exact .nil
      | cons _ _ => simp at h
    | cons a as ih =>
      intro bs h
      cases bs with
      | nil => simp at h
      | cons b bs =>
        simp only [List.map_cons, List.cons.injEq] at h
        exact .cons (.inl (by rw [h.1])) (ih bs h.2)
  have textInj : pointText br as = pointText br' bs → br = br' ∧ as.map Literal.value = bs.map Literal.value := by
    intro h
    have hbb : br = br' := by
      simp only [pointText, Bracket.spell, List.cons.injEq] at h
      cases br <;> cases br' <;> first | rfl | (have := h.1; revert this; decide)
    refine ⟨hbb, ?_⟩
    subst hbb
    have e1 := splitTuple_spells (literals_spell br as ha E.U ta) E.setOrder
    have e2 := splitTuple_spells (literals_spell br bs hb E.U tb) E.setOrder
    rw [h, e2] at e1
    have e3 : bs.map Literal.text = as.map Literal.text := by
      cases br <;> first
        | exact absurd rfl hbr
        | (simp only [kindOf, RetType.wrap, Except.ok.injEq] at e1; injection e1)
    have : bs = as := List.map_injective_iff.2 (fun a b => Literal.text_inj) e3
    rw [this]
  simp only [isEquiv, isEquivStr, pointText_strip br as hbr, pointText_strip br' bs hbr']
  by_cases htx : pointText br as = pointText br' bs
  · rw [if_pos htx]
    obtain ⟨e1, e2⟩ := textInj htx
    rw [decide_eq_true ⟨e1, .inl (tolEq _ _ e2)⟩]
    exact Always.pure _
  rw [if_neg htx]
  apply (normalize_list E (pointText_listChar br hbr as) (hcm br as ha) ta (n + 1)).bind
  apply (normalize_list E (pointText_listChar br' hbr' bs) (hcm br' bs hb) tb (n + 1)).bind
  apply print_always
  unfold compareNorms
  simp only [htx, decide_false, Bool.false_eq_true, if_false]
  apply Always.tryExcept
  have hne : ∀ cs : List Literal, 2 ≤ cs.length → cs ≠ [] := by rintro _ h rfl; simp at h
  obtain ⟨c, s, i1, i2, i3⟩ := point_intervals hP br br' hbr hbr' as bs (hne _ ha) (hne _ hb)
  have htup := point_tuple H hR hE br br' hbr hbr' as bs ha hb ta tb hA hB n verbose
  have hbk : hasBracket (pointText br as) = true := by
    have : ∀ x : Char, contains [x] (pointText br as) = true ↔ x ∈ pointText br as := by
      intro x
      rw [contains_iff]
      constructor
      · intro h; exact h.subset (by simp)
      · intro h
        obtain ⟨u, v, e⟩ := List.append_of_mem h
        exact ⟨u, v, by rw [e]; simp⟩
    unfold hasBracket
    cases br with
    | square => rw [(this '[').2 (by simp [pointText, Bracket.spell, Bracket.open])]; simp
    | round => rw [(this '(').2 (by simp [pointText, Bracket.spell, Bracket.open])]; simp
    | curly => exact absurd rfl hbr
  have hmat : ∀ (br : Bracket), br ≠ .curly → ∀ as, strIsMat (pointText br as) = false := fun br hbr as =>
    contains_alpha (A := listChar) (x := 'm') (by simp) (by decide) (pointText_listChar br hbr as)
  have hem : (pointText br' bs).isEmpty = false := by simp [pointText, Bracket.spell]
  unfold isLatexEquiv
  simp only [hem, Bool.false_eq_true, if_false, hbk, if_true]
  apply i1.bind
  simp only [hmat br hbr as, hmat br' hbr' bs, Bool.or_self, Bool.and_false, Bool.false_eq_true, if_false]
  cases c with
  | true =>
    obtain ⟨e1, e2⟩ := i2 rfl
    rw [decide_eq_true ⟨e1, e2.imp_left (tolEq _ _)⟩]
    simp only [Bool.not_true, Bool.false_eq_true, if_false]
    apply (Always.pure (true, s)).bind
    apply (Always.pure (true, s)).bind
    simpa using Always.pure true
  | false =>
    have e : decide (br = br' ∧ (List.Forall₂ (fun a b => WithinTolerance (a.value : K) (b.value : K)) as bs ∨
        Diagonal br (as.map Literal.value) (bs.map Literal.value))) =
        decide (br = br' ∧ List.Forall₂ (fun a b => WithinTolerance (a.value : K) (b.value : K)) as bs) := by
      apply decide_eq_decide.2
      constructor
      · rintro ⟨e, h | h⟩
        · exact ⟨e, h⟩
        · exact absurd (i3 e h) (by simp)
      · rintro ⟨e, h⟩; exact ⟨e, .inl h⟩
    rw [e]
    simp only [Bool.not_false, if_true]
    apply htup.bind
    apply (Always.pure _).bind
    simpa using Always.pure _

/-- The text of a list of integers in brackets. -/
def intsText (br : Bracket) (xs : List ℤ) : Str := br.spell (xs.map intStr)

theorem ofInt_tame (z : ℤ) (h : z.natAbs ≤ 2 ^ 53) : (Literal.ofInt z).Tame :=
  .inl ⟨z.natAbs, by simp [Literal.mag, Literal.ofInt, decVal_natStr], h⟩

theorem ofInt_texts (xs : List ℤ) : (xs.map Literal.ofInt).map Literal.text = xs.map intStr := by
  simp [Literal.ofInt_text]

theorem ofInt_values (xs : List ℤ) : (xs.map Literal.ofInt).map Literal.value = xs.map (fun z : ℤ => (z : ℚ)) := by
  simp [Literal.ofInt_value]

theorem ofInt_apart (xs : List ℤ) (h : ∀ z ∈ xs.tail, z < 100) : Apart (xs.map Literal.ofInt) := by
  intro a ha
  rw [← List.map_tail] at ha
  obtain ⟨z, hz, rfl⟩ := List.mem_map.1 ha
  have := h z hz
  by_cases hn : z < 0
  · exact .inl (by simp [Literal.ofInt, hn])
  · refine .inr ?_
    simp only [Literal.ofInt]
    have := natStr_length_lt z.natAbs 2 (by omega) (by omega)
    omega

/-- The tolerance between integers is equality. -/
theorem tolerance_int (p q : ℤ) : WithinTolerance (((p : ℤ) : ℚ) : K) (((q : ℤ) : ℚ) : K) ↔ p = q := by
  simp only [Rat.cast_intCast]
  constructor
  · intro hw
    have hlt : p ≠ q → (1 : K) ≤ |(p : K) - q| := by
      intro hne
      have : (1 : ℤ) ≤ |p - q| := Int.one_le_abs (sub_ne_zero.2 hne)
      exact_mod_cast this
    by_contra hne
    have h1 := hlt hne
    rcases hw with h | ⟨-, h⟩ | ⟨-, h⟩ | ⟨h0, h0', -⟩
    · exact hne (by exact_mod_cast h)
    · norm_num at h; linarith
    · norm_num at h; linarith
    · have : (0 : ℤ) < |p| := by exact_mod_cast h0
      have : |p| < 1 := by exact_mod_cast h0'
      omega
  · rintro rfl; exact .inl rfl

open Classical in
/-- **C74** for points with integer coordinates, exactly: they are judged equivalent if and only if brackets and
coordinates are the same, or both are pairs in round brackets with equal coordinates. -/
theorem C74_integer_points_partial {num : K → V} (H : ExactNumbers E num) (hR : ReadsDecimals E num) (hE : PrintsIntegers E)
    (hP : PairSem E pts bound) (br br' : Bracket) (hbr : br ≠ .curly) (hbr' : br' ≠ .curly) (xs ys : List ℤ)
    (hx : 2 ≤ xs.length) (hy : 2 ≤ ys.length) (bX : ∀ z ∈ xs, z.natAbs ≤ 2 ^ 53) (bY : ∀ z ∈ ys, z.natAbs ≤ 2 ^ 53)
    (px : ∀ z ∈ xs.tail, z < 100) (py : ∀ z ∈ ys.tail, z < 100) (n : Nat) (verbose : Bool) : ∃ b,
    Always (isEquiv E (n + 3) (some (intsText br xs)) (some (intsText br' ys)) verbose) b ∧
      (b = true ↔ br = br' ∧ (xs = ys ∨ br = .round ∧ ∃ p q, xs = [p, p] ∧ ys = [q, q])) := by
  have ht : ∀ (br : Bracket) (xs : List ℤ), intsText br xs = pointText br (xs.map Literal.ofInt) := fun br xs => by
    rw [pointText, ofInt_texts]; rfl
  have htame : ∀ zs : List ℤ, (∀ z ∈ zs, z.natAbs ≤ 2 ^ 53) → ∀ a ∈ zs.map Literal.ofInt, a.Tame := by
    intro zs h a ha
    obtain ⟨z, hz, rfl⟩ := List.mem_map.1 ha
    exact ofInt_tame z (h z hz)
  have main := C74_points_partial H hR hE hP br br' hbr hbr' (xs.map Literal.ofInt) (ys.map Literal.ofInt)
    (by simpa using hx) (by simpa using hy) (ofInt_apart xs px) (ofInt_apart ys py) (htame xs bX) (htame ys bY) n verbose
  rw [← ht, ← ht] at main
  refine ⟨_, main, ?_⟩
  rw [decide_eq_true_iff]
  have e1 : List.Forall₂ (fun a b : Literal => WithinTolerance (a.value : K) (b.value : K)) (xs.map Literal.ofInt)
      (ys.map Literal.ofInt) ↔ xs = ys := by
    rw [List.forall₂_map_left_iff, List.forall₂_map_right_iff]
    simp only [Literal.ofInt_value, tolerance_int]
    rw [List.forall₂_eq_eq_eq]
  have e2 : Diagonal br ((xs.map Literal.ofInt).map Literal.value) ((ys.map Literal.ofInt).map Literal.value) ↔
      br = .round ∧ ∃ p q, xs = [p, p] ∧ ys = [q, q] := by
    rw [ofInt_values, ofInt_values]
    unfold Diagonal
    have key : ∀ xs : List ℤ, (∃ a : ℚ, xs.map (fun z : ℤ => (z : ℚ)) = [a, a]) ↔ ∃ p, xs = [p, p] := by
      intro xs
      constructor
      · rintro ⟨a, ha⟩
        have hl : xs.length = 2 := by rw [← List.length_map (f := fun z : ℤ => (z : ℚ)), ha]; rfl
        obtain ⟨p, q, rfl⟩ := List.length_eq_two.1 hl
        simp only [List.map_cons, List.map_nil, List.cons.injEq, and_true] at ha
        have : p = q := by
          have : (p : ℚ) = q := ha.1.trans ha.2.symm
          exact_mod_cast this
        exact ⟨p, by rw [this]⟩
      · rintro ⟨p, rfl⟩; exact ⟨p, rfl⟩
    have k1 := key xs
    have k2 := key ys
    constructor
    · rintro ⟨h, a, b, h1, h2⟩
      obtain ⟨p, hp⟩ := k1.1 ⟨a, h1⟩
      obtain ⟨q, hq⟩ := k2.1 ⟨b, h2⟩
      exact ⟨h, p, q, hp, hq⟩
    · rintro ⟨h, p, q, rfl, rfl⟩
      exact ⟨h, p, q, rfl, rfl⟩
  rw [e1, e2]

end

/-! ### Unordered lists -/

/-- Matching one element when the comparison is equality. -/
theorem matchOne_eq {f : Str → M X Bool} {a : Str} (bs : List (Str × Bool)) (h : ∀ p ∈ bs, Always (f p.1) (decide (a = p.1))) :
    ∃ r, Always (matchOne f bs) r ∧ (a ∉ freeElems bs → r = none) ∧
      (a ∈ freeElems bs → ∃ bs', r = some bs' ∧ bs'.map Prod.fst = bs.map Prod.fst ∧
        ∀ x, x ≠ a → (x ∈ freeElems bs' ↔ x ∈ freeElems bs)) := by
  induction bs with
  | nil => exact ⟨none, Always.pure _, fun _ => rfl, fun h => by simp [freeElems] at h⟩
  | cons p bs ih =>
    obtain ⟨r, r1, r2, r3⟩ := ih fun q hq => h q (by simp [hq])
    obtain ⟨b, flag⟩ := p
    cases flag with
    | true =>
      have hf : freeElems ((b, true) :: bs) = freeElems bs := by simp [freeElems]
      rw [hf]
      by_cases ha : a ∈ freeElems bs
      · obtain ⟨bs', e1, e2, e3⟩ := r3 ha
        refine ⟨some ((b, true) :: bs'), ?_, fun h => absurd ha h, fun _ => ⟨_, rfl, by simp [e2], ?_⟩⟩
        · unfold matchOne
          apply r1.bind
          rw [e1]
          exact Always.pure _
        · intro x hx
          rw [← e3 x hx]; simp [freeElems]
      · refine ⟨none, ?_, fun _ => rfl, fun h => absurd h ha⟩
        unfold matchOne
        apply r1.bind
        rw [r2 ha]
        exact Always.pure _
    | false =>
      have hf : freeElems ((b, false) :: bs) = b :: freeElems bs := by simp [freeElems]
      have hb := h (b, false) (by simp)
      rw [hf]
      by_cases hab : a = b
      · subst hab
        refine ⟨some ((a, true) :: bs), ?_, fun h => absurd (by simp) h, fun _ => ⟨_, rfl, by simp, ?_⟩⟩
        · unfold matchOne
          apply hb.bind
          simpa using Always.pure _
        · intro x hx
          simp [freeElems, hx]
      · have hb' : Always (f b) false := by simpa [hab] using hb
        by_cases ha : a ∈ freeElems bs
        · obtain ⟨bs', e1, e2, e3⟩ := r3 ha
          refine ⟨some ((b, false) :: bs'), ?_, fun h => absurd (by simp [ha]) h, fun _ => ⟨_, rfl, by simp [e2], ?_⟩⟩
          · unfold matchOne
            apply hb'.bind
            simp only [Bool.false_eq_true, if_false]
            apply r1.bind
            rw [e1]
            exact Always.pure _
          · intro x hx
            have hf' : freeElems ((b, false) :: bs') = b :: freeElems bs' := by simp [freeElems]
            rw [hf', List.mem_cons, List.mem_cons, e3 x hx]
        · refine ⟨none, ?_, fun _ => rfl, fun h => ?_⟩
          · unfold matchOne
            apply hb'.bind
            simp only [Bool.false_eq_true, if_false]
            apply r1.bind
            rw [r2 ha]
            exact Always.pure _
          · rcases List.mem_cons.1 h with h | h
            · exact absurd h hab
            · exact absurd h ha

/-- Matching distinct elements when the comparison is equality. -/
theorem matchLoop_eq {f : Str → Str → M X Bool} (as : List Str) (bs : List (Str × Bool)) (hnd : as.Nodup)
    (h : ∀ a ∈ as, ∀ b ∈ bs.map Prod.fst, Always (f a b) (decide (a = b))) :
    Always (matchLoop f as bs) (as.map fun a => decide (a ∈ freeElems bs)) := by
  induction as generalizing bs with
  | nil => exact Always.pure _
  | cons a as ih =>
    rw [List.nodup_cons] at hnd
    obtain ⟨r, r1, r2, r3⟩ := matchOne_eq (f := f a) (a := a) bs fun p hp => h a (by simp) p.1 (List.mem_map_of_mem hp)
    unfold matchLoop
    by_cases ha : a ∈ freeElems bs
    · obtain ⟨bs', e1, e2, e3⟩ := r3 ha
      apply r1.bind
      rw [e1]
      simp only
      apply (ih bs' hnd.2 fun x hx y hy => h x (by simp [hx]) y (by rwa [← e2])).bind
      have : (as.map fun x => decide (x ∈ freeElems bs')) = as.map fun x => decide (x ∈ freeElems bs) := by
        apply List.map_congr_left
        intro x hx
        have : x ≠ a := by rintro rfl; exact hnd.1 hx
        simp only [e3 x this]
      rw [this, List.map_cons, decide_eq_true ha]
      exact Always.pure _
    · apply r1.bind
      rw [r2 ha]
      simp only
      apply (ih bs hnd.2 fun x hx y hy => h x (by simp [hx]) y hy).bind
      rw [List.map_cons, decide_eq_false ha]
      exact Always.pure _

/-- The text of a list of integers without brackets. -/
def plainInts (xs : List ℤ) : Str := join s%"," (xs.map intStr)

section
variable {K : Type} [Field K] [LinearOrder K] [IsStrictOrderedRing K] {E : Env X V S}

/-- **C75**.  Two unbracketed lists of at least two integers (of at most 53 bits, those after the first below 100) are
judged equivalent exactly if the same integers occur in them, in whatever order and however often. -/
theorem C75_integer_sets {num : K → V} (H : ExactNumbers E num) (hR : ReadsDecimals E num) (hE : PrintsIntegers E)
    (xs ys : List ℤ) (hx : 2 ≤ xs.length) (hy : 2 ≤ ys.length) (bX : ∀ z ∈ xs, z.natAbs ≤ 2 ^ 53)
    (bY : ∀ z ∈ ys, z.natAbs ≤ 2 ^ 53) (px : ∀ z ∈ xs.tail, z < 100) (py : ∀ z ∈ ys.tail, z < 100)
    (n : Nat) (verbose : Bool) :
    Always (isEquiv E (n + 3) (some (plainInts xs)) (some (plainInts ys)) verbose) (decide (xs.toFinset = ys.toFinset)) := by
  have thou : ∀ zs : List ℤ, (∀ z ∈ zs.tail, z < 100) → ¬ ThousandsComma E.U (plainInts zs) := by
    intro zs h
    have := list_no_thousands E.U (zs.map Literal.ofInt) (ofInt_apart zs h) [] (by simp) (by simp)
    rw [ofInt_texts, List.append_nil] at this
    exact this
  have chars : ∀ zs : List ℤ, ∀ c ∈ plainInts zs, listChar c = true := by
    intro zs
    apply join_listChar
    intro e he
    obtain ⟨z, -, rfl⟩ := List.mem_map.1 he
    exact intStr_allPlain z
  have comma : ∀ zs : List ℤ, 2 ≤ zs.length → ',' ∈ plainInts zs := fun zs h => join_comma_mem _ (by simpa using h)
  have spells : ∀ zs : List ℤ, 2 ≤ zs.length → (∀ z ∈ zs.tail, z < 100) →
      Spells E.U none (zs.map intStr) (plainInts zs) := fun zs h h' =>
    { spelled := rfl
      two := by simpa using h
      elements := by
        intro e he
        obtain ⟨z, -, rfl⟩ := List.mem_map.1 he
        exact intStr_element z
      last := by
        intro h
        obtain ⟨z, -, hz⟩ := List.mem_map.1 (List.mem_of_getLast? h)
        exact (Literal.ofInt z).text_ne (by rw [Literal.ofInt_text, hz])
      thousands := thou zs h' }
  have hst : ∀ zs : List ℤ, strip (plainInts zs) = plainInts zs := fun zs => strip_of_no_space _ fun c hc => by
    have := chars zs c hc
    simp only [listChar, plain, Bool.or_eq_true, beq_iff_eq] at this
    rcases this with ((((((h | rfl) | rfl) | rfl) | rfl) | rfl) | rfl) | rfl
    · exact isSpace_digit h
    all_goals decide
  have hnb : ∀ zs : List ℤ, ∀ x ∈ s%"()[]", x ∉ plainInts zs := by
    intro zs
    have h : ∀ es : List Str, (∀ e ∈ es, ∀ c ∈ e, plain c = true) → ∀ x ∈ s%"()[]", x ∉ join s%"," es := by
      intro es
      induction es with
      | nil => simp [join]
      | cons e es ih =>
        intro h x hx
        have he : x ∉ e := fun hm => by
          have := h e (by simp) x hm
          clear hm
          revert this; revert x; decide
        cases es with
        | nil => exact he
        | cons e' es =>
          simp only [join, List.mem_append, not_or]
          refine ⟨⟨he, ?_⟩, ih (fun y hy => h y (by simp [hy])) x hx⟩
          clear he
          revert x; decide
    apply h
    intro e he
    obtain ⟨z, -, rfl⟩ := List.mem_map.1 he
    exact intStr_allPlain z
  have hmat : ∀ zs : List ℤ, strIsMat (plainInts zs) = false := fun zs =>
    contains_alpha (A := listChar) (x := 'm') (by simp) (by decide) (chars zs)
  have htup : Always (possibleTuple E (isEquivStr E (n + 2)) (plainInts xs) (plainInts ys) verbose)
      (decide (xs.toFinset = ys.toFinset), true) := by
    intro w
    obtain ⟨w₁, -, -, h3⟩ := possibleTuple_run E (isEquivStr E (n + 2)) _ _ verbose _ _
      (splitTuple_spells (spells xs hx px) E.setOrder) (splitTuple_spells (spells ys hy py) E.setOrder) w
    rw [h3]
    simp only [kindOf, RetType.wrap]
    rw [elemsEquiv_set]
    revert w₁
    suffices hmain : Always (sameKind (setsMatch (fun x y => isEquivStr E (n + 2) x y verbose)
        (E.setOrder (xs.map intStr)) (E.setOrder (ys.map intStr))) (E.setOrder (xs.map intStr)) (E.setOrder (ys.map intStr)))
        (decide (xs.toFinset = ys.toFinset), true) from fun w₁ _ => hmain w₁
    have memO : ∀ (zs : List ℤ) (s : Str), s ∈ E.setOrder (zs.map intStr) ↔ ∃ z ∈ zs, intStr z = s := by
      intro zs s
      rw [(E.setOrder_perm _).mem_iff, mem_dedup, List.mem_map]
    have nodO : ∀ zs : List ℤ, (E.setOrder (zs.map intStr)).Nodup := fun zs =>
      (E.setOrder_perm _).nodup_iff.2 (nodup_dedup _)
    have subO : ∀ xs ys : List ℤ, (∀ s ∈ E.setOrder (xs.map intStr), s ∈ E.setOrder (ys.map intStr)) ↔
        xs.toFinset ⊆ ys.toFinset := by
      intro xs ys
      constructor
      · intro h z hz
        rw [List.mem_toFinset] at hz ⊢
        obtain ⟨z', h1, h2⟩ := (memO ys _).1 (h _ ((memO xs _).2 ⟨z, hz, rfl⟩))
        rwa [← intStr_injective h2]
      · intro h s hs
        obtain ⟨z, h1, rfl⟩ := (memO xs s).1 hs
        have := h (List.mem_toFinset.2 h1)
        exact (memO ys _).2 ⟨z, List.mem_toFinset.1 this, rfl⟩
    have hin : s%"\\in" ∉ E.setOrder (ys.map intStr) := by
      intro h
      obtain ⟨z, -, hz⟩ := (memO ys _).1 h
      have := intStr_allPlain z '\\' (by rw [hz]; simp)
      revert this; decide
    have hfree : freeElems ((E.setOrder (ys.map intStr)).map fun b => (b, false)) = E.setOrder (ys.map intStr) := by
      unfold freeElems
      rw [List.filter_eq_self.2 (by
        intro p hp
        obtain ⟨b, -, rfl⟩ := List.mem_map.1 hp
        rfl), List.map_map]
      exact List.map_id _
    have hmatch : Always (setsMatch (fun x y => isEquivStr E (n + 2) x y verbose) (E.setOrder (xs.map intStr))
        (E.setOrder (ys.map intStr))) (decide (xs.toFinset ⊆ ys.toFinset)) := by
      unfold setsMatch
      apply (matchLoop_eq (f := fun x y => isEquivStr E (n + 2) x y verbose) _ _ (nodO xs) ?_).bind
      · rw [hfree]
        have : ((E.setOrder (xs.map intStr)).map fun a => decide (a ∈ E.setOrder (ys.map intStr))).all id =
            decide (xs.toFinset ⊆ ys.toFinset) := by
          rw [Bool.eq_iff_iff, decide_eq_true_iff, ← subO]
          simp
        rw [this]
        exact Always.pure _
      · intro a ha b hb
        rw [List.map_map] at hb
        obtain ⟨b', hb', rfl⟩ := List.mem_map.1 hb
        obtain ⟨p, hp, rfl⟩ := (memO xs a).1 ha
        obtain ⟨q, hq, e⟩ := (memO ys b').1 hb'
        have h := C71_integers H hR hE p q (bX p hp) (bY q hq) n verbose
        have e2 : decide (intStr p = ((Prod.fst ∘ fun b : Str => (b, false)) b')) = decide (p = q) := by
          apply decide_eq_decide.2
          simp only [Function.comp_apply, ← e]
          exact ⟨intStr_injective, fun h => by rw [h]⟩
        rw [e2]
        simp only [Function.comp_apply, ← e]
        exact h
    unfold sameKind
    by_cases hl : (E.setOrder (xs.map intStr)).length = (E.setOrder (ys.map intStr)).length
    · rw [if_neg (by simp [hl])]
      have : decide (xs.toFinset = ys.toFinset) = decide (xs.toFinset ⊆ ys.toFinset) := by
        apply decide_eq_decide.2
        constructor
        · intro h; rw [h]
        · intro h
          apply Finset.Subset.antisymm h
          rw [← subO]
          have h' := (subO xs ys).2 h
          have sp : (E.setOrder (xs.map intStr)).Subperm (E.setOrder (ys.map intStr)) := (nodO xs).subperm h'
          have := sp.perm_of_length_le hl.ge
          intro s hs
          exact this.mem_iff.2 hs
      rw [this]
      exact hmatch.bind (Always.pure _)
    · rw [if_pos ⟨hl, hin⟩]
      have : ¬ xs.toFinset = ys.toFinset := by
        intro h
        apply hl
        apply List.Perm.length_eq
        rw [List.perm_ext_iff_of_nodup (nodO xs) (nodO ys)]
        intro s
        exact ⟨(subO xs ys).2 (by rw [h]) s, (subO ys xs).2 (by rw [h]) s⟩
      simpa [this] using Always.pure (false, true)
  simp only [isEquiv, isEquivStr, hst]
  by_cases htx : plainInts xs = plainInts ys
  · rw [if_pos htx]
    have e1 := splitTuple_spells (spells xs hx px) (fun l => l)
    have e2 := splitTuple_spells (spells ys hy py) (fun l => l)
    rw [htx, e2] at e1
    simp only [kindOf, RetType.wrap, Except.ok.injEq] at e1
    injection e1 with e1
    have : ys = xs := List.map_injective_iff.2 (fun a b => intStr_injective) e1
    rw [this, decide_eq_true rfl]
    exact Always.pure _
  rw [if_neg htx]
  apply (normalize_list E (chars xs) (comma xs hx) (thou xs px) (n + 1)).bind
  apply (normalize_list E (chars ys) (comma ys hy) (thou ys py) (n + 1)).bind
  apply print_always
  unfold compareNorms
  simp only [htx, decide_false, Bool.false_eq_true, if_false]
  apply Always.tryExcept
  have hbk : hasBracket (plainInts xs) = false := by
    unfold hasBracket
    have : ∀ x ∈ s%"()[]", contains [x] (plainInts xs) = false := fun x hx =>
      (contains_eq_false _ _).2 (not_infix_of_not_mem x (by simp) (hnb xs x hx))
    rw [this '(' (by simp), this ')' (by simp), this '[' (by simp), this ']' (by simp)]
    rfl
  have hem : (plainInts ys).isEmpty = false := by
    have := comma ys hy
    cases h : plainInts ys with
    | nil => rw [h] at this; simp at this
    | cons _ _ => rfl
  unfold isLatexEquiv
  simp only [hem, Bool.false_eq_true, if_false, hbk]
  apply (Always.pure (false, false)).bind
  simp only [Bool.not_false, if_true]
  apply htup.bind
  simp only [hmat xs, hmat ys, Bool.or_self, Bool.and_false, Bool.false_eq_true, if_false]
  apply (Always.pure _).bind
  simpa using Always.pure _

end

/-- Order and repetition do not matter, the numbers do. -/
example : (isEquiv ratEnv 3 (some s%"1,-2,1") (some s%"-2,1") false ⟨(), []⟩).1 = .ok true := by decide +kernel
example : (isEquiv ratEnv 3 (some s%"1,-2") (some s%"1,2") false ⟨(), []⟩).1 = .ok false := by decide +kernel
/-- The hypotheses of C75 can be met. -/
example : Always (isEquiv ratEnv 3 (some s%"1,-2,1") (some s%"-2,1") true) true := by
  have h := C75_integer_sets ratExact readsDecimals_ratEnv printsIntegers_ratEnv [1, -2, 1] [-2, 1] (by decide)
    (by decide) (by decide) (by decide) (by decide) (by decide) 0 true
  rw [decide_eq_true (by decide)] at h
  exact h

/-! ### Examples and the violation -/

/-- `setEnv` computes with numbers exactly. -/
noncomputable def setExact : ExactNumbers (K := ℚ) setEnv TVal.num where
  view := ratExact.view
  freeSyms := ratExact.freeSyms
  isNumber := ratExact.isNumber
  evalf := ratExact.evalf
  expandEq := ratExact.expandEq
  sub := ratExact.sub
  isZero := ratExact.isZero
  isInteger := ratExact.isInteger
  abs := ratExact.abs
  lt := ratExact.lt
  ltThr := ratExact.ltThr
  truth := ratExact.truth
  ge1 := ratExact.ge1
  gt0 := ratExact.gt0
  div := ratExact.div

theorem readsDecimals_setEnv : ReadsDecimals (K := ℚ) setEnv TVal.num := fun a =>
  let r := readsDecimals_ratEnv a
  ⟨r.l2s, r.parseLatex, r.parseExpr, r.some_parser⟩

theorem printsIntegers_setEnv : PrintsIntegers setEnv := fun n x => printsIntegers_ratEnv n x

theorem pairSem_setEnv : PairSem (K := ℚ) setEnv id ratBound where
  toSetSem := setEnv_sem
  number v q h := by
    obtain ⟨p, rfl, -⟩ := h
    exact ratExact.isNumber p
  literal a := ⟨.num a.value, fun x => ⟨x, by
    show optCall (toyParse a.text) x = _
    rw [toyParse_literal]; rfl⟩, a.value, rfl, by simp⟩
  compare s t := ⟨_, fun x => ⟨x, rfl⟩, by simp⟩

/-- `(1,2,3)` and `(1,2,4)` are told apart, `[1,2]` and `(1,2)` too. -/
example : Always (isEquiv setEnv 3 (some s%"(1,2,3)") (some s%"(1,2,4)") false) false ∧
    Always (isEquiv setEnv 3 (some s%"[1,2]") (some s%"(1,2)") false) false := by
  constructor
  · obtain ⟨b, h1, h2⟩ := C74_integer_points_partial setExact readsDecimals_setEnv printsIntegers_setEnv pairSem_setEnv
      .round .round (by decide) (by decide) [1, 2, 3] [1, 2, 4] (by decide) (by decide) (by decide) (by decide)
      (by decide) (by decide) 0 false
    have : b = false := by
      rw [← Bool.not_eq_true, h2]
      simp
    rw [this] at h1
    exact h1
  · obtain ⟨b, h1, h2⟩ := C74_integer_points_partial setExact readsDecimals_setEnv printsIntegers_setEnv pairSem_setEnv
      .square .round (by decide) (by decide) [1, 2] [1, 2] (by decide) (by decide) (by decide) (by decide)
      (by decide) (by decide) 0 false
    have : b = false := by
      rw [← Bool.not_eq_true, h2]
      simp
    rw [this] at h1
    exact h1

/-- **C74** fails: the points (1,1) and (2,2) are both also read as empty open intervals, and accepted as equal. -/
theorem C74_refuted : Always (isEquiv setEnv 3 (some s%"(1,1)") (some s%"(2,2)") false) true ∧
    ¬ WithinTolerance (1 : ℚ) 2 := by
  refine ⟨?_, ?_⟩
  · obtain ⟨b, h1, h2⟩ := C74_integer_points_partial setExact readsDecimals_setEnv printsIntegers_setEnv pairSem_setEnv
      .round .round (by decide) (by decide) [1, 1] [2, 2] (by decide) (by decide) (by decide) (by decide)
      (by decide) (by decide) 0 false
    have : b = true := h2.2 ⟨rfl, .inr ⟨rfl, 1, 2, rfl, rfl⟩⟩
    rw [this] at h1
    exact h1
  · unfold WithinTolerance
    norm_num [abs_of_pos, abs_of_neg]

end Verif
