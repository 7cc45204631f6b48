import Verif.Model.Helpers
import Verif.Py.RegexCalc
import Verif.Py.ScanMem
import Verif.Props.ByValue
/-
C101: what the unused helper functions decide.
-/

namespace Verif
open Re

variable {X V S : Type}

/-! ### Patterns without anchors find every word of their language -/

/-- no anchors and no look-around -/
def Re.Plain : Re → Prop
  | .eps => True
  | .chr _ => True
  | .seq a b => a.Plain ∧ b.Plain
  | .alt a b => a.Plain ∧ b.Plain
  | .star _ r => r.Plain
  | .grp _ r => r.Plain
  | _ => False

theorem starGo_complete (g : Bool) (f : RSt → List RSt) (L : Str → Prop)
    (ih : ∀ u, L u → ∀ s rest, s.rest = u ++ rest → ∃ t ∈ f s, t.rest = rest) (n : Nat) :
    ∀ xs : List Str, (∀ x ∈ xs, L x) → ∀ s rest, s.rest = xs.flatten ++ rest → s.rest.length ≤ n →
      ∃ t ∈ starGo g f n s, t.rest = rest := by
  induction n with
  | zero =>
    intro xs _ s rest e h
    have : s.rest = [] := List.eq_nil_of_length_eq_zero (Nat.le_zero.1 h)
    rw [this] at e
    have e := List.append_eq_nil_iff.1 e.symm
    exact ⟨s, by simp [starGo], by rw [this, e.2]⟩
  | succ n ihn =>
    intro xs hx s rest e h
    induction xs with
    | nil =>
      refine ⟨s, ?_, by simpa using e⟩
      simp only [starGo]
      cases g <;> simp
    | cons x xs ihx =>
      by_cases hn : x = []
      · subst hn
        exact ihx (fun y hy => hx y (by simp [hy])) (by simpa using e)
      · obtain ⟨t, h1, h2⟩ := ih x (hx x (by simp)) s (xs.flatten ++ rest) (by simpa using e)
        have hl : t.rest.length < s.rest.length := by
          rw [h2, e]
          have := List.length_pos_of_ne_nil hn
          simp; omega
        obtain ⟨v, h3, h4⟩ := ihn xs (fun y hy => hx y (by simp [hy])) t rest h2 (by omega)
        refine ⟨v, ?_, h4⟩
        have : v ∈ ((f s).filter (fun t => decide (t.rest.length < s.rest.length))).flatMap (starGo g f n) := by
          simp only [List.mem_flatMap, List.mem_filter, decide_eq_true_eq]
          exact ⟨t, ⟨h1, hl⟩, h3⟩
        simp only [starGo]
        cases g <;> simp [this]

theorem run_complete (r : Re) (hr : r.Plain) : ∀ u, r.Lang u → ∀ s rest, s.rest = u ++ rest → ∃ t ∈ r.run s, t.rest = rest := by
  induction r with
  | eps => rintro _ rfl s rest e; exact ⟨s, by simp, by simpa using e⟩
  | chr p =>
    rintro _ ⟨x, rfl, hx⟩ s rest e
    refine ⟨⟨x :: s.pre, rest, s.caps⟩, ?_, rfl⟩
    simp [Re.run, e, hx]
  | seq a b iha ihb =>
    rintro _ ⟨x, y, rfl, hx, hy⟩ s rest e
    obtain ⟨t, h1, h2⟩ := iha hr.1 x hx s (y ++ rest) (by simpa using e)
    obtain ⟨v, h3, h4⟩ := ihb hr.2 y hy t rest h2
    exact ⟨v, by simp only [run_seq, List.mem_flatMap]; exact ⟨t, h1, h3⟩, h4⟩
  | alt a b iha ihb =>
    rintro u (h | h) s rest e
    · obtain ⟨t, h1, h2⟩ := iha hr.1 u h s rest e
      exact ⟨t, by simp [h1], h2⟩
    · obtain ⟨t, h1, h2⟩ := ihb hr.2 u h s rest e
      exact ⟨t, by simp [h1], h2⟩
  | star g r ih =>
    rintro _ ⟨xs, rfl, hx⟩ s rest e
    exact starGo_complete g r.run r.Lang (ih hr) _ xs hx s rest e le_rfl
  | grp n r ih =>
    intro u h s rest e
    obtain ⟨t, h1, h2⟩ := ih hr u h s rest e
    refine ⟨⟨t.pre, t.rest, (n, s.rest.take (s.rest.length - t.rest.length)) :: t.caps⟩, ?_, h2⟩
    simp only [run_grp, List.mem_map]
    exact ⟨t, h1, rfl⟩
  | bos => exact hr.elim
  | eos => exact hr.elim
  | behind => exact hr.elim
  | ahead => exact hr.elim

/-- A pattern without anchors is found exactly if a word of its language occurs. -/
theorem reSearch_plain {r : Re} (hr : r.Plain) (s : Str) : (reSearch r s).isSome = true ↔ ∃ u, r.Lang u ∧ u <:+: s := by
  constructor
  · intro h
    obtain ⟨t, ht⟩ := Option.isSome_iff_exists.1 h
    obtain ⟨a, u, b, e, hl⟩ := reSearch_lang ht
    exact ⟨u, hl, a, b, e.symm⟩
  · rintro ⟨u, hl, a, b, e⟩
    rw [Option.isSome_iff_ne_none]
    intro hn
    have := (searchFrom_none_iff r [] s).1 hn a (u ++ b) (by rw [← e]; simp)
    obtain ⟨t, h1, _⟩ := run_complete r hr u hl ⟨a.reverse ++ [], u ++ b, []⟩ b rfl
    rw [Re.matchAt, List.head?_eq_none_iff] at this
    rw [this] at h1
    cases h1

/-! ### `should_allow_eval` -/

theorem flatten_singles (xs : Str) : (xs.map fun y => [y]).flatten = xs := by
  induction xs with
  | nil => rfl
  | cons x xs ih => rw [List.map_cons, List.flatten_cons, ih]; rfl

theorem lang_plus_chr_iff {p : Char → Bool} {u : Str} : (plus (.chr p)).Lang u ↔ u ≠ [] ∧ ∀ x ∈ u, p x = true := by
  constructor
  · exact fun h => by
      obtain ⟨_, _, rfl, ⟨x, rfl, hx⟩, hy⟩ := h
      refine ⟨by simp, ?_⟩
      have := lang_star_chr hy
      intro z hz
      rcases List.mem_cons.1 (by simpa using hz) with rfl | hz
      · exact hx
      · exact this z hz
  · rintro ⟨h0, h⟩
    cases u with
    | nil => exact absurd rfl h0
    | cons x xs =>
      refine ⟨[x], xs, rfl, ⟨x, rfl, h x (by simp)⟩, xs.map fun y => [y], (flatten_singles xs).symm, ?_⟩
      intro y hy
      obtain ⟨z, hz, rfl⟩ := List.mem_map.1 hy
      exact ⟨z, rfl, h z (by simp [hz])⟩

/-- what is left of the text for the count of the letters -/
def unnamed (s : Str) : Str := replace s%"frac" [] (replace s%"sqrt" [] s)

/-- **C101**, `should_allow_eval`.  Evaluation is allowed exactly if at most two different letters remain when the words `sqrt` and `frac`
are removed, no `^` is followed by a bracket, and no `^` is followed by two digits or by digits and another `^`. -/
theorem C101_allowed (alpha : Char → Bool) (s : Str) : shouldAllowEval alpha s = true ↔
    (∀ x y z, x ∈ unnamed s → y ∈ unnamed s → z ∈ unnamed s → alpha x = true → alpha y = true → alpha z = true →
      x = y ∨ y = z ∨ x = z) ∧
    ¬ s%"^{" <:+: s ∧ ¬ s%"^(" <:+: s ∧
    (∀ a b, asciiDigit a = true → asciiDigit b = true → ¬ ['^', a, b] <:+: s) ∧
    ∀ ds : Str, ds ≠ [] → (∀ d ∈ ds, asciiDigit d = true) → ¬ '^' :: ds ++ ['^'] <:+: s := by
  have hp : ∀ r ∈ badRegexes, r.Plain := by
    intro r hr
    simp only [badRegexes, List.mem_cons, List.not_mem_nil, or_false] at hr
    rcases hr with rfl | rfl <;> simp [Re.cat, Re.Plain, Re.c, Re.plus, Re.num]
  have h1 : (reSearch (.cat [.c '^', .plus .num, .c '^']) s).isSome = true ↔
      ∃ ds : Str, ds ≠ [] ∧ (∀ d ∈ ds, asciiDigit d = true) ∧ '^' :: ds ++ ['^'] <:+: s := by
    rw [reSearch_plain (hp _ (by simp [badRegexes]))]
    constructor
    · rintro ⟨_, ⟨_, _, rfl, a, _, y, rfl, b, c⟩, hu⟩
      obtain rfl := lang_c.1 a
      obtain rfl := lang_c.1 c
      obtain ⟨h0, h⟩ := lang_plus_chr_iff.1 b
      exact ⟨_, h0, h, by simpa using hu⟩
    · rintro ⟨ds, h0, h, hi⟩
      exact ⟨'^' :: (ds ++ ['^']), ⟨['^'], ds ++ ['^'], by simp, lang_c.2 rfl, ds, ['^'], rfl, lang_plus_chr_iff.2 ⟨h0, h⟩, lang_c.2 rfl⟩, by simpa using hi⟩
  have h2 : (reSearch (.cat [.c '^', .num, .plus .num]) s).isSome = true ↔
      ∃ a b, asciiDigit a = true ∧ asciiDigit b = true ∧ ['^', a, b] <:+: s := by
    rw [reSearch_plain (hp _ (by simp [badRegexes]))]
    constructor
    · rintro ⟨_, ⟨_, _, rfl, a, _, y, rfl, ⟨d, rfl, hd⟩, c⟩, hu⟩
      obtain rfl := lang_c.1 a
      obtain ⟨h0, h⟩ := lang_plus_chr_iff.1 c
      cases y with
      | nil => exact absurd rfl h0
      | cons e y => exact ⟨d, e, hd, h e (by simp), List.IsInfix.trans ⟨[], y, by simp⟩ hu⟩
    · rintro ⟨a, b, ha, hb, hi⟩
      exact ⟨_, ⟨['^'], [a, b], rfl, lang_c.2 rfl, [a], [b], rfl, ⟨a, rfl, ha⟩, lang_plus_chr_iff.2 (by simpa using hb)⟩, hi⟩
  have h3 : ¬ countUnknownLetters alpha s > 2 ↔
      ∀ x y z, x ∈ unnamed s → y ∈ unnamed s → z ∈ unnamed s → alpha x = true → alpha y = true → alpha z = true →
        x = y ∨ y = z ∨ x = z := by
    unfold countUnknownLetters
    rw [gt_iff_lt, Finset.two_lt_card]
    simp only [List.mem_toFinset, List.mem_filter]
    constructor
    · intro h x y z hx hy hz ax ay az
      by_contra hn
      simp only [not_or] at hn
      exact h ⟨x, ⟨hx, ax⟩, y, ⟨hy, ay⟩, z, ⟨hz, az⟩, hn.1, hn.2.2, hn.2.1⟩
    · rintro h ⟨x, ⟨hx, ax⟩, y, ⟨hy, ay⟩, z, ⟨hz, az⟩, n1, n2, n3⟩
      rcases h x y z hx hy hz ax ay az with e | e | e
      · exact n1 e
      · exact n3 e
      · exact n2 e
  unfold shouldAllowEval
  by_cases hc : countUnknownLetters alpha s > 2
  · simp only [hc, if_true, Bool.false_eq_true, false_iff]
    exact fun h => h3.2 h.1 hc
  · rw [if_neg hc]
    have h3 := h3.1 hc
    by_cases hb : badSubstrings.any (contains · s) = true
    · rw [if_pos hb]
      simp only [Bool.false_eq_true, false_iff]
      simp only [badSubstrings, List.any_cons, List.any_nil, Bool.or_false, Bool.or_eq_true, contains_iff] at hb
      rintro ⟨_, h4, h5, _⟩
      rcases hb with h | h
      · exact h4 h
      · exact h5 h
    · rw [if_neg hb]
      simp only [badSubstrings, List.any_cons, List.any_nil, Bool.or_false, Bool.or_eq_true, contains_iff, not_or] at hb
      simp only [badRegexes, List.any_cons, List.any_nil, Bool.or_false, Bool.not_eq_true', Bool.or_eq_false_iff]
      rw [Bool.eq_false_iff, Bool.eq_false_iff, ne_eq, ne_eq, h1, h2]
      constructor
      · rintro ⟨a, b⟩
        exact ⟨h3, hb.1, hb.2, fun x y hx hy hi => b ⟨x, y, hx, hy, hi⟩, fun ds h0 h hi => a ⟨ds, h0, h, hi⟩⟩
      · rintro ⟨_, _, _, a, b⟩
        exact ⟨fun ⟨ds, h0, h, hi⟩ => b ds h0 h hi, fun ⟨x, y, hx, hy, hi⟩ => a x y hx hy hi⟩

/-- the count of the letters is the number of different letters that remain -/
example : shouldAllowEval Char.isAlpha s%"\\frac{x+1}{\\sqrt{y}}" = true := by kernel_rfl
example : shouldAllowEval Char.isAlpha s%"x+y+z" = false := by kernel_rfl
example : shouldAllowEval Char.isAlpha s%"x^12" = false ∧ shouldAllowEval Char.isAlpha s%"2^3^4" = false ∧
    shouldAllowEval Char.isAlpha s%"x^{2}" = false ∧ shouldAllowEval Char.isAlpha s%"x^2" = true := by
  refine ⟨?_, ?_, ?_, ?_⟩ <;> kernel_rfl

/-- **C101**, the comment in `should_allow_eval` speaks of functions of more than two variables, but letters are counted: a function of
one variable is refused, and a product of four letters that happens to read `frac` is not. -/
theorem C101_variables_refuted : shouldAllowEval Char.isAlpha s%"sin(x)" = false ∧
    shouldAllowEval Char.isAlpha s%"fcar" = false ∧ shouldAllowEval Char.isAlpha s%"frac" = true := by
  refine ⟨?_, ?_, ?_⟩ <;> kernel_rfl

/-! ### `_is_frac` -/

/-- no anchors but `$` at the very end -/
def Re.Tail : Re → Prop
  | .seq a b => a.Plain ∧ b.Tail
  | .eos => True
  | r => r.Plain

theorem run_complete_tail (r : Re) (hr : r.Tail) : ∀ u, r.Lang u → ∀ s rest, rest = [] ∨ rest = ['\n'] → s.rest = u ++ rest →
    ∃ t ∈ r.run s, t.rest = rest := by
  induction r with
  | seq a b _ ihb =>
    rintro _ ⟨x, y, rfl, hx, hy⟩ s rest h0 e
    obtain ⟨t, h1, h2⟩ := run_complete a hr.1 x hx s (y ++ rest) (by simpa using e)
    obtain ⟨v, h3, h4⟩ := ihb hr.2 y hy t rest h0 h2
    exact ⟨v, by simp only [run_seq, List.mem_flatMap]; exact ⟨t, h1, h3⟩, h4⟩
  | eos =>
    rintro _ rfl s rest h0 e
    have e : s.rest = rest := by simpa using e
    refine ⟨s, ?_, e⟩
    rw [run_eos, e]
    rcases h0 with rfl | rfl <;> simp
  | eps => exact fun u h s rest _ e => run_complete _ hr u h s rest e
  | chr p => exact fun u h s rest _ e => run_complete _ hr u h s rest e
  | alt a b => exact fun u h s rest _ e => run_complete _ hr u h s rest e
  | star g r => exact fun u h s rest _ e => run_complete _ hr u h s rest e
  | grp n r => exact fun u h s rest _ e => run_complete _ hr u h s rest e
  | bos => exact hr.elim
  | behind => exact hr.elim
  | ahead => exact hr.elim

/-- A text that is, up to a final newline, digits (perhaps after `-`), at most one further character, `/`, digits that are not all zero,
and at most one further character. -/
def IsQuotient (s : Str) : Prop :=
  ∃ sign num x den y nl : Str, s = sign ++ num ++ x ++ ['/'] ++ den ++ y ++ nl ∧ (sign = [] ∨ sign = ['-']) ∧
    num ≠ [] ∧ (∀ d ∈ num, asciiDigit d = true) ∧ (∀ d ∈ den, asciiDigit d = true) ∧ (∃ d ∈ den, d ≠ '0') ∧
    x.length ≤ 1 ∧ '\n' ∉ x ∧ y.length ≤ 1 ∧ '\n' ∉ y ∧ (nl = [] ∨ nl = ['\n'])

theorem lang_opt_dot {u : Str} : (opt dot).Lang u ↔ u.length ≤ 1 ∧ '\n' ∉ u := by
  constructor
  · rintro (⟨x, rfl, hx⟩ | rfl)
    · simp at hx
      exact ⟨by simp, by simpa using fun h => hx h.symm⟩
    · simp
  · rintro ⟨h, hn⟩
    match u, h with
    | [], _ => exact .inr rfl
    | [x], _ => exact .inl ⟨x, rfl, by simp at hn; simpa using fun h => hn h.symm⟩

theorem lang_many_chr_iff {p : Char → Bool} {u : Str} : (many (.chr p)).Lang u ↔ ∀ x ∈ u, p x = true := by
  refine ⟨lang_star_chr, fun h => ⟨u.map fun y => [y], (flatten_singles u).symm, ?_⟩⟩
  intro y hy
  obtain ⟨z, hz, rfl⟩ := List.mem_map.1 hy
  exact ⟨z, rfl, h z hz⟩

theorem zeros_first {ds : Str} (h : ∀ d ∈ ds, asciiDigit d = true) (h0 : ∃ d ∈ ds, d ≠ '0') :
    ∃ zs d es, ds = zs ++ d :: es ∧ (∀ z ∈ zs, z = '0') ∧ d ≠ '0' ∧ asciiDigit d = true ∧ ∀ e ∈ es, asciiDigit e = true := by
  induction ds with
  | nil => obtain ⟨d, hd, _⟩ := h0; cases hd
  | cons x xs ih =>
    by_cases hx : x = '0'
    · obtain ⟨d, hd, hn⟩ := h0
      rcases List.mem_cons.1 hd with rfl | hd
      · exact absurd hx hn
      · obtain ⟨zs, d, es, rfl, h1, h2⟩ := ih (fun d hd => h d (by simp [hd])) ⟨d, hd, hn⟩
        refine ⟨x :: zs, d, es, rfl, ?_, h2⟩
        intro z hz
        rcases List.mem_cons.1 hz with rfl | hz
        · exact hx
        · exact h1 z hz
    · exact ⟨[], x, xs, rfl, by simp, hx, h x (by simp), fun e he => h e (by simp [he])⟩

theorem fracRe_iff (s : Str) : (reSearch fracRe s).isSome = true ↔ IsQuotient s := by
  constructor
  · intro h
    obtain ⟨t, ht⟩ := Option.isSome_iff_exists.1 h
    have hm := List.mem_of_head? (reSearch_bos ht)
    have hend := eos_last [.opt (.c '-'), .plus .num, .opt .dot, .c '/', .many (.c '0'),
      .chr (fun x => asciiDigit x && x != '0'), .many .num, .opt .dot] _ _ hm
    obtain ⟨u, e, sign, _, rfl, l1, num, _, rfl, l2, x, _, rfl, l3, sl, _, rfl, l4, zs, _, rfl, l5, dd, _, rfl, ⟨d, rfl, l6⟩,
      es, _, rfl, l7, y, _, rfl, l8, rfl⟩ := run_lang _ _ t hm
    obtain rfl := lang_c.1 l4
    have l2 := lang_plus_chr_iff.1 l2
    have l3 := lang_opt_dot.1 l3
    have l5 := lang_many_chr_iff.1 l5
    have l7 := lang_many_chr_iff.1 l7
    have l8 := lang_opt_dot.1 l8
    simp only [Bool.and_eq_true, bne_iff_ne, ne_eq] at l6
    refine ⟨sign, num, x, zs ++ d :: es, y, t.rest, by simpa using e, ?_, l2.1, l2.2, ?_, ⟨d, by simp, l6.2⟩, l3.1, l3.2, l8.1, l8.2, hend⟩
    · rcases l1 with l1 | l1
      · exact .inr (lang_c.1 l1)
      · exact .inl l1
    · intro z hz
      rcases List.mem_append.1 hz with hz | hz
      · have := l5 z hz
        simp only [beq_iff_eq] at this
        subst this; decide
      · rcases List.mem_cons.1 hz with rfl | hz
        · exact l6.1
        · exact l7 z hz
  · rintro ⟨sign, num, x, den, y, nl, rfl, h1, h2, h3, h4, h5, h6, h7, h8, h9, h10⟩
    obtain ⟨zs, d, es, rfl, k1, k2, k3, k4⟩ := zeros_first h4 h5
    have hl : (cat [.opt (.c '-'), .plus .num, .opt .dot, .c '/', .many (.c '0'),
        .chr (fun x => asciiDigit x && x != '0'), .many .num, .opt .dot, .eos]).Lang
        (sign ++ (num ++ (x ++ (['/'] ++ (zs ++ ([d] ++ (es ++ (y ++ [])))))))) := by
      refine ⟨_, _, rfl, ?_, _, _, rfl, lang_plus_chr_iff.2 ⟨h2, h3⟩, _, _, rfl, lang_opt_dot.2 ⟨h6, h7⟩, _, _, rfl, lang_c.2 rfl,
        _, _, rfl, lang_many_chr_iff.2 ?_, _, _, rfl, ⟨d, rfl, by simp [k2, k3]⟩, _, _, rfl, lang_many_chr_iff.2 k4,
        _, _, rfl, lang_opt_dot.2 ⟨h8, h9⟩, rfl⟩
      · rcases h1 with rfl | rfl
        · exact .inr rfl
        · exact .inl (lang_c.2 rfl)
      · intro z hz; simp [k1 z hz]
    obtain ⟨t, h, _⟩ := run_complete_tail _ (by simp [Re.cat, Re.Tail, Re.Plain, Re.c, Re.plus, Re.num, Re.opt, Re.dot, Re.many]) _ hl
      ⟨[], sign ++ num ++ x ++ ['/'] ++ (zs ++ d :: es) ++ y ++ nl, []⟩ nl h10 (by simp)
    rw [Option.isSome_iff_ne_none]
    intro hn
    have hn := (searchFrom_none_iff _ [] _).1 hn [] _ rfl
    rw [Re.matchAt, List.head?_eq_none_iff] at hn
    have : t ∈ fracRe.run ⟨[], sign ++ num ++ x ++ ['/'] ++ (zs ++ d :: es) ++ y ++ nl, []⟩ := by
      change t ∈ (Re.seq .bos _).run _
      rw [run_seq, List.mem_flatMap]
      exact ⟨⟨[], _, []⟩, by simp, h⟩
    rw [show fracRe.run ⟨[], sign ++ num ++ x ++ ['/'] ++ (zs ++ d :: es) ++ y ++ nl, []⟩ = [] from hn] at this
    cases this

/-- **C101**, `_is_frac`: a text counts as a fraction exactly if it does not contain `matrix` and is a quotient of numerals or contains
one of the letters `f`, `r`, `a`, `c`. -/
theorem C101_fraction_partial (s : Str) : isFrac s = true ↔
    ¬ s%"matrix" <:+: s ∧ (IsQuotient s ∨ 'f' ∈ s ∨ 'r' ∈ s ∨ 'a' ∈ s ∨ 'c' ∈ s) := by
  have h : (reSearch fracCharRe s).isSome = true ↔ 'f' ∈ s ∨ 'r' ∈ s ∨ 'a' ∈ s ∨ 'c' ∈ s := by
    rw [reSearch_plain (by simp [fracCharRe, Re.oneOf, Re.Plain])]
    constructor
    · rintro ⟨_, ⟨x, rfl, hx⟩, hi⟩
      have hm : x ∈ s := hi.subset (by simp)
      simp only [List.contains_iff_mem, List.mem_cons, List.not_mem_nil, or_false] at hx
      rcases hx with rfl | rfl | rfl | rfl
      · exact .inl hm
      · exact .inr (.inl hm)
      · exact .inr (.inr (.inl hm))
      · exact .inr (.inr (.inr hm))
    · have key : ∀ x, x ∈ s%"frac" → x ∈ s → ∃ u, fracCharRe.Lang u ∧ u <:+: s := by
        intro x hx hm
        obtain ⟨a, b, rfl⟩ := List.append_of_mem hm
        exact ⟨[x], ⟨x, rfl, by simpa using hx⟩, a, b, by simp⟩
      rintro (h | h | h | h) <;> exact key _ (by simp) h
  unfold isFrac
  rw [Bool.and_eq_true, Bool.or_eq_true, fracRe_iff, h, Bool.not_eq_true', Bool.eq_false_iff, ne_eq, contains_iff]

example : isFrac s%"-3/4" = true ∧ isFrac s%"1/0" = false ∧ isFrac s%"\\frac{1}{2}" = true ∧ isFrac s%"12" = false := by
  refine ⟨?_, ?_, ?_, ?_⟩ <;> kernel_rfl

/-- **C101**, the full claim, that what `_is_frac` accepts is a fraction, fails: `[frac]` is a class of letters, so every text with an
`a` or a `c` is accepted. -/
theorem C101_fraction_refuted : isFrac s%"cat" = true ∧ isFrac s%"\\tan x" = true ∧ ¬ s%"frac" <:+: s%"cat" ∧ '/' ∉ s%"cat" := by
  refine ⟨by kernel_rfl, by kernel_rfl, by decide, by decide⟩

/-- **C101**, `_str_to_mat` is the translation of LaTeX and nothing else. -/
theorem C101_matrix (E : Env X V S) (s : Str) : strToMat E s = M.ext (E.l2s s) := rfl

end Verif
