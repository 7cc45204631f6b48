import Verif.Model.Normalize
import Verif.Py.RegexLemmas
import Verif.Spec.Toy
import Verif.Py.NumLemmas
/-
Properties C34-C36: `split_tuple`.
-/

namespace Verif

/-! ### Specification vocabulary -/

def isOpen (c : Char) : Bool := c == '[' || c == '(' || c == '{'
def isClose (c : Char) : Bool := c == ']' || c == ')' || c == '}'

/-- Openers minus closers. -/
def depth (s : Str) : Int := (s.countP isOpen : Int) - (s.countP isClose : Int)

/-- A comma directly after a digit and directly before (an optional blank and) three digits: what the
regular expression of `_strip_properly_formatted_commas` may take for a thousands separator. -/
def ThousandsComma (U : Uni) (s : Str) : Prop :=
  ∃ a x y z₁ z₂ z₃ b, s = a ++ x :: ',' :: (y ++ z₁ :: z₂ :: z₃ :: b) ∧
    isDigit U x = true ∧ isDigit U z₁ = true ∧ isDigit U z₂ = true ∧ isDigit U z₃ = true ∧
    (y = [] ∨ y = [' '])

/-- A piece between two commas: brackets match up (no closer before its opener), no comma outside
brackets, no surrounding white space. -/
structure Element (e : Str) : Prop where
  nonneg : ∀ a b, e = a ++ b → 0 ≤ depth a
  balanced : depth e = 0
  commas : ∀ a b, e = a ++ ',' :: b → depth a ≠ 0
  stripped : strip e = e

/-! ### Depth -/

theorem depth_nil : depth [] = 0 := rfl
theorem depth_append (a b : Str) : depth (a ++ b) = depth a + depth b := by
  simp [depth]; omega
theorem depth_cons (c : Char) (s : Str) : depth (c :: s) = bracketDelta c + depth s := by
  have : bracketDelta c = depth [c] := by
    simp only [depth, bracketDelta, List.countP_cons, List.countP_nil, isOpen, isClose]
    split <;> split <;> simp_all
  rw [this, ← depth_append]; rfl

theorem depth_comma : bracketDelta ',' = 0 := by decide

/-! ### Substitutions that only touch certain characters -/

theorem scanSub_filter (p : Char → Bool) (m : Str → Str → Option (Nat × Str))
    (h : ∀ pre rest k r, m pre rest = some (k, r) → r.filter p = (rest.take k).filter p)
    (k : Nat) (pre s : Str) : (scanSub m k pre s).filter p = (s.drop k).filter p := by
  induction s generalizing k pre with
  | nil =>
    cases k with
    | zero =>
      simp only [scanSub]
      cases hm : m pre [] with
      | none => simp
      | some kr => obtain ⟨k, r⟩ := kr; simp only; rw [h _ _ _ _ hm]; simp
    | succ k => simp [scanSub]
  | cons c cs ih =>
    cases k with
    | succ k => simp only [scanSub, List.drop_succ_cons]; exact ih k _
    | zero =>
      simp only [scanSub]
      cases hm : m pre (c :: cs) with
      | none =>
        simp only [List.drop_zero]
        rw [List.filter_cons, List.filter_cons, ih 0]; rfl
      | some kr =>
        obtain ⟨k, r⟩ := kr
        have hr := h _ _ _ _ hm
        cases k with
        | zero =>
          simp only [List.take_zero, List.filter_nil] at hr
          simp only [List.drop_zero, List.filter_append, hr, List.nil_append]
          rw [List.filter_cons, List.filter_cons, ih 0]; rfl
        | succ k =>
          simp only [List.drop_zero, List.filter_append, hr]
          rw [ih k, List.take_succ_cons, List.filter_cons]
          rw [List.filter_cons (xs := cs)]
          have hcs : cs.filter p = (cs.take k).filter p ++ (cs.drop k).filter p := by
            rw [← List.filter_append, List.take_append_drop]
          rw [hcs]
          by_cases hc : p c = true <;> simp [hc]

theorem reSub_filter (p : Char → Bool) (r : Re) (f : Str → RSt → Str)
    (h : ∀ m t, (f m t).filter p = m.filter p) (s : Str) : (reSub r f s).filter p = s.filter p := by
  unfold reSub
  rw [scanSub_filter p]
  · simp
  · intro pre rest k r' hm
    unfold Re.scanner at hm
    split at hm
    · simp only [Option.some.injEq, Prod.mk.injEq] at hm
      rw [← hm.2, h, hm.1]
    · cases hm

theorem replace_comma_filter (s : Str) : replace s%"," [] s = s.filter (· ≠ ',') := by
  unfold replace
  have : ∀ pre : Str, scanSub (fun _ rest => if (s%",").isPrefixOf rest then some ((s%",").length, []) else none)
      0 pre s = s.filter (· ≠ ',') := by
    induction s with
    | nil => intro pre; simp [scanSub]
    | cons c cs ih =>
      intro pre
      by_cases h : ',' = c
      · subst h
        have := ih (',' :: pre)
        simp [scanSub] at this ⊢
        exact this
      · have h' : ¬ c = ',' := fun h' => h h'.symm
        have := ih (c :: pre)
        simp [scanSub, h, h'] at this ⊢
        exact this
  exact this []

/-- Only commas are removed. -/
theorem stripCommas_filter (U : Uni) (s : Str) :
    (stripCommas U s).filter (· ≠ ',') = s.filter (· ≠ ',') := by
  apply reSub_filter
  intro m _
  rw [replace_comma_filter, List.filter_filter]
  simp

theorem depth_filter (s : Str) : depth (s.filter (· ≠ ',')) = depth s := by
  induction s with
  | nil => rfl
  | cons c cs ih =>
    by_cases h : c = ','
    · subst h; simp only [ne_eq, not_true, decide_false, Bool.false_eq_true, not_false_eq_true,
        List.filter_cons_of_neg]
      rw [depth_cons, depth_comma, ← ih]; simp
    · rw [List.filter_cons_of_pos (by simpa using h), depth_cons, depth_cons, ih]

theorem depth_stripCommas (U : Uni) (s : Str) : depth (stripCommas U s) = depth s := by
  rw [← depth_filter, stripCommas_filter, depth_filter]

theorem scanBrackets_fst (cnt : Int) (rp : Bool) (s : Str) :
    (scanBrackets cnt rp s).1 = cnt + depth s := by
  induction s generalizing cnt rp with
  | nil => simp [scanBrackets, depth_nil]
  | cons c cs ih => simp only [scanBrackets]; rw [ih, depth_cons]; omega

/-! ### C35 -/

/-- **C35**.  `split_tuple` raises exactly when the number of opening brackets `[({` differs from the number
of closing brackets `])}`, whatever their order. -/
theorem C35_split_tuple_raises_iff (U : Uni) (ord : List Str → List Str) (s : Str)
    (expected : Option RetType) :
    (∃ e, splitTuple U ord s expected = .error e) ↔ s.countP isOpen ≠ s.countP isClose := by
  have hd : (scanBrackets 0 true (stripCommas U s)).1 = depth s := by
    rw [scanBrackets_fst, depth_stripCommas]; omega
  have hiff : (scanBrackets 0 true (stripCommas U s)).1 ≠ 0 ↔ s.countP isOpen ≠ s.countP isClose := by
    rw [hd]; unfold depth; omega
  rw [← hiff]
  unfold splitTuple
  simp only
  generalize scanBrackets 0 true (stripCommas U s) = q
  obtain ⟨cnt, rp⟩ := q
  by_cases hc : cnt = 0
  · simp only [hc, ne_eq, not_true, if_false]
    constructor
    · rintro ⟨e, he⟩
      exfalso
      split at he
      · split at he <;> cases he
      · cases he
    · intro h; exact h.elim
  · simp only [ne_eq, hc, not_false_eq_true, if_true]
    simp

example : splitTuple asciiUni id s%"(1,2" none = .error .assertionError := by decide +kernel
example : splitTuple asciiUni id s%")1,2(" none = .ok (.str s%")1,2(") := by decide +kernel

/-! ### Commas that are not thousands separators stay -/

theorem run_d13 (U : Uni) (s t : RSt) (h : t ∈ (d13 U).run s) :
    ∃ u x, s.rest = u ++ x :: t.rest ∧ isDigit U x = true := by
  have hchr : ∀ (s t : RSt), t ∈ (Re.d U).run s → ∃ x, s.rest = x :: t.rest ∧ isDigit U x = true := by
    intro s t h
    cases s with
    | mk pre rest caps =>
      cases rest with
      | nil => simp [Re.d] at h
      | cons c cs =>
        simp only [Re.d, run_chr_cons] at h
        split at h
        · simp at h; subst h; exact ⟨c, rfl, by assumption⟩
        · simp at h
  unfold d13 at h
  simp only [run_seq, run_alt, run_eps, List.mem_flatMap, List.mem_append, List.mem_singleton] at h
  obtain ⟨t₁, h₁, h | h⟩ := h
  · obtain ⟨t₂, h₂, h | h⟩ := h
    · obtain ⟨x₁, e₁, _⟩ := hchr _ _ h₁
      obtain ⟨x₂, e₂, _⟩ := hchr _ _ h₂
      obtain ⟨x₃, e₃, d₃⟩ := hchr _ _ h
      exact ⟨[x₁, x₂], x₃, by rw [e₁, e₂, e₃]; rfl, d₃⟩
    · subst h
      obtain ⟨x₁, e₁, _⟩ := hchr _ _ h₁
      obtain ⟨x₂, e₂, d₂⟩ := hchr _ _ h₂
      exact ⟨[x₁], x₂, by rw [e₁, e₂]; rfl, d₂⟩
  · subst h
    obtain ⟨x₁, e₁, d₁⟩ := hchr _ _ h₁
    exact ⟨[], x₁, by rw [e₁]; rfl, d₁⟩

theorem run_chr_mem (p : Char → Bool) (s t : RSt) (h : t ∈ (Re.chr p).run s) :
    ∃ x, s.rest = x :: t.rest ∧ p x = true ∧ t.pre = x :: s.pre ∧ t.caps = s.caps := by
  cases s with
  | mk pre rest caps =>
    cases rest with
    | nil => simp at h
    | cons c cs =>
      simp only [run_chr_cons] at h
      split at h
      · simp at h; subst h; exact ⟨c, rfl, by assumption, rfl, rfl⟩
      · simp at h

theorem run_commasRe (U : Uni) (s : RSt) (h : (commasRe U).run s ≠ []) :
    ∃ u x y z₁ z₂ z₃ b, s.rest = u ++ x :: ',' :: (y ++ z₁ :: z₂ :: z₃ :: b) ∧
      isDigit U x = true ∧ isDigit U z₁ = true ∧ isDigit U z₂ = true ∧ isDigit U z₃ = true ∧
      (y = [] ∨ y = [' ']) := by
  obtain ⟨t, ht⟩ := List.exists_mem_of_ne_nil _ h
  unfold commasRe Re.plus at ht
  simp only [run_seq, List.mem_flatMap, Re.cat, Re.opt, run_alt, run_eps, List.mem_append,
    List.mem_singleton] at ht
  obtain ⟨t₁, h₁, t₂, ⟨t₃, h₃, t₄, h₄, t₅, h₅, t₆, h₆, h₇⟩, -⟩ := ht
  obtain ⟨u, x, e₁, dx⟩ := run_d13 U _ _ h₁
  obtain ⟨c, e₃, hc, -⟩ := run_chr_mem _ _ _ h₃
  obtain ⟨z₁, e₅, d₁, -⟩ := run_chr_mem _ _ _ h₅
  obtain ⟨z₂, e₆, d₂, -⟩ := run_chr_mem _ _ _ h₆
  obtain ⟨z₃, e₇, d₃, -⟩ := run_chr_mem _ _ _ h₇
  have hc' : c = ',' := by simpa using hc
  subst hc'
  rcases h₄ with h₄ | h₄
  · obtain ⟨b, e₄, hb, -⟩ := run_chr_mem _ _ _ h₄
    have hb' : b = ' ' := by simpa using hb
    subst hb'
    exact ⟨u, x, [' '], z₁, z₂, z₃, t₂.rest, by rw [e₁, e₃, e₄, e₅, e₆, e₇]; rfl, dx, d₁, d₂, d₃,
      Or.inr rfl⟩
  · subst h₄
    exact ⟨u, x, [], z₁, z₂, z₃, t₂.rest, by rw [e₁, e₃, e₅, e₆, e₇]; rfl, dx, d₁, d₂, d₃,
      Or.inl rfl⟩

theorem stripCommas_id (U : Uni) (s : Str) (h : ¬ ThousandsComma U s) : stripCommas U s = s := by
  apply scanSub_id
  intro a b hab
  have : (commasRe U).run ⟨a.reverse ++ [], b, []⟩ = [] := by
    apply Classical.byContradiction
    intro hne
    obtain ⟨u, x, y, z₁, z₂, z₃, b', e, r⟩ := run_commasRe U _ hne
    simp only at e
    exact h ⟨a ++ u, x, y, z₁, z₂, z₃, b', by rw [hab, e]; simp, r⟩
  simp [Re.scanner, Re.matchAt] at this ⊢
  simp [this]

/-! ### C34 -/

theorem splitLoop_piece (cnt : Int) (stack e rest : Str)
    (h : ∀ a b, e = a ++ ',' :: b → cnt + depth a ≠ 0) :
    splitLoop cnt stack (e ++ rest) = splitLoop (cnt + depth e) (e.reverse ++ stack) rest := by
  induction e generalizing cnt stack with
  | nil => simp [depth_nil]
  | cons c cs ih =>
    have hno : (c == ',' && cnt == 0) = false := by
      by_cases hc : c = ','
      · subst hc
        have := h [] cs rfl
        rw [depth_nil] at this
        have : ¬ cnt = 0 := by omega
        simp [this]
      · simp [hc]
    rw [List.cons_append, splitLoop]
    simp only [hno, Bool.false_eq_true, if_false]
    rw [ih]
    · rw [depth_cons]
      have : cnt + bracketDelta c + depth cs = cnt + (bracketDelta c + depth cs) := by omega
      rw [this]; simp
    · intro a b hab
      have := h (c :: a) b (by rw [hab]; rfl)
      rw [depth_cons] at this
      omega

theorem splitLoop_join (es : List Str) (hes : ∀ e ∈ es, Element e) (hlast : es.getLast? ≠ some [])
    : splitLoop 0 [] (join s%"," es) = es := by
  induction es with
  | nil => rfl
  | cons e es ih =>
    have he := hes e (by simp)
    cases es with
    | nil =>
      have hne : e ≠ [] := by intro h; subst h; simp at hlast
      have := splitLoop_piece 0 [] e [] (by intro a b hab; have := he.commas a b hab; omega)
      simp only [join, List.append_nil] at this ⊢
      rw [this]
      simp [splitLoop, hne, he.stripped]
    | cons e' es =>
      have := splitLoop_piece 0 [] e (s%"," ++ join s%"," (e' :: es))
        (by intro a b hab; have := he.commas a b hab; omega)
      simp only [join, List.append_assoc] at this ⊢
      rw [this, he.balanced]
      simp only [List.cons_append, List.nil_append, splitLoop, List.append_nil]
      simp only [beq_self_eq_true, Int.add_zero, Bool.and_self, if_true, List.reverse_reverse,
        he.stripped]
      rw [ih (fun x hx => hes x (by simp [hx])) (by simpa using hlast)]

/-- `remove_parenthesis` survives exactly when the counter is non-zero after every proper non-empty prefix. -/
theorem scanBrackets_snd (cnt : Int) (rp : Bool) (s : Str) :
    (scanBrackets cnt rp s).2 = true ↔
      rp = true ∧ ∀ a c b, s = a ++ c :: b → b ≠ [] → cnt + depth (a ++ [c]) ≠ 0 := by
  induction s generalizing cnt rp with
  | nil => simp [scanBrackets]
  | cons x xs ih =>
    simp only [scanBrackets]
    rw [ih]
    constructor
    · rintro ⟨h1, h2⟩
      by_cases hz : (cnt + bracketDelta x == 0 && !xs.isEmpty) = true
      · rw [if_pos hz] at h1; cases h1
      · rw [if_neg hz] at h1
        refine ⟨h1, ?_⟩
        intro a c b hab hb
        cases a with
        | nil =>
          simp at hab
          obtain ⟨rfl, rfl⟩ := hab
          intro h0
          apply hz
          rw [List.nil_append, depth_cons, depth_nil] at h0
          have : cnt + bracketDelta x = 0 := by omega
          cases xs with
          | nil => exact absurd rfl hb
          | cons _ _ => simp [this]
        | cons y ys =>
          simp at hab
          obtain ⟨rfl, hxs⟩ := hab
          have := h2 ys c b hxs hb
          rw [List.cons_append, depth_cons]; omega
    · rintro ⟨h1, h2⟩
      constructor
      · by_cases hz : (cnt + bracketDelta x == 0 && !xs.isEmpty) = true
        · exfalso
          simp only [Bool.and_eq_true, beq_iff_eq, Bool.not_eq_true'] at hz
          have := h2 [] x xs rfl (by intro h; subst h; simp at hz)
          rw [List.nil_append, depth_cons, depth_nil] at this
          omega
        · rw [if_neg hz]; exact h1
      · intro a c b hab hb
        have := h2 (x :: a) c b (by rw [hab]; rfl) hb
        rw [List.cons_append, depth_cons] at this; omega

theorem join_depth (es : List Str) (hes : ∀ e ∈ es, Element e) : depth (join s%"," es) = 0 := by
  induction es with
  | nil => rfl
  | cons e es ih =>
    cases es with
    | nil => exact (hes e (by simp)).balanced
    | cons e' es =>
      simp only [join]
      rw [depth_append, depth_append, ih (fun x hx => hes x (by simp [hx])), (hes e (by simp)).balanced]
      decide

theorem prefix_of_append {a b x y : Str} (h : a ++ b = x ++ y) :
    (∃ z, a = x ++ z ∧ y = z ++ b) ∨ (∃ z, x = a ++ z ∧ b = z ++ y) := by
  rcases List.append_eq_append_iff.1 h with ⟨z, h1, h2⟩ | ⟨z, h1, h2⟩
  · exact Or.inr ⟨z, h1, h2⟩
  · exact Or.inl ⟨z, h1, h2⟩

theorem join_nonneg (es : List Str) (hes : ∀ e ∈ es, Element e) :
    ∀ a b, join s%"," es = a ++ b → 0 ≤ depth a := by
  induction es with
  | nil =>
    intro a b h
    have := List.append_eq_nil_iff.1 (show a ++ b = [] from h.symm)
    rw [this.1]; decide
  | cons e es ih =>
    cases es with
    | nil => intro a b h; exact (hes e (by simp)).nonneg a b h
    | cons e' es =>
      intro a b h
      simp only [join] at h
      rcases prefix_of_append h with ⟨z, h1, h2⟩ | ⟨z, h1, h2⟩
      · rcases prefix_of_append h1 with ⟨z', h3, h4⟩ | ⟨z', h3, h4⟩
        · exact (hes e (by simp)).nonneg a z' h3
        · rw [h3, depth_append, (hes e (by simp)).balanced]
          cases z' with
          | nil => decide
          | cons c cs =>
            simp at h4
            obtain ⟨rfl, hnil⟩ := h4
            rw [hnil.1]; decide
      · rw [h1, depth_append, depth_append, (hes e (by simp)).balanced]
        have := ih (fun x hx => hes x (by simp [hx])) z b h2
        have h' : depth s%"," = 0 := by decide
        rw [h']; omega

/-- Closing brackets of each kind. -/
inductive Bracket where
  | square | round | curly
deriving DecidableEq, Repr

def Bracket.open : Bracket → Char | .square => '[' | .round => '(' | .curly => '{'
def Bracket.close : Bracket → Char | .square => ']' | .round => ')' | .curly => '}'
/-- The kind of container that a kind of bracket stands for. -/
def Bracket.wrap (ord : List Str → List Str) : Bracket → List Str → Elems
  | .square, es => .list es
  | .round, es => .tuple es
  | .curly, es => .set (ord es)

theorem delta_open (b : Bracket) : bracketDelta b.open = 1 := by cases b <;> decide
theorem delta_close (b : Bracket) : bracketDelta b.close = -1 := by cases b <;> decide

theorem join_length (es : List Str) (h2 : 2 ≤ es.length) : 1 ≤ (join s%"," es).length := by
  match es, h2 with
  | _ :: _ :: _, _ => simp [join]; omega

/-- The container built for a given `expected_type`. -/
def RetType.wrap (ord : List Str → List Str) : RetType → List Str → Elems
  | .list, es => .list es
  | .tuple, es => .tuple es
  | .set, es => .set (ord es)

/-- the default `return_type` of a kind of bracket -/
def Bracket.ret : Bracket → RetType
  | .square => .list | .round => .tuple | .curly => .set

/-- What `split_tuple` does with `n ≥ 1` elements between matching brackets. -/
theorem splitTuple_bracketed (U : Uni) (ord : List Str → List Str) (br : Bracket) (es : List Str)
    (expected : Option RetType) (hlen : 1 ≤ (join s%"," es).length) (hes : ∀ e ∈ es, Element e) (hlast : es.getLast? ≠ some [])
    (hth : ¬ ThousandsComma U (br.open :: (join s%"," es ++ [br.close]))) :
    splitTuple U ord (br.open :: (join s%"," es ++ [br.close])) expected =
      .ok (if 1 < es.length then (expected.getD br.ret).wrap ord es else .str (join s%"," es)) := by
  have hj := join_depth es hes
  have hn := join_nonneg es hes
  have hcnt : (scanBrackets 0 true (br.open :: (join s%"," es ++ [br.close]))).1 = 0 := by
    rw [scanBrackets_fst, depth_cons, depth_append, hj, depth_cons, depth_nil, delta_open, delta_close]
    omega
  have hrp : (scanBrackets 0 true (br.open :: (join s%"," es ++ [br.close]))).2 = true := by
    rw [scanBrackets_snd]
    refine ⟨rfl, ?_⟩
    intro a c b hab hb
    have hpre : ∃ b', join s%"," es ++ [br.close] = (a ++ [c]).tail ++ b' ∧ b' = b ∧
        a ++ [c] = br.open :: (a ++ [c]).tail := by
      cases a with
      | nil =>
        simp at hab
        obtain ⟨h1, h2⟩ := hab
        exact ⟨b, by simpa using h2, rfl, by simp [h1]⟩
      | cons y ys =>
        simp at hab
        obtain ⟨h1, h2⟩ := hab
        exact ⟨b, by simpa using h2, rfl, by simp [h1]⟩
    obtain ⟨b', h1, h2', h3⟩ := hpre
    subst h2'
    rw [h3, depth_cons, delta_open]
    rcases prefix_of_append h1 with ⟨z, h4, h5⟩ | ⟨z, h4, h5⟩
    · have := hn _ _ h4
      omega
    · cases z with
      | nil =>
        rw [h4]; simp only [List.append_nil]; rw [hj]; omega
      | cons y ys =>
        simp at h5
        have : b' = [] := h5.2.2
        exact absurd this hb
  have hs : scanBrackets 0 true (br.open :: (join s%"," es ++ [br.close])) = (0, true) :=
    Prod.ext hcnt hrp
  have hlen : 2 < (br.open :: (join s%"," es ++ [br.close])).length := by
    simp; omega
  have hlast' : (br.open :: (join s%"," es ++ [br.close])).getLast? = some br.close := by
    rw [← List.cons_append, List.getLast?_append]; rfl
  have hmid : ((br.open :: (join s%"," es ++ [br.close])).drop 1).dropLast = join s%"," es := by
    simp
  have hsl := splitLoop_join es hes hlast
  have hpeel : peelBrackets true (br.open :: (join s%"," es ++ [br.close])) =
      (join s%"," es, br.ret) := by
    unfold peelBrackets
    simp only [hlen, decide_true, Bool.and_self, if_true, List.head?_cons, hlast', hmid]
    cases br <;> rfl
  unfold splitTuple
  rw [stripCommas_id U _ hth]
  simp only [hs, ne_eq, not_true, if_false, hpeel, hsl]
  split
  · cases expected.getD br.ret <;> rfl
  · rfl

/-- **C34**, bracketed: `n ≥ 2` elements between matching brackets are recovered in order, with the kind of
bracket. -/
theorem C34_split_bracketed (U : Uni) (ord : List Str → List Str) (br : Bracket) (es : List Str)
    (h2 : 2 ≤ es.length) (hes : ∀ e ∈ es, Element e) (hlast : es.getLast? ≠ some [])
    (hth : ¬ ThousandsComma U (br.open :: (join s%"," es ++ [br.close]))) :
    splitTuple U ord (br.open :: (join s%"," es ++ [br.close])) none = .ok (br.wrap ord es) := by
  rw [splitTuple_bracketed U ord br es none (join_length es h2) hes hlast hth, if_pos (by omega)]
  cases br <;> rfl

/-- **C34**, without brackets: the elements are recovered, as a set. -/
theorem C34_split_unbracketed (U : Uni) (ord : List Str → List Str) (es : List Str)
    (h2 : 2 ≤ es.length) (hes : ∀ e ∈ es, Element e) (hlast : es.getLast? ≠ some [])
    (hth : ¬ ThousandsComma U (join s%"," es)) :
    splitTuple U ord (join s%"," es) none = .ok (.set (ord es)) := by
  have hj := join_depth es hes
  have hcnt : (scanBrackets 0 true (join s%"," es)).1 = 0 := by
    rw [scanBrackets_fst, hj]; rfl
  have hrp : (scanBrackets 0 true (join s%"," es)).2 = false := by
    rw [Bool.eq_false_iff, ne_eq, scanBrackets_snd]
    rintro ⟨-, h⟩
    match es, h2, hes, hlast, h with
    | e :: e' :: rest, _, hes, hlast, h =>
      apply h e ',' (join s%"," (e' :: rest)) (by simp [join])
      · intro hnil
        cases rest with
        | nil => simp only [join] at hnil; subst hnil; simp at hlast
        | cons _ _ => simp [join] at hnil
      · rw [depth_append, (hes e (by simp)).balanced]; decide
  have hs : scanBrackets 0 true (join s%"," es) = (0, false) := Prod.ext hcnt hrp
  have hsl := splitLoop_join es hes hlast
  have h1 : 1 < es.length := by omega
  have hpeel : peelBrackets false (join s%"," es) = (join s%"," es, .set) := by
    simp [peelBrackets]
  unfold splitTuple
  rw [stripCommas_id U _ hth]
  simp only [hs, ne_eq, not_true, if_false, hpeel, Option.getD_none, hsl, h1, if_true]

theorem Element.of_plain (e : Str) (h : ∀ c ∈ e, isOpen c = false ∧ isClose c = false ∧ c ≠ ',')
    (hs : strip e = e) : Element e := by
  have h0 : ∀ a : Str, (∀ c ∈ a, isOpen c = false ∧ isClose c = false) → depth a = 0 := by
    intro a ha
    have h1 : a.countP isOpen = 0 := by
      rw [List.countP_eq_zero]; intro c hc; simp [(ha c hc).1]
    have h2 : a.countP isClose = 0 := by
      rw [List.countP_eq_zero]; intro c hc; simp [(ha c hc).2]
    unfold depth; omega
  refine ⟨?_, ?_, ?_, hs⟩
  · intro a b hab
    have := h0 a fun c hc => ⟨(h c (by rw [hab]; simp [hc])).1, (h c (by rw [hab]; simp [hc])).2.1⟩
    omega
  · exact h0 e fun c hc => ⟨(h c hc).1, (h c hc).2.1⟩
  · intro a b hab
    exact absurd rfl (h ',' (by rw [hab]; simp)).2.2

/-- Decidable form of `Element`, for concrete strings. -/
def elementB (e : Str) : Bool :=
  (List.range (e.length + 1)).all (fun k => decide (0 ≤ depth (e.take k)) &&
    (decide (depth (e.take k) ≠ 0) || (e.drop k).head? != some ',')) &&
  decide (depth e = 0) && decide (strip e = e)

theorem element_of_elementB (e : Str) (h : elementB e = true) : Element e := by
  simp only [elementB, Bool.and_eq_true, List.all_eq_true, List.mem_range, decide_eq_true_eq,
    Bool.or_eq_true, bne_iff_ne, ne_eq] at h
  obtain ⟨⟨h1, h2⟩, h3⟩ := h
  refine ⟨?_, h2, ?_, h3⟩
  · intro a b hab
    have := (h1 a.length (by rw [hab]; simp; omega)).1
    rw [hab] at this; simpa using this
  · intro a b hab
    have := (h1 a.length (by rw [hab]; simp; omega)).2
    rw [hab] at this
    simpa using this

theorem not_thousands_of_no_digit (U : Uni) (s : Str) (h : ∀ c ∈ s, isDigit U c = false) :
    ¬ ThousandsComma U s := by
  rintro ⟨a, x, y, z₁, z₂, z₃, b, hs, hx, -⟩
  have := h x (by rw [hs]; simp)
  rw [hx] at this; cases this

example : Element s%"(x,y)" := element_of_elementB _ (by decide)
example : splitTuple asciiUni id s%"{(x,y),z}" none = .ok (.set [s%"(x,y)", s%"z"]) :=
  C34_split_bracketed asciiUni id .curly [s%"(x,y)", s%"z"] (by decide)
    (by intro e he; exact element_of_elementB e (by revert he e; decide)) (by decide)
    (not_thousands_of_no_digit _ _ (by decide))
example : splitTuple asciiUni id s%"[(x,y),z]" none = .ok (.list [s%"(x,y)", s%"z"]) := by
  decide +kernel
/-- a trailing empty element is lost: the hypothesis on the last element is needed -/
example : splitTuple asciiUni id s%"[1,2,]" none = .ok (.list [s%"1", s%"2"]) := by decide +kernel

/-! ### C36 -/

theorem join_comma_split (es : List Str) (hes : ∀ e ∈ es, ',' ∉ e) (p q : Str)
    (h : join s%"," es = p ++ ',' :: q) :
    ∃ es₁ e es₂, es = es₁ ++ e :: es₂ ∧ es₁ ≠ [] ∧ p = join s%"," es₁ ∧ q = join s%"," (e :: es₂) := by
  induction es generalizing p with
  | nil => exact absurd h.symm (by simp [join])
  | cons e es ih =>
    cases es with
    | nil => exact absurd (show ',' ∈ e by simp only [join] at h; rw [h]; simp) (hes e (by simp))
    | cons e' es =>
      simp only [join, List.append_assoc] at h
      rcases prefix_of_append h with ⟨z, h1, h2⟩ | ⟨z, h1, h2⟩
      · cases z with
        | nil =>
          simp only [List.append_nil, List.nil_append, List.cons_append, List.cons.injEq, true_and] at h1 h2
          exact ⟨[e], e', es, rfl, by simp, by rw [← h1]; rfl, h2⟩
        | cons x xs =>
          simp at h2
          exact absurd (show ',' ∈ e by rw [h1, h2.1]; simp) (hes e (by simp))
      · cases z with
        | nil =>
          simp only [List.append_nil, List.nil_append, List.cons_append, List.cons.injEq, true_and] at h1 h2
          exact ⟨[e], e', es, rfl, by simp, by rw [h1]; rfl, h2.symm⟩
        | cons x xs =>
          simp only [List.cons_append, List.nil_append, List.cons.injEq] at h2
          obtain ⟨rfl, h3⟩ := h2
          obtain ⟨es₁, f, es₂, h4, h5, h6, h7⟩ := ih (fun x hx => hes x (by simp [hx])) xs h3
          refine ⟨e :: es₁, f, es₂, by rw [h4]; rfl, by simp, ?_, h7⟩
          rw [h1, h6]
          cases es₁ with
          | nil => exact absurd rfl h5
          | cons _ _ => simp [join]

theorem strip_of_no_space (e : Str) (h : ∀ c ∈ e, isSpace c = false) : strip e = e := by
  obtain ⟨l, r, h1, h2, h3⟩ := stripBy_spec isSpace e
  have hl : l = [] := by
    cases l with
    | nil => rfl
    | cons c cs =>
      have := h c (by rw [h1]; simp)
      simp [this] at h2
  have hr : r = [] := by
    cases r with
    | nil => rfl
    | cons c cs =>
      have := h c (by rw [h1]; simp)
      simp [this] at h3
  subst hl; subst hr
  simpa [strip] using h1.symm

/-- the characters of printed integers -/
theorem intStr_plain (z : Int) : ∀ c ∈ intStr z, isOpen c = false ∧ isClose c = false ∧ c ≠ ',' ∧
    isSpace c = false ∧ c ≠ ' ' := by
  intro c hc
  have key : ∀ n : Nat, n < 128 → (48 ≤ n ∧ n ≤ 57) ∨ n = 45 →
      isOpen (Char.ofNat n) = false ∧ isClose (Char.ofNat n) = false ∧ Char.ofNat n ≠ ',' ∧
    isSpace (Char.ofNat n) = false ∧ Char.ofNat n ≠ ' ' := by decide
  have := key c.toNat
  rw [Char.ofNat_toNat] at this
  rcases intStr_chars z c hc with h | h
  · simp only [asciiDigit, decide_eq_true_eq] at h
    exact this (by omega) (Or.inl h)
  · subst h; decide

theorem intStr_element (z : Int) : Element (intStr z) :=
  Element.of_plain _ (fun c hc => by have := intStr_plain z c hc; exact ⟨this.1, this.2.1, this.2.2.1⟩)
    (strip_of_no_space _ fun c hc => (intStr_plain z c hc).2.2.2.1)

/-- Integers below 100 are not taken for a group of three digits. -/
theorem ints_no_thousands (U : Uni) (x : Int) (xs : List Int) (h : ∀ y ∈ xs, y < 100) (post : Str)
    (hpost : ∀ c ∈ post.head?, isDigit U c = false) :
    ¬ ThousandsComma U (join s%"," ((x :: xs).map intStr) ++ post) ∨ ',' ∈ post := by
  by_cases hcp : ',' ∈ post
  · exact Or.inr hcp
  refine Or.inl ?_
  rintro ⟨a, d, y, z₁, z₂, z₃, b, hs, -, d₁, d₂, d₃, hy⟩
  have hplain : ∀ e ∈ (x :: xs).map intStr, ',' ∉ e := by
    intro e he hce
    obtain ⟨z, -, rfl⟩ := List.mem_map.1 he
    exact (intStr_plain z _ hce).2.2.1 rfl
  have hs' : join s%"," ((x :: xs).map intStr) ++ post =
      (a ++ [d]) ++ ',' :: (y ++ z₁ :: z₂ :: z₃ :: b) := by rw [hs]; simp
  -- the comma lies in the joined part
  have hcut : ∃ q, join s%"," ((x :: xs).map intStr) = (a ++ [d]) ++ ',' :: q ∧
      q ++ post = y ++ z₁ :: z₂ :: z₃ :: b := by
    rcases prefix_of_append hs' with ⟨z, h1, h2⟩ | ⟨z, h1, h2⟩
    · cases z with
      | nil => simp at h2; rw [← h2] at hcp; simp at hcp
      | cons c cs =>
        simp at h2
        exact ⟨cs, by rw [h1, ← h2.1], h2.2.symm⟩
    · exact absurd (by rw [h2]; simp) hcp
  obtain ⟨q, hq, hrest⟩ := hcut
  obtain ⟨es₁, e, es₂, h1, h2, -, h4⟩ := join_comma_split _ hplain _ _ hq
  -- `e` is one of the later integers
  have he : ∃ z ∈ xs, e = intStr z := by
    cases es₁ with
    | nil => exact absurd rfl h2
    | cons e₀ es₁ =>
      simp only [List.map_cons, List.cons_append, List.cons.injEq] at h1
      have : e ∈ xs.map intStr := by rw [h1.2]; simp
      obtain ⟨z, hz, rfl⟩ := List.mem_map.1 this
      exact ⟨z, hz, rfl⟩
  obtain ⟨z, hz, rfl⟩ := he
  -- what follows `e` does not begin with a digit
  obtain ⟨r, hr, hrd⟩ : ∃ r, join s%"," (intStr z :: es₂) ++ post = intStr z ++ r ∧
      ∀ c ∈ r.head?, isDigit U c = false := by
    cases es₂ with
    | nil => exact ⟨post, rfl, hpost⟩
    | cons e' es₂ =>
      refine ⟨s%"," ++ join s%"," (e' :: es₂) ++ post, by simp [join], ?_⟩
      intro c hc; simp at hc; subst hc; simp [isDigit, asciiDigit]
  rw [← h4, hrest] at hr
  have hz100 := h z hz
  cases z with
  | negSucc n =>
    simp only [intStr, List.cons_append] at hr
    rcases hy with rfl | rfl
    · simp at hr
      rw [hr.1] at d₁; simp [isDigit, asciiDigit] at d₁
    · simp at hr
  | ofNat n =>
    have hn : n < 100 := by
      have : ((n : Nat) : Int) < 100 := hz100
      omega
    have hlen := natStr_length_lt n 2 (by omega) (by omega)
    rcases hy with rfl | rfl
    · simp only [List.nil_append, intStr] at hr
      match hm : natStr n, hlen with
      | [], _ => exact natStr_ne_nil n hm
      | [c₁], _ =>
        rw [hm] at hr; simp at hr
        have := hrd z₂ (by rw [← hr.2]; simp)
        rw [d₂] at this; cases this
      | [c₁, c₂], _ =>
        rw [hm] at hr; simp at hr
        have := hrd z₃ (by rw [← hr.2.2]; simp)
        rw [d₃] at this; cases this
    · simp only [intStr, List.cons_append, List.nil_append] at hr
      cases hm : natStr n with
      | nil => exact natStr_ne_nil n hm
      | cons c cs =>
        rw [hm] at hr; simp at hr
        have := (intStr_plain (Int.ofNat n) c (by simp [intStr, hm])).2.2.2.2
        exact this hr.1.symm

/-- **C36**, partial: at least two integers of which all but the first are below 100 are split into exactly
the listed ones when they stand in brackets, and into the set of the listed ones otherwise.
Missing: lists with a later element of three or more digits, for which the claim is false
(`C36_refuted`). -/
theorem C36_elements_not_merged_partial (U : Uni) (ord : List Str → List Str) (x : Int) (xs : List Int)
    (h1 : 1 ≤ xs.length) (h : ∀ y ∈ xs, y < 100) :
    (∀ br : Bracket, splitTuple U ord (br.open :: (join s%"," ((x :: xs).map intStr) ++ [br.close])) none
      = .ok (br.wrap ord ((x :: xs).map intStr))) ∧
    splitTuple U ord (join s%"," ((x :: xs).map intStr)) none
      = .ok (.set (ord ((x :: xs).map intStr))) := by
  have hes : ∀ e ∈ (x :: xs).map intStr, Element e := by
    intro e he; obtain ⟨z, -, rfl⟩ := List.mem_map.1 he; exact intStr_element z
  have hlast : ((x :: xs).map intStr).getLast? ≠ some [] := by
    intro hl
    have := List.mem_of_getLast? hl
    obtain ⟨z, -, hz⟩ := List.mem_map.1 this
    exact intStr_ne_nil z hz
  have hlen : 2 ≤ ((x :: xs).map intStr).length := by simp; omega
  constructor
  · intro br
    apply C34_split_bracketed U ord br _ hlen hes hlast
    have hb : isDigit U br.close = false ∧ br.close ≠ ',' ∧ isDigit U br.open = false := by
      cases br <;> simp [Bracket.close, Bracket.open, isDigit, asciiDigit]
    have := ints_no_thousands U x xs h [br.close] (by intro c hc; simp at hc; subst hc; exact hb.1)
    rcases this with this | this
    · rintro ⟨a, d, y, z₁, z₂, z₃, b, hs, hd, r⟩
      cases a with
      | nil => simp at hs; rw [← hs.1, hb.2.2] at hd; cases hd
      | cons a₀ a =>
        simp only [List.cons_append, List.cons.injEq] at hs
        exact this ⟨a, d, y, z₁, z₂, z₃, b, hs.2, hd, r⟩
    · simp at this; exact absurd this.symm hb.2.1
  · apply C34_split_unbracketed U ord _ hlen hes hlast
    have := ints_no_thousands U x xs h [] (by simp)
    simpa using this

example : splitTuple asciiUni dedup s%"1999,20,-300" none = .ok (.set [s%"1999", s%"20", s%"-300"]) := by
  decide +kernel

/-- **C36** is false for the code: listed integers can be merged into one number. -/
theorem C36_refuted : ∃ xs : List Int, xs.length = 2 ∧
    splitTuple asciiUni dedup (join s%"," (xs.map intStr)) none = .ok (.str s%"19992000") ∧
    splitTuple asciiUni dedup (s%"[" ++ join s%"," (xs.map intStr) ++ s%"]") none = .ok (.str s%"19992000") :=
  ⟨[1999, 2000], rfl, by decide +kernel, by decide +kernel⟩

end Verif
