import Verif.Model.AsciiMath

/-! # C103: the AsciiMath printer

The notation that is wanted is given by `Writes`; the printer follows it except for limits, derivatives and integrals without bounds. -/

namespace Verif.Ascii

/-! ### Specification -/

mutual
/-- The text of an object in AsciiMath notation; the inherited methods write what has no method of its own.  Limits, derivatives of the
first order and integrals without bounds are included if `all` holds. -/
inductive Writes (B : Base) (all : Bool) : Ob → Str → Prop
  | half {t} : B.text .half [] = .ok t → Writes B all .half t
  | negOne {t} : B.text .negOne [] = .ok t → Writes B all .negOne t
  | tuple {xs ts t} : WritesAll B all xs ts → B.text (.tuple xs) ts = .ok t → Writes B all (.tuple xs) t
  | other {name args ts t} : WritesAll B all args ts → B.text (.node (.other name) args) ts = .ok t →
      Writes B all (.node (.other name) args) t
  /-- the limit of `e` for `x` towards `a` -/
  | limit {e x a d te tx ta} : all = true → Writes B all e te → Writes B all x tx → Writes B all a ta →
      Writes B all (.node .limit [e, x, a, d]) (s%"lim_(" ++ tx ++ s%" -> " ++ ta ++ s%") " ++ te)
  | indefinite {e x te tx} : all = true → Writes B all e te → Writes B all x tx →
      Writes B all (.node .integral [e, .tuple [x]]) (s%"int " ++ te ++ s%" d" ++ tx)
  | definite {e x a b te tx ta tb} : Writes B all e te → Writes B all x tx → Writes B all a ta → Writes B all b tb →
      Writes B all (.node .integral [e, .tuple [x, a, b]]) (s%"int_(" ++ ta ++ s%")^(" ++ tb ++ s%") " ++ te ++ s%" d" ++ tx)
  | sum {e x a b te tx ta tb} : Writes B all e te → Writes B all x tx → Writes B all a ta → Writes B all b tb →
      Writes B all (.node .sum [e, .tuple [x, a, b]]) (s%"sum_(" ++ tx ++ s%" = " ++ ta ++ s%")^(" ++ tb ++ s%") " ++ te)
  | product {e x a b te tx ta tb} : Writes B all e te → Writes B all x tx → Writes B all a ta → Writes B all b tb →
      Writes B all (.node .product [e, .tuple [x, a, b]]) (s%"prod_(" ++ tx ++ s%" = " ++ ta ++ s%")^(" ++ tb ++ s%") " ++ te)
  | factorial {e t} : Writes B all e t → Writes B all (.node .factorial [e]) (t ++ s%"!")
  | abs {e t} : Writes B all e t → Writes B all (.node .abs [e]) (s%"|" ++ t ++ s%"|")
  | equality {a b ta tb} : Writes B all a ta → Writes B all b tb → Writes B all (.node .equality [a, b]) (ta ++ s%" = " ++ tb)
  /-- the first derivative of `e` with respect to `x`; the order of the derivative is `one` -/
  | derivative {e x one te tx} : all = true → Writes B all e te → Writes B all x tx →
      Writes B all (.node .derivative [e, .tuple [x, one]]) (s%"d/d" ++ tx ++ s%" " ++ te)
  | root {b t} : Writes B all b t → Writes B all (.node .pow [b, .half]) (s%"sqrt(" ++ t ++ s%")")
  | overRoot {b e t} : e ≠ .half → B.negHalf e = true → Writes B all b t → Writes B all (.node .pow [b, e]) (s%"1/sqrt(" ++ t ++ s%")")
  | inverse {b t} : B.negHalf .negOne = false → Writes B all b t → Writes B all (.node .pow [b, .negOne]) (s%"1/" ++ t)
  | power {b e tb te} : e ≠ .half → B.negHalf e = false → e ≠ .negOne → Writes B all b tb → Writes B all e te →
      Writes B all (.node .pow [b, e]) (tb ++ s%"^(" ++ te ++ s%")")
/-- The texts of the objects. -/
inductive WritesAll (B : Base) (all : Bool) : List Ob → List Str → Prop
  | nil : WritesAll B all [] []
  | cons {o t os ts} : Writes B all o t → WritesAll B all os ts → WritesAll B all (o :: os) (t :: ts)
end

/-! ### Proofs -/

variable {B : Base}

theorem isHalf_iff (e : Ob) : isHalf e = true ↔ e = .half := by cases e <;> simp [isHalf]

theorem isNegOne_iff (e : Ob) : isNegOne e = true ↔ e = .negOne := by cases e <;> simp [isNegOne]

mutual
theorem writes_see : ∀ {o : Ob} {t : Str}, Writes B false o t → (see B o).text = .ok t
  | _, _, .half h => by simpa [see] using h
  | _, _, .negOne h => by simpa [see] using h
  | _, _, .tuple h ht => by
    have := writesAll_see h
    simp only [see, this]
    exact ht
  | _, _, .other h ht => by
    have := writesAll_see h
    simp only [see, printNode, this]
    exact ht
  | _, _, .definite h1 h2 h3 h4 => by
    simp [see, seeAll, printNode, printIntegral, lims, item, writes_see h1, writes_see h2, writes_see h3, writes_see h4, bind, Except.bind,
      pure, Except.pure]
  | _, _, .sum h1 h2 h3 h4 => by
    simp [see, seeAll, printNode, printBig, lims, item, writes_see h1, writes_see h2, writes_see h3, writes_see h4, bind, Except.bind,
      pure, Except.pure]
  | _, _, .product h1 h2 h3 h4 => by
    simp [see, seeAll, printNode, printBig, lims, item, writes_see h1, writes_see h2, writes_see h3, writes_see h4, bind, Except.bind,
      pure, Except.pure]
  | _, _, .factorial h => by
    simp [see, seeAll, printNode, item, writes_see h, bind, Except.bind, pure, Except.pure]
  | _, _, .abs h => by
    simp [see, seeAll, printNode, item, writes_see h, bind, Except.bind, pure, Except.pure]
  | _, _, .equality h1 h2 => by
    simp [see, seeAll, printNode, item, writes_see h1, writes_see h2, bind, Except.bind, pure, Except.pure]
  | _, _, .root h => by
    simp [see, seeAll, printNode, printPow, isHalf, writes_see h, bind, Except.bind, pure, Except.pure]
  | _, _, .overRoot hn hh h => by
    have := mt (isHalf_iff _).1 hn
    simp [see, seeAll, printNode, printPow, this, hh, writes_see h, bind, Except.bind, pure, Except.pure]
  | _, _, .inverse hh h => by
    simp [see, seeAll, printNode, printPow, isHalf, isNegOne, hh, writes_see h, bind, Except.bind, pure, Except.pure]
  | _, _, .power hn hh hm h1 h2 => by
    have h3 := mt (isHalf_iff _).1 hn
    have h4 := mt (isNegOne_iff _).1 hm
    simp [see, seeAll, printNode, printPow, h3, h4, hh, writes_see h1, writes_see h2, bind, Except.bind, pure, Except.pure]
theorem writesAll_see : ∀ {os : List Ob} {ts : List Str}, WritesAll B false os ts →
    ((seeAll B os).map (·.text)).mapM id = (.ok ts : Except PyErr (List Str))
  | _, _, .nil => rfl
  | _, _, .cons h hs => by
    simp [seeAll, List.mapM_cons, writes_see h, writesAll_see hs, bind, Except.bind, pure, Except.pure]
end

/-- **C103.**  Every object without limits, derivatives and integrals without bounds is printed in the notation. -/
theorem C103_notation_partial {o : Ob} {t : Str} (h : Writes B false o t) : asciiMath B o = .ok t := writes_see h

/-- **C103 is violated for limits**: a `Limit` has four arguments, and printing it raises `ValueError`, whatever they are. -/
theorem C103_limit_refuted (e x a d : Ob) : asciiMath B (.node .limit [e, x, a, d]) = .error .valueError := rfl

/-- Integrals, sums and products over several variables raise `ValueError`. -/
theorem C103_several_refuted (e l l' : Ob) (ls : List Ob) (c : Cls) (hc : c = .integral ∨ c = .sum ∨ c = .product) :
    asciiMath B (.node c (e :: l :: l' :: ls)) = .error .valueError := by
  rcases hc with rfl | rfl | rfl <;> rfl

/-- An integral without bounds is printed with the tuple of its variable after the `d`. -/
theorem C103_indefinite {e x : Ob} {te tx t : Str} (he : Writes B false e te) (hx : Writes B false x tx)
    (ht : B.text (.tuple [x]) [tx] = .ok t) :
    asciiMath B (.node .integral [e, .tuple [x]]) = .ok (s%"int " ++ te ++ s%" d" ++ t) := by
  simp [asciiMath, see, seeAll, printNode, printIntegral, lims, writes_see hx, ht, writes_see he, bind, Except.bind, pure, Except.pure]

/-- A derivative is printed with the first tuple of variable and order; other variables are not printed. -/
theorem C103_derivative {e x n : Ob} {te tx tn t : Str} (he : Writes B false e te) (hx : Writes B false x tx) (hn : Writes B false n tn)
    (ht : B.text (.tuple [x, n]) [tx, tn] = .ok t) (others : List Ob) :
    asciiMath B (.node .derivative (e :: .tuple [x, n] :: others)) = .ok (s%"d/d" ++ t ++ s%" " ++ te) := by
  have hl : ¬ others.length + 1 + 1 < 2 := by omega
  simp [asciiMath, see, seeAll, printNode, item, writes_see hx, writes_see hn, ht, writes_see he, hl, bind, Except.bind, pure, Except.pure]

/-! ### Concrete objects -/

/-- The inherited methods for symbols and numbers (objects without arguments), sums, and tuples. -/
def plain : Base where
  negHalf _ := false
  text o ts := match o, ts with
    | .half, _ => .ok s%"1/2"
    | .negOne, _ => .ok s%"-1"
    | .tuple _, [t] => .ok (s%"(" ++ t ++ s%",)")
    | .tuple _, ts => .ok (s%"(" ++ join s%", " ts ++ s%")")
    | .node (.other name) _, [] => .ok name
    | .node _ _, ts => .ok (join s%" + " ts)

/-- a symbol or a number -/
def sym (name : Str) : Ob := .node (.other name) []

/-- a sum -/
def add (a b : Ob) : Ob := .node (.other s%"Add") [a, b]

theorem sym_writes (name : Str) (all : Bool) : Writes plain all (sym name) name := .other .nil rfl

theorem add_writes {a b : Ob} {s t : Str} {all : Bool} (ha : Writes plain all a s) (hb : Writes plain all b t) :
    Writes plain all (add a b) (s ++ s%" + " ++ t) :=
  .other (.cons ha (.cons hb .nil)) (by simp [plain, join])

/-- `\sum_{k = 1}^n |k|` is printed `sum_(k = 1)^(n) |k|`. -/
example : asciiMath plain (.node .sum [.node .abs [sym s%"k"], .tuple [sym s%"k", sym s%"1", sym s%"n"]]) =
    .ok s%"sum_(k = 1)^(n) |k|" :=
  C103_notation_partial (.sum (.abs (sym_writes _ _)) (sym_writes _ _) (sym_writes _ _) (sym_writes _ _))

/-- **C103 is violated for integrals without bounds**: `\int y dx` is printed `int y d(x,)`. -/
theorem C103_indefinite_refuted : ∃ o t, Writes plain true o t ∧ t = s%"int y dx" ∧ asciiMath plain o = .ok s%"int y d(x,)" :=
  ⟨_, _, .indefinite rfl (sym_writes s%"y" true) (sym_writes s%"x" true), rfl,
    C103_indefinite (sym_writes s%"y" false) (sym_writes s%"x" false) rfl⟩

/-- **C103 is violated for derivatives**: the derivative of `y` with respect to `x` is printed `d/d(x, 1) y`, and so is the one with respect
to `x` and `z`. -/
theorem C103_derivative_refuted : ∃ o t, Writes plain true o t ∧ t = s%"d/dx y" ∧ asciiMath plain o = .ok s%"d/d(x, 1) y" ∧
    asciiMath plain (.node .derivative [sym s%"y", .tuple [sym s%"x", sym s%"1"], .tuple [sym s%"z", sym s%"1"]]) =
      .ok s%"d/d(x, 1) y" :=
  ⟨_, _, .derivative (one := sym s%"1") rfl (sym_writes s%"y" true) (sym_writes s%"x" true), rfl,
    C103_derivative (sym_writes s%"y" false) (sym_writes s%"x" false) (sym_writes s%"1" false) rfl [],
    C103_derivative (sym_writes s%"y" false) (sym_writes s%"x" false) (sym_writes s%"1" false) rfl _⟩

/-- **The notation is ambiguous**: the base of a power gets no parentheses, so that the power of a sum and the sum with a power as last term
are printed alike, whatever the symbols are; the factorial of a sum likewise. -/
theorem C103_ambiguous_refuted (a b c : Str) :
    asciiMath plain (.node .pow [add (sym a) (sym b), sym c]) = asciiMath plain (add (sym a) (.node .pow [sym b, sym c])) ∧
    asciiMath plain (.node .factorial [add (sym a) (sym b)]) = asciiMath plain (add (sym a) (.node .factorial [sym b])) := by
  have hp : ∀ {o : Ob} {t : Str}, Writes plain false o t → Writes plain false (.node .pow [o, sym c]) (t ++ s%"^(" ++ c ++ s%")") :=
    fun h => .power (by simp [sym]) rfl (by simp [sym]) h (sym_writes c _)
  constructor
  · rw [C103_notation_partial (hp (add_writes (sym_writes a _) (sym_writes b _))),
      C103_notation_partial (add_writes (sym_writes a _) (hp (sym_writes b _)))]
    simp
  · rw [C103_notation_partial (.factorial (add_writes (sym_writes a _) (sym_writes b _))),
      C103_notation_partial (add_writes (sym_writes a _) (.factorial (sym_writes b _)))]
    simp

end Verif.Ascii
