import Verif.Py.Eff
/-
The external world of the modelled code: LaTeX parsers, SymPy, the random generator, the
iteration order of Python sets and the Unicode tables.  Nothing is assumed about them except
what the structure fields say; every theorem quantifies over all environments.
-/

namespace Verif

/-- Relational operators of SymPy other than `==` (latex_parser.py:128-131, 155-157, 164). -/
inductive RelOp where
  | le | lt | ge | gt | ne
deriving DecidableEq, Repr

/-- What the `isinstance` tests of latex_parser.py (lines 63, 101-103, 112-140, 401, 404) can see
of a Python value.  The classes are disjoint in SymPy: `Equality`, the other relationals, `Expr`
and `Matrix` have no common instances. -/
inductive View (V : Type) where
  /-- a Python list -/
  | list (xs : List V)
  /-- a Python set, in iteration order -/
  | set (xs : List V)
  /-- a Python tuple -/
  | tuple (xs : List V)
  /-- sympy `Equality` -/
  | equality (lhs rhs : V)
  /-- another sympy `Relational` -/
  | rel (op : RelOp) (lhs rhs : V)
  /-- sympy `Expr`, and whether `.has(sympy.I)` -/
  | expr (hasI : Bool)
  /-- sympy `Matrix` -/
  | matrix (rows cols : Nat) (entry : Nat → Nat → V)
  | other

/-- A call into a library: reads and changes the external state, may raise. -/
abbrev Ext (X α : Type) := X → Except PyErr α × X

/-- The environment.  `X` is the external state, `V` the type of parsed values, `S` the type of
sympy sets used for intervals. -/
structure Env (X V S : Type) where
  /-- Unicode tables -/
  U : Uni
  /-- iteration order of the Python set built by inserting the given strings in order -/
  setOrder : List Str → List Str
  setOrder_perm : ∀ l, (setOrder l).Perm (dedup l)
  /-- what `isinstance` sees -/
  view : V → View V
  /-- building a Python list from elements -/
  ofList : List V → V
  view_ofList : ∀ xs, view (ofList xs) = .list xs
  /-- `latex2sympy(s)` -/
  l2s : Str → Ext X V
  /-- `parse_latex(s).subs({Symbol('pi'): pi})` -/
  parseLatex : Str → Ext X V
  /-- `sympy_parser.parse_expr(s, ...)` -/
  parseExpr : Str → Ext X V
  /-- `str(v)` -/
  str : V → Ext X Str
  /-- `bool(v)` -/
  truth : V → Ext X Bool
  /-- `v == w` (used as a condition) -/
  eqv : V → V → Ext X Bool
  /-- `1/v` -/
  inv : V → Ext X V
  /-- `v.is_Function and getattr(v, "name", None)` -/
  isNamedFunction : V → Ext X Bool
  /-- `v.is_symbol` -/
  isSymbol : V → Ext X Bool
  /-- `v.is_number` -/
  isNumber : V → Ext X Bool
  /-- `v == 0 or v.is_zero` for an `Expr` -/
  isZeroExpr : V → Ext X Bool
  /-- `v.is_zero_matrix` for a `Matrix` -/
  isZeroMatrix : V → Ext X Bool
  /-- `v.is_Integer` -/
  isInteger : V → Ext X Bool
  /-- `v - w` -/
  sub : V → V → Ext X V
  /-- `-v` -/
  neg : V → Ext X V
  /-- `v / w` -/
  div : V → V → Ext X V
  /-- `abs(v)` -/
  abs : V → Ext X V
  /-- `sympy.re(v)` -/
  re : V → Ext X V
  /-- `sympy.im(v)` -/
  im : V → Ext X V
  /-- `v < r` as an object whose truth value is taken later -/
  ltThr : V → Rat → Ext X V
  /-- `v >= 1` as a condition -/
  ge1 : V → Ext X Bool
  /-- `v > 0` as a condition -/
  gt0 : V → Ext X Bool
  /-- `v.evalf()` -/
  evalf : V → Ext X V
  /-- `v.evalf(subs=...)`; symbols are represented by unique keys -/
  evalfAt : V → List (Str × V) → Ext X V
  /-- `bool(v.expand(trig=True) == w.expand(trig=True))` -/
  expandEq : V → V → Ext X Bool
  /-- `sympy.simplify(v)` -/
  simplify : V → Ext X V
  /-- `v.free_symbols` in iteration order, as unique keys -/
  freeSyms : V → Ext X (List Str)
  /-- `symbol.name` of the symbol with the given key -/
  symName : Str → Str
  /-- `v.subs(symbol, I)` -/
  subsI : V → Str → Ext X V
  /-- `random.randint(1, 10)` -/
  randint : Ext X V
  /-- `random.uniform(1, 10)` -/
  uniform : Ext X V
  /-- `Matrix(list)` -/
  mkMatrix : V → Ext X V
  /-- `mat.transpose()` -/
  transpose : V → Ext X V
  /-- `_is_int(v)` on a sympy number (latex_normalize.py:73-77), as a condition -/
  isIntNum : V → Ext X Bool
  /-- `sympy.Integer(v)` -/
  toInteger : V → Ext X V
  /-- `v > w` as a condition -/
  gtV : V → V → Ext X Bool
  /-- `sympy.EmptySet` -/
  emptySet : S
  /-- `sympy.Interval(a, b, left_open, right_open)` -/
  interval : V → V → Bool → Bool → Ext X S
  /-- `s.is_empty` as a condition -/
  isEmptySet : S → Ext X Bool
  /-- `s.intersect(t)` -/
  intersect : S → S → Ext X S
  /-- `s + t` -/
  union : S → S → Ext X S
  /-- `s.compare(t) == 0` -/
  compareEq : S → S → Ext X Bool

end Verif
