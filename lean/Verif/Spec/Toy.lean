import Verif.Model.Env
import Verif.Py.Float
/-
Concrete environments used only in the non-vacuity examples and in counterexample witnesses:
`failEnv`, in which every library call raises, and `ratEnv`, a small CAS over rational numbers.
-/

namespace Verif

/-- Unicode tables without any non-ASCII digits or letters. -/
def asciiUni : Uni := ⟨fun _ => false, fun _ => 0, fun _ => false, fun _ c _ => [c]⟩

/-- Values of the toy CAS. -/
inductive TVal where
  | num (q : Rat)
  /-- a + b i with b ≠ 0 -/
  | cplx (a b : Rat)
  | sym (name : Str)
  | list (xs : List TVal)
  | set (xs : List TVal)
  | tuple (xs : List TVal)
  | eq (l r : TVal)
  | rel (op : RelOp) (l r : TVal)
  | mat (rows cols : Nat) (entries : List TVal)
  | bool (b : Bool)

/-- What `isinstance` sees of a toy value. -/
def TVal.view : TVal → View TVal
  | .num _ => .expr false
  | .cplx _ _ => .expr true
  | .sym _ => .expr false
  | .list xs => .list xs
  | .set xs => .set xs
  | .tuple xs => .tuple xs
  | .eq l r => .equality l r
  | .rel op l r => .rel op l r
  | .mat r c es => .matrix r c fun i j => (es[i * c + j]?).getD (.num 0)
  | .bool _ => .other

/-- A library call that always raises. -/
def failCall {α : Type} : Ext Unit α := fun x => (.error .other, x)

/-- The environment in which every parser and CAS call raises. -/
def failEnv : Env Unit TVal Unit where
  U := asciiUni
  setOrder := dedup
  setOrder_perm _ := List.Perm.refl _
  view := TVal.view
  ofList := .list
  view_ofList _ := rfl
  symName k := k
  emptySet := ()
  l2s _ := failCall
  parseLatex _ := failCall
  parseExpr _ := failCall
  str _ := failCall
  truth _ := failCall
  eqv _ _ := failCall
  inv _ := failCall
  isNamedFunction _ := failCall
  isSymbol _ := failCall
  isNumber _ := failCall
  isZeroExpr _ := failCall
  isZeroMatrix _ := failCall
  isInteger _ := failCall
  sub _ _ := failCall
  neg _ := failCall
  div _ _ := failCall
  abs _ := failCall
  re _ := failCall
  im _ := failCall
  ltThr _ _ := failCall
  ge1 _ := failCall
  gt0 _ := failCall
  evalf _ := failCall
  evalfAt _ _ := failCall
  expandEq _ _ := failCall
  simplify _ := failCall
  freeSyms _ := failCall
  subsI _ _ := failCall
  randint := failCall
  uniform := failCall
  mkMatrix _ := failCall
  transpose _ := failCall
  isIntNum _ := failCall
  toInteger _ := failCall
  gtV _ _ := failCall
  interval _ _ _ _ := failCall
  isEmptySet _ := failCall
  intersect _ _ := failCall
  union _ _ := failCall
  compareEq _ _ := failCall

/-- A library call that returns. -/
def okCall {α : Type} (a : α) : Ext Unit α := fun x => (.ok a, x)
/-- A library call that returns or raises. -/
def optCall {α : Type} (a : Option α) : Ext Unit α := fun x =>
  (match a with | some a => .ok a | none => .error .other, x)

/-- Exact value of an optionally signed decimal literal. -/
def toyParse (s : Str) : Option TVal :=
  let (neg, r) := match s with
    | '-' :: r => (true, r)
    | r => (false, r)
  (parseDecimal asciiUni r).map fun (c, k) =>
    let q : Rat := (c : Rat) * (10 : Rat) ^ k
    .num (if neg then -q else q)

/-- Printing of integers. -/
def toyStr : TVal → Option Str
  | .num q => if q.den = 1 then some (intStr q.num) else none
  | .sym s => some s
  | _ => none

/-- Difference of toy values. -/
def toySub : TVal → TVal → Option TVal
  | .num a, .num b => some (.num (a - b))
  | _, _ => none

/-- Does a toy value count as a number? -/
def toyIsNumber : TVal → Option Bool
  | .num _ => some true
  | .cplx _ _ => some true
  | .sym _ => some false
  | _ => none

/-- Toy intervals: finite unions of intervals, as lists of (left, right, left open, right open). -/
abbrev TSet := List (Rat × Rat × Bool × Bool)

/-- Intersection of two toy intervals; empty if they do not overlap. -/
def toyMeet (i j : Rat × Rat × Bool × Bool) : TSet :=
  let (a, b, lo, ro) := i
  let (a', b', lo', ro') := j
  let l := max a a'
  let r := min b b'
  let lO := (a == l && lo) || (a' == l && lo')
  let rO := (b == r && ro) || (b' == r && ro')
  if l < r ∨ (l = r ∧ !lO ∧ !rO) then [(l, r, lO, rO)] else []

/-- A small CAS over the rationals. -/
def ratEnv : Env Unit TVal TSet where
  U := asciiUni
  setOrder := dedup
  setOrder_perm _ := List.Perm.refl _
  view := TVal.view
  ofList := .list
  view_ofList _ := rfl
  symName k := k
  emptySet := []
  l2s s := optCall (toyParse s)
  parseLatex _ := failCall
  parseExpr _ := failCall
  str v := optCall (toyStr v)
  truth v := optCall (match v with | .bool b => some b | .num q => some (decide (q ≠ 0)) | _ => none)
  eqv v w := optCall (match v, w with | .num a, .num b => some (decide (a = b)) | _, _ => some false)
  inv v := optCall (match v with | .num q => some (.num (1 / q)) | .sym s => some (.sym s) | _ => none)
  isNamedFunction _ := okCall false
  isSymbol v := okCall (match v with | .sym _ => true | _ => false)
  isNumber v := optCall (toyIsNumber v)
  isZeroExpr v := okCall (match v with | .num q => decide (q = 0) | _ => false)
  isZeroMatrix _ := okCall false
  -- values reaching `is_Integer` have been evaluated to floats; only 0 stays an integer
  isInteger v := okCall (match v with | .num q => decide (q = 0) | _ => false)
  sub v w := optCall (toySub v w)
  neg v := optCall (match v with | .num q => some (.num (-q)) | _ => none)
  div v w := optCall (match v, w with | .num a, .num b => some (.num (a / b)) | _, _ => none)
  abs v := optCall (match v with | .num q => some (.num (if q < 0 then -q else q)) | _ => none)
  re v := optCall (match v with | .num q => some (.num q) | .cplx a _ => some (.num a) | _ => none)
  im v := optCall (match v with | .num _ => some (.num 0) | .cplx _ b => some (.num b) | _ => none)
  ltThr v r := optCall (match v with | .num q => some (.bool (decide (q < r))) | _ => none)
  ge1 v := optCall (match v with | .num q => some (decide (1 ≤ q)) | _ => none)
  gt0 v := optCall (match v with | .num q => some (decide (0 < q)) | _ => none)
  evalf v := okCall v
  evalfAt v σ := optCall (match v with
    | .num q => some (.num q)
    | .sym s => σ.lookup s
    | _ => none)
  expandEq v w := okCall (match v, w with
    | .num a, .num b => decide (a = b)
    | .sym a, .sym b => decide (a = b)
    | _, _ => false)
  simplify v := okCall v
  freeSyms v := optCall (match v with
    | .num _ => some []
    | .cplx _ _ => some []
    | .sym s => some [s]
    | _ => none)
  subsI v _ := okCall (match v with | .sym _ => .cplx 0 1 | v => v)
  randint := okCall (.num 3)
  uniform := okCall (.num (5 / 2))
  mkMatrix v := optCall (match v with | .list xs => some (.mat xs.length 1 xs) | _ => none)
  transpose v := optCall (match v with
    | .mat r c es => some (.mat c r ((List.range (r * c)).map fun k =>
        (es[(k % r) * c + k / r]?).getD (.num 0)))
    | _ => none)
  isIntNum v := okCall (match v with | .num q => decide (q.den = 1) | _ => false)
  toInteger v := okCall v
  gtV v w := optCall (match v, w with | .num a, .num b => some (decide (b < a)) | _, _ => none)
  interval v w lo ro := optCall (match v, w with
    | .num a, .num b => some [(a, b, lo, ro)]
    | _, _ => none)
  isEmptySet s := okCall s.isEmpty
  intersect s t := okCall (s.flatMap fun i => t.flatMap (toyMeet i))
  union s t := okCall (s ++ t)
  compareEq s t := okCall (decide (s = t))

end Verif
