import Verif.Py.Str
/-
The effects of the modelled Python code: exceptions, an arbitrary external state (random
generator, module globals of the libraries, ...) and printed output.
-/

namespace Verif

/-- Python exceptions (the classes that matter, all subclasses of `Exception`). -/
inductive PyErr where
  | valueError | typeError | attributeError | indexError | keyError | assertionError
  | overflowError | zeroDivisionError | runtimeError | recursionError
  /-- any other exception, e.g. a timeout or an ANTLR syntax error -/
  | other
deriving DecidableEq, Repr

/-- Program state: state of the external libraries, and the lines printed so far (latest first). -/
structure World (X : Type) where
  ext : X
  out : List Str
deriving DecidableEq

deriving instance DecidableEq for Except

/-- A Python computation. -/
abbrev M (X α : Type) := World X → Except PyErr α × World X

namespace M
variable {X α β : Type}

def pure (a : α) : M X α := fun w => (.ok a, w)
def bind (x : M X α) (f : α → M X β) : M X β := fun w =>
  match x w with
  | (.ok a, w') => f a w'
  | (.error e, w') => (.error e, w')
/-- `raise e` -/
def raise (e : PyErr) : M X α := fun w => (.error e, w)
/-- `try: x except: h` -/
def tryExcept (x : M X α) (h : PyErr → M X α) : M X α := fun w =>
  match x w with
  | (.ok a, w') => (.ok a, w')
  | (.error e, w') => h e w'
/-- `print(s)` -/
def print (s : Str) : M X Unit := fun w => (.ok (), { w with out := s :: w.out })
/-- A call into an external library: it sees and changes only the external state. -/
def ext (f : X → Except PyErr α × X) : M X α := fun w =>
  match f w.ext with
  | (r, x) => (r, { w with ext := x })

instance : Monad (M X) where
  pure := M.pure
  bind := M.bind

@[simp] theorem pure_run (a : α) (w : World X) : (Pure.pure a : M X α) w = (.ok a, w) := rfl
@[simp] theorem bind_run (x : M X α) (f : α → M X β) (w : World X) :
    (x >>= f) w = match x w with
      | (.ok a, w') => f a w'
      | (.error e, w') => (.error e, w') := rfl
@[simp] theorem raise_run (e : PyErr) (w : World X) : (raise e : M X α) w = (.error e, w) := rfl
@[simp] theorem tryExcept_run (x : M X α) (h : PyErr → M X α) (w : World X) :
    tryExcept x h w = match x w with
      | (.ok a, w') => (.ok a, w')
      | (.error e, w') => h e w' := rfl
@[simp] theorem print_run (s : Str) (w : World X) :
    (print s) w = (.ok (), { w with out := s :: w.out }) := rfl

/-- Lift a pure result that may be an exception. -/
def lift (r : Except PyErr α) : M X α := fun w => (r, w)
@[simp] theorem lift_run (r : Except PyErr α) (w : World X) : (lift r : M X α) w = (r, w) := rfl

end M

/-- Python `all(f(x, y) for ...)`-style early-exit loop: `True` iff every call returns `True`. -/
def allM {X α : Type} (f : α → M X Bool) : List α → M X Bool
  | [] => pure true
  | a :: as => do
    if ← f a then allM f as else pure false

/-- Early-exit search loop: `True` at the first call that returns `True`. -/
def anyM {X α : Type} (f : α → M X Bool) : List α → M X Bool
  | [] => pure false
  | a :: as => do
    if ← f a then pure true else anyM f as

end Verif
