import Verif.Py.Eff
/-
Specification vocabulary shared by the property files.  Nothing here refers to the model of /repo.
-/

namespace Verif

/-- Two strings are the same up to white space around a common core. -/
def SameUpToSpace (a b : Str) : Prop :=
  ∃ l core r l' r' : Str,
    a = l ++ core ++ r ∧ b = l' ++ core ++ r' ∧
    (∀ c ∈ l ++ r ++ l' ++ r', isSpace c = true)

/-- The computation never raises. -/
def Total {X α : Type} (x : M X α) : Prop := ∀ w, ∃ a w', x w = (.ok a, w')

/-- The computation returns `a` from `w` to `w'`. -/
def Runs {X α : Type} (x : M X α) (w : World X) (a : α) (w' : World X) : Prop := x w = (.ok a, w')

/-- The two computations cannot be distinguished by their result nor by their effect on the
external state; what they print may differ. -/
def SameUpToOutput {X α : Type} (x y : M X α) : Prop :=
  ∀ w w' : World X, w.ext = w'.ext → (x w).1 = (y w').1 ∧ (x w).2.ext = (y w').2.ext

/-- `f` accepts the pairs `(a₁,b₁), (a₂,b₂), ...` one after the other; the lists have the same
length. -/
inductive AcceptsAll {X α β : Type} (f : α → β → M X Bool) :
    List α → List β → World X → World X → Prop
  | nil (w) : AcceptsAll f [] [] w w
  | cons {a b as bs w w' w''} : Runs (f a b) w true w' → AcceptsAll f as bs w' w'' →
      AcceptsAll f (a :: as) (b :: bs) w w''

/-- `f` accepts some argument of the list after having rejected (without exception) all before. -/
inductive AcceptsSome {X α : Type} (f : α → M X Bool) : List α → World X → World X → Prop
  | here {a as w w'} : Runs (f a) w true w' → AcceptsSome f (a :: as) w w'
  | there {a as w w' w''} : Runs (f a) w false w' → AcceptsSome f as w' w'' →
      AcceptsSome f (a :: as) w w''

/-- `f` rejects (without exception) every argument of the list. -/
inductive RejectsAll {X α : Type} (f : α → M X Bool) : List α → World X → World X → Prop
  | nil (w) : RejectsAll f [] w w
  | cons {a as w w' w''} : Runs (f a) w false w' → RejectsAll f as w' w'' →
      RejectsAll f (a :: as) w w''

end Verif
