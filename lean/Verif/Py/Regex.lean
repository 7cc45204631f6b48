import Verif.Py.Str
/-
A backtracking regular-expression engine with the priority (leftmost, greedy/lazy) semantics of
Python's `re` module, for the constructs that occur in /repo.  This models the Python standard
library, not code of /repo.

Every pattern of /repo repeats only sub-patterns that cannot match the empty string, so the
special treatment of empty iterations in `re` is not needed; here an iteration must consume.
-/

namespace Verif

/-- Regular expressions.  Character classes are predicates. -/
inductive Re where
  /-- empty pattern -/
  | eps
  /-- one character of a class -/
  | chr (p : Char → Bool)
  /-- concatenation -/
  | seq (a b : Re)
  /-- `a|b`, tried in this order -/
  | alt (a b : Re)
  /-- `r*` (greedy) or `r*?` (lazy) -/
  | star (greedy : Bool) (r : Re)
  /-- capturing group `(r)` with number `n` -/
  | grp (n : Nat) (r : Re)
  /-- `^` -/
  | bos
  /-- `$` without MULTILINE: at the end, or before a final newline -/
  | eos
  /-- `(?<=p)` / `(?<!p)` for one character -/
  | behind (neg : Bool) (p : Char → Bool)
  /-- `(?=p)` / `(?!p)` for one character -/
  | ahead (neg : Bool) (p : Char → Bool)

/-- Matcher state: text before (reversed), text after, captured groups (latest first). -/
structure RSt where
  pre : Str
  rest : Str
  caps : List (Nat × Str)

/-- Iterations of a starred pattern; each iteration must consume at least one character. -/
def starGo (greedy : Bool) (step : RSt → List RSt) : Nat → RSt → List RSt
  | 0, s => [s]
  | n + 1, s =>
    let more := ((step s).filter (fun t => decide (t.rest.length < s.rest.length))).flatMap
      (starGo greedy step n)
    if greedy then more ++ [s] else s :: more

/-- All ways in which a pattern matches at the current position, best first. -/
def Re.run : Re → RSt → List RSt
  | .eps, s => [s]
  | .chr p, s => match s.rest with
    | [] => []
    | c :: cs => if p c then [⟨c :: s.pre, cs, s.caps⟩] else []
  | .seq a b, s => (a.run s).flatMap b.run
  | .alt a b, s => a.run s ++ b.run s
  | .star g r, s => starGo g r.run s.rest.length s
  | .grp n r, s => (r.run s).map fun t =>
      ⟨t.pre, t.rest, (n, s.rest.take (s.rest.length - t.rest.length)) :: t.caps⟩
  | .bos, s => if s.pre.isEmpty then [s] else []
  | .eos, s => if s.rest.isEmpty || s.rest == ['\n'] then [s] else []
  | .behind neg p, s =>
      let ok := match s.pre with | c :: _ => p c | [] => false
      if ok != neg then [s] else []
  | .ahead neg p, s =>
      let ok := match s.rest with | c :: _ => p c | [] => false
      if ok != neg then [s] else []

/-- Match at a given position (the best one). -/
def Re.matchAt (r : Re) (pre rest : Str) : Option RSt := (r.run ⟨pre, rest, []⟩).head?

/-- `re.search`, from a position on. -/
def searchFrom (r : Re) : Str → Str → Option RSt
  | pre, [] => r.matchAt pre []
  | pre, c :: cs => match r.matchAt pre (c :: cs) with
    | some t => some t
    | none => searchFrom r (c :: pre) cs

/-- `re.search(r, s)`; the result carries the captured groups. -/
def reSearch (r : Re) (s : Str) : Option RSt := searchFrom r [] s

/-- `m.group(n)`; `none` for a group that did not participate. -/
def RSt.group (t : RSt) (n : Nat) : Option Str := t.caps.lookup n

/-- Group text in a replacement template (`\n`): empty if it did not participate. -/
def RSt.groupD (t : RSt) (n : Nat) : Str := (t.group n).getD []

/-- The scanner of a pattern: match length and replacement text. -/
def Re.scanner (r : Re) (f : Str → RSt → Str) (pre rest : Str) : Option (Nat × Str) :=
  match r.matchAt pre rest with
  | some t =>
    let k := rest.length - t.rest.length
    some (k, f (rest.take k) t)
  | none => none

/-- `re.sub(r, f, s)`; `f` gets the matched text and the groups. -/
def reSub (r : Re) (f : Str → RSt → Str) (s : Str) : Str := scanSub (r.scanner f) 0 [] s

/-- `re.sub(r, "constant", s)` -/
def reSubConst (r : Re) (new : Str) (s : Str) : Str := reSub r (fun _ _ => new) s

/-! ### Abbreviations used to write patterns -/

namespace Re
/-- a literal character -/
def c (x : Char) : Re := .chr (· == x)
/-- a literal string -/
def lit : Str → Re
  | [] => .eps
  | [x] => .c x
  | x :: xs => .seq (.c x) (lit xs)
/-- `[xyz]` -/
def oneOf (xs : List Char) : Re := .chr (fun y => xs.contains y)
/-- `.` without DOTALL -/
def dot : Re := .chr (· != '\n')
/-- `.` with DOTALL -/
def any : Re := .chr (fun _ => true)
/-- `\s` -/
def ws : Re := .chr isSpace
/-- `\d` -/
def d (U : Uni) : Re := .chr (isDigit U)
/-- `r*` -/
def many (r : Re) : Re := .star true r
/-- `r+` -/
def plus (r : Re) : Re := .seq r (.star true r)
/-- `r+?` -/
def plusLazy (r : Re) : Re := .seq r (.star false r)
/-- `r*?` -/
def manyLazy (r : Re) : Re := .star false r
/-- `r?` -/
def opt (r : Re) : Re := .alt r .eps
/-- concatenation of a list -/
def cat : List Re → Re
  | [] => .eps
  | [x] => x
  | x :: xs => .seq x (cat xs)
/-- alternatives of a non-empty list -/
def alts : List Re → Re
  | [] => .eps
  | [x] => x
  | x :: xs => .alt x (alts xs)
end Re

end Verif
