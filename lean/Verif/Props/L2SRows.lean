import Mathlib.Tactic.FieldSimp
import Verif.Props.L2SArith
import Verif.Spec.KernelRfl
/-
C65: the arrow of a matrix applies elementary row and column operations.
-/

namespace Verif.L2S
open Verif

/-! ### Specification -/

section spec
variable {K : Type}

/-- An elementary operation on lines (rows or columns) numbered from 0. -/
inductive EOp (K : Type) where
  /-- multiply line `i` by `k` -/
  | scale (i : Nat) (k : K)
  /-- exchange lines `i` and `j` -/
  | swap (i j : Nat)
  /-- add `k` times line `j` to line `i` -/
  | addMul (i : Nat) (k : K) (j : Nat)

/-- A row or column operation. -/
inductive LineOp (K : Type) where
  | row (op : EOp K)
  | col (op : EOp K)

/-- Effect on the rows of a matrix, given by its entries. -/
def EOp.onRows [Add K] [Mul K] : EOp K → (Nat → Nat → K) → Nat → Nat → K
  | .scale i k, e => fun r c => if r = i then k * e r c else e r c
  | .swap i j, e => fun r c => if r = i then e j c else if r = j then e i c else e r c
  | .addMul i k j, e => fun r c => if r = i then e r c + k * e j c else e r c

/-- Effect on a matrix. -/
def LineOp.apply [Add K] [Mul K] : LineOp K → (Nat → Nat → K) → Nat → Nat → K
  | .row op, e => op.onRows e
  | .col op, e => fun r c => op.onRows (fun a b => e b a) c r

/-- A sequence of operations, the first one first. -/
def applyAll [Add K] [Mul K] : List (LineOp K) → (Nat → Nat → K) → Nat → Nat → K
  | [], e => e
  | op :: ops, e => applyAll ops (op.apply e)

/-- The lines named by the operation exist (there are `n` lines), and the two lines of an exchange or
addition differ. -/
def EOp.Valid (n : Nat) : EOp K → Prop
  | .scale i _ => i < n
  | .swap i j => i < n ∧ j < n ∧ i ≠ j
  | .addMul i _ j => i < n ∧ j < n ∧ i ≠ j

/-- as `EOp.Valid`, for a matrix with `R` rows and `C` columns -/
def LineOp.Valid (R C : Nat) : LineOp K → Prop
  | .row op => op.Valid R
  | .col op => op.Valid C

/-- The inverse operation. -/
def EOp.inverse [Neg K] [Inv K] : EOp K → EOp K
  | .scale i k => .scale i k⁻¹
  | .swap i j => .swap i j
  | .addMul i k j => .addMul i (-k) j

/-- The inverse operation. -/
def LineOp.inverse [Neg K] [Inv K] : LineOp K → LineOp K
  | .row op => .row op.inverse
  | .col op => .col op.inverse

/-- The factor of a scaling is not zero. -/
def LineOp.Regular [Zero K] : LineOp K → Prop
  | .row (.scale _ k) => k ≠ 0
  | .col (.scale _ k) => k ≠ 0
  | _ => True

end spec

/-- `s` is the decimal text of the 1-based number of line `i`. -/
def LineNumber (s : Str) (i : Nat) : Prop :=
  ∃ ds : List (Fin 10), ds ≠ [] ∧ s = digitText ds ∧ intPart ds = (i : Rat) + 1

section
variable {K : Type} [Field K] (I : Interp K)

/-- The coefficient of a transform: an expression, or only a sign, or nothing. -/
inductive Coefficient (free : Str → Prop) : T → K → Prop
  | expr {t x} : Means I free t x → Coefficient free t x
  | one : Coefficient free .kAdd 1
  | minus : Coefficient free .kSub (-1)

/-- `Names I free t op`: the transform `t` of a matrix arrow, e.g. `2 r_1`, `r_1 \leftrightarrow r_2`,
`r_1 \leftarrow -3 r_2`, names the operation `op`. -/
inductive Names (free : Str → Prop) : T → LineOp K → Prop
  | scaleRow {k x s i} : Coefficient I free k x → LineNumber s i →
      Names free (.trScale k ⟨s%"r", s⟩) (.row (.scale i x))
  | scaleCol {k x s i} : Coefficient I free k x → LineNumber s i →
      Names free (.trScale k ⟨s%"c", s⟩) (.col (.scale i x))
  | swapRows {s i s' j} : LineNumber s i → LineNumber s' j →
      Names free (.trSwap ⟨s%"r", s⟩ ⟨s%"r", s'⟩) (.row (.swap i j))
  | swapCols {s i s' j} : LineNumber s i → LineNumber s' j →
      Names free (.trSwap ⟨s%"c", s⟩ ⟨s%"c", s'⟩) (.col (.swap i j))
  | addRow {k x s i s' j} : Coefficient I free k x → LineNumber s i → LineNumber s' j →
      Names free (.trAssign ⟨s%"r", s⟩ k ⟨s%"r", s'⟩) (.row (.addMul i x j))
  | addCol {k x s i s' j} : Coefficient I free k x → LineNumber s i → LineNumber s' j →
      Names free (.trAssign ⟨s%"c", s⟩ k ⟨s%"c", s'⟩) (.col (.addMul i x j))

/-- The transforms of a list, in order. -/
inductive NamesAll (free : Str → Prop) : List T → List (LineOp K) → Prop
  | nil : NamesAll free [] []
  | cons {t op ts ops} : Names I free t op → NamesAll free ts ops →
      NamesAll free (t :: ts) (op :: ops)

/-- The entries of the rows of a matrix. -/
inductive MeansRows (free : Str → Prop) : List (List T) → List (List K) → Prop
  | nil : MeansRows free [] []
  | cons {t x ts xs} : MeansAll I free t x → MeansRows free ts xs →
      MeansRows free (t :: ts) (x :: xs)

/-- SymPy's evaluating product and sum, and the `Matrix` constructor. -/
structure SoundMatrix {Y : Type} (L : Lib Y) : Prop where
  mul : ∀ a b : SV, a.scalar = true → b.scalar = true → ∀ y, ∃ v y', L.call s%"*" [a, b] y = (.ok v, y')
    ∧ v.scalar = true ∧ den I v = den I a * den I b
  add : ∀ a b : SV, a.scalar = true → b.scalar = true → ∀ y, ∃ v y', L.call s%"+" [a, b] y = (.ok v, y')
    ∧ v.scalar = true ∧ den I v = den I a + den I b
  /-- `Matrix(rows)` of rows of equal length keeps the entries -/
  matrix : ∀ rows : List (List SV), (∀ r ∈ rows, SV.scalars r = true) →
    (∀ r ∈ rows, ∀ r' ∈ rows, r.length = r'.length) → ∀ y,
    ∃ y', L.call s%"Matrix" (rows.map .list) y = (.ok (.mat rows), y')

/-- `v` is an explicit matrix with `R` rows, `C` columns and the given entries. -/
def IsMatrix (v : SV) (R C : Nat) (e : Nat → Nat → K) : Prop :=
  ∃ rows : List (List SV), v = .mat rows ∧ rows.length = R ∧ (∀ r ∈ rows, r.length = C) ∧
    (∀ r ∈ rows, SV.scalars r = true) ∧
    ∀ r c, r < R → c < C → ∃ row x, rows[r]? = some row ∧ row[c]? = some x ∧ den I x = e r c

end

/-! ### The operations are invertible -/

theorem EOp.onRows_inverse {K : Type} [Field K] (op : EOp K)
    (h : ∀ i k, op = .scale i k → k ≠ 0) (hv : ∀ i k j, op = .addMul i k j → i ≠ j)
    (e : Nat → Nat → K) : op.inverse.onRows (op.onRows e) = e := by
  funext r c
  cases op with
  | scale i k =>
    have := h i k rfl
    simp only [EOp.inverse, EOp.onRows]
    split <;> rename_i hr
    · field_simp
    · rfl
  | swap i j =>
    simp only [EOp.inverse, EOp.onRows]
    by_cases h1 : r = i
    · subst h1
      by_cases h2 : j = r
      · subst h2; simp
      · simp [h2]
    · by_cases h2 : r = j
      · subst h2; simp [h1]
      · simp [h1, h2]
  | addMul i k j =>
    have := hv i k j rfl
    simp only [EOp.inverse, EOp.onRows]
    split <;> rename_i hr
    · simp [Ne.symm this]
    · rfl

/-- **C65, invertibility.**  Every valid operation (with a nonzero factor) is undone by its inverse;
the inverse of an exchange is the exchange itself. -/
theorem C65_inverse {K : Type} [Field K] (op : LineOp K) {R C : Nat} (hv : op.Valid R C)
    (hr : op.Regular) (e : Nat → Nat → K) : op.inverse.apply (op.apply e) = e := by
  cases op with
  | row op =>
    refine EOp.onRows_inverse op ?_ ?_ e
    · rintro i k rfl; exact hr
    · rintro i k j rfl; exact hv.2.2
  | col op =>
    funext r c
    have := EOp.onRows_inverse op (by rintro i k rfl; exact hr) (by rintro i k j rfl; exact hv.2.2)
      (fun a b => e b a)
    exact congrFun (congrFun this c) r

/-- exchanging twice is the identity -/
theorem C65_swap_twice {K : Type} [Field K] (i j : Nat) (e : Nat → Nat → K) :
    (LineOp.row (.swap i j)).apply ((LineOp.row (.swap i j)).apply e) = e ∧
    (LineOp.col (.swap i j)).apply ((LineOp.col (.swap i j)).apply e) = e := by
  have h := fun e : Nat → Nat → K => EOp.onRows_inverse (.swap i j) (by simp) (by simp) e
  constructor
  · exact h e
  · funext r c; exact congrFun (congrFun (h fun a b => e b a) c) r

/-! ### Lemmas -/

section
variable {K : Type} [Field K] (I : Interp K) {Y : Type} {L : Lib Y}

/-- `m` returns a value with the property, keeping the globals (except the derivative flags) and the
output. -/
def Returns {α : Type} (m : M (St Y) α) (w : World (St Y)) (P : α → Prop) : Prop :=
  ∃ v w', m w = (.ok v, w') ∧ P v ∧ SameG w.ext.g w'.ext.g ∧ w'.out = w.out

theorem Returns.pure {α : Type} {v : α} {w : World (St Y)} {P : α → Prop} (h : P v) :
    Returns (Pure.pure v : M (St Y) α) w P := ⟨v, w, rfl, h, SameG.refl _, rfl⟩

theorem Returns.bind {α β : Type} {m : M (St Y) α} {w : World (St Y)} {P : α → Prop} {Q : β → Prop}
    {f : α → M (St Y) β} (h : Returns m w P)
    (hf : ∀ v w', P v → SameG w.ext.g w'.ext.g → Returns (f v) w' Q) : Returns (m >>= f) w Q := by
  obtain ⟨v, w', h1, h2, h3, h4⟩ := h
  obtain ⟨u, w'', g1, g2, g3, g4⟩ := hf v w' h2 h3
  exact ⟨u, w'', by rw [M.bind_run, h1]; exact g1, g2, h3.trans g3, g4.trans h4⟩

theorem Returns.mono {α : Type} {m : M (St Y) α} {w : World (St Y)} {P Q : α → Prop}
    (h : Returns m w P) (hq : ∀ v, P v → Q v) : Returns m w Q := by
  obtain ⟨v, w', h1, h2, h3, h4⟩ := h
  exact ⟨v, w', h1, hq v h2, h3, h4⟩

theorem returns_ev {f : Str} {args : List SV} {w : World (St Y)} {P : SV → Prop}
    (h : ∀ y, ∃ v y', L.call f args y = (.ok v, y') ∧ P v) : Returns (L.ev f args) w P := by
  obtain ⟨v, y', h1, h2⟩ := h w.ext.lib
  refine ⟨v, ⟨⟨w.ext.g, y'⟩, w.out⟩, ?_, h2, SameG.refl _, rfl⟩
  simp [Lib.ev, libExt, M.ext, h1]

theorem Yields.returns {m : M (St Y) SV} {w : World (St Y)} {x : K} (h : Yields I m w x) :
    Returns m w fun v => v.scalar = true ∧ den I v = x := by
  obtain ⟨v, w', h1, h2, h3, h4, h5⟩ := h
  exact ⟨v, w', h1, ⟨h2, h3⟩, h4, h5⟩

/-- a row with the given values -/
def IsRow (row : List SV) (C : Nat) (f : Nat → K) : Prop :=
  row.length = C ∧ SV.scalars row = true ∧ ∀ c, c < C → ∃ x, row[c]? = some x ∧ den I x = f c

variable {I}

theorem IsRow.nil (f : Nat → K) : IsRow I [] 0 f := ⟨rfl, rfl, fun c h => absurd h (by omega)⟩

theorem IsRow.cons {v : SV} {row : List SV} {C : Nat} {f : Nat → K} (hv : v.scalar = true)
    (hd : den I v = f 0) (h : IsRow I row C fun c => f (c + 1)) : IsRow I (v :: row) (C + 1) f := by
  obtain ⟨h1, h2, h3⟩ := h
  refine ⟨by simp [h1], by simp [SV.scalars, hv, h2], ?_⟩
  intro c hc
  cases c with
  | zero => exact ⟨v, by simp, hd⟩
  | succ c => obtain ⟨x, hx, hx'⟩ := h3 c (by omega); exact ⟨x, by simpa using hx, hx'⟩

theorem IsRow.uncons {v : SV} {row : List SV} {C : Nat} {f : Nat → K}
    (h : IsRow I (v :: row) C f) :
    v.scalar = true ∧ den I v = f 0 ∧ ∃ D, C = D + 1 ∧ IsRow I row D fun c => f (c + 1) := by
  obtain ⟨h1, h2, h3⟩ := h
  simp only [SV.scalars, Bool.and_eq_true] at h2
  simp only [List.length_cons] at h1
  subst h1
  obtain ⟨x, hx, hx'⟩ := h3 0 (by omega)
  simp only [List.getElem?_cons_zero, Option.some.injEq] at hx
  subst hx
  refine ⟨h2.1, hx', row.length, rfl, rfl, h2.2, ?_⟩
  intro c hc
  obtain ⟨x, hx, hx'⟩ := h3 (c + 1) (by omega)
  exact ⟨x, by simpa using hx, hx'⟩

theorem IsRow.of_eq {row : List SV} {C : Nat} {f g : Nat → K} (h : IsRow I row C f)
    (e : ∀ c, c < C → f c = g c) : IsRow I row C g :=
  ⟨h.1, h.2.1, fun c hc => by
    obtain ⟨x, hx, hx'⟩ := h.2.2 c hc; exact ⟨x, hx, hx'.trans (e c hc)⟩⟩

theorem scaleRow_spec (hM : SoundMatrix I L) {k : SV} (hk : k.scalar = true) :
    ∀ (row : List SV) {C : Nat} {f : Nat → K}, IsRow I row C f → ∀ w : World (St Y),
      Returns (scaleRow L k row) w fun r => IsRow I r C fun c => den I k * f c
  | [], C, f, h, w => by
    obtain rfl : 0 = C := h.1
    exact Returns.pure (IsRow.nil _)
  | x :: xs, C, f, h, w => by
    obtain ⟨hx, hd, D, rfl, hr⟩ := h.uncons
    rw [scaleRow]
    refine (returns_ev fun y => hM.mul k x hk hx y).bind fun p w1 hp _ => ?_
    refine (scaleRow_spec hM hk xs hr w1).bind fun ps w2 hps _ => ?_
    exact Returns.pure (IsRow.cons hp.1 (by rw [hp.2, hd]) hps)

theorem addScaledRow_spec (hM : SoundMatrix I L) {k : SV} (hk : k.scalar = true) :
    ∀ (a b : List SV) {C : Nat} {f g : Nat → K}, IsRow I a C f → IsRow I b C g →
      ∀ w : World (St Y),
      Returns (addScaledRow L k a b) w fun r => IsRow I r C fun c => f c + den I k * g c
  | [], b, C, f, g, h, h', w => by
    obtain rfl : 0 = C := h.1
    rw [addScaledRow]
    · exact Returns.pure (IsRow.nil _)
    · intro x xs y ys e; cases e
  | x :: xs, [], C, f, g, h, h', w => by
    have h1 := h.1
    have h2 := h'.1
    simp only [List.length_cons, List.length_nil] at h1 h2
    omega
  | x :: xs, y :: ys, C, f, g, h, h', w => by
    obtain ⟨hx, hd, D, rfl, hr⟩ := h.uncons
    obtain ⟨hy, hd', D', e, hr'⟩ := h'.uncons
    obtain rfl : D = D' := by omega
    rw [addScaledRow]
    refine (returns_ev fun u => hM.mul k y hk hy u).bind fun p w1 hp _ => ?_
    refine (returns_ev fun u => hM.add x p hx hp.1 u).bind fun z w2 hz _ => ?_
    refine (addScaledRow_spec hM hk xs ys hr hr' w2).bind fun zs w3 hzs _ => ?_
    exact Returns.pure (IsRow.cons hz.1 (by rw [hz.2, hd, hp.2, hd']) hzs)

variable (I) in
/-- the rows of a matrix, one by one -/
def IsRows (rows : List (List SV)) (R C : Nat) (e : Nat → Nat → K) : Prop :=
  rows.length = R ∧ ∀ r, r < R → ∃ row, rows[r]? = some row ∧ IsRow I row C (e r)

theorem isMatrix_iff {v : SV} {R C : Nat} {e : Nat → Nat → K} :
    IsMatrix I v R C e ↔ ∃ rows, v = .mat rows ∧ IsRows I rows R C e := by
  constructor
  · rintro ⟨rows, rfl, h1, h2, h3, h4⟩
    refine ⟨rows, rfl, h1, fun r hr => ?_⟩
    have hl : r < rows.length := by omega
    refine ⟨rows[r], by simp [hl], h2 _ (List.getElem_mem hl), h3 _ (List.getElem_mem hl), ?_⟩
    intro c hc
    obtain ⟨row, x, e1, e2, e3⟩ := h4 r c hr hc
    rw [List.getElem?_eq_getElem hl, Option.some.injEq] at e1
    exact ⟨x, by rw [e1]; exact e2, e3⟩
  · rintro ⟨rows, rfl, h1, h2⟩
    have key : ∀ row ∈ rows, ∃ r, r < R ∧ IsRow I row C (e r) := by
      intro row hm
      obtain ⟨r, hr, rfl⟩ := List.getElem_of_mem hm
      obtain ⟨row, e1, e2⟩ := h2 r (by omega)
      rw [List.getElem?_eq_getElem hr, Option.some.injEq] at e1
      subst e1
      exact ⟨r, by omega, e2⟩
    refine ⟨rows, rfl, h1, fun r hr => ?_, fun r hr => ?_, fun r c hr hc => ?_⟩
    · obtain ⟨i, -, h⟩ := key r hr; exact h.1
    · obtain ⟨i, -, h⟩ := key r hr; exact h.2.1
    · obtain ⟨row, e1, e2⟩ := h2 r hr
      obtain ⟨x, e3, e4⟩ := e2.2.2 c hc
      exact ⟨row, x, e1, e3, e4⟩

theorem IsRows.of_eq {rows : List (List SV)} {R C : Nat} {e e' : Nat → Nat → K}
    (h : IsRows I rows R C e) (he : ∀ r c, r < R → c < C → e r c = e' r c) :
    IsRows I rows R C e' :=
  ⟨h.1, fun r hr => by
    obtain ⟨row, h1, h2⟩ := h.2 r hr
    exact ⟨row, h1, h2.of_eq fun c hc => he r c hr hc⟩⟩

theorem IsRows.get {rows : List (List SV)} {R C : Nat} {e : Nat → Nat → K}
    (h : IsRows I rows R C e) {i : Nat} (hi : i < R) : IsRow I (rows.getD i []) C (e i) := by
  obtain ⟨row, h1, h2⟩ := h.2 i hi
  rw [List.getD_eq_getElem?_getD, h1]; exact h2

theorem IsRows.set {rows : List (List SV)} {R C : Nat} {e : Nat → Nat → K}
    (h : IsRows I rows R C e) {i : Nat} (hi : i < R) {row : List SV} {f : Nat → K}
    (hr : IsRow I row C f) : IsRows I (rows.set i row) R C fun r c => if r = i then f c else e r c := by
  refine ⟨by simp [h.1], fun r hr' => ?_⟩
  by_cases hri : r = i
  · subst hri
    refine ⟨row, ?_, hr.of_eq fun c _ => by simp⟩
    rw [List.getElem?_set_self (by rw [h.1]; exact hi)]
  · obtain ⟨row', h1, h2⟩ := h.2 r hr'
    refine ⟨row', ?_, h2.of_eq fun c _ => by simp [hri]⟩
    rw [List.getElem?_set_ne (Ne.symm hri)]; exact h1

/-- the model's operation for an operation of the specification -/
inductive OpFor (I : Interp K) : RowOp → EOp K → Prop
  | scale {i : Nat} {k : SV} : k.scalar = true → OpFor I (.scale i k) (.scale i (den I k))
  | swap {i j : Nat} : OpFor I (.swap i j) (.swap i j)
  | addMul {i j : Nat} {k : SV} : k.scalar = true → OpFor I (.addMul i k j) (.addMul i (den I k) j)

theorem rowOp_spec (hM : SoundMatrix I L) {rows : List (List SV)} {R C : Nat} {e : Nat → Nat → K}
    (h : IsRows I rows R C e) {o : RowOp} {op : EOp K} (ho : OpFor I o op) (hv : op.Valid R)
    (w : World (St Y)) : Returns (rowOp L rows o) w fun r => IsRows I r R C (op.onRows e) := by
  have hin : ∀ {i : Nat}, i < R → inRange (i : Int) rows.length = true := by
    intro i hi; simp [inRange, h.1, hi]
  cases ho with
  | @scale i k hk =>
    have hi : i < R := hv
    rw [rowOp, if_pos (hin hi)]
    refine (scaleRow_spec hM hk _ (h.get hi) w).bind fun r w1 hr _ => ?_
    refine Returns.pure ((h.set hi hr).of_eq fun r c _ _ => ?_)
    simp only [EOp.onRows]
    split
    · rename_i e; rw [e]
    · rfl
  | @swap i j =>
    obtain ⟨hi, hj, hne⟩ := hv
    rw [rowOp, if_pos (by simp [hin hi, hin hj, hne])]
    refine Returns.pure (((h.set hi (h.get hj)).set hj (h.get hi)).of_eq fun r c _ _ => ?_)
    simp only [EOp.onRows]
    by_cases h1 : r = i
    · subst h1; simp [hne]
    · by_cases h2 : r = j
      · subst h2; simp [h1]
      · simp [h1, h2]
  | @addMul i j k hk =>
    obtain ⟨hi, hj, hne⟩ := hv
    rw [rowOp, if_pos (by simp [hin hi, hin hj, hne])]
    refine (addScaledRow_spec hM hk _ _ (h.get hi) (h.get hj) w).bind fun r w1 hr _ => ?_
    refine Returns.pure ((h.set hi hr).of_eq fun r c _ _ => ?_)
    simp only [EOp.onRows]
    split
    · rename_i e; rw [e]
    · rfl

theorem IsRows.transpose {rows : List (List SV)} {R C : Nat} {e : Nat → Nat → K}
    (h : IsRows I rows R C e) (hR : 0 < R) : IsRows I (transposeRows rows) C R fun r c => e c r := by
  have hcol : colCount rows = C := by
    obtain ⟨row, h1, h2⟩ := h.2 0 hR
    rw [colCount, List.head?_eq_getElem?, h1]; exact h2.1
  refine ⟨by simp [transposeRows, hcol], fun j hj => ?_⟩
  refine ⟨rows.map fun r => r.getD j .none, by simp [transposeRows, hcol, hj], by simp [h.1], ?_, ?_⟩
  · rw [scalars_iff]
    intro v hv
    obtain ⟨row, hm, rfl⟩ := List.mem_map.1 hv
    obtain ⟨r, hr, rfl⟩ := List.getElem_of_mem hm
    obtain ⟨row, e1, e2⟩ := h.2 r (by rw [← h.1]; exact hr)
    rw [List.getElem?_eq_getElem hr, Option.some.injEq] at e1
    subst e1
    obtain ⟨x, hx, -⟩ := e2.2.2 j hj
    rw [List.getD_eq_getElem?_getD, hx]
    exact scalars_iff.1 e2.2.1 x (List.mem_of_getElem? hx)
  · intro i hi
    obtain ⟨row, e1, e2⟩ := h.2 i hi
    obtain ⟨x, hx, hx'⟩ := e2.2.2 j hj
    refine ⟨x, ?_, hx'⟩
    rw [List.getElem?_map, e1, Option.map_some, List.getD_eq_getElem?_getD, hx]; rfl

/-- one line operation -/
theorem elementaryOp_row (hM : SoundMatrix I L) {m : SV} {R C : Nat} {e : Nat → Nat → K}
    (h : IsMatrix I m R C e) {o : RowOp} {op : EOp K} (ho : OpFor I o op) (hv : op.Valid R)
    (w : World (St Y)) :
    Returns (elementaryOp L s%"r" m o) w fun v => IsMatrix I v R C (LineOp.apply (.row op) e) := by
  obtain ⟨rows, rfl, hr⟩ := isMatrix_iff.1 h
  rw [elementaryOp, if_pos rfl]
  refine (rowOp_spec hM hr ho hv w).bind fun r w1 hr' _ => ?_
  exact Returns.pure (isMatrix_iff.2 ⟨r, rfl, hr'⟩)

omit [Field K] in
theorem EOp.Valid.pos {n : Nat} {op : EOp K} (h : op.Valid n) : 0 < n := by
  cases op with
  | scale i k => have : i < n := h; omega
  | swap i j => have : i < n := h.1; omega
  | addMul i k j => have : i < n := h.1; omega

theorem elementaryOp_col (hM : SoundMatrix I L) {m : SV} {R C : Nat} (hR : 0 < R)
    {e : Nat → Nat → K} (h : IsMatrix I m R C e) {o : RowOp} {op : EOp K} (ho : OpFor I o op)
    (hv : op.Valid C) (w : World (St Y)) :
    Returns (elementaryOp L s%"c" m o) w fun v => IsMatrix I v R C (LineOp.apply (.col op) e) := by
  obtain ⟨rows, rfl, hr⟩ := isMatrix_iff.1 h
  rw [elementaryOp, if_neg (by decide), if_pos rfl]
  refine (rowOp_spec hM (hr.transpose hR) ho hv w).bind fun r w1 hr' _ => ?_
  exact Returns.pure (isMatrix_iff.2 ⟨_, rfl, hr'.transpose hv.pos⟩)

theorem trIndex_number (hN : L.hasNUMBER = true) {s : Str} {i : Nat} (h : LineNumber s i) (l : Str) :
    trIndex L ⟨l, s⟩ = pure (i : Int) := by
  obtain ⟨ds, hne, rfl, hv⟩ := h
  obtain ⟨n, h1, h2⟩ := natOfText_digits ds 0
  have hn : n = i + 1 := by
    have : (n : Rat) = (i : Rat) + 1 := by rw [h2, hv]; simp
    exact_mod_cast this
  simp only [trIndex, hN, if_true, h1, digitText_isEmpty hne]
  simp [hn]

theorem coefficient_yields [CharZero K] (hL : SoundLib I L)
    (rec : Str → List (Str × PV) → M (St Y) SV) {free : Str → Prop} {t : T} {x : K}
    (h : Coefficient I free t x) (w : World (St Y)) (hw : Ready I free w) :
    Yields I (conv L rec t) w x := by
  cases h with
  | expr h => exact C62_conversion_partial I L hL rec h w hw
  | one => rw [conv]; exact ⟨.num 1, w, rfl, rfl, by simp [den], SameG.refl _, rfl⟩
  | minus => rw [conv]; exact ⟨.num (-1), w, rfl, rfl, by simp [den], SameG.refl _, rfl⟩

/-- one transform of the arrow -/
theorem convTransform_spec [CharZero K] (hL : SoundLib I L) (hM : SoundMatrix I L)
    (hN : L.hasNUMBER = true) (rec : Str → List (Str × PV) → M (St Y) SV) {free : Str → Prop}
    {t : T} {op : LineOp K} (h : Names I free t op) {m : SV} {R C : Nat} (hR : 0 < R)
    {e : Nat → Nat → K} (hm : IsMatrix I m R C e) (hv : op.Valid R C) (w : World (St Y))
    (hw : Ready I free w) :
    Returns (convTransform L rec m t) w fun v => IsMatrix I v R C (op.apply e) := by
  cases h with
  | @scaleRow k x s i hk hi =>
    rw [convTransform, trIndex_number hN hi]
    show Returns (conv L rec k >>= fun kv => elementaryOp L s%"r" m (.scale i kv)) w _
    refine (coefficient_yields hL rec hk w hw).returns.bind fun kv w1 hkv _ => ?_
    obtain ⟨h1, rfl⟩ := hkv
    exact elementaryOp_row hM hm (.scale h1) hv w1
  | @scaleCol k x s i hk hi =>
    rw [convTransform, trIndex_number hN hi]
    show Returns (conv L rec k >>= fun kv => elementaryOp L s%"c" m (.scale i kv)) w _
    refine (coefficient_yields hL rec hk w hw).returns.bind fun kv w1 hkv _ => ?_
    obtain ⟨h1, rfl⟩ := hkv
    exact elementaryOp_col hM hR hm (.scale h1) hv w1
  | @swapRows s i s' j hi hj =>
    rw [convTransform, trIndex_number hN hi, trIndex_number hN hj]
    exact elementaryOp_row hM hm .swap hv w
  | @swapCols s i s' j hi hj =>
    rw [convTransform, trIndex_number hN hi, trIndex_number hN hj]
    exact elementaryOp_col hM hR hm .swap hv w
  | @addRow k x s i s' j hk hi hj =>
    rw [convTransform, trIndex_number hN hi, trIndex_number hN hj]
    show Returns (conv L rec k >>= fun kv => elementaryOp L s%"r" m (.addMul i kv j)) w _
    refine (coefficient_yields hL rec hk w hw).returns.bind fun kv w1 hkv _ => ?_
    obtain ⟨h1, rfl⟩ := hkv
    exact elementaryOp_row hM hm (.addMul h1) hv w1
  | @addCol k x s i s' j hk hi hj =>
    rw [convTransform, trIndex_number hN hi, trIndex_number hN hj]
    show Returns (conv L rec k >>= fun kv => elementaryOp L s%"c" m (.addMul i kv j)) w _
    refine (coefficient_yields hL rec hk w hw).returns.bind fun kv w1 hkv _ => ?_
    obtain ⟨h1, rfl⟩ := hkv
    exact elementaryOp_col hM hR hm (.addMul h1) hv w1

/-- a list of transforms, in order -/
theorem convTransforms_spec [CharZero K] (hL : SoundLib I L) (hM : SoundMatrix I L)
    (hN : L.hasNUMBER = true) (rec : Str → List (Str × PV) → M (St Y) SV) {free : Str → Prop}
    {R C : Nat} (hR : 0 < R) {ts : List T} {ops : List (LineOp K)} (h : NamesAll I free ts ops) :
    ∀ {m : SV} {e : Nat → Nat → K}, IsMatrix I m R C e → (∀ op ∈ ops, op.Valid R C) →
      ∀ w : World (St Y), Ready I free w →
      Returns (convTransforms L rec ts m) w fun v => IsMatrix I v R C (applyAll ops e) := by
  induction h with
  | nil => intro m e hm _ w _; rw [convTransforms]; exact Returns.pure hm
  | cons hn _ ih =>
    intro m e hm hv w hw
    rw [convTransforms]
    refine (convTransform_spec hL hM hN rec hn hR hm (hv _ (by simp)) w hw).bind
      fun m1 w1 hm1 hs => ?_
    exact ih hm1 (fun op ho => hv op (by simp [ho])) w1 (hw.keep hs)

/-- the entries of a row -/
theorem convList_spec [CharZero K] (hL : SoundLib I L)
    (rec : Str → List (Str × PV) → M (St Y) SV) {free : Str → Prop} {ts : List T} {xs : List K}
    (h : MeansAll I free ts xs) :
    ∀ w : World (St Y), Ready I free w →
      Returns (convList L rec ts) w fun vs => SV.scalars vs = true ∧ denList I vs = xs := by
  induction h with
  | nil => intro w _; rw [convList]; exact Returns.pure ⟨rfl, rfl⟩
  | cons h _ ih =>
    intro w hw
    rw [convList]
    refine (C62_conversion_partial I L hL rec h w hw).returns.bind fun v w1 hv hs => ?_
    refine (ih w1 (hw.keep hs)).bind fun vs w2 hvs _ => ?_
    exact Returns.pure ⟨by simp [SV.scalars, hv.1, hvs.1], by simp [denList, hv.2, hvs.2]⟩

/-- the rows -/
theorem convRows_spec [CharZero K] (hL : SoundLib I L)
    (rec : Str → List (Str × PV) → M (St Y) SV) {free : Str → Prop} {ts : List (List T)}
    {xs : List (List K)} (h : MeansRows I free ts xs) :
    ∀ w : World (St Y), Ready I free w →
      Returns (convRows L rec ts) w fun rows =>
        (∀ r ∈ rows, SV.scalars r = true) ∧ rows.map (denList I) = xs := by
  induction h with
  | nil => intro w _; rw [convRows]; exact Returns.pure ⟨by simp, rfl⟩
  | cons h _ ih =>
    intro w hw
    rw [convRows]
    refine (convList_spec hL rec h w hw).bind fun v w1 hv hs => ?_
    refine (ih w1 (hw.keep hs)).bind fun vs w2 hvs _ => ?_
    refine Returns.pure ⟨?_, by simp [hv.2, hvs.2]⟩
    intro r hr
    rcases List.mem_cons.1 hr with rfl | hr
    · exact hv.1
    · exact hvs.1 r hr

theorem denList_eq_map (vs : List SV) : denList I vs = vs.map (den I) := by
  induction vs with
  | nil => rfl
  | cons v vs ih => simp [denList, ih]

variable (I) in
/-- the matrix tree without its arrow -/
theorem matrix_spec [CharZero K] (hL : SoundLib I L) (hM : SoundMatrix I L)
    (rec : Str → List (Str × PV) → M (St Y) SV) {free : Str → Prop} {ts : List (List T)}
    {xs : List (List K)} (h : MeansRows I free ts xs) {C : Nat} (hC : ∀ r ∈ xs, r.length = C)
    (w : World (St Y)) (hw : Ready I free w) :
    Returns (convRows L rec ts >>= fun rs => L.ev s%"Matrix" (rs.map .list)) w fun v =>
      IsMatrix I v xs.length C fun r c => (xs.getD r []).getD c 0 := by
  refine (convRows_spec hL rec h w hw).bind fun rows w1 hr _ => ?_
  obtain ⟨h1, h2⟩ := hr
  subst h2
  have hlen : ∀ r ∈ rows, r.length = C := by
    intro r hr
    have := hC (denList I r) (List.mem_map.2 ⟨r, hr, rfl⟩)
    rw [denList_eq_map, List.length_map] at this
    exact this
  refine returns_ev fun y => ?_
  obtain ⟨y', hy⟩ := hM.matrix rows h1 (fun r hr r' hr' => by rw [hlen r hr, hlen r' hr']) y
  refine ⟨_, y', hy, rows, rfl, by simp, hlen, h1, ?_⟩
  intro r c hr hc
  rw [List.length_map] at hr
  have hc' : c < rows[r].length := by rw [hlen _ (List.getElem_mem hr)]; exact hc
  refine ⟨rows[r], rows[r][c], by simp [hr], by simp [hc'], ?_⟩
  simp [List.getD_eq_getElem?_getD, hr, denList_eq_map, hc']

end

/-! ### The theorems -/

section
variable {K : Type} [Field K] (I : Interp K) {Y : Type} {L : Lib Y}

/-- The operations named by an arrow, the first one first: with two lists, the second list comes
first. -/
inductive ArrowNames (free : Str → Prop) : List (List T) → List (LineOp K) → Prop
  | none : ArrowNames free [] []
  | one {a ops} : NamesAll I free a ops → ArrowNames free [a] ops
  | two {a b ops ops'} : NamesAll I free a ops → NamesAll I free b ops' →
      ArrowNames free [a, b] (ops' ++ ops)

theorem applyAll_append {K : Type} [Add K] [Mul K] (a b : List (LineOp K)) (e : Nat → Nat → K) :
    applyAll (a ++ b) e = applyAll b (applyAll a e) := by
  induction a generalizing e with
  | nil => rfl
  | cons op a ih => simp [applyAll, ih]

/-- **C65, operations.**  A matrix with an arrow is converted to the matrix to which the named row and
column operations are applied in order, for every matrix (at least one row), every list of transforms
and every state left by earlier calls.  Partial: this needs a parser whose `transform_atom` has the
accessor `NUMBER` (as in gen_orig); the pinned gen/PSParser.py has not, see `C65_pinned_refuted`. -/
theorem C65_operations_partial [CharZero K] (hL : SoundLib I L) (hM : SoundMatrix I L)
    (hN : L.hasNUMBER = true) (rec : Str → List (Str × PV) → M (St Y) SV) {free : Str → Prop}
    {ts : List (List T)} {xs : List (List K)} (h : MeansRows I free ts xs) (hne : xs ≠ []) {C : Nat}
    (hC : ∀ r ∈ xs, r.length = C) {arrow : List (List T)} {ops : List (LineOp K)}
    (ha : ArrowNames I free arrow ops) (hv : ∀ op ∈ ops, op.Valid xs.length C) (w : World (St Y))
    (hw : Ready I free w) :
    ∃ v w', conv L rec (.matrix ts arrow) w = (.ok v, w') ∧
      IsMatrix I v xs.length C (applyAll ops fun r c => (xs.getD r []).getD c 0) := by
  have hR : 0 < xs.length := List.length_pos_iff.2 hne
  suffices H : Returns (conv L rec (.matrix ts arrow)) w fun v =>
      IsMatrix I v xs.length C (applyAll ops fun r c => (xs.getD r []).getD c 0) by
    obtain ⟨v, w', h1, h2, -, -⟩ := H
    exact ⟨v, w', h1, h2⟩
  have base := matrix_spec I hL hM rec h hC w hw
  have assoc : ∀ f : SV → M (St Y) SV,
      (convRows L rec ts >>= fun rs => L.ev s%"Matrix" (rs.map .list) >>= f)
        = ((convRows L rec ts >>= fun rs => L.ev s%"Matrix" (rs.map .list)) >>= f) := by
    intro f; funext w
    simp only [M.bind_run]
    rcases convRows L rec ts w with ⟨_ | v, w'⟩ <;> rfl
  cases ha with
  | none =>
    rw [conv, assoc]
    exact base.bind fun m w1 hm _ => Returns.pure hm
  | one ha =>
    rw [conv, assoc]
    refine base.bind fun m w1 hm hs => ?_
    exact convTransforms_spec hL hM hN rec hR ha hm hv w1 (hw.keep hs)
  | @two a b ops ops' ha hb =>
    rw [conv, assoc]
    refine base.bind fun m w1 hm hs => ?_
    have hw1 : Ready I free w1 := hw.keep hs
    refine (convTransforms_spec hL hM hN rec hR hb hm (fun op ho => hv op (by simp [ho])) w1
      hw1).bind fun m2 w2 hm2 hs2 => ?_
    rw [applyAll_append]
    exact convTransforms_spec hL hM hN rec hR ha hm2 (fun op ho => hv op (by simp [ho])) w2
      (hw1.keep hs2)

/-- `m` raises `e`. -/
def Raises {α : Type} (m : M (St Y) α) (w : World (St Y)) (e : PyErr) : Prop := (m w).1 = .error e

theorem Returns.bind_raises {α β : Type} {m : M (St Y) α} {w : World (St Y)} {P : α → Prop}
    {f : α → M (St Y) β} {e : PyErr} (h : Returns m w P)
    (hf : ∀ v w', P v → SameG w.ext.g w'.ext.g → Raises (f v) w' e) : Raises (m >>= f) w e := by
  obtain ⟨v, w', h1, h2, h3, h4⟩ := h
  have := hf v w' h2 h3
  rw [Raises, M.bind_run, h1]; exact this

theorem Raises.bind {α β : Type} {m : M (St Y) α} {w : World (St Y)} {f : α → M (St Y) β} {e : PyErr}
    (h : Raises m w e) : Raises (m >>= f) w e := by
  rw [Raises, M.bind_run]
  rw [Raises] at h
  rcases hm : m w with ⟨_ | v, w'⟩
  · rw [hm] at h; cases h; rfl
  · rw [hm] at h; cases h

theorem rowOp_invalid {rows : List (List SV)} {n : Nat} (hn : rows.length = n) {o : RowOp} {op : EOp K}
    (ho : OpFor I o op) (hv : ¬ op.Valid n) (w : World (St Y)) :
    Raises (rowOp L rows o) w .valueError := by
  subst hn
  cases ho with
  | @scale i k hk =>
    have : ¬ i < rows.length := hv
    rw [rowOp, if_neg (by simpa [inRange] using this)]; rfl
  | @swap i j =>
    have : ¬ (i < rows.length ∧ j < rows.length ∧ i ≠ j) := hv
    rw [rowOp, if_neg (by simpa [inRange, and_assoc] using this)]; rfl
  | @addMul i j k hk =>
    have : ¬ (i < rows.length ∧ j < rows.length ∧ i ≠ j) := hv
    rw [rowOp, if_neg (by simpa [inRange, and_assoc] using this)]; rfl

theorem elementaryOp_invalid_row {m : SV} {R C : Nat} {e : Nat → Nat → K} (hm : IsMatrix I m R C e)
    {o : RowOp} {op : EOp K} (ho : OpFor I o op) (hv : ¬ op.Valid R) (w : World (St Y)) :
    Raises (elementaryOp L s%"r" m o) w .valueError := by
  obtain ⟨rows, rfl, hr⟩ := isMatrix_iff.1 hm
  rw [elementaryOp, if_pos rfl]
  exact Raises.bind (rowOp_invalid I hr.1 ho hv w)

theorem elementaryOp_invalid_col {m : SV} {R C : Nat} (hR : 0 < R) {e : Nat → Nat → K}
    (hm : IsMatrix I m R C e) {o : RowOp} {op : EOp K} (ho : OpFor I o op) (hv : ¬ op.Valid C)
    (w : World (St Y)) : Raises (elementaryOp L s%"c" m o) w .valueError := by
  obtain ⟨rows, rfl, hr⟩ := isMatrix_iff.1 hm
  rw [elementaryOp, if_neg (by decide), if_pos rfl]
  exact Raises.bind (rowOp_invalid I (hr.transpose hR).1 ho hv w)

/-- **C65, line numbers out of range.**  A transform naming a line that does not exist, or exchanging
or adding a line with itself, raises `ValueError`: it is never silently applied to another line. -/
theorem C65_invalid [CharZero K] (hL : SoundLib I L)
    (hN : L.hasNUMBER = true) (rec : Str → List (Str × PV) → M (St Y) SV) {free : Str → Prop}
    {t : T} {op : LineOp K} (h : Names I free t op) {m : SV} {R C : Nat} (hR : 0 < R)
    {e : Nat → Nat → K} (hm : IsMatrix I m R C e) (hv : ¬ op.Valid R C) (w : World (St Y))
    (hw : Ready I free w) :
    (convTransform L rec m t w).1 = .error .valueError := by
  cases h with
  | @scaleRow k x s i hk hi =>
    rw [convTransform, trIndex_number hN hi]
    show Raises (conv L rec k >>= fun kv => elementaryOp L s%"r" m (.scale i kv)) w _
    refine (coefficient_yields hL rec hk w hw).returns.bind_raises fun kv w1 hkv _ => ?_
    obtain ⟨h1, rfl⟩ := hkv
    exact elementaryOp_invalid_row I hm (.scale h1) hv w1
  | @scaleCol k x s i hk hi =>
    rw [convTransform, trIndex_number hN hi]
    show Raises (conv L rec k >>= fun kv => elementaryOp L s%"c" m (.scale i kv)) w _
    refine (coefficient_yields hL rec hk w hw).returns.bind_raises fun kv w1 hkv _ => ?_
    obtain ⟨h1, rfl⟩ := hkv
    exact elementaryOp_invalid_col I hR hm (.scale h1) hv w1
  | @swapRows s i s' j hi hj =>
    rw [convTransform, trIndex_number hN hi, trIndex_number hN hj]
    exact elementaryOp_invalid_row I hm .swap hv w
  | @swapCols s i s' j hi hj =>
    rw [convTransform, trIndex_number hN hi, trIndex_number hN hj]
    exact elementaryOp_invalid_col I hR hm .swap hv w
  | @addRow k x s i s' j hk hi hj =>
    rw [convTransform, trIndex_number hN hi, trIndex_number hN hj]
    show Raises (conv L rec k >>= fun kv => elementaryOp L s%"r" m (.addMul i kv j)) w _
    refine (coefficient_yields hL rec hk w hw).returns.bind_raises fun kv w1 hkv _ => ?_
    obtain ⟨h1, rfl⟩ := hkv
    exact elementaryOp_invalid_row I hm (.addMul h1) hv w1
  | @addCol k x s i s' j hk hi hj =>
    rw [convTransform, trIndex_number hN hi, trIndex_number hN hj]
    show Raises (conv L rec k >>= fun kv => elementaryOp L s%"c" m (.addMul i kv j)) w _
    refine (coefficient_yields hL rec hk w hw).returns.bind_raises fun kv w1 hkv _ => ?_
    obtain ⟨h1, rfl⟩ := hkv
    exact elementaryOp_invalid_col I hR hm (.addMul h1) hv w1

/-! #### The pinned parser -/

theorem convTransform_pinned [CharZero K] (hL : SoundLib I L) (hN : L.hasNUMBER = false)
    (rec : Str → List (Str × PV) → M (St Y) SV) {free : Str → Prop} {t : T} {op : LineOp K}
    (h : Names I free t op) (m : SV) (w : World (St Y))
    (hw : Ready I free w) :
    Raises (convTransform L rec m t) w .attributeError := by
  have hi : ∀ a, trIndex L a = M.raise .attributeError := fun a => by simp [trIndex, hN]
  cases h with
  | scaleRow => rw [convTransform, hi]; rfl
  | scaleCol => rw [convTransform, hi]; rfl
  | swapRows => rw [convTransform, hi]; rfl
  | swapCols => rw [convTransform, hi]; rfl
  | addRow hk =>
    rw [convTransform]; simp only [hi]
    exact (coefficient_yields hL rec hk w hw).returns.bind_raises fun kv w1 _ _ => rfl
  | addCol hk =>
    rw [convTransform]; simp only [hi]
    exact (coefficient_yields hL rec hk w hw).returns.bind_raises fun kv w1 _ _ => rfl

/-- **C65 refuted for the pinned parser.**  gen/PSParser.py:1249-1273 gives `transform_atom` the
accessor `number`, not `NUMBER`: every matrix with an arrow that names at least one operation raises
`AttributeError`. -/
theorem C65_pinned_refuted [CharZero K] (hL : SoundLib I L) (hM : SoundMatrix I L)
    (hN : L.hasNUMBER = false) (rec : Str → List (Str × PV) → M (St Y) SV) {free : Str → Prop}
    {ts : List (List T)} {xs : List (List K)} (h : MeansRows I free ts xs) {C : Nat}
    (hC : ∀ r ∈ xs, r.length = C) {arrow : List (List T)} {ops : List (LineOp K)}
    (ha : ArrowNames I free arrow ops) (hne : ops ≠ []) (w : World (St Y))
    (hw : Ready I free w) :
    (conv L rec (.matrix ts arrow) w).1 = .error .attributeError := by
  have base := matrix_spec I hL hM rec h hC w hw
  have assoc : ∀ f : SV → M (St Y) SV,
      (convRows L rec ts >>= fun rs => L.ev s%"Matrix" (rs.map .list) >>= f)
        = ((convRows L rec ts >>= fun rs => L.ev s%"Matrix" (rs.map .list)) >>= f) := by
    intro f; funext w
    simp only [M.bind_run]
    rcases convRows L rec ts w with ⟨_ | v, w'⟩ <;> rfl
  have key : ∀ {a : List T} {ops : List (LineOp K)}, NamesAll I free a ops → ops ≠ [] →
      ∀ m (w : World (St Y)), Ready I free w →
      Raises (convTransforms L rec a m) w .attributeError := by
    intro a ops hn hne m w hw
    cases hn with
    | nil => exact absurd rfl hne
    | cons hn _ => rw [convTransforms]; exact Raises.bind (convTransform_pinned I hL hN rec hn m w hw)
  show Raises _ w _
  cases ha with
  | none => exact absurd rfl hne
  | one ha =>
    rw [conv, assoc]
    exact base.bind_raises fun m w1 hm hs => key ha hne m w1 (hw.keep hs)
  | @two a b ops ops' ha hb =>
    rw [conv, assoc]
    refine base.bind_raises fun m w1 hm hs => ?_
    have hw1 : Ready I free w1 := hw.keep hs
    cases hb with
    | nil =>
      have e : ∀ f : SV → M (St Y) SV, (convTransforms L rec [] m >>= f) = f m := fun f => by
        rw [convTransforms]; rfl
      show Raises (convTransforms L rec [] m >>= _) w1 _
      rw [e]
      exact key ha (by simpa using hne) m w1 hw1
    | cons hn hr => exact Raises.bind (key (.cons hn hr) (by simp) m w1 hw1)

end

/-! ### Non-vacuity -/

/-- Rational numbers; symbols have the value 3, powers are inverses. -/
def ratInterp : Interp ℚ where
  sym _ _ := 3
  real := none
  const _ := 0
  pw x y := if y = -1 then x⁻¹ else 0
  pw_neg_one x := by simp
  fn f xs := if f = s%"1/" then (xs.headD 0)⁻¹ else 0
  binder _ _ _ := 0

/-- A library that builds nodes and matrices, with or without the accessor `NUMBER`. -/
def matLib (acc : Bool) : Lib Unit where
  parse _ := .error .other
  call f args y :=
    if f = s%"*" then (.ok (.mul args), y)
    else if f = s%"+" then (.ok (.add args), y)
    else if f = s%"doit" then (.ok (args.headD .none), y)
    else if f = s%"Matrix" then
      (.ok (.mat (args.map fun a => match a with | .list xs => xs | _ => [])), y)
    else (.ok ((binderNode f args).getD (.fn f args)), y)
  validate _ _ y := (.ok (), y)
  str _ y := (.ok [], y)
  md5 s := s
  latex _ y := (.ok [], y)
  hasNUMBER := acc

theorem matLib_sound (acc : Bool) : SoundLib ratInterp (matLib acc) where
  call σ f hf args h y := by
    refine ⟨.fn f args, y, ?_, by simpa [SV.scalar] using h, by rw [den]; rfl⟩
    rw [← binderNode_call hf h]
    simp only [List.mem_cons, List.not_mem_nil, or_false] at hf
    rcases hf with rfl | rfl <;> simp [matLib]
  inv σ a h _ y := ⟨.fn s%"1/" [a], y, by simp [matLib, binderNode], by
    simp [SV.scalar, SV.scalars, h], by rw [den, denList, denList]; simp [ratInterp, Interp.at]⟩
  bind σ {f args op n r b as} hc hb has y := by
    refine ⟨.binder op n r b as, y, ?_, by simp [SV.scalar, hb, has], by rw [den]; rfl⟩
    have := hc.node
    cases hc <;> simp [matLib, this]

theorem matLib_matrix (acc : Bool) : SoundMatrix ratInterp (matLib acc) where
  mul a b ha hb y := ⟨.mul [a, b], y, by simp [matLib], by simp [SV.scalar, SV.scalars, ha, hb], by
    simp [den, denProd]⟩
  add a b ha hb y := ⟨.add [a, b], y, by simp [matLib], by simp [SV.scalar, SV.scalars, ha, hb], by
    simp [den, denSum]⟩
  matrix rows _ _ y := ⟨y, by simp [matLib, Function.comp_def]⟩

theorem number_one : LineNumber s%"1" 0 := ⟨[1], by simp, by decide, by simp [intPart]⟩
theorem number_two : LineNumber s%"2" 1 := ⟨[2], by simp, by decide, by norm_num [intPart]⟩

theorem digit_means (d : Fin 10) {s : Str} {q : ℚ} (hs : [digitChar d.val] = s) (hq : (d.val : ℚ) = q) :
    Means ratInterp (fun _ => True) (.digit s) q := by
  subst hs; subst hq; exact .digit

/-- `\begin{bmatrix}1&2\\3&4\end{bmatrix}\xrightarrow[r_1\leftrightarrow r_2]{c_2\leftarrow 5 c_1}`:
first the column operation, then the exchange -/
def arrowTree : T :=
  .matrix [[.digit s%"1", .digit s%"2"], [.digit s%"3", .digit s%"4"]]
    [[.trSwap ⟨s%"r", s%"1"⟩ ⟨s%"r", s%"2"⟩], [.trAssign ⟨s%"c", s%"2"⟩ (.digit s%"5") ⟨s%"c", s%"1"⟩]]

theorem arrow_rows : MeansRows ratInterp (fun _ => True)
    [[.digit s%"1", .digit s%"2"], [.digit s%"3", .digit s%"4"]] [[1, 2], [3, 4]] :=
  .cons (.cons (digit_means 1 (by decide) (by rfl)) (.cons (digit_means 2 (by decide) (by rfl)) .nil))
    (.cons (.cons (digit_means 3 (by decide) (by rfl)) (.cons (digit_means 4 (by decide) (by rfl)) .nil)) .nil)

theorem arrow_names : ArrowNames ratInterp (fun _ => True)
    [[.trSwap ⟨s%"r", s%"1"⟩ ⟨s%"r", s%"2"⟩], [.trAssign ⟨s%"c", s%"2"⟩ (.digit s%"5") ⟨s%"c", s%"1"⟩]]
    [.col (.addMul 1 5 0), .row (.swap 0 1)] :=
  .two (.cons (.swapRows number_one number_two) .nil)
    (.cons (.addCol (.expr (digit_means 5 (by decide) (by rfl))) number_two number_one) .nil)

/-- the hypotheses of `C65_operations_partial` are met -/
example (w : World (St Unit)) (hw : w.ext.g.var = []) (hr : w.ext.g.isReal = none) :
    ∃ v w', conv (matLib true) (fun _ _ => M.raise .other) arrowTree w = (.ok v, w') ∧
      IsMatrix ratInterp v 2 2 (applyAll [.col (.addMul 1 5 0), .row (.swap 0 1)]
        fun r c => ([[1, 2], [3, 4]].getD r []).getD c 0) :=
  C65_operations_partial ratInterp (matLib_sound _) (matLib_matrix _) rfl _ arrow_rows (by simp)
    (by simp) arrow_names (by simp [LineOp.Valid, EOp.Valid]) w ⟨hr, by simp [hw]⟩

/-- the result is the matrix with rows 3, 19 and 1, 7 -/
example (e : Nat → Nat → ℚ)
    (he : e = applyAll [.col (.addMul 1 5 0), .row (.swap 0 1)]
      fun r c => (([[1, 2], [3, 4]] : List (List ℚ)).getD r []).getD c 0) :
    e 0 0 = 3 ∧ e 0 1 = 19 ∧ e 1 0 = 1 ∧ e 1 1 = 7 := by
  subst he
  simp [applyAll, LineOp.apply, EOp.onRows]; norm_num

/-- the same matrix with the pinned parser -/
example (w : World (St Unit)) (hw : w.ext.g.var = []) (hr : w.ext.g.isReal = none) :
    (conv (matLib false) (fun _ _ => M.raise .other) arrowTree w).1 = .error .attributeError :=
  C65_pinned_refuted ratInterp (matLib_sound _) (matLib_matrix _) rfl _ arrow_rows (C := 2)
    (by simp) arrow_names (by simp) w ⟨hr, by simp [hw]⟩

/-- a transform naming a third row of a matrix with two rows -/
example : Names ratInterp (fun _ => True) (.trScale .kSub ⟨s%"r", s%"2"⟩) (.row (.scale 1 (-1))) ∧
    ¬ (LineOp.row (.scale 1 (-1 : ℚ))).Valid 1 3 :=
  ⟨.scaleRow .minus number_two, by simp [LineOp.Valid, EOp.Valid]⟩

end Verif.L2S
