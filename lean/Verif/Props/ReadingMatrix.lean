import Mathlib.LinearAlgebra.Matrix.Determinant.Basic
import Verif.Props.ReadingLists
import Verif.Props.L2SMatrix
/-
C90: matrices, matrix expressions and determinants, from the text.
-/

namespace Verif.Reading
open Verif Verif.L2S

/-! ### Specification -/

section
variable {K : Type} [Field K] (I : Interp K) (free : Str → Prop) (style : Style)

/-- a row: expressions separated by `&` -/
inductive Row : List Sign → List K → Prop
  | one {us x} : Denotes I free style .expr us x → Row us [x]
  | cons {us x vs xs} : Denotes I free style .expr us x → Row vs xs →
      Row (us ++ .mark '&' :: vs) (x :: xs)

/-- rows separated by `\\` -/
inductive Table : List Sign → List (List K) → Prop
  | one {us xs} : Row I free style us xs → Table us [xs]
  | cons {us xs vs xss} : Row I free style us xs → Table vs xss →
      Table (us ++ .cmd s%"\\" :: vs) (xs :: xss)

/-- rows separated by `\\`, and possibly another `\\` after the last one -/
inductive Body : List Sign → List (List K) → Prop
  | plain {us xss} : Table I free style us xss → Body us xss
  | trailing {us xss} : Table I free style us xss → Body (us ++ [.cmd s%"\\"]) xss

/-- the environments of matrices -/
def matrixSigns : List (Sign × Sign) :=
  [(.cmd s%"begin{pmatrix}", .cmd s%"end{pmatrix}"), (.cmd s%"begin{bmatrix}", .cmd s%"end{bmatrix}")]

/-- kinds of matrix expressions; the flags are those of `Level` -/
inductive MLevel where
  | expr | term (o : Bool) | signed (o : Bool) | product (o : Bool) | factor

/-- `MDenotes p l ws a`: the signs `ws` are a matrix expression of value `a`, in the algebra of square
matrices with `n` rows.  Products are marked by `p = true`. -/
inductive MDenotes (n : Nat) : Bool → MLevel → List Sign → Matrix (Fin n) (Fin n) K → Prop
  /-- `\begin{pmatrix} a & b \\ c & d \end{pmatrix}` -/
  | matrix {b e us xss} : (b, e) ∈ matrixSigns → Body I free style us xss → xss.length = n →
      (∀ r ∈ xss, r.length = n) → MDenotes n false .factor (b :: us ++ [e]) (ofRows n xss)
  /-- a matrix expression in brackets -/
  | bracket {p l q us a} : (l, q, none) ∈ brackets → MDenotes n p .expr us a →
      MDenotes n p .factor (l ++ us ++ q) a
  | factor {p us a} : MDenotes n p .factor us a → MDenotes n p (.product false) us a
  /-- products without operator: of matrices, and with a number on either side -/
  | juxt {p q o us vs a b} : MDenotes n p .factor us a → MDenotes n q (.product o) vs b →
      MDenotes n true (.product o) (us ++ vs) (a * b)
  | sjuxt {q o e us w vs x b} : Denotes I free style (.factor e) us x →
      MDenotes n q (.product o) (w :: vs) b → Follows e w →
      MDenotes n true (.product o) (us ++ w :: vs) (x • b)
  | juxts {p o us vs a x} : MDenotes n p .factor us a → Denotes I free style (.product o) vs x →
      MDenotes n true (.product o) (us ++ vs) (x • a)
  | product {p o us a} : MDenotes n p (.product o) us a → MDenotes n p (.signed o) us a
  | pos {p o us a} : MDenotes n p (.signed o) us a → MDenotes n p (.signed o) (.mark '+' :: us) a
  | signed {p o us a} : MDenotes n p (.signed o) us a → MDenotes n p (.term o) us a
  | mul {p q o us s vs a b} : MDenotes n p (.term false) us a → s ∈ timesSigns →
      MDenotes n q (.signed o) vs b → MDenotes n true (.term o) (us ++ s :: vs) (a * b)
  | smul {q o us s vs x b} : Denotes I free style (.term false) us x → s ∈ timesSigns →
      MDenotes n q (.signed o) vs b → MDenotes n true (.term o) (us ++ s :: vs) (x • b)
  | muls {p o us s vs a x} : MDenotes n p (.term false) us a → s ∈ timesSigns →
      Denotes I free style (.signed o) vs x → MDenotes n true (.term o) (us ++ s :: vs) (x • a)
  | div {p o us s vs a x} : MDenotes n p (.term false) us a → s ∈ overSigns →
      Denotes I free style (.signed o) vs x → MDenotes n true (.term o) (us ++ s :: vs) (x⁻¹ • a)
  | term {p o us a} : MDenotes n p (.term o) us a → MDenotes n p .expr us a
  | add {p q o us vs a b} : MDenotes n p .expr us a → MDenotes n q (.term o) vs b →
      MDenotes n false .expr (us ++ .mark '+' :: vs) (a + b)
  /-- the right side of a difference must not be a product, see `C69_difference_refuted` -/
  | sub {p o us vs a b} : MDenotes n p .expr us a → MDenotes n false (.term o) vs b →
      MDenotes n false .expr (us ++ .mark '-' :: vs) (a - b)

end

end Verif.Reading

namespace Verif.Grammar
open Verif Verif.L2S Verif.Reading

section
variable {K : Type} [Field K] {I : Interp K} {free : Str → Prop} {style : Style}

/-! ### Rows -/

/-- what stands between the entries of a matrix, and after them, ends an expression -/
theorem cell_ok : [Kind.MATRIX_DEL_COL, .MATRIX_DEL_ROW, .CMD_MATRIX_END, .CMD_DET_END].all
    (fun k => decide (k ∉ afterExpr)) = true := by decide +kernel

theorem cell_end {c : Tok} (h : c.kind ∈ [Kind.MATRIX_DEL_COL, .MATRIX_DEL_ROW, .CMD_MATRIX_END,
    .CMD_DET_END]) : c.kind ∉ afterExpr := by
  simpa using List.all_eq_true.1 cell_ok _ h

theorem row_nil {us : List Sign} {xs : List K} (h : Row I free style us xs) : us ≠ [] := by
  cases h with
  | one h => exact not_nil h
  | cons h _ => simp

theorem row_first {us : List Sign} {xs : List K} (h : Row I free style us xs) {k : Nat} {r : List Tok}
    {c : Tok} (hc : c.kind ∈ [Kind.MATRIX_DEL_ROW, .CMD_MATRIX_END, .CMD_DET_END]) :
    ∀ {ts : List Tok}, ReadsIn (c :: r) us ts → 4 * us.length ≤ k →
    ∃ es, First (matrixRow (rule k)) (ts ++ c :: r) es (c :: r) ∧ MeansAll I free es xs := by
  have hc1 : c.kind ∉ afterExpr := cell_end (List.mem_cons_of_mem _ hc)
  have hstop : (tk .MATRIX_DEL_COL >>= fun _ => rule k .expr) (c :: r) = [] :=
    (Needs.tk _).bind.skip (by
      intro h
      rw [List.mem_singleton] at h
      rw [h] at hc
      revert hc; decide)
  suffices H : ∀ {ts : List Tok}, ReadsIn (c :: r) us ts → 4 * us.length ≤ k →
      ∃ e es r1, First (rule k .expr) (ts ++ c :: r) e r1 ∧
        Steps (tk .MATRIX_DEL_COL >>= fun _ => rule k .expr) r1 es (c :: r) ∧
        MeansAll I free (e :: es) xs by
    intro ts hr hk
    obtain ⟨e, es, r1, h1, h2, h3⟩ := H hr hk
    exact ⟨e :: es, h1.bind ((First.many h2 hstop).bind .pure), h3⟩
  induction h with
  | one h =>
    intro ts hr hk
    obtain ⟨t, h1, h2⟩ := (parsed h).expr_first hr (not_nil h) hk (avoids_cons hc1)
    exact ⟨t, [], _, h1, .nil, .cons h2 .nil⟩
  | @cons us x vs xs h _ ih =>
    intro ts hr hk
    obtain ⟨t1, t2, rfl, a1, a2⟩ := hr.append
    obtain ⟨d, t2, rfl, b1, -, b2⟩ := a2.cons_inv (k := .MATRIX_DEL_COL) (by decide +kernel)
    simp only [List.length_append, List.length_cons] at hk
    obtain ⟨t, c1, c2⟩ := (parsed h).expr_first a1 (not_nil h) (k := k) (by omega)
      (avoids_cons (cell_end (by rw [b1]; decide)))
    obtain ⟨e, es, r1, d1, d2, d3⟩ := ih b2 (by omega)
    have hl : r1.length < (d :: (t2 ++ c :: r)).length := by
      obtain ⟨a, h4, -⟩ := (rule_runs k .expr).get _ _ d1.mem
      rw [h4]
      simp only [List.length_cons, List.length_append]; omega
    refine ⟨t, e :: es, d :: (t2 ++ c :: r), ?_, .cons ((First.tk b1).bind d1) hl d2, .cons c2 d3⟩
    rw [List.append_assoc]; exact c1


/-- no expression begins here -/
theorem expr_fail {t : Tok} {ts : List Tok} (h : t.kind ∉ compKinds) (h1 : t.kind ≠ .ADD)
    (h2 : t.kind ≠ .SUB) : ∀ n, rule n .expr (t :: ts) = [] := by
  have hu : ∀ n, rule n .unary (t :: ts) = [] := by
    intro n
    cases n with
    | zero => rfl
    | succ n =>
      show P.or _ _ _ = []
      rw [P.or, (Needs.oneOf [Kind.ADD, .SUB]).bind.skip (by simp [h1, h2]), P.bind_run, P.plus,
        P.bind_run, (postfix_needs (rule n) true).skip h]
      rfl
  have hm : ∀ n, rule n .mp (t :: ts) = [] := by
    intro n
    cases n with
    | zero => rfl
    | succ n =>
      show chain mulKinds mulTree (rule n .unary) (t :: ts) = []
      rw [chain, P.bind_run, hu]
      rfl
  intro n
  cases n with
  | zero => rfl
  | succ n =>
    show chain [.ADD, .SUB] addTree (rule n .mp) (t :: ts) = []
    rw [chain, P.bind_run, hm]
    rfl

theorem end_fail {c : Tok} (hc : c.kind ∈ [Kind.CMD_MATRIX_END, .CMD_DET_END]) (r : List Tok) (k : Nat) :
    matrixRow (rule k) (c :: r) = [] := by
  have : ∀ j ∈ [Kind.CMD_MATRIX_END, .CMD_DET_END], j ∉ compKinds ∧ j ≠ .ADD ∧ j ≠ .SUB := by
    decide +kernel
  obtain ⟨h1, h2, h3⟩ := this _ hc
  rw [matrixRow, P.bind_run, expr_fail h1 h2 h3]
  rfl

theorem table_nil {us : List Sign} {xss : List (List K)} (h : Table I free style us xss) : us ≠ [] := by
  cases h with
  | one h => exact row_nil h
  | cons h _ => simp

theorem table_steps {us : List Sign} {xss : List (List K)} (h : Table I free style us xss) {k : Nat}
    {r : List Tok} {c : Tok} (hc : c.kind ∈ [Kind.MATRIX_DEL_ROW, .CMD_MATRIX_END, .CMD_DET_END]) :
    ∀ {ts : List Tok}, ReadsIn (c :: r) us ts → 4 * us.length ≤ k →
      ∃ e es r1, First (matrixRow (rule k)) (ts ++ c :: r) e r1 ∧
        r1.length < (ts ++ c :: r).length ∧
        Steps (tk .MATRIX_DEL_ROW >>= fun _ => matrixRow (rule k)) r1 es (c :: r) ∧
        MeansRows I free (e :: es) xss := by
  induction h with
  | one h =>
    intro ts hr hk
    obtain ⟨e, h1, h2⟩ := row_first h hc hr hk
    exact ⟨e, [], _, h1, reads_len_pos hr.reads (row_nil h) _, .nil, .cons h2 .nil⟩
  | @cons us x vs xs h _ ih =>
    intro ts hr hk
    obtain ⟨t1, t2, rfl, a1, a2⟩ := hr.append
    obtain ⟨d, t2, rfl, b1, -, b2⟩ := a2.cons_inv (k := .MATRIX_DEL_ROW) (by decide +kernel)
    simp only [List.length_append, List.length_cons] at hk
    obtain ⟨t, c1, c2⟩ := row_first h (k := k) (c := d) (r := t2 ++ c :: r) (by rw [b1]; decide) a1
      (by omega)
    obtain ⟨e, es, r1, d1, d0, d2, d3⟩ := ih b2 (by omega)
    refine ⟨t, e :: es, d :: (t2 ++ c :: r), ?_, ?_, .cons ((First.tk b1).bind d1) ?_ d2, .cons c2 d3⟩
    · rw [List.append_assoc]; exact c1
    · rw [List.append_assoc]; exact reads_len_pos a1.reads (row_nil h) _
    · simp only [List.length_cons]; omega

theorem body_nil {us : List Sign} {xss : List (List K)} (h : Body I free style us xss) : us ≠ [] := by
  cases h with
  | plain h => exact table_nil h
  | trailing h => simp

/-- **The rows of a matrix or determinant.** -/
theorem rows_first {us : List Sign} {xss : List (List K)} (h : Body I free style us xss) {k : Nat}
    {r : List Tok} {c : Tok} (hc : c.kind ∈ [Kind.CMD_MATRIX_END, .CMD_DET_END])
    {ts : List Tok} (hr : ReadsIn (c :: r) us ts) (hk : 4 * us.length ≤ k) :
    ∃ es, First (matrixRows (rule k)) (ts ++ c :: r) es (c :: r) ∧ MeansRows I free es xss := by
  have hc0 : ∀ j ∈ [Kind.CMD_MATRIX_END, .CMD_DET_END], j ∉ [Kind.MATRIX_DEL_ROW] := by decide
  have hstop : ∀ {α : Type} {f : Tok → P α}, (tk .MATRIX_DEL_ROW >>= f) (c :: r) = [] := fun {α f} =>
    (Needs.tk _).bind.skip (hc0 _ hc)
  have hstop' : tk .MATRIX_DEL_ROW (c :: r) = [] := (Needs.tk _).skip (hc0 _ hc)
  cases h with
  | plain h =>
    obtain ⟨e, es, r1, h1, -, h2, h3⟩ := table_steps h (List.mem_cons_of_mem _ hc) hr hk
    exact ⟨e :: es, h1.bind ((First.many h2 hstop).bind ((First.opt_none hstop').bind .pure)), h3⟩
  | trailing h =>
    obtain ⟨t1, t2, rfl, a1, a2⟩ := hr.append
    obtain ⟨d, t2, rfl, b1, -, b2⟩ := a2.cons_inv (k := .MATRIX_DEL_ROW) (by decide +kernel)
    cases b2
    simp only [List.length_append, List.length_cons, List.length_nil] at hk
    obtain ⟨e, es, r1, h1, -, h2, h3⟩ := table_steps h (k := k) (c := d) (r := c :: r)
      (by rw [b1]; decide) a1 (by omega)
    refine ⟨e :: es, ?_, h3⟩
    rw [List.append_assoc]
    refine h1.bind ((First.many h2 ?_).bind ((First.opt_some (First.tk b1)).bind .pure))
    rw [P.bind_run, tk, if_pos b1]
    simp only [List.flatMap_cons, List.flatMap_nil, List.append_nil]
    exact end_fail hc r k

theorem comp_matrix {rec : NT → P T} {t : Tok} {ts r : List Tok} {a : T} (hk : t.kind = .CMD_MATRIX_START)
    (h : First (matrix rec) (t :: ts) a r) : First (comp rec true) (t :: ts) a r := by
  have ho : ∀ {α : Type} {p : P α} {ks : List Kind}, Needs p ks → Kind.CMD_MATRIX_START ∉ ks →
      p (t :: ts) = [] := fun h hk' => h.skip (by rw [hk]; exact hk')
  rw [comp_eq]
  refine First.choice_tail (ho (group_needs rec) (by decide +kernel)) ?_
  refine First.choice_tail (ho (normGroup_needs rec) (by decide +kernel)) ?_
  refine First.choice_tail (ho (absGroup_needs rec) (by decide +kernel)) ?_
  refine First.choice_tail (ho (floorGroup_needs rec) (by decide +kernel)) ?_
  refine First.choice_tail (ho (ceilGroup_needs rec) (by decide +kernel)) ?_
  refine First.choice_tail (ho (func_needs rec) (by decide +kernel)) ?_
  refine First.choice_tail (ho (atom_needs rec) (by decide +kernel)) ?_
  refine First.choice_tail (ho (binom_needs rec) (by decide +kernel)) ?_
  exact First.choice_head h

theorem comp_det {rec : NT → P T} {t : Tok} {ts r : List Tok} {a : T} (hk : t.kind = .CMD_DET_START)
    (h : First (det rec) (t :: ts) a r) : First (comp rec true) (t :: ts) a r := by
  have ho : ∀ {α : Type} {p : P α} {ks : List Kind}, Needs p ks → Kind.CMD_DET_START ∉ ks →
      p (t :: ts) = [] := fun h hk' => h.skip (by rw [hk]; exact hk')
  rw [comp_eq]
  refine First.choice_tail (ho (group_needs rec) (by decide +kernel)) ?_
  refine First.choice_tail (ho (normGroup_needs rec) (by decide +kernel)) ?_
  refine First.choice_tail (ho (absGroup_needs rec) (by decide +kernel)) ?_
  refine First.choice_tail (ho (floorGroup_needs rec) (by decide +kernel)) ?_
  refine First.choice_tail (ho (ceilGroup_needs rec) (by decide +kernel)) ?_
  refine First.choice_tail (ho (func_needs rec) (by decide +kernel)) ?_
  refine First.choice_tail (ho (atom_needs rec) (by decide +kernel)) ?_
  refine First.choice_tail (ho (binom_needs rec) (by decide +kernel)) ?_
  refine First.choice_tail (ho (p := matrix rec) (Needs.tk _).bind (by decide +kernel)) ?_
  exact First.choice_head h

theorem types_kinds {b e : Sign} (h : (b, e) ∈ matrixSigns) :
    kindOf b = some .CMD_MATRIX_START ∧ kindOf e = some .CMD_MATRIX_END := by
  have : ∀ p ∈ matrixSigns, kindOf p.1 = some .CMD_MATRIX_START ∧ kindOf p.2 = some .CMD_MATRIX_END := by
    decide +kernel
  exact this _ h

/-- **A matrix.** -/
theorem matrix_first {b e : Sign} {us : List Sign} {xss : List (List K)} (hb : (b, e) ∈ matrixSigns)
    (h : Body I free style us xss) {k : Nat} {ts r : List Tok} (hr : ReadsIn r (b :: us ++ [e]) ts)
    (hk : 4 * us.length ≤ k) (ha : Avoids r [.MATRIX_XRIGHTARROW]) :
    ∃ rows, First (comp (rule k) true) (ts ++ r) (.matrix rows []) r ∧ MeansRows I free rows xss := by
  obtain ⟨k1, k2⟩ := types_kinds hb
  rw [List.cons_append] at hr
  obtain ⟨t, ts, rfl, a1, -, a2⟩ := hr.cons_inv k1
  obtain ⟨t1, t2, rfl, b1, b2⟩ := a2.append
  obtain ⟨c, t2, rfl, c1, -, c2⟩ := b2.cons_inv k2
  cases c2
  obtain ⟨es, d1, d2⟩ := rows_first h (k := k) (c := c) (r := r) (by rw [c1]; decide) b1 hk
  refine ⟨es, ?_, d2⟩
  have hts : (t :: (t1 ++ [c])) ++ r = t :: (t1 ++ c :: r) := by simp
  rw [hts]
  refine comp_matrix a1 ((First.tk a1).bind (d1.bind ((First.tk c1).bind ?_)))
  exact (First.opt_none ((Needs.tk _).bind.avoid ha)).bind .pure

/-! ### Matrix expressions -/

/-- what may not follow a matrix expression -/
def afterM (o : Bool) : List Kind := .MATRIX_XRIGHTARROW :: afterOpen o

theorem afterM_arrow {o : Bool} {r : List Tok} (h : Avoids r (afterM o)) : Avoids r [.MATRIX_XRIGHTARROW] :=
  h.mono (by simp [afterM])

theorem afterM_open {o : Bool} {r : List Tok} (h : Avoids r (afterM o)) : Avoids r (afterOpen o) :=
  h.mono fun _ hk => List.mem_cons_of_mem _ hk

theorem afterM_mono {o : Bool} {r : List Tok} (h : Avoids r (.MATRIX_XRIGHTARROW :: afterTerm)) :
    Avoids r (afterM o) := h.mono fun k hk => by
  rcases List.mem_cons.1 hk with rfl | hk
  · exact .head _
  · exact .tail _ (afterOpen_sub o k hk)

variable {n : Nat}

variable (I free n) in
/-- the tree of a matrix expression has this value -/
abbrev Tree (p : Bool) (t : T) (a : Matrix (Fin n) (Fin n) K) : Prop :=
  MMeans I free (Explicit I free n) p t a

variable (I free n) in
/-- How the parser reads a matrix expression. -/
def MParsed (p : Bool) : MLevel → List Sign → Matrix (Fin n) (Fin n) K → Prop
  | .expr, ws, a => ∀ ts r k, ReadsIn r ws ts → 4 * ws.length ≤ k + 1 →
      Avoids r (.MATRIX_XRIGHTARROW :: afterTerm) →
      ∃ t us r1, First (rule k .mp) (ts ++ r) t r1 ∧
        Steps (operand [.ADD, .SUB] (rule k .mp)) r1 us r ∧
        Tree I free n p (us.foldl (fun t u => addTree u.1 t u.2) t) a
  | .term o, ws, a => ∀ ts r k, ReadsIn r ws ts → 4 * ws.length ≤ k + 2 → Avoids r (afterM o) →
      ∃ t us r1, First (rule k .unary) (ts ++ r) t r1 ∧
        Steps (operand mulKinds (rule k .unary)) r1 us r ∧
        Tree I free n p (us.foldl (fun t u => mulTree u.1 t u.2) t) a
  | .signed o, ws, a => ∀ ts r k, ReadsIn r ws ts → 4 * ws.length ≤ k + 2 → Avoids r (afterM o) →
      ∃ t, First (rule k .unary) (ts ++ r) t r ∧ Tree I free n p t a
  | .product o, ws, a => ∀ ts r k, ReadsIn r ws ts → 4 * ws.length ≤ k + 3 → Avoids r (afterM o) →
      ∃ u us, Steps (postfix' (rule k) true) (ts ++ r) (u :: us) r ∧ Tree I free n p (.juxt (u :: us)) a
  | .factor, ws, a => ∀ ts r k, ReadsIn r ws ts → 4 * ws.length ≤ k + 3 →
      Avoids r [.MATRIX_XRIGHTARROW, .CARET] → postfixOp (rule k) r = [] →
      ∃ t, First (postfix' (rule k) true) (ts ++ r) t r ∧ Tree I free n p t a

variable {p : Bool} {a : Matrix (Fin n) (Fin n) K}

theorem MParsed.term_first {o : Bool} {ws : List Sign} (h : MParsed I free n p (.term o) ws a)
    {ts r : List Tok} {k : Nat} (hr : ReadsIn r ws ts) (hw : ws ≠ []) (hk : 4 * ws.length ≤ k + 1)
    (ha : Avoids r (.MATRIX_XRIGHTARROW :: afterTerm)) :
    ∃ t, First (rule k .mp) (ts ++ r) t r ∧ Tree I free n p t a := by
  have := List.length_pos_iff.2 hw
  obtain ⟨j, rfl⟩ : ∃ j, k = j + 1 := ⟨k - 1, by omega⟩
  obtain ⟨t, us, r1, h1, h2, h3⟩ := h ts r j hr (by omega) (afterM_mono ha)
  exact ⟨_, chain_first h1 h2 (ha.mono (by decide +kernel)), h3⟩

theorem MParsed.expr_first {ws : List Sign} (h : MParsed I free n p .expr ws a) {ts r : List Tok}
    {k : Nat} (hr : ReadsIn r ws ts) (hw : ws ≠ []) (hk : 4 * ws.length ≤ k)
    (ha : Avoids r (.MATRIX_XRIGHTARROW :: afterExpr)) :
    ∃ t, First (rule k .expr) (ts ++ r) t r ∧ Tree I free n p t a := by
  have := List.length_pos_iff.2 hw
  obtain ⟨j, rfl⟩ : ∃ j, k = j + 1 := ⟨k - 1, by omega⟩
  obtain ⟨t, us, r1, h1, h2, h3⟩ := h ts r j hr (by omega) (ha.mono (by decide +kernel))
  exact ⟨_, chain_first h1 h2 (ha.mono (by decide +kernel)), h3⟩

/-- the sign can begin a product of matrices -/
def mStart (w : Sign) : Bool := startSign w || (matrixSigns.map (·.1)).contains w

/-- kinds of matrix expressions that do not begin with a sign -/
def mTight : MLevel → Bool
  | .product _ | .factor => true
  | _ => false

theorem brackets_begin : brackets.all (fun b => b.1.head?.any startSign) = true := by decide +kernel

theorem mstarts {l : MLevel} {ws : List Sign} (h : MDenotes I free style n p l ws a) :
    ∃ w vs, ws = w :: vs ∧ (mTight l = true → mStart w = true) := by
  induction h with
  | @matrix b e us xss hb _ _ _ =>
    refine ⟨b, us ++ [e], by simp, fun _ => ?_⟩
    have : ∀ p ∈ matrixSigns, mStart p.1 = true := by decide +kernel
    exact this _ hb
  | @bracket p l q us a hb _ _ =>
    have := List.all_eq_true.1 brackets_begin _ hb
    cases l with
    | nil => cases this
    | cons w l =>
      refine ⟨w, l ++ us ++ q, by simp, fun _ => ?_⟩
      have : startSign w = true := by simpa using this
      rw [mStart, this]; rfl
  | factor _ ih => obtain ⟨w, vs, rfl, h⟩ := ih; exact ⟨w, vs, rfl, fun _ => h rfl⟩
  | juxt _ _ ih => obtain ⟨w, vs, rfl, h⟩ := ih; exact ⟨w, _, rfl, fun _ => h rfl⟩
  | sjuxt hd _ _ =>
    obtain ⟨w, vs, rfl, h⟩ := starts hd
    exact ⟨w, _, rfl, fun _ => by rw [mStart, h rfl]; rfl⟩
  | juxts _ _ ih => obtain ⟨w, vs, rfl, h⟩ := ih; exact ⟨w, _, rfl, fun _ => h rfl⟩
  | product _ ih | signed _ ih | term _ ih =>
    obtain ⟨w, vs, rfl, h⟩ := ih; exact ⟨w, vs, rfl, fun h => by cases h⟩
  | pos => exact ⟨_, _, rfl, fun h => by cases h⟩
  | mul _ _ _ ih | muls _ _ _ ih | div _ _ _ ih =>
    obtain ⟨w, vs, rfl, h⟩ := ih; exact ⟨w, _, rfl, fun h => by cases h⟩
  | smul hd => obtain ⟨w, vs, rfl, h⟩ := starts hd; exact ⟨w, _, rfl, fun h => by cases h⟩
  | add _ _ ih => obtain ⟨w, vs, rfl, h⟩ := ih; exact ⟨w, _, rfl, fun h => by cases h⟩
  | sub _ _ ih => obtain ⟨w, vs, rfl, h⟩ := ih; exact ⟨w, _, rfl, fun h => by cases h⟩

theorem mnot_nil {l : MLevel} {ws : List Sign} (h : MDenotes I free style n p l ws a) : ws ≠ [] := by
  obtain ⟨w, vs, rfl, _⟩ := mstarts h
  simp

theorem mStart_kind {w : Sign} {k : Kind} (h : HasKind w k) (hs : mStart w = true) :
    k ∈ Kind.CMD_MATRIX_START :: startKinds := by
  rw [mStart, Bool.or_eq_true] at hs
  rcases hs with hs | hs
  · exact .tail _ (start_kind h hs)
  · have : ∀ b ∈ matrixSigns.map (·.1), kindOf b = some .CMD_MATRIX_START := by decide +kernel
    have := this w (by simpa using hs)
    rw [h.kindOf] at this
    cases this
    exact .head _

theorem mStart_ok : (Kind.CMD_MATRIX_START :: startKinds).all (fun k => decide (k ∉
    [Kind.MATRIX_XRIGHTARROW, .CARET, .ADD, .SUB])) = true := by decide +kernel

theorem mStart_stops {rec : NT → P T} {t : Tok} {r : List Tok}
    (hs : t.kind ∈ Kind.CMD_MATRIX_START :: startKinds) : postfixOp rec (t :: r) = [] := by
  rcases List.mem_cons.1 hs with hs | hs
  · exact (postfixOp_needs _).avoid (avoids_cons (by rw [hs]; decide +kernel))
  · exact start_stops hs

/-- the first token of a product after a factor -/
theorem next_start {e : End} {w : Sign} {vs : List Sign} {ts : List Tok} (hr : Reads (w :: vs) ts)
    (hw : mStart w = true) (hf : Follows e w) : ∃ t ts', ts = t :: ts' ∧
      t.kind ∈ Kind.CMD_MATRIX_START :: startKinds ∧ t.kind ∉ afterFactor e := by
  cases hr with
  | @cons _ _ t ts c1 c2 c3 =>
    have hk := mStart_kind c1 hw
    refine ⟨t, ts, rfl, hk, ?_⟩
    rcases List.mem_cons.1 hk with hk | hk
    · rw [hk]
      rcases e with ⟨_ | _, _ | _⟩ <;> decide +kernel
    · exact follows_avoids c1 hk hf

theorem follows_closed (w : Sign) : Follows closed w :=
  ⟨fun h => by simp [closed] at h, fun h => by simp [closed] at h⟩

theorem mparsed_matrix {b e : Sign} {us : List Sign} {xss : List (List K)} (hb : (b, e) ∈ matrixSigns)
    (h : Body I free style us xss) (h1 : xss.length = n) (h2 : ∀ r ∈ xss, r.length = n) :
    MParsed I free n false .factor (b :: us ++ [e]) (ofRows n xss) := by
  intro ts r k hr hk ha hs
  simp only [List.length_cons, List.length_append, List.length_nil] at hk
  obtain ⟨rows, c1, c2⟩ := matrix_first hb h hr (k := k) (by omega) (ha.mono (by simp))
  refine ⟨.matrix rows [], ?_, .leaf (.intro c2 h1 h2)⟩
  refine First.bind (First.bind c1 (First.bind (First.many (as := []) .nil ?_) .pure))
    (First.bind (First.many (as := []) .nil hs) .pure)
  exact (Needs.tk _).bind.avoid (ha.mono (by simp))

theorem closing_arrow : brackets.all (fun b => match b.2.1 with
    | w :: _ => match kindOf w with
      | some k => decide (k ∉ Kind.MATRIX_XRIGHTARROW :: afterExpr)
      | none => false
    | [] => false) = true := by decide +kernel

theorem mparsed_bracket {l q us : List Sign} (hb : (l, q, none) ∈ brackets) (hu : us ≠ [])
    (ih : MParsed I free n p .expr us a) : MParsed I free n p .factor (l ++ us ++ q) a := by
  intro ts r k hr hk ha hs
  rw [List.append_assoc] at hr
  obtain ⟨t1, t2, rfl, a1, a2⟩ := hr.append
  obtain ⟨t2, t3, rfl, a2, a3⟩ := a2.append
  have hlen : 1 ≤ q.length ∧ 1 ≤ l.length := by
    have : ∀ b ∈ brackets, 1 ≤ b.2.1.length ∧ 1 ≤ b.1.length := by decide +kernel
    exact this _ hb
  simp only [List.length_append] at hk
  have hc : Avoids (t3 ++ r) (.MATRIX_XRIGHTARROW :: afterExpr) := by
    have := List.all_eq_true.1 closing_arrow _ hb
    cases a3 with
    | nil => simp at this
    | cons h1 h2 h3 =>
      simp only [h1.kindOf] at this
      exact avoids_cons (by simpa using this)
  obtain ⟨t, h1, h2⟩ := ih.expr_first a2 hu (k := k) (by omega) hc
  obtain ⟨f, h3, h4⟩ := comp_bracket hb a1.reads a3.reads h1
  cases h3
  refine ⟨.group t, ?_, .group h2⟩
  rw [show t1 ++ (t2 ++ t3) ++ r = t1 ++ (t2 ++ (t3 ++ r)) by simp]
  refine First.bind (First.bind h4 (First.bind (First.many (as := []) .nil ?_) .pure))
    (First.bind (First.many (as := []) .nil hs) .pure)
  exact (Needs.tk _).bind.avoid (ha.mono (by simp))

theorem open_factor {o : Bool} {r : List Tok} (ha : Avoids r (afterM o)) :
    Avoids r [.MATRIX_XRIGHTARROW, .CARET] := ha.mono (by cases o <;> decide +kernel)

theorem open_stop {o : Bool} {rec : NT → P T} {r : List Tok} (ha : Avoids r (afterM o)) :
    postfixOp rec r = [] := postfixOp_stop ((afterM_open ha).mono (afterProduct_sub o))

/-- one more operand of a product with operators -/
theorem op_join {k : Nat} {t1 ts r r1 : List Tok} {t : Tok} {l u : T} {ls : List (Kind × T)}
    (c1 : First (rule k .unary) (t1 ++ t :: (ts ++ r)) l r1)
    (c2 : Steps (operand mulKinds (rule k .unary)) r1 ls (t :: (ts ++ r))) (ht : t.kind ∈ mulKinds)
    (d1 : First (rule k .unary) (ts ++ r) u r) :
    ∃ l' us r1, First (rule k .unary) (t1 ++ t :: ts ++ r) l' r1 ∧
      Steps (operand mulKinds (rule k .unary)) r1 us r ∧
      us.foldl (fun t u => mulTree u.1 t u.2) l' =
        mulTree t.kind (ls.foldl (fun t u => mulTree u.1 t u.2) l) u := by
  refine ⟨l, ls ++ [(t.kind, u)], r1, ?_, c2.append (Steps.one ?_ ?_), ?_⟩
  · rw [List.append_assoc]; exact c1
  · exact (First.oneOf ht).bind (d1.bind .pure)
  · simp only [List.length_cons, List.length_append]; omega
  · rw [List.foldl_append]; rfl

/-- one more operand of a sum -/
theorem add_join {k : Nat} {t1 ts r r1 : List Tok} {t : Tok} {l u : T} {ls : List (Kind × T)}
    (c1 : First (rule k .mp) (t1 ++ t :: (ts ++ r)) l r1)
    (c2 : Steps (operand [.ADD, .SUB] (rule k .mp)) r1 ls (t :: (ts ++ r))) (ht : t.kind ∈ [Kind.ADD, .SUB])
    (d1 : First (rule k .mp) (ts ++ r) u r) :
    ∃ l' us r1, First (rule k .mp) (t1 ++ t :: ts ++ r) l' r1 ∧
      Steps (operand [.ADD, .SUB] (rule k .mp)) r1 us r ∧
      us.foldl (fun t u => addTree u.1 t u.2) l' =
        addTree t.kind (ls.foldl (fun t u => addTree u.1 t u.2) l) u := by
  refine ⟨l, ls ++ [(t.kind, u)], r1, ?_, c2.append (Steps.one ?_ ?_), ?_⟩
  · rw [List.append_assoc]; exact c1
  · exact (First.oneOf ht).bind (d1.bind .pure)
  · simp only [List.length_cons, List.length_append]; omega
  · rw [List.foldl_append]; rfl

theorem times_tree {o : Sign} (ho : o ∈ timesSigns) {k : Kind} (hk : HasKind o k) :
    k ∈ mulKinds ∧ k ∉ afterM false ∧ k ∉ afterOpen false ∧ ∀ l r, mulTree k l r = .mul l r := by
  have h := List.all_eq_true.1 times_kinds _ ho
  simp only [hk.kindOf, decide_eq_true_eq] at h
  have : ∀ k ∈ [Kind.MUL, .CMD_TIMES, .CMD_CDOT], k ∈ mulKinds ∧ k ∉ afterM false ∧
    k ∉ afterOpen false := by decide +kernel
  obtain ⟨h1, h2, h3⟩ := this k h
  refine ⟨h1, h2, h3, fun l r => ?_⟩
  simp only [List.mem_cons, List.not_mem_nil, or_false] at h
  rcases h with rfl | rfl | rfl <;> rfl

theorem over_tree {o : Sign} (ho : o ∈ overSigns) {k : Kind} (hk : HasKind o k) :
    k ∈ mulKinds ∧ k ∉ afterM false ∧ ∀ l r, mulTree k l r = .div l r := by
  have h := List.all_eq_true.1 over_kinds _ ho
  simp only [hk.kindOf, decide_eq_true_eq] at h
  have : ∀ k ∈ [Kind.DIV, .CMD_DIV, .COLON], k ∈ mulKinds ∧ k ∉ afterM false := by decide +kernel
  obtain ⟨h1, h2⟩ := this k h
  refine ⟨h1, h2, fun l r => ?_⟩
  simp only [List.mem_cons, List.not_mem_nil, or_false] at h
  rcases h with rfl | rfl | rfl <;> rfl

/-- **Matrix expressions are read as trees of their value.** -/
theorem mparsed {l : MLevel} {ws : List Sign} (h : MDenotes I free style n p l ws a) :
    MParsed I free n p l ws a := by
  induction h with
  | matrix hb h h1 h2 => exact mparsed_matrix hb h h1 h2
  | bracket hb h ih => exact mparsed_bracket hb (mnot_nil h) ih
  | factor h ih =>
    intro ts r k hr hk ha
    obtain ⟨t, h1, h2⟩ := ih ts r k hr hk (open_factor ha) (open_stop ha)
    exact ⟨t, [], .one h1 (reads_len_pos hr.reads (mnot_nil h) r), .one h2⟩
  | juxt h h' ih ih' =>
    intro ts r k hr hk ha
    obtain ⟨t1, t2, rfl, a1, a2⟩ := hr.append
    simp only [List.length_append] at hk
    obtain ⟨u, us, b1, b2⟩ := ih' t2 r k a2 (by omega) ha
    obtain ⟨w, vs, rfl, hw⟩ := mstarts h'
    obtain ⟨t, t2, rfl, c1, -⟩ := next_start a2.reads (hw rfl) (follows_closed w)
    have := List.all_eq_true.1 mStart_ok _ c1
    obtain ⟨v, d1, d2⟩ := ih t1 (t :: t2 ++ r) k a1 (by omega)
      (avoids_cons fun hm => absurd (show t.kind ∈ [Kind.MATRIX_XRIGHTARROW, .CARET, .ADD, .SUB] by
        revert hm; generalize t.kind = j; revert j; decide) (by simpa using this)) (mStart_stops c1)
    refine ⟨v, u :: us, ?_, .juxt d2 b2⟩
    rw [List.append_assoc]
    exact .cons d1 (reads_len_pos a1.reads (mnot_nil h) _) b1
  | sjuxt h h' hf ih' =>
    intro ts r k hr hk ha
    obtain ⟨t1, t2, rfl, a1, a2⟩ := hr.append
    simp only [List.length_append] at hk
    obtain ⟨u, us, b1, b2⟩ := ih' t2 r k a2 (by omega) ha
    obtain ⟨w, vs, he, hw⟩ := mstarts h'
    cases he
    obtain ⟨t, t2, rfl, c1, c2⟩ := next_start a2.reads (hw rfl) hf
    obtain ⟨v, d1, d2, d3, -⟩ := factor_step (not_nil h) (parsed h) a1 (r := t :: t2 ++ r) (k := k)
      (by omega) (avoids_cons c2) (mStart_stops c1)
    refine ⟨v, u :: us, ?_, .sjuxt d3 b2⟩
    rw [List.append_assoc]
    exact .cons d1 d2 b1
  | juxts h h' ih =>
    intro ts r k hr hk ha
    obtain ⟨t1, t2, rfl, a1, a2⟩ := hr.append
    simp only [List.length_append] at hk
    obtain ⟨u, us, b1, b2⟩ := parsed h' t2 r k a2 (by omega) (afterM_open ha)
    obtain ⟨w, vs, rfl, hw⟩ := starts h'
    obtain ⟨t, t2, rfl, c1, -⟩ := next_start a2.reads (by rw [mStart, hw rfl]; rfl) (follows_closed w)
    have := List.all_eq_true.1 mStart_ok _ c1
    obtain ⟨v, d1, d2⟩ := ih t1 (t :: t2 ++ r) k a1 (by omega)
      (avoids_cons fun hm => absurd (show t.kind ∈ [Kind.MATRIX_XRIGHTARROW, .CARET, .ADD, .SUB] by
        revert hm; generalize t.kind = j; revert j; decide) (by simpa using this)) (mStart_stops c1)
    refine ⟨v, u :: us, ?_, .juxts d2 b2⟩
    rw [List.append_assoc]
    exact .cons d1 (reads_len_pos a1.reads (mnot_nil h) _) b1
  | @product p o us a h ih =>
    intro ts r k hr hk ha
    have hne := List.length_pos_iff.2 (mnot_nil h)
    obtain ⟨j, rfl⟩ : ∃ j, k = j + 1 := ⟨k - 1, by omega⟩
    obtain ⟨u, us, h1, h2⟩ := ih ts r j hr (by omega) ha
    obtain ⟨w, vs, rfl, hw⟩ := mstarts h
    refine ⟨_, First.or_right ?_ ((First.plus h1 ((postfix_needs _ _).avoid
      (((afterM_open ha).mono (afterProduct_sub o)).mono (by decide +kernel)))).bind .pure), h2⟩
    obtain ⟨t, t2, rfl, c1, -⟩ := next_start hr.reads (hw rfl) (follows_closed w)
    have := List.all_eq_true.1 mStart_ok _ c1
    exact (Needs.oneOf _).bind.skip fun hm => absurd
      (show t.kind ∈ [Kind.MATRIX_XRIGHTARROW, .CARET, .ADD, .SUB] by
        revert hm; generalize t.kind = j; revert j; decide) (by simpa using this)
  | pos h ih =>
    intro ts r k hr hk ha
    obtain ⟨t, ts, rfl, b1, -, b3⟩ := hr.cons_inv (k := .ADD) (by decide +kernel)
    simp only [List.length_cons] at hk
    have := List.length_pos_iff.2 (mnot_nil h)
    obtain ⟨j', rfl⟩ : ∃ j, k = j + 1 := ⟨k - 1, by omega⟩
    obtain ⟨u, h1, h2⟩ := ih ts r j' b3 (by omega) ha
    refine ⟨signTree t.kind u, First.or_left ?_, by rw [b1]; exact .pos h2⟩
    exact (First.oneOf (by rw [b1]; decide)).bind (h1.bind .pure)
  | signed h ih =>
    intro ts r k hr hk ha
    obtain ⟨t, h1, h2⟩ := ih ts r k hr hk ha
    exact ⟨t, [], r, h1, .nil, h2⟩
  | mul h ho h' ih ih' =>
    intro ts r k hr hk ha
    obtain ⟨t1, t2, rfl, a1, a2⟩ := hr.append
    cases a2 with
    | @cons _ _ t ts b1 b2 b3 =>
      simp only [List.length_append, List.length_cons] at hk
      have := List.length_pos_iff.2 (mnot_nil h')
      have := List.length_pos_iff.2 (mnot_nil h)
      obtain ⟨o1, o2, o3, o4⟩ := times_tree ho b1
      obtain ⟨l, ls, r1, c1, c2, c3⟩ := ih t1 (t :: (ts ++ r)) k a1 (by omega) (avoids_cons o2)
      obtain ⟨u, d1, d2⟩ := ih' ts r k b3 (by omega) ha
      obtain ⟨l', us, r2, e1, e2, e3⟩ := op_join c1 c2 o1 d1
      refine ⟨l', us, r2, e1, e2, ?_⟩
      rw [e3, o4]
      exact .mul c3 d2
  | smul h ho h' ih' =>
    intro ts r k hr hk ha
    obtain ⟨t1, t2, rfl, a1, a2⟩ := hr.append
    cases a2 with
    | @cons _ _ t ts b1 b2 b3 =>
      simp only [List.length_append, List.length_cons] at hk
      have := List.length_pos_iff.2 (mnot_nil h')
      have := List.length_pos_iff.2 (not_nil h)
      obtain ⟨o1, o2, o3, o4⟩ := times_tree ho b1
      obtain ⟨l, ls, r1, c1, c2, c3⟩ := parsed h t1 (t :: (ts ++ r)) k a1 (by omega) (avoids_cons o3)
      obtain ⟨u, d1, d2⟩ := ih' ts r k b3 (by omega) ha
      obtain ⟨l', us, r2, e1, e2, e3⟩ := op_join c1 c2 o1 d1
      refine ⟨l', us, r2, e1, e2, ?_⟩
      rw [e3, o4]
      exact .smul c3 d2
  | muls h ho h' ih =>
    intro ts r k hr hk ha
    obtain ⟨t1, t2, rfl, a1, a2⟩ := hr.append
    cases a2 with
    | @cons _ _ t ts b1 b2 b3 =>
      simp only [List.length_append, List.length_cons] at hk
      have := List.length_pos_iff.2 (not_nil h')
      have := List.length_pos_iff.2 (mnot_nil h)
      obtain ⟨o1, o2, o3, o4⟩ := times_tree ho b1
      obtain ⟨l, ls, r1, c1, c2, c3⟩ := ih t1 (t :: (ts ++ r)) k a1 (by omega) (avoids_cons o2)
      obtain ⟨u, d1, d2⟩ := parsed h' ts r k b3 (by omega) (afterM_open ha)
      obtain ⟨l', us, r2, e1, e2, e3⟩ := op_join c1 c2 o1 d1
      refine ⟨l', us, r2, e1, e2, ?_⟩
      rw [e3, o4]
      exact .muls c3 d2
  | div h ho h' ih =>
    intro ts r k hr hk ha
    obtain ⟨t1, t2, rfl, a1, a2⟩ := hr.append
    cases a2 with
    | @cons _ _ t ts b1 b2 b3 =>
      simp only [List.length_append, List.length_cons] at hk
      have := List.length_pos_iff.2 (not_nil h')
      have := List.length_pos_iff.2 (mnot_nil h)
      obtain ⟨o1, o2, o4⟩ := over_tree ho b1
      obtain ⟨l, ls, r1, c1, c2, c3⟩ := ih t1 (t :: (ts ++ r)) k a1 (by omega) (avoids_cons o2)
      obtain ⟨u, d1, d2⟩ := parsed h' ts r k b3 (by omega) (afterM_open ha)
      obtain ⟨l', us, r2, e1, e2, e3⟩ := op_join c1 c2 o1 d1
      refine ⟨l', us, r2, e1, e2, ?_⟩
      rw [e3, o4]
      exact .div c3 d2
  | term h ih =>
    intro ts r k hr hk ha
    obtain ⟨t, h1, h2⟩ := MParsed.term_first ih hr (mnot_nil h) hk ha
    exact ⟨t, [], r, h1, .nil, h2⟩
  | add h h' ih ih' =>
    intro ts r k hr hk ha
    obtain ⟨t1, t2, rfl, a1, a2⟩ := hr.append
    obtain ⟨t, ts, rfl, b1, -, b3⟩ := a2.cons_inv (k := .ADD) (by decide +kernel)
    simp only [List.length_append, List.length_cons] at hk
    obtain ⟨l, ls, r1, c1, c2, c3⟩ := ih t1 (t :: (ts ++ r)) k a1 (by omega)
      (avoids_cons (by rw [b1]; decide +kernel))
    obtain ⟨u, d1, d2⟩ := MParsed.term_first ih' b3 (mnot_nil h') (k := k) (by omega) ha
    obtain ⟨l', us, r2, e1, e2, e3⟩ := add_join c1 c2 (by rw [b1]; decide) d1
    refine ⟨l', us, r2, e1, e2, ?_⟩
    rw [e3, b1]
    exact .add c3 d2
  | sub h h' ih ih' =>
    intro ts r k hr hk ha
    obtain ⟨t1, t2, rfl, a1, a2⟩ := hr.append
    obtain ⟨t, ts, rfl, b1, -, b3⟩ := a2.cons_inv (k := .SUB) (by decide +kernel)
    simp only [List.length_append, List.length_cons] at hk
    obtain ⟨l, ls, r1, c1, c2, c3⟩ := ih t1 (t :: (ts ++ r)) k a1 (by omega)
      (avoids_cons (by rw [b1]; decide +kernel))
    obtain ⟨u, d1, d2⟩ := MParsed.term_first ih' b3 (mnot_nil h') (k := k) (by omega) ha
    obtain ⟨l', us, r2, e1, e2, e3⟩ := add_join c1 c2 (by rw [b1]; decide) d1
    refine ⟨l', us, r2, e1, e2, ?_⟩
    rw [e3, b1]
    exact .sub c3 d2

/-! ### From the text to the objects -/

/-- SymPy: `subs` without substitutions keeps a matrix, and `det` has the value of the determinant. -/
structure SoundDet (I : Interp K) {Y : Type} (L : Lib Y) : Prop where
  subs : ∀ (rows : List (List SV)) y, ∃ y', L.call s%"subs" [.mat rows] y = (.ok (.mat rows), y')
  det : ∀ (n : Nat) (rows : List (List SV)), rows.length = n → (∀ r ∈ rows, r.length = n) →
    (∀ r ∈ rows, SV.scalars r = true) → ∀ y, ∃ v y', L.call s%"det" [.mat rows] y = (.ok v, y') ∧
      v.scalar = true ∧ den I v = (ofRows n (rows.map (denList I))).det

/-- signs that the lexer and the preparation of the text treat as such -/
def Fine (style : Style) (us : List Sign) : Prop :=
  (∀ w ∈ us, isToken w) ∧ (List.IsChain subOk us ∧ ∀ w ∈ us.head?, w ≠ .mark '_') ∧
    (style.integrals = false → boxed us = true)

theorem Fine.append {us vs : List Sign} (h : Fine style us) (k : Fine style vs) :
    Fine style (us ++ vs) := by
  obtain ⟨a1, a2, a3⟩ := h
  obtain ⟨b1, b2, b3⟩ := k
  refine ⟨?_, ⟨chain_append a2.1 b2.1 b2.2, ?_⟩, fun hi => by rw [boxed_append (a3 hi)]; exact b3 hi⟩
  · intro w hw
    rcases List.mem_append.1 hw with hw | hw
    · exact a1 w hw
    · exact b1 w hw
  · intro w hw
    cases us with
    | nil => exact b2.2 w hw
    | cons v us => exact a2.2 w hw

theorem Fine.sign {w : Sign} (h : (tokenOk w && w != .mark '_' && boxed [w]) = true) : Fine style [w] := by
  simp only [Bool.and_eq_true, bne_iff_ne] at h
  refine ⟨by simpa using tokenOk_token h.1.1, ⟨List.isChain_singleton _, by simpa using h.1.2⟩, fun _ => h.2⟩

theorem Fine.signs {us : List Sign} (h : us.all (fun w => tokenOk w && w != .mark '_' && boxed [w]) = true) :
    Fine style us := by
  induction us with
  | nil => exact ⟨by simp, ⟨by simp, by simp⟩, fun _ => rfl⟩
  | cons w us ih =>
    simp only [List.all_cons, Bool.and_eq_true] at h
    exact (Fine.sign (w := w) (by simp [h.1])).append (ih (by simpa using h.2))

theorem Fine.cons {w : Sign} {us : List Sign}
    (h : (tokenOk w && w != .mark '_' && boxed [w]) = true) (k : Fine style us) : Fine style (w :: us) :=
  (Fine.sign h).append k

theorem denotes_fine {l : Level} {us : List Sign} {x : K} (h : Denotes I free style l us x) :
    Fine style us := ⟨denotes_kinds h, denotes_sub h, boxed_denotes h⟩

theorem row_fine {us : List Sign} {xs : List K} (h : Row I free style us xs) : Fine style us := by
  induction h with
  | one h => exact denotes_fine h
  | cons h _ ih => exact (denotes_fine h).append (.cons (by decide +kernel) ih)

theorem table_fine {us : List Sign} {xss : List (List K)} (h : Table I free style us xss) :
    Fine style us := by
  induction h with
  | one h => exact row_fine h
  | cons h _ ih => exact (row_fine h).append (.cons (by decide +kernel) ih)

theorem body_fine {us : List Sign} {xss : List (List K)} (h : Body I free style us xss) :
    Fine style us := by
  cases h with
  | plain h => exact table_fine h
  | trailing h => exact (table_fine h).append (.sign (by decide +kernel))

theorem matrixSigns_ok : matrixSigns.all (fun p => (p.1 :: [p.2]).all
    (fun w => tokenOk w && w != .mark '_' && boxed [w])) = true := by decide +kernel

theorem brackets_ok : brackets.all (fun p => (p.1 ++ p.2.1).all
    (fun w => tokenOk w && w != .mark '_' && boxed [w])) = true := by decide +kernel

theorem operators_ok : (timesSigns ++ overSigns).all
    (fun w => tokenOk w && w != .mark '_' && boxed [w]) = true := by decide +kernel

theorem matrix_fine {b e : Sign} {us : List Sign} {xss : List (List K)} (hb : (b, e) ∈ matrixSigns)
    (h : Body I free style us xss) : Fine style (b :: us ++ [e]) := by
  have := List.all_eq_true.1 (List.all_eq_true.1 matrixSigns_ok _ hb)
  exact (Fine.cons (this b (by simp)) (body_fine h)).append (.sign (this e (by simp)))

theorem det_fine {us : List Sign} {xss : List (List K)} (h : Body I free style us xss) :
    Fine style (.cmd s%"begin{vmatrix}" :: us ++ [.cmd s%"end{vmatrix}"]) :=
  (Fine.cons (by decide +kernel) (body_fine h)).append (.sign (by decide +kernel))

theorem mdenotes_fine {l : MLevel} {us : List Sign} (h : MDenotes I free style n p l us a) :
    Fine style us := by
  have op : ∀ {o us}, o ∈ timesSigns ++ overSigns → Fine style us → Fine style (o :: us) :=
    fun ho h => .cons (List.all_eq_true.1 operators_ok _ ho) h
  induction h with
  | matrix hb h _ _ => exact matrix_fine hb h
  | @bracket p l q us a hb _ ih =>
    have := List.all_eq_true.1 (List.all_eq_true.1 brackets_ok _ hb)
    exact ((Fine.signs (List.all_eq_true.2 fun w hw => this w (by simp [hw]))).append ih).append
      (.signs (List.all_eq_true.2 fun w hw => this w (by simp [hw])))
  | factor _ ih | product _ ih | signed _ ih | term _ ih => exact ih
  | juxt _ _ ih ih' => exact ih.append ih'
  | sjuxt h _ _ ih' => exact (denotes_fine h).append ih'
  | juxts _ h ih => exact ih.append (denotes_fine h)
  | pos _ ih => exact .cons (by decide +kernel) ih
  | mul _ ho _ ih ih' => exact ih.append (op (List.mem_append_left _ ho) ih')
  | smul h ho _ ih' => exact (denotes_fine h).append (op (List.mem_append_left _ ho) ih')
  | muls _ ho h ih => exact ih.append (op (List.mem_append_left _ ho) (denotes_fine h))
  | div _ ho h ih => exact ih.append (op (List.mem_append_right _ ho) (denotes_fine h))
  | add _ _ ih ih' => exact ih.append (.cons (by decide +kernel) ih')
  | sub _ _ ih ih' => exact ih.append (.cons (by decide +kernel) ih')

/-- one factor makes an expression -/
theorem expr_comp {k : Nat} {t : T} {ts : List Tok} {b : Tok} (hb : b.kind ∉ [Kind.ADD, .SUB])
    (h : First (comp (rule k) true) (b :: ts) t []) :
    First (rule (k + 3) .expr) (b :: ts) (.juxt [t]) [] := by
  have he : Avoids ([] : List Tok) compKinds := fun k hk => by simp [nextKind] at hk
  have h0 : ∀ {α : Type} {p : P α} {ks : List Kind}, Needs p ks → .COMMA ∉ ks → p [] = [] := fun hn hc =>
    hn.avoid (fun k hk => by simp [nextKind] at hk) hc
  have h1 : First (postfix' (rule k) true) (b :: ts) t [] :=
    First.bind (First.bind h (First.bind (First.many (as := []) .nil (h0 (Needs.tk _).bind (by decide))) .pure))
      (First.bind (First.many (as := []) .nil (h0 (postfixOp_needs _) (by decide +kernel))) .pure)
  have h2 : First (rule (k + 1) .unary) (b :: ts) (.juxt [t]) [] :=
    First.or_right ((Needs.oneOf _).bind.skip hb) ((First.plus (Steps.one h1 (by simp))
      (h0 (postfix_needs _ _) (by decide +kernel))).bind .pure)
  exact chain_first (us := []) (chain_first (us := []) h2 .nil (fun k hk => by simp [nextKind] at hk)) .nil
    (fun k hk => by simp [nextKind] at hk)

/-- an expression is a whole text -/
theorem parseTokens_expr {ts : List Tok} {t : T} (h : First (rule (4 * ts.length + 4) .expr) ts t []) :
    parseTokens ts = some (.one t) := by
  have h1 : First (relation (4 * ts.length + 4)) ts t [] :=
    chain_first h .nil (fun k hk => by simp [nextKind] at hk)
  have key : Whole (math (4 * ts.length + 4)) ts (.one t) :=
    Whole.left (Whole.map (f := MathTree.one) h1.whole)
  rw [Whole] at key
  rw [parseTokens, key]
  rfl

/-- the tree of a text that is a matrix -/
theorem parseTokens_matrix {b e : Sign} {us : List Sign} {xss : List (List K)} (hb : (b, e) ∈ matrixSigns)
    (h : Body I free style us xss) {ts : List Tok} (hr : Reads (b :: us ++ [e]) ts) (ho : OneDiff ts) :
    ∃ rows, parseTokens ts = some (.one (.juxt [.matrix rows []])) ∧ MeansRows I free rows xss := by
  have hl := hr.length
  simp only [List.length_append, List.length_cons, List.length_nil] at hl
  obtain ⟨rows, h1, h2⟩ := matrix_first hb h (r := []) (ts := ts) (k := 4 * ts.length + 1)
    (.mk hr (by simpa using ho)) (by omega) (fun k hk => by simp [nextKind] at hk)
  rw [List.append_nil] at h1
  refine ⟨rows, ?_, h2⟩
  rw [List.cons_append] at hr
  obtain ⟨t, ts, rfl, a1, -, -⟩ := hr.cons_inv (types_kinds hb).1
  exact parseTokens_expr (expr_comp (by rw [a1]; decide) h1)

/-- the tree of a text that is a determinant -/
theorem parseTokens_det {us : List Sign} {xss : List (List K)}
    (h : Body I free style us xss) {ts : List Tok}
    (hr : Reads (.cmd s%"begin{vmatrix}" :: us ++ [.cmd s%"end{vmatrix}"]) ts) (ho : OneDiff ts) :
    ∃ rows, parseTokens ts = some (.one (.juxt [.det rows])) ∧ MeansRows I free rows xss := by
  have hl := hr.length
  simp only [List.length_append, List.length_cons, List.length_nil] at hl
  have hr' : ReadsIn [] (.cmd s%"begin{vmatrix}" :: us ++ [.cmd s%"end{vmatrix}"]) ts :=
    .mk hr (by simpa using ho)
  rw [List.cons_append] at hr'
  obtain ⟨t, ts, rfl, a1, -, a2⟩ := hr'.cons_inv (k := .CMD_DET_START) (by decide +kernel)
  obtain ⟨t1, t2, rfl, b1, b2⟩ := a2.append
  obtain ⟨c, t2, rfl, c1, -, c2⟩ := b2.cons_inv (k := .CMD_DET_END) (by decide +kernel)
  cases c2
  simp only [List.length_append, List.length_cons, List.length_nil] at hl
  obtain ⟨es, d1, d2⟩ := rows_first h (k := 4 * (t :: (t1 ++ [c])).length + 1) (c := c) (r := [])
    (by rw [c1]; decide) b1 (by simp only [List.length_append, List.length_cons, List.length_nil]; omega)
  refine ⟨es, ?_, d2⟩
  refine parseTokens_expr (expr_comp (by rw [a1]; decide) (comp_det a1 ?_))
  exact (First.tk a1).bind (d1.bind ((First.tk c1).bind .pure))

/-- the tree of a text that is a matrix expression -/
theorem parseTokens_mexpr {us : List Sign} (h : MDenotes I free style n p .expr us a) {ts : List Tok}
    (hr : Reads us ts) (ho : OneDiff ts) :
    ∃ t, parseTokens ts = some (.one t) ∧ Tree I free n p t a := by
  obtain ⟨t, h1, h2⟩ := MParsed.expr_first (mparsed h) (r := []) (ts := ts) (k := 4 * ts.length + 4)
    (.mk hr (by simpa using ho)) (mnot_nil h) (by rw [hr.length]; omega)
    (fun k hk => by simp [nextKind] at hk)
  rw [List.append_nil] at h1
  exact ⟨t, parseTokens_expr h1, h2⟩

section
variable [CharZero K] {Y : Type} {L : Lib Y} (hL : SoundLib I L) (hM : SoundMatrix I L)
  (hp : ∀ s t, parseText s = some t → L.parse s = .ok t) {s : Str} (m : Nat)
  (vals : List (Str × PV)) (w : World (St Y)) (hr : Ready I free w)

include hL hM hp hr

/-- **C90, matrices, also with integrals.**  The text of a matrix is converted to the matrix with the
values of the entries in their places, for every number of rows and columns. -/
theorem C90_entries_apart {b e : Sign} {us : List Sign} {xss : List (List K)} {C : Nat}
    (hb : (b, e) ∈ matrixSigns) (h : Body I free style us xss) (hC : ∀ r ∈ xss, r.length = C)
    (hw : Written (b :: us ++ [e]) s) (ha : Apart (b :: us ++ [e])) :
    ∃ v w', latex2sympy L (m + 1) s vals w = (.ok v, w') ∧
      IsMatrix I v xss.length C fun r c => (xss.getD r []).getD c 0 := by
  obtain ⟨b1, b2, -⟩ := matrix_fine hb h
  obtain ⟨ts, h1, h2⟩ := lex_written hw b1
  obtain ⟨rows, h3, h4⟩ := parseTokens_matrix hb h h2 (oneDiff_of_apart h2 ha)
  have hpt : L.parse (prepare s) = .ok (.one (.juxt [.matrix rows []])) := by
    rw [prepare_written hw b1 b2.1]
    exact hp _ _ (by rw [parseText, h1]; exact h3)
  let w0 : World (St Y) := ⟨⟨{ w.ext.g with fracType := fracTypeOf s w.ext.g.fracType, values := vals },
    w.ext.lib⟩, w.out⟩
  have base := matrix_spec I hL hM (latex2sympy L m) h4 hC w0 hr
  have assoc : ∀ f : SV → M (St Y) SV,
      (convRows L (latex2sympy L m) rows >>= fun rs => L.ev s%"Matrix" (rs.map .list) >>= f)
        = ((convRows L (latex2sympy L m) rows >>= fun rs => L.ev s%"Matrix" (rs.map .list)) >>= f) := by
    intro f; funext w
    simp only [M.bind_run]
    rcases convRows L (latex2sympy L m) rows w with ⟨_ | v, w'⟩ <;> rfl
  have hconv : Returns (conv L (latex2sympy L m) (.juxt [.matrix rows []])) w0 fun v =>
      IsMatrix I v xss.length C fun r c => (xss.getD r []).getD c 0 := by
    rw [conv, convJuxt, conv]
    refine Returns.bind (P := fun v => IsMatrix I v xss.length C fun r c => (xss.getD r []).getD c 0)
      ?_ fun v w1 hv _ => ?_
    · rw [assoc]
      exact base.bind fun m w1 hm _ => Returns.pure hm
    · obtain ⟨rs, rfl, h⟩ := hv
      exact Returns.pure ⟨rs, rfl, h⟩
  obtain ⟨v, w', k1, k2, -⟩ := hconv
  refine ⟨v, w', ?_, k2⟩
  rw [latex2sympy]
  simp only [M.bind_run, modG, M.ext, M.lift_run, hpt]
  exact k1

/-- **C90, matrix expressions, also with integrals.**  Sums, differences, products and multiples of
square matrices are converted to matrix expressions of their value. -/
theorem C90_algebra_apart_partial (hA : SoundAlg I (explicitLeaf I n) L) {us : List Sign}
    (h : MDenotes I free style n p .expr us a) (hw : Written us s) (ha : Apart us) :
    ∃ v w', latex2sympy L (m + 1) s vals w = (.ok v, w') ∧ v.isMat = true ∧
      mden I (explicitLeaf I n) v = a := by
  obtain ⟨b1, b2, -⟩ := mdenotes_fine h
  obtain ⟨ts, h1, h2⟩ := lex_written hw b1
  obtain ⟨t, h3, h4⟩ := parseTokens_mexpr h h2 (oneDiff_of_apart h2 ha)
  have hpt : L.parse (prepare s) = .ok (.one t) := by
    rw [prepare_written hw b1 b2.1]
    exact hp _ _ (by rw [parseText, h1]; exact h3)
  let w0 : World (St Y) := ⟨⟨{ w.ext.g with fracType := fracTypeOf s w.ext.g.fracType, values := vals },
    w.ext.lib⟩, w.out⟩
  obtain ⟨v, w', k1, k2, k3⟩ := C69_explicit_partial I hL hM hA (latex2sympy L m) h4 w0 hr
  refine ⟨v, w', ?_, k2, k3⟩
  rw [latex2sympy]
  simp only [M.bind_run, modG, M.ext, M.lift_run, hpt]
  exact k1


/-- **C90, determinants, also with integrals.** -/
theorem C90_det_apart (hD : SoundDet I L) (hv : w.ext.g.variances = []) {us : List Sign}
    {xss : List (List K)} (h : Body I free style us xss) (h1 : xss.length = n)
    (h2 : ∀ r ∈ xss, r.length = n)
    (hw : Written (.cmd s%"begin{vmatrix}" :: us ++ [.cmd s%"end{vmatrix}"]) s)
    (ha : Apart (.cmd s%"begin{vmatrix}" :: us ++ [.cmd s%"end{vmatrix}"])) :
    ∃ v w', latex2sympy L (m + 1) s vals w = (.ok v, w') ∧ v.scalar = true ∧
      den I v = (ofRows n xss).det := by
  obtain ⟨b1, b2, -⟩ := det_fine h
  obtain ⟨ts, t1, t2⟩ := lex_written hw b1
  obtain ⟨rows, h3, h4⟩ := parseTokens_det h t2 (oneDiff_of_apart t2 ha)
  have hpt : L.parse (prepare s) = .ok (.one (.juxt [.det rows])) := by
    rw [prepare_written hw b1 b2.1]
    exact hp _ _ (by rw [parseText, t1]; exact h3)
  let w0 : World (St Y) := ⟨⟨{ w.ext.g with fracType := fracTypeOf s w.ext.g.fracType, values := vals },
    w.ext.lib⟩, w.out⟩
  have hconv : Returns (conv L (latex2sympy L m) (.juxt [.det rows])) w0 fun v =>
      v.scalar = true ∧ den I v = (ofRows n xss).det := by
    rw [conv, convJuxt, conv]
    refine Returns.bind (P := fun v => v.scalar = true ∧ den I v = (ofRows n xss).det)
      ?_ fun v w1 hv _ => ?_
    · refine (convRows_spec hL (latex2sympy L m) h4 w0 hr).bind fun rs w1 hrs s1 => ?_
      obtain ⟨g1, rfl⟩ := hrs
      have hlen : ∀ r ∈ rs, r.length = n := by
        intro r hr
        have := h2 (denList I r) (List.mem_map.2 ⟨r, hr, rfl⟩)
        rw [denList_eq_map, List.length_map] at this
        exact this
      refine (returns_ev (P := fun v => v = .mat rs) fun y => ?_).bind fun m' w2 hm s2 => ?_
      · obtain ⟨y', hy⟩ := hM.matrix rs g1 (fun r hr r' hr' => by rw [hlen r hr, hlen r' hr']) y
        exact ⟨_, y', hy, rfl⟩
      subst hm
      have hv2 : w2.ext.g.variances = [] := by rw [s2.2.2.1, s1.2.2.1]; exact hv
      refine Returns.bind (P := fun g => g.variances = []) (m := getG) ⟨w2.ext.g, w2, rfl, hv2, SameG.refl _, rfl⟩
        fun g w3 hg _ => ?_
      rw [hg]
      refine (returns_ev (P := fun v => v = .mat rs) fun y => ?_).bind fun m' w4 hm _ => ?_
      · obtain ⟨y', hy⟩ := hD.subs rs y
        exact ⟨_, y', hy, rfl⟩
      subst hm
      refine returns_ev fun y => ?_
      obtain ⟨v, y', k1, k2, k3⟩ := hD.det n rs (by simpa using h1) hlen g1 y
      exact ⟨v, y', k1, k2, k3⟩
    · rw [postKind_scalar hv.1]
      exact Returns.pure hv
  obtain ⟨v, w', k1, k2, -⟩ := hconv
  refine ⟨v, w', ?_, k2⟩
  rw [latex2sympy]
  simp only [M.bind_run, modG, M.ext, M.lift_run, hpt]
  exact k1

variable {wide : Bool}

/-- **C90, matrices.**  The text `\begin{pmatrix} a & b \\ c & d \end{pmatrix}` (or `bmatrix`), of any
number of rows and columns, is converted to the matrix with the values of the entries in their places. -/
theorem C90_entries {b e : Sign} {us : List Sign} {xss : List (List K)} {C : Nat}
    (hb : (b, e) ∈ matrixSigns) (h : Body I free wide us xss) (hC : ∀ r ∈ xss, r.length = C)
    (hw : Written (b :: us ++ [e]) s) :
    ∃ v w', latex2sympy L (m + 1) s vals w = (.ok v, w') ∧
      IsMatrix I v xss.length C fun r c => (xss.getD r []).getD c 0 :=
  C90_entries_apart hL hM hp m vals w hr hb h hC hw (apart_of_boxed ((matrix_fine hb h).2.2 rfl))

/-- **C90, matrix expressions.** -/
theorem C90_algebra_partial (hA : SoundAlg I (explicitLeaf I n) L) {us : List Sign}
    (h : MDenotes I free wide n p .expr us a) (hw : Written us s) :
    ∃ v w', latex2sympy L (m + 1) s vals w = (.ok v, w') ∧ v.isMat = true ∧
      mden I (explicitLeaf I n) v = a :=
  C90_algebra_apart_partial hL hM hp m vals w hr hA h hw (apart_of_boxed ((mdenotes_fine h).2.2 rfl))

/-- **C90, determinants.**  The text `\begin{vmatrix} a & b \\ c & d \end{vmatrix}` is converted to an
expression whose value is the determinant. -/
theorem C90_det (hD : SoundDet I L) (hv : w.ext.g.variances = []) {us : List Sign}
    {xss : List (List K)} (h : Body I free wide us xss) (h1 : xss.length = n)
    (h2 : ∀ r ∈ xss, r.length = n)
    (hw : Written (.cmd s%"begin{vmatrix}" :: us ++ [.cmd s%"end{vmatrix}"]) s) :
    ∃ v w', latex2sympy L (m + 1) s vals w = (.ok v, w') ∧ v.scalar = true ∧
      den I v = (ofRows n xss).det :=
  C90_det_apart hL hM hp m vals w hr hD hv h h1 h2 hw (apart_of_boxed ((det_fine h).2.2 rfl))

end

end

/-! ### Concrete texts -/

/-- the library of C65 with the parser of the model and with determinants -/
noncomputable def matTextLib : Lib Unit :=
  { matLib false with
    parse := fun s => match parseText s with
      | some t => .ok t
      | none => .error .other
    call := fun f args y =>
      match args with
      | [.mat rows] =>
        if f = s%"subs" then (.ok (.mat rows), y)
        else if f = s%"det" then
          (.ok (.num (ofRows rows.length (rows.map (denList ratInterp))).det), y)
        else (matLib false).call f args y
      | _ => (matLib false).call f args y }

theorem matTextLib_parse (s : Str) (t : MathTree) (h : parseText s = some t) :
    matTextLib.parse s = .ok t := by
  simp [matTextLib, h]

theorem matTextLib_call {f : Str} {args : List SV} (h : f ∉ [s%"subs", s%"det"]) (y : Unit) :
    matTextLib.call f args y = (matLib false).call f args y := by
  simp only [List.mem_cons, List.not_mem_nil, or_false, not_or] at h
  simp only [matTextLib]
  split
  · rw [if_neg h.1, if_neg h.2]
  · rfl

theorem matTextLib_sound : SoundLib ratInterp matTextLib where
  call σ f hf args h y := by
    rw [matTextLib_call (by
      simp only [List.mem_cons, List.not_mem_nil, or_false] at hf
      rcases hf with rfl | rfl <;> decide)]
    exact (matLib_sound false).call σ f hf args h y
  inv σ a h h0 y := by
    rw [matTextLib_call (by decide)]
    exact (matLib_sound false).inv σ a h h0 y
  bind σ {f args op n r b as} hc hb has y := by
    have : matTextLib.call f args y = (matLib false).call f args y := by
      cases hc <;> exact matTextLib_call (by decide) y
    rw [this]
    exact (matLib_sound false).bind σ hc hb has y

theorem matTextLib_matrix : SoundMatrix ratInterp matTextLib where
  mul a b ha hb y := by
    rw [matTextLib_call (by decide)]
    exact (matLib_matrix false).mul a b ha hb y
  add a b ha hb y := by
    rw [matTextLib_call (by decide)]
    exact (matLib_matrix false).add a b ha hb y
  matrix rows h1 h2 y := by
    rw [matTextLib_call (by decide)]
    exact (matLib_matrix false).matrix rows h1 h2 y

theorem matTextLib_alg {A : Type} [Ring A] [Algebra ℚ A] (leaf : SV → A) :
    SoundAlg ratInterp leaf matTextLib where
  doit b v h y := by
    rw [matTextLib_call (by decide)]
    exact (matLib_alg false leaf).doit b v h y
  matAdd _ _ y := ⟨y, rfl⟩
  matMul _ _ y := ⟨y, rfl⟩

theorem matTextLib_det : SoundDet ratInterp matTextLib where
  subs rows y := ⟨y, rfl⟩
  det n rows h _ _ y := by
    subst h
    exact ⟨_, y, rfl, rfl, by rw [den]; simp⟩

/-- a row of two digits -/
theorem row2 {style : Style} (a b : Fin 10) :
    Row ratInterp (fun _ => True) style [.digit a, .mark '&', .digit b] [(a.val : ℚ), (b.val : ℚ)] := by
  simpa using Row.cons (digitExpr (I := ratInterp) (free := fun _ => True) (wide := style) a)
    (.one (digitExpr b))

/-- a table of two rows and two columns -/
theorem body22 {style : Style} (a b c d : Fin 10) :
    Body ratInterp (fun _ => True) style
      [.digit a, .mark '&', .digit b, .cmd s%"\\", .digit c, .mark '&', .digit d]
      [[(a.val : ℚ), (b.val : ℚ)], [(c.val : ℚ), (d.val : ℚ)]] :=
  .plain (.cons (row2 a b) (.one (row2 c d)))

/-- a matrix with one row and two columns: `\begin{bmatrix} 1 & 2 \\ \end{bmatrix}` -/
example : ∃ v w', latex2sympy matTextLib 1 s%"\\begin{bmatrix} 1 & 2 \\\\ \\end{bmatrix}" [] startWorld =
      (.ok v, w') ∧ IsMatrix ratInterp v 1 2 fun r c => ([[(1 : ℚ), 2]].getD r []).getD c 0 := by
  have h := C90_entries matTextLib_sound matTextLib_matrix matTextLib_parse 0 [] startWorld
    ⟨rfl, fun _ _ => rfl⟩ (C := 2) (wide := false) (b := .cmd s%"begin{bmatrix}") (e := .cmd s%"end{bmatrix}")
    (by decide) (.trailing (.one (row2 1 2))) (by simp)
    (s := s%"\\begin{bmatrix} 1 & 2 \\\\ \\end{bmatrix}") (writtenB_sound (by decide +kernel))
  simpa using h

/-- `\begin{vmatrix} 1 & 2 \\ 3 & 4 \end{vmatrix}` is -2 -/
example : ∃ v w', latex2sympy matTextLib 1 s%"\\begin{vmatrix} 1 & 2 \\\\ 3 & 4 \\end{vmatrix}" [] startWorld =
      (.ok v, w') ∧ v.scalar = true ∧ den ratInterp v = -2 := by
  obtain ⟨v, w', h1, h2, h3⟩ := C90_det matTextLib_sound matTextLib_matrix matTextLib_parse 0 [] startWorld
    ⟨rfl, fun _ _ => rfl⟩ (n := 2) (wide := false) matTextLib_det rfl (body22 1 2 3 4) rfl (by simp)
    (s := s%"\\begin{vmatrix} 1 & 2 \\\\ 3 & 4 \\end{vmatrix}") (writtenB_sound (by decide +kernel))
  refine ⟨v, w', h1, h2, ?_⟩
  rw [h3, Matrix.det_fin_two]
  simp [ofRows]
  norm_num

/-- products are in order: `\begin{pmatrix} 0 & 1 \\ 0 & 0 \end{pmatrix} \begin{pmatrix} 0 & 0 \\ 2 & 0 \end{pmatrix}` -/
example : ∃ v w', latex2sympy matTextLib 1
      s%"\\begin{pmatrix} 0 & 1 \\\\ 0 & 0 \\end{pmatrix} \\begin{pmatrix} 0 & 0 \\\\ 2 & 0 \\end{pmatrix}" []
      startWorld = (.ok v, w') ∧ v.isMat = true ∧
      mden ratInterp (explicitLeaf ratInterp 2) v = ofRows 2 [[2, 0], [0, 0]] := by
  obtain ⟨v, w', h1, h2, h3⟩ := C90_algebra_partial matTextLib_sound matTextLib_matrix matTextLib_parse 0 []
    startWorld ⟨rfl, fun _ _ => rfl⟩ (wide := false) (matTextLib_alg (explicitLeaf ratInterp 2))
    (.term (.signed (.product (.juxt
      (.matrix (b := .cmd s%"begin{pmatrix}") (e := .cmd s%"end{pmatrix}") (by decide) (body22 0 1 0 0) rfl (by simp))
      (.factor (.matrix (b := .cmd s%"begin{pmatrix}") (e := .cmd s%"end{pmatrix}") (by decide) (body22 0 0 2 0)
        rfl (by simp)))))))
    (s := s%"\\begin{pmatrix} 0 & 1 \\\\ 0 & 0 \\end{pmatrix} \\begin{pmatrix} 0 & 0 \\\\ 2 & 0 \\end{pmatrix}")
    (writtenB_sound (by decide +kernel))
  refine ⟨v, w', h1, h2, ?_⟩
  rw [h3]
  ext i j
  match i, j with
  | 0, 0 => simp [ofRows, Matrix.mul_apply, Fin.sum_univ_two]
  | 0, 1 => simp [ofRows, Matrix.mul_apply, Fin.sum_univ_two]
  | 1, 0 => simp [ofRows, Matrix.mul_apply, Fin.sum_univ_two]
  | 1, 1 => simp [ofRows, Matrix.mul_apply, Fin.sum_univ_two]

/-- the tree of `\begin{pmatrix}1\end{pmatrix}` -/
def oneMatrix : T := .matrix [[.juxt [.number s%"1"]]] []

/-- **C90 is violated by negations**: `-\begin{pmatrix}1\end{pmatrix}` raises `TypeError`, although the
matrix alone is converted. -/
theorem C90_negation_refuted :
    (∃ v w', latex2sympy matTextLib 1 s%"\\begin{pmatrix}1\\end{pmatrix}" [] startWorld = (.ok v, w')) ∧
    (latex2sympy matTextLib 1 s%"-\\begin{pmatrix}1\\end{pmatrix}" [] startWorld).1 =
      .error .typeError := by
  constructor
  · have hp := matTextLib_parse s%"\\begin{pmatrix}1\\end{pmatrix}" (.one (.juxt [oneMatrix])) (by kernel_rfl)
    rw [latex2sympy]
    simp only [M.bind_run, modG, M.ext, M.lift_run,
      show prepare s%"\\begin{pmatrix}1\\end{pmatrix}" = s%"\\begin{pmatrix}1\\end{pmatrix}" by decide +kernel, hp]
    exact ⟨_, _, rfl⟩
  · have hp := matTextLib_parse s%"-\\begin{pmatrix}1\\end{pmatrix}" (.one (.neg (.juxt [oneMatrix])))
      (by kernel_rfl)
    rw [latex2sympy]
    simp only [M.bind_run, modG, M.ext, M.lift_run,
      show prepare s%"-\\begin{pmatrix}1\\end{pmatrix}" = s%"-\\begin{pmatrix}1\\end{pmatrix}" by decide +kernel, hp]
    rfl

/-- **C90 is violated by differences of products**:
`\begin{pmatrix}1\end{pmatrix}-2\begin{pmatrix}1\end{pmatrix}` raises `AttributeError`. -/
theorem C90_difference_refuted :
    (latex2sympy matTextLib 1 s%"\\begin{pmatrix}1\\end{pmatrix}-2\\begin{pmatrix}1\\end{pmatrix}" []
      startWorld).1 = .error .attributeError := by
  have hp := matTextLib_parse s%"\\begin{pmatrix}1\\end{pmatrix}-2\\begin{pmatrix}1\\end{pmatrix}"
    (.one (.sub (.juxt [oneMatrix]) (.juxt [.number s%"2", oneMatrix]))) (by kernel_rfl)
  rw [latex2sympy]
  simp only [M.bind_run, modG, M.ext, M.lift_run,
    show prepare s%"\\begin{pmatrix}1\\end{pmatrix}-2\\begin{pmatrix}1\\end{pmatrix}" =
      s%"\\begin{pmatrix}1\\end{pmatrix}-2\\begin{pmatrix}1\\end{pmatrix}" by decide +kernel, hp]
  rfl

end Verif.Grammar
