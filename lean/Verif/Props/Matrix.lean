import Verif.Model.Evaluations
import Verif.Props.Tuple
/-
Properties C11, C12, C37: `split_matrix` and `is_equiv_possible_matrix`.
-/

namespace Verif

variable {X V S : Type}

/-! ### C11 -/

/-- Entries of a row. -/
def Row.entries : Row → List Str
  | .str s => [s]
  | .list xs => xs

/-- `split_matrix` never makes a list of fewer than two entries. -/
def Row.WF : Row → Prop
  | .str _ => True
  | .list xs => 2 ≤ xs.length

theorem AcceptsAll.append {α β : Type} {f : α → β → M X Bool} {as bs as' bs'} {w w' w'' : World X}
    (h : AcceptsAll f as bs w w') (h' : AcceptsAll f as' bs' w' w'') :
    AcceptsAll f (as ++ as') (bs ++ bs') w w'' := by
  induction h with
  | nil => exact h'
  | cons h1 _ ih => exact .cons h1 (ih h')

theorem AcceptsAll.of_append {α β : Type} {f : α → β → M X Bool} {as bs as' bs'} {w w'' : World X}
    (h : AcceptsAll f (as ++ as') (bs ++ bs') w w'') (hl : as.length = bs.length) :
    ∃ w', AcceptsAll f as bs w w' ∧ AcceptsAll f as' bs' w' w'' := by
  induction as generalizing bs w with
  | nil =>
    cases bs with
    | nil => exact ⟨w, .nil w, h⟩
    | cons _ _ => simp at hl
  | cons a as ih =>
    cases bs with
    | nil => simp at hl
    | cons b bs =>
      cases h with
      | cons h1 h2 =>
        obtain ⟨w', h3, h4⟩ := ih h2 (by simpa using hl)
        exact ⟨w', .cons h1 h3, h4⟩

theorem acceptsAll_singleton {f : Str → Str → M X Bool} {a b : Str} {w w' : World X} :
    AcceptsAll f [a] [b] w w' ↔ f a b w = (.ok true, w') := by
  constructor
  · intro h; cases h with
    | cons h1 h2 => cases h2; exact h1
  · intro h; exact .cons h (.nil _)

theorem rowsEquiv_iff (eq : EqFun X) (as bs : List Row) (ha : ∀ r ∈ as, r.WF) (hb : ∀ r ∈ bs, r.WF)
    (hl : as.length = bs.length) (w w' : World X) :
    rowsEquiv eq as bs w = (.ok true, w') ↔ as.map Row.nCol = bs.map Row.nCol ∧
      AcceptsAll (fun x y => eq x y false) (as.flatMap Row.entries) (bs.flatMap Row.entries) w w' := by
  induction as generalizing bs w with
  | nil =>
    cases bs with
    | cons _ _ => simp at hl
    | nil =>
      simp only [rowsEquiv, M.pure_run, Prod.mk.injEq, true_and, List.map_nil, List.flatMap_nil]
      constructor
      · intro e; subst e; exact .nil w
      · intro e; cases e; rfl
  | cons a as ih =>
    cases bs with
    | nil => simp at hl
    | cons b bs =>
      have ih' := ih bs (fun r hr => ha r (by simp [hr])) (fun r hr => hb r (by simp [hr]))
        (by simpa using hl)
      have hwa := ha a (by simp)
      have hwb := hb b (by simp)
      simp only [List.map_cons, List.cons.injEq, List.flatMap_cons]
      -- one comparison followed by the rest
      have step : ∀ cmp : M X Bool, (∀ w w', cmp w = (.ok true, w') ↔
            AcceptsAll (fun x y => eq x y false) a.entries b.entries w w') →
          a.nCol = b.nCol → a.entries.length = b.entries.length →
          rowsEquiv eq (a :: as) (b :: bs) = (do if ← cmp then rowsEquiv eq as bs else pure false) →
          (rowsEquiv eq (a :: as) (b :: bs) w = (.ok true, w') ↔
            (a.nCol = b.nCol ∧ as.map Row.nCol = bs.map Row.nCol) ∧
            AcceptsAll (fun x y => eq x y false) (a.entries ++ as.flatMap Row.entries)
              (b.entries ++ bs.flatMap Row.entries) w w') := by
        intro cmp hcmp hn hlen heq
        rw [heq]
        simp only [M.bind_run]
        constructor
        · intro e
          cases hc : cmp w with
          | mk r w₁ =>
            rw [hc] at e
            cases r with
            | error _ => simp at e
            | ok r =>
              cases r with
              | false => simp at e
              | true =>
                simp only [if_true] at e
                obtain ⟨h1, h2⟩ := (ih' w₁).1 e
                exact ⟨⟨hn, h1⟩, ((hcmp _ _).1 hc).append h2⟩
        · rintro ⟨⟨-, h1⟩, h2⟩
          obtain ⟨w₁, h3, h4⟩ := h2.of_append hlen
          rw [(hcmp _ _).2 h3]
          simp only [if_true]
          exact (ih' w₁).2 ⟨h1, h4⟩
      cases a with
      | str x =>
        cases b with
        | str y =>
          exact step (eq x y false) (fun w w' =>
            (acceptsAll_singleton (f := fun x y => eq x y false) (a := x) (b := y)).symm) rfl rfl rfl
        | list ys =>
          simp only [rowsEquiv, M.pure_run, Row.nCol, Prod.mk.injEq, Except.ok.injEq,
            Bool.false_eq_true, false_and, false_iff, not_and]
          rintro ⟨h, -⟩
          simp only [Row.WF] at hwb
          omega
      | list xs =>
        cases b with
        | str y =>
          simp only [rowsEquiv, M.pure_run, Row.nCol, Prod.mk.injEq, Except.ok.injEq,
            Bool.false_eq_true, false_and, false_iff, not_and]
          rintro ⟨h, -⟩
          simp only [Row.WF] at hwa
          omega
        | list ys =>
          by_cases hxy : xs.length = ys.length
          · apply step (zipLoop (fun x y => eq x y false) xs ys)
              (fun _ _ => zipLoop_iff _ _ _ _ _ hxy) hxy hxy
            simp [rowsEquiv, hxy]
          · simp [rowsEquiv, hxy, Row.nCol]

theorem mapM_ok {α β : Type} (f : α → Except PyErr β) (l : List α) (r : List β) (h : l.mapM f = .ok r) :
    ∀ b ∈ r, ∃ a ∈ l, f a = .ok b := by
  induction l generalizing r with
  | nil => simp [pure, Except.pure] at h; subst h; simp
  | cons a as ih =>
    rw [List.mapM_cons] at h
    cases ha : f a with
    | error e => rw [ha] at h; simp [bind, Except.bind] at h
    | ok b =>
      rw [ha] at h
      cases hr : as.mapM f with
      | error e => rw [hr] at h; simp [bind, Except.bind] at h
      | ok r' =>
        rw [hr] at h; simp [bind, Except.bind, pure, Except.pure] at h
        subst h
        intro c hc
        simp only [List.mem_cons] at hc
        rcases hc with rfl | hc
        · exact ⟨a, by simp, ha⟩
        · obtain ⟨x, hx, hx'⟩ := ih r' hr c hc
          exact ⟨x, by simp [hx], hx'⟩

theorem splitGo_ne_nil (sep : Str) (k : Nat) (acc s : Str) : splitGo sep k acc s ≠ [] := by
  induction s generalizing k acc with
  | nil => simp [splitGo]
  | cons c cs ih =>
    cases k with
    | zero =>
      simp only [splitGo]
      split
      · simp
      · exact ih _ _
    | succ k => simp only [splitGo]; exact ih _ _

theorem envRow_wf (row : Str) : (envRow row).WF := by
  unfold envRow
  split
  · trivial
  · rename_i h
    cases hs : split s%"&" row with
    | nil => exact absurd hs (splitGo_ne_nil _ _ _ _)
    | cons x xs =>
      cases xs with
      | nil => exact absurd hs (h x)
      | cons _ _ => simp [Row.WF]

theorem splitTuple_list_wf (U : Uni) (ord) (s : Str) (e : Elems)
    (h : splitTuple U ord s (some .list) = .ok e) : (rowOfElems e).WF := by
  unfold splitTuple at h
  simp only [Option.getD_some] at h
  split at h
  · cases h
  · split at h
    · rename_i hl
      simp at h; subst h; exact hl
    · simp at h; subst h; trivial

theorem splitMatrix_wf (E : Env X V S) (s : Str) (rs : List Row) (w w' : World X)
    (h : splitMatrix E s w = (.ok (.rows rs), w')) : ∀ r ∈ rs, r.WF := by
  simp only [splitMatrix, M.bind_run, M.lift_run] at h
  cases he : matrixElements E.U E.setOrder s with
  | error e => rw [he] at h; simp at h
  | ok els =>
    rw [he] at h
    have hwf : ∀ r ∈ els, r.WF := by
      unfold matrixElements at he
      split at he
      · simp at he; subst he
        intro r hr
        obtain ⟨row, -, rfl⟩ := List.mem_map.1 hr
        exact envRow_wf row
      · cases hs : splitTuple E.U E.setOrder s (some .list) with
        | error e => rw [hs] at he; simp [bind, Except.bind] at he
        | ok e =>
          rw [hs] at he
          simp only [bind, Except.bind] at he
          intro r hr
          obtain ⟨row, -, hrow⟩ := mapM_ok _ _ _ he r hr
          cases hs' : splitTuple E.U E.setOrder row (some .list) with
          | error e => rw [hs'] at hrow; simp at hrow
          | ok e =>
            rw [hs'] at hrow; simp [pure, Except.pure] at hrow
            subst hrow
            exact splitTuple_list_wf _ _ _ _ hs'
    simp only at h
    split at h
    · simp at h
    · simp at h
    · simp at h
      rw [← h.1]; intro r hr
      obtain ⟨x, -, rfl⟩ := List.mem_map.1 hr; trivial
    · split at h
      · simp at h; rw [← h.1]; exact hwf
      · simp at h

/-- **C11**.  Two answers that split into matrices are accepted by the matrix comparison exactly when they
have the same number of rows, corresponding rows have the same number of entries, and all corresponding
entries are accepted (one after the other, in reading order). -/
theorem C11_shape_and_entries (E : Env X V S) (eq : EqFun X) (gt gv : Str) (xs ys : List Row)
    (w w₁ w₂ : World X) (hx : Runs (splitMatrix E gt) w (.rows xs) w₁)
    (hy : Runs (splitMatrix E gv) w₁ (.rows ys) w₂) (s : Bool) (w' : World X) :
    possibleMatrix E eq gt gv w = (.ok (true, s), w') ↔
      s = true ∧ xs.map Row.nCol = ys.map Row.nCol ∧
      AcceptsAll (fun x y => eq x y false) (xs.flatMap Row.entries) (ys.flatMap Row.entries) w₂ w' := by
  unfold Runs at hx hy
  simp only [possibleMatrix, M.bind_run, hx, hy]
  by_cases hl : xs.length = ys.length
  · simp only [hl, ne_eq, not_true, if_false, M.bind_run]
    rw [← rowsEquiv_iff eq xs ys (splitMatrix_wf E gt xs w w₁ hx) (splitMatrix_wf E gv ys w₁ w₂ hy) hl]
    cases hz : rowsEquiv eq xs ys w₂ with
    | mk r w₃ =>
      cases r with
      | error e => simp
      | ok r =>
        simp only [M.pure_run, Prod.mk.injEq, Except.ok.injEq]
        constructor
        · rintro ⟨⟨h1, h2⟩, h3⟩; exact ⟨h2.symm, h1, h3⟩
        · rintro ⟨h1, h2, h3⟩; exact ⟨⟨h2, h1.symm⟩, h3⟩
  · simp only [ne_eq, hl, not_false_eq_true, if_true, M.pure_run, Prod.mk.injEq, Except.ok.injEq]
    constructor
    · rintro ⟨⟨h, -⟩, -⟩; cases h
    · rintro ⟨-, h, -⟩
      have := congrArg List.length h
      simp at this; exact absurd this hl

example : Runs (splitMatrix failEnv s%"\\begin{pmatrix}1&2\\\\3&4\\end{pmatrix}") ⟨(), []⟩
    (.rows [.list [s%"1", s%"2"], .list [s%"3", s%"4"]]) ⟨(), []⟩ := by
  unfold Runs; decide +kernel

/-! ### C37 -/

/-- The array as `split_matrix` presents it: a vector is the list of its entries whether it is written as a
row or as a column, and a 1×1 array is its entry. -/
def arrayMat : List (List Str) → Mat
  | [[x]] => .str x
  | [row] => .rows (row.map .str)
  | rows => .rows (rows.map fun row => match row with
    | [x] => .str x
    | xs => .list xs)

/-- An `m × n` array with `m, n ≥ 1`. -/
structure IsArray (rows : List (List Str)) (n : Nat) : Prop where
  nonempty : rows ≠ []
  cols : 1 ≤ n
  rect : ∀ row ∈ rows, row.length = n

/-- Rows of cells, none of them empty. -/
structure IsTable (rows : List (List Str)) : Prop where
  nonempty : rows ≠ []
  cols : ∀ row ∈ rows, row ≠ []

theorem IsArray.table {rows : List (List Str)} {n : Nat} (h : IsArray rows n) : IsTable rows :=
  ⟨h.nonempty, fun row hr e => by have := h.rect row hr; have := h.cols; rw [e] at *; simp at *; omega⟩

/-- Some two rows differ in length. -/
def Ragged (rows : List (List Str)) : Prop := ∃ r ∈ rows, ∃ r' ∈ rows, r.length ≠ r'.length

theorem checkDim_rect (n : Nat) (rs : List Row) (h : ∀ r ∈ rs, r.nCol = n) :
    checkDim none rs = true ∧ checkDim (some n) rs = true := by
  induction rs with
  | nil => exact ⟨rfl, rfl⟩
  | cons r rs ih =>
    have hr := h r (by simp)
    have := ih (fun r hr => h r (by simp [hr]))
    simp [checkDim, hr, this.2]

theorem checkDim_some {n : Nat} (hn : n ≠ 0) (rs : List Row) (h : checkDim (some n) rs = true) : ∀ r ∈ rs, r.nCol = n := by
  induction rs with
  | nil => simp
  | cons r rs ih =>
    rw [checkDim] at h
    split at h
    · cases h
    · rename_i h'
      have he : r.nCol = n := by
        by_contra hne; exact h' ⟨hn, hne⟩
      rw [he] at h
      intro r' hr'
      rcases List.mem_cons.1 hr' with rfl | hr'
      · exact he
      · exact ih h r' hr'

/-- Rows of different lengths do not pass the dimension check. -/
theorem checkDim_ragged (rs : List Row) (h0 : ∀ r ∈ rs, r.nCol ≠ 0) (h : ∃ r ∈ rs, ∃ r' ∈ rs, r.nCol ≠ r'.nCol) :
    checkDim none rs = false := by
  by_contra hc
  rw [Bool.not_eq_false] at hc
  cases rs with
  | nil => obtain ⟨r, hr, -⟩ := h; cases hr
  | cons r rs =>
    rw [checkDim] at hc
    have := checkDim_some (h0 r (by simp)) rs hc
    have hall : ∀ x ∈ r :: rs, x.nCol = r.nCol := by
      intro x hx
      rcases List.mem_cons.1 hx with rfl | hx
      · rfl
      · exact this x hx
    obtain ⟨a, ha, b, hb, hne⟩ := h
    exact hne ((hall a ha).trans (hall b hb).symm)

def rowOf : List Str → Row
  | [x] => .str x
  | xs => .list xs

theorem rowOf_nCol (row : List Str) : (rowOf row).nCol = row.length := by
  unfold rowOf
  split <;> simp [Row.nCol]

theorem rowOf_entries (row : List Str) : (rowOf row).entries = row := by
  match row with
  | [] => rfl
  | [_] => rfl
  | _ :: _ :: _ => rfl

theorem splitMatrix_of_elements (E : Env X V S) (s : Str) (rows : List (List Str)) (n : Nat)
    (hrows : IsArray rows n) (h : matrixElements E.U E.setOrder s = .ok (rows.map rowOf)) (w : World X) :
    splitMatrix E s w = (.ok (arrayMat rows), w) := by
  have hcd : checkDim none (rows.map rowOf) = true := by
    apply (checkDim_rect n _ _).1
    intro r hr
    obtain ⟨row, hrow, rfl⟩ := List.mem_map.1 hr
    rw [rowOf_nCol]; exact hrows.rect row hrow
  simp only [splitMatrix, M.bind_run, M.lift_run, h]
  match rows, hrows with
  | [], hrows => exact absurd rfl hrows.nonempty
  | [row], hrows =>
    match row, hrows with
    | [], hrows => exact absurd (hrows.rect [] (by simp)) (by have := hrows.cols; simp; omega)
    | [x], _ => rfl
    | x :: y :: r, _ => rfl
  | row :: row' :: rs, _ =>
    have : arrayMat (row :: row' :: rs) = .rows ((row :: row' :: rs).map rowOf) := by
      simp only [arrayMat]
      rfl
    rw [this]
    simp only [List.map_cons] at hcd ⊢
    simp [hcd]

theorem splitMatrix_of_ragged (E : Env X V S) (s : Str) (rows : List (List Str)) (ht : IsTable rows) (hr : Ragged rows)
    (h : matrixElements E.U E.setOrder s = .ok (rows.map rowOf)) (w : World X) :
    splitMatrix E s w = (.ok (.str s), ⟨w.ext, s%"WARNING: mismatched dimensions. Won't parse." :: w.out⟩) := by
  have hcd : checkDim none (rows.map rowOf) = false := by
    apply checkDim_ragged
    · intro r hm
      obtain ⟨row, hrow, rfl⟩ := List.mem_map.1 hm
      rw [rowOf_nCol]; exact fun e => ht.cols row hrow (List.length_eq_zero_iff.1 e)
    · obtain ⟨a, ha, b, hb, hne⟩ := hr
      exact ⟨rowOf a, List.mem_map_of_mem ha, rowOf b, List.mem_map_of_mem hb, by rwa [rowOf_nCol, rowOf_nCol]⟩
  simp only [splitMatrix, M.bind_run, M.lift_run, h]
  match rows, hr with
  | [], hr => obtain ⟨r, h, -⟩ := hr; cases h
  | [row], hr =>
    obtain ⟨a, ha, b, hb, hne⟩ := hr
    simp at ha hb; subst ha; subst hb; exact absurd rfl hne
  | row :: row' :: rs, _ =>
    simp only [List.map_cons] at hcd ⊢
    simp [hcd]

/-! #### The LaTeX environment -/

/-- a cell of a LaTeX matrix: no column separator, no row separator, no trailing backslash -/
structure EnvCell (c : Str) : Prop where
  amp : '&' ∉ c
  rowsep : ¬ s%"\\\\" <:+: c
  last : c.getLast? ≠ some '\\'

/-- a letter or nothing between `\begin{` and `matrix}` -/
def EnvName (nm : Str) : Prop := nm = [] ∨ ∃ a, nm = [a] ∧ asciiAlpha a = true

/-- `\begin{?matrix}...\end{?matrix}` -/
def spellEnv (nm nm' : Str) (rows : List (List Str)) : Str :=
  s%"\\begin{" ++ nm ++ s%"matrix}" ++ join s%"\\\\" (rows.map (join s%"&")) ++
    (s%"\\end{" ++ nm' ++ s%"matrix}")

theorem splitGo_piece (sep : Str) (hsep : sep ≠ []) (p acc rest : Str)
    (h : ∀ a b, p = a ++ b → b ≠ [] → ¬ sep <+: b ++ sep) :
    splitGo sep 0 acc (p ++ (sep ++ rest)) = (acc.reverse ++ p) :: splitGo sep 0 [] rest := by
  induction p generalizing acc with
  | nil =>
    cases sep with
    | nil => exact absurd rfl hsep
    | cons x xs =>
      have hp : (x :: xs).isPrefixOf (x :: (xs ++ rest)) = true := by
        rw [List.isPrefixOf_iff_prefix]; exact ⟨rest, rfl⟩
      simp only [List.nil_append, List.cons_append, splitGo, hp, if_true, List.append_nil,
        List.length_cons, Nat.add_sub_cancel]
      congr 1
      have : ∀ (k : Str) (r : Str), splitGo (x :: xs) k.length [] (k ++ r) = splitGo (x :: xs) 0 [] r := by
        intro k
        induction k with
        | nil => simp
        | cons y ys ih => intro r; simp only [List.length_cons, List.cons_append, splitGo]; exact ih r
      exact this xs rest
  | cons c cs ih =>
    have hno : sep.isPrefixOf (c :: (cs ++ (sep ++ rest))) = false := by
      rw [Bool.eq_false_iff]; intro hp
      rw [List.isPrefixOf_iff_prefix] at hp
      apply h [] (c :: cs) rfl (by simp)
      have h1 : sep <+: (c :: cs ++ sep) ++ rest := by simpa using hp
      exact List.prefix_of_prefix_length_le h1 (List.prefix_append _ _)
        (by simp only [List.length_append]; omega)
    simp only [List.cons_append, splitGo, hno, Bool.false_eq_true, if_false]
    rw [ih]
    · simp
    · intro a b hab; exact h (c :: a) b (by rw [hab]; rfl)

theorem splitGo_last (sep : Str) (p acc : Str)
    (h : ∀ a b, p = a ++ b → b ≠ [] → ¬ sep <+: b ++ sep) :
    splitGo sep 0 acc p = [acc.reverse ++ p] := by
  induction p generalizing acc with
  | nil => simp [splitGo]
  | cons c cs ih =>
    have hno : sep.isPrefixOf (c :: cs) = false := by
      rw [Bool.eq_false_iff]; intro hp
      rw [List.isPrefixOf_iff_prefix] at hp
      exact h [] (c :: cs) rfl (by simp) (hp.trans (List.prefix_append _ _))
    simp only [splitGo, hno, Bool.false_eq_true, if_false]
    rw [ih]
    · simp
    · intro a b hab; exact h (c :: a) b (by rw [hab]; rfl)

theorem split_join (sep : Str) (hsep : sep ≠ []) (ps : List Str) (hne : ps ≠ [])
    (h : ∀ p ∈ ps, ∀ a b, p = a ++ b → b ≠ [] → ¬ sep <+: b ++ sep) :
    split sep (join sep ps) = ps := by
  unfold split
  induction ps with
  | nil => exact absurd rfl hne
  | cons p ps ih =>
    cases ps with
    | nil =>
      simp only [join]
      rw [splitGo_last sep p [] (h p (by simp))]; simp
    | cons q qs =>
      simp only [join, List.append_assoc]
      rw [splitGo_piece sep hsep p [] _ (h p (by simp)), ih (by simp) (fun p hp => h p (by simp [hp]))]
      simp

theorem noEarly_char (x : Char) (p : Str) (h : x ∉ p) :
    ∀ a b, p = a ++ b → b ≠ [] → ¬ [x] <+: b ++ [x] := by
  intro a b hab hb hp
  cases b with
  | nil => exact hb rfl
  | cons c cs =>
    simp at hp
    exact h (by rw [hab, hp]; simp)

theorem noEarly_rowsep (p : Str) (h : ¬ s%"\\\\" <:+: p) (hl : p.getLast? ≠ some '\\') :
    ∀ a b, p = a ++ b → b ≠ [] → ¬ s%"\\\\" <+: b ++ s%"\\\\" := by
  intro a b hab hb hp
  cases b with
  | nil => exact hb rfl
  | cons c cs =>
    cases cs with
    | nil => simp at hp; apply hl; rw [hab, ← hp]; simp
    | cons d ds =>
      simp at hp
      apply h
      rw [hab]
      exact ⟨a, ds, by simp [← hp.1, ← hp.2]⟩

theorem join_amp_rowsep (cells : List Str) (h : ∀ c ∈ cells, EnvCell c) :
    ¬ s%"\\\\" <:+: join s%"&" cells ∧ (join s%"&" cells).getLast? ≠ some '\\' := by
  induction cells with
  | nil => constructor <;> simp [join]
  | cons c cs ih =>
    have hc := h c (by simp)
    cases cs with
    | nil => exact ⟨hc.rowsep, hc.last⟩
    | cons d ds =>
      have ⟨h1, h2⟩ := ih (fun x hx => h x (by simp [hx]))
      constructor
      · rintro ⟨u, v, huv⟩
        simp only [join] at huv h1
        rw [List.append_assoc c, show u ++ s%"\\\\" ++ v = (u ++ s%"\\\\") ++ v from rfl] at huv
        rcases prefix_of_append huv with ⟨z, h3, h4⟩ | ⟨z, h3, h4⟩
        · -- the occurrence ends in or after `c`
          cases z with
          | nil => exact hc.rowsep ⟨u, [], by simpa using h3⟩
          | cons y ys =>
            have hy : y = '&' := by simp at h4; exact h4.1.symm
            subst hy
            -- u ++ "\\\\" = c ++ '&' :: ys
            rcases prefix_of_append h3 with ⟨z', h5, h6⟩ | ⟨z', h5, h6⟩
            · -- u = c ++ z'
              cases z' with
              | nil => simp at h6
              | cons q qs =>
                simp at h4 h6
                apply h1
                refine ⟨qs, v, ?_⟩
                rw [h4, h6.2]
            · -- c = u ++ z', "\\\\" = z' ++ '&' :: ys
              rcases z' with _ | ⟨q, _ | ⟨q', _ | ⟨q'', z'⟩⟩⟩ <;> simp at h6
        · exact hc.rowsep ⟨u, z, by rw [h3]⟩
      · simp only [join]
        cases hj : join s%"&" (d :: ds) with
        | nil => simp
        | cons x xs =>
          rw [hj] at h2
          rw [List.getLast?_append]
          cases hx : (x :: xs).getLast? with
          | none => simp at hx
          | some y => rw [hx] at h2; simpa using h2

theorem run_lit_append (p rest : Str) (pre : Str) (caps) :
    (Re.lit p).run ⟨pre, p ++ rest, caps⟩ = [⟨p.reverse ++ pre, rest, caps⟩] := by
  rw [run_lit]
  have : p.isPrefixOf (p ++ rest) = true := by
    rw [List.isPrefixOf_iff_prefix]; exact List.prefix_append _ _
  simp [this, RSt.adv]

/-- `\begin{?matrix}` or `\end{?matrix}` -/
theorem run_env (kw nm rest pre : Str) (caps) (hnm : EnvName nm) :
    (Re.cat [Re.lit kw, Re.opt (.chr asciiAlpha), Re.lit s%"matrix}"]).run
      ⟨pre, kw ++ (nm ++ (s%"matrix}" ++ rest)), caps⟩ =
      [⟨(kw ++ nm ++ s%"matrix}").reverse ++ pre, rest, caps⟩] := by
  simp only [Re.cat, run_seq, run_lit_append, List.flatMap_cons, List.flatMap_nil, List.append_nil]
  rcases hnm with rfl | ⟨a, rfl, ha⟩
  · simp [Re.opt, run_lit, asciiAlpha, asciiLower, RSt.adv]
  · simp only [Re.opt, run_alt, run_eps, List.cons_append, List.nil_append, run_chr_cons, ha, if_true,
      List.flatMap_cons, List.flatMap_nil, List.append_nil]
    have h1 := run_lit_append s%"matrix}" rest (a :: (kw.reverse ++ pre)) caps
    simp only [List.cons_append, List.nil_append] at h1
    rw [h1]
    have h2 : (Re.lit s%"matrix}").run
        ⟨kw.reverse ++ pre, a :: 'm' :: 'a' :: 't' :: 'r' :: 'i' :: 'x' :: '}' :: rest, caps⟩ = [] := by
      rw [run_lit]; simp
    rw [h2]; simp

theorem run_end_len (s t : RSt)
    (h : t ∈ (Re.cat [Re.lit s%"\\end{", Re.opt (.chr asciiAlpha), Re.lit s%"matrix}"]).run s) :
    ∃ nm, EnvName nm ∧ s.rest = s%"\\end{" ++ (nm ++ (s%"matrix}" ++ t.rest)) := by
  simp only [Re.cat, run_seq, List.mem_flatMap, run_lit, Re.opt, run_alt, run_eps, List.mem_append,
    List.mem_singleton] at h
  obtain ⟨t₁, h1, t₂, h2, h3⟩ := h
  split at h1
  · rename_i hp
    split at h3
    · rename_i hp'
      rw [List.isPrefixOf_iff_prefix] at hp hp'
      obtain ⟨r, hr⟩ := hp
      obtain ⟨r', hr'⟩ := hp'
      simp only [List.mem_singleton] at h1 h3
      subst h1; subst h3
      have e1 : (s.adv (s%"\\end{").length).rest = r := by simp [RSt.adv, ← hr]
      have e2 : (t₂.adv (s%"matrix}").length).rest = r' := by simp [RSt.adv, ← hr']
      rw [e2]
      rcases h2 with h2 | h2
      · obtain ⟨x, hx, hxa, -, -⟩ := run_chr_mem _ _ _ h2
        rw [e1] at hx
        exact ⟨[x], Or.inr ⟨x, rfl, hxa⟩, by rw [← hr, hx, ← hr']; rfl⟩
      · subst h2
        rw [e1] at hr'
        exact ⟨[], Or.inl rfl, by rw [← hr, ← hr']; rfl⟩
    · simp at h3
  · simp at h1

/-- no proper suffix of `\end{?matrix}` and no longer text ending in it is again of that form -/
theorem end_unique (nm nm' : Str) (h : EnvName nm) (h' : EnvName nm') (u : Str)
    (e : u ++ (s%"\\end{" ++ (nm ++ s%"matrix}")) = s%"\\end{" ++ (nm' ++ s%"matrix}")) : u = [] := by
  have hl := congrArg List.length e
  rcases h with rfl | ⟨a, rfl, ha⟩ <;> rcases h' with rfl | ⟨b, rfl, hb⟩ <;>
    rcases u with _ | ⟨x, _ | ⟨y, u⟩⟩ <;> simp at e hl ⊢

/-- the expression after `\begin{?matrix}` -/
def endRe : Re := Re.cat [Re.cat [Re.lit s%"\\end{", Re.opt (.chr asciiAlpha), Re.lit s%"matrix}"], Re.eos]

theorem run_endRe_early (nm' : Str) (hnm' : EnvName nm') (body : Str) (k : Nat) (hk : k < body.length)
    (st : RSt) (hst : st.rest = (body ++ (s%"\\end{" ++ (nm' ++ s%"matrix}"))).drop k) :
    endRe.run st = [] := by
  unfold endRe
  rw [Re.cat, run_seq, List.flatMap_eq_nil_iff]
  · intro t ht
    obtain ⟨nm₂, hnm₂, hr⟩ := run_end_len _ _ ht
    rw [hst, List.drop_append_of_le_length (by omega)] at hr
    simp only [Re.cat, run_eos]
    rw [if_neg]
    intro heos
    have hbk : body.drop k ≠ [] := by simp; omega
    simp only [Bool.or_eq_true, List.isEmpty_iff, beq_iff_eq] at heos
    rcases heos with heos | heos
    · rw [heos] at hr
      exact hbk (end_unique nm' nm₂ hnm' hnm₂ _ (by simpa using hr))
    · rw [heos] at hr
      have e1 : (body.drop k ++ (s%"\\end{" ++ (nm' ++ s%"matrix"))) ++ ['}'] =
          (s%"\\end{" ++ (nm₂ ++ s%"matrix}")) ++ ['\n'] := by
        simpa using hr
      have := (List.append_inj' e1 rfl).2
      simp at this
  · simp

theorem run_endRe (nm' : Str) (hnm' : EnvName nm') (pre : Str) (caps) :
    endRe.run ⟨pre, s%"\\end{" ++ (nm' ++ s%"matrix}"), caps⟩ =
      [⟨(s%"\\end{" ++ nm' ++ s%"matrix}").reverse ++ pre, [], caps⟩] := by
  unfold endRe
  rw [Re.cat, run_seq]
  · have := run_env s%"\\end{" nm' [] pre caps hnm'
    rw [show nm' ++ (s%"matrix}" ++ []) = nm' ++ s%"matrix}" by simp] at this
    rw [this]
    simp [Re.cat]
  · simp

theorem run_body (nm' : Str) (hnm' : EnvName nm') (P body : Str) :
    ∃ t, (((Re.grp 1 (Re.manyLazy Re.any)).run ⟨P, body ++ (s%"\\end{" ++ (nm' ++ s%"matrix}")), []⟩).findSome?
      fun t => (endRe.run t).head?) = some t ∧ t.groupD 1 = body := by
  set tail := s%"\\end{" ++ (nm' ++ s%"matrix}") with htail
  rw [run_grp, Re.manyLazy, Re.any, run_manyLazy_chr]
  have hall : runLen (fun _ => true) (body ++ tail) = body.length + tail.length := by
    rw [runLen_all (by simp)]; simp
  have hrange : List.range (body.length + tail.length + 1) =
      List.range body.length ++ (body.length :: (List.range tail.length).map (body.length + 1 + ·)) := by
    rw [show body.length + tail.length + 1 = body.length + (tail.length + 1) by omega,
      List.range_add, List.range_succ_eq_map]
    simp [Function.comp_def, Nat.add_assoc, Nat.add_comm 1]
  simp only [hall, hrange, List.map_append, List.map_cons, List.findSome?_append, List.findSome?_cons]
  rw [(List.findSome?_eq_none_iff).2]
  · simp only [Option.none_or]
    have hrest : ((⟨P, body ++ tail, []⟩ : RSt).adv body.length).rest = tail := by simp [RSt.adv]
    rw [hrest, htail, run_endRe nm' hnm']
    refine ⟨_, rfl, ?_⟩
    simp [RSt.groupD, RSt.group]
  · intro t ht
    simp only [List.map_map, List.mem_map, List.mem_range] at ht
    obtain ⟨k, hk, rfl⟩ := ht
    rw [run_endRe_early nm' hnm' body k hk]
    · rfl
    · simp [RSt.adv, htail]

theorem matrixRe_eq : matrixRe = .seq Re.bos (.seq
    (Re.cat [Re.lit s%"\\begin{", Re.opt (.chr asciiAlpha), Re.lit s%"matrix}"])
    (.seq (Re.grp 1 (Re.manyLazy Re.any)) endRe)) := rfl

theorem reSearch_matrixRe (nm nm' : Str) (hnm : EnvName nm) (hnm' : EnvName nm') (body : Str) :
    ∃ t, reSearch matrixRe (s%"\\begin{" ++ nm ++ s%"matrix}" ++ body ++
      (s%"\\end{" ++ nm' ++ s%"matrix}")) = some t ∧ t.groupD 1 = body := by
  have e0 : s%"\\begin{" ++ nm ++ s%"matrix}" ++ body ++ (s%"\\end{" ++ nm' ++ s%"matrix}") =
      s%"\\begin{" ++ (nm ++ (s%"matrix}" ++ (body ++ (s%"\\end{" ++ (nm' ++ s%"matrix}"))))) := by
    simp
  have key : ∃ t, matrixRe.matchAt [] (s%"\\begin{" ++ nm ++ s%"matrix}" ++ body ++
      (s%"\\end{" ++ nm' ++ s%"matrix}")) = some t ∧ t.groupD 1 = body := by
    rw [e0]
    obtain ⟨t, h1, h2⟩ := run_body nm' hnm' ((s%"\\begin{" ++ nm ++ s%"matrix}").reverse ++ []) body
    refine ⟨t, ?_, h2⟩
    rw [← h1, ← head?_flatMap]
    unfold Re.matchAt
    simp only [matrixRe_eq, run_seq, run_bos, List.isEmpty_nil, if_true, List.flatMap_cons,
      List.flatMap_nil, List.append_nil]
    rw [run_env _ _ _ _ _ hnm]
    simp
  obtain ⟨t, h1, h2⟩ := key
  refine ⟨t, ?_, h2⟩
  unfold reSearch
  have hs : s%"\\begin{" ++ nm ++ s%"matrix}" ++ body ++ (s%"\\end{" ++ nm' ++ s%"matrix}") =
      '\\' :: (s%"begin{" ++ nm ++ s%"matrix}" ++ body ++ (s%"\\end{" ++ nm' ++ s%"matrix}")) := by simp
  rw [hs] at h1 ⊢
  rw [searchFrom, h1]

theorem elements_env (U : Uni) (ord : List Str → List Str) (nm nm' : Str) (hnm : EnvName nm) (hnm' : EnvName nm')
    (rows : List (List Str)) (hrows : IsTable rows) (hcells : ∀ row ∈ rows, ∀ c ∈ row, EnvCell c) :
    matrixElements U ord (spellEnv nm nm' rows) = .ok (rows.map rowOf) := by
  obtain ⟨t, h1, h2⟩ := reSearch_matrixRe nm nm' hnm hnm' (join s%"\\\\" (rows.map (join s%"&")))
  unfold matrixElements spellEnv
  rw [h1]
  simp only
  rw [h2, split_join s%"\\\\" (by simp) _ (by simpa using hrows.nonempty)]
  · rw [List.map_map]
    congr 1
    apply List.map_congr_left
    intro row hrow
    have hne : row ≠ [] := hrows.cols row hrow
    simp only [Function.comp_def, envRow]
    rw [split_join s%"&" (by simp) row hne]
    · rfl
    · intro p hp; exact noEarly_char '&' p (hcells row hrow p hp).amp
  · intro p hp
    obtain ⟨row, hrow, rfl⟩ := List.mem_map.1 hp
    have := join_amp_rowsep row (hcells row hrow)
    exact noEarly_rowsep _ this.1 this.2

/-- **C37**, LaTeX environment: an `m × n` array written as a `matrix` environment is recovered. -/
theorem C37_env (E : Env X V S) (nm nm' : Str) (hnm : EnvName nm) (hnm' : EnvName nm')
    (rows : List (List Str)) (n : Nat) (hrows : IsArray rows n)
    (hcells : ∀ row ∈ rows, ∀ c ∈ row, EnvCell c) (w : World X) :
    splitMatrix E (spellEnv nm nm' rows) w = (.ok (arrayMat rows), w) :=
  splitMatrix_of_elements E _ rows n hrows (elements_env _ _ nm nm' hnm hnm' rows hrows.table hcells) w

/-- **C37**, LaTeX environment: rows of different lengths are not taken for an array; the text is returned as it is and
a warning is printed. -/
theorem C37_env_ragged (E : Env X V S) (nm nm' : Str) (hnm : EnvName nm) (hnm' : EnvName nm')
    (rows : List (List Str)) (hrows : IsTable rows) (hr : Ragged rows)
    (hcells : ∀ row ∈ rows, ∀ c ∈ row, EnvCell c) (w : World X) :
    splitMatrix E (spellEnv nm nm' rows) w =
      (.ok (.str (spellEnv nm nm' rows)), ⟨w.ext, s%"WARNING: mismatched dimensions. Won't parse." :: w.out⟩) :=
  splitMatrix_of_ragged E _ rows hrows hr (elements_env _ _ nm nm' hnm hnm' rows hrows hcells) w

/-! #### Nested brackets -/

theorem ThousandsComma.mono {U : Uni} {s t : Str} (h : ThousandsComma U s) (hst : s <:+: t) :
    ThousandsComma U t := by
  obtain ⟨a, x, y, z₁, z₂, z₃, b, rfl, h'⟩ := h
  obtain ⟨u, v, rfl⟩ := hst
  exact ⟨u ++ a, x, y, z₁, z₂, z₃, b ++ v, by simp, h'⟩

theorem join_infix (sep : Str) (ps : List Str) (p : Str) (hp : p ∈ ps) : p <:+: join sep ps := by
  induction ps with
  | nil => simp at hp
  | cons q qs ih =>
    cases qs with
    | nil => simp at hp; subst hp; exact List.infix_refl _
    | cons r rs =>
      simp only [join]
      rcases List.mem_cons.1 hp with rfl | hp
      · rw [List.append_assoc]; exact (List.prefix_append _ _).isInfix
      · exact (ih hp).trans (List.suffix_append _ _).isInfix

/-- a bracketed sequence -/
def bracketed (br : Bracket) (es : List Str) : Str := br.open :: (join s%"," es ++ [br.close])

theorem strip_bracketed (br : Bracket) (es : List Str) : strip (bracketed br es) = bracketed br es := by
  obtain ⟨l, r, h1, h2, h3⟩ := stripBy_spec isSpace (bracketed br es)
  have hso : isSpace br.open = false := by cases br <;> decide
  have hsc : isSpace br.close = false := by cases br <;> decide
  have hl : l = [] := by
    cases l with
    | nil => rfl
    | cons c cs =>
      unfold bracketed at h1
      simp only [List.cons_append, List.cons.injEq] at h1
      rw [← h1.1] at h2
      simp [hso] at h2
  have hr : r = [] := by
    rcases List.eq_nil_or_concat r with hr | ⟨r', c, rfl⟩
    · exact hr
    · unfold bracketed at h1
      have e : (br.open :: join s%"," es) ++ [br.close] = (l ++ stripBy isSpace (br.open :: (join s%"," es ++ [br.close])) ++ r') ++ [c] := by
        simpa using h1
      have := (List.append_inj' e rfl).2
      simp only [List.cons.injEq, and_true] at this
      rw [← this] at h3
      simp [hsc] at h3
  rw [hl, hr] at h1
  simpa [strip] using h1.symm

theorem bracketed_element (br : Bracket) (es : List Str) (hes : ∀ e ∈ es, Element e) :
    Element (bracketed br es) := by
  have hj := join_depth es hes
  have hn := join_nonneg es hes
  refine ⟨?_, ?_, ?_, strip_bracketed br es⟩
  · intro a b hab
    cases a with
    | nil => simp [depth_nil]
    | cons c cs =>
      unfold bracketed at hab
      simp only [List.cons_append, List.cons.injEq] at hab
      obtain ⟨rfl, hab⟩ := hab
      rw [depth_cons, delta_open]
      rcases prefix_of_append hab with ⟨z, h1, h2⟩ | ⟨z, h1, h2⟩
      · have := hn cs z h1; omega
      · rw [h1, depth_append, hj]
        cases z with
        | nil => rw [depth_nil]; omega
        | cons d ds =>
          simp only [List.cons_append, List.cons.injEq] at h2
          obtain ⟨rfl, h2⟩ := h2
          rw [depth_cons, delta_close]
          have : ds = [] := (List.append_eq_nil_iff.1 h2.symm).1
          rw [this, depth_nil]; omega
  · unfold bracketed
    rw [depth_cons, delta_open, depth_append, hj, depth_cons, delta_close, depth_nil]; omega
  · intro a b hab
    have ho : br.open ≠ ',' := by cases br <;> decide
    have hc : br.close ≠ ',' := by cases br <;> decide
    unfold bracketed at hab
    cases a with
    | nil => simp only [List.nil_append, List.cons.injEq] at hab; exact absurd hab.1 ho
    | cons c cs =>
      simp only [List.cons_append, List.cons.injEq] at hab
      obtain ⟨rfl, hab⟩ := hab
      rw [depth_cons, delta_open]
      rcases prefix_of_append hab with ⟨z, h1, h2⟩ | ⟨z, h1, h2⟩
      · have := hn cs z h1; omega
      · cases z with
        | nil =>
          rw [h1, List.append_nil, hj]; omega
        | cons d ds =>
          simp only [List.cons_append, List.cons.injEq] at h2
          exact absurd h2.2.symm (by simp)

theorem reSearch_matrixRe_none (c : Char) (s : Str) (hc : c ≠ '\\') : reSearch matrixRe (c :: s) = none := by
  unfold reSearch
  rw [searchFrom_none_iff]
  intro a b hab
  unfold Re.matchAt
  rw [matrixRe_eq, List.head?_eq_none_iff, run_seq, run_bos, List.flatMap_eq_nil_iff]
  intro t ht
  split at ht
  · rename_i he
    have ha : a = [] := by simpa using he
    subst ha
    simp only [List.mem_singleton, List.nil_append] at ht hab
    subst ht
    subst hab
    have : (s%"\\begin{").isPrefixOf (c :: s) = false := by
      simp [List.isPrefixOf, Ne.symm hc]
    simp [Re.cat, run_lit, this]
  · simp at ht

/-- nested brackets -/
def spellBrackets (br : Bracket) (rows : List (Bracket × List Str)) : Str :=
  bracketed br (rows.map fun r => bracketed r.1 r.2)

theorem bracketed_ne_nil (br : Bracket) (es : List Str) : bracketed br es ≠ [] := by simp [bracketed]

theorem splitTuple_row (U : Uni) (ord : List Str → List Str) (br : Bracket) (es : List Str) (h1 : 1 ≤ es.length)
    (hes : ∀ e ∈ es, Element e) (hne : ∀ e ∈ es, e ≠ []) (hth : ¬ ThousandsComma U (bracketed br es)) :
    (splitTuple U ord (bracketed br es) (some .list)).map rowOfElems = .ok (rowOf es) := by
  have hlen : 1 ≤ (join s%"," es).length := by
    cases es with
    | nil => simp at h1
    | cons e es =>
      have := hne e (by simp)
      have h := (join_infix s%"," (e :: es) e (by simp)).length_le
      have : 0 < e.length := List.length_pos_iff.2 this
      omega
  have hlast : es.getLast? ≠ some [] := by
    intro e; exact hne [] (List.mem_of_getLast? e) rfl
  have := splitTuple_bracketed U ord br es (some .list) hlen hes hlast hth
  unfold bracketed
  rw [this]
  match es, h1 with
  | [x], _ => rfl
  | x :: y :: r, _ => rfl

theorem mapM_eq_ok {α β : Type} (f : α → Except PyErr β) (l : List α) (g : α → β)
    (h : ∀ a ∈ l, f a = .ok (g a)) : l.mapM f = .ok (l.map g) := by
  induction l with
  | nil => rfl
  | cons a as ih =>
    rw [List.mapM_cons, h a (by simp), ih (fun a ha => h a (by simp [ha]))]; rfl

theorem bracketed_open_ne (br : Bracket) : br.open ≠ '\\' := by cases br <;> decide

theorem matrixElements_brackets (U : Uni) (ord : List Str → List Str) (s : Str) (e : Elems)
    (h : reSearch matrixRe s = none) (he : splitTuple U ord s (some .list) = .ok e) :
    matrixElements U ord s = (rowOfElems e).entries.mapM (fun row => do
      let e ← splitTuple U ord row (some .list)
      pure (rowOfElems e)) := by
  unfold matrixElements
  rw [h]
  simp only [he]
  cases e <;> rfl

theorem elements_brackets (E : Env X V S) (br : Bracket) (rows : List (Bracket × List Str))
    (hrows : IsTable (rows.map Prod.snd)) (hcells : ∀ r ∈ rows, ∀ c ∈ r.2, Element c ∧ c ≠ [])
    (hth : ¬ ThousandsComma E.U (spellBrackets br rows)) :
    matrixElements E.U E.setOrder (spellBrackets br rows) = .ok ((rows.map Prod.snd).map rowOf) := by
  have hne : rows ≠ [] := by simpa using hrows.nonempty
  set els := rows.map fun r => bracketed r.1 r.2 with hels
  have hel : ∀ e ∈ els, Element e := by
    intro e he
    obtain ⟨r, hr, rfl⟩ := List.mem_map.1 he
    exact bracketed_element _ _ fun c hc => (hcells r hr c hc).1
  have hen : ∀ e ∈ els, e ≠ [] := by
    intro e he
    obtain ⟨r, hr, rfl⟩ := List.mem_map.1 he
    exact bracketed_ne_nil _ _
  have hinf : ∀ e ∈ els, e <:+: spellBrackets br rows := by
    intro e he
    exact (join_infix s%"," els e he).trans ⟨[br.open], [br.close], by simp [spellBrackets, bracketed, hels]⟩
  have hlen : 1 ≤ els.length := by
    rw [hels, List.length_map]; exact List.length_pos_iff.2 hne
  have houter : (splitTuple E.U E.setOrder (spellBrackets br rows) (some .list)).map rowOfElems =
      .ok (rowOf els) := splitTuple_row _ _ br els hlen hel hen hth
  have hrow : ∀ r ∈ rows, (splitTuple E.U E.setOrder (bracketed r.1 r.2) (some .list)).map rowOfElems =
      .ok (rowOf r.2) := by
    intro r hr
    apply splitTuple_row _ _ r.1 r.2
    · exact List.length_pos_iff.2 (hrows.cols r.2 (List.mem_map_of_mem hr))
    · exact fun c hc => (hcells r hr c hc).1
    · exact fun c hc => (hcells r hr c hc).2
    · intro h; exact hth (h.mono (hinf _ (List.mem_map_of_mem hr)))
  have hnone : reSearch matrixRe (spellBrackets br rows) = none :=
    reSearch_matrixRe_none _ _ (bracketed_open_ne br)
  cases ho : splitTuple E.U E.setOrder (spellBrackets br rows) (some .list) with
  | error e => rw [ho] at houter; simp [Except.map] at houter
  | ok e =>
    rw [ho] at houter
    simp only [Except.map, Except.ok.injEq] at houter
    have hent : (rowOfElems e).entries = els := by
      rw [houter]; exact rowOf_entries els
    rw [matrixElements_brackets _ _ _ e hnone ho, hent, hels, List.mapM_map, mapM_eq_ok _ rows (fun r => rowOf r.2)]
    · simp
    · intro r hr
      have := hrow r hr
      cases hs : splitTuple E.U E.setOrder (bracketed r.1 r.2) (some .list) with
      | error e => rw [hs] at this; simp [Except.map] at this
      | ok e =>
        rw [hs] at this
        simp only [Except.map, Except.ok.injEq] at this
        simp [hs, this, pure, Except.pure, bind, Except.bind]

/-- **C37**, nested brackets: an array of cells (balanced, without commas outside brackets, not blank-padded,
not empty) written with a pair of brackets around every row and one around all is recovered. -/
theorem C37_brackets (E : Env X V S) (br : Bracket) (rows : List (Bracket × List Str)) (n : Nat)
    (hrows : IsArray (rows.map Prod.snd) n)
    (hcells : ∀ r ∈ rows, ∀ c ∈ r.2, Element c ∧ c ≠ [])
    (hth : ¬ ThousandsComma E.U (spellBrackets br rows)) (w : World X) :
    splitMatrix E (spellBrackets br rows) w = (.ok (arrayMat (rows.map Prod.snd)), w) :=
  splitMatrix_of_elements E _ _ n hrows (elements_brackets E br rows hrows.table hcells hth) w

/-- **C37**, nested brackets: rows of different lengths are not taken for an array. -/
theorem C37_brackets_ragged (E : Env X V S) (br : Bracket) (rows : List (Bracket × List Str))
    (hrows : IsTable (rows.map Prod.snd)) (hr : Ragged (rows.map Prod.snd))
    (hcells : ∀ r ∈ rows, ∀ c ∈ r.2, Element c ∧ c ≠ [])
    (hth : ¬ ThousandsComma E.U (spellBrackets br rows)) (w : World X) :
    splitMatrix E (spellBrackets br rows) w =
      (.ok (.str (spellBrackets br rows)), ⟨w.ext, s%"WARNING: mismatched dimensions. Won't parse." :: w.out⟩) :=
  splitMatrix_of_ragged E _ _ hrows hr (elements_brackets E br rows hrows hcells hth) w

/-- a cell that `split_tuple` leaves alone -/
theorem splitTuple_cell (U : Uni) (ord : List Str → List Str) (c : Str) (hc : Element c) (hne : c ≠ [])
    (hop : ∀ x, c.head? = some x → isOpen x = false) (hth : ¬ ThousandsComma U c) :
    splitTuple U ord c (some .list) = .ok (.str c) := by
  unfold splitTuple
  rw [stripCommas_id U c hth]
  have hcnt : (scanBrackets 0 true c).1 = 0 := by rw [scanBrackets_fst, hc.balanced]; rfl
  have hpeel : ∀ rp, (peelBrackets rp c).1 = c := by
    intro rp
    unfold peelBrackets
    split
    · split
      · rename_i h1 _; exact absurd (hop _ h1) (by decide)
      · rename_i h1 _; exact absurd (hop _ h1) (by decide)
      · rename_i h1 _; exact absurd (hop _ h1) (by decide)
      · rfl
    · rfl
  have hsl : splitLoop 0 [] c = [c] := by
    have := splitLoop_join [c] (by simpa using hc) (by simpa using hne)
    simpa [join] using this
  simp only [hcnt, hpeel, hsl]
  simp

/-- **C37**, a vector in one pair of brackets: the entries are recovered. -/
theorem C37_vector (E : Env X V S) (br : Bracket) (es : List Str) (h2 : 2 ≤ es.length)
    (hcells : ∀ c ∈ es, Element c ∧ c ≠ [] ∧ ∀ x, c.head? = some x → isOpen x = false)
    (hth : ¬ ThousandsComma E.U (bracketed br es)) (w : World X) :
    splitMatrix E (bracketed br es) w = (.ok (.rows (es.map .str)), w) := by
  have harr : IsArray (es.map fun c => [c]) 1 := by
    refine ⟨?_, Nat.le_refl _, ?_⟩
    · intro h; simp at h; rw [h] at h2; simp at h2
    · intro r hr; obtain ⟨c, -, rfl⟩ := List.mem_map.1 hr; rfl
  have h := splitMatrix_of_elements E (bracketed br es) (es.map fun c => [c]) 1 harr
  have hmat : arrayMat (es.map fun c => [c]) = .rows (es.map .str) := by
    match es, h2 with
    | x :: y :: r, _ =>
      simp only [List.map_cons, arrayMat]
      rw [List.map_map]; rfl
  rw [hmat] at h
  apply h
  unfold matrixElements
  rw [bracketed, reSearch_matrixRe_none _ _ (bracketed_open_ne br)]
  simp only
  have houter := splitTuple_bracketed E.U E.setOrder br es (some .list) (join_length es h2)
    (fun e he => (hcells e he).1)
    (fun e => (hcells [] (List.mem_of_getLast? e)).2.1 rfl) hth
  rw [houter, if_pos (by omega)]
  simp only [Option.getD_some, RetType.wrap, bind, Except.bind]
  rw [mapM_eq_ok _ es (fun c => .str c)]
  · simp [rowOf, Function.comp_def]
  · intro c hc
    have ⟨h1, h2, h3⟩ := hcells c hc
    rw [splitTuple_cell E.U E.setOrder c h1 h2 h3]
    · rfl
    · intro h
      exact hth (h.mono ((join_infix s%"," es c hc).trans ⟨[br.open], [br.close], by simp [bracketed]⟩))

/-! ### C12 -/

theorem arrayMat_row (es : List Str) (h : 2 ≤ es.length) : arrayMat [es] = .rows (es.map .str) := by
  match es, h with
  | _ :: _ :: _, _ => rfl

theorem arrayMat_col (es : List Str) (h : 2 ≤ es.length) :
    arrayMat (es.map fun c => [c]) = .rows (es.map .str) := by
  match es, h with
  | x :: y :: r, _ =>
    simp only [List.map_cons, arrayMat]
    rw [List.map_map]; rfl

theorem isArray_row (es : List Str) (h : 2 ≤ es.length) : IsArray [es] es.length :=
  ⟨by simp, by omega, by simp⟩
theorem isArray_col (es : List Str) (h : 2 ≤ es.length) : IsArray (es.map fun c => [c]) 1 := by
  refine ⟨?_, Nat.le_refl _, ?_⟩
  · intro e; simp at e; rw [e] at h; simp at h
  · intro r hr; obtain ⟨c, -, rfl⟩ := List.mem_map.1 hr; rfl

/-- **C12**, LaTeX environment: row and column spelling of a vector of at least two entries are split the
same way, into the list of the entries. -/
theorem C12_env (E : Env X V S) (nm : Str) (hnm : EnvName nm) (es : List Str) (h2 : 2 ≤ es.length)
    (hcells : ∀ c ∈ es, EnvCell c) (w : World X) :
    splitMatrix E (spellEnv nm nm [es]) w = (.ok (.rows (es.map .str)), w) ∧
    splitMatrix E (spellEnv nm nm (es.map fun c => [c])) w = (.ok (.rows (es.map .str)), w) := by
  constructor
  · rw [← arrayMat_row es h2]
    exact C37_env E nm nm hnm hnm _ _ (isArray_row es h2) (by simpa using hcells) w
  · rw [← arrayMat_col es h2]
    apply C37_env E nm nm hnm hnm _ _ (isArray_col es h2)
    intro r hr c hc
    obtain ⟨c', hc', rfl⟩ := List.mem_map.1 hr
    simp at hc; subst hc; exact hcells c hc'

/-- **C12**, brackets: `[[a,b,...]]`, `[[a],[b],...]` and `[a,b,...]` are split the same way. -/
theorem C12_brackets (E : Env X V S) (br br' : Bracket) (es : List Str) (h2 : 2 ≤ es.length)
    (hcells : ∀ c ∈ es, Element c ∧ c ≠ [] ∧ ∀ x, c.head? = some x → isOpen x = false)
    (h1 : ¬ ThousandsComma E.U (spellBrackets br [(br', es)]))
    (h3 : ¬ ThousandsComma E.U (spellBrackets br (es.map fun c => (br', [c]))))
    (w : World X) :
    splitMatrix E (spellBrackets br [(br', es)]) w = (.ok (.rows (es.map .str)), w) ∧
    splitMatrix E (spellBrackets br (es.map fun c => (br', [c]))) w = (.ok (.rows (es.map .str)), w) ∧
    splitMatrix E (bracketed br' es) w = (.ok (.rows (es.map .str)), w) := by
  refine ⟨?_, ?_, ?_⟩
  · rw [← arrayMat_row es h2]
    exact C37_brackets E br [(br', es)] _ (isArray_row es h2)
      (by simpa using fun c hc => ⟨(hcells c hc).1, (hcells c hc).2.1⟩) h1 w
  · rw [← arrayMat_col es h2]
    have e : (es.map fun c => (br', [c])).map Prod.snd = es.map fun c => [c] := by simp [Function.comp_def]
    rw [← e]
    apply C37_brackets E br _ 1 (by rw [e]; exact isArray_col es h2) _ h3 w
    intro r hr c hc
    obtain ⟨c', hc', rfl⟩ := List.mem_map.1 hr
    simp at hc; subst hc; exact ⟨(hcells c hc').1, (hcells c hc').2.1⟩
  · apply C37_vector E br' es h2 hcells
    intro h
    exact h1 (h.mono ⟨[br.open], [br.close], by simp [spellBrackets, bracketed, join]⟩)

example : EnvCell s%"\\frac{1}{2}" := ⟨by decide, by decide, by decide⟩
example : splitMatrix failEnv s%"[[x,y],[z,t]]" ⟨(), []⟩ =
    (.ok (.rows [.list [s%"x", s%"y"], .list [s%"z", s%"t"]]), ⟨(), []⟩) :=
  C37_brackets failEnv .square [(.square, [s%"x", s%"y"]), (.square, [s%"z", s%"t"])] 2
    ⟨by simp, by omega, by simp⟩
    (by
      intro r hr c hc
      simp only [List.mem_cons, List.not_mem_nil, or_false] at hr
      rcases hr with rfl | rfl <;> simp at hc <;> rcases hc with rfl | rfl <;>
        exact ⟨element_of_elementB _ (by decide), by decide⟩)
    (not_thousands_of_no_digit _ _ (by decide)) ⟨(), []⟩
example : splitMatrix failEnv (spellEnv s%"p" s%"p" [[s%"1", s%"2", s%"3"]]) ⟨(), []⟩ =
    splitMatrix failEnv (spellEnv s%"p" s%"p" [[s%"1"], [s%"2"], [s%"3"]]) ⟨(), []⟩ := by
  have := C12_env failEnv s%"p" (Or.inr ⟨'p', rfl, by decide⟩) [s%"1", s%"2", s%"3"] (by simp)
    (by simp only [List.mem_cons, List.not_mem_nil, or_false, forall_eq_or_imp, forall_eq]
        refine ⟨?_, ?_, ?_⟩ <;> exact ⟨by decide, by decide, by decide⟩) ⟨(), []⟩
  exact this.1.trans this.2.symm

example : (splitMatrix failEnv s%"\\begin{pmatrix}1&2\\\\3\\end{pmatrix}" ⟨(), []⟩).1 =
    .ok (.str s%"\\begin{pmatrix}1&2\\\\3\\end{pmatrix}") := by
  have := C37_env_ragged failEnv s%"p" s%"p" (Or.inr ⟨'p', rfl, by decide⟩) (Or.inr ⟨'p', rfl, by decide⟩)
    [[s%"1", s%"2"], [s%"3"]] ⟨by simp, by simp⟩ ⟨[s%"1", s%"2"], by simp, [s%"3"], by simp, by decide⟩
    (by
      intro r hr c hc
      simp only [List.mem_cons, List.not_mem_nil, or_false] at hr
      rcases hr with rfl | rfl <;> simp at hc
      · rcases hc with rfl | rfl <;> exact ⟨by decide, by decide, by decide⟩
      · subst hc; exact ⟨by decide, by decide, by decide⟩) ⟨(), []⟩
  exact congrArg Prod.fst this

end Verif
