import Verif.Props.MatrixAnswers
import Verif.Props.Unions

/-! # C98: answers of different kinds

Numbers, lists, matrices and unions of intervals are never judged equivalent to each other. -/

namespace Verif
open Re

variable {X V S : Type} {K : Type}

/-! ### Specification -/

/-- Kinds of answers.  A list of two elements is a kind of its own, because it may be meant as an interval. -/
inductive Kind where
  | number | pair | list | matrix | union
deriving DecidableEq

/-- Kinds that have no answers in common. -/
def Kind.apart : Kind → Kind → Bool
  | .number, .number | .pair, .pair | .list, .list | .matrix, .matrix | .union, .union => false
  | .pair, .list | .list, .pair => false
  | .pair, .union | .union, .pair => false
  | _, _ => true

/-- Answers of a kind: decimal literals and other expressions; lists of two elements; longer lists; matrices with at least two rows
and two columns; unions of intervals that none of the parsers reads. -/
inductive OfKind (E : Env X V S) : Kind → Str → Prop
  | literal (l : Literal) : l.Tame → OfKind E .number l.text
  | expression {s} : Tidy s → Single s → (∀ f, pyFloat E.U s = some f → isIntFloat f = false) → OfKind E .number s
  | pair {es} {f : Frame} : Pieces es → f ≠ some .curly → es.length = 2 → OfKind E .pair (f.text es)
  | list {es} {f : Frame} : Pieces es → f ≠ some .curly → 3 ≤ es.length → OfKind E .list (f.text es)
  | matrix {rows nm nm'} : CellArray rows → ¬ IsVector rows → LowerName nm → LowerName nm' → OfKind E .matrix (spellEnv nm nm' rows)
  | union {K : Type} {is : List (Itv K)} : is ≠ [] → (∀ i ∈ is, i.Wordy) → ¬ IsPair is → Unread E (unionText is) →
      OfKind E .union (unionText is)

/-! ### What the stages make of a normal form -/

/-- `split_matrix` ignores the kind of brackets. -/
theorem splitTuple_expected (U : Uni) (ord : List Str → List Str) (s : Str) :
    splitTuple U ord s (some .list) = match splitTuple U id s none with
      | .ok (.list xs) | .ok (.tuple xs) | .ok (.set xs) => .ok (.list xs)
      | r => r := by
  unfold splitTuple
  dsimp only
  generalize scanBrackets 0 true (stripCommas U s) = r
  obtain ⟨cnt, rp⟩ := r
  dsimp only
  split
  · rfl
  · generalize peelBrackets rp (stripCommas U s) = p
    obtain ⟨t, rt⟩ := p
    dsimp only
    split
    · cases rt <;> rfl
    · rfl

theorem splitTuple_nocomma (U : Uni) (ord : List Str → List Str) (e : Option RetType) {s : Str} (hc : ',' ∉ s) (hb : (s.map bracketDelta).sum = 0) :
    ∃ x, splitTuple U ord s e = .ok (.str x) := by
  unfold splitTuple
  simp only [stripCommas_nocomma hc]
  have h1 := scanBrackets_sum s 0 true
  rw [hb, add_zero] at h1
  generalize scanBrackets 0 true s = r at h1
  obtain ⟨cnt, rp⟩ := r
  simp only at h1
  subst h1
  have hp : ',' ∉ (peelBrackets rp s).1 := by
    have hs : ∀ c ∈ (s.drop 1).dropLast, c ∈ s := fun c h => List.mem_of_mem_drop (List.mem_of_mem_dropLast h)
    unfold peelBrackets
    split
    · split <;> first | exact hc | exact fun h => hc (hs _ h)
    · exact hc
  have h2 := splitLoop_one (peelBrackets rp s).1 [] 0 hp
  generalize peelBrackets rp s = p at hp h2
  obtain ⟨t, rt⟩ := p
  simp only [ne_eq, not_true_eq_false, if_false]
  rw [if_neg (by simpa using h2)]
  exact ⟨_, rfl⟩

/-- What the stages of the comparison make of a normal form. -/
structure Form (E : Env X V S) (k : Kind) (s : Str) : Prop where
  nonempty : s ≠ []
  interval : k ≠ .pair → k ≠ .union → Always (strToInterval E s) none
  one : k ≠ .pair → k ≠ .list → splitTuple E.U E.setOrder s none = .ok (.str s)
  many : k = .pair ∨ k = .list → ∃ e, splitTuple E.U E.setOrder s none = .ok e ∧ e.sameType (.str []) = false
  isMat : strIsMat s = decide (k = .matrix)
  comma : k ≠ .number → k ≠ .matrix → ',' ∈ s
  noComma : k = .number ∨ k = .matrix → ',' ∉ s
  text : k = .number ∨ k = .union → ∀ w, splitMatrix E s w = (.ok (.str s), w)
  column : k = .pair ∨ k = .list → ∃ rs, rs ≠ [] ∧ (∀ w, splitMatrix E s w = (.ok (.rows (rs.map .str)), w))
  array : k = .matrix → ∃ rs, rs ≠ [] ∧ ∀ w, splitMatrix E s w = (.ok (.rows (rs.map .list)), w)
  unread : k = .union → Unread E s

theorem matrixRe_none {s : Str} (h : ¬ s%"matrix" <:+: s) : reSearch matrixRe s = none := by
  refine reSearch_none_of_part (r := cat [lit s%"\\begin{", opt (.chr asciiAlpha), lit s%"matrix}"]) (by simp) fun u hu hi => ?_
  obtain ⟨a, v, b, rfl, hv⟩ := lang_cat_mem (r := lit s%"matrix}") (by simp) hu
  rw [lang_lit.1 hv] at hi
  exact h (List.IsInfix.trans (List.IsInfix.trans ⟨[], s%"}", rfl⟩ ⟨a, b, rfl⟩) hi)

/-- A text that is not split. -/
theorem splitMatrix_text (E : Env X V S) {s : Str} (hm : ¬ s%"matrix" <:+: s) (h : splitTuple E.U id s none = .ok (.str s)) (w : World X) :
    splitMatrix E s w = (.ok (.str s), w) := by
  have e : splitTuple E.U E.setOrder s (some .list) = .ok (.str s) := by rw [splitTuple_expected, h]
  have : matrixElements E.U E.setOrder s = .ok [.str s] := by
    unfold matrixElements
    rw [matrixRe_none hm]
    simp [e, bind, Except.bind, rowOfElems, List.mapM_cons, pure, Except.pure]
  simp [splitMatrix, M.bind_run, M.lift_run, this]

theorem Single.unsplitId {s : Str} (h : Single s) (U : Uni) : splitTuple U id s none = .ok (.str s) := h.unsplit U id

/-- The normal form of a number. -/
theorem form_number (E : Env X V S) {s : Str} (h : Single s) : Form E .number s where
  nonempty := h.nonempty
  interval _ _ := strToInterval_none E h.comma
  one _ _ := h.unsplit _ _
  many := by rintro (h | h) <;> cases h
  isMat := (contains_eq_false _ _).2 h.notMatrix
  comma h1 := absurd rfl h1
  noComma _ := h.comma
  text _ w := splitMatrix_text E h.notMatrix (h.unsplitId _) w
  column := by rintro (h | h) <;> cases h
  array h := by cases h
  unread h := by cases h

theorem piece_column (E : Env X V S) : ∀ {es : List Str}, (∀ e ∈ es, ',' ∉ e ∧ (e.map bracketDelta).sum = 0) →
    ∃ rs : List Str, rs.length = es.length ∧
      (es.mapM fun row => do let e ← splitTuple E.U E.setOrder row (some .list); pure (rowOfElems e)) = (.ok (rs.map .str) : Except PyErr _)
  | [], _ => ⟨[], rfl, rfl⟩
  | e :: es, h => by
    obtain ⟨x, hx⟩ := splitTuple_nocomma E.U E.setOrder (some .list) (h e (by simp)).1 (h e (by simp)).2
    obtain ⟨rs, h1, h2⟩ := piece_column E (es := es) fun e he => h e (by simp [he])
    refine ⟨x :: rs, by simp [h1], ?_⟩
    rw [List.mapM_cons, hx]
    simp only [bind, Except.bind, pure, Except.pure, rowOfElems] at h2 ⊢
    rw [h2]
    rfl

theorem sum_delta (e : Str) : (e.map bracketDelta).sum = depth e := by
  have := scanBrackets_sum e 0 true
  rw [scanBrackets_fst] at this
  omega

/-- The normal form of a list. -/
theorem form_list (E : Env X V S) {es : List Str} {f : Frame} (h : Pieces es) (hf : f ≠ some .curly) {k : Kind}
    (hk : (k = .pair ∧ es.length = 2) ∨ (k = .list ∧ 3 ≤ es.length)) : Form E k (f.text es) where
  nonempty e := by have := h.comma f; rw [e] at this; cases this
  interval h1 h2 := by
    rcases hk with ⟨rfl, -⟩ | ⟨-, hl⟩
    · exact absurd rfl h1
    · exact h.long hf hl
  one h1 h2 := by rcases hk with ⟨rfl, -⟩ | ⟨rfl, -⟩ <;> [exact absurd rfl h1; exact absurd rfl h2]
  many _ := by
    refine ⟨_, splitTuple_spells (h.spells E.U hf) E.setOrder, ?_⟩
    rcases f with _ | _ | _ | _ <;> rfl
  isMat := by
    rw [h.notMatrix f]
    rcases hk with ⟨rfl, -⟩ | ⟨rfl, -⟩ <;> rfl
  comma _ _ := h.comma f
  noComma := by rcases hk with ⟨rfl, -⟩ | ⟨rfl, -⟩ <;> rintro (h | h) <;> cases h
  text := by rcases hk with ⟨rfl, -⟩ | ⟨rfl, -⟩ <;> rintro (h | h) <;> cases h
  column _ := by
    obtain ⟨rs, h1, h2⟩ := piece_column E (es := es) fun e he => ⟨(h.piece e he).tidy.noComma, by
      rw [sum_delta]; exact (h.piece e he).element.balanced⟩
    have hm : ¬ s%"matrix" <:+: f.text es := (contains_eq_false _ _).1 (h.notMatrix f)
    have houter : splitTuple E.U E.setOrder (f.text es) (some .list) = .ok (.list es) := by
      rw [splitTuple_expected, splitTuple_spells (h.spells E.U hf) id]
      rcases f with _ | _ | _ | _ <;> rfl
    have htwo := h.two
    refine ⟨rs, fun e => by rw [e] at h1; simp at h1; omega, fun w => ?_⟩
    have : matrixElements E.U E.setOrder (f.text es) = .ok (rs.map .str) := by
      unfold matrixElements
      rw [matrixRe_none hm]
      simp only [houter, bind, Except.bind] at h2 ⊢
      exact h2
    match rs, h1, this with
    | [], h1, _ => simp at h1; omega
    | [_], h1, _ => simp at h1; omega
    | a :: b :: rs, _, this =>
      have hd : checkDim none ((a :: b :: rs).map .str) = true := by
        have key : ∀ rs : List Str, checkDim (some 1) (rs.map .str) = true := by
          intro rs
          induction rs with
          | nil => rfl
          | cons r rs ih => simpa [checkDim, Row.nCol] using ih
        exact key (b :: rs)
      simp only [List.map_cons] at this hd
      simp [splitMatrix, M.bind_run, M.lift_run, this, hd]
  array := by rcases hk with ⟨rfl, -⟩ | ⟨rfl, -⟩ <;> intro h <;> cases h
  unread := by rcases hk with ⟨rfl, -⟩ | ⟨rfl, -⟩ <;> intro h <;> cases h

/-- The normal form of a matrix. -/
theorem form_matrix (E : Env X V S) {rows : List (List Str)} {nm nm' : Str} (h : CellArray rows) (hv : ¬ IsVector rows)
    (hnm : LowerName nm) (hnm' : LowerName nm') : Form E .matrix (spellEnv nm nm' rows) where
  nonempty := by simp [spellEnv]
  interval _ _ := strToInterval_none E (h.noComma hnm hnm')
  one _ _ := h.unsplit _ _ hnm hnm'
  many := by rintro (h | h) <;> cases h
  isMat := (contains_iff _ _).2 ⟨s%"\\begin{" ++ nm, s%"}" ++ join s%"\\\\" (rows.map (join s%"&")) ++ (s%"\\end{" ++ nm' ++ s%"matrix}"), by simp [spellEnv]⟩
  comma _ h2 := absurd rfl h2
  noComma _ := h.noComma hnm hnm'
  text := by rintro (h | h) <;> cases h
  column := by rintro (h | h) <;> cases h
  array _ := by
    obtain ⟨n, hn⟩ := h.array
    rcases arrayMat_cases hn with ⟨h1, -⟩ | ⟨-, h2⟩
    · exact absurd h1 hv
    · exact ⟨rows, hn.nonempty, fun w => by rw [h.split E hnm hnm' w, h2]⟩
  unread h := by cases h

/-- The normal form of a union. -/
theorem form_union (E : Env X V S) {is : List (Itv K)} (h0 : is ≠ []) (hw : ∀ i ∈ is, i.Wordy) (hp : ¬ IsPair is)
    (hu : Unread E (unionText is)) : Form E .union (unionText is) where
  nonempty e := by obtain ⟨t, h | h⟩ := union_head h0 hw <;> rw [h] at e <;> cases e
  interval _ h := absurd rfl h
  one _ _ := union_unsplit h0 hw _ _ hp
  many := by rintro (h | h) <;> cases h
  isMat := union_notMatrix hw
  comma _ _ := union_comma h0 hw
  noComma := by rintro (h | h) <;> cases h
  text _ w := splitMatrix_text E ((contains_eq_false _ _).1 (union_notMatrix hw)) (union_unsplit h0 hw _ _ hp) w
  column := by rintro (h | h) <;> cases h
  array h := by cases h
  unread _ := hu

/-- The normal form of an answer of a kind. -/
theorem OfKind.form {E : Env X V S} (hE : PrintsIntegers E) {k : Kind} {a : Str} (h : OfKind E k a) (n : Nat) :
    strip a = a ∧ ∃ s, Always (stringNormalize E (n + 1) a) (.str s) ∧ Form E k s := by
  cases h with
  | literal l ht =>
    obtain ⟨b, hb, hn⟩ := normalize_literal E hE l ht n
    exact ⟨L2S.literal_strip l, _, hn, form_number E (L2S.literal_single b)⟩
  | expression ht hs hf => exact ⟨strip_of_no_space _ fun c hc => ht.space hc, a, ht.fixed E n hf, form_number E hs⟩
  | pair hp hf hl => exact ⟨hp.strip hf, _, hp.fixed E n hf, form_list E hp hf (.inl ⟨rfl, hl⟩)⟩
  | list hp hf hl => exact ⟨hp.strip hf, _, hp.fixed E n hf, form_list E hp hf (.inr ⟨rfl, hl⟩)⟩
  | matrix hc hv hnm hnm' => exact ⟨hc.strip hnm hnm', _, hc.fixed E n hnm hnm', form_matrix E hc hv hnm hnm'⟩
  | union h0 hw hp hu => exact ⟨union_strip h0 hw, _, union_fixed h0 hw E n, form_union E h0 hw hp hu⟩

/-! ### The comparison -/

theorem Kind.apart_symm : ∀ {k k' : Kind}, k.apart k' = true → k'.apart k = true := by
  intro k k'
  cases k <;> cases k' <;> decide

/-- One of the two texts is no interval. -/
theorem forms_interval {E : Env X V S} {k k' : Kind} {s t : Str} (ha : Form E k s) (hb : Form E k' t) (h : k.apart k' = true) :
    AlwaysP (possibleIntervals E s t) fun p => p.1 = false := by
  have : (k ≠ .pair ∧ k ≠ .union) ∨ (k' ≠ .pair ∧ k' ≠ .union) := by cases k <;> cases k' <;> simp [Kind.apart] at h ⊢
  unfold possibleIntervals
  rcases this with ⟨h1, h2⟩ | ⟨h1, h2⟩
  · refine AlwaysP.bind ((ha.interval h1 h2).alwaysP (P := (· = none)) rfl) ?_
    rintro _ rfl
    refine AlwaysP.bind (strToInterval_safe E _) fun b _ => ?_
    cases b <;> exact AlwaysP.pure rfl
  · refine AlwaysP.bind (strToInterval_safe E _) fun a _ => ?_
    refine AlwaysP.bind ((hb.interval h1 h2).alwaysP (P := (· = none)) rfl) ?_
    rintro _ rfl
    cases a <;> exact AlwaysP.pure rfl

theorem forms_ne {E : Env X V S} {k k' : Kind} {s t : Str} (ha : Form E k s) (hb : Form E k' t) (h : k.apart k' = true) : s ≠ t := by
  rintro rfl
  by_cases hm : k = .matrix ∨ k' = .matrix
  · have h1 := ha.isMat.symm.trans hb.isMat
    have : k = k' := by
      rcases hm with rfl | rfl
      · exact (by simpa using h1.symm : k' = .matrix).symm
      · simpa using h1
    subst this
    cases k <;> cases h
  · by_cases hn : k = .number ∨ k' = .number
    · have h1 := ha.comma
      have h2 := ha.noComma
      have h3 := hb.comma
      have h4 := hb.noComma
      cases k <;> cases k' <;> simp [Kind.apart] at h hm hn h1 h2 h3 h4 <;> contradiction
    · have h1 := ha.one
      have h2 := ha.many
      have h3 := hb.one
      have h4 := hb.many
      have key : splitTuple E.U E.setOrder s none = .ok (.str s) → (∃ e, splitTuple E.U E.setOrder s none = .ok e ∧ e.sameType (.str []) = false) → False := by
        rintro e ⟨e', h, h'⟩
        rw [e] at h
        cases h
        cases h'
      cases k <;> cases k' <;> simp [Kind.apart] at h hm hn <;> first
        | exact key (h1 (by decide) (by decide)) (h4 (by decide))
        | exact key (h3 (by decide) (by decide)) (h2 (by decide))

theorem lift_splits {E : Env X V S} {eq : EqFun X} {s t : Str} {verbose : Bool} {e e' : Elems} {r : Bool × Bool}
    (h1 : splitTuple E.U E.setOrder s none = .ok e) (h2 : splitTuple E.U E.setOrder t none = .ok e')
    (h3 : Always (elemsEquiv eq s t verbose e e') r) : Always (possibleTuple E eq s t verbose) r := by
  unfold possibleTuple
  rw [h1, h2]
  refine Always.bind (a := e) (fun w => ⟨w, rfl⟩) ?_
  refine Always.bind (a := e') (fun w => ⟨w, rfl⟩) ?_
  exact print_always _ _ h3

/-- A list and a text that is no list. -/
theorem elems_mixed {eq : EqFun X} {s t u : Str} {verbose : Bool} {e : Elems} (h : e.sameType (.str []) = false) :
    Always (elemsEquiv eq s t verbose e (.str u)) (false, true) ∧ Always (elemsEquiv eq s t verbose (.str u) e) (false, true) := by
  cases e with
  | str x => cases h
  | _ =>
    constructor <;>
    · unfold elemsEquiv
      dsimp only
      split
      · exact Always.pure _
      · exact Always.pure _

/-- The tuple stage does not accept; its answer is final if one of the two is a list. -/
theorem forms_tuple {E : Env X V S} {k k' : Kind} {s t : Str} (ha : Form E k s) (hb : Form E k' t) (h : k.apart k' = true)
    (eq : EqFun X) (verbose : Bool) :
    Always (possibleTuple E eq s t verbose) (false, decide (k = .pair ∨ k = .list ∨ k' = .pair ∨ k' = .list)) := by
  by_cases hk : k = .pair ∨ k = .list
  · have hk' : k' ≠ .pair ∧ k' ≠ .list := by
      rcases hk with rfl | rfl <;> cases k' <;> simp [Kind.apart] at h ⊢
    obtain ⟨e, h1, h2⟩ := ha.many hk
    rw [decide_eq_true (by tauto)]
    exact lift_splits h1 (hb.one hk'.1 hk'.2) (elems_mixed h2).1
  · by_cases hk' : k' = .pair ∨ k' = .list
    · obtain ⟨e, h1, h2⟩ := hb.many hk'
      rw [decide_eq_true (by tauto)]
      exact lift_splits (ha.one (by tauto) (by tauto)) h1 (elems_mixed h2).2
    · rw [decide_eq_false (by tauto)]
      refine lift_splits (ha.one (by tauto) (by tauto)) (hb.one (by tauto) (by tauto)) ?_
      simpa [elemsEquiv] using Always.pure _

/-- The matrix stage does not accept. -/
theorem forms_matrix {E : Env X V S} {k k' : Kind} {s t : Str} (ha : Form E k s) (hb : Form E k' t) (h : k.apart k' = true)
    (hm : k = .matrix ∨ k' = .matrix) (eq : EqFun X) : Always (possibleMatrix E eq s t) (false, true) := by
  have run : ∀ {a b : Mat} {r : Bool × Bool}, (∀ w, splitMatrix E s w = (.ok a, w)) → (∀ w, splitMatrix E t w = (.ok b, w)) →
      (∀ w, (match a, b with
        | .str x, .str y => if x = s ∧ y = t then pure (false, false) else do let r ← eq x y false; pure (r, true)
        | .rows xs, .rows ys => if xs.length ≠ ys.length then pure (false, true) else do let r ← rowsEquiv eq xs ys; pure (r, true)
        | _, _ => pure (false, true) : M X (Bool × Bool)) w = (.ok r, w)) → Always (possibleMatrix E eq s t) r := by
    intro a b r h1 h2 h3 w
    refine ⟨w, ?_⟩
    rw [← h3 w]
    unfold possibleMatrix
    simp only [M.bind_run, h1, h2]
    cases a <;> cases b <;> rfl
  rcases hm with rfl | rfl
  · obtain ⟨rs, hr, h1⟩ := ha.array rfl
    by_cases hl : k' = .pair ∨ k' = .list
    · obtain ⟨rs', hr', h2⟩ := hb.column hl
      refine run h1 h2 fun w => ?_
      match rs, rs', hr, hr' with
      | a :: rs, b :: rs', _, _ =>
        dsimp only
        split
        · rfl
        · rfl
    · have : k' = .number ∨ k' = .union := by cases k' <;> simp [Kind.apart] at h hl ⊢
      exact run h1 (hb.text this) fun w => rfl
  · obtain ⟨rs, hr, h1⟩ := hb.array rfl
    by_cases hl : k = .pair ∨ k = .list
    · obtain ⟨rs', hr', h2⟩ := ha.column hl
      refine run h2 h1 fun w => ?_
      match rs, rs', hr, hr' with
      | a :: rs, b :: rs', _, _ =>
        dsimp only
        split
        · rfl
        · rfl
    · have : k = .number ∨ k = .union := by cases k <;> simp [Kind.apart] at h hl ⊢
      exact run (ha.text this) h1 fun w => rfl

/-- **C98**, except for lists of two elements against unions of intervals: answers of different kinds are never judged equivalent,
whatever the parsers and the computer algebra system do. -/
theorem C98_kinds_partial {E : Env X V S} (hE : PrintsIntegers E) {k k' : Kind} {a b : Str} (ha : OfKind E k a) (hb : OfKind E k' b)
    (h : k.apart k' = true) (n : Nat) (verbose : Bool) :
    Always (isEquiv E (n + 2) (some a) (some b) verbose) false := by
  by_cases hi : Nonempty (World X)
  swap
  · exact fun w => (hi ⟨w⟩).elim
  obtain ⟨w₀⟩ := hi
  obtain ⟨sa, s, na, fa⟩ := ha.form hE n
  obtain ⟨sb, t, nb, fb⟩ := hb.form hE n
  have hst := forms_ne fa fb h
  show Always (isEquivStr E (n + 2) a b verbose) false
  unfold isEquivStr
  rw [sa, sb, if_neg (by
    rintro rfl
    have := na.unique w₀ nb
    simp only [Norm.str.injEq] at this
    exact hst this)]
  apply na.bind
  apply nb.bind
  apply print_always
  unfold compareNorms
  simp only [hst, decide_false, Bool.false_eq_true, if_false]
  apply Always.tryExcept
  unfold isLatexEquiv
  have ht : t.isEmpty = false := by simpa using fb.nonempty
  simp only [ht, Bool.false_eq_true, if_false]
  have first : AlwaysP (if hasBracket s then possibleIntervals E s t else pure (false, false)) fun p => p.1 = false := by
    split
    · exact forms_interval fa fb h
    · exact AlwaysP.pure rfl
  refine first.always ?_
  rintro ⟨c, r⟩ hc
  simp only at hc
  subst hc
  simp only [Bool.not_false, if_true]
  refine (forms_tuple fa fb h (isEquivStr E (n + 1)) verbose).bind ?_
  simp only [Bool.not_false, Bool.true_and, fa.isMat, fb.isMat]
  by_cases hm : k = .matrix ∨ k' = .matrix
  · have e : (decide (k = .matrix) || decide (k' = .matrix)) = true := by simpa using hm
    rw [e, if_pos rfl]
    refine (forms_matrix fa fb h hm _).bind ?_
    simpa using Always.pure _
  · have e : (decide (k = .matrix) || decide (k' = .matrix)) = false := by simpa using hm
    rw [e]
    simp only [Bool.false_eq_true, if_false]
    refine (Always.pure _).bind ?_
    by_cases hl : k = .pair ∨ k = .list ∨ k' = .pair ∨ k' = .list
    · simpa [hl] using Always.pure _
    · have : k = .union ∨ k' = .union := by cases k <;> cases k' <;> simp [Kind.apart] at h hm hl ⊢
      simp only [hl, decide_false, Bool.not_false, Bool.and_self, if_true]
      exact unread_unequal _ _ (this.imp fa.unread fb.unread)

/-- `\frac{1}{2}` is no list, no matrix and no union, in every environment. -/
example {E : Env X V S} (hE : PrintsIntegers E) (n : Nat) (verbose : Bool) :
    Always (isEquiv E (n + 2) (some s%"\\frac{1}{2}") (some s%"(1,2)") verbose) false ∧
    Always (isEquiv E (n + 2) (some s%"1,2,3") (some s%"\\frac{1}{2}") verbose) false ∧
    Always (isEquiv E (n + 2) (some s%"\\frac{1}{2}") (some s%"\\begin{pmatrix}1&2\\\\3&4\\end{pmatrix}") verbose) false ∧
    Always (isEquiv E (n + 2) (some s%"[1,2,3]") (some s%"\\begin{pmatrix}1&2\\\\3&4\\end{pmatrix}") verbose) false := by
  have num : OfKind E .number s%"\\frac{1}{2}" := .expression (tidyB_sound (by decide +kernel))
    ⟨by simp, by decide, (contains_eq_false _ _).1 (by decide), by decide, .inl (by simp)⟩
    (by
      have : pyFloat E.U s%"\\frac{1}{2}" = none := pyFloat_none '{' (by decide)
        (by simp [litChar, isDigit, asciiDigit, isSpace, asciiAlpha, asciiLower, asciiUpper])
      intro f hf
      rw [this] at hf
      cases hf)
  have mat : OfKind E .matrix s%"\\begin{pmatrix}1&2\\\\3&4\\end{pmatrix}" :=
    OfKind.matrix (rows := [[s%"1", s%"2"], [s%"3", s%"4"]]) (L2S.cells22 (by decide +kernel)) (by simp [IsVector]) L2S.lower_p L2S.lower_p
  exact ⟨C98_kinds_partial hE num (OfKind.pair (f := some .round) (es := [s%"1", s%"2"]) (piecesB_sound (by decide +kernel)) (by decide) rfl) rfl n verbose,
    C98_kinds_partial hE (OfKind.list (f := none) (es := [s%"1", s%"2", s%"3"]) (piecesB_sound (by decide +kernel)) (by decide) (by decide)) num rfl n verbose,
    C98_kinds_partial hE num mat rfl n verbose,
    C98_kinds_partial hE (OfKind.list (f := some .square) (es := [s%"1", s%"2", s%"3"]) (piecesB_sound (by decide +kernel)) (by decide) (by decide)) mat rfl n verbose⟩

theorem lineEnv_prints : PrintsIntegers lineEnv := by
  intro n x
  have h := toyParse_literal (Literal.ofInt n)
  rw [Literal.ofInt_text, Literal.ofInt_value] at h
  have h1 : intStr n ≠ s%"\\infty" := fun e => by rw [e, show toyParse s%"\\infty" = none by kernel_rfl] at h; cases h
  have h2 : intStr n ≠ s%"-\\infty" := fun e => by rw [e, show toyParse s%"-\\infty" = none by kernel_rfl] at h; cases h
  refine .inr ⟨.num n, x, x, ?_, ?_⟩
  · show (if intStr n = s%"\\infty" then _ else if intStr n = s%"-\\infty" then _ else optCall (toyParse (intStr n)) : Ext Unit TVal) x = _
    rw [if_neg h1, if_neg h2, h]; rfl
  · show optCall (toyStr (.num n)) x = _
    simp [toyStr, optCall]

/-- A union is no number: the environment of C97. -/
example : Always (isEquiv lineEnv 9 (some s%"\\frac{1}{2}") (some s%"(0,1)\\cup(1,2]") false) false := by
  have m : ∀ e ∈ [s%"0", s%"1", s%"2"], e ∈ lineTexts := by decide +kernel
  refine C98_kinds_partial lineEnv_prints (k := .number) (k' := .union) (OfKind.expression (tidyB_sound (by decide +kernel))
    ⟨by simp, by decide, (contains_eq_false _ _).1 (by decide), by decide, .inl (by simp)⟩ ?_)
    (OfKind.union (is := [lineItv true s%"0" s%"1" true, lineItv true s%"1" s%"2" false]) (by simp)
      (by simpa using ⟨lineItv_wordy _ _ (m _ (by simp)) (m _ (by simp)), lineItv_wordy _ _ (m _ (by simp)) (m _ (by simp))⟩)
      (by rintro ⟨i, h, -⟩; simp at h) (lineEnv_unread (by decide) (by decide) (by kernel_rfl))) rfl 7 false
  have : pyFloat lineEnv.U s%"\\frac{1}{2}" = none := pyFloat_none '{' (by decide)
    (by simp [litChar, isDigit, asciiDigit, isSpace, asciiAlpha, asciiLower, asciiUpper])
  intro f hf
  rw [this] at hf
  cases hf

/-- **C98** fails for lists of two elements: without brackets they are read as the closed interval if the reference has brackets, and
as a set if it has none.  A matrix of a single entry is that entry, and a matrix of a single row or column is a list. -/
theorem C98_pairs_refuted :
    (isEquiv ratEnv 9 (some s%"[1,2]") (some s%"1,2") false ⟨(), []⟩).1 = .ok true ∧
    (isEquiv ratEnv 9 (some s%"1,2") (some s%"[1,2]") false ⟨(), []⟩).1 = .ok false ∧
    (isEquiv ratEnv 9 (some s%"\\begin{pmatrix}1\\end{pmatrix}") (some s%"1") false ⟨(), []⟩).1 = .ok true ∧
    (isEquiv ratEnv 9 (some s%"\\begin{pmatrix}1&2\\end{pmatrix}") (some s%"1,2") false ⟨(), []⟩).1 = .ok true := by
  refine ⟨?_, ?_, ?_, ?_⟩ <;> decide +kernel

end Verif
