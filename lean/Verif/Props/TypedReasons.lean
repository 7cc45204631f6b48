import Verif.Props.TypeEval
/-
Property C83: with an answer type, acceptance has one of the stated reasons, and the texts compared element by
element are the normal forms with brackets removed (sets) or put (vectors).
-/

namespace Verif

variable {X V S : Type}

/-- The elements of a set: what is inside one pair of round or square brackets; the whole text if there is none. -/
inductive SetBody : Str → Str → Prop
  | round (t : Str) : SetBody ('(' :: t ++ [')']) t
  | square (t : Str) : SetBody ('[' :: t ++ [']']) t
  | bare (s : Str) (h1 : ∀ t, s ≠ '(' :: t ++ [')']) (h2 : ∀ t, s ≠ '[' :: t ++ [']']) : SetBody s s

/-- A vector in brackets: round and square ones are kept, curly ones become square, missing ones are put. -/
inductive VectorText : Str → Str → Prop
  | round (t : Str) : VectorText ('(' :: t ++ [')']) ('(' :: t ++ [')'])
  | square (t : Str) : VectorText ('[' :: t ++ [']']) ('[' :: t ++ [']'])
  | curly (t : Str) : VectorText ('{' :: t ++ ['}']) ('[' :: t ++ [']'])
  | bare (s : Str) (h1 : ∀ t, s ≠ '(' :: t ++ [')']) (h2 : ∀ t, s ≠ '[' :: t ++ [']'])
      (h3 : ∀ t, s ≠ '{' :: t ++ ['}']) : VectorText s ('[' :: s ++ [']'])

/-- Two different characters at the ends: a text between them. -/
theorem ends_iff (a b : Char) (hab : a ≠ b) (s : Str) :
    (startsWith [a] s && endsWith [b] s) = true ↔ ∃ t, s = a :: t ++ [b] := by
  have e : endsWith [b] s = true ↔ ∃ u, s = u ++ [b] := by
    unfold endsWith
    rw [List.isPrefixOf_iff_prefix]
    constructor
    · rintro ⟨u, hu⟩
      refine ⟨u.reverse, ?_⟩
      have := congrArg List.reverse hu
      simpa using this.symm
    · rintro ⟨u, rfl⟩
      exact ⟨u.reverse, by simp⟩
  rw [Bool.and_eq_true, e]
  unfold startsWith
  rw [List.isPrefixOf_iff_prefix]
  constructor
  · rintro ⟨⟨t, rfl⟩, ⟨u, hu⟩⟩
    cases u with
    | nil => simp at hu; exact absurd hu.1 hab
    | cons c u =>
      simp only [List.cons_append, List.nil_append, List.cons.injEq] at hu
      exact ⟨u, by simp [hu.2]⟩
  · rintro ⟨t, rfl⟩
    exact ⟨⟨t ++ [b], rfl⟩, ⟨a :: t, rfl⟩⟩

theorem inner_ends (a b : Char) (t : Str) : inner (a :: t ++ [b]) = t := by
  simp [inner]

theorem preSet_body (s : Str) : SetBody s (preSet s) := by
  have r := ends_iff '(' ')' (by decide) s
  have q := ends_iff '[' ']' (by decide) s
  unfold preSet
  split
  · rename_i h
    simp only [enclosed, Bool.or_eq_true] at h
    rcases h with h | h
    · obtain ⟨t, rfl⟩ := r.1 h; rw [inner_ends]; exact .round t
    · obtain ⟨t, rfl⟩ := q.1 h; rw [inner_ends]; exact .square t
  · rename_i h
    simp only [enclosed, Bool.or_eq_true, not_or] at h
    exact .bare s (fun t e => h.1 (r.2 ⟨t, e⟩)) (fun t e => h.2 (q.2 ⟨t, e⟩))

theorem preVector_text (s : Str) : VectorText s (preVector s) := by
  have r := ends_iff '(' ')' (by decide) s
  have q := ends_iff '[' ']' (by decide) s
  have c := ends_iff '{' '}' (by decide) s
  unfold preVector
  split
  · rename_i h
    simp only [enclosed, Bool.or_eq_true] at h
    rcases h with h | h
    · obtain ⟨t, rfl⟩ := r.1 h; exact .round t
    · obtain ⟨t, rfl⟩ := q.1 h; exact .square t
  · rename_i h
    simp only [enclosed, Bool.or_eq_true, not_or] at h
    split
    · rename_i h'
      obtain ⟨t, rfl⟩ := c.1 h'
      rw [inner_ends]; exact .curly t
    · rename_i h'
      exact .bare s (fun t e => h.1 (r.2 ⟨t, e⟩)) (fun t e => h.2 (q.2 ⟨t, e⟩)) (fun t e => h' (c.2 ⟨t, e⟩))

/-- A run of `needStr` that returns: the normal form was that string. -/
theorem needStr_runs {r : Norm} {w w' : World X} {s : Str} (h : Runs (Norm.needStr r) w s w') :
    r = .str s ∧ w' = w := by
  cases r with
  | str t => unfold Runs Norm.needStr at h; simp at h; exact ⟨by rw [h.1], h.2.symm⟩
  | set _ => unfold Runs Norm.needStr M.raise at h; simp at h

/-- One special type only: the loop is that check. -/
theorem accepted_or (E : Env X V S) (n : Nat) (gt pred t : Str) (verbose : Bool) (w w' : World X)
    (check : Str → Str → M X Verdict)
    (hc : checksLoop (some t) gt pred (equivChecks E n) = do
      let v ← check gt pred
      if v.truthy then pure true else pure false)
    (h : Runs (isEquivType E n gt pred (some t) verbose) w true w') :
    (∃ v, Runs (check gt pred) w v w' ∧ v.truthy = true) ∨
    ∃ u, Runs (isEquiv E n (some gt) (some pred) verbose) u true w' := by
  unfold isEquivType Runs at h
  rw [bind_iff] at h
  obtain ⟨c, w₁, h3, h4⟩ := h
  cases c with
  | false => exact .inr ⟨w₁, h4⟩
  | true =>
    simp only [Runs, if_true, M.pure_run, Prod.mk.injEq, true_and] at h4
    subst h4
    left
    rw [hc] at h3
    unfold Runs at h3
    rw [bind_iff] at h3
    obtain ⟨v, w₂, h5, h6⟩ := h3
    cases hv : v.truthy with
    | false => simp [Runs, hv] at h6
    | true =>
      simp [Runs, hv] at h6
      exact ⟨v, h6 ▸ h5, hv⟩

theorem loop_complex (E : Env X V S) (n : Nat) (gt pred : Str) :
    checksLoop (some s%"Complex") gt pred (equivChecks E n) =
      (isEquivComplex E n gt pred >>= fun v => if v.truthy then pure true else pure false) := by
  simp [checksLoop, equivChecks, show contains s%"Complex" s%"Complex" = true by decide,
    show contains s%"Set" s%"Complex" = false by decide, show contains s%"Vector" s%"Complex" = false by decide,
    show contains s%"Function" s%"Complex" = false by decide]

theorem loop_set (E : Env X V S) (n : Nat) (gt pred : Str) :
    checksLoop (some s%"Set") gt pred (equivChecks E n) =
      (isEquivSet E n gt pred >>= fun v => if v.truthy then pure true else pure false) := by
  simp [checksLoop, equivChecks, show contains s%"Complex" s%"Set" = false by decide,
    show contains s%"Set" s%"Set" = true by decide, show contains s%"Vector" s%"Set" = false by decide,
    show contains s%"Function" s%"Set" = false by decide]

theorem loop_vector (E : Env X V S) (n : Nat) (gt pred : Str) :
    checksLoop (some s%"Vector") gt pred (equivChecks E n) =
      (isEquivVector E n gt pred >>= fun v => if v.truthy then pure true else pure false) := by
  simp [checksLoop, equivChecks, show contains s%"Complex" s%"Vector" = false by decide,
    show contains s%"Set" s%"Vector" = false by decide, show contains s%"Vector" s%"Vector" = true by decide,
    show contains s%"Function" s%"Vector" = false by decide]

theorem loop_function (E : Env X V S) (n : Nat) (gt pred : Str) :
    checksLoop (some s%"Function") gt pred (equivChecks E n) =
      (isEquivFunction E n gt pred >>= fun v => if v.truthy then pure true else pure false) := by
  simp [checksLoop, equivChecks, show contains s%"Complex" s%"Function" = false by decide,
    show contains s%"Set" s%"Function" = false by decide, show contains s%"Vector" s%"Function" = false by decide,
    show contains s%"Function" s%"Function" = true by decide]

/-- **C83**, type `Complex`.  Acceptance means: the two answers, with the imaginary unit marked, were normalised to
strings, and with `\sqrt{-1}` written `I` these were accepted by `is_latex_equiv`; or `is_equiv` accepts.  An exception
is not an acceptance. -/
theorem C83_complex (E : Env X V S) (n : Nat) (gt pred : Str) (verbose : Bool) (w w' : World X)
    (h : Runs (isEquivType E n gt pred (some s%"Complex") verbose) w true w') :
    (∃ a b w₁ w₂, Runs (stringNormalize E n (strToComplex E.U gt)) w (.str a) w₁ ∧
      Runs (stringNormalize E n (strToComplex E.U pred)) w₁ (.str b) w₂ ∧
      Runs (isLatexEquiv E (isEquivStr E n) n (replace s%"\\sqrt{-1}" s%"I" a) (replace s%"\\sqrt{-1}" s%"I" b) false)
        w₂ true w') ∨
    ∃ u, Runs (isEquiv E n (some gt) (some pred) verbose) u true w' := by
  rcases accepted_or E n gt pred _ verbose w w' _ (loop_complex E n gt pred) h with ⟨v, h, hv⟩ | h
  · left
    unfold Runs isEquivComplex at h
    rw [bind_iff] at h
    obtain ⟨r, u₁, h1, h⟩ := h
    unfold Runs at h
    rw [bind_iff] at h
    obtain ⟨a, u₂, ha, h⟩ := h
    obtain ⟨rfl, rfl⟩ := needStr_runs ha
    unfold Runs at h
    rw [bind_iff] at h
    obtain ⟨r, u₃, h2, h⟩ := h
    unfold Runs at h
    rw [bind_iff] at h
    obtain ⟨b, u₄, hb, h⟩ := h
    obtain ⟨rfl, rfl⟩ := needStr_runs hb
    refine ⟨a, b, _, _, h1, h2, ?_⟩
    unfold Runs at h
    rw [bind_iff] at h
    obtain ⟨r, u₅, h3, h⟩ := h
    simp only [Runs, M.pure_run, Prod.mk.injEq, Except.ok.injEq] at h
    obtain ⟨rfl, rfl⟩ := h
    simp only [Verdict.truthy] at hv
    subst hv
    unfold Runs at h3 ⊢
    rw [M.tryExcept_run] at h3
    split at h3
    · rename_i hx; rw [hx, h3]
    · simp at h3
  · exact .inr h

/-- `5` and `5.001` are accepted with type `Complex`. -/
example (w : World Unit) : Runs (isEquivType ratEnv 9 s%"5" s%"5.001" (some s%"Complex") false) w true w := by
  unfold Runs; kernel_rfl

theorem pair_runs (E : Env X V S) (n : Nat) (gt pred : Str) (pre : Str → Str) (w w' : World X) (v : Verdict)
    (h : Runs (do
      let a ← stringNormalize E n gt
      let b ← stringNormalize E n pred
      let a ← a.needStr
      let b ← b.needStr
      M.tryExcept (do
        let (r, s) ← possibleTuple E (isEquivStr E n) (pre a) (pre b) false
        pure (.pair r s)) (fun _ => pure (.bool false))) w v w') (hv : v.truthy = true) :
    ∃ a b w₁ w₂ r, Runs (stringNormalize E n gt) w (.str a) w₁ ∧ Runs (stringNormalize E n pred) w₁ (.str b) w₂ ∧
      Runs (possibleTuple E (isEquivStr E n) (pre a) (pre b) false) w₂ r w' := by
  unfold Runs at h
  rw [bind_iff] at h
  obtain ⟨r, u₁, h1, h⟩ := h
  unfold Runs at h
  rw [bind_iff] at h
  obtain ⟨s, u₂, h2, h⟩ := h
  unfold Runs at h
  rw [bind_iff] at h
  obtain ⟨a, u₃, ha, h⟩ := h
  obtain ⟨rfl, rfl⟩ := needStr_runs ha
  unfold Runs at h
  rw [bind_iff] at h
  obtain ⟨b, u₄, hb, h⟩ := h
  obtain ⟨rfl, rfl⟩ := needStr_runs hb
  unfold Runs at h
  rw [M.tryExcept_run] at h
  cases hp : possibleTuple E (isEquivStr E n) (pre a) (pre b) false u₄ with
  | mk r u₅ =>
    cases r with
    | error e => simp [hp] at h; rw [← h.1] at hv; simp [Verdict.truthy] at hv
    | ok p =>
      simp [hp] at h
      exact ⟨a, b, u₁, u₄, p, h1, h2, by unfold Runs; rw [hp, h.2]⟩

/-- **C83**, type `Set`.  Acceptance means: the elements of the two normal forms – the texts inside their brackets – were
compared without an exception, or `is_equiv` accepts.  (That the comparison was positive is not checked by the code, see
`C51_refuted`.) -/
theorem C83_set (E : Env X V S) (n : Nat) (gt pred : Str) (verbose : Bool) (w w' : World X)
    (h : Runs (isEquivType E n gt pred (some s%"Set") verbose) w true w') :
    (∃ a b a' b' w₁ w₂ r, Runs (stringNormalize E n gt) w (.str a) w₁ ∧
      Runs (stringNormalize E n pred) w₁ (.str b) w₂ ∧ SetBody a a' ∧ SetBody b b' ∧
      Runs (possibleTuple E (isEquivStr E n) a' b' false) w₂ r w') ∨
    ∃ u, Runs (isEquiv E n (some gt) (some pred) verbose) u true w' := by
  rcases accepted_or E n gt pred _ verbose w w' _ (loop_set E n gt pred) h with ⟨v, h, hv⟩ | h
  · obtain ⟨a, b, w₁, w₂, r, h1, h2, h3⟩ := pair_runs E n gt pred preSet w w' v h hv
    exact .inl ⟨a, b, _, _, w₁, w₂, r, h1, h2, preSet_body a, preSet_body b, h3⟩
  · exact .inr h

/-- **C83**, type `Vector`.  Acceptance means: the two normal forms, put into brackets, were compared element by element
without an exception, or `is_equiv` accepts. -/
theorem C83_vector (E : Env X V S) (n : Nat) (gt pred : Str) (verbose : Bool) (w w' : World X)
    (h : Runs (isEquivType E n gt pred (some s%"Vector") verbose) w true w') :
    (∃ a b a' b' w₁ w₂ r, Runs (stringNormalize E n gt) w (.str a) w₁ ∧
      Runs (stringNormalize E n pred) w₁ (.str b) w₂ ∧ VectorText a a' ∧ VectorText b b' ∧
      Runs (possibleTuple E (isEquivStr E n) a' b' false) w₂ r w') ∨
    ∃ u, Runs (isEquiv E n (some gt) (some pred) verbose) u true w' := by
  rcases accepted_or E n gt pred _ verbose w w' _ (loop_vector E n gt pred) h with ⟨v, h, hv⟩ | h
  · obtain ⟨a, b, w₁, w₂, r, h1, h2, h3⟩ := pair_runs E n gt pred preVector w w' v h hv
    exact .inl ⟨a, b, _, _, w₁, w₂, r, h1, h2, preVector_text a, preVector_text b, h3⟩
  · exact .inr h

example : SetBody s%"(1,2)" s%"1,2" := .round s%"1,2"
example : VectorText s%"{1,2}" s%"[1,2]" := .curly s%"1,2"
example : VectorText s%"1,2" s%"[1,2]" := .bare s%"1,2" (by simp) (by simp) (by simp)

/-- The part of an answer compared with type `Function`: the text after the first `=`, or the answer itself. -/
inductive FunctionText : Str → Str → Prop
  | rhs (l r : Str) (hl : l ≠ []) (h : '=' ∉ l) : FunctionText (l ++ '=' :: r) r
  | same (s : Str) : FunctionText s s

theorem find_eq_split (s : Str) (k : Nat) (h : find s%"=" s = some k) :
    ∃ l r, s = l ++ '=' :: r ∧ '=' ∉ l ∧ l.length = k := by
  induction s generalizing k with
  | nil => simp [find] at h
  | cons c cs ih =>
    by_cases hc : c = '='
    · subst hc
      simp [find] at h
      exact ⟨[], cs, rfl, by simp, by simpa using h⟩
    · simp [find, Ne.symm hc] at h
      obtain ⟨j, hj, rfl⟩ := h
      obtain ⟨l, r, rfl, h1, h2⟩ := ih j hj
      exact ⟨c :: l, r, rfl, by simp [h1, Ne.symm hc], by simp [h2]⟩

theorem tryToParseFunction_text (E : Env X V S) (s t : Str) (w w' : World X)
    (h : Runs (tryToParseFunction E s) w t w') : FunctionText s t := by
  unfold tryToParseFunction at h
  split at h
  · rename_i k hk
    obtain ⟨l, r, rfl, h1, h2⟩ := find_eq_split s (k + 1) hk
    have e2 : (l ++ '=' :: r).drop (k + 2) = r := by
      rw [show k + 2 = l.length + 1 by omega, List.drop_append]
      simp
    have hl : l ≠ [] := by rintro rfl; simp at h2
    unfold Runs at h
    rw [M.tryExcept_run] at h
    split at h
    · rename_i hx
      rw [bind_iff] at hx
      obtain ⟨f, u, _, hx⟩ := hx
      unfold Runs at hx
      rw [bind_iff] at hx
      obtain ⟨g, u', _, hx⟩ := hx
      simp only [Runs, M.pure_run, Prod.mk.injEq, Except.ok.injEq] at hx
      simp only [Prod.mk.injEq, Except.ok.injEq] at h
      rw [← h.1, ← hx.1, e2]; exact .rhs l r hl h1
    · simp only [M.pure_run, Prod.mk.injEq, Except.ok.injEq] at h
      rw [← h.1]; exact .same _
  · simp only [Runs, M.pure_run, Prod.mk.injEq, Except.ok.injEq] at h
    rw [← h.1]; exact .same _

/-- **C83**, type `Function`.  Acceptance means: `is_equiv` accepts the answers, or the texts after the first `=` of their
normal forms (or one of the normal forms as a whole). -/
theorem C83_function (E : Env X V S) (n : Nat) (gt pred : Str) (verbose : Bool) (w w' : World X)
    (h : Runs (isEquivType E n gt pred (some s%"Function") verbose) w true w') :
    (∃ a b a' b' w₁ w₂ w₃ u, Runs (stringNormalize E n gt) w₁ (.str a) w₂ ∧
      Runs (stringNormalize E n pred) w₂ (.str b) w₃ ∧ FunctionText a a' ∧ FunctionText b b' ∧
      Runs (isEquiv E n (some a') (some b') false) u true w') ∨
    (∃ u v, Runs (isEquiv E n (some gt) (some pred) v) u true w') := by
  rcases accepted_or E n gt pred _ verbose w w' _ (loop_function E n gt pred) h with ⟨v, h, hv⟩ | ⟨u, h⟩
  · unfold Runs isEquivFunction at h
    rw [bind_iff] at h
    obtain ⟨c, u₁, h1, h⟩ := h
    cases c with
    | true =>
      simp only [Runs, if_true, M.pure_run, Prod.mk.injEq] at h
      obtain ⟨-, rfl⟩ := h
      exact .inr ⟨w, false, h1⟩
    | false =>
      left
      simp only [Bool.false_eq_true, if_false] at h
      unfold Runs at h
      rw [bind_iff] at h
      obtain ⟨r, u₂, h2, h⟩ := h
      unfold Runs at h
      rw [bind_iff] at h
      obtain ⟨s, u₃, h3, h⟩ := h
      unfold Runs at h
      rw [bind_iff] at h
      obtain ⟨a, u₄, ha, h⟩ := h
      obtain ⟨rfl, rfl⟩ := needStr_runs ha
      unfold Runs at h
      rw [bind_iff] at h
      obtain ⟨a', u₅, ha', h⟩ := h
      unfold Runs at h
      rw [bind_iff] at h
      obtain ⟨b, u₆, hb, h⟩ := h
      obtain ⟨rfl, rfl⟩ := needStr_runs hb
      unfold Runs at h
      rw [bind_iff] at h
      obtain ⟨b', u₇, hb', h⟩ := h
      unfold Runs at h
      rw [bind_iff] at h
      obtain ⟨r, u₈, h4, h⟩ := h
      simp only [Runs, M.pure_run, Prod.mk.injEq, Except.ok.injEq] at h
      obtain ⟨rfl, rfl⟩ := h
      simp only [Verdict.truthy] at hv
      subst hv
      exact ⟨a, b, a', b', _, _, _, u₇, h2, h3, tryToParseFunction_text E a a' _ _ ha',
        tryToParseFunction_text E b b' _ _ hb', h4⟩
  · exact .inr ⟨u, verbose, h⟩

example : FunctionText s%"f(x)=x+1" s%"x+1" := .rhs s%"f(x)" s%"x+1" (by decide) (by decide)

end Verif
