import Verif.Model.TypeEval
import Verif.Props.Numeric
import Verif.Py.ReplaceLemmas
/-
Properties C49-C54: comparison with an answer type, detection of the imaginary unit.
-/

namespace Verif

variable {X V S : Type}

/-! ### C49, C50 -/

/-- **C49**.  A type mentioning none of the four special names: the verdict (and every effect) of `is_equiv`. -/
theorem C49_other_types (E : Env X V S) (n : Nat) (gt pred t : Str) (verbose : Bool) (w : World X)
    (h : ¬ s%"Complex" <:+: t ∧ ¬ s%"Set" <:+: t ∧ ¬ s%"Vector" <:+: t ∧ ¬ s%"Function" <:+: t) :
    isEquivType E n gt pred (some t) verbose w = isEquiv E n (some gt) (some pred) verbose w := by
  obtain ⟨h1, h2, h3, h4⟩ := h
  rw [← contains_eq_false] at h1 h2 h3 h4
  simp [isEquivType, checksLoop, equivChecks, h1, h2, h3, h4, isEquiv]

example : ¬ s%"Complex" <:+: s%"Real" ∧ ¬ s%"Set" <:+: s%"Real" ∧ ¬ s%"Vector" <:+: s%"Real" ∧
    ¬ s%"Function" <:+: s%"Real" := by
  simp only [← contains_eq_false]; decide

/-- **C50**.  If `is_equiv` accepts (in every state of the libraries) and `is_equiv_type` returns, it returns
`True`, whatever the type. -/
theorem C50_never_loses (E : Env X V S) (n : Nat) (gt pred : Str) (t : Option Str) (verbose : Bool)
    (h : Always (isEquiv E n (some gt) (some pred) verbose) true) (w w' : World X) (b : Bool)
    (hr : Runs (isEquivType E n gt pred t verbose) w b w') : b = true := by
  unfold Runs isEquivType at hr
  rw [bind_iff] at hr
  obtain ⟨c, w₁, h1, h2⟩ := hr
  cases c with
  | true => unfold Runs at h2; simp at h2; exact h2.1
  | false =>
    unfold Runs at h2
    obtain ⟨w₂, h3⟩ := h w₁
    have h3 : isEquivStr E n gt pred verbose w₁ = (.ok true, w₂) := h3
    simp [h3] at h2
    exact h2.1

example (w : World Unit) : Runs (isEquivType ratEnv 9 s%"1/2" s%"1/2" (some s%"Complex") false) w true w := by
  unfold Runs; kernel_rfl

/-! ### C51 -/

/-- **C51** fails: the pair returned by the element-wise comparison is used as a condition, and a pair is always
true, so `1` and `2` are accepted as sets and as vectors. -/
theorem C51_refuted (w : World Unit) :
    (isEquivType ratEnv 9 s%"1" s%"2" (some s%"Set") false w).1 = .ok true ∧
    (isEquivType ratEnv 9 s%"1" s%"2" (some s%"Vector") false w).1 = .ok true ∧
    (isEquiv ratEnv 9 (some s%"1") (some s%"2") false w).1 = .ok false := by
  refine ⟨?_, ?_, ?_⟩ <;> kernel_rfl

/-- The general extent of the failure: with type `Set` every pair of answers is accepted whose normal forms are
strings and whose element-wise comparison returns anything at all. -/
theorem C51_refuted_in_general (E : Env X V S) (n : Nat) (gt pred a b t : Str) (verbose : Bool)
    (w w₁ w₂ w₃ : World X) (ht : s%"Set" <:+: t) (hc : ¬ s%"Complex" <:+: t)
    (ha : Runs (stringNormalize E n gt) w (.str a) w₁) (hb : Runs (stringNormalize E n pred) w₁ (.str b) w₂)
    (v : Bool × Bool) (hv : Runs (possibleTuple E (isEquivStr E n) (preSet a) (preSet b) false) w₂ v w₃) :
    Runs (isEquivType E n gt pred (some t) verbose) w true w₃ := by
  rw [← contains_iff] at ht
  rw [← contains_eq_false] at hc
  unfold Runs at *
  simp [isEquivType, checksLoop, equivChecks, ht, hc, isEquivSet, ha, hb, Norm.needStr, hv, Verdict.truthy]

/-- What holds of **C51**: an answer accepted with type `Set` (or `Vector`) has an element-wise comparison that did
not raise, or is accepted by `is_equiv`.  Missing: that the comparison was positive (false, see above). -/
theorem C51_partial (E : Env X V S) (n : Nat) (gt pred : Str) (verbose : Bool) (w w' : World X) :
    (Runs (isEquivType E n gt pred (some s%"Set") verbose) w true w' →
      (∃ a b v u, Runs (possibleTuple E (isEquivStr E n) (preSet a) (preSet b) false) u v w') ∨
      ∃ u, Runs (isEquiv E n (some gt) (some pred) verbose) u true w') ∧
    (Runs (isEquivType E n gt pred (some s%"Vector") verbose) w true w' →
      (∃ a b v u, Runs (possibleTuple E (isEquivStr E n) (preVector a) (preVector b) false) u v w') ∨
      ∃ u, Runs (isEquiv E n (some gt) (some pred) verbose) u true w') := by
  have key : ∀ (check : Str → Str → M X Verdict) (pre : Str → Str) (t : Str),
      (checksLoop (some t) gt pred (equivChecks E n) = do
        let v ← check gt pred
        if v.truthy then pure true else pure false) →
      (check gt pred = do
        let a ← stringNormalize E n gt
        let b ← stringNormalize E n pred
        let a ← a.needStr
        let b ← b.needStr
        M.tryExcept (do
          let (r, s) ← possibleTuple E (isEquivStr E n) (pre a) (pre b) false
          pure (.pair r s)) (fun _ => pure (.bool false))) →
      Runs (isEquivType E n gt pred (some t) verbose) w true w' →
      (∃ a b v u, Runs (possibleTuple E (isEquivStr E n) (pre a) (pre b) false) u v w') ∨
      ∃ u, Runs (isEquiv E n (some gt) (some pred) verbose) u true w' := by
    intro check pre t h1 h2 h
    unfold isEquivType Runs at h
    rw [bind_iff] at h
    obtain ⟨c, w₁, h3, h4⟩ := h
    cases c with
    | false => exact .inr ⟨w₁, h4⟩
    | true =>
      simp only [Runs, if_true, M.pure_run, Prod.mk.injEq, true_and] at h4
      subst h4
      left
      rw [h1] at h3
      unfold Runs at h3
      rw [bind_iff] at h3
      obtain ⟨v, w₂, h5, h6⟩ := h3
      have hv : v.truthy = true ∧ w₂ = w₁ := by
        cases hv : v.truthy with
        | false => simp [Runs, hv] at h6
        | true => simp [Runs, hv] at h6; simp [h6]
      obtain ⟨hv, rfl⟩ := hv
      rw [h2] at h5
      unfold Runs at h5
      rw [bind_iff] at h5
      obtain ⟨a, u₁, _, h5⟩ := h5
      unfold Runs at h5
      rw [bind_iff] at h5
      obtain ⟨b, u₂, _, h5⟩ := h5
      unfold Runs at h5
      rw [bind_iff] at h5
      obtain ⟨a, u₃, _, h5⟩ := h5
      unfold Runs at h5
      rw [bind_iff] at h5
      obtain ⟨b, u₄, _, h5⟩ := h5
      unfold Runs at h5
      rw [M.tryExcept_run] at h5
      refine ⟨a, b, ?_⟩
      cases hp : possibleTuple E (isEquivStr E n) (pre a) (pre b) false u₄ with
      | mk r u₅ =>
        cases r with
        | error e =>
          simp [hp] at h5
          rw [← h5.1] at hv; simp [Verdict.truthy] at hv
        | ok p =>
          simp [hp] at h5
          exact ⟨p, u₄, by unfold Runs; rw [hp, h5.2]⟩
  refine ⟨key (isEquivSet E n) preSet s%"Set" ?_ rfl, key (isEquivVector E n) preVector s%"Vector" ?_ rfl⟩
  · simp [checksLoop, equivChecks, show contains s%"Complex" s%"Set" = false by decide,
      show contains s%"Set" s%"Set" = true by decide, show contains s%"Vector" s%"Set" = false by decide,
      show contains s%"Function" s%"Set" = false by decide]
  · simp [checksLoop, equivChecks, show contains s%"Complex" s%"Vector" = false by decide,
      show contains s%"Set" s%"Vector" = false by decide, show contains s%"Vector" s%"Vector" = true by decide,
      show contains s%"Function" s%"Vector" = false by decide]

/-! ### C52 -/

/-- **C52** fails: with the default type `None` every call raises `TypeError`, for all answers; and an answer with
several readings (here a percentage) raises `AttributeError` for the four special types. -/
theorem C52_refuted :
    (∀ (E : Env X V S) n gt pred verbose w,
      isEquivType E n gt pred none verbose w = (.error .typeError, w)) ∧
    (∀ t ∈ [s%"Complex", s%"Set", s%"Vector"],
      (isEquivType ratEnv 9 s%"50\\%" s%"1/2" (some t) false ⟨(), []⟩).1 = .error .attributeError) := by
  refine ⟨fun E n gt pred verbose w => rfl, ?_⟩
  decide +kernel

/-- The normal form is a single string. -/
def OneReading (E : Env X V S) (n : Nat) (s : Str) : Prop :=
  ∀ w r w', Runs (stringNormalize E n s) w r w' → ∃ t, r = .str t

theorem bind_total' {α β : Type} {x : M X α} {f : α → M X β} (P : α → Prop) (hx : Total x)
    (hP : ∀ w a w', Runs x w a w' → P a) (hf : ∀ a, P a → Total (f a)) : Total (x >>= f) := by
  intro w
  obtain ⟨a, w₁, h1⟩ := hx w
  obtain ⟨b, w₂, h2⟩ := hf a (hP w a w₁ h1) w₁
  exact ⟨b, w₂, by simp [h1, h2]⟩

/-- What holds of **C52**: with a type given as a string and answers with a single reading (also after replacing the
imaginary unit), `is_equiv_type` returns. -/
theorem C52_total_partial (E : Env X V S) (n : Nat) (gt pred t : Str) (verbose : Bool)
    (h1 : OneReading E (n + 2) gt) (h2 : OneReading E (n + 2) pred)
    (h3 : OneReading E (n + 2) (strToComplex E.U gt)) (h4 : OneReading E (n + 2) (strToComplex E.U pred)) :
    Total (isEquivType E (n + 2) gt pred (some t) verbose) := by
  have eqT : ∀ a b v, Total (isEquivStr E (n + 2) a b v) := fun a b v =>
    C03_is_equiv_total E n (some a) (some b) v
  have pureT : ∀ {α : Type} (a : α), Total (pure a : M X α) := fun a w => ⟨a, w, rfl⟩
  have nT := C17_string_normalize_total E (n + 1)
  have needT : ∀ s, Total (Norm.needStr (X := X) (.str s)) := fun s => pureT s
  have tryT : ∀ {α : Type} (m : M X α) (a : α), Total (M.tryExcept m fun _ => pure a) := fun m a =>
    tryExcept_total m _ fun _ => pureT a
  have pt : ∀ s, Total (tryToParseFunction E s) := by
    intro s
    unfold tryToParseFunction
    split
    · exact tryT _ _
    · exact pureT _
  have checks : ∀ p ∈ equivChecks E (n + 2), Total (p.2 gt pred) := by
    intro p hp
    simp only [equivChecks, List.mem_cons, List.not_mem_nil, or_false] at hp
    rcases hp with rfl | rfl | rfl | rfl
    · refine bind_total' (fun r => ∃ t, r = .str t) (nT _) h3 ?_
      rintro _ ⟨s, rfl⟩
      refine bind_total _ _ (needT s) fun a => ?_
      refine bind_total' (fun r => ∃ t, r = .str t) (nT _) h4 ?_
      rintro _ ⟨s, rfl⟩
      refine bind_total _ _ (needT s) fun b => ?_
      exact bind_total _ _ (tryT _ _) fun _ => pureT _
    · refine bind_total' (fun r => ∃ t, r = .str t) (nT _) h1 ?_
      rintro _ ⟨s, rfl⟩
      refine bind_total' (fun r => ∃ t, r = .str t) (nT _) h2 ?_
      rintro _ ⟨s', rfl⟩
      exact bind_total _ _ (needT s) fun a => bind_total _ _ (needT s') fun b => tryT _ _
    · refine bind_total' (fun r => ∃ t, r = .str t) (nT _) h1 ?_
      rintro _ ⟨s, rfl⟩
      refine bind_total' (fun r => ∃ t, r = .str t) (nT _) h2 ?_
      rintro _ ⟨s', rfl⟩
      exact bind_total _ _ (needT s) fun a => bind_total _ _ (needT s') fun b => tryT _ _
    · refine bind_total _ _ (eqT _ _ _) fun b => ite_total _ _ _ (pureT _) ?_
      refine bind_total' (fun r => ∃ t, r = .str t) (nT _) h1 ?_
      rintro _ ⟨s, rfl⟩
      refine bind_total' (fun r => ∃ t, r = .str t) (nT _) h2 ?_
      rintro _ ⟨s', rfl⟩
      refine bind_total _ _ (needT s) fun a => bind_total _ _ (pt _) fun a => ?_
      refine bind_total _ _ (needT s') fun b => bind_total _ _ (pt _) fun b => ?_
      exact bind_total _ _ (eqT _ _ _) fun _ => pureT _
  have loop : ∀ l : List (Str × (Str → Str → M X Verdict)), (∀ p ∈ l, Total (p.2 gt pred)) →
      Total (checksLoop (some t) gt pred l) := by
    intro l
    induction l with
    | nil => intro _; exact pureT _
    | cons p l ih =>
      intro h
      obtain ⟨name, check⟩ := p
      have ih := ih fun q hq => h q (by simp [hq])
      unfold checksLoop
      refine ite_total _ _ _ ?_ ih
      exact bind_total _ _ (h (name, check) (by simp)) fun v => ite_total _ _ _ (pureT _) ih
  exact bind_total _ _ (loop _ checks) fun b => ite_total _ _ _ (pureT _) (eqT _ _ _)

example : OneReading failEnv 5 s%"1" := by
  intro w r w' h
  unfold Runs at h
  have : stringNormalize failEnv 5 s%"1" w = (.ok (.str s%"1"), w) := by kernel_rfl
  rw [this] at h
  simp at h
  exact ⟨_, h.1.symm⟩

/-! ### C53 -/

theorem find_eq (l r : Str) (h : '=' ∉ l) : find s%"=" (l ++ '=' :: r) = some l.length := by
  induction l with
  | nil => simp [find]
  | cons c cs ih =>
    simp only [List.mem_cons, not_or] at h
    simp [find, h.1, ih h.2]

/-- The right-hand side is taken. -/
theorem tryToParseFunction_eq (E : Env X V S) (l r : Str) (f g : V) (h : '=' ∉ l) (hl : l ≠ [])
    (hf : Ret (E.l2s l) f) (hg : Ret (E.inv f) g) : Always (tryToParseFunction E (l ++ '=' :: r)) r := by
  unfold tryToParseFunction
  rw [find_eq l r h]
  cases hk : l.length with
  | zero => exact absurd (List.length_eq_zero_iff.1 hk) hl
  | succ k =>
    simp only
    rw [← hk]
    have e1 : (l ++ '=' :: r).take l.length = l := by simp
    have e2 : (l ++ '=' :: r).drop (k + 2) = r := by
      have : k + 2 = l.length + 1 := by omega
      rw [this, List.drop_append]
      simp
    rw [e1, e2]
    exact Always.tryExcept (hf.always.bind (hg.always.bind (Always.pure r))) _

/-- **C53**.  Type `Function`: if the normal forms are `l = r` and `l' = r'` where the left-hand sides parse (and can be
inverted), and `r`, `r'` are accepted by `is_equiv`, the answers are accepted. -/
theorem C53_right_hand_sides (E : Env X V S) (n : Nat) (gt pred l r l' r' : Str) (verbose : Bool)
    (ha : Always (stringNormalize E (n + 2) gt) (.str (l ++ '=' :: r)))
    (hb : Always (stringNormalize E (n + 2) pred) (.str (l' ++ '=' :: r')))
    (hl : '=' ∉ l) (hl0 : l ≠ []) (hl' : '=' ∉ l') (hl0' : l' ≠ []) (f g f' g' : V)
    (hf : Ret (E.l2s l) f) (hg : Ret (E.inv f) g) (hf' : Ret (E.l2s l') f') (hg' : Ret (E.inv f') g')
    (hr : Always (isEquiv E (n + 2) (some r) (some r') false) true) :
    Always (isEquivType E (n + 2) gt pred (some s%"Function") verbose) true := by
  have hr : Always (isEquivStr E (n + 2) r r' false) true := hr
  have hfun : Always (isEquivFunction E (n + 2) gt pred) (.bool true) := by
    intro w
    obtain ⟨b, w₁, h1⟩ := C03_is_equiv_total E n (some gt) (some pred) false w
    have h1 : isEquivStr E (n + 2) gt pred false w = (.ok b, w₁) := h1
    cases b with
    | true => exact ⟨w₁, by simp [isEquivFunction, h1]⟩
    | false =>
      have rest : Always (do
          let a ← stringNormalize E (n + 2) gt
          let b ← stringNormalize E (n + 2) pred
          let a ← a.needStr
          let a ← tryToParseFunction E a
          let b ← b.needStr
          let b ← tryToParseFunction E b
          let r ← isEquivStr E (n + 2) a b false
          pure (Verdict.bool r)) (.bool true) := by
        apply ha.bind
        apply hb.bind
        apply Always.bind (a := l ++ '=' :: r) (Always.pure _)
        apply (tryToParseFunction_eq E l r f g hl hl0 hf hg).bind
        apply Always.bind (a := l' ++ '=' :: r') (Always.pure _)
        apply (tryToParseFunction_eq E l' r' f' g' hl' hl0' hf' hg').bind
        exact hr.bind (Always.pure _)
      obtain ⟨w₂, h2⟩ := rest w₁
      refine ⟨w₂, ?_⟩
      unfold isEquivFunction
      rw [M.bind_run, h1]
      exact h2
  apply Always.bind (a := true)
  · have : checksLoop (some s%"Function") gt pred (equivChecks E (n + 2)) =
        (isEquivFunction E (n + 2) gt pred >>= fun v => if v.truthy then pure true else pure false) := by
      simp [checksLoop, equivChecks, show contains s%"Complex" s%"Function" = false by decide,
        show contains s%"Set" s%"Function" = false by decide, show contains s%"Vector" s%"Function" = false by decide,
        show contains s%"Function" s%"Function" = true by decide]
    rw [this]
    exact hfun.bind (Always.pure _)
  · exact Always.pure _

/-- `7=5` and `8=5.001` with type `Function`: the left-hand sides differ, the right-hand sides are accepted. -/
example : Always (isEquivType ratEnv 9 s%"7=5" s%"8=5.001" (some s%"Function") false) true :=
  C53_right_hand_sides ratEnv 7 _ _ s%"7" s%"5" s%"8" s%"5.001" false (fun w => ⟨w, by kernel_rfl⟩)
    (fun w => ⟨w, by kernel_rfl⟩) (by decide) (by decide) (by decide) (by decide) (.num 7) (.num (1 / 7)) (.num 8)
    (.num (1 / 8)) (fun x => ⟨x, by kernel_rfl⟩) (fun x => ⟨x, by kernel_rfl⟩) (fun x => ⟨x, by kernel_rfl⟩)
    (fun x => ⟨x, by kernel_rfl⟩) (fun w => ⟨w, by kernel_rfl⟩)

/-! ### C54 -/

/-- The text put in place of the imaginary unit. -/
def imagText : Str := s%"\\sqrt{-1}"

/-- An `i` between these neighbours is taken as the imaginary unit: neither is a word character, or the one before is
a digit. -/
def IsUnit (U : Uni) (before after : Option Char) : Prop :=
  ((∀ c, before = some c → isWord U c = false) ∧ (∀ c, after = some c → isWord U c = false)) ∨
  ∃ c, before = some c ∧ isDigit U c = true

open Classical in
/-- Replace exactly the units. -/
noncomputable def markUnits (U : Uni) (before : Option Char) : Str → Str
  | [] => []
  | c :: cs => (if c = 'i' ∧ IsUnit U before cs.head? then imagText else [c]) ++ markUnits U (some c) cs

theorem run_behind (neg : Bool) (p : Char → Bool) (s : RSt) : (Re.behind neg p).run s =
    if (match s.pre with | c :: _ => p c | [] => false) != neg then [s] else [] := rfl
theorem run_ahead (neg : Bool) (p : Char → Bool) (s : RSt) : (Re.ahead neg p).run s =
    if (match s.rest with | c :: _ => p c | [] => false) != neg then [s] else [] := rfl

theorem complexRe_run (U : Uni) (hU : ∀ c, isSpace c = true → isWord U c = false) (pre cs : Str) :
    (IsUnit U pre.head? cs.head? → (complexRe U).matchAt pre ('i' :: cs) = some ⟨'i' :: pre, cs, []⟩) ∧
    (¬ IsUnit U pre.head? cs.head? → (complexRe U).matchAt pre ('i' :: cs) = none) := by
  have hd : ∀ c, isDigit U c = true → isWord U c = true := by
    intro c hc
    unfold isDigit isWord at *
    split <;> simp_all
  unfold Re.matchAt complexRe
  simp only [Re.alts, Re.cat, run_alt, run_seq, run_behind, Re.c]
  cases pre with
  | nil =>
    cases cs with
    | nil => simp [IsUnit, run_ahead]
    | cons d ds =>
      simp only [IsUnit, List.head?_nil, List.head?_cons]
      rcases Bool.eq_false_or_eq_true (isWord U d) with h1 | h1 <;> simp [h1, run_ahead]
  | cons p ps =>
    cases cs with
    | nil =>
      simp only [IsUnit, List.head?_nil, List.head?_cons]
      rcases Bool.eq_false_or_eq_true (isWord U p) with h1 | h1 <;> rcases Bool.eq_false_or_eq_true (isDigit U p) with h2 | h2 <;>
        rcases Bool.eq_false_or_eq_true (isSpace p) with h3 | h3 <;> simp [h1, h2, h3, run_ahead]
    | cons d ds =>
      simp only [IsUnit, List.head?_cons]
      have a1 := hU p
      have a2 := hU d
      have a3 := hd p
      rcases Bool.eq_false_or_eq_true (isWord U p) with h1 | h1 <;> rcases Bool.eq_false_or_eq_true (isDigit U p) with h2 | h2 <;> rcases Bool.eq_false_or_eq_true (isWord U d) with h3 | h3 <;> rcases Bool.eq_false_or_eq_true (isSpace p) with h4 | h4 <;>
        rcases Bool.eq_false_or_eq_true (isSpace d) with h5 | h5 <;> simp_all [run_ahead]

theorem complexRe_other (U : Uni) (pre s : Str) (h : s.head? ≠ some 'i') : (complexRe U).matchAt pre s = none := by
  unfold Re.matchAt complexRe
  simp only [Re.alts, Re.cat, run_alt, run_seq, run_behind, Re.c]
  cases s with
  | nil => simp
  | cons c cs =>
    have : (c == 'i') = false := by simpa using h
    simp [this]

theorem reSub_complex (U : Uni) (hU : ∀ c, isSpace c = true → isWord U c = false) (pre s : Str) :
    scanSub ((complexRe U).scanner fun _ _ => imagText) 0 pre s = markUnits U pre.head? s := by
  induction s generalizing pre with
  | nil => simp [scanSub, Re.scanner, complexRe_other U pre [] (by simp), markUnits]
  | cons c cs ih =>
    by_cases hc : c = 'i'
    · subst hc
      obtain ⟨h1, h2⟩ := complexRe_run U hU pre cs
      by_cases hu : IsUnit U pre.head? cs.head?
      · simp [scanSub, Re.scanner, h1 hu, markUnits, hu, ih]
      · simp [scanSub, Re.scanner, h2 hu, markUnits, hu, ih]
    · have := complexRe_other U pre (c :: cs) (by simpa using hc)
      simp [scanSub, Re.scanner, this, markUnits, hc, ih]

theorem replace_one (x : Char) (new s : Str) : replace [x] new s = s.flatMap fun c => if c = x then new else [c] := by
  induction s with
  | nil => simp [replace_nil]
  | cons c cs ih =>
    by_cases h : c = x
    · subst h
      have := replace_match [c] new cs (by simp)
      simp only [List.singleton_append] at this
      simp [this, ih]
    · rw [replace_cons new c cs (by simpa using fun e => h e.symm), ih]
      simp [h]

/-- **C54**.  Every `I` is replaced; if there is none, exactly the `i`s that stand between non-word characters or directly
after a digit; a text without either letter is unchanged.  (White space is never a word character.) -/
theorem C54_imaginary_unit (U : Uni) (hU : ∀ c, isSpace c = true → isWord U c = false) (s : Str) :
    ('I' ∈ s → strToComplex U s = s.flatMap fun c => if c = 'I' then imagText else [c]) ∧
    ('I' ∉ s → strToComplex U s = markUnits U none s) ∧
    ('I' ∉ s → 'i' ∉ s → strToComplex U s = s) := by
  have c1 : ∀ (x : Char) (s : Str), contains [x] s = true ↔ x ∈ s := by
    intro x s
    rw [contains_iff]
    constructor
    · intro h; exact h.subset (by simp)
    · intro h
      obtain ⟨u, v, e⟩ := List.append_of_mem h
      exact ⟨u, v, by rw [e]; simp⟩
  have nomark : ∀ (p : Option Char) (s : Str), 'i' ∉ s → markUnits U p s = s := by
    intro p s
    induction s generalizing p with
    | nil => intro _; rfl
    | cons c cs ih =>
      intro h
      simp only [List.mem_cons, not_or] at h
      have : ¬ c = 'i' := fun e => h.1 e.symm
      simp [markUnits, this, ih _ h.2]
  refine ⟨?_, ?_, ?_⟩
  · intro h
    unfold strToComplex
    rw [if_pos ((c1 'I' s).2 h), replace_one]; rfl
  · intro h
    unfold strToComplex
    rw [if_neg (by rw [c1]; exact h)]
    by_cases hi : 'i' ∈ s
    · rw [if_pos ((c1 'i' s).2 hi)]
      exact reSub_complex U hU [] s
    · rw [if_neg (by rw [c1]; exact hi), nomark none s hi]
  · intro h hi
    unfold strToComplex
    rw [if_neg (by rw [c1]; exact h), if_neg (by rw [c1]; exact hi)]

example : strToComplex asciiUni s%"2+3i*sin(x)+i" = s%"2+3\\sqrt{-1}*sin(x)+\\sqrt{-1}" := by decide +kernel
example : ∀ c, isSpace c = true → isWord asciiUni c = false := by
  intro c h
  unfold isSpace at h
  simp only [decide_eq_true_eq] at h
  unfold isWord
  split
  · have hu : (c == '_') = false := by
      rw [beq_eq_false_iff_ne]; rintro rfl; simp at h
    simp only [hu, Bool.or_false, Bool.or_eq_false_iff, asciiDigit, asciiAlpha, asciiLower, asciiUpper,
      decide_eq_false_iff_not]
    omega
  · rfl

end Verif
