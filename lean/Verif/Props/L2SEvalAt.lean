import Verif.Props.ReadingFunctions
/-
Evaluation bars (C79): `e|^{x=b}_{x=a}`.
-/

namespace Verif.L2S
open Verif Verif.Grammar

section
variable {K : Type} [Field K] [CharZero K] (I : Interp K) {Y : Type} (L : Lib Y)

/-- SymPy's `subs` on expressions for the function `f`, at points of the set `S` on which they are
defined: the result is an expression for the value of `f`. -/
def SubsAt (i : Str) (S : K → Prop) (f : K → K) : Prop :=
  ∀ v a : SV, v.scalar = true → (∀ k, S k → den (I.upd i I.real k) v = f k) → a.scalar = true →
    S (den I a) → ∀ y, ∃ u y', L.call s%"subs" [v, .sym i I.real, a] y = (.ok u, y') ∧
      u.scalar = true ∧ den I u = f (den I a)

/-- One limit of the bar: `x=a` as a tree, with the value of the substituted expression. -/
theorem convAt_equation {i : Str} {S : K → Prop} {f : K → K} (hs : SubsAt I L i S f)
    (hL : SoundLib I L) (rec : Str → List (Str × PV) → M (St Y) SV) {free : Str → Prop} {var a : T}
    {p : K} (hv : VarTree free var i) (ha : Means I free a p) (hp : S p) {v : SV}
    (h1 : v.scalar = true) (h2 : ∀ k, S k → den (I.upd i I.real k) v = f k) (w : World (St Y))
    (hw : Ready I free w) :
    ∃ u w', convAt L rec v (some (.eqn var a)) w = (.ok (some u), w') ∧ u.scalar = true ∧
      den I u = f p ∧ SameG w.ext.g w'.ext.g ∧ w'.out = w.out := by
  obtain ⟨av, w1, a1, a2, a3, a4, a5⟩ := conv_means rec ha hL w hw
  obtain ⟨u, w2, u1, u2, u3, u4, u5⟩ := yields_ev I (L := L) (f := s%"subs")
    (args := [v, .sym i I.real, av]) (w := w1) (x := f p)
    fun y => by have := hs v av h1 h2 a2 (by rw [a3]; exact hp) y; rwa [a3] at this
  refine ⟨u, w2, ?_, u2, u3, a4.trans u4, u5.trans a5⟩
  have hb : v.isBasic = true := by cases v <;> simp_all [SV.scalar, SV.isBasic]
  rw [convAt]
  simp only [M.bind_run, conv_varTree I L rec hv hw, a1, hb, if_true, u1]
  rfl

omit [CharZero K] in
/-- From the tree to the text. -/
theorem latex2sympy_yields (n : Nat) (s : Str) (vals : List (Str × PV)) {t : T} {x : K}
    {free : Str → Prop} (hp : L.parse (prepare s) = .ok (.one (.juxt [t])))
    (h : ∀ w, Ready I free w → Yields I (conv L (latex2sympy L n) t) w x) (w : World (St Y))
    (hw : Ready I free w) :
    ∃ v w', latex2sympy L (n + 1) s vals w = (.ok v, w') ∧ v.scalar = true ∧ den I v = x := by
  let w0 : World (St Y) := ⟨⟨{ w.ext.g with fracType := fracTypeOf s w.ext.g.fracType, values := vals },
    w.ext.lib⟩, w.out⟩
  have : Yields I (conv L (latex2sympy L n) (.juxt [t])) w0 x := by
    rw [conv, convJuxt]
    refine (h w0 hw).bind I fun v w1 hv hd _ _ => ?_
    rw [postKind_scalar hv]
    exact (yields_of_gives I (gives_pure I hv) w1).of_eq I hd
  obtain ⟨v, w', h1, h2, h3, -, -⟩ := this
  refine ⟨v, w', ?_, h2, h3⟩
  rw [latex2sympy]
  simp only [M.bind_run, modG, M.ext, M.lift_run, hp]
  exact h1

variable {I L}

/-- **C79**, where both limits name the variable and the upper one is written first.
`e|^{x=b}_{x=a}` is the difference of the values of `e` at `b` and at `a`. -/
theorem C79_difference_partial (hL : SoundLib I L) {i : Str} {S : K → Prop} {f : K → K}
    (hs : SubsAt I L i S f) {free : Str → Prop} {e x₁ x₂ a b : T} {p q : K}
    (he : ∀ k, S k → Means (I.upd i I.real k) free e (f k)) (hx₁ : VarTree free x₁ i)
    (hx₂ : VarTree free x₂ i) (ha : Means I free a p) (hb : Means I free b q) (hp : S p) (hq : S q)
    (n : Nat) (s : Str) (vals : List (Str × PV))
    (ht : L.parse (prepare s) = .ok (.one (.juxt [.evalAt e (some (.eqn x₁ b)) (some (.eqn x₂ a))])))
    (w : World (St Y)) (hw : Ready I free w) :
    ∃ v w', latex2sympy L (n + 1) s vals w = (.ok v, w') ∧ v.scalar = true ∧ den I v = f q - f p := by
  refine latex2sympy_yields I L n s vals ht (fun w hw => ?_) w hw
  obtain ⟨v, w1, v1, v2, v3, v4, v5⟩ := yields_family hp fun k hk =>
    conv_means (latex2sympy L n) (he k hk) (hL.upd _ _ _) w (hw.upd _ _ _)
  obtain ⟨bv, w2, b1, b2, b3, b4, b5⟩ := convAt_equation I L hs hL (latex2sympy L n) hx₁ hb hq v2 v3 w1
    (hw.keep v4)
  obtain ⟨av, w3, a1, a2, a3, a4, a5⟩ := convAt_equation I L hs hL (latex2sympy L n) hx₂ ha hp v2 v3 w2
    ((hw.keep v4).keep b4)
  obtain ⟨nv, n1, n2, n3⟩ := gives_mulFlat I L (l := av) (r := .num (-1)) a2 rfl
  obtain ⟨r, r1, r2, r3⟩ := gives_addFlat I L (l := bv) (r := nv) b2 n2
  refine ⟨r, w3, ?_, r2, ?_, (v4.trans b4).trans a4, a5.trans (b5.trans v5)⟩
  · rw [conv]
    simp only [M.bind_run, v1, b1, a1, evalAtEnds, n1, M.pure_run, r1]
  · rw [r3, n3, b3, a3, den]
    push_cast
    ring

/-- **C79** for one limit: `e|_{x=a}` is the value of `e` at `a`. -/
theorem C79_value_partial (hL : SoundLib I L) {i : Str} {S : K → Prop} {f : K → K}
    (hs : SubsAt I L i S f) {free : Str → Prop} {e x₁ a : T} {p : K}
    (he : ∀ k, S k → Means (I.upd i I.real k) free e (f k)) (hx₁ : VarTree free x₁ i)
    (ha : Means I free a p) (hp : S p) (n : Nat) (s : Str) (vals : List (Str × PV))
    (ht : L.parse (prepare s) = .ok (.one (.juxt [.evalAt e none (some (.eqn x₁ a))])))
    (w : World (St Y)) (hw : Ready I free w) :
    ∃ v w', latex2sympy L (n + 1) s vals w = (.ok v, w') ∧ v.scalar = true ∧ den I v = f p := by
  refine latex2sympy_yields I L n s vals ht (fun w hw => ?_) w hw
  obtain ⟨v, w1, v1, v2, v3, v4, v5⟩ := yields_family hp fun k hk =>
    conv_means (latex2sympy L n) (he k hk) (hL.upd _ _ _) w (hw.upd _ _ _)
  obtain ⟨av, w3, a1, a2, a3, a4, a5⟩ := convAt_equation I L hs hL (latex2sympy L n) hx₁ ha hp v2 v3 w1
    (hw.keep v4)
  refine ⟨av, w3, ?_, a2, a3, v4.trans a4, a5.trans v5⟩
  rw [conv]
  have hn : convAt L (latex2sympy L n) v none w1 = (.ok none, w1) := by rw [convAt]; rfl
  simp only [M.bind_run, v1, hn, a1, evalAtEnds, M.pure_run]

/-- **C79**, limits that do not name the variable.  If the limits contain no symbol they are ignored:
`e|^{b}_{a}` is the difference of `e` and itself, whatever `e`, `a` and `b` are. -/
theorem C79_unnamed (hL : SoundLib I L) {free : Str → Prop} {e : T} {x : K} {as bs : Str} {p q : ℚ}
    (hat : ∀ (r : ℚ) y, ∃ y', L.call s%"atoms" [.num r] y = (.ok (.list []), y'))
    (he : Means I free e x) (ha : Decimal as p) (hb : Decimal bs q)
    (n : Nat) (s : Str) (vals : List (Str × PV))
    (ht : L.parse (prepare s) = .ok (.one (.juxt [.evalAt e (some (.juxt [.number bs]))
      (some (.juxt [.number as]))])))
    (w : World (St Y)) (hw : Ready I free w) :
    ∃ v w', latex2sympy L (n + 1) s vals w = (.ok v, w') ∧ v.scalar = true ∧ den I v = 0 := by
  refine latex2sympy_yields I L n s vals ht (fun w hw => ?_) w hw
  obtain ⟨v, w1, v1, v2, v3, v4, v5⟩ := conv_means (latex2sympy L n) he hL w hw
  have part : ∀ {cs : Str} {r : ℚ}, Decimal cs r → ∀ w : World (St Y), ∃ w',
      convAt L (latex2sympy L n) v (some (.juxt [.number cs])) w = (.ok (some v), w') ∧
      SameG w.ext.g w'.ext.g ∧ w'.out = w.out := by
    intro cs r hc w
    obtain ⟨y', hy⟩ := hat r w.ext.lib
    refine ⟨⟨⟨w.ext.g, y'⟩, w.out⟩, ?_, SameG.refl _, rfl⟩
    have c1 : conv L (latex2sympy L n) (.juxt [.number cs]) w = (.ok (.num r), w) := by
      rw [conv, convJuxt, conv, numberOf_some L (ratOfText_decimal hc)]
      rfl
    rw [convAt]
    · simp only [M.bind_run, c1, substExpr]
      simp only [Lib.ev, libExt, M.ext, hy]
      rfl
    · intro l r h; cases h
  obtain ⟨w2, b1, b4, b5⟩ := part hb w1
  obtain ⟨w3, a1, a4, a5⟩ := part ha w2
  obtain ⟨nv, n1, n2, n3⟩ := gives_mulFlat I L (l := v) (r := .num (-1)) v2 rfl
  obtain ⟨r, r1, r2, r3⟩ := gives_addFlat I L (l := v) (r := nv) v2 n2
  refine ⟨r, w3, ?_, r2, ?_, (v4.trans b4).trans a4, a5.trans (b5.trans v5)⟩
  · rw [conv]
    simp only [M.bind_run, v1, b1, a1, evalAtEnds, n1, M.pure_run, r1]
  · rw [r3, n3, den]
    push_cast
    ring

end

/-! ### Texts -/

/-- The library of C62 with the parser of the model and `atoms`. -/
def barLib : Lib Unit :=
  { textLib with
    call := fun f args y =>
      match args with
      | [.num q] => if f = s%"atoms" then (.ok (.list []), y) else textLib.call f [.num q] y
      | args => textLib.call f args y }

theorem barLib_call {f : Str} (h : f ≠ s%"atoms") (args : List SV) (y : Unit) :
    barLib.call f args y = textLib.call f args y := by
  simp only [barLib]
  split <;> simp [h]

theorem barLib_parse {s : Str} {t : MathTree} (hs : prepare s = s) (h : parseText s = some t) :
    barLib.parse (prepare s) = .ok t := by
  rw [hs]
  exact textLib_parse s t h

theorem barLib_sound (σ : Str → Option Bool → ℝ) (r : Option Bool) :
    SoundLib (realInterp σ r) barLib where
  call τ f hf args h y := by
    rw [barLib_call (by simp only [List.mem_cons, List.not_mem_nil, or_false] at hf
                        rcases hf with rfl | rfl <;> decide)]
    exact (nodeLib_sound σ r _).call τ f hf args h y
  inv τ a h h0 y := by
    rw [barLib_call (by decide)]
    exact (nodeLib_sound σ r _).inv τ a h h0 y
  bind τ {f args op n r b as} hc hb has y := by
    rw [barLib_call (by cases hc <;> decide)]
    exact (nodeLib_sound σ _ _).bind τ hc hb has y

theorem barLib_subs (σ : Str → Option Bool → ℝ) (r : Option Bool) (i : Str) (S : ℝ → Prop)
    (f : ℝ → ℝ) : SubsAt (realInterp σ r) barLib i S f := by
  intro v a hv hf ha hp y
  refine ⟨.binder s%"Subs" i r v [a], y, ?_, by simp [SV.scalar, SV.boundsOk, hv, ha], ?_⟩
  · rw [barLib_call (by decide)]
    simp [textLib, nodeLib, binderNode, realInterp]
  · have h2 := hf _ hp
    simp only [den, denBounds, boundOf_scalar ha]
    simpa [realInterp, realBinder] using h2

/-- the variable of the texts -/
abbrev xVar : T := .juxt [.name (.letter s%"x") none none]

theorem xVar_tree : VarTree (fun _ => True) xVar s%"x" := .one (.name (.letter (by decide)) trivial)

/-- the square of `x` as it is parsed -/
abbrev xSquared : T := .name (.letter s%"x") none (some (.number s%"2"))

theorem xSquared_means (k x : ℝ) :
    Means ((realAt x).upd s%"x" none k) (fun _ => True) xSquared (k ^ (2 : ℝ)) := by
  have := Means.namePow (I := (realAt x).upd s%"x" none k) (free := fun _ => True)
    (SymbolName.letter (t := s%"x") (by decide)) trivial (.number dec_two)
  simpa [Interp.var, Interp.upd, Interp.at, realInterp] using this

/-- The hypotheses of `C79_difference_partial` are met by `x^2|^{x=2}_{x=1}`, of value 3. -/
example : ∃ v w', latex2sympy barLib 1 s%"x^2|^{x=2}_{x=1}" [] startWorld = (.ok v, w') ∧
    v.scalar = true ∧ den (realAt 0) v = 3 := by
  have ht : parseText s%"x^2|^{x=2}_{x=1}" = some (.one (.juxt [.evalAt xSquared
      (some (.eqn xVar (.juxt [.number s%"2"]))) (some (.eqn xVar (.juxt [.number s%"1"])))])) := by
    kernel_rfl
  have := C79_difference_partial (I := realAt 0) (L := barLib) (barLib_sound _ none)
    (S := fun _ => True) (barLib_subs _ none s%"x" _ fun k => k ^ (2 : ℝ))
    (fun k _ => xSquared_means k 0) xVar_tree xVar_tree
    (.one (.number dec_one)) (.one (.number dec_two)) trivial trivial 0 s%"x^2|^{x=2}_{x=1}" []
    (barLib_parse (by decide +kernel) ht) startWorld ⟨rfl, fun _ _ => rfl⟩
  obtain ⟨v, w, h1, h2, h3⟩ := this
  exact ⟨v, w, h1, h2, by rw [h3]; norm_num⟩

/-- The hypotheses of `C79_value_partial` are met by `x^2|_{x=2}`, of value 4. -/
example : ∃ v w', latex2sympy barLib 1 s%"x^2|_{x=2}" [] startWorld = (.ok v, w') ∧
    v.scalar = true ∧ den (realAt 0) v = 4 := by
  have ht : parseText s%"x^2|_{x=2}" = some (.one (.juxt [.evalAt xSquared none
      (some (.eqn xVar (.juxt [.number s%"2"])))])) := by
    kernel_rfl
  have := C79_value_partial (I := realAt 0) (L := barLib) (barLib_sound _ none)
    (S := fun _ => True) (barLib_subs _ none s%"x" _ fun k => k ^ (2 : ℝ))
    (fun k _ => xSquared_means k 0) xVar_tree (.one (.number dec_two)) trivial 0 s%"x^2|_{x=2}" []
    (barLib_parse (by decide +kernel) ht) startWorld ⟨rfl, fun _ _ => rfl⟩
  obtain ⟨v, w, h1, h2, h3⟩ := this
  exact ⟨v, w, h1, h2, by rw [h3]; norm_num⟩

/-- **C79 is violated** for limits without the variable: `x^2|^{2}_{1}` is converted to an expression of
value 0, whatever the value of `x`; it should be 3. -/
theorem C79_refuted (x : ℝ) :
    ∃ v w', latex2sympy barLib 1 s%"x^2|^{2}_{1}" [] startWorld = (.ok v, w') ∧
      v.scalar = true ∧ den (realAt x) v = 0 := by
  have ht : parseText s%"x^2|^{2}_{1}" = some (.one (.juxt [.evalAt xSquared
      (some (.juxt [.number s%"2"])) (some (.juxt [.number s%"1"]))])) := by kernel_rfl
  have hm : Means (realAt x) (fun _ => True) xSquared (x ^ (2 : ℝ)) := by
    have := Means.namePow (I := realAt x) (free := fun _ => True)
      (SymbolName.letter (t := s%"x") (by decide)) trivial (.number dec_two)
    simpa [Interp.var, realInterp] using this
  exact C79_unnamed (I := realAt x) (L := barLib) (barLib_sound _ none) (fun r y => ⟨y, rfl⟩) hm
    dec_one dec_two 0 s%"x^2|^{2}_{1}" [] (barLib_parse (by decide +kernel) ht) startWorld ⟨rfl, fun _ _ => rfl⟩

/-- **C79 is violated** in the usual order of the limits, lower one first: such a text is not parsed, and
the conversion raises. -/
theorem C79_order_refuted :
    parseText s%"x^2|_{x=1}^{x=2}" = none ∧
      ∀ n, (latex2sympy barLib n s%"x^2|_{x=1}^{x=2}" [] startWorld).1.isOk = false := by
  have h : parseText s%"x^2|_{x=1}^{x=2}" = none := by kernel_rfl
  refine ⟨h, fun n => ?_⟩
  have hp : barLib.parse s%"x^2|_{x=1}^{x=2}" = .error .other := by
    simp only [barLib, textLib, nodeLib, h]
  cases n with
  | zero => rfl
  | succ n =>
    have hq : prepare s%"x^2|_{x=1}^{x=2}" = s%"x^2|_{x=1}^{x=2}" := by decide +kernel
    rw [latex2sympy]
    simp only [M.bind_run, modG, M.ext, M.lift_run, hq, hp]
    rfl

end Verif.L2S
