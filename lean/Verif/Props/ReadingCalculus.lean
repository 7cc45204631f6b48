import Verif.Props.ReadingEnd
import Verif.Props.ReadingFunctions
import Verif.Props.L2SCalculus
/-
Calculus notation, from the text to the value over the real numbers (C85): sums, products, series,
derivatives and limits.
-/

namespace Verif.Grammar
open Verif Verif.L2S Verif.Reading Filter Topology

section
variable {σ : Str → Option Bool → ℝ} {r : Option Bool} {free : Str → Prop} {wide : Style}

/-- `f` is the function of the variable `n` written with the signs `ws`, at the points of `S`. -/
def Writes (σ : Str → Option Bool → ℝ) (r : Option Bool) (free : Str → Prop) (wide : Style) (l : Level)
    (ws : List Sign) (n : Str) (S : Set ℝ) (f : ℝ → ℝ) : Prop :=
  ∀ x ∈ S, Denotes (realInterp (assign σ r n x) r) free wide l ws (f x)

/-- The signs of a sum or product: command, variable, lower and upper bound, body. -/
def bigSigns (nm : Str) (v : Sign) (as bs us : List Sign) : List Sign :=
  .cmd nm :: .mark '_' :: .mark '{' :: v :: .mark '=' :: (as ++ .mark '}' :: .mark '^' :: (bs ++ us))

/-- The signs of a limit: variable, arrow, point (with the side), body. -/
def limSigns (v a : Sign) (as us : List Sign) : List Sign :=
  .cmd s%"lim" :: .mark '_' :: .mark '{' :: v :: a :: (as ++ .mark '}' :: us)

/-- The signs of a side: `^{+}` or `^{-}`. -/
def side (m : Char) : List Sign := [.mark '^', .mark '{', .mark m, .mark '}']

/-- The signs of a derivative: variable and body. -/
def derivSigns (c : Char) (us : List Sign) : List Sign :=
  .cmd s%"frac" :: .mark '{' :: .letter 'd' :: .mark '}' :: .mark '{' :: .diff c :: .mark '}' :: us

/-! ### Values of phrases -/

theorem denotes_sum {v w : Sign} {i : Str} {as bs vs : List Sign} {e : End} {o : Bool} {m n : ℤ}
    {f : ℝ → ℝ} (hv : Variable v i) (hi : free i)
    (ha : Denotes (realInterp σ r) free wide .expr as m)
    (hb : Denotes (realInterp σ r) free wide (.exponent e) bs n) (hw : Follows e w)
    (hf : Writes σ r free wide (.term o) (w :: vs) i (Set.range ((↑) : ℤ → ℝ)) f) :
    Denotes (realInterp σ r) free wide .long (bigSigns s%"sum" v as bs (w :: vs))
      (∑ k ∈ Finset.Icc m n, f k) := by
  refine .sum (op := s%"Sum") (lo := .fin (m : ℝ)) (hi := .fin (n : ℝ))
    (S := Set.range ((↑) : ℤ → ℝ)) (f := f) (k₀ := ((0 : ℤ) : ℝ)) (by decide) hv hi (by rintro y ⟨⟩; exact ha)
    (fun h => absurd rfl (h _)) (by rintro y ⟨⟩; exact hb) (fun h => absurd rfl (h _)) hw ⟨0, rfl⟩ hf ?_
  intro g hg
  rw [realInterp_binder]
  simp only [realBinder, if_true, Int.ceil_intCast, Int.floor_intCast]
  exact Finset.sum_congr rfl fun k _ => hg k ⟨k, rfl⟩

theorem denotes_product {v w : Sign} {i : Str} {as bs vs : List Sign} {e : End} {o : Bool} {m n : ℤ}
    {f : ℝ → ℝ} (hv : Variable v i) (hi : free i)
    (ha : Denotes (realInterp σ r) free wide .expr as m)
    (hb : Denotes (realInterp σ r) free wide (.exponent e) bs n) (hw : Follows e w)
    (hf : Writes σ r free wide (.term o) (w :: vs) i (Set.range ((↑) : ℤ → ℝ)) f) :
    Denotes (realInterp σ r) free wide .long (bigSigns s%"prod" v as bs (w :: vs))
      (∏ k ∈ Finset.Icc m n, f k) := by
  refine .sum (op := s%"Product") (lo := .fin (m : ℝ)) (hi := .fin (n : ℝ))
    (S := Set.range ((↑) : ℤ → ℝ)) (f := f) (k₀ := ((0 : ℤ) : ℝ)) (by decide) hv hi (by rintro y ⟨⟩; exact ha)
    (fun h => absurd rfl (h _)) (by rintro y ⟨⟩; exact hb) (fun h => absurd rfl (h _)) hw ⟨0, rfl⟩ hf ?_
  intro g hg
  rw [realInterp_binder]
  have : (s%"Product" : Str) ≠ s%"Sum" := by decide
  simp only [realBinder, if_neg this, if_true, Int.ceil_intCast, Int.floor_intCast]
  exact Finset.prod_congr rfl fun k _ => hg k ⟨k, rfl⟩

theorem denotes_series {v w : Sign} {i : Str} {as bs vs : List Sign} {o : Bool} {m : ℤ}
    {f : ℝ → ℝ} (hv : Variable v i) (hi : free i)
    (ha : Denotes (realInterp σ r) free wide .expr as m) (hb : EndlessAbove bs (.posInf : Bound ℝ))
    (hf : Writes σ r free wide (.term o) (w :: vs) i (Set.range ((↑) : ℤ → ℝ)) f) :
    Denotes (realInterp σ r) free wide .long (bigSigns s%"sum" v as bs (w :: vs))
      (∑' k : ℕ, f (m + k)) := by
  refine .sum (op := s%"Sum") (e := closed) (lo := .fin (m : ℝ)) (hi := .posInf)
    (S := Set.range ((↑) : ℤ → ℝ)) (f := f) (k₀ := ((0 : ℤ) : ℝ)) (by decide) hv hi (by rintro y ⟨⟩; exact ha)
    (fun h => absurd rfl (h _)) (by rintro y ⟨⟩) (fun _ => ⟨rfl, hb⟩) (by simp [Follows, closed])
    ⟨0, rfl⟩ hf ?_
  intro g hg
  rw [realInterp_binder]
  simp only [realBinder, if_true, Int.ceil_intCast]
  exact tsum_congr fun k => hg _ ⟨m + k, by push_cast; rfl⟩

theorem denotes_derivative {c : Char} {w : Sign} {vs : List Sign} {o : Bool} {S : Set ℝ} {f : ℝ → ℝ}
    (hc : isVariable c = true) (hi : free [c]) (hS : S ∈ 𝓝 (σ [c] r))
    (hf : Writes σ r free wide (.product o) (w :: vs) [c] S f) :
    Denotes (realInterp σ r) free wide (.product o) (derivSigns c (w :: vs)) (deriv f (σ [c] r)) := by
  refine .derivative (S := fun z => z ∈ S) (f := f) hc hi (k₀ := σ [c] r) (mem_of_mem_nhds hS) hf ?_
  intro g hg
  rw [realInterp_binder]
  have h1 : (s%"Derivative" : Str) ≠ s%"Limit+" := by decide
  have h2 : (s%"Derivative" : Str) ≠ s%"Limit-" := by decide
  simp only [realBinder, if_neg h1, if_neg h2, if_true]
  exact EventuallyEq.deriv_eq (mem_of_superset hS fun z hz => hg z hz)

theorem binder_right {f g : ℝ → ℝ} {p l : ℝ} {S : Set ℝ} (hS : S ∈ 𝓝[>] p) (hl : Tendsto f (𝓝[>] p) (𝓝 l))
    (hg : ∀ k, k ∈ S → g k = f k) : (realInterp σ r).binder s%"Limit+" g [.fin p] = l := by
  rw [realInterp_binder]
  simp only [realBinder, if_true]
  exact Tendsto.limUnder_eq (hl.congr' (mem_of_superset hS fun z hz => (hg z hz).symm))

theorem binder_left {f g : ℝ → ℝ} {p l : ℝ} {S : Set ℝ} (hS : S ∈ 𝓝[<] p) (hl : Tendsto f (𝓝[<] p) (𝓝 l))
    (hg : ∀ k, k ∈ S → g k = f k) : (realInterp σ r).binder s%"Limit-" g [.fin p] = l := by
  rw [realInterp_binder]
  have h1 : (s%"Limit-" : Str) ≠ s%"Limit+" := by decide
  simp only [realBinder, if_neg h1, if_true]
  exact Tendsto.limUnder_eq (hl.congr' (mem_of_superset hS fun z hz => (hg z hz).symm))

theorem denotes_right {v a w : Sign} {i : Str} {as vs : List Sign} {o : Bool} {p l : ℝ} {S : Set ℝ}
    {f : ℝ → ℝ} (h : a ∈ arrows) (hv : Variable v i) (hi : free i)
    (ha : Denotes (realInterp σ r) free wide .point as p) (hS : S ∈ 𝓝[>] p)
    (hf : Writes σ r free wide (.term o) (w :: vs) i S f) (hl : Tendsto f (𝓝[>] p) (𝓝 l)) :
    Denotes (realInterp σ r) free wide .long (limSigns v a (as ++ side '+') (w :: vs)) l := by
  obtain ⟨k, hk⟩ := nonempty_of_mem hS
  have := Denotes.limRight (x := l) (S := fun z => z ∈ S) (f := f) h hv hi ha (k₀ := k) hk hf
    fun g hg => binder_right hS hl hg
  simpa [limSigns, side] using this

theorem denotes_left {v a w : Sign} {i : Str} {as vs : List Sign} {o : Bool} {p l : ℝ} {S : Set ℝ}
    {f : ℝ → ℝ} (h : a ∈ arrows) (hv : Variable v i) (hi : free i)
    (ha : Denotes (realInterp σ r) free wide .point as p) (hS : S ∈ 𝓝[<] p)
    (hf : Writes σ r free wide (.term o) (w :: vs) i S f) (hl : Tendsto f (𝓝[<] p) (𝓝 l)) :
    Denotes (realInterp σ r) free wide .long (limSigns v a (as ++ side '-') (w :: vs)) l := by
  obtain ⟨k, hk⟩ := nonempty_of_mem hS
  have := Denotes.limLeft (x := l) (S := fun z => z ∈ S) (f := f) h hv hi ha (k₀ := k) hk hf
    fun g hg => binder_left hS hl hg
  simpa [limSigns, side] using this

theorem denotes_limit {v a w : Sign} {i : Str} {as vs : List Sign} {o : Bool} {p l : ℝ} {S : Set ℝ}
    {f : ℝ → ℝ} (h : a ∈ arrows) (hv : Variable v i) (hi : free i)
    (ha : Denotes (realInterp σ r) free wide .expr as p) (hS : S ∈ 𝓝[≠] p)
    (hf : Writes σ r free wide (.term o) (w :: vs) i S f) (hl : Tendsto f (𝓝[≠] p) (𝓝 l)) :
    Denotes (realInterp σ r) free wide .long (limSigns v a as (w :: vs)) l := by
  obtain ⟨k, hk⟩ := nonempty_of_mem hS
  have h1 : 𝓝[>] p ≤ 𝓝[≠] p := nhdsWithin_mono _ fun z (hz : p < z) => ne_of_gt hz
  have h2 : 𝓝[<] p ≤ 𝓝[≠] p := nhdsWithin_mono _ fun z (hz : z < p) => ne_of_lt hz
  exact .limBoth (S := fun z => z ∈ S) (f := f) h hv hi ha (k₀ := k) hk hf fun g hg =>
    ⟨binder_right (h1 hS) (hl.mono_left h1) hg, binder_left (h2 hS) (hl.mono_left h2) hg⟩

theorem denotes_infinity {v a w : Sign} {i : Str} {as vs : List Sign} {o : Bool} {l : ℝ} {S : Set ℝ}
    {f : ℝ → ℝ} (h : a ∈ arrows) (hv : Variable v i) (hi : free i)
    (ha : Endless as (.posInf : Bound ℝ)) (hS : S ∈ (atTop : Filter ℝ))
    (hf : Writes σ r free wide (.term o) (w :: vs) i S f) (hl : Tendsto f atTop (𝓝 l)) :
    Denotes (realInterp σ r) free wide .long (limSigns v a as (w :: vs)) l := by
  obtain ⟨k, hk⟩ := nonempty_of_mem hS
  refine .limInfinity (p := .posInf) (S := fun z => z ∈ S) (f := f) h hv hi ha (k₀ := k) hk hf ?_
  intro g hg
  rw [realInterp_binder]
  simp only [realBinder]
  exact Tendsto.limUnder_eq (hl.congr' (mem_of_superset hS fun z hz => (hg z hz).symm))

theorem denotes_minus_infinity {v a w : Sign} {i : Str} {as vs : List Sign} {o : Bool} {l : ℝ} {S : Set ℝ}
    {f : ℝ → ℝ} (h : a ∈ arrows) (hv : Variable v i) (hi : free i)
    (ha : Endless as (.negInf : Bound ℝ)) (hS : S ∈ (atBot : Filter ℝ))
    (hf : Writes σ r free wide (.term o) (w :: vs) i S f) (hl : Tendsto f atBot (𝓝 l)) :
    Denotes (realInterp σ r) free wide .long (limSigns v a as (w :: vs)) l := by
  obtain ⟨k, hk⟩ := nonempty_of_mem hS
  refine .limInfinity (p := .negInf) (S := fun z => z ∈ S) (f := f) h hv hi ha (k₀ := k) hk hf ?_
  intro g hg
  rw [realInterp_binder]
  simp only [realBinder]
  exact Tendsto.limUnder_eq (hl.congr' (mem_of_superset hS fun z hz => (hg z hz).symm))

theorem Denotes.whole {l : List Sign} {x : ℝ} (h : Denotes (realInterp σ r) free wide .long l x) :
    Denotes (realInterp σ r) free wide .expr l x :=
  .term (.signed (.product (.long h)))

end

/-! ### C85 -/

/-- The text is converted to an expression of this value, whatever was converted before. -/
def ConvertsTo {Y : Type} (L : Lib Y) (σ : Str → Option Bool → ℝ) (r : Option Bool)
    (free : Str → Prop) (s : Str) (x : ℝ) : Prop :=
  ∀ (n : Nat) (vals : List (Str × PV)) (w : World (St Y)), Ready (realInterp σ r) free w →
    ∃ v w', latex2sympy L (n + 1) s vals w = (.ok v, w') ∧ v.scalar = true ∧ den (realInterp σ r) v = x

section
variable {Y : Type} {L : Lib Y} {σ : Str → Option Bool → ℝ} {r : Option Bool} {free : Str → Prop}
  {wide : Bool} (hL : SoundLib (realInterp σ r) L)
  (hp : ∀ s t, parseText s = some t → L.parse s = .ok t) {s : Str} {f : ℝ → ℝ}
include hL hp

theorem converts {ws : List Sign} {x : ℝ} (hw : Written ws s)
    (hd : Denotes (realInterp σ r) free wide .expr ws x) : ConvertsTo L σ r free s x :=
  fun n vals w hr => C76_latex2sympy hL hp hw hd n vals w hr

/-- **C85, sums.**  A text `\sum_{i=a}^{b} t` is converted to the sum of the values of `t` at the
integers from `a` to `b`. -/
theorem C85_sum {v w : Sign} {i : Str} {as bs vs : List Sign} {e : End} {o : Bool} {m n : ℤ}
    (hs : Written (bigSigns s%"sum" v as bs (w :: vs)) s) (hv : Variable v i) (hi : free i)
    (ha : Denotes (realInterp σ r) free wide .expr as m)
    (hb : Denotes (realInterp σ r) free wide (.exponent e) bs n) (hw : Follows e w)
    (hf : Writes σ r free wide (.term o) (w :: vs) i (Set.range ((↑) : ℤ → ℝ)) f) :
    ConvertsTo L σ r free s (∑ k ∈ Finset.Icc m n, f k) :=
  converts hL hp hs (Denotes.whole (denotes_sum hv hi ha hb hw hf))

/-- **C85, products.** -/
theorem C85_product {v w : Sign} {i : Str} {as bs vs : List Sign} {e : End} {o : Bool} {m n : ℤ}
    (hs : Written (bigSigns s%"prod" v as bs (w :: vs)) s) (hv : Variable v i) (hi : free i)
    (ha : Denotes (realInterp σ r) free wide .expr as m)
    (hb : Denotes (realInterp σ r) free wide (.exponent e) bs n) (hw : Follows e w)
    (hf : Writes σ r free wide (.term o) (w :: vs) i (Set.range ((↑) : ℤ → ℝ)) f) :
    ConvertsTo L σ r free s (∏ k ∈ Finset.Icc m n, f k) :=
  converts hL hp hs (Denotes.whole (denotes_product hv hi ha hb hw hf))

/-- **C85, series.** -/
theorem C85_series {v w : Sign} {i : Str} {as bs vs : List Sign} {o : Bool} {m : ℤ}
    (hs : Written (bigSigns s%"sum" v as bs (w :: vs)) s) (hv : Variable v i) (hi : free i)
    (ha : Denotes (realInterp σ r) free wide .expr as m) (hb : EndlessAbove bs (.posInf : Bound ℝ))
    (hf : Writes σ r free wide (.term o) (w :: vs) i (Set.range ((↑) : ℤ → ℝ)) f) :
    ConvertsTo L σ r free s (∑' k : ℕ, f (m + k)) :=
  converts hL hp hs (Denotes.whole (denotes_series hv hi ha hb hf))

/-- **C85, derivatives.**  A text `\frac{d}{dx} t` is converted to the derivative of `t` at the value
of `x`. -/
theorem C85_derivative {c : Char} {w : Sign} {vs : List Sign} {o : Bool} {S : Set ℝ}
    (hs : Written (derivSigns c (w :: vs)) s) (hc : isVariable c = true) (hi : free [c])
    (hS : S ∈ 𝓝 (σ [c] r)) (hf : Writes σ r free wide (.product o) (w :: vs) [c] S f) :
    ConvertsTo L σ r free s (deriv f (σ [c] r)) :=
  converts hL hp hs (.term (.signed (.product (denotes_derivative hc hi hS hf))))

/-- **C85, limits from the right.** -/
theorem C85_right {v a w : Sign} {i : Str} {as vs : List Sign} {o : Bool} {p l : ℝ} {S : Set ℝ}
    (hs : Written (limSigns v a (as ++ side '+') (w :: vs)) s) (h : a ∈ arrows) (hv : Variable v i)
    (hi : free i) (ha : Denotes (realInterp σ r) free wide .point as p) (hS : S ∈ 𝓝[>] p)
    (hf : Writes σ r free wide (.term o) (w :: vs) i S f) (hl : Tendsto f (𝓝[>] p) (𝓝 l)) :
    ConvertsTo L σ r free s l :=
  converts hL hp hs (Denotes.whole (denotes_right h hv hi ha hS hf hl))

/-- **C85, limits from the left.** -/
theorem C85_left {v a w : Sign} {i : Str} {as vs : List Sign} {o : Bool} {p l : ℝ} {S : Set ℝ}
    (hs : Written (limSigns v a (as ++ side '-') (w :: vs)) s) (h : a ∈ arrows) (hv : Variable v i)
    (hi : free i) (ha : Denotes (realInterp σ r) free wide .point as p) (hS : S ∈ 𝓝[<] p)
    (hf : Writes σ r free wide (.term o) (w :: vs) i S f) (hl : Tendsto f (𝓝[<] p) (𝓝 l)) :
    ConvertsTo L σ r free s l :=
  converts hL hp hs (Denotes.whole (denotes_left h hv hi ha hS hf hl))

/-- **C85, limits without side** that exist from both sides. -/
theorem C85_limit {v a w : Sign} {i : Str} {as vs : List Sign} {o : Bool} {p l : ℝ} {S : Set ℝ}
    (hs : Written (limSigns v a as (w :: vs)) s) (h : a ∈ arrows) (hv : Variable v i)
    (hi : free i) (ha : Denotes (realInterp σ r) free wide .expr as p) (hS : S ∈ 𝓝[≠] p)
    (hf : Writes σ r free wide (.term o) (w :: vs) i S f) (hl : Tendsto f (𝓝[≠] p) (𝓝 l)) :
    ConvertsTo L σ r free s l :=
  converts hL hp hs (Denotes.whole (denotes_limit h hv hi ha hS hf hl))

/-- **C85, limits at infinity.** -/
theorem C85_infinity {v a w : Sign} {i : Str} {as vs : List Sign} {o : Bool} {l : ℝ} {S : Set ℝ}
    (hs : Written (limSigns v a as (w :: vs)) s) (h : a ∈ arrows) (hv : Variable v i)
    (hi : free i) (ha : Endless as (.posInf : Bound ℝ)) (hS : S ∈ (atTop : Filter ℝ))
    (hf : Writes σ r free wide (.term o) (w :: vs) i S f) (hl : Tendsto f atTop (𝓝 l)) :
    ConvertsTo L σ r free s l :=
  converts hL hp hs (Denotes.whole (denotes_infinity h hv hi ha hS hf hl))

/-- **C85, limits at minus infinity.** -/
theorem C85_minus_infinity {v a w : Sign} {i : Str} {as vs : List Sign} {o : Bool} {l : ℝ} {S : Set ℝ}
    (hs : Written (limSigns v a as (w :: vs)) s) (h : a ∈ arrows) (hv : Variable v i)
    (hi : free i) (ha : Endless as (.negInf : Bound ℝ)) (hS : S ∈ (atBot : Filter ℝ))
    (hf : Writes σ r free wide (.term o) (w :: vs) i S f) (hl : Tendsto f atBot (𝓝 l)) :
    ConvertsTo L σ r free s l :=
  converts hL hp hs (Denotes.whole (denotes_minus_infinity h hv hi ha hS hf hl))

end

/-! ### Concrete texts -/

theorem digitExpr {K : Type} [Field K] {I : Interp K} {free : Str → Prop} {wide : Style} (d : Fin 10) :
    Denotes I free wide .expr [.digit d] (((d.val : ℚ) : K)) :=
  .term (.signed (.product (.factor (.power (.base (.number (num1 d)))))))

theorem letterTerm {σ : Str → Option Bool → ℝ} {r : Option Bool} {wide : Style} {v : Sign} {n : Str}
    (hv : Variable v n) (x : ℝ) :
    Denotes (realInterp (assign σ r n x) r) (fun _ => True) wide (.base ⟨false, true⟩) [v] x := by
  have h := Denotes.letter (I := realInterp (assign σ r n x) r) (free := fun _ => True) (wide := wide) hv trivial
  have e : (realInterp (assign σ r n x) r).var n = x := assign_self σ r n x
  rwa [e] at h

/-- `\sum_{\alpha =1}^{4} \alpha` is the sum of the integers from 1 to 4: the value is 10. -/
example : ConvertsTo textLib (fun _ _ => 7) none (fun _ => True) s%"\\sum_{\\alpha =1}^{4} \\alpha" 10 := by
  have h := C85_sum (r := none) (free := fun _ => True) (wide := false) (σ := fun _ _ => (7 : ℝ)) (o := false)
    (nodeLib_sound _ _ _) textLib_parse (m := 1) (n := 4) (f := fun x => x)
    (s := s%"\\sum_{\\alpha =1}^{4} \\alpha")
    (v := .greek s%"alpha" true) (i := s%"alpha") (as := [.digit 1]) (bs := .mark '{' :: [.digit 4] ++ [.mark '}'])
    (w := .greek s%"alpha" false) (vs := []) (e := closed)
    (writtenB_sound (by decide +kernel)) (.greek (by decide)) trivial
    (by simpa using digitExpr 1) (.expBraces (by simpa using digitExpr 4)) (by simp [Follows, closed])
    (fun x _ => .signed (.product (.factor (.power (.base (letterTerm (.greek (by decide)) x))))))
  have e : ∑ k ∈ Finset.Icc (1 : ℤ) 4, (k : ℝ) = 10 := by
    rw [show Finset.Icc (1 : ℤ) 4 = {1, 2, 3, 4} by decide]
    norm_num
  rwa [e] at h

/-- `\lim_{x\to 0} \frac{x}{x}` is converted to an expression of value 1. -/
example : ConvertsTo textLib (fun _ _ => 7) none (fun _ => True) s%"\\lim_{x\\to 0} \\frac{x}{x}" 1 := by
  have hv : Variable (.letter 'x') s%"x" := .latin (by decide)
  refine C85_limit (r := none) (free := fun _ => True) (wide := false) (σ := fun _ _ => (7 : ℝ)) (o := false)
    (nodeLib_sound _ _ _) textLib_parse (p := 0) (f := fun x => x / x) (S := Set.univ)
    (v := .letter 'x') (i := s%"x") (a := .cmd s%"to") (as := [.digit 0])
    (w := .cmd s%"frac") (vs := (.mark '{' :: [.letter 'x'] ++ [.mark '}']) ++ (.mark '{' :: [.letter 'x'] ++ [.mark '}']))
    (writtenB_sound (by decide +kernel)) (by decide) hv trivial
    (by simpa using digitExpr 0) univ_mem ?_ ?_
  · intro x _
    have hx := letterTerm (σ := fun _ _ => (7 : ℝ)) (r := none) (wide := false) hv x
    have hx : Denotes (realInterp (assign (fun _ _ => 7) none s%"x" x) none) (fun _ => True) false .expr
        [.letter 'x'] x := .term (.signed (.product (.factor (.power (.base hx)))))
    exact .signed (.product (.factor (.power (.base (.frac (.partBraces hx) (.partBraces hx))))))
  · refine (tendsto_const_nhds (x := (1 : ℝ))).congr' ?_
    exact mem_of_superset self_mem_nhdsWithin fun z (hz : z ≠ 0) => (div_self hz).symm

/-- `\frac{d}{dx} x^2` at `x = 7` is converted to an expression of value 14. -/
example : ConvertsTo textLib (fun _ _ => 7) none (fun _ => True) s%"\\frac{d}{dx} x^2" 14 := by
  have hv : Variable (.letter 'x') s%"x" := .latin (by decide)
  have h := C85_derivative (r := none) (free := fun _ => True) (wide := false) (σ := fun _ _ => (7 : ℝ)) (o := false)
    (nodeLib_sound _ _ _) textLib_parse (s := s%"\\frac{d}{dx} x^2") (f := fun x => x ^ ((2 : ℕ) : ℝ))
    (S := Set.univ) (c := 'x') (w := .letter 'x') (vs := [.mark '^', .digit 2])
    (writtenB_sound (by decide +kernel)) (by decide) trivial univ_mem (by
      intro x _
      have h := Denotes.letterPow (I := realInterp (assign (fun _ _ => 7) none s%"x" x) none)
        (free := fun _ => True) (wide := false) hv trivial (.expDigit (d := 2))
      have e : (realInterp (assign (fun _ _ => 7) none s%"x" x) none).var s%"x" = x := assign_self (fun _ _ => 7) none s%"x" x
      rw [e] at h
      exact .factor (.power (.base h)))
  have e : deriv (fun x : ℝ => x ^ ((2 : ℕ) : ℝ)) 7 = 14 := by
    simp only [Real.rpow_natCast]
    rw [deriv_pow_field]; norm_num
  rwa [e] at h

end Verif.Grammar
