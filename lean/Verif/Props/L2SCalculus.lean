import Mathlib.Analysis.SpecialFunctions.Integrals.Basic
import Verif.Props.L2SArithReal
/-
Calculus notation over the real numbers: sums, products, integrals and derivatives are converted to
expressions of the value known from analysis (C72), and limits to one-sided limits (C73).
-/

namespace Verif.L2S
open Verif Filter Topology

section
variable {Y : Type} {L : Lib Y} {σ : Str → Option Bool → ℝ} {r : Option Bool}

/-- The assignment in which the variable `n` of the text has the value `x`. -/
def assign (σ : Str → Option Bool → ℝ) (r : Option Bool) (n : Str) (x : ℝ) : Str → Option Bool → ℝ :=
  fun m q => if m = n ∧ q = r then x else σ m q

/-- `f` is the function of the variable `n` written as `t`, at the points of `S`. -/
def Function (σ : Str → Option Bool → ℝ) (r : Option Bool) (free : Str → Prop) (t : T) (n : Str)
    (S : Set ℝ) (f : ℝ → ℝ) : Prop :=
  ∀ x ∈ S, Means (realInterp (assign σ r n x) r) free t (f x)

theorem Function.mono {free : Str → Prop} {t : T} {n : Str} {S S' : Set ℝ} {f : ℝ → ℝ}
    (h : Function σ r free t n S f) (hs : S' ⊆ S) : Function σ r free t n S' f :=
  fun x hx => h x (hs hx)

theorem realInterp_binder : (realInterp σ r).binder = realBinder := rfl

/-! ### Sums and products -/

theorem means_sum {free : Str → Prop} {t v a b : T} {i : Str} (hv : VarTree free v i) {m n : ℤ}
    (ha : Means (realInterp σ r) free a m) (hb : Means (realInterp σ r) free b n) {f : ℝ → ℝ}
    (hf : Function σ r free t i (Set.range ((↑) : ℤ → ℝ)) f) :
    Means (realInterp σ r) free (.sumProd true t v a b) (∑ k ∈ Finset.Icc m n, f k) := by
  refine .sum (lo := .fin (m : ℝ)) (hi := .fin (n : ℝ)) (S := Set.range ((↑) : ℤ → ℝ)) (f := f) hv
    ⟨0, rfl⟩ hf (by rintro y ⟨⟩; exact ha) (fun h => absurd rfl (h _)) (by rintro y ⟨⟩; exact hb)
    (fun h => absurd rfl (h _)) ?_
  intro g hg
  rw [realInterp_binder]
  simp only [realBinder, if_true, Int.ceil_intCast, Int.floor_intCast]
  exact Finset.sum_congr rfl fun k _ => hg k ⟨k, rfl⟩

theorem means_prod {free : Str → Prop} {t v a b : T} {i : Str} (hv : VarTree free v i) {m n : ℤ}
    (ha : Means (realInterp σ r) free a m) (hb : Means (realInterp σ r) free b n) {f : ℝ → ℝ}
    (hf : Function σ r free t i (Set.range ((↑) : ℤ → ℝ)) f) :
    Means (realInterp σ r) free (.sumProd false t v a b) (∏ k ∈ Finset.Icc m n, f k) := by
  refine .prod (lo := .fin (m : ℝ)) (hi := .fin (n : ℝ)) (S := Set.range ((↑) : ℤ → ℝ)) (f := f) hv
    ⟨0, rfl⟩ hf (by rintro y ⟨⟩; exact ha) (fun h => absurd rfl (h _)) (by rintro y ⟨⟩; exact hb)
    (fun h => absurd rfl (h _)) ?_
  intro g hg
  rw [realInterp_binder]
  have : (s%"Product" : Str) ≠ s%"Sum" := by decide
  simp only [realBinder, if_neg this, if_true, Int.ceil_intCast, Int.floor_intCast]
  exact Finset.prod_congr rfl fun k _ => hg k ⟨k, rfl⟩

/-- a series with an infinite upper bound -/
theorem means_series {free : Str → Prop} {t v a b : T} {i : Str} (hv : VarTree free v i) {m : ℤ}
    (ha : Means (realInterp σ r) free a m) (hb : Infinity b (.posInf : Bound ℝ)) {f : ℝ → ℝ}
    (hf : Function σ r free t i (Set.range ((↑) : ℤ → ℝ)) f) :
    Means (realInterp σ r) free (.sumProd true t v a b) (∑' k : ℕ, f (m + k)) := by
  refine .sum (lo := .fin (m : ℝ)) (hi := .posInf) (S := Set.range ((↑) : ℤ → ℝ)) (f := f) hv
    ⟨0, rfl⟩ hf (by rintro y ⟨⟩; exact ha) (fun h => absurd rfl (h _)) (by rintro y ⟨⟩)
    (fun _ => hb) ?_
  intro g hg
  rw [realInterp_binder]
  simp only [realBinder, if_true, Int.ceil_intCast]
  exact tsum_congr fun k => hg _ ⟨m + k, by push_cast; rfl⟩

/-! ### Integrals and derivatives -/

theorem means_integral {free : Str → Prop} {t a b : T} {d i : Str} (hd : Differential d i) {x y : ℝ}
    (ha : Means (realInterp σ r) free a x) (hb : Means (realInterp σ r) free b y) {f : ℝ → ℝ}
    (hf : Function σ r free t i (Set.uIcc x y) f) :
    Means (realInterp σ r) free (.integral (some t) (some d) (some a) (some b))
      (∫ z in x..y, f z) := by
  refine .integral (lo := .fin x) (hi := .fin y) (S := fun z => z ∈ Set.uIcc x y) (f := f) hd
    (k₀ := x) Set.left_mem_uIcc hf (by rintro y ⟨⟩; exact ha) (fun h => absurd rfl (h _))
    (by rintro y ⟨⟩; exact hb) (fun h => absurd rfl (h _)) ?_
  intro g hg
  rw [realInterp_binder]
  have h1 : (s%"Integral" : Str) ≠ s%"Sum" := by decide
  have h2 : (s%"Integral" : Str) ≠ s%"Product" := by decide
  simp only [realBinder, if_neg h1, if_neg h2, if_true]
  exact intervalIntegral.integral_congr fun z hz => hg z hz

/-- an integral to infinity -/
theorem means_improper {free : Str → Prop} {t a b : T} {d i : Str} (hd : Differential d i) {x : ℝ}
    (ha : Means (realInterp σ r) free a x) (hb : Infinity b (.posInf : Bound ℝ)) {f : ℝ → ℝ}
    (hf : Function σ r free t i (Set.Ioi x) f) :
    Means (realInterp σ r) free (.integral (some t) (some d) (some a) (some b))
      (∫ z in Set.Ioi x, f z) := by
  refine .integral (lo := .fin x) (hi := .posInf) (S := fun z => z ∈ Set.Ioi x) (f := f) hd
    (k₀ := x + 1) (by simp) hf (by rintro y ⟨⟩; exact ha) (fun h => absurd rfl (h _))
    (by rintro y ⟨⟩) (fun _ => hb) ?_
  intro g hg
  rw [realInterp_binder]
  have h1 : (s%"Integral" : Str) ≠ s%"Sum" := by decide
  have h2 : (s%"Integral" : Str) ≠ s%"Product" := by decide
  simp only [realBinder, if_neg h1, if_neg h2, if_true]
  exact MeasureTheory.setIntegral_congr_fun measurableSet_Ioi fun z hz => hg z hz

theorem means_derivative {free : Str → Prop} {u l v : T} {us ls : Option Span} {vs : List T} {i : Str}
    (hd : DerivativeOperator us ls i) {S : Set ℝ} (hS : S ∈ 𝓝 (σ i r)) {f : ℝ → ℝ}
    (hf : Function σ r free (.juxt (v :: vs)) i S f) :
    Means (realInterp σ r) free (.juxt (.frac u us l ls :: v :: vs)) (deriv f (σ i r)) := by
  refine .derivative (S := fun z => z ∈ S) (f := f) hd (k₀ := σ i r) (mem_of_mem_nhds hS) hf ?_
  intro g hg
  rw [realInterp_binder]
  have h1 : (s%"Derivative" : Str) ≠ s%"Limit+" := by decide
  have h2 : (s%"Derivative" : Str) ≠ s%"Limit-" := by decide
  simp only [realBinder, if_neg h1, if_neg h2, if_true]
  exact EventuallyEq.deriv_eq (mem_of_superset hS fun z hz => hg z hz)

/-! ### Limits -/

theorem means_limRight {free : Str → Prop} {a c : T} {v : NameTok} {i : Str} (hv : LimitVar v i)
    {p l : ℝ} (ha : Means (realInterp σ r) free a p) {S : Set ℝ} (hS : S ∈ 𝓝[>] p) {f : ℝ → ℝ}
    (hf : Function σ r free c i S f) (hl : Tendsto f (𝓝[>] p) (𝓝 l)) :
    Means (realInterp σ r) free (.lim v (some false) a c) l := by
  obtain ⟨k, hk⟩ := nonempty_of_mem hS
  refine .limRight (S := fun z => z ∈ S) (f := f) hv ha (k₀ := k) hk hf ?_
  intro g hg
  rw [realInterp_binder]
  simp only [realBinder, if_true]
  refine Tendsto.limUnder_eq (hl.congr' (mem_of_superset hS fun z hz => (hg z hz).symm))

theorem means_limLeft {free : Str → Prop} {a c : T} {v : NameTok} {i : Str} (hv : LimitVar v i)
    {p l : ℝ} (ha : Means (realInterp σ r) free a p) {S : Set ℝ} (hS : S ∈ 𝓝[<] p) {f : ℝ → ℝ}
    (hf : Function σ r free c i S f) (hl : Tendsto f (𝓝[<] p) (𝓝 l)) :
    Means (realInterp σ r) free (.lim v (some true) a c) l := by
  obtain ⟨k, hk⟩ := nonempty_of_mem hS
  refine .limLeft (S := fun z => z ∈ S) (f := f) hv ha (k₀ := k) hk hf ?_
  intro g hg
  rw [realInterp_binder]
  have h1 : (s%"Limit-" : Str) ≠ s%"Limit+" := by decide
  simp only [realBinder, if_neg h1, if_true]
  refine Tendsto.limUnder_eq (hl.congr' (mem_of_superset hS fun z hz => (hg z hz).symm))

theorem means_limInfinity {free : Str → Prop} {a c : T} {v : NameTok} {i : Str} (hv : LimitVar v i)
    (ha : Infinity a (.posInf : Bound ℝ)) {S : Set ℝ} (hS : S ∈ (atTop : Filter ℝ)) {f : ℝ → ℝ} {l : ℝ}
    (hf : Function σ r free c i S f) (hl : Tendsto f atTop (𝓝 l)) :
    Means (realInterp σ r) free (.lim v none a c) l := by
  obtain ⟨k, hk⟩ := nonempty_of_mem hS
  refine .limInfinity (p := .posInf) (S := fun z => z ∈ S) (f := f) hv ha (k₀ := k) hk hf ?_
  intro g hg
  rw [realInterp_binder]
  simp only [realBinder]
  exact Tendsto.limUnder_eq (hl.congr' (mem_of_superset hS fun z hz => (hg z hz).symm))

/-! ### C72 -/

variable (hL : SoundLib (realInterp σ r) L) (rec : Str → List (Str × PV) → M (St Y) SV)
  {free : Str → Prop} {w : World (St Y)} (hw : Ready (realInterp σ r) free w)
include hL hw

/-- **C72, sums.**  `\sum_{i=a}^{b} t` is converted to the sum of the values of `t` at the integers
from `a` to `b`. -/
theorem C72_sum {t v a b : T} {i : Str} (hv : VarTree free v i) {m n : ℤ}
    (ha : Means (realInterp σ r) free a m) (hb : Means (realInterp σ r) free b n) {f : ℝ → ℝ}
    (hf : Function σ r free t i (Set.range ((↑) : ℤ → ℝ)) f) :
    Yields (realInterp σ r) (conv L rec (.sumProd true t v a b)) w (∑ k ∈ Finset.Icc m n, f k) :=
  C62_conversion_partial _ L hL rec (means_sum hv ha hb hf) w hw

/-- **C72, products.** -/
theorem C72_product {t v a b : T} {i : Str} (hv : VarTree free v i) {m n : ℤ}
    (ha : Means (realInterp σ r) free a m) (hb : Means (realInterp σ r) free b n) {f : ℝ → ℝ}
    (hf : Function σ r free t i (Set.range ((↑) : ℤ → ℝ)) f) :
    Yields (realInterp σ r) (conv L rec (.sumProd false t v a b)) w (∏ k ∈ Finset.Icc m n, f k) :=
  C62_conversion_partial _ L hL rec (means_prod hv ha hb hf) w hw

/-- **C72, series.**  An infinite upper bound. -/
theorem C72_series {t v a b : T} {i : Str} (hv : VarTree free v i) {m : ℤ}
    (ha : Means (realInterp σ r) free a m) (hb : Infinity b (.posInf : Bound ℝ)) {f : ℝ → ℝ}
    (hf : Function σ r free t i (Set.range ((↑) : ℤ → ℝ)) f) :
    Yields (realInterp σ r) (conv L rec (.sumProd true t v a b)) w (∑' k : ℕ, f (m + k)) :=
  C62_conversion_partial _ L hL rec (means_series hv ha hb hf) w hw

/-- **C72, integrals.**  `\int_{a}^{b} t dx` is converted to the integral of the function `t` of `x`
from `a` to `b`. -/
theorem C72_integral {t a b : T} {d i : Str} (hd : Differential d i) {x y : ℝ}
    (ha : Means (realInterp σ r) free a x) (hb : Means (realInterp σ r) free b y) {f : ℝ → ℝ}
    (hf : Function σ r free t i (Set.uIcc x y) f) :
    Yields (realInterp σ r) (conv L rec (.integral (some t) (some d) (some a) (some b))) w
      (∫ z in x..y, f z) :=
  C62_conversion_partial _ L hL rec (means_integral hd ha hb hf) w hw

/-- **C72, improper integrals.**  An infinite upper bound. -/
theorem C72_improper {t a b : T} {d i : Str} (hd : Differential d i) {x : ℝ}
    (ha : Means (realInterp σ r) free a x) (hb : Infinity b (.posInf : Bound ℝ)) {f : ℝ → ℝ}
    (hf : Function σ r free t i (Set.Ioi x) f) :
    Yields (realInterp σ r) (conv L rec (.integral (some t) (some d) (some a) (some b))) w
      (∫ z in Set.Ioi x, f z) :=
  C62_conversion_partial _ L hL rec (means_improper hd ha hb hf) w hw

/-- **C72, derivatives.**  `\frac{d}{dx} t` is converted to the derivative of the function `t` of `x`
at the value of `x`; everything that follows the operator in the product is differentiated. -/
theorem C72_derivative {u l v : T} {us ls : Option Span} {vs : List T} {i : Str}
    (hd : DerivativeOperator us ls i) {S : Set ℝ} (hS : S ∈ 𝓝 (σ i r)) {f : ℝ → ℝ}
    (hf : Function σ r free (.juxt (v :: vs)) i S f) :
    Yields (realInterp σ r) (conv L rec (.juxt (.frac u us l ls :: v :: vs))) w
      (deriv f (σ i r)) :=
  C62_conversion_partial _ L hL rec (means_derivative hd hS hf) w hw

/-! ### C73 -/

/-- **C73, limits from the right**, written `x \to p^{+}`. -/
theorem C73_right_partial {a c : T} {v : NameTok} {i : Str} (hv : LimitVar v i)
    {p l : ℝ} (ha : Means (realInterp σ r) free a p) {S : Set ℝ} (hS : S ∈ 𝓝[>] p) {f : ℝ → ℝ}
    (hf : Function σ r free c i S f) (hl : Tendsto f (𝓝[>] p) (𝓝 l)) :
    Yields (realInterp σ r) (conv L rec (.lim v (some false) a c)) w l :=
  C62_conversion_partial _ L hL rec (means_limRight hv ha hS hf hl) w hw

/-- **C73, limits from the left**, written `x \to p^{-}`. -/
theorem C73_left_partial {a c : T} {v : NameTok} {i : Str} (hv : LimitVar v i)
    {p l : ℝ} (ha : Means (realInterp σ r) free a p) {S : Set ℝ} (hS : S ∈ 𝓝[<] p) {f : ℝ → ℝ}
    (hf : Function σ r free c i S f) (hl : Tendsto f (𝓝[<] p) (𝓝 l)) :
    Yields (realInterp σ r) (conv L rec (.lim v (some true) a c)) w l :=
  C62_conversion_partial _ L hL rec (means_limLeft hv ha hS hf hl) w hw

/-- **C73, limits at infinity.** -/
theorem C73_infinity_partial {a c : T} {v : NameTok} {i : Str} (hv : LimitVar v i)
    (ha : Infinity a (.posInf : Bound ℝ)) {S : Set ℝ} (hS : S ∈ (atTop : Filter ℝ)) {f : ℝ → ℝ} {l : ℝ}
    (hf : Function σ r free c i S f) (hl : Tendsto f atTop (𝓝 l)) :
    Yields (realInterp σ r) (conv L rec (.lim v none a c)) w l :=
  C62_conversion_partial _ L hL rec (means_limInfinity hv ha hS hf hl) w hw

omit hL hw in
/-- A limit without direction is converted like a limit from the right. -/
theorem conv_lim_none (v : NameTok) (a c : T) :
    conv L rec (.lim v none a c) = conv L rec (.lim v (some false) a c) := by
  rw [conv, conv]; rfl

/-- **C73, two-sided limits.**  A limit without direction has the right value if it exists. -/
theorem C73_two_sided_partial {a c : T} {v : NameTok} {i : Str} (hv : LimitVar v i)
    {p l : ℝ} (ha : Means (realInterp σ r) free a p) {S : Set ℝ} (hS : S ∈ 𝓝[≠] p) {f : ℝ → ℝ}
    (hf : Function σ r free c i S f) (hl : Tendsto f (𝓝[≠] p) (𝓝 l)) :
    Yields (realInterp σ r) (conv L rec (.lim v none a c)) w l := by
  have hle : 𝓝[>] p ≤ 𝓝[≠] p := nhdsWithin_mono _ fun z (hz : p < z) => ne_of_gt hz
  rw [conv_lim_none]
  exact C73_right_partial hL rec hw hv ha (hle hS) hf (hl.mono_left hle)

end

/-! ### Examples -/

/-- `x` -/
def varX : T := .name (.letter s%"x") none none

theorem varXName : SymbolName (.letter s%"x") none s%"x" := .letter (by decide)

theorem means_x (σ : Str → Option Bool → ℝ) (r : Option Bool) :
    Means (realInterp σ r) (fun _ => True) varX (σ s%"x" r) :=
  .name varXName trivial

theorem assign_self (σ : Str → Option Bool → ℝ) (r : Option Bool) (n : Str) (x : ℝ) :
    assign σ r n x n r = x := by simp [assign]

theorem means_digit (σ : Str → Option Bool → ℝ) (r : Option Bool) (d : Fin 10) {s : Str} {q : ℝ}
    (hs : [digitChar d.val] = s) (hq : (d.val : ℝ) = q) :
    Means (realInterp σ r) (fun _ => True) (.digit s) q := by
  subst hs; subst hq; exact .digit

/-- `\lim_{x \to 0} \frac{x}{|x|}` -/
def signLimit : T := .lim (.letter s%"x") none (.digit s%"0") (.frac varX none (.abs varX) none)

theorem sign_right : Tendsto (fun x : ℝ => x / |x|) (𝓝[>] 0) (𝓝 1) := by
  refine (tendsto_const_nhds (x := (1 : ℝ))).congr' ?_
  refine mem_of_superset self_mem_nhdsWithin fun z (hz : 0 < z) => ?_
  show 1 = z / |z|
  rw [abs_of_pos hz, div_self hz.ne']

theorem sign_left : Tendsto (fun x : ℝ => x / |x|) (𝓝[<] 0) (𝓝 (-1)) := by
  refine (tendsto_const_nhds (x := (-1 : ℝ))).congr' ?_
  refine mem_of_superset self_mem_nhdsWithin fun z (hz : z < 0) => ?_
  show -1 = z / |z|
  rw [abs_of_neg hz, div_neg, div_self hz.ne]

/-- **C73 refuted for two-sided limits that do not exist.**  `\lim_{x \to 0} \frac{x}{|x|}` does not
exist, but is converted to an expression of value 1, the limit from the right. -/
theorem C73_two_sided_refuted {Y : Type} {L : Lib Y} {σ : Str → Option Bool → ℝ} {r : Option Bool}
    (hL : SoundLib (realInterp σ r) L) (rec : Str → List (Str × PV) → M (St Y) SV)
    {w : World (St Y)} (hw : Ready (realInterp σ r) (fun _ => True) w) :
    (¬ ∃ l, Tendsto (fun x : ℝ => x / |x|) (𝓝[≠] 0) (𝓝 l)) ∧
    Function σ r (fun _ => True) (.frac varX none (.abs varX) none) s%"x" Set.univ
      (fun x => x / |x|) ∧
    Yields (realInterp σ r) (conv L rec signLimit) w 1 := by
  have hf : Function σ r (fun _ => True) (.frac varX none (.abs varX) none) s%"x" Set.univ
      (fun x => x / |x|) := by
    intro x _
    have hx := means_x (assign σ r s%"x" x) r
    rw [assign_self] at hx
    exact .frac (fun _ h => by simp at h) hx (by
      have := Means.abs hx
      simpa [realInterp, realFn] using this)
  refine ⟨?_, hf, ?_⟩
  · rintro ⟨l, hl⟩
    have hr : 𝓝[>] (0 : ℝ) ≤ 𝓝[≠] 0 := nhdsWithin_mono _ fun z (hz : 0 < z) => ne_of_gt hz
    have hlt : 𝓝[<] (0 : ℝ) ≤ 𝓝[≠] 0 := nhdsWithin_mono _ fun z (hz : z < 0) => ne_of_lt hz
    have h1 := tendsto_nhds_unique (hl.mono_left hr) sign_right
    have h2 := tendsto_nhds_unique (hl.mono_left hlt) sign_left
    rw [h1] at h2; norm_num at h2
  · rw [signLimit, conv_lim_none]
    exact C73_right_partial hL rec hw .letter (means_digit _ _ 0 (by decide) (by simp)) univ_mem hf
      sign_right

/-- the hypotheses are met by the concrete library -/
example : Yields (realInterp (fun _ _ => 3) none)
    (conv (nodeLib fun _ => .error .other) (fun _ _ => M.raise .other) signLimit)
    ⟨⟨Globals.init, ()⟩, []⟩ 1 :=
  (C73_two_sided_refuted (nodeLib_sound _ _ _) _ ⟨rfl, fun _ _ => rfl⟩).2.2

/-- `\int_{0}^{1} x^2 dx` has the value 1/3 -/
example : Yields (realInterp (fun _ _ => 3) none)
    (conv (nodeLib fun _ => .error .other) (fun _ _ => M.raise .other)
      (.integral (some (.name (.letter s%"x") none (some (.digit s%"2")))) (some s%"dx")
        (some (.digit s%"0")) (some (.digit s%"1"))))
    ⟨⟨Globals.init, ()⟩, []⟩ (1 / 3) := by
  have h := C72_integral (nodeLib_sound (fun _ _ => 3) none fun _ => .error .other)
    (fun _ _ => M.raise .other) (free := fun _ => True) (w := ⟨⟨Globals.init, ()⟩, []⟩)
    ⟨rfl, fun _ _ => rfl⟩ (d := s%"dx") (i := s%"x")
    (.letter (bs := []) (c := 'x') (n := []) rfl (by decide) (by decide))
    (t := .name (.letter s%"x") none (some (.digit s%"2")))
    (means_digit (q := 0) (s := s%"0") _ _ 0 (by decide) (by simp))
    (means_digit (q := 1) (s := s%"1") _ _ 1 (by decide) (by simp))
    (f := fun x => x ^ (2 : ℝ)) (by
      intro x _
      have h := Means.namePow (I := realInterp (assign (fun _ _ => 3) none s%"x" x) none) varXName
        (free := fun _ => True) trivial
        (means_digit (assign (fun _ _ => 3) none s%"x" x) none 2 (s := s%"2") (by decide) rfl)
      have e : (realInterp (assign (fun _ _ => 3) none s%"x" x) none).var s%"x" = x :=
        assign_self (fun _ _ => 3) none s%"x" x
      rw [e] at h
      simpa [realInterp] using h)
  refine h.of_eq _ ?_
  have : (fun x : ℝ => x ^ (2 : ℝ)) = fun x => x ^ 2 := by funext x; exact Real.rpow_two x
  rw [this, integral_pow]; norm_num

/-- `\frac{d}{dx} x` at 3 has the value 1 -/
example : Yields (realInterp (fun _ _ => 3) none)
    (conv (nodeLib fun _ => .error .other) (fun _ _ => M.raise .other)
      (.juxt [.frac (.name (.letter s%"d") none none)
          (some ⟨.letterNoE, s%"d", .letterNoE, s%"d", true, 1, s%"d"⟩) (.differential s%"dx")
          (some ⟨.differential, s%"dx", .differential, s%"dx", true, 1, s%"dx"⟩), varX]))
    ⟨⟨Globals.init, ()⟩, []⟩ 1 := by
  have h := C72_derivative (nodeLib_sound (fun _ _ => 3) none fun _ => .error .other)
    (fun _ _ => M.raise .other) (free := fun _ => True) (w := ⟨⟨Globals.init, ()⟩, []⟩)
    ⟨rfl, fun _ _ => rfl⟩ (u := .name (.letter s%"d") none none) (l := .differential s%"dx")
    (v := varX) (vs := []) (i := s%"x")
    (.total (us := ⟨.letterNoE, s%"d", .letterNoE, s%"d", true, 1, s%"d"⟩)
      (ls := ⟨.differential, s%"dx", .differential, s%"dx", true, 1, s%"dx"⟩) rfl rfl rfl rfl rfl
      (.letter (bs := []) (c := 'x') (n := []) rfl (by decide) (by decide)))
    (S := Set.univ) univ_mem (f := fun x => x) (by
      intro x _
      have hx := means_x (assign (fun _ _ => 3) none s%"x" x) none
      rw [assign_self] at hx
      exact .one hx)
  exact h.of_eq _ (deriv_id _)

/-- `\sum_{x=1}^{4} x` has the value 10 -/
example : Yields (realInterp (fun _ _ => 3) none)
    (conv (nodeLib fun _ => .error .other) (fun _ _ => M.raise .other)
      (.sumProd true varX varX (.digit s%"1") (.digit s%"4")))
    ⟨⟨Globals.init, ()⟩, []⟩ 10 := by
  have h := C72_sum (nodeLib_sound (fun _ _ => 3) none fun _ => .error .other)
    (fun _ _ => M.raise .other) (free := fun _ => True) (w := ⟨⟨Globals.init, ()⟩, []⟩)
    ⟨rfl, fun _ _ => rfl⟩ (i := s%"x") (v := varX) (.name varXName trivial) (m := 1) (n := 4)
    (means_digit (s := s%"1") _ _ 1 (by decide) (by simp))
    (means_digit (s := s%"4") _ _ 4 (by decide) (by simp))
    (f := fun x => x) (t := varX) (by
      intro x _
      have hx := means_x (assign (fun _ _ => 3) none s%"x" x) none
      rw [assign_self] at hx
      exact hx)
  refine h.of_eq _ ?_
  have : (Finset.Icc 1 4 : Finset ℤ) = {1, 2, 3, 4} := by decide
  rw [this]; norm_num

end Verif.L2S
