import Verif.Props.L2SMatrix
/-
C69: sums, differences, products and multiples of matrices of any sizes.
-/

namespace Verif.L2S
open Verif

variable {Y : Type} {L : Lib Y}

section
variable {K : Type} [Field K] (I : Interp K)

/-! ### Specification -/

/-- the matrix with the given rows -/
def sizedRows (r c : Nat) (rows : List (List K)) : Matrix (Fin r) (Fin c) K :=
  Matrix.of fun i j => (rows.getD i.val []).getD j.val 0

/-- `SizedMeans p t r c A`: the tree `t` denotes the matrix `A` with `r` rows and `c` columns by matrix algebra.  Products are marked by
`p = true` (the right side of a difference must not be one, see `C69_difference_refuted`). -/
inductive SizedMeans (free : Str → Prop) : Bool → T → (r c : Nat) → Matrix (Fin r) (Fin c) K → Prop
  | matrix {ts xs r c} : MeansRows I free ts xs → xs.length = r → (∀ x ∈ xs, x.length = c) → 0 < r →
      SizedMeans free false (.matrix ts []) r c (sizedRows r c xs)
  | pos {p t r c A} : SizedMeans free p t r c A → SizedMeans free p (.pos t) r c A
  | group {p t r c A} : SizedMeans free p t r c A → SizedMeans free p (.group t) r c A
  | add {p q t u r c A B} : SizedMeans free p t r c A → SizedMeans free q u r c B → SizedMeans free false (.add t u) r c (A + B)
  | sub {p t u r c A B} : SizedMeans free p t r c A → SizedMeans free false u r c B → SizedMeans free false (.sub t u) r c (A - B)
  | mul {p q t u r m c A B} : SizedMeans free p t r m A → SizedMeans free q u m c B → SizedMeans free true (.mul t u) r c (A * B)
  | smul {q t u r c x B} : Means I free t x → SizedMeans free q u r c B → SizedMeans free true (.mul t u) r c (x • B)
  | muls {p t u r c A x} : SizedMeans free p t r c A → Means I free u x → SizedMeans free true (.mul t u) r c (x • A)
  | div {p t u r c A x} : SizedMeans free p t r c A → Means I free u x → SizedMeans free true (.div t u) r c (x⁻¹ • A)
  | one {p u r c A} : SizedMeans free p u r c A → SizedMeans free p (.juxt [u]) r c A
  | juxt {p q u v us r m c A B} : SizedMeans free p u r m A → SizedMeans free q (.juxt (v :: us)) m c B →
      SizedMeans free true (.juxt (u :: v :: us)) r c (A * B)
  | sjuxt {q u v us r c x B} : Means I free u x → SizedMeans free q (.juxt (v :: us)) r c B →
      SizedMeans free true (.juxt (u :: v :: us)) r c (x • B)
  | juxts {p u v us r c A x} : SizedMeans free p u r c A → Means I free (.juxt (v :: us)) x →
      SizedMeans free true (.juxt (u :: v :: us)) r c (x • A)

/-- the sum of the values of a list -/
inductive SumOf (P : SV → (r c : Nat) → Matrix (Fin r) (Fin c) K → Prop) : List SV → (r c : Nat) → Matrix (Fin r) (Fin c) K → Prop
  | one {v r c A} : P v r c A → SumOf P [v] r c A
  | cons {v vs r c A B} : P v r c A → SumOf P vs r c B → SumOf P (v :: vs) r c (A + B)

/-- the product of a list of scalars -/
inductive Scalars : List SV → K → Prop
  | nil : Scalars [] 1
  | cons {v vs x} : v.scalar = true → Scalars vs x → Scalars (v :: vs) (den I v * x)

/-- the product of a list of scalars and at least one matrix -/
inductive ProdOf (P : SV → (r c : Nat) → Matrix (Fin r) (Fin c) K → Prop) : List SV → (r c : Nat) → Matrix (Fin r) (Fin c) K → Prop
  | scalar {v vs r c A} : v.scalar = true → ProdOf P vs r c A → ProdOf P (v :: vs) r c (den I v • A)
  | last {v vs r c A x} : P v r c A → Scalars I vs x → ProdOf P (v :: vs) r c (x • A)
  | mul {v vs r m c A B} : P v r m A → ProdOf P vs m c B → ProdOf P (v :: vs) r c (A * B)

/-- The matrix expression `v` has the value `A` with `r` rows and `c` columns. -/
inductive Sized : SV → (r c : Nat) → Matrix (Fin r) (Fin c) K → Prop
  | mat {rows r c} : rows.length = r → (∀ x ∈ rows, x.length = c) → 0 < r → Sized (.mat rows) r c (sizedRows r c (rows.map (denList I)))
  | sum {xs r c A} : SumOf Sized xs r c A → Sized (.matAdd xs) r c A
  | prod {xs r c A} : ProdOf I Sized xs r c A → Sized (.matMul xs) r c A

/-- SymPy: `doit` keeps value and size, and the checks of `MatAdd` and `MatMul` accept sizes that fit. -/
structure SoundSizes (L : Lib Y) : Prop where
  doit : ∀ v r c A, Sized I v r c A → ∀ y, ∃ v' y', L.call s%"doit" [v] y = (.ok v', y') ∧ Sized I v' r c A
  doitScalar : ∀ v, v.scalar = true → ∀ y, ∃ v' y', L.call s%"doit" [v] y = (.ok v', y') ∧ v'.scalar = true ∧ den I v' = den I v
  matAdd : ∀ xs r c A, SumOf (Sized I) xs r c A → ∀ y, ∃ y', L.validate s%"MatAdd" xs y = (.ok (), y')
  matMul : ∀ xs r c A, ProdOf I (Sized I) xs r c A → ∀ y, ∃ y', L.validate s%"MatMul" xs y = (.ok (), y')

/-- SymPy: the checks of `MatAdd` and `MatMul` raise if the sizes do not fit. -/
structure ChecksSizes (L : Lib Y) : Prop where
  matAdd : ∀ xs ys r c r' c' A B, SumOf (Sized I) xs r c A → SumOf (Sized I) ys r' c' B → (r, c) ≠ (r', c') → ∀ y,
    ∃ e y', L.validate s%"MatAdd" (xs ++ ys) y = (.error e, y')
  matMul : ∀ xs ys r m m' c A B, ProdOf I (Sized I) xs r m A → ProdOf I (Sized I) ys m' c B → m ≠ m' → ∀ y,
    ∃ e y', L.validate s%"MatMul" (xs ++ ys) y = (.error e, y')

/-- `v` is a matrix expression of value `A`; if `p` is false it is not a `MatMul`. -/
def SizedVal (p : Bool) (r c : Nat) (A : Matrix (Fin r) (Fin c) K) (v : SV) : Prop :=
  Sized I v r c A ∧ (p = false → v.isMatMul = false)

/-! ### Lemmas -/

variable {I}

theorem Sized.isMat {v : SV} {r c : Nat} {A : Matrix (Fin r) (Fin c) K} (h : Sized I v r c A) : v.isMat = true ∧ v.isBasic = true := by
  cases h <;> exact ⟨rfl, rfl⟩

theorem scalar_basic {v : SV} (h : v.scalar = true) : v.isBasic = true := by
  cases v <;> first | rfl | cases h

theorem SumOf.append {P : SV → (r c : Nat) → Matrix (Fin r) (Fin c) K → Prop} {xs ys : List SV} {r c : Nat} {A B : Matrix (Fin r) (Fin c) K}
    (h : SumOf P xs r c A) (h' : SumOf P ys r c B) : SumOf P (xs ++ ys) r c (A + B) := by
  induction h with
  | one h => exact .cons h h'
  | cons h _ ih => rw [add_assoc]; exact .cons h (ih h')

theorem Scalars.append {xs ys : List SV} {x y : K} (h : Scalars I xs x) (h' : Scalars I ys y) : Scalars I (xs ++ ys) (x * y) := by
  induction h with
  | nil => simpa using h'
  | cons h _ ih => rw [mul_assoc]; exact .cons h ih

section
variable {P : SV → (r c : Nat) → Matrix (Fin r) (Fin c) K → Prop} {xs ys : List SV}

theorem Scalars.prod {r c : Nat} {A : Matrix (Fin r) (Fin c) K} {x : K} (h : Scalars I xs x) (h' : ProdOf I P ys r c A) :
    ProdOf I P (xs ++ ys) r c (x • A) := by
  induction h with
  | nil => simpa using h'
  | cons h _ ih => rw [mul_smul]; exact .scalar h ih

theorem ProdOf.scalars {r c : Nat} {A : Matrix (Fin r) (Fin c) K} {x : K} (h : ProdOf I P xs r c A) (h' : Scalars I ys x) :
    ProdOf I P (xs ++ ys) r c (x • A) := by
  induction h with
  | scalar h _ ih => rw [smul_comm]; exact .scalar h ih
  | last h hs => rw [smul_smul, mul_comm]; exact .last h (hs.append h')
  | mul h _ ih => rw [← Matrix.mul_smul]; exact .mul h ih

theorem ProdOf.append {r m c : Nat} {A : Matrix (Fin r) (Fin m) K} {B : Matrix (Fin m) (Fin c) K} (h : ProdOf I P xs r m A)
    (h' : ProdOf I P ys m c B) : ProdOf I P (xs ++ ys) r c (A * B) := by
  induction h with
  | scalar h _ ih => rw [Matrix.smul_mul]; exact .scalar h (ih h')
  | last h hs => rw [Matrix.smul_mul, ← Matrix.mul_smul]; exact .mul h (hs.prod h')
  | mul h _ ih => rw [Matrix.mul_assoc]; exact .mul h (ih h')

end

/-- the factors of an object -/
def factors : SV → List SV
  | .matMul xs => xs
  | v => [v]

theorem matMulArgs_eq (v : SV) : (Arg.sv v).matMulArgs = (factors v).map .sv := by
  cases v <;> rfl

theorem Sized.asFactors {v : SV} {r c : Nat} {A : Matrix (Fin r) (Fin c) K} (h : Sized I v r c A) :
    ProdOf I (Sized I) (factors v) r c A := by
  have one : ProdOf I (Sized I) [v] r c A := by simpa using ProdOf.last (x := 1) h (Scalars.nil (I := I))
  cases h with
  | prod h => exact h
  | _ => exact one

theorem scalar_factors {v : SV} (h : v.scalar = true) : Scalars I (factors v) (den I v) := by
  have one : Scalars I [v] (den I v) := by simpa using Scalars.cons (I := I) h .nil
  cases v <;> first | exact one | cases h

theorem Sized.summands {v : SV} {r c : Nat} {A : Matrix (Fin r) (Fin c) K} (h : Sized I v r c A) :
    SumOf (Sized I) v.matAddArgs r c A := by
  have one := SumOf.one (P := Sized I) h
  cases h with
  | sum h => exact h
  | _ => exact one

variable (hA : SoundSizes I L)
include hA

theorem doit_sized {v : SV} {r c : Nat} {A : Matrix (Fin r) (Fin c) K} (h : Sized I v r c A) (w : World (St Y)) :
    Returns (doit L v) w fun v' => Sized I v' r c A := by
  rw [doit, if_pos h.isMat.2]
  exact returns_ev fun y => hA.doit v r c A h y

theorem doit_scalar {v : SV} (h : v.scalar = true) (w : World (St Y)) :
    Returns (doit L v) w fun v' => v'.scalar = true ∧ den I v' = den I v := by
  rw [doit, if_pos (scalar_basic h)]
  exact returns_ev fun y => hA.doitScalar v h y

theorem doitAll_sum {xs : List SV} {r c : Nat} {A : Matrix (Fin r) (Fin c) K} (h : SumOf (Sized I) xs r c A) :
    ∀ w : World (St Y), Returns (doitAll L xs) w fun xs' => SumOf (Sized I) xs' r c A := by
  induction h with
  | one h =>
    intro w
    rw [doitAll]
    refine (doit_sized hA h w).bind fun v' w1 hv _ => ?_
    rw [doitAll]
    exact Returns.pure (.one hv)
  | cons h _ ih =>
    intro w
    rw [doitAll]
    refine (doit_sized hA h w).bind fun v' w1 hv _ => ?_
    refine (ih w1).bind fun vs w2 hvs _ => ?_
    exact Returns.pure (.cons hv hvs)

theorem doitAll_scalars {xs : List SV} {x : K} (h : Scalars I xs x) :
    ∀ w : World (St Y), Returns (Arg.doitAll L (xs.map .sv)) w fun xs' => Scalars I xs' x := by
  induction h with
  | nil => intro w; rw [List.map_nil, Arg.doitAll]; exact Returns.pure .nil
  | cons h _ ih =>
    intro w
    rw [List.map_cons, Arg.doitAll]
    refine (doit_scalar hA h w).bind fun v' w1 hv _ => ?_
    refine (ih w1).bind fun vs w2 hvs _ => ?_
    rw [← hv.2]
    exact Returns.pure (.cons hv.1 hvs)

theorem doitAll_prod {xs : List SV} {r c : Nat} {A : Matrix (Fin r) (Fin c) K} (h : ProdOf I (Sized I) xs r c A) :
    ∀ w : World (St Y), Returns (Arg.doitAll L (xs.map .sv)) w fun xs' => ProdOf I (Sized I) xs' r c A := by
  induction h with
  | scalar h _ ih =>
    intro w
    rw [List.map_cons, Arg.doitAll]
    refine (doit_scalar hA h w).bind fun v' w1 hv _ => ?_
    refine (ih w1).bind fun vs w2 hvs _ => ?_
    rw [← hv.2]
    exact Returns.pure (.scalar hv.1 hvs)
  | last h hs =>
    intro w
    rw [List.map_cons, Arg.doitAll]
    refine (doit_sized hA h w).bind fun v' w1 hv _ => ?_
    refine (doitAll_scalars hA hs w1).bind fun vs w2 hvs _ => ?_
    exact Returns.pure (.last hv hvs)
  | mul h _ ih =>
    intro w
    rw [List.map_cons, Arg.doitAll]
    refine (doit_sized hA h w).bind fun v' w1 hv _ => ?_
    refine (ih w1).bind fun vs w2 hvs _ => ?_
    exact Returns.pure (.mul hv hvs)

theorem mkMatMul_sized {xs : List SV} {r c : Nat} {A : Matrix (Fin r) (Fin c) K} (h : ProdOf I (Sized I) xs r c A) (w : World (St Y)) :
    Returns (mkMatMul L xs) w (SizedVal I true r c A) := by
  rw [mkMatMul]
  refine (returns_libExt (P := fun _ => True) fun y => ?_).bind fun _ w1 _ _ => ?_
  · obtain ⟨y', hy⟩ := hA.matMul xs r c A h y; exact ⟨(), y', hy, trivial⟩
  · exact Returns.pure ⟨.prod h, by simp⟩

theorem mkMatAdd_sized {xs : List SV} {r c : Nat} {A : Matrix (Fin r) (Fin c) K} (h : SumOf (Sized I) xs r c A) (w : World (St Y)) :
    Returns (mkMatAdd L xs) w (SizedVal I false r c A) := by
  rw [mkMatAdd]
  refine (returns_libExt (P := fun _ => True) fun y => ?_).bind fun _ w1 _ _ => ?_
  · obtain ⟨y', hy⟩ := hA.matAdd xs r c A h y; exact ⟨(), y', hy, trivial⟩
  · exact Returns.pure ⟨.sum h, fun _ => rfl⟩

theorem matAddFlat_sized {l r : SV} {m n : Nat} {A B : Matrix (Fin m) (Fin n) K} (hl : Sized I l m n A) (hr : Sized I r m n B)
    (w : World (St Y)) : Returns (matAddFlat L l r) w (SizedVal I false m n (A + B)) := by
  rw [matAddFlat]
  refine (doitAll_sum hA (hl.summands.append hr.summands) w).bind fun vs w1 hvs _ => ?_
  exact mkMatAdd_sized hA hvs w1

omit hA in
/-- products of objects are flattened whether or not one of them is a product -/
theorem matMulFlat_eq {l r : SV} (hl : l.isBasic = true) (hr : r.isBasic = true) :
    matMulFlat L (.sv l) (.sv r) = Arg.doitAll L ((factors l ++ factors r).map .sv) >>= mkMatMul L := by
  rw [matMulFlat]
  by_cases hc : (Arg.isMatMul (.sv l) || Arg.isMatMul (.sv r)) = true
  · rw [if_pos hc, matMulArgs_eq, matMulArgs_eq, List.map_append]
  · have h1 : factors l = [l] := by cases l <;> first | rfl | exact absurd rfl hc
    have h2 : factors r = [r] := by
      cases r <;> first | rfl | (exfalso; apply hc; simp [Arg.isMatMul])
    rw [if_neg hc, h1, h2, Arg.tryDoit, if_pos (show (Arg.sv l).hasDoit = true from hl), Arg.tryDoit,
      if_pos (show (Arg.sv r).hasDoit = true from hr)]
    funext w
    simp only [List.cons_append, List.nil_append, List.map_cons, List.map_nil, Arg.doitAll, M.bind_run, Arg.doit]
    rcases L2S.doit L l w with ⟨_ | a, w1⟩
    · rfl
    · simp only
      rcases L2S.doit L r w1 with ⟨_ | b, w2⟩ <;> rfl

theorem matMulFlat_sized {l r : SV} {m n : Nat} {A : Matrix (Fin m) (Fin n) K} (hl : l.isBasic = true) (hr : r.isBasic = true)
    (h : ProdOf I (Sized I) (factors l ++ factors r) m n A) (w : World (St Y)) :
    Returns (matMulFlat L (.sv l) (.sv r)) w (SizedVal I true m n A) := by
  rw [matMulFlat_eq hl hr]
  exact (doitAll_prod hA h w).bind fun vs w1 hvs _ => mkMatMul_sized hA hvs w1

/-- `(-1) * r` for a matrix that is not a product -/
theorem matMulFlat_neg_sized {r : SV} {m n : Nat} {A : Matrix (Fin m) (Fin n) K} (hr : Sized I r m n A) (hn : r.isMatMul = false)
    (w : World (St Y)) : Returns (matMulFlat L (.int (-1)) (.sv r)) w (SizedVal I true m n (-A)) := by
  have h0 : Arg.isMatMul (.sv r) = false := by cases r <;> first | rfl | cases hn
  rw [matMulFlat, if_neg (by rw [h0]; simp [Arg.isMatMul]), Arg.tryDoit, if_neg (by simp [Arg.hasDoit]),
    Arg.tryDoit, if_pos (show (Arg.sv r).hasDoit = true from hr.isMat.2)]
  refine (doit_sized hA hr w).bind fun b w2 hb _ => ?_
  have h : ProdOf I (Sized I) [.num (-1), b] m n (den I (.num (-1)) • ((1 : K) • A)) := .scalar rfl (.last hb .nil)
  have e : den I (.num (-1)) = (-1 : K) := by rw [den]; simp
  rw [e, one_smul, neg_one_smul] at h
  exact mkMatMul_sized hA h w2

omit hA in
theorem eitherMatrix_sized {l r : SV} {m n : Nat} {A : Matrix (Fin m) (Fin n) K} (h : Sized I l m n A) :
    (eitherMatrix l r : M (St Y) Bool) = pure true := by
  rw [eitherMatrix, isMatrix, if_pos h.isMat.2, h.isMat.1]; rfl

omit hA in
theorem eitherMatrix_sized_right {l r : SV} {m n : Nat} {A : Matrix (Fin m) (Fin n) K} (hl : l.scalar = true) (h : Sized I r m n A) :
    (eitherMatrix l r : M (St Y) Bool) = pure true := by
  rw [eitherMatrix, isMatrix_scalar hl, isMatrix, if_pos h.isMat.2, h.isMat.1]; rfl

omit hA in
theorem postKind_sized {v : SV} {m n : Nat} {A : Matrix (Fin m) (Fin n) K} (h : Sized I v m n A) :
    (postKind v : M (St Y) PostKind) = pure .factor := by
  cases h <;> rfl

theorem convertMul_sized {l r : SV} {m k n : Nat} {A : Matrix (Fin m) (Fin k) K} {B : Matrix (Fin k) (Fin n) K} (hl : Sized I l m k A)
    (hr : Sized I r k n B) (w : World (St Y)) : Returns (convertMul L l r) w (SizedVal I true m n (A * B)) := by
  rw [convertMul, eitherMatrix_sized hl]
  exact matMulFlat_sized hA hl.isMat.2 hr.isMat.2 (hl.asFactors.append hr.asFactors) w

theorem convertMul_scalar_sized {l r : SV} {m n : Nat} {A : Matrix (Fin m) (Fin n) K} (hl : l.scalar = true) (hr : Sized I r m n A)
    (w : World (St Y)) : Returns (convertMul L l r) w (SizedVal I true m n (den I l • A)) := by
  rw [convertMul, eitherMatrix_sized_right hl hr]
  exact matMulFlat_sized hA (scalar_basic hl) hr.isMat.2 ((scalar_factors hl).prod hr.asFactors) w

theorem convertMul_sized_scalar {l r : SV} {m n : Nat} {A : Matrix (Fin m) (Fin n) K} (hl : Sized I l m n A) (hr : r.scalar = true)
    (w : World (St Y)) : Returns (convertMul L l r) w (SizedVal I true m n (den I r • A)) := by
  rw [convertMul, eitherMatrix_sized hl]
  exact matMulFlat_sized hA hl.isMat.2 (scalar_basic hr) (hl.asFactors.scalars (scalar_factors hr)) w

/-! ### C69 -/

/-- **C69 for matrices of all sizes.**  Sums, differences, products, multiples and quotients by numbers of matrices whose sizes fit are
converted to matrix expressions with the value of matrix algebra, for every nesting and every state.  Missing (hence partial): a
difference whose right side is a product, which raises (`C69_difference_refuted`), and unary minus (`C66_negation_refuted`). -/
theorem C69_sizes_partial [CharZero K] (hL : SoundLib I L) (hM : SoundMatrix I L) (rec : Str → List (Str × PV) → M (St Y) SV)
    {free : Str → Prop} {p : Bool} {t : T} {r c : Nat} {A : Matrix (Fin r) (Fin c) K} (h : SizedMeans I free p t r c A) :
    ∀ w : World (St Y), Ready I free w → Returns (conv L rec t) w (SizedVal I p r c A) := by
  induction h with
  | @matrix ts xs r c hr h1 h2 h3 =>
    intro w hw
    rw [conv]
    refine (convRows_spec hL rec hr w hw).bind fun rows w1 hrows _ => ?_
    obtain ⟨g1, rfl⟩ := hrows
    have hlen : ∀ r ∈ rows, r.length = c := by
      intro r hr
      have := h2 (denList I r) (List.mem_map.2 ⟨r, hr, rfl⟩)
      rw [denList_eq_map, List.length_map] at this
      exact this
    refine (returns_ev (P := fun v => v = .mat rows) fun y => ?_).bind fun m w2 hm _ => ?_
    · obtain ⟨y', hy⟩ := hM.matrix rows g1 (fun r hr r' hr' => by rw [hlen r hr, hlen r' hr']) y
      exact ⟨_, y', hy, rfl⟩
    · subst hm
      exact Returns.pure ⟨.mat (by simpa using h1) hlen h3, fun _ => rfl⟩
  | pos _ ih => intro w hw; rw [conv]; exact ih w hw
  | group _ ih => intro w hw; rw [conv]; exact ih w hw
  | add _ _ ihl ihr =>
    intro w hw; rw [conv]
    refine (ihl w hw).bind fun l w1 hl s1 => ?_
    refine (ihr w1 (hw.keep s1)).bind fun r w2 hr _ => ?_
    rw [convertAdd, eitherMatrix_sized hl.1]
    exact matAddFlat_sized hA hl.1 hr.1 w2
  | sub _ _ ihl ihr =>
    intro w hw; rw [conv]
    refine (ihl w hw).bind fun l w1 hl s1 => ?_
    refine (ihr w1 (hw.keep s1)).bind fun r w2 hr _ => ?_
    rw [convertSub, eitherMatrix_sized hl.1, sub_eq_add_neg]
    refine (matMulFlat_neg_sized hA hr.1 (hr.2 rfl) w2).bind fun n w3 hn _ => ?_
    exact matAddFlat_sized hA hl.1 hn.1 w3
  | mul _ _ ihl ihr =>
    intro w hw; rw [conv]
    refine (ihl w hw).bind fun l w1 hl s1 => ?_
    refine (ihr w1 (hw.keep s1)).bind fun r w2 hr _ => ?_
    exact convertMul_sized hA hl.1 hr.1 w2
  | smul hs _ ihr =>
    intro w hw; rw [conv]
    refine (C62_conversion_partial I L hL rec hs w hw).returns.bind fun l w1 hl s1 => ?_
    refine (ihr w1 (hw.keep s1)).bind fun r w2 hr _ => ?_
    rw [← hl.2]
    exact convertMul_scalar_sized hA hl.1 hr.1 w2
  | muls _ hs ihl =>
    intro w hw; rw [conv]
    refine (ihl w hw).bind fun l w1 hl s1 => ?_
    refine (C62_conversion_partial I L hL rec hs w1 (hw.keep s1)).returns.bind fun r w2 hr _ => ?_
    rw [← hr.2]
    exact convertMul_sized_scalar hA hl.1 hr.1 w2
  | @div p l r m n A x _ hs ihl =>
    intro w hw; rw [conv]
    refine (ihl w hw).bind fun l w1 hl s1 => ?_
    refine (C62_conversion_partial I L hL rec hs w1 (hw.keep s1)).returns.bind fun r w2 hr _ => ?_
    obtain ⟨q, h1, h2, h3⟩ := gives_mkPow I L hr.1 (e := .num (-1)) rfl
    rw [convertDiv, eitherMatrix_sized hl.1]
    show Returns (mkPow L r (.num (-1)) >>= fun p => mkMatMul L [l, p]) w2 _
    rw [h1]
    have e : den I (.num (-1)) = (-1 : K) := by simp [den]
    rw [e, I.pw_neg_one, hr.2] at h3
    have h : ProdOf I (Sized I) [l, q] m n ((den I q * 1) • A) := .last hl.1 (.cons h2 .nil)
    rw [mul_one, h3] at h
    exact mkMatMul_sized hA h w2
  | one _ ih =>
    intro w hw; rw [conv, convJuxt]
    refine (ih w hw).bind fun v w1 hv _ => ?_
    rw [postKind_sized hv.1]
    exact Returns.pure hv
  | @juxt p q u v us r m c A B _ _ ihl ihr =>
    intro w hw; rw [conv, convJuxt]
    refine (ihl w hw).bind fun l w1 hl s1 => ?_
    rw [postKind_sized hl.1]
    have ihr' := ihr w1 (hw.keep s1)
    rw [conv] at ihr'
    show Returns (convJuxt L rec (v :: us) >>= fun r => convertMul L l r) w1 _
    exact ihr'.bind fun r w2 hr _ => convertMul_sized hA hl.1 hr.1 w2
  | @sjuxt q u v us r c x B hs _ ihr =>
    intro w hw; rw [conv, convJuxt]
    refine (C62_conversion_partial I L hL rec hs w hw).returns.bind fun l w1 hl s1 => ?_
    rw [postKind_scalar hl.1]
    have ihr' := ihr w1 (hw.keep s1)
    rw [conv] at ihr'
    show Returns (convJuxt L rec (v :: us) >>= fun r => convertMul L l r) w1 _
    refine ihr'.bind fun r w2 hr _ => ?_
    rw [← hl.2]
    exact convertMul_scalar_sized hA hl.1 hr.1 w2
  | @juxts p u v us r c A x _ hs ihl =>
    intro w hw; rw [conv, convJuxt]
    refine (ihl w hw).bind fun l w1 hl s1 => ?_
    rw [postKind_sized hl.1]
    have ihr' := (C62_conversion_partial I L hL rec hs w1 (hw.keep s1)).returns
    rw [conv] at ihr'
    show Returns (convJuxt L rec (v :: us) >>= fun r => convertMul L l r) w1 _
    refine ihr'.bind fun r w2 hr _ => ?_
    rw [← hr.2]
    exact convertMul_sized_scalar hA hl.1 hr.1 w2

/-! ### Sizes that do not fit -/

/-- the run raises -/
def RaisesAt {α : Type} (m : M (St Y) α) (w : World (St Y)) : Prop := ∃ e w', m w = (.error e, w')

omit hA in
theorem Returns.raises {α β : Type} {m : M (St Y) α} {w : World (St Y)} {P : α → Prop} {f : α → M (St Y) β} (h : Returns m w P)
    (hf : ∀ v w', P v → SameG w.ext.g w'.ext.g → RaisesAt (f v) w') : RaisesAt (m >>= f) w := by
  obtain ⟨v, w', h1, h2, h3, _⟩ := h
  obtain ⟨e, w'', h4⟩ := hf v w' h2 h3
  exact ⟨e, w'', by rw [M.bind_run, h1]; exact h4⟩

omit hA in
theorem raises_libExt {α β : Type} {f : Ext Y α} {g : α → M (St Y) β} {w : World (St Y)} (h : ∀ y, ∃ e y', f y = (.error e, y')) :
    RaisesAt (libExt f >>= g) w := by
  obtain ⟨e, y', h⟩ := h w.ext.lib
  exact ⟨e, ⟨⟨w.ext.g, y'⟩, w.out⟩, by rw [M.bind_run]; simp [libExt, M.ext, h]⟩

omit hA in
theorem doitAll_append (xs ys : List SV) (w : World (St Y)) : doitAll L (xs ++ ys) w =
    (do let a ← doitAll L xs; let b ← doitAll L ys; pure (a ++ b) : M (St Y) (List SV)) w := by
  induction xs generalizing w with
  | nil =>
    simp only [List.nil_append, doitAll, M.bind_run, M.pure_run]
    rcases doitAll L ys w with ⟨_ | b, w2⟩ <;> rfl
  | cons x xs ih =>
    simp only [List.cons_append, doitAll, M.bind_run, M.pure_run, ih]
    rcases L2S.doit L x w with ⟨_ | a, w1⟩
    · rfl
    · simp only
      rcases doitAll L xs w1 with ⟨_ | b, w2⟩
      · rfl
      · simp only
        rcases doitAll L ys w2 with ⟨_ | b, w2⟩ <;> rfl

omit hA in
theorem argDoitAll_append (xs ys : List Arg) (w : World (St Y)) : Arg.doitAll L (xs ++ ys) w =
    (do let a ← Arg.doitAll L xs; let b ← Arg.doitAll L ys; pure (a ++ b) : M (St Y) (List SV)) w := by
  induction xs generalizing w with
  | nil =>
    simp only [List.nil_append, Arg.doitAll, M.bind_run, M.pure_run]
    rcases Arg.doitAll L ys w with ⟨_ | b, w2⟩ <;> rfl
  | cons x xs ih =>
    simp only [List.cons_append, Arg.doitAll, M.bind_run, M.pure_run, ih]
    rcases x.doit L w with ⟨_ | a, w1⟩
    · rfl
    · simp only
      rcases Arg.doitAll L xs w1 with ⟨_ | b, w2⟩
      · rfl
      · simp only
        rcases Arg.doitAll L ys w2 with ⟨_ | b, w2⟩ <;> rfl

variable (hC : ChecksSizes I L)
include hC

theorem matAddFlat_raises {l r : SV} {m n m' n' : Nat} {A : Matrix (Fin m) (Fin n) K} {B : Matrix (Fin m') (Fin n') K}
    (hl : Sized I l m n A) (hr : Sized I r m' n' B) (hne : (m, n) ≠ (m', n')) (w : World (St Y)) : RaisesAt (matAddFlat L l r) w := by
  have h : Returns (doitAll L (l.matAddArgs ++ r.matAddArgs)) w fun zs => ∃ xs ys, zs = xs ++ ys ∧ SumOf (Sized I) xs m n A ∧
      SumOf (Sized I) ys m' n' B := by
    unfold Returns
    rw [doitAll_append]
    refine (doitAll_sum hA hl.summands w).bind fun xs w1 hx _ => ?_
    refine (doitAll_sum hA hr.summands w1).bind fun ys w2 hy _ => ?_
    exact Returns.pure ⟨xs, ys, rfl, hx, hy⟩
  rw [matAddFlat]
  refine h.raises fun zs w1 hz _ => ?_
  obtain ⟨xs, ys, rfl, hx, hy⟩ := hz
  rw [mkMatAdd]
  exact raises_libExt (hC.matAdd xs ys m n m' n' A B hx hy hne)

theorem convertMul_raises {l r : SV} {m k k' n : Nat} {A : Matrix (Fin m) (Fin k) K} {B : Matrix (Fin k') (Fin n) K}
    (hl : Sized I l m k A) (hr : Sized I r k' n B) (hne : k ≠ k') (w : World (St Y)) : RaisesAt (convertMul L l r) w := by
  have h : Returns (Arg.doitAll L ((factors l ++ factors r).map .sv)) w fun zs => ∃ xs ys, zs = xs ++ ys ∧ ProdOf I (Sized I) xs m k A ∧
      ProdOf I (Sized I) ys k' n B := by
    unfold Returns
    rw [List.map_append, argDoitAll_append]
    refine (doitAll_prod hA hl.asFactors w).bind fun xs w1 hx _ => ?_
    refine (doitAll_prod hA hr.asFactors w1).bind fun ys w2 hy _ => ?_
    exact Returns.pure ⟨xs, ys, rfl, hx, hy⟩
  rw [convertMul, eitherMatrix_sized hl]
  show RaisesAt (matMulFlat L (.sv l) (.sv r)) w
  rw [matMulFlat_eq hl.isMat.2 hr.isMat.2]
  refine h.raises fun zs w1 hz _ => ?_
  obtain ⟨xs, ys, rfl, hx, hy⟩ := hz
  rw [mkMatMul]
  exact raises_libExt (hC.matMul xs ys m k k' n A B hx hy hne)

/-- **C69, sizes that do not fit.**  A sum or difference of matrices of different sizes, and a product of matrices of which the first
does not have as many columns as the second has rows, raises, in every state. -/
theorem C69_misfits [CharZero K] (hL : SoundLib I L) (hM : SoundMatrix I L) (rec : Str → List (Str × PV) → M (St Y) SV)
    {free : Str → Prop} {p q : Bool} {t u : T} {r c r' c' : Nat} {A : Matrix (Fin r) (Fin c) K} {B : Matrix (Fin r') (Fin c') K}
    (ht : SizedMeans I free p t r c A) (hu : SizedMeans I free q u r' c' B) (w : World (St Y)) (hw : Ready I free w) :
    ((r, c) ≠ (r', c') → RaisesAt (conv L rec (.add t u)) w ∧ RaisesAt (conv L rec (.sub t u)) w) ∧
    (c ≠ r' → RaisesAt (conv L rec (.mul t u)) w) := by
  have ihl := C69_sizes_partial hA hL hM rec ht
  have ihr := C69_sizes_partial hA hL hM rec hu
  refine ⟨fun h => ⟨?_, ?_⟩, fun h => ?_⟩
  · rw [conv]
    refine (ihl w hw).raises fun l w1 hl s1 => ?_
    refine (ihr w1 (hw.keep s1)).raises fun x w2 hr _ => ?_
    rw [convertAdd, eitherMatrix_sized hl.1]
    exact matAddFlat_raises hA hC hl.1 hr.1 h w2
  · rw [conv]
    refine (ihl w hw).raises fun l w1 hl s1 => ?_
    refine (ihr w1 (hw.keep s1)).raises fun x w2 hr _ => ?_
    rw [convertSub, eitherMatrix_sized hl.1]
    show RaisesAt (matMulFlat L (.int (-1)) (.sv x) >>= fun n => matAddFlat L l n) w2
    cases hm : x.isMatMul with
    | false =>
      exact (matMulFlat_neg_sized hA hr.1 hm w2).raises fun n w3 hn _ => matAddFlat_raises hA hC hl.1 hn.1 h w3
    | true =>
      cases x <;> first | exact ⟨.attributeError, w2, rfl⟩ | cases hm
  · rw [conv]
    refine (ihl w hw).raises fun l w1 hl s1 => ?_
    refine (ihr w1 (hw.keep s1)).raises fun x w2 hr _ => ?_
    exact convertMul_raises hA hC hl.1 hr.1 h w2

end

/-! ### The hypotheses are met -/

section
variable {K : Type} [Field K] {I : Interp K} {P : SV → (r c : Nat) → Matrix (Fin r) (Fin c) K → Prop}

theorem Sized.notScalar {v : SV} {r c : Nat} {A : Matrix (Fin r) (Fin c) K} (h : Sized I v r c A) (hs : v.scalar = true) : False := by
  cases h <;> cases hs

theorem Scalars.notProd {xs : List SV} {x : K} (hP : ∀ v r c A, P v r c A → v.scalar = true → False) (h : Scalars I xs x) {r c : Nat}
    {A : Matrix (Fin r) (Fin c) K} (h' : ProdOf I P xs r c A) : False := by
  induction h' generalizing x with
  | scalar _ _ ih => cases h with | cons _ h => exact ih h
  | last hv _ => cases h with | cons hs _ => exact hP _ _ _ _ hv hs
  | mul hv _ => cases h with | cons hs _ => exact hP _ _ _ _ hv hs

theorem Scalars.tail {xs ys : List SV} {x : K} (h : Scalars I (xs ++ ys) x) : ∃ y, Scalars I ys y := by
  induction xs generalizing x with
  | nil => exact ⟨x, h⟩
  | cons _ _ ih => cases h with | cons _ h => exact ih h

/-- all elements have one size at most -/
def OneSize (P : SV → (r c : Nat) → Matrix (Fin r) (Fin c) K → Prop) (xs : List SV) : Prop :=
  ∀ v ∈ xs, ∀ r c A r' c' B, P v r c A → P v r' c' B → r = r' ∧ c = c'

theorem SumOf.same {xs : List SV} (hP : OneSize P xs) {r c r' c' : Nat} {A : Matrix (Fin r) (Fin c) K} {B : Matrix (Fin r') (Fin c') K}
    (h : SumOf P xs r c A) (h' : SumOf P xs r' c' B) : r = r' ∧ c = c' := by
  obtain ⟨v, vs, rfl, A', hA⟩ : ∃ v vs, xs = v :: vs ∧ ∃ A', P v r c A' := by cases h <;> exact ⟨_, _, rfl, _, by assumption⟩
  obtain ⟨B', hB⟩ : ∃ B', P v r' c' B' := by cases h' <;> exact ⟨_, by assumption⟩
  exact hP v (by simp) _ _ _ _ _ _ hA hB

theorem ProdOf.same (hs : ∀ v r c A, P v r c A → v.scalar = true → False) {xs : List SV} {r c r' c' : Nat}
    {A : Matrix (Fin r) (Fin c) K} {B : Matrix (Fin r') (Fin c') K} (h : ProdOf I P xs r c A) (hP : OneSize P xs)
    (h' : ProdOf I P xs r' c' B) : r = r' ∧ c = c' := by
  induction h generalizing r' c' with
  | scalar h0 _ ih =>
    cases h' with
    | scalar _ h' => exact ih (fun v hv => hP v (by simp [hv])) h'
    | last h' _ => exact (hs _ _ _ _ h' h0).elim
    | mul h' _ => exact (hs _ _ _ _ h' h0).elim
  | last h0 h1 =>
    cases h' with
    | scalar h' _ => exact (hs _ _ _ _ h0 h').elim
    | last h' _ => exact hP _ (by simp) _ _ _ _ _ _ h0 h'
    | mul _ h' => exact (h1.notProd hs h').elim
  | mul h0 h1 ih =>
    cases h' with
    | scalar h' _ => exact (hs _ _ _ _ h0 h').elim
    | last _ h' => exact (h'.notProd hs h1).elim
    | mul h2 h3 => exact ⟨(hP _ (by simp) _ _ _ _ _ _ h0 h2).1, (ih (fun v hv => hP v (by simp [hv])) h3).2⟩

theorem Sized.oneSize : ∀ v : SV, ∀ r c A r' c' B, Sized I v r c A → Sized I v r' c' B → r = r' ∧ c = c'
  | .mat rows, r, c, A, r', c', B, h, h' => by
    cases h with | mat h1 h2 h3 =>
    cases h' with | mat k1 k2 k3 =>
    refine ⟨h1.symm.trans k1, ?_⟩
    obtain ⟨x, hx⟩ := List.exists_mem_of_length_pos (l := rows) (by omega)
    rw [← h2 x hx, ← k2 x hx]
  | .matAdd xs, r, c, A, r', c', B, h, h' => by
    cases h with | sum h =>
    cases h' with | sum h' =>
    exact h.same (fun v hv => Sized.oneSize v) h'
  | .matMul xs, r, c, A, r', c', B, h, h' => by
    cases h with | prod h =>
    cases h' with | prod h' =>
    exact h.same (fun _ _ _ _ => Sized.notScalar) (fun v hv => Sized.oneSize v) h'
  | .num _, _, _, _, _, _, _, h, _ => nomatch h
  | .sym _ _, _, _, _, _, _, _, h, _ => nomatch h
  | .const _, _, _, _, _, _, _, h, _ => nomatch h
  | .add _, _, _, _, _, _, _, h, _ => nomatch h
  | .mul _, _, _, _, _, _, _, h, _ => nomatch h
  | .pow _ _, _, _, _, _, _, _, h, _ => nomatch h
  | .fn _ _, _, _, _, _, _, _, h, _ => nomatch h
  | .binder _ _ _ _ _, _, _, _, _, _, _, h, _ => nomatch h
  | .matSym _ _ _, _, _, _, _, _, _, h, _ => nomatch h
  | .rel _ _ _, _, _, _, _, _, _, h, _ => nomatch h
  | .list _, _, _, _, _, _, _, h, _ => nomatch h
  | .tuple _, _, _, _, _, _, _, h, _ => nomatch h
  | .none, _, _, _, _, _, _, h, _ => nomatch h
termination_by v => sizeOf v
decreasing_by
  all_goals have := List.sizeOf_lt_of_mem hv; simp; omega

theorem ProdOf.tail {xs ys : List SV} {x : K} (hs : ∀ v r c A, P v r c A → v.scalar = true → False) (h : Scalars I xs x) {r c : Nat}
    {A : Matrix (Fin r) (Fin c) K} (h' : ProdOf I P (xs ++ ys) r c A) : ∃ B, ProdOf I P ys r c B := by
  induction h generalizing r c with
  | nil => exact ⟨A, h'⟩
  | cons h0 _ ih =>
    cases h' with
    | scalar _ h' => exact ih h'
    | last h' _ => exact (hs _ _ _ _ h' h0).elim
    | mul h' _ => exact (hs _ _ _ _ h' h0).elim

/-- In a product the columns of the first part are the rows of the second. -/
theorem ProdOf.fits (hs : ∀ v r c A, P v r c A → v.scalar = true → False) {xs ys : List SV} {r m m' c r' c' : Nat}
    {A : Matrix (Fin r) (Fin m) K} {B : Matrix (Fin m') (Fin c) K} {C : Matrix (Fin r') (Fin c') K} (hP : ∀ zs, OneSize P zs)
    (h : ProdOf I P xs r m A) (hy : ProdOf I P ys m' c B) (h' : ProdOf I P (xs ++ ys) r' c' C) : m = m' := by
  induction h generalizing r' c' with
  | scalar h0 _ ih =>
    cases h' with
    | scalar _ h' => exact ih h'
    | last h' _ => exact (hs _ _ _ _ h' h0).elim
    | mul h' _ => exact (hs _ _ _ _ h' h0).elim
  | last h0 h1 =>
    cases h' with
    | scalar h' _ => exact (hs _ _ _ _ h0 h').elim
    | last _ h' => obtain ⟨_, h'⟩ := h'.tail; exact (h'.notProd hs hy).elim
    | mul h2 h3 =>
      obtain ⟨_, h3⟩ := ProdOf.tail hs h1 h3
      rw [(hP [_] _ List.mem_cons_self _ _ _ _ _ _ h0 h2).2]
      exact (h3.same hs (hP _) hy).1
  | mul h0 h1 ih =>
    cases h' with
    | scalar h' _ => exact (hs _ _ _ _ h0 h').elim
    | last _ h' => obtain ⟨_, h'⟩ := h'.tail; exact (h'.notProd hs hy).elim
    | mul _ h3 => exact ih h3

theorem SumOf.each {xs : List SV} {r c : Nat} {A : Matrix (Fin r) (Fin c) K} (h : SumOf P xs r c A) : ∀ v ∈ xs, ∃ B, P v r c B := by
  induction h with
  | one h => simpa using ⟨_, h⟩
  | cons h _ ih =>
    intro v hv
    rcases List.mem_cons.1 hv with rfl | hv
    · exact ⟨_, h⟩
    · exact ih v hv

theorem SumOf.nonempty {xs : List SV} {r c : Nat} {A : Matrix (Fin r) (Fin c) K} (h : SumOf P xs r c A) : ∃ v, v ∈ xs := by
  cases h <;> exact ⟨_, List.mem_cons_self⟩

end

open Classical in
/-- the library of matrices that checks sizes -/
noncomputable def sizeLib : Lib Unit :=
  { matLib true with
    validate := fun f xs y =>
      if (f = s%"MatAdd" ∧ ∃ r c A, SumOf (Sized ratInterp) xs r c A) ∨ f = s%"MatMul" ∧ ∃ r c A, ProdOf ratInterp (Sized ratInterp) xs r c A
      then (.ok (), y) else (.error .other, y) }

theorem sizeLib_sound : SoundLib ratInterp sizeLib := ⟨(matLib_sound true).call, (matLib_sound true).inv, (matLib_sound true).bind⟩

theorem sizeLib_matrix : SoundMatrix ratInterp sizeLib := ⟨(matLib_matrix true).mul, (matLib_matrix true).add, (matLib_matrix true).matrix⟩

theorem sizeLib_sizes : SoundSizes ratInterp sizeLib where
  doit v r c A h y := ⟨v, y, by simp [sizeLib, matLib], h⟩
  doitScalar v h y := ⟨v, y, by simp [sizeLib, matLib], h, rfl⟩
  matAdd xs r c A h y := ⟨y, by simp only [sizeLib]; rw [if_pos (.inl ⟨rfl, r, c, A, h⟩)]⟩
  matMul xs r c A h y := ⟨y, by simp only [sizeLib]; rw [if_pos (.inr ⟨rfl, r, c, A, h⟩)]⟩

theorem sizeLib_checks : ChecksSizes ratInterp sizeLib where
  matAdd xs ys r c r' c' A B h h' hne y := by
    refine ⟨.other, y, ?_⟩
    simp only [sizeLib]
    rw [if_neg]
    rintro (⟨_, m, n, C, hC⟩ | ⟨h0, _⟩)
    · obtain ⟨v, hv⟩ := h.nonempty
      obtain ⟨u, hu⟩ := h'.nonempty
      obtain ⟨_, h1⟩ := h.each v hv
      obtain ⟨_, h2⟩ := h'.each u hu
      obtain ⟨_, h3⟩ := hC.each v (by simp [hv])
      obtain ⟨_, h4⟩ := hC.each u (by simp [hu])
      obtain ⟨rfl, rfl⟩ := Sized.oneSize _ _ _ _ _ _ _ h1 h3
      obtain ⟨rfl, rfl⟩ := Sized.oneSize _ _ _ _ _ _ _ h2 h4
      exact hne rfl
    · exact absurd h0 (by decide)
  matMul xs ys r m m' c A B h h' hne y := by
    refine ⟨.other, y, ?_⟩
    simp only [sizeLib]
    rw [if_neg]
    rintro (⟨h0, _⟩ | ⟨_, r0, c0, C, hC⟩)
    · exact absurd h0 (by decide)
    · exact hne (h.fits (fun _ _ _ _ => Sized.notScalar) (fun _ v _ => Sized.oneSize v) h' hC)

/-- a row of two numbers, a column of two numbers -/
theorem row_sized : SizedMeans ratInterp (fun _ => True) false (.matrix [[.digit s%"1", .digit s%"2"]] []) 1 2 (sizedRows 1 2 [[1, 2]]) :=
  .matrix (.cons (.cons (digit_means 1 (by decide) rfl) (.cons (digit_means 2 (by decide) rfl) .nil)) .nil) rfl (by simp) (by simp)

theorem column_sized : SizedMeans ratInterp (fun _ => True) false (.matrix [[.digit s%"3"], [.digit s%"4"]] []) 2 1
    (sizedRows 2 1 [[3], [4]]) :=
  .matrix (.cons (.cons (digit_means 3 (by decide) rfl) .nil) (.cons (.cons (digit_means 4 (by decide) rfl) .nil) .nil)) rfl (by simp)
    (by simp)

/-- `(1 2)\cdot(3 4)^T` has the value 11, the product in the other order is a 2 × 2 matrix, and the sum of the row and the column raises. -/
example (w : World (St Unit)) (hw : w.ext.g.var = []) (hr : w.ext.g.isReal = none) :
    Returns (conv sizeLib (fun _ _ => M.raise .other)
      (.mul (.matrix [[.digit s%"1", .digit s%"2"]] []) (.matrix [[.digit s%"3"], [.digit s%"4"]] []))) w
      (SizedVal ratInterp true 1 1 (sizedRows 1 1 [[11]])) ∧
    Returns (conv sizeLib (fun _ _ => M.raise .other)
      (.mul (.matrix [[.digit s%"3"], [.digit s%"4"]] []) (.matrix [[.digit s%"1", .digit s%"2"]] []))) w
      (SizedVal ratInterp true 2 2 (sizedRows 2 2 [[3, 6], [4, 8]])) ∧
    RaisesAt (conv sizeLib (fun _ _ => M.raise .other)
      (.add (.matrix [[.digit s%"1", .digit s%"2"]] []) (.matrix [[.digit s%"3"], [.digit s%"4"]] []))) w ∧
    RaisesAt (conv sizeLib (fun _ _ => M.raise .other)
      (.mul (.matrix [[.digit s%"1", .digit s%"2"]] []) (.matrix [[.digit s%"1", .digit s%"2"]] []))) w := by
  have hw' : Ready ratInterp (fun _ => True) w := ⟨hr, by simp [hw]⟩
  refine ⟨?_, ?_, ?_, ?_⟩
  · have h := C69_sizes_partial sizeLib_sizes sizeLib_sound sizeLib_matrix (fun _ _ => M.raise .other) (.mul row_sized column_sized) w hw'
    rw [show sizedRows 1 2 [[(1 : ℚ), 2]] * sizedRows 2 1 [[(3 : ℚ)], [4]] = sizedRows 1 1 [[(11 : ℚ)]] by
      ext i j
      fin_cases i; fin_cases j
      simp [Matrix.mul_apply, Fin.sum_univ_two, sizedRows]
      norm_num] at h
    exact h
  · have h := C69_sizes_partial sizeLib_sizes sizeLib_sound sizeLib_matrix (fun _ _ => M.raise .other) (.mul column_sized row_sized) w hw'
    rw [show sizedRows 2 1 [[(3 : ℚ)], [4]] * sizedRows 1 2 [[(1 : ℚ), 2]] = sizedRows 2 2 [[(3 : ℚ), 6], [4, 8]] by
      ext i j
      fin_cases i <;> fin_cases j <;> simp [Matrix.mul_apply, sizedRows] <;> norm_num] at h
    exact h
  · exact ((C69_misfits sizeLib_sizes sizeLib_checks sizeLib_sound sizeLib_matrix (fun _ _ => M.raise .other) row_sized column_sized w hw').1
      (by decide)).1
  · exact (C69_misfits sizeLib_sizes sizeLib_checks sizeLib_sound sizeLib_matrix (fun _ _ => M.raise .other) row_sized row_sized w hw').2
      (by decide)

end Verif.L2S
