import Mathlib.Algebra.Algebra.Basic
import Mathlib.LinearAlgebra.Matrix.Notation
import Mathlib.Data.Matrix.Basic
import Verif.Props.L2SRows
/-
C66: the sign of a matrix.  C69: sums, differences and products of matrices.
-/

namespace Verif.L2S
open Verif

variable {Y : Type} {L : Lib Y}

/-! ### C66 -/

/-- **C66 refuted.**  A unary minus in front of anything that is converted to a matrix (an explicit
matrix, a matrix symbol, a sum or product of matrices) raises `TypeError`, in every state. -/
theorem C66_negation_refuted (rec : Str → List (Str × PV) → M (St Y) SV) {u : T} {v : SV}
    {w w' : World (St Y)} (h : conv L rec u w = (.ok v, w')) (hv : v.isMat = true) :
    conv L rec (.neg u) w = (.error .typeError, w') := by
  have hb : v.isBasic = true := by cases v <;> first | rfl | cases hv
  rw [conv, M.bind_run, h]
  simp [convertNeg, isMatrix, hb, hv]

/-! ### C69, specification -/

section
variable {K : Type} [Field K] (I : Interp K) {A : Type} [Ring A] [Algebra K A] (leaf : SV → A)

mutual
/-- value of a matrix expression in an algebra of square matrices; scalars are multiples of the
identity -/
def mden : SV → A
  | .mat rows => leaf (.mat rows)
  | .matSym n r c => leaf (.matSym n r c)
  | .matAdd xs => mdenSum xs
  | .matMul xs => mdenProd xs
  | v => algebraMap K A (den I v)
/-- sum of the values -/
def mdenSum : List SV → A
  | [] => 0
  | v :: vs => mden v + mdenSum vs
/-- product of the values, in order -/
def mdenProd : List SV → A
  | [] => 1
  | v :: vs => mden v * mdenProd vs
end

/-- `GoodMat true v`: a matrix expression; `GoodMat false v`: a matrix expression or a scalar. -/
inductive GoodMat : Bool → SV → Prop
  | mat {rows} : GoodMat true (.mat rows)
  | matSym {n r c} : GoodMat true (.matSym n r c)
  | matAdd {xs} : (∀ x ∈ xs, GoodMat true x) → GoodMat true (.matAdd xs)
  | matMul {xs} : (∀ x ∈ xs, GoodMat false x) → GoodMat true (.matMul xs)
  | any {v} : GoodMat true v → GoodMat false v
  | scalar {v} : v.scalar = true → GoodMat false v

/-- SymPy: `doit` keeps the value (and matrices stay matrices), and the checks of `MatAdd` and
`MatMul` accept square matrices of one size. -/
structure SoundAlg (L : Lib Y) : Prop where
  doit : ∀ b v, GoodMat b v → ∀ y, ∃ v' y', L.call s%"doit" [v] y = (.ok v', y') ∧ GoodMat b v' ∧
    mden I leaf v' = mden I leaf v
  matAdd : ∀ args, (∀ a ∈ args, GoodMat true a) → ∀ y, ∃ y', L.validate s%"MatAdd" args y = (.ok (), y')
  matMul : ∀ args, (∀ a ∈ args, GoodMat false a) → ∀ y, ∃ y', L.validate s%"MatMul" args y = (.ok (), y')

/-- `MMeans p t a`: the tree `t` of a matrix expression has the value `a`.  Products are marked by
`p = true` (the right side of a difference must not be one, see `C69_difference_refuted`). -/
inductive MMeans (free : Str → Prop) (Leaf : T → A → Prop) : Bool → T → A → Prop
  | leaf {t a} : Leaf t a → MMeans free Leaf false t a
  | pos {p t a} : MMeans free Leaf p t a → MMeans free Leaf p (.pos t) a
  | group {p t a} : MMeans free Leaf p t a → MMeans free Leaf p (.group t) a
  | add {p q l r a b} : MMeans free Leaf p l a → MMeans free Leaf q r b →
      MMeans free Leaf false (.add l r) (a + b)
  | sub {p l r a b} : MMeans free Leaf p l a → MMeans free Leaf false r b →
      MMeans free Leaf false (.sub l r) (a - b)
  | mul {p q l r a b} : MMeans free Leaf p l a → MMeans free Leaf q r b →
      MMeans free Leaf true (.mul l r) (a * b)
  | smul {q l r x b} : Means I free l x → MMeans free Leaf q r b →
      MMeans free Leaf true (.mul l r) (x • b)
  | muls {p l r a x} : MMeans free Leaf p l a → Means I free r x →
      MMeans free Leaf true (.mul l r) (x • a)
  | div {p l r a x} : MMeans free Leaf p l a → Means I free r x →
      MMeans free Leaf true (.div l r) (x⁻¹ • a)
  | one {p u a} : MMeans free Leaf p u a → MMeans free Leaf p (.juxt [u]) a
  | juxt {p q u v us a b} : MMeans free Leaf p u a → MMeans free Leaf q (.juxt (v :: us)) b →
      MMeans free Leaf true (.juxt (u :: v :: us)) (a * b)
  | sjuxt {q u v us x b} : Means I free u x → MMeans free Leaf q (.juxt (v :: us)) b →
      MMeans free Leaf true (.juxt (u :: v :: us)) (x • b)
  | juxts {p u v us a x} : MMeans free Leaf p u a → Means I free (.juxt (v :: us)) x →
      MMeans free Leaf true (.juxt (u :: v :: us)) (x • a)

/-- the value is a `MatMul` -/
def SV.isMatMul : SV → Bool
  | .matMul _ => true
  | _ => false

/-- `v` is a matrix expression of value `a`; if `p` is false it is not a `MatMul`. -/
def MatVal (p : Bool) (a : A) (v : SV) : Prop :=
  GoodMat true v ∧ mden I leaf v = a ∧ (p = false → v.isMatMul = false)

/-! ### Lemmas -/

variable {I leaf}

theorem GoodMat.isMat {v : SV} (h : GoodMat true v) : v.isMat = true ∧ v.isBasic = true := by
  cases h <;> exact ⟨rfl, rfl⟩

theorem GoodMat.isBasic {b : Bool} {v : SV} (h : GoodMat b v) : v.isBasic = true := by
  cases h with
  | any h => exact h.isMat.2
  | scalar h => cases v <;> first | rfl | cases h
  | _ => rfl

theorem mden_scalar {v : SV} (h : v.scalar = true) : mden I leaf v = algebraMap K A (den I v) := by
  cases v <;> first | rfl | cases h

theorem mdenSum_append (xs ys : List SV) :
    mdenSum I leaf (xs ++ ys) = mdenSum I leaf xs + mdenSum I leaf ys := by
  induction xs with
  | nil => simp [mdenSum]
  | cons a xs ih => simp [mdenSum, ih, add_assoc]

theorem mdenProd_append (xs ys : List SV) :
    mdenProd I leaf (xs ++ ys) = mdenProd I leaf xs * mdenProd I leaf ys := by
  induction xs with
  | nil => simp [mdenProd]
  | cons a xs ih => simp [mdenProd, ih, mul_assoc]

theorem returns_libExt {α : Type} {f : Ext Y α} {w : World (St Y)} {P : α → Prop}
    (h : ∀ y, ∃ v y', f y = (.ok v, y') ∧ P v) : Returns (libExt f) w P := by
  obtain ⟨v, y', h1, h2⟩ := h w.ext.lib
  refine ⟨v, ⟨⟨w.ext.g, y'⟩, w.out⟩, ?_, h2, SameG.refl _, rfl⟩
  simp [libExt, M.ext, h1]

variable (hA : SoundAlg I leaf L)
include hA

theorem doit_spec {b : Bool} {v : SV} (h : GoodMat b v) (w : World (St Y)) :
    Returns (doit L v) w fun v' => GoodMat b v' ∧ mden I leaf v' = mden I leaf v := by
  rw [doit, if_pos h.isBasic]
  exact returns_ev fun y => hA.doit b v h y

theorem doitAll_spec {b : Bool} : ∀ (vs : List SV), (∀ v ∈ vs, GoodMat b v) → ∀ w : World (St Y),
    Returns (doitAll L vs) w fun vs' => (∀ v ∈ vs', GoodMat b v) ∧
      mdenSum I leaf vs' = mdenSum I leaf vs ∧ mdenProd I leaf vs' = mdenProd I leaf vs
  | [], _, w => by rw [doitAll]; exact Returns.pure ⟨by simp, rfl, rfl⟩
  | v :: vs, h, w => by
    rw [doitAll]
    refine (doit_spec hA (h v (by simp)) w).bind fun v' w1 hv _ => ?_
    refine (doitAll_spec vs (fun u hu => h u (by simp [hu])) w1).bind fun vs' w2 hvs _ => ?_
    refine Returns.pure ⟨?_, by simp [mdenSum, hv.2, hvs.2.1], by simp [mdenProd, hv.2, hvs.2.2]⟩
    intro u hu
    rcases List.mem_cons.1 hu with rfl | hu
    · exact hv.1
    · exact hvs.1 u hu

theorem argDoitAll_spec {b : Bool} : ∀ (vs : List SV), (∀ v ∈ vs, GoodMat b v) → ∀ w : World (St Y),
    Returns (Arg.doitAll L (vs.map .sv)) w fun vs' => (∀ v ∈ vs', GoodMat b v) ∧
      mdenProd I leaf vs' = mdenProd I leaf vs
  | [], _, w => by rw [List.map_nil, Arg.doitAll]; exact Returns.pure ⟨by simp, rfl⟩
  | v :: vs, h, w => by
    rw [List.map_cons, Arg.doitAll]
    refine (doit_spec hA (h v (by simp)) w).bind fun v' w1 hv _ => ?_
    refine (argDoitAll_spec vs (fun u hu => h u (by simp [hu])) w1).bind fun vs' w2 hvs _ => ?_
    refine Returns.pure ⟨?_, by simp [mdenProd, hv.2, hvs.2]⟩
    intro u hu
    rcases List.mem_cons.1 hu with rfl | hu
    · exact hv.1
    · exact hvs.1 u hu

theorem mkMatMul_spec {args : List SV} (h : ∀ a ∈ args, GoodMat false a) (w : World (St Y)) :
    Returns (mkMatMul L args) w (MatVal I leaf true (mdenProd I leaf args)) := by
  rw [mkMatMul]
  refine (returns_libExt (P := fun _ => True) fun y => ?_).bind fun _ w1 _ _ => ?_
  · obtain ⟨y', hy⟩ := hA.matMul args h y; exact ⟨(), y', hy, trivial⟩
  · exact Returns.pure ⟨.matMul h, by rw [mden], by simp⟩

theorem mkMatAdd_spec {args : List SV} (h : ∀ a ∈ args, GoodMat true a) (w : World (St Y)) :
    Returns (mkMatAdd L args) w (MatVal I leaf false (mdenSum I leaf args)) := by
  rw [mkMatAdd]
  refine (returns_libExt (P := fun _ => True) fun y => ?_).bind fun _ w1 _ _ => ?_
  · obtain ⟨y', hy⟩ := hA.matAdd args h y; exact ⟨(), y', hy, trivial⟩
  · exact Returns.pure ⟨.matAdd h, by rw [mden], fun _ => rfl⟩

omit hA in
theorem matAddArgs_spec {v : SV} (h : GoodMat true v) :
    (∀ a ∈ v.matAddArgs, GoodMat true a) ∧ mdenSum I leaf v.matAddArgs = mden I leaf v := by
  have single : (∀ a ∈ [v], GoodMat true a) ∧ mdenSum I leaf [v] = mden I leaf v :=
    ⟨by simpa using h, by simp [mdenSum]⟩
  cases h with
  | matAdd h => exact ⟨h, by rw [mden]; rfl⟩
  | _ => exact single

theorem matAddFlat_spec {l r : SV} (hl : GoodMat true l) (hr : GoodMat true r) (w : World (St Y)) :
    Returns (matAddFlat L l r) w (MatVal I leaf false (mden I leaf l + mden I leaf r)) := by
  obtain ⟨l1, l2⟩ := matAddArgs_spec (I := I) (leaf := leaf) hl
  obtain ⟨r1, r2⟩ := matAddArgs_spec (I := I) (leaf := leaf) hr
  rw [matAddFlat]
  refine (doitAll_spec hA (b := true) (l.matAddArgs ++ r.matAddArgs) ?_ w).bind fun vs w1 hvs _ => ?_
  · intro v hv
    rcases List.mem_append.1 hv with h | h
    · exact l1 v h
    · exact r1 v h
  · rw [← l2, ← r2, ← mdenSum_append, ← hvs.2.1]
    exact mkMatAdd_spec hA hvs.1 w1

omit hA in
theorem matMulArgs_spec {v : SV} (h : GoodMat false v) :
    ∃ xs : List SV, (Arg.sv v).matMulArgs = xs.map .sv ∧ (∀ a ∈ xs, GoodMat false a) ∧
      mdenProd I leaf xs = mden I leaf v := by
  have single : ((Arg.sv v).matMulArgs = [v].map .sv) → ∃ xs : List SV,
      (Arg.sv v).matMulArgs = xs.map .sv ∧ (∀ a ∈ xs, GoodMat false a) ∧
      mdenProd I leaf xs = mden I leaf v :=
    fun e => ⟨[v], e, by simpa using h, by simp [mdenProd]⟩
  cases v with
  | matMul xs =>
    refine ⟨xs, rfl, ?_, by rw [mden]⟩
    cases h with
    | any h => cases h with | matMul h => exact h
    | scalar h => cases h
  | _ => exact single rfl

theorem matMulFlat_spec {l r : SV} (hl : GoodMat false l) (hr : GoodMat false r) (w : World (St Y)) :
    Returns (matMulFlat L (.sv l) (.sv r)) w (MatVal I leaf true (mden I leaf l * mden I leaf r)) := by
  rw [matMulFlat]
  by_cases hc : (Arg.isMatMul (.sv l) || Arg.isMatMul (.sv r)) = true
  · rw [if_pos hc]
    obtain ⟨xs, l0, l1, l2⟩ := matMulArgs_spec (I := I) (leaf := leaf) hl
    obtain ⟨ys, r0, r1, r2⟩ := matMulArgs_spec (I := I) (leaf := leaf) hr
    rw [l0, r0, ← List.map_append]
    refine (argDoitAll_spec hA (b := false) (xs ++ ys) ?_ w).bind fun vs w1 hvs _ => ?_
    · intro v hv
      rcases List.mem_append.1 hv with h | h
      · exact l1 v h
      · exact r1 v h
    · rw [← l2, ← r2, ← mdenProd_append, ← hvs.2]
      exact mkMatMul_spec hA hvs.1 w1
  · rw [if_neg hc, Arg.tryDoit, if_pos (show (Arg.sv l).hasDoit = true from hl.isBasic), Arg.tryDoit,
      if_pos (show (Arg.sv r).hasDoit = true from hr.isBasic)]
    refine (doit_spec hA hl w).bind fun a w1 ha _ => ?_
    refine (doit_spec hA hr w1).bind fun b w2 hb _ => ?_
    rw [← ha.2, ← hb.2]
    refine (mkMatMul_spec hA (args := [a, b]) ?_ w2).mono fun v hv => ?_
    · simp [ha.1, hb.1]
    · simpa [mdenProd] using hv

/-- `(-1) * r` for a matrix that is not a product -/
theorem matMulFlat_neg {r : SV} (hr : GoodMat true r) (hn : r.isMatMul = false) (w : World (St Y)) :
    Returns (matMulFlat L (.int (-1)) (.sv r)) w (MatVal I leaf true (-mden I leaf r)) := by
  have h0 : Arg.isMatMul (.sv r) = false := by cases r <;> first | rfl | cases hn
  rw [matMulFlat, if_neg (by rw [h0]; simp [Arg.isMatMul]), Arg.tryDoit, if_neg (by simp [Arg.hasDoit]),
    Arg.tryDoit, if_pos (show (Arg.sv r).hasDoit = true from hr.isMat.2)]
  refine (doit_spec hA hr w).bind fun b w2 hb _ => ?_
  refine (mkMatMul_spec hA (args := [.num (-1), b]) ?_ w2).mono fun v hv => ?_
  · intro a ha
    rcases List.mem_cons.1 ha with rfl | ha
    · exact .scalar rfl
    · rw [List.mem_singleton.1 ha]; exact .any hb.1
  · have e : mden I leaf (.num (-1)) = (-1 : A) := by
      rw [mden_scalar rfl, den]; simp
    simpa [mdenProd, e, hb.2] using hv

omit hA in
theorem eitherMatrix_left {l r : SV} (h : GoodMat true l) :
    (eitherMatrix l r : M (St Y) Bool) = pure true := by
  rw [eitherMatrix, isMatrix, if_pos h.isMat.2, h.isMat.1]; rfl

omit hA in
theorem eitherMatrix_right {l r : SV} (hl : l.scalar = true) (h : GoodMat true r) :
    (eitherMatrix l r : M (St Y) Bool) = pure true := by
  rw [eitherMatrix, isMatrix_scalar hl, isMatrix, if_pos h.isMat.2, h.isMat.1]; rfl

omit hA in
theorem postKind_mat {v : SV} (h : GoodMat true v) : (postKind v : M (St Y) PostKind) = pure .factor := by
  cases h <;> rfl

theorem convertMul_mm {l r : SV} (hl : GoodMat true l) (hr : GoodMat true r) (w : World (St Y)) :
    Returns (convertMul L l r) w (MatVal I leaf true (mden I leaf l * mden I leaf r)) := by
  rw [convertMul, eitherMatrix_left hl]
  exact matMulFlat_spec hA (.any hl) (.any hr) w

theorem convertMul_sm {l r : SV} (hl : l.scalar = true) (hr : GoodMat true r) (w : World (St Y)) :
    Returns (convertMul L l r) w (MatVal I leaf true (den I l • mden I leaf r)) := by
  rw [convertMul, eitherMatrix_right hl hr, Algebra.smul_def, ← mden_scalar (leaf := leaf) hl]
  exact matMulFlat_spec hA (.scalar hl) (.any hr) w

theorem convertMul_ms {l r : SV} (hl : GoodMat true l) (hr : r.scalar = true) (w : World (St Y)) :
    Returns (convertMul L l r) w (MatVal I leaf true (den I r • mden I leaf l)) := by
  rw [convertMul, eitherMatrix_left hl, Algebra.smul_def, Algebra.commutes,
    ← mden_scalar (leaf := leaf) hr]
  exact matMulFlat_spec hA (.any hl) (.scalar hr) w

/-! ### C69 -/

/-- **C69.**  Sums, differences, products and scalar multiples of square matrices are converted to
matrix expressions of the right value, in order (products do not commute), for every nesting and every
state.  Missing (hence partial): a difference whose right side is a product, which raises
(`C69_difference_refuted`), unary minus (`C66_negation_refuted`), and matrices that are not square. -/
theorem C69_matrix_partial [CharZero K] (hL : SoundLib I L)
    (rec : Str → List (Str × PV) → M (St Y) SV) {free : Str → Prop} {Leaf : T → A → Prop}
    (hleaf : ∀ t a, Leaf t a → ∀ w : World (St Y), Ready I free w →
      Returns (conv L rec t) w (MatVal I leaf false a))
    {p : Bool} {t : T} {a : A} (h : MMeans I free Leaf p t a) :
    ∀ w : World (St Y), Ready I free w →
      Returns (conv L rec t) w (MatVal I leaf p a) := by
  have keep : ∀ {w w' : World (St Y)}, Ready I free w → SameG w.ext.g w'.ext.g → Ready I free w' :=
    fun hw hs => hw.keep hs
  induction h with
  | leaf h => exact hleaf _ _ h
  | pos _ ih => intro w hw; rw [conv]; exact ih w hw
  | group _ ih => intro w hw; rw [conv]; exact ih w hw
  | add _ _ ihl ihr =>
    intro w hw; rw [conv]
    refine (ihl w hw).bind fun l w1 hl s1 => ?_
    refine (ihr w1 (keep hw s1)).bind fun r w2 hr _ => ?_
    rw [convertAdd, eitherMatrix_left hl.1, ← hl.2.1, ← hr.2.1]
    exact matAddFlat_spec hA hl.1 hr.1 w2
  | sub _ _ ihl ihr =>
    intro w hw; rw [conv]
    refine (ihl w hw).bind fun l w1 hl s1 => ?_
    refine (ihr w1 (keep hw s1)).bind fun r w2 hr _ => ?_
    rw [convertSub, eitherMatrix_left hl.1, sub_eq_add_neg, ← hl.2.1, ← hr.2.1]
    refine (matMulFlat_neg hA hr.1 (hr.2.2 rfl) w2).bind fun n w3 hn _ => ?_
    rw [← hn.2.1]
    exact matAddFlat_spec hA hl.1 hn.1 w3
  | mul _ _ ihl ihr =>
    intro w hw; rw [conv]
    refine (ihl w hw).bind fun l w1 hl s1 => ?_
    refine (ihr w1 (keep hw s1)).bind fun r w2 hr _ => ?_
    rw [← hl.2.1, ← hr.2.1]
    exact convertMul_mm hA hl.1 hr.1 w2
  | smul hs _ ihr =>
    intro w hw; rw [conv]
    refine (C62_conversion_partial I L hL rec hs w hw).returns.bind fun l w1 hl s1 => ?_
    refine (ihr w1 (keep hw s1)).bind fun r w2 hr _ => ?_
    rw [← hl.2, ← hr.2.1]
    exact convertMul_sm hA hl.1 hr.1 w2
  | muls _ hs ihl =>
    intro w hw; rw [conv]
    refine (ihl w hw).bind fun l w1 hl s1 => ?_
    refine (C62_conversion_partial I L hL rec hs w1 (keep hw s1)).returns.bind fun r w2 hr _ => ?_
    rw [← hl.2.1, ← hr.2]
    exact convertMul_ms hA hl.1 hr.1 w2
  | @div p l r a x _ hs ihl =>
    intro w hw; rw [conv]
    refine (ihl w hw).bind fun l w1 hl s1 => ?_
    refine (C62_conversion_partial I L hL rec hs w1 (keep hw s1)).returns.bind fun r w2 hr _ => ?_
    obtain ⟨q, h1, h2, h3⟩ := gives_mkPow I L hr.1 (e := .num (-1)) rfl
    rw [convertDiv, eitherMatrix_left hl.1]
    show Returns (mkPow L r (.num (-1)) >>= fun p => mkMatMul L [l, p]) w2 _
    rw [h1]
    refine (mkMatMul_spec hA (args := [l, q]) ?_ w2).mono fun v hv => ?_
    · intro u hu
      rcases List.mem_cons.1 hu with rfl | hu
      · exact .any hl.1
      · rw [List.mem_singleton.1 hu]; exact .scalar h2
    · have e : den I (.num (-1)) = (-1 : K) := by simp [den]
      rw [e, I.pw_neg_one, hr.2] at h3
      have e2 : mdenProd I leaf [l, q] = x⁻¹ • a := by
        rw [mdenProd, mdenProd, mdenProd, mul_one, mden_scalar h2, h3, hl.2.1, Algebra.smul_def,
          Algebra.commutes]
      rw [e2] at hv; exact hv
  | one _ ih =>
    intro w hw; rw [conv, convJuxt]
    refine (ih w hw).bind fun v w1 hv _ => ?_
    rw [postKind_mat hv.1]
    exact Returns.pure hv
  | @juxt p q u v us a b _ _ ihl ihr =>
    intro w hw; rw [conv, convJuxt]
    refine (ihl w hw).bind fun l w1 hl s1 => ?_
    rw [postKind_mat hl.1]
    have ihr' := ihr w1 (keep hw s1)
    rw [conv] at ihr'
    show Returns (convJuxt L rec (v :: us) >>= fun r => convertMul L l r) w1 _
    refine ihr'.bind fun r w2 hr _ => ?_
    rw [← hl.2.1, ← hr.2.1]
    exact convertMul_mm hA hl.1 hr.1 w2
  | @sjuxt q u v us x b hs _ ihr =>
    intro w hw; rw [conv, convJuxt]
    refine (C62_conversion_partial I L hL rec hs w hw).returns.bind fun l w1 hl s1 => ?_
    rw [postKind_scalar hl.1]
    have ihr' := ihr w1 (keep hw s1)
    rw [conv] at ihr'
    show Returns (convJuxt L rec (v :: us) >>= fun r => convertMul L l r) w1 _
    refine ihr'.bind fun r w2 hr _ => ?_
    rw [← hl.2, ← hr.2.1]
    exact convertMul_sm hA hl.1 hr.1 w2
  | @juxts p u v us a x _ hs ihl =>
    intro w hw; rw [conv, convJuxt]
    refine (ihl w hw).bind fun l w1 hl s1 => ?_
    rw [postKind_mat hl.1]
    have ihr' := (C62_conversion_partial I L hL rec hs w1 (keep hw s1)).returns
    rw [conv] at ihr'
    show Returns (convJuxt L rec (v :: us) >>= fun r => convertMul L l r) w1 _
    refine ihr'.bind fun r w2 hr _ => ?_
    rw [← hl.2.1, ← hr.2]
    exact convertMul_ms hA hl.1 hr.1 w2

end

/-- **C69 refuted for differences of products.**  If the right side of a difference is a matrix product
(converted to a `MatMul`), as in `A - B C`, the conversion raises `AttributeError`: the Python integer
-1 has no method `doit`. -/
theorem C69_difference_refuted (rec : Str → List (Str × PV) → M (St Y) SV) {l r : T} {a : SV}
    {xs : List SV} {w w1 w2 : World (St Y)} (hl : conv L rec l w = (.ok a, w1))
    (ha : a.isBasic = true) (hr : conv L rec r w1 = (.ok (.matMul xs), w2)) :
    conv L rec (.sub l r) w = (.error .attributeError, w2) := by
  rw [conv]
  simp only [M.bind_run, hl, hr]
  have he : (eitherMatrix a (.matMul xs) : M (St Y) Bool) = pure true := by
    rw [eitherMatrix, isMatrix, if_pos ha]
    cases h : a.isMat <;> rfl
  rw [convertSub, he]
  rfl

/-! ### Explicit matrices -/

section
variable {K : Type} [Field K] (I : Interp K)

/-- the matrix with the given rows -/
def ofRows (n : Nat) (rows : List (List K)) : Matrix (Fin n) (Fin n) K :=
  Matrix.of fun i j => (rows.getD i.val []).getD j.val 0

/-- value of an explicit matrix -/
def explicitLeaf (n : Nat) : SV → Matrix (Fin n) (Fin n) K
  | .mat rows => ofRows n (rows.map (denList I))
  | _ => 0

/-- The tree of an explicit square matrix with `n` rows. -/
inductive Explicit (free : Str → Prop) (n : Nat) : T → Matrix (Fin n) (Fin n) K → Prop
  | intro {ts xs} : MeansRows I free ts xs → xs.length = n → (∀ r ∈ xs, r.length = n) →
      Explicit free n (.matrix ts []) (ofRows n xs)

/-- **C69 for explicit matrices**: expressions in explicit `n × n` matrices over a field have the
value of matrix algebra. -/
theorem C69_explicit_partial [CharZero K] (hL : SoundLib I L) (hM : SoundMatrix I L) {n : Nat}
    (hA : SoundAlg I (explicitLeaf I n) L) (rec : Str → List (Str × PV) → M (St Y) SV)
    {free : Str → Prop} {p : Bool} {t : T} {a : Matrix (Fin n) (Fin n) K}
    (h : MMeans I free (Explicit I free n) p t a) (w : World (St Y))
    (hw : Ready I free w) :
    ∃ v w', conv L rec t w = (.ok v, w') ∧ v.isMat = true ∧ mden I (explicitLeaf I n) v = a := by
  obtain ⟨v, w', h1, h2, -, -⟩ := C69_matrix_partial hA hL rec (fun t a ht w hw => by
    obtain ⟨hr, h1, h2⟩ := ht
    rename_i ts xs
    rw [conv]
    refine (convRows_spec hL rec hr w hw).bind fun rows w1 hrows _ => ?_
    obtain ⟨g1, rfl⟩ := hrows
    have hlen : ∀ r ∈ rows, r.length = n := by
      intro r hr
      have := h2 (denList I r) (List.mem_map.2 ⟨r, hr, rfl⟩)
      rw [denList_eq_map, List.length_map] at this
      exact this
    refine (returns_ev (P := fun v => v = .mat rows) fun y => ?_).bind fun m w2 hm _ => ?_
    · obtain ⟨y', hy⟩ := hM.matrix rows g1 (fun r hr r' hr' => by rw [hlen r hr, hlen r' hr']) y
      exact ⟨_, y', hy, rfl⟩
    · subst hm
      exact Returns.pure ⟨.mat, by rw [mden, explicitLeaf], fun _ => rfl⟩) h w hw
  exact ⟨v, w', h1, h2.1.isMat.1, h2.2.1⟩

end

/-! ### Non-vacuity -/

theorem matLib_alg (acc : Bool) {A : Type} [Ring A] [Algebra ℚ A] (leaf : SV → A) :
    SoundAlg ratInterp leaf (matLib acc) where
  doit b v h y := ⟨v, y, by simp [matLib], h, rfl⟩
  matAdd _ _ y := ⟨y, rfl⟩
  matMul _ _ y := ⟨y, rfl⟩

/-- `A A - 2 \cdot (A + A)`-like: a difference whose right side is a sum; `A` is the matrix with rows
1, 2 and 3, 4 -/
example (w : World (St Unit)) (hw : w.ext.g.var = []) (hr : w.ext.g.isReal = none) : ∃ v w',
    conv (matLib true) (fun _ _ => M.raise .other)
      (.sub (.mul (.matrix [[.digit s%"1", .digit s%"2"], [.digit s%"3", .digit s%"4"]] [])
          (.matrix [[.digit s%"1", .digit s%"2"], [.digit s%"3", .digit s%"4"]] []))
        (.group (.add (.matrix [[.digit s%"1", .digit s%"2"], [.digit s%"3", .digit s%"4"]] [])
          (.mul (.digit s%"5")
            (.matrix [[.digit s%"1", .digit s%"2"], [.digit s%"3", .digit s%"4"]] []))))) w = (.ok v, w') ∧
      v.isMat = true ∧ mden ratInterp (explicitLeaf ratInterp 2) v =
        ofRows 2 [[1, 2], [3, 4]] * ofRows 2 [[1, 2], [3, 4]]
          - (ofRows 2 [[1, 2], [3, 4]] + (5 : ℚ) • ofRows 2 [[1, 2], [3, 4]]) := by
  have hx : MMeans ratInterp (fun _ => True) (Explicit ratInterp (fun _ => True) 2) false
      (.matrix [[.digit s%"1", .digit s%"2"], [.digit s%"3", .digit s%"4"]] [])
      (ofRows 2 [[1, 2], [3, 4]]) := .leaf (.intro arrow_rows rfl (by simp))
  exact C69_explicit_partial ratInterp (matLib_sound _) (matLib_matrix _) (matLib_alg _ _) _
    (.sub (.mul hx hx) (.group (.add hx (.smul (digit_means 5 (by decide) rfl) hx)))) w ⟨hr, by simp [hw]⟩

/-- the negative of an explicit matrix raises -/
example (w : World (St Unit)) (hw : w.ext.g.var = []) (hr : w.ext.g.isReal = none) :
    (conv (matLib true) (fun _ _ => M.raise .other)
      (.neg (.matrix [[.digit s%"1", .digit s%"2"], [.digit s%"3", .digit s%"4"]] [])) w).1
      = .error .typeError := by
  obtain ⟨v, w', h1, h2, -⟩ := C69_explicit_partial ratInterp (matLib_sound _) (matLib_matrix _)
    (matLib_alg true _) (fun _ _ => M.raise .other)
    (.leaf (.intro arrow_rows rfl (by simp)) : MMeans ratInterp (fun _ => True)
      (Explicit ratInterp (fun _ => True) 2) false _ _) w ⟨hr, by simp [hw]⟩
  rw [C66_negation_refuted _ h1 h2]

/-- the difference of a matrix and a product of matrices raises -/
example (w : World (St Unit)) (hw : w.ext.g.var = []) (hr : w.ext.g.isReal = none) :
    (conv (matLib true) (fun _ _ => M.raise .other)
      (.sub (.matrix [[.digit s%"1"]] []) (.mul (.matrix [[.digit s%"1"]] []) (.matrix [[.digit s%"1"]] [])))
      w).1 = .error .attributeError := by
  obtain ⟨⟨g, y⟩, o⟩ := w
  kernel_rfl

end Verif.L2S
