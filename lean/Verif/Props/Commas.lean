import Verif.Props.LastStage
import Verif.Props.SplitTuple
/-
Property C21: thousands separators.
-/

namespace Verif
open Re

variable {X V S : Type}

/-! ### Specification -/

/-- Three decimal digits. -/
def pad3 (k : Nat) : Str := [digitChar (k / 100), digitChar (k / 10 % 10), digitChar (k % 10)]

/-- The decimal spelling of a number with a comma before each group of three digits. -/
def grouped (n : Nat) : Str :=
  if n < 1000 then natStr n else grouped (n / 1000) ++ s%"," ++ pad3 (n % 1000)
termination_by n
decreasing_by omega

example : grouped 1234567 = s%"1,234,567" := by
  rw [grouped, grouped, grouped]; decide +kernel
example : grouped 1000007 = s%"1,000,007" := by
  rw [grouped, grouped, grouped]; decide +kernel

/-! ### Proof -/

/-- One more iteration of a greedy repetition. -/
theorem First.star_step {r : Re} {s t v : RSt} (h : r.First s t) (hl : t.rest.length < s.rest.length)
    (h' : (Re.many r).First t v) : (Re.many r).First s v := by
  unfold Re.First at *
  have e : ∀ s, (Re.many r).run s = starGo true r.run s.rest.length s := fun _ => rfl
  rw [e] at h' ⊢
  obtain ⟨k, hk⟩ : ∃ k, s.rest.length = k + 1 := ⟨s.rest.length - 1, by omega⟩
  rw [hk]
  simp only [starGo, if_true]
  cases hr : r.run s with
  | nil => rw [hr] at h; cases h
  | cons a as =>
    rw [hr] at h
    simp only [List.head?_cons, Option.some.injEq] at h
    subst h
    rw [List.filter_cons_of_pos (by simpa using hl), List.flatMap_cons, List.append_assoc, starGo_fuel true r.run k a.rest.length a (by omega) (Nat.le_refl _)]
    cases hg : starGo true r.run a.rest.length a with
    | nil => rw [hg] at h'; cases h'
    | cons b bs => rw [hg] at h'; simpa using h'

theorem First.star_nil {r : Re} {s : RSt} (h : r.run s = []) : (Re.many r).First s s := by
  unfold Re.First
  show (starGo true r.run s.rest.length s).head? = _
  cases s.rest.length with
  | zero => rfl
  | succ k => simp [starGo, h]

theorem First.plus_of {r : Re} {s t v : RSt} (h : r.First s t) (h' : (Re.many r).First t v) : (Re.plus r).First s v := First.seq h h'

theorem pad3_digits {k : Nat} (h : k < 1000) : ∀ c ∈ pad3 k, asciiDigit c = true := by
  intro c hc
  simp only [pad3, List.mem_cons, List.not_mem_nil, or_false] at hc
  rcases hc with rfl | rfl | rfl <;> exact asciiDigit_digitChar (by omega)

theorem natStr_1000 {n : Nat} (h : 1000 ≤ n) : natStr n = natStr (n / 1000) ++ pad3 (n % 1000) := by
  rw [natStr_of_ge (n := n) (by omega), natStr_of_ge (n := n / 10) (by omega), natStr_of_ge (n := n / 10 / 10) (by omega)]
  have e1 : n / 10 / 10 / 10 = n / 1000 := by omega
  have e2 : n / 10 / 10 % 10 = n % 1000 / 100 := by omega
  have e3 : n / 10 % 10 = n % 1000 / 10 % 10 := by omega
  have e4 : n % 10 = n % 1000 % 10 := by omega
  rw [e1, e2, e3, e4]
  simp [pad3]

/-- The groups of the spelling with commas. -/
theorem grouped_groups (n : Nat) : ∃ (g : Str) (gs : List Str), grouped n = g ++ (gs.map fun x => ',' :: x).flatten ∧
    natStr n = g ++ gs.flatten ∧ (1 ≤ g.length ∧ g.length ≤ 3) ∧ (∀ c ∈ g, asciiDigit c = true) ∧
    (∀ x ∈ gs, x.length = 3 ∧ ∀ c ∈ x, asciiDigit c = true) := by
  induction n using Nat.strongRecOn with
  | _ n ih =>
    by_cases h : n < 1000
    · refine ⟨natStr n, [], ?_, by simp, ⟨?_, natStr_length_lt n 3 (by omega) (by omega)⟩, natStr_digits n, by simp⟩
      · rw [grouped, if_pos h]; simp
      · exact List.length_pos_iff.2 (natStr_ne_nil n)
    · obtain ⟨g, gs, h1, h2, h3, h4, h5⟩ := ih (n / 1000) (by omega)
      refine ⟨g, gs ++ [pad3 (n % 1000)], ?_, ?_, h3, h4, ?_⟩
      · rw [grouped, if_neg h, h1]; simp
      · rw [natStr_1000 (by omega), h2]; simp
      · intro x hx
        rcases List.mem_append.1 hx with hx | hx
        · exact h5 x hx
        · rw [List.mem_singleton.1 hx]
          exact ⟨rfl, pad3_digits (Nat.mod_lt _ (by norm_num))⟩

theorem first_d13 {U : Uni} {g cs : Str} (pre : Str) (caps : List (Nat × Str)) (hd : ∀ x ∈ g, isDigit U x = true)
    (h1 : 1 ≤ g.length) (h3 : g.length ≤ 3) (hc : ∀ x, cs.head? = some x → isDigit U x = false) :
    (d13 U).First ⟨pre, g ++ cs, caps⟩ ⟨g.reverse ++ pre, cs, caps⟩ := by
  match g, h1, h3, hd with
  | [a], _, _, hd =>
    exact First.seq (First.chr (hd a (by simp))) (First.alt_r (run_seq_nil (run_chr_empty hc)) (First.eps _))
  | [a, b], _, _, hd =>
    exact First.seq (First.chr (hd a (by simp))) (First.alt_l (First.seq (First.chr (hd b (by simp)))
      (First.alt_r (run_chr_empty hc) (First.eps _))))
  | [a, b, e], _, _, hd =>
    exact First.seq (First.chr (hd a (by simp))) (First.alt_l (First.seq (First.chr (hd b (by simp)))
      (First.alt_l (First.chr (hd e (by simp))))))

/-- One group after a comma. -/
theorem first_group {U : Uni} {x cs : Str} (pre : Str) (caps : List (Nat × Str)) (hl : x.length = 3)
    (hd : ∀ c ∈ x, isDigit U c = true) :
    (cat [c ',', opt (c ' '), d U, d U, d U]).First ⟨pre, ',' :: (x ++ cs), caps⟩ ⟨x.reverse ++ ',' :: pre, cs, caps⟩ := by
  obtain ⟨a, b, e, rfl⟩ := List.length_eq_three.1 hl
  have ha : isDigit U a = true := hd a (by simp)
  refine First.cat_cons (First.c ',' _ _ _) (First.cat_cons (First.opt_none (run_chr_empty ?_))
    (First.cat_cons (First.chr ha) (First.cat_cons (First.chr (hd b (by simp))) (First.cat_one (First.chr (hd e (by simp)))))))
  rintro _ ⟨⟩
  rw [beq_eq_false_iff_ne]
  exact isDigit_ne ha rfl

theorem first_groups {U : Uni} (gs : List Str) (pre : Str) (caps : List (Nat × Str))
    (hg : ∀ x ∈ gs, x.length = 3 ∧ ∀ c ∈ x, isDigit U c = true) :
    ∃ pre', (many (cat [c ',', opt (c ' '), d U, d U, d U])).First ⟨pre, (gs.map fun x => ',' :: x).flatten, caps⟩ ⟨pre', [], caps⟩ := by
  induction gs generalizing pre with
  | nil => exact ⟨pre, First.star_nil rfl⟩
  | cons x xs ih =>
    obtain ⟨hl, hd⟩ := hg x (by simp)
    obtain ⟨pre', h⟩ := ih (x.reverse ++ ',' :: pre) (fun y hy => hg y (by simp [hy]))
    refine ⟨pre', First.star_step (first_group pre caps hl hd) ?_ h⟩
    simp; omega

theorem stripCommas_nocomma {U : Uni} {s : Str} (h : ',' ∉ s) : stripCommas U s = s := by
  apply reSub_of_lang
  rintro u ⟨a, b, rfl, _, hb⟩ hi
  obtain ⟨b1, b2, rfl, hb1, _⟩ := hb
  obtain ⟨p, v, q, rfl, hv⟩ := lang_cat_mem (r := c ',') (by simp) hb1
  rw [lang_c.1 hv] at hi
  exact h (hi.subset (by simp))

/-- C21: removing the properly placed commas of the grouped spelling of any number gives its plain spelling. -/
theorem C21_thousands (U : Uni) (n : Nat) : stripCommas U (grouped n) = natStr n := by
  obtain ⟨g, gs, h1, h2, ⟨h3, h3'⟩, h4, h5⟩ := grouped_groups n
  have h4' : ∀ c ∈ g, isDigit U c = true := fun c hc => isDigit_of_ascii (U := U) (h4 c hc)
  have h5' : ∀ x ∈ gs, x.length = 3 ∧ ∀ c ∈ x, isDigit U c = true :=
    fun x hx => ⟨(h5 x hx).1, fun c hc => isDigit_of_ascii (U := U) ((h5 x hx).2 c hc)⟩
  have hnc : ∀ l : Str, (∀ c ∈ l, asciiDigit c = true) → ',' ∉ l := fun l hl hm => absurd (hl _ hm) (by decide)
  cases gs with
  | nil =>
    rw [h1, h2]
    simp only [List.map_nil, List.flatten_nil, List.append_nil]
    exact stripCommas_nocomma (hnc g h4)
  | cons x xs =>
    obtain ⟨pre', hf⟩ := first_groups (U := U) xs (x.reverse ++ ',' :: (g.reverse ++ [])) [] (fun y hy => h5' y (by simp [hy]))
    have hfirst : (commasRe U).First ⟨[], grouped n ++ [], []⟩ ⟨pre', [], []⟩ := by
      rw [h1, List.append_nil]
      refine First.seq (first_d13 [] [] h4' h3 h3' (by rintro _ ⟨⟩; rfl)) ?_
      obtain ⟨hl, hd⟩ := h5' x (by simp)
      have := First.plus_of (first_group (cs := (xs.map fun x => ',' :: x).flatten) (g.reverse ++ []) [] hl hd) hf
      simpa using this
    have hsc := First.scanner (fun m _ => replace s%"," [] m) hfirst
    have hne : grouped n ≠ [] := by
      rw [h1]; intro e
      have := congrArg List.length e
      simp at this
    have := scanSub_match ((commasRe U).scanner fun m _ => replace s%"," [] m) [] (grouped n) [] _ hne hsc
    rw [List.append_nil] at this
    unfold stripCommas reSub
    rw [this]
    have hlast : scanSub ((commasRe U).scanner fun m _ => replace s%"," [] m) 0 ((grouped n).reverse ++ []) [] = [] := by
      have hm : (commasRe U).matchAt ((grouped n).reverse ++ []) [] = none := rfl
      simp only [scanSub, Re.scanner, hm]
    rw [hlast, List.append_nil, replace_one_nil, h1, h2]
    have key : ∀ l : List Str, (∀ x ∈ l, x.length = 3 ∧ ∀ c ∈ x, asciiDigit c = true) →
        ((l.map fun x => ',' :: x).flatten).filter (· ≠ ',') = l.flatten := by
      intro l hl
      induction l with
      | nil => rfl
      | cons y ys ih =>
        simp only [List.map_cons, List.flatten_cons, List.cons_append]
        rw [List.filter_cons_of_neg (by simp), List.filter_append, ih (fun z hz => hl z (by simp [hz]))]
        have : y.filter (fun c => decide (c ≠ ',')) = y := by
          rw [List.filter_eq_self]
          intro c hc
          simp only [ne_eq, decide_eq_true_eq]
          rintro rfl
          exact hnc y (hl y (by simp)).2 hc
        rw [this]
    rw [List.filter_append, key _ h5]
    congr 1
    rw [List.filter_eq_self]
    intro c hc
    simp only [ne_eq, decide_eq_true_eq]
    rintro rfl
    exact hnc g h4 hc

/-- C21 in context: also inside a longer answer, between characters that cannot belong to a number. -/
theorem C21_in_context (U : Uni) (n : Nat) (a b : Str) (x y : Char) (hx : isDigit U x = false ∧ x ≠ ',' ∧ x ≠ ' ')
    (hy : isDigit U y = false ∧ y ≠ ',' ∧ y ≠ ' ') :
    stripCommas U (a ++ x :: (grouped n ++ y :: b)) = stripCommas U a ++ x :: (natStr n ++ y :: stripCommas U b) := by
  have hl : ∀ x, (isDigit U x = false ∧ x ≠ ',' ∧ x ≠ ' ') → (commasRe U).Local x := by
    rintro x ⟨h1, h2, h3⟩
    have hd : (d U).Local x := h1
    exact ⟨⟨hd, ⟨hd, hd, trivial⟩, trivial⟩, ⟨local_c h2, ⟨local_c h3, trivial⟩, hd, hd, hd⟩,
      ⟨local_c h2, ⟨local_c h3, trivial⟩, hd, hd, hd⟩⟩
  have hb : ∀ x, (isDigit U x = false ∧ x ≠ ',' ∧ x ≠ ' ') → ∀ a b, stripCommas U (a ++ x :: b) = stripCommas U a ++ x :: stripCommas U b :=
    fun x hx a b => reSub_barrier (hl x hx) (fun _ _ _ _ => rfl) a b
  rw [hb x hx, hb y hy, C21_thousands]

example : stripCommas asciiUni s%"(-1,234,567)+[12,345]" = s%"(-1234567)+[12345]" := by decide +kernel

theorem splitLoop_nocomma (cnt : Int) (stack s : Str) (h : ',' ∉ s) : (splitLoop cnt stack s).length ≤ 1 := by
  induction s generalizing cnt stack with
  | nil => unfold splitLoop; split <;> simp
  | cons a as ih =>
    have ha : (a == ',') = false := by
      rw [beq_eq_false_iff_ne]; rintro rfl; exact h (by simp)
    unfold splitLoop
    rw [ha]
    simp only [Bool.false_and, Bool.false_eq_true, if_false]
    exact ih _ _ (fun hm => h (by simp [hm]))

/-- C21 for `split_tuple`: a number with thousands separators is one element. -/
theorem C21_one_element (U : Uni) (so : List Str → List Str) (n : Nat) : splitTuple U so (grouped n) none = .ok (.str (natStr n)) := by
  have hd := natStr_digits n
  have hno : ∀ x, asciiDigit x = false → x ∉ natStr n := fun x hx hm => by rw [hd x hm] at hx; cases hx
  have hdelta : ∀ c ∈ natStr n, bracketDelta c = 0 := by
    intro c hc
    have h : ∀ x, asciiDigit x = false → c ≠ x := by rintro x hx rfl; exact hno _ hx hc
    unfold bracketDelta
    simp [h '[' rfl, h '(' rfl, h '{' rfl, h ']' rfl, h ')' rfl, h '}' rfl]
  have hdep : ∀ l : Str, (∀ c ∈ l, bracketDelta c = 0) → depth l = 0 := by
    intro l hl
    induction l with
    | nil => rfl
    | cons a as ih => rw [depth_cons, hl a (by simp), ih (fun c hc => hl c (by simp [hc]))]; rfl
  have hpeel : ∀ rp, peelBrackets rp (natStr n) = (natStr n, .set) := by
    intro rp
    obtain ⟨a, as, ha⟩ := List.exists_cons_of_ne_nil (natStr_ne_nil n)
    have h : ∀ x, asciiDigit x = false → a ≠ x := by rintro x hx rfl; exact hno a hx (by rw [ha]; simp)
    unfold peelBrackets
    rw [ha]
    split
    · simp only [List.head?_cons]
      split
      · rename_i h1 _; simp at h1; exact absurd h1 (h '[' rfl)
      · rename_i h1 _; simp at h1; exact absurd h1 (h '(' rfl)
      · rename_i h1 _; simp at h1; exact absurd h1 (h '{' rfl)
      · rfl
    · rfl
  have hl := splitLoop_nocomma 0 [] (natStr n) (hno ',' rfl)
  unfold splitTuple
  simp only [C21_thousands]
  have h1 := scanBrackets_fst 0 true (natStr n)
  rw [hdep _ hdelta] at h1
  generalize scanBrackets 0 true (natStr n) = p at h1
  obtain ⟨c0, rp⟩ := p
  simp only at h1
  subst h1
  simp only [hpeel]
  rw [if_neg (by simp), if_neg (by omega)]

end Verif
