import Verif.Py.RegexLemmas
import Verif.Py.ReplaceLemmas
/-
Lemmas to show that a pattern cannot match in a given alphabet.
-/

namespace Verif
open Re

variable {A : Char → Bool}

theorem dead_chr {p : Char → Bool} (h : ∀ c, A c = true → p c = false) : (Re.chr p).Dead A := h

theorem dead_c {x : Char} (h : A x = false) : (c x).Dead A := by
  intro y hy
  rw [beq_eq_false_iff_ne]
  rintro rfl
  rw [h] at hy; exact Bool.noConfusion hy

theorem dead_cat {rs : List Re} {r : Re} (hr : r ∈ rs) (h : r.Dead A) : (cat rs).Dead A := by
  induction rs with
  | nil => cases hr
  | cons a as ih =>
    cases as with
    | nil => simp at hr; subst hr; exact h
    | cons b bs =>
      simp only [List.mem_cons] at hr
      rcases hr with rfl | hr
      · exact .inl h
      · exact .inr (ih (by simpa using hr))

theorem dead_lit {p : Str} {x : Char} (hx : x ∈ p) (h : A x = false) : (lit p).Dead A := by
  induction p with
  | nil => cases hx
  | cons a as ih =>
    cases as with
    | nil => simp at hx; subst hx; exact dead_c h
    | cons b bs =>
      simp only [List.mem_cons] at hx
      rcases hx with rfl | hx
      · exact .inl (dead_c h)
      · exact .inr (ih (by simpa using hx))

theorem dead_plus {r : Re} (h : r.Dead A) : (plus r).Dead A := .inl h
theorem dead_grp {n : Nat} {r : Re} (h : r.Dead A) : (grp n r).Dead A := h
theorem dead_alt {a b : Re} (h : a.Dead A) (h' : b.Dead A) : (alt a b).Dead A := ⟨h, h'⟩
theorem dead_seq_l {a b : Re} (h : a.Dead A) : (seq a b).Dead A := .inl h
theorem dead_seq_r {a b : Re} (h : b.Dead A) : (seq a b).Dead A := .inr h

theorem reSubConst_dead {r : Re} {new s : Str} (hd : r.Dead A) (hs : ∀ c ∈ s, A c = true) :
    reSubConst r new s = s := reSub_dead r _ s hd hs

theorem not_infix_alpha {p s : Str} {x : Char} (hx : x ∈ p) (h : A x = false) (hs : ∀ c ∈ s, A c = true) :
    ¬ p <:+: s := by
  apply not_infix_of_not_mem x hx
  intro hm
  have := hs x hm
  rw [h] at this; exact Bool.noConfusion this

theorem replace_alpha {p new s : Str} {x : Char} (hx : x ∈ p) (h : A x = false) (hs : ∀ c ∈ s, A c = true) :
    replace p new s = s := replace_id _ _ _ (not_infix_alpha hx h hs)

theorem contains_alpha {p s : Str} {x : Char} (hx : x ∈ p) (h : A x = false) (hs : ∀ c ∈ s, A c = true) :
    contains p s = false := (contains_eq_false _ _).2 (not_infix_alpha hx h hs)

end Verif
