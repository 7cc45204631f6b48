import Verif.Py.RegexLemmas
import Verif.Py.ReplaceLemmas
import Verif.Py.DeadLemmas
/-
A small calculus for running regular expressions symbolically: the language of a pattern (what a match can
consist of), first matches, and substitution across a character that the pattern cannot contain.
-/

namespace Verif
open Re

/-! ### The language of a pattern -/

/-- Words that a pattern may consume (the conditions of anchors and look-arounds are ignored). -/
def Re.Lang : Re → Str → Prop
  | .eps, u => u = []
  | .chr p, u => ∃ x, u = [x] ∧ p x = true
  | .seq a b, u => ∃ x y, u = x ++ y ∧ a.Lang x ∧ b.Lang y
  | .alt a b, u => a.Lang u ∨ b.Lang u
  | .star _ r, u => ∃ xs : List Str, u = xs.flatten ∧ ∀ x ∈ xs, r.Lang x
  | .grp _ r, u => r.Lang u
  | .bos, u => u = []
  | .eos, u => u = []
  | .behind _ _, u => u = []
  | .ahead _ _, u => u = []

theorem starGo_lang (g : Bool) (f : RSt → List RSt) (L : Str → Prop)
    (ih : ∀ s t, t ∈ f s → ∃ u, s.rest = u ++ t.rest ∧ L u) (n : Nat) :
    ∀ s t, t ∈ starGo g f n s → ∃ xs : List Str, s.rest = xs.flatten ++ t.rest ∧ ∀ x ∈ xs, L x := by
  induction n with
  | zero => intro s t h; simp [starGo] at h; subst h; exact ⟨[], by simp⟩
  | succ n ihn =>
    intro s t h
    simp only [starGo] at h
    have key : ∀ t', t' ∈ ((f s).filter (fun t => decide (t.rest.length < s.rest.length))).flatMap
        (starGo g f n) → ∃ xs : List Str, s.rest = xs.flatten ++ t'.rest ∧ ∀ x ∈ xs, L x := by
      intro t' ht'
      simp only [List.mem_flatMap, List.mem_filter] at ht'
      obtain ⟨t₁, ⟨h₁, _⟩, h₂⟩ := ht'
      obtain ⟨u₁, e₁, p₁⟩ := ih s t₁ h₁
      obtain ⟨xs, e₂, p₂⟩ := ihn t₁ t' h₂
      exact ⟨u₁ :: xs, by rw [e₁, e₂]; simp, by simp; exact ⟨p₁, p₂⟩⟩
    cases g with
    | true =>
      simp only [if_true, List.mem_append, List.mem_singleton] at h
      rcases h with h | h
      · exact key t h
      · subst h; exact ⟨[], by simp⟩
    | false =>
      simp only [Bool.false_eq_true, if_false, List.mem_cons] at h
      rcases h with h | h
      · subst h; exact ⟨[], by simp⟩
      · exact key t h

/-- What was consumed is in the language. -/
theorem run_lang (r : Re) (s t : RSt) (h : t ∈ r.run s) : ∃ u, s.rest = u ++ t.rest ∧ r.Lang u := by
  induction r generalizing s t with
  | eps => simp at h; subst h; exact ⟨[], by simp [Re.Lang]⟩
  | chr p =>
    cases s with
    | mk pre rest caps =>
      cases rest with
      | nil => simp at h
      | cons c cs =>
        simp only [run_chr_cons] at h
        split at h
        · simp at h; subst h; exact ⟨[c], by simp, c, rfl, ‹_›⟩
        · simp at h
  | seq a b iha ihb =>
    simp only [run_seq, List.mem_flatMap] at h
    obtain ⟨t₁, h₁, h₂⟩ := h
    obtain ⟨u₁, e₁, p₁⟩ := iha s t₁ h₁
    obtain ⟨u₂, e₂, p₂⟩ := ihb t₁ t h₂
    exact ⟨u₁ ++ u₂, by rw [e₁, e₂, List.append_assoc], u₁, u₂, rfl, p₁, p₂⟩
  | alt a b iha ihb =>
    simp only [run_alt, List.mem_append] at h
    rcases h with h | h
    · obtain ⟨u, e, p⟩ := iha s t h; exact ⟨u, e, .inl p⟩
    · obtain ⟨u, e, p⟩ := ihb s t h; exact ⟨u, e, .inr p⟩
  | star g r ih =>
    obtain ⟨xs, e, p⟩ := starGo_lang g r.run r.Lang ih _ s t h
    exact ⟨xs.flatten, e, xs, rfl, p⟩
  | grp n r ih =>
    simp only [run_grp, List.mem_map] at h
    obtain ⟨t₁, h₁, rfl⟩ := h
    exact ih s t₁ h₁
  | bos => simp only [run_bos] at h; split at h <;> simp at h; subst h; exact ⟨[], by simp [Re.Lang]⟩
  | eos => simp only [run_eos] at h; split at h <;> simp at h; subst h; exact ⟨[], by simp [Re.Lang]⟩
  | behind neg p => simp only [Re.run] at h; split at h <;> simp at h <;> exact ⟨[], by simp [h, Re.Lang]⟩
  | ahead neg p => simp only [Re.run] at h; split at h <;> simp at h <;> exact ⟨[], by simp [h, Re.Lang]⟩

/-- The words of a pattern consist of characters satisfying `P`. -/
def Re.Within (P : Char → Bool) : Re → Prop
  | .chr p => ∀ c, p c = true → P c = true
  | .seq a b => a.Within P ∧ b.Within P
  | .alt a b => a.Within P ∧ b.Within P
  | .star _ r => r.Within P
  | .grp _ r => r.Within P
  | _ => True

theorem lang_within {P : Char → Bool} (r : Re) (u : Str) (hw : r.Within P) (h : r.Lang u) : ∀ c ∈ u, P c = true := by
  induction r generalizing u with
  | chr p => obtain ⟨x, rfl, hx⟩ := h; intro c hc; simp at hc; subst hc; exact hw _ hx
  | seq a b iha ihb =>
    obtain ⟨x, y, rfl, hx, hy⟩ := h
    intro c hc
    rcases List.mem_append.1 hc with hc | hc
    · exact iha x hw.1 hx c hc
    · exact ihb y hw.2 hy c hc
  | alt a b iha ihb =>
    rcases h with h | h
    · exact iha u hw.1 h
    · exact ihb u hw.2 h
  | star g r ih =>
    obtain ⟨xs, rfl, hx⟩ := h
    intro c hc
    obtain ⟨x, hx', hc'⟩ := List.mem_flatten.1 hc
    exact ih x hw (hx x hx') c hc'
  | grp n r ih => exact ih u hw h
  | _ => intro c hc; rw [show u = [] from h] at hc; cases hc

theorem within_lit {P : Char → Bool} {p : Str} (h : ∀ c ∈ p, P c = true) : (lit p).Within P := by
  induction p with
  | nil => trivial
  | cons x xs ih =>
    have hx : (c x).Within P := by
      intro y hy
      have : y = x := by simpa using hy
      rw [this]; exact h x (by simp)
    cases xs with
    | nil => exact hx
    | cons y ys => exact ⟨hx, ih fun c hc => h c (by simp [hc])⟩

theorem lang_lit {p u : Str} : (lit p).Lang u ↔ u = p := by
  induction p generalizing u with
  | nil => exact Iff.rfl
  | cons x xs ih =>
    have hc : ∀ v : Str, (c x).Lang v ↔ v = [x] := by
      intro v
      constructor
      · rintro ⟨y, rfl, hy⟩; simp at hy; rw [hy]
      · rintro rfl; exact ⟨x, rfl, by simp⟩
    cases xs with
    | nil => exact hc u
    | cons y ys =>
      constructor
      · rintro ⟨a, b, rfl, ha, hb⟩
        rw [(hc a).1 ha, ih.1 hb]; rfl
      · rintro rfl
        exact ⟨[x], y :: ys, rfl, (hc _).2 rfl, ih.2 rfl⟩

theorem lang_c {x : Char} {u : Str} : (c x).Lang u ↔ u = [x] := lang_lit (p := [x])

theorem lang_cat_cons {r r' : Re} {rs : List Re} {u : Str} :
    (cat (r :: r' :: rs)).Lang u ↔ ∃ x y, u = x ++ y ∧ r.Lang x ∧ (cat (r' :: rs)).Lang y := Iff.rfl

/-- One of the parts of a concatenation occurs in its words. -/
theorem lang_cat_mem {rs : List Re} {r : Re} {u : Str} (hr : r ∈ rs) (h : (cat rs).Lang u) :
    ∃ a v b, u = a ++ v ++ b ∧ r.Lang v := by
  induction rs generalizing u with
  | nil => cases hr
  | cons x xs ih =>
    cases xs with
    | nil =>
      rw [List.mem_singleton.1 hr]
      exact ⟨[], u, [], by simp, h⟩
    | cons y ys =>
      obtain ⟨v, w, rfl, hv, hw⟩ := h
      rcases List.mem_cons.1 hr with rfl | hr
      · exact ⟨[], v, w, by simp, hv⟩
      · obtain ⟨a, z, b, rfl, hz⟩ := ih hr hw
        exact ⟨v ++ a, z, b, by simp, hz⟩

/-- Words of `p*` for a character class. -/
theorem lang_star_chr {g : Bool} {p : Char → Bool} {u : Str} (h : (Re.star g (.chr p)).Lang u) :
    ∀ x ∈ u, p x = true := lang_within (P := p) (Re.star g (.chr p)) u (fun _ h => h) h

theorem lang_plus_chr {p : Char → Bool} {u : Str} (h : (plus (.chr p)).Lang u) :
    u ≠ [] ∧ ∀ x ∈ u, p x = true := by
  constructor
  · obtain ⟨a, b, rfl, ⟨x, rfl, _⟩, _⟩ := h; simp
  · exact lang_within (P := p) (plus (.chr p)) u ⟨fun _ h => h, fun _ h => h⟩ h

/-- A match found by `re.search` is a word of the language that occurs in the text. -/
theorem reSearch_lang {r : Re} {s : Str} {t : RSt} (h : reSearch r s = some t) :
    ∃ a u b, s = a ++ u ++ b ∧ r.Lang u := by
  obtain ⟨a, b, hab, hm, _⟩ := (searchFrom_some_iff r [] s t).1 h
  have hm' : t ∈ r.run ⟨a.reverse ++ [], b, []⟩ := List.mem_of_head? hm
  obtain ⟨u, hu, hl⟩ := run_lang r _ t hm'
  exact ⟨a, u, t.rest, by rw [hab, List.append_assoc, ← hu], hl⟩

/-- Nothing is replaced if no word of the language occurs. -/
theorem reSub_of_lang {r : Re} (f : Str → RSt → Str) {s : Str} (h : ∀ u, r.Lang u → ¬ u <:+: s) : reSub r f s = s := by
  apply scanSub_id
  intro a b hab
  have : r.run ⟨a.reverse ++ [], b, []⟩ = [] := by
    rw [List.eq_nil_iff_forall_not_mem]
    intro t ht
    obtain ⟨u, hu, hl⟩ := run_lang r _ t ht
    exact h u hl ⟨a, t.rest, by rw [hab, List.append_assoc, ← hu]⟩
  simp [Re.scanner, Re.matchAt] at this ⊢
  simp [this]

theorem reSubConst_of_lang {r : Re} {new s : Str} (h : ∀ u, r.Lang u → ¬ u <:+: s) : reSubConst r new s = s :=
  reSub_of_lang _ h

theorem reSearch_of_lang {r : Re} {s : Str} (h : ∀ u, r.Lang u → ¬ u <:+: s) : reSearch r s = none := by
  cases hm : reSearch r s with
  | none => rfl
  | some t =>
    obtain ⟨a, u, b, hs, hl⟩ := reSearch_lang hm
    exact absurd ⟨a, b, hs.symm⟩ (h u hl)

/-- A pattern of the form `^...` matches at the beginning only. -/
theorem reSearch_bos {r : Re} {s : Str} {t : RSt} (h : reSearch (.seq .bos r) s = some t) :
    (r.run ⟨[], s, []⟩).head? = some t := by
  obtain ⟨a, b, hab, hm, _⟩ := (searchFrom_some_iff _ [] s t).1 h
  simp only [Re.matchAt, run_seq, run_bos] at hm
  cases a with
  | nil => simp at hab hm; rw [hab]; exact hm
  | cons x xs => simp at hm

theorem reSearch_bos_lang {r : Re} {s : Str} {t : RSt} (h : reSearch (.seq .bos r) s = some t) :
    ∃ u, s = u ++ t.rest ∧ r.Lang u := by
  have := List.mem_of_head? (reSearch_bos h)
  obtain ⟨u, hu, hl⟩ := run_lang r _ t this
  exact ⟨u, hu, hl⟩

/-- After a pattern of the form `...$` nothing is left but possibly a newline. -/
theorem eos_last (rs : List Re) : ∀ s t, t ∈ (cat (rs ++ [Re.eos])).run s → t.rest = [] ∨ t.rest = ['\n'] := by
  induction rs with
  | nil =>
    intro s t h
    simp only [List.nil_append, cat, run_eos] at h
    split at h
    · rename_i hc
      simp at h; subst h
      simpa using hc
    · simp at h
  | cons r rs ih =>
    intro s t h
    have : cat (r :: rs ++ [Re.eos]) = Re.seq r (cat (rs ++ [Re.eos])) := by
      cases rs <;> rfl
    rw [this, run_seq, List.mem_flatMap] at h
    obtain ⟨t', _, h'⟩ := h
    exact ih t' t h'

/-! ### First matches -/

/-- The first match of a pattern in a given state. -/
def Re.First (r : Re) (s t : RSt) : Prop := (r.run s).head? = some t

theorem First.seq {a b : Re} {s t v : RSt} (h : a.First s t) (h' : b.First t v) : (Re.seq a b).First s v := by
  unfold Re.First at *
  rw [run_seq, head?_flatMap]
  cases hl : a.run s with
  | nil => rw [hl] at h; cases h
  | cons x xs =>
    rw [hl] at h; cases h
    simp [h']

theorem First.cat_cons {a b : Re} {rs : List Re} {s t v : RSt} (h : a.First s t) (h' : (cat (b :: rs)).First t v) :
    (cat (a :: b :: rs)).First s v := First.seq h h'

theorem First.cat_one {a : Re} {s t : RSt} (h : a.First s t) : (cat [a]).First s t := h

theorem First.alt_l {a b : Re} {s t : RSt} (h : a.First s t) : (Re.alt a b).First s t := by
  unfold Re.First at *
  rw [run_alt]
  cases hl : a.run s with
  | nil => rw [hl] at h; cases h
  | cons x xs => rw [hl] at h; simpa using h

theorem First.alt_r {a b : Re} {s t : RSt} (h : a.run s = []) (h' : b.First s t) : (Re.alt a b).First s t := by
  unfold Re.First at *
  rw [run_alt, h]; exact h'

theorem First.eps (s : RSt) : Re.eps.First s s := rfl

theorem First.chr {p : Char → Bool} {pre cs : Str} {x : Char} {caps : List (Nat × Str)} (h : p x = true) :
    (Re.chr p).First ⟨pre, x :: cs, caps⟩ ⟨x :: pre, cs, caps⟩ := by simp [Re.First, h]

theorem First.c (x : Char) (pre cs : Str) (caps : List (Nat × Str)) :
    (Re.c x).First ⟨pre, x :: cs, caps⟩ ⟨x :: pre, cs, caps⟩ := First.chr (by simp)

theorem First.lit (p pre cs : Str) (caps : List (Nat × Str)) :
    (Re.lit p).First ⟨pre, p ++ cs, caps⟩ ⟨p.reverse ++ pre, cs, caps⟩ := by
  simp [Re.First, run_lit, RSt.adv]

/-- A greedy class takes the whole block if the next character is not in the class. -/
theorem First.many {p : Char → Bool} (a cs pre : Str) (caps : List (Nat × Str)) (ha : ∀ x ∈ a, p x = true)
    (hcs : ∀ x, cs.head? = some x → p x = false) :
    (Re.many (.chr p)).First ⟨pre, a ++ cs, caps⟩ ⟨a.reverse ++ pre, cs, caps⟩ := by
  have hr : runLen p (a ++ cs) = a.length := by
    rw [runLen_append_all (by simpa using ha)]
    cases cs with
    | nil => simp
    | cons x xs => rw [runLen_cons_neg (by rw [hcs x rfl]; simp)]; simp
  simp only [Re.First, Re.many]
  rw [run_many_chr_head]
  simp [hr, RSt.adv]

theorem First.plus {p : Char → Bool} (a cs pre : Str) (caps : List (Nat × Str)) (h0 : a ≠ []) (ha : ∀ x ∈ a, p x = true)
    (hcs : ∀ x, cs.head? = some x → p x = false) :
    (Re.plus (.chr p)).First ⟨pre, a ++ cs, caps⟩ ⟨a.reverse ++ pre, cs, caps⟩ := by
  cases a with
  | nil => exact absurd rfl h0
  | cons x xs =>
    refine First.seq (First.chr (ha x (by simp))) ?_
    have := First.many xs cs (x :: pre) caps (fun y hy => ha y (by simp [hy])) hcs
    show (Re.many (.chr p)).First _ _
    simpa using this

theorem First.grp {n : Nat} {r : Re} {u cs pre pre' : Str} {caps caps' : List (Nat × Str)}
    (h : r.First ⟨pre, u ++ cs, caps⟩ ⟨pre', cs, caps'⟩) :
    (Re.grp n r).First ⟨pre, u ++ cs, caps⟩ ⟨pre', cs, (n, u) :: caps'⟩ := by
  unfold Re.First at *
  simp [h]

theorem First.bos (cs : Str) (caps : List (Nat × Str)) : Re.bos.First ⟨[], cs, caps⟩ ⟨[], cs, caps⟩ := by
  simp [Re.First]

theorem First.eos (pre : Str) (caps : List (Nat × Str)) : Re.eos.First ⟨pre, [], caps⟩ ⟨pre, [], caps⟩ := by
  simp [Re.First]

theorem First.opt_none {r : Re} {s : RSt} (h : r.run s = []) : (Re.opt r).First s s := First.alt_r h (First.eps s)
theorem First.opt_some {r : Re} {s t : RSt} (h : r.First s t) : (Re.opt r).First s t := First.alt_l h

/-- A first match at the beginning is what `re.search` finds. -/
theorem First.search {r : Re} {s : Str} {t : RSt} (h : r.First ⟨[], s, []⟩ t) : reSearch r s = some t := by
  unfold reSearch
  unfold Re.First at h
  cases s with
  | nil => simpa [searchFrom, Re.matchAt] using h
  | cons x xs => simp [searchFrom, Re.matchAt, h]

/-- A first match, as a step of the scanner. -/
theorem First.scanner {r : Re} {pre pre' u cs : Str} {caps : List (Nat × Str)} (f : Str → RSt → Str)
    (h : r.First ⟨pre, u ++ cs, []⟩ ⟨pre', cs, caps⟩) :
    r.scanner f pre (u ++ cs) = some (u.length, f u ⟨pre', cs, caps⟩) := by
  unfold Re.First at h
  simp [Re.scanner, Re.matchAt, h]

/-! ### No match -/

theorem run_seq_nil {a b : Re} {s : RSt} (h : a.run s = []) : (Re.seq a b).run s = [] := by simp [h]

theorem run_seq_nil' {a b : Re} {s : RSt} (h : ∀ t ∈ a.run s, b.run t = []) : (Re.seq a b).run s = [] := by
  rw [run_seq, List.flatMap_eq_nil_iff]; exact h

theorem run_cat_nil {a b : Re} {rs : List Re} {s : RSt} (h : a.run s = []) : (cat (a :: b :: rs)).run s = [] :=
  run_seq_nil h

theorem run_alt_nil {a b : Re} {s : RSt} (h : a.run s = []) (h' : b.run s = []) : (Re.alt a b).run s = [] := by
  simp [h, h']

theorem run_chr_empty {p : Char → Bool} {pre cs : Str} {caps : List (Nat × Str)}
    (h : ∀ x, cs.head? = some x → p x = false) : (Re.chr p).run ⟨pre, cs, caps⟩ = [] := by
  cases cs with
  | nil => rfl
  | cons x xs => simp [h x rfl]

/-- If a greedy class cannot start, it only matches the empty text. -/
theorem run_many_none {p : Char → Bool} {pre cs : Str} {caps : List (Nat × Str)}
    (h : ∀ x, cs.head? = some x → p x = false) : (many (.chr p)).run ⟨pre, cs, caps⟩ = [⟨pre, cs, caps⟩] := by
  have hr : runLen p cs = 0 := by
    cases cs with
    | nil => simp
    | cons x xs => exact runLen_cons_neg (by rw [h x rfl]; simp) xs
  rw [many, run_many_chr_head]
  simp [hr]

/-! ### A character that the pattern cannot contain -/

/-- The pattern looks at nothing but the characters it consumes, and never consumes `x`. -/
def Re.Local (x : Char) : Re → Prop
  | .eps => True
  | .chr p => p x = false
  | .seq a b => a.Local x ∧ b.Local x
  | .alt a b => a.Local x ∧ b.Local x
  | .star _ r => r.Local x
  | .grp _ r => r.Local x
  | _ => False

theorem flatMap_congr' {α β : Type} {l : List α} {f g : α → List β} (h : ∀ a ∈ l, f a = g a) :
    l.flatMap f = l.flatMap g := by
  induction l with
  | nil => rfl
  | cons a as ih =>
    simp only [List.flatMap_cons]
    rw [h a (by simp), ih fun b hb => h b (by simp [hb])]

/-- More iterations than there are characters make no difference. -/
theorem starGo_fuel (g : Bool) (f : RSt → List RSt) (n m : Nat) (s : RSt) (hn : s.rest.length ≤ n) (hm : s.rest.length ≤ m) :
    starGo g f n s = starGo g f m s := by
  induction n generalizing m s with
  | zero =>
    have h0 : s.rest.length = 0 := by omega
    cases m with
    | zero => rfl
    | succ m => cases g <;> simp [starGo, h0]
  | succ n ih =>
    cases m with
    | zero =>
      have h0 : s.rest.length = 0 := by omega
      cases g <;> simp [starGo, h0]
    | succ m =>
      have : ((f s).filter (fun t => decide (t.rest.length < s.rest.length))).flatMap (starGo g f n) =
          ((f s).filter (fun t => decide (t.rest.length < s.rest.length))).flatMap (starGo g f m) := by
        apply flatMap_congr'
        intro t ht
        have := (List.mem_filter.1 ht).2
        simp at this
        exact ih m t (by omega) (by omega)
      simp only [starGo, this]

/-- The state with more text behind and after it. -/
def RSt.extend (q : Str) (y : Str) (t : RSt) : RSt := ⟨t.pre ++ q, t.rest ++ y, t.caps⟩

theorem starGo_extend (g : Bool) (f : RSt → List RSt) (q y : Str)
    (ih : ∀ s, f (s.extend q y) = (f s).map (RSt.extend q y)) (n : Nat) (s : RSt) :
    starGo g f n (s.extend q y) = (starGo g f n s).map (RSt.extend q y) := by
  induction n generalizing s with
  | zero => simp [starGo]
  | succ n ihn =>
    have key : ((f (s.extend q y)).filter (fun t => decide (t.rest.length < (s.extend q y).rest.length))).flatMap (starGo g f n)
        = (((f s).filter (fun t => decide (t.rest.length < s.rest.length))).flatMap (starGo g f n)).map (RSt.extend q y) := by
      rw [ih, List.filter_map, List.flatMap_map, List.map_flatMap]
      have hf : ((fun t : RSt => decide (t.rest.length < (s.extend q y).rest.length)) ∘ RSt.extend q y) =
          fun t => decide (t.rest.length < s.rest.length) := by
        funext t
        simp [RSt.extend]
      rw [hf]
      apply flatMap_congr'
      intro t _
      exact ihn t
    simp only [starGo, key]
    cases g <;> simp

/-- Running in a longer text, up to a character that cannot be consumed. -/
theorem run_extend (x : Char) (r : Re) (hl : r.Local x) (q b : Str) (s : RSt) :
    r.run (s.extend q (x :: b)) = (r.run s).map (RSt.extend q (x :: b)) := by
  induction r generalizing s with
  | eps => rfl
  | chr p =>
    cases s with
    | mk pre rest caps =>
      cases rest with
      | nil => simp only [RSt.extend, List.nil_append, run_chr_cons, run_chr_nil, List.map_nil]
               rw [show p x = false from hl]; rfl
      | cons c cs =>
        simp only [RSt.extend, List.cons_append, run_chr_cons]
        split <;> simp [RSt.extend]
  | seq a b' iha ihb =>
    rw [run_seq, run_seq, iha hl.1, List.flatMap_map, List.map_flatMap]
    apply flatMap_congr'
    intro t _
    exact ihb hl.2 t
  | alt a b' iha ihb => rw [run_alt, run_alt, iha hl.1, ihb hl.2, List.map_append]
  | star g r ih =>
    show starGo g r.run _ _ = (starGo g r.run _ _).map _
    rw [← starGo_extend g r.run q (x :: b) (ih hl)]
    rw [starGo_extend g r.run q (x :: b) (ih hl), starGo_extend g r.run q (x :: b) (ih hl)]
    rw [starGo_fuel g r.run _ s.rest.length s (by simp [RSt.extend]) (Nat.le_refl _)]
  | grp n r ih =>
    rw [run_grp, run_grp, ih hl, List.map_map, List.map_map]
    apply List.map_congr_left
    intro t ht
    obtain ⟨u, hu, _⟩ := run_split r s t ht
    simp only [Function.comp, RSt.extend, RSt.mk.injEq, List.cons.injEq, Prod.mk.injEq, true_and, and_true]
    rw [hu]
    simp
  | bos => exact hl.elim
  | eos => exact hl.elim
  | behind => exact hl.elim
  | ahead => exact hl.elim

/-- Running does not depend on what was read before. -/
theorem run_pre (x : Char) (r : Re) (hl : r.Local x) (q : Str) (s : RSt) :
    r.run ⟨s.pre ++ q, s.rest, s.caps⟩ = (r.run s).map fun t => ⟨t.pre ++ q, t.rest, t.caps⟩ := by
  have h : ∀ t : RSt, (⟨t.pre ++ q, t.rest, t.caps⟩ : RSt) = t.extend q [] := by
    intro t; simp [RSt.extend]
  have key : ∀ (r : Re), r.Local x → ∀ s, r.run (s.extend q []) = (r.run s).map (RSt.extend q []) := by
    intro r
    induction r with
    | eps => intro _ s; rfl
    | chr p =>
      intro _ s
      cases s with
      | mk pre rest caps =>
        cases rest with
        | nil => rfl
        | cons c cs =>
          simp only [RSt.extend, List.append_nil, run_chr_cons]
          split <;> simp [RSt.extend]
    | seq a b' iha ihb =>
      intro hl s
      rw [run_seq, run_seq, iha hl.1, List.flatMap_map, List.map_flatMap]
      apply flatMap_congr'
      intro t _
      exact ihb hl.2 t
    | alt a b' iha ihb => intro hl s; rw [run_alt, run_alt, iha hl.1, ihb hl.2, List.map_append]
    | star g r ih =>
      intro hl s
      show starGo g r.run _ _ = (starGo g r.run _ _).map _
      rw [starGo_extend g r.run q [] (ih hl)]
      simp [RSt.extend]
    | grp n r ih =>
      intro hl s
      rw [run_grp, run_grp, ih hl, List.map_map, List.map_map]
      apply List.map_congr_left
      intro t _
      simp [RSt.extend]
    | bos => intro hl; exact hl.elim
    | eos => intro hl; exact hl.elim
    | behind => intro hl; exact hl.elim
    | ahead => intro hl; exact hl.elim
  have := key r hl s
  simpa only [h] using this

theorem scanner_extend {x : Char} {r : Re} (hl : r.Local x) {f : Str → RSt → Str}
    (hf : ∀ m t t', t.caps = t'.caps → f m t = f m t') (pre a b : Str) :
    r.scanner f pre (a ++ x :: b) = r.scanner f [] a := by
  have h := run_extend x r hl pre b ⟨[], a, []⟩
  simp only [RSt.extend, List.nil_append] at h
  unfold Re.scanner Re.matchAt
  rw [h, List.head?_map]
  cases hm : (r.run ⟨[], a, []⟩).head? with
  | none => rfl
  | some t =>
    obtain ⟨u, hu, _⟩ := run_split r _ t (List.mem_of_head? hm)
    simp only at hu
    simp only [Option.map_some, RSt.extend]
    have e1 : (a ++ x :: b).length - (t.rest ++ x :: b).length = a.length - t.rest.length := by
      simp only [List.length_append, List.length_cons]; omega
    rw [e1]
    have e2 : (a ++ x :: b).take (a.length - t.rest.length) = a.take (a.length - t.rest.length) := by
      rw [List.take_append_of_le_length (by omega)]
    rw [e2]
    congr 2
    exact hf _ _ _ rfl

theorem scanner_pre {x : Char} {r : Re} (hl : r.Local x) {f : Str → RSt → Str}
    (hf : ∀ m t t', t.caps = t'.caps → f m t = f m t') (pre a : Str) :
    r.scanner f pre a = r.scanner f [] a := by
  have h := run_pre x r hl pre ⟨[], a, []⟩
  simp only [List.nil_append] at h
  unfold Re.scanner Re.matchAt
  rw [h, List.head?_map]
  cases hm : (r.run ⟨[], a, []⟩).head? with
  | none => rfl
  | some t => simp only [Option.map_some]; congr 2; exact hf _ _ _ rfl

/-- `re.sub` works separately on both sides of a character that the pattern cannot consume. -/
theorem reSub_barrier {x : Char} {r : Re} (hl : r.Local x) {f : Str → RSt → Str}
    (hf : ∀ m t t', t.caps = t'.caps → f m t = f m t') (a b : Str) :
    reSub r f (a ++ x :: b) = reSub r f a ++ x :: reSub r f b := by
  have hp : ∀ k pre s, scanSub (r.scanner f) k pre s = scanSub (fun _ s => r.scanner f [] s) k [] s := by
    intro k pre s
    rw [scanSub_congr _ (fun _ s => r.scanner f [] s) (fun pre s => scanner_pre hl hf pre s)]
    exact scanSub_pre (fun s => r.scanner f [] s) k pre [] s
  unfold reSub
  simp only [hp]
  have hx : ∀ a, r.scanner f [] (a ++ x :: b) = r.scanner f [] a := fun a => scanner_extend hl hf [] a b
  have key : ∀ (a : Str) (k : Nat), k ≤ a.length →
      scanSub (fun _ s => r.scanner f [] s) k [] (a ++ x :: b) =
        scanSub (fun _ s => r.scanner f [] s) k [] a ++ x :: scanSub (fun _ s => r.scanner f [] s) 0 [] b := by
    intro a
    induction a with
    | nil =>
      intro k hk
      have hk0 : k = 0 := by simpa using hk
      subst hk0
      have h0 := hx []
      rw [List.nil_append] at h0
      simp only [List.nil_append, scanSub]
      rw [h0]
      cases hm : r.scanner f [] [] with
      | none => simp only [List.nil_append]; rw [scanSub_pre (fun s => r.scanner f [] s) 0 [x] []]
      | some q =>
        obtain ⟨k, v⟩ := q
        have hk0 : k = 0 := by
          unfold Re.scanner at hm
          cases hm' : r.matchAt [] [] with
          | none => rw [hm'] at hm; cases hm
          | some t => rw [hm'] at hm; simp at hm; exact hm.1.symm
        subst hk0
        simp only
        rw [scanSub_pre (fun s => r.scanner f [] s) 0 [x] []]
    | cons c cs ih =>
      intro k hk
      cases k with
      | succ k =>
        simp only [List.cons_append, scanSub]
        rw [scanSub_pre (fun s => r.scanner f [] s) k [c] [], ih k (by simpa using hk),
          scanSub_pre (fun s => r.scanner f [] s) k [c] []]
      | zero =>
        have h0 := hx (c :: cs)
        simp only [List.cons_append] at h0
        simp only [List.cons_append, scanSub]
        rw [h0]
        cases hm : r.scanner f [] (c :: cs) with
        | none =>
          simp only [List.cons_append]
          rw [scanSub_pre (fun s => r.scanner f [] s) 0 [c] [], ih 0 (by omega),
            scanSub_pre (fun s => r.scanner f [] s) 0 [c] []]
        | some q =>
          obtain ⟨k, v⟩ := q
          have hk' : k ≤ (c :: cs).length := by
            unfold Re.scanner at hm
            cases hm' : r.matchAt [] (c :: cs) with
            | none => rw [hm'] at hm; cases hm
            | some t => rw [hm'] at hm; simp only [Option.some.injEq, Prod.mk.injEq] at hm; omega
          cases k with
          | zero =>
            simp only
            rw [scanSub_pre (fun s => r.scanner f [] s) 0 [c] [], ih 0 (by omega),
              scanSub_pre (fun s => r.scanner f [] s) 0 [c] []]
            simp
          | succ k =>
            simp only
            rw [scanSub_pre (fun s => r.scanner f [] s) k [c] [], ih k (by simpa using hk'),
              scanSub_pre (fun s => r.scanner f [] s) k [c] []]
            simp
  exact key a 0 (by omega)

theorem reSubConst_barrier {x : Char} {r : Re} (hl : r.Local x) (new a b : Str) :
    reSubConst r new (a ++ x :: b) = reSubConst r new a ++ x :: reSubConst r new b :=
  reSub_barrier hl (fun _ _ _ _ => rfl) a b

theorem local_c {x y : Char} (h : y ≠ x) : (c x).Local y := by
  show (y == x) = false
  simp [h]

theorem local_lit {x : Char} {p : Str} (h : x ∉ p) : (lit p).Local x := by
  induction p with
  | nil => trivial
  | cons y ys ih =>
    have hy : (c y).Local x := local_c (fun e => h (by simp [e]))
    cases ys with
    | nil => exact hy
    | cons z zs => exact ⟨hy, ih fun h' => h (by simp [h'])⟩

theorem replace_barrier {x : Char} {p : Str} (h : x ∉ p) (new a b : Str) :
    replace p new (a ++ x :: b) = replace p new a ++ x :: replace p new b := by
  simp only [← reSubConst_lit]
  exact reSubConst_barrier (local_lit h) new a b

end Verif
