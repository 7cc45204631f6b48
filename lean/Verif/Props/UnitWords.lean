import Verif.Props.Units
/-
Property C68: what the removal of units removes.
-/

namespace Verif
open Re

variable {X V S : Type}

theorem scanSub_shorter (m : Str → Str → Option (Nat × Str)) (hm : ∀ pre s k r, m pre s = some (k, r) → r = []) :
    ∀ (s pre : Str) (k : Nat), (scanSub m k pre s).length ≤ s.length := by
  intro s
  induction s with
  | nil =>
    intro pre k
    cases k with
    | zero =>
      simp only [scanSub]
      cases h : m pre [] with
      | none => simp
      | some v => obtain ⟨n, r⟩ := v; simp [hm _ _ _ _ h]
    | succ k => simp [scanSub]
  | cons x xs ih =>
    intro pre k
    cases k with
    | zero =>
      simp only [scanSub]
      cases h : m pre (x :: xs) with
      | none => simp only [List.length_cons]; have := ih (x :: pre) 0; omega
      | some v =>
        obtain ⟨n, r⟩ := v
        have hr := hm _ _ _ _ h
        subst hr
        cases n with
        | zero => simp only [List.nil_append, List.length_cons]; have := ih (x :: pre) 0; omega
        | succ n => simp only [List.nil_append, List.length_cons]; have := ih (x :: pre) n; omega
    | succ k => simp only [scanSub, List.length_cons]; have := ih (x :: pre) k; omega

theorem reSubConst_shorter (r : Re) (s : Str) : (reSubConst r [] s).length ≤ s.length := by
  apply scanSub_shorter
  intro pre s k v h
  unfold Re.scanner at h
  cases hm : r.matchAt pre s with
  | none => rw [hm] at h; cases h
  | some t => rw [hm] at h; simp at h; exact h.2

/-- If a removed pattern matches somewhere (not the empty word), the text becomes shorter. -/
theorem scanSub_strict (m : Str → Str → Option (Nat × Str)) (hm : ∀ pre s k r, m pre s = some (k, r) → r = [] ∧ 0 < k) :
    ∀ (a b pre : Str), (∃ k r, m (a.reverse ++ pre) b = some (k, r)) → b ≠ [] → (scanSub m 0 pre (a ++ b)).length < (a ++ b).length := by
  intro a
  induction a with
  | nil =>
    intro b pre ⟨k, r, h⟩ hb
    obtain ⟨x, xs, rfl⟩ := List.exists_cons_of_ne_nil hb
    obtain ⟨rfl, hk⟩ := hm _ _ _ _ h
    obtain ⟨k, rfl⟩ := Nat.exists_eq_add_of_lt hk
    simp only [List.reverse_nil, List.nil_append] at h
    simp only [List.nil_append, scanSub, h]
    have := scanSub_shorter m (fun pre s k r h => (hm pre s k r h).1) xs (x :: pre) (0 + k)
    simp only [List.length_cons]
    simp only [Nat.zero_add] at this ⊢
    omega
  | cons x xs ih =>
    intro b pre ⟨k, r, h⟩ hb
    simp only [List.cons_append, scanSub]
    cases hx : m pre (x :: (xs ++ b)) with
    | none =>
      simp only [List.length_cons]
      have := ih b (x :: pre) ⟨k, r, by simpa using h⟩ hb
      omega
    | some v =>
      obtain ⟨n, r'⟩ := v
      obtain ⟨rfl, hk⟩ := hm _ _ _ _ hx
      obtain ⟨n, rfl⟩ := Nat.exists_eq_add_of_lt hk
      have := scanSub_shorter m (fun pre s k r h => (hm pre s k r h).1) (xs ++ b) (x :: pre) n
      simp only [List.length_cons, Nat.zero_add, List.nil_append]
      omega

/-- A removed pattern without the empty word shortens a text in which it matches. -/
theorem reSubConst_strict {r : Re} (h0 : ¬ r.Lang []) {a b : Str} (h : r.run ⟨a.reverse ++ [], b, []⟩ ≠ []) :
    (reSubConst r [] (a ++ b)).length < (a ++ b).length := by
  have hb : b ≠ [] := by
    rintro rfl
    obtain ⟨t, ht⟩ := List.exists_mem_of_ne_nil _ h
    obtain ⟨u, hu, hl⟩ := run_lang _ _ _ ht
    have : u = [] := by
      have : [] = u ++ t.rest := hu
      exact (List.append_eq_nil_iff.1 this.symm).1
    subst this
    exact h0 hl
  refine scanSub_strict _ ?_ a b [] ?_ hb
  · intro pre s k v hv
    unfold Re.scanner at hv
    cases hm : r.matchAt pre s with
    | none => rw [hm] at hv; cases hv
    | some t =>
      rw [hm] at hv; simp at hv
      refine ⟨hv.2, ?_⟩
      obtain ⟨u, hu, hl⟩ := run_lang _ _ _ (List.mem_of_head? hm)
      have hne : u ≠ [] := by rintro rfl; exact h0 hl
      have h1 : s = u ++ t.rest := hu
      have h2 : s.length = u.length + t.rest.length := by rw [h1]; simp
      have h3 := List.length_pos_iff.2 hne
      omega
  · unfold Re.scanner Re.matchAt
    cases hr : r.run ⟨a.reverse ++ [], b, []⟩ with
    | nil => exact absurd hr h
    | cons t ts => exact ⟨_, _, rfl⟩

/-- A pattern that matches everywhere, possibly the empty word. -/
def Everywhere (r : Re) : Prop := ∀ s, ∃ t, r.First s t

theorem total_opt (r : Re) : Everywhere (opt r) := by
  intro s
  cases h : r.run s with
  | nil => exact ⟨s, First.opt_none h⟩
  | cons t ts => exact ⟨t, First.opt_some (by unfold Re.First; rw [h]; rfl)⟩

theorem total_many (p : Char → Bool) : Everywhere (many (.chr p)) := by
  rintro ⟨pre, rest, caps⟩
  have := First.many (p := p) (rest.takeWhile p) (rest.dropWhile p) pre caps (fun x hx => by
    have := List.all_takeWhile (p := p) (l := rest)
    exact List.all_eq_true.1 this x hx) (by
    intro x hx
    clear * - hx
    induction rest with
    | nil => simp at hx
    | cons y ys ih =>
      rw [List.dropWhile_cons] at hx
      by_cases hy : p y = true
      · rw [if_pos hy] at hx; exact ih hx
      · rw [if_neg hy] at hx; simp at hx; subst hx; simpa using hy)
  rw [List.takeWhile_append_dropWhile] at this
  exact ⟨_, this⟩

theorem total_seq {a b : Re} (ha : Everywhere a) (hb : Everywhere b) : Everywhere (.seq a b) := by
  intro s
  obtain ⟨t, ht⟩ := ha s
  obtain ⟨v, hv⟩ := hb t
  exact ⟨v, First.seq ht hv⟩

theorem long_shortens (U : Uni) {u s : Str} (h0 : u ≠ []) (hd : '.' ∉ u) (hh : u.head? ≠ some ' ') (h : u <:+: s) :
    (reSubConst (longUnitRe U u) [] s).length < s.length := by
  obtain ⟨a, b, rfl⟩ := h
  rw [List.append_assoc]
  unfold longUnitRe
  rw [unitRe_lit hd]
  apply reSubConst_strict
  · intro hl
    obtain ⟨x, w, y, e, hw⟩ := lang_cat_mem (r := lit u) (by simp) hl
    rw [lang_lit.1 hw] at e
    exact h0 (by simp at e; exact e.2.1)
  · have h5 : Everywhere (cat [pluralRe, many (c ' '), powerRe' U]) :=
      total_seq (total_opt _) (total_seq (total_many _) (total_opt _))
    obtain ⟨t, h4⟩ := h5 ⟨u.reverse ++ (a.reverse ++ []), b, []⟩
    have h2 := First.cat_cons (First.lit u (a.reverse ++ []) b []) h4
    have h1 := First.cat_cons (First.many (p := (· == ' ')) [] (u ++ b) (a.reverse ++ []) [] (by simp) (by
      intro x hx
      rw [beq_eq_false_iff_ne]; rintro rfl
      obtain ⟨y, ys, rfl⟩ := List.exists_cons_of_ne_nil h0
      simp at hx; subst hx; exact hh rfl)) h2
    intro hn
    unfold Re.First at h1
    have hn' : (cat [many (.chr (· == ' ')), lit u, pluralRe, many (c ' '), powerRe' U]).run ⟨a.reverse ++ [], u ++ b, []⟩ = [] := hn
    rw [List.nil_append, hn'] at h1
    cases h1

theorem foldl_shorter (f : Str → Str → Str) (hf : ∀ s u, (f s u).length ≤ s.length) (l : List Str) (s : Str) : (l.foldl f s).length ≤ s.length := by
  induction l generalizing s with
  | nil => exact Nat.le_refl _
  | cons u us ih => exact Nat.le_trans (ih _) (hf s u)

theorem foldl_strict (f : Str → Str → Str) (hf : ∀ s u, (f s u).length ≤ s.length) (P : Str → Str → Prop)
    (hid : ∀ s u, ¬ P s u → f s u = s) (l : List Str) (s : Str) (hs : ∀ u ∈ l, P s u → (f s u).length < s.length)
    (h : ∃ u ∈ l, P s u) : (l.foldl f s).length < s.length := by
  induction l with
  | nil => obtain ⟨u, hu, _⟩ := h; cases hu
  | cons u us ih =>
    by_cases hp : P s u
    · exact Nat.lt_of_le_of_lt (foldl_shorter f hf us _) (hs u (by simp) hp)
    · rw [List.foldl_cons, hid s u hp]
      obtain ⟨v, hv, hpv⟩ := h
      exact ih (fun u hu => hs u (by simp [hu])) ⟨v, by
        rcases List.mem_cons.1 hv with rfl | hv
        · exact absurd hpv hp
        · exact hv, hpv⟩

/-- C68, exactly: an answer without blanks, `text` and `mbox` is left alone by the removal of units if and only if it
contains none of the long units, not even inside a word. -/
theorem C68_exact (U : Uni) (s : Str) (hb : ' ' ∉ s) (h1 : ¬ s%"text" <:+: s) (h2 : ¬ s%"mbox" <:+: s) :
    unitsStep U s = s ↔ ∀ u ∈ listedLong, ¬ u <:+: s := by
  simp only [listedLong_iff]
  have hu : ∀ u ∈ unitLong, u ≠ [] ∧ '.' ∉ u ∧ u.head? ≠ some ' ' := by decide +kernel
  have e : unitsStep U s = bareUnits U s := by
    unfold unitsStep
    rw [textUnits_id (.inr ⟨h1, h2⟩), anyText_id (fun h => h1 (List.IsInfix.trans ⟨[], s%"{", rfl⟩ h))]
  rw [e]
  constructor
  · intro h u hm hi
    have hlt : (bareUnits U s).length < s.length := by
      unfold bareUnits
      refine Nat.lt_of_le_of_lt (foldl_shorter _ (fun s u => reSubConst_shorter _ s) _ _) ?_
      refine foldl_strict (fun s u => reSubConst (longUnitRe U u) [] s) (fun s u => reSubConst_shorter _ s)
        (fun s u => ∃ w, (unitRe u).Lang w ∧ w <:+: s) ?_ unitLong s ?_ ⟨u, hm, u, ?_, hi⟩
      · intro s u hn
        exact long_id (fun w hw hi => hn ⟨w, hw, hi⟩)
      · rintro u hm ⟨w, hw, hi⟩
        obtain ⟨h0, hd, hh⟩ := hu u hm
        rw [unitRe_lit hd, lang_lit] at hw
        subst hw
        exact long_shortens U h0 hd hh hi
      · rw [unitRe_lit (hu u hm).2.1, lang_lit]
    rw [h] at hlt
    exact absurd hlt (Nat.lt_irrefl _)
  · intro h
    unfold bareUnits
    rw [foldl_id (fun s u => reSubConst (longUnitRe U u) [] s)]
    · apply foldl_id
      intro u _
      refine reSubConst_id_of_part (r := plus (c ' ')) (by simp) ?_
      intro w hw hi
      obtain ⟨hne, hall⟩ := lang_plus_chr hw
      obtain ⟨x, xs, rfl⟩ := List.exists_cons_of_ne_nil hne
      have := hall x (by simp)
      simp at this
      subst this
      exact hb (hi.subset (by simp))
    · intro u hm
      apply long_id
      rw [unitRe_lit (hu u hm).2.1]
      exact lit_absent (h u hm)

/-- C68 is false: words that merely contain the letters of a unit lose them, and the dots of the unit `a.m.` stand for
any character, so parts of formulas are removed. -/
theorem C68_refuted : (stringNormalize failEnv 1 s%"radius" ⟨(), []⟩).1 = .ok (.str s%"ius") ∧
    (stringNormalize failEnv 1 s%"Friday" ⟨(), []⟩).1 = .ok (.str s%"fri") ∧
    (stringNormalize failEnv 1 s%"x = a+m+1" ⟨(), []⟩).1 = .ok (.str s%"x=1") := by decide +kernel

example : unitsStep asciiUni s%"x^2+3" = s%"x^2+3" :=
  (C68_exact _ _ (by decide) (by decide) (by decide)).2 (by decide +kernel)

end Verif
