import Verif.Props.Unions

/-! # C124: unions of intersections of intervals

Two unions of intersections of intervals are judged by the sets of points that they denote. -/

namespace Verif

variable {X V S : Type} {K : Type}

/-! ### Specification -/

/-- The text of a union of intersections of intervals. -/
def meetsText (ms : List (List (Itv K))) : Str := join s%"\\cup" (ms.map fun m => join s%"\\cap" (m.map Itv.text))

/-- The points of a union of intersections of intervals. -/
def meetsPoints [LinearOrder K] (ms : List (List (Itv K))) : Set K := {p | ∃ m ∈ ms, ∀ i ∈ m, p ∈ i.points}

/-- One interval, in round or in square brackets: also a point, or a list of two numbers. -/
def LonePair (ms : List (List (Itv K))) : Prop := ∃ i, ms = [[i]] ∧ i.leftOpen = i.rightOpen

/-- No intersection is empty before its last interval. -/
def Unbroken [LinearOrder K] (m : List (Itv K)) : Prop := ∀ a b, m = a ++ b → a ≠ [] → b ≠ [] → ∃ p, ∀ i ∈ a, p ∈ i.points

/-! ### Chains: intervals with the sign behind each -/

/-- The sign behind an interval. -/
def linkSign (b : Bool) : Str := if b then s%"\\cap" else s%"\\cup"

/-- The text of a chain of intervals. -/
def chainText : List (Bool × Itv K) → Str
  | [] => []
  | [x] => x.2.text
  | x :: y :: r => x.2.text ++ (linkSign x.1 ++ chainText (y :: r))

/-- The chain of an intersection. -/
def chainOne : List (Itv K) → List (Bool × Itv K)
  | [] => []
  | [i] => [(false, i)]
  | i :: j :: r => (true, i) :: chainOne (j :: r)

/-- The chain of a union of intersections. -/
def chain (ms : List (List (Itv K))) : List (Bool × Itv K) := ms.flatMap chainOne

/-- A chain of one interval in brackets of one kind. -/
def ChainPair (is : List (Bool × Itv K)) : Prop := ∃ i, is = [i] ∧ i.2.leftOpen = i.2.rightOpen

/-! ### Occurrences in unions -/

/-- The word does not extend over the signs of a union. -/
def chainInert (p : Str) : Bool :=
  decide (2 ≤ p.length) && p.dropLast.all (fun c => !(s%"()[],").contains c) && !contains p s%"\\cup" && !contains p s%"\\cap" &&
    (match p.getLast? with
    | some c => if (s%"([").contains c then !p.dropLast.isSuffixOf s%"\\cup" && !p.dropLast.isSuffixOf s%"\\cap"
      else if (s%")],").contains c then [s%"\\", s%"{", s%"\\right"].contains p.dropLast else true
    | none => false)

theorem chainInert_delim {p : Str} (h : chainInert p = true) {x : Char} (hx : x ∈ s%"()[],") : x ∉ p.dropLast := by
  simp only [chainInert, Bool.and_eq_true, List.all_eq_true, Bool.not_eq_true'] at h
  intro hm
  have := h.1.1.1.2 x hm
  rw [List.contains_iff_mem.2 hx] at this
  cases this

theorem chainInert_last {p q : Str} {x : Char} (h : chainInert p = true) (e : p = q ++ [x]) : 1 ≤ q.length ∧
    (x ∈ s%"([" → ∀ b, ¬ q <:+ linkSign b) ∧ (x ∈ s%")]," → q ∈ [s%"\\", s%"{", s%"\\right"]) := by
  subst e
  simp only [chainInert, Bool.and_eq_true, List.dropLast_concat, List.getLast?_concat, decide_eq_true_eq, List.length_append,
    List.length_singleton] at h
  obtain ⟨⟨⟨⟨h1, -⟩, -⟩, -⟩, h4⟩ := h
  refine ⟨by omega, fun hx b hs => ?_, fun hx => ?_⟩
  · rw [if_pos (List.contains_iff_mem.2 hx)] at h4
    simp only [linkSign] at hs
    cases b <;> simp only [Bool.false_eq_true, if_false, if_true] at hs <;> rw [List.isSuffixOf_iff_suffix.2 hs] at h4 <;> simp at h4
  · have hx' : x ∉ s%"([" := by
      revert hx
      simp only [List.mem_cons, List.not_mem_nil, or_false]
      rintro (rfl | rfl | rfl) <;> decide
    rw [if_neg (by rw [List.contains_iff_mem]; exact hx'), if_pos (List.contains_iff_mem.2 hx)] at h4
    exact List.contains_iff_mem.1 h4

theorem link_infix {p : Str} (hp : chainInert p = true) {i : Itv K} (hi : i.Wordy) (hl : ¬ p <:+: i.left) (hr : ¬ p <:+: i.right) {u t : Str}
    (hu : ¬ p <:+: u) (hs : u = [] ∨ ∃ b, u = linkSign b) (h : p <:+: u ++ (i.text ++ t)) : p <:+: t := by
  have e : u ++ (i.text ++ t) = u ++ (if i.leftOpen then '(' else '[') :: (i.left ++ ',' :: (i.right ++ (if i.rightOpen then ')' else ']') :: t)) := by
    simp [Itv.text]
  rw [e] at h
  rcases infix_delim (chainInert_delim hp (by cases i.leftOpen <;> decide)) h with h | h | ⟨h1, h2⟩
  · exact absurd h hu
  · rcases infix_delim (chainInert_delim hp (by decide)) h with h | h | ⟨h1, h2⟩
    · exact absurd h hl
    · rcases infix_delim (chainInert_delim hp (by cases i.rightOpen <;> decide)) h with h | h | ⟨h1, h2⟩
      · exact absurd h hr
      · exact h
      · exact absurd h2 (hi.right.last _ ((chainInert_last hp h1).2.2 (by cases i.rightOpen <;> decide)))
    · exact absurd h2 (hi.left.last _ ((chainInert_last hp h1).2.2 (by decide)))
  · obtain ⟨k1, k2, -⟩ := chainInert_last hp h1
    rcases hs with rfl | ⟨b, rfl⟩
    · have := List.eq_nil_of_suffix_nil h2
      rw [this] at k1
      simp at k1
    · exact absurd h2 (k2 (by cases i.leftOpen <;> decide) b)

theorem chainText_cons (i j : Bool × Itv K) (is : List (Bool × Itv K)) :
    chainText (i :: j :: is) = i.2.text ++ (linkSign i.1 ++ chainText (j :: is)) := rfl

theorem chain_infix {p : Str} (hp : chainInert p = true) {is : List (Bool × Itv K)} (hw : ∀ i ∈ is, i.2.Wordy)
    (hn : ∀ i ∈ is, ¬ p <:+: i.2.left ∧ ¬ p <:+: i.2.right) : ¬ p <:+: chainText is := by
  have h0 : ¬ p <:+: [] := by
    intro h
    rw [List.infix_nil.1 h] at hp
    simp [chainInert] at hp
  have hc : ∀ b, ¬ p <:+: linkSign b := by
    simp only [chainInert, Bool.and_eq_true, Bool.not_eq_true'] at hp
    intro b
    cases b
    · exact (contains_eq_false _ _).1 hp.1.1.2
    · exact (contains_eq_false _ _).1 hp.1.2
  have key : ∀ (is : List (Bool × Itv K)) (u : Str), (u = [] ∨ ∃ b, u = linkSign b) → (∀ i ∈ is, i.2.Wordy) →
      (∀ i ∈ is, ¬ p <:+: i.2.left ∧ ¬ p <:+: i.2.right) → is ≠ [] → ¬ p <:+: u ++ chainText is := by
    intro is
    induction is with
    | nil => intro _ _ _ _ h; exact absurd rfl h
    | cons i is ih =>
      intro u hu hw hn _ h
      have hu' : ¬ p <:+: u := by
        rcases hu with rfl | ⟨b, rfl⟩
        · exact h0
        · exact hc b
      obtain ⟨h1, h2⟩ := hn i (by simp)
      cases is with
      | nil =>
        have : chainText [i] = i.2.text ++ [] := by simp [chainText]
        rw [this] at h
        exact h0 (link_infix hp (hw i (by simp)) h1 h2 hu' hu h)
      | cons j is =>
        rw [chainText_cons] at h
        exact ih _ (.inr ⟨_, rfl⟩) (fun k hk => hw k (by simp [hk])) (fun k hk => hn k (by simp [hk])) (by simp)
          (link_infix hp (hw i (by simp)) h1 h2 hu' hu h)
  cases is with
  | nil => exact h0
  | cons i is => exact key _ [] (.inl rfl) hw hn (by simp)

/-! ### The normal form -/

theorem chainWords_inert : ∀ p ∈ unionWords, chainInert p = true := by decide +kernel

section
variable {is : List (Bool × Itv K)} (h0 : is ≠ []) (hw : ∀ i ∈ is, i.2.Wordy)
include hw

theorem chain_word {p : Str} (hp : p ∈ unionWords) : ¬ p <:+: chainText is :=
  chain_infix (chainWords_inert p hp) hw fun i hi => ⟨(hw i hi).left.word hp, (hw i hi).right.word hp⟩

theorem chain_chars {c : Char} (hc : c ∈ chainText is) : 33 ≤ c.toNat ∧ c.toNat < 127 ∧ asciiUpper c = false ∧ c ∉ s%"$%:" := by
  have one : ∀ i : Itv K, i.Wordy → ∀ c ∈ i.text, 33 ≤ c.toNat ∧ c.toNat < 127 ∧ asciiUpper c = false ∧ c ∉ s%"$%:" := by
    intro i hi c hc
    have e : ∀ {e : Str}, EndWord e → c ∈ e → 33 ≤ c.toNat ∧ c.toNat < 127 ∧ asciiUpper c = false ∧ c ∉ s%"$%:" := by
      intro e he hc
      obtain ⟨h1, h2, h3, h4⟩ := he.chars hc
      exact ⟨h1, h2, h3, fun hm => h4 (List.mem_append_left s%"," hm)⟩
    simp only [Itv.text, List.mem_cons, List.mem_append, List.not_mem_nil, or_false] at hc
    rcases hc with rfl | hc | rfl | hc | rfl
    · cases i.leftOpen <;> decide
    · exact e hi.left hc
    · decide
    · exact e hi.right hc
    · cases i.rightOpen <;> decide
  induction is with
  | nil => simp [chainText] at hc
  | cons i is ih =>
    cases is with
    | nil => exact one i.2 (hw i (by simp)) c (by simpa [chainText] using hc)
    | cons j is =>
      rw [chainText_cons, List.mem_append, List.mem_append] at hc
      rcases hc with hc | hc | hc
      · exact one i.2 (hw i (by simp)) c hc
      · have : ∀ b, ∀ c ∈ linkSign b, 33 ≤ c.toNat ∧ c.toNat < 127 ∧ asciiUpper c = false ∧ c ∉ s%"$%:" := by decide
        exact this _ c hc
      · exact ih (fun k hk => hw k (by simp [hk])) hc

include h0

theorem chain_head : ∃ t, chainText is = '(' :: t ∨ chainText is = '[' :: t := by
  match is, h0 with
  | [i], _ => cases h : i.2.leftOpen <;> simp [chainText, Itv.text, h]
  | i :: j :: is, _ => rw [chainText_cons]; cases h : i.2.leftOpen <;> simp [Itv.text, h]

theorem chain_comma : ',' ∈ chainText is := by
  match is, h0 with
  | [i], _ => simp [chainText, Itv.text]
  | i :: j :: is, _ => rw [chainText_cons]; simp [Itv.text]

theorem chain_clear : Clear (chainText is) where
  chars c hc := chain_chars hw hc
  words p hp := chain_word hw (by simp [unionWords, hp])
  slashes := .inl (chain_word hw (by decide))
  clock := .inr (by
    obtain ⟨t, h | h⟩ := chain_head h0 hw <;> rw [h] <;> intro c hc <;> simp at hc <;> subst hc <;> decide)
  letter u v c e := by
    cases hc : asciiAlpha c with
    | false => rfl
    | true =>
      refine absurd ⟨u, v, e.symm⟩ (chain_word hw (p := c :: s%"\\in") ?_)
      simp only [unionWords, List.mem_append, List.mem_map]
      exact .inr ⟨c, mem_letters hc, rfl⟩
  builder := .inl (by
    obtain ⟨t, h | h⟩ := chain_head h0 hw <;> rw [h] <;> simp)
  mixed u v d e := by
    cases hc : asciiDigit d with
    | false => rfl
    | true =>
      refine absurd ⟨u, v, e.symm⟩ (chain_word hw (p := d :: s%"\\frac") ?_)
      simp only [unionWords, List.mem_append, List.mem_map]
      exact .inl (.inl (.inr ⟨d, mem_digits hc, rfl⟩))
  base u v d e := by
    cases hc : asciiDigit d with
    | false => rfl
    | true =>
      refine absurd ⟨u, v, by rw [e]; simp⟩ (chain_word hw (p := d :: s%"_") ?_)
      simp only [unionWords, List.mem_append, List.mem_map]
      exact .inl (.inr ⟨d, mem_digits hc, rfl⟩)
  commas := ⟨chain_word hw (by decide), fun hi => chain_word hw (p := s%"{,") (by decide) (List.IsInfix.trans ⟨[], s%"}", rfl⟩ hi)⟩

omit h0 in
theorem chain_thousands (U : Uni) : ¬ ThousandsComma U (chainText is) := by
  have nil : ¬ ThousandsComma U [] := by rintro ⟨a, x, y, z₁, z₂, z₃, b, h, -⟩; simp at h
  induction is with
  | nil => exact nil
  | cons i is ih =>
    intro h
    cases is with
    | nil =>
      have e : chainText [i] = i.2.text ++ [] := by simp [chainText]
      rw [e] at h
      exact nil (itv_thousands (hw i (by simp)) h)
    | cons j is =>
      rw [chainText_cons] at h
      refine ih (fun k hk => hw k (by simp [hk])) ?_
      have h := itv_thousands (hw i (by simp)) h
      cases hb : i.1 <;> rw [hb] at h
      · exact thousands_skip (u := s%"\\cu") (c := 'p') (by decide) (by decide) (by simp [isDigit, asciiDigit]) h
      · exact thousands_skip (u := s%"\\ca") (c := 'p') (by decide) (by decide) (by simp [isDigit, asciiDigit]) h

theorem chain_strip : strip (chainText is) = chainText is := strip_of_no_space _ fun _ hc => (chain_clear h0 hw).space hc

theorem chain_fixed (E : Env X V S) (n : Nat) : Always (stringNormalize E (n + 1) (chainText is)) (.str (chainText is)) := by
  have hcl : litChar E.U ',' = false := by
    simp [litChar, isDigit, asciiDigit, isSpace]; decide
  have hp : pyFloat E.U (chainText is) = none := pyFloat_none ',' (chain_comma h0 hw) hcl
  refine (chain_clear h0 hw).fixed E n (by obtain ⟨t, h | h⟩ := chain_head h0 hw <;> rw [h] <;> simp) (fun x hx => by rw [hp] at hx; cases hx) ?_
  unfold strIsInt
  rw [stripCommas_id _ _ (chain_thousands hw E.U), hp]

omit h0 in
theorem chain_depth : depth (chainText is) = 0 ∧ ∀ a b, chainText is = a ++ ',' :: b → depth a ≠ 0 := by
  induction is with
  | nil => exact ⟨rfl, fun a b h => by simp [chainText] at h⟩
  | cons i is ih =>
    obtain ⟨h1, h2⟩ := itv_depth (hw i (by simp))
    cases is with
    | nil =>
      have e : chainText [i] = i.2.text := rfl
      rw [e]
      exact ⟨h1, h2⟩
    | cons j is =>
      obtain ⟨i1, i2⟩ := ih fun k hk => hw k (by simp [hk])
      rw [chainText_cons]
      have hc : depth (linkSign i.1) = 0 := by cases i.1 <;> decide
      refine ⟨by rw [depth_append, depth_append, h1, i1, hc]; rfl, fun a b e => ?_⟩
      rcases prefix_of_append e with ⟨z, e1, e2⟩ | ⟨z, e1, e2⟩
      · cases z with
        | nil =>
          simp only [List.nil_append, List.append_nil] at e1 e2
          have := congrArg List.head? e2
          cases hb : i.1 <;> simp [linkSign, hb] at this
        | cons c z =>
          simp only [List.cons_append, List.cons.injEq] at e2
          obtain ⟨rfl, -⟩ := e2
          exact h2 a z e1
      · rw [e1, depth_append, h1, zero_add]
        rcases prefix_of_append e2 with ⟨y, f1, f2⟩ | ⟨y, f1, f2⟩
        · cases y with
          | nil =>
            simp only [List.nil_append, List.append_nil] at f1 f2
            obtain ⟨t, ht⟩ := chain_head (is := j :: is) (by simp) fun k hk => hw k (by simp [hk])
            rcases ht with ht | ht <;> rw [ht] at f2 <;> simp at f2
          | cons c y =>
            simp only [List.cons_append, List.cons.injEq] at f2
            obtain ⟨rfl, -⟩ := f2
            exfalso
            have : ',' ∈ linkSign i.1 := by rw [f1]; simp
            revert this; cases i.1 <;> decide
        · rw [f1, depth_append, hc, zero_add]
          exact i2 y b f2

theorem chain_loop : splitLoop 0 [] (chainText is) = [chainText is] := by
  have := splitLoop_piece 0 [] (chainText is) [] (by simpa using (chain_depth hw).2)
  rw [List.append_nil] at this
  rw [this]
  have hne : chainText is ≠ [] := by obtain ⟨t, h | h⟩ := chain_head h0 hw <;> rw [h] <;> simp
  simp [splitLoop, hne, chain_strip h0 hw]

/-- A union is not a list. -/
theorem chain_unsplit (U : Uni) (ord : List Str → List Str) (hp : ¬ ChainPair is) :
    splitTuple U ord (chainText is) none = .ok (.str (chainText is)) := by
  unfold splitTuple
  simp only [stripCommas_id _ _ (chain_thousands hw U)]
  have h1 := scanBrackets_fst 0 true (chainText is)
  rw [(chain_depth hw).1, add_zero] at h1
  have peel : peelBrackets (scanBrackets 0 true (chainText is)).2 (chainText is) = (chainText is, .set) := by
    match is, h0, hp with
    | [i], _, hp =>
      have hb : i.2.leftOpen ≠ i.2.rightOpen := fun h => hp ⟨i, rfl, h⟩
      have e : chainText [i] = ((if i.2.leftOpen then '(' else '[') :: (i.2.left ++ ',' :: i.2.right)) ++ [if i.2.rightOpen then ')' else ']'] := by
        simp [chainText, Itv.text]
      unfold peelBrackets
      split
      · rw [e, List.getLast?_concat]
        cases hl : i.2.leftOpen <;> cases hr : i.2.rightOpen <;> simp_all
      · rfl
    | i :: j :: is, _, _ =>
      have : (scanBrackets 0 true (chainText (i :: j :: is))).2 = false := by
        rw [Bool.eq_false_iff, ne_eq, scanBrackets_snd]
        rintro ⟨-, h⟩
        have e : chainText (i :: j :: is) = ((if i.2.leftOpen then '(' else '[') :: (i.2.left ++ ',' :: i.2.right)) ++
            (if i.2.rightOpen then ')' else ']') :: (linkSign i.1 ++ chainText (j :: is)) := by
          rw [chainText_cons]; simp [Itv.text]
        refine h _ _ _ e (by cases hb : i.1 <;> simp [linkSign]) ?_
        have := (itv_depth (hw i (by simp))).1
        rw [zero_add, ← this]
        congr 1
        simp [Itv.text]
      rw [this]
      rfl
  generalize scanBrackets 0 true (chainText is) = r at h1 peel
  obtain ⟨r1, r2⟩ := r
  simp only at h1 peel
  subst h1
  simp [peel, chain_loop h0 hw]

/-- An interval in brackets of the same kind is also a list. -/
theorem chain_split (U : Uni) (ord : List Str → List Str) (hp : ChainPair is) :
    ∃ e, splitTuple U ord (chainText is) none = .ok e ∧ (e.sameType (.str []) = false) := by
  obtain ⟨i, rfl, hb⟩ := hp
  have hi := hw i (by simp)
  have key : ∀ br : Bracket, (br = .round ∨ br = .square) → chainText [i] = br.open :: (join s%"," [i.2.left, i.2.right] ++ [br.close]) →
      ∃ e, splitTuple U ord (chainText [i]) none = .ok e ∧ (e.sameType (.str []) = false) := by
    intro br hbr e
    have ht := chain_thousands hw U
    rw [e] at ht ⊢
    rw [C34_split_bracketed U ord br [i.2.left, i.2.right] (by simp) (by
      intro x hx
      simp only [List.mem_cons, List.not_mem_nil, or_false] at hx
      rcases hx with rfl | rfl
      · exact hi.left.element
      · exact hi.right.element) (by simpa using hi.right.nonempty) ht]
    rcases hbr with rfl | rfl <;> exact ⟨_, rfl, rfl⟩
  cases hl : i.2.leftOpen with
  | true => exact key .round (.inl rfl) (by simp [chainText, join, Itv.text, hl, ← hb, Bracket.open, Bracket.close])
  | false => exact key .square (.inr rfl) (by simp [chainText, join, Itv.text, hl, ← hb, Bracket.open, Bracket.close])

theorem chain_brackets : hasBracket (chainText is) = true := by
  unfold hasBracket
  obtain ⟨t, h | h⟩ := chain_head h0 hw <;> rw [h]
  · simp [(contains_iff s%"(" ('(' :: t)).2 ⟨[], t, rfl⟩]
  · simp [(contains_iff s%"[" ('[' :: t)).2 ⟨[], t, rfl⟩]

omit h0 in
theorem chain_notMatrix : strIsMat (chainText is) = false :=
  (contains_eq_false _ _).2 (chain_word hw (p := s%"matrix") (by decide +kernel))

end

theorem chainOne_ne {m : List (Itv K)} (h : m ≠ []) : chainOne m ≠ [] := by
  match m, h with
  | [_], _ => simp [chainOne]
  | _ :: _ :: _, _ => simp [chainOne]

theorem mem_chainOne {m : List (Itv K)} {x : Bool × Itv K} (h : x ∈ chainOne m) : x.2 ∈ m := by
  induction m with
  | nil => simp [chainOne] at h
  | cons i m ih =>
    cases m with
    | nil => simp only [chainOne, List.mem_singleton] at h; subst h; simp
    | cons j m =>
      simp only [chainOne, List.mem_cons] at h
      rcases h with rfl | h
      · simp
      · exact List.mem_cons_of_mem _ (ih h)

theorem mem_chain {ms : List (List (Itv K))} {x : Bool × Itv K} (h : x ∈ chain ms) : ∃ m ∈ ms, x.2 ∈ m := by
  obtain ⟨m, h1, h2⟩ := List.mem_flatMap.1 h
  exact ⟨m, h1, mem_chainOne h2⟩

theorem chainText_one (m : List (Itv K)) : chainText (chainOne m) = join s%"\\cap" (m.map Itv.text) := by
  induction m with
  | nil => rfl
  | cons i m ih =>
    cases m with
    | nil => rfl
    | cons j m =>
      have : chainOne (j :: m) ≠ [] := chainOne_ne (by simp)
      obtain ⟨y, r, e⟩ := List.exists_cons_of_ne_nil this
      rw [show chainOne (i :: j :: m) = (true, i) :: chainOne (j :: m) from rfl]
      rw [e] at ih ⊢
      rw [chainText_cons, ih]
      simp [join, linkSign]

theorem chainText_append {m : List (Itv K)} (hm : m ≠ []) {r : List (Bool × Itv K)} (hr : r ≠ []) :
    chainText (chainOne m ++ r) = chainText (chainOne m) ++ (s%"\\cup" ++ chainText r) := by
  obtain ⟨y, r, rfl⟩ := List.exists_cons_of_ne_nil hr
  induction m with
  | nil => exact absurd rfl hm
  | cons i m ih =>
    cases m with
    | nil => rfl
    | cons j m =>
      have := ih (by simp)
      obtain ⟨z, q, e⟩ := List.exists_cons_of_ne_nil (chainOne_ne (m := j :: m) (by simp))
      rw [show chainOne (i :: j :: m) = (true, i) :: chainOne (j :: m) from rfl]
      rw [e] at this ⊢
      simp only [List.cons_append] at this ⊢
      rw [chainText_cons, chainText_cons, this]
      simp

theorem chain_ne {ms : List (List (Itv K))} (h0 : ms ≠ []) (h : ∀ m ∈ ms, m ≠ []) : chain ms ≠ [] := by
  obtain ⟨m, r, rfl⟩ := List.exists_cons_of_ne_nil h0
  simp [chain, chainOne_ne (h m (by simp))]

/-- The text of a union of intersections is the text of its chain. -/
theorem chain_text {ms : List (List (Itv K))} (h : ∀ m ∈ ms, m ≠ []) : meetsText ms = chainText (chain ms) := by
  induction ms with
  | nil => rfl
  | cons m ms ih =>
    cases ms with
    | nil => simp [chain, meetsText, join, chainText_one]
    | cons k ms =>
      have ih := ih fun x hx => h x (by simp [hx])
      have : chain (m :: k :: ms) = chainOne m ++ chain (k :: ms) := by simp [chain]
      rw [this, chainText_append (h m (by simp)) (chain_ne (by simp) fun x hx => h x (by simp [hx])), ← ih, chainText_one]
      simp [meetsText, join]

theorem chain_pair {ms : List (List (Itv K))} (h : ∀ m ∈ ms, m ≠ []) (hp : ¬ LonePair ms) : ¬ ChainPair (chain ms) := by
  rintro ⟨x, e, hx⟩
  match ms, h, hp, e with
  | [], _, _, e => simp [chain] at e
  | [[]], h, _, _ => exact h [] (by simp) rfl
  | [[i]], _, hp, e =>
    simp only [chain, List.flatMap_cons, List.flatMap_nil, chainOne, List.append_nil, List.cons.injEq, and_true] at e
    subst e
    exact hp ⟨i, rfl, hx⟩
  | [i :: j :: r], h, _, e =>
    have := congrArg List.length e
    have h1 := List.length_pos_of_ne_nil (chainOne_ne (m := j :: r) (by simp))
    simp [chain, chainOne] at this
    rw [this] at h1; simp at h1
  | m :: k :: ms, h, _, e =>
    have := congrArg List.length e
    have h1 := List.length_pos_of_ne_nil (chainOne_ne (h m (by simp)))
    have h2 := List.length_pos_of_ne_nil (chainOne_ne (h k (by simp)))
    simp [chain] at this
    omega

section
variable [LinearOrder K] {E : Env X V S} {pts : S → Set K} {bound : V → Bound K → Prop}

theorem meets_points (H : SetSem E pts bound) {ms : List (List (Itv K))} (h0 : ms ≠ []) (hm : ∀ m ∈ ms, m ≠ [])
    (hok : ∀ m ∈ ms, ∀ i ∈ m, i.Ok E bound) (hr : ∀ m ∈ ms, Unbroken m) :
    ∃ s, Always (strToInterval E (meetsText ms)) (some s) ∧ pts s = meetsPoints ms := by
  obtain ⟨s, h1, h2⟩ := C48_intervals_partial H false (ms.map fun m => ⟨false, m⟩) (by simpa using h0) (by
    intro m hm'
    obtain ⟨i, hi, rfl⟩ := List.mem_map.1 hm'
    exact ⟨hm i hi, hok i hi, fun a b e ha hb => hr i hi a b e ha hb⟩)
  refine ⟨s, ?_, ?_⟩
  · have e : (ms.map fun m => (⟨false, m⟩ : Meet K)).map Meet.text = ms.map fun m => join s%"\\cap" (m.map Itv.text) := by
      rw [List.map_map]
      rfl
    rw [e] at h1
    exact h1
  · rw [h2]
    ext p
    simp [meetsPoints]

variable (E bound) in
/-- A text of intersections of intervals that is read as a set of points. -/
structure MeetsText (ms : List (List (Itv K))) : Prop where
  nonempty : ms ≠ []
  parts : ∀ m ∈ ms, m ≠ []
  wordy : ∀ m ∈ ms, ∀ i ∈ m, i.Wordy
  ok : ∀ m ∈ ms, ∀ i ∈ m, i.Ok E bound
  runs : ∀ m ∈ ms, Unbroken m

open Classical in
/-- **C124**, for two unions of intersections that are not both single intervals in brackets of one kind, and in which no intersection
is empty before its last interval (`C124_refuted` shows that this is needed): they are judged equivalent exactly if they denote the
same set of points.  At least one of the two texts must be unreadable as a formula. -/
theorem C124_meets_partial (H : SetSem E pts bound) (hE : ComparesSets E pts) {as bs : List (List (Itv K))} {n : Nat} {verbose : Bool}
    (ta : MeetsText E bound as) (tb : MeetsText E bound bs) (hp : ¬ (LonePair as ∧ LonePair bs))
    (hu : Unread E (meetsText as) ∨ Unread E (meetsText bs)) :
    Always (isEquiv E (n + 2) (some (meetsText as)) (some (meetsText bs)) verbose) (decide (meetsPoints as = meetsPoints bs)) := by
  by_cases hw : Nonempty (World X)
  swap
  · exact fun w => (hw ⟨w⟩).elim
  obtain ⟨w₀⟩ := hw
  obtain ⟨s, hs1, hs2⟩ := meets_points H ta.nonempty ta.parts ta.ok ta.runs
  obtain ⟨t, ht1, ht2⟩ := meets_points H tb.nonempty tb.parts tb.ok tb.runs
  have pa := chain_pair ta.parts
  have pb := chain_pair tb.parts
  have hp : ¬ (ChainPair (chain as) ∧ ChainPair (chain bs)) := fun h => hp ⟨by_contra fun h' => pa h' h.1, by_contra fun h' => pb h' h.2⟩
  have ha := chain_ne ta.nonempty ta.parts
  have hb := chain_ne tb.nonempty tb.parts
  have wa : ∀ i ∈ chain as, i.2.Wordy := fun i hi => by obtain ⟨m, h1, h2⟩ := mem_chain hi; exact ta.wordy m h1 _ h2
  have wb : ∀ i ∈ chain bs, i.2.Wordy := fun i hi => by obtain ⟨m, h1, h2⟩ := mem_chain hi; exact tb.wordy m h1 _ h2
  rw [chain_text ta.parts] at hs1 hu ⊢
  rw [chain_text tb.parts] at ht1 hu ⊢
  simp only [isEquiv, isEquivStr, chain_strip ha wa, chain_strip hb wb]
  by_cases htx : chainText (chain as) = chainText (chain bs)
  · rw [if_pos htx]
    rw [htx] at hs1
    have := hs1.unique w₀ ht1
    simp only [Option.some.injEq] at this
    rw [this, ht2] at hs2
    rw [decide_eq_true hs2.symm]
    exact Always.pure _
  rw [if_neg htx]
  apply (chain_fixed ha wa E n).bind
  apply (chain_fixed hb wb E n).bind
  apply print_always
  unfold compareNorms
  simp only [htx, decide_false, Bool.false_eq_true, if_false]
  apply Always.tryExcept
  have hem : (chainText (chain bs)).isEmpty = false := by
    obtain ⟨t, h | h⟩ := chain_head hb wb <;> rw [h] <;> rfl
  unfold isLatexEquiv
  simp only [hem, chain_brackets ha wa, chain_notMatrix wa, chain_notMatrix wb, Bool.or_self, Bool.and_false,
    Bool.false_eq_true, if_false, if_true]
  have first : Always (possibleIntervals E (chainText (chain as)) (chainText (chain bs))) (decide (meetsPoints as = meetsPoints bs), true) := by
    unfold possibleIntervals
    refine hs1.bind (ht1.bind ?_)
    have := (hE s t).always
    rw [hs2, ht2] at this
    refine this.bind ?_
    by_cases h : meetsPoints as = meetsPoints bs
    · simpa [h] using Always.pure _
    · simpa [h] using Always.pure _
  refine first.bind ?_
  by_cases h : meetsPoints as = meetsPoints bs
  · simp only [h, decide_true, Bool.not_true, Bool.false_eq_true, if_false]
    refine (Always.pure (true, true)).bind ?_
    refine (Always.pure (true, true)).bind ?_
    simpa using Always.pure true
  simp only [h, decide_false, Bool.not_false, if_true]
  have second : ∀ eq : EqFun X, Always (possibleTuple E eq (chainText (chain as)) (chainText (chain bs)) verbose) (false, false) ∨
      Always (possibleTuple E eq (chainText (chain as)) (chainText (chain bs)) verbose) (false, true) := by
    intro eq
    have lift : ∀ {e e' : Elems} {r : Bool × Bool}, splitTuple E.U E.setOrder (chainText (chain as)) none = .ok e →
        splitTuple E.U E.setOrder (chainText (chain bs)) none = .ok e' →
        Always (elemsEquiv eq (chainText (chain as)) (chainText (chain bs)) verbose e e') r →
        Always (possibleTuple E eq (chainText (chain as)) (chainText (chain bs)) verbose) r := by
      intro e e' r h1 h2 h3
      unfold possibleTuple
      rw [h1, h2]
      refine Always.bind (a := e) (fun w => ⟨w, rfl⟩) ?_
      refine Always.bind (a := e') (fun w => ⟨w, rfl⟩) ?_
      exact print_always _ _ h3
    by_cases h1 : ChainPair (chain as)
    · have h2 : ¬ ChainPair (chain bs) := fun h => hp ⟨h1, h⟩
      obtain ⟨e, e1, e2⟩ := chain_split ha wa E.U E.setOrder h1
      refine .inr (lift e1 (chain_unsplit hb wb E.U E.setOrder h2) ?_)
      cases e with
      | str x => cases e2
      | _ =>
        unfold elemsEquiv
        dsimp only
        split
        · exact Always.pure _
        · exact Always.pure _
    · by_cases h2 : ChainPair (chain bs)
      · obtain ⟨e, e1, e2⟩ := chain_split hb wb E.U E.setOrder h2
        refine .inr (lift (chain_unsplit ha wa E.U E.setOrder h1) e1 ?_)
        cases e with
        | str x => cases e2
        | _ =>
          unfold elemsEquiv
          dsimp only
          split
          · exact Always.pure _
          · exact Always.pure _
      · refine .inl (lift (chain_unsplit ha wa E.U E.setOrder h1) (chain_unsplit hb wb E.U E.setOrder h2) ?_)
        simpa [elemsEquiv] using Always.pure _
  rcases second (isEquivStr E (n + 1)) with h | h
  · refine h.bind ?_
    refine (Always.pure (false, false)).bind ?_
    simpa using unread_unequal (n + 1) verbose hu
  · refine h.bind ?_
    refine (Always.pure (false, true)).bind ?_
    simpa using Always.pure _

end


/-- `(0,2]\cap[1,\infty)` and `[1,2]` are equivalent. -/
example : Always (isEquiv lineEnv 9 (some s%"(0,2]\\cap[1,\\infty)") (some s%"[1,2]") false) true := by
  have m : ∀ e ∈ [s%"\\infty", s%"0", s%"1", s%"2"], e ∈ lineTexts := by decide +kernel
  have hv : lineEnd s%"\\infty" = .plusInf ∧ lineEnd s%"0" = .fin 0 ∧ lineEnd s%"1" = .fin 1 ∧ lineEnd s%"2" = .fin 2 := by
    refine ⟨rfl, ?_, ?_, ?_⟩ <;> (unfold lineEnd; rw [if_neg (by decide), if_neg (by decide)]; kernel_rfl)
  obtain ⟨vi, v0, v1, v2⟩ := hv
  have := C124_meets_partial lineEnv_sem lineEnv_compares (n := 7) (verbose := false)
    (as := [[lineItv true s%"0" s%"2" false, lineItv false s%"1" s%"\\infty" true]]) (bs := [[lineItv false s%"1" s%"2" false]])
    ⟨by simp, by simp,
      by simpa using ⟨lineItv_wordy _ _ (m _ (by simp)) (m _ (by simp)), lineItv_wordy _ _ (m _ (by simp)) (m _ (by simp))⟩,
      by simpa using ⟨lineItv_ok _ _ (m _ (by simp)) (m _ (by simp)) (by rw [v0, v2]; simp [Bound.lt]),
        lineItv_ok _ _ (m _ (by simp)) (m _ (by simp)) (by rw [v1, vi]; simp [Bound.lt])⟩,
      by
        intro k hk
        obtain rfl := List.mem_singleton.1 hk
        intro a b e ha hb
        match a, b, e, ha, hb with
        | [x], [y], e, _, _ =>
          simp only [List.cons_append, List.nil_append, List.cons.injEq] at e
          obtain ⟨rfl, -⟩ := e
          exact ⟨1, by simp [Itv.points, lineItv, v0, v2, Bound.rightOf, Bound.leftOf]⟩
        | x :: y :: a, b, e, _, hb => simp at e; exact absurd e.2.2.2 hb
        | [x], y :: z :: b, e, _, _ => simp at e⟩
    ⟨by simp, by simp, by simpa using lineItv_wordy _ _ (m _ (by simp)) (m _ (by simp)),
      by simpa using lineItv_ok _ _ (m _ (by simp)) (m _ (by simp)) (by rw [v1, v2]; simp [Bound.lt]),
      by
        intro k hk
        obtain rfl := List.mem_singleton.1 hk
        intro a b e ha hb
        match a, b, e, ha, hb with
        | [x], y :: b, e, _, _ => simp at e
        | x :: y :: a, b, e, _, _ => simp at e⟩
    (by rintro ⟨⟨i, h, -⟩, -⟩; simp at h)
    (.inl (lineEnv_unread (by decide) (by decide) (by kernel_rfl)))
  refine this.yes ?_
  ext p
  simp only [meetsPoints, Itv.points, lineItv, v0, v1, v2, vi, Bound.rightOf, Bound.leftOf, List.mem_cons, List.not_mem_nil, or_false,
    Set.mem_ofPred_eq, exists_eq_left, forall_eq_or_imp, forall_eq, and_true]
  constructor
  · rintro ⟨⟨-, h1⟩, h2⟩
    exact ⟨h2, h1⟩
  · rintro ⟨h1, h2⟩
    exact ⟨⟨by linarith, h2⟩, h1⟩

/-- **C124** fails when an intersection is empty before its last interval: what is empty is forgotten.  So an empty set is judged
equivalent to the last interval, also as part of a union, although an intersection that becomes empty at its last interval is told
apart from it. -/
theorem C124_refuted :
    (isEquiv ratEnv 9 (some s%"(0,1)\\cap(2,3)\\cap(4,5)") (some s%"(4,5)") false ⟨(), []⟩).1 = .ok true ∧
    (isEquiv ratEnv 9 (some s%"(0,1)\\cap(2,3)\\cap(4,5)\\cup(6,7)") (some s%"(4,5)\\cup(6,7)") false ⟨(), []⟩).1 = .ok true ∧
    (isEquiv ratEnv 9 (some s%"(0,1)\\cap(4,5)") (some s%"(4,5)") false ⟨(), []⟩).1 = .ok false ∧
    ∀ p : ℚ, ¬ ((0 < p ∧ p < 1) ∧ (2 < p ∧ p < 3)) := by
  refine ⟨by decide +kernel, by decide +kernel, by decide +kernel, ?_⟩
  rintro p ⟨⟨_, h1⟩, h2, _⟩
  linarith

end Verif
