import Verif.Model.Normalize
import Verif.Py.RegexCalc
import Verif.Props.Quiet
/-
When the stages of `string_normalize` leave a text alone.
-/

namespace Verif
open Re

variable {X V S : Type}

theorem stripBlank_id {s : Str} (h1 : s.head? ≠ some ' ') (h2 : s.getLast? ≠ some ' ') : stripBlank s = s := by
  have e1 : ∀ t : Str, t.head? ≠ some ' ' → t.dropWhile (· == ' ') = t := by
    intro t ht
    cases t with
    | nil => rfl
    | cons c cs =>
      have : (c == ' ') = false := by
        rw [beq_eq_false_iff_ne]; rintro rfl; exact ht rfl
      simp [this]
  unfold stripBlank stripBy lstripBy rstripBy
  rw [e1 s h1, e1 s.reverse (by rw [List.head?_reverse]; exact h2), List.reverse_reverse]

theorem stripBlank_noblank {s : Str} (h : ' ' ∉ s) : stripBlank s = s := by
  apply stripBlank_id
  · intro e; exact h (List.mem_of_head? e)
  · intro e; exact h (List.mem_of_getLast? e)

theorem matrixNormalize_id {s : Str} (h1 : ¬ s%"{cases}" <:+: s) (h2 : ¬ s%"{array}" <:+: s) (h3 : ¬ s%"\\\\" <:+: s) :
    matrixNormalize s = s := by
  unfold matrixNormalize
  rw [(contains_eq_false _ _).2 h1]
  simp only [Bool.false_eq_true, if_false]
  rw [(contains_eq_false _ _).2 h2]
  simp only [Bool.false_eq_true, if_false]
  rw [replace_id _ _ _ h3]
  simp

theorem textRe_none {s : Str} (h : s.head? ≠ some '\\') : reSearch textRe s = none := by
  cases hm : reSearch textRe s with
  | none => rfl
  | some t =>
    obtain ⟨u, hu, hl⟩ := reSearch_bos_lang hm
    obtain ⟨x, y, rfl, hx, _⟩ := lang_cat_cons.1 hl
    rw [lang_c.1 hx] at hu
    exact absurd (by rw [hu]; rfl) h

theorem setBuilderRe_none {s : Str} (h : s.head? ≠ some '\\') : reSearch setBuilderRe s = none := by
  cases hm : reSearch setBuilderRe s with
  | none => rfl
  | some t =>
    obtain ⟨u, hu, hl⟩ := reSearch_bos_lang hm
    obtain ⟨x, y, rfl, hx, _⟩ := lang_cat_cons.1 hl
    rw [lang_lit.1 hx] at hu
    exact absurd (by rw [hu]; rfl) h

/-- `normBody` when no wrapper is present. -/
theorem normBody_unwrapped (E : Env X V S) (rec : Str → M X Norm) {s t : Str} (h : matrixNormalize (stripBlank s) = t)
    (h' : t.head? ≠ some '\\') : normBody E rec s = normTail E t := by
  unfold normBody
  simp only [h]
  rw [textRe_none h', setBuilderRe_none h']

theorem removeSpacing_id {s : Str} (h1 : ¬ s%"\\:" <:+: s) (h2 : ¬ s%"\\," <:+: s) (h3 : ¬ s%"\\;" <:+: s)
    (h4 : ¬ s%"\\!" <:+: s) (h5 : ¬ s%"{,}" <:+: s) : removeSpacing s = s := by
  unfold removeSpacing
  simp only [reSubConst_lit]
  rw [replace_id _ _ _ h1, replace_id _ _ _ h2, replace_id _ _ _ h3, replace_id _ _ _ h4, replace_id _ _ _ h5]

theorem removeSpacing_noslash {s : Str} (h : '\\' ∉ s) (h5 : ¬ s%"{,}" <:+: s) : removeSpacing s = s :=
  removeSpacing_id (not_infix_of_not_mem '\\' (by simp) h) (not_infix_of_not_mem '\\' (by simp) h)
    (not_infix_of_not_mem '\\' (by simp) h) (not_infix_of_not_mem '\\' (by simp) h) h5

/-- Mentioning a literal that does not occur, a pattern cannot match. -/
theorem reSearch_none_of_part {rs : List Re} {r : Re} {s : Str} (hr : r ∈ rs) (h : ∀ u, r.Lang u → ¬ u <:+: s) :
    reSearch (cat rs) s = none := by
  apply reSearch_of_lang
  intro u hu hi
  obtain ⟨a, v, b, rfl, hv⟩ := lang_cat_mem hr hu
  exact h v hv (List.IsInfix.trans ⟨a, b, rfl⟩ hi)

theorem reSub_id_of_part {rs : List Re} {r : Re} {f : Str → RSt → Str} {s : Str} (hr : r ∈ rs)
    (h : ∀ u, r.Lang u → ¬ u <:+: s) : reSub (cat rs) f s = s := by
  apply reSub_of_lang
  intro u hu hi
  obtain ⟨a, v, b, rfl, hv⟩ := lang_cat_mem hr hu
  exact h v hv (List.IsInfix.trans ⟨a, b, rfl⟩ hi)

theorem reSubConst_id_of_part {rs : List Re} {r : Re} {new s : Str} (hr : r ∈ rs)
    (h : ∀ u, r.Lang u → ¬ u <:+: s) : reSubConst (cat rs) new s = s := reSub_id_of_part hr h

theorem lit_absent {p s : Str} (h : ¬ p <:+: s) : ∀ u, (lit p).Lang u → ¬ u <:+: s := by
  intro u hu; rw [lang_lit.1 hu]; exact h

theorem c_absent {x : Char} {s : Str} (h : x ∉ s) : ∀ u, (c x).Lang u → ¬ u <:+: s := by
  intro u hu; rw [lang_c.1 hu]; exact not_infix_of_not_mem x (by simp) h

theorem baseReadings_none {U : Uni} {s : Str} (h : '_' ∉ s) : baseReadings U s = none := by
  unfold baseReadings baseRe
  rw [reSearch_none_of_part (r := c '_') (by simp) (c_absent h)]

theorem percentStep_id {U : Uni} {s : Str} (h : '%' ∉ s) : percentStep U s = .inr s := by
  unfold percentStep
  rw [(contains_eq_false _ _).2 (not_infix_of_not_mem '%' (by simp) h)]
  simp

theorem removeDollar_id {s : Str} (h : '$' ∉ s) : removeDollar s = s := by
  unfold removeDollar
  rw [replace_id s%"\\$" _ _ (not_infix_of_not_mem '$' (by simp) h), replace_id s%"$" _ _ (not_infix_of_not_mem '$' (by simp) h)]

theorem andOr_lang {u : Str} (h : andOrRe.Lang u) : s%"and" <:+: u ∨ s%"or" <:+: u := by
  have key : ∀ n v, (grp n (alt (lit s%"and") (lit s%"or"))).Lang v → v = s%"and" ∨ v = s%"or" := by
    intro n v hv
    rcases hv with hv | hv
    · exact .inl (lang_lit.1 hv)
    · exact .inr (lang_lit.1 hv)
  have wrap : ∀ (a v b : Str), (v = s%"and" ∨ v = s%"or") → s%"and" <:+: a ++ v ++ b ∨ s%"or" <:+: a ++ v ++ b := by
    rintro a v b (rfl | rfl)
    · exact .inl ⟨a, b, rfl⟩
    · exact .inr ⟨a, b, rfl⟩
  obtain ⟨x, y, rfl, _, hy⟩ := h
  obtain ⟨x', z, rfl, _, hz⟩ := hy
  have hz' : s%"and" <:+: z ∨ s%"or" <:+: z := by
    rcases hz with hz | hz
    · obtain ⟨a, v, b, rfl, hv⟩ := lang_cat_mem (r := grp 3 (alt (lit s%"and") (lit s%"or"))) (by simp) hz
      exact wrap a v b (key 3 v hv)
    · obtain ⟨a, v, b, rfl, hv⟩ := lang_cat_mem (r := grp 4 (alt (lit s%"and") (lit s%"or"))) (by simp) hz
      exact wrap a v b (key 4 v hv)
  have hin : z <:+: x ++ (x' ++ z) := ⟨x ++ x', [], by simp⟩
  rcases hz' with h | h
  · exact .inl (h.trans hin)
  · exact .inr (h.trans hin)

theorem andOrStep_id {s : Str} (h1 : ¬ s%"and" <:+: s) (h2 : ¬ s%"or" <:+: s) : andOrStep s = s := by
  apply reSubConst_of_lang
  intro u hu hi
  rcases andOr_lang hu with h | h
  · exact h1 (h.trans hi)
  · exact h2 (h.trans hi)

/-- The control characters that `wordsAndControls` replaces. -/
def noControl (s : Str) : Prop := ∀ c ∈ s, c.toNat ∉ ([7, 8, 9, 12, 13] : List Nat)

theorem wordsAndControls_id {s : Str} (h : ¬ s%"llion" <:+: s) (hc : noControl s) : wordsAndControls s = s := by
  have hi : ∀ p : Str, s%"llion" <:+: p → ∀ new, replace p new s = s :=
    fun p hp new => replace_id _ _ _ (fun h' => h (hp.trans h'))
  have hk : ∀ k : Nat, k ∈ ([7, 8, 9, 12, 13] : List Nat) → ∀ new, replace [Char.ofNat k] new s = s := by
    intro k hk new
    apply replace_id
    apply not_infix_of_not_mem (Char.ofNat k) (by simp)
    intro hm
    have := hc _ hm
    apply this
    have he : (Char.ofNat k).toNat = k := by
      simp only [List.mem_cons, List.not_mem_nil, or_false] at hk
      rcases hk with rfl | rfl | rfl | rfl | rfl <;> decide
    rw [he]; exact hk
  unfold wordsAndControls
  simp only
  rw [hi s%"million" ⟨s%"mi", [], rfl⟩, hi s%"billion" ⟨s%"bi", [], rfl⟩, hi s%"trillion" ⟨s%"tri", [], rfl⟩,
    hk 12 (by simp), hk 8 (by simp), hk 7 (by simp), hk 9 (by simp), hk 13 (by simp)]

theorem leftRight_id {s : Str} (h1 : ¬ s%"\\left" <:+: s) (h2 : ¬ s%"\\right" <:+: s) : leftRight s = s := by
  unfold leftRight
  simp only [reSubConst_lit]
  rw [replace_id s%"\\left(" _ _ (fun h => h1 (List.IsInfix.trans ⟨[], s%"(", rfl⟩ h)),
    replace_id s%"\\left[" _ _ (fun h => h1 (List.IsInfix.trans ⟨[], s%"[", rfl⟩ h)),
    replace_id s%"\\right)" _ _ (fun h => h2 (List.IsInfix.trans ⟨[], s%")", rfl⟩ h)),
    replace_id s%"\\right]" _ _ (fun h => h2 (List.IsInfix.trans ⟨[], s%"]", rfl⟩ h))]

theorem memberStep_id {s : Str} (h : ¬ s%"\\in" <:+: s) : memberStep s = s :=
  reSubConst_id_of_part (r := lit s%"\\in") (by simp) (lit_absent h)

theorem middle_id {s : Str} (h1 : '$' ∉ s) (h2 : ¬ s%"and" <:+: s) (h3 : ¬ s%"or" <:+: s) (h4 : ¬ s%"llion" <:+: s)
    (h5 : noControl s) (h6 : ¬ s%"\\left" <:+: s) (h7 : ¬ s%"\\right" <:+: s) (h8 : ¬ s%"\\in" <:+: s) : middle s = s := by
  unfold middle
  rw [removeDollar_id h1, andOrStep_id h2 h3, wordsAndControls_id h4 h5, leftRight_id h6 h7, memberStep_id h8]

theorem time_id {U : Uni} {s : Str} (h1 : reSearch (timeRe1 U) s = none) (h2 : ':' ∉ s) : strToTimeList U s = .str s := by
  unfold strToTimeList
  rw [h1]
  simp only
  unfold timeRe2
  rw [reSearch_none_of_part (r := c ':') (by simp) (c_absent h2)]

/-- A word of `[ap]\.?m\.?` ignoring case contains an `m`. -/
theorem meridiem_lang {u : Str} (h : meridiemAlt.Lang u) : 'm' ∈ u ∨ 'M' ∈ u := by
  have key : ∀ v, meridiemRe.Lang v → 'm' ∈ v ∨ 'M' ∈ v := by
    intro v hv
    obtain ⟨a, w, b, rfl, x, rfl, hx⟩ := lang_cat_mem (r := ci 'm') (by simp) hv
    have : x = 'm' ∨ x = 'M' := by
      simp only [asciiToLower, beq_iff_eq] at hx
      split at hx
      · rename_i hu
        right
        have h2 : 65 ≤ x.toNat ∧ x.toNat ≤ 90 := by simpa [asciiUpper] using hu
        have hn : (Char.ofNat (x.toNat + 32)).toNat = x.toNat + 32 := by
          have hv : (x.toNat + 32).isValidChar := by left; omega
          unfold Char.ofNat
          rw [dif_pos hv]
          rfl
        rw [hx] at hn
        have h3 : x.toNat = 77 := by
          have : ('m' : Char).toNat = 109 := by decide
          omega
        have : x = Char.ofNat x.toNat := (Char.ofNat_toNat x).symm
        rw [this, h3]
      · left; exact hx
    rcases this with rfl | rfl
    · left; simp
    · right; simp
  rcases h with h | h
  · obtain ⟨a, v, b, rfl, hv⟩ := lang_cat_mem (r := meridiemRe) (by simp) h
    rcases key v hv with h | h
    · left; simp [h]
    · right; simp [h]
  · exact key u h

theorem timeRe1_none {U : Uni} {s : Str} (h1 : 'm' ∉ s) (h2 : 'M' ∉ s) : reSearch (timeRe1 U) s = none := by
  unfold timeRe1
  refine reSearch_none_of_part (r := grp 2 meridiemAlt) (by simp) ?_
  intro u hu hi
  rcases meridiem_lang hu with h | h
  · exact h1 (hi.subset h)
  · exact h2 (hi.subset h)

/-- The words of a unit pattern without dots. -/
theorem unitRe_nodot {u : Str} (h : '.' ∉ u) : unitRe u = cat (u.map c) := by
  unfold unitRe
  congr 1
  apply List.map_congr_left
  intro x hx
  have : (x == '.') = false := by rw [beq_eq_false_iff_ne]; rintro rfl; exact h hx
  simp [this]

theorem cat_map_c (u : Str) : cat (u.map c) = lit u := by
  induction u with
  | nil => rfl
  | cons x xs ih =>
    cases xs with
    | nil => rfl
    | cons y ys => simp only [List.map_cons] at ih ⊢; rw [cat, ih]; rfl; simp

theorem unitRe_lit {u : Str} (h : '.' ∉ u) : unitRe u = lit u := by rw [unitRe_nodot h, cat_map_c]

/-- Every word of a unit pattern contains every character of the unit that is not a dot. -/
theorem unitRe_lang_mem {u w : Str} (h : (unitRe u).Lang w) {x : Char} (hx : x ∈ u) (hd : x ≠ '.') : x ∈ w := by
  obtain ⟨a, v, b, rfl, hv⟩ := lang_cat_mem (r := c x) (List.mem_map.2 ⟨x, hx, by simp [hd]⟩) h
  rw [lang_c.1 hv]; simp

/-- Units do not matter if each has a character that does not occur. -/
theorem bareUnits_id {U : Uni} {s : Str} (h : ∀ u ∈ unitLong ++ unitShort, ∃ x ∈ u, x ≠ '.' ∧ x ∉ s) : bareUnits U s = s := by
  have hu : ∀ u ∈ unitLong ++ unitShort, ∀ w, (unitRe u).Lang w → ¬ w <:+: s := by
    intro u hu w hw hi
    obtain ⟨x, hx, hd, hn⟩ := h u hu
    exact hn (hi.subset (unitRe_lang_mem hw hx hd))
  unfold bareUnits
  rw [foldl_id (fun s u => reSubConst (longUnitRe U u) [] s) unitLong s]
  · apply foldl_id
    intro u hm
    exact reSubConst_id_of_part (r := unitRe u) (by simp) (hu u (by simp [hm]))
  · intro u hm
    exact reSubConst_id_of_part (r := unitRe u) (by simp) (hu u (by simp [hm]))

theorem textUnits_id {U : Uni} {s : Str} (h : '{' ∉ s ∨ (¬ s%"text" <:+: s ∧ ¬ s%"mbox" <:+: s)) : textUnits U s = s := by
  apply foldl_id
  intro u _
  rcases h with h | ⟨h1, h2⟩
  · rw [show reSubConst (textUnitRe U s%"text" u) [] s = s from
        reSubConst_id_of_part (r := c '{') (by simp) (c_absent h)]
    exact reSubConst_id_of_part (r := c '{') (by simp) (c_absent h)
  · rw [show reSubConst (textUnitRe U s%"text" u) [] s = s from
        reSubConst_id_of_part (r := lit s%"text") (by simp) (lit_absent h1)]
    exact reSubConst_id_of_part (r := lit s%"mbox") (by simp) (lit_absent h2)

theorem anyText_id {U : Uni} {s : Str} (h : ¬ s%"text{" <:+: s) : anyText U s = s :=
  reSubConst_id_of_part (r := lit s%"text{") (by simp) (lit_absent h)

theorem unitsStep_id {U : Uni} {s : Str} (h : '{' ∉ s ∨ (¬ s%"text" <:+: s ∧ ¬ s%"mbox" <:+: s))
    (h' : ∀ u ∈ unitLong ++ unitShort, ∃ x ∈ u, x ≠ '.' ∧ x ∉ s) : unitsStep U s = s := by
  have h2 : ¬ s%"text{" <:+: s := by
    rcases h with h | h
    · exact not_infix_of_not_mem '{' (by simp) h
    · exact fun hi => h.1 (List.IsInfix.trans ⟨[], s%"{", rfl⟩ hi)
  unfold unitsStep
  rw [textUnits_id h, anyText_id h2, bareUnits_id h']

theorem circRe_none {s : Str} (h : ¬ s%"\\circ" <:+: s) : reSearch circRe s = none := by
  unfold circRe
  apply reSearch_of_lang
  intro u hu hi
  obtain ⟨x, y, rfl, _, hy⟩ := hu
  obtain ⟨x', z, rfl, _, hz⟩ := hy
  apply h
  refine List.IsInfix.trans ?_ hi
  have : s%"\\circ" <:+: z := by
    rcases hz with hz | hz
    · obtain ⟨a, v, b, rfl, hv⟩ := lang_cat_mem (r := lit s%"\\circ") (by simp) hz
      rw [lang_lit.1 hv]; exact ⟨a, b, rfl⟩
    · rw [lang_lit.1 hz]; exact List.infix_rfl
  exact this.trans ⟨x ++ x', [], by simp⟩

theorem degrees_none (E : Env X V S) {s : Str} (h : ¬ s%"\\circ" <:+: s) :
    degrees E s = (do let a ← further E s; pure (.str a)) := by
  unfold degrees
  rw [circRe_none h]
  simp

/-- `normTail` on a text that only the last stage changes. -/
theorem normTail_str (E : Env X V S) {s t t' : Str} (h1 : removeSpacing s = t) (h2 : '_' ∉ t) (h3 : '%' ∉ t)
    (h4 : strToTimeList E.U (middle t) = .str t') : normTail E s = degrees E (unitsStep E.U t') := by
  unfold normTail
  simp only [h1]
  rw [baseReadings_none h2]
  simp only
  rw [percentStep_id h3]
  simp only
  rw [h4]

end Verif
