import Verif.Props.ReadingMeans
/-
Differentials: what separates them in the signs separates them in the tokens, and without integrals
they are the whole contents of a group of braces.
-/

namespace Verif.Grammar
open Verif Verif.L2S Verif.Reading

theorem diff_kind {w : Sign} (h : HasKind w .DIFFERENTIAL) : ∃ c, w = .diff c := by
  have hm : ∀ p ∈ markKinds, p.2 ≠ .DIFFERENTIAL := by decide
  have hc : ∀ p ∈ cmdKinds, p.2 ≠ .DIFFERENTIAL := by decide
  cases h with
  | diff => exact ⟨_, rfl⟩
  | mark h => exact absurd rfl (hm _ h)
  | cmd h => exact absurd rfl (hc _ h)

theorem brace_kind {w : Sign} {k : Kind} (h : HasKind w k) :
    (k = .L_BRACE ↔ w = .mark '{') ∧ (k = .R_BRACE ↔ w = .mark '}') := by
  have hm : ∀ p ∈ markKinds, (p.2 = .L_BRACE ↔ p.1 = '{') ∧ (p.2 = .R_BRACE ↔ p.1 = '}') := by decide
  have hc : ∀ p ∈ cmdKinds, p.2 ≠ .L_BRACE ∧ p.2 ≠ .R_BRACE := by decide
  cases h with
  | mark h => simpa using hm _ h
  | cmd h => simpa using hc _ h
  | _ => simp

theorem depth_level {ws : List Sign} {ts : List Tok} (h : Reads ws ts) :
    ∀ n, depth n ts = level n ws := by
  induction h with
  | nil => intro n; rfl
  | @cons w ws t ts h1 _ _ ih =>
    intro n
    obtain ⟨h3, h4⟩ := brace_kind h1
    rw [depth.eq_def, level.eq_def]
    simp only
    by_cases hl : w = .mark '{'
    · rw [if_pos (h3.2 hl), if_pos hl, ih]
    · rw [if_neg fun h => hl (h3.1 h), if_neg hl]
      by_cases hr : w = .mark '}'
      · rw [if_pos (h4.2 hr), if_pos hr]
        cases n with
        | zero => rfl
        | succ n => exact ih n
      · rw [if_neg fun h => hr (h4.1 h), if_neg hr, ih]

theorem reads_split {ws : List Sign} {a b : List Tok} (h : Reads ws (a ++ b)) :
    ∃ us vs, ws = us ++ vs ∧ Reads us a ∧ Reads vs b := by
  induction a generalizing ws with
  | nil => exact ⟨[], ws, rfl, .nil, h⟩
  | cons t a ih =>
    cases h with
    | cons h1 h2 h3 =>
      obtain ⟨us, vs, rfl, h4, h5⟩ := ih h3
      exact ⟨_ :: us, vs, rfl, .cons h1 h2 h4, h5⟩

/-- differentials apart in the signs are apart in the tokens -/
theorem oneDiff_of_apart {ws : List Sign} {ts : List Tok} (h : Reads ws ts) (ha : Apart ws) :
    OneDiff ts := by
  rintro a b c x y rfl hx hy
  obtain ⟨us, vs, rfl, -, h'⟩ := reads_split h
  clear h
  cases h' with
  | cons h1 _ h =>
    rw [hx] at h1
    obtain ⟨p, rfl⟩ := diff_kind h1
    obtain ⟨bs, cs, rfl, hb, h'⟩ := reads_split h
    clear h
    cases h' with
    | cons h2 _ h =>
      rw [hy] at h2
      obtain ⟨q, rfl⟩ := diff_kind h2
      rw [depth_level hb]
      exact ha us bs _ p q rfl

/-! ### Without integrals -/

/-- every differential stands before a closing brace -/
def boxed : List Sign → Bool
  | [] => true
  | .diff _ :: ws => ws.head? == some (.mark '}') && boxed ws
  | .digit _ :: ws | .letter _ :: ws | .mark _ :: ws | .cmd _ :: ws | .greek _ _ :: ws => boxed ws

theorem boxed_append {us : List Sign} (h : boxed us = true) (vs : List Sign) :
    boxed (us ++ vs) = boxed vs := by
  induction us with
  | nil => rfl
  | cons w us ih =>
    cases w with
    | diff c =>
      simp only [boxed, Bool.and_eq_true, beq_iff_eq] at h
      rw [List.cons_append, boxed, ih h.2]
      cases us with
      | nil => simp at h
      | cons u us => simp at h; simp [h.1]
    | _ => exact ih h

theorem apart_of_boxed {ws : List Sign} (h : boxed ws = true) : Apart ws := by
  rintro a b c x y rfl
  have key : ∀ a : List Sign, ∀ b, boxed (a ++ .diff x :: b) = true → b.head? = some (.mark '}') := by
    intro a b
    induction a with
    | nil => intro h; simp only [List.nil_append, boxed, Bool.and_eq_true, beq_iff_eq] at h; exact h.1
    | cons w a ih =>
      intro h
      cases w with
      | diff c => simp only [List.cons_append, boxed, Bool.and_eq_true] at h; exact ih h.2
      | _ => exact ih h
  have h1 := key a _ h
  cases b with
  | nil => simp at h1
  | cons w b =>
    simp at h1
    subst h1
    simp [level]

theorem boxed_variable {w : Sign} {n : Str} (h : Variable w n) (ws : List Sign) :
    boxed (w :: ws) = boxed ws := by
  cases h <;> rfl

theorem boxed_of_plain {ws : List Sign} (h : ws.all (fun w => match w with | .diff _ => false | _ => true) = true) :
    boxed ws = true := by
  induction ws with
  | nil => rfl
  | cons w ws ih =>
    rw [List.all_cons, Bool.and_eq_true] at h
    cases w with
    | diff c => simp at h
    | _ => exact ih h.2

theorem boxed_numeral {us : List Sign} {q : Rat} (h : Numeral us q) : boxed us = true := by
  apply boxed_of_plain
  cases h <;> simp

section
variable {K : Type} [Field K] {I : Interp K} {free : Str → Prop} {wide : Style}

omit [Field K] in
theorem boxed_endless {us : List Sign} {b : Bound K} (h : Endless us b) : boxed us = true := by
  cases h <;> rfl

omit [Field K] in
theorem boxed_above {us : List Sign} {b : Bound K} (h : EndlessAbove us b) : boxed us = true := by
  cases h with
  | inf => rfl
  | braces h => cases h <;> rfl

theorem boxed_denotes {l : Level} {ws : List Sign} {x : K} (h : Denotes I free wide l ws x)
    (hw : wide.integrals = false) : boxed ws = true := by
  have dig : ∀ d ws, boxed (.digit d :: ws) = boxed ws := fun _ _ => rfl
  have let' : ∀ c ws, boxed (.letter c :: ws) = boxed ws := fun _ _ => rfl
  have mark : ∀ c ws, boxed (.mark c :: ws) = boxed ws := fun _ _ => rfl
  have cmd : ∀ n ws, boxed (.cmd n :: ws) = boxed ws := fun _ _ => rfl
  have nil : boxed [] = true := rfl
  have op : ∀ o ∈ timesSigns ++ overSigns ++ arrows, ∀ ws, boxed (o :: ws) = boxed ws := by
    intro o ho ws
    simp only [timesSigns, overSigns, arrows, List.cons_append, List.nil_append, List.mem_cons,
      List.not_mem_nil, or_false] at ho
    rcases ho with rfl | rfl | rfl | rfl | rfl | rfl | rfl | rfl | rfl | rfl | rfl <;> rfl
  have br : ∀ b ∈ brackets, boxed b.1 = true ∧ boxed b.2.1 = true := by decide
  induction h with
  | integral h | integralOne h | antiderivative h => rw [hw] at h; cases h
  | derivative _ _ h0 _ _ ih =>
    have := ih _ h0 hw
    simp only [mark, cmd, let']
    show (some (Sign.mark '}') == some (.mark '}') && boxed (.mark '}' :: _)) = true
    rw [mark, this]
    decide
  | mul ho _ _ ih1 ih2 | div ho _ _ ih1 ih2 | bareMul _ ho _ _ ih1 ih2 | bareDiv _ ho _ _ ih1 ih2 =>
    rw [boxed_append (ih1 hw), op _ (by simp [ho])]
    exact ih2 hw
  | number h => exact boxed_numeral h
  | percent h => rw [boxed_append (boxed_numeral h)]; rfl
  | letter hv _ | expLetter hv _ | pointName hv _ => rw [boxed_variable hv]; rfl
  | letterPow hv _ _ ih => rw [boxed_variable hv, mark]; exact ih hw
  | bracket hb _ ih | bracketFn hb _ ih =>
    obtain ⟨h1, h2⟩ := br _ hb
    rw [List.append_assoc, boxed_append h1, boxed_append (ih hw)]
    exact h2
  | @sum _ _ _ nm op v i as e bs o w vs x lo hi S f k₀ _ hv _ h1 h2 h3 h4 _ h0 _ _ ih1 ih2 ih3 =>
    have ha : boxed as = true := by
      by_cases h : ∃ y, lo = .fin y
      · exact ih1 _ h.choose_spec hw
      · exact boxed_endless (h2 fun y hy => h ⟨y, hy⟩)
    have hb : boxed bs = true := by
      by_cases h : ∃ y, hi = .fin y
      · exact ih2 _ h.choose_spec hw
      · exact boxed_above (h4 fun y hy => h ⟨y, hy⟩).2
    simp only [cmd, mark, boxed_variable hv, boxed_append ha, boxed_append hb]
    exact ih3 _ h0 hw
  | limInfinity hq hv _ hp h0 _ _ ih =>
    simp only [cmd, mark, boxed_variable hv, op _ (List.mem_append_right _ hq),
      boxed_append (boxed_endless hp)]
    exact ih _ h0 hw
  | limBoth hq hv _ _ h0 _ _ ih1 ih2 | limRight hq hv _ _ h0 _ _ ih1 ih2
  | limLeft hq hv _ _ h0 _ _ ih1 ih2 =>
    simp only [cmd, mark, boxed_variable hv, op _ (List.mem_append_right _ hq), boxed_append (ih1 hw)]
    exact ih2 _ h0 hw
  | restJuxt _ _ _ _ ih1 ih2 =>
    rw [boxed_append (ih1 hw)]
    exact ih2 hw
  | _ =>
    simp_all only [dig, let', mark, cmd, nil, boxed_append, List.cons_append, List.append_assoc]

end
end Verif.Grammar
