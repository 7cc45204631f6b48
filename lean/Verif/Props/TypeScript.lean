import Verif.Model.TypeScript
import Verif.Props.Llm

/-! # C105: the script that asks for answer types -/

namespace Verif

variable {X : Type}

/-- The lines for the questions and answers, from one external state to another: for each of them the type named by the first of at
most five responses that names one, or `None` if none of five does. -/
inductive Asked (head : Str) (call : List Message → Ext X (Option Str)) : List (Str × Str) → X → List Str → X → Prop
  | done {x} : Asked head call [] x [] x
  | named {q a data x k t ls y} : k < 5 → NamesType (call [⟨s%"user", promptText head q (wrapDollar a)⟩]) x k t →
      (∀ j < k, ∀ t', ¬ NamesType (call [⟨s%"user", promptText head q (wrapDollar a)⟩]) x j t') →
      Asked head call data (afterCalls (call [⟨s%"user", promptText head q (wrapDollar a)⟩]) (k + 1) x) ls y →
      Asked head call ((q, a) :: data) x (t :: ls) y
  | unnamed {q a data x ls y} : (∀ j < 5, ∀ t', ¬ NamesType (call [⟨s%"user", promptText head q (wrapDollar a)⟩]) x j t') →
      Asked head call data (afterCalls (call [⟨s%"user", promptText head q (wrapDollar a)⟩]) 5 x) ls y →
      Asked head call ((q, a) :: data) x (s%"None" :: ls) y

/-- **C105.**  Without a key the script raises `ValueError` before anything is sent. -/
theorem C105_key (call : List Message → Ext X (Option Str)) (w : World X) :
    typeScript none call w = (.error .valueError, w) ∧ typeScript (some []) call w = (.error .valueError, w) := ⟨rfl, rfl⟩

/-- **C105.**  For every list of questions and answers and whatever the service does, the loop prints one line for each, in order, and
does not raise. -/
theorem C105_lines : ∃ head : Str,
    promptTemplate = escapeBraces head ++ s%"{question}\nAnswer: {ground_truth}\nAnalysis:" ∧
    ∀ (X : Type) (call : List Message → Ext X (Option Str)) (data : List (Str × Str)) (w : World X),
      ∃ ls y, typeLines call data w = (.ok (), ⟨y, ls.reverse ++ w.out⟩) ∧ Asked head call data w.ext ls y ∧ ls.length = data.length := by
  obtain ⟨head, e, h⟩ := C59_prompt_verbatim promptTemplate (Or.inl rfl)
  refine ⟨head, e, fun X call data => ?_⟩
  have get : ∀ q a, getLlmType promptTemplate promptTemplate2 call q a 1 5 =
      typeLoop call [⟨s%"user", promptText head q (wrapDollar a)⟩] 5 := by
    intro q a
    funext w
    simp [getLlmType, h]
  induction data with
  | nil => exact fun w => ⟨[], w.ext, rfl, .done, rfl⟩
  | cons d data ih =>
    intro w
    obtain ⟨q, a⟩ := d
    have step : ∀ (o : Option Str) (x : X),
        typeLoop call [⟨s%"user", promptText head q (wrapDollar a)⟩] 5 w = (.ok o, ⟨x, w.out⟩) →
        typeLines call ((q, a) :: data) w = typeLines call data ⟨x, o.getD s%"None" :: w.out⟩ := by
      intro o x ho
      simp only [typeLines, get, M.bind_run, ho]
      rfl
    rcases typeLoop_spec call [⟨s%"user", promptText head q (wrapDollar a)⟩] 5 w with ⟨k, t, hk, h1, h2, hr⟩ | ⟨h1, hr⟩
    · obtain ⟨ls, y, h3, h4, h5⟩ := ih ⟨_, t :: w.out⟩
      refine ⟨t :: ls, y, ?_, .named hk h1 h2 h4, by simp [h5]⟩
      rw [step _ _ hr]
      rw [List.reverse_cons, List.append_assoc]
      exact h3
    · obtain ⟨ls, y, h3, h4, h5⟩ := ih ⟨_, s%"None" :: w.out⟩
      refine ⟨s%"None" :: ls, y, ?_, .unnamed h1 h4, by simp [h5]⟩
      rw [step _ _ hr]
      rw [List.reverse_cons, List.append_assoc]
      exact h3

/-- **C105.**  With a key the script prints exactly two lines. -/
theorem C105_script {key : Str} (hk : key ≠ []) (call : List Message → Ext X (Option Str)) (w : World X) :
    ∃ l1 l2 y, typeScript (some key) call w = (.ok (), ⟨y, l2 :: l1 :: w.out⟩) := by
  obtain ⟨head, -, h⟩ := C105_lines
  obtain ⟨ls, y, h1, -, h2⟩ := h X call typeData w
  have hs : typeScript (some key) call w = typeLines call typeData w := by
    cases key with
    | nil => exact absurd rfl hk
    | cons c cs =>
      show (M.lift (createLlm s%"tongyi") >>= fun _ => typeLines call typeData) w = _
      rw [show createLlm s%"tongyi" = .ok .tongyi by decide]
      generalize typeLines call typeData = m
      rfl
  match ls, h2 with
  | [l1, l2], _ => exact ⟨l1, l2, y, by rw [hs, h1]; rfl⟩

/-- With the service of `exampleLlm`, which fails twice at first, both lines name the type. -/
example (q a q' a' : Str) : typeLines exampleLlm [(q, a), (q', a')] ⟨0, []⟩ = (.ok (), ⟨4, [s%"Real", s%"Real"]⟩) := by
  obtain ⟨head, -, h⟩ := C59_prompt_verbatim promptTemplate (Or.inl rfl)
  have get : ∀ q a, getLlmType promptTemplate promptTemplate2 exampleLlm q a 1 5 = typeLoop exampleLlm [] 5 := by
    intro q a
    funext w
    have : ∀ msgs n w, typeLoop exampleLlm msgs n w = typeLoop exampleLlm [] n w := by
      intro msgs n
      induction n with
      | zero => exact fun _ => rfl
      | succ n ih => exact fun w => by simp only [typeLoop]; rw [funext ih]; rfl
    rw [← this [⟨s%"user", promptText head q (wrapDollar a)⟩]]
    simp [getLlmType, h]
  simp only [typeLines, get]
  decide +kernel

end Verif
