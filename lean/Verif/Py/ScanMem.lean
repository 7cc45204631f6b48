import Verif.Py.RegexCalc
/-
Characters of the result of a substitution.
-/

namespace Verif

theorem mem_scanSub {m : Str → Str → Option (Nat × Str)} {x : Char} (k : Nat) (pre s : Str) (h : x ∈ scanSub m k pre s) :
    x ∈ s ∨ ∃ a b n r, m a b = some (n, r) ∧ x ∈ r := by
  induction s generalizing k pre with
  | nil =>
    cases k with
    | zero =>
      simp only [scanSub] at h
      cases hr : m pre [] with
      | none => rw [hr] at h; exact .inl h
      | some nr => rw [hr] at h; exact .inr ⟨_, _, nr.1, nr.2, hr, h⟩
    | succ k => simp [scanSub] at h
  | cons c cs ih =>
    have ih' : ∀ k pre, x ∈ scanSub m k pre cs → x ∈ c :: cs ∨ ∃ a b n r, m a b = some (n, r) ∧ x ∈ r :=
      fun k pre h => (ih k pre h).imp_left fun h => by simp [h]
    cases k with
    | zero =>
      simp only [scanSub] at h
      cases hr : m pre (c :: cs) with
      | none =>
        rw [hr] at h
        rcases List.mem_cons.1 h with rfl | h
        · exact .inl (by simp)
        · exact ih' _ _ h
      | some nr =>
        obtain ⟨n, r⟩ := nr
        rw [hr] at h
        cases n with
        | zero =>
          simp only [List.mem_append, List.mem_cons] at h
          rcases h with h | rfl | h
          · exact .inr ⟨_, _, _, _, hr, h⟩
          · exact .inl (by simp)
          · exact ih' _ _ h
        | succ n =>
          simp only [List.mem_append] at h
          rcases h with h | h
          · exact .inr ⟨_, _, _, _, hr, h⟩
          · exact ih' _ _ h
    | succ k =>
      simp only [scanSub] at h
      exact ih' _ _ h

theorem mem_replace {p new s : Str} {x : Char} (h : x ∈ replace p new s) : x ∈ s ∨ x ∈ new := by
  rcases mem_scanSub _ _ _ h with h | ⟨a, b, n, r, hm, hx⟩
  · exact .inl h
  · right
    split at hm
    · cases hm; exact hx
    · cases hm

theorem mem_reSubConst {r : Re} {new s : Str} {x : Char} (h : x ∈ reSubConst r new s) : x ∈ s ∨ x ∈ new := by
  rcases mem_scanSub _ _ _ h with h | ⟨a, b, n, q, hm, hx⟩
  · exact .inl h
  · right
    simp only [Re.scanner] at hm
    split at hm
    · cases hm; exact hx
    · cases hm

end Verif
