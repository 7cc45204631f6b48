import Verif.Props.ReadingIntegrals
/-
Relations and lists of expressions are read from the text item by item (C87).
-/

namespace Verif.Reading
open Verif Verif.L2S

/-! ### Specification -/

/-- The signs of relations, with the relation of SymPy. -/
def relationSigns : List (Sign × Str) :=
  [(.mark '=', s%"="), (.cmd s%"equiv", s%"="), (.mark '<', s%"<"), (.mark '>', s%">"),
   (.cmd s%"leq", s%"<="), (.cmd s%"le", s%"<="), (.cmd s%"leqslant", s%"<="),
   (.cmd s%"geq", s%">="), (.cmd s%"ge", s%">="), (.cmd s%"geqslant", s%">="),
   (.cmd s%"neq", s%"!=")]

/-- What an item of a list says: a value, or a relation between two values. -/
inductive Meaning (K : Type) where
  | value (x : K)
  | relation (op : Str) (x y : K)

/-- An item: an expression, or a relation between two expressions. -/
inductive Item {K : Type} [Field K] (I : Interp K) (free : Str → Prop) (style : Style) :
    List Sign → Meaning K → Prop
  | expr {us x} : Denotes I free style .expr us x → Item I free style us (.value x)
  | rel {o op us vs x y} : (o, op) ∈ relationSigns → Denotes I free style .expr us x →
      Denotes I free style .expr vs y → Item I free style (us ++ o :: vs) (.relation op x y)

/-- Three digits follow, as after a comma between thousands. -/
def threeDigits : List Sign → Bool
  | .digit _ :: .digit _ :: .digit _ :: _ => true
  | _ => false

/-- Items with the separator between them.  Three digits do not follow a comma: `1, 234` is a number. -/
inductive Listing {K : Type} [Field K] (I : Interp K) (free : Str → Prop) (style : Style) (sep : Char) :
    List Sign → List (Meaning K) → Prop
  | one {us m} : Item I free style us m → Listing I free style sep us [m]
  | cons {us m vs ms} : Item I free style us m → Listing I free style sep vs ms →
      (sep = ',' → threeDigits vs = false) →
      Listing I free style sep (us ++ .mark sep :: vs) (m :: ms)

/-- Brackets around a list. -/
def listBrackets : List (List Sign × List Sign) :=
  [([], []), ([.mark '['], [.mark ']']), ([.cmd s%"{"], [.cmd s%"}"]),
   ([.cmd s%"left", .mark '['], [.cmd s%"right", .mark ']']),
   ([.cmd s%"left", .cmd s%"{"], [.cmd s%"right", .cmd s%"}"])]

/-- The object says what the item says. -/
inductive Says {K : Type} [Field K] (I : Interp K) : SV → Meaning K → Prop
  | value {v x} : v.scalar = true → den I v = x → Says I v (.value x)
  | relation {op v w x y} : v.scalar = true → den I v = x → w.scalar = true → den I w = y →
      Says I (.rel op v w) (.relation op x y)

end Verif.Reading

namespace Verif.Grammar
open Verif Verif.L2S Verif.Reading

/-! ### Complete parses -/

/-- the first parse that uses all tokens -/
def Whole {α : Type} (p : P α) (ts : List Tok) (a : α) : Prop :=
  (p ts).find? (·.2.isEmpty) = some (a, [])

theorem First.whole {α : Type} {p : P α} {ts : List Tok} {a : α} (h : First p ts a []) : Whole p ts a := by
  obtain ⟨l, h⟩ := h
  rw [Whole, h]
  rfl

theorem Whole.left {α : Type} {p q : P α} {ts : List Tok} {a : α} (h : Whole p ts a) :
    Whole (P.or p q) ts a := by
  rw [Whole] at h
  rw [Whole, P.or, List.find?_append, h]
  rfl

theorem Whole.right {α : Type} {p q : P α} {ts : List Tok} {a : α} (hp : ∀ x ∈ p ts, x.2 ≠ [])
    (h : Whole q ts a) : Whole (P.or p q) ts a := by
  rw [Whole] at h
  rw [Whole, P.or, List.find?_append, h]
  have : (p ts).find? (fun x => x.2.isEmpty) = none := by
    rw [List.find?_eq_none]
    intro x hx
    simpa using hp x hx
  rw [this]
  rfl

theorem Whole.map {α β : Type} {p : P α} {ts : List Tok} {a : α} {f : α → β} (h : Whole p ts a) :
    Whole (p >>= fun x => (pure (f x) : P β)) ts (f a) := by
  rw [Whole] at h
  rw [Whole, P.bind_run]
  have : (p ts).flatMap (fun x => (pure (f x.1) : P β) x.2) = (p ts).map fun x => (f x.1, x.2) := by
    induction p ts with
    | nil => rfl
    | cons x l ih => rw [List.flatMap_cons, ih]; rfl
  rw [this, List.find?_map]
  simp only [Function.comp_def, h, Option.map_some]

/-! ### Items -/

/-- relation tokens -/
def relKinds : List Kind := [.IN, .ASSIGNMENT, .EQUAL, .LT, .LTE, .GT, .GTE, .UNEQUAL]

/-- the tree of a relation -/
def relMk (k : Kind) (l r : T) : T := match relTok k with
  | some o => .rel o l r
  | none => l

theorem relation_eq (n : Nat) : relation n = chain relKinds relMk (rule n .expr) := rfl

section
variable {K : Type} [Field K] {I : Interp K} {free : Str → Prop} {style : Style}

/-- The tree of an item. -/
inductive TreeOf (I : Interp K) (free : Str → Prop) : T → Meaning K → Prop
  | value {t x} : Means I free t x → TreeOf I free t (.value x)
  | relation {o op l r x y} : (o, op) ∈ [(RelTok.assignment, s%"="), (.equal, s%"="), (.lt, s%"<"),
      (.lte, s%"<="), (.gt, s%">"), (.gte, s%">="), (.unequal, s%"!=")] →
      Means I free l x → Means I free r y → TreeOf I free (.rel o l r) (.relation op x y)

theorem relation_kinds : relationSigns.all (fun p => match kindOf p.1 with
    | some k => decide (k ∈ relKinds) && decide (k ∉ afterExpr) && decide (k ∉ walkKinds) &&
        match relTok k with
        | some o => decide ((o, p.2) ∈ [(RelTok.assignment, s%"="), (.equal, s%"="), (.lt, s%"<"),
            (.lte, s%"<="), (.gt, s%">"), (.gte, s%">="), (.unequal, s%"!=")])
        | none => false
    | none => false) = true := by decide +kernel

theorem item_first {us : List Sign} {m : Meaning K} (h : Item I free style us m) {ts r : List Tok}
    {k : Nat} (hr : ReadsIn r us ts) (hk : 4 * us.length ≤ k) (ha : Avoids r (afterExpr ++ relKinds)) :
    ∃ t, First (relation k) (ts ++ r) t r ∧ TreeOf I free t m := by
  have ha1 : Avoids r afterExpr := ha.mono fun k hk => List.mem_append_left _ hk
  have ha2 : Avoids r relKinds := ha.mono fun k hk => List.mem_append_right _ hk
  cases h with
  | expr h =>
    obtain ⟨t, h1, h2⟩ := (parsed h).expr_first hr (not_nil h) hk ha1
    exact ⟨t, chain_first h1 .nil ha2, .value h2⟩
  | @rel o op us vs x y ho hu hv =>
    have tbl := List.all_eq_true.1 relation_kinds _ ho
    cases hkd : kindOf o with
    | none => rw [hkd] at tbl; cases tbl
    | some j =>
      rw [hkd] at tbl
      cases hrt : relTok j with
      | none => simp [hrt] at tbl
      | some rt =>
      simp only [hrt, Bool.and_eq_true, decide_eq_true_eq] at tbl
      obtain ⟨⟨⟨j1, j2⟩, j3⟩, j4⟩ := tbl
      obtain ⟨t1, t2, rfl, a1, a2⟩ := hr.append
      obtain ⟨c, t2, rfl, b1, -, b2⟩ := a2.cons_inv hkd
      simp only [List.length_append, List.length_cons] at hk
      obtain ⟨l, c1, c2⟩ := (parsed hu).expr_first a1 (not_nil hu) (k := k) (by omega)
        (avoids_cons (by rw [b1]; exact j2))
      obtain ⟨q, d1, d2⟩ := (parsed hv).expr_first b2 (not_nil hv) (k := k) (by omega) ha1
      refine ⟨.rel rt l q, ?_, .relation j4 c2 d2⟩
      have hs : Steps (operand relKinds (rule k .expr)) (c :: (t2 ++ r)) [(c.kind, q)] r := by
        refine .cons (r := r) ?_ (by simp) .nil
        exact First.bind (First.oneOf (by rw [b1]; exact j1)) (First.bind d1 .pure)
      have := chain_first (mk := relMk) c1 hs ha2
      simp only [List.foldl_cons, List.foldl_nil, b1, relMk, hrt] at this
      rw [relation_eq]
      simpa using this

/-- the tokens of an item have balanced brackets -/
theorem first_walk {k : Nat} {ts r : List Tok} {t : T} (h : First (relation k) (ts ++ r) t r) :
    walk 0 ts = some 0 := by
  obtain ⟨l, h⟩ := h
  obtain ⟨us, h1, h2⟩ := relation_moves k (ts ++ r) (t, r) (by rw [h]; simp)
  have : ts = us := List.append_cancel_right h1
  rw [this]
  exact h2 0

/-! ### Lists -/

/-- the type of the separator -/
def sepKind (c : Char) : Kind := if c = ',' then .COMMA else .SEMICOLON

theorem digit_kind {w : Sign} (hw : HasKind w .DIGIT) : ∃ d, w = .digit d := by
  have hm : ∀ p ∈ markKinds, p.2 ≠ .DIGIT := by decide
  have hc : ∀ p ∈ cmdKinds, p.2 ≠ .DIGIT := by decide
  generalize hj : Kind.DIGIT = j at hw
  cases hw with
  | digit => exact ⟨_, rfl⟩
  | mark h => exact absurd hj.symm (hm _ h)
  | cmd h => exact absurd hj.symm (hc _ h)
  | _ => cases hj

/-- the kinds of the next tokens -/
theorem grouped_kinds {c : Tok} {l : List Tok} (h : Grouped (c :: l) = true) :
    ∃ a b d l', l = a :: b :: d :: l' ∧ a.kind = .DIGIT ∧ b.kind = .DIGIT ∧ d.kind = .DIGIT := by
  rcases l with _ | ⟨a, _ | ⟨b, _ | ⟨d, l⟩⟩⟩
  · cases h
  · cases h
  · cases h
  · simp only [Grouped, Bool.and_eq_true, decide_eq_true_eq] at h
    exact ⟨a, b, d, l, rfl, h.1.1.2, h.1.2, h.2⟩

/-- a digit among the next tokens is a sign of the phrase -/
theorem digit_next {vs : List Sign} {ts r l : List Tok} {a : Tok} (h : Reads vs ts)
    (hr : nextKind r ≠ some .DIGIT) (he : ts ++ r = a :: l) (ha : a.kind = .DIGIT) :
    ∃ d vs' ts', vs = .digit d :: vs' ∧ Reads vs' ts' ∧ ts' ++ r = l := by
  cases h with
  | nil =>
    rw [List.nil_append] at he
    subst he
    exact absurd (by simp [nextKind, ha]) hr
  | cons h1 _ h3 =>
    rw [List.cons_append, List.cons.injEq] at he
    rw [he.1, ha] at h1
    obtain ⟨d, rfl⟩ := digit_kind h1
    exact ⟨d, _, _, rfl, h3, he.2⟩

theorem grouped_false {vs : List Sign} {ts r : List Tok} {c : Tok} (h : Reads vs ts)
    (hr : nextKind r ≠ some .DIGIT) (hv : threeDigits vs = false) :
    Grouped (c :: (ts ++ r)) = false := by
  cases hg : Grouped (c :: (ts ++ r)) with
  | false => rfl
  | true =>
    obtain ⟨a, b, d, l, e, k1, k2, k3⟩ := grouped_kinds hg
    obtain ⟨d1, vs1, ts1, rfl, h1, e1⟩ := digit_next h hr e k1
    obtain ⟨d2, vs2, ts2, rfl, h2, e2⟩ := digit_next h1 hr e1 k2
    obtain ⟨d3, vs3, ts3, rfl, h3, e3⟩ := digit_next h2 hr e2 k3
    cases hv

/-- the trees of items -/
abbrev TreesOf (I : Interp K) (free : Str → Prop) : List T → List (Meaning K) → Prop :=
  List.Forall₂ (TreeOf I free)

/-- what may not follow a list -/
def afterList : List Kind := afterExpr ++ relKinds ++ [.DIGIT, .COMMA, .SEMICOLON]

/-- Items are read one after the other. -/
theorem listing_steps {sep : Char} (hs : sep = ',' ∨ sep = ';') {ws : List Sign} {ms : List (Meaning K)}
    (h : Listing I free style sep ws ms) {k : Nat} {r : List Tok} (ha : ∀ j, nextKind r = some j → j ∉ afterList) :
    ∀ {ts : List Tok}, ReadsIn r ws ts → 4 * ws.length ≤ k →
    ∃ t as r1, First (relation k) (ts ++ r) t r1 ∧
      Steps (tk (sepKind sep) >>= fun _ => relation k) r1 as r ∧ TreesOf I free (t :: as) ms ∧
      (ms.length = 1 ∨ ∃ t1 c t2, ts = t1 ++ c :: t2 ∧ r1 = c :: (t2 ++ r) ∧ walk 0 t1 = some 0 ∧
        c.kind = sepKind sep ∧ (sep = ',' → Grouped (c :: (t2 ++ r)) = false)) := by
  have ha1 : Avoids r (afterExpr ++ relKinds) := fun j hj hm =>
    absurd (List.mem_append_left _ hm) (ha j hj)
  have hd : nextKind r ≠ some .DIGIT := fun h => ha _ h (by decide +kernel)
  induction h with
  | one hi =>
    intro ts hr hk
    obtain ⟨t, h1, h2⟩ := item_first hi hr hk ha1
    exact ⟨t, [], r, h1, .nil, .cons h2 .nil, .inl rfl⟩
  | @cons us m vs ms hi hl h3 ih =>
    intro ts hr hk
    obtain ⟨t1, t2, rfl, a1, a2⟩ := hr.append
    obtain ⟨c, t2, rfl, b1, -, b2⟩ := a2.cons_inv (k := sepKind sep) (by
      rcases hs with rfl | rfl <;> rfl)
    simp only [List.length_append, List.length_cons] at hk
    obtain ⟨t', as, r1, c1, c2, c3, -⟩ := ih b2 (by omega)
    have hg : sep = ',' → Grouped (c :: (t2 ++ r)) = false := fun he =>
      grouped_false b2.reads hd (h3 he)
    obtain ⟨t, d1, d2⟩ := item_first hi a1 (k := k) (by omega) (by
      rw [List.cons_append]
      rcases hs with rfl | rfl
      · exact avoids_comma b1 (hg rfl)
      · exact avoids_cons (by rw [b1]; decide +kernel))
    refine ⟨t, t' :: as, c :: (t2 ++ r), by simpa using d1, .cons (r := r1) ?_ ?_ c2, .cons d2 c3,
      .inr ⟨t1, c, t2, rfl, rfl, first_walk d1, b1, hg⟩⟩
    · exact First.bind (First.tk b1) c1
    · obtain ⟨l, c1⟩ := c1
      obtain ⟨us, e1, -⟩ := relation_moves k (t2 ++ r) (t', r1) (by rw [c1]; simp)
      have := congrArg List.length e1
      simp only [List.length_append, List.length_cons] at this ⊢
      omega

/-- the separator is not part of a phrase -/
theorem walk_stops {sep : Char} (hs : sep = ',' ∨ sep = ';') {t1 t2 : List Tok} {c : Tok}
    (hw : walk 0 t1 = some 0) (hc : c.kind = sepKind sep)
    (hg : sep = ',' → Grouped (c :: t2) = false) : walk 0 (t1 ++ c :: t2) = none := by
  rw [walk_append hw]
  rcases hs with rfl | rfl
  · rw [walk_comma hc, if_pos ⟨rfl, hg rfl⟩]
  · exact walk_semicolon hc _

theorem walk_semi {t : Tok} (ht : t.kind = .SEMICOLON) {b : List Tok} :
    ∀ {a : List Tok} {n m : Nat}, walk n (a ++ t :: b) ≠ some m := by
  intro a
  induction a with
  | nil => intro n m; rw [List.nil_append, walk_semicolon ht]; simp
  | cons u a ih =>
    intro n m
    rw [List.cons_append, walk.eq_def]
    simp only
    split
    · exact ih
    · split
      · cases n with
        | zero => simp
        | succ n => exact ih
      · split
        · simp
        · split
          · simp
          · exact ih

/-- items with a separator -/
def itemsOf (n : Nat) (k : Kind) : P (List T) := do
  let a ← relation n
  let _ ← tk k
  let b ← relation n
  let cs ← P.many (do
    let _ ← tk k
    relation n)
  pure (a :: b :: cs)

theorem items_eq (n : Nat) : relationItems n = P.choice [itemsOf n .COMMA, itemsOf n .SEMICOLON] := rfl

theorem P.bind_assoc_run {α β γ : Type} (p : P α) (f : α → P β) (g : β → P γ) (ts : List Tok) :
    ((p >>= f) >>= g) ts = (p >>= fun x => f x >>= g) ts := by
  simp only [P.bind_run, List.flatMap_assoc]

theorem items_rest {n : Nat} {k : Kind} {a b : T} {as : List T} {ts r r' : List Tok}
    (h1 : First (tk k >>= fun _ => relation n) ts b r) (h2 : Steps (tk k >>= fun _ => relation n) r as r')
    (h3 : (tk k >>= fun _ => relation n) r' = []) :
    First (do
      let _ ← tk k
      let b ← relation n
      let cs ← P.many (do
        let _ ← tk k
        relation n)
      (pure (a :: b :: cs) : P (List T))) ts (a :: b :: as) r' :=
  First.bind (p := tk k >>= fun _ => relation n)
    (f := fun b => P.many (tk k >>= fun _ => relation n) >>= fun cs => pure (a :: b :: cs)) h1
    ((First.many h2 h3).bind .pure) |> fun ⟨l, h⟩ => ⟨l, by rw [← h]; exact (P.bind_assoc_run _ _ _ _).symm⟩

theorem items_moves (n : Nat) : Moves (itemsOf n .COMMA) 1 1 := by
  have h := relation_moves n
  exact Moves.bind h.lift fun _ => Moves.comma fun _ => Moves.bind h.lift fun _ =>
    Moves.bind (Moves.many (Moves.comma fun _ => h.lift)) fun _ => .pure

/-- **Lists without brackets.** -/
theorem parseTokens_list {sep : Char} (hs : sep = ',' ∨ sep = ';') {ws : List Sign}
    {ms : List (Meaning K)} (h : Listing I free style sep ws ms) (hm : 2 ≤ ms.length) {ts : List Tok}
    (hr : Reads ws ts) (ho : OneDiff ts) :
    ∃ as, parseTokens ts = some (.list as) ∧ TreesOf I free as ms := by
  obtain ⟨t, as, r1, h1, h2, h3, h4⟩ := listing_steps hs h (r := []) (k := 4 * ts.length + 4)
    (by simp [nextKind]) (.mk hr (by simpa using ho)) (by rw [hr.length]; omega)
  rw [List.append_nil] at h1
  obtain ⟨t1, c, t2, rfl, rfl, e3, e4, e5⟩ := h4.resolve_left (by omega)
  rw [List.append_nil] at h1 h2 e5
  obtain ⟨b, as, rfl⟩ : ∃ b bs, as = b :: bs := by
    cases h3 with
    | cons _ h3 =>
      cases h3 with
      | nil => simp at hm
      | cons => exact ⟨_, _, rfl⟩
  refine ⟨t :: b :: as, ?_, h3⟩
  set n := 4 * (t1 ++ c :: t2).length + 4 with hn
  have key : Whole (math n) (t1 ++ c :: t2) (.list (t :: b :: as)) := by
    refine Whole.right ?_ (Whole.map (f := MathTree.list) ?_)
    · intro x hx hx2
      rw [P.bind_run, List.mem_flatMap] at hx
      obtain ⟨y, hy, hx⟩ := hx
      rw [P.pure_run, List.mem_singleton] at hx
      subst hx
      obtain ⟨us, e6, e7⟩ := relation_moves n _ y hy
      simp only at hx2
      rw [hx2, List.append_nil] at e6
      have := e7 0
      rw [← e6, walk_stops hs e3 e4 e5] at this
      cases this
    · refine Whole.left ?_
      have hfirst : First (itemsOf n (sepKind sep)) (t1 ++ c :: t2) (t :: b :: as) [] := by
        cases h2 with
        | cons h21 h22 h23 =>
          refine First.bind h1 (items_rest h21 h23 ?_)
          exact (Needs.tk _).bind.1
      rcases hs with rfl | rfl
      · exact hfirst.whole.left
      · refine Whole.right ?_ hfirst.whole.left
        intro x hx hx2
        obtain ⟨us, e6, e7⟩ := items_moves n _ x hx
        rw [hx2, List.append_nil] at e6
        rw [← e6] at e7
        exact walk_semi e4 (e7 0)
  rw [parseTokens]
  rw [Whole] at key
  rw [key]
  rfl

end

/-! ### Lists in brackets -/

theorem tk_fail' {k : Kind} {ts : List Tok} (h : ∀ u r, ts = u :: r → u.kind ≠ k) : tk k ts = [] := by
  cases ts with
  | nil => rfl
  | cons u r => rw [tk, if_neg (h u r rfl)]

theorem between_one {rec : NT → P T} {k j : Kind} {t : Tok} {ts : List Tok}
    (h : ∀ y ∈ rec .expr ts, ∀ u r, y.2 = u :: r → u.kind ≠ j) : between rec [k] [j] (t :: ts) = [] := by
  unfold between
  simp only [List.foldlM_cons, List.foldlM_nil, P.bind_run, P.pure_run]
  rw [List.flatMap_eq_nil_iff]
  intro x hx
  have hx2 : x.2 = ts := by
    rw [tk] at hx
    split at hx
    · simp at hx; rw [hx]
    · simp at hx
  rw [hx2, List.flatMap_eq_nil_iff]
  intro y hy
  rw [tk_fail' (h y hy)]
  rfl

theorem between_two {rec : NT → P T} {a k b j : Kind} {t u : Tok} {ts : List Tok}
    (h : ∀ y ∈ rec .expr ts, ∀ u v r, y.2 = u :: v :: r → u.kind = b → v.kind ≠ j) :
    between rec [a, k] [b, j] (t :: u :: ts) = [] := by
  unfold between
  simp only [List.foldlM_cons, List.foldlM_nil, P.bind_run, P.pure_run]
  rw [List.flatMap_eq_nil_iff]
  intro x hx
  have hx2 : x.2 = ts := by
    simp only [tk] at hx
    split at hx
    · simp only [List.flatMap_cons, List.flatMap_nil, List.append_nil] at hx
      split at hx
      · simp at hx; rw [hx]
      · simp at hx
    · simp at hx
  rw [hx2, List.flatMap_eq_nil_iff]
  intro y hy
  cases hy2 : y.2 with
  | nil => rfl
  | cons c r =>
    rw [tk]
    split
    · rename_i hc
      simp only [List.flatMap_cons, List.flatMap_nil, List.append_nil]
      rw [tk_fail' fun v r' e => h y hy c v r' (by rw [hy2, e]) hc]
      rfl
    · rfl

/-- no phrase goes beyond the separator -/
theorem blocked {sep : Char} (hs : sep = ',' ∨ sep = ';') {t1 t2 : List Tok} {c : Tok}
    (hw : walk 0 t1 = some 0) (hc : c.kind = sepKind sep)
    (hg : sep = ',' → Grouped (c :: t2) = false) (n : Nat) :
    ∀ y ∈ rule n .expr (t1 ++ c :: t2), ∃ vs, y.2 = vs ++ c :: t2 ∧ walk 0 vs = some 0 := by
  intro y hy
  obtain ⟨us, e1, e2⟩ := rule_moves n .expr _ y hy
  rcases List.append_eq_append_iff.1 e1 with ⟨a, h1, h2⟩ | ⟨a, h1, h2⟩
  · cases a with
    | nil => exact ⟨[], by simpa using h2.symm, rfl⟩
    | cons c' a =>
      exfalso
      rw [List.cons_append, List.cons.injEq] at h2
      obtain ⟨rfl, rfl⟩ := h2
      have := e2 0
      rw [h1, walk_stops hs hw hc] at this
      · cases this
      · intro he
        cases hgr : Grouped (c :: a) with
        | false => rfl
        | true =>
          have h3 := Grouped.append hgr y.2
          rw [List.cons_append, hg he] at h3
          cases h3
  · refine ⟨a, h2, ?_⟩
    rw [h1, walk_append (e2 0)] at hw
    exact hw

theorem sep_plain {sep : Char} {k : Kind} (hk : k ∈ higherKinds ∨ k = .R_RIGHT) : sepKind sep ≠ k := by
  rw [sepKind]
  split
  · rintro rfl; revert hk; decide
  · rintro rfl; revert hk; decide

theorem walk_next {t : Tok} {vs : List Tok} (h : walk 0 (t :: vs) = some 0) : t.kind ∉ higherKinds := by
  intro hm
  have hn : t.kind ∉ deeperKinds := by
    have : ∀ k ∈ higherKinds, k ∉ deeperKinds := by decide
    exact this _ hm
  rw [walk.eq_def] at h
  simp only [if_neg hn, if_pos hm] at h
  cases h

section
variable {sep : Char} (hs : sep = ',' ∨ sep = ';') {t1 t2 : List Tok} {c : Tok}
    (hw : walk 0 t1 = some 0) (hc : c.kind = sepKind sep)
    (hg : sep = ',' → Grouped (c :: t2) = false)
include hs hw hc hg

theorem between_open {k j : Kind} {t : Tok} (hj : j ∈ higherKinds) (n : Nat) :
    between (rule n) [k] [j] (t :: (t1 ++ c :: t2)) = [] := by
  refine between_one fun y hy u r e => ?_
  obtain ⟨vs, h1, h2⟩ := blocked hs hw hc hg n y hy
  rw [h1] at e
  cases vs with
  | nil =>
    rw [List.nil_append, List.cons.injEq] at e
    rw [← e.1, hc]
    exact sep_plain (.inl hj)
  | cons v vs =>
    rw [List.cons_append, List.cons.injEq] at e
    rw [← e.1]
    rintro rfl
    exact walk_next h2 hj

theorem between_leftOpen {a k j : Kind} {t u : Tok} (hj : j ∈ higherKinds) (n : Nat) :
    between (rule n) [a, k] [.R_RIGHT, j] (t :: u :: (t1 ++ c :: t2)) = [] := by
  refine between_two fun y hy u v r e hu => ?_
  obtain ⟨vs, h1, h2⟩ := blocked hs hw hc hg n y hy
  rw [h1] at e
  cases vs with
  | nil =>
    rw [List.nil_append, List.cons.injEq] at e
    rw [← e.1, hc] at hu
    exact absurd hu (sep_plain (.inr rfl))
  | cons v' vs =>
    rw [List.cons_append, List.cons.injEq] at e
    obtain ⟨rfl, e⟩ := e
    rw [walk_plain (by rw [hu]; decide)] at h2
    cases vs with
    | nil =>
      rw [List.nil_append, List.cons.injEq] at e
      rw [← e.1, hc]
      exact sep_plain (.inl hj)
    | cons v'' vs =>
      rw [List.cons_append, List.cons.injEq] at e
      rw [← e.1]
      rintro rfl
      exact walk_next h2 hj

/-- an opened bracket is not a group -/
theorem comp_open {t : Tok} (ht : t.kind = .L_BRACKET ∨ t.kind = .L_BRACE_VISUAL) (n : Nat) :
    comp (rule n) true (t :: (t1 ++ c :: t2)) = [] := by
  have : comp (rule n) true = P.choice [group (rule n), normGroup (rule n), absGroup (rule n),
    floorGroup (rule n), ceilGroup (rule n), func (rule n), atom (rule n), binom (rule n),
    matrix (rule n), det (rule n)] := rfl
  rw [this]
  have ho : ∀ {α : Type} {p : P α} {ks : List Kind}, Needs p ks →
      Kind.L_BRACKET ∉ ks ∧ Kind.L_BRACE_VISUAL ∉ ks → p (t :: (t1 ++ c :: t2)) = [] := fun h hk' =>
    h.skip (by rcases ht with ht | ht <;> rw [ht]; exacts [hk'.1, hk'.2])
  have hgr : group (rule n) (t :: (t1 ++ c :: t2)) = [] := by
    rw [group, P.bind_run, enclosed, choice_append, choice_append, choice_fail, choice_fail, choice_fail]
    · rfl
    · exact fun p _ => ho (between_needs _ .ML_LEFT [p.1] _) (by decide)
    · exact fun p _ => ho (between_needs _ .L_LEFT [p.1] _) (by decide)
    · intro p hp
      by_cases hp1 : p.1 = t.kind
      · have : ∀ p ∈ groupKinds, p.1 = .L_BRACKET ∨ p.1 = .L_BRACE_VISUAL → p.2 ∈ higherKinds := by
          decide
        exact between_open hs hw hc hg (this p hp (by rw [hp1]; exact ht)) n
      · exact (between_needs _ p.1 [] _).skip (by simpa using Ne.symm hp1)
  simp only [P.choice_run]
  rw [hgr, ho (normGroup_needs _) (by decide +kernel), ho (absGroup_needs _) (by decide +kernel),
    ho (floorGroup_needs _) (by decide +kernel), ho (ceilGroup_needs _) (by decide +kernel),
    ho (func_needs _) (by decide +kernel), ho (atom_needs _) (by decide +kernel),
    ho (binom_needs _) (by decide +kernel)]
  have h1 : matrix (rule n) (t :: (t1 ++ c :: t2)) = [] := ho (Needs.tk _).bind (by decide +kernel)
  have h2 : det (rule n) (t :: (t1 ++ c :: t2)) = [] := ho (Needs.tk _).bind (by decide +kernel)
  rw [h1, h2]
  rfl

theorem comp_leftOpen {t u : Tok} (ht : t.kind = .L_LEFT)
    (hu : u.kind = .L_BRACKET ∨ u.kind = .L_BRACE_VISUAL) (n : Nat) :
    comp (rule n) true (t :: u :: (t1 ++ c :: t2)) = [] := by
  have : comp (rule n) true = P.choice [group (rule n), normGroup (rule n), absGroup (rule n),
    floorGroup (rule n), ceilGroup (rule n), func (rule n), atom (rule n), binom (rule n),
    matrix (rule n), det (rule n)] := rfl
  rw [this]
  have ho : ∀ {α : Type} {p : P α} {ks : List Kind}, Needs p ks →
      Kind.L_LEFT ∉ ks → p (t :: u :: (t1 ++ c :: t2)) = [] := fun h hk' =>
    h.skip (by rw [ht]; exact hk')
  have hgr : group (rule n) (t :: u :: (t1 ++ c :: t2)) = [] := by
    rw [group, P.bind_run, enclosed, choice_append, choice_append, choice_fail, choice_fail, choice_fail]
    · rfl
    · exact fun p _ => ho (between_needs _ .ML_LEFT [p.1] _) (by decide)
    · intro p hp
      by_cases hp1 : p.1 = u.kind
      · have : ∀ p ∈ groupKinds, p.1 = .L_BRACKET ∨ p.1 = .L_BRACE_VISUAL → p.2 ∈ higherKinds := by
          decide
        exact between_leftOpen hs hw hc hg (this p hp (by rw [hp1]; exact hu)) n
      · exact between_left_fail ht (Ne.symm hp1)
    · intro p hp
      have : ∀ p ∈ groupKinds, p.1 ≠ .L_LEFT := by decide
      exact (between_needs _ p.1 [] _).skip (by rw [ht]; simpa using (this p hp).symm)
  have hen : ∀ ps : List (Kind × Kind), (∀ p ∈ ps, p.1 ≠ .L_LEFT ∧ p.1 ≠ .L_BRACKET ∧
      p.1 ≠ .L_BRACE_VISUAL) → enclosed (rule n) ps (t :: u :: (t1 ++ c :: t2)) = [] := fun ps h =>
    enclosed_left_fail ht fun p hp => ⟨(h p hp).1, by
      rcases hu with hu | hu <;> rw [hu]
      exacts [(h p hp).2.1, (h p hp).2.2]⟩
  have h3 : normGroup (rule n) (t :: u :: (t1 ++ c :: t2)) = [] := by
    rw [normGroup, P.bind_run, hen _ (by decide)]; rfl
  have h4 : absGroup (rule n) (t :: u :: (t1 ++ c :: t2)) = [] := by
    rw [absGroup, P.bind_run, hen _ (by decide)]; rfl
  have h5 : floorGroup (rule n) (t :: u :: (t1 ++ c :: t2)) = [] := by
    rw [floorGroup, P.bind_run, hen _ (by decide)]; rfl
  have h6 : ceilGroup (rule n) (t :: u :: (t1 ++ c :: t2)) = [] := by
    rw [ceilGroup, P.bind_run, hen _ (by decide)]; rfl
  simp only [P.choice_run]
  rw [hgr, h3, h4, h5, h6,
    ho (func_needs _) (by decide +kernel), ho (atom_needs _) (by decide +kernel),
    ho (binom_needs _) (by decide +kernel)]
  have h1 : matrix (rule n) (t :: u :: (t1 ++ c :: t2)) = [] := ho (Needs.tk _).bind (by decide +kernel)
  have h2 : det (rule n) (t :: u :: (t1 ++ c :: t2)) = [] := ho (Needs.tk _).bind (by decide +kernel)
  rw [h1, h2]
  rfl

end

/-- what cannot begin a factor cannot begin a relation -/
theorem relation_fail {t : Tok} {ts : List Tok} (h : ∀ n, comp (rule n) true (t :: ts) = [])
    (ht : t.kind ≠ .ADD ∧ t.kind ≠ .SUB) (n : Nat) : relation n (t :: ts) = [] := by
  have hp : ∀ n, postfix' (rule n) true (t :: ts) = [] := by
    intro n
    rw [postfix', P.bind_run, exp, P.bind_run, h n]
    rfl
  have hu : ∀ n, rule n .unary (t :: ts) = [] := by
    intro n
    cases n with
    | zero => rfl
    | succ n =>
      show P.or _ _ _ = []
      rw [P.or, (Needs.oneOf [Kind.ADD, .SUB]).bind.skip (by simpa using ht), P.bind_run, P.plus,
        P.bind_run, hp]
      rfl
  have hm : ∀ n, rule n .mp (t :: ts) = [] := by
    intro n
    cases n with
    | zero => rfl
    | succ n =>
      show chain mulKinds mulTree (rule n .unary) (t :: ts) = []
      rw [chain, P.bind_run, hu]
      rfl
  have he : ∀ n, rule n .expr (t :: ts) = [] := by
    intro n
    cases n with
    | zero => rfl
    | succ n =>
      show chain [.ADD, .SUB] addTree (rule n .mp) (t :: ts) = []
      rw [chain, P.bind_run, hm]
      rfl
  rw [relation_eq, chain, P.bind_run, he]
  rfl

theorem toks_run {l : List Kind} {t0 ts : List Tok} (h : t0.map (·.kind) = l) :
    (l.foldlM (fun _ k => do
      let _ ← tk k
      pure ()) () : P Unit) (t0 ++ ts) = [((), ts)] := by
  induction t0 generalizing l with
  | nil => subst h; rfl
  | cons t t0 ih =>
    subst h
    simp only [List.map_cons, List.foldlM_cons, List.cons_append, P.bind_run, tk, P.pure_run]
    simp only [↓reduceIte, List.flatMap_cons, List.flatMap_nil, List.append_nil]
    exact ih rfl

theorem toks_inv {l : List Kind} {ts : List Tok} {x : Unit × List Tok} (h : x ∈ (l.foldlM (fun _ k => do
      let _ ← tk k
      pure ()) () : P Unit) ts) : ∃ t0, ts = t0 ++ x.2 ∧ t0.map (·.kind) = l := by
  induction l generalizing ts with
  | nil =>
    simp only [List.foldlM_nil, P.pure_run, List.mem_singleton] at h
    subst h
    exact ⟨[], rfl, rfl⟩
  | cons k l ih =>
    simp only [List.foldlM_cons, P.bind_run, P.pure_run] at h
    cases ts with
    | nil => simp [tk] at h
    | cons t ts =>
      rw [tk] at h
      split at h
      · rename_i hk
        simp only [List.flatMap_cons, List.flatMap_nil, List.append_nil] at h
        obtain ⟨t0, rfl, rfl⟩ := ih h
        exact ⟨t :: t0, rfl, by simp [hk]⟩
      · simp at h

section
variable {K : Type} [Field K] {I : Interp K} {free : Str → Prop} {style : Style}

/-- a list between tokens -/
theorem whole_between {sep : Char} (hs : sep = ',' ∨ sep = ';') {l q : List Kind}
    {t0 ts t9 r1 : List Tok} {n : Nat} {t b : T} {as : List T} (h0 : t0.map (·.kind) = l)
    (h9 : t9.map (·.kind) = q) (h1 : First (relation n) (ts ++ t9) t r1)
    (h2 : Steps (tk (sepKind sep) >>= fun _ => relation n) r1 (b :: as) t9)
    (hn : nextKind t9 ≠ some (sepKind sep)) (hc : sep = ';' → ∃ a c d, ts = a ++ c :: d ∧ c.kind = .SEMICOLON) :
    Whole (itemsBetween n l q) (t0 ++ (ts ++ t9)) (t :: b :: as) := by
  rw [itemsBetween, Whole, P.bind_run, toks_run h0]
  simp only [List.flatMap_cons, List.flatMap_nil, List.append_nil]
  have hfirst : First (itemsOf n (sepKind sep)) (ts ++ t9) (t :: b :: as) t9 := by
    cases h2 with
    | cons h21 h22 h23 =>
      refine First.bind h1 (items_rest h21 h23 ?_)
      rw [P.bind_run, tk_fail' fun u r e hu => hn (by rw [e, ← hu]; rfl)]
      rfl
  have hclose : ∀ e : List T, First ((q.foldlM (fun _ k => do
      let _ ← tk k
      pure ()) () : P Unit) >>= fun _ => (pure e : P (List T))) t9 e [] := by
    intro e
    have := toks_run (l := q) (t0 := t9) (ts := []) h9
    rw [List.append_nil] at this
    exact First.bind ⟨[], this⟩ .pure
  rw [items_eq]
  rcases hs with rfl | rfl
  · have h3 : First (P.choice [itemsOf n .COMMA, itemsOf n .SEMICOLON]) (ts ++ t9) (t :: b :: as) t9 :=
      First.choice_head hfirst
    exact (First.bind (f := fun e => (q.foldlM (fun _ k => do
      let _ ← tk k
      pure ()) () : P Unit) >>= fun _ => (pure e : P (List T))) h3 (hclose _)).whole
  · have h3 : First (P.choice [itemsOf n .SEMICOLON]) (ts ++ t9) (t :: b :: as) t9 :=
      First.choice_head hfirst
    have h4 := (First.bind (f := fun e => (q.foldlM (fun _ k => do
      let _ ← tk k
      pure ()) () : P Unit) >>= fun _ => (pure e : P (List T))) h3 (hclose _)).whole
    rw [Whole] at h4
    have e1 : ∀ f : List T → P (List T), (P.choice [itemsOf n .COMMA, itemsOf n .SEMICOLON] >>= f) (ts ++ t9) =
        (itemsOf n .COMMA >>= f) (ts ++ t9) ++ (P.choice [itemsOf n .SEMICOLON] >>= f) (ts ++ t9) := by
      intro f
      simp only [P.bind_run, P.choice_run, List.flatMap_cons, List.flatMap_nil, List.append_nil,
        List.flatMap_append]
    rw [e1, List.find?_append, h4]
    rw [Option.or_eq_right_of_none]
    rw [List.find?_eq_none]
    intro x hx
    obtain ⟨a, c, d, rfl, e3⟩ := hc rfl
    rw [P.bind_run, List.mem_flatMap] at hx
    obtain ⟨y, hy, hx⟩ := hx
    rw [P.bind_run, List.mem_flatMap] at hx
    obtain ⟨z, hz, hx⟩ := hx
    rw [P.pure_run, List.mem_singleton] at hx
    subst hx
    obtain ⟨t8, e4, e5⟩ := toks_inv hz
    obtain ⟨us, e6, e7⟩ := items_moves n _ y hy
    simp only [List.isEmpty_iff]
    intro e8
    rw [e8, List.append_nil] at e4
    rw [e4] at e6
    have : a ++ c :: d = us := List.append_inj_left' e6 (by
      have := congrArg List.length (h9.trans e5.symm)
      simpa using this)
    subst this
    exact walk_semi e3 (e7 0)

/-- the brackets of lists -/
def bracketKinds : List (List Kind × List Kind) :=
  [([], []), ([.L_BRACKET], [.R_BRACKET]), ([.L_BRACE_VISUAL], [.R_BRACE_VISUAL]),
   ([.L_LEFT, .L_BRACKET], [.R_RIGHT, .R_BRACKET]),
   ([.L_LEFT, .L_BRACE_VISUAL], [.R_RIGHT, .R_BRACE_VISUAL])]

theorem bracket_kinds : listBrackets.all (fun p => decide
    ((p.1.filterMap kindOf, p.2.filterMap kindOf) ∈ bracketKinds ∧
      p.1.all (fun w => (kindOf w).isSome) = true ∧ p.2.all (fun w => (kindOf w).isSome) = true)) = true := by
  decide +kernel

theorem reads_kinds {ws : List Sign} {ts : List Tok} (h : Reads ws ts)
    (hk : ws.all (fun w => (kindOf w).isSome) = true) : ts.map (·.kind) = ws.filterMap kindOf := by
  induction h with
  | nil => rfl
  | @cons w t ws ts h1 h2 h3 ih =>
    simp only [List.all_cons, Bool.and_eq_true] at hk
    obtain ⟨k, hk1⟩ := Option.isSome_iff_exists.1 hk.1
    rw [List.map_cons, List.filterMap_cons_some hk1, ih hk.2, Option.some.inj (h1.kindOf.symm.trans hk1)]

theorem itemsBetween_fail {n : Nat} {k : Kind} {l q : List Kind} {t : Tok} {ts : List Tok}
    (h : t.kind ≠ k) : itemsBetween n (k :: l) q (t :: ts) = [] := by
  rw [itemsBetween, List.foldlM_cons, P.bind_run, P.bind_run, P.bind_run, tk, if_neg h]
  rfl

theorem itemsBetween_fail2 {n : Nat} {k j : Kind} {l q : List Kind} {t u : Tok} {ts : List Tok}
    (h : u.kind ≠ j) : itemsBetween n (k :: j :: l) q (t :: u :: ts) = [] := by
  simp only [itemsBetween, List.foldlM_cons, P.bind_run, P.pure_run, tk]
  split <;> simp [h]

theorem relationItems_fail {n : Nat} {ts : List Tok} (h : relation n ts = []) : relationItems n ts = [] := by
  rw [items_eq, P.choice_run]
  simp only [itemsOf, P.bind_run, P.choice_run, h]
  rfl

/-- **Lists in brackets.** -/
theorem parseTokens_bracketed {sep : Char} (hs : sep = ',' ∨ sep = ';') {l q ws : List Sign}
    {ms : List (Meaning K)} (hb : (l, q) ∈ listBrackets) (h : Listing I free style sep ws ms)
    (hm : 2 ≤ ms.length) {ts : List Tok} (hr : Reads (l ++ ws ++ q) ts) (ho : OneDiff ts) :
    ∃ as, parseTokens ts = some (.list as) ∧ TreesOf I free as ms := by
  by_cases he : l = []
  · have hq : q = [] := by
      subst he
      have : ∀ p ∈ listBrackets, p.1 = [] → p.2 = [] := by decide +kernel
      exact this _ hb rfl
    subst he hq
    rw [List.nil_append, List.append_nil] at hr
    exact parseTokens_list hs h hm hr ho
  have tb := List.all_eq_true.1 bracket_kinds _ hb
  simp only [decide_eq_true_eq] at tb
  obtain ⟨b1, b2, b3⟩ := tb
  have hrin : ReadsIn [] (l ++ ws ++ q) ts := .mk hr (by simpa using ho)
  obtain ⟨t01, t9, rfl, r1, r2⟩ := hrin.append
  obtain ⟨t0, t1, rfl, r3, r4⟩ := r1.append
  have k0 := reads_kinds r3.reads b2
  have k9 := reads_kinds r2.reads b3
  have hl := hr.length
  simp only [List.length_append] at hl
  rw [List.append_nil] at r4
  obtain ⟨t, as, r, h1, h2, h3, h4⟩ := listing_steps hs h (r := t9) (k := 4 * (t0 ++ t1 ++ t9).length + 4)
    (by
      intro j hj
      rw [nextKind, ← List.head?_map, k9] at hj
      have : ∀ p ∈ bracketKinds, ∀ j, p.2.head? = some j → j ∉ afterList := by decide +kernel
      exact this _ b1 j hj) r4 (by
      have := r4.reads.length
      simp only [List.length_append]; omega)
  obtain ⟨b, as, rfl⟩ : ∃ b bs, as = b :: bs := by
    cases h3 with
    | cons _ h3 =>
      cases h3 with
      | nil => simp at hm
      | cons => exact ⟨_, _, rfl⟩
  obtain ⟨ta, c, tb, rfl, rfl, e3, e4, e5⟩ := h4.resolve_left (by omega)
  refine ⟨t :: b :: as, ?_, h3⟩
  set n := 4 * (t0 ++ (ta ++ c :: tb) ++ t9).length + 4 with hn
  have hlist : Whole (itemsBetween n (l.filterMap kindOf) (q.filterMap kindOf))
      (t0 ++ ((ta ++ c :: tb) ++ t9)) (t :: b :: as) := by
    refine whole_between hs k0 k9 h1 h2 ?_ ?_
    · rw [nextKind, ← List.head?_map, k9]
      have : ∀ p ∈ bracketKinds, p.2.head? ≠ some .COMMA ∧ p.2.head? ≠ some .SEMICOLON := by
        decide +kernel
      rcases hs with rfl | rfl
      exacts [(this _ b1).1, (this _ b1).2]
    · rintro rfl
      exact ⟨ta, c, tb, rfl, e4⟩
  have hnil : l.filterMap kindOf ≠ [] := by
    intro e
    have : l.length = 0 := by
      have := congrArg List.length k0
      rw [e, List.length_map, r3.reads.length] at this
      exact this
    exact he (List.eq_nil_of_length_eq_zero this)
  have hmath : relation n (t0 ++ ((ta ++ c :: tb) ++ t9)) = [] →
      Whole (relationList n) (t0 ++ ((ta ++ c :: tb) ++ t9)) (t :: b :: as) →
      parseTokens (t0 ++ (ta ++ c :: tb) ++ t9) = some (.list (t :: b :: as)) := by
    intro f1 f2
    have key : Whole (math n) (t0 ++ ((ta ++ c :: tb) ++ t9)) (.list (t :: b :: as)) := by
      refine Whole.right ?_ (Whole.map (f := MathTree.list) f2)
      intro x hx
      rw [P.bind_run, f1] at hx
      cases hx
    rw [Whole, ← List.append_assoc] at key
    rw [parseTokens, key]
    rfl
  have skip : ∀ {p : P (List T)} {ps ts}, p ts = [] → Whole (P.choice ps) ts (t :: b :: as) →
      Whole (P.choice (p :: ps)) ts (t :: b :: as) := fun h1 h2 =>
    Whole.right (by rw [h1]; simp) h2
  simp only [bracketKinds, List.mem_cons, Prod.mk.injEq, List.not_mem_nil, or_false] at b1
  rcases b1 with ⟨f1, -⟩ | ⟨f1, f2⟩ | ⟨f1, f2⟩ | ⟨f1, f2⟩ | ⟨f1, f2⟩
  · exact absurd f1 hnil
  all_goals
    rw [f1] at k0
    rw [f1, f2] at hlist
  · obtain ⟨u, rfl, hu⟩ := List.map_eq_singleton_iff.1 k0
    have hre : relation n (u :: (ta ++ c :: (tb ++ t9))) = [] :=
      relation_fail (comp_open hs e3 e4 e5 (.inl hu)) (by rw [hu]; decide) n
    simp only [List.cons_append, List.nil_append, List.append_assoc] at hmath hlist ⊢
    refine hmath hre (skip (relationItems_fail hre) ?_)
    exact Whole.left hlist
  · obtain ⟨u, rfl, hu⟩ := List.map_eq_singleton_iff.1 k0
    have hre : relation n (u :: (ta ++ c :: (tb ++ t9))) = [] :=
      relation_fail (comp_open hs e3 e4 e5 (.inr hu)) (by rw [hu]; decide) n
    simp only [List.cons_append, List.nil_append, List.append_assoc] at hmath hlist ⊢
    refine hmath hre (skip (relationItems_fail hre) (skip ?_ (skip ?_ (Whole.left hlist))))
    all_goals exact itemsBetween_fail (by rw [hu]; decide)
  · obtain ⟨u, t0, rfl, hu, k0⟩ := List.map_eq_cons_iff.1 k0
    obtain ⟨v, rfl, hv⟩ := List.map_eq_singleton_iff.1 k0
    have hre : relation n (u :: v :: (ta ++ c :: (tb ++ t9))) = [] :=
      relation_fail (comp_leftOpen hs e3 e4 e5 hu (.inl hv)) (by rw [hu]; decide) n
    simp only [List.cons_append, List.nil_append, List.append_assoc] at hmath hlist ⊢
    refine hmath hre (skip (relationItems_fail hre) (skip ?_ (skip ?_ (skip ?_ (Whole.left hlist)))))
    all_goals exact itemsBetween_fail (by rw [hu]; decide)
  · obtain ⟨u, t0, rfl, hu, k0⟩ := List.map_eq_cons_iff.1 k0
    obtain ⟨v, rfl, hv⟩ := List.map_eq_singleton_iff.1 k0
    have hre : relation n (u :: v :: (ta ++ c :: (tb ++ t9))) = [] :=
      relation_fail (comp_leftOpen hs e3 e4 e5 hu (.inr hv)) (by rw [hu]; decide) n
    simp only [List.cons_append, List.nil_append, List.append_assoc] at hmath hlist ⊢
    refine hmath hre (skip (relationItems_fail hre) (skip ?_ (skip ?_ (skip ?_ (skip ?_
      (Whole.left hlist))))))
    · exact itemsBetween_fail (by rw [hu]; decide)
    · exact itemsBetween_fail (by rw [hu]; decide)
    · exact itemsBetween_fail (by rw [hu]; decide)
    · exact itemsBetween_fail2 (by rw [hv]; decide)

/-- **A single item.** -/
theorem parseTokens_item {ws : List Sign} {m : Meaning K} (h : Item I free style ws m) {ts : List Tok}
    (hr : Reads ws ts) (ho : OneDiff ts) : ∃ t, parseTokens ts = some (.one t) ∧ TreeOf I free t m := by
  obtain ⟨t, h1, h2⟩ := item_first h (r := []) (k := 4 * ts.length + 4) (.mk hr (by simpa using ho))
    (by rw [hr.length]; omega) (fun k hk => by simp [nextKind] at hk)
  rw [List.append_nil] at h1
  refine ⟨t, ?_, h2⟩
  have key : Whole (math (4 * ts.length + 4)) ts (.one t) :=
    Whole.left (Whole.map (f := MathTree.one) h1.whole)
  rw [Whole] at key
  rw [parseTokens, key]
  rfl

/-! ### From the text to the objects -/

theorem relation_tokens : relationSigns.all (fun p => tokenOk p.1 && p.1 != .mark '_' && boxed [p.1]) = true := by
  decide +kernel

theorem listBrackets_tokens : listBrackets.all (fun p => (p.1 ++ p.2).all (fun w =>
    tokenOk w && w != .mark '_' && boxed [w])) = true := by decide +kernel

theorem boxed_cons {w : Sign} (h : boxed [w] = true) (ws : List Sign) : boxed (w :: ws) = boxed ws :=
  boxed_append (us := [w]) h ws

theorem item_signs {us : List Sign} {m : Meaning K} (h : Item I free style us m) :
    (∀ w ∈ us, isToken w) ∧ (List.IsChain subOk us ∧ ∀ w ∈ us.head?, w ≠ .mark '_') ∧
      (style.integrals = false → boxed us = true) := by
  cases h with
  | expr h => exact ⟨denotes_kinds h, denotes_sub h, boxed_denotes h⟩
  | @rel o op us vs x y ho hu hv =>
    have tbl := List.all_eq_true.1 relation_tokens _ ho
    simp only [Bool.and_eq_true, bne_iff_ne] at tbl
    obtain ⟨⟨t1, t2⟩, t3⟩ := tbl
    refine ⟨?_, ⟨chain_append (denotes_sub hu).1 (chain_cons (denotes_sub hv).1 (denotes_sub hv).2)
      (by simpa using t2), ?_⟩, fun hi => ?_⟩
    · intro w hw
      rcases List.mem_append.1 hw with hw | hw
      · exact denotes_kinds hu w hw
      · rcases List.mem_cons.1 hw with rfl | hw
        · exact tokenOk_token t1
        · exact denotes_kinds hv w hw
    · intro w hw
      cases us with
      | nil => exact absurd rfl (not_nil hu)
      | cons a us => exact (denotes_sub hu).2 w (by simpa using hw)
    · rw [boxed_append (boxed_denotes hu hi), boxed_cons t3]
      exact boxed_denotes hv hi

theorem item_nil {us : List Sign} {m : Meaning K} (h : Item I free style us m) : us ≠ [] := by
  cases h with
  | expr h => exact not_nil h
  | rel _ h _ => simp

theorem listing_signs {sep : Char} (hs : sep = ',' ∨ sep = ';') {us : List Sign} {ms : List (Meaning K)}
    (h : Listing I free style sep us ms) :
    (∀ w ∈ us, isToken w) ∧ (List.IsChain subOk us ∧ ∀ w ∈ us.head?, w ≠ .mark '_') ∧
      (style.integrals = false → boxed us = true) := by
  induction h with
  | one h => exact item_signs h
  | @cons us m vs ms hi _ _ ih =>
    obtain ⟨a1, a2, a3⟩ := item_signs hi
    obtain ⟨b1, b2, b3⟩ := ih
    have t1 : isToken (.mark sep) := mark_token (by rcases hs with rfl | rfl <;> decide)
    have t2 : Sign.mark sep ≠ .mark '_' := by rcases hs with rfl | rfl <;> decide
    refine ⟨?_, ⟨chain_append a2.1 (chain_cons b2.1 b2.2) (by simpa using t2), ?_⟩, fun hi => ?_⟩
    · intro w hw
      rcases List.mem_append.1 hw with hw | hw
      · exact a1 w hw
      · rcases List.mem_cons.1 hw with rfl | hw
        · exact t1
        · exact b1 w hw
    · intro w hw
      cases us with
      | nil => exact absurd rfl (item_nil hi)
      | cons a us => exact a2.2 w (by simpa using hw)
    · rw [boxed_append (a3 hi), boxed_cons rfl]
      exact b3 hi

theorem bracketed_signs {sep : Char} (hs : sep = ',' ∨ sep = ';') {l q us : List Sign}
    {ms : List (Meaning K)} (hb : (l, q) ∈ listBrackets) (h : Listing I free style sep us ms) :
    (∀ w ∈ l ++ us ++ q, isToken w) ∧ List.IsChain subOk (l ++ us ++ q) ∧
      (style.integrals = false → boxed (l ++ us ++ q) = true) := by
  have tbl := List.all_eq_true.1 (List.all_eq_true.1 listBrackets_tokens _ hb)
  simp only [List.mem_append, Bool.and_eq_true, bne_iff_ne] at tbl
  obtain ⟨b1, b2, b3⟩ := listing_signs hs h
  have hbox : ∀ {vs : List Sign}, (∀ w ∈ vs, boxed [w] = true) → boxed vs = true := by
    intro vs hv
    induction vs with
    | nil => rfl
    | cons w vs ih =>
      rw [boxed_cons (hv w (by simp))]
      exact ih fun u hu => hv u (by simp [hu])
  refine ⟨?_, chain_append (chain_append (chain_of_not fun w hw => (tbl w (.inl hw)).1.2) b2.1 b2.2)
    (chain_of_not fun w hw => (tbl w (.inr hw)).1.2)
    fun w hw => (tbl w (.inr (List.mem_of_mem_head? hw))).1.2, fun hi => ?_⟩
  · intro w hw
    simp only [List.mem_append] at hw
    rcases hw with (hw | hw) | hw
    · exact tokenOk_token (tbl w (.inl hw)).1.1
    · exact b1 w hw
    · exact tokenOk_token (tbl w (.inr hw)).1.1
  · rw [List.append_assoc, boxed_append (hbox fun w hw => (tbl w (.inl hw)).2), boxed_append (b3 hi)]
    exact hbox fun w hw => (tbl w (.inr hw)).2

theorem scalar_plain {v : SV} (h : v.scalar = true) : v.plain = true := by
  cases v <;> simp_all [SV.scalar, SV.plain]

section
variable [CharZero K] {Y : Type} {L : Lib Y} (hL : SoundLib I L)
include hL

theorem conv_item (rec : Str → List (Str × PV) → M (St Y) SV) {t : T} {m : Meaning K}
    (h : TreeOf I free t m) (w : World (St Y)) (hw : Ready I free w) :
    ∃ v w', conv L rec t w = (.ok v, w') ∧ Says I v m ∧ SameG w.ext.g w'.ext.g := by
  cases h with
  | value h =>
    obtain ⟨v, w1, h1, h2, h3, h4, -⟩ := C62_conversion_partial I L hL rec h w hw
    exact ⟨v, w1, h1, .value h2 h3, h4⟩
  | @relation o op l r x y ho hl hr =>
    obtain ⟨v, w1, h1, h2, h3, h4, -⟩ := C62_conversion_partial I L hL rec hl w hw
    obtain ⟨u, w2, k1, k2, k3, k4, -⟩ := C62_conversion_partial I L hL rec hr w1 (hw.keep h4)
    refine ⟨.rel op v u, w2, ?_, .relation h2 h3 k2 k3, h4.trans k4⟩
    rw [conv]
    simp only [M.bind_run, h1, k1]
    simp only [List.mem_cons, Prod.mk.injEq, List.not_mem_nil, or_false] at ho
    rcases ho with ⟨rfl, rfl⟩ | ⟨rfl, rfl⟩ | ⟨rfl, rfl⟩ | ⟨rfl, rfl⟩ | ⟨rfl, rfl⟩ | ⟨rfl, rfl⟩ |
        ⟨rfl, rfl⟩ <;>
      · simp only [convertRel, mkRel, scalar_plain h2, scalar_plain k2, Bool.and_self, if_true]
        rfl

theorem conv_items (rec : Str → List (Str × PV) → M (St Y) SV) {ts : List T} {ms : List (Meaning K)}
    (h : TreesOf I free ts ms) : ∀ w : World (St Y), Ready I free w →
      ∃ vs w', convItems L rec ts w = (.ok vs, w') ∧ List.Forall₂ (Says I) vs ms := by
  induction h with
  | nil => intro w _; exact ⟨[], w, rfl, .nil⟩
  | cons h _ ih =>
    intro w hw
    obtain ⟨v, w1, h1, h2, h3⟩ := conv_item hL rec h w hw
    obtain ⟨vs, w2, k1, k2⟩ := ih w1 (hw.keep h3)
    refine ⟨v :: vs, w2, ?_, .cons h2 k2⟩
    rw [convItems]
    simp only [M.bind_run, h1, k1]
    rfl

variable (hp : ∀ s t, parseText s = some t → L.parse s = .ok t) {s : Str} (n : Nat)
  (vals : List (Str × PV)) (w : World (St Y)) (hr : Ready I free w)
include hp hr

/-- **C87, lists, also with integrals.**  A text that lists expressions and relations, separated by
commas or by semicolons, without brackets or in `[...]`, `\{...\}`, `\left[...\right]` or
`\left\{...\right\}`, is converted to the list of what the items say, in order. -/
theorem C87_lists_partial {sep : Char} (hs : sep = ',' ∨ sep = ';') {l q us : List Sign}
    {ms : List (Meaning K)} (hb : (l, q) ∈ listBrackets) (h : Listing I free style sep us ms)
    (hm : 2 ≤ ms.length) (hw : Written (l ++ us ++ q) s) (ha : Apart (l ++ us ++ q)) :
    ∃ vs w', latex2sympy L (n + 1) s vals w = (.ok (.list vs), w') ∧ List.Forall₂ (Says I) vs ms := by
  obtain ⟨b1, b2, -⟩ := bracketed_signs hs hb h
  obtain ⟨ts, h1, h2⟩ := lex_written hw b1
  obtain ⟨as, h3, h4⟩ := parseTokens_bracketed hs hb h hm h2 (oneDiff_of_apart h2 ha)
  have hpt : L.parse (prepare s) = .ok (.list as) := by
    rw [prepare_written hw b1 b2]
    exact hp _ _ (by rw [parseText, h1]; exact h3)
  let w0 : World (St Y) := ⟨⟨{ w.ext.g with fracType := fracTypeOf s w.ext.g.fracType, values := vals },
    w.ext.lib⟩, w.out⟩
  obtain ⟨vs, w', k1, k2⟩ := conv_items hL (latex2sympy L n) h4 w0 hr
  refine ⟨vs, w', ?_, k2⟩
  rw [latex2sympy]
  simp only [M.bind_run, modG, M.ext, M.lift_run, hpt]
  simp only [w0] at k1
  rw [k1]
  rfl

/-- **C87, relations, also with integrals.**  A text `a = b`, `a < b`, `a \leq b`, ... is converted to
that relation between the values of `a` and `b`. -/
theorem C87_relations_partial {us : List Sign} {m : Meaning K} (h : Item I free style us m)
    (hw : Written us s) (ha : Apart us) :
    ∃ v w', latex2sympy L (n + 1) s vals w = (.ok v, w') ∧ Says I v m := by
  obtain ⟨b1, b2, -⟩ := item_signs h
  obtain ⟨ts, h1, h2⟩ := lex_written hw b1
  obtain ⟨t, h3, h4⟩ := parseTokens_item h h2 (oneDiff_of_apart h2 ha)
  have hpt : L.parse (prepare s) = .ok (.one t) := by
    rw [prepare_written hw b1 b2.1]
    exact hp _ _ (by rw [parseText, h1]; exact h3)
  let w0 : World (St Y) := ⟨⟨{ w.ext.g with fracType := fracTypeOf s w.ext.g.fracType, values := vals },
    w.ext.lib⟩, w.out⟩
  obtain ⟨v, w', k1, k2, -⟩ := conv_item hL (latex2sympy L n) h4 w0 hr
  refine ⟨v, w', ?_, k2⟩
  rw [latex2sympy]
  simp only [M.bind_run, modG, M.ext, M.lift_run, hpt]
  exact k1

variable {wide : Bool}

/-- **C87, lists.** -/
theorem C87_list_partial {sep : Char} (hs : sep = ',' ∨ sep = ';') {l q us : List Sign}
    {ms : List (Meaning K)} (hb : (l, q) ∈ listBrackets) (h : Listing I free wide sep us ms)
    (hm : 2 ≤ ms.length) (hw : Written (l ++ us ++ q) s) :
    ∃ vs w', latex2sympy L (n + 1) s vals w = (.ok (.list vs), w') ∧ List.Forall₂ (Says I) vs ms :=
  C87_lists_partial hL hp n vals w hr hs hb h hm hw (apart_of_boxed ((bracketed_signs hs hb h).2.2 rfl))

/-- **C87, relations.** -/
theorem C87_relation {us : List Sign} {m : Meaning K} (h : Item I free wide us m) (hw : Written us s) :
    ∃ v w', latex2sympy L (n + 1) s vals w = (.ok v, w') ∧ Says I v m :=
  C87_relations_partial hL hp n vals w hr h hw (apart_of_boxed ((item_signs h).2.2 rfl))

end

end

/-! ### Concrete texts -/

/-- `x=1, x \leq \sqrt{4}` becomes a list of two relations. -/
example : ∃ v w v' u w', latex2sympy textLib 1 s%"x=1, x \\leq \\sqrt{4}" [] startWorld =
      (.ok (.list [.rel s%"=" v w, .rel s%"<=" v' u]), w') ∧
      den (realInterp (fun _ _ => 7) none) v = 7 ∧ den (realInterp (fun _ _ => 7) none) w = 1 ∧
      den (realInterp (fun _ _ => 7) none) v' = 7 ∧
      den (realInterp (fun _ _ => 7) none) u = (4 : ℝ) ^ ((1 : ℝ) / 2) := by
  have hx : Denotes (realInterp (fun _ _ => 7) none) (fun _ => True) false .expr [.letter 'x'] (7 : ℝ) :=
    .term (.signed (.product (.factor (.power (.base (.letter (.latin (c := 'x') (by decide)) trivial))))))
  have hq : Denotes (realInterp (fun _ _ => 7) none) (fun _ => True) false .expr
      (.cmd s%"sqrt" :: (.mark '{' :: [.digit 4] ++ [.mark '}'])) ((((4 : Fin 10).val : ℚ) : ℝ) ^ ((1 : ℝ) / 2)) :=
    .term (.signed (.product (.factor (.power (.base (.sqrt (.partBraces (digitExpr 4))))))))
  obtain ⟨vs, w', h1, h3⟩ := C87_list_partial (nodeLib_sound (fun _ _ => 7) none _) textLib_parse 0 []
    startWorld ⟨rfl, fun _ _ => rfl⟩ (.inl rfl) (l := []) (q := []) (by decide)
    (.cons (.rel (o := .mark '=') (op := s%"=") (by decide) hx (digitExpr 1))
      (.one (.rel (o := .cmd s%"leq") (op := s%"<=") (by decide) hx hq)) (by decide)) (by simp)
    (s := s%"x=1, x \\leq \\sqrt{4}") (writtenB_sound (by decide +kernel))
  cases h3 with
  | cons a1 h3 =>
    cases h3 with
    | cons a2 h3 =>
      cases h3
      cases a1 with
      | relation _ b2 _ b4 =>
        cases a2 with
        | relation _ c2 _ c4 =>
          exact ⟨_, _, _, _, w', h1, b2, b4.trans (by norm_num), c2, c4.trans (by norm_num)⟩

/-- the items `2x`, `3` in braces, separated by a semicolon -/
example : ∃ v w w', latex2sympy textLib 1 s%"\\left\\{ 2x; 3 \\right\\}" [] startWorld =
      (.ok (.list [v, w]), w') ∧ den (realInterp (fun _ _ => 7) none) v = 14 ∧
      den (realInterp (fun _ _ => 7) none) w = 3 := by
  have hx : Denotes (realInterp (fun _ _ => 7) none) (fun _ => True) false (.base ⟨false, true⟩)
      [.letter 'x'] (7 : ℝ) := .letter (.latin (c := 'x') (by decide)) trivial
  have h2 : Denotes (realInterp (fun _ _ => 7) none) (fun _ => True) false .expr [.digit 2, .letter 'x']
      ((((2 : Fin 10).val : ℚ) : ℝ) * 7) :=
    .term (.signed (.product (.juxt (us := [.digit 2]) (.power (.base (.number (num1 2))))
      (.factor (.power (.base hx))) (by simp [Follows]))))
  obtain ⟨vs, w', h1, h3⟩ := C87_list_partial (nodeLib_sound (fun _ _ => 7) none _) textLib_parse 0 []
    startWorld ⟨rfl, fun _ _ => rfl⟩ (.inr rfl)
    (l := [.cmd s%"left", .cmd s%"{"]) (q := [.cmd s%"right", .cmd s%"}"]) (by decide)
    (.cons (.expr h2) (.one (.expr (digitExpr 3))) (by simp)) (by simp)
    (s := s%"\\left\\{ 2x; 3 \\right\\}") (writtenB_sound (by decide +kernel))
  cases h3 with
  | cons a1 h3 =>
    cases h3 with
    | cons a2 h3 =>
      cases h3
      cases a1; rename_i a1
      cases a2; rename_i a2
      refine ⟨_, _, w', h1, a1.trans ?_, a2.trans ?_⟩ <;> norm_num

/-- **C87 is violated** by a comma before three digits: `1, 234` lists 1 and 234, but it is converted to
the number 1234. -/
theorem C87_refuted {σ : Str → Option Bool → ℝ} :
    (∃ us vs, Written (us ++ .mark ',' :: vs) s%"1, 234" ∧
      Item (realInterp σ none) (fun _ => True) false us (.value 1) ∧
      Item (realInterp σ none) (fun _ => True) false vs (.value 234)) ∧
    ∃ w', latex2sympy textLib 1 s%"1, 234" [] startWorld = (.ok (.num 1234), w') := by
  constructor
  · refine ⟨[.digit 1], [.digit 2, .digit 3, .digit 4], writtenB_sound (by decide +kernel), ?_, ?_⟩
    · have := digitExpr (I := realInterp σ none) (free := fun _ => True) (wide := false) 1
      have e : (((1 : Fin 10).val : ℚ) : ℝ) = 1 := by norm_num
      exact .expr (e ▸ this)
    · have h := Numeral.whole (ip := [2, 3, 4]) (by simp)
      have h := Denotes.number (I := realInterp σ none) (free := fun _ => True) (wide := false) h
      have e : ((intPart [2, 3, 4] : ℚ) : ℝ) = 234 := by norm_num [intPart]
      rw [e] at h
      exact .expr (.term (.signed (.product (.factor (.power (.base h))))))
  · have ht : parseText s%"1, 234" = some (.one (.juxt [.number s%"1,234"])) := by kernel_rfl
    have hp : textLib.parse (prepare s%"1, 234") = .ok (.one (.juxt [.number s%"1,234"])) :=
      textLib_parse _ _ (by rw [show prepare s%"1, 234" = s%"1, 234" by decide +kernel]; exact ht)
    rw [latex2sympy]
    simp only [M.bind_run, modG, M.ext, M.lift_run, hp]
    exact ⟨_, rfl⟩

end Verif.Grammar
