import Verif.Lemmas.GrammarStack

/-! # Properties C121, C122, C123: grammars -/

namespace Expression.Props

open Expression Expression.Grammar Spec Spec.Grammar PyD Lemmas.Grammar

variable {σ N : Type} {g : N → Exp N}

/-! ## C121 the parser of a grammar reads the grammar -/

/-- **C121.** The parser written from an expression of a grammar succeeds exactly if the expression matches: with the tree the grammar tells,
after the characters the grammar tells, and without effects. -/
theorem C121_reads (e : Exp N) (w w' : σ) (text : Str) (pos : Nat) (t : Tree) (rest : Remaining) :
    Succeeds (parser g e) w (text, pos) t rest w' ↔
      w' = w ∧ ∃ n, rest = (text, pos + n) ∧ Parses g e (text.drop pos) (some (t, n)) := by
  constructor
  · intro h
    obtain ⟨o, h1, h2⟩ := parser_means e text pos w _ h
    rcases o with _ | ⟨u, n⟩
    · obtain ⟨m, h2⟩ := h2
      cases h2
    · cases h2
      exact ⟨rfl, n, rfl, h1⟩
  · rintro ⟨rfl, n, rfl, h⟩
    obtain ⟨⟨k, hk⟩, _⟩ := parses_gives (σ := σ) h
    have h1 : _ = _ := hk k (Nat.le_refl _) text pos w' rfl
    rcases parserWithin_faithful e k (text, pos) w' with h2 | ⟨w2, h2⟩
    · exact h2.symm.trans h1
    · rw [h1] at h2; cases h2

/-- It fails exactly if the expression does not match. -/
theorem C121_refuses (e : Exp N) (w w' : σ) (text : Str) (pos : Nat) :
    (∃ m, Fails (parser g e) w (text, pos) m w') ↔ w' = w ∧ Parses g e (text.drop pos) none := by
  constructor
  · rintro ⟨m, h⟩
    obtain ⟨o, h1, h2⟩ := parser_means e text pos w _ h
    rcases o with _ | ⟨u, n⟩
    · obtain ⟨m, h2⟩ := h2
      cases h2
      exact ⟨rfl, h1⟩
    · cases h2
  · rintro ⟨rfl, h⟩
    obtain ⟨⟨k, hk⟩, _⟩ := parses_gives (σ := σ) h
    obtain ⟨m, h1⟩ := hk k (Nat.le_refl _) text pos w' rfl
    rcases parserWithin_faithful e k (text, pos) w' with h2 | ⟨w2, h2⟩
    · exact ⟨m, h2.symm.trans h1⟩
    · rw [h1] at h2; cases h2

/-- It never raises. -/
theorem C121_never_raises (e : Exp N) (w w' : σ) (text : Str) (pos : Nat) (err : PyErr) : ¬ Raises (parser g e) w (text, pos) err w' := by
  intro h
  obtain ⟨o, h1, h2⟩ := parser_means e text pos w _ h
  rcases o with _ | ⟨u, n⟩
  · obtain ⟨m, h2⟩ := h2
    cases h2
  · cases h2

/-- It does not end exactly where the grammar gives no meaning to the expression. -/
theorem C121_ends (e : Exp N) (w : σ) (text : Str) (pos : Nat) :
    Ends (parser g e) w (text, pos) ↔ ∃ o, Parses g e (text.drop pos) o := by
  constructor
  · intro h
    rcases hr : (parser g e (text, pos)).exec w with _ | r
    · exact absurd hr h
    · obtain ⟨o, h1, _⟩ := parser_means e text pos w r hr
      exact ⟨o, h1⟩
  · rintro ⟨_ | ⟨t, n⟩, h⟩
    · obtain ⟨m, hm⟩ := (C121_refuses e w w text pos).2 ⟨rfl, h⟩
      unfold Ends; rw [show _ = _ from hm]; simp
    · have hm := (C121_reads e w w text pos t _).2 ⟨rfl, n, rfl, h⟩
      unfold Ends; rw [show _ = _ from hm]; simp

/-- **C121 (a call).** Calling the parser with a text gives `Ok` of a tree exactly if the grammar reads that tree at the beginning of the text. -/
theorem C121_call (e : Exp N) (w w' : σ) (text : Str) (t : Tree) :
    ((parser g e).call text).exec w = some (.ok (.ok t), w') ↔ w' = w ∧ ∃ n, Parses g e text (some (t, n)) := by
  unfold Parser.call
  rw [exec_bind]
  constructor
  · intro h
    rcases hr : (parser g e (text, 0)).exec w with _ | r
    · rw [hr] at h; cases h
    · obtain ⟨o, h1, h2⟩ := parser_means e text 0 w r hr
      rw [hr] at h
      rcases o with _ | ⟨u, n⟩
      · obtain ⟨m, h2⟩ := h2
        cases h2
        cases h
      · cases h2
        cases h
        exact ⟨rfl, n, h1⟩
  · rintro ⟨rfl, n, h⟩
    have hm := (C121_reads e w' w' text 0 t _).2 ⟨rfl, n, rfl, h⟩
    rw [show _ = _ from hm]
    rfl

/-- A grammar has at most one reading of a text. -/
theorem C121_unambiguous (e : Exp N) (s : Str) (o o' : Option (Tree × Nat)) (h : Parses g e s o) (h' : Parses g e s o') : o = o' :=
  parses_det h h'

/-! Nested brackets: a grammar that uses itself. -/

/-- `value → '(' value* ')'` -/
def brackets : Unit → Exp Unit := fun _ => .between (.char '(') (.char ')') (.star (.rule ()))

mutual

/-- nested lists, written with brackets -/
inductive Nested where
  | node (parts : NestedList)

inductive NestedList where
  | nil
  | cons (first : Nested) (others : NestedList)

end

mutual

/-- the text of a nested list -/
def Nested.show : Nested → Str
  | .node parts => '(' :: parts.show ++ [')']

def NestedList.show : NestedList → Str
  | .nil => []
  | .cons x xs => x.show ++ xs.show

end

mutual

/-- the tree of a nested list -/
def Nested.tree : Nested → Tree
  | .node parts => .list parts.trees

def NestedList.trees : NestedList → List Tree
  | .nil => []
  | .cons x xs => x.tree :: xs.trees

end

mutual

private theorem brackets_one (x : Nested) (after : Str) :
    Parses brackets (.rule ()) (x.show ++ after) (some (x.tree, x.show.length)) := by
  cases x with
  | node parts =>
    have h1 : Parses brackets (.char '(') ((Nested.node parts).show ++ after) (some (.text ['('], 1)) := .char (by simp [Nested.show])
    have h2 := brackets_many parts after
    have h3 := h1.between (y := .char ')') (a := .star (.rule ())) (u := .list parts.trees) (m := parts.show.length) (v := .text [')']) (k := 1)
      (by simpa [Nested.show] using h2) (.char (by
        rw [show (Nested.node parts).show ++ after = ('(' :: parts.show) ++ (')' :: after) by simp [Nested.show]]
        rw [show 1 + parts.show.length = ('(' :: parts.show).length by simp [Nat.add_comm]]
        rw [List.drop_left]
        rfl))
    have h4 : (Nested.node parts).show.length = 1 + parts.show.length + 1 := by simp [Nested.show]; omega
    rw [h4]
    exact .rule h3

private theorem brackets_many (xs : NestedList) (after : Str) :
    Parses brackets (.star (.rule ())) (xs.show ++ ')' :: after) (some (.list xs.trees, xs.show.length)) := by
  cases xs with
  | nil => exact .starEnd (.rule (.betweenOpen (.charNot (by simp [NestedList.show]))))
  | cons x xs =>
    have h1 := brackets_one x (xs.show ++ ')' :: after)
    have h2 := brackets_many xs after
    have h3 : (NestedList.cons x xs).show ++ ')' :: after = x.show ++ (xs.show ++ ')' :: after) := by simp [NestedList.show]
    have h4 : (NestedList.cons x xs).show.length = x.show.length + xs.show.length := by simp [NestedList.show]
    rw [h3, h4]
    exact .starMore h1 (by rw [List.drop_left]; exact h2)

end

/-- **C121 (round trip).** What was written with brackets is read back, however deep it is nested and whatever follows. -/
theorem C121_brackets (x : Nested) (after : Str) (w : σ) :
    ((parser brackets (.rule ())).call (x.show ++ after)).exec w = some (.ok (.ok x.tree), w) :=
  (C121_call _ w w _ _).2 ⟨rfl, _, brackets_one x after⟩

/-! ## C122 which grammars answer -/

/-- **C122.** If no rule starts with itself and only consuming expressions are repeated, the parser answers on every text, from every position. -/
theorem C122_answers (hg : WellFormed g) (e : Exp N) (he : RepeatsConsume g e) (w : σ) (text : Str) (pos : Nat) :
    (∃ t n, Succeeds (parser g e) w (text, pos) t (text, pos + n) w) ∨ (∃ m, Fails (parser g e) w (text, pos) m w) := by
  obtain ⟨_ | ⟨t, n⟩, h⟩ := total hg _ e he (text.drop pos) rfl
  · exact .inr ((C121_refuses e w w text pos).2 ⟨rfl, h⟩)
  · exact .inl ⟨t, n, (C121_reads e w w text pos t _).2 ⟨rfl, n, rfl, h⟩⟩

/-- **C122 (left recursion).** If the rules of a set start with rules of the set, every parser that starts with one of them runs for ever, on every text. -/
theorem C122_left_recursion (C : N → Prop) (hC : ∀ n, C n → ∃ m, C m ∧ StartsWith m (g n)) (e : Exp N) (n : N) (hn : C n)
    (he : StartsWith n e) (w : σ) (text : Str) (pos : Nat) : ¬ Ends (parser g e) w (text, pos) := by
  rw [C121_ends]
  rintro ⟨o, h⟩
  exact left_recursive hC h n hn he

theorem brackets_wellFormed : WellFormed brackets where
  noLeftRecursion := by
    refine ⟨fun n => ⟨_, fun m h => ?_⟩⟩
    exfalso
    cases h with
    | betweenOpen h => cases h
    | betweenBody h _ => cases h
    | betweenClose h _ _ => cases h
  repeats _ := ⟨trivial, trivial, trivial, by
    intro h
    cases h with
    | rule h =>
      cases h with
      | between h _ _ => cases h⟩

/-- The grammar of brackets answers on every text. -/
example (text : Str) : (∃ t n, Succeeds (parser brackets (.rule ())) () (text, 0) t (text, 0 + n) ()) ∨
    (∃ m, Fails (parser brackets (.rule ())) () (text, 0) m ()) :=
  C122_answers brackets_wellFormed (.rule ()) trivial () text 0

/-- `sum → sum '+' digit | digit`, as a text book on another kind of grammars would write it: its parser never ends. -/
example (text : Str) : ¬ Ends (parser (fun _ : Unit => .alt (.seq (.rule ()) (.seq (.char '+') (.char '1'))) (.char '1')) (.rule ())) () (text, 0) :=
  C122_left_recursion (fun _ => True) (fun _ _ => ⟨(), trivial, .alt (.seq .rule)⟩) _ () trivial .rule () text 0

/-! ## C123 on a bounded stack -/

/-- **C123.** On a stack with any number of free frames, the parser of any grammar ends: with the answer of the grammar, or with `RecursionError`.
It has no effects. -/
theorem C123_never_wrong (e : Exp N) (free : Nat) (w : σ) (text : Str) (pos : Nat) :
    Overflows (parserWithin g e) free (text, pos) w w ∨
    (∃ t n, (parserWithin g e free (text, pos)).exec w = some (.ok (.ok (t, (text, pos + n))), w) ∧ Parses g e (text.drop pos) (some (t, n))) ∨
    (∃ m, (parserWithin g e free (text, pos)).exec w = some (.ok (.error m), w) ∧ Parses g e (text.drop pos) none) := by
  rcases parserWithin_tame (g := g) e free text pos w with h | ⟨_ | ⟨t, n⟩, h⟩
  · exact .inl h
  · obtain ⟨m, h⟩ := h
    refine .inr (.inr ⟨m, h, ?_⟩)
    rcases parserWithin_faithful (g := g) e free (text, pos) w with h2 | ⟨w2, h2⟩
    · exact ((C121_refuses e w w text pos).1 ⟨m, h2.symm.trans h⟩).2
    · rw [h] at h2; cases h2
  · refine .inr (.inl ⟨t, n, h, ?_⟩)
    rcases parserWithin_faithful (g := g) e free (text, pos) w with h2 | ⟨w2, h2⟩
    · obtain ⟨_, k, h3, h4⟩ := (C121_reads e w w text pos t _).1 (h2.symm.trans h)
      have : n = k := by
        have := congrArg Prod.snd h3
        simp only at this
        omega
      rw [this]
      exact h4
    · rw [show _ = _ from h] at h2; cases h2

/-- **C123 (enough stack).** For every text that the grammar gives a meaning to there is a number of frames, so that with as many or more the parser gives
the answer of the grammar, wherever this text is the rest of a text. -/
theorem C123_enough (e : Exp N) (s : Str) (o : Option (Tree × Nat)) (h : Parses g e s o) :
    ∃ k, ∀ free, k ≤ free → ∀ (w : σ) (text : Str) (pos : Nat), text.drop pos = s →
      match o with
      | some (t, n) => (parserWithin g e free (text, pos)).exec w = some (.ok (.ok (t, (text, pos + n))), w)
      | none => ∃ m, (parserWithin g e free (text, pos)).exec w = some (.ok (.error m), w) := by
  obtain ⟨⟨k, hk⟩, _⟩ := parses_gives (σ := σ) h
  refine ⟨k, fun free hf w text pos hs => ?_⟩
  have := hk free hf text pos w hs
  rcases o with _ | ⟨t, n⟩
  · exact this
  · exact this

/-- **C123 (left recursion).** On every stack a left-recursive grammar raises `RecursionError`, on every text. -/
theorem C123_left_recursion (C : N → Prop) (hC : ∀ n, C n → ∃ m, C m ∧ StartsWith m (g n)) (e : Exp N) (n : N) (hn : C n)
    (he : StartsWith n e) (free : Nat) (w : σ) (text : Str) (pos : Nat) : Overflows (parserWithin g e) free (text, pos) w w := by
  rcases C123_never_wrong (g := g) e free w text pos with h | ⟨t, k, _, h⟩ | ⟨m, _, h⟩
  · exact h
  · exact absurd he (left_recursive hC h n hn)
  · exact absurd he (left_recursive hC h n hn)

private theorem brackets_over (free : Nat) : ∀ (text : Str) (pos : Nat) (w : σ), (∀ i ≤ free, text[pos + i]? = some '(') →
    Overflows (rulesWithin brackets ()) free (text, pos) w w := by
  induction free using Nat.strongRecOn with
  | ind free ih =>
    intro text pos w h
    rw [rulesWithin_eq]
    refine map_over _ fun f1 hf1 => andThen_over_first _ fun f2 hf2 => map_over _ fun f3 hf3 =>
      andThen_over_second (v := .text ['(']) (inp' := (text, pos + 1)) (fun f4 hf4 => ?_) (fun f4 hf4 => map_over _ fun f5 hf5 => many_over fun f6 hf6 => ?_)
    · match f4 with
      | 0 | 1 => exact .inl rfl
      | f4 + 2 =>
        right
        change ((FrameParser.map (fun s => pure (Tree.text s)) (FrameParser.pchar ['('])) (f4 + 2) (text, pos)).exec w = _
        unfold FrameParser.map
        rw [exec_bind]
        have hp : Succeeds (Parser.pchar ['(']) w (text, pos) ['('] (text, pos + 1) w :=
          Lemmas.Parser.pchar_succ_iff.2 ⟨by simpa using h 0 (Nat.zero_le _), rfl, rfl, rfl⟩
        rw [show (FrameParser.pchar ['(']).run (f4 + 2) (text, pos) = Parser.pchar ['('] (text, pos) from rfl, show _ = _ from hp]
        rfl
    · match f6 with
      | 0 | 1 => rfl
      | f6 + 2 =>
        refine ih f6 (by omega) text (pos + 1) w fun i hi => ?_
        rw [Nat.add_assoc]
        exact h (1 + i) (by omega)

private theorem nest_exists (d : Nat) : ∃ x : Nested, x.show.length = 2 * (d + 1) ∧ ∀ i ≤ d, x.show[i]? = some '(' := by
  cases d with
  | zero => exact ⟨.node .nil, rfl, fun i hi => by cases Nat.le_zero.1 hi; rfl⟩
  | succ d =>
    obtain ⟨x, hl, hx⟩ := nest_exists d
    refine ⟨.node (.cons x .nil), ?_, fun i hi => ?_⟩
    · simp only [Nested.show, NestedList.show, List.append_nil, List.cons_append, List.length_cons, List.length_append, List.length_nil, hl]
      omega
    cases i with
    | zero => rfl
    | succ i =>
      have h1 := hx i (by omega)
      have h2 := (List.getElem?_eq_some_iff.1 h1).1
      simp only [Nested.show, NestedList.show, List.append_nil, List.cons_append, List.getElem?_cons_succ]
      rw [List.getElem?_append_left h2]
      exact h1

/-- **C123 (depth).** How many frames are enough depends on the text: for every stack there is a nested list, written with brackets, on which the parser
raises `RecursionError`. It has two characters for every frame and two more: no bound that grows more slowly than the text is true of all grammars. -/
theorem C123_depth (free : Nat) (w : σ) :
    ∃ x : Nested, x.show.length = 2 * (free + 1) ∧ Overflows (parserWithin brackets (.rule ())) free (x.show, 0) w w := by
  obtain ⟨x, hl, hx⟩ := nest_exists free
  refine ⟨x, hl, ?_⟩
  match free with
  | 0 | 1 => rfl
  | free + 2 => exact brackets_over free x.show 0 w fun i hi => by rw [Nat.zero_add]; exact hx i (by omega)

/-- **C123 (how much is enough).** For a grammar with finitely many rules that starts no rule with itself and repeats only what consumes, the frames that
are enough grow with the length of the text and no faster: there is a constant so that with this many frames for every character still to be read, and
once more, the parser gives the answer of the grammar, on every text and from every place. -/
theorem C123_linear (names : List N) (hn : ∀ n, n ∈ names) (hg : WellFormed g) (e : Exp N) (he : RepeatsConsume g e) :
    ∃ c, ∀ (free : Nat) (w : σ) (text : Str) (pos : Nat), c * (text.length - pos + 1) ≤ free →
      (∃ t n, (parserWithin g e free (text, pos)).exec w = some (.ok (.ok (t, (text, pos + n))), w) ∧ Parses g e (text.drop pos) (some (t, n))) ∨
      (∃ m, (parserWithin g e free (text, pos)).exec w = some (.ok (.error m), w) ∧ Parses g e (text.drop pos) none) := by
  obtain ⟨c, hc⟩ := Lemmas.GrammarStack.linear (σ := σ) names hn hg e he
  refine ⟨c, fun free w text pos hf => ?_⟩
  obtain ⟨o, ho⟩ := total hg _ e he (text.drop pos) rfl
  have h := hc _ _ ho free (by rw [List.length_drop]; exact hf) text pos w rfl
  rcases o with _ | ⟨t, n⟩
  · obtain ⟨m, h⟩ := h
    exact .inr ⟨m, h, ho⟩
  · exact .inl ⟨t, n, h, ho⟩

/-- The equation between the rules that the model of the bounded stack is meant to have: a rule is the parser made from its body. -/
theorem C123_rule (n : N) : rulesWithin (σ := σ) g n = makeWithin (rulesWithin g) (g n) := rulesWithin_eq n

/-- Nested brackets are read on some stack, for every depth. -/
example (x : Nested) : ∃ k, ∀ free, k ≤ free →
    (parserWithin brackets (.rule ()) free (x.show, 0)).exec () = some (.ok (.ok (x.tree, (x.show, 0 + x.show.length))), ()) := by
  obtain ⟨k, hk⟩ := C123_enough (σ := Unit) (.rule ()) x.show _ (by simpa using brackets_one x [])
  exact ⟨k, fun free hf => hk free hf () x.show 0 rfl⟩

/-- There is a constant for nested brackets. -/
example : ∃ c, ∀ x : Nested, (parserWithin brackets (.rule ()) (c * (x.show.length + 1)) (x.show, 0)).exec () =
    some (.ok (.ok (x.tree, (x.show, 0 + x.show.length))), ()) := by
  obtain ⟨c, hc⟩ := C123_linear (σ := Unit) [()] (fun _ => by simp) brackets_wellFormed (.rule ()) trivial
  refine ⟨c, fun x => ?_⟩
  have hx : Parses brackets (.rule ()) x.show (some (x.tree, x.show.length)) := by simpa using brackets_one x []
  rcases hc _ () x.show 0 (Nat.le_refl _) with ⟨t, n, h, ht⟩ | ⟨m, h, ht⟩
  · cases C121_unambiguous _ _ _ _ ht hx
    exact h
  · cases C121_unambiguous _ _ _ _ ht hx

end Expression.Props
