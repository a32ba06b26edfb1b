import Verif.Lemmas.ParserText
import Verif.Lemmas.Parser
import Mathlib.Tactic.Ring

/-! # C143, C144: the texts of parsers -/

namespace Expression.Props

open Expression Spec Lemmas

variable {σ ρ α β γ : Type}

/-! ## C143: the text of a parser tells how it was made -/

/-- Two parsers with the same text (`str` or `repr`) were made by the same calls. -/
def C143_full_statement : Prop := ∀ (σ α β : Type) (p : Named σ α) (q : Named σ β) (s t : Construction),
  MadeBy σ α p s → MadeBy σ β q t → p.str = q.str → s = t

/-- What holds: two parsers have the same text if and only if they were made by the same calls, up to `many` and `many1`, when the texts in them can be
told from what is around them. -/
theorem C143_same_calls_partial {p : Named σ α} {q : Named σ β} {s t : Construction} (hp : MadeBy σ α p s) (hq : MadeBy σ β q t)
    (hs : s.Legible) (ht : t.Legible) : p.str = q.str ↔ s.manyForMany1 = t.manyForMany1 := by
  rw [ParserText.str_eq hp, ParserText.str_eq hq]
  constructor
  · intro h
    exact (ParserText.text_inj s t [] [] hs ht (by rw [h])).1
  · intro h
    rw [← ParserText.text_many s, ← ParserText.text_many t, h]

/-- No text is the beginning of another: this is why the missing brackets do no harm. -/
theorem C143_no_beginning_partial {p : Named σ α} {q : Named σ β} {s t : Construction} (hp : MadeBy σ α p s) (hq : MadeBy σ β q t)
    (hs : s.Legible) (ht : t.Legible) (rest : Str) (h : q.str = p.str ++ rest) : rest = [] := by
  rw [ParserText.str_eq hp, ParserText.str_eq hq] at h
  exact ((ParserText.text_inj s t rest [] hs ht (by rw [h, List.append_nil])).2)

example : MadeBy Nat Str (Named.thenIgnore (Named.pchar ['a']) (Named.orElse (Named.fail ['n', 'o']) (Named.pchar [')'])))
    (.map (.andThen (.pchar ['a']) (.orElse (.fail ['n', 'o']) (.pchar [')'])))) :=
  .map _ (.andThen (.pchar _) (.orElse (.fail _) (.pchar _)))

example : (Construction.map (.andThen (.pchar ['a']) (.orElse (.fail ['n', 'o']) (.pchar [')'])))).Legible := by
  refine ⟨rfl, ?_, rfl⟩
  show '"' ∉ ['n', 'o']
  decide

/-- Two parsers of the same text, one of which accepts the empty input and the other does not. -/
theorem C143_many1 (char : Str) (w : σ) :
    (Named.many (σ := σ) (Named.pchar char)).str = (Named.many1 (σ := σ) (Named.pchar char)).str ∧
    ((Named.many (Named.pchar char)).run ([], 0)).exec w = some (.ok (.ok (⟨[]⟩, ([], 0))), w) ∧
    ((Named.many1 (Named.pchar char)).run ([], 0)).exec w = some (.ok (.error "no more input"), w) := by
  have hp : (Parser.pchar char : Parser σ Str) ([], 0) = pure (.error "no more input") := rfl
  have h1 : (Named.many (σ := σ) (Named.pchar char)).run = Parser.many (Parser.pchar char) := by
    rw [Named.many, Named.new, if_neg (by simp [ParserText.lit_eq]), Named.pchar, Named.new, if_neg (by simp [ParserText.lit_eq])]
  have h2 : (Named.many1 (σ := σ) (Named.pchar char)).run = Parser.many1 (Parser.pchar char) := by
    rw [Named.many1, Named.new, if_neg (by simp [ParserText.lit_eq]), Named.pchar, Named.new, if_neg (by simp [ParserText.lit_eq])]
  refine ⟨by rw [ParserText.str_many, ParserText.str_many1], ?_, ?_⟩
  · rw [h1, Parser.many, Parser.parseZeroOrMore.eq_1, hp]
    rfl
  · rw [h2, Parser.many1, hp]
    rfl

theorem C143_full_statement_false : ¬ C143_full_statement := by
  intro h
  have := h Unit _ _ _ _ _ _ (.many (.pchar ['a'])) (.many1 (.pchar ['a'])) (C143_many1 ['a'] ()).1
  cases this

/-- When the texts of values have brackets, parsers that do different things may have the same text (which is `and_then(preturn(a), preturn(b), preturn(c)`
in this case). -/
theorem C143_values {strOf : α → PyD ρ Str} {x1 x2 y1 y2 : α} {w : ρ} (hx1 : (strOf x1).exec w = some (.ok "a".toList, w))
    (hx2 : (strOf x2).exec w = some (.ok "b), preturn(c".toList, w)) (hy1 : (strOf y1).exec w = some (.ok "a), preturn(b".toList, w))
    (hy2 : (strOf y2).exec w = some (.ok "c".toList, w)) : ∃ px1 px2 py1 py2 : Named σ α,
    (Named.preturn strOf x1).exec w = some (.ok px1, w) ∧ (Named.preturn strOf x2).exec w = some (.ok px2, w) ∧
    (Named.preturn strOf y1).exec w = some (.ok py1, w) ∧ (Named.preturn strOf y2).exec w = some (.ok py2, w) ∧
    (Named.andThen px2 px1).str = (Named.andThen py2 py1).str := by
  have hp : ∀ {x : α} {s}, (strOf x).exec w = some (.ok s, w) → ∃ p : Named σ α, (Named.preturn strOf x).exec w = some (.ok p, w) ∧
      p.str = Named.lit "preturn(" ++ s ++ Named.lit ")" := by
    intro x s h
    refine ⟨Named.new (Parser.preturn x) (some (Named.lit "preturn(" ++ s ++ Named.lit ")")), ?_, ParserText.str_new _ _ (by simp [ParserText.lit_eq])⟩
    rw [Named.preturn, PyD.exec_bind, h]
    rfl
  obtain ⟨p1, h1, e1⟩ := hp hx1
  obtain ⟨p2, h2, e2⟩ := hp hx2
  obtain ⟨q1, h3, e3⟩ := hp hy1
  obtain ⟨q2, h4, e4⟩ := hp hy2
  refine ⟨p1, p2, q1, q2, h1, h2, h3, h4, ?_⟩
  rw [ParserText.str_andThen, ParserText.str_andThen, e1, e2, e3, e4]
  simp [ParserText.lit_eq]

/-- for instance, strings are their own text -/
example : ((fun s => pure s : Str → PyD Nat Str) "b), preturn(c".toList).exec 7 = some (.ok "b), preturn(c".toList, 7) := rfl

/-- The names change nothing of what the parsers do: with its name taken off, every function is the one of the model without names. -/
theorem C143_runs (fn : α → PyD σ β) (curried : α → PyD σ (β → PyD σ γ)) (strOf : (α → PyD σ (β → PyD σ γ)) → PyD ρ Str)
    (f : α → PyD σ (Named σ β)) (char error : Str) (p p' : Named σ α) (q : Named σ β) (r : Named σ γ) (fP : Named σ (α → PyD σ β)) :
    (Named.pchar (σ := σ) char).run = Parser.pchar char ∧ (Named.andThen p q).run = Parser.andThen p.run q.run ∧
    (Named.orElse p p').run = Parser.orElse p.run p'.run ∧ (Named.map fn p).run = Parser.map fn p.run ∧
    (Named.fail (σ := σ) (α := α) error).run = Parser.fail (String.ofList error) ∧ (Named.apply fP p).run = Parser.apply fP.run p.run ∧
    (Named.many p).run = Parser.many p.run ∧ (Named.many1 p).run = Parser.many1 p.run ∧
    (Named.thenIgnore p q).run = Parser.thenIgnore p.run q.run ∧ (Named.ignoreThen p q).run = Parser.ignoreThen p.run q.run ∧
    (Named.sepBy1 p q).run = Parser.sepBy1 p.run q.run ∧ (Named.between q r p).run = Parser.between q.run r.run p.run ∧
    (Named.bind f p).run = Parser.bind (fun x => do let q ← f x; pure q.run) p.run ∧ (Named.ignore p).run = Parser.ignore p.run ∧
    (∀ w t w', (Named.lift2 strOf curried p q).exec w = some (.ok t, w') → t.run = Parser.lift2 curried p.run q.run) := by
  have hn : ∀ {α : Type} (run : Parser σ α) (name : Option Str), (Named.new run name).run = run := by
    intro α run name
    unfold Named.new
    split
    · split <;> rfl
    · rfl
  have hm : ∀ {α β : Type} (fn : α → PyD σ β) (p : Named σ α), (Named.map fn p).run = Parser.map fn p.run := fun fn p => hn _ _
  have ha : ∀ {α β : Type} (p : Named σ α) (q : Named σ β), (Named.andThen p q).run = Parser.andThen p.run q.run := fun p q => hn _ _
  have hap : ∀ {α β : Type} (fP : Named σ (α → PyD σ β)) (p : Named σ α), (Named.apply fP p).run = Parser.apply fP.run p.run := by
    intro α β fP p
    rw [Named.apply, hm, ha]; rfl
  have hi : ∀ {α β : Type} (p : Named σ α) (q : Named σ β), (Named.ignoreThen p q).run = Parser.ignoreThen p.run q.run := by
    intro α β p q
    rw [Named.ignoreThen, hm, ha]; rfl
  have ht : ∀ {α β : Type} (p : Named σ α) (q : Named σ β), (Named.thenIgnore p q).run = Parser.thenIgnore p.run q.run := by
    intro α β p q
    rw [Named.thenIgnore, hm, ha]; rfl
  refine ⟨hn _ _, ha _ _, hn _ _, hm _ _, hn _ _, hap _ _, hn _ _, hn _ _, ht _ _, hi _ _, ?_, ?_, hn _ _, ?_, fun w t w' h => ?_⟩
  · rw [Named.sepBy1, hm, ha, show (Named.many (Named.ignoreThen q p)).run = _ from hn _ _, hi]; rfl
  · rw [Named.between, ht, hi]; rfl
  · rw [Named.ignore, hm]; rfl
  · rw [Named.lift2, PyD.exec_bind] at h
    cases hf : (Named.preturn (σ := σ) strOf curried).exec w with
    | none => rw [hf] at h; cases h
    | some r =>
      obtain ⟨f | f, w1⟩ := r
      · rw [hf] at h; cases h
      · rw [hf] at h
        cases h
        rw [hap, hap]
        rw [Named.preturn, PyD.exec_bind] at hf
        cases hs : (strOf curried).exec w with
        | none => rw [hs] at hf; cases hf
        | some r =>
          obtain ⟨s | s, w2⟩ := r
          · rw [hs] at hf; cases hf
          · rw [hs] at hf
            cases hf
            rw [hn]; rfl

/-- What the functions that are made of others are made of, as their texts show. -/
theorem C143_derived (strOf : (α → PyD σ (β → PyD σ γ)) → PyD ρ Str) (curried : α → PyD σ (β → PyD σ γ)) {p : Named σ α} {q : Named σ β} {r : Named σ γ}
    {s t u : Construction} (hp : MadeBy σ α p s) (hq : MadeBy σ β q t) (hr : MadeBy σ γ r u) :
    MadeBy σ α (Named.thenIgnore p q) (.map (.andThen s t)) ∧ MadeBy σ β (Named.ignoreThen p q) (.map (.andThen s t)) ∧
    MadeBy σ (Block α) (Named.sepBy1 p q) (.map (.andThen s (.many (.map (.andThen t s))))) ∧
    MadeBy σ α (Named.between q r p) (.map (.andThen (.map (.andThen t s)) u)) ∧ MadeBy σ Unit (Named.ignore p) (.map s) ∧
    (∀ w w' x, (strOf curried).exec w = some (.ok x, w') →
      ∃ m, (Named.lift2 strOf curried p q).exec w = some (.ok m, w') ∧ MadeBy σ γ m (.map (.andThen (.map (.andThen (.preturn x) s)) t))) := by
  refine ⟨.map _ (.andThen hp hq), .map _ (.andThen hp hq), .map _ (.andThen hp (.many (.map _ (.andThen hq hp)))),
    .map _ (.andThen (.map _ (.andThen hq hp)) hr), .map _ hp, fun w w' x h => ?_⟩
  have hpre : (Named.preturn (σ := σ) strOf curried).exec w
      = some (.ok (Named.new (Parser.preturn curried) (some (Named.lit "preturn(" ++ x ++ Named.lit ")"))), w') := by
    rw [Named.preturn, PyD.exec_bind, h]; rfl
  refine ⟨_, by rw [Named.lift2, PyD.exec_bind, hpre]; rfl, .map _ (.andThen (.map _ (.andThen (.preturn h hpre) hp)) hq)⟩

example : MadeBy Nat Str (Named.between (Named.pchar ['(']) (Named.pchar [')']) (Named.pchar ['a']))
    (.map (.andThen (.map (.andThen (.pchar ['(']) (.pchar ['a']))) (.pchar [')']))) :=
  (C143_derived (σ := Nat) (ρ := Nat) (γ := Str) (p := Named.pchar _) (q := Named.pchar _) (r := Named.pchar _) (fun _ => pure []) (fun _ => pure (fun _ => pure [])) (.pchar ['a']) (.pchar ['(']) (.pchar [')'])).2.2.2.1

/-- `choice` of parsers: made without effects, by `or_else` from the left, as its text shows; it is the parser that the model without names has. -/
theorem C143_choice {p : Named σ α} {ps : List (Named σ α)} {s : Construction} {ss : List Construction} (hp : MadeBy σ α p s)
    (hps : List.Forall₂ (MadeBy σ α) ps ss) (w : ρ) :
    ∃ c, (Named.choice ⟨p :: ps⟩).exec w = (.ok c, w) ∧ MadeBy σ α c (ss.foldl .orElse s) ∧
      (Parser.choice ⟨(p :: ps).map (·.run)⟩).exec w = (.ok c.run, w) := by
  refine ⟨ps.foldl Named.orElse p, ?_, ?_, ?_⟩
  · change (Block.fold (σ := ρ) ⟨ps⟩ (fun a b => pure (Named.orElse a b)) p).exec w = _
    rw [Parser.fold_pure]; rfl
  · induction hps generalizing p s with
    | nil => exact hp
    | cons hq _ ih => exact ih (.orElse hp hq)
  · rw [List.map_cons, Parser.choice_cons]
    congr 2
    clear hp hps
    induction ps generalizing p with
    | nil => rfl
    | cons q ps ih =>
      rw [List.map_cons, List.foldl_cons, List.foldl_cons, ← ih, Named.orElse, Named.new, if_neg (by simp [ParserText.lit_eq])]

/-- `any_of` of a non-empty string: `or_else` of its characters, from the left.  Of the empty string, as `choice` of no parsers, it raises `ValueError`. -/
theorem C143_any_of (c : Char) (cs : Str) (w : ρ) :
    (∃ p : Named σ Str, (Named.anyOf (c :: cs)).exec w = (.ok p, w) ∧
      MadeBy σ Str p ((cs.map (fun c => Construction.pchar [c])).foldl .orElse (.pchar [c])) ∧
      (Parser.anyOf (c :: cs)).exec w = (.ok p.run, w)) ∧
    (Named.anyOf (σ := σ) []).exec w = (.error (.valueError "Collection was empty"), w) := by
  have hall : ∀ cs : Str, List.Forall₂ (MadeBy σ Str) (cs.map (fun c => Named.pchar [c])) (cs.map (fun c => Construction.pchar [c])) := by
    intro cs
    induction cs with
    | nil => exact .nil
    | cons c cs ih => exact .cons (.pchar _) ih
  obtain ⟨p, h1, h2, h3⟩ := C143_choice (ρ := ρ) (.pchar [c]) (hall cs) w
  have hr : ∀ cs : Str, (cs.map (fun c => Named.pchar (σ := σ) [c])).map (·.run) = cs.map (fun c => Parser.pchar [c]) := by
    intro cs
    rw [List.map_map]
    refine List.map_congr_left (fun c _ => ?_)
    show (Named.pchar (σ := σ) [c]).run = _
    rw [Named.pchar, Named.new, if_neg (by simp [ParserText.lit_eq])]
  refine ⟨⟨p, h1, h2, ?_⟩, rfl⟩
  rw [← List.map_cons (f := fun c => Named.pchar (σ := σ) [c]), hr] at h3
  exact h3

/-- `any_of("abc")` -/
example : ∃ p, (Named.anyOf (σ := Unit) ['a', 'b', 'c']).exec 5 = (.ok p, 5) ∧
    p.str = "or_else(pchar('c'), or_else(pchar('b'), pchar('a')".toList := by
  obtain ⟨⟨p, h, hm, -⟩, -⟩ := C143_any_of (σ := Unit) 'a' ['b', 'c'] 5
  refine ⟨p, h, ?_⟩
  rw [ParserText.str_eq hm]
  simp [ParserText.text, ParserText.lit_eq]

/-! ## C144: making a parser takes no more time than the program that makes it is long -/

/-- The texts of all parsers that a program makes are, together, at most as long as the program, up to a constant; and making a parser that returns a value
runs nothing of the value's. -/
def C144_full_statement : Prop :=
  (∃ c, ∀ (σ : Type) (calls : List (Make σ)), textSize (makeAll [] calls) ≤ c * programSize calls) ∧
  (∀ (σ ρ α : Type) (strOf : α → PyD ρ Str) (x : α) (w : ρ), ∃ p : Named σ α, (Named.preturn strOf x).exec w = some (.ok p, w))

/-- What holds: the text of a parser is at most as long as the calls that made it, written out where they are used, up to a constant. -/
theorem C144_written_out_partial {p : Named σ α} {s : Construction} (hp : MadeBy σ α p s) : p.str.length ≤ 21 * s.size := by
  rw [ParserText.str_eq hp]
  exact ParserText.text_length s

/-- What holds: `n` calls, whose arguments are no longer than `a`, make texts of fewer than `3 ^ n * (a + 33)` characters. -/
theorem C144_exponential_partial (calls : List (Make σ)) (a : Nat) (ha : ∀ m ∈ calls, m.letters ≤ a) :
    ∀ p ∈ makeAll [] calls, p.str.length < 3 ^ calls.length * (a + 33) := by
  intro p hp
  have := ParserText.makeAll_le calls [] (a + 33) (Nat.le_refl _) (fun p hp => by cases hp) ha p hp
  omega

/-- And it comes to that: one `pchar` and `n` calls of `between`, each on the parser made last, make a text of `3 ^ n * (a + 33) - 24` characters. -/
theorem C144_exponential (char : Str) (n : Nat) : ∃ calls : List (Make σ), calls.length = n + 1 ∧ programSize calls = n + 1 + char.length ∧
    ∃ p ∈ makeAll [] calls, p.str.length + 24 = 3 ^ n * (char.length + 33) := by
  refine ⟨ParserText.betweens char n, ParserText.length_betweens char n, ParserText.programSize_betweens char n, _, ?_, ParserText.last_betweens char n⟩
  exact ParserText.parserAt_mem (by rw [ParserText.length_makeAll, ParserText.length_betweens]; simp)

example : ∃ calls : List (Make Unit), calls.length = 21 ∧ ∃ p ∈ makeAll [] calls, 100000000000 < p.str.length := by
  obtain ⟨calls, h1, -, p, hp, h2⟩ := C144_exponential (σ := Unit) ['a'] 20
  refine ⟨calls, h1, p, hp, ?_⟩
  rw [show (3 ^ 20 * ((['a'] : Str).length + 33) : Nat) = 118550669634 by decide] at h2
  omega

/-- `preturn(x)` makes the text of `x`: what that raises or does, `preturn` does; and if it does not come to an end, neither does `preturn`. -/
theorem C144_preturn (strOf : α → PyD ρ Str) (x : α) (w : ρ) :
    (∀ w' e, (strOf x).exec w = some (.error e, w') → (Named.preturn (σ := σ) strOf x).exec w = some (.error e, w')) ∧
    ((strOf x).exec w = none → (Named.preturn (σ := σ) strOf x).exec w = none) ∧
    (∀ w' s, (strOf x).exec w = some (.ok s, w') → ∃ p : Named σ α, (Named.preturn strOf x).exec w = some (.ok p, w') ∧ MadeBy σ α p (.preturn s)) := by
  refine ⟨fun w' e h => ?_, fun h => ?_, fun w' s h => ?_⟩
  · rw [Named.preturn, PyD.exec_bind, h]
  · rw [Named.preturn, PyD.exec_bind, h]
  · have : (Named.preturn (σ := σ) strOf x).exec w
        = some (.ok (Named.new (Parser.preturn x) (some (Named.lit "preturn(" ++ s ++ Named.lit ")"))), w') := by
      rw [Named.preturn, PyD.exec_bind, h]
      rfl
    exact ⟨_, this, .preturn h this⟩

theorem C144_full_statement_false : ¬ C144_full_statement := by
  rintro ⟨⟨c, h⟩, -⟩
  obtain ⟨calls, -, h2, p, hp, h3⟩ := C144_exponential (σ := Unit) ['a'] (c + 1)
  have h1 := h Unit calls
  have h4 := ParserText.le_textSize hp
  rw [h2] at h1
  rw [show (['a'] : Str).length = 1 from rfl] at h1 h3
  have h5 := ParserText.square_le (c + 1)
  have h6 : c * (c + 1 + 1 + 1) ≤ 3 * ((c + 1) * (c + 1)) := by
    rw [show c * (c + 1 + 1 + 1) = c * c + 3 * c by ring, show 3 * ((c + 1) * (c + 1)) = 3 * (c * c) + 6 * c + 3 by ring]
    omega
  have h7 : 1 ≤ 3 ^ (c + 1) := Nat.one_le_pow _ _ (by decide)
  omega

/-- The second part is false too: `str(x)` may raise. -/
example : (Named.preturn (σ := Unit) (fun _ : Unit => (PyD.raise (.valueError "x") : PyD Nat Str)) ()).exec 5 = some (.error (.valueError "x"), 5) :=
  (C144_preturn _ () 5).1 5 (.valueError "x") rfl

end Expression.Props
