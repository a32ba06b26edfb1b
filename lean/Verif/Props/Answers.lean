import Verif.Lemmas.Answers
import Verif.Props.Parser

/-! # Property C116: a parser answers -/

namespace Expression.Props

open Expression Expression.Parser PyD Spec Lemmas Lemmas.Parser Lemmas.Answers

variable {σ ρ α β γ : Type}

/-- The full property: on every text, `pint` answers under every limit on the digits of integers, and so does the repetition of every parser
that answers. -/
def C116_full_statement : Prop :=
  (∀ (t : Str) (limit : Nat), AnswersOn t true (Parser.pintLimited limit : Parser Unit Int)) ∧
  (∀ (t : Str) (p : Parser Unit Str), AnswersOn t false p → AnswersOn t false (Parser.many p))

/-- **C116.** A parser made by the combinators out of functions that return and parsers that answer, in which only parsers that consume are
repeated, answers: on every text, from every position, it returns `Ok` or `Error`.  It raises nothing and ends.  Where the combinators make it
one that consumes, every success moves forward. -/
theorem C116_answers_partial {t : Str} {c : Bool} {p : Parser σ α} (h : Guarded t c p) : AnswersOn t c p := guarded_answers h

/-- Calling it gives a value or a message. -/
theorem C116_call_partial {t : Str} {c : Bool} {p : Parser σ α} (h : Guarded t c p) (w : σ) :
    (∃ v w', (p.call t).exec w = some (.ok (.ok v), w')) ∨ (∃ e w', (p.call t).exec w = some (.ok (.error e), w')) := by
  unfold Parser.call
  rw [exec_bind]
  rcases guarded_answers h w 0 (Nat.zero_le _) with ⟨v, j, w', h1, _⟩ | ⟨e, w', h1⟩
  · rw [h1]; exact .inl ⟨v, w', rfl⟩
  · rw [h1]; exact .inr ⟨e, w', rfl⟩

/-- **C116 (`pint`).** Under a limit on the digits of integers, a literal of as many digits or fewer is read as without a limit (C38); a longer
one makes the parser raise `ValueError`, where an `Error` is promised. -/
theorem C116_pint_partial (limit : Nat) (minus : Bool) (before ds after : Str) (hd : ∀ d ∈ ds, 48 ≤ d.toNat ∧ d.toNat ≤ 57) (hne : ds ≠ [])
    (hno : NoDigitAt after 0) (w : σ) :
    (limit = 0 ∨ ds.length ≤ limit →
      (Parser.pintLimited limit (before ++ ((if minus then ['-'] else []) ++ ds) ++ after, before.length)).exec w =
      (Parser.pint (before ++ ((if minus then ['-'] else []) ++ ds) ++ after, before.length)).exec w) ∧
    (limit ≠ 0 → limit < ds.length →
      ∃ m, Raises (Parser.pintLimited limit) w (before ++ ((if minus then ['-'] else []) ++ ds) ++ after, before.length) (.valueError m) w) := by
  have hd' : ∀ d ∈ ds, d.isDigit = true := fun d h => (isDigit_iff d).2 (hd d h)
  have hs := signed_digits (σ := σ) minus before ds after hd' hne hno w
  constructor
  · intro hl
    unfold Parser.pintLimited Parser.pint Parser.starmap
    rw [map_exec hs, map_exec hs]
    unfold resultToIntLimited resultToInt pyIntLimited
    simp only [flatten_singletons]
    rw [if_neg (by omega)]
  · intro h0 hl
    unfold Raises Parser.pintLimited Parser.starmap
    rw [map_exec hs]
    unfold resultToIntLimited pyIntLimited
    simp only [flatten_singletons]
    rw [if_pos ⟨h0, hl⟩]
    exact ⟨_, rfl⟩

/-- Without a limit it is `pint`. -/
theorem C116_no_limit : (Parser.pintLimited 0 : Parser σ Int) = Parser.pint := by
  unfold Parser.pintLimited Parser.pint
  congr 1

/-- **C116 (endless repetition).** Repeating a parser that succeeds where it stands, without consuming, does not come to an end. -/
theorem C116_endless_partial (p : Parser σ α) (inp : Remaining) (h : ∀ w, ∃ v w', Succeeds p w inp v inp w') (w : σ) :
    ¬ Ends (Parser.many p) w inp := by
  unfold Ends
  rw [many_exec, zero_diverges p inp h w]
  simp

/-- The full property is false: with a limit of one digit, "12" makes `pint` raise (as 4301 digits do with the limit Python has by default). -/
theorem C116_full_statement_false : ¬ C116_full_statement := by
  rintro ⟨h, _⟩
  obtain ⟨m, h1⟩ := (C116_pint_partial (σ := Unit) 1 false [] ['1', '2'] [] (by decide) (by decide) (by intro c hc; cases hc) ()).2
    (by decide) (by decide)
  rcases h ['1', '2'] 1 () 0 (Nat.zero_le _) with ⟨v, j, w', h2, _⟩ | ⟨e, w', h2⟩
  · exact absurd ((show (Parser.pintLimited 1 (['1', '2'], 0)).exec () = _ from h1).symm.trans h2) (by simp)
  · exact absurd ((show (Parser.pintLimited 1 (['1', '2'], 0)).exec () = _ from h1).symm.trans h2) (by simp)

/-- Its second half is false too: `many(preturn(""))` never ends. -/
theorem C116_repetition_false : ¬ ∀ (t : Str) (p : Parser Unit Str), AnswersOn t false p → AnswersOn t false (Parser.many p) := by
  intro h
  have h1 := C116_endless_partial (Parser.preturn ([] : Str) : Parser Unit Str) ([], 0) (fun w => ⟨[], w, rfl⟩) ()
  rcases h [] (Parser.preturn []) (C116_answers_partial (.preturn [])) () 0 (Nat.le_refl _) with ⟨v, j, w', h2, _⟩ | ⟨e, w', h2⟩
  · exact h1 (by unfold Ends; rw [h2]; simp)
  · exact h1 (by unfold Ends; rw [h2]; simp)

/-- A list of integers in brackets, separated by commas and blanks: it answers on every text, if there is no limit. -/
example (t : Str) : AnswersOn t true
    (Parser.between (Parser.pchar ['[']) (Parser.pchar [']'])
      (Parser.sepBy (Parser.pintLimited 0) (Parser.andThen (Parser.pchar [',']) (Parser.many (Parser.pchar [' '])))) : Parser Unit (Block Int)) :=
  C116_answers_partial (.between _ _ _ (.pchar _) (.pchar _)
    (.sepBy _ _ (.pint 0 (.inl rfl)) (.andThen _ _ (.pchar _) (.many _ (.pchar _))) rfl))

/-- Python's default limit: the parser raises on a digit more. -/
example : ∃ m, Raises (Parser.pintLimited 4300) () ([] ++ ([] ++ List.replicate 4301 '7') ++ [], 0) (.valueError m) () :=
  (C116_pint_partial 4300 false [] (List.replicate 4301 '7') [] (fun d h => by rw [List.eq_of_mem_replicate h]; decide)
    (by intro h; cases h) (by intro c hc; cases hc) ()).2 (by decide) (by rw [List.length_replicate]; decide)

end Expression.Props
