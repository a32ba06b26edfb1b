import Verif.Lemmas.ParserStack
import Verif.Lemmas.Parser3

/-! # Property C106: running parsers on a bounded stack -/

namespace Expression.Props

open Expression PyD Spec Lemmas Lemmas.ParserStack

variable {σ ρ α β γ : Type}

/-- The full property: there is a stack on which every `any_of`, every `pstring` and every `many` of a character does what it does on an
unbounded one. -/
def C106_full_statement : Prop :=
  ∃ free, (∀ c s q p, (FrameParser.anyOf (σ := Unit) (c :: s)).exec () = (.ok q, ()) → (Parser.anyOf (c :: s)).exec () = (.ok p, ()) →
      ∀ text, (q.call free text).exec () = (p.call text).exec ()) ∧
    (∀ s text, ((FrameParser.pstring (σ := Unit) s).call free text).exec () = ((Parser.pstring s).call text).exec ()) ∧
    (∀ c text, ((FrameParser.many (FrameParser.pchar (σ := Unit) c)).call free text).exec () = ((Parser.many (.pchar c)).call text).exec ())

/-- **C106 (never a wrong answer).** However a parser is made by the combinators, and however small the stack it is run on: it does what it
does on an unbounded stack, or it raises `RecursionError`. -/
theorem C106_same_or_overflow {q : FrameParser σ α} {p : Parser σ α} (h : SameParser q p) (free : Nat) (w : σ) :
    (∀ inp, (q free inp).exec w = (p inp).exec w ∨ ∃ w', Overflows q free inp w w') ∧
    (∀ text, (q.call free text).exec w = (p.call text).exec w ∨ ∃ w', (q.call free text).exec w = some (.error .recursionError, w')) := by
  refine ⟨fun inp => same_faithful h free inp w, fun text => ?_⟩
  match free with
  | 0 => exact .inr ⟨w, rfl⟩
  | 1 => exact .inr ⟨w, rfl⟩
  | free + 2 => exact OrOverflow.bind (same_faithful h free (text, 0)) (fun _ => OrOverflow.refl _) w

/-- **C106 (what suffices).** Frames that suffice for the parts, and two for each combinator around them, suffice for the whole; a chain of
alternatives needs two for each of its members. -/
theorem C106_frames {n m : Nat} {q : FrameParser σ α} {p : Parser σ α} {q' : FrameParser σ β} {p' : Parser σ β}
    (h : EnoughFrames n q p) (h' : EnoughFrames m q' p') :
    EnoughFrames (max n m + 2) (.andThen q q') (.andThen p p') ∧
    (∀ f : α → PyD σ γ, EnoughFrames (n + 2) (.map f q) (.map f p)) ∧
    (∀ q2 p2, EnoughFrames m q2 p2 → EnoughFrames (max n m + 2) (.orElse q q2) (.orElse p p2)) ∧
    EnoughFrames (n + 4) (.opt q) (.opt p) ∧
    EnoughFrames (max n m + 4) (.thenIgnore q q') (.thenIgnore p p') ∧
    EnoughFrames (max n m + 4) (.ignoreThen q q') (.ignoreThen p p') ∧
    EnoughFrames (n + 2) (.ignore q) (.ignore p) ∧
    (∀ k q2 p2, EnoughFrames k q2 p2 → EnoughFrames (max (max n k + 4) m + 4) (.between (γ := α) q q' q2) (.between p p' p2)) ∧
    (∀ (ι : Type) (f : α → PyD σ ι) (qs : ι → FrameParser σ γ) (ps : ι → Parser σ γ), (∀ i, EnoughFrames m (qs i) (ps i)) →
      EnoughFrames (max n m + 2) (.bind (fun a => do pure (qs (← f a))) q) (.bind (fun a => do pure (ps (← f a))) p)) ∧
    (∀ free text, n + 2 ≤ free → q.call free text = p.call text) := by
  refine ⟨andThen_enough h h', fun f => map_enough f h, fun q2 p2 h2 => orElse_enough h h2, ?_, map_enough _ (andThen_enough h h'),
    map_enough _ (andThen_enough h h'), map_enough _ h,
    fun k q2 p2 h2 => map_enough _ (andThen_enough (map_enough _ (andThen_enough h h2)) h'), fun ι f qs ps hi => ?_, fun free text hf => ?_⟩
  · exact EnoughFrames.mono (orElse_enough (map_enough _ h) (const_enough _)) (by omega)
  · intro free hf
    funext inp
    have e : ∀ i, (qs i).run free = ps i := fun i => run_enough (hi i) (by omega)
    rw [FrameParser.bind, Parser.bind, run_enough h (by omega)]
    congr 1
    funext r
    rcases r with ⟨v, r⟩ | er
    · simp only [bind_assoc, pure_bind, e]
    · rfl
  · obtain ⟨k, rfl⟩ : ∃ k, free = k + 2 := ⟨free - 2, by omega⟩
    rw [FrameParser.call, h k (by omega)]
    rfl

/-- **C106 (`choice`).** A choice of `k + 1` parsers that need `n` frames each works with `n + 2 k` frames.  With fewer than `2 k` it raises
`RecursionError` whatever the text is: the first alternative, which is tried first, is the innermost one. -/
theorem C106_choice_partial (q : FrameParser σ α) (qs : List (FrameParser σ α)) (p : Parser σ α) (ps : List (Parser σ α)) (n : Nat)
    (hl : qs.length = ps.length) (h0 : EnoughFrames n q p)
    (h : ∀ (i : Nat) (q : FrameParser σ α) (p : Parser σ α), qs[i]? = some q → ps[i]? = some p → EnoughFrames n q p) (w : ρ) :
    ∃ b a, (FrameParser.choice ⟨q :: qs⟩).exec w = (.ok b, w) ∧ (Parser.choice ⟨p :: ps⟩).exec w = (.ok a, w) ∧
      EnoughFrames (n + 2 * qs.length) b a ∧
      (∀ free inp w, free < 2 * qs.length → Overflows b free inp w w) := by
  refine ⟨_, _, reduce_orElse q qs w, Lemmas.Parser.choice_cons p ps w, foldl_enough qs ps q p n n hl h0 (Nat.le_refl _) h, ?_⟩
  intro free inp w hf
  exact foldl_small qs q 0 (fun _ _ _ h => absurd h (Nat.not_lt_zero _)) free inp w (by omega)

/-- **C106 (`any_of`).** The parser of one of `k + 1` characters works exactly with `2 k` frames. -/
theorem C106_anyOf_partial (c : Char) (s : Str) (w : ρ) :
    ∃ q p, (FrameParser.anyOf (σ := σ) (c :: s)).exec w = (.ok q, w) ∧ (Parser.anyOf (c :: s)).exec w = (.ok p, w) ∧
      ∀ free, (2 * s.length ≤ free → q free = p) ∧ (free < 2 * s.length → ∀ inp w, Overflows q free inp w w) := by
  obtain ⟨q, p, e1, e2, h1, h2⟩ := C106_choice_partial (σ := σ) (.pchar [c]) (s.map (fun c => .pchar [c])) (.pchar [c])
    (s.map (fun c => .pchar [c])) 0 (by simp) (const_enough _) (by
      intro i q p hq hp
      simp only [List.getElem?_map, Option.map_eq_some_iff] at hq hp
      obtain ⟨x, hx, rfl⟩ := hq
      obtain ⟨y, hy, rfl⟩ := hp
      obtain rfl : x = y := Option.some.inj (hx.symm.trans hy)
      exact const_enough _) w
  exact ⟨q, p, e1, e2, fun free => ⟨fun h => h1 free (by simpa using h), fun h inp w => h2 free inp w (by simpa using h)⟩⟩

/-- **C106 (`sequence`).** A sequence of `k` parsers that need `n` frames each works with `n + 4 k + 4` frames. -/
theorem C106_sequence_partial {n : Nat} {qs : List (FrameParser σ α)} {ps : List (Parser σ α)} (hl : qs.length = ps.length)
    (h : ∀ (i : Nat) (q : FrameParser σ α) (p : Parser σ α), qs[i]? = some q → ps[i]? = some p → EnoughFrames n q p) :
    EnoughFrames (n + 4 * qs.length + 4) (.sequence qs) (.sequence ps) :=
  sequence_enough hl h

/-- **C106 (`pstring`).** The parser of a string that is not empty needs ten frames, and four more for each of its characters it finds (the
last one excepted): with fewer it raises `RecursionError`, with as many it does what C61 says. -/
theorem C106_pstring_partial (c : Char) (s : Str) (free : Nat) (text : Str) (i : Nat) (w : σ) :
    (free < 4 * min (agreement (c :: s) text i) s.length + 10 → Overflows (.pstring (c :: s)) free (text, i) w w) ∧
    (4 * min (agreement (c :: s) text i) s.length + 10 ≤ free →
      (FrameParser.pstring (c :: s) free (text, i)).exec w = (Parser.pstring (c :: s) (text, i)).exec w) :=
  pstring_exact c s free text i w

/-- **C106 (`many`).** If the parser succeeds `k` times and then fails, and needs exactly `n` frames, then `many` needs exactly
`n + 3 + k` of them. -/
theorem C106_many_partial {n : Nat} {q : FrameParser σ α} {p : Parser σ α} (h : EnoughFrames n q p)
    (hq : ∀ free inp w, free < n → Overflows q free inp w w) {w w' : σ} {inp rest : Remaining} {vs : List α}
    (hr : Repeats p w inp vs rest w') (free : Nat) :
    (n + 3 + vs.length ≤ free → ((FrameParser.many q) free inp).exec w = ((Parser.many p) inp).exec w) ∧
    (free < n + 3 + vs.length → ∃ w1, Overflows (.many q) free inp w w1) := by
  refine ⟨fun hf => ?_, fun hf => ?_⟩
  · obtain ⟨k, rfl⟩ : ∃ k, free = k + 1 := ⟨free - 1, by omega⟩
    have := zero_enough h hr k (by omega)
    rw [FrameParser.many, Parser.many, exec_bind, exec_bind, this]
  · cases free with
    | zero => exact ⟨w, rfl⟩
    | succ k =>
      obtain ⟨w1, e⟩ := zero_overflows h hq hr k (by omega)
      refine ⟨w1, ?_⟩
      unfold Overflows
      rw [FrameParser.many, exec_bind, e]

/-- **C106 (`many1`).** If the parser succeeds, then `k` more times, and then fails, `many1` needs `n + 3 + k` frames. -/
theorem C106_many1_partial {n : Nat} {q : FrameParser σ α} {p : Parser σ α} (h : EnoughFrames n q p) {w w1 w' : σ}
    {inp mid rest : Remaining} {v : α} {vs : List α} (h1 : Succeeds p w inp v mid w1) (hr : Repeats p w1 mid vs rest w') (free : Nat)
    (hf : n + 3 + vs.length ≤ free) : ((FrameParser.many1 q) free inp).exec w = ((Parser.many1 p) inp).exec w := by
  obtain ⟨k, rfl⟩ : ∃ k, free = k + 1 := ⟨free - 1, by omega⟩
  have := zero_enough h hr k (by omega)
  have e1 : (p inp).exec w = some (.ok (.ok (v, mid)), w1) := h1
  rw [FrameParser.many1, Parser.many1, exec_bind, exec_bind, run_enough h (by omega), e1]
  simp only
  rw [exec_bind, exec_bind, this]

/-- **C106 (no stack is large enough).** Whatever the number of frames: there are characters such that `any_of` of them raises
`RecursionError` on every text, a string such that its `pstring` raises on the string itself, and a text on which `many` raises. -/
theorem C106_no_stack (free : Nat) (w : σ) :
    (∃ c s q, (FrameParser.anyOf (σ := σ) (c :: s)).exec w = (.ok q, w) ∧
      ∀ text, (q.call free text).exec w = some (.error .recursionError, w)) ∧
    (∃ s, ((FrameParser.pstring (σ := σ) s).call free s).exec w = some (.error .recursionError, w)) ∧
    (∃ c text w', ((FrameParser.many (FrameParser.pchar (σ := σ) [c])).call free text).exec w = some (.error .recursionError, w')) := by
  match free with
  | 0 =>
    obtain ⟨q, p, e1, -, -⟩ := C106_anyOf_partial (σ := σ) 'a' [] w
    exact ⟨⟨'a', [], q, e1, fun _ => rfl⟩, ⟨[], rfl⟩, ⟨'a', [], w, rfl⟩⟩
  | 1 =>
    obtain ⟨q, p, e1, -, -⟩ := C106_anyOf_partial (σ := σ) 'a' [] w
    exact ⟨⟨'a', [], q, e1, fun _ => rfl⟩, ⟨[], rfl⟩, ⟨'a', [], w, rfl⟩⟩
  | free + 2 =>
    refine ⟨?_, ?_, ?_⟩
    · obtain ⟨q, p, e1, -, h⟩ := C106_anyOf_partial (σ := σ) 'a' (List.replicate (free + 1) 'a') w
      exact ⟨'a', _, q, e1, fun text => call_overflows ((h free).2 (by simp; omega) (text, 0) w)⟩
    · refine ⟨List.replicate (free + 1) 'a', call_overflows ?_⟩
      refine (C106_pstring_partial 'a' (List.replicate free 'a') free _ 0 w).1 ?_
      have := agreement_replicate 'a' (free + 1) (free + 1) 0 (by omega)
      rw [List.replicate_succ] at this ⊢
      rw [this, List.length_replicate]
      omega
    · have hr := repeats_replicate (σ := σ) 'a' free w free (Nat.le_refl _)
      rw [Nat.sub_self] at hr
      obtain ⟨w1, e⟩ := (C106_many_partial (n := 0) (q := .pchar ['a']) (const_enough _) (fun _ _ _ h => absurd h (Nat.not_lt_zero _)) hr free).2
        (by simp)
      exact ⟨'a', _, w1, call_overflows e⟩

/-- **C106 is false of the code**: a string that is long enough cannot be read with its own parser. -/
theorem C106_full_statement_false : ¬ C106_full_statement := by
  rintro ⟨free, _, h, _⟩
  obtain ⟨s, e⟩ := (C106_no_stack (σ := Unit) free ()).2.1
  rw [h s s, Parser.call, exec_bind,
    show ((Parser.pstring s) (s, 0)).exec () = _ from Lemmas.Parser.pstring_succ s s 0 () (by simp)] at e
  cases e

/-- C106 is not vacuous: `any_of("ab")` is run with a frame too few, and with enough; a number with a sign on any stack. -/
example (inp : Remaining) : Overflows (σ := Unit) (.orElse (.pchar ['a']) (.pchar ['b'])) 1 inp () () := rfl
example (inp : Remaining) : (FrameParser.orElse (σ := Unit) (.pchar ['a']) (.pchar ['b'])) 2 inp = Parser.orElse (.pchar ['a']) (.pchar ['b']) inp := rfl
example : SameParser (σ := Unit) (.andThen (.opt (.pchar ['-'])) (.many1 (.orElse (.pchar ['0']) (.pchar ['1']))))
    (.andThen (.opt (.pchar ['-'])) (.many1 (.orElse (.pchar ['0']) (.pchar ['1'])))) :=
  .andThen (.opt (.pchar _)) (.many1 (.orElse (.pchar _) (.pchar _)))
example : agreement "abc".toList "xabd".toList 1 = 2 := by decide

end Expression.Props
