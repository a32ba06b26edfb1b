import Verif.Model.Parser

/-!
# Running parsers on a bounded stack

The combinators of `expression/extra/parser.py` once more, with the number of frames that are free on the interpreter's stack.  Every
parser that is run inside another one occupies a frame for `Parser.run` (34-36) and one for the function `run` of the combinator, until
it has returned; CPython raises `RecursionError` when no frame is free.  Simplified: calls that return before another parser is run
(mappers, `Ok`, `Error`, `Block.cons`) occupy no frames here; in CPython they need a few more, at the end.
-/

namespace Expression

/-- parser.py:21-28: the function wrapped by `Parser`, called with the given number of free frames (its own frame is not among them) -/
abbrev FrameParser (σ α : Type) : Type := Nat → Remaining → PyD σ (Res (α × Remaining) String)

namespace FrameParser

variable {σ ρ α β γ δ : Type}

/-- parser.py:34-36 `run`: a frame for `run` and one for `self._run` -/
def run (self : FrameParser σ α) (free : Nat) (input : Remaining) : PyD σ (Res (α × Remaining) String) :=
  match free with
  | free + 2 => self free input
  | _ => PyD.raise .recursionError

/-- parser.py:30-32 `__call__`: a frame for it and one for `self._run` -/
def call (self : FrameParser σ α) (free : Nat) (input : Str) : PyD σ (Res α String) :=
  match free with
  | free + 2 => do Res.map (fun x => pure x.1) (← self free (input, 0))
  | _ => PyD.raise .recursionError

/-- parser.py:95-110: runs no other parser -/
def pchar (char : Str) : FrameParser σ Str := fun _ => Parser.pchar char

/-- parser.py:218-222: runs no other parser -/
def preturn (x : α) : FrameParser σ α := fun _ => Parser.preturn x

/-- parser.py:225-229: runs no other parser -/
def fail (error : String) : FrameParser σ α := fun _ => Parser.fail error

/-- parser.py:113-142 -/
def andThen (p1 : FrameParser σ α) (p2 : FrameParser σ β) : FrameParser σ (α × β) := fun free input => do
  match ← p1.run free input with
  | .error e => pure (.error e)
  | .ok (value1, remaining1) =>
    match ← p2.run free remaining1 with
    | .error e => pure (.error e)
    | .ok (value2, remaining2) => pure (.ok ((value1, value2), remaining2))

/-- parser.py:145-156 -/
def orElse (p1 p2 : FrameParser σ α) : FrameParser σ α := fun free input => do
  match ← p1.run free input with
  | .ok r => pure (.ok r)
  | .error _ => p2.run free input

/-- parser.py:159-160: `reduce` nests to the left, so that the first parser is the innermost one -/
def choice (listOfParsers : Block (FrameParser σ α)) : Py ρ (FrameParser σ α) :=
  listOfParsers.reduce (fun a b => pure (orElse a b))

/-- parser.py:163-169 -/
def anyOf (listOfChars : Str) : Py ρ (FrameParser σ Str) :=
  choice ⟨listOfChars.map (fun c => pchar [c])⟩

/-- parser.py:177-194 -/
def map (mapper : α → PyD σ β) (parser : FrameParser σ α) : FrameParser σ β := fun free input => do
  match ← parser.run free input with
  | .ok (value, remaining) =>
    let newValue ← mapper value
    pure (.ok (newValue, remaining))
  | .error e => pure (.error e)

/-- parser.py:207-215, for pairs -/
def starmap (mapper : α → β → PyD σ γ) (parser : FrameParser σ (α × β)) : FrameParser σ γ :=
  map (fun values => mapper values.1 values.2) parser

/-- parser.py:232-242 -/
def apply (fP : FrameParser σ (α → PyD σ β)) (xP : FrameParser σ α) : FrameParser σ β :=
  map (fun fx => fx.1 fx.2) (andThen fP xP)

/-- parser.py:245-247 -/
def lift2 (fn : α → PyD σ (β → PyD σ γ)) (xP : FrameParser σ α) (yP : FrameParser σ β) : FrameParser σ γ :=
  apply (apply (preturn fn) xP) yP

/-- parser.py:250-267; the frames for making the parser are in `Parser.sequenceWithin` -/
def sequence : List (FrameParser σ α) → FrameParser σ (Block α)
  | [] => preturn Block.empty
  | head :: tail => lift2 (fun h => pure (fun t => pure (t.cons h))) head (sequence tail)

/-- parser.py:270-277 -/
def pstring (stringInput : Str) : FrameParser σ Str :=
  map (fun x => pure x.value.flatten) (sequence (stringInput.map (fun c => pchar [c])))

/-- parser.py:280-293: called with the given number of free frames; the call of itself occupies one -/
def parseZeroOrMore (parser : FrameParser σ α) : Nat → Remaining → PyD σ (Block α × Remaining)
  | 0, _ => PyD.raise .recursionError
  | free + 1, input => do
    match ← parser.run (free + 1) input with
    | .ok (firstValue, inputAfterFirstParse) =>
      let (subsequentValues, remainingInput) ← parseZeroOrMore parser free inputAfterFirstParse
      pure (subsequentValues.cons firstValue, remainingInput)
    | .error _ => pure (Block.empty, input)

/-- parser.py:296-302 -/
def many (parser : FrameParser σ α) : FrameParser σ (Block α) := fun free input =>
  match free with
  | 0 => PyD.raise .recursionError
  | free + 1 => do
    let ok ← parseZeroOrMore parser free input
    pure (.ok ok)

/-- parser.py:305-320 -/
def many1 (parser : FrameParser σ α) : FrameParser σ (Block α) := fun free input => do
  match ← parser.run free input with
  | .ok (firstValue, inputAfterFirstParse) =>
    match free with
    | 0 => PyD.raise .recursionError
    | free + 1 => do
      let (subsequentValues, remainingInput) ← parseZeroOrMore parser free inputAfterFirstParse
      pure (.ok (subsequentValues.cons firstValue, remainingInput))
  | .error e => pure (.error e)

/-- parser.py:353-378 -/
def thenIgnore (p1 : FrameParser σ α) (p2 : FrameParser σ β) : FrameParser σ α :=
  map (fun value => pure value.1) (andThen p1 p2)

/-- parser.py:381-403 -/
def ignoreThen (p1 : FrameParser σ α) (p2 : FrameParser σ β) : FrameParser σ β :=
  map (fun value => pure value.2) (andThen p1 p2)

/-- parser.py:323-330 -/
def sepBy1 (p : FrameParser σ α) (sep : FrameParser σ β) : FrameParser σ (Block α) :=
  let sepThenP := ignoreThen sep p
  starmap (fun p plist => pure (plist.cons p)) (andThen p (many sepThenP))

/-- parser.py:333-335 -/
def sepBy (p : FrameParser σ α) (sep : FrameParser σ β) : FrameParser σ (Block α) :=
  orElse (sepBy1 p sep) (preturn Block.empty)

/-- parser.py:342-350 -/
def opt (p : FrameParser σ α) : FrameParser σ (Option α) :=
  orElse (map (fun a => pure (some a)) p) (preturn none)

/-- parser.py:473-492 -/
def between (popen : FrameParser σ α) (pclose : FrameParser σ β) (p : FrameParser σ γ) : FrameParser σ γ :=
  thenIgnore (ignoreThen popen p) pclose

/-- parser.py:503-516 -/
def bind (f : α → PyD σ (FrameParser σ β)) (p : FrameParser σ α) : FrameParser σ β := fun free input => do
  match ← p.run free input with
  | .ok (value1, remainingInput) =>
    let p2 ← f value1
    p2.run free remainingInput
  | .error err => pure (.error err)

/-- parser.py:519-526 -/
def ignore (p : FrameParser σ α) : FrameParser σ Unit := map (fun _ => pure ()) p

end FrameParser

end Expression
