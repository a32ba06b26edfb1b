import Verif.Model.Block
import Verif.Model.Option

/-!
# Model of `expression/extra/parser.py`

A Python `str` is the list of its code points (`Str`; lone surrogates, which `Char` does not have, are left out).  A position is a natural number: running a
parser from a negative position, which the code does not exclude, is left out.  Parser names (`__repr__`) are left out here; `ParserText` has them.
Mappers and binders may have effects, raise or not return.  Python's recursion limit is left out, except in
`manyWithin`: `many` and `sequence` recurse once per element, so that in CPython a long enough text makes them raise `RecursionError`.
-/

namespace Expression

/-- the code points of a `str` [Python] -/
abbrev Str : Type := List Char

/-- parser.py:17 `Remaining`: the whole text and the position in it -/
abbrev Remaining : Type := Str × Nat

/-- parser.py:21-36: the function wrapped by `Parser`; its result is `ParseResult` (18) -/
abbrev Parser (σ α : Type) : Type := Remaining → PyD σ (Res (α × Remaining) String)

namespace Parser

variable {σ ρ α β γ δ : Type}

/-- parser.py:30-32 `__call__` -/
def call (self : Parser σ α) (input : Str) : PyD σ (Res α String) := do
  Res.map (fun x => pure x.1) (← self (input, 0))

/-- parser.py:95-110 (`char` is a `str` of any length) -/
def pchar (char : Str) : Parser σ Str := fun (remaining, pos) =>
  match remaining[pos]? with
  | none => pure (.error "no more input")
  | some first =>
    if [first] = char then pure (.ok (char, (remaining, pos + 1)))
    else pure (.error ("Expecting '" ++ String.ofList char ++ "'. Got '" ++ String.ofList [first] ++ "'"))

/-- parser.py:113-142.  The arguments are in the order of the method, 50-51: first `p1`, then `p2`. -/
def andThen (p1 : Parser σ α) (p2 : Parser σ β) : Parser σ (α × β) := fun input => do
  match ← p1 input with
  | .error e => pure (.error e)
  | .ok (value1, remaining1) =>
    match ← p2 remaining1 with
    | .error e => pure (.error e)
    | .ok (value2, remaining2) => pure (.ok ((value1, value2), remaining2))

/-- parser.py:145-156 -/
def orElse (p1 p2 : Parser σ α) : Parser σ α := fun input => do
  match ← p1 input with
  | .ok r => pure (.ok r)
  | .error _ => p2 input

/-- parser.py:159-160; `Block.reduce` raises for an empty block.  (`ρ` is the world in which the parser is made, `σ` that in which it runs.) -/
def choice (listOfParsers : Block (Parser σ α)) : Py ρ (Parser σ α) :=
  listOfParsers.reduce (fun a b => pure (orElse a b))

/-- parser.py:163-169 -/
def anyOf (listOfChars : Str) : Py ρ (Parser σ Str) :=
  choice ⟨listOfChars.map (fun c => pchar [c])⟩

/-- A module-level constant: the parser made when the module is loaded.  (If making it raised, the module could not be imported;
here the error is moved into the parser.) [parser.py:172-174, 339, 427, 466-470] -/
def const (p : Py Unit (Parser σ α)) : Parser σ α :=
  match p.exec () with
  | (.ok q, _) => q
  | (.error e, _) => fun _ => PyD.raise e

/-- `string.digits` [Python] -/
def stringDigits : Str := ['0', '1', '2', '3', '4', '5', '6', '7', '8', '9']

/-- `string.whitespace`: space, tab, newline, carriage return, vertical tab, form feed [Python] -/
def stringWhitespace : Str := [' ', '\t', '\n', '\r', Char.ofNat 0x0b, Char.ofNat 0x0c]

/-- parser.py:174 -/
def parseDigit : Parser σ Str := const (anyOf stringDigits)

/-- parser.py:177-194 -/
def map (mapper : α → PyD σ β) (parser : Parser σ α) : Parser σ β := fun input => do
  match ← parser input with
  | .ok (value, remaining) =>
    let newValue ← mapper value
    pure (.ok (newValue, remaining))
  | .error e => pure (.error e)

/-- parser.py:207-215, for pairs -/
def starmap (mapper : α → β → PyD σ γ) (parser : Parser σ (α × β)) : Parser σ γ :=
  map (fun values => mapper values.1 values.2) parser

/-- parser.py:218-222 -/
def preturn (x : α) : Parser σ α := fun input => pure (.ok (x, input))

/-- parser.py:225-229 -/
def fail (error : String) : Parser σ α := fun _ => pure (.error error)

/-- parser.py:232-242 -/
def apply (fP : Parser σ (α → PyD σ β)) (xP : Parser σ α) : Parser σ β :=
  map (fun fx => fx.1 fx.2) (andThen fP xP)

/-- parser.py:245-247 -/
def lift2 (fn : α → PyD σ (β → PyD σ γ)) (xP : Parser σ α) (yP : Parser σ β) : Parser σ γ :=
  apply (apply (preturn fn) xP) yP

/-- parser.py:250-267.  `case _` cannot happen for a `Block`. -/
def sequence : List (Parser σ α) → Parser σ (Block α)
  | [] => preturn Block.empty
  | head :: tail => lift2 (fun h => pure (fun t => pure (t.cons h))) head (sequence tail)

/-- parser.py:270-277; `"".join` is concatenation -/
def pstring (stringInput : Str) : Parser σ Str :=
  map (fun x => pure x.value.flatten) (sequence (stringInput.map (fun c => pchar [c])))

/-- parser.py:250-267 with `frames` free frames on the interpreter's stack: making the parser calls `sequence` once per parser of
the list, each call inside the previous one.  Simplified: the frames of `lift2` and of the class `Block` are not counted. -/
def sequenceWithin (frames : Nat) (parserList : List (Parser σ α)) : Py ρ (Parser σ (Block α)) :=
  match frames, parserList with
  | 0, _ => Py.raise .recursionError
  | _ + 1, [] => pure (preturn Block.empty)
  | frames + 1, head :: tail => do
    let tail' ← sequenceWithin frames tail
    pure (lift2 (fun h => pure (fun t => pure (t.cons h))) head tail')

/-- parser.py:270-277 with a bounded stack -/
def pstringWithin (frames : Nat) (stringInput : Str) : Py ρ (Parser σ Str) := do
  let p ← sequenceWithin frames (stringInput.map (fun c => pchar [c]))
  pure (map (fun x => pure x.value.flatten) p)

/-- parser.py:280-293 -/
def parseZeroOrMore (parser : Parser σ α) (input : Remaining) : PyD σ (Block α × Remaining) := do
  match ← parser input with
  | .ok (firstValue, inputAfterFirstParse) =>
    let (subsequentValues, remainingInput) ← parseZeroOrMore parser inputAfterFirstParse
    pure (subsequentValues.cons firstValue, remainingInput)
  | .error _ => pure (Block.empty, input)
partial_fixpoint

/-- parser.py:296-302 -/
def many (parser : Parser σ α) : Parser σ (Block α) := fun input => do
  let ok ← parseZeroOrMore parser input
  pure (.ok ok)

/-- parser.py:280-293 again, with `frames` calls of itself left before Python raises `RecursionError`.
Simplified: the frames that the parser itself needs are not counted. -/
def parseZeroOrMoreWithin (parser : Parser σ α) : Nat → Remaining → PyD σ (Block α × Remaining)
  | 0, _ => PyD.raise .recursionError
  | frames + 1, input => do
    match ← parser input with
    | .ok (firstValue, inputAfterFirstParse) =>
      let (subsequentValues, remainingInput) ← parseZeroOrMoreWithin parser frames inputAfterFirstParse
      pure (subsequentValues.cons firstValue, remainingInput)
    | .error _ => pure (Block.empty, input)

/-- parser.py:296-302 with a bounded stack -/
def manyWithin (frames : Nat) (parser : Parser σ α) : Parser σ (Block α) := fun input => do
  let ok ← parseZeroOrMoreWithin parser frames input
  pure (.ok ok)

/-- parser.py:305-320 -/
def many1 (parser : Parser σ α) : Parser σ (Block α) := fun input => do
  match ← parser input with
  | .ok (firstValue, inputAfterFirstParse) =>
    let (subsequentValues, remainingInput) ← parseZeroOrMore parser inputAfterFirstParse
    pure (.ok (subsequentValues.cons firstValue, remainingInput))
  | .error e => pure (.error e)

/-- parser.py:353-378, in the order of the method (56-57): first `p1`, then `p2`, keep `p1`'s result -/
def thenIgnore (p1 : Parser σ α) (p2 : Parser σ β) : Parser σ α :=
  map (fun value => pure value.1) (andThen p1 p2)

/-- parser.py:381-403, in the order of the method (53-54): first `p1`, then `p2`, keep `p2`'s result -/
def ignoreThen (p1 : Parser σ α) (p2 : Parser σ β) : Parser σ β :=
  map (fun value => pure value.2) (andThen p1 p2)

/-- parser.py:323-330 -/
def sepBy1 (p : Parser σ α) (sep : Parser σ β) : Parser σ (Block α) :=
  let sepThenP := ignoreThen sep p
  starmap (fun p plist => pure (plist.cons p)) (andThen p (many sepThenP))

/-- parser.py:333-335 -/
def sepBy (p : Parser σ α) (sep : Parser σ β) : Parser σ (Block α) :=
  orElse (sepBy1 p sep) (preturn Block.empty)

/-- parser.py:339 -/
def digits : Parser σ (Block Str) := many1 parseDigit

/-- parser.py:342-350 -/
def opt (p : Parser σ α) : Parser σ (Option α) :=
  orElse (map (fun a => pure (some a)) p) (preturn none)

/-- Python's `int(s)`.  Simplified: only for strings of ASCII digits; signs, blanks, underscores, other scripts' digits (all accepted by Python)
and the limit on the number of digits (`sys.set_int_max_str_digits`, 4300 by default) are left out: `pint` passes ASCII digits only. -/
def pyInt (s : Str) : PyD σ Int :=
  if s ≠ [] ∧ s.all Char.isDigit then pure (Nat.ofDigitChars 10 s 0 : Nat)
  else PyD.raise (.valueError "invalid literal for int() with base 10")

/-- parser.py:408-415 -/
def resultToInt (sign : Option Str) (digitList : Block Str) : PyD σ Int := do
  let ret ← pyInt digitList.value.flatten
  pure (if sign.isSome then ret * (-1) else ret)

/-- parser.py:406-427 -/
def pint : Parser σ Int := starmap resultToInt (andThen (opt (pchar ['-'])) digits)

/-- Python's `int(s)` with the limit on the number of digits that the interpreter runs with (`sys.set_int_max_str_digits`; 4300 by default,
0 for none): a longer text raises `ValueError`. -/
def pyIntLimited (limit : Nat) (s : Str) : PyD σ Int :=
  if limit ≠ 0 ∧ limit < s.length then PyD.raise (.valueError "Exceeds the limit for integer string conversion") else pyInt s

/-- parser.py:408-415 under that limit -/
def resultToIntLimited (limit : Nat) (sign : Option Str) (digitList : Block Str) : PyD σ Int := do
  let ret ← pyIntLimited limit digitList.value.flatten
  pure (if sign.isSome then ret * (-1) else ret)

/-- parser.py:406-427 under that limit -/
def pintLimited (limit : Nat) : Parser σ Int := starmap (resultToIntLimited limit) (andThen (opt (pchar ['-'])) digits)

/-- parser.py:432-447.  Floating point is left abstract: `float` is Python's `float(str)`, `neg` is `* -1`. -/
def resultToFloat {F : Type} (float : Str → PyD σ F) (neg : F → F) (sd : Option Str × Block Str) (digits2 : Option (Block Str)) : PyD σ F := do
  let digits1 := match digits2 with
    | some d => sd.2.value ++ (d.cons ['.']).value
    | none => sd.2.value
  let ret ← float digits1.flatten
  pure (if sd.1.isSome then neg ret else ret)

/-- parser.py:430-466 -/
def pfloat {F : Type} (float : Str → PyD σ F) (neg : F → F) : Parser σ F :=
  starmap (resultToFloat float neg) (andThen (andThen (opt (pchar ['-'])) digits) (opt (ignoreThen (pchar ['.']) digits)))

/-- parser.py:469-470 -/
def whitespace : Parser σ (Block Str) := many1 (const (anyOf stringWhitespace))

/-- parser.py:473-492.  The method (84-85) is `p.between(p2, p3) = between(p2)(p3)(p)`. -/
def between (popen : Parser σ α) (pclose : Parser σ β) (p : Parser σ γ) : Parser σ γ :=
  thenIgnore (ignoreThen popen p) pclose

/-- parser.py:503-516 -/
def bind (f : α → PyD σ (Parser σ β)) (p : Parser σ α) : Parser σ β := fun input => do
  match ← p input with
  | .ok (value1, remainingInput) =>
    let p2 ← f value1
    p2 remainingInput
  | .error err => pure (.error err)

/-- parser.py:519-526 -/
def ignore (p : Parser σ α) : Parser σ Unit := map (fun _ => pure ()) p

end Parser

end Expression
