import Verif.Model.ParserText

/-! # How a parser was made -/

namespace Expression.Spec

open Expression

/-- The calls by which a parser was made: the functions that are not made of others (`then_ignore`, for instance, is `and_then` and `map`).
The functions given to `map` and `bind` are not part of it. -/
inductive Construction where
  | other
  | pchar (char : Str)
  | andThen (p1 p2 : Construction)
  | orElse (p1 p2 : Construction)
  | map (p : Construction)
  | preturn (text : Str)
  | fail (error : Str)
  | many (p : Construction)
  | many1 (p : Construction)
  | bind (p : Construction)
deriving DecidableEq

/-- `p` was made like this. -/
inductive MadeBy (σ : Type) : (α : Type) → Named σ α → Construction → Prop
  | other {α} (run : Parser σ α) : MadeBy σ α (Named.new run none) .other
  | pchar (char) : MadeBy σ Str (Named.pchar char) (.pchar char)
  | andThen {α β p1 p2 s1 s2} : MadeBy σ α p1 s1 → MadeBy σ β p2 s2 → MadeBy σ (α × β) (Named.andThen p1 p2) (.andThen s1 s2)
  | orElse {α p1 p2 s1 s2} : MadeBy σ α p1 s1 → MadeBy σ α p2 s2 → MadeBy σ α (Named.orElse p1 p2) (.orElse s1 s2)
  | map {α β p s} (mapper : α → PyD σ β) : MadeBy σ α p s → MadeBy σ β (Named.map mapper p) (.map s)
  | preturn {ρ α p w w' s} {strOf : α → PyD ρ Str} {x : α} : (strOf x).exec w = some (.ok s, w') →
      (Named.preturn strOf x).exec w = some (.ok p, w') → MadeBy σ α p (.preturn s)
  | fail {α} (error) : MadeBy σ α (Named.fail error) (.fail error)
  | many {α p s} : MadeBy σ α p s → MadeBy σ (Block α) (Named.many p) (.many s)
  | many1 {α p s} : MadeBy σ α p s → MadeBy σ (Block α) (Named.many1 p) (.many1 s)
  | bind {α β p s} (f : α → PyD σ (Named σ β)) : MadeBy σ α p s → MadeBy σ β (Named.bind f p) (.bind s)

namespace Construction

/-- the construction with `many` for `many1` -/
def manyForMany1 : Construction → Construction
  | andThen p1 p2 => andThen p1.manyForMany1 p2.manyForMany1
  | orElse p1 p2 => orElse p1.manyForMany1 p2.manyForMany1
  | map p => map p.manyForMany1
  | many p => many p.manyForMany1
  | many1 p => many p.manyForMany1
  | bind p => bind p.manyForMany1
  | s => s

/-- The characters of `pchar` are single ones, the texts of the values of `preturn` have no closing bracket, and the messages of `fail` no quote. -/
def Legible : Construction → Prop
  | pchar char => char.length = 1
  | andThen p1 p2 => p1.Legible ∧ p2.Legible
  | orElse p1 p2 => p1.Legible ∧ p2.Legible
  | map p => p.Legible
  | preturn text => ')' ∉ text
  | fail error => '"' ∉ error
  | many p => p.Legible
  | many1 p => p.Legible
  | bind p => p.Legible
  | other => True

/-- the number of calls, and of the characters in their arguments -/
def size : Construction → Nat
  | other => 1
  | pchar char => 1 + char.length
  | andThen p1 p2 => 1 + p1.size + p2.size
  | orElse p1 p2 => 1 + p1.size + p2.size
  | map p => 1 + p.size
  | preturn text => 1 + text.length
  | fail error => 1 + error.length
  | many p => 1 + p.size
  | many1 p => 1 + p.size
  | bind p => 1 + p.size

end Construction

variable {σ α : Type}

/-! ## parsers made one after the other -/

/-- A call that makes a parser of strings from parsers made before, which are given by their numbers. -/
inductive Make (σ : Type) where
  | pchar (char : Str)
  | fail (error : Str)
  | orElse (p1 p2 : Nat)
  | map (mapper : Str → PyD σ Str) (p : Nat)
  | bind (f : Str → PyD σ (Named σ Str)) (p : Nat)
  | thenIgnore (p1 p2 : Nat)
  | ignoreThen (p1 p2 : Nat)
  | between (popen pclose p : Nat)

/-- the parser with this number (there always is one, in a program that uses only parsers made before) -/
def parserAt (ps : List (Named σ Str)) (i : Nat) : Named σ Str := ps.getD i (Named.fail [])

/-- the parser that is made -/
def Make.result (ps : List (Named σ Str)) : Make σ → Named σ Str
  | pchar char => Named.pchar char
  | fail error => Named.fail error
  | orElse p1 p2 => Named.orElse (parserAt ps p1) (parserAt ps p2)
  | map mapper p => Named.map mapper (parserAt ps p)
  | bind f p => Named.bind f (parserAt ps p)
  | thenIgnore p1 p2 => Named.thenIgnore (parserAt ps p1) (parserAt ps p2)
  | ignoreThen p1 p2 => Named.ignoreThen (parserAt ps p1) (parserAt ps p2)
  | between popen pclose p => Named.between (parserAt ps popen) (parserAt ps pclose) (parserAt ps p)

/-- all parsers after the calls -/
def makeAll (ps : List (Named σ Str)) : List (Make σ) → List (Named σ Str)
  | [] => ps
  | m :: rest => makeAll (ps ++ [m.result ps]) rest

/-- the characters in the arguments of the call -/
def Make.letters : Make σ → Nat
  | pchar char => char.length
  | fail error => error.length
  | _ => 0

/-- the length of a program: the calls and the characters in their arguments -/
def programSize : List (Make σ) → Nat
  | [] => 0
  | m :: rest => 1 + m.letters + programSize rest

/-- the length of all texts -/
def textSize : List (Named σ α) → Nat
  | [] => 0
  | p :: ps => p.str.length + textSize ps

end Expression.Spec
