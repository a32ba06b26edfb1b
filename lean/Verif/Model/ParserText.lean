import Verif.Model.Parser

/-!
# The texts of parsers

`extra/parser.py` once more: every parser has a name, which is its `str` and `repr` and is made when the parser is made.
-/

namespace Expression

variable {σ ρ α β γ : Type}

/-- parser.py:21-28: what `Parser` wraps, and the name -/
structure Named (σ α : Type) where
  run : Parser σ α
  name : Str

namespace Named

/-- a string literal [Python] -/
@[irreducible] def lit (s : String) : Str := s.toList

/-- parser.py:26-28 -/
def new (run : Parser σ α) (name : Option Str) : Named σ α :=
  match name with
  | some name => if name.isEmpty then ⟨run, lit "parser"⟩ else ⟨run, name⟩
  | none => ⟨run, lit "parser"⟩

/-- parser.py:88-92 -/
def str (self : Named σ α) : Str := self.name

/-- parser.py:95-110 -/
def pchar (char : Str) : Named σ Str := new (Parser.pchar char) (some (lit "pchar('" ++ char ++ lit "')"))

/-- parser.py:113-142, in the order of the method (50-51).  The text has the second parser first, and no closing bracket. -/
def andThen (p1 : Named σ α) (p2 : Named σ β) : Named σ (α × β) :=
  new (Parser.andThen p1.run p2.run) (some (lit "and_then(" ++ p2.str ++ lit ", " ++ p1.str))

/-- parser.py:145-156.  The text has the second parser first, and no closing bracket. -/
def orElse (p1 p2 : Named σ α) : Named σ α :=
  new (Parser.orElse p1.run p2.run) (some (lit "or_else(" ++ p2.str ++ lit ", " ++ p1.str))

/-- parser.py:159-160 -/
def choice (listOfParsers : Block (Named σ α)) : Py ρ (Named σ α) := listOfParsers.reduce (fun a b => pure (orElse a b))

/-- parser.py:163-169 -/
def anyOf (listOfChars : Str) : Py ρ (Named σ Str) := choice ⟨listOfChars.map (fun c => pchar [c])⟩

/-- parser.py:177-194 -/
def map (mapper : α → PyD σ β) (parser : Named σ α) : Named σ β :=
  new (Parser.map mapper parser.run) (some (lit "map(A => B, " ++ parser.str ++ lit ")"))

/-- parser.py:218-222: the text of `x` is made, which may have effects or raise -/
def preturn (strOf : α → PyD ρ Str) (x : α) : PyD ρ (Named σ α) := do
  let s ← strOf x
  pure (new (Parser.preturn x) (some (lit "preturn(" ++ s ++ lit ")")))

/-- parser.py:225-229 -/
def fail (error : Str) : Named σ α := new (Parser.fail (String.ofList error)) (some (lit "fail(\"" ++ error ++ lit "\")"))

/-- parser.py:232-242 -/
def apply (fP : Named σ (α → PyD σ β)) (xP : Named σ α) : Named σ β := map (fun fx => fx.1 fx.2) (andThen fP xP)

/-- parser.py:245-247; `strOf` is `str` of functions -/
def lift2 (strOf : (α → PyD σ (β → PyD σ γ)) → PyD ρ Str) (fn : α → PyD σ (β → PyD σ γ)) (xP : Named σ α) (yP : Named σ β) : PyD ρ (Named σ γ) := do
  let f ← preturn strOf fn
  pure (apply (apply f xP) yP)

/-- parser.py:296-302 -/
def many (parser : Named σ α) : Named σ (Block α) := new (Parser.many parser.run) (some (lit "many(" ++ parser.str ++ lit ")"))

/-- parser.py:305-320: the text is that of `many` -/
def many1 (parser : Named σ α) : Named σ (Block α) := new (Parser.many1 parser.run) (some (lit "many(" ++ parser.str ++ lit ")"))

/-- parser.py:353-378, in the order of the method (56-57) -/
def thenIgnore (p1 : Named σ α) (p2 : Named σ β) : Named σ α := map (fun value => pure value.1) (andThen p1 p2)

/-- parser.py:381-403, in the order of the method (53-54) -/
def ignoreThen (p1 : Named σ α) (p2 : Named σ β) : Named σ β := map (fun value => pure value.2) (andThen p1 p2)

/-- parser.py:323-330 -/
def sepBy1 (p : Named σ α) (sep : Named σ β) : Named σ (Block α) :=
  map (fun values => pure (Block.cons values.2 values.1)) (andThen p (many (ignoreThen sep p)))

/-- parser.py:473-492 -/
def between (popen : Named σ β) (pclose : Named σ γ) (p : Named σ α) : Named σ α := thenIgnore (ignoreThen popen p) pclose

/-- parser.py:503-516; the text has no closing bracket -/
def bind (f : α → PyD σ (Named σ β)) (p : Named σ α) : Named σ β :=
  new (Parser.bind (fun x => do let q ← f x; pure q.run) p.run) (some (lit "bind(A => Parser[B], " ++ p.str))

/-- parser.py:519-526 -/
def ignore (p : Named σ α) : Named σ Unit := map (fun _ => pure ()) p

end Named

end Expression
