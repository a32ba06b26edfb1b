import Verif.Model.ParserStack
import Verif.Lemmas.ParserMono

/-!
# Grammars written with the combinators of `expression/extra/parser.py`

How a user writes a grammar: every rule is a function that makes a parser, and where a rule uses another one (or itself), it does so
with `bind`, which calls the function only when the parser gets there:

    def rule(n):                      # for every rule n of the grammar
        return make(body of n)

    make(rule n)  =  preturn(None).bind(lambda _: rule(n))
    make(a, b)    =  make(a).and_then(make(b))      and so on, see `make` below

`Parser` (unbounded stack) and `FrameParser` (a stack with so many free frames) are those of `Model/Parser.lean` and
`Model/ParserStack.lean`.
-/

namespace Expression.Grammar

open Expression

/-- what the parsers of a grammar give back [model: values of a user] -/
inductive Tree where
  | unit
  | text (s : Str)
  | pair (a b : Tree)
  | list (ts : List Tree)
  | none
  | some (t : Tree)

/-- The right side of a rule; `N` are the names of the rules. [parser.py:95-526, one constructor for each combinator] -/
inductive Exp (N : Type) where
  /-- `preturn` -/
  | empty
  /-- `fail` -/
  | fail
  /-- `pchar` -/
  | char (c : Char)
  /-- `pstring` -/
  | text (s : Str)
  /-- `and_then` -/
  | seq (a b : Exp N)
  /-- `then_ignore`: the value of the first -/
  | left (a b : Exp N)
  /-- `ignore_then`: the value of the second -/
  | right (a b : Exp N)
  /-- `or_else` -/
  | alt (a b : Exp N)
  /-- `opt` -/
  | opt (a : Exp N)
  /-- `many` -/
  | star (a : Exp N)
  /-- `many1` -/
  | plus (a : Exp N)
  /-- `sep_by1` -/
  | sepBy1 (a sep : Exp N)
  /-- `sep_by` -/
  | sepBy (a sep : Exp N)
  /-- `a.between(o, c)` -/
  | between (o c a : Exp N)
  /-- `map`, with a function that returns -/
  | act (f : Tree → Tree) (a : Exp N)
  /-- another rule, by `bind` -/
  | rule (n : N)

variable {σ N : Type}

/-- The parser of an expression, given those of the rules.  Each case is the combinator named at the constructor (parser.py:95-526); the
values are made into trees by `map` (177-194). -/
def make (rules : N → Parser σ Tree) : Exp N → Parser σ Tree
  | .empty => Parser.preturn .unit
  | .fail => Parser.fail "fail"
  | .char c => Parser.map (fun s => pure (.text s)) (Parser.pchar [c])
  | .text s => Parser.map (fun s => pure (.text s)) (Parser.pstring s)
  | .seq a b => Parser.starmap (fun x y => pure (.pair x y)) (Parser.andThen (make rules a) (make rules b))
  | .left a b => Parser.thenIgnore (make rules a) (make rules b)
  | .right a b => Parser.ignoreThen (make rules a) (make rules b)
  | .alt a b => Parser.orElse (make rules a) (make rules b)
  | .opt a => Parser.map (fun o => pure (match o with | some t => .some t | none => .none)) (Parser.opt (make rules a))
  | .star a => Parser.map (fun b => pure (.list b.value)) (Parser.many (make rules a))
  | .plus a => Parser.map (fun b => pure (.list b.value)) (Parser.many1 (make rules a))
  | .sepBy1 a sep => Parser.map (fun b => pure (.list b.value)) (Parser.sepBy1 (make rules a) (make rules sep))
  | .sepBy a sep => Parser.map (fun b => pure (.list b.value)) (Parser.sepBy (make rules a) (make rules sep))
  | .between o c a => Parser.between (make rules o) (make rules c) (make rules a)
  | .act f a => Parser.map (fun t => pure (f t)) (make rules a)
  | .rule n => Parser.bind (fun _ => pure (rules n)) (Parser.preturn ())

/-- The same on a bounded stack.  Simplified: the frames that calls of the combinators occupy while a parser is made (also in the function given to
`bind`) are not counted, as in `Model/ParserStack.lean`. [parser.py:95-526] -/
def makeWithin (rules : N → FrameParser σ Tree) : Exp N → FrameParser σ Tree
  | .empty => FrameParser.preturn .unit
  | .fail => FrameParser.fail "fail"
  | .char c => FrameParser.map (fun s => pure (.text s)) (FrameParser.pchar [c])
  | .text s => FrameParser.map (fun s => pure (.text s)) (FrameParser.pstring s)
  | .seq a b => FrameParser.starmap (fun x y => pure (.pair x y)) (FrameParser.andThen (makeWithin rules a) (makeWithin rules b))
  | .left a b => FrameParser.thenIgnore (makeWithin rules a) (makeWithin rules b)
  | .right a b => FrameParser.ignoreThen (makeWithin rules a) (makeWithin rules b)
  | .alt a b => FrameParser.orElse (makeWithin rules a) (makeWithin rules b)
  | .opt a => FrameParser.map (fun o => pure (match o with | some t => .some t | none => .none)) (FrameParser.opt (makeWithin rules a))
  | .star a => FrameParser.map (fun b => pure (.list b.value)) (FrameParser.many (makeWithin rules a))
  | .plus a => FrameParser.map (fun b => pure (.list b.value)) (FrameParser.many1 (makeWithin rules a))
  | .sepBy1 a sep => FrameParser.map (fun b => pure (.list b.value)) (FrameParser.sepBy1 (makeWithin rules a) (makeWithin rules sep))
  | .sepBy a sep => FrameParser.map (fun b => pure (.list b.value)) (FrameParser.sepBy (makeWithin rules a) (makeWithin rules sep))
  | .between o c a => FrameParser.between (makeWithin rules o) (makeWithin rules c) (makeWithin rules a)
  | .act f a => FrameParser.map (fun t => pure (f t)) (makeWithin rules a)
  | .rule n => FrameParser.bind (fun _ => pure (rules n)) (FrameParser.preturn ())

section

open Lean.Order Lemmas.ParserMono

theorem make_mono {δ : Type} [PartialOrder δ] (r : δ → N → Parser σ Tree) (hr : monotone r) (e : Exp N) : monotone fun x => make (r x) e := by
  induction e with
  | empty | fail | char | text => exact monotone_const _
  | seq a b ha hb => exact mono_map _ _ (mono_andThen _ _ ha hb)
  | left a b ha hb => exact mono_map _ _ (mono_andThen _ _ ha hb)
  | right a b ha hb => exact mono_map _ _ (mono_andThen _ _ ha hb)
  | alt a b ha hb => exact mono_orElse _ _ ha hb
  | opt a ha => exact mono_map _ _ (mono_orElse _ _ (mono_map _ _ ha) (monotone_const _))
  | star a ha => exact mono_map _ _ (mono_many _ ha)
  | plus a ha => exact mono_map _ _ (mono_many1 _ ha)
  | sepBy1 a s ha hs => exact mono_map _ _ (mono_map _ _ (mono_andThen _ _ ha (mono_many _ (mono_map _ _ (mono_andThen _ _ hs ha)))))
  | sepBy a s ha hs =>
    exact mono_map _ _ (mono_orElse _ _ (mono_map _ _ (mono_andThen _ _ ha (mono_many _ (mono_map _ _ (mono_andThen _ _ hs ha)))))
      (monotone_const _))
  | between o c a ho hc ha => exact mono_map _ _ (mono_andThen _ _ (mono_map _ _ (mono_andThen _ _ ho ha)) hc)
  | act f a ha => exact mono_map _ _ ha
  | rule n => exact mono_call _ _ (monotone_apply n r hr)

/-- Nothing of the model: Lean asks for this before it accepts the recursion of `rules`. -/
@[partial_fixpoint_monotone]
theorem make_mono_at {δ : Type} [PartialOrder δ] (r : δ → N → Parser σ Tree) (hr : monotone r) (e : Exp N) (inp : Remaining) :
    monotone fun x => make (r x) e inp := mono_iff.1 (make_mono r hr e) inp

end

/-- `rule(n)` of the grammar `g` [model: the grammar of a user, made with parser.py:95-526] -/
def rules (g : N → Exp N) (n : N) (input : Remaining) : PyD σ (Res (Tree × Remaining) String) :=
  make (fun m => rules g m) (g n) input
partial_fixpoint

/-- the parser of an expression of the grammar [model: the grammar of a user, made with parser.py:95-526] -/
def parser (g : N → Exp N) (e : Exp N) : Parser σ Tree := make (rules g) e

/-- `rule(n)` on a bounded stack, with at most `depth` rules inside each other [model: the grammar of a user, made with parser.py:95-526] -/
def rulesDeep (g : N → Exp N) : Nat → N → FrameParser σ Tree
  | 0, _ => fun _ _ => PyD.raise .recursionError
  | depth + 1, n => makeWithin (rulesDeep g depth) (g n)

/-- `rule(n)` on a bounded stack.  A rule inside another one occupies frames, so that the rules are not deeper inside each other than frames are
free; `Lemmas.Grammar.rulesWithin_eq` is the equation `rule(n) = make(body of n)`. [model: the grammar of a user, made with parser.py:95-526] -/
def rulesWithin (g : N → Exp N) (n : N) : FrameParser σ Tree := fun free => rulesDeep g (free + 1) n free

/-- the parser of an expression of the grammar, on a bounded stack [model: the grammar of a user, made with parser.py:95-526] -/
def parserWithin (g : N → Exp N) (e : Exp N) : FrameParser σ Tree := makeWithin (rulesWithin g) e

end Expression.Grammar
