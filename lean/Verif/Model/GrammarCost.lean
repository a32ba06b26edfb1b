import Verif.Model.Grammar

/-!
# Counting how often the parsers of a grammar are run

The grammars of `Model/Grammar.lean` once more; around each of their parsers is one that a user may write with the class `Parser`
(`expression/extra/parser.py`:21-36), which counts:

    def counted(p):
        def run(input):
            global runs
            runs += 1
            return p.run(input)
        return Parser(run, "counted")

The combinators are those of `Model/Parser.lean`, unchanged; the world is the number of runs so far.
-/

namespace Expression.Grammar

open Expression

variable {N α : Type}

/-- the parser above, made with parser.py:21-36 -/
def counted (p : Parser Nat α) : Parser Nat α := fun input runs => p input (runs + 1)

/-- parser.py:270-277 `pstring`, each of the parsers of its characters counted -/
def countedText (s : Str) : Parser Nat Str :=
  Parser.map (fun x => pure x.value.flatten) (Parser.sequence (s.map (fun c => counted (Parser.pchar [c]))))

/-- The parser of an expression, `make` of `Model/Grammar.lean` (parser.py:95-526), with the parser of each expression inside it counted.
Simplified: a combinator that is written with others (`sep_by` with `or_else`, `sep_by1`, ...) counts once. -/
def makeCounted (rules : N → Parser Nat Tree) : Exp N → Parser Nat Tree
  | .empty => counted (Parser.preturn .unit)
  | .fail => counted (Parser.fail "fail")
  | .char c => counted (Parser.map (fun s => pure (.text s)) (Parser.pchar [c]))
  | .text s => counted (Parser.map (fun s => pure (.text s)) (countedText s))
  | .seq a b => counted (Parser.starmap (fun x y => pure (.pair x y)) (Parser.andThen (makeCounted rules a) (makeCounted rules b)))
  | .left a b => counted (Parser.thenIgnore (makeCounted rules a) (makeCounted rules b))
  | .right a b => counted (Parser.ignoreThen (makeCounted rules a) (makeCounted rules b))
  | .alt a b => counted (Parser.orElse (makeCounted rules a) (makeCounted rules b))
  | .opt a =>
    counted (Parser.map (fun o => pure (match o with | some t => .some t | none => .none)) (Parser.opt (makeCounted rules a)))
  | .star a => counted (Parser.map (fun b => pure (.list b.value)) (Parser.many (makeCounted rules a)))
  | .plus a => counted (Parser.map (fun b => pure (.list b.value)) (Parser.many1 (makeCounted rules a)))
  | .sepBy1 a sep => counted (Parser.map (fun b => pure (.list b.value)) (Parser.sepBy1 (makeCounted rules a) (makeCounted rules sep)))
  | .sepBy a sep => counted (Parser.map (fun b => pure (.list b.value)) (Parser.sepBy (makeCounted rules a) (makeCounted rules sep)))
  | .between o c a => counted (Parser.between (makeCounted rules o) (makeCounted rules c) (makeCounted rules a))
  | .act f a => counted (Parser.map (fun t => pure (f t)) (makeCounted rules a))
  | .rule n => counted (Parser.bind (fun _ => pure (rules n)) (Parser.preturn ()))

section

open Lean.Order Lemmas.ParserMono

theorem mono_counted {δ : Type} [PartialOrder δ] (p : δ → Parser Nat α) (hp : monotone p) : monotone fun x => counted (p x) :=
  fun x y h inp runs => hp x y h inp (runs + 1)

theorem makeCounted_mono {δ : Type} [PartialOrder δ] (r : δ → N → Parser Nat Tree) (hr : monotone r) (e : Exp N) :
    monotone fun x => makeCounted (r x) e := by
  induction e with
  | empty | fail | char | text => exact monotone_const _
  | seq a b ha hb => exact mono_counted _ (mono_map _ _ (mono_andThen _ _ ha hb))
  | left a b ha hb => exact mono_counted _ (mono_map _ _ (mono_andThen _ _ ha hb))
  | right a b ha hb => exact mono_counted _ (mono_map _ _ (mono_andThen _ _ ha hb))
  | alt a b ha hb => exact mono_counted _ (mono_orElse _ _ ha hb)
  | opt a ha => exact mono_counted _ (mono_map _ _ (mono_orElse _ _ (mono_map _ _ ha) (monotone_const _)))
  | star a ha => exact mono_counted _ (mono_map _ _ (mono_many _ ha))
  | plus a ha => exact mono_counted _ (mono_map _ _ (mono_many1 _ ha))
  | sepBy1 a s ha hs =>
    exact mono_counted _ (mono_map _ _ (mono_map _ _ (mono_andThen _ _ ha (mono_many _ (mono_map _ _ (mono_andThen _ _ hs ha))))))
  | sepBy a s ha hs =>
    exact mono_counted _ (mono_map _ _ (mono_orElse _ _ (mono_map _ _ (mono_andThen _ _ ha (mono_many _ (mono_map _ _ (mono_andThen _ _ hs ha)))))
      (monotone_const _)))
  | between o c a ho hc ha => exact mono_counted _ (mono_map _ _ (mono_andThen _ _ (mono_map _ _ (mono_andThen _ _ ho ha)) hc))
  | act f a ha => exact mono_counted _ (mono_map _ _ ha)
  | rule n => exact mono_counted _ (mono_call _ _ (monotone_apply n r hr))

/-- Nothing of the model: Lean asks for this before it accepts the recursion of `rulesCounted`. -/
@[partial_fixpoint_monotone]
theorem makeCounted_mono_at {δ : Type} [PartialOrder δ] (r : δ → N → Parser Nat Tree) (hr : monotone r) (e : Exp N) (inp : Remaining) :
    monotone fun x => makeCounted (r x) e inp := mono_iff.1 (makeCounted_mono r hr e) inp

end

/-- `rule(n)` of the grammar `g`, counted [model: the grammar of a user] -/
def rulesCounted (g : N → Exp N) (n : N) (input : Remaining) : PyD Nat (Res (Tree × Remaining) String) :=
  makeCounted (fun m => rulesCounted g m) (g n) input
partial_fixpoint

/-- the parser of an expression of the grammar, counted [model: the grammar of a user] -/
def parserCounted (g : N → Exp N) (e : Exp N) : Parser Nat Tree := makeCounted (rulesCounted g) e

end Expression.Grammar
