import Verif.Model.Builder

/-!
# Bodies of builders with `try` and `with` statements

`Model/Builder.lean` takes a body to be any generator.  Here is the generator that Python makes of a body in which `yield`, `yield from` and
`await` (of options and results) stand inside `try` and `with` statements: it remembers the statements that it is inside of while it is suspended,
and goes back to them when the block in them is left.  Local variables are part of the world.
-/

namespace Expression

variable {σ α ε T β : Type}

/-- How a block of statements is left: at its end, by `return v`, by `EffectError(m)` (core/error.py:4-9), or by another exception. -/
inductive Way (α ε : Type) where
  | done
  | returned (v : Obj α)
  | effect (m : Eff α ε)
  | raised (e : PyErr)

/-- An exception on its way; `PyErr.effectError` is an `EffectError` with the payload `Nothing`, as in `Gen.next`.
[Python: `try`, `with` and generators; the body is code of a user] -/
def Way.ofErr : PyErr → Way α ε
  | .effectError => .effect (.opt none)
  | e => .raised e

/-- One statement of a body, after the effects that lead to it. [Python: `try`, `with` and generators; the body is code of a user] -/
inductive BlockStmt (σ α ε T : Type) where
  /-- the block ends, or is left by `return` or `raise` -/
  | leave (x : Way α ε)
  /-- `x = yield v` -/
  | yield_ (v : Obj α) (rest : Obj α → T)
  /-- `x = yield from o`, in an asynchronous body `x = await o` -/
  | fromOpt (o : Option (Obj α)) (rest : Obj α → T)
  /-- the same for a result -/
  | fromRes (r : Res (Obj α) ε) (rest : Obj α → T)
  /-- `try: inner` with any `except`, `else` and `finally` clauses; `after x` is what they, and the statements behind them, do when `inner` is left by `x` -/
  | try_ (inner : T) (after : Way α ε → T)
  /-- `with cm: inner` (`async with`) and then `rest`, for a manager whose `__exit__` does not return a true value, as those of disposable.py:27-35, 84-91 -/
  | with_ (enter : PyD σ Unit) (inner : T) (exit : PyD σ Unit) (rest : T)

/-- a statement that the generator is inside of [Python: `try`, `with` and generators; the body is code of a user] -/
inductive Inside (σ α ε T : Type) where
  | try_ (after : Way α ε → T)
  | with_ (exit : PyD σ Unit) (rest : T)

/-- `try: p` with everything caught [Python: `try`, `with` and generators; the body is code of a user] -/
def attempt (p : PyD σ β) : PyD σ (Except PyErr β) := fun w =>
  match p.exec w with
  | none => none
  | some (r, w') => some (.ok r, w')

/-- A block is left by `x`: go out of the statements around it up to one where the body goes on, or out of the body.  An exception in
`__exit__` takes the place of the exception, or `return`, on its way. [Python: `try`, `with` and generators; the body is code of a user] -/
def unwind : Way α ε → List (Inside σ α ε T) → PyD σ (Way α ε ⊕ T × List (Inside σ α ε T))
  | x, [] => pure (.inl x)
  | x, .try_ after :: around => pure (.inr (after x, around))
  | x, .with_ exit rest :: around => do
    match ← attempt exit with
    | .error e => unwind (.ofErr e) around
    | .ok _ =>
      match x with
      | .done => pure (.inr (rest, around))
      | x => unwind x around

/-- where the generator can be stopped: before it started, or at a `yield`, inside of statements
[Python: `try`, `with` and generators; the body is code of a user] -/
inductive TryPos (σ α ε T : Type) where
  | start (t : T)
  | at_ (rest : Obj α → T) (around : List (Inside σ α ε T))

/-- The body is left for good: what the caller of `gen.send` sees.  The end of a body is a `return None`; an asynchronous generator has no other one.
[Python: `try`, `with` and generators; the body is code of a user] -/
def Way.out {S : Type} (awaits : Bool) : Way α ε → PyD σ (GenOut α ε S)
  | .done => pure (.returned .none)
  | .returned v => pure (.returned (if awaits then .none else v))
  | .effect m => pure (.effect m)
  | .raised e => PyD.raise e

/-- Run the generator from `t` up to its next `yield` or its end.  With `awaits` the body is an asynchronous one (see `asyncRun`): awaiting an
option or result does not suspend. [Python: `try`, `with` and generators; the body is code of a user] -/
def runBody (awaits : Bool) (step : T → PyD σ (BlockStmt σ α ε T)) (t : T) (around : List (Inside σ α ε T)) :
    PyD σ (GenOut α ε (TryPos σ α ε T)) := do
  match ← attempt (step t) with
  | .error e =>
    match ← unwind (.ofErr e) around with
    | .inl x => x.out awaits
    | .inr (t, around) => runBody awaits step t around
  | .ok (.leave x) =>
    match ← unwind x around with
    | .inl x => x.out awaits
    | .inr (t, around) => runBody awaits step t around
  | .ok (.yield_ v rest) => pure (.yielded v (.at_ rest around))
  | .ok (.fromOpt (some v) rest) => if awaits then runBody awaits step (rest v) around else pure (.yielded v (.at_ rest around))
  | .ok (.fromOpt none _) =>
    match ← unwind (.effect (.opt none)) around with
    | .inl x => x.out awaits
    | .inr (t, around) => runBody awaits step t around
  | .ok (.fromRes (.ok v) rest) => if awaits then runBody awaits step (rest v) around else pure (.yielded v (.at_ rest around))
  | .ok (.fromRes (.error e) _) =>
    match ← unwind (.effect (.res (.error e))) around with
    | .inl x => x.out awaits
    | .inr (t, around) => runBody awaits step t around
  | .ok (.try_ inner after) => runBody awaits step inner (.try_ after :: around)
  | .ok (.with_ enter inner exit rest) =>
    match ← attempt enter with
    | .error e =>
      match ← unwind (.ofErr e) around with
      | .inl x => x.out awaits
      | .inr (t, around) => runBody awaits step t around
    | .ok _ => runBody awaits step inner (.with_ exit rest :: around)
partial_fixpoint

/-- the generator (with `awaits`: the asynchronous generator) of a body [Python: `try`, `with` and generators; the body is code of a user] -/
def tryBody (awaits : Bool) (step : T → PyD σ (BlockStmt σ α ε T)) (t : T) : Gen σ α ε (TryPos σ α ε T) where
  start := .start t
  resume s v := match s with
    | .start t => runBody awaits step t []
    | .at_ rest around => runBody awaits step (rest v) around

end Expression
