import Verif.Model.Builder

/-!
# What builders should compute

`echo g` runs a generator in which every `yield` evaluates to the value it yields.  `optionBlock` and `resultBlock` are the monadic blocks
that bodies made of `x = yield from m` stand for.
-/

namespace Expression.Spec

variable {σ α ε S T : Type}

/-- how a body ends, when it does not raise -/
inductive End (α ε : Type) where
  | returned (v : Obj α)
  | effect (m : Eff α ε)

/-- run on from state `s`, the `yield` there evaluating to `v`; `ys` are the values yielded so far -/
def echoFrom (g : Gen σ α ε S) (s : S) (v : Obj α) (ys : List (Obj α)) : PyD σ (List (Obj α) × End α ε) := do
  match ← g.next s v with
  | .yielded y s' => echoFrom g s' y (ys ++ [y])
  | .returned v => pure (ys, .returned v)
  | .effect m => pure (ys, .effect m)
partial_fixpoint

/-- Run the whole body; the values it yielded, and how it ended. -/
def echo (g : Gen σ α ε S) : PyD σ (List (Obj α) × End α ε) := echoFrom g g.start .none []

/-- `x = yield from o; rest` is `o.bind(lambda x: rest)` and `return v` is `Some(v)`; nothing else occurs in a block of options -/
def optionBlock (step : T → PyD σ (Stmt α ε T)) (t : T) : PyD σ (Option (Obj α)) := do
  match ← step t with
  | .ret v => pure (some v)
  | .fromOpt (some x) rest => optionBlock step (rest x)
  | .fromOpt none _ => pure none
  | _ => PyD.raise (.typeError "not a block of options")
partial_fixpoint

/-- the same for results -/
def resultBlock (step : T → PyD σ (Stmt α ε T)) (t : T) : PyD σ (Res (Obj α) ε) := do
  match ← step t with
  | .ret v => pure (.ok v)
  | .fromRes (.ok x) rest => resultBlock step (rest x)
  | .fromRes (.error e) _ => pure (.error e)
  | _ => PyD.raise (.typeError "not a block of results")
partial_fixpoint

/-- The statements of the body satisfy `ok`, and it raises neither `EffectError` nor `StopIteration` by itself. -/
structure BodyOk (ok : Stmt α ε T → Prop) (step : T → PyD σ (Stmt α ε T)) : Prop where
  stmt : ∀ t w st w', (step t).exec w = some (.ok st, w') → ok st
  effect : ∀ t w w', (step t).exec w ≠ some (.error .effectError, w')
  stop : ∀ t w w', (step t).exec w ≠ some (.error .stopIteration, w')

/-- `return v` with `v` not `None`, or `yield from` an option -/
def OptionStmt : Stmt α ε T → Prop
  | .ret v => v ≠ .none
  | .fromOpt _ _ => True
  | _ => False

/-- the same with `return None` allowed -/
def OptionStmtNone : Stmt α ε T → Prop
  | .ret _ => True
  | .fromOpt _ _ => True
  | _ => False

def ResultStmt : Stmt α ε T → Prop
  | .ret v => v ≠ .none
  | .fromRes _ _ => True
  | _ => False

/-- An asynchronous block: `x = await o; rest` is `o.bind(lambda x: rest)`, and the result is the last value yielded (`last`). -/
def asyncOptionBlock (step : T → PyD σ (Stmt α ε T)) (t : T) (last : Option (Obj α)) : PyD σ (Option (Obj α)) := do
  match ← step t with
  | .ret _ => pure last
  | .yield_ v rest => asyncOptionBlock step (rest v) (some v)
  | .fromOpt (some x) rest => asyncOptionBlock step (rest x) last
  | .fromOpt none _ => pure none
  | _ => PyD.raise (.typeError "not a block of options")
partial_fixpoint

/-- the same for results -/
def asyncResultBlock (step : T → PyD σ (Stmt α ε T)) (t : T) (last : Obj α) : PyD σ (Res (Obj α) ε) := do
  match ← step t with
  | .ret _ => pure (.ok last)
  | .yield_ v rest => asyncResultBlock step (rest v) v
  | .fromRes (.ok x) rest => asyncResultBlock step (rest x) last
  | .fromRes (.error e) _ => pure (.error e)
  | _ => PyD.raise (.typeError "not a block of results")
partial_fixpoint

/-- `return`, `yield` or `await` of an option -/
def AsyncOptionStmt : Stmt α ε T → Prop
  | .fromRes _ _ => False
  | _ => True

def AsyncResultStmt : Stmt α ε T → Prop
  | .fromOpt _ _ => False
  | _ => True

/-- the same without `yield` -/
def CoroutineStmt : Stmt α ε T → Prop
  | .fromOpt _ _ => True
  | .ret _ => True
  | _ => False

def CoroutineResultStmt : Stmt α ε T → Prop
  | .fromRes _ _ => True
  | .ret _ => True
  | _ => False

end Expression.Spec
