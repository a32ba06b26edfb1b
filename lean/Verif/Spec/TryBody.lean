import Verif.Model.TryBody
import Verif.Spec.Monadic

/-!
# What a body with `try` and `with` statements should do

`block` runs a body as if `x = yield v` were `x = v`, and `x = yield from m` (`await m`) either `x = ` the value of `m`, or `raise EffectError(m)`.
There is no generator and nothing is suspended: a `try` or `with` statement runs its block and then goes on according to how it was left.
-/

namespace Expression.Spec

variable {σ α ε T : Type}

/-- The way out of a block that an exception takes: `PyErr.effectError` is an `EffectError` with the payload `Nothing`. -/
def exceptionWay : PyErr → Way α ε
  | .effectError => .effect (.opt none)
  | e => .raised e

/-- `ys` are the values that `yield` gave so far (with `awaits`, `fromOpt` and `fromRes` are not `yield from` but `await`).  The result are those values and the
way in which the block was left; exceptions are a way too, so `block` itself raises nothing. -/
def block (awaits : Bool) (step : T → PyD σ (BlockStmt σ α ε T)) (t : T) (ys : List (Obj α)) : PyD σ (List (Obj α) × Way α ε) := do
  match ← attempt (step t) with
  | .error e => pure (ys, exceptionWay e)
  | .ok (.leave x) => pure (ys, x)
  | .ok (.yield_ v rest) => block awaits step (rest v) (ys ++ [v])
  | .ok (.fromOpt (some v) rest) => block awaits step (rest v) (if awaits then ys else ys ++ [v])
  | .ok (.fromOpt none _) => pure (ys, .effect (.opt none))
  | .ok (.fromRes (.ok v) rest) => block awaits step (rest v) (if awaits then ys else ys ++ [v])
  | .ok (.fromRes (.error e) _) => pure (ys, .effect (.res (.error e)))
  | .ok (.try_ inner after) => do
    let (ys, x) ← block awaits step inner ys
    block awaits step (after x) ys
  | .ok (.with_ enter inner exit rest) => do
    match ← attempt enter with
    | .error e => pure (ys, exceptionWay e)
    | .ok _ => do
      let (ys, x) ← block awaits step inner ys
      match ← attempt exit with
      | .error e => pure (ys, exceptionWay e)
      | .ok _ =>
        match x with
        | .done => block awaits step rest ys
        | x => pure (ys, x)
partial_fixpoint

/-- How a body left in this way ended for the builder, or what it raised.  The end of a body is `return None`; in an asynchronous body `return` takes no value.
`PyErr.effectError` is `EffectError(Nothing)`; a `StopIteration` that leaves a generator becomes a `RuntimeError` (PEP 479). -/
def ended (awaits : Bool) : Way α ε → Except PyErr (End α ε)
  | .done => .ok (.returned .none)
  | .returned v => .ok (.returned (if awaits then .none else v))
  | .effect m => .ok (.effect m)
  | .raised .effectError => .ok (.effect (.opt none))
  | .raised .stopIteration => .error (.failwith "generator raised StopIteration")
  | .raised e => .error e

/-! ## the log of entries and exits -/

/-- what `with` statements do: `__enter__` of the manager number `r` returned, or `__exit__` was called -/
inductive Mark where
  | entered (r : Nat)
  | exited (r : Nat)

/-- Every entry has its exit, after everything that was entered in between was left: innermost first. -/
inductive Nested : List Mark → Prop
  | nil : Nested []
  | pair {r b c} : Nested b → Nested c → Nested (.entered r :: (b ++ .exited r :: c))

/-- `log` is changed by `with` statements only: by `__enter__` of a manager, if it returns, and by every call of its `__exit__`. -/
structure Logs (log : σ → List Mark) (step : T → PyD σ (BlockStmt σ α ε T)) : Prop where
  plain : ∀ t w r w', (step t).exec w = some (r, w') → log w' = log w
  with_ : ∀ t w enter inner exit rest w', (step t).exec w = some (.ok (.with_ enter inner exit rest), w') → ∃ r,
    (∀ w w', enter.exec w = some (.ok (), w') → log w' = log w ++ [.entered r]) ∧
    (∀ w e w', enter.exec w = some (.error e, w') → log w' = log w) ∧
    (∀ w x w', exit.exec w = some (x, w') → log w' = log w ++ [.exited r])

/-! ## blocks that `Nothing` or an `Error` always ends -/

/-- As `block`, but `EffectError` is not an exception that a `try` statement could catch: it leaves all blocks, by way of the `__exit__` of the managers. -/
def strictBlock (awaits : Bool) (step : T → PyD σ (BlockStmt σ α ε T)) (t : T) (ys : List (Obj α)) : PyD σ (List (Obj α) × Way α ε) := do
  match ← attempt (step t) with
  | .error e => pure (ys, exceptionWay e)
  | .ok (.leave x) => pure (ys, x)
  | .ok (.yield_ v rest) => strictBlock awaits step (rest v) (ys ++ [v])
  | .ok (.fromOpt (some v) rest) => strictBlock awaits step (rest v) (if awaits then ys else ys ++ [v])
  | .ok (.fromOpt none _) => pure (ys, .effect (.opt none))
  | .ok (.fromRes (.ok v) rest) => strictBlock awaits step (rest v) (if awaits then ys else ys ++ [v])
  | .ok (.fromRes (.error e) _) => pure (ys, .effect (.res (.error e)))
  | .ok (.try_ inner after) => do
    let (ys, x) ← strictBlock awaits step inner ys
    match x with
    | .effect m => pure (ys, .effect m)
    | x => strictBlock awaits step (after x) ys
  | .ok (.with_ enter inner exit rest) => do
    match ← attempt enter with
    | .error e => pure (ys, exceptionWay e)
    | .ok _ => do
      let (ys, x) ← strictBlock awaits step inner ys
      match ← attempt exit with
      | .error e => pure (ys, exceptionWay e)
      | .ok _ =>
        match x with
        | .done => strictBlock awaits step rest ys
        | x => pure (ys, x)
partial_fixpoint

/-- no `try` statement of the body has a clause for `EffectError` (`except Exception` would be one), nor a `finally` -/
def PassesOn (step : T → PyD σ (BlockStmt σ α ε T)) : Prop :=
  ∀ t w inner after w', (step t).exec w = some (.ok (.try_ inner after), w') → ∀ m, step (after (.effect m)) = pure (.leave (.effect m))

end Expression.Spec
