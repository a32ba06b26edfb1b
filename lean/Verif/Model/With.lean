import Verif.Model.Disposable

/-!
# Model of the context managers of `expression/system/disposable.py`

The `with` statement on a disposable, in one thread.  (Threads and tasks: `Model/Disposable.lean`.)
-/

namespace Expression

namespace With

variable {σ α : Type}

/-- Python's `with` statement (Language Reference, "The with statement") for a manager whose `__exit__` never returns a true value: the body runs if `__enter__`
returns, then `__exit__` runs, then an exception of the body goes on unless `__exit__` raised another one. `async with` is the same with awaits.
[Python] -/
def withStmt (enter : PyD σ Unit) (exit : PyD σ Unit) (body : PyD σ α) : PyD σ α := fun s =>
  match enter.exec s with
  | none => none
  | some (.error e, s1) => some (.error e, s1)
  | some (.ok _, s1) =>
    match body.exec s1 with
    | none => none
    | some (r, s2) =>
      match exit.exec s2 with
      | none => none
      | some (.error e, s3) => some (.error e, s3)
      | some (.ok _, s3) => some (r, s3)

/-- disposable.py:47-50 and 110-113: an `AnonymousDisposable` (or `AsyncAnonymousDisposable`) in its world.
`runs` is not in the code: how often the action was started. -/
structure State (σ : Type) where
  world : σ
  isDisposed : Bool
  runs : Nat

/-- disposable.py:52-61 in one thread, and 115-120 in one task.  Simplified: the action does not use the object itself
(`Model/Disposable.lean` lets it). -/
def dispose (action : PyD σ Unit) : PyD (State σ) Unit := fun s =>
  if s.isDisposed then some (.ok (), s)
  else match action.exec s.world with
    | none => none
    | some (r, w) => some (r, ⟨w, true, s.runs + 1⟩)

/-- disposable.py:63-66, 122-125 -/
def enter : PyD (State σ) Unit := fun s =>
  if s.isDisposed then some (.error .objectDisposed, s) else some (.ok (), s)

/-- disposable.py:27-35 (`return False`), 84-91 (returns `None`) -/
def exit (action : PyD σ Unit) : PyD (State σ) Unit := dispose action

/-- Code of a user around one disposable object `d`. [model: code of a user] -/
inductive Prog (σ : Type) where
  /-- anything that does not use `d` -/
  | act (p : PyD σ Unit)
  /-- `d.dispose()` -/
  | dispose
  /-- one after the other -/
  | seq (p q : Prog σ)
  /-- `with d: body` -/
  | block (body : Prog σ)
  /-- `try: p` `except: handler` -/
  | attempt (p handler : Prog σ)

/-- what the code does if the action of `d` is `action` [model: code of a user] -/
def Prog.run (action : PyD σ Unit) : Prog σ → PyD (State σ) Unit
  | .act p => fun s => (p.exec s.world).map (fun r => (r.1, { s with world := r.2 }))
  | .dispose => With.dispose action
  | .seq p q => do
    p.run action
    q.run action
  | .block body => withStmt With.enter (With.exit action) (body.run action)
  | .attempt p handler => fun s =>
    match (p.run action).exec s with
    | some (.error _, s') => (handler.run action).exec s'
    | r => r

/-- disposable.py:80-82: `AsyncCompositeDisposable` does not override `__aenter__`, so entering never raises -/
def compositeEnter : PyD σ Unit := pure ()

end With

end Expression
