import Verif.Model.Py

/-!
# Model of `expression/core/aiotools.py`
-/

namespace Expression.Aio

variable {V : Type}

/-! ## `from_continuations` (aiotools.py:32-62) -/

/-- state of an `asyncio.Future` [Python: asyncio] -/
inductive Future (V : Type) where
  | pending
  | result (v : V)
  | exception (e : PyErr)
  | cancelled
deriving DecidableEq

/-- `future.done()` [Python: asyncio] -/
def Future.done : Future V → Bool
  | .pending => false
  | _ => true

/-- what can happen to the future: a call of one of the three continuations, or whoever awaits it cancels it [aiotools.py:49-59, and asyncio] -/
inductive Call (V : Type) where
  | done (v : V)
  | error (e : PyErr)
  | cancel
  | awaiterCancelled
deriving DecidableEq

/-- `done`, `error` and `cancel` (aiotools.py:49-59); `asyncio.Future.cancel` does nothing to a future that is done.
Simplified: `set_exception` rejects `StopIteration`, which is left out. -/
def call (f : Future V) : Call V → Future V
  | .done v => if !f.done then .result v else f
  | .error e => if !f.done then .exception e else f
  | .cancel => if !f.done then .cancelled else f
  | .awaiterCancelled => if !f.done then .cancelled else f

/-- aiotools.py:47-62: `callback` makes the calls `now` before it returns (or raises `raised`); `later` are made afterwards -/
def fromContinuations (now : List (Call V)) (raised : Option PyErr) (later : List (Call V)) : Except PyErr (Future V) :=
  let future := now.foldl call .pending
  match raised with
  | some e => .error e
  | none => .ok (later.foldl call future)

/-! ## `start` and `start_immediate` (aiotools.py:71-117) -/

/-- An awaitable, as the event loop sees it: it has effects until it awaits something (`step`; it goes on with `next` when
that is there, or with `onCancel` when the task was cancelled meanwhile, which throws `CancelledError` into it), and ends
by returning, raising, or letting `CancelledError` through. [Python: coroutines] -/
inductive Comp (V : Type) where
  | ret (v : V)
  | fail (e : PyErr)
  | cancelled
  | step (effect : Nat) (next onCancel : Comp V)

/-- how an awaitable ended [Python: coroutines] -/
inductive Outcome (V : Type) where
  | returned (v : V)
  | failed (e : PyErr)
  | cancelled
deriving DecidableEq

/-- An `asyncio.Task` running `runner()`.  `resumed` says whether the loop has run it yet; `cancelRequested` that `cancel()` was
called and not delivered yet; `comp` is what is left of the computation. [Python: asyncio, for aiotools.py:71-94] -/
structure TaskState (V : Type) where
  comp : Comp V
  resumed : Bool
  cancelRequested : Bool
  outcome : Option (Outcome V)

/-- the argument `token` of `start` [aiotools.py:71, 97] -/
inductive Tok where
  /-- `None` -/
  | without
  /-- the token of the `CancellationTokenSource` number `source` -/
  | of (source : Nat)
  /-- `CancellationToken.none()` (cancellation.py:51-53): the token of a source of its own, which is cancelled -/
  | never
deriving DecidableEq

/-- The event loop's tasks, `__running_tasks` (aiotools.py:68, indices into `tasks`), the `CancellationTokenSource`s that were
cancelled, for each source the tasks whose cancelling was registered with its token, and the effects that took place, with the
task that had them. -/
structure World (V : Type) where
  tasks : List (TaskState V)
  running : List Nat
  cancelled : List Nat
  listeners : List (Nat × Nat)
  log : List (Nat × Nat)

/-- nothing has happened yet [model] -/
def World.init : World V := ⟨[], [], [], [], []⟩

/-- `start` (aiotools.py:71-94); `start_immediate` (97-117) has the same body.  `create_task` only schedules the task.  With a
token (`if token` holds for every token), `token.register` raises if the source was cancelled (cancellation.py:88-91), after the
task was created. -/
def start (w : World V) (computation : Comp V) (token : Tok) : Except PyErr Unit × World V :=
  let task := w.tasks.length
  let w := { w with tasks := w.tasks ++ [⟨computation, false, false, none⟩], running := w.running ++ [task] }
  match token with
  | .without => (.ok (), w)
  | .never => (.error .objectDisposed, w)
  | .of source =>
    if source ∈ w.cancelled then (.error .objectDisposed, w)
    else (.ok (), { w with listeners := w.listeners ++ [(source, task)] })

/-- `task.cancel()`: a request, unless the task is done [Python: asyncio] -/
def requestCancel (t : TaskState V) : TaskState V := if t.outcome.isNone then { t with cancelRequested := true } else t

/-- `CancellationTokenSource.cancel` (cancellation.py:71-86): calls every listener once -/
def cancel (w : World V) (source : Nat) : World V :=
  if source ∈ w.cancelled then w
  else { w with
    cancelled := source :: w.cancelled
    tasks := w.tasks.mapIdx (fun i t => if (source, i) ∈ w.listeners then requestCancel t else t) }

/-- `runner` (aiotools.py:81-84) when the computation has ended: `__running_tasks.remove(task)` only after it returned a value.
Simplified: `set.remove` of an absent task would raise `KeyError`; `List.erase` does nothing then. -/
def finish (w : World V) (i : Nat) (t : TaskState V) : World V :=
  match t.comp with
  | .ret v => { w with tasks := w.tasks.set i { t with outcome := some (.returned v) }, running := w.running.erase i }
  | .fail e => { w with tasks := w.tasks.set i { t with outcome := some (.failed e) } }
  | .cancelled => { w with tasks := w.tasks.set i { t with outcome := some .cancelled } }
  | .step effect _ _ => { w with tasks := w.tasks.set i t, log := w.log ++ [(i, effect)] }

/-- The event loop runs task `i` until it awaits or ends.  A task that was cancelled before its first run ends without running
any of its coroutine. [Python: asyncio] -/
def resume (w : World V) (i : Nat) : World V :=
  match w.tasks[i]? with
  | none => w
  | some t =>
    if t.outcome.isSome then w
    else if !t.resumed then
      if t.cancelRequested then
        { w with tasks := w.tasks.set i { t with resumed := true, cancelRequested := false, outcome := some .cancelled } }
      else finish w i { t with resumed := true }
    else match t.comp with
      | .step _ next onCancel =>
        if t.cancelRequested then finish w i { t with comp := onCancel, cancelRequested := false }
        else finish w i { t with comp := next }
      | _ => w

/-- what can happen, in any order [model: the event loop] -/
inductive Event (V : Type) where
  | start (c : Comp V) (token : Tok)
  | cancel (source : Nat)
  | resume (i : Nat)

/-- one event [model: the event loop] -/
def step (w : World V) : Event V → World V
  | .start c token => (start w c token).2
  | .cancel source => cancel w source
  | .resume i => resume w i

/-- the events in turn [model: the event loop] -/
def run (es : List (Event V)) : World V := es.foldl step .init

/-- `asyncio.CancelledError` as an exception [Python: asyncio] -/
def cancelledError : PyErr := .user 0

/-- `run_synchronously` (aiotools.py:120-126): awaits the computation in a loop of its own, without cancelling -/
def runSynchronously : Comp V → Except PyErr V
  | .ret v => .ok v
  | .fail e => .error e
  | .cancelled => .error cancelledError
  | .step _ next _ => runSynchronously next

end Expression.Aio
