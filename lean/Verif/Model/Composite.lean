import Verif.Model.Aio
import Verif.Model.Threads

/-!
# Model of asynchronous disposables in several tasks (`expression/system/disposable.py`)

`AsyncDisposable.create` (disposable.py:94-95) makes a part from an action, `AsyncDisposable.composite` (98-99) a composite of parts
and composites.  `Model/Disposable.lean` has one part used by many tasks, and one composite in one task; here are any number of
composites, nested and with parts in common, disposed by any number of tasks.
-/

namespace Expression.Composite

open Threads (upd)
open Aio (Comp Outcome)

/-- disposable.py:109-113 (`AsyncAnonymousDisposable`, number `k`) and 128-130 (`AsyncCompositeDisposable`) -/
inductive Tree where
  | part (k : Nat)
  | composite (disposables : List Tree)

mutual
/-- the parts in the order in which the loops of `AsyncCompositeDisposable.dispose_async` (disposable.py:132-134) reach them -/
def Tree.parts : Tree → List Nat
  | .part k => [k]
  | .composite ts => Tree.allParts ts

/-- the parts of several disposables [disposable.py:132-134] -/
def Tree.allParts : List Tree → List Nat
  | [] => []
  | t :: ts => t.parts ++ Tree.allParts ts
end

/-- where a task that awaits `dispose_async()` stands [disposable.py:115-134] -/
inductive Phase where
  /-- the event loop has not run it yet -/
  | fresh
  /-- it awaits something inside the action of part `k`, which will go on as `next`, or as `onCancel` if the task is cancelled -/
  | awaiting (k : Nat) (next onCancel : Comp Unit)
  | over (o : Outcome Unit)

/-- a task that runs `disposable.dispose_async()`; `rest` are the parts that it has still to come to [disposable.py:115-134] -/
structure Task where
  disposable : Tree
  rest : List Nat
  phase : Phase
  cancelRequested : Bool

/-- `_is_disposed` of the parts and the tasks.  Not in the code: `begun` has an entry (part, task) for each time that an action was
started, `returned` an entry for each time that one has returned. [disposable.py:110-113] -/
structure World where
  isDisposed : Nat → Bool
  tasks : List Task
  begun : List (Nat × Nat)
  returned : List Nat

/-- nothing has happened yet [model] -/
def World.init : World := ⟨fun _ => false, [], [], []⟩

/-- Task `i` goes through the parts that are left until it awaits something or ends: `dispose_async` of a composite
(disposable.py:132-134) and of a part (115-120).  `actions k` is the action of part `k`.  Simplified: an action does not use the
disposables itself. -/
def advance (actions : Nat → Comp Unit) (i : Nat) : List Nat → World → World × Phase × List Nat
  | [], w => (w, .over (.returned ()), [])
  | k :: rest, w =>
    if w.isDisposed k then advance actions i rest w
    else
      let w := { w with isDisposed := upd w.isDisposed k true, begun := w.begun ++ [(k, i)] }
      match actions k with
      | .ret _ => advance actions i rest { w with returned := w.returned ++ [k] }
      | .fail e => (w, .over (.failed e), rest)
      | .cancelled => (w, .over .cancelled, rest)
      | .step _ next onCancel => (w, .awaiting k next onCancel, rest)

/-- Task `i` goes on inside the action of part `k`, of which `c` is left. [disposable.py:115-120] -/
def goOn (actions : Nat → Comp Unit) (i k : Nat) (c : Comp Unit) (rest : List Nat) (w : World) : World × Phase × List Nat :=
  match c with
  | .ret _ => advance actions i rest { w with returned := w.returned ++ [k] }
  | .fail e => (w, .over (.failed e), rest)
  | .cancelled => (w, .over .cancelled, rest)
  | .step _ next onCancel => (w, .awaiting k next onCancel, rest)

/-- store what became of task `i` [model: the event loop] -/
def store (i : Nat) (t : Task) (r : World × Phase × List Nat) : World :=
  { r.1 with tasks := r.1.tasks.set i { t with phase := r.2.1, rest := r.2.2, cancelRequested := false } }

/-- The event loop runs task `i` until it awaits or ends.  A task that was cancelled before its first run ends without running. [Python: asyncio] -/
def resume (actions : Nat → Comp Unit) (w : World) (i : Nat) : World :=
  match w.tasks[i]? with
  | none => w
  | some t =>
    match t.phase with
    | .fresh =>
      if t.cancelRequested then store i t (w, .over .cancelled, t.rest)
      else store i t (advance actions i t.rest w)
    | .awaiting k next onCancel => store i t (goOn actions i k (if t.cancelRequested then onCancel else next) t.rest w)
    | .over _ => w

/-- what can happen, in any order [model: the event loop] -/
inductive Event where
  /-- somebody makes a task of `disposable.dispose_async()` -/
  | dispose (disposable : Tree)
  /-- `task.cancel()` -/
  | cancel (i : Nat)
  | resume (i : Nat)

/-- one event [model: the event loop] -/
def step (actions : Nat → Comp Unit) (w : World) : Event → World
  | .dispose d => { w with tasks := w.tasks ++ [⟨d, d.parts, .fresh, false⟩] }
  | .cancel i => match w.tasks[i]? with
    | none => w
    | some t => { w with tasks := w.tasks.set i { t with cancelRequested := true } }
  | .resume i => resume actions w i

/-- the events in turn [model: the event loop] -/
def run (actions : Nat → Comp Unit) (es : List Event) : World := es.foldl (step actions) .init

end Expression.Composite
