import Verif.Model.Threads
import Verif.Model.PyD

/-!
# Model of `expression/system/disposable.py`

`AnonymousDisposable` under any number of threads, one atomic action at a time; `AsyncAnonymousDisposable` under any number of tasks of one event loop, which
switch only where a task awaits; `AsyncCompositeDisposable`.
-/

namespace Expression

open Threads

namespace Disposable

/-- Where a call of `dispose` stands, disposable.py:52-61. -/
inductive Frame where
  /-- line 55, about to take the lock -/
  | lock
  /-- line 56, in the `with` block -/
  | test
  /-- lines 57-58 -/
  | set
  /-- leaving the `with` block; the local variable `dispose` -/
  | unlock (dispose : Bool)
  /-- line 60 -/
  | decide (dispose : Bool)
  /-- line 61, in the action, which may itself call `dispose` or enter -/
  | action
deriving DecidableEq

/-- what can be seen from outside [model: what happened so far] -/
inductive Event where
  /-- thread `t` called `dispose` -/
  | began (t : Nat)
  /-- thread `t` started the action -/
  | ran (t : Nat)
  /-- a call of `dispose` by thread `t` returned (or raised what the action raised) -/
  | ended (t : Nat)
  /-- thread `t` entered the object -/
  | entered (t : Nat)
  /-- thread `t` got `ObjectDisposedException` on entering -/
  | refused (t : Nat)
deriving DecidableEq

/-- disposable.py:47-50: the object; the open calls of every thread; what happened so far -/
structure State where
  isDisposed : Bool
  owner : Option Nat
  stack : Nat → List Frame
  log : List Event

/-- a new object [disposable.py:47-50] -/
def init : State := ⟨false, none, fun _ => [], []⟩

/-- what a thread can do: call `dispose`, enter, or go on with the call it is in [disposable.py:52-66] -/
inductive Act where
  | dispose
  | enter
  | go
deriving DecidableEq

/-- may this thread call something: it is in no call, or in the action [model] -/
def free : List Frame → Bool
  | [] => true
  | .action :: _ => true
  | _ => false

/-- One atomic action of thread `c.1`. [disposable.py:52-66] -/
def step (s : State) (c : Nat × Act) : Option State :=
  let t := c.1
  match c.2 with
  | .dispose =>
    if free (s.stack t) then some { s with stack := upd s.stack t (.lock :: s.stack t), log := s.log ++ [.began t] } else none
  | .enter => -- disposable.py:63-66
    if free (s.stack t) then
      if s.isDisposed then some { s with log := s.log ++ [.refused t] } else some { s with log := s.log ++ [.entered t] }
    else none
  | .go =>
    match s.stack t with
    | [] => none
    | .lock :: fs => if s.owner = none then some { s with owner := some t, stack := upd s.stack t (.test :: fs) } else none
    | .test :: fs =>
      if s.isDisposed then some { s with stack := upd s.stack t (.unlock false :: fs) }
      else some { s with stack := upd s.stack t (.set :: fs) }
    | .set :: fs => some { s with isDisposed := true, stack := upd s.stack t (.unlock true :: fs) }
    | .unlock d :: fs => some { s with owner := none, stack := upd s.stack t (.decide d :: fs) }
    | .decide d :: fs =>
      if d then some { s with stack := upd s.stack t (.action :: fs), log := s.log ++ [.ran t] }
      else some { s with stack := upd s.stack t fs, log := s.log ++ [.ended t] }
    | .action :: fs => some { s with stack := upd s.stack t fs, log := s.log ++ [.ended t] }

end Disposable

namespace AsyncDisposable

open Disposable (Event Act)

/-- disposable.py:110-113; `running t`: the number of calls in which task `t` awaits the action -/
structure State where
  isDisposed : Bool
  running : Nat → Nat
  log : List Event

/-- a new object [disposable.py:110-113] -/
def init : State := ⟨false, fun _ => 0, []⟩

/-- One uninterrupted stretch of task `c.1`, disposable.py:115-125.  `go` is the end of the action. -/
def step (s : State) (c : Nat × Act) : Option State :=
  let t := c.1
  match c.2 with
  | .dispose =>
    if s.isDisposed then some { s with log := s.log ++ [.began t, .ended t] }
    else some { isDisposed := true, running := upd s.running t (s.running t + 1), log := s.log ++ [.began t, .ran t] }
  | .enter => if s.isDisposed then some { s with log := s.log ++ [.refused t] } else some { s with log := s.log ++ [.entered t] }
  | .go => if s.running t = 0 then none else some { s with running := upd s.running t (s.running t - 1), log := s.log ++ [.ended t] }

/-- disposable.py:132-134, `AsyncCompositeDisposable.dispose_async` -/
def composite {σ : Type} : List (PyD σ Unit) → PyD σ Unit
  | [] => pure ()
  | d :: ds => do
    d
    composite ds

end AsyncDisposable

end Expression
