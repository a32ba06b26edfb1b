import Verif.Model.Cancellation
import Verif.Model.Disposable

/-!
# Model of several sources and disposables whose callbacks use each other (`expression/system/cancellation.py`, `disposable.py`)

`n` sources and `m` disposables under any number of threads.  A callback is code of a user, which may call anything, or the method `cancel` of a source or `dispose` of a disposable
itself: `parent.token.register(child.cancel)` links the source `child` to `parent`.  Each source steps as in `Cancellation.Race`, each disposable as in `Disposable`.
-/

namespace Expression.Linked

open Threads
open Cancellation (Race.State Race.step Race.init)

variable {n m : Nat}

/-- what is registered as a callback (cancellation.py:48-49) or given as an action (disposable.py:37-43) -/
inductive Callback (n m : Nat) where
  /-- a function of the user; it may call anything, and may raise an `Exception` -/
  | user
  /-- `source.cancel` (cancellation.py:71-72) of source `j` -/
  | cancel (j : Fin n)
  /-- `dispose` of disposable `d` -/
  | dispose (d : Fin m)

/-- an open call of a thread: a method of a source, `dispose` of a disposable, or a function of a user called back
[cancellation.py:71-101, disposable.py:52-61] -/
inductive Call (n m : Nat) where
  | source (i : Fin n)
  | disposable (d : Fin m)
  | user
deriving DecidableEq

/-- the objects with the calls that are open in each, and for each thread the order of its open calls, innermost first [model] -/
structure State (n m : Nat) where
  source : Fin n → Cancellation.Race.State
  disposable : Fin m → Disposable.State
  calls : Nat → List (Call n m)

/-- new objects [cancellation.py:57-61, disposable.py:47-50] -/
def init : State n m := ⟨fun _ => Cancellation.Race.init, fun _ => Disposable.init, fun _ => []⟩

/-- what a thread can do where code of a user runs: call a method; and otherwise go on with the call it is in
[cancellation.py:71-101, disposable.py:52-61] -/
inductive Act (n m : Nat) where
  /-- `source.token.register(callback)` -/
  | register (i : Fin n)
  /-- dispose registration number `k` of a source -/
  | unregister (i : Fin n) (k : Nat)
  | cancel (i : Fin n)
  | dispose (d : Fin m)
  /-- enter a `with` block -/
  | enter (d : Fin m)
  | go

/-- the source is changed [model] -/
def State.setSource (s : State n m) (i : Fin n) (r : Cancellation.Race.State) : State n m := { s with source := fun j => if j = i then r else s.source j }

/-- the disposable is changed [model] -/
def State.setDisposable (s : State n m) (d : Fin m) (r : Disposable.State) : State n m := { s with disposable := fun e => if e = d then r else s.disposable e }

/-- the open calls of the thread are changed [model] -/
def State.at (s : State n m) (t : Nat) (cs : List (Call n m)) : State n m := { s with calls := upd s.calls t cs }

/-- the thread runs code of a user: it is in no call, or in a callback [model] -/
def free : List (Call n m) → Bool
  | [] => true
  | .user :: _ => true
  | _ => false

/-- the callback is called (cancellation.py:84, disposable.py:61) -/
def invoke (t : Nat) (s : State n m) : Callback n m → Option (State n m)
  | .user => some (s.at t (.user :: s.calls t))
  | .cancel j => (Cancellation.Race.step (s.source j) (t, .cancel)).map fun r => (s.setSource j r).at t (.source j :: s.calls t)
  | .dispose d => (Disposable.step (s.disposable d) (t, .dispose)).map fun r => (s.setDisposable d r).at t (.disposable d :: s.calls t)

/-- One atomic action of thread `c.1`.  `callbacks i k` is what is registered as number `k` with source `i`, `actions d` the action of disposable `d`.
[cancellation.py:71-101, disposable.py:52-61] -/
def step (callbacks : Fin n → Nat → Callback n m) (actions : Fin m → Callback n m) (s : State n m) (c : Nat × Act n m) : Option (State n m) :=
  let t := c.1
  match c.2 with
  | .register i =>
    if free (s.calls t) then (Cancellation.Race.step (s.source i) (t, .register)).map fun r => (s.setSource i r).at t (.source i :: s.calls t) else none
  | .unregister i k =>
    if free (s.calls t) then (Cancellation.Race.step (s.source i) (t, .unregister k)).map fun r => (s.setSource i r).at t (.source i :: s.calls t) else none
  | .cancel i => if free (s.calls t) then invoke t s (.cancel i) else none
  | .dispose d => if free (s.calls t) then invoke t s (.dispose d) else none
  | .enter d => if free (s.calls t) then (Disposable.step (s.disposable d) (t, .enter)).map (s.setDisposable d) else none
  | .go =>
    match s.calls t with
    | [] => none
    | .user :: cs => some (s.at t cs)
    | .source i :: cs =>
      (Cancellation.Race.step (s.source i) (t, .go)).bind fun r =>
        if (r.stack t).length < ((s.source i).stack t).length then some ((s.setSource i r).at t cs) -- the call is over
        else match (s.source i).stack t with
          | .cLoop (k :: _) :: _ => invoke t (s.setSource i r) (callbacks i k) -- cancellation.py:84
          | _ => some (s.setSource i r)
    | .disposable d :: cs =>
      (Disposable.step (s.disposable d) (t, .go)).bind fun r =>
        if (r.stack t).length < ((s.disposable d).stack t).length then some ((s.setDisposable d r).at t cs)
        else match (s.disposable d).stack t with
          | .decide true :: _ => invoke t (s.setDisposable d r) (actions d) -- disposable.py:61
          | _ => some (s.setDisposable d r)

end Expression.Linked
