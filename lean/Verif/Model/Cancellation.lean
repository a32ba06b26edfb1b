import Verif.Model.Threads

/-!
# Model of `expression/system/cancellation.py`

Two models: one thread, with listeners that may themselves use the source (`run`); and any number of threads, one atomic action at a time (`Race.step`).
-/

namespace Expression.Cancellation

open Threads

/-- what a program or listener can raise: an `Exception`, or a `BaseException` that is none (such as `KeyboardInterrupt`) [Python] -/
inductive Exc where
  | exception
  | base
deriving DecidableEq

/-- what a program can do with a source [cancellation.py:36-53, 63-106] -/
inductive Cmd where
  /-- `register` the callback number `cb` -/
  | register (cb : Nat)
  /-- dispose the registration number `id` -/
  | unregister (id : Nat)
  | cancel
  /-- read `is_cancellation_requested` -/
  | check

/-- what a command gives back [cancellation.py:36-53, 63-106] -/
inductive Reply where
  /-- the registration -/
  | registered (id : Nat)
  | done
  | flag (b : Bool)
  | raised (e : Exc)

/-- A program, also a listener: it ends, raises, or gives a command and goes on as the reply tells. [model: code of a user] -/
inductive Prog where
  | ret
  | raise (e : Exc)
  | call (c : Cmd) (k : Reply → Prog)

/-- what can be seen from outside [model: what happened so far] -/
inductive Event where
  | registered (id cb : Nat)
  /-- registering raised -/
  | refused
  /-- the registration was disposed (for the first time) -/
  | unregistered (id : Nat)
  /-- `cancel` was called -/
  | cancelled
  /-- the listener was called -/
  | called (id cb : Nat)
  | checked (b : Bool)
deriving DecidableEq

/-- cancellation.py:57-61; `gone`: the registrations disposed so far (each is an `AnonymousDisposable`, which acts once) -/
structure Source where
  isDisposed : Bool
  listeners : List (Nat × Nat)
  id : Nat
  gone : List Nat
  log : List Event

/-- a new source [cancellation.py:57-61] -/
def Source.init : Source := ⟨false, [], 0, [], []⟩

/-- cancellation.py:88-101 -/
def register (cb : Nat) (s : Source) : Reply × Source :=
  if s.isDisposed then (.raised .exception, { s with log := s.log ++ [.refused] })
  else (.registered s.id, { s with listeners := s.listeners ++ [(s.id, cb)], id := s.id + 1, log := s.log ++ [.registered s.id cb] })

/-- Disposing a registration: disposable.py:52-61 with the action cancellation.py:97-99.  A number that is no registration does nothing (there is no such object). -/
def unregister (id : Nat) (s : Source) : Reply × Source :=
  if id < s.id ∧ id ∉ s.gone then
    (.done, { s with gone := id :: s.gone, listeners := s.listeners.filter (fun l => l.1 != id), log := s.log ++ [.unregistered id] })
  else (.done, s)

mutual

/-- run a program; `bodies cb` is what callback `cb` does [model: code of a user] -/
def run (bodies : Nat → Prog) (p : Prog) (s : Source) : Option (Option Exc × Source) :=
  match p with
  | .ret => some (none, s)
  | .raise e => some (some e, s)
  | .call (.register cb) k => run bodies (k (register cb s).1) (register cb s).2
  | .call (.unregister id) k => run bodies (k (unregister id s).1) (unregister id s).2
  | .call .check k => run bodies (k (.flag s.isDisposed)) { s with log := s.log ++ [.checked s.isDisposed] } -- cancellation.py:68-69
  | .call .cancel k => do
    let r ← dispose bodies s
    run bodies (k r.1) r.2
partial_fixpoint

/-- cancellation.py:74-86: `listeners` is the snapshot -/
def dispose (bodies : Nat → Prog) (s : Source) : Option (Reply × Source) :=
  let listeners := if s.isDisposed then [] else s.listeners
  callAll bodies listeners { s with isDisposed := true, log := s.log ++ [.cancelled] }
partial_fixpoint

/-- cancellation.py:82-86, the loop: exceptions are swallowed, but not a `BaseException` -/
def callAll (bodies : Nat → Prog) (listeners : List (Nat × Nat)) (s : Source) : Option (Reply × Source) :=
  match listeners with
  | [] => some (.done, s)
  | l :: ls => do
    let r ← run bodies (bodies l.2) { s with log := s.log ++ [.called l.1 l.2] }
    if r.1 = some .base then some (.raised .base, r.2) else callAll bodies ls r.2
partial_fixpoint

end

/-- cancellation.py:27-34: a token; without a source it gets a cancelled one -/
structure Token where
  cancelled : Bool
  sourceDisposed : Bool

/-- cancellation.py:64-65 -/
def Token.ofSource (s : Source) : Token := ⟨false, s.isDisposed⟩

/-- cancellation.py:51-53, 108-112 -/
def Token.none : Token := ⟨true, true⟩

/-- cancellation.py:36-38 -/
def Token.isCancellationRequested (t : Token) : Bool := !t.cancelled && t.sourceDisposed

/-- cancellation.py:40-42 -/
def Token.canBeCanceled (t : Token) : Bool := !t.cancelled

/-- cancellation.py:44-46: does it raise -/
def Token.throws (t : Token) : Bool := t.isCancellationRequested

/-- cancellation.py:48-49, 89-90: does it raise -/
def Token.registerRaises (t : Token) : Bool := t.sourceDisposed

/-! ## threads -/

namespace Race

/-- Where a call stands. [cancellation.py:71-101, disposable.py:52-61] -/
inductive Frame where
  /-- `register`, cancellation.py:89 -/
  | rCheck
  /-- line 92 -/
  | rLock
  /-- line 93 -/
  | rRead
  /-- line 94 -/
  | rStore (current : Nat)
  /-- line 95 -/
  | rIncr (current : Nat)
  /-- leaving the `with` block -/
  | rUnlock (current : Nat)
  /-- disposing a registration: the test-and-set of `AnonymousDisposable` (one step here; see C49) -/
  | uTest (id : Nat)
  /-- line 98 -/
  | uLock (id : Nat)
  /-- line 99 -/
  | uDel (id : Nat)
  | uUnlock
  /-- `dispose`, line 77 -/
  | cLock
  /-- line 78 -/
  | cTest
  /-- line 79 -/
  | cSet
  /-- line 80 -/
  | cSnap
  /-- leaving the `with` block -/
  | cUnlock (listeners : List Nat)
  /-- line 82, the listeners still to be called -/
  | cLoop (listeners : List Nat)
  /-- line 84, in a listener, which may itself call anything; its exceptions are swallowed -/
  | inListener (listeners : List Nat)
deriving DecidableEq

/-- what can be seen from outside, with the thread where it matters [model: what happened so far] -/
inductive Event where
  | registerBegan (t : Nat)
  | registered (id : Nat)
  | refused (t : Nat)
  | unregisterBegan (id : Nat)
  | cancelBegan (t : Nat)
  | cancelEnded (t : Nat)
  | called (id : Nat)
deriving DecidableEq

/-- the source (listeners by number), the lock, the open calls of every thread, and what happened so far [cancellation.py:57-61] -/
structure State where
  isDisposed : Bool
  owner : Option Nat
  listeners : List Nat
  id : Nat
  gone : List Nat
  stack : Nat → List Frame
  log : List Event

/-- a new source [cancellation.py:57-61] -/
def init : State := ⟨false, none, [], 0, [], fun _ => [], []⟩

/-- what a thread can do: call something, or go on with the call it is in [cancellation.py:71-106] -/
inductive Act where
  | register
  | unregister (id : Nat)
  | cancel
  | go
deriving DecidableEq

/-- may this thread call something: it is in no call, or in a listener [model] -/
def free : List Frame → Bool
  | [] => true
  | .inListener _ :: _ => true
  | _ => false

/-- replace the open calls of a thread [model] -/
def State.at (s : State) (t : Nat) (fs : List Frame) : State := { s with stack := upd s.stack t fs }

/-- write to the log [model] -/
def State.say (s : State) (e : Event) : State := { s with log := s.log ++ [e] }

/-- One atomic action of thread `c.1`. [cancellation.py:71-101, disposable.py:52-61] -/
def step (s : State) (c : Nat × Act) : Option State :=
  let t := c.1
  match c.2 with
  | .register => if free (s.stack t) then some ((s.at t (.rCheck :: s.stack t)).say (.registerBegan t)) else none
  | .unregister id =>
    if free (s.stack t) ∧ .registered id ∈ s.log then some ((s.at t (.uTest id :: s.stack t)).say (.unregisterBegan id)) else none
  | .cancel => if free (s.stack t) then some ((s.at t (.cLock :: s.stack t)).say (.cancelBegan t)) else none
  | .go =>
    match s.stack t with
    | [] => none
    | .rCheck :: fs => if s.isDisposed then some ((s.at t fs).say (.refused t)) else some (s.at t (.rLock :: fs))
    | .rLock :: fs => if s.owner = none then some { s.at t (.rRead :: fs) with owner := some t } else none
    | .rRead :: fs => some (s.at t (.rStore s.id :: fs))
    | .rStore i :: fs => some { s.at t (.rIncr i :: fs) with listeners := s.listeners ++ [i] }
    | .rIncr i :: fs => some { s.at t (.rUnlock i :: fs) with id := s.id + 1 }
    | .rUnlock i :: fs => some ({ s.at t fs with owner := none }.say (.registered i))
    | .uTest i :: fs => if i ∈ s.gone then some (s.at t fs) else some { s.at t (.uLock i :: fs) with gone := i :: s.gone }
    | .uLock i :: fs => if s.owner = none then some { s.at t (.uDel i :: fs) with owner := some t } else none
    | .uDel i :: fs => some { s.at t (.uUnlock :: fs) with listeners := s.listeners.filter (· != i) }
    | .uUnlock :: fs => some { s.at t fs with owner := none }
    | .cLock :: fs => if s.owner = none then some { s.at t (.cTest :: fs) with owner := some t } else none
    | .cTest :: fs => if s.isDisposed then some (s.at t (.cUnlock [] :: fs)) else some (s.at t (.cSet :: fs))
    | .cSet :: fs => some { s.at t (.cSnap :: fs) with isDisposed := true }
    | .cSnap :: fs => some (s.at t (.cUnlock s.listeners :: fs))
    | .cUnlock ls :: fs => some { s.at t (.cLoop ls :: fs) with owner := none }
    | .cLoop [] :: fs => some ((s.at t fs).say (.cancelEnded t))
    | .cLoop (l :: ls) :: fs => some ((s.at t (.inListener ls :: fs)).say (.called l))
    | .inListener ls :: fs => some (s.at t (.cLoop ls :: fs))

end Race

end Expression.Cancellation
