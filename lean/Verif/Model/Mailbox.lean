import Verif.Model.Threads

/-!
# Model of `expression/core/mailbox.py`

Two models: the mailbox itself (`Mailbox`), and one question with its reply channel (`Ask`).

Thread `0` runs the event loop; the others are any threads that hold the mailbox.  One step is one atomic action: a read or a write of an attribute, a queue operation (`SimpleQueue` is
thread-safe), taking or releasing the lock.  Memory is sequentially consistent.  Tasks are not modelled as such: whenever the event loop thread is between two callbacks, it may call
`receive` (some task does so).  Completing a future is one step; that its waiting task is woken up is left to asyncio.
-/

namespace Expression.Mailbox

open Threads

/-- the state of the future of a `receive` (aiotools.py:47) -/
inductive Fut where
  /-- not created yet -/
  | unused
  | pending
  | result (m : Nat)
  /-- by the mailbox, aiotools.py:57-59 -/
  | cancelled
  /-- by its awaiter, for instance because of a timeout -/
  | gaveUp
deriving DecidableEq

/-- where a thread stands [mailbox.py:50-64, 109-153] -/
inductive Pc where
  /-- not in the mailbox -/
  | idle
  /-- `post`, mailbox.py:64 -/
  | sched
  /-- `receive`, line 124 -/
  | rCheck
  /-- line 127 -/
  | rSet (n : Nat)
  /-- line 128 -/
  | rSetCancel (n : Nat)
  /-- `__process_events`, line 137 -/
  | test
  /-- line 138, the right-hand side -/
  | cRead
  /-- line 138, the assignment -/
  | cWrite (c : Option Nat)
  /-- lines 139-140 -/
  | cCall (c : Option Nat)
  /-- line 143 -/
  | check
  /-- line 146 -/
  | lock
  /-- line 147 -/
  | empty
  /-- line 149 -/
  | get
  /-- line 150, the right-hand side -/
  | read (m : Nat)
  /-- line 150, the assignment -/
  | write (m : Nat) (c : Option Nat)
  /-- lines 152-153 -/
  | call (m : Nat) (c : Option Nat)
  /-- leaving the `with` block -/
  | unlock
deriving DecidableEq

/-- what can be seen from outside [model: what happened so far] -/
inductive Event where
  /-- the message entered the queue -/
  | posted (m : Nat)
  /-- receive number `n` waits for a message -/
  | began (n : Nat)
  /-- a receive raised -/
  | refused
  /-- receive number `n` returns the message -/
  | got (n m : Nat)
  /-- the message was taken from the queue and given to nobody -/
  | dropped (m : Nat)
  /-- receive number `n` was cancelled by the mailbox -/
  | cancelled (n : Nat)
  /-- receive number `n` was cancelled by its awaiter -/
  | gaveUp (n : Nat)
deriving DecidableEq

/-- mailbox.py:39-48, and the surroundings: `fut n` and `next` for the futures, `token` for `is_cancellation_requested`, `scheduled` for the number of callbacks waiting in the event loop -/
structure State where
  queue : List Nat
  cont : Option Nat
  cancel : Option Nat
  fut : Nat → Fut
  next : Nat
  token : Bool
  scheduled : Nat
  owner : Option Nat
  pc : Nat → Pc
  log : List Event

/-- a new mailbox [mailbox.py:39-48] -/
def init : State := ⟨[], none, none, fun _ => .unused, 0, false, 0, none, fun _ => .idle, []⟩

/-- what a thread can do [mailbox.py:50-64, 109-153] -/
inductive Act where
  /-- call `post` -/
  | post (m : Nat)
  /-- call `post_and_async_reply` -/
  | ask (m : Nat)
  /-- call `receive` (on the event loop) -/
  | receive
  /-- the event loop runs a callback -/
  | callback
  /-- the token is cancelled -/
  | cancelToken
  /-- the awaiter of receive number `n` gives up (on the event loop) -/
  | giveUp (n : Nat)
  /-- go on with the current call -/
  | go
deriving DecidableEq

/-- the thread goes on here [model] -/
def State.at (s : State) (t : Nat) (p : Pc) : State := { s with pc := upd s.pc t p }

/-- write to the log [model] -/
def State.say (s : State) (e : Event) : State := { s with log := s.log ++ [e] }

/-- One atomic action of thread `c.1`.  The future of a `receive` is created at its first line here, and not at all if it raises (in the code it is created just before, and dropped).
[mailbox.py:50-64, 109-153, the lines at each case] -/
def step (s : State) (c : Nat × Act) : Option State :=
  let t := c.1
  match c.2 with
  | .post m => if s.pc t = .idle then some ({ s.at t .sched with queue := s.queue ++ [m] }.say (.posted m)) else none -- mailbox.py:63
  | .ask m => if s.pc t = .idle then some ({ s.at t .test with queue := s.queue ++ [m] }.say (.posted m)) else none -- mailbox.py:95-96
  | .receive => if t = 0 ∧ s.pc t = .idle then some (s.at t .rCheck) else none -- mailbox.py:132
  | .callback => if t = 0 ∧ s.pc t = .idle ∧ 0 < s.scheduled then some { s.at t .test with scheduled := s.scheduled - 1 } else none
  | .cancelToken => some { s with token := true }
  | .giveUp n => if t = 0 ∧ s.pc t = .idle ∧ s.fut n = .pending then some ({ s with fut := upd s.fut n .gaveUp }.say (.gaveUp n)) else none
  | .go =>
    match s.pc t with
    | .idle => none
    | .sched => some { s.at t .idle with scheduled := s.scheduled + 1 }
    | .rCheck =>
      if s.cont = none then some ({ s.at t (.rSet s.next) with fut := upd s.fut s.next .pending, next := s.next + 1 }.say (.began s.next))
      else some ((s.at t .idle).say .refused)
    | .rSet n => some { s.at t (.rSetCancel n) with cont := some n }
    | .rSetCancel n => some { s.at t .test with cancel := some n }
    | .test => if s.token then some (s.at t .cRead) else some (s.at t .check)
    | .cRead => some (s.at t (.cWrite s.cancel))
    | .cWrite c => some { s.at t (.cCall c) with cancel := none }
    | .cCall none => some (s.at t .idle)
    | .cCall (some n) =>
      if s.fut n = .pending then some ({ s.at t .idle with fut := upd s.fut n .cancelled }.say (.cancelled n)) else some (s.at t .idle)
    | .check => if s.cont = none then some (s.at t .idle) else some (s.at t .lock)
    | .lock => if s.owner = none then some { s.at t .empty with owner := some t } else none
    | .empty => if s.queue = [] then some (s.at t .unlock) else some (s.at t .get)
    | .get =>
      match s.queue with
      | [] => none
      | m :: ms => some { s.at t (.read m) with queue := ms }
    | .read m => some (s.at t (.write m s.cont))
    | .write m c => some { s.at t (.call m c) with cont := none }
    | .call m none => some ((s.at t .unlock).say (.dropped m))
    | .call m (some n) =>
      if s.fut n = .pending then some ({ s.at t .unlock with fut := upd s.fut n (.result m) }.say (.got n m)) else some ((s.at t .unlock).say (.dropped m))
    | .unlock => some { s.at t .idle with owner := none }

end Expression.Mailbox

namespace Expression.Ask

open Threads

/-! ## The reply channel: mailbox.py:81-107

A reply is `some v`, or `none` for Python's `None`.  Thread `0` is the asker, the others may reply. -/

/-- where a thread stands [mailbox.py:30-35, 66-107] -/
inductive Pc where
  | idle
  /-- `reply_callback`, line 91 -/
  | set (r : Option Nat)
  /-- `callback`, line 104 -/
  | cont
  /-- `check_completion`, line 86, reading `result` -/
  | test1
  /-- line 86, reading `continuation` -/
  | test2
  /-- line 87, reading both again -/
  | fetch
  /-- aiotools.py:49-51: completing the future if it is not done -/
  | complete (r : Option Nat)
deriving DecidableEq

/-- what can be seen from outside [model: what happened so far] -/
inductive Event where
  /-- `reply` was called -/
  | replied (r : Option Nat)
  /-- the asker waits -/
  | waiting
  /-- the asker gets the reply -/
  | completed (r : Option Nat)
deriving DecidableEq

/-- mailbox.py:81-83 and the future of aiotools.py:47 -/
structure State where
  result : Option Nat
  continuation : Bool
  future : Option (Option Nat)
  asked : Bool
  pc : Nat → Pc
  log : List Event

/-- after mailbox.py:83 -/
def init : State := ⟨none, false, none, false, fun _ => .idle, []⟩

/-- what a thread can do [mailbox.py:30-35, 66-107] -/
inductive Act where
  /-- call `reply` (any thread that got the channel) -/
  | reply (r : Option Nat)
  /-- mailbox.py:107, once, on thread `0` -/
  | wait
  | go
deriving DecidableEq

/-- the thread goes on here [model] -/
def State.at (s : State) (t : Nat) (p : Pc) : State := { s with pc := upd s.pc t p }

/-- write to the log [model] -/
def State.say (s : State) (e : Event) : State := { s with log := s.log ++ [e] }

/-- One atomic action of thread `c.1`.  The two reads in line 87 are one step (`continuation` never changes once set).  Nobody cancels the future. -/
def step (s : State) (c : Nat × Act) : Option State :=
  let t := c.1
  match c.2 with
  | .reply r => if s.pc t = .idle then some ((s.at t (.set r)).say (.replied r)) else none
  | .wait => if t = 0 ∧ s.pc t = .idle ∧ s.asked = false then some { s.at t .cont with asked := true } else none
  | .go =>
    match s.pc t with
    | .idle => none
    | .set r => some { s.at t .test1 with result := r }
    | .cont => some ({ s.at t .test1 with continuation := true }.say .waiting)
    | .test1 => if s.result = none then some (s.at t .idle) else some (s.at t .test2)
    | .test2 => if s.continuation then some (s.at t .fetch) else some (s.at t .idle)
    | .fetch => some (s.at t (.complete s.result))
    | .complete r =>
      if s.future = none then some ({ s.at t .idle with future := some r }.say (.completed r)) else some (s.at t .idle)

end Expression.Ask
