import Verif.Model.Agent

/-!
# Model of `MailboxProcessor.start` (`expression/core/mailbox.py`:155-162) with an arbitrary coroutine as body

`Agent` has bodies of one form only, a loop that handles one message after the other.  Here the body is any coroutine: what it does between two awaits is any function of its
state and of what the last await gave.  It may wait for other things, receive with a timeout, reply late or never or more than once, catch exceptions (`CancelledError` too)
and go on, return or raise.
-/

namespace Expression.Worker

open Threads

/-- what an await of the body ends with [model: code of a user] -/
inductive Got (M : Type) where
  /-- `receive` returns message number `k`; the number stands for the reply channel in it -/
  | message (k : Nat) (x : M)
  /-- something else that the body waited for ended; `v` says how -/
  | other (v : Nat)
  /-- `CancelledError` -/
  | cancelled
  /-- `TimeoutError` of `asyncio.wait_for(inbox.receive(), ...)` -/
  | timedOut
  /-- `Exception("Receive can only be called once!")` (mailbox.py:125) -/
  | refused

/-- what the body does next, when its turn is over [model: code of a user] -/
inductive Next where
  /-- `await inbox.receive()`, `within`: with a timeout -/
  | receive (within : Bool)
  /-- it waits for something else -/
  | sleep
  /-- it returns or, if `raised`, raises -/
  | stop (raised : Bool)

/-- What the body does from one await to the next: it calls `reply` of the channels of these messages, and then waits or ends.  Simplified: what it posts to a mailbox itself
is among the posts of the event loop thread. [model: code of a user] -/
structure Turn (S : Type) where
  replies : List (Nat × Option Nat)
  state : S
  next : Next

/-- a coroutine [model: code of a user] -/
structure Body (S M : Type) where
  start : Turn S
  resume : S → Got M → Turn S

/-- the task of the body [Python: asyncio] -/
inductive Task where
  /-- scheduled by `create_task`, has not run yet -/
  | created
  /-- awaits receive number `n` -/
  | waiting (n : Nat) (within : Bool)
  /-- awaits something else -/
  | sleeping
  /-- it is over -/
  | ended (raised : Bool)
deriving DecidableEq

/-- an exception that the task will be resumed with, instead of what it waits for [Python: asyncio] -/
inductive Intr where
  | cancel
  | timeout
deriving DecidableEq

/-- `sent` and `chan` as in `Agent.State`.  `st` is the state of the body once it has run (`none` before).  `received` are the numbers of the messages that its receives returned, `replied` the calls of
`reply` with the numbers of the channels, both in order. [mailbox.py:39-48; the rest is what happened so far] -/
structure State (S M : Type) where
  mb : Mailbox.State
  sent : List (M × Bool)
  chan : Nat → Ask.State
  task : Task
  intr : Option Intr
  st : Option S
  received : List Nat
  replied : List (Nat × Option Nat)

/-- what can happen; `t` in `(t, act)` is the thread, `0` runs the event loop [mailbox.py:50-162] -/
inductive Act (M : Type) where
  /-- some thread calls `post` (mailbox.py:50-64) -/
  | post (x : M)
  /-- on the event loop somebody calls `post_and_async_reply` (mailbox.py:66-107) -/
  | ask (x : M)
  /-- on the event loop somebody to whom the body gave the reply channel of message `k` calls `reply` -/
  | reply (k : Nat) (r : Option Nat)
  /-- a thread goes on with its call -/
  | go
  /-- the event loop runs a callback of `call_soon_threadsafe` -/
  | callback
  /-- the event loop resumes the task of the body; `v` says what ended if it waits for something else than a message -/
  | resume (v : Nat)
  /-- the timeout of the receive passes -/
  | timeout
  /-- on the event loop somebody cancels the source of the token -/
  | cancel

variable {S M : Type}

/-- mailbox.py:160-162, as `Agent.init` -/
def init : State S M := ⟨Mailbox.init, [], fun _ => Ask.init, .created, none, none, [], []⟩

/-- `reply` (mailbox.py:34-35, 89-92) of the channel of message `k`, on the event loop.  A message that was posted without channel has none to call. -/
def reply (s : State S M) (k : Nat) (r : Option Nat) : State S M :=
  match s.sent[k]? with
  | some (_, true) => { s with chan := upd s.chan k (Agent.channelCall (s.chan k) (.reply r)), replied := s.replied ++ [(k, r)] }
  | _ => s

/-- The body runs to its next await, or to its end.  `receive` (mailbox.py:109-132) begins: the event loop thread is in it until its call is over. -/
def turn (s : State S M) (t : Turn S) : State S M :=
  let s' := t.replies.foldl (fun s r => reply s r.1 r.2) s
  match t.next with
  | .receive within => { s' with mb := (Mailbox.step s.mb (0, .receive)).getD s.mb, task := .waiting s.mb.next within, st := some t.state }
  | .sleep => { s' with task := .sleeping, st := some t.state }
  | .stop raised => { s' with task := .ended raised, st := some t.state }

/-- Resuming the body with what its await gave.  A body that has not run yet has no state; it does not await either. [Python: asyncio] -/
def resumeWith (b : Body S M) (s : State S M) (g : Got M) : State S M :=
  match s.st with
  | none => s
  | some st => turn s (b.resume st g)

/-- The event loop resumes the task.  A task that is cancelled before it runs never runs.  `CancelledError` and `TimeoutError` come once.  Simplified: a `receive` that
returns or raises at once does so here when the task is resumed; in the code the body goes on without being suspended. [Python: asyncio] -/
def resume (b : Body S M) (s : State S M) (v : Nat) : Option (State S M) :=
  match s.task with
  | .created => if s.intr = some .cancel then some { s with task := .ended true, intr := none } else some (turn s b.start)
  | .sleeping => if s.intr = some .cancel then some (resumeWith b { s with intr := none } .cancelled) else some (resumeWith b s (.other v))
  | .ended _ => none
  | .waiting n _ =>
    match s.mb.fut n with
    | .unused => some (resumeWith b s .refused)
    | f =>
      match s.intr with
      | some .cancel => some (resumeWith b { s with intr := none } .cancelled)
      | some .timeout => some (resumeWith b { s with intr := none } .timedOut)
      | none =>
        match f with
        | .pending => none
        | .result m => (s.sent[m]?).map fun x => resumeWith b { s with received := s.received ++ [m] } (.message m x.1)
        | _ => some (resumeWith b s .cancelled)

/-- `task.cancel()`: the future that the task waits for is cancelled, if it is pending; anyway the task will be resumed with the exception
[Python: asyncio] -/
def interrupt (s : State S M) (mb : Mailbox.State) (i : Intr) : State S M :=
  match s.task with
  | .waiting n _ => { s with mb := (Mailbox.step mb (0, .giveUp n)).getD mb, intr := some i }
  | .ended _ => { s with mb := mb }
  | _ => { s with mb := mb, intr := some i }

/-- the body is at a `receive` that raises, and about to go on [mailbox.py:119-130] -/
def refusedNow (s : State S M) : Bool :=
  match s.task with
  | .waiting n _ => s.mb.fut n = .unused
  | _ => false

/-- One action.  `ask` as in `Agent.step`.  `cancel` (cancellation.py:71-86) sets the flag that the mailbox reads and calls `task.cancel()` (aiotools.py:89-93), the first time. -/
def step (b : Body S M) (s : State S M) (c : Nat × Act M) : Option (State S M) :=
  match c.2 with
  | .post x => (Mailbox.step s.mb (c.1, .post s.sent.length)).map fun mb => { s with mb := mb, sent := s.sent ++ [(x, false)] }
  | .ask x =>
    if c.1 = 0 then (Mailbox.step s.mb (0, .ask s.sent.length)).map fun mb =>
      { s with mb := mb, sent := s.sent ++ [(x, true)], chan := upd s.chan s.sent.length (Agent.channelCall Ask.init .wait) }
    else none
  | .reply k r => if c.1 = 0 ∧ s.mb.pc 0 = .idle then some (reply s k r) else none
  | .go => (Mailbox.step s.mb (c.1, .go)).map fun mb => { s with mb := mb }
  | .callback => (Mailbox.step s.mb (c.1, .callback)).map fun mb => { s with mb := mb }
  | .resume v => if c.1 = 0 ∧ s.mb.pc 0 = .idle then resume b s v else none
  | .timeout =>
    match s.task with
    | .waiting _ true => if c.1 = 0 ∧ s.mb.pc 0 = .idle ∧ s.intr = none ∧ refusedNow s = false then some (interrupt s s.mb .timeout) else none
    | _ => none
  | .cancel =>
    if c.1 = 0 ∧ s.mb.pc 0 = .idle ∧ refusedNow s = false then
      if s.mb.token then some s else some (interrupt s { s.mb with token := true } .cancel)
    else none

end Expression.Worker
