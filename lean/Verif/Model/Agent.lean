import Verif.Model.Mailbox

/-!
# Model of `MailboxProcessor.start` (`expression/core/mailbox.py`:155-162) with the task of its body

The mailbox is the one of `Mailbox`, with its threads and atomic actions; here it is put together with the task that `start_immediate` makes of the body
(aiotools.py:97-117), the reply channels (`Ask`) and the token.  The body is a loop `while True: msg = await inbox.receive(); ...` that handles one message after the
other, replies to those that carry a reply channel, and may await other things in between.
-/

namespace Expression.Agent

open Threads

/-- The body given to `start`: the state it keeps, how handling a message changes it, and the replies that handling sends to the reply channel of the message, if it has one.
[mailbox.py:156-162, the argument of `start`] -/
structure Body (S M : Type) where
  start : S
  handle : S → M → S
  reply : S → M → List (Option Nat)

/-- the task of the body [mailbox.py:161, aiotools.py:97-117] -/
inductive Task where
  /-- scheduled by `create_task`, has not run yet -/
  | created
  /-- between two receives -/
  | busy
  /-- awaits receive number `n` -/
  | waiting (n : Nat)
  /-- ended by `CancelledError` -/
  | cancelled
  /-- ended because `receive` raised -/
  | raised
deriving DecidableEq

/-- `sent` are the messages in the order in which they entered the queue, and whether they carry a reply channel; message number `k` is known to the mailbox as `k`.
`chan k` is the reply channel of message `k`.  `cancelReq`: `task.cancel()` was called.  `handled` are the numbers of the messages the body handled, in order.
[mailbox.py:39-48; the rest is what happened so far] -/
structure State (S M : Type) where
  mb : Mailbox.State
  sent : List (M × Bool)
  chan : Nat → Ask.State
  task : Task
  cancelReq : Bool
  st : S
  handled : List Nat

/-- what can happen; `t` in `(t, act)` is the thread, `0` runs the event loop [mailbox.py:50-162] -/
inductive Act (M : Type) where
  /-- some thread calls `post` (mailbox.py:50-64) -/
  | post (x : M)
  /-- on the event loop somebody calls `post_and_async_reply` (mailbox.py:66-107) -/
  | ask (x : M)
  /-- a thread goes on with its call -/
  | go
  /-- the event loop runs a callback of `call_soon_threadsafe` -/
  | callback
  /-- the event loop resumes the task of the body -/
  | resume
  /-- on the event loop somebody cancels the source of the token -/
  | cancel

variable {S M : Type}

/-- mailbox.py:160-162: the mailbox is made, the task is scheduled (see `Aio.start`).  The source of the token is not cancelled yet. -/
def init (b : Body S M) : State S M := ⟨Mailbox.init, [], fun _ => Ask.init, .created, false, b.start, []⟩

/-- the event loop thread goes on in the reply channel until the call is over (no call takes more than five actions) [mailbox.py:30-35, 89-105] -/
def settle : Nat → Ask.State → Ask.State
  | 0, c => c
  | fuel + 1, c =>
    match Ask.step c (0, .go) with
    | none => c
    | some c' => settle fuel c'

/-- a whole call on the event loop: `reply` (mailbox.py:90-92), or mailbox.py:98-107 -/
def channelCall (c : Ask.State) (a : Ask.Act) : Ask.State :=
  match Ask.step c (0, a) with
  | none => c
  | some c' => settle 5 c'

/-- the body calls `receive` (mailbox.py:109-132) -/
def receive (s : State S M) : Option (State S M) :=
  (Mailbox.step s.mb (0, .receive)).map fun mb => { s with mb := mb, task := .waiting s.mb.next }

/-- the body handles message number `m`; unknown numbers do not occur [model: code of a user] -/
def handle (b : Body S M) (s : State S M) (m : Nat) : State S M :=
  match s.sent[m]? with
  | none => s
  | some (x, replies) =>
    { s with task := .busy, st := b.handle s.st x, handled := s.handled ++ [m],
             chan := if replies then upd s.chan m ((b.reply s.st x).foldl (fun c r => channelCall c (.reply r)) (s.chan m)) else s.chan }

/-- One action.  `ask`: mailbox.py:98-107 follow on the same thread when `__process_events` is over; since only the event loop thread uses the channel, and it does not resume the
body before that, they are done at once here.  `cancel` (cancellation.py:71-86) sets the flag the mailbox reads and calls `task.cancel()`, which cancels the future that the
task waits for, if it is pending. -/
def step (b : Body S M) (s : State S M) (c : Nat × Act M) : Option (State S M) :=
  match c.2 with
  | .post x => (Mailbox.step s.mb (c.1, .post s.sent.length)).map fun mb => { s with mb := mb, sent := s.sent ++ [(x, false)] }
  | .ask x =>
    if c.1 = 0 then (Mailbox.step s.mb (0, .ask s.sent.length)).map fun mb =>
      { s with mb := mb, sent := s.sent ++ [(x, true)], chan := upd s.chan s.sent.length (channelCall Ask.init .wait) }
    else none
  | .go => (Mailbox.step s.mb (c.1, .go)).map fun mb => { s with mb := mb }
  | .callback => (Mailbox.step s.mb (c.1, .callback)).map fun mb => { s with mb := mb }
  | .resume =>
    if c.1 = 0 ∧ s.mb.pc 0 = .idle then
      match s.task with
      | .created => if s.cancelReq then some { s with task := .cancelled } else receive s
      | .busy => if s.cancelReq then some { s with task := .cancelled } else receive s
      | .waiting n =>
        match s.mb.fut n with
        | .pending => none
        | .result m => if s.cancelReq then some { s with task := .cancelled } else some (handle b s m)
        | .unused => some { s with task := .raised }
        | _ => some { s with task := .cancelled }
      | _ => none
    else none
  | .cancel =>
    if c.1 = 0 ∧ s.mb.pc 0 = .idle then
      let mb := { s.mb with token := true }
      match s.task with
      | .waiting n => some { s with mb := (Mailbox.step mb (0, .giveUp n)).getD mb, cancelReq := true }
      | _ => some { s with mb := mb, cancelReq := true }
    else none

end Expression.Agent
