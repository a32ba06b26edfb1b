import Verif.Model.Worker

/-!
# Model of several agents (`expression/core/mailbox.py`) that post to each other and ask each other

`Worker` is one agent with any coroutine as body; all that others do to it comes from outside.  Here there are `n` agents on one event loop, and their bodies post to each other's
mailboxes, ask, wait for answers and reply, to the channels of any messages (a reply channel may be handed on in a message).  Other threads and other tasks may do all that they may
do with one agent.
-/

namespace Expression.Network

open Threads

variable {n : Nat} {S M : Type}

/-- What the body of an agent does next.  `post`, `ask` and `reply` are calls: the body goes on as soon as they return.  At the others it is suspended.  Simplified: a body that
waits for an answer does so without timeout. [model: code of a user] -/
inductive Next (n : Nat) (M : Type) where
  /-- `await inbox.receive()`, `within`: with a timeout -/
  | receive (within : Bool)
  /-- it waits for something else than agents -/
  | sleep
  /-- it returns or, if `raised`, raises -/
  | stop (raised : Bool)
  /-- `agent_j.post(x)` (mailbox.py:50-64) -/
  | post (j : Fin n) (x : M)
  /-- `future = agent_j.post_and_async_reply(lambda channel: x)` (mailbox.py:66-107); the number of the message stands for the future and for the channel in it -/
  | ask (j : Fin n) (x : M)
  /-- `await` of the future that asking agent `j` gave, for its message number `k` -/
  | await (j : Fin n) (k : Nat)
  /-- `channel.reply(r)` (mailbox.py:34-35, 89-92) with the channel of message number `k` of agent `j` -/
  | reply (j : Fin n) (k : Nat) (r : Option Nat)

/-- The coroutine of an agent: its states between two actions, what it does in each, and how it goes on with what that gives.
[model: code of a user] -/
structure Body (n : Nat) (S M : Type) where
  start : S
  next : S → Next n M
  resume : S → Worker.Got M → S

/-- the same turn for `Worker`, where all that has to do with other agents is something else that the body waits for [model: code of a user] -/
def turn (b : Body n S M) (st : S) : Worker.Turn S :=
  ⟨[], st, match b.next st with
    | .receive within => .receive within
    | .stop raised => .stop raised
    | _ => .sleep⟩

/-- the body as that of an agent alone [model: code of a user] -/
def Body.alone (b : Body n S M) : Worker.Body S M := ⟨turn b b.start, fun st g => turn b (b.resume st g)⟩

/-- The agents, and the one whose body runs just now, if it is at a call: `none` before the call, `some v` when the call has given `v`. [model] -/
structure State (n : Nat) (S M : Type) where
  agent : Fin n → Worker.State S M
  cur : Option (Fin n × Option Nat)

/-- what can happen [mailbox.py:50-153] -/
inductive Act (n : Nat) (M : Type) where
  /-- something that happens to agent `i`; what is not work of its mailbox or its body is done by other threads or other tasks -/
  | at (i : Fin n) (c : Nat × Worker.Act M)
  /-- the body that runs makes its call -/
  | call
  /-- its call is over, and it goes on -/
  | back

/-- all agents are started (mailbox.py:155-162), none has run -/
def init : State n S M := ⟨fun _ => Worker.init, none⟩

/-- agent `i` is changed [model] -/
def State.set (s : State n S M) (i : Fin n) (a : Worker.State S M) : State n S M := { s with agent := fun j => if j = i then a else s.agent j }

/-- thread `t` is in none of the mailboxes [model] -/
def free (s : State n S M) (t : Nat) : Bool := decide (∀ j, (s.agent j).mb.pc t = .idle)

/-- the body is at a call [model] -/
def calling (b : Body n S M) (a : Worker.State S M) : Bool :=
  match a.task, a.st with
  | .sleeping, some st =>
    match b.next st with
    | .post _ _ => true
    | .ask _ _ => true
    | .reply _ _ _ => true
    | _ => false
  | _, _ => false

/-- the result of the future of question `k` (aiotools.py:49-51) -/
def answer (a : Worker.State S M) (k : Nat) : Option Nat := (a.chan k).future.join

/-- The event loop may resume the task of agent `i`, and `v` may be what its await gives: if it waits for an answer, this is there, or its task was cancelled.
[Python: asyncio] -/
def wakes (bs : Fin n → Body n S M) (s : State n S M) (i : Fin n) (v : Nat) : Bool :=
  match (s.agent i).task, (s.agent i).st with
  | .sleeping, some st =>
    match (bs i).next st with
    | .await j k => decide ((s.agent i).intr = some .cancel) || decide (answer (s.agent j) k = some v)
    | _ => true
  | _, _ => true

/-- the body of agent `i` has run to its next action [Python: asyncio] -/
def resumed (bs : Fin n → Body n S M) (s : State n S M) (i : Fin n) (a : Worker.State S M) : State n S M :=
  { s.set i a with cur := if calling (bs i) a then some (i, none) else none }

/-- One action.  While a body runs nothing else does on the event loop: from `resumed` on, until its next await, the only actions of thread `0` are its calls and what these do in
the mailboxes (`go`). [mailbox.py:50-162] -/
def step (bs : Fin n → Body n S M) (s : State n S M) : Act n M → Option (State n S M)
  | .at i (t, .go) => (Worker.step (bs i).alone (s.agent i) (t, .go)).map (s.set i)
  | .at i (t, .resume v) =>
    if s.cur = none ∧ free s 0 ∧ wakes bs s i v then (Worker.step (bs i).alone (s.agent i) (t, .resume v)).map (resumed bs s i) else none
  | .at i (t, a) => if free s t ∧ (t = 0 → s.cur = none) then (Worker.step (bs i).alone (s.agent i) (t, a)).map (s.set i) else none
  | .call =>
    match s.cur with
    | some (i, none) =>
      match ((s.agent i).st).map (bs i).next with
      | some (.post j x) => (Worker.step (bs j).alone (s.agent j) (0, .post x)).map fun a => { s.set j a with cur := some (i, some 0) }
      | some (.ask j x) => (Worker.step (bs j).alone (s.agent j) (0, .ask x)).map fun a => { s.set j a with cur := some (i, some (s.agent j).sent.length) }
      | some (.reply j k r) => (Worker.step (bs j).alone (s.agent j) (0, .reply k r)).map fun a => { s.set j a with cur := some (i, some 0) }
      | _ => none
    | _ => none
  | .back =>
    match s.cur with
    | some (i, some v) => if free s 0 then (Worker.step (bs i).alone (s.agent i) (0, .resume v)).map (resumed bs s i) else none
    | _ => none

end Expression.Network
