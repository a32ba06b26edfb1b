import Verif.Model.Mailbox

/-!
# Mailboxes and interrupts

`Mailbox.step` with one more thing that can happen to a thread other than that of the event loop, anywhere in a call of `post` or `post_and_async_reply`: an
exception ends the call.  It may come from outside, such as the `KeyboardInterrupt` that a signal raises in the main thread while the event loop runs in another
one; or from `call_soon_threadsafe` (mailbox.py:64), which raises `RuntimeError` if the event loop was closed.  Leaving the `with` block (line 146) gives the lock back.

Simplified: the thread of the event loop is not interrupted (`asyncio.run` makes of `Ctrl-C` the cancelling of a task), and no interrupt comes between taking the
lock and being in the block, or between being through the block and giving it back.  An interrupt before the message enters the queue has no effect on the mailbox,
and is left out.
-/

namespace Expression.MailboxInterrupt

open Threads Mailbox

/-- is a call that stands here in the `with` block (mailbox.py:146-153) -/
def inBlock : Pc → Bool
  | .empty => true
  | .get => true
  | .read _ => true
  | .write _ _ => true
  | .call _ _ => true
  | .unlock => true
  | _ => false

/-- the message that a call that stands here has taken from the queue and not yet given to anybody (mailbox.py:149-153), which nobody gets if the call ends here -/
def inHand : Pc → List Event
  | .read m => [.dropped m]
  | .write m _ => [.dropped m]
  | .call m _ => [.dropped m]
  | _ => []

/-- what can happen to a thread [model: exceptions from outside] -/
inductive Act where
  | act (a : Mailbox.Act)
  /-- an exception ends the open call -/
  | interrupt
deriving DecidableEq

/-- The messages are numbered in the order in which they entered the queue.  `num t`: the number of the message that thread `t` posted last; `cut`: the numbers of
the messages of the calls of `post` that were interrupted. [model: exceptions from outside] -/
structure State where
  obj : Mailbox.State
  num : Nat → Nat
  cut : List Nat

/-- a new mailbox [mailbox.py:39-48] -/
def init : State := ⟨Mailbox.init, fun _ => 0, []⟩

/-- how many messages have entered the queue [model: exceptions from outside] -/
def count : List Event → Nat
  | [] => 0
  | .posted _ :: es => count es + 1
  | _ :: es => count es

/-- One atomic action of thread `c.1`, mailbox.py:50-153. -/
def step (s : State) (c : Nat × Act) : Option State :=
  match c.2 with
  | .act a => (Mailbox.step s.obj (c.1, a)).map fun o =>
      { s with
        obj := o,
        num := match a with
          | .post _ => upd s.num c.1 (count s.obj.log)
          | _ => s.num }
  | .interrupt =>
    if c.1 = 0 ∨ s.obj.pc c.1 = .idle then none
    else some
      { s with
        obj := { s.obj with
          owner := if inBlock (s.obj.pc c.1) then none else s.obj.owner,
          pc := upd s.obj.pc c.1 .idle,
          log := s.obj.log ++ inHand (s.obj.pc c.1) },
        cut := if s.obj.pc c.1 = .sched then s.cut ++ [s.num c.1] else s.cut }

end Expression.MailboxInterrupt
