import Verif.Model.MailboxInterrupt
import Verif.Spec.Mailbox

/-! # Schedules with interrupts -/

namespace Expression.Spec.MailboxInterrupt

open Expression.MailboxInterrupt

/-- only the event loop asks (other threads just post) -/
def loopAsks (sched : List (Nat × Act)) : Prop := ∀ t m, (t, .act (.ask m)) ∈ sched → t = 0

/-- nobody gives up -/
def patient (sched : List (Nat × Act)) : Prop := ∀ t n, (t, .act (.giveUp n)) ∉ sched

/-- another thread than the event loop calls `post_and_async_reply` -/
def askElsewhere (c : Nat × Act) : Bool :=
  match c.2 with
  | .act (.ask _) => c.1 != 0
  | _ => false

/-- how often that happens -/
def asksElsewhere (sched : List (Nat × Act)) : Nat := sched.countP askElsewhere

/-- the numbers of the messages in the queue: the last ones posted -/
def Queued (s : Mailbox.State) (i : Nat) : Prop := (Mailbox.posted s.log).length - s.queue.length ≤ i ∧ i < (Mailbox.posted s.log).length

end Expression.Spec.MailboxInterrupt
