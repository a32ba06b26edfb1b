import Verif.Model.Mailbox

/-! # What the mailbox should do, read off the log -/

namespace Expression.Spec.Mailbox

open Expression.Mailbox

/-- the messages posted, in the order they entered the queue -/
def posted : List Event → List Nat
  | [] => []
  | .posted m :: es => m :: posted es
  | _ :: es => posted es

/-- the messages returned by receives, in the order of their return -/
def delivered : List Event → List Nat
  | [] => []
  | .got _ m :: es => m :: delivered es
  | _ :: es => delivered es

/-- the numbers of the receives that returned, in the order of their return (receives are numbered as they begin) -/
def returned : List Event → List Nat
  | [] => []
  | .got n _ :: es => n :: returned es
  | _ :: es => returned es

/-- how many messages were given to nobody -/
def drops : List Event → Nat
  | [] => 0
  | .dropped _ :: es => drops es + 1
  | _ :: es => drops es

/-- how often an awaiter gave up -/
def givenUp : List Event → Nat
  | [] => 0
  | .gaveUp _ :: es => givenUp es + 1
  | _ :: es => givenUp es

/-- only the event loop asks (other threads just post) -/
def loopAsks (sched : List (Nat × Act)) : Prop := ∀ t m, (t, .ask m) ∈ sched → t = 0

/-- another thread than the event loop calls `post_and_async_reply` -/
def askElsewhere (c : Nat × Act) : Bool :=
  match c.2 with
  | .ask _ => c.1 != 0
  | _ => false

/-- how often that happens -/
def asksElsewhere (sched : List (Nat × Act)) : Nat := sched.countP askElsewhere

/-- nobody gives up -/
def patient (sched : List (Nat × Act)) : Prop := ∀ t n, (t, .giveUp n) ∉ sched

/-- how often thread `t` called something or ran a callback -/
def callsBy (t : Nat) (sched : List (Nat × Act)) : Nat := sched.countP fun c => decide (c.1 = t ∧ c.2 ≠ .go)

/-- how many moves it made in those calls -/
def movesBy (t : Nat) (sched : List (Nat × Act)) : Nat := sched.count (t, .go)

/-- nothing is going on, and no callback is scheduled -/
def Quiescent (s : State) : Prop := (∀ t, s.pc t = .idle) ∧ s.scheduled = 0

end Expression.Spec.Mailbox

namespace Expression.Spec.Ask

open Expression.Ask

/-- the replies, in the order of the calls -/
def replies : List Event → List (Option Nat)
  | [] => []
  | .replied r :: es => r :: replies es
  | _ :: es => replies es

/-- what the asker got, in order (the claim is that there is just one) -/
def outcomes : List Event → List (Option Nat)
  | [] => []
  | .completed r :: es => r :: outcomes es
  | _ :: es => outcomes es

end Expression.Spec.Ask

namespace Expression.Spec.Ask

open Expression.Ask

/-- the replies sent before the asker waits -/
def repliesBefore : List Event → List (Option Nat)
  | [] => []
  | .waiting :: _ => []
  | .replied r :: es => r :: repliesBefore es
  | _ :: es => repliesBefore es

/-- the replies sent after that -/
def repliesAfter : List Event → List (Option Nat)
  | [] => []
  | .waiting :: es => replies es
  | _ :: es => repliesAfter es

/-- what happens when all is done on one thread: the last reply before the waiting counts, unless it is `None`; otherwise the first one after it that is not `None` -/
def sequentialOutcome (before after : List (Option Nat)) : List (Option Nat) :=
  match before.getLast? with
  | some (some v) => [some v]
  | _ => (after.find? (·.isSome)).toList

/-- nobody is in a call -/
def Idle (s : State) : Prop := ∀ t, s.pc t = .idle

end Expression.Spec.Ask
