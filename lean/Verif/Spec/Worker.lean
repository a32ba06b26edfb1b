import Verif.Model.Worker
import Verif.Spec.Mailbox

/-! # What an agent with an arbitrary coroutine as body should do -/

namespace Expression.Spec.Worker

open Expression.Worker

variable {S M : Type}

/-- the messages sent so far, in the order in which they entered the queue -/
def messages (s : State S M) : List M := s.sent.map Prod.fst

/-- the messages that the receives of the body returned, in the order in which they did -/
def receivedMessages (s : State S M) : List M := s.received.filterMap fun k => (s.sent[k]?).map Prod.fst

/-- what the asker of message number `k` got (see `Spec.Ask.outcomes`) -/
def answers (s : State S M) (k : Nat) : List (Option Nat) := Ask.outcomes (s.chan k).log

/-- the calls of `reply` of the channel of message number `k`, in order -/
def repliesTo (s : State S M) (k : Nat) : List (Option Nat) := (s.replied.filter (fun c => c.1 == k)).map Prod.snd

/-- somebody asked message number `k` (it was not just posted) -/
def asked (s : State S M) (k : Nat) : Bool :=
  match s.sent[k]? with
  | some (_, r) => r
  | none => false

/-- From `s` to `s'` the body ran one turn, its await having ended with `g`: if that is a message, it is one that was sent, and it counts as received.  The replies of the
turn went to the channels of the messages that have one. -/
def ResumedWith (b : Body S M) (s s' : State S M) (g : Got M) : Prop :=
  ∃ st, s.st = some st ∧ s'.st = some (b.resume st g).state ∧ s'.replied = s.replied ++ (b.resume st g).replies.filter (fun r => asked s r.1) ∧
    match g with
    | .message m x => (messages s)[m]? = some x ∧ s'.received = s.received ++ [m]
    | _ => s'.received = s.received

/-- nobody cancels -/
def uncancelled (sched : List (Nat × Act M)) : Prop := ∀ c ∈ sched, ∀ t, c ≠ (t, .cancel)

/-- a timeout of a receive passes -/
def isTimeout : Nat × Act M → Bool
  | (_, .timeout) => true
  | _ => false

/-- the event loop resumes the task of the body -/
def isResume : Nat × Act M → Bool
  | (_, .resume _) => true
  | _ => false

/-- something goes on by itself -/
def isWork : Nat × Act M → Bool
  | (_, .go) => true
  | (_, .callback) => true
  | (_, .resume _) => true
  | _ => false

/-- nothing goes on any more unless somebody posts, asks, replies or cancels, or a timeout passes -/
def Stuck (b : Body S M) (s : State S M) : Prop := ∀ c, isWork c = true → step b s c = none

end Expression.Spec.Worker
