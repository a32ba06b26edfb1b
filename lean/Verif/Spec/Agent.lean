import Verif.Model.Agent
import Verif.Spec.Mailbox

/-! # What an agent should do -/

namespace Expression.Spec.Agent

open Expression.Agent

variable {S M : Type}

/-- the messages sent so far, in the order in which they entered the queue -/
def messages (s : State S M) : List M := s.sent.map Prod.fst

/-- the messages the body has handled, in the order in which it did -/
def handledMessages (s : State S M) : List M := s.handled.filterMap fun k => (s.sent[k]?).map Prod.fst

/-- the state of a body after handling these messages -/
def after (b : Body S M) (xs : List M) : S := xs.foldl b.handle b.start

/-- what the asker of message number `k` got (see `Spec.Ask.outcomes`) -/
def answers (s : State S M) (k : Nat) : List (Option Nat) := Ask.outcomes (s.chan k).log

/-- nobody cancels -/
def uncancelled (sched : List (Nat × Act M)) : Prop := ∀ c ∈ sched, ∀ t, c ≠ (t, .cancel)

/-- a message enters the queue -/
def isPost : Nat × Act M → Bool
  | (_, .post _) => true
  | (_, .ask _) => true
  | _ => false

/-- something goes on by itself -/
def isWork : Nat × Act M → Bool
  | (_, .go) => true
  | (_, .callback) => true
  | (_, .resume) => true
  | _ => false

/-- nothing goes on any more unless somebody posts, asks or cancels -/
def Stuck (b : Body S M) (s : State S M) : Prop := ∀ c, isWork c = true → step b s c = none

end Expression.Spec.Agent
