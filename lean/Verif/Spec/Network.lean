import Verif.Model.Network
import Verif.Spec.Worker

/-! # What agents that post to each other and ask each other should do -/

namespace Expression.Spec.Network

open Expression.Network

variable {n : Nat} {S M : Type}

/-- nobody cancels, and no timeout passes -/
def calm (sched : List (Act n M)) : Prop := ∀ c ∈ sched, ∀ i t, c ≠ .at i (t, .cancel) ∧ c ≠ .at i (t, .timeout)

/-- something goes on by itself -/
def isWork : Act n M → Bool
  | .at _ c => Worker.isWork c
  | .call => true
  | .back => true

/-- nothing goes on any more unless somebody outside posts, asks, replies or cancels, or a timeout passes -/
def Stuck (bs : Fin n → Body n S M) (s : State n S M) : Prop := ∀ c, isWork c = true → step bs s c = none

/-- what agent `i` waits for: the answer to question number `k` of agent `j` -/
def awaits (bs : Fin n → Body n S M) (s : State n S M) (i : Fin n) : Option (Fin n × Nat) :=
  match (s.agent i).task, (s.agent i).st with
  | .sleeping, some st =>
    match (bs i).next st with
    | .await j k => some (j, k)
    | _ => none
  | _, _ => none

/-- the body of agent `i` is about to send `x` to agent `j`, by `post` or by `post_and_async_reply` -/
def Sends (bs : Fin n → Body n S M) (s : State n S M) (i j : Fin n) (x : M) : Prop :=
  s.cur = some (i, none) ∧ ∃ st, (s.agent i).st = some st ∧ ((bs i).next st = .post j x ∨ (bs i).next st = .ask j x)

/-! ## answering all questions

`wants x`: message `x` contains the channel for its own reply.  `carries x`: the reply channels of other questions that it contains, handed on. -/

/-- what an agent has to answer when it gets `x` as its message number `k` -/
def duties (wants : M → Bool) (carries : M → List (Fin n × Nat)) (i : Fin n) (k : Nat) (x : M) : List (Fin n × Nat) :=
  (if wants x then [(i, k)] else []) ++ carries x

/-- the questions that are taken from an agent by what it does: it answers, not with `None`, or hands the channel on -/
def settles (carries : M → List (Fin n × Nat)) : Next n M → List (Fin n × Nat)
  | .reply j k (some _) => [(j, k)]
  | .post _ x => carries x
  | .ask _ x => carries x
  | _ => []

/-- the future that a call gives -/
def gives : Next n M → Nat → List (Fin n × Nat)
  | .ask j _, v => [(j, v)]
  | _, _ => []

/-- A body that sees to all questions: before it receives the next message it has answered, or handed on, all that came with the last one.  `live` are its states as long as nothing is
cancelled and no timeout passes (in others it may do anything), `owes` the questions that it has to see to, `holds` the futures of the questions that it has asked. -/
structure Manners (wants : M → Bool) (carries : M → List (Fin n × Nat)) (i : Fin n) (b : Body n S M) where
  live : S → Prop
  owes : S → List (Fin n × Nat)
  holds : S → List (Fin n × Nat)
  begins : live b.start ∧ holds b.start = []
  /-- it receives a message when it owes nothing, and then owes what comes with that -/
  listens : ∀ st w, live st → b.next st = .receive w → owes st = [] ∧ ∀ k x,
    live (b.resume st (.message k x)) ∧ duties wants carries i k x ⊆ owes (b.resume st (.message k x)) ∧ holds (b.resume st (.message k x)) ⊆ holds st
  /-- otherwise it forgets nothing -/
  minds : ∀ st v, live st → (∀ w, b.next st ≠ .receive w) →
    live (b.resume st (.other v)) ∧ owes st ⊆ settles carries (b.next st) ++ owes (b.resume st (.other v)) ∧ holds (b.resume st (.other v)) ⊆ gives (b.next st) v ++ holds st
  /-- it never ends -/
  stays : ∀ st r, live st → b.next st ≠ .stop r
  /-- asking, it sends the channel along -/
  asks : ∀ st j x, live st → b.next st = .ask j x → wants x = true
  /-- it waits only for what it has asked -/
  waits : ∀ st j k, live st → b.next st = .await j k → (j, k) ∈ holds st

/-- The agents are ranked.  This one waits only for answers from below, and hands reply channels on only to agents that are not above it. -/
def Layered (rank : Fin n → Nat) {wants : M → Bool} {carries : M → List (Fin n × Nat)} {i : Fin n} {b : Body n S M} (m : Manners wants carries i b) : Prop :=
  ∀ st, m.live st → (∀ j k, b.next st = .await j k → rank j < rank i) ∧
    ∀ j x, (b.next st = .post j x ∨ b.next st = .ask j x) → carries x ≠ [] → rank j ≤ rank i

/-- what others ask contains the channel -/
def proper (wants : M → Bool) (sched : List (Act n M)) : Prop := ∀ i t x, Act.at i (t, .ask x) ∈ sched → wants x = true

/-- All questions are answered, once and not with `None`, and all agents wait for messages, having received all. -/
def Settled (s : State n S M) : Prop :=
  (∀ i, (∃ k w, (s.agent i).task = .waiting k w) ∧ Worker.receivedMessages (s.agent i) = Worker.messages (s.agent i)) ∧
    ∀ j k, Worker.asked (s.agent j) k = true → ∃ v, Worker.answers (s.agent j) k = [some v]

end Expression.Spec.Network
