import Verif.Model.Aio

/-!
# Specification vocabulary for started computations
-/

namespace Expression.Spec

open Aio

variable {V : Type}

/-- the outcome that a first call decides -/
def firstOutcome : List (Call V) → Future V
  | [] => .pending
  | .done v :: _ => .result v
  | .error e :: _ => .exception e
  | .cancel :: _ => .cancelled
  | .awaiterCancelled :: _ => .cancelled

/-- Running a computation by itself: `cancellations` says, for each await that was resumed, whether `CancelledError` was thrown
in there.  The result is the effects in order, and how it ended (`none`: it waits). -/
def follow : Comp V → List Bool → List Nat × Option (Outcome V)
  | .ret v, _ => ([], some (.returned v))
  | .fail e, _ => ([], some (.failed e))
  | .cancelled, _ => ([], some .cancelled)
  | .step e _ _, [] => ([e], none)
  | .step e next onCancel, b :: bs =>
    let r := follow (if b then onCancel else next) bs
    (e :: r.1, r.2)

/-- the computations that were started in a history, in order, and with which token -/
def started : List (Event V) → List (Comp V × Tok)
  | [] => []
  | .start c b :: es => (c, b) :: started es
  | _ :: es => started es

/-- the effects of one task, in order -/
def effectsOf (i : Nat) (log : List (Nat × Nat)) : List Nat := (log.filter (fun p => p.1 == i)).map (fun p => p.2)

/-- the outcome of a task; `none` if it has not ended (or does not exist) -/
def outcomeOf (w : World V) (i : Nat) : Option (Outcome V) := (w.tasks[i]?).bind (fun t => t.outcome)

/-- What one watches to tell when a task is cancelled: how many computations were started, which sources were cancelled, with the
token of which source task `i` was registered, whether it has been cancelled since it last ran, and, for each time the loop ran it,
whether it had been cancelled since the time before. -/
structure Watch where
  count : Nat := 0
  cancelled : List Nat := []
  registered : Option Nat := none
  pending : Bool := false
  flags : List Bool := []

/-- the source with whose token a computation is registered that is started with the given token -/
def tokenSource (cancelled : List Nat) : Tok → Option Nat
  | .of source => if source ∈ cancelled then none else some source
  | _ => none

def watch (i : Nat) (s : Watch) : Event V → Watch
  | .start _ token => { s with count := s.count + 1, registered := if s.count = i then tokenSource s.cancelled token else s.registered }
  | .cancel source =>
    { s with cancelled := source :: s.cancelled
             pending := s.pending || (decide (s.registered = some source) && decide (source ∉ s.cancelled)) }
  | .resume j => if j = i ∧ i < s.count then { s with pending := false, flags := s.flags ++ [s.pending] } else s

/-- for each time that the loop ran task `i`, whether it had been cancelled since the time before -/
def flagsOf (i : Nat) (es : List (Event V)) : List Bool := (es.foldl (watch i) {}).flags

/-- Effects and outcome of a task that runs `c`: none before its first run; cancelled without effects if it was cancelled before
its first run; then those of the computation by itself. -/
def runAlone (c : Comp V) : List Bool → List Nat × Option (Outcome V)
  | [] => ([], none)
  | true :: _ => ([], some .cancelled)
  | false :: bs => follow c bs

end Expression.Spec
