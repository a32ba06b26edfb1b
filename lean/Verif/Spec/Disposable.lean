import Verif.Model.Disposable

/-! # How often things happened -/

namespace Expression.Spec

open Expression.Disposable

/-- how many times the action was started -/
def timesRun (log : List Event) : Nat := log.countP fun e => match e with | .ran _ => true | _ => false

/-- how many calls of `dispose` thread `t` makes in this schedule -/
def callsBy (t : Nat) (sched : List (Nat × Act)) : Nat := sched.countP fun c => c == (t, Act.dispose)

/-- how many times thread `t` goes on with a call in this schedule -/
def movesBy (t : Nat) (sched : List (Nat × Act)) : Nat := sched.countP fun c => c == (t, Act.go)

/-- how many calls of `dispose` by thread (or task) `t` have begun, and how many have ended -/
def begun (t : Nat) (log : List Event) : Nat := log.countP fun e => e == Event.began t
def finished (t : Nat) (log : List Event) : Nat := log.countP fun e => e == Event.ended t

end Expression.Spec
