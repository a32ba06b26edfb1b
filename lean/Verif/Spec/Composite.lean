import Verif.Model.Composite

/-!
# Specification vocabulary: disposing in several tasks
-/

namespace Expression.Spec.Composite

open Expression.Composite
open Aio (Comp Outcome)

/-- what `dispose_async` was called on, in order; the `i`-th call makes task `i` -/
def calls (es : List Event) : List Tree := es.filterMap (fun e => match e with | .dispose d => some d | _ => none)

/-- task `i` has ended with `o` -/
def Ended (w : World) (i : Nat) (o : Outcome Unit) : Prop := ∃ t, w.tasks[i]? = some t ∧ t.phase = .over o

/-- A run of `c` may end with `o`; through what it does on being cancelled only if `cancelled`. -/
inductive CanEnd (cancelled : Prop) : Comp Unit → Outcome Unit → Prop
  | ret : CanEnd cancelled (.ret v) (.returned v)
  | fail : CanEnd cancelled (.fail e) (.failed e)
  | cancelled : CanEnd cancelled .cancelled .cancelled
  | next : CanEnd cancelled next o → CanEnd cancelled (.step effect next onCancel) o
  | onCancel : cancelled → CanEnd cancelled onCancel o → CanEnd cancelled (.step effect next onCancel) o

/-- task `i` has ended, not by returning, and after it began the action of some part -/
def failed (w : World) (i : Nat) : Bool :=
  (match (w.tasks[i]?).map Task.phase with
    | some (.over (.failed _)) => true
    | some (.over .cancelled) => true
    | _ => false) && w.begun.any (fun b => b.2 == i)

end Expression.Spec.Composite
