import Verif.Model.Cancellation

/-! # What cancellation should do, read off the log -/

namespace Expression.Spec

open Expression.Cancellation

/-- a registration and its callback -/
def registration : Event → Option (Nat × Nat)
  | .registered id cb => some (id, cb)
  | _ => none

/-- the registrations (with their callbacks) that are in force after these events, in the order of registration -/
def live (log : List Event) : List (Nat × Nat) :=
  (log.filterMap registration).filter fun l => !decide (.unregistered l.1 ∈ log)

/-- the listeners called, in order -/
def callsIn (log : List Event) : List (Nat × Nat) := log.filterMap fun e => match e with | .called id cb => some (id, cb) | _ => none

/-- what happened before the first `cancel` -/
def beforeCancel (log : List Event) : List Event := log.takeWhile fun e => decide (e ≠ .cancelled)

/-- who should have been called: nobody without a `cancel`, otherwise those in force at the first one -/
def shouldCall (log : List Event) : List (Nat × Nat) := if .cancelled ∈ log then live (beforeCancel log) else []

/-- an event fits what happened before it: registering is refused exactly when cancelled, the flag tells whether cancelled, nobody is called before -/
def Fits (pre : List Event) : Event → Prop
  | .registered _ _ => .cancelled ∉ pre
  | .refused => .cancelled ∈ pre
  | .checked b => b = true ↔ .cancelled ∈ pre
  | .called _ _ => .cancelled ∈ pre
  | _ => True

/-- a program that raises nothing but `Exception`s -/
def onlyExceptions : Prog → Prop
  | .ret => True
  | .raise e => e = .exception
  | .call _ k => ∀ r, onlyExceptions (k r)

end Expression.Spec

namespace Expression.Spec.Race

open Expression.Cancellation.Race

/-- how often the listener was called -/
def timesCalled (id : Nat) (log : List Event) : Nat := log.count (.called id)

/-- a step inside `register` -/
def inRegister : Frame → Bool
  | .rCheck => true
  | .rLock => true
  | .rRead => true
  | .rStore _ => true
  | .rIncr _ => true
  | .rUnlock _ => true
  | _ => false

/-- a step inside the disposal of a registration -/
def inUnregister : Frame → Bool
  | .uTest _ => true
  | .uLock _ => true
  | .uDel _ => true
  | .uUnlock => true
  | _ => false

/-- a step inside `cancel` -/
def inCancel : Frame → Bool
  | .cLock => true
  | .cTest => true
  | .cSet => true
  | .cSnap => true
  | .cUnlock _ => true
  | .cLoop _ => true
  | .inListener _ => true
  | _ => false

/-- no thread is in such a call -/
def Nobody (kind : Frame → Bool) (s : State) : Prop := ∀ t, ∀ f ∈ s.stack t, kind f = false

end Expression.Spec.Race
