import Verif.Model.CancelInterrupt

/-! # What a call is, and what it has still to do -/

namespace Expression.Spec.CancelInterrupt

open Expression.CancelInterrupt

/-- a call of `cancel`, open or over -/
def isCancel : PC → Bool
  | .cLock => true
  | .cTest => true
  | .cSet => true
  | .cSnap => true
  | .cUnlock _ => true
  | .cLoop _ => true
  | .inListener _ => true
  | .cDone => true
  | .hit f => isCancel f
  | _ => false

/-- a call that disposes the registration that call `r` made, open or over -/
def disposes (r : Nat) : PC → Bool
  | .uTest r' _ => r' == r
  | .uLock r' _ => r' == r
  | .uDel r' _ => r' == r
  | .uUnlock r' => r' == r
  | .uDone r' => r' == r
  | .uKeyError r' => r' == r
  | .hit f => disposes r f
  | _ => false

/-- a call of `register` that has stored its callback (line 94), open or over -/
def hasStored : PC → Bool
  | .rIncr _ => true
  | .rUnlock _ => true
  | .rMake _ => true
  | .rDone _ => true
  | .hit f => hasStored f
  | _ => false

/-- A `cancel` that was interrupted when it had set the flag and still had to call the listener that call `r` registered: it had not yet looked at the listeners,
or this one was still to come. -/
def LostCall (r : Nat) (f : PC) : Prop :=
  f = .hit .cSnap ∨ ∃ ls, (f = .hit (.cUnlock ls) ∨ f = .hit (.cLoop ls) ∨ f = .hit (.inListener ls)) ∧ r ∈ ls.map (·.2)

/-- A disposal of the registration of call `r` that was interrupted when it had marked it as disposed and not yet removed the listener. -/
def LostRemoval (r : Nat) (f : PC) : Prop := ∃ i, f = .hit (.uLock r i) ∨ f = .hit (.uDel r i)

/-- how many times the listener that call `r` registered was called -/
def timesCalled (r : Nat) (s : State) : Nat := (s.calls.map (·.2)).count r

end Expression.Spec.CancelInterrupt
