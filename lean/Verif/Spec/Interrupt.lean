import Verif.Model.Interrupt

/-! # Where a call was interrupted -/

namespace Expression.Spec

open Expression.Disposable

/-- some call of `dispose` was interrupted after it had marked the object as disposed, and before it had called the action (disposable.py, after line 58 and
before the call in line 61) -/
def HitInBetween (hits : List (Nat × Frame)) : Prop := ∃ t, (t, .unlock true) ∈ hits ∨ (t, .decide true) ∈ hits

end Expression.Spec
