import Verif.Model.TraverseAny

/-! # What `traverse` does with any function -/

namespace Expression.Spec.TraverseAny

open Expression Expression.TraverseAny

variable {σ α β ε : Type}

/-- The value a call of `fn` came to, or its failure: `Error(e)` and `Nothing` fail the same way returned as raised. -/
def meaning : Answer β ε → Except (Failure ε) (Obj β)
  | .res (.ok v) => .ok v
  | .opt (some v) => .ok v
  | .res (.error e) => .error (.error e)
  | .opt none => .error .nothing
  | .raised f => .error f

/-- One call: an `EffectError` counts as an answer (`PyErr.effectError` is the one that carries `Nothing`), a `StopIteration` becomes the
`RuntimeError` that Python makes of it in a generator, and every other exception stays what it is. -/
def attempt (p : PyD σ (Answer β ε)) : PyD σ (Except (Failure ε) (Obj β)) := fun w =>
  match p.exec w with
  | none => none
  | some (.ok a, w') => some (.ok (meaning a), w')
  | some (.error .effectError, w') => some (.ok (.error .nothing), w')
  | some (.error .stopIteration, w') => some (.error (.failwith "generator raised StopIteration"), w')
  | some (.error e, w') => some (.error e, w')

/-- Attempt `fn` on every element, the last element first; what came of it in the order of the elements.  Ends at the first exception. -/
def attempts (fn : α → PyD σ (Answer β ε)) : List α → PyD σ (List (Except (Failure ε) (Obj β)))
  | [] => pure []
  | x :: xs => do
    let rs ← attempts fn xs
    let r ← attempt (fn x)
    pure (r :: rs)

/-- All values, or the failure that comes first. -/
def firstFailure : List (Except (Failure ε) (Obj β)) → Except (Failure ε) (List (Obj β))
  | [] => .ok []
  | .error f :: _ => .error f
  | .ok v :: rs =>
    match firstFailure rs with
    | .error f => .error f
    | .ok vs => .ok (v :: vs)

/-- `Ok` of the block of all values, `Error(e)`, or `Nothing` -/
def returned : Except (Failure ε) (List (Obj β)) → Eff (Traverse.TVal β) ε
  | .ok vs => .res (.ok (.val (.block ⟨vs⟩)))
  | .error (.error e) => .res (.error e)
  | .error .nothing => .opt none

end Expression.Spec.TraverseAny
