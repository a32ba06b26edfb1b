import Verif.Model.PyD

/-!
# Specification vocabulary: several iterations of one object at the same time
-/

namespace Expression.Spec

variable {σ α S : Type}

/-- an iteration under way: the elements it got so far, the state of its iterator (`none` once it was exhausted or raised), and
the exception it raised, if any -/
structure Iteration (α S : Type) where
  got : List α
  state : Option S
  error : Option PyErr

/-- `iter(it)` -/
def begin (it : Iterable σ α S) : PyD σ (Iteration α S) := fun w => match it.iter.exec w with
  | none => none
  | some (.error e, w') => some (.ok ⟨[], none, some e⟩, w')
  | some (.ok s, w') => some (.ok ⟨[], some s, none⟩, w')

/-- `next(...)` of the iterator of `t`; nothing comes of it once the iterator was exhausted or raised -/
def pull (it : Iterable σ α S) (t : Iteration α S) : PyD σ (Iteration α S) := fun w => match t.state with
  | none => some (.ok t, w)
  | some s => match (it.next s).exec w with
    | none => none
    | some (.error e, w') => some (.ok ⟨t.got, none, some e⟩, w')
    | some (.ok none, w') => some (.ok ⟨t.got, none, t.error⟩, w')
    | some (.ok (some (x, s')), w') => some (.ok ⟨t.got ++ [x], some s', t.error⟩, w')

/-- `n` times `next(...)` -/
def pulls (it : Iterable σ α S) : Nat → Iteration α S → PyD σ (Iteration α S)
  | 0, t => pure t
  | n + 1, t => do pulls it n (← pull it t)

/-- one iteration by itself: `iter(it)`, then `n` times `next(...)` -/
def alone (it : Iterable σ α S) (n : Nat) : PyD σ (Iteration α S) := do pulls it n (← begin it)

/-- what can be done with the object, any number of times and in any order -/
inductive Use where
  /-- start another iteration -/
  | begin
  /-- ask iteration number `i` for its next element -/
  | pull (i : Nat)
deriving DecidableEq

def use (it : Iterable σ α S) (its : List (Iteration α S)) : Use → PyD σ (List (Iteration α S))
  | .begin => do pure (its ++ [← begin it])
  | .pull i => match its[i]? with
    | none => pure its
    | some t => do pure (its.set i (← pull it t))

/-- use the object in the given order -/
def play (it : Iterable σ α S) : List Use → List (Iteration α S) → PyD σ (List (Iteration α S))
  | [], its => pure its
  | u :: us, its => do play it us (← use it its u)

/-- how many times iteration `i` is timesAsked in `us`, `started` iterations being there already -/
def timesAsked (i : Nat) : Nat → List Use → Nat
  | _, [] => 0
  | started, .begin :: us => timesAsked i (started + 1) us
  | started, .pull j :: us => (if j = i ∧ i < started then 1 else 0) + timesAsked i started us

/-- how many times any iteration is timesAsked -/
def timesAskedAny : Nat → List Use → Nat
  | _, [] => 0
  | started, .begin :: us => timesAskedAny (started + 1) us
  | started, .pull j :: us => (if j < started then 1 else 0) + timesAskedAny started us

/-- `p` may have effects, but what it returns or raises does not depend on the world -/
def SameResult {γ : Type} (p : PyD σ γ) : Prop := ∀ w r, p.exec w = some r → ∀ w', ∃ w'', p.exec w' = some (r.1, w'')

/-- the states an iterator of `it` can get into -/
inductive Reached (it : Iterable σ α S) : S → Prop where
  | iter {w w' s} : it.iter.exec w = some (.ok s, w') → Reached it s
  | next {s w x s' w'} : Reached it s → (it.next s).exec w = some (.ok (some (x, s')), w') → Reached it s'

/-- The iterators of `it` may have effects, but what they deliver depends on nothing but themselves. -/
def Independent (it : Iterable σ α S) : Prop := SameResult it.iter ∧ ∀ s, Reached it s → SameResult (it.next s)

end Expression.Spec
