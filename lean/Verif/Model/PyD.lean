import Verif.Model.Py

/-!
# Python computations that may not end, and iterables

Nothing here models a file of `/repo`; it fixes what "a computation that may diverge", "an iterable" and "a `for` loop" mean.
-/

namespace Expression

/-- Like `Py`, but the computation may also run for ever (`none`). [Python] -/
abbrev PyD (σ α : Type) : Type := ExceptT PyErr (StateT σ Option) α

namespace PyD

variable {σ α β : Type}

/-- Run in a world; `none` is divergence. [Python] -/
def exec (p : PyD σ α) (w : σ) : Option (Except PyErr α × σ) := p w

/-- a computation that always ends is one that may not [Python] -/
def ofPy (p : Py σ α) : PyD σ α := fun w => some (p.exec w)

/-- `raise err` [Python] -/
def raise (err : PyErr) : PyD σ α := fun w => some (.error err, w)

end PyD

/-- What `iter(it)` and `next(...)` do.  `S` is the state of one iterator; `iter` starts an iterator and `next` advances it,
`none` meaning that it is exhausted.  Both may have effects in the world, raise, or not return; state that several iterators
of one object share lives in the world.
Simplified: an iterator is not asked again after it was exhausted or raised, and dropping an unfinished iterator has no effect. [Python] -/
structure Iterable (σ α S : Type) where
  iter : PyD σ S
  next : S → PyD σ (Option (α × S))

/-- How the body of a `for` loop ends: go on with the next element, or `break`. `c` is what the loop variables hold. [Python] -/
inductive Flow (C : Type) where
  | next (c : C)
  | stop (c : C)

namespace Iterable

variable {σ α S C : Type}

/-- the rest of a `for` loop whose iterator is in state `s` [Python] -/
def loop (it : Iterable σ α S) (body : C → α → PyD σ (Flow C)) (s : S) (c : C) : PyD σ C := do
  match ← it.next s with
  | none => pure c
  | some (x, s') =>
    match ← body c x with
    | .stop c' => pure c'
    | .next c' => it.loop body s' c'
partial_fixpoint

/-- `for x in it: body`, where `body` reads and updates `c`, may `break` (`Flow.stop`), raise, or not return [Python] -/
def forLoop (it : Iterable σ α S) (body : C → α → PyD σ (Flow C)) (c : C) : PyD σ C := do
  let s ← it.iter
  it.loop body s c

/-- `list(it)` [Python] -/
def toList (it : Iterable σ α S) : PyD σ (List α) := it.forLoop (fun acc x => pure (.next (acc ++ [x]))) []

/-- a tuple or list [Python] -/
def ofList (xs : List α) : Iterable σ α (List α) where
  iter := pure xs
  next s := match s with
    | [] => pure none
    | x :: rest => pure (some (x, rest))

end Iterable

end Expression
